import Verif.PropsRoundCart
import Verif.PropsDomain

/-!
# `kep_to_cart` with rounding: which results are numbers (C89)
-/

namespace Pyorb
open FX RF
variable {R : Rounding}

/-- an angle in radians as it is computed from the argument -/
noncomputable def flRad (R : Rounding) (deg : Bool) (x : ℝ) : ℝ := if deg then R.rd (x * R.rd (R.rd Real.pi / 180)) else x

/-- the cosine as it is computed -/
noncomputable def flCos (R : Rounding) (x : ℝ) : ℝ := Real.cos x * Real.exp (R.lib .cos x)

/-- `1 + e cos nu` as it is computed -/
noncomputable def flDenom (R : Rounding) (deg : Bool) (k : Kep ℝ) : ℝ := R.rd (1 + R.rd (k.e * flCos R (flRad R deg k.nu)))

/-! ## Values that are not numbers -/

/-- the computed value is an infinity or NaN -/
def NotNum (a : RF R) : Prop := ¬ IsNum a

theorem notNum_iff {a : RF R} : NotNum a ↔ NonFin a.val := by
  obtain ⟨v⟩ := a
  constructor
  · intro h y hy
    exact h ⟨y, by rw [RF.num]; exact congrArg RF.mk hy⟩
  · rintro h ⟨y, hy⟩
    exact h y (congrArg RF.val hy)

theorem nonFin_round {x : FX} (h : NonFin x) : NonFin (R.round x) := by
  cases x
  · exact absurd rfl (h _)
  all_goals exact h

theorem NotNum.add {a : RF R} (h : NotNum a) (b : RF R) : NotNum (a + b) :=
  notNum_iff.mpr (nonFin_round (nonFin_add (notNum_iff.mp h) b.val))
theorem NotNum.mul {a : RF R} (h : NotNum a) {b : RF R} (hb : IsNum b) : NotNum (a * b) := by
  obtain ⟨y, rfl⟩ := hb
  exact notNum_iff.mpr (nonFin_round (nonFin_mul' (notNum_iff.mp h) y))
theorem NotNum.mul' {a : RF R} (h : NotNum a) {b : RF R} (hb : IsNum b) : NotNum (b * a) := by
  obtain ⟨y, rfl⟩ := hb
  exact notNum_iff.mpr (nonFin_round (nonFin_mul (notNum_iff.mp h) y))

/-! ## The column -/

theorem isNum_cos (x : ℝ) : IsNum (Np.cos (RF.num R x)) := ⟨_, cos_num x⟩
theorem isNum_sin (x : ℝ) : IsNum (Np.sin (RF.num R x)) := ⟨_, sin_num x⟩

theorem isNum_euler (i om OM : ℝ) (a b : Fin 3) : IsNum (euler_rotation_matrix (RF.num R i) (RF.num R om) (RF.num R OM) false a b) := by
  have c1 := isNum_cos (R := R) OM
  have s1 := isNum_sin (R := R) OM
  have c2 := isNum_cos (R := R) i
  have s2 := isNum_sin (R := R) i
  have c3 := isNum_cos (R := R) om
  have s3 := isNum_sin (R := R) om
  fin_cases a <;> fin_cases b
  · exact (c1.mul c3).sub ((c2.mul s1).mul s3)
  · exact (c1.neg.mul s3).sub ((c2.mul c3).mul s1)
  · exact s1.mul s2
  · exact (c3.mul s1).add ((c1.mul c2).mul s3)
  · exact ((c1.mul c2).mul c3).sub (s1.mul s3)
  · exact c1.neg.mul s2
  · exact s2.mul s3
  · exact c3.mul s2
  · exact c2

/-- six numbers -/
def CartIsNum (w : Cart (RF R)) : Prop := ∃ s : Cart ℝ, w = s.num R

theorem cartIsNum_iff {w : Cart (RF R)} : CartIsNum w ↔ IsNum w.x ∧ IsNum w.y ∧ IsNum w.z ∧ IsNum w.vx ∧ IsNum w.vy ∧ IsNum w.vz := by
  constructor
  · rintro ⟨s, rfl⟩
    exact ⟨isNum_num _, isNum_num _, isNum_num _, isNum_num _, isNum_num _, isNum_num _⟩
  · obtain ⟨x, y, z, vx, vy, vz⟩ := w
    rintro ⟨⟨x, rfl⟩, ⟨y, rfl⟩, ⟨z, rfl⟩, ⟨vx, rfl⟩, ⟨vy, rfl⟩, ⟨vz, rfl⟩⟩
    exact ⟨⟨x, y, z, vx, vy, vz⟩, rfl⟩

theorem colOf_num {H mu : ℝ} (hH : H ≠ 0) (hmu : mu ≠ 0) (k : Kep ℝ) :
    CartIsNum (colOf (RF.num R H) (RF.num R mu) (k.num R)) ↔ flDenom R false k ≠ 0 := by
  have hrn : orbital_distance (RF.num R H) (RF.num R mu) (RF.num R k.e) (RF.num R k.nu) false = RF.num R (R.rd (H * H)) / RF.num R (R.rd (mu * flDenom R false k)) := by
    show sq _ / (_ * (1 + _ * Np.cos (RF.num R k.nu))) = _
    rw [cos_num, one_num]
    rfl
  have ec := isNum_cos (R := R) k.nu
  have es := isNum_sin (R := R) k.nu
  have ee (a b : Fin 3) := isNum_euler (R := R) k.i k.om k.OM a b
  have hv : IsNum (RF.num R mu / RF.num R H) := (isNum_num _).div hH
  constructor
  · rintro h h0
    have h1 : IsNum _ := (cartIsNum_iff.mp h).1
    refine absurd h1 ?_
    show NotNum (euler_rotation_matrix _ _ _ false 0 0 * (orbital_distance (RF.num R H) (RF.num R mu) (RF.num R k.e) (RF.num R k.nu) false * Np.cos (RF.num R k.nu)) + _)
    rw [hrn, h0, mul_zero, rd_zero]
    refine NotNum.add (NotNum.mul' (NotNum.mul ?_ ec) (ee 0 0)) _
    exact div_zero_num
  · intro h
    have hr : IsNum (orbital_distance (RF.num R H) (RF.num R mu) (RF.num R k.e) (RF.num R k.nu) false) := by
      rw [hrn]
      exact (isNum_num _).div (rd_ne (mul_ne_zero hmu h))
    refine cartIsNum_iff.mpr ⟨?_, ?_, ?_, ?_, ?_, ?_⟩
    · exact ((ee 0 0).mul (hr.mul ec)).add ((ee 0 1).mul (hr.mul es))
    · exact ((ee 1 0).mul (hr.mul ec)).add ((ee 1 1).mul (hr.mul es))
    · exact ((ee 2 0).mul (hr.mul ec)).add ((ee 2 1).mul (hr.mul es))
    · exact ((ee 0 0).mul (hv.neg.mul es)).add ((ee 0 1).mul (hv.mul ((isNum_num _).add ec)))
    · exact ((ee 1 0).mul (hv.neg.mul es)).add ((ee 1 1).mul (hv.mul ((isNum_num _).add ec)))
    · exact ((ee 2 0).mul (hv.neg.mul es)).add ((ee 2 1).mul (hv.mul ((isNum_num _).add ec)))

/-- the computed angular momentum is a positive number -/
theorem angmom_pos (hR : Nearest R) {mu : ℝ} (hmu : 0 < mu) {k : Kep ℝ} (ha : 0 < k.a) (h0 : 0 ≤ k.e) (hd : Digits53 k.e) :
    ∃ H, 0 < H ∧ (if k.e = 1 then parabolic_total_angular_momentum (RF.num R k.a) (RF.num R mu)
        else orbit_total_angular_momentum (if 1 < k.e then RF.num R k.a * -1 else RF.num R k.a) (RF.num R k.e) (RF.num R mu)) = RF.num R H := by
  by_cases h1 : k.e = 1
  · have hp : 0 < R.rd (R.rd (mu * 2) * k.a) := rd_pos (mul_pos (rd_pos (by linarith)) ha)
    refine ⟨_, rd_pos (R := R) (Real.sqrt_pos.mpr hp), ?_⟩
    rw [if_pos h1, parabolic_total_angular_momentum, two_num, mul_num, mul_num, sqrt_num hp.le]
  · rw [if_neg h1]
    rcases lt_or_gt_of_ne h1 with h | h
    · have he : R.rd (k.e * k.e) < 1 := by
        have := hR.mono (show k.e * k.e ≤ k.e by nlinarith)
        rw [hR.id hd] at this
        linarith
      have hp : 0 < R.rd (R.rd (mu * k.a) * R.rd (1 - R.rd (k.e * k.e))) := rd_pos (mul_pos (rd_pos (mul_pos hmu ha)) (rd_pos (by linarith)))
      refine ⟨_, rd_pos (R := R) (Real.sqrt_pos.mpr hp), ?_⟩
      rw [if_neg (by linarith), orbit_total_angular_momentum, sq, one_num, mul_num, mul_num, sub_num, mul_num, sqrt_num hp.le]
    · have he : 1 < R.rd (k.e * k.e) := by
        have := hR.mono (show k.e ≤ k.e * k.e by nlinarith)
        rw [hR.id hd] at this
        linarith
      have hp : 0 < R.rd (R.rd (mu * R.rd (k.a * -1)) * R.rd (1 - R.rd (k.e * k.e))) :=
        rd_pos (mul_pos_of_neg_of_neg (rd_neg (mul_neg_of_pos_of_neg hmu (rd_neg (by linarith)))) (rd_neg (by linarith)))
      refine ⟨_, rd_pos (R := R) (Real.sqrt_pos.mpr hp), ?_⟩
      rw [if_pos h, orbit_total_angular_momentum, sq, neg_one_num, one_num, mul_num, mul_num, mul_num, sub_num, mul_num, sqrt_num hp.le]

/-- the elements in radians -/
noncomputable def Kep.flRad (R : Rounding) (deg : Bool) (k : Kep ℝ) : Kep ℝ :=
  ⟨k.a, k.e, Pyorb.flRad R deg k.i, Pyorb.flRad R deg k.om, Pyorb.flRad R deg k.OM, Pyorb.flRad R deg k.nu⟩

theorem radians_num (x : ℝ) : radians (RF.num R x) = RF.num R (flRad R true x) := by
  have h180 : (180 : RF R) = RF.num R 180 := by
    show (Np.lit ((180 : ℕ) : ℚ) : RF R) = _
    rw [ofNat_num 180 (by norm_num)]; norm_num
  rw [radians, h180, pi_num, div_num _ (by norm_num), mul_num]
  simp [flRad]

theorem kepToCart_flRad (gh : RF R) (mu : ℝ) (deg : Bool) (k : Kep ℝ) :
    (kepToCart gh .f64 (RF.num R mu) deg (k.num R)).1 = (kepToCartCol gh .f64 (RF.num R mu) ((k.flRad R deg).num R)).1 := by
  cases deg
  · rfl
  · have h : (k.num R).toRadians .f64 = (k.flRad R true).num R := by
      simp only [Kep.toRadians, Kep.num, Kep.flRad, radians_num]
      rfl
    unfold kepToCart
    simp only [if_true, h]

/-! ## C89 -/

/-- C89: in every arithmetic that rounds to nearest, for all `mu > 0`, `a > 0`, eccentricities `e ≥ 0` with 53 digits and all angles, `kep_to_cart` returns
six numbers exactly when the computed `1 + e cos nu` is not zero. -/
theorem c89 (hR : Nearest R) (g : Nat → RF R) {mu : ℝ} (hmu : 0 < mu) (deg : Bool) {k : Kep ℝ} (ha : 0 < k.a) (h0 : 0 ≤ k.e) (hd : Digits53 k.e) :
    (∃ s : Cart ℝ, (kep_to_cart g (.sc (RF.num R mu)) deg (.vec .f64 (k.num R))).1 = .ok (.vec .f64 (s.num R))) ↔ flDenom R deg k ≠ 0 := by
  obtain ⟨H, hH, hHe⟩ := angmom_pos hR hmu (k := k.flRad R deg) ha h0 hd
  have h1 : (kep_to_cart g (.sc (RF.num R mu)) deg (.vec .f64 (k.num R))).1 = .ok (.vec .f64 (colOf (RF.num R H) (RF.num R mu) ((k.flRad R deg).num R))) := by
    have : (kep_to_cart g (.sc (RF.num R mu)) deg (.vec .f64 (k.num R))).1 = .ok (.vec .f64 (kepToCart (g 0) .f64 (RF.num R mu) deg (k.num R)).1) := rfl
    rw [this, kepToCart_flRad, col_eq, hHe]
  have h2 : flDenom R false (k.flRad R deg) = flDenom R deg k := rfl
  rw [h1, ← h2, ← colOf_num hH.ne' hmu.ne' (k.flRad R deg)]
  constructor
  · rintro ⟨s, hs⟩
    injection hs with hs
    injection hs with _ hs
    exact ⟨s, hs⟩
  · rintro ⟨s, hs⟩
    exact ⟨s, by rw [hs]⟩

/-- C89 on ellipses: when the cosine never leaves [-1, 1], `kep_to_cart` always returns six numbers. -/
theorem c89_ellipse (hR : Nearest R) (hcos : ∀ x, |flCos R x| ≤ 1) (g : Nat → RF R) {mu : ℝ} (hmu : 0 < mu) (deg : Bool) {k : Kep ℝ} (ha : 0 < k.a) (h0 : 0 ≤ k.e)
    (h1 : k.e < 1) (hd : Digits53 k.e) :
    ∃ s : Cart ℝ, (kep_to_cart g (.sc (RF.num R mu)) deg (.vec .f64 (k.num R))).1 = .ok (.vec .f64 (s.num R)) := by
  rw [c89 hR g hmu deg ha h0 hd]
  have hc := (abs_le.mp (hcos (flRad R deg k.nu))).1
  have h2 := hR.mono (show -k.e ≤ k.e * flCos R (flRad R deg k.nu) by nlinarith)
  rw [hR.id hd.neg] at h2
  exact (rd_pos (by linarith)).ne'

/-- C89 in double precision -/
theorem c89_binary64 (g : Nat → RF Binary.binary64) {mu : ℝ} (hmu : 0 < mu) (deg : Bool) {k : Kep ℝ} (ha : 0 < k.a) (h0 : 0 ≤ k.e) (h1 : k.e < 1) (hd : Digits53 k.e) :
    ∃ s : Cart ℝ, (kep_to_cart g (.sc (RF.num _ mu)) deg (.vec .f64 (k.num _))).1 = .ok (.vec .f64 (s.num Binary.binary64)) := by
  refine c89_ellipse Binary.nearest (fun x => ?_) g hmu deg ha h0 h1 hd
  have e : flCos Binary.binary64 x = Binary.binary64.rd (Real.cos x) := rfl
  rw [e, abs_le]
  have h2 := Binary.nearest.mono (Real.neg_one_le_cos x)
  have h3 := Binary.nearest.mono (Real.cos_le_one x)
  rw [Binary.nearest.id Digits53.one.neg] at h2
  rw [Binary.nearest.id Digits53.one] at h3
  exact ⟨h2, h3⟩

/-- a case of `c89_binary64`: the largest double below 1 as eccentricity -/
example : Digits53 (1 - (1 / 2) ^ 53) := ⟨2 ^ 53 - 1, -53, by norm_num, by
  rw [zpow_neg]; norm_num⟩

/-- the denominators of a parabola at nu = pi are zero in double precision when the angle is exact: no numbers -/
theorem c89_parabola (g : Nat → RF Binary.binary64) {mu : ℝ} (hmu : 0 < mu) (q i om OM : ℝ) (hq : 0 < q) :
    ¬ ∃ s : Cart ℝ, (kep_to_cart g (.sc (RF.num _ mu)) false (.vec .f64 ((⟨q, 1, i, om, OM, Real.pi⟩ : Kep ℝ).num _))).1 = .ok (.vec .f64 (s.num Binary.binary64)) := by
  rw [c89 Binary.nearest g hmu false hq (by norm_num) Digits53.one, not_not]
  have e : flCos Binary.binary64 Real.pi = Binary.binary64.rd (Real.cos Real.pi) := rfl
  show Binary.binary64.rd (1 + Binary.binary64.rd (1 * flCos Binary.binary64 (flRad Binary.binary64 false Real.pi))) = 0
  rw [flRad, if_neg (by decide), e, Real.cos_pi, one_mul, Binary.nearest.idem, Binary.nearest.id Digits53.one.neg, add_neg_cancel, rd_zero]

end Pyorb
