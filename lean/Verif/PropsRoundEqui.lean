import Verif.PropsEqui
import Verif.PropsRoundAnom
import Verif.PropsRoundKep
import Verif.PropsRoundCart
import Verif.PropsRoundStumpff

/-!
# Equinoctial elements computed with rounding (C102)

The conversions in both directions and the round trip.  None of the errors grows for small eccentricities or inclinations: the two components of a
pair like `(h, k)` are computed with small relative errors, and the direction of the pair changes by no more than those.
-/

set_option linter.unusedSimpArgs false
set_option linter.unusedVariables false

namespace Pyorb
open FX RF
variable {R : Rounding}

/-- `x` is `y` up to whole turns and an error of `ε` -/
def TurnNear (ε x y : ℝ) : Prop := ∃ z : ℤ, |x - (y + z * (2 * Real.pi))| ≤ ε

/-- `q` are the equinoctial elements of the orbit and the place in it with Kepler elements `k` (angles in radians) -/
structure IsEqui (k : Kep ℝ) (q : Equi ℝ) : Prop where
  axis : q.a = k.a
  ecc_sin : q.h = k.e * Real.sin (k.om + k.OM)
  ecc_cos : q.k = k.e * Real.cos (k.om + k.OM)
  inc_sin : q.p = Real.tan (k.i / 2) * Real.sin k.OM
  inc_cos : q.q = Real.tan (k.i / 2) * Real.cos k.OM
  longitude : TurnNear 0 q.lam (k.om + k.OM + k.nu)

@[inherit_doc Kep.num] def Equi.num (R : Rounding) (q : Equi ℝ) : Equi (RF R) :=
  ⟨RF.num R q.a, RF.num R q.h, RF.num R q.k, RF.num R q.p, RF.num R q.q, RF.num R q.lam⟩

namespace REqui
open RStumpff

theorem TurnNear.mono {ε ε' x y : ℝ} (h : TurnNear ε x y) (he : ε ≤ ε') : TurnNear ε' x y := by
  obtain ⟨z, hz⟩ := h
  exact ⟨z, hz.trans he⟩

theorem TurnNear.add {ε ε' x x' y y' : ℝ} (h : TurnNear ε x y) (h' : TurnNear ε' x' y') : TurnNear (ε + ε') (x + x') (y + y') := by
  obtain ⟨z, hz⟩ := h
  obtain ⟨z', hz'⟩ := h'
  refine ⟨z + z', ?_⟩
  rw [show x + x' - (y + y' + ((z + z' : ℤ) : ℝ) * (2 * Real.pi)) = (x - (y + z * (2 * Real.pi))) + (x' - (y' + z' * (2 * Real.pi))) by push_cast; ring]
  exact (abs_add_le _ _).trans (add_le_add hz hz')

theorem TurnNear.sub {ε ε' x x' y y' : ℝ} (h : TurnNear ε x y) (h' : TurnNear ε' x' y') : TurnNear (ε + ε') (x - x') (y - y') := by
  obtain ⟨z, hz⟩ := h
  obtain ⟨z', hz'⟩ := h'
  refine ⟨z - z', ?_⟩
  rw [show x - x' - (y - y' + ((z - z' : ℤ) : ℝ) * (2 * Real.pi)) = (x - (y + z * (2 * Real.pi))) - (x' - (y' + z' * (2 * Real.pi))) by push_cast; ring]
  exact (abs_sub _ _).trans (add_le_add hz hz')

theorem TurnNear.trans {ε ε' x y w : ℝ} (h : TurnNear ε x y) (h' : TurnNear ε' y w) : TurnNear (ε + ε') x w := by
  obtain ⟨z, hz⟩ := h
  obtain ⟨z', hz'⟩ := h'
  refine ⟨z + z', ?_⟩
  rw [show x - (w + ((z + z' : ℤ) : ℝ) * (2 * Real.pi)) = (x - (y + z * (2 * Real.pi))) + (y - (w + z' * (2 * Real.pi))) by push_cast; ring]
  exact (abs_add_le _ _).trans (add_le_add hz hz')

theorem TurnNear.of {ε x y : ℝ} (h : |x - y| ≤ ε) : TurnNear ε x y := ⟨0, by simpa using h⟩

theorem arctan_abs_le (x : ℝ) : |Real.arctan x| ≤ |x| := by
  have hd : ∀ s, HasDerivAt Real.arctan (1 / (1 + s ^ 2)) s := fun s => Real.hasDerivAt_arctan s
  have hb : ∀ s : ℝ, ‖1 / (1 + s ^ 2)‖ ≤ 1 := fun s => by
    rw [Real.norm_eq_abs, abs_of_pos (by positivity), div_le_one (by positivity)]
    nlinarith [sq_nonneg s]
  have := Convex.norm_image_sub_le_of_norm_hasDerivWithin_le (s := Set.univ)
    (fun s _ => (hd s).hasDerivWithinAt) (fun s _ => hb s) convex_univ (Set.mem_univ 0) (Set.mem_univ x)
  simp only [Real.norm_eq_abs, Real.arctan_zero, sub_zero, one_mul] at this
  exact this

/-- the direction of a vector near the direction `θ` -/
theorem arg_near {X Y θ : ℝ} (hD : 0 < X * Real.cos θ + Y * Real.sin θ) :
    TurnNear (|Y * Real.cos θ - X * Real.sin θ| / (X * Real.cos θ + Y * Real.sin θ)) (Complex.arg ⟨X, Y⟩) θ := by
  obtain ⟨D, hDD⟩ : ∃ D, D = X * Real.cos θ + Y * Real.sin θ := ⟨_, rfl⟩
  obtain ⟨C, hC⟩ : ∃ C, C = Y * Real.cos θ - X * Real.sin θ := ⟨_, rfl⟩
  rw [← hDD] at hD ⊢
  rw [← hC]
  have hcs := Real.sin_sq_add_cos_sq θ
  have hr : 0 < √(D ^ 2 + C ^ 2) := Real.sqrt_pos.mpr (by positivity)
  have hr2 : √(1 + (C / D) ^ 2) = √(D ^ 2 + C ^ 2) / D := by
    rw [show 1 + (C / D) ^ 2 = (D ^ 2 + C ^ 2) / D ^ 2 by field_simp, Real.sqrt_div' _ (by positivity), Real.sqrt_sq hD.le]
  have c1 : √(D ^ 2 + C ^ 2) * Real.cos (Real.arctan (C / D)) = D := by
    rw [Real.cos_arctan, hr2]; field_simp
  have s1 : √(D ^ 2 + C ^ 2) * Real.sin (Real.arctan (C / D)) = C := by
    rw [Real.sin_arctan, hr2]; field_simp
  have hX : X = √(D ^ 2 + C ^ 2) * Real.cos (θ + Real.arctan (C / D)) := by
    rw [Real.cos_add, mul_sub, show √(D ^ 2 + C ^ 2) * (Real.cos θ * Real.cos (Real.arctan (C / D))) = Real.cos θ * (√(D ^ 2 + C ^ 2) * Real.cos (Real.arctan (C / D))) by ring,
      show √(D ^ 2 + C ^ 2) * (Real.sin θ * Real.sin (Real.arctan (C / D))) = Real.sin θ * (√(D ^ 2 + C ^ 2) * Real.sin (Real.arctan (C / D))) by ring, c1, s1, hDD, hC]
    linear_combination (-X) * hcs
  have hY : Y = √(D ^ 2 + C ^ 2) * Real.sin (θ + Real.arctan (C / D)) := by
    rw [Real.sin_add, mul_add, show √(D ^ 2 + C ^ 2) * (Real.sin θ * Real.cos (Real.arctan (C / D))) = Real.sin θ * (√(D ^ 2 + C ^ 2) * Real.cos (Real.arctan (C / D))) by ring,
      show √(D ^ 2 + C ^ 2) * (Real.cos θ * Real.sin (Real.arctan (C / D))) = Real.cos θ * (√(D ^ 2 + C ^ 2) * Real.sin (Real.arctan (C / D))) by ring, c1, s1, hDD, hC]
    linear_combination (-Y) * hcs
  obtain ⟨z, hz⟩ := arg_polar hr (θ + Real.arctan (C / D))
  rw [← hX, ← hY] at hz
  refine ⟨z, ?_⟩
  rw [hz, show θ + Real.arctan (C / D) + z * (2 * Real.pi) - (θ + z * (2 * Real.pi)) = Real.arctan (C / D) by ring]
  have : |C| / D = |C / D| := by rw [abs_div, abs_of_pos hD]
  rw [this]
  have h := arctan_abs_le (C / D)
  exact h

/-- the direction of a vector whose components have relative errors -/
theorem arg_rel (hu : R.u ≤ 1 / 10 ^ 6) {r θ s t k : ℝ} (hr : 0 < r) (hk0 : 0 ≤ k) (hk : k ≤ 4) (hs : |s| ≤ k * R.u) (ht : |t| ≤ k * R.u) :
    TurnNear (101 / 100 * (k * R.u)) (Complex.arg ⟨r * Real.cos θ * Real.exp t, r * Real.sin θ * Real.exp s⟩) θ := by
  have hcs := Real.sin_sq_add_cos_sq θ
  have hs' := abs_le.mp hs
  have ht' := abs_le.mp ht
  have e1 : Real.exp (-(k * R.u)) ≤ Real.exp t := Real.exp_le_exp.mpr ht'.1
  have e2 : Real.exp (-(k * R.u)) ≤ Real.exp s := Real.exp_le_exp.mpr hs'.1
  have e3 : Real.exp t ≤ Real.exp (k * R.u) := Real.exp_le_exp.mpr ht'.2
  have e4 : Real.exp s ≤ Real.exp (k * R.u) := Real.exp_le_exp.mpr hs'.2
  have e0 := Real.exp_pos (-(k * R.u))
  have hdot : r * Real.exp (-(k * R.u)) ≤ r * Real.cos θ * Real.exp t * Real.cos θ + r * Real.sin θ * Real.exp s * Real.sin θ := by
    have q1 := mul_le_mul_of_nonneg_left e1 (sq_nonneg (Real.cos θ))
    have q2 := mul_le_mul_of_nonneg_left e2 (sq_nonneg (Real.sin θ))
    have q3 := mul_le_mul_of_nonneg_left (add_le_add q1 q2) hr.le
    rw [← add_mul, add_comm (Real.cos θ ^ 2), hcs, one_mul] at q3
    refine q3.trans (le_of_eq ?_); ring
  have hdot0 : 0 < r * Real.exp (-(k * R.u)) := mul_pos hr e0
  refine TurnNear.mono (arg_near (lt_of_lt_of_le hdot0 hdot)) ?_
  rw [div_le_iff₀ (lt_of_lt_of_le hdot0 hdot)]
  have hx : |2 * k * R.u| ≤ 2 * k * R.u := by rw [abs_of_nonneg (by have := R.u_nonneg; positivity)]
  have h2 := exp_err hu (show 0 ≤ 2 * k by positivity) (by linarith) hx
  have h3 : Real.exp (2 * k * R.u) - 1 ≤ 101 / 100 * (2 * k * R.u) := (le_abs_self _).trans h2
  have h4 : Real.exp (k * R.u) = Real.exp (2 * k * R.u) * Real.exp (-(k * R.u)) := by rw [← Real.exp_add]; congr 1; ring
  have hcross : |r * Real.sin θ * Real.exp s * Real.cos θ - r * Real.cos θ * Real.exp t * Real.sin θ| ≤
      r * (1 / 2) * (Real.exp (k * R.u) - Real.exp (-(k * R.u))) := by
    rw [show r * Real.sin θ * Real.exp s * Real.cos θ - r * Real.cos θ * Real.exp t * Real.sin θ = r * (Real.sin θ * Real.cos θ) * (Real.exp s - Real.exp t) by ring,
      abs_mul, abs_mul, abs_of_pos hr]
    have h5 : |Real.sin θ * Real.cos θ| ≤ 1 / 2 := by
      rw [abs_le]; constructor <;> nlinarith [sq_nonneg (Real.sin θ + Real.cos θ), sq_nonneg (Real.sin θ - Real.cos θ)]
    have h6 : |Real.exp s - Real.exp t| ≤ Real.exp (k * R.u) - Real.exp (-(k * R.u)) := by
      rw [abs_le]; constructor <;> linarith
    exact mul_le_mul (mul_le_mul_of_nonneg_left h5 hr.le) h6 (abs_nonneg _) (by positivity)
  refine hcross.trans ?_
  rw [h4, show r * (1 / 2) * (Real.exp (2 * k * R.u) * Real.exp (-(k * R.u)) - Real.exp (-(k * R.u))) =
    (1 / 2) * (Real.exp (2 * k * R.u) - 1) * (r * Real.exp (-(k * R.u))) by ring]
  have h7 : 0 ≤ k * R.u := (abs_nonneg _).trans hs
  calc (1 / 2) * (Real.exp (2 * k * R.u) - 1) * (r * Real.exp (-(k * R.u))) ≤ 101 / 100 * (k * R.u) * (r * Real.exp (-(k * R.u))) :=
        mul_le_mul_of_nonneg_right (by linarith) hdot0.le
    _ ≤ _ := mul_le_mul_of_nonneg_left hdot (by positivity)

/-- `np.mod(x + 2*np.pi, 2*np.pi)` as computed -/
theorem wrap_gen (hu : R.u ≤ 1 / 10 ^ 6) (x : ℝ) :
    ∃ y, Np.mod (num R x + circ false) (circ false) = num R y ∧ 0 ≤ y ∧ y ≤ 629 / 100 ∧ TurnNear ((61 + 5 * |x|) * R.u) y x := by
  have hu0 := R.u_nonneg
  have hpi := Real.pi_lt_d4
  obtain ⟨tp, h1, h2⟩ := twoPi_err (R := R) hu
  have h2' := abs_le.mp h2
  have hc : (circ false : RF R) = twoPi := by simp [circ]
  have hx := abs_nonneg x
  have hxu := mul_nonneg hx hu0
  have d0 : |x + tp| ≤ |x| + 6285 / 1000 := by
    have := abs_add_le x tp
    rw [abs_of_pos (show 0 < tp by linarith [Real.pi_gt_three])] at this
    linarith
  have d1 := rd_err (R := R) (x := x + tp) hu d0
  obtain ⟨y, z, m1, m2, m3, m4⟩ := mod_err hu (R.rd (x + tp))
  refine ⟨y, ?_, m2, m3, 1 - z, ?_⟩
  · rw [hc]; nth_rewrite 1 [h1]; rw [add_num, m1]
  have hB : |R.rd (x + tp)| ≤ 101 / 100 * |x| + 63 / 10 := by
    have := abs_add_le (R.rd (x + tp) - (x + tp)) (x + tp)
    rw [sub_add_cancel] at this
    have q := mul_le_mul_of_nonneg_right hu (show 0 ≤ |x| + 6285 / 1000 by linarith)
    linarith
  have hB2 := mul_le_mul_of_nonneg_right hB hu0
  rw [abs_le] at m4 d1 ⊢
  push_cast
  constructor <;> nlinarith

theorem eLim_num : (e_lim : RF R) = num R (R.rd eLim) := by
  show (⟨fin (R.rd ((1 / 1000000000 : ℚ) : ℝ))⟩ : RF R) = _
  have : ((1 / 1000000000 : ℚ) : ℝ) = eLim := by unfold eLim; norm_num
  rw [this]; rfl

theorem arctan2_num (y x : ℝ) : Np.arctan2 (num R y) (num R x) = num R (Complex.arg ⟨x, y⟩ * Real.exp (R.lib2 true y x)) := rfl

theorem abs_arg_le (X Y : ℝ) : |Complex.arg ⟨X, Y⟩| ≤ Real.pi := Complex.abs_arg_le_pi _

/-- the direction as computed -/
theorem arg_out (hu : R.u ≤ 1 / 10 ^ 6) (X Y : ℝ) :
    ∃ w, Np.arctan2 (num R Y) (num R X) = num R w ∧ |w - Complex.arg ⟨X, Y⟩| ≤ 318 / 100 * R.u ∧ |w| ≤ 315 / 100 := by
  have hu0 := R.u_nonneg
  have hpi := Real.pi_lt_d4
  refine ⟨_, arctan2_num Y X, ?_, ?_⟩
  · have := factor_err (y := Complex.arg ⟨X, Y⟩) hu (by norm_num) (by norm_num) (show |R.lib2 true Y X| ≤ 1 * R.u by rw [one_mul]; exact R.lib2_le true Y X)
    have h2 := mul_le_mul_of_nonneg_left (abs_arg_le X Y) (show 0 ≤ 101 / 100 * (1 * R.u) by positivity)
    nlinarith
  · have := factor_err (y := Complex.arg ⟨X, Y⟩) hu (by norm_num) (by norm_num) (show |R.lib2 true Y X| ≤ 1 * R.u by rw [one_mul]; exact R.lib2_le true Y X)
    have h2 := mul_le_mul_of_nonneg_left (abs_arg_le X Y) (show 0 ≤ 101 / 100 * (1 * R.u) by positivity)
    have h3 := abs_add_le (Complex.arg ⟨X, Y⟩ * Real.exp (R.lib2 true Y X) - Complex.arg ⟨X, Y⟩) (Complex.arg ⟨X, Y⟩)
    rw [sub_add_cancel] at h3
    have := abs_arg_le X Y
    nlinarith

/-- the length of a pair as computed -/
theorem norm_rel (X Y : ℝ) : Rel 2 (Np.sqrt (Pyorb.sq (num R X) + Pyorb.sq (num R Y))) √(X ^ 2 + Y ^ 2) := by
  have h1 : Rel (0 + 0 + 1) (Pyorb.sq (num R X)) (X * X) := (Rel.num X).mul (Rel.num X)
  have h2 : Rel (0 + 0 + 1) (Pyorb.sq (num R Y)) (Y * Y) := (Rel.num Y).mul (Rel.num Y)
  have h3 := (h1.add h2 (mul_self_nonneg _) (mul_self_nonneg _)).sqrt (add_nonneg (mul_self_nonneg _) (mul_self_nonneg _))
  rw [pow_two, pow_two]
  exact h3.mono (by norm_num)

/-- a difference of angles, reduced -/
theorem wrap_sub (hu : R.u ≤ 1 / 10 ^ 6) {x y x0 y0 ε δ : ℝ} (hx : |x - x0| ≤ ε) (hy : |y - y0| ≤ δ) {B : ℝ} (hB : |x| + |y| ≤ B) :
    ∃ w, Np.mod (num R x - num R y + circ false) (circ false) = num R w ∧ 0 ≤ w ∧ w ≤ 629 / 100 ∧ TurnNear ((61 + 607 / 100 * B) * R.u + ε + δ) w (x0 - y0) := by
  have hu0 := R.u_nonneg
  have hB0 : 0 ≤ B := by linarith [abs_nonneg x, abs_nonneg y]
  have hb : |x - y| ≤ B := (abs_sub x y).trans hB
  have d1 := rd_err (R := R) (x := x - y) hu hb
  obtain ⟨w, w1, w2, w3, w4⟩ := wrap_gen hu (R.rd (x - y))
  refine ⟨w, by rw [sub_num]; exact w1, w2, w3, ?_⟩
  have hc : |R.rd (x - y)| ≤ 10011 / 10000 * B := by
    have := abs_add_le (R.rd (x - y) - (x - y)) (x - y)
    rw [sub_add_cancel] at this
    have q := mul_le_mul_of_nonneg_right hu hB0
    linarith
  have e1 : TurnNear (101 / 100 * R.u * B) (R.rd (x - y)) (x - y) := TurnNear.of d1
  have e2 : TurnNear (ε + δ) (x - y) (x0 - y0) := TurnNear.sub (TurnNear.of hx) (TurnNear.of hy)
  refine TurnNear.mono (TurnNear.trans (TurnNear.trans w4 e1) e2) ?_
  have q := mul_le_mul_of_nonneg_right hc hu0
  have q2 := mul_nonneg hB0 hu0
  linarith

/-- `equi_to_kep` as computed -/
theorem colKep (hu : R.u ≤ 1 / 10 ^ 6) (g : Kep (RF R)) (q : Equi ℝ) :
    ∃ k : Kep ℝ, equiToKep g .f64 false (q.num R) = k.num R ∧ k.a = q.a ∧
      |k.e - √(q.h ^ 2 + q.k ^ 2)| ≤ 3 * R.u * √(q.h ^ 2 + q.k ^ 2) ∧
      |k.i - 2 * Real.arctan √(q.p ^ 2 + q.q ^ 2)| ≤ 9 * R.u ∧
      TurnNear (81 * R.u) k.OM (Complex.arg ⟨q.q, q.p⟩) ∧
      (eLim * (1 + 4 * R.u) < √(q.h ^ 2 + q.k ^ 2) →
        TurnNear (106 * R.u) k.om (Complex.arg ⟨q.k, q.h⟩ - Complex.arg ⟨q.q, q.p⟩) ∧
        TurnNear ((84 + 7 * |q.lam|) * R.u) k.nu (q.lam - Complex.arg ⟨q.k, q.h⟩)) ∧
      (√(q.h ^ 2 + q.k ^ 2) * (1 + 4 * R.u) ≤ eLim →
        TurnNear (61 * R.u) k.om 0 ∧ TurnNear ((84 + 7 * |q.lam|) * R.u) k.nu (q.lam - Complex.arg ⟨q.q, q.p⟩)) ∧
      0 ≤ k.om ∧ k.om ≤ 629 / 100 ∧ 0 ≤ k.OM ∧ k.OM ≤ 629 / 100 ∧ 0 ≤ k.nu ∧ k.nu ≤ 629 / 100 := by
  have hu0 := R.u_nonneg
  have hpi := Real.pi_lt_d4
  obtain ⟨t, t1, t2⟩ := norm_rel (R := R) q.h q.k
  obtain ⟨s, s1, s2⟩ := norm_rel (R := R) q.p q.q
  obtain ⟨ob, o1, o2, o3⟩ := arg_out (R := R) hu q.k q.h
  obtain ⟨nd, n1, n2, n3⟩ := arg_out (R := R) hu q.q q.p
  obtain ⟨e0, he0⟩ : ∃ e0, e0 = √(q.h ^ 2 + q.k ^ 2) := ⟨_, rfl⟩
  obtain ⟨T, hT⟩ : ∃ T, T = √(q.p ^ 2 + q.q ^ 2) := ⟨_, rfl⟩
  have he00 : 0 ≤ e0 := by rw [he0]; exact Real.sqrt_nonneg _
  rw [← he0] at t2 ⊢
  rw [← hT] at s2 ⊢
  -- inclination
  have hx : |Real.arctan (T * Real.exp s)| ≤ Real.pi / 2 :=
    abs_le.mpr ⟨(Real.neg_pi_div_two_lt_arctan _).le, (Real.arctan_lt_pi_div_two _).le⟩
  obtain ⟨w, hw⟩ : ∃ w, w = Real.arctan (T * Real.exp s) * Real.exp (R.lib .arctan (T * Real.exp s)) := ⟨_, rfl⟩
  have e2 : Np.arctan (num R (T * Real.exp s)) = num R w := by rw [hw]; rfl
  have d1 := arctan_rel T s
  have d2 := lib_err (R := R) (f := .arctan) (x := T * Real.exp s) (B := 158 / 100) hu (hx.trans (by linarith))
  rw [← hw] at d2
  have hw1 : |w| ≤ 159 / 100 := by
    have := abs_add_le (w - Real.arctan (T * Real.exp s)) (Real.arctan (T * Real.exp s))
    rw [sub_add_cancel] at this
    linarith
  have d3 := rd_err (R := R) (x := 2 * w) (B := 318 / 100) hu (by rw [abs_mul, abs_two]; linarith)
  have hi : |R.rd (2 * w) - 2 * Real.arctan T| ≤ 9 * R.u := by
    rw [show R.rd (2 * w) - 2 * Real.arctan T = (R.rd (2 * w) - 2 * w) + 2 * (w - Real.arctan (T * Real.exp s)) + 2 * (Real.arctan (T * Real.exp s) - Real.arctan T) by ring]
    refine (abs_add_le _ _).trans ?_
    have e4 := abs_add_le (R.rd (2 * w) - 2 * w) (2 * (w - Real.arctan (T * Real.exp s)))
    rw [abs_mul, abs_two] at e4 ⊢
    linarith
  -- angles
  obtain ⟨OM, O1, O2, O3, O4⟩ := wrap_gen hu (R := R) nd
  have hOM : TurnNear (81 * R.u) OM (Complex.arg ⟨q.q, q.p⟩) := by
    refine TurnNear.mono (TurnNear.trans O4 (TurnNear.of n2)) ?_
    have := mul_le_mul_of_nonneg_right n3 hu0
    nlinarith
  have hee : |e0 * Real.exp t - e0| ≤ 3 * R.u * e0 := by
    have := factor_err (y := e0) hu (by norm_num) (by norm_num) t1
    rw [abs_of_nonneg he00] at this
    have := mul_nonneg hu0 he00
    linarith
  have hlim : |R.rd eLim - eLim| ≤ 101 / 100 * R.u * eLim := rd_err hu (by rw [abs_of_pos eLim_pos'])
  have hnum : equiToKep g .f64 false (q.num R) = ⟨num R q.a, num R (e0 * Real.exp t), num R (R.rd (2 * w)),
      Np.mod ((if R.rd eLim < e0 * Real.exp t then num R ob - num R nd else num R 0) + circ false) (circ false),
      num R OM,
      Np.mod ((if R.rd eLim < e0 * Real.exp t then num R q.lam - num R ob else num R q.lam - num R nd) + circ false) (circ false)⟩ := by
    simp only [equiToKep, Equi.num, store_num, t2, s2, o1, n1, e2, eLim_num, lt_num, two_num, mul_num, O1, Bool.false_eq_true, if_false, zero_num]
    by_cases h : R.rd eLim < e0 * Real.exp t
    · simp [h]
    · simp [h]
  have b1 : |q.lam| + |ob| ≤ |q.lam| + 315 / 100 := by linarith
  have b2 : |q.lam| + |nd| ≤ |q.lam| + 315 / 100 := by linarith
  have b3 : |ob| + |nd| ≤ 63 / 10 := by linarith
  have bl := mul_nonneg (abs_nonneg q.lam) hu0
  have el0 := eLim_pos'
  have ht := abs_le.mp (exp_err hu (by norm_num) (by norm_num) t1)
  have hl := abs_le.mp hlim
  by_cases h : R.rd eLim < e0 * Real.exp t
  · obtain ⟨om, m1, m2, m3, m4⟩ := wrap_sub hu o2 n2 b3
    obtain ⟨nu, v1, v2, v3, v4⟩ := wrap_sub hu (show |q.lam - q.lam| ≤ 0 by simp) o2 b1
    rw [hnum, if_pos h, if_pos h, m1, v1]
    refine ⟨⟨q.a, e0 * Real.exp t, R.rd (2 * w), om, OM, nu⟩, rfl, rfl, hee, hi, hOM, fun _ => ⟨TurnNear.mono m4 (by linarith), TurnNear.mono v4 (by linarith)⟩,
      fun hc => absurd h (not_lt.mpr ?_), m2, m3, O2, O3, v2, v3⟩
    have q1 : e0 * Real.exp t ≤ e0 * (1 + 202 / 100 * R.u) := mul_le_mul_of_nonneg_left (by linarith) he00
    have q2 : e0 * (1 + 4 * R.u) * (1 - 101 / 100 * R.u) ≤ eLim * (1 - 101 / 100 * R.u) := mul_le_mul_of_nonneg_right hc (by linarith)
    have q3 : 1 + 202 / 100 * R.u ≤ (1 + 4 * R.u) * (1 - 101 / 100 * R.u) := by nlinarith
    have q4 := mul_le_mul_of_nonneg_left q3 he00
    linarith
  · obtain ⟨om, m1, m2, m3, m4⟩ := wrap_gen hu (R := R) 0
    obtain ⟨nu, v1, v2, v3, v4⟩ := wrap_sub hu (show |q.lam - q.lam| ≤ 0 by simp) n2 b2
    rw [hnum, if_neg h, if_neg h, m1, v1]
    refine ⟨⟨q.a, e0 * Real.exp t, R.rd (2 * w), om, OM, nu⟩, rfl, rfl, hee, hi, hOM, fun hc => absurd ?_ h,
      fun _ => ⟨TurnNear.mono m4 (by rw [abs_zero]; linarith), TurnNear.mono v4 (by linarith)⟩, m2, m3, O2, O3, v2, v3⟩
    have q1 : e0 * (1 - 202 / 100 * R.u) ≤ e0 * Real.exp t := mul_le_mul_of_nonneg_left (by linarith) he00
    have q2 : eLim * (1 + 4 * R.u) * (1 - 202 / 100 * R.u) < e0 * (1 - 202 / 100 * R.u) := mul_lt_mul_of_pos_right hc (by linarith)
    have q3 : 1 + 101 / 100 * R.u ≤ (1 + 4 * R.u) * (1 - 202 / 100 * R.u) := by nlinarith
    have q4 := mul_le_mul_of_nonneg_left q3 el0.le
    linarith

/-- the length of a vector whose components have relative errors -/
theorem norm_pert {r θ s t a : ℝ} (hr : 0 ≤ r) (hs : |s| ≤ a) (ht : |t| ≤ a) :
    ∃ w, |w| ≤ a ∧ √((r * Real.sin θ * Real.exp s) ^ 2 + (r * Real.cos θ * Real.exp t) ^ 2) = r * Real.exp w := by
  have ha : 0 ≤ a := (abs_nonneg _).trans hs
  rcases eq_or_lt_of_le hr with h0 | h0
  · refine ⟨0, by simpa using ha, ?_⟩
    rw [← h0]; simp
  have hcs := Real.sin_sq_add_cos_sq θ
  have hs' := abs_le.mp hs
  have ht' := abs_le.mp ht
  have sq' : ∀ x : ℝ, Real.exp x ^ 2 = Real.exp (2 * x) := fun x => by rw [← Real.exp_nat_mul]; norm_num
  obtain ⟨N, hN⟩ : ∃ N, N = √((r * Real.sin θ * Real.exp s) ^ 2 + (r * Real.cos θ * Real.exp t) ^ 2) := ⟨_, rfl⟩
  have l1 : r * Real.exp (-a) ≤ N := by
    rw [hN]
    apply Real.le_sqrt_of_sq_le
    rw [mul_pow, mul_pow, mul_pow, mul_pow, mul_pow, sq', sq', sq']
    have q1 := mul_le_mul_of_nonneg_left (Real.exp_le_exp.mpr (show 2 * -a ≤ 2 * s by linarith)) (mul_nonneg (sq_nonneg r) (sq_nonneg (Real.sin θ)))
    have q2 := mul_le_mul_of_nonneg_left (Real.exp_le_exp.mpr (show 2 * -a ≤ 2 * t by linarith)) (mul_nonneg (sq_nonneg r) (sq_nonneg (Real.cos θ)))
    have q3 : r ^ 2 * Real.exp (2 * -a) = r ^ 2 * Real.sin θ ^ 2 * Real.exp (2 * -a) + r ^ 2 * Real.cos θ ^ 2 * Real.exp (2 * -a) := by
      linear_combination (-(r ^ 2 * Real.exp (2 * -a))) * hcs
    linarith
  have l2 : N ≤ r * Real.exp a := by
    rw [hN]
    apply Real.sqrt_le_iff.mpr
    refine ⟨by positivity, ?_⟩
    rw [mul_pow, mul_pow, mul_pow, mul_pow, mul_pow, sq', sq', sq']
    have q1 := mul_le_mul_of_nonneg_left (Real.exp_le_exp.mpr (show 2 * s ≤ 2 * a by linarith)) (mul_nonneg (sq_nonneg r) (sq_nonneg (Real.sin θ)))
    have q2 := mul_le_mul_of_nonneg_left (Real.exp_le_exp.mpr (show 2 * t ≤ 2 * a by linarith)) (mul_nonneg (sq_nonneg r) (sq_nonneg (Real.cos θ)))
    have q3 : r ^ 2 * Real.exp (2 * a) = r ^ 2 * Real.sin θ ^ 2 * Real.exp (2 * a) + r ^ 2 * Real.cos θ ^ 2 * Real.exp (2 * a) := by
      linear_combination (-(r ^ 2 * Real.exp (2 * a))) * hcs
    linarith
  have hN0 : 0 < N := lt_of_lt_of_le (by positivity) l1
  refine ⟨Real.log (N / r), ?_, ?_⟩
  · rw [abs_le, Real.le_log_iff_exp_le (by positivity), Real.log_le_iff_le_exp (by positivity), le_div_iff₀ h0, div_le_iff₀ h0]
    constructor <;> linarith
  · rw [← hN, Real.exp_log (by positivity)]; field_simp

/-- `equi_to_kep` of elements with relative errors -/
theorem kepPert (hu : R.u ≤ 1 / 10 ^ 6) (g : Kep (RF R)) (q : Equi ℝ) {e θ H OM s t s' t' : ℝ} (he : 0 ≤ e) (hH0 : 0 ≤ H) (hH1 : H < Real.pi / 2)
    (hn : 0 < H ∨ OM = 0) (hs : |s| ≤ 2 * R.u) (ht : |t| ≤ 2 * R.u) (hs' : |s'| ≤ 3 * R.u) (ht' : |t'| ≤ 3 * R.u)
    (qh : q.h = e * Real.sin θ * Real.exp s) (qk : q.k = e * Real.cos θ * Real.exp t)
    (qp : q.p = Real.tan H * Real.sin OM * Real.exp s') (qq : q.q = Real.tan H * Real.cos OM * Real.exp t') :
    ∃ k : Kep ℝ, equiToKep g .f64 false (q.num R) = k.num R ∧ k.a = q.a ∧ |k.e - e| ≤ 6 * R.u * e ∧ |k.i - 2 * H| ≤ 12 * R.u ∧
      TurnNear (85 * R.u) k.OM OM ∧
      (eLim * (1 + 7 * R.u) < e → TurnNear (112 * R.u) k.om (θ - OM) ∧ TurnNear ((87 + 7 * |q.lam|) * R.u) k.nu (q.lam - θ)) ∧
      (e * (1 + 7 * R.u) ≤ eLim → TurnNear (61 * R.u) k.om 0 ∧ TurnNear ((88 + 7 * |q.lam|) * R.u) k.nu (q.lam - OM)) ∧
      0 ≤ k.om ∧ k.om ≤ 629 / 100 ∧ 0 ≤ k.OM ∧ k.OM ≤ 629 / 100 ∧ 0 ≤ k.nu ∧ k.nu ≤ 629 / 100 := by
  have hu0 := R.u_nonneg
  obtain ⟨k, k1, k2, k3, k4, k5, k6, k7, k8⟩ := colKep hu g q
  obtain ⟨w, w1, w2⟩ := norm_pert (θ := θ) he hs ht
  have hT : 0 ≤ Real.tan H := Real.tan_nonneg_of_nonneg_of_le_pi_div_two hH0 hH1.le
  obtain ⟨v, v1, v2⟩ := norm_pert (θ := OM) hT hs' ht'
  rw [qh, qk] at k3 k6 k7
  rw [qp, qq] at k4 k5 k6 k7
  rw [w2] at k3 k6 k7
  rw [v2] at k4
  have hw := abs_le.mp (exp_err hu (by norm_num) (by norm_num) w1)
  have hew : |e * Real.exp w - e| ≤ 202 / 100 * R.u * e := by
    have := factor_err (y := e) hu (by norm_num) (by norm_num) w1
    rw [abs_of_nonneg he] at this
    linarith
  -- directions
  have hO : TurnNear (303 / 100 * R.u) (Complex.arg ⟨Real.tan H * Real.cos OM * Real.exp t', Real.tan H * Real.sin OM * Real.exp s'⟩) OM := by
    rcases hn with hn | hn
    · have := arg_rel (θ := OM) hu (Real.tan_pos_of_pos_of_lt_pi_div_two hn hH1) (by norm_num) (by norm_num) hs' ht'
      exact TurnNear.mono this (by linarith)
    · rcases eq_or_lt_of_le hT with h0 | h0
      · rw [← h0, hn]
        simp only [zero_mul, arg_zero]
        exact TurnNear.of (by rw [sub_self, abs_zero]; positivity)
      · have := arg_rel (θ := OM) hu h0 (by norm_num) (by norm_num) hs' ht'
        exact TurnNear.mono this (by linarith)
  have eu := mul_nonneg he hu0
  refine ⟨k, k1, k2, ?_, ?_, TurnNear.mono (TurnNear.trans k5 hO) (by linarith), fun hc => ?_, fun hc => ?_, k8⟩
  · have h1 := abs_add_le (k.e - e * Real.exp w) (e * Real.exp w - e)
    rw [sub_add_sub_cancel] at h1
    have h2 : e * Real.exp w ≤ e * (101 / 100) := mul_le_mul_of_nonneg_left (by linarith) he
    have h3 := mul_le_mul_of_nonneg_left h2 (show 0 ≤ 3 * R.u by positivity)
    linarith
  · have h1 := arctan_rel (Real.tan H) v
    rw [Real.arctan_tan (by linarith [Real.pi_pos]) hH1] at h1
    rw [show k.i - 2 * H = (k.i - 2 * Real.arctan (Real.tan H * Real.exp v)) + 2 * (Real.arctan (Real.tan H * Real.exp v) - H) by ring]
    refine (abs_add_le _ _).trans ?_
    rw [abs_mul, abs_two]
    linarith
  · have h0 : 0 < e := lt_of_le_of_lt (mul_nonneg eLim_pos'.le (by positivity)) hc
    have hθ := arg_rel (θ := θ) hu h0 (by norm_num) (by norm_num) hs ht
    obtain ⟨a1, a2⟩ := k6 (by
      have q1 : e * (1 - 202 / 100 * R.u) ≤ e * Real.exp w := mul_le_mul_of_nonneg_left (by linarith) he
      have q2 : eLim * (1 + 7 * R.u) * (1 - 202 / 100 * R.u) < e * (1 - 202 / 100 * R.u) := mul_lt_mul_of_pos_right hc (by linarith)
      have q3 : 1 + 4 * R.u ≤ (1 + 7 * R.u) * (1 - 202 / 100 * R.u) := by nlinarith
      have q4 := mul_le_mul_of_nonneg_left q3 eLim_pos'.le
      linarith)
    exact ⟨TurnNear.mono (TurnNear.trans a1 (TurnNear.sub hθ hO)) (by linarith),
      TurnNear.mono (TurnNear.trans a2 (TurnNear.sub (TurnNear.of (show |q.lam - q.lam| ≤ 0 by simp)) hθ)) (by linarith)⟩
  · obtain ⟨a1, a2⟩ := k7 (by
      have q1 : e * Real.exp w ≤ e * (1 + 202 / 100 * R.u) := mul_le_mul_of_nonneg_left (by linarith) he
      have q2 := mul_le_mul_of_nonneg_right q1 (show 0 ≤ 1 + 4 * R.u by positivity)
      have q3 : (1 + 202 / 100 * R.u) * (1 + 4 * R.u) ≤ 1 + 7 * R.u := by nlinarith
      have q4 := mul_le_mul_of_nonneg_left q3 he
      linarith)
    exact ⟨a1, TurnNear.mono (TurnNear.trans a2 (TurnNear.sub (TurnNear.of (show |q.lam - q.lam| ≤ 0 by simp)) hO)) (by linarith)⟩

/-- `kep_to_equi` as computed -/
theorem colEqui (hu : R.u ≤ 1 / 10 ^ 6) (k : Kep ℝ) (hi0 : 0 ≤ k.i) (hi1 : k.i * (1 + 2 * R.u) < Real.pi) :
    ∃ (q : Equi ℝ) (θ H s t s' t' : ℝ), kepToEqui .f64 false (k.num R) = q.num R ∧ q.a = k.a ∧
      |θ - (k.om + k.OM)| ≤ 101 / 100 * R.u * |k.om + k.OM| ∧ |H - k.i / 2| ≤ 101 / 100 * R.u * (k.i / 2) ∧ 0 ≤ H ∧ H < Real.pi / 2 ∧ (0 < k.i → 0 < H) ∧
      |s| ≤ 2 * R.u ∧ |t| ≤ 2 * R.u ∧ |s'| ≤ 3 * R.u ∧ |t'| ≤ 3 * R.u ∧
      q.h = k.e * Real.sin θ * Real.exp s ∧ q.k = k.e * Real.cos θ * Real.exp t ∧
      q.p = Real.tan H * Real.sin k.OM * Real.exp s' ∧ q.q = Real.tan H * Real.cos k.OM * Real.exp t' ∧
      0 ≤ q.lam ∧ q.lam ≤ 629 / 100 ∧ TurnNear ((61 + 8 * (|k.om| + |k.OM| + |k.nu|)) * R.u) q.lam (k.om + k.OM + k.nu) := by
  have hu0 := R.u_nonneg
  have hpi := Real.pi_pos
  obtain ⟨θ, hθ⟩ : ∃ θ, θ = R.rd (k.om + k.OM) := ⟨_, rfl⟩
  obtain ⟨H, hH⟩ : ∃ H, H = R.rd (1 / 2 * k.i) := ⟨_, rfl⟩
  have dθ : |θ - (k.om + k.OM)| ≤ 101 / 100 * R.u * |k.om + k.OM| := by rw [hθ]; exact rd_err hu le_rfl
  have dH : |H - k.i / 2| ≤ 101 / 100 * R.u * (k.i / 2) := by
    have := rd_err (R := R) (x := 1 / 2 * k.i) (B := k.i / 2) hu (by rw [abs_of_nonneg (by linarith)]; linarith)
    rw [← hH, show 1 / 2 * k.i = k.i / 2 by ring] at this
    exact this
  have dH' := abs_le.mp dH
  have iu := mul_nonneg hi0 hu0
  have iu2 := mul_le_mul_of_nonneg_left hu hi0
  have hH0 : 0 ≤ H := by linarith
  have hH1 : H < Real.pi / 2 := by linarith
  have hHp : 0 < k.i → 0 < H := fun h => by linarith
  have hcos : Real.cos H ≠ 0 := (Real.cos_pos_of_mem_Ioo ⟨by linarith, hH1⟩).ne'
  have htan : Np.tan (num R H) = num R (Real.tan H * Real.exp (R.lib .tan H)) := by
    show (⟨R.libRound .tan (fin H) (Np.tan (fin H))⟩ : RF R) = _
    rw [FX.tan_fin hcos]; rfl
  have rt : Rel 1 (Np.tan (num R H)) (Real.tan H) := ⟨R.lib .tan H, by simpa using R.lib_le .tan H, htan⟩
  obtain ⟨s, s1, s2⟩ := (Rel.num (R := R) k.e).mul (Rel.sin (R := R) θ)
  obtain ⟨t, t1, t2⟩ := (Rel.num (R := R) k.e).mul (Rel.cos (R := R) θ)
  obtain ⟨s', p1, p2⟩ := rt.mul (Rel.sin (R := R) k.OM)
  obtain ⟨t', q1, q2⟩ := rt.mul (Rel.cos (R := R) k.OM)
  obtain ⟨lam, l1, l2, l3, l4⟩ := wrap_gen hu (R.rd (θ + k.nu))
  have hh : (half : RF R) = num R (1 / 2) := by
    show (Np.lit (1 / 2) : RF R) = _
    rw [lit_num 2 (by norm_num) (by norm_num)]
    norm_num
  refine ⟨⟨k.a, k.e * Real.sin θ * Real.exp s, k.e * Real.cos θ * Real.exp t, Real.tan H * Real.sin k.OM * Real.exp s', Real.tan H * Real.cos k.OM * Real.exp t', lam⟩,
    θ, H, s, t, s', t', ?_, rfl, dθ, dH, hH0, hH1, hHp, by linarith, by linarith, by linarith, by linarith, rfl, rfl, rfl, rfl, l2, l3, ?_⟩
  · have e1 : (num R k.om + num R k.OM : RF R) = num R θ := by rw [add_num, hθ]
    have e2 : (num R (1 / 2) * num R k.i : RF R) = num R H := by rw [mul_num, hH]
    have e3 : (num R θ + num R k.nu : RF R) = num R (R.rd (θ + k.nu)) := add_num _ _
    simp only [kepToEqui, Kep.num, Equi.num, store_num, Bool.false_eq_true, if_false, hh, e1, e2, e3, l1, s2, t2, p2, q2]
  · have a0 := abs_add_le k.om k.OM
    have a1 := abs_nonneg (k.om + k.OM)
    have b1 : |θ| ≤ 10011 / 10000 * (|k.om| + |k.OM|) := by
      have := abs_add_le (θ - (k.om + k.OM)) (k.om + k.OM)
      rw [sub_add_cancel] at this
      have := mul_le_mul_of_nonneg_right hu a1
      linarith
    have b2 : |θ + k.nu| ≤ 10011 / 10000 * (|k.om| + |k.OM| + |k.nu|) := by
      have := abs_add_le θ k.nu
      linarith [abs_nonneg k.nu]
    have b3 := rd_err (R := R) hu b2
    obtain ⟨S, hS⟩ : ∃ S, S = |k.om| + |k.OM| + |k.nu| := ⟨_, rfl⟩
    have hS0 : 0 ≤ S := by rw [hS]; positivity
    rw [← hS] at b2 b3 ⊢
    have b4 : |R.rd (θ + k.nu)| ≤ 1003 / 1000 * S := by
      have := abs_add_le (R.rd (θ + k.nu) - (θ + k.nu)) (θ + k.nu)
      rw [sub_add_cancel] at this
      have := mul_le_mul_of_nonneg_right hu hS0
      linarith
    have b5 := mul_le_mul_of_nonneg_right b4 hu0
    have b6 : 101 / 100 * R.u * |k.om + k.OM| ≤ 101 / 100 * R.u * S := mul_le_mul_of_nonneg_left (by rw [hS]; linarith [abs_nonneg k.nu]) (by positivity)
    have c1 : TurnNear (101 / 100 * R.u * |k.om + k.OM|) (θ + k.nu) (k.om + k.OM + k.nu) :=
      TurnNear.of (by rw [add_sub_add_right_eq_sub]; exact dθ)
    refine TurnNear.mono (TurnNear.trans (TurnNear.trans l4 (TurnNear.of b3)) c1) ?_
    have := mul_nonneg hS0 hu0
    linarith

end REqui

open REqui RStumpff in
/-- C102 (kep_to_equi): the error of each equinoctial element. -/
theorem c102_equi (hu : R.u ≤ 1 / 10 ^ 6) (k : Kep ℝ) (q0 : Equi ℝ) (hq : IsEqui k q0) (he : 0 ≤ k.e) (hi0 : 0 ≤ k.i) (hi1 : 4 * R.u ≤ Real.cos (k.i / 2)) (hi2 : k.i < Real.pi) :
    ∃ q : Equi ℝ, kep_to_equi false (.vec .f64 (k.num R)) = .ok (.vec .f64 (q.num R)) ∧ q.a = q0.a ∧
      |q.h - q0.h| ≤ (3 + 2 * |k.om + k.OM|) * R.u * k.e ∧ |q.k - q0.k| ≤ (3 + 2 * |k.om + k.OM|) * R.u * k.e ∧
      |q.p - q0.p| ≤ 8 * R.u / Real.cos (k.i / 2) ^ 2 ∧ |q.q - q0.q| ≤ 8 * R.u / Real.cos (k.i / 2) ^ 2 ∧
      TurnNear ((61 + 8 * (|k.om| + |k.OM| + |k.nu|)) * R.u) q.lam q0.lam ∧ 0 ≤ q.lam ∧ q.lam ≤ 629 / 100 := by
  have hu0 := R.u_nonneg
  have hpi := Real.pi_lt_d4
  have hc0 : 0 < Real.cos (k.i / 2) := Real.cos_pos_of_mem_Ioo ⟨by linarith [Real.pi_pos], by linarith⟩
  have hii : k.i * (1 + 2 * R.u) < Real.pi := by
    have h1 : Real.cos (k.i / 2) ≤ Real.pi / 2 - k.i / 2 := by
      rw [← Real.sin_pi_div_two_sub]; exact Real.sin_le (by linarith)
    rcases eq_or_lt_of_le hu0 with h0 | h0
    · rw [← h0]; linarith
    · have h2 : k.i * R.u ≤ 3142 / 1000 * R.u := mul_le_mul_of_nonneg_right (by linarith) hu0
      linarith
  obtain ⟨q, θ, H, s, t, s', t', h1, h2, h3, h4, h5, h6, h7, h8, h9, h10, h11, h12, h13, h14, h15, h16, h17, h18⟩ := colEqui hu k hi0 hii
  have hs := exp_err hu (by norm_num) (by norm_num) h8
  have ht := exp_err hu (by norm_num) (by norm_num) h9
  have hs' := exp_err hu (by norm_num) (by norm_num) h10
  have ht' := exp_err hu (by norm_num) (by norm_num) h11
  have bd : ∀ {f g E : ℝ}, |f| ≤ 1 → |f - g| ≤ |θ - (k.om + k.OM)| → |E - 1| ≤ 101 / 100 * (2 * R.u) → |k.e * f * E - k.e * g| ≤ (3 + 2 * |k.om + k.OM|) * R.u * k.e := by
    intro f g E hf hfg hE
    rw [show k.e * f * E - k.e * g = k.e * (f * (E - 1) + (f - g)) by ring, abs_mul, abs_of_nonneg he, mul_comm]
    refine mul_le_mul_of_nonneg_right ?_ he
    refine (abs_add_le _ _).trans ?_
    rw [abs_mul]
    have e1 := mul_le_mul hf hE (abs_nonneg _) (by norm_num)
    have e2 := mul_nonneg hu0 (abs_nonneg (k.om + k.OM))
    linarith
  -- tangent
  have hH : |H - k.i / 2| ≤ 16 / 10 * R.u := by
    have : R.u * k.i ≤ R.u * (3142 / 1000) := mul_le_mul_of_nonneg_left (by linarith) hu0
    linarith
  have hcH : 6 / 10 * Real.cos (k.i / 2) ≤ Real.cos H := by
    have := (abs_le.mp ((Real.abs_cos_sub_cos_le H (k.i / 2)).trans hH)).1
    linarith
  have hcH0 : 0 < Real.cos H := by linarith
  have hcc : 6 / 10 * Real.cos (k.i / 2) ^ 2 ≤ Real.cos H * Real.cos (k.i / 2) := by
    have := mul_le_mul_of_nonneg_right hcH hc0.le
    rw [pow_two]; linarith
  have hc1 := Real.cos_le_one (k.i / 2)
  have t1 : |Real.tan H - Real.tan (k.i / 2)| ≤ 267 / 100 * R.u / Real.cos (k.i / 2) ^ 2 := by
    have e1 : Real.tan H - Real.tan (k.i / 2) = Real.sin (H - k.i / 2) / (Real.cos H * Real.cos (k.i / 2)) := by
      rw [Real.tan_eq_sin_div_cos, Real.tan_eq_sin_div_cos, Real.sin_sub]; field_simp
    rw [e1, abs_div, abs_of_pos (mul_pos hcH0 hc0), div_le_div_iff₀ (mul_pos hcH0 hc0) (by positivity)]
    have e2 : |Real.sin (H - k.i / 2)| ≤ 16 / 10 * R.u := by
      have := Real.abs_sin_sub_sin_le (H - k.i / 2) 0
      rw [Real.sin_zero, sub_zero, sub_zero] at this
      linarith
    have e3 := mul_le_mul_of_nonneg_right e2 (sq_nonneg (Real.cos (k.i / 2)))
    have e4 := mul_le_mul_of_nonneg_left hcc (show 0 ≤ 267 / 100 * R.u by positivity)
    have e5 := mul_nonneg hu0 (sq_nonneg (Real.cos (k.i / 2)))
    linarith
  have t2 : |Real.tan H| ≤ 167 / 100 / Real.cos (k.i / 2) ^ 2 := by
    rw [Real.tan_eq_sin_div_cos, abs_div, abs_of_pos hcH0, div_le_div_iff₀ hcH0 (by positivity)]
    have e1 := mul_le_mul_of_nonneg_right (Real.abs_sin_le_one H) (sq_nonneg (Real.cos (k.i / 2)))
    have e2 : Real.cos (k.i / 2) ^ 2 ≤ Real.cos (k.i / 2) := by
      have := mul_le_mul_of_nonneg_right hc1 hc0.le
      rw [pow_two]; linarith
    linarith
  have bp : ∀ {f E : ℝ}, |f| ≤ 1 → |E - 1| ≤ 101 / 100 * (3 * R.u) → |Real.tan H * f * E - Real.tan (k.i / 2) * f| ≤ 8 * R.u / Real.cos (k.i / 2) ^ 2 := by
    intro f E hf hE
    rw [show Real.tan H * f * E - Real.tan (k.i / 2) * f = (Real.tan H * (E - 1) + (Real.tan H - Real.tan (k.i / 2))) * f by ring, abs_mul]
    refine (mul_le_of_le_one_right (abs_nonneg _) hf).trans ((abs_add_le _ _).trans ?_)
    rw [abs_mul]
    have e1 := mul_le_mul t2 hE (abs_nonneg _) (by positivity)
    have e2 : 167 / 100 / Real.cos (k.i / 2) ^ 2 * (101 / 100 * (3 * R.u)) + 267 / 100 * R.u / Real.cos (k.i / 2) ^ 2 ≤ 8 * R.u / Real.cos (k.i / 2) ^ 2 := by
      rw [div_mul_eq_mul_div, ← add_div]
      exact div_le_div_of_nonneg_right (by linarith) (by positivity)
    linarith
  refine ⟨q, by simp only [kep_to_equi, Arg6.mapCols, h1], h2.trans hq.axis.symm, ?_, ?_, ?_, ?_, ?_, h16, h17⟩
  · rw [h12, hq.ecc_sin]; exact bd (Real.abs_sin_le_one _) (Real.abs_sin_sub_sin_le _ _) hs
  · rw [h13, hq.ecc_cos]; exact bd (Real.abs_cos_le_one _) (Real.abs_cos_sub_cos_le _ _) ht
  · rw [h14, hq.inc_sin]; exact bp (Real.abs_sin_le_one _) hs'
  · rw [h15, hq.inc_cos]; exact bp (Real.abs_cos_le_one _) ht'
  · obtain ⟨z, hz⟩ := hq.longitude
    have hz' : TurnNear 0 (k.om + k.OM + k.nu) q0.lam := by
      refine ⟨-z, ?_⟩
      rw [abs_le] at hz ⊢
      push_cast
      constructor <;> linarith
    exact TurnNear.mono (TurnNear.trans h18 hz') (by linarith)

open REqui RStumpff in
/-- C102 (equi_to_kep): the error of each Kepler element recovered from exact equinoctial elements, when the eccentricity is clearly above `e_lim`,
or clearly not and the periapsis is on the node by convention. -/
theorem c102_kep (hu : R.u ≤ 1 / 10 ^ 6) (g : Nat → Kep (RF R)) (k0 : Kep ℝ) (q : Equi ℝ) (hq : IsEqui k0 q) (he : 0 ≤ k0.e) (hi0 : 0 ≤ k0.i) (hi1 : k0.i < Real.pi)
    (hn : 0 < k0.i ∨ k0.OM = 0) (hp : eLim * (1 + 7 * R.u) < k0.e ∨ k0.e * (1 + 7 * R.u) ≤ eLim ∧ k0.om = 0) :
    ∃ k : Kep ℝ, equi_to_kep g false (.vec .f64 (q.num R)) = .ok (.vec .f64 (k.num R)) ∧ k.a = k0.a ∧ |k.e - k0.e| ≤ 6 * R.u * k0.e ∧ |k.i - k0.i| ≤ 12 * R.u ∧
      TurnNear (112 * R.u) k.om k0.om ∧ TurnNear (85 * R.u) k.OM k0.OM ∧ TurnNear ((88 + 7 * |q.lam|) * R.u) k.nu k0.nu := by
  have hu0 := R.u_nonneg
  have z2 : |(0 : ℝ)| ≤ 2 * R.u := by rw [abs_zero]; positivity
  have z3 : |(0 : ℝ)| ≤ 3 * R.u := by rw [abs_zero]; positivity
  obtain ⟨k, k1, k2, k3, k4, k5, k6, k7, -⟩ := kepPert hu (g 0) q (θ := k0.om + k0.OM) (H := k0.i / 2) (OM := k0.OM) he (by linarith) (by linarith)
    (hn.imp_left fun h => by linarith) z2 z2 z3 z3 (by rw [hq.ecc_sin, Real.exp_zero, mul_one]) (by rw [hq.ecc_cos, Real.exp_zero, mul_one])
    (by rw [hq.inc_sin, Real.exp_zero, mul_one]) (by rw [hq.inc_cos, Real.exp_zero, mul_one])
  have hl := mul_nonneg (abs_nonneg q.lam) hu0
  refine ⟨k, by simp only [equi_to_kep, Arg6.mapCols, k1], k2.trans hq.axis, k3, by rw [show k0.i = 2 * (k0.i / 2) by ring]; exact k4, ?_, k5, ?_⟩
  · rcases hp with hp | ⟨hp, hp0⟩
    · have := (k6 hp).1
      rwa [add_sub_cancel_right] at this
    · rw [hp0]; exact TurnNear.mono (k7 hp).1 (by linarith)
  · rcases hp with hp | ⟨hp, hp0⟩
    · have e1 := TurnNear.trans (k6 hp).2 (TurnNear.sub hq.longitude (TurnNear.of (show |k0.om + k0.OM - (k0.om + k0.OM)| ≤ 0 by simp)))
      rw [show k0.om + k0.OM + k0.nu - (k0.om + k0.OM) = k0.nu by ring] at e1
      exact TurnNear.mono e1 (by linarith)
    · have e1 := TurnNear.trans (k7 hp).2 (TurnNear.sub hq.longitude (TurnNear.of (show |k0.OM - k0.OM| ≤ 0 by simp)))
      rw [hp0, show (0 : ℝ) + k0.OM + k0.nu - k0.OM = k0.nu by ring] at e1
      exact TurnNear.mono e1 (by linarith)

open REqui RStumpff in
/-- C102 (round trip): `equi_to_kep(kep_to_equi(kep))` returns the elements up to a few units of rounding; small eccentricities and inclinations do
not amplify the errors. -/
theorem c102_round_trip (hu : R.u ≤ 1 / 10 ^ 6) (g : Nat → Kep (RF R)) (k0 : Kep ℝ) (he : 0 ≤ k0.e) (hi0 : 0 ≤ k0.i) (hi1 : k0.i * (1 + 2 * R.u) < Real.pi)
    (hn : 0 < k0.i ∨ k0.OM = 0) (hp : eLim * (1 + 7 * R.u) < k0.e ∨ k0.e * (1 + 7 * R.u) ≤ eLim ∧ k0.om = 0) :
    ∃ (q : Arg6 (Equi (RF R))) (k : Kep ℝ), kep_to_equi false (.vec .f64 (k0.num R)) = .ok q ∧ equi_to_kep g false q = .ok (.vec .f64 (k.num R)) ∧
      k.a = k0.a ∧ |k.e - k0.e| ≤ 6 * R.u * k0.e ∧ |k.i - k0.i| ≤ 16 * R.u ∧
      TurnNear ((200 + 10 * (|k0.om| + |k0.OM| + |k0.nu|)) * R.u) k.om k0.om ∧ TurnNear (85 * R.u) k.OM k0.OM ∧
      TurnNear ((200 + 10 * (|k0.om| + |k0.OM| + |k0.nu|)) * R.u) k.nu k0.nu := by
  have hu0 := R.u_nonneg
  have hpi := Real.pi_lt_d4
  obtain ⟨q, θ, H, s, t, s', t', h1, h2, h3, h4, h5, h6, h7, h8, h9, h10, h11, h12, h13, h14, h15, h16, h17, h18⟩ := colEqui hu k0 hi0 hi1
  obtain ⟨k, k1, k2, k3, k4, k5, k6, k7, -⟩ := kepPert hu (g 0) q he h5 h6 (hn.imp_left h7) h8 h9 h10 h11 h12 h13 h14 h15
  obtain ⟨S, hS⟩ : ∃ S, S = |k0.om| + |k0.OM| + |k0.nu| := ⟨_, rfl⟩
  have hS0 : 0 ≤ S := by rw [hS]; positivity
  have hSu := mul_nonneg hS0 hu0
  have hθ : |θ - (k0.om + k0.OM)| ≤ 101 / 100 * R.u * S :=
    h3.trans (mul_le_mul_of_nonneg_left (by rw [hS]; linarith [abs_add_le k0.om k0.OM, abs_nonneg k0.nu]) (by positivity))
  rw [← hS] at h18 ⊢
  have hl : |q.lam| * R.u ≤ 629 / 100 * R.u := by rw [abs_of_nonneg h16]; exact mul_le_mul_of_nonneg_right h17 hu0
  refine ⟨.vec .f64 (q.num R), k, by simp only [kep_to_equi, Arg6.mapCols, h1], by simp only [equi_to_kep, Arg6.mapCols, k1], k2.trans h2, k3, ?_, ?_, k5, ?_⟩
  · rw [show k.i - k0.i = (k.i - 2 * H) + 2 * (H - k0.i / 2) by ring]
    refine (abs_add_le _ _).trans ?_
    rw [abs_mul, abs_two]
    have := mul_nonneg hi0 hu0
    have h0 : k0.i * R.u ≤ 315 / 100 * R.u := mul_le_mul_of_nonneg_right (by linarith) hu0
    linarith
  · rcases hp with hp | ⟨hp, hp0⟩
    · have e1 := TurnNear.trans (k6 hp).1 (TurnNear.of (show |θ - k0.OM - k0.om| ≤ 101 / 100 * R.u * S by rw [show θ - k0.OM - k0.om = θ - (k0.om + k0.OM) by ring]; exact hθ))
      exact TurnNear.mono e1 (by linarith)
    · rw [hp0]
      exact TurnNear.mono (k7 hp).1 (by linarith)
  · rcases hp with hp | ⟨hp, hp0⟩
    · have e1 := TurnNear.trans (k6 hp).2 (TurnNear.sub h18 (TurnNear.of hθ))
      rw [show k0.om + k0.OM + k0.nu - (k0.om + k0.OM) = k0.nu by ring] at e1
      exact TurnNear.mono e1 (by linarith)
    · have e1 := TurnNear.trans (k7 hp).2 (TurnNear.sub h18 (TurnNear.of (show |k0.OM - k0.OM| ≤ 0 by simp)))
      rw [hp0, show (0 : ℝ) + k0.OM + k0.nu - k0.OM = k0.nu by ring] at e1
      exact TurnNear.mono e1 (by linarith)

/-- a case of `c102_round_trip`: elements of a nearly circular, nearly equatorial orbit in double precision -/
example (g : Nat → Kep (RF Binary.binary64)) : ∃ (q : Arg6 (Equi (RF Binary.binary64))) (k : Kep ℝ),
    kep_to_equi false (.vec .f64 (Kep.num _ ⟨7000, 1 / 10 ^ 6, 1 / 10 ^ 8, 1, 2, 3⟩)) = .ok q ∧ equi_to_kep g false q = .ok (.vec .f64 (k.num _)) ∧
      TurnNear (3 / 10 ^ 14) k.om 1 ∧ TurnNear (1 / 10 ^ 14) k.OM 2 ∧ TurnNear (3 / 10 ^ 14) k.nu 3 := by
  have hpi := Real.pi_gt_three
  have hu : Binary.binary64.u = (1 / 2 : ℝ) ^ 53 := rfl
  obtain ⟨q, k, h1, h2, -, -, -, h3, h4, h5⟩ := c102_round_trip (R := Binary.binary64) (by rw [hu]; norm_num) g ⟨7000, 1 / 10 ^ 6, 1 / 10 ^ 8, 1, 2, 3⟩
    (by norm_num) (by norm_num) (by rw [hu]; norm_num; linarith) (.inl (by norm_num)) (.inl (by rw [hu]; unfold eLim; norm_num))
  rw [hu] at h3 h4 h5
  refine ⟨q, k, h1, h2, REqui.TurnNear.mono h3 ?_, REqui.TurnNear.mono h4 ?_, REqui.TurnNear.mono h5 ?_⟩
  · rw [abs_of_pos, abs_of_pos, abs_of_pos] <;> norm_num
  · norm_num
  · rw [abs_of_pos, abs_of_pos, abs_of_pos] <;> norm_num

/-- a case of `IsEqui`, and of the hypotheses of `c102_equi` -/
example : IsEqui ⟨7000, 1 / 2, Real.pi / 2, Real.pi / 2, 0, 1⟩ ⟨7000, 1 / 2, 0, 0, 1, Real.pi / 2 + 1⟩ ∧ 4 * Binary.binary64.u ≤ Real.cos (Real.pi / 2 / 2) := by
  refine ⟨⟨rfl, by simp, by simp, by simp, by simp [show Real.pi / 2 / 2 = Real.pi / 4 by ring], 0, by simp⟩, ?_⟩
  rw [show Real.pi / 2 / 2 = Real.pi / 4 by ring, Real.cos_pi_div_four]
  show 4 * (1 / 2 : ℝ) ^ 53 ≤ _
  have : (1 : ℝ) ≤ √2 := Real.one_le_sqrt.mpr (by norm_num)
  norm_num
  linarith

end Pyorb
