import Verif.PropsRoundSolve
import Verif.PropsOrbitMotion
import Mathlib.Analysis.SpecialFunctions.Trigonometric.ArctanDeriv

/-!
# The anomaly conversions with rounding (C97)
-/

set_option linter.unusedSimpArgs false
set_option linter.unusedVariables false

namespace Pyorb
open RF FX Orbit
variable {R : Rounding}

/-! ## How the true anomaly depends on the eccentric one -/

theorem samePoint_symm {e nu E : ℝ} (h1 : |e| < 1) (h : SamePoint e nu E) : SamePoint (-e) E nu := by
  obtain ⟨ha, hb⟩ := h
  have he := abs_lt.mp h1
  have hw : √(1 - e ^ 2) ^ 2 = 1 - e ^ 2 := Real.sq_sqrt (by nlinarith)
  have hc1 := Real.cos_le_one E
  have hc2 := Real.neg_one_le_cos E
  have hD : 0 < 1 - e * Real.cos E := by
    have : |e * Real.cos E| < 1 := by
      rw [abs_mul]
      calc |e| * |Real.cos E| ≤ |e| * 1 := mul_le_mul_of_nonneg_left (Real.abs_cos_le_one E) (abs_nonneg _)
        _ < 1 := by linarith
    linarith [(abs_lt.mp this).2]
  have hD2 : (1 - e * Real.cos E) * (1 + e * Real.cos nu) = 1 - e ^ 2 := by linear_combination e * ha
  refine ⟨?_, ?_⟩
  · refine mul_left_cancel₀ hD.ne' ?_
    linear_combination Real.cos E * hD2 - ha
  · refine mul_left_cancel₀ hD.ne' ?_
    rw [neg_sq]
    linear_combination Real.sin E * hD2 - √(1 - e ^ 2) * hb - Real.sin E * hw

theorem samePoint_turn {e nu E : ℝ} (z : ℤ) (h : SamePoint e nu E) : SamePoint e (nu + z * (2 * Real.pi)) E :=
  ⟨by rw [Real.cos_add_int_mul_two_pi]; exact h.along, by rw [Real.sin_add_int_mul_two_pi]; exact h.across⟩

/-- a continuous choice of the true anomaly -/
noncomputable def lifted (b E : ℝ) : ℝ := E + 2 * Real.arctan (b * Real.sin E / (1 - b * Real.cos E))

theorem lift_den {b : ℝ} (hb : |b| < 1) (E : ℝ) : 0 < 1 - b * Real.cos E := by
  have : |b * Real.cos E| < 1 := by
    rw [abs_mul]
    calc |b| * |Real.cos E| ≤ |b| * 1 := mul_le_mul_of_nonneg_left (Real.abs_cos_le_one E) (abs_nonneg _)
      _ < 1 := by linarith
  linarith [(abs_lt.mp this).2]

theorem lifted_deriv {b : ℝ} (hb : |b| < 1) (E : ℝ) :
    HasDerivAt (lifted b) ((1 - b ^ 2) / (1 - 2 * b * Real.cos E + b ^ 2)) E := by
  have hX := lift_den hb E
  have h1 : HasDerivAt (fun x => 1 - b * Real.cos x) (b * Real.sin E) E := by
    simpa using ((Real.hasDerivAt_cos E).const_mul b).const_sub 1
  have h2 := (((Real.hasDerivAt_sin E).const_mul b).div h1 hX.ne').arctan.const_mul 2
  refine ((hasDerivAt_id E).add h2).congr_deriv ?_
  have hs := Real.sin_sq_add_cos_sq E
  have hN : 1 - 2 * b * Real.cos E + b ^ 2 = (1 - b * Real.cos E) ^ 2 + (b * Real.sin E) ^ 2 := by linear_combination -b ^ 2 * hs
  have hN0 : 0 < (1 - b * Real.cos E) ^ 2 + (b * Real.sin E) ^ 2 := by positivity
  have hq : ∀ Y X A : ℝ, 0 < X → 1 / (1 + (Y / X) ^ 2) * (A / X ^ 2) = A / (X ^ 2 + Y ^ 2) := by
    intro Y X A hX
    have : 0 < X ^ 2 + Y ^ 2 := by positivity
    field_simp
  simp only [Pi.div_apply]
  rw [hq _ _ _ hX, hN]
  field_simp
  linear_combination (-b ^ 2) * hs

theorem lifted_lipschitz {b : ℝ} (hb : |b| < 1) (E F : ℝ) : |lifted b E - lifted b F| ≤ (1 + |b|) / (1 - |b|) * |E - F| := by
  have hb' := abs_lt.mp hb
  have hbd : ∀ x, ‖(1 - b ^ 2) / (1 - 2 * b * Real.cos x + b ^ 2)‖ ≤ (1 + |b|) / (1 - |b|) := fun x => by
    have h1 : 0 < 1 - |b| := by linarith
    have h2 : b * Real.cos x ≤ |b| := by
      refine (le_abs_self _).trans ?_
      rw [abs_mul]
      exact mul_le_of_le_one_right (abs_nonneg _) (Real.abs_cos_le_one x)
    have h3 : (1 - |b|) ^ 2 ≤ 1 - 2 * b * Real.cos x + b ^ 2 := by
      have : |b| ^ 2 = b ^ 2 := sq_abs b
      nlinarith
    have h4 : 0 < (1 - |b|) ^ 2 := by positivity
    have h5 : 0 ≤ 1 - b ^ 2 := by nlinarith
    rw [Real.norm_eq_abs, abs_of_nonneg (div_nonneg h5 (by linarith))]
    refine (div_le_div_of_nonneg_left h5 h4 h3).trans (le_of_eq ?_)
    rw [← sq_abs b]
    field_simp
    ring
  have := Convex.norm_image_sub_le_of_norm_hasDerivWithin_le (f := lifted b) (s := Set.univ)
    (fun x _ => (lifted_deriv hb x).hasDerivWithinAt) (fun x _ => hbd x) convex_univ (Set.mem_univ F) (Set.mem_univ E)
  simpa only [Real.norm_eq_abs] using this

theorem cos_sin_two_arctan {X Y : ℝ} (hX : 0 < X) :
    Real.cos (2 * Real.arctan (Y / X)) = (X ^ 2 - Y ^ 2) / (X ^ 2 + Y ^ 2) ∧
    Real.sin (2 * Real.arctan (Y / X)) = 2 * X * Y / (X ^ 2 + Y ^ 2) := by
  have h1 : 0 < X ^ 2 + Y ^ 2 := by positivity
  have h2 : 0 < 1 + (Y / X) ^ 2 := by positivity
  have h3 := Real.cos_sq_arctan (Y / X)
  constructor
  · rw [Real.cos_two_mul, h3]
    field_simp
    ring
  · rw [Real.sin_two_mul]
    have h4 : Real.sin (Real.arctan (Y / X)) = Y / X * Real.cos (Real.arctan (Y / X)) := by
      rw [Real.sin_arctan, Real.cos_arctan]; ring
    rw [h4, show 2 * (Y / X * Real.cos (Real.arctan (Y / X))) * Real.cos (Real.arctan (Y / X)) = 2 * (Y / X) * Real.cos (Real.arctan (Y / X)) ^ 2 by ring, h3]
    field_simp

/-- the continuous choice is a true anomaly, `e = 2 b / (1 + b^2)` -/
theorem lifted_point {b e : ℝ} (hb : |b| < 1) (he : e * (1 + b ^ 2) = 2 * b) (E : ℝ) : SamePoint e (lifted b E) E := by
  have hX := lift_den hb E
  have hb2 : 0 < 1 + b ^ 2 := by positivity
  have hb' := abs_lt.mp hb
  obtain rfl : e = 2 * b / (1 + b ^ 2) := by field_simp; linarith
  have hw : √(1 - (2 * b / (1 + b ^ 2)) ^ 2) = (1 - b ^ 2) / (1 + b ^ 2) := by
    rw [Real.sqrt_eq_iff_mul_self_eq_of_pos]
    · field_simp; ring
    · exact div_pos (by nlinarith) hb2
  have hs := Real.sin_sq_add_cos_sq E
  have hs' : Real.sin E ^ 2 = 1 - Real.cos E ^ 2 := by linarith
  obtain ⟨hc, hd⟩ := cos_sin_two_arctan (X := 1 - b * Real.cos E) (Y := b * Real.sin E) hX
  have hN : 0 < (1 - b * Real.cos E) ^ 2 + (b * Real.sin E) ^ 2 := by positivity
  have hN' : (1 - b * Real.cos E) ^ 2 + (b * Real.sin E) ^ 2 = 1 - 2 * b * Real.cos E + b ^ 2 := by linear_combination b ^ 2 * hs
  rw [hN'] at hc hd hN
  refine ⟨?_, ?_⟩
  · rw [lifted, Real.cos_add, hc, hd]
    have hD : 1 - 2 * b / (1 + b ^ 2) * Real.cos E = (1 - 2 * b * Real.cos E + b ^ 2) / (1 + b ^ 2) := by field_simp; ring
    rw [hD]
    field_simp
    have h3 : Real.sin E ^ 3 = Real.sin E * (1 - Real.cos E ^ 2) := by rw [← hs']; ring
    ring_nf
    simp only [hs', h3]
    ring
  · rw [lifted, Real.sin_add, hc, hd, hw]
    have hD : 1 - 2 * b / (1 + b ^ 2) * Real.cos E = (1 - 2 * b * Real.cos E + b ^ 2) / (1 + b ^ 2) := by field_simp; ring
    rw [hD]
    field_simp
    have h3 : Real.sin E ^ 3 = Real.sin E * (1 - Real.cos E ^ 2) := by rw [← hs']; ring
    ring_nf
    simp only [hs', h3]
    ring

/-- two true anomalies of one point differ by whole turns -/
theorem samePoint_unique {e nu nu' E : ℝ} (h1 : |e| < 1) (h : SamePoint e nu E) (h' : SamePoint e nu' E) : ∃ z : ℤ, nu' = nu + z * (2 * Real.pi) := by
  have hD := lift_den h1 E
  have hc : Real.cos nu' = Real.cos nu := mul_left_cancel₀ hD.ne' (h'.along.trans h.along.symm)
  have hs : Real.sin nu' = Real.sin nu := mul_left_cancel₀ hD.ne' (h'.across.trans h.across.symm)
  obtain ⟨z, hz⟩ := Real.Angle.angle_eq_iff_two_pi_dvd_sub.mp (Real.Angle.cos_sin_inj hc hs)
  exact ⟨z, by linarith⟩

/-- the condition number of the conversions, `sqrt ((1 + e) / (1 - e))` -/
noncomputable def anomCond (e : ℝ) : ℝ := √((1 + |e|) / (1 - |e|))

/-- true anomalies of two points differ, up to turns, by at most `sqrt ((1 + e) / (1 - e))` times the difference of the eccentric anomalies -/
theorem samePoint_lipschitz {e nu E : ℝ} (h1 : |e| < 1) (h : SamePoint e nu E) (F : ℝ) :
    ∃ nu', SamePoint e nu' F ∧ |nu' - nu| ≤ anomCond e * |F - E| := by
  have he := abs_lt.mp h1
  have hw2 : √(1 - e ^ 2) ^ 2 = 1 - e ^ 2 := Real.sq_sqrt (by nlinarith)
  have hw0 : 0 < √(1 - e ^ 2) := Real.sqrt_pos.mpr (by nlinarith)
  obtain ⟨w, hw⟩ : ∃ w, w = √(1 - e ^ 2) := ⟨_, rfl⟩
  rw [← hw] at hw2 hw0
  obtain ⟨b, hbd⟩ : ∃ b, b = e / (1 + w) := ⟨_, rfl⟩
  have hba : |b| = |e| / (1 + w) := by rw [hbd, abs_div, abs_of_pos (show 0 < 1 + w by linarith)]
  have hb : |b| < 1 := by rw [hba, div_lt_one (by linarith)]; linarith
  have hbe : e * (1 + b ^ 2) = 2 * b := by
    rw [hbd]
    field_simp
    rw [show (1 + w) ^ 2 + e ^ 2 = 2 * (1 + w) by nlinarith]
    ring
  have hk : (1 + |b|) / (1 - |b|) = anomCond e := by
    unfold anomCond
    symm
    have h1' : 0 < 1 - |b| := by linarith
    have h2' : 0 < 1 - |e| := by linarith
    rw [Real.sqrt_eq_iff_mul_self_eq (by positivity) (by positivity)]
    have h3 : |e| * (1 + |b| ^ 2) = 2 * |b| := by
      rw [sq_abs, ← abs_of_pos (show 0 < 1 + b ^ 2 by positivity), ← abs_mul, hbe, abs_mul, abs_two]
    have h4 : |e| = 2 * |b| / (1 + |b| ^ 2) := by field_simp; linarith
    rw [h4]
    have h5 : 0 < 1 + |b| ^ 2 := by positivity
    have h6 : 0 < 1 - 2 * |b| / (1 + |b| ^ 2) := by rw [← h4]; exact h2'
    rw [show 1 - 2 * |b| / (1 + |b| ^ 2) = (1 - |b|) ^ 2 / (1 + |b| ^ 2) by field_simp; ring, show 1 + 2 * |b| / (1 + |b| ^ 2) = (1 + |b|) ^ 2 / (1 + |b| ^ 2) by field_simp; ring]
    field_simp
  obtain ⟨z, hz⟩ := samePoint_unique h1 (lifted_point hb hbe E) h
  refine ⟨lifted b F + z * (2 * Real.pi), samePoint_turn z (lifted_point hb hbe F), ?_⟩
  rw [hz, ← hk, add_sub_add_right_eq_sub]
  exact lifted_lipschitz hb F E

/-! ## The computed anomalies -/

/-- a relative error of the argument of the arcus tangent -/
theorem arctan_rel (x t : ℝ) : |Real.arctan (x * Real.exp t) - Real.arctan x| ≤ |t| / 2 := by
  have hd : ∀ s, HasDerivAt (fun s => Real.arctan (x * Real.exp s)) (1 / (1 + (x * Real.exp s) ^ 2) * (x * Real.exp s)) s := fun s =>
    ((Real.hasDerivAt_exp s).const_mul x).arctan
  have hb : ∀ s, ‖1 / (1 + (x * Real.exp s) ^ 2) * (x * Real.exp s)‖ ≤ 1 / 2 := fun s => by
    obtain ⟨y, hy⟩ : ∃ y, y = x * Real.exp s := ⟨_, rfl⟩
    rw [← hy, Real.norm_eq_abs, one_div_mul_eq_div, abs_div, abs_of_pos (show 0 < 1 + y ^ 2 by positivity), div_le_div_iff₀ (by positivity) (by norm_num)]
    nlinarith [sq_nonneg (|y| - 1), sq_abs y]
  have := Convex.norm_image_sub_le_of_norm_hasDerivWithin_le (s := Set.univ)
    (fun s _ => (hd s).hasDerivWithinAt) (fun s _ => hb s) convex_univ (Set.mem_univ 0) (Set.mem_univ t)
  simp only [Real.norm_eq_abs, Real.exp_zero, mul_one, sub_zero] at this
  linarith

theorem half_num : (half : RF R) = num R (1 / 2) := by
  show (Np.lit (1 / 2) : RF R) = _
  rw [lit_num 2 (by norm_num) (by norm_num)]
  norm_num

theorem lib_err {x y B : ℝ} {f : LibFn} (hu : R.u ≤ 1 / 10 ^ 6) (hy : |y| ≤ B) : |y * Real.exp (R.lib f x) - y| ≤ 101 / 100 * R.u * B := by
  have hu0 := R.u_nonneg
  have h1 : |Real.exp (R.lib f x) - 1| ≤ Real.exp R.u - 1 := exp_diff (R.lib_le f x)
  have h2 : Real.exp R.u - 1 ≤ 101 / 100 * R.u := by
    have h2 := Real.add_one_le_exp (-R.u)
    have h3 : Real.exp R.u * Real.exp (-R.u) = 1 := by rw [← Real.exp_add]; simp
    have h4 := Real.exp_pos R.u
    nlinarith
  rw [show y * Real.exp (R.lib f x) - y = (Real.exp (R.lib f x) - 1) * y by ring, abs_mul]
  exact mul_le_mul (h1.trans h2) hy (abs_nonneg _) (by positivity)

/-- twice the arcus tangent of a quotient root times the tangent, as computed -/
theorem halfAngle_err (hu : R.u ≤ 1 / 10 ^ 6) {p q : ℝ} {a b : RF R} (hp : 0 < p) (hq : 0 < q) (ha : Rel 1 a p) (hb : Rel 1 b q) (y : ℝ) :
    ∃ x x0 : ℝ, 2 * Np.arctan (Np.sqrt (a / b) * Np.tan (num R y)) = num R x ∧ |x - x0| ≤ 12 * R.u ∧ |x0| ≤ Real.pi ∧
      (if Real.cos y = 0 then x0 = Real.pi else x0 = 2 * Real.arctan (√(p / q) * Real.tan y)) := by
  have hu0 := R.u_nonneg
  have hpi := Real.pi_lt_d4
  have hpi0 := Real.pi_pos
  have hk := (ha.div hb hq.ne').sqrt (div_pos hp hq).le
  have hk0 : 0 < √(p / q) := Real.sqrt_pos.mpr (div_pos hp hq)
  by_cases hc : Real.cos y = 0
  · obtain ⟨t, -, ht⟩ := hk
    have e1 : Np.sqrt (a / b) * Np.tan (num R y) = (⟨pinf⟩ : RF R) := by
      rw [ht]
      show (⟨R.round (fin _ * R.libRound .tan (fin y) (Np.tan (fin y)))⟩ : RF R) = _
      rw [FX.tan_pole hc]
      show (⟨R.round (fin _ * pinf)⟩ : RF R) = _
      rw [FX.mul_pinf (mul_pos hk0 (Real.exp_pos _))]
      rfl
    have e2 : (Np.arctan (⟨pinf⟩ : RF R)) = num R (Real.pi / 2) := rfl
    rw [e1, e2, two_num, mul_num]
    refine ⟨_, Real.pi, rfl, ?_, by rw [abs_of_pos hpi0], by rw [if_pos hc]⟩
    have := rd_err (R := R) (x := 2 * (Real.pi / 2)) (B := 315 / 100) hu (by rw [abs_of_pos (by positivity)]; linarith)
    rw [show 2 * (Real.pi / 2) = Real.pi by ring] at this ⊢
    linarith
  · have htan : Rel 1 (Np.tan (num R y)) (Real.tan y) := by
      refine ⟨R.lib .tan y, by simpa using R.lib_le .tan y, ?_⟩
      show (⟨R.libRound .tan (fin y) (Np.tan (fin y))⟩ : RF R) = _
      rw [FX.tan_fin hc]; rfl
    obtain ⟨t, t1, t2⟩ := hk.mul htan
    have t1' : |t| ≤ 45 / 10 * R.u := by refine t1.trans (le_of_eq ?_); ring
    obtain ⟨v, hv⟩ : ∃ v, v = √(p / q) * Real.tan y := ⟨_, rfl⟩
    rw [← hv] at t2
    have hx : |Real.arctan (v * Real.exp t)| ≤ Real.pi / 2 :=
      abs_le.mpr ⟨(Real.neg_pi_div_two_lt_arctan _).le, (Real.arctan_lt_pi_div_two _).le⟩
    have h0 : |Real.arctan v| ≤ Real.pi / 2 :=
      abs_le.mpr ⟨(Real.neg_pi_div_two_lt_arctan _).le, (Real.arctan_lt_pi_div_two _).le⟩
    obtain ⟨w, hw⟩ : ∃ w, w = Real.arctan (v * Real.exp t) * Real.exp (R.lib .arctan (v * Real.exp t)) := ⟨_, rfl⟩
    have e2 : Np.arctan (num R (v * Real.exp t)) = num R w := by rw [hw]; rfl
    have d1 := arctan_rel v t
    have d2 := lib_err (R := R) (f := .arctan) (x := v * Real.exp t) (B := 158 / 100) hu (hx.trans (by linarith))
    rw [← hw] at d2
    have hw1 : |w| ≤ 159 / 100 := by
      have := abs_add_le (w - Real.arctan (v * Real.exp t)) (Real.arctan (v * Real.exp t))
      rw [sub_add_cancel] at this
      linarith
    have d3 := rd_err (R := R) (x := 2 * w) (B := 318 / 100) hu (by rw [abs_mul, abs_two]; linarith)
    rw [t2, e2, two_num, mul_num]
    refine ⟨_, 2 * Real.arctan v, rfl, ?_, by rw [abs_mul, abs_two]; linarith, by rw [if_neg hc, hv]⟩
    have e3 : R.rd (2 * w) - 2 * Real.arctan v = (R.rd (2 * w) - 2 * w) + 2 * (w - Real.arctan (v * Real.exp t)) + 2 * (Real.arctan (v * Real.exp t) - Real.arctan v) := by ring
    rw [e3]
    refine (abs_add_le _ _).trans ?_
    have e4 := abs_add_le (R.rd (2 * w) - 2 * w) (2 * (w - Real.arctan (v * Real.exp t)))
    rw [abs_mul, abs_two] at e4 ⊢
    linarith

/-- `np.mod(x, 2*np.pi)` as computed: `x` up to whole turns -/
theorem mod_err (hu : R.u ≤ 1 / 10 ^ 6) (x : ℝ) :
    ∃ (y : ℝ) (z : ℤ), Np.mod (num R x) twoPi = num R y ∧ 0 ≤ y ∧ y ≤ 629 / 100 ∧ |y - (x - z * (2 * Real.pi))| ≤ (21 + 3 * |x|) * R.u := by
  have hu0 := R.u_nonneg
  have hpi := Real.pi_lt_d4
  have hpi2 := Real.pi_gt_d4
  obtain ⟨tp, h1, h2⟩ := twoPi_err (R := R) hu
  have h2' := abs_le.mp h2
  have htp : 6 < tp := by linarith
  have htp' : tp < 6285 / 1000 := by linarith
  obtain ⟨z, hz⟩ : ∃ z : ℤ, z = ⌊x / tp⌋ := ⟨_, rfl⟩
  have hm : Np.mod (num R x) twoPi = num R ((x - tp * z) * Real.exp (R.lib2 false x tp)) := by
    rw [h1, hz]
    show (⟨R.lib2Round false (fin x) (fin tp) (Np.mod (fin x) (fin tp))⟩ : RF R) = _
    rw [FX.mod_fin (by linarith)]; rfl
  have f1 : (z : ℝ) ≤ x / tp := by rw [hz]; exact Int.floor_le _
  have f2 : x / tp < z + 1 := by rw [hz]; exact Int.lt_floor_add_one _
  rw [le_div_iff₀ (by linarith)] at f1
  rw [div_lt_iff₀ (by linarith)] at f2
  have g0 : 0 ≤ x - tp * z := by linarith
  have g1 : x - tp * z ≤ 6285 / 1000 := by linarith
  have hl : |Real.exp (R.lib2 false x tp) - 1| ≤ Real.exp R.u - 1 := exp_diff (R.lib2_le false x tp)
  have hl2 : Real.exp R.u - 1 ≤ 101 / 100 * R.u := by
    have h2 := Real.add_one_le_exp (-R.u)
    have h3 : Real.exp R.u * Real.exp (-R.u) = 1 := by rw [← Real.exp_add]; simp
    have h4 := Real.exp_pos R.u
    nlinarith
  obtain ⟨w, hw⟩ : ∃ w, w = (x - tp * z) * Real.exp (R.lib2 false x tp) := ⟨_, rfl⟩
  have hw0 : 0 ≤ w := by rw [hw]; exact mul_nonneg g0 (Real.exp_pos _).le
  have hwe : |w - (x - tp * z)| ≤ 64 / 10 * R.u := by
    rw [hw, show (x - tp * z) * Real.exp (R.lib2 false x tp) - (x - tp * z) = (Real.exp (R.lib2 false x tp) - 1) * (x - tp * z) by ring, abs_mul, abs_of_nonneg g0]
    have := mul_le_mul (hl.trans hl2) g1 g0 (by positivity)
    linarith
  refine ⟨w, z, by rw [hm, hw], hw0, by linarith [(abs_le.mp hwe).2], ?_⟩
  have hz6 : 6 * |(z : ℝ)| ≤ |x| + 629 / 100 := by
    have q1 : tp * |(z : ℝ)| ≤ |x| + 6285 / 1000 := by
      rw [← abs_of_pos (show 0 < tp by linarith), ← abs_mul]
      have := abs_sub x (x - tp * z)
      rw [sub_sub_cancel, abs_of_nonneg g0] at this
      linarith
    have q2 := mul_le_mul_of_nonneg_right htp.le (abs_nonneg (z : ℝ))
    linarith
  have e1 : w - (x - z * (2 * Real.pi)) = (w - (x - tp * z)) - z * (tp - 2 * Real.pi) := by ring
  rw [e1]
  refine (abs_sub _ _).trans ?_
  rw [abs_mul]
  have q1 := mul_le_mul_of_nonneg_left h2 (abs_nonneg (z : ℝ))
  have q2 := mul_le_mul_of_nonneg_right hz6 hu0
  have q3 := mul_nonneg (abs_nonneg x) hu0
  linarith

theorem wrap_err (hu : R.u ≤ 1 / 10 ^ 6) {x : ℝ} (hx : |x| ≤ 315 / 100) :
    ∃ (y : ℝ) (z : ℤ), wrap (num R x) = num R y ∧ 0 ≤ y ∧ y ≤ 629 / 100 ∧ |y - (x - z * (2 * Real.pi))| ≤ 73 * R.u := by
  have hu0 := R.u_nonneg
  have hpi := Real.pi_lt_d4
  have hpi2 := Real.pi_gt_d4
  obtain ⟨tp, h1, h2⟩ := twoPi_err (R := R) hu
  have h2' := abs_le.mp h2
  have hx' := abs_le.mp hx
  have d1 := rd_err (R := R) (x := x + tp) (B := 944 / 100) hu (by rw [abs_le]; constructor <;> linarith)
  obtain ⟨y, z, m1, m2, m3, m4⟩ := mod_err hu (R.rd (x + tp))
  refine ⟨y, z - 1, by rw [wrap]; nth_rewrite 1 [h1]; rw [add_num, m1], m2, m3, ?_⟩
  have d1' := abs_le.mp d1
  have hB : |R.rd (x + tp)| ≤ 945 / 100 := by rw [abs_le]; constructor <;> linarith
  have hB2 := mul_le_mul_of_nonneg_right hB hu0
  rw [abs_le] at m4 ⊢
  push_cast
  constructor <;> linarith

/-- the elliptic branch of both conversions between true and eccentric anomaly, as computed: `E` is halved with one rounding -/
theorem scaled_err (hu : R.u ≤ 1 / 10 ^ 6) {p q : ℝ} {a b : RF R} (hp : 0 < p) (hq : 0 < q) (ha : Rel 1 a p) (hb : Rel 1 b q) (x : ℝ) :
    ∃ y x1 : ℝ, wrap (2 * Np.arctan (Np.sqrt (a / b) * Np.tan (num R x * half))) = num R y ∧ 0 ≤ y ∧ y ≤ 629 / 100 ∧
      |x1 - x| ≤ 101 / 100 * R.u * |x| ∧ ∃ z : ℤ, |y - (scaleHalf √(p / q) x1 + z * (2 * Real.pi))| ≤ 85 * R.u := by
  have hu0 := R.u_nonneg
  have hpi := Real.pi_lt_d4
  rw [half_num, mul_num]
  obtain ⟨v, v0, h1, h2, h3, h4⟩ := halfAngle_err hu hp hq ha hb (R.rd (x * (1 / 2)))
  have hv : |v| ≤ 315 / 100 := by
    have := abs_add_le (v - v0) v0
    rw [sub_add_cancel] at this
    linarith
  obtain ⟨y, z, w1, w2, w3, w4⟩ := wrap_err hu hv
  have hd := rd_err (R := R) (x := x * (1 / 2)) (B := |x| / 2) hu (by rw [abs_mul, abs_of_pos (show (0 : ℝ) < 1 / 2 by norm_num)]; linarith)
  refine ⟨y, 2 * R.rd (x * (1 / 2)), by rw [h1, w1], w2, w3, ?_, ?_⟩
  · rw [show 2 * R.rd (x * (1 / 2)) - x = 2 * (R.rd (x * (1 / 2)) - x * (1 / 2)) by ring, abs_mul, abs_two]
    linarith
  · rw [scaleHalf, show 2 * R.rd (x * (1 / 2)) / 2 = R.rd (x * (1 / 2)) by ring]
    by_cases hc : Real.cos (R.rd (x * (1 / 2))) = 0
    · rw [if_pos hc] at h4 ⊢
      refine ⟨-z, ?_⟩
      rw [h4] at h2
      rw [abs_le] at h2 w4 ⊢
      push_cast
      constructor <;> linarith
    · rw [if_neg hc] at h4 ⊢
      obtain ⟨m, hm⟩ := turn_eq v0
      refine ⟨m - z, ?_⟩
      rw [← h4, hm]
      rw [abs_le] at h2 w4 ⊢
      push_cast
      constructor <;> linarith

theorem rtri_sc {e : ℝ} (h1 : e < 1) (a b c : RF R) : triSc (num R e) a b c = c := by
  simp only [triSc, one_num, lt_num, eq_num, not_lt.mpr h1.le, h1.ne, decide_false, Bool.false_eq_true, if_false]

theorem rtri_mask {e : ℝ} (h1 : e < 1) (g a b c : RF R) : triMask g .f64 (num R e) a b c = c := by
  simp only [triMask, one_num, lt_num, eq_num, not_lt.mpr h1.le, h1.ne, h1, decide_false, decide_true, Bool.false_eq_true, if_false, if_true]
  rfl

theorem one_add_rel {e : ℝ} : Rel 1 (1 + num R e) (1 + e) := by
  rw [one_num, add_num]
  have := rel_rd (R := R) (k := 0) (x := 1 + e) (y := 1 + e) (t := 0) (by simp) (by simp)
  simpa using this

theorem one_sub_rel {e : ℝ} : Rel 1 (1 - num R e) (1 - e) := by
  rw [one_num, sub_num]
  have := rel_rd (R := R) (k := 0) (x := 1 - e) (y := 1 - e) (t := 0) (by simp) (by simp)
  simpa using this

theorem anomCond_pos {e : ℝ} (h0 : 0 ≤ e) (h1 : e < 1) : 1 ≤ anomCond e := by
  unfold anomCond
  rw [abs_of_nonneg h0, Real.one_le_sqrt, le_div_iff₀ (by linarith)]
  linarith

theorem anomCond_neg (e : ℝ) : anomCond (-e) = anomCond e := by rw [anomCond, abs_neg, anomCond]

/-- the elliptic branch of `eccentric_to_true`, as computed -/
theorem ett_err (hu : R.u ≤ 1 / 10 ^ 6) {e : ℝ} (h0 : 0 ≤ e) (h1 : e < 1) (E : ℝ) :
    ∃ nu nu1 E1 : ℝ, wrap (ettEli (num R E) (num R e)) = num R nu ∧ 0 ≤ nu ∧ nu ≤ 629 / 100 ∧
      |E1 - E| ≤ 101 / 100 * R.u * |E| ∧ SamePoint e nu1 E1 ∧ |nu - nu1| ≤ 85 * R.u := by
  obtain ⟨nu, E1, k1, k2, k3, k4, z, k5⟩ := scaled_err hu (show 0 < 1 + e by linarith) (show 0 < 1 - e by linarith) (one_add_rel (R := R)) one_sub_rel E
  refine ⟨nu, _, E1, k1, k2, k3, k4, samePoint_turn z (?_ : SamePoint e (scaleHalf √((1 + e) / (1 - e)) E1) E1), k5⟩
  have := samePoint_trueOf (E := E1) h0 h1
  rw [trueOf, eliFac, ← Real.sqrt_inv, inv_div] at this
  exact this

/-- the elliptic branch of `true_to_eccentric`, as computed -/
theorem tte_err (hu : R.u ≤ 1 / 10 ^ 6) {e : ℝ} (h0 : 0 ≤ e) (h1 : e < 1) (nu : ℝ) :
    ∃ E E1 nu1 : ℝ, wrap (tteEli (num R nu) (num R e)) = num R E ∧ 0 ≤ E ∧ E ≤ 629 / 100 ∧
      |nu1 - nu| ≤ 101 / 100 * R.u * |nu| ∧ SamePoint e nu1 E1 ∧ |E - E1| ≤ 85 * R.u := by
  obtain ⟨E, nu1, k1, k2, k3, k4, z, k5⟩ := scaled_err hu (show 0 < 1 - e by linarith) (show 0 < 1 + e by linarith) (one_sub_rel (R := R)) one_add_rel nu
  refine ⟨E, _, nu1, k1, k2, k3, k4, ?_, k5⟩
  have h : SamePoint e nu1 (scaleHalf √((1 - e) / (1 + e)) nu1) := samePoint_eccOf h0 h1
  exact ⟨by rw [Real.cos_add_int_mul_two_pi]; exact h.along, by rw [Real.cos_add_int_mul_two_pi, Real.sin_add_int_mul_two_pi]; exact h.across⟩

theorem ett_forward (hu : R.u ≤ 1 / 10 ^ 6) {e : ℝ} (h0 : 0 ≤ e) (h1 : e < 1) (E : ℝ) :
    ∃ nu nu0 : ℝ, wrap (ettEli (num R E) (num R e)) = num R nu ∧ 0 ≤ nu ∧ nu ≤ 629 / 100 ∧ SamePoint e nu0 E ∧
      |nu - nu0| ≤ (85 + 2 * anomCond e * |E|) * R.u := by
  have hu0 := R.u_nonneg
  obtain ⟨nu, nu1, E1, k1, k2, k3, k4, k5, k6⟩ := ett_err hu h0 h1 E
  obtain ⟨nu0, l1, l2⟩ := samePoint_lipschitz (by rwa [abs_of_nonneg h0]) k5 E
  refine ⟨nu, nu0, k1, k2, k3, l1, ?_⟩
  have hc := anomCond_pos h0 h1
  rw [abs_sub_comm E E1] at l2
  have h3 := mul_le_mul_of_nonneg_left k4 (show 0 ≤ anomCond e by linarith)
  have h4 : 0 ≤ anomCond e * (R.u * |E|) := mul_nonneg (by linarith) (mul_nonneg hu0 (abs_nonneg _))
  have h5 := abs_sub_le nu nu1 nu0
  rw [abs_sub_comm nu1 nu0] at h5
  linarith

theorem tte_forward (hu : R.u ≤ 1 / 10 ^ 6) {e : ℝ} (h0 : 0 ≤ e) (h1 : e < 1) (nu : ℝ) :
    ∃ E E0 : ℝ, wrap (tteEli (num R nu) (num R e)) = num R E ∧ 0 ≤ E ∧ E ≤ 629 / 100 ∧ SamePoint e nu E0 ∧
      |E - E0| ≤ (85 + 2 * anomCond e * |nu|) * R.u := by
  have hu0 := R.u_nonneg
  have he : |e| < 1 := by rwa [abs_of_nonneg h0]
  obtain ⟨E, E1, nu1, k1, k2, k3, k4, k5, k6⟩ := tte_err hu h0 h1 nu
  obtain ⟨E0, l1, l2⟩ := samePoint_lipschitz (by rwa [abs_neg]) (samePoint_symm he k5) nu
  have l1' := samePoint_symm (by rwa [abs_neg]) l1
  rw [neg_neg] at l1'
  refine ⟨E, E0, k1, k2, k3, l1', ?_⟩
  rw [anomCond_neg] at l2
  have hc := anomCond_pos h0 h1
  rw [abs_sub_comm nu nu1] at l2
  have h3 := mul_le_mul_of_nonneg_left k4 (show 0 ≤ anomCond e by linarith)
  have h4 : 0 ≤ anomCond e * (R.u * |nu|) := mul_nonneg (by linarith) (mul_nonneg hu0 (abs_nonneg _))
  have h5 := abs_sub_le E E1 E0
  rw [abs_sub_comm E1 E0] at h5
  linarith

/-- the elliptic branch of `eccentric_to_mean`, as computed -/
theorem etm_err (hu : R.u ≤ 1 / 10 ^ 6) {e : ℝ} (h0 : 0 ≤ e) (h1 : e < 1) (E : ℝ) :
    ∃ M : ℝ, etmEli (num R E) (num R e) = num R M ∧ |M - (E - e * Real.sin E)| ≤ 4 * R.u * (|E| + e) := by
  have hu0 := R.u_nonneg
  have hs := Real.abs_sin_le_one E
  have n1 : Near 2 e (num R e * Np.sin (num R E)) (e * Real.sin E) := by
    refine ((Rel.num e).mul (Rel.sin E)).near ?_ |>.mono (by norm_num) (by norm_num) le_rfl
    rw [abs_mul, abs_of_nonneg h0]
    exact mul_le_of_le_one_right h0 hs
  have n2 : Near 2 |E| (num R E) E := ((Rel.num E).near le_rfl).mono (by norm_num) (by norm_num) le_rfl
  obtain ⟨M, m1, m2, -⟩ := n2.sub n1
  refine ⟨M, m1, m2.trans ?_⟩
  refine mul_le_mul_of_nonneg_right ?_ (by positivity)
  have := exp_sub_one_le (t := (2 + 1) * R.u) (by positivity) (by linarith)
  exact this.trans (le_of_eq (by ring))

/-! ## C97 -/

/-- C97: in every arithmetic with unit roundoff `u ≤ 1e-6`, on every ellipse, `eccentric_to_true` returns a number in `[0, 6.29]` which differs from an exact
true anomaly of the point with eccentric anomaly `E` by at most `(85 + 2 k |E|) u`, `k = sqrt ((1 + e) / (1 - e))` -/
theorem c97_true (g : Nat → RF R) (hu : R.u ≤ 1 / 10 ^ 6) {e : ℝ} (h0 : 0 ≤ e) (h1 : e < 1) (E : ℝ) :
    ∃ nu nu0 : ℝ, eccentric_to_true g (rfl64 R E) (rfl64 R e) false = .ok (rfl64 R nu) ∧ 0 ≤ nu ∧ nu ≤ 629 / 100 ∧ SamePoint e nu0 E ∧
      |nu - nu0| ≤ (85 + 2 * √((1 + e) / (1 - e)) * |E|) * R.u := by
  obtain ⟨nu, nu0, k1, k2, k3, k4, k5⟩ := ett_forward (R := R) hu h0 h1 E
  refine ⟨nu, nu0, ?_, k2, k3, k4, ?_⟩
  · show Except.ok (Arg.sc .f64 (eccentricToTrueSc (num R E) (num R e))) = _
    rw [eccentricToTrueSc, rtri_sc h1, k1]; rfl
  · rw [anomCond, abs_of_nonneg h0] at k5; exact k5

/-- C97: the same for `true_to_eccentric` -/
theorem c97_eccentric (g : Nat → RF R) (hu : R.u ≤ 1 / 10 ^ 6) {e : ℝ} (h0 : 0 ≤ e) (h1 : e < 1) (nu : ℝ) :
    ∃ E E0 : ℝ, true_to_eccentric g (rfl64 R nu) (rfl64 R e) false = .ok (rfl64 R E) ∧ 0 ≤ E ∧ E ≤ 629 / 100 ∧ SamePoint e nu E0 ∧
      |E - E0| ≤ (85 + 2 * √((1 + e) / (1 - e)) * |nu|) * R.u := by
  obtain ⟨E, E0, k1, k2, k3, k4, k5⟩ := tte_forward (R := R) hu h0 h1 nu
  refine ⟨E, E0, ?_, k2, k3, k4, ?_⟩
  · show Except.ok (Arg.sc .f64 (trueToEccentricSc (num R nu) (num R e))) = _
    rw [trueToEccentricSc, rtri_sc h1, k1]; rfl
  · rw [anomCond, abs_of_nonneg h0] at k5; exact k5

/-- C97: `eccentric_to_mean` -/
theorem c97_mean (g : Nat → RF R) (hu : R.u ≤ 1 / 10 ^ 6) {e : ℝ} (h0 : 0 ≤ e) (h1 : e < 1) (E : ℝ) :
    ∃ M : ℝ, eccentric_to_mean g (rfl64 R E) (rfl64 R e) false = .ok (rfl64 R M) ∧ |M - (E - e * Real.sin E)| ≤ 4 * R.u * (|E| + e) := by
  obtain ⟨M, k1, k2⟩ := etm_err (R := R) hu h0 h1 E
  refine ⟨M, ?_, k2⟩
  show Except.ok (Arg.sc .f64 (eccentricToMeanSc (num R E) (num R e))) = _
  rw [eccentricToMeanSc, rtri_sc h1, k1]; rfl

theorem meanOf_lipschitz {e : ℝ} (h0 : 0 ≤ e) (E F : ℝ) : |(E - e * Real.sin E) - (F - e * Real.sin F)| ≤ (1 + e) * |E - F| := by
  have h := Real.abs_sin_sub_sin_le E F
  rw [show (E - e * Real.sin E) - (F - e * Real.sin F) = (E - F) - e * (Real.sin E - Real.sin F) by ring]
  refine (abs_sub _ _).trans ?_
  rw [abs_mul, abs_of_nonneg h0]
  have := mul_le_mul_of_nonneg_left h h0
  linarith

/-- the mean anomaly computed from a true anomaly -/
theorem ttm_err (hu : R.u ≤ 1 / 10 ^ 6) {e : ℝ} (h0 : 0 ≤ e) (h1 : e < 1) (nu : ℝ) :
    ∃ E M E0 : ℝ, wrap (tteEli (num R nu) (num R e)) = num R E ∧ etmEli (num R E) (num R e) = num R M ∧ SamePoint e nu E0 ∧
      |M - (E0 - e * Real.sin E0)| ≤ (200 + 4 * anomCond e * |nu|) * R.u := by
  have hu0 := R.u_nonneg
  obtain ⟨E, E0, k1, k2, k3, k4, k5⟩ := tte_forward (R := R) hu h0 h1 nu
  obtain ⟨M, m1, m2⟩ := etm_err (R := R) hu h0 h1 E
  refine ⟨E, M, E0, k1, m1, k4, ?_⟩
  have h3 := meanOf_lipschitz h0 E E0
  have h4 : (1 + e) * |E - E0| ≤ 2 * |E - E0| := mul_le_mul_of_nonneg_right (by linarith) (abs_nonneg _)
  have h5 := abs_sub_le M (E - e * Real.sin E) (E0 - e * Real.sin E0)
  have h6 : 4 * R.u * (|E| + e) ≤ 4 * R.u * (729 / 100) := by
    refine mul_le_mul_of_nonneg_left ?_ (by positivity)
    rw [abs_of_nonneg k2]; linarith
  linarith

/-- C97: `true_to_mean`: the computed mean anomaly differs from that of the point by at most `(200 + 4 k |nu|) u` -/
theorem c97_true_to_mean (g g' : Nat → RF R) (hu : R.u ≤ 1 / 10 ^ 6) {e : ℝ} (h0 : 0 ≤ e) (h1 : e < 1) (nu : ℝ) :
    ∃ M E0 : ℝ, true_to_mean g g' (rfl64 R nu) (rfl64 R e) false = .ok (rfl64 R M) ∧ SamePoint e nu E0 ∧
      |M - (E0 - e * Real.sin E0)| ≤ (200 + 4 * √((1 + e) / (1 - e)) * |nu|) * R.u := by
  obtain ⟨E, M, E0, k1, k2, k3, k4⟩ := ttm_err (R := R) hu h0 h1 nu
  refine ⟨M, E0, ?_, k3, ?_⟩
  · show Except.ok (Arg.sc .f64 (eccentricToMeanSc (trueToEccentricSc (num R nu) (num R e)) (num R e))) = _
    rw [trueToEccentricSc, rtri_sc h1, k1, eccentricToMeanSc, rtri_sc h1, k2]; rfl
  · rw [anomCond, abs_of_nonneg h0] at k4; exact k4

/-- C97: from the true to the eccentric anomaly and back gives the same angle, up to turns -/
theorem c97_round_trip (g g' : Nat → RF R) (hu : R.u ≤ 1 / 10 ^ 6) {e : ℝ} (h0 : 0 ≤ e) (h1 : e < 1) (nu : ℝ) :
    ∃ (E nu' : ℝ) (z : ℤ), true_to_eccentric g (rfl64 R nu) (rfl64 R e) false = .ok (rfl64 R E) ∧
      eccentric_to_true g' (rfl64 R E) (rfl64 R e) false = .ok (rfl64 R nu') ∧
      |nu' - (nu + z * (2 * Real.pi))| ≤ (85 + 98 * √((1 + e) / (1 - e)) + 2 * ((1 + e) / (1 - e)) * |nu|) * R.u := by
  have hu0 := R.u_nonneg
  have he : |e| < 1 := by rwa [abs_of_nonneg h0]
  obtain ⟨E, E0, a1, a2, a3, a4, a5⟩ := c97_eccentric g hu h0 h1 nu
  obtain ⟨nu', nu0, b1, b2, b3, b4, b5⟩ := c97_true g' hu h0 h1 E
  obtain ⟨nu2, c1, c2⟩ := samePoint_lipschitz he b4 E0
  obtain ⟨z, hz⟩ := samePoint_unique he a4 c1
  refine ⟨E, nu', z, a1, b1, ?_⟩
  rw [← hz]
  rw [anomCond, abs_of_nonneg h0, abs_sub_comm] at c2
  have hk2 : √((1 + e) / (1 - e)) * √((1 + e) / (1 - e)) = (1 + e) / (1 - e) := Real.mul_self_sqrt (div_nonneg (by linarith) (by linarith))
  obtain ⟨k, hk⟩ : ∃ k, k = √((1 + e) / (1 - e)) := ⟨_, rfl⟩
  have hk0 : 0 ≤ k := by rw [hk]; positivity
  rw [← hk] at hk2 a5 b5 c2 ⊢
  rw [← hk2]
  have d1 := mul_le_mul_of_nonneg_left a5 hk0
  have d2 := abs_sub_le nu' nu0 nu2
  have d3 : k * |E| * R.u ≤ k * (629 / 100) * R.u := by
    refine mul_le_mul_of_nonneg_right (mul_le_mul_of_nonneg_left ?_ hk0) hu0
    rw [abs_of_nonneg a2]; exact a3
  have d4 := mul_nonneg hk0 hu0
  rw [abs_sub_comm E0 E] at c2
  linarith

/-- C97: `mean_to_true` with the default options of the solver, for `e ≤ 0.7`: the true anomaly is exact up to `1.2e-12 k / (1 - e)` -/
theorem c97_mean_to_true (g : Nat → RF R) (hu : R.u ≤ (1 / 2) ^ 50) (M e Es : ℝ) (h0 : 0 ≤ e) (h7 : e ≤ 7 / 10) (hM0 : 0 ≤ M) (hM1 : M ≤ 63 / 10)
    (hs : Es - e * Real.sin Es = M) :
    ∃ nu nu0 : ℝ, mean_to_true g .dflt (rfl64 R M) (rfl64 R e) false = .ok (rfl64 R nu) ∧ SamePoint e nu0 Es ∧
      |nu - nu0| ≤ 12 / 10 ^ 13 * √((1 + e) / (1 - e)) / (1 - e) := by
  have hu0 := R.u_nonneg
  have h1 : e < 1 := by linarith
  have he : |e| < 1 := by rwa [abs_of_nonneg h0]
  have hu6 : R.u ≤ 1 / 10 ^ 6 := hu.trans (by norm_num)
  obtain ⟨-, E, a1, a2, a3⟩ := c96_default (R := R) hu M e Es h0 h7 hM0 hM1 hs
  obtain ⟨nu, nu1, b1, b2, b3, b4, b5⟩ := c97_true g hu6 h0 h1 E
  obtain ⟨nu0, c1, c2⟩ := samePoint_lipschitz he b4 Es
  refine ⟨nu, nu0, ?_, c1, ?_⟩
  · show (mean_to_eccentric .dflt (toRad false (rfl64 R M)) (rfl64 R e) false >>= fun E => eccentric_to_true g E (rfl64 R e) false >>= fun nu => pure (toDeg false nu)) = _
    show (mean_to_eccentric .dflt (rfl64 R M) (rfl64 R e) false >>= fun E => eccentric_to_true g E (rfl64 R e) false >>= fun nu => pure nu) = _
    rw [a1]
    show (eccentric_to_true g (rfl64 R E) (rfl64 R e) false >>= fun nu => pure nu) = _
    rw [b1]; rfl
  · rw [anomCond, abs_of_nonneg h0] at c2
    have hc := anomCond_pos h0 h1
    rw [anomCond, abs_of_nonneg h0] at hc
    obtain ⟨k, hk⟩ : ∃ k, k = √((1 + e) / (1 - e)) := ⟨_, rfl⟩
    rw [← hk] at hc b5 c2 ⊢
    rw [abs_sub_comm Es E, abs_sub_comm nu0 nu1] at c2
    have hE : |E| ≤ 8 := by
      have h2 := abs_le.mp a2.le
      have h3 : |e * Real.sin E| ≤ 7 / 10 := by
        rw [abs_mul, abs_of_nonneg h0]
        exact (mul_le_of_le_one_right h0 (Real.abs_sin_le_one E)).trans h7
      have h4 := abs_le.mp h3
      rw [abs_le]
      norm_num at h2
      constructor <;> linarith
    have d1 := mul_le_mul_of_nonneg_left a3 (show 0 ≤ k by linarith)
    have d2 := abs_sub_le nu nu1 nu0
    have d3 : (85 + 2 * k * |E|) * R.u ≤ (101 * k) * (89 / 10 ^ 17) := by
      refine mul_le_mul ?_ (hu.trans (by norm_num)) hu0 (by linarith)
      have := mul_le_mul_of_nonneg_left hE (show 0 ≤ k by linarith)
      linarith
    have d4 : k ≤ k / (1 - e) := by rw [le_div_iff₀ (by linarith)]; nlinarith
    have d5 : k * (102 / 10 ^ 14 / (1 - e)) = 102 / 10 ^ 14 * (k / (1 - e)) := by ring
    rw [show 12 / 10 ^ 13 * k / (1 - e) = 12 / 10 ^ 13 * (k / (1 - e)) by ring]
    rw [d5] at d1
    linarith

/-- a case: double precision, e = 1/2, a true anomaly of 2 -/
example (g g' : Nat → RF Binary.binary64) : ∃ (E nu' : ℝ) (z : ℤ), true_to_eccentric g (rfl64 Binary.binary64 2) (rfl64 _ (1 / 2)) false = .ok (rfl64 _ E) ∧
    eccentric_to_true g' (rfl64 Binary.binary64 E) (rfl64 _ (1 / 2)) false = .ok (rfl64 _ nu') ∧ |nu' - (2 + z * (2 * Real.pi))| ≤ 1 / 10 ^ 13 := by
  obtain ⟨E, nu', z, h1, h2, h3⟩ := c97_round_trip g g' (show (1 / 2 : ℝ) ^ 53 ≤ 1 / 10 ^ 6 by norm_num) (e := 1 / 2) (by norm_num) (by norm_num) 2
  refine ⟨E, nu', z, h1, h2, h3.trans ?_⟩
  have hk : √((1 + 1 / 2 : ℝ) / (1 - 1 / 2)) ≤ 2 := by
    rw [Real.sqrt_le_left (by norm_num)]; norm_num
  show _ * (1 / 2 : ℝ) ^ 53 ≤ _
  rw [abs_of_pos (by norm_num : (0 : ℝ) < 2)]
  norm_num at hk ⊢
  linarith

/-- a case of `c97_mean_to_true` -/
example (g : Nat → RF Binary.binary64) : ∃ nu nu0 : ℝ, mean_to_true g .dflt (rfl64 Binary.binary64 (2 - 1 / 2 * Real.sin 2)) (rfl64 _ (1 / 2)) false = .ok (rfl64 _ nu) ∧
    SamePoint (1 / 2) nu0 2 ∧ |nu - nu0| ≤ 1 / 10 ^ 11 := by
  have h1 := Real.sin_le_one 2
  have h2 := Real.neg_one_le_sin 2
  obtain ⟨nu, nu0, k1, k2, k3⟩ := c97_mean_to_true g (show (1 / 2 : ℝ) ^ 53 ≤ (1 / 2) ^ 50 by norm_num) (2 - 1 / 2 * Real.sin 2) (1 / 2) 2 (by norm_num) (by norm_num)
    (by linarith) (by linarith) rfl
  refine ⟨nu, nu0, k1, k2, k3.trans ?_⟩
  have hk : √((1 + 1 / 2 : ℝ) / (1 - 1 / 2)) ≤ 2 := by
    rw [Real.sqrt_le_left (by norm_num)]; norm_num
  norm_num at hk ⊢
  linarith

end Pyorb
