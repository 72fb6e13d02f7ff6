import Verif.PropsConvergeHyp
import Verif.PropsNewtonOpen
import Verif.PropsOrbitMotion
import Mathlib.Analysis.SpecialFunctions.Trigonometric.Angle
import Mathlib.Tactic.Set

/-!
# C81: true anomaly -> mean anomaly -> true anomaly, and back, with the default solver options

On an ellipse the true anomaly is a smooth function of the eccentric one, `E + 2 arctan (b sin E / (1 - b cos E))`, whose slope is at most
`sqrt((1+e)/(1-e))`; on a hyperbola it is `2 arctan (sqrt((e+1)/(e-1)) tanh (E/2))` with slope at most `sqrt((e+1)/(e-1))`.
-/

namespace Pyorb
open FX Orbit

/-! ## Slopes -/

/-- the true anomaly as a continuous function of the eccentric anomaly, `k = sqrt((1-e)/(1+e))` -/
noncomputable def nuLift (k E : ℝ) : ℝ :=
  E + 2 * Real.arctan ((1 - k) / (1 + k) * Real.sin E / (1 - (1 - k) / (1 + k) * Real.cos E))

theorem nuLift_den {k : ℝ} (hk : 0 < k) (hk1 : k ≤ 1) (E : ℝ) : 0 < 1 - (1 - k) / (1 + k) * Real.cos E := by
  have hb0 : 0 ≤ (1 - k) / (1 + k) := div_nonneg (by linarith) (by linarith)
  have hb1 : (1 - k) / (1 + k) < 1 := by rw [div_lt_one (by linarith)]; linarith
  nlinarith [Real.cos_le_one E]

theorem nuLift_deriv {k : ℝ} (hk : 0 < k) (hk1 : k ≤ 1) (E : ℝ) :
    ∃ m, HasDerivAt (nuLift k) m E ∧ |m| ≤ k⁻¹ := by
  have hD := nuLift_den hk hk1 E
  set b := (1 - k) / (1 + k) with hb
  have hb0 : 0 ≤ b := div_nonneg (by linarith) (by linarith)
  have hb1 : b < 1 := by rw [hb, div_lt_one (by linarith)]; linarith
  have hsc := Real.sin_sq_add_cos_sq E
  have hQ : 0 < 1 - 2 * b * Real.cos E + b ^ 2 := by nlinarith [sq_nonneg (1 - b * Real.cos E), sq_nonneg (b * Real.sin E)]
  have h1 : HasDerivAt (fun x => b * Real.sin x / (1 - b * Real.cos x))
      ((b * Real.cos E * (1 - b * Real.cos E) - b * Real.sin E * (b * Real.sin E)) / (1 - b * Real.cos E) ^ 2) E := by
    have hn : HasDerivAt (fun x => b * Real.sin x) (b * Real.cos E) E := (Real.hasDerivAt_sin E).const_mul b
    have hd : HasDerivAt (fun x => 1 - b * Real.cos x) (b * Real.sin E) E := by
      have := ((Real.hasDerivAt_cos E).const_mul b).const_sub 1
      simpa using this
    exact hn.div hd hD.ne'
  have h2 := (hasDerivAt_id E).add ((h1.arctan).const_mul 2)
  refine ⟨(1 - b ^ 2) / (1 - 2 * b * Real.cos E + b ^ 2), ?_, ?_⟩
  · refine h2.congr_deriv ?_
    have hD' := hD.ne'
    have hS : (1 - b * Real.cos E) ^ 2 + (b * Real.sin E) ^ 2 = 1 - 2 * b * Real.cos E + b ^ 2 := by
      linear_combination b ^ 2 * hsc
    have e1 : (1 : ℝ) / (1 + (b * Real.sin E / (1 - b * Real.cos E)) ^ 2)
        = (1 - b * Real.cos E) ^ 2 / (1 - 2 * b * Real.cos E + b ^ 2) := by
      rw [← hS]
      have : (1 - b * Real.cos E) ^ 2 + (b * Real.sin E) ^ 2 ≠ 0 := by rw [hS]; exact hQ.ne'
      field_simp
    rw [e1]
    have e2 : (1 - b * Real.cos E) ^ 2 / (1 - 2 * b * Real.cos E + b ^ 2) *
        ((b * Real.cos E * (1 - b * Real.cos E) - b * Real.sin E * (b * Real.sin E)) / (1 - b * Real.cos E) ^ 2)
        = (b * Real.cos E - b ^ 2) / (1 - 2 * b * Real.cos E + b ^ 2) := by
      rw [div_mul_div_comm, mul_comm ((1 - b * Real.cos E) ^ 2), mul_div_mul_right _ _ (pow_ne_zero 2 hD')]
      congr 1
      linear_combination -(b ^ 2) * hsc
    rw [e2, eq_div_iff hQ.ne']
    field_simp
    ring
  · have hk' : k⁻¹ = (1 + b) / (1 - b) := by
      rw [eq_div_iff (by linarith), hb]
      field_simp
      ring
    rw [abs_of_nonneg (div_nonneg (by nlinarith) hQ.le), hk', div_le_div_iff₀ hQ (by linarith)]
    have h3 : (1 - b) ^ 2 ≤ 1 - 2 * b * Real.cos E + b ^ 2 := by nlinarith [Real.cos_le_one E]
    have h4 : (1 + b) * (1 - b) ^ 2 ≤ (1 + b) * (1 - 2 * b * Real.cos E + b ^ 2) := mul_le_mul_of_nonneg_left h3 (by linarith)
    calc (1 - b ^ 2) * (1 - b) = (1 + b) * (1 - b) ^ 2 := by ring
      _ ≤ _ := h4

theorem nuLift_lipschitz {k : ℝ} (hk : 0 < k) (hk1 : k ≤ 1) (x y : ℝ) : |nuLift k x - nuLift k y| ≤ k⁻¹ * |x - y| := by
  choose m hm hb using fun E => nuLift_deriv hk hk1 E
  have := Convex.norm_image_sub_le_of_norm_hasDerivWithin_le (f := nuLift k) (f' := m) (s := Set.univ) (C := k⁻¹) (x := y) (y := x)
    (fun E _ => (hm E).hasDerivWithinAt) (fun E _ => hb E) convex_univ (Set.mem_univ _) (Set.mem_univ _)
  simpa [Real.norm_eq_abs] using this

theorem nuLift_samePoint {e : ℝ} (h0 : 0 ≤ e) (h1 : e < 1) (E : ℝ) : SamePoint e (nuLift (eliFac e) E) E := by
  have hk := eliFac_pos h0 h1
  have hk2 := eliFac_sq h0 h1
  set k := eliFac e
  have hk1 : k ≤ 1 := by
    have : k ^ 2 ≤ 1 := by rw [hk2, div_le_one (by linarith)]; linarith
    nlinarith
  have hD := nuLift_den hk hk1 E
  have hsc := Real.sin_sq_add_cos_sq E
  have he : e * (1 + k ^ 2) = 1 - k ^ 2 := by rw [hk2]; field_simp; ring
  have hw : √(1 - e ^ 2) * (1 + k ^ 2) = 2 * k := by
    have h2 : √(1 - e ^ 2) = k * (1 + e) := by
      rw [show 1 - e ^ 2 = (k * (1 + e)) ^ 2 by rw [mul_pow, hk2]; field_simp; ring]
      exact Real.sqrt_sq (by positivity)
    rw [h2]
    linear_combination k * he
  set c := Real.cos E
  set s := Real.sin E
  -- multiply the fraction out: the tangent of half the angle added is (1-k) s / (1 + k - (1-k) c)
  have hp : (0 : ℝ) < 1 + k - (1 - k) * c := by
    have : 1 - (1 - k) / (1 + k) * c = (1 + k - (1 - k) * c) / (1 + k) := by field_simp
    rw [this] at hD
    exact (div_pos_iff_of_pos_right (by linarith)).mp hD
  have hu : (1 - k) / (1 + k) * s / (1 - (1 - k) / (1 + k) * c) = (1 - k) * s / (1 + k - (1 - k) * c) := by
    have : 1 - (1 - k) / (1 + k) * c = (1 + k - (1 - k) * c) / (1 + k) := by field_simp
    rw [this]
    have h3 : (1 + k) ≠ 0 := by linarith
    have h4 := hp.ne'
    field_simp
  set p := 1 + k - (1 - k) * c with hpd
  set q := (1 - k) * s with hqd
  have hpq : p ^ 2 + q ^ 2 = 2 * (1 + k ^ 2) * (1 - e * c) := by
    rw [hpd, hqd]; linear_combination (1 - k) ^ 2 * hsc + 2 * c * he
  have hN : 0 < p ^ 2 + q ^ 2 := by positivity
  have hc2 : Real.cos (2 * Real.arctan (q / p)) = (p ^ 2 - q ^ 2) / (p ^ 2 + q ^ 2) := by
    rw [cos_two_arctan]
    have := hp.ne'
    field_simp
  have hs2 : Real.sin (2 * Real.arctan (q / p)) = 2 * p * q / (p ^ 2 + q ^ 2) := by
    rw [sin_two_arctan]
    have := hp.ne'
    field_simp
  have hK : (1 + k ^ 2) ≠ 0 := by positivity
  have hn : nuLift k E = E + 2 * Real.arctan (q / p) := by rw [nuLift, ← hu]
  have key : ∀ X Y : ℝ, (p ^ 2 + q ^ 2) * X = 2 * (1 + k ^ 2) * Y → (1 - e * c) * X = Y := by
    intro X Y h
    rw [hpq] at h
    have : (2 * (1 + k ^ 2)) * ((1 - e * c) * X) = (2 * (1 + k ^ 2)) * Y := by linarith
    exact mul_left_cancel₀ (by positivity) this
  constructor
  · rw [hn, Real.cos_add, hc2, hs2]
    apply key
    have : (p ^ 2 + q ^ 2) * (c * ((p ^ 2 - q ^ 2) / (p ^ 2 + q ^ 2)) - s * (2 * p * q / (p ^ 2 + q ^ 2)))
        = c * (p ^ 2 - q ^ 2) - s * (2 * p * q) := by field_simp
    rw [this, hpd, hqd]
    linear_combination (-(1 - k) ^ 2 * c - 2 * (1 - k) * (1 + k - (1 - k) * c)) * hsc + 2 * he
  · rw [hn, Real.sin_add, hc2, hs2]
    apply key
    have : (p ^ 2 + q ^ 2) * (s * ((p ^ 2 - q ^ 2) / (p ^ 2 + q ^ 2)) + c * (2 * p * q / (p ^ 2 + q ^ 2)))
        = s * (p ^ 2 - q ^ 2) + c * (2 * p * q) := by field_simp
    rw [this, hpd, hqd]
    linear_combination (-(1 - k) ^ 2 * s) * hsc - 2 * s * hw

/-- the code's true anomaly differs from the continuous one by whole turns -/
theorem trueOf_nuLift {e : ℝ} (h0 : 0 ≤ e) (h1 : e < 1) (E : ℝ) : ∃ z : ℤ, trueOf e E = nuLift (eliFac e) E + z * (2 * Real.pi) := by
  obtain ⟨hc, hs⟩ := samePoint_cos_sin h0 h1 (nuLift_samePoint h0 h1 E)
  have h2 := Real.Angle.cos_sin_inj hc hs
  obtain ⟨z, hz⟩ := Real.Angle.angle_eq_iff_two_pi_dvd_sub.mp h2
  exact ⟨-z, by push_cast; linarith⟩

theorem hasDerivAt_tanh (x : ℝ) : HasDerivAt Real.tanh (1 / Real.cosh x ^ 2) x := by
  have h := (Real.hasDerivAt_sinh x).div (Real.hasDerivAt_cosh x) (Real.cosh_pos x).ne'
  have h2 : HasDerivAt Real.tanh ((Real.cosh x * Real.cosh x - Real.sinh x * Real.sinh x) / Real.cosh x ^ 2) x := by
    refine h.congr_of_eventuallyEq (Filter.Eventually.of_forall fun y => ?_)
    exact Real.tanh_eq_sinh_div_cosh y
  refine h2.congr_deriv ?_
  congr 1
  linarith [Real.cosh_sq x]

theorem hypNu_lipschitz {c : ℝ} (hc : 0 ≤ c) (x y : ℝ) :
    |2 * Real.arctan (c * Real.tanh (x / 2)) - 2 * Real.arctan (c * Real.tanh (y / 2))| ≤ c * |x - y| := by
  have hd : ∀ E : ℝ, HasDerivAt (fun E => 2 * Real.arctan (c * Real.tanh (E / 2)))
      (2 * (1 / (1 + (c * Real.tanh (E / 2)) ^ 2) * (c * (1 / Real.cosh (E / 2) ^ 2 * (1 / 2))))) E := by
    intro E
    have h1 : HasDerivAt (fun E : ℝ => E / 2) (1 / 2) E := (hasDerivAt_id E).div_const 2
    exact ((((hasDerivAt_tanh (E / 2)).comp E h1).const_mul c).arctan).const_mul 2
  have := Convex.norm_image_sub_le_of_norm_hasDerivWithin_le (f := fun E => 2 * Real.arctan (c * Real.tanh (E / 2))) (s := Set.univ)
    (C := c) (x := y) (y := x) (fun E _ => (hd E).hasDerivWithinAt) (fun E _ => ?_) convex_univ (Set.mem_univ _) (Set.mem_univ _)
  · simpa [Real.norm_eq_abs] using this
  · have h1 : 1 / (1 + (c * Real.tanh (E / 2)) ^ 2) ≤ 1 := by
      rw [div_le_one (by positivity)]; nlinarith [sq_nonneg (c * Real.tanh (E / 2))]
    have h2 : 1 / Real.cosh (E / 2) ^ 2 ≤ 1 := by
      rw [div_le_one (pow_pos (Real.cosh_pos _) 2)]; nlinarith [Real.one_le_cosh (E / 2)]
    have h3 : 0 ≤ 1 / Real.cosh (E / 2) ^ 2 := by positivity
    have h4 : 0 ≤ 1 / (1 + (c * Real.tanh (E / 2)) ^ 2) := by positivity
    rw [Real.norm_eq_abs, abs_of_nonneg (by positivity)]
    have h5 : c * (1 / Real.cosh (E / 2) ^ 2 * (1 / 2)) ≤ c * (1 / 2) := mul_le_mul_of_nonneg_left (by linarith) hc
    have h6 := mul_le_mul h1 h5 (by positivity) zero_le_one
    linarith

/-! ## The compositions at one point -/

theorem toRad_fl (deg : Bool) (x : ℝ) : toRad deg (fl x) = fl (angleOf deg x) := by
  cases deg
  · rfl
  · simp [toRad, fl, Arg.map, angleOf]

theorem toDeg_fl (deg : Bool) (x : ℝ) : toDeg deg (fl x) = fl (angleOut deg x) := by
  cases deg
  · rfl
  · simp [toDeg, fl, Arg.map, angleOut]

theorem ttm_fl (g1 g2 : Nat → FX) (deg : Bool) {nu e E : ℝ} (h : trueToEccentricSc (fin (angleOf deg nu)) (fin e) = fin E) :
    true_to_mean g1 g2 (fl nu) (fl e) deg = .ok (fl (angleOut deg (meanOf e E))) := by
  simp only [true_to_mean, toRad_fl, true_to_eccentric_fl, h, bind, Except.bind]
  rw [show (Arg.sc DType.f64 (fin E)) = fl E from rfl, eccentric_to_mean_meanOf]
  simp only [pure, Except.pure, toDeg_fl]

theorem mtt_fl (g : Nat → FX) (o : SolverOpts FX) (deg : Bool) {M e E nu : ℝ}
    (hE : mean_to_eccentric o (fl (angleOf deg M)) (fl e) false = .ok (fl E)) (h : eccentricToTrueSc (fin E) (fin e) = fin nu) :
    mean_to_true g o (fl M) (fl e) deg = .ok (fl (angleOut deg nu)) := by
  simp only [mean_to_true, toRad_fl, hE, bind, Except.bind, eccentric_to_true_fl, h]
  rw [show (Arg.sc DType.f64 (fin nu)) = fl nu from rfl]
  simp only [pure, Except.pure, toDeg_fl]

/-! ## C81 -/

/-- C81 on an ellipse, any true anomaly: `mean_to_true(true_to_mean(nu, e), e)` with the default solver options is `nu`, up to whole turns, within
1e-12 multiplied by sqrt((1+e)/(1-e)) / (1-e). -/
theorem c81_true_ellipse (g1 g2 g : Nat → FX) (deg : Bool) (nu e : ℝ) (h0 : 0 ≤ e) (h1 : e < 1) :
    ∃ M nu' : ℝ, ∃ z : ℤ, true_to_mean g1 g2 (fl nu) (fl e) deg = .ok (fl M) ∧
      mean_to_true g SolverOpts.dflt (fl M) (fl e) deg = .ok (fl nu') ∧
      |angleOf deg nu' - (angleOf deg nu + z * (2 * Real.pi))| ≤ √((1 + e) / (1 - e)) * (1 / 1000000000000 / (1 - e)) := by
  set t := angleOf deg nu with ht
  set Es := eccOf e t with hEs
  have hr := meanOf_range h0 h1 (scaleHalf_mem (eliFac e) t)
  obtain ⟨E, hE, hd⟩ := c72_error g (meanOf e Es) e Es h0 h1 hr.1 hr.2.le (eccentric_to_mean_meanOf g Es e)
  refine ⟨angleOut deg (meanOf e Es), angleOut deg (trueOf e E), ?_⟩
  obtain ⟨z1, hz1⟩ := trueOf_nuLift h0 h1 E
  obtain ⟨z2, hz2⟩ := trueOf_nuLift h0 h1 Es
  obtain ⟨z3, hz3⟩ := turn_eq t
  rw [hEs, trueOf_eccOf h0 h1] at hz2
  refine ⟨z1 - z2 - z3, ttm_fl g1 g2 deg (trueToEccentricSc_eli h0 h1),
    mtt_fl g _ deg (by rw [angleOf_angleOut]; exact hE) (eccentricToTrueSc_eli h0 h1), ?_⟩
  rw [angleOf_angleOut, eliFac_inv]
  have hk := eliFac_pos h0 h1
  have hk1 : eliFac e ≤ 1 := by
    have : eliFac e ^ 2 ≤ 1 := by rw [eliFac_sq h0 h1, div_le_one (by linarith)]; linarith
    nlinarith
  have hl := nuLift_lipschitz hk hk1 E Es
  have h2 : trueOf e E - (t + ((z1 - z2 - z3 : ℤ) : ℝ) * (2 * Real.pi)) = nuLift (eliFac e) E - nuLift (eliFac e) Es := by
    push_cast
    linarith
  rw [h2]
  exact hl.trans (mul_le_mul_of_nonneg_left hd (inv_nonneg.mpr hk.le))

/-- C81 on an ellipse, any mean anomaly in [0, 2 pi]: `true_to_mean(mean_to_true(M, e), e)` with the default solver options is `M`, up to whole
turns, within 1e-12. -/
theorem c81_mean_ellipse (g1 g2 g : Nat → FX) (deg : Bool) (M e : ℝ) (h0 : 0 ≤ e) (h1 : e < 1) (hM0 : 0 ≤ angleOf deg M)
    (hM : angleOf deg M ≤ 2 * Real.pi) :
    ∃ nu M' : ℝ, ∃ z : ℤ, mean_to_true g SolverOpts.dflt (fl M) (fl e) deg = .ok (fl nu) ∧
      true_to_mean g1 g2 (fl nu) (fl e) deg = .ok (fl M') ∧
      |angleOf deg M' - (angleOf deg M + z * (2 * Real.pi))| < 1 / 1000000000000 := by
  obtain ⟨E, Mr, hE, hMr, hd⟩ := c72_default g (angleOf deg M) e h0 h1 hM0 hM
  rw [eccentric_to_mean_meanOf] at hMr
  have hMr' : meanOf e E = Mr := fl_inj (by simpa using hMr)
  obtain ⟨z, hz⟩ := turn_eq E
  refine ⟨angleOut deg (trueOf e E), angleOut deg (meanOf e (turn E)), -z, mtt_fl g _ deg hE (eccentricToTrueSc_eli h0 h1),
    ttm_fl g1 g2 deg ?_, ?_⟩
  · rw [angleOf_angleOut, trueToEccentricSc_eli h0 h1]
    exact congrArg fin (eccOf_trueOf h0 h1)
  · rw [angleOf_angleOut]
    have h2 : meanOf e (turn E) - (angleOf deg M + ((-z : ℤ) : ℝ) * (2 * Real.pi)) = Mr - angleOf deg M := by
      rw [← hMr', meanOf_eli e h1, meanOf_eli e h1, sin_turn, hz]
      push_cast
      ring
    rw [h2]
    exact hd

theorem sinh_two_pi_lt : Real.sinh (2 * Real.pi) < 999 := by
  have h1 : Real.exp (2 * Real.pi) < 1998 := by
    have h2 : 2 * Real.pi < 7 := by linarith [Real.pi_lt_d2]
    calc Real.exp (2 * Real.pi) < Real.exp 7 := Real.exp_lt_exp.mpr h2
      _ = Real.exp 1 ^ 7 := by rw [← Real.exp_nat_mul]; norm_num
      _ < (2.7182818286 : ℝ) ^ 7 := pow_lt_pow_left₀ Real.exp_one_lt_d9 (Real.exp_pos 1).le (by norm_num)
      _ < 1998 := by norm_num
  rw [Real.sinh_eq]
  linarith [Real.exp_pos (-(2 * Real.pi))]

/-- C81 on a hyperbola, outbound, hyperbolic anomaly below 2 pi: the result is `nu`, up to whole turns, within 1e-12 multiplied by
sqrt((e+1)/(e-1)) / (e-1). -/
theorem c81_true_hyperbola (g1 g2 g : Nat → FX) (deg : Bool) (nu e : ℝ) (h1 : 1 < e) (he : e ≤ 10 ^ 197)
    (hb : 0 < 1 + e * Real.cos (angleOf deg nu)) (hF0 : 0 ≤ openAnom e (angleOf deg nu)) (hF1 : openAnom e (angleOf deg nu) < 2 * Real.pi) :
    ∃ M nu' : ℝ, ∃ z : ℤ, true_to_mean g1 g2 (fl nu) (fl e) deg = .ok (fl M) ∧
      mean_to_true g SolverOpts.dflt (fl M) (fl e) deg = .ok (fl nu') ∧
      |angleOf deg nu' - (angleOf deg nu + z * (2 * Real.pi))| ≤ √((e + 1) / (e - 1)) * (1 / 1000000000000 / (e - 1)) := by
  set t := angleOf deg nu with ht
  have hc := cos_half_of_open h1.le hb
  have hl := (open_iff h1 hc).mp hb
  rw [openAnom, if_neg h1.ne', show Real.sqrt ((e - 1) / (e + 1)) = hypFac e from rfl] at hF0 hF1
  set Es := 2 * Real.artanh (hypFac e * Real.tan (t / 2)) with hEs
  have hM : meanOf e Es = e * Real.sinh Es - Es := by rw [meanOf, if_pos h1]
  have hs1 : Real.sinh Es ≤ 999 := ((Real.sinh_le_sinh.mpr hF1.le).trans sinh_two_pi_lt.le)
  have hs0 : Es ≤ Real.sinh Es := Real.self_le_sinh_iff.mpr hF0
  have hM0 : 0 ≤ meanOf e Es := by rw [hM]; nlinarith
  have hMb : meanOf e Es + e ≤ 10 ^ 200 := by
    rw [hM]
    have h2 : e * Real.sinh Es ≤ e * 999 := mul_le_mul_of_nonneg_left hs1 (by linarith)
    have h3 : (10 : ℝ) ^ 200 = 1000 * 10 ^ 197 := by norm_num
    rw [h3]
    linarith
  obtain ⟨E, hE, hd⟩ := c76_error g (meanOf e Es) e Es h1 hM0 hMb (eccentric_to_mean_meanOf g Es e)
  have hnu : turn (2 * Real.arctan ((hypFac e)⁻¹ * Real.tanh (Es / 2))) = turn t := by
    rw [hEs, mul_div_cancel_left₀ _ two_ne_zero, tanh_artanh' hl, inv_mul_cancel_left₀ (hypFac_pos h1).ne', turn_arctan_tan hc]
  obtain ⟨z1, hz1⟩ := turn_eq (2 * Real.arctan ((hypFac e)⁻¹ * Real.tanh (E / 2)))
  obtain ⟨z2, hz2⟩ := turn_eq (2 * Real.arctan ((hypFac e)⁻¹ * Real.tanh (Es / 2)))
  obtain ⟨z3, hz3⟩ := turn_eq t
  have htte : trueToEccentricSc (fin t) (fin e) = fin Es := by
    rw [trueToEccentricSc_hyp h1 hc hl]
    exact congrArg fin (turn_of_mem hF0 hF1)
  refine ⟨angleOut deg (meanOf e Es), angleOut deg (turn (2 * Real.arctan ((hypFac e)⁻¹ * Real.tanh (E / 2)))), z2 - z1 - z3,
    ttm_fl g1 g2 deg htte, mtt_fl g _ deg (by rw [angleOf_angleOut]; exact hE) (eccentricToTrueSc_hyp h1), ?_⟩
  rw [angleOf_angleOut, hypFac_inv]
  have hi := inv_nonneg.mpr (hypFac_pos h1).le
  have hlip := hypNu_lipschitz hi E Es
  have h2 : turn (2 * Real.arctan ((hypFac e)⁻¹ * Real.tanh (E / 2))) - (t + ((z2 - z1 - z3 : ℤ) : ℝ) * (2 * Real.pi))
      = 2 * Real.arctan ((hypFac e)⁻¹ * Real.tanh (E / 2)) - 2 * Real.arctan ((hypFac e)⁻¹ * Real.tanh (Es / 2)) := by
    push_cast
    linarith
  rw [h2]
  exact hlip.trans (mul_le_mul_of_nonneg_left hd hi)

/-- C81 on a hyperbola, outbound, from the mean anomaly: `M` comes back within 1e-12 when the hyperbolic anomaly lies between the solver's error and
2 pi less that error. -/
theorem c81_mean_hyperbola (g1 g2 g : Nat → FX) (deg : Bool) (M e Es : ℝ) (h1 : 1 < e)
    (hEs : e * Real.sinh Es - Es = angleOf deg M) (hlo : 1 / 1000000000000 / (e - 1) ≤ Es) (hhi : Es + 1 / 1000000000000 / (e - 1) < 2 * Real.pi)
    (hb : angleOf deg M + e ≤ 10 ^ 200) :
    ∃ nu M' : ℝ, mean_to_true g SolverOpts.dflt (fl M) (fl e) deg = .ok (fl nu) ∧
      true_to_mean g1 g2 (fl nu) (fl e) deg = .ok (fl M') ∧ |angleOf deg M' - angleOf deg M| < 1 / 1000000000000 := by
  have hp : 0 < 1 / 1000000000000 / (e - 1) := div_pos (by norm_num) (by linarith)
  have hEs0 : 0 ≤ Es := hp.le.trans hlo
  have hs0 : Es ≤ Real.sinh Es := Real.self_le_sinh_iff.mpr hEs0
  have hM0 : 0 ≤ angleOf deg M := by rw [← hEs]; nlinarith
  obtain ⟨E, Mr, hE, hMr, hd⟩ := c76_default g (angleOf deg M) e h1 hM0 hb
  obtain ⟨E2, hE2, hd2⟩ := c76_error g (angleOf deg M) e Es h1 hM0 hb (by
    rw [eccentric_to_mean_meanOf, meanOf, if_pos h1, hEs])
  have h12 : E2 = E := fl_inj (by rw [hE] at hE2; simpa using hE2.symm)
  subst h12
  rw [eccentric_to_mean_meanOf] at hMr
  have hMr' : meanOf e E2 = Mr := fl_inj (by simpa using hMr)
  obtain ⟨hl1, hl2⟩ := abs_le.mp hd2
  have hE0 : 0 ≤ E2 := by linarith
  have hE1 : E2 < 2 * Real.pi := by linarith
  set nu := turn (2 * Real.arctan ((hypFac e)⁻¹ * Real.tanh (E2 / 2))) with hnu
  have htan : hypFac e * Real.tan (nu / 2) = Real.tanh (E2 / 2) := by
    rw [hnu, tan_half_arctan_turn, mul_inv_cancel_left₀ (hypFac_pos h1).ne']
  have htte : trueToEccentricSc (fin nu) (fin e) = fin E2 := by
    rw [trueToEccentricSc_hyp h1 (cos_half_arctan_turn _) (by rw [htan]; exact Real.abs_tanh_lt_one _), htan, artanh_tanh',
      mul_div_cancel₀ _ two_ne_zero, turn_of_mem hE0 hE1]
  refine ⟨angleOut deg nu, angleOut deg (meanOf e E2), mtt_fl g _ deg hE (eccentricToTrueSc_hyp h1),
    ttm_fl g1 g2 deg (by rw [angleOf_angleOut]; exact htte), ?_⟩
  rw [angleOf_angleOut, hMr']
  exact hd

theorem solver_parabola (g : Nat → FX) (E : ℝ) : mean_to_eccentric SolverOpts.dflt (fl (meanOf 1 E)) (fl 1) false = .ok (fl E) := by
  rw [dflt_fin]
  obtain ⟨E', M', h1, h2, h3, -⟩ := c09_residual g (1 / 1000000000000) 5000 5 (meanOf 1 E) 1 zero_le_one (by norm_num) (.inl le_rfl)
  rw [eccentric_to_mean_meanOf] at h2
  have h4 : meanOf 1 E' = M' := fl_inj (by simpa using h2)
  rw [h3 rfl, meanOf, meanOf, if_neg (lt_irrefl _), if_pos rfl, if_neg (lt_irrefl _), if_pos rfl] at h4
  rw [h1, barker_strictMono.injective h4]

/-- C81 on a parabola, `0 <= tan(nu/2) < 2 pi`: exact, up to whole turns. -/
theorem c81_true_parabola (g1 g2 g : Nat → FX) (deg : Bool) (nu : ℝ) (hc : Real.cos (angleOf deg nu / 2) ≠ 0)
    (hF0 : 0 ≤ Real.tan (angleOf deg nu / 2)) (hF1 : Real.tan (angleOf deg nu / 2) < 2 * Real.pi) :
    ∃ M nu' : ℝ, ∃ z : ℤ, true_to_mean g1 g2 (fl nu) (fl 1) deg = .ok (fl M) ∧
      mean_to_true g SolverOpts.dflt (fl M) (fl 1) deg = .ok (fl nu') ∧ angleOf deg nu' = angleOf deg nu + z * (2 * Real.pi) := by
  set t := angleOf deg nu with ht
  set Es := Real.tan (t / 2) with hEs
  obtain ⟨z, hz⟩ := turn_eq t
  refine ⟨angleOut deg (meanOf 1 Es), angleOut deg (turn (2 * Real.arctan Es)), -z,
    ttm_fl g1 g2 deg (by rw [trueToEccentricSc_par hc, ← hEs, turn_of_mem hF0 hF1]),
    mtt_fl g _ deg (by rw [angleOf_angleOut]; exact solver_parabola g Es) (eccentricToTrueSc_par Es), ?_⟩
  rw [angleOf_angleOut, hEs, turn_arctan_tan hc, hz]
  push_cast
  ring

/-- C81 on a parabola from the mean anomaly: exact when the parabolic anomaly lies in [0, 2 pi). -/
theorem c81_mean_parabola (g1 g2 g : Nat → FX) (deg : Bool) (M Es : ℝ) (hEs : Es + Es ^ 3 / 3 = angleOf deg M) (h0 : 0 ≤ Es)
    (h1 : Es < 2 * Real.pi) :
    ∃ nu : ℝ, mean_to_true g SolverOpts.dflt (fl M) (fl 1) deg = .ok (fl nu) ∧ true_to_mean g1 g2 (fl nu) (fl 1) deg = .ok (fl M) := by
  have hM : meanOf 1 Es = angleOf deg M := by rw [meanOf, if_neg (lt_irrefl _), if_pos rfl, hEs]
  have h2 := ttm_fl g1 g2 deg (nu := angleOut deg (turn (2 * Real.arctan Es))) (e := 1) (E := Es) (by
    rw [angleOf_angleOut, trueToEccentricSc_par (cos_half_arctan_turn _), tan_half_arctan_turn, turn_of_mem h0 h1])
  rw [hM, angleOut_angleOf] at h2
  exact ⟨angleOut deg (turn (2 * Real.arctan Es)),
    mtt_fl g _ deg (by rw [← hM]; exact solver_parabola g Es) (eccentricToTrueSc_par Es), h2⟩

/-- C81 is false for all orbits: on a parabola the true anomaly 3 pi/2 (90 degrees before the periapsis) does not come back. -/
theorem c81_false (g1 g2 g : Nat → FX) :
    ∃ M nu' : ℝ, true_to_mean g1 g2 (fl (3 * Real.pi / 2)) (fl 1) false = .ok (fl M) ∧
      mean_to_true g SolverOpts.dflt (fl M) (fl 1) false = .ok (fl nu') ∧ ∀ z : ℤ, nu' ≠ 3 * Real.pi / 2 + z * (2 * Real.pi) := by
  have hp := Real.pi_gt_three
  have hq : 3 * Real.pi / 2 / 2 = Real.pi - Real.pi / 4 := by ring
  have htan : Real.tan (3 * Real.pi / 2 / 2) = -1 := by rw [hq, Real.tan_pi_sub, Real.tan_pi_div_four]
  have hc : Real.cos (3 * Real.pi / 2 / 2) ≠ 0 := by
    rw [hq, Real.cos_pi_sub, Real.cos_pi_div_four]
    have : 0 < √(2 : ℝ) := Real.sqrt_pos.mpr two_pos
    intro h
    linarith
  have ht : turn (-1) = 2 * Real.pi - 1 := by rw [turn_of_neg (by norm_num) (by linarith)]; ring
  refine ⟨meanOf 1 (2 * Real.pi - 1), turn (2 * Real.arctan (2 * Real.pi - 1)), ?_, ?_, fun z h => ?_⟩
  · exact ttm_fl g1 g2 false (nu := 3 * Real.pi / 2) (by
      show trueToEccentricSc (fin (3 * Real.pi / 2)) (fin 1) = _
      rw [trueToEccentricSc_par hc, htan, ht])
  · exact mtt_fl g _ false (solver_parabola g _) (eccentricToTrueSc_par _)
  · have h2 := tan_half_arctan_turn (2 * Real.pi - 1)
    rw [h, show (3 * Real.pi / 2 + z * (2 * Real.pi)) / 2 = 3 * Real.pi / 2 / 2 + z * Real.pi by ring, Real.tan_add_int_mul_pi, htan] at h2
    linarith

/-- a case: e = 0.5, nu = 40 degrees; the bound is 2 sqrt 3 1e-12 < 4e-12 -/
example (g1 g2 g : Nat → FX) : ∃ M nu' : ℝ, ∃ z : ℤ, true_to_mean g1 g2 (fl 40) (fl (1 / 2)) true = .ok (fl M) ∧
    mean_to_true g SolverOpts.dflt (fl M) (fl (1 / 2)) true = .ok (fl nu') ∧
    |angleOf true nu' - (angleOf true 40 + z * (2 * Real.pi))| ≤ 4 / 1000000000000 := by
  obtain ⟨M, nu', z, h1, h2, h3⟩ := c81_true_ellipse g1 g2 g true 40 (1 / 2) (by norm_num) (by norm_num)
  refine ⟨M, nu', z, h1, h2, h3.trans ?_⟩
  have : √((1 + 1 / 2) / (1 - 1 / 2) : ℝ) ≤ 2 := by rw [Real.sqrt_le_left (by norm_num)]; norm_num
  calc _ ≤ 2 * (1 / 1000000000000 / (1 - 1 / 2) : ℝ) := mul_le_mul_of_nonneg_right this (by norm_num)
    _ = _ := by norm_num

/-- a case: e = 0.9, M = 1 -/
example : (0 : ℝ) ≤ 9 / 10 ∧ (9 / 10 : ℝ) < 1 ∧ 0 ≤ angleOf false 1 ∧ angleOf false 1 ≤ 2 * Real.pi := by
  have := Real.pi_gt_three
  refine ⟨by norm_num, by norm_num, by norm_num [angleOf], by norm_num [angleOf]; linarith⟩

/-- a case: the hyperbola e = 2 at the true anomaly with hyperbolic anomaly 1 -/
example : ∃ nu, 0 < 1 + 2 * Real.cos (angleOf false nu) ∧ 0 ≤ openAnom 2 (angleOf false nu) ∧ openAnom 2 (angleOf false nu) < 2 * Real.pi := by
  have hp := Real.pi_gt_three
  have h1 : (1 : ℝ) < 2 := by norm_num
  have ht : hypFac 2 * Real.tan (turn (2 * Real.arctan ((hypFac 2)⁻¹ * Real.tanh (1 / 2))) / 2) = Real.tanh (1 / 2) := by
    rw [tan_half_arctan_turn, mul_inv_cancel_left₀ (hypFac_pos h1).ne']
  have ho : openAnom 2 (turn (2 * Real.arctan ((hypFac 2)⁻¹ * Real.tanh (1 / 2)))) = 1 := by
    rw [openAnom, if_neg h1.ne', show Real.sqrt ((2 - 1) / (2 + 1)) = hypFac 2 from rfl, ht, artanh_tanh']
    norm_num
  refine ⟨turn (2 * Real.arctan ((hypFac 2)⁻¹ * Real.tanh (1 / 2))), ?_, ?_, ?_⟩
  · exact (open_iff h1 (cos_half_arctan_turn _)).mpr (by rw [ht]; exact Real.abs_tanh_lt_one _)
  · exact ho.symm ▸ zero_le_one
  · exact ho.symm ▸ (by linarith : (1 : ℝ) < 2 * Real.pi)

/-- a case: the hyperbola e = 2 with hyperbolic anomaly 1 -/
example : (1 : ℝ) < 2 ∧ 1 / 1000000000000 / (2 - 1) ≤ (1 : ℝ) ∧ (1 : ℝ) + 1 / 1000000000000 / (2 - 1) < 2 * Real.pi ∧
    angleOf false (2 * Real.sinh 1 - 1) + 2 ≤ 10 ^ 200 := by
  have hp := Real.pi_gt_three
  refine ⟨by norm_num, by norm_num, by norm_num; linarith, ?_⟩
  have h1 : Real.sinh 1 < 999 := (Real.sinh_lt_sinh.mpr (by linarith)).trans sinh_two_pi_lt
  show 2 * Real.sinh 1 - 1 + 2 ≤ (10 : ℝ) ^ 200
  have h2 : (10 : ℝ) ^ 5 ≤ 10 ^ 200 := pow_le_pow_right₀ (by norm_num) (by norm_num)
  norm_num at h2 ⊢
  linarith

end Pyorb
