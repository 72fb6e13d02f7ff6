import Verif.LagConverge
import Verif.PropsSolver

/-!
# C72: the Kepler solver converges on every ellipse

Kepler's function `x - e sin x` is convex on `[0, pi]`.  From above the root a Laguerre step of degree 5 covers between 1/3 and 4/3 of the
distance.  If it goes too far, the next step at most doubles the distance (`LagConverge`).  From below it covers at least 3/4 of
the distance, and can go far beyond the root only from a starting value that is much too small; the code's starting value is not.
-/

namespace Pyorb.Lag

theorem mean_mono {e : ℝ} (h0 : 0 ≤ e) (h1 : e < 1) {x y : ℝ} (h : x - e * Real.sin x ≤ y - e * Real.sin y) : x ≤ y := by
  by_contra hlt
  have h2 := meanOf_gap h0 h1.ne (not_le.mp hlt).le
  simp only [meanOf, if_neg (not_lt.mpr h1.le), if_neg h1.ne, abs_of_pos (sub_pos.mpr h1)] at h2
  have := mul_pos (sub_pos.mpr h1) (sub_pos.mpr (not_le.mp hlt))
  linarith

theorem mean_le {e : ℝ} (h0 : 0 ≤ e) (h1 : e < 1) {x y : ℝ} (h : x ≤ y) : x - e * Real.sin x ≤ y - e * Real.sin y := by
  have h2 := meanOf_gap h0 h1.ne h
  simp only [meanOf, if_neg (not_lt.mpr h1.le), if_neg h1.ne, abs_of_pos (sub_pos.mpr h1)] at h2
  have := mul_nonneg (sub_pos.mpr h1).le (sub_nonneg.mpr h)
  linarith

/-! ## Starting above the root -/

theorem start_high {e M s : ℝ} (h0 : 0 ≤ e) (h1 : e < 1) (hM : 1 / 4 ≤ M) (hM1 : M ≤ Real.pi) (hs : s - e * Real.sin s = M) :
    s ≤ guessLow e M ∧ guessLow e M ≤ Real.pi ∧ 10 * guessLow e M ≤ 27 * s := by
  have hpi := Real.pi_gt_three
  have hpi' := Real.pi_lt_d2
  have key : M ≤ guessLow e M ∧ (guessLow e M ≤ M + e ∨ 2 ≤ M) ∧ s ≤ guessLow e M ∧ guessLow e M ≤ Real.pi := by
    rw [guessLow, if_neg (not_lt.mpr hM)]
    split_ifs with h2
    · refine ⟨by linarith, .inl le_rfl, mean_mono h0 h1 ?_, by linarith⟩
      have := mul_le_mul_of_nonneg_left (Real.sin_le_one (M + e)) h0
      linarith
    · have h3 : 0 ≤ Real.pi - M := by linarith
      have h6 : e * (Real.pi - M) / (1 + e) ≤ Real.pi - M := by
        rw [div_le_iff₀ (by linarith)]
        nlinarith
      refine ⟨by have : 0 ≤ e * (Real.pi - M) / (1 + e) := by positivity
                 linarith, .inr (not_lt.mp h2), mean_mono h0 h1 ?_, by linarith⟩
      set E0 := M + e * (Real.pi - M) / (1 + e) with hE
      have h7 : E0 - M = e * (Real.pi - E0) := by
        rw [hE]; field_simp; ring
      have h8 : Real.sin E0 ≤ Real.pi - E0 := by
        rw [← Real.sin_pi_sub]
        exact Real.sin_le (by linarith)
      have := mul_le_mul_of_nonneg_left h8 h0
      linarith
  obtain ⟨h2, h3, h4, h5⟩ := key
  refine ⟨h4, h5, ?_⟩
  have h6 : 10 / 27 * guessLow e M ≤ s := by
    rcases h3 with h3 | h3
    swap
    · have : M ≤ s := by
        have := mul_nonneg h0 (Real.sin_nonneg_of_nonneg_of_le_pi (mean_mono h0 h1 (x := 0) (y := s) (by simp; linarith)) (h4.trans h5))
        linarith
      linarith
    refine mean_mono h0 h1 ?_
    rw [hs]
    have hz : 0 ≤ 10 / 27 * guessLow e M := by linarith
    have h7 := Real.mul_le_sin hz (by linarith)
    have h8 : 5 / 8 * (10 / 27 * guessLow e M) ≤ Real.sin (10 / 27 * guessLow e M) := by
      refine le_trans (mul_le_mul_of_nonneg_right ?_ hz) h7
      rw [div_le_div_iff₀ (by norm_num) Real.pi_pos]
      linarith
    have h9 := mul_le_mul_of_nonneg_left h8 h0
    have h10 : guessLow e M * (1 - 5 / 8 * e) ≤ (M + e) * (1 - 5 / 8 * e) := mul_le_mul_of_nonneg_right h3 (by linarith)
    nlinarith [sq_nonneg (e - 27 / 40)]
  linarith

/-! ## Starting below the root -/

/-- how far Smith's starting value can be from the root -/
theorem smith_defect {e M : ℝ} (h0 : 0 ≤ e) (h1 : e < 1) (hM0 : 0 ≤ M) (hM : M ≤ 1 / 4) : e - (Real.sin (M + e) - Real.sin M) ≤ 3015 / 10000 := by
  have hpi := Real.pi_gt_three
  have hpi' := Real.pi_lt_d4
  have h2 := le_of_deriv (f := fun t => Real.sin t - Real.sin (t + e)) (f' := fun t => Real.cos t - Real.cos (t + e)) hM
    (fun y => by
      have := (Real.hasDerivAt_sin y).sub ((Real.hasDerivAt_sin (y + e)).comp_add_const y e)
      exact this)
    (fun y hy hy1 => sub_nonneg.mpr (Real.cos_le_cos_of_nonneg_of_le_pi (by linarith) (by linarith) (by linarith)))
  have h3 := le_of_deriv (f := fun t => t - Real.sin (1 / 4 + t)) (f' := fun t => 1 - Real.cos (1 / 4 + t)) h1.le
    (fun y => by
      have := (hasDerivAt_id y).sub ((Real.hasDerivAt_sin (1 / 4 + y)).comp_const_add (1 / 4) y)
      exact this)
    (fun y hy hy1 => sub_nonneg.mpr (Real.cos_le_one _))
  have h4 : 9485 / 10000 ≤ Real.sin (1 / 4 + 1) := by
    rw [← Real.cos_pi_div_two_sub]
    refine le_trans ?_ Real.one_sub_sq_div_two_le_cos
    have h5 : Real.pi / 2 - (1 / 4 + 1) ≤ 3208 / 10000 := by linarith
    have h6 : (Real.pi / 2 - (1 / 4 + 1)) ^ 2 ≤ (3208 / 10000) ^ 2 := pow_le_pow_left₀ (by linarith) h5 2
    norm_num at h6 ⊢
    linarith
  have h5 : Real.sin (1 / 4) ≤ 1 / 4 := Real.sin_le (by norm_num)
  linarith

theorem start_low {e M s : ℝ} (h0 : 0 ≤ e) (h1 : e < 1) (hM0 : 0 ≤ M) (hM : M < 1 / 4) (hs : s - e * Real.sin s = M) :
    M ≤ guessLow e M ∧ guessLow e M ≤ s ∧ s ≤ Real.pi / 2 ∧
      (fun x => (s - x) - e * (Real.sin s - Real.sin x)) (guessLow e M) ≤ 2317 / 10000 * (e * Real.sin (guessLow e M)) := by
  have hpi := Real.pi_gt_three
  have hs2 : s ≤ Real.pi / 2 := by
    have := mul_le_mul_of_nonneg_left (Real.sin_le_one s) h0
    linarith
  set l := Real.sin M / (1 - Real.sin (M + e) + Real.sin M) with hl
  have hg : guessLow e M = M + e * l := by rw [guessLow, if_pos hM, hl]; ring
  have hd := smith_denominator_pos h0 h1 M
  have hd0 : 0 < 1 - Real.sin (M + e) + Real.sin M := by linarith
  have hsM : 0 ≤ Real.sin M := Real.sin_nonneg_of_nonneg_of_le_pi hM0 (by linarith)
  have hl0 : 0 ≤ l := div_nonneg hsM hd0.le
  have hl1 : l ≤ 1 := by
    rw [hl, div_le_one hd0]
    linarith [Real.sin_le_one (M + e)]
  have hlm : l * (1 - Real.sin (M + e) + Real.sin M) = Real.sin M := div_mul_cancel₀ _ hd0.ne'
  have hel : 0 ≤ e * l := mul_nonneg h0 hl0
  have hel1 : e * l ≤ e := mul_le_of_le_one_right h0 hl1
  -- the chord
  have hchord : l ≤ Real.sin (M + e * l) := by
    have h2 := strictConcaveOn_sin_Icc.concaveOn.2 (Set.mem_Icc.mpr ⟨hM0, by linarith⟩) (Set.mem_Icc.mpr ⟨by linarith, (by linarith : M + e ≤ Real.pi)⟩)
      (sub_nonneg.mpr hl1) hl0 (by ring)
    simp only [smul_eq_mul] at h2
    rw [show (1 - l) * M + l * (M + e) = M + e * l by ring] at h2
    linarith
  rw [hg]
  have hle : M + e * l ≤ s := by
    refine mean_mono h0 h1 ?_
    have := mul_le_mul_of_nonneg_left hchord h0
    linarith
  refine ⟨by linarith, hle, hs2, ?_⟩
  have h2 := sin_concave hM0 (show M ≤ M + e * l by linarith) (by linarith)
  have h3 : (M + e * l - M) * Real.cos M ≤ e * l := by
    rw [add_sub_cancel_left]
    exact mul_le_of_le_one_right hel (Real.cos_le_one M)
  have h4 := smith_defect h0 h1 hM0 hM.le
  -- sin (M + e l) ≤ l (1 + D)
  have h5 : Real.sin (M + e * l) ≤ l * (13015 / 10000) := by
    have := mul_le_mul_of_nonneg_left h4 hl0
    linarith
  have h6 := mul_le_mul_of_nonneg_left (show Real.sin (M + e * l) - l ≤ 2317 / 10000 * Real.sin (M + e * l) by linarith) h0
  show (s - (M + e * l)) - e * (Real.sin s - Real.sin (M + e * l)) ≤ _
  linarith

/-- one step from below the root, at or above the starting value -/
theorem low_step {e M s x : ℝ} (h0 : 0 ≤ e) (h1 : e < 1) (hM0 : 0 ≤ M) (hM : M < 1 / 4) (hs : s - e * Real.sin s = M)
    (hx0 : guessLow e M ≤ x) (hxs : x ≤ s) :
    (guessLow e M ≤ next e s x ∧ next e s x ≤ s ∧ s - next e s x ≤ 1 / 4 * (s - x)) ∨
      s ≤ next e s x ∧ next e s x ≤ Real.pi ∧ (10 * next e s x ≤ 27 * s ∨ next e s x ≤ 86 / 100) := by
  have hpi := Real.pi_gt_three
  obtain ⟨h2, h3, h4, h5⟩ := start_low h0 h1 hM0 hM hs
  rcases hxs.eq_or_lt with rfl | hxs'
  · left
    have : next e x x = x := by simp [next, fall, delta]
    rw [this]
    exact ⟨hx0, le_rfl, by simp⟩
  have hx : 0 ≤ x := by linarith
  have he : 0 < e := by
    refine lt_of_le_of_ne h0 (fun h => ?_)
    subst h
    have hsM : s = M := by simpa using hs
    linarith
  have hMp : 0 < M := by
    rcases hM0.eq_or_lt with h | h
    · exfalso
      have : s ≤ 0 := mean_mono h0 h1 (by simp; linarith)
      linarith
    · exact h
  have hg0 : 0 < Real.sin (guessLow e M) := Real.sin_pos_of_pos_of_lt_pi (by linarith) (by linarith)
  have hsin : Real.sin (guessLow e M) ≤ Real.sin x := Real.sin_le_sin_of_le_of_le_pi_div_two (by linarith) (by linarith) hx0
  have hw : 0 < e * Real.sin x := mul_pos he (by linarith)
  set P := (s - x) - e * (Real.sin s - Real.sin x) with hP
  have hPw : P ≤ 2317 / 10000 * (e * Real.sin x) := by
    have h6 := mean_le h0 h1 hx0
    have h7 := mul_le_mul_of_nonneg_left hsin h0
    have h8 : P ≤ (s - guessLow e M) - e * (Real.sin s - Real.sin (guessLow e M)) := by rw [hP]; linarith
    have h9 := h8.trans h5
    linarith
  have h6 := mul_le_mul_of_nonneg_left (sin_second hx hxs (by linarith)) h0
  obtain ⟨h7, h8⟩ := delta_lower_start (P := P) (slope_pos h0 h1 x) (sub_pos.mpr hxs') hw.le (by rw [hP]; unfold slope; linarith)
  have hn : next e s x = x - delta (-P) (slope e x) (e * Real.sin x) := by rw [next, fall_neg]
  set dl := -delta (-P) (slope e x) (e * Real.sin x) with hdl
  have hn' : next e s x = x + dl := by rw [hn, hdl]; ring
  have hdl2 : dl ^ 2 ≤ 29 / 100 := by
    have h9 : delta (-P) (slope e x) (e * Real.sin x) ^ 2 = dl ^ 2 := by rw [hdl]; ring
    rw [h9] at h8
    have h10 : 4 * (e * Real.sin x) * dl ^ 2 ≤ 4 * (e * Real.sin x) * (29 / 100) := by linarith
    exact le_of_mul_le_mul_left h10 (by linarith)
  have hdl1 : dl ≤ 54 / 100 := by
    by_contra hlt
    have := not_le.mp hlt
    nlinarith
  rw [hn']
  by_cases hc : x + dl ≤ s
  · left
    exact ⟨by linarith, hc, by linarith⟩
  · right
    have hc := not_le.mp hc
    refine ⟨hc.le, by linarith, ?_⟩
    by_cases hq : 10 * (x + dl) ≤ 27 * s
    · exact .inl hq
    · exact .inr (by linarith)

theorem low_iterate {e M s : ℝ} (h0 : 0 ≤ e) (h1 : e < 1) (hM0 : 0 ≤ M) (hM : M < 1 / 4) (hs : s - e * Real.sin s = M) (n : Nat) :
    ∀ x, guessLow e M ≤ x → x ≤ s →
    ((next e s)^[n] x ≤ s ∧ s - (next e s)^[n] x ≤ (1 / 4) ^ n * (s - x)) ∨
      ∃ j ≤ n, s ≤ (next e s)^[j] x ∧ (next e s)^[j] x ≤ Real.pi ∧ (10 * (next e s)^[j] x ≤ 27 * s ∨ (next e s)^[j] x ≤ 86 / 100) := by
  induction n with
  | zero => intro x _ hxs; left; simp [hxs]
  | succ n ih =>
    intro x hx hxs
    rcases low_step h0 h1 hM0 hM hs hx hxs with ⟨h2, h3, h4⟩ | h2
    · rcases ih _ h2 h3 with ⟨h5, h6⟩ | ⟨j, hj, h5⟩
      · left
        rw [Function.iterate_succ_apply]
        refine ⟨h5, h6.trans ?_⟩
        rw [pow_succ]
        have := mul_le_mul_of_nonneg_left h4 (show (0 : ℝ) ≤ (1 / 4) ^ n by positivity)
        linarith
      · right
        refine ⟨j + 1, by omega, ?_⟩
        rw [Function.iterate_succ_apply]
        exact h5
    · right
      exact ⟨1, by omega, h2⟩

/-- the iteration reaches any residual -/
theorem reaches {e M s : ℝ} (h0 : 0 ≤ e) (h1 : e < 1) (hM0 : 0 ≤ M) (hM : M ≤ Real.pi) (hs : s - e * Real.sin s = M) {tol : ℝ} {K : Nat}
    (hK : 7 * (5 / 6) ^ K < tol) : ∃ n ≤ 2 * K, |fall e s ((next e s)^[n] (guessLow e M))| < tol := by
  have hpi' := Real.pi_lt_d2
  have hs0 : 0 ≤ s := mean_mono h0 h1 (by simp; linarith)
  have hsp : s ≤ Real.pi := mean_mono h0 h1 (by rw [hs, Real.sin_pi]; linarith)
  have good : ∀ Y, s ≤ Y → Y ≤ Real.pi → (10 * Y ≤ 27 * s ∨ Y ≤ 86 / 100) → |fall e s ((next e s)^[K] Y)| < tol := by
    intro Y h2 h3 h4
    have h5 := good_iterate h0 h1 hs0 h2 h3 h4 K Y ⟨le_rfl, .inl h2⟩
    rw [show dist s Y = Y - s from if_pos h2] at h5
    have h6 : (5 / 6 : ℝ) ^ K * (Y - s) ≤ (5 / 6) ^ K * (35 / 10) := mul_le_mul_of_nonneg_left (by linarith) (by positivity)
    have := fall_le (s := s) (x := (next e s)^[K] Y) h0 h1
    linarith
  by_cases hq : M < 1 / 4
  · obtain ⟨h2, h3, -, -⟩ := start_low h0 h1 hM0 hq hs
    rcases low_iterate h0 h1 hM0 hq hs K _ le_rfl h3 with ⟨h4, h5⟩ | ⟨j, hj, h4, h5, h6⟩
    · refine ⟨K, by omega, ?_⟩
      have h6 := mean_le h0 h1 h4
      have h7 : |fall e s ((next e s)^[K] (guessLow e M))| ≤ 2 * (s - (next e s)^[K] (guessLow e M)) := by
        have h8 := Real.abs_sin_sub_sin_le s ((next e s)^[K] (guessLow e M))
        rw [abs_of_nonneg (sub_nonneg.mpr h4)] at h8
        rw [fall_neg, abs_neg, abs_of_nonneg (by linarith)]
        have h9 := (abs_le.mp h8).1
        nlinarith
      have h8 : (1 / 4 : ℝ) ^ K ≤ (5 / 6) ^ K := pow_le_pow_left₀ (by norm_num) (by norm_num) K
      have h9 : (1 / 4 : ℝ) ^ K * (s - guessLow e M) ≤ (5 / 6) ^ K * (35 / 10) := by
        refine mul_le_mul h8 (by linarith) (by linarith) (by positivity)
      linarith
    · refine ⟨K + j, by omega, ?_⟩
      rw [Function.iterate_add_apply]
      exact good _ h4 h5 h6
  · obtain ⟨h2, h3, h4⟩ := start_high h0 h1 (not_lt.mp hq) hM hs
    exact ⟨K, by omega, good _ h2 h3 (.inl h4)⟩

/-! ## Reflection -/

theorem root_reflect {e M s : ℝ} (hs : s - e * Real.sin s = M) :
    (2 * Real.pi - s) - e * Real.sin (2 * Real.pi - s) = 2 * Real.pi - M := by
  rw [Real.sin_two_pi_sub]; linarith

theorem next_reflect (e s x : ℝ) : next e (2 * Real.pi - s) (2 * Real.pi - x) = 2 * Real.pi - next e s x := by
  have h1 : fall e (2 * Real.pi - s) (2 * Real.pi - x) = -fall e s x := by
    unfold fall; rw [Real.sin_two_pi_sub, Real.sin_two_pi_sub]; ring
  have h2 : slope e (2 * Real.pi - x) = slope e x := by unfold slope; rw [Real.cos_two_pi_sub]
  rw [next, h1, h2, Real.sin_two_pi_sub, mul_neg, delta_neg, next]
  ring

theorem fall_reflect (e s x : ℝ) : fall e (2 * Real.pi - s) (2 * Real.pi - x) = -fall e s x := by
  unfold fall; rw [Real.sin_two_pi_sub, Real.sin_two_pi_sub]; ring

theorem iterate_reflect (e s : ℝ) (n : Nat) : ∀ x, (next e (2 * Real.pi - s))^[n] (2 * Real.pi - x) = 2 * Real.pi - (next e s)^[n] x := by
  induction n with
  | zero => intro x; rfl
  | succ n ih => intro x; rw [Function.iterate_succ_apply, Function.iterate_succ_apply, next_reflect, ih]

/-- the starting value of the code, as a real number -/
noncomputable def guess (e M : ℝ) : ℝ := if Real.pi < M then 2 * Real.pi - guessLow e (2 * Real.pi - M) else guessLow e M

theorem reaches_all {e M s : ℝ} (h0 : 0 ≤ e) (h1 : e < 1) (hM0 : 0 ≤ M) (hM : M ≤ 2 * Real.pi) (hs : s - e * Real.sin s = M) {tol : ℝ} {K : Nat}
    (hK : 7 * (5 / 6) ^ K < tol) : ∃ n ≤ 2 * K, |fall e s ((next e s)^[n] (guess e M))| < tol := by
  rw [guess]
  split_ifs with h
  · obtain ⟨n, hn, h2⟩ := reaches h0 h1 (show 0 ≤ 2 * Real.pi - M by linarith) (by linarith) (root_reflect hs) hK
    refine ⟨n, hn, ?_⟩
    have h3 := iterate_reflect e (2 * Real.pi - s) n (guessLow e (2 * Real.pi - M))
    rw [sub_sub_cancel] at h3
    have h4 := fall_reflect e (2 * Real.pi - s) ((next e (2 * Real.pi - s))^[n] (guessLow e (2 * Real.pi - M)))
    rw [sub_sub_cancel] at h4
    rw [h3, h4, abs_neg]
    exact h2
  · exact reaches h0 h1 hM0 (not_lt.mp h) hs hK

end Pyorb.Lag

namespace Pyorb
open FX Lag

/-! ## The code's iteration -/

theorem root_exists {e : ℝ} (h0 : 0 ≤ e) (h1 : e < 1) (M : ℝ) : ∃ s, s - e * Real.sin s = M := by
  obtain ⟨s, hs⟩ := meanOf_surj h0 h1.ne M
  refine ⟨s, ?_⟩
  simpa only [meanOf, if_neg (not_lt.mpr h1.le), if_neg h1.ne] using hs

theorem residual_fall {e M s x : ℝ} (h1 : e < 1) (hs : s - e * Real.sin s = M) : meanOf e x - M = fall e s x := by
  rw [meanOf, if_neg (not_lt.mpr h1.le), if_neg h1.ne, fall, ← hs]; ring

/-- the step of the code with degree 5 is the real Laguerre step -/
theorem lagNext_real {e M s : ℝ} (h0 : 0 ≤ e) (h1 : e < 1) (hs : s - e * Real.sin s = M) (tol : ℝ) (mi : Int) (x : ℝ) :
    lagNext (opts tol mi 5) (fin M) (fin e) (fin x) = fin (next e s x) := by
  have hn : ¬ (1 < e) := not_lt.mpr h1.le
  have hp := slope_pos h0 h1 x
  have hF : M - meanOf e x = -fall e s x := by rw [← residual_fall h1 hs]; ring
  rw [lagNext, lagF_fin h1.ne, hF]
  unfold lagStep lagFp lagFpp
  simp only [opts, one_fin, lt_fin, hn, decide_false, Bool.false_eq_true, if_false, cos_fin, sin_fin, neg_fin, sub_fin, sq_fin, mul_fin, abs_fin,
    sqrt_fin (abs_nonneg _), add_fin]
  have hR : (5 - 1 : ℝ) ^ 2 * (e * Real.cos x - 1) ^ 2 - 5 * (5 - 1) * -fall e s x * (-e * Real.sin x)
      = 16 * slope e x ^ 2 - 20 * fall e s x * (e * Real.sin x) := by unfold Lag.slope; ring
  rw [hR]
  set R := √|16 * slope e x ^ 2 - 20 * fall e s x * (e * Real.sin x)| with hRd
  have hR0 : 0 ≤ R := Real.sqrt_nonneg _
  have h2 : e * Real.cos x - 1 = -slope e x := by unfold Lag.slope; ring
  rw [h2]
  have h3 : ¬ |-slope e x - R| < |-slope e x + R| := by
    rw [abs_of_neg (by linarith : -slope e x - R < 0), not_lt, abs_le]
    constructor <;> linarith
  have h4 : -slope e x - R ≠ 0 := by linarith
  simp only [h3, decide_false, Bool.false_eq_true, if_false, div_fin h4, sub_fin]
  congr 1
  rw [next, delta, ← hRd, show (5 : ℝ) * -fall e s x = -(5 * fall e s x) by ring, show -slope e x - R = -(slope e x + R) by ring, neg_div_neg_eq]

theorem lagIterate_real {e M s : ℝ} (h0 : 0 ≤ e) (h1 : e < 1) (hs : s - e * Real.sin s = M) (tol : ℝ) (mi : Int) (n : Nat) :
    ∀ x, (lagNext (opts tol mi 5) (fin M) (fin e))^[n] (fin x) = fin ((next e s)^[n] x) := by
  induction n with
  | zero => intro x; rfl
  | succ n ih => intro x; rw [Function.iterate_succ_apply, lagNext_real h0 h1 hs, ih, Function.iterate_succ_apply]

theorem keplerGuess_real {e : ℝ} (h0 : 0 ≤ e) (h1 : e < 1) (M : ℝ) : keplerGuess (fin M) (fin e) = fin (guess e M) := by
  have hn : ¬ (1 < e) := not_lt.mpr h1.le
  simp only [keplerGuess, one_fin, lt_fin, hn, decide_false, Bool.false_eq_true, if_false, get_kepler_guess_fin h0 h1, guess]

/-- C72, the solver: with the code's starting value and degree 5, on every ellipse and for every mean anomaly of the first turn, the loop
ends after at most 2K steps because the tolerance is met, as soon as 7 (5/6)^K < tol and the limit allows more than 2K steps. -/
theorem c72_solver (tol : ℝ) (mi : Int) (M e : ℝ) (h0 : 0 ≤ e) (h1 : e < 1) (hM0 : 0 ≤ M) (hM : M ≤ 2 * Real.pi) (K : Nat)
    (hK : 7 * (5 / 6) ^ K < tol) (hmi : 2 * K < mi) :
    ∃ (E : ℝ) (n : Nat), laguerre_solve_kepler (keplerGuess (fin M) (fin e)) (fin M) (fin e) (opts tol mi 5) = (fin E, (n : Int)) ∧ n ≤ 2 * K ∧
      |meanOf e E - M| < tol := by
  obtain ⟨s, hs⟩ := root_exists h0 h1 M
  obtain ⟨j, hj, h2⟩ := reaches_all h0 h1 hM0 hM hs hK
  obtain ⟨n, h3, h4, h5, h6⟩ := c11_terminates (keplerGuess (fin M) (fin e)) (fin M) (fin e) (opts tol mi 5)
  have hstop : ∀ k, lagGoesOn (opts tol mi 5) (fin M) (fin e) ((lagNext (opts tol mi 5) (fin M) (fin e))^[k] (keplerGuess (fin M) (fin e))) ↔
      tol ≤ |fall e s ((next e s)^[k] (guess e M))| := by
    intro k
    rw [keplerGuess_real h0 h1, lagIterate_real h0 h1 hs, lagGoesOn, lagF_fin h1.ne, abs_fin, abs_sub_comm, residual_fall h1 hs]
    simp only [opts, le_fin, decide_eq_true_eq]
  have hnj : n ≤ j := by
    by_contra hlt
    have := (hstop j).mp (h5 j (not_le.mp hlt))
    linarith
  refine ⟨(next e s)^[n] (guess e M), n, ?_, hnj.trans hj, ?_⟩
  · rw [h3, keplerGuess_real h0 h1, lagIterate_real h0 h1 hs]
  · have h7 : (n : Int) < max 1 (opts tol mi 5).max_iter := by
      refine lt_max_of_lt_right ?_
      show (n : Int) < mi
      have : (n : Int) ≤ 2 * K := by exact_mod_cast hnj.trans hj
      linarith
    have := (not_congr (hstop n)).mp (h6 h7)
    rw [residual_fall h1 hs]
    exact not_le.mp this

/-- C72: hence the iteration limit is never reached. -/
theorem c72_limit (tol : ℝ) (mi : Int) (M e : ℝ) (h0 : 0 ≤ e) (h1 : e < 1) (hM0 : 0 ≤ M) (hM : M ≤ 2 * Real.pi) (K : Nat)
    (hK : 7 * (5 / 6) ^ K < tol) (hmi : 2 * K < mi) : ¬ HitLimit (opts tol mi 5) (fin M) (fin e) := by
  obtain ⟨E, n, h2, h3, -⟩ := c72_solver tol mi M e h0 h1 hM0 hM K hK hmi
  rw [HitLimit, h2]
  refine not_le.mpr (lt_max_of_lt_right ?_)
  show (n : Int) < mi
  have : (n : Int) ≤ 2 * K := by exact_mod_cast h3
  linarith

theorem dflt_fin : (SolverOpts.dflt : SolverOpts FX) = opts (1 / 1000000000000) 5000 5 := by
  simp [SolverOpts.dflt, opts]

theorem dflt_steps : (7 : ℝ) * (5 / 6) ^ 163 < 1 / 1000000000000 := by norm_num

/-- C72, default options: `mean_to_eccentric` inverts `eccentric_to_mean` within 1e-12 on every ellipse, without any condition on the iteration. -/
theorem c72_default (g : Nat → FX) (M e : ℝ) (h0 : 0 ≤ e) (h1 : e < 1) (hM0 : 0 ≤ M) (hM : M ≤ 2 * Real.pi) :
    ∃ E M', mean_to_eccentric SolverOpts.dflt (fl M) (fl e) false = .ok (fl E) ∧ eccentric_to_mean g (fl E) (fl e) false = .ok (fl M') ∧
      |M' - M| < 1 / 1000000000000 := by
  rw [dflt_fin]
  obtain ⟨E, M', h2, h3, -, h5⟩ := c09_residual g (1 / 1000000000000) 5000 5 M e h0 (by norm_num) (.inl h1.le)
  exact ⟨E, M', h2, h3, h5 (c72_limit _ _ M e h0 h1 hM0 hM 163 dflt_steps (by norm_num))⟩

/-- C72: the distance to the exact eccentric anomaly. -/
theorem c72_error (g : Nat → FX) (M e Es : ℝ) (h0 : 0 ≤ e) (h1 : e < 1) (hM0 : 0 ≤ M) (hM : M ≤ 2 * Real.pi)
    (hs : eccentric_to_mean g (fl Es) (fl e) false = .ok (fl M)) :
    ∃ E, mean_to_eccentric SolverOpts.dflt (fl M) (fl e) false = .ok (fl E) ∧ |E - Es| ≤ 1 / 1000000000000 / (1 - e) := by
  rw [dflt_fin]
  have h2 := c10_error g (1 / 1000000000000) 5000 5 M e Es h0 h1.ne (by norm_num) (.inl h1)
    (c72_limit _ _ M e h0 h1 hM0 hM 163 dflt_steps (by norm_num)) hs
  rwa [abs_of_pos (sub_pos.mpr h1)] at h2

/-- a case: e = 0.9, M = 0.1 -/
example : ∃ (E : ℝ) (n : Nat), laguerre_solve_kepler (keplerGuess (fin (1 / 10)) (fin (9 / 10))) (fin (1 / 10)) (fin (9 / 10)) (opts (1 / 1000000000000) 5000 5)
    = (fin E, (n : Int)) ∧ n ≤ 2 * 163 ∧ |meanOf (9 / 10) E - 1 / 10| < 1 / 1000000000000 :=
  c72_solver _ _ (1 / 10) (9 / 10) (by norm_num) (by norm_num) (by norm_num) (by linarith [Real.pi_gt_three]) 163 dflt_steps (by norm_num)

end Pyorb
