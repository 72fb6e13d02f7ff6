import Verif.LagHyper
import Verif.PropsConverge

/-!
# C76: the Kepler solver converges on the outbound leg of every hyperbola

The hyperbolic Kepler function `e sinh x - x` is increasing, and convex where `x ≥ 0`.  The code starts at `log (2 M / e + 1.8)`, at most 3/5
above and at most 1 below the root.  From above a Laguerre step of degree 5 covers between 5/16 and 13/8 of the distance; from
below it at most doubles the distance (`LagHyper`).
-/

namespace Pyorb
open FX Lag

theorem hyp_root_exists {e M : ℝ} (h1 : 1 < e) (hM : 0 ≤ M) : ∃ s, 0 ≤ s ∧ e * Real.sinh s - s = M := by
  obtain ⟨s, hs⟩ := meanOf_surj (show 0 ≤ e by linarith) h1.ne' M
  simp only [meanOf, if_pos h1] at hs
  refine ⟨s, ?_, hs⟩
  by_contra hneg
  have h2 : Real.sinh s < s := by
    by_contra h3
    exact hneg (Real.self_le_sinh_iff.mp (not_lt.mp h3))
  have h3 := not_le.mp hneg
  have : Real.sinh s < 0 := by linarith
  nlinarith

theorem hyp_residual {e M s x : ℝ} (h1 : 1 < e) (hs : e * Real.sinh s - s = M) : meanOf e x - M = Hyp.rise e s x := by
  rw [meanOf, if_pos h1, Hyp.rise, ← hs]; ring

/-- the step of the code with degree 5 is the real Laguerre step -/
theorem hyp_lagNext_real {e M s : ℝ} (h1 : 1 < e) (hs : e * Real.sinh s - s = M) (tol : ℝ) (mi : Int) (x : ℝ) :
    lagNext (opts tol mi 5) (fin M) (fin e) (fin x) = fin (Hyp.next e s x) := by
  have hp := Hyp.slope_pos h1 x
  have hF : M - meanOf e x = -Hyp.rise e s x := by rw [← hyp_residual h1 hs]; ring
  rw [lagNext, lagF_fin h1.ne', hF]
  unfold lagStep lagFp lagFpp
  simp only [opts, one_fin, lt_fin, h1, decide_true, if_true, cosh_fin, sinh_fin, neg_fin, sub_fin, sq_fin, mul_fin, abs_fin,
    sqrt_fin (abs_nonneg _), add_fin]
  have hR : (5 - 1 : ℝ) ^ 2 * (1 - e * Real.cosh x) ^ 2 - 5 * (5 - 1) * -Hyp.rise e s x * (-e * Real.sinh x)
      = 16 * Hyp.slope e x ^ 2 - 20 * Hyp.rise e s x * (e * Real.sinh x) := by unfold Hyp.slope; ring
  rw [hR]
  set R := √|16 * Hyp.slope e x ^ 2 - 20 * Hyp.rise e s x * (e * Real.sinh x)| with hRd
  have hR0 : 0 ≤ R := Real.sqrt_nonneg _
  have h2 : 1 - e * Real.cosh x = -Hyp.slope e x := by unfold Hyp.slope; ring
  rw [h2]
  have h3 : ¬ |-Hyp.slope e x - R| < |-Hyp.slope e x + R| := by
    rw [abs_of_neg (by linarith : -Hyp.slope e x - R < 0), not_lt, abs_le]
    constructor <;> linarith
  have h4 : -Hyp.slope e x - R ≠ 0 := by linarith
  simp only [h3, decide_false, Bool.false_eq_true, if_false, div_fin h4, sub_fin]
  congr 1
  rw [Hyp.next, delta, ← hRd, show (5 : ℝ) * -Hyp.rise e s x = -(5 * Hyp.rise e s x) by ring,
    show -Hyp.slope e x - R = -(Hyp.slope e x + R) by ring, neg_div_neg_eq]

theorem hyp_lagIterate_real {e M s : ℝ} (h1 : 1 < e) (hs : e * Real.sinh s - s = M) (tol : ℝ) (mi : Int) (n : Nat) :
    ∀ x, (lagNext (opts tol mi 5) (fin M) (fin e))^[n] (fin x) = fin ((Hyp.next e s)^[n] x) := by
  induction n with
  | zero => intro x; rfl
  | succ n ih => intro x; rw [Function.iterate_succ_apply, hyp_lagNext_real h1 hs, ih, Function.iterate_succ_apply]

theorem hyp_keplerGuess_real {e M : ℝ} (h1 : 1 < e) (hM : 0 ≤ M) : keplerGuess (fin M) (fin e) = fin (Hyp.guess e M) := by
  simp only [keplerGuess, one_fin, lt_fin, h1, decide_true, if_true, Hyp.guess]
  rw [hyp_guess_fin h1 (by linarith), show (18 / 10 : ℝ) = 9 / 5 by norm_num]

/-- C76, the solver: with the code's starting value and degree 5, on every hyperbola and for every mean anomaly `M ≥ 0`, the loop ends after
at most K steps because the tolerance is met, as soon as 14 (M + e) (7/8)^K < tol and the limit allows more than K steps. -/
theorem c76_solver (tol : ℝ) (mi : Int) (M e : ℝ) (h1 : 1 < e) (hM : 0 ≤ M) (K : Nat) (hK : 14 * (M + e) * (7 / 8) ^ K < tol) (hmi : K < mi) :
    ∃ (E : ℝ) (n : Nat), laguerre_solve_kepler (keplerGuess (fin M) (fin e)) (fin M) (fin e) (opts tol mi 5) = (fin E, (n : Int)) ∧ n ≤ K ∧
      |meanOf e E - M| < tol := by
  obtain ⟨s, hs0, hs⟩ := hyp_root_exists h1 hM
  have h2 := Hyp.reaches h1 hs0 hs hK
  obtain ⟨n, h3, h4, h5, h6⟩ := c11_terminates (keplerGuess (fin M) (fin e)) (fin M) (fin e) (opts tol mi 5)
  have hstop : ∀ k, lagGoesOn (opts tol mi 5) (fin M) (fin e) ((lagNext (opts tol mi 5) (fin M) (fin e))^[k] (keplerGuess (fin M) (fin e))) ↔
      tol ≤ |Hyp.rise e s ((Hyp.next e s)^[k] (Hyp.guess e M))| := by
    intro k
    rw [hyp_keplerGuess_real h1 hM, hyp_lagIterate_real h1 hs, lagGoesOn, lagF_fin h1.ne', abs_fin, abs_sub_comm, hyp_residual h1 hs]
    simp only [opts, le_fin, decide_eq_true_eq]
  have hnK : n ≤ K := by
    by_contra hlt
    have := (hstop K).mp (h5 K (not_le.mp hlt))
    linarith
  refine ⟨(Hyp.next e s)^[n] (Hyp.guess e M), n, ?_, hnK, ?_⟩
  · rw [h3, hyp_keplerGuess_real h1 hM, hyp_lagIterate_real h1 hs]
  · have h7 : (n : Int) < max 1 (opts tol mi 5).max_iter := by
      refine lt_max_of_lt_right ?_
      show (n : Int) < mi
      have : (n : Int) ≤ K := by exact_mod_cast hnK
      linarith
    have := (not_congr (hstop n)).mp (h6 h7)
    rw [hyp_residual h1 hs]
    exact not_le.mp this

/-- C76: hence the iteration limit is never reached. -/
theorem c76_limit (tol : ℝ) (mi : Int) (M e : ℝ) (h1 : 1 < e) (hM : 0 ≤ M) (K : Nat) (hK : 14 * (M + e) * (7 / 8) ^ K < tol) (hmi : K < mi) :
    ¬ HitLimit (opts tol mi 5) (fin M) (fin e) := by
  obtain ⟨E, n, h2, h3, -⟩ := c76_solver tol mi M e h1 hM K hK hmi
  rw [HitLimit, h2]
  refine not_le.mpr (lt_max_of_lt_right ?_)
  show (n : Int) < mi
  have : (n : Int) ≤ K := by exact_mod_cast h3
  linarith

theorem hyp_dflt_steps {x : ℝ} (h : x ≤ 10 ^ 200) : 14 * x * (7 / 8) ^ 4000 < 1 / 1000000000000 := by
  have h1 : 14 * x * (7 / 8 : ℝ) ^ 4000 ≤ 14 * 10 ^ 200 * (7 / 8) ^ 4000 := mul_le_mul_of_nonneg_right (by linarith) (by positivity)
  refine h1.trans_lt ?_
  have e1 : (14 : ℝ) * 10 ^ 200 * (7 / 8) ^ 4000 = 14 * (10 * (7 / 8) ^ 20) ^ 200 := by rw [mul_pow, ← pow_mul, mul_assoc]
  have h2 : (10 * (7 / 8) ^ 20 : ℝ) ^ 200 ≤ (7 / 10) ^ 200 := pow_le_pow_left₀ (by positivity) (by norm_num) 200
  rw [e1]
  refine (mul_le_mul_of_nonneg_left h2 (by norm_num)).trans_lt ?_
  norm_num

/-- C76, default options: `mean_to_eccentric` inverts `eccentric_to_mean` within 1e-12 on the outbound leg of every hyperbola, without any
condition on the iteration. -/
theorem c76_default (g : Nat → FX) (M e : ℝ) (h1 : 1 < e) (hM : 0 ≤ M) (hb : M + e ≤ 10 ^ 200) :
    ∃ E M', mean_to_eccentric SolverOpts.dflt (fl M) (fl e) false = .ok (fl E) ∧ eccentric_to_mean g (fl E) (fl e) false = .ok (fl M') ∧
      |M' - M| < 1 / 1000000000000 := by
  rw [dflt_fin]
  obtain ⟨E, M', h2, h3, -, h5⟩ := c09_residual g (1 / 1000000000000) 5000 5 M e (by linarith) (by norm_num) (.inr ⟨h1, by linarith⟩)
  exact ⟨E, M', h2, h3, h5 (c76_limit _ _ M e h1 hM 4000 (hyp_dflt_steps hb) (by norm_num))⟩

/-- C76: the distance to the exact eccentric anomaly. -/
theorem c76_error (g : Nat → FX) (M e Es : ℝ) (h1 : 1 < e) (hM : 0 ≤ M) (hb : M + e ≤ 10 ^ 200)
    (hs : eccentric_to_mean g (fl Es) (fl e) false = .ok (fl M)) :
    ∃ E, mean_to_eccentric SolverOpts.dflt (fl M) (fl e) false = .ok (fl E) ∧ |E - Es| ≤ 1 / 1000000000000 / (e - 1) := by
  rw [dflt_fin]
  have h2 := c10_error g (1 / 1000000000000) 5000 5 M e Es (by linarith) h1.ne' (by norm_num) (.inr ⟨h1, by linarith⟩)
    (c76_limit _ _ M e h1 hM 4000 (hyp_dflt_steps hb) (by norm_num)) hs
  rwa [abs_sub_comm, abs_of_pos (sub_pos.mpr h1)] at h2

/-- a case: e = 1.0001, M = 2: 14 (M + e) (7/8)^240 is below the tolerance -/
example : ∃ (E : ℝ) (n : Nat), laguerre_solve_kepler (keplerGuess (fin 2) (fin (10001 / 10000))) (fin 2) (fin (10001 / 10000)) (opts (1 / 1000000000000) 5000 5)
    = (fin E, (n : Int)) ∧ n ≤ 240 ∧ |meanOf (10001 / 10000) E - 2| < 1 / 1000000000000 :=
  c76_solver _ _ 2 (10001 / 10000) (by norm_num) (by norm_num) 240 (by norm_num) (by norm_num)

end Pyorb
