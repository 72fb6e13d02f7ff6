import Verif.LagHyperIn
import Verif.PropsConvergeHyp

/-!
# C80: the Kepler solver on the inbound leg of a hyperbola

For `-0.9 e < M < 0` the code starts at `log (1.8 - 2 |M| / e)`, which lies anywhere between 0.59 and minus infinity.  Where the start is 0, that is at
`M = -0.4 e`, the slope is `e - 1` and the first step has length `0.4 e / (e - 1)`: near `e = 1` the solver is thrown out and does not find
back within 5000 steps.
-/

namespace Pyorb
open FX Lag

theorem hyp_guess_real {e M : ℝ} (h1 : 1 < e) (hM : -(9 / 10) * e < M) : keplerGuess (fin M) (fin e) = fin (Hyp.guess e M) := by
  simp only [keplerGuess, one_fin, lt_fin, h1, decide_true, if_true, Hyp.guess]
  rw [hyp_guess_fin h1 hM, show (18 / 10 : ℝ) = 9 / 5 by norm_num]

/-- the code's iterates for `-m` are the mirror images of those of `Hyp.next` -/
theorem hyp_iterate_in {e m s : ℝ} (h1 : 1 < e) (hs : e * Real.sinh s - s = m) (hm : m < 9 / 10 * e) (tol : ℝ) (mi : Int) (n : Nat) :
    (lagNext (opts tol mi 5) (fin (-m)) (fin e))^[n] (keplerGuess (fin (-m)) (fin e)) = fin (-(Hyp.next e s)^[n] (Hyp.inGuess e m)) := by
  have hs' : e * Real.sinh (-s) - -s = -m := by rw [Real.sinh_neg, ← hs]; ring
  rw [hyp_guess_real h1 (by linarith), hyp_lagIterate_real h1 hs', ← Hyp.iterate_mirror, Hyp.inGuess, neg_neg]

theorem hyp_goesOn_in {e m s : ℝ} (h1 : 1 < e) (hs : e * Real.sinh s - s = m) (tol : ℝ) (mi : Int) (x : ℝ) :
    lagGoesOn (opts tol mi 5) (fin (-m)) (fin e) (fin (-x)) ↔ tol ≤ |Hyp.rise e s x| := by
  have hs' : e * Real.sinh (-s) - -s = -m := by rw [Real.sinh_neg, ← hs]; ring
  rw [lagGoesOn, lagF_fin h1.ne', abs_fin, abs_sub_comm, hyp_residual h1 hs', Hyp.rise_mirror, abs_neg]
  simp only [opts, le_fin, decide_eq_true_eq]

/-- C80, what holds: on hyperbolas with e >= 2 for -0.75 e <= M <= 0, and on every hyperbola for -0.75 e <= M <= -0.6 e, the loop ends after
at most K steps because the tolerance is met, as soon as 14 (|M| + e) (7/8)^K < tol and the limit allows more than K steps.  Missing: e < 2 with
M > -0.6 e, where the loop may fail (`c80_false`), and M between -0.9 e and -0.75 e. -/
theorem c80_solver_partial (tol : ℝ) (mi : Int) (M e : ℝ) (h1 : 1 < e) (hM0 : M ≤ 0) (hM : -(3 / 4) * e ≤ M) (h : 2 ≤ e ∨ M ≤ -(3 / 5) * e)
    (K : Nat) (hK : 14 * (|M| + e) * (7 / 8) ^ K < tol) (hmi : K < mi) :
    ∃ (E : ℝ) (n : Nat), laguerre_solve_kepler (keplerGuess (fin M) (fin e)) (fin M) (fin e) (opts tol mi 5) = (fin E, (n : Int)) ∧ n ≤ K ∧
      |meanOf e E - M| < tol := by
  obtain ⟨m, rfl⟩ : ∃ m, M = -m := ⟨-M, by ring⟩
  have hm0 : 0 ≤ m := by linarith
  rw [abs_neg, abs_of_nonneg hm0] at hK
  obtain ⟨s, hs0, hs⟩ := hyp_root_exists h1 hm0
  have hs' : e * Real.sinh (-s) - -s = -m := by rw [Real.sinh_neg, ← hs]; ring
  have h2 := Hyp.in_reaches h1 hs0 hs (by linarith) (h.imp_right fun h => by linarith) hK
  obtain ⟨n, h3, h4, h5, h6⟩ := c11_terminates (keplerGuess (fin (-m)) (fin e)) (fin (-m)) (fin e) (opts tol mi 5)
  have hit := fun k => hyp_iterate_in h1 hs (show m < 9 / 10 * e by linarith) tol mi k
  have hstop : ∀ k, lagGoesOn (opts tol mi 5) (fin (-m)) (fin e) ((lagNext (opts tol mi 5) (fin (-m)) (fin e))^[k] (keplerGuess (fin (-m)) (fin e))) ↔
      tol ≤ |Hyp.rise e s ((Hyp.next e s)^[k] (Hyp.inGuess e m))| := by
    intro k
    rw [hit k, hyp_goesOn_in h1 hs]
  have hnK : n ≤ K := by
    by_contra hlt
    have := (hstop K).mp (h5 K (not_le.mp hlt))
    linarith
  refine ⟨-(Hyp.next e s)^[n] (Hyp.inGuess e m), n, ?_, hnK, ?_⟩
  · rw [h3, hit n]
  · have h7 : (n : Int) < max 1 (opts tol mi 5).max_iter := by
      refine lt_max_of_lt_right ?_
      show (n : Int) < mi
      have : (n : Int) ≤ K := by exact_mod_cast hnK
      linarith
    have := (not_congr (hstop n)).mp (h6 h7)
    rw [hyp_residual h1 hs', Hyp.rise_mirror, abs_neg]
    exact not_le.mp this

theorem c80_limit_partial (tol : ℝ) (mi : Int) (M e : ℝ) (h1 : 1 < e) (hM0 : M ≤ 0) (hM : -(3 / 4) * e ≤ M) (h : 2 ≤ e ∨ M ≤ -(3 / 5) * e)
    (K : Nat) (hK : 14 * (|M| + e) * (7 / 8) ^ K < tol) (hmi : K < mi) : ¬ HitLimit (opts tol mi 5) (fin M) (fin e) := by
  obtain ⟨E, n, h2, h3, -⟩ := c80_solver_partial tol mi M e h1 hM0 hM h K hK hmi
  rw [HitLimit, h2]
  refine not_le.mpr (lt_max_of_lt_right ?_)
  show (n : Int) < mi
  have : (n : Int) ≤ K := by exact_mod_cast h3
  linarith

/-- C80, what holds with the default options: in the same region `mean_to_eccentric` inverts `eccentric_to_mean` within 1e-12. -/
theorem c80_default_partial (g : Nat → FX) (M e : ℝ) (h1 : 1 < e) (hM0 : M ≤ 0) (hM : -(3 / 4) * e ≤ M) (h : 2 ≤ e ∨ M ≤ -(3 / 5) * e)
    (hb : |M| + e ≤ 10 ^ 200) :
    ∃ E M', mean_to_eccentric SolverOpts.dflt (fl M) (fl e) false = .ok (fl E) ∧ eccentric_to_mean g (fl E) (fl e) false = .ok (fl M') ∧
      |M' - M| < 1 / 1000000000000 := by
  rw [dflt_fin]
  obtain ⟨E, M', h2, h3, -, h5⟩ := c09_residual g (1 / 1000000000000) 5000 5 M e (by linarith) (by norm_num) (.inr ⟨h1, by linarith⟩)
  exact ⟨E, M', h2, h3, h5 (c80_limit_partial _ _ M e h1 hM0 hM h 4000 (hyp_dflt_steps hb) (by norm_num))⟩

/-- both regions of C80 are inhabited, the second near e = 1 -/
example : ∃ (E : ℝ) (n : Nat), laguerre_solve_kepler (keplerGuess (fin (-1)) (fin 2)) (fin (-1)) (fin 2) (opts (1 / 1000000000000) 5000 5)
    = (fin E, (n : Int)) ∧ n ≤ 240 ∧ |meanOf 2 E - -1| < 1 / 1000000000000 :=
  c80_solver_partial _ _ (-1) 2 (by norm_num) (by norm_num) (by norm_num) (.inl le_rfl) 240 (by norm_num) (by norm_num)

example : ∃ (E : ℝ) (n : Nat), laguerre_solve_kepler (keplerGuess (fin (-(7 / 10))) (fin (1001 / 1000))) (fin (-(7 / 10))) (fin (1001 / 1000)) (opts (1 / 1000000000000) 5000 5)
    = (fin E, (n : Int)) ∧ n ≤ 240 ∧ |meanOf (1001 / 1000) E - -(7 / 10)| < 1 / 1000000000000 :=
  c80_solver_partial _ _ (-(7 / 10)) (1001 / 1000) (by norm_num) (by norm_num) (by norm_num) (.inr (by norm_num)) 240 (by norm_num) (by norm_num)

/-! ## The start at zero -/

theorem inGuess_zero {e : ℝ} (he : e ≠ 0) : Hyp.inGuess e (2 / 5 * e) = 0 := by
  rw [Hyp.inGuess, Hyp.guess, show 2 * -(2 / 5 * e) / e + 9 / 5 = 1 by field_simp; norm_num, Real.log_one, neg_zero]

theorem cube_le_sinh {x : ℝ} (h : 10 ≤ x) : x ≤ Real.sinh x - x - 1 := by
  have h1 := sinh_ge3 (show 0 ≤ x by linarith)
  have h2 : 100 ≤ x ^ 2 := by nlinarith
  have h3 := mul_le_mul_of_nonneg_left h2 (show 0 ≤ x by linarith)
  have h4 : x ^ 3 = x * x ^ 2 := by ring
  linarith

/-- all iterates after the first are far out, and so is the residual -/
theorem thrown_out {e s : ℝ} (h1 : 1 < e) (hs : e * Real.sinh s - s = 2 / 5 * e) {R : ℝ} (hR : 10 ≤ R) (n : Nat)
    (h : R + 5 * n ≤ 2 / 5 * e / (e - 1)) :
    R ≤ (Hyp.next e s)^[n + 1] 0 ∧ R ≤ |Hyp.rise e s ((Hyp.next e s)^[n + 1] 0)| := by
  have he : 0 < e := by linarith
  have h2 : R ≤ (Hyp.next e s)^[n + 1] 0 := by
    rw [Function.iterate_succ_apply, Hyp.next_zero h1 hs]
    have := Hyp.iterate_slow h1 hs (by positivity) n (2 / 5 * e / (e - 1)) (by linarith)
    linarith
  refine ⟨h2, ?_⟩
  set x := (Hyp.next e s)^[n + 1] 0
  have h3 := cube_le_sinh (hR.trans h2)
  have h4 : Hyp.rise e s x = e * (Real.sinh x - 2 / 5) - x := by
    have : Hyp.rise e s x = e * Real.sinh x - x - (e * Real.sinh s - s) := by unfold Hyp.rise; ring
    rw [this, hs]; ring
  have h5 : Real.sinh x - 2 / 5 ≤ e * (Real.sinh x - 2 / 5) := le_mul_of_one_le_left (by linarith) h1.le
  rw [h4]
  refine le_trans ?_ (le_abs_self _)
  linarith

theorem two_fifths_start {e s : ℝ} (h1 : 1 < e) (hs : e * Real.sinh s - s = 2 / 5 * e) : 1 / 10 ≤ |Hyp.rise e s 0| := by
  have h2 : Hyp.rise e s 0 = -(2 / 5 * e) := by
    have : Hyp.rise e s 0 = -(e * Real.sinh s - s) := by unfold Hyp.rise; rw [Real.sinh_zero]; ring
    rw [this, hs]
  rw [h2, abs_neg, abs_of_pos (by linarith)]
  linarith

/-- C80 fails: on every hyperbola with e <= 1.00001, at M = -0.4 e, the default solver stops at its limit of 5000 iterations, and the eccentric
anomaly that `mean_to_eccentric` returns is below -10000.  The exact one is above -2. -/
theorem c80_false (g : Nat → FX) (e : ℝ) (h1 : 1 < e) (he : e ≤ 1 + 1 / 100000) :
    HitLimit (SolverOpts.dflt : SolverOpts FX) (fin (-(2 / 5 * e))) (fin e) ∧
    (∃ E, mean_to_eccentric SolverOpts.dflt (fl (-(2 / 5 * e))) (fl e) false = .ok (fl E) ∧ E ≤ -10000) ∧
    ∃ Es, eccentric_to_mean g (fl Es) (fl e) false = .ok (fl (-(2 / 5 * e))) ∧ -2 ≤ Es ∧ Es ≤ 0 := by
  have he0 : 0 < e := by linarith
  obtain ⟨s, hs0, hs⟩ := hyp_root_exists h1 (show 0 ≤ 2 / 5 * e by positivity)
  have hs' : e * Real.sinh (-s) - -s = -(2 / 5 * e) := by rw [Real.sinh_neg, ← hs]; ring
  have hz : e ≠ 0 := he0.ne'
  have hbig : 40000 ≤ 2 / 5 * e / (e - 1) := by
    rw [le_div_iff₀ (by linarith)]
    linarith
  rw [dflt_fin]
  obtain ⟨n, h3, h4, h5, h6⟩ := c11_terminates (keplerGuess (fin (-(2 / 5 * e))) (fin e)) (fin (-(2 / 5 * e))) (fin e) (opts (1 / 1000000000000) 5000 5)
  have hit : ∀ k, (lagNext (opts (1 / 1000000000000) 5000 5) (fin (-(2 / 5 * e))) (fin e))^[k] (keplerGuess (fin (-(2 / 5 * e))) (fin e))
      = fin (-(Hyp.next e s)^[k] 0) := by
    intro k
    rw [hyp_iterate_in h1 hs (by linarith), inGuess_zero hz]
  have hn5 : (n : Int) ≤ 5000 := by simpa [opts] using h4
  have hn5' : n ≤ 5000 := by exact_mod_cast hn5
  have hfar : ∀ k ≤ 5000, (1 / 10 : ℝ) ≤ |Hyp.rise e s ((Hyp.next e s)^[k] 0)| := by
    intro k hk
    rcases k with _ | k
    · exact two_fifths_start h1 hs
    · have hk' : (k : ℝ) ≤ 4999 := by exact_mod_cast Nat.lt_succ_iff.mp hk
      have := (thrown_out h1 hs (R := 10) le_rfl k (by linarith)).2
      linarith
  have hgo : ∀ k ≤ 5000, lagGoesOn (opts (1 / 1000000000000) 5000 5) (fin (-(2 / 5 * e))) (fin e)
      ((lagNext (opts (1 / 1000000000000) 5000 5) (fin (-(2 / 5 * e))) (fin e))^[k] (keplerGuess (fin (-(2 / 5 * e))) (fin e))) := by
    intro k hk
    rw [hit k, hyp_goesOn_in h1 hs]
    exact le_trans (by norm_num) (hfar k hk)
  have hn : n = 5000 := by
    by_contra hne
    have hlt : n < 5000 := lt_of_le_of_ne hn5' hne
    refine h6 (lt_max_of_lt_right ?_) (hgo n hn5')
    show (n : Int) < 5000
    exact_mod_cast hlt
  refine ⟨?_, ⟨-(Hyp.next e s)^[n] 0, ?_, ?_⟩, -s, ?_, ?_, by linarith⟩
  · rw [HitLimit, h3, hn]
    simp [opts]
  · rw [mean_to_eccentric_fl, meanToEccentricSc]
    have hg : keplerGuess (fin (-(2 / 5 * e))) (fin e) = get_hyperbolic_kepler_guess (fin (-(2 / 5 * e))) (fin e) := by
      simp only [keplerGuess, one_fin, lt_fin, h1, decide_true, if_true]
    simp only [zero_fin, eq_fin, hz, decide_false, Bool.false_eq_true, if_false, meanToEccentricEl, one_fin, lt_fin, h1,
      decide_true, if_true]
    rw [← hg, h3, hit n]
    rfl
  · have := (thrown_out h1 hs (R := 10000) (by norm_num) 4999 (by push_cast; linarith)).1
    rw [hn]
    linarith
  · rw [eccentric_to_mean_meanOf, meanOf, if_pos h1, hs']
  · by_contra hlt
    have hs2 : 2 < s := by linarith [not_le.mp hlt]
    have h7 := sinh_ge3 hs0
    have h8 : 8 ≤ s ^ 3 := by
      have := pow_le_pow_left₀ (by norm_num) hs2.le 3
      norm_num at this
      exact this
    have h9 : s + 8 / 6 ≤ Real.sinh s := by linarith
    have h10 := mul_le_mul_of_nonneg_left h9 he0.le
    nlinarith

end Pyorb
