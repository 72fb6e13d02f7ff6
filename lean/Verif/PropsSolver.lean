import Mathlib.Topology.Order.IntermediateValue
import Mathlib.Topology.Algebra.Order.LiminfLimsup
import Verif.PropsAnomaly

/-!
# C09, C10, C11, C12, C44, C49: solving Kepler's equation

C11 and C44 hold for any scalar type; the others are about exact reals.
-/

set_option linter.unusedSimpArgs false

namespace Pyorb
open FX

/-! ## C11: the loop -/

/-- one Laguerre step from `E` -/
def lagNext {α : Type} [Np α] (o : SolverOpts α) (M e E : α) : α := lagStep o.degree e E (lagF M e E)

/-- the loop condition `np.abs(_f(E)) >= tol` -/
def lagGoesOn {α : Type} [Np α] (o : SolverOpts α) (M e E : α) : Prop := (o.tol ≤ᵇ Np.abs (lagF M e E)) = true

theorem lagLoop_spec {α : Type} [Np α] (o : SolverOpts α) (M e : α) (m : Nat) : ∀ (E : α) (it : Nat),
    (o.max_iter - it).toNat = m →
    ∃ n : Nat, lagLoop o M e E (lagF M e E) it = ((lagNext o M e)^[n] E, ((it + n : Nat) : Int)) ∧
      ((it + n : Nat) : Int) ≤ max ((it : Int) + 1) o.max_iter ∧
      (∀ k < n, lagGoesOn o M e ((lagNext o M e)^[k] E)) ∧
      (((it + n : Nat) : Int) < max ((it : Int) + 1) o.max_iter → ¬ lagGoesOn o M e ((lagNext o M e)^[n] E)) := by
  induction m using Nat.strong_induction_on with
  | _ m ih =>
    intro E it hm
    rw [lagLoop]
    by_cases hc : (o.tol ≤ᵇ Np.abs (lagF M e E)) = true
    · rw [if_pos hc]
      by_cases hmax : o.max_iter ≤ (it : Int) + 1
      · simp only [if_pos hmax]
        refine ⟨1, rfl, ?_, ?_, ?_⟩
        · push_cast; exact le_max_left _ _
        · intro k hk
          obtain rfl : k = 0 := by omega
          exact hc
        · intro h
          rw [max_eq_left hmax] at h
          push_cast at h
          omega
      · simp only [if_neg hmax]
        have := ih ((o.max_iter - ((it + 1 : Nat) : Int)).toNat) (by push_cast; omega) (lagNext o M e E) (it + 1) rfl
        obtain ⟨n, h1, h2, h3, h4⟩ := this
        refine ⟨n + 1, ?_, ?_, ?_, ?_⟩
        · have e1 : ((it : Int) + 1) = ((it + 1 : Nat) : Int) := by push_cast; rfl
          rw [e1]
          refine h1.trans ?_
          rw [Function.iterate_succ_apply]
          congr 1
          push_cast; ring
        · rw [max_eq_right (by omega)]
          have : max (((it + 1 : Nat) : Int) + 1) o.max_iter = o.max_iter := max_eq_right (by push_cast; omega)
          rw [this] at h2
          push_cast at h2 ⊢
          omega
        · intro k hk
          rcases k with _ | k
          · exact hc
          · rw [Function.iterate_succ_apply]; exact h3 k (by omega)
        · intro h
          rw [Function.iterate_succ_apply]
          apply h4
          rw [max_eq_right (by omega)] at h
          have : max (((it + 1 : Nat) : Int) + 1) o.max_iter = o.max_iter := max_eq_right (by push_cast; omega)
          rw [this]
          push_cast at h ⊢
          omega
    · rw [if_neg hc]
      refine ⟨0, rfl, ?_, ?_, ?_⟩
      · push_cast
        exact le_trans (by omega) (le_max_left _ _)
      · intro k hk; omega
      · intro _; exact hc

/-- C11: for every starting point, argument and option (any scalar type, NaN included) the solver stops after `n` steps,
`n ≤ max(1, max_iter)`; it returns the `n`-th iterate and `n` itself; every earlier iterate violates the tolerance; and if
`n < max(1, max_iter)` the returned iterate meets it. -/
theorem c11_terminates {α : Type} [Np α] (E0 M e : α) (o : SolverOpts α) :
    ∃ n : Nat, laguerre_solve_kepler E0 M e o = ((lagNext o M e)^[n] E0, (n : Int)) ∧
      (n : Int) ≤ max 1 o.max_iter ∧
      (∀ k < n, lagGoesOn o M e ((lagNext o M e)^[k] E0)) ∧
      ((n : Int) < max 1 o.max_iter → ¬ lagGoesOn o M e ((lagNext o M e)^[n] E0)) := by
  obtain ⟨n, h1, h2, h3, h4⟩ := lagLoop_spec o M e _ E0 0 rfl
  refine ⟨n, ?_, ?_, h3, ?_⟩
  · rw [laguerre_solve_kepler]; simpa using h1
  · simpa using h2
  · simpa using h4

/-- C11, last clause: a start that already meets the tolerance is returned unchanged with count 0. -/
theorem c11_start_accepted {α : Type} [Np α] (E0 M e : α) (o : SolverOpts α) (h : ¬ lagGoesOn o M e E0) :
    laguerre_solve_kepler E0 M e o = (E0, 0) := by
  have h : ¬ (o.tol ≤ᵇ Np.abs (lagF M e E0)) = true := h
  rw [laguerre_solve_kepler, lagLoop, if_neg h]

/-- a start that is rejected costs at least one iteration even when `max_iter` is zero or negative -/
theorem c11_at_least_one {α : Type} [Np α] (E0 M e : α) (o : SolverOpts α) (h : lagGoesOn o M e E0) (hm : o.max_iter ≤ 1) :
    laguerre_solve_kepler E0 M e o = (lagNext o M e E0, 1) := by
  have h : (o.tol ≤ᵇ Np.abs (lagF M e E0)) = true := h
  rw [laguerre_solve_kepler, lagLoop, if_pos h]
  simp only [zero_add, if_pos hm]
  rfl

/-- both cases occur: e = 0, M = 1 is accepted at E = 1 and rejected at E = 0 -/
example : ¬ lagGoesOn (⟨fin (1 / 2), 5, fin 5⟩ : SolverOpts FX) (fin 1) (fin 0) (fin 1) ∧
    lagGoesOn (⟨fin (1 / 2), 0, fin 5⟩ : SolverOpts FX) (fin 1) (fin 0) (fin 0) := by
  constructor
  · have hn : ¬ ((1 : ℝ) < 0) := by norm_num
    simp [lagGoesOn, lagF, hn]
  · have hn : ¬ ((1 : ℝ) < 0) := by norm_num
    simp [lagGoesOn, lagF, hn]; norm_num

/-! ## Real iterates -/

/-- finite solver options -/
noncomputable def opts (tol : ℝ) (maxIter : Int) (degree : ℝ) : SolverOpts FX := ⟨fin tol, maxIter, fin degree⟩

/-- The mean anomaly belonging to an eccentric anomaly, textbook definition (independent of the code). -/
noncomputable def meanOf (e E : ℝ) : ℝ :=
  if 1 < e then e * Real.sinh E - E else if e = 1 then E + E ^ 3 / 3 else E - e * Real.sin E

theorem eccentric_to_mean_meanOf (g : Nat → FX) (E e : ℝ) :
    eccentric_to_mean g (fl E) (fl e) false = .ok (fl (meanOf e E)) := by
  rw [eccentric_to_mean_fl]
  rcases lt_trichotomy e 1 with h | h | h
  · rw [eccentricToMeanSc_eli h, meanOf, if_neg (not_lt.mpr h.le), if_neg h.ne]; rfl
  · subst h; rw [eccentricToMeanSc_par, meanOf, if_neg (lt_irrefl _), if_pos rfl]; rfl
  · rw [eccentricToMeanSc_hyp h, meanOf, if_pos h]; rfl

theorem lagF_fin {M e E : ℝ} (he : e ≠ 1) : lagF (fin M) (fin e) (fin E) = fin (M - meanOf e E) := by
  unfold lagF meanOf
  by_cases h : 1 < e
  · simp only [one_fin, lt_fin, h, decide_true, if_true, sinh_fin, mul_fin, add_fin, sub_fin]; congr 1; ring
  · simp only [one_fin, lt_fin, h, decide_false, Bool.false_eq_true, if_false, if_neg he, sin_fin, mul_fin, add_fin, sub_fin]
    congr 1; ring

theorem lagFp_fin {e : ℝ} (h0 : 0 ≤ e) (he : e ≠ 1) (E : ℝ) : ∃ fp, lagFp (fin e) (fin E) = fin fp ∧ fp < 0 := by
  unfold lagFp
  by_cases h : 1 < e
  · refine ⟨1 - e * Real.cosh E, by simp [h], ?_⟩
    have := Real.one_le_cosh E
    nlinarith
  · refine ⟨e * Real.cos E - 1, by simp [h], ?_⟩
    have h1 : e < 1 := lt_of_le_of_ne (not_lt.mp h) he
    have := Real.cos_le_one E
    nlinarith

theorem lagFpp_fin (e E : ℝ) : ∃ fpp, lagFpp (fin e) (fin E) = fin fpp := by
  unfold lagFpp
  by_cases h : 1 < e
  · exact ⟨-e * Real.sinh E, by simp [h]⟩
  · exact ⟨-e * Real.sin E, by simp [h]⟩

/-- From a finite point the Laguerre step always leads to a finite point: the derivative is negative, so the chosen
denominator is the one of larger modulus and never vanishes. -/
theorem lagStep_fin {e : ℝ} (h0 : 0 ≤ e) (he : e ≠ 1) (d E f : ℝ) : ∃ E', lagStep (fin d) (fin e) (fin E) (fin f) = fin E' := by
  obtain ⟨fp, hfp, hneg⟩ := lagFp_fin h0 he E
  obtain ⟨fpp, hfpp⟩ := lagFpp_fin e E
  unfold lagStep
  simp only [hfp, hfpp, one_fin, sub_fin, sq_fin, mul_fin, abs_fin, sqrt_fin (abs_nonneg _), add_fin, lt_fin]
  set s := Real.sqrt |(d - 1) ^ 2 * fp ^ 2 - d * (d - 1) * f * fpp|
  have hs : 0 ≤ s := Real.sqrt_nonneg _
  have h1 : ¬ |fp - s| < |fp + s| := by
    rw [abs_of_neg (by linarith : fp - s < 0), not_lt, abs_le]
    constructor <;> linarith
  have h2 : fp - s ≠ 0 := by linarith
  simp only [h1, decide_false, Bool.false_eq_true, if_false, div_fin h2, sub_fin]
  exact ⟨_, rfl⟩

theorem lagIter_fin {e : ℝ} (h0 : 0 ≤ e) (he : e ≠ 1) (tol : ℝ) (mi : Int) (d M : ℝ) (n : Nat) : ∀ E : ℝ,
    ∃ E', (lagNext (opts tol mi d) (fin M) (fin e))^[n] (fin E) = fin E' := by
  induction n with
  | zero => exact fun E => ⟨E, rfl⟩
  | succ n ih =>
    intro E
    obtain ⟨E1, h1⟩ := lagStep_fin h0 he d E (M - meanOf e E)
    obtain ⟨E', h2⟩ := ih E1
    refine ⟨E', ?_⟩
    rw [Function.iterate_succ_apply, ← h2]
    congr 1
    rw [lagNext, lagF_fin he]
    exact h1

/-- the solver from a finite start: a finite result that satisfies the tolerance unless the limit was reached -/
theorem laguerre_fin {e : ℝ} (h0 : 0 ≤ e) (he : e ≠ 1) (tol : ℝ) (mi : Int) (d M E0 : ℝ) :
    ∃ (E : ℝ) (n : Nat), laguerre_solve_kepler (fin E0) (fin M) (fin e) (opts tol mi d) = (fin E, (n : Int)) ∧
      ((n : Int) < max 1 mi → |meanOf e E - M| < tol) := by
  obtain ⟨n, h1, -, -, h4⟩ := c11_terminates (fin E0) (fin M) (fin e) (opts tol mi d)
  obtain ⟨E, hE⟩ := lagIter_fin h0 he tol mi d M n E0
  refine ⟨E, n, by rw [h1, hE], fun h => ?_⟩
  have := h4 h
  rw [hE, lagGoesOn, lagF_fin he] at this
  simp only [opts, abs_fin, le_fin, decide_eq_true_eq, not_le] at this
  rwa [abs_sub_comm] at this

/-! ## C49: the starting guess -/

theorem smith_denominator_pos {e : ℝ} (h0 : 0 ≤ e) (h1 : e < 1) (M : ℝ) : 1 / 30 < 1 - Real.sin (M + e) + Real.sin M := by
  have h2 : Real.sin (M + e) - Real.sin M = 2 * Real.sin (e / 2) * Real.cos (M + e / 2) := by
    rw [Real.sin_sub_sin]
    rw [show (M + e - M) / 2 = e / 2 by ring, show (M + e + M) / 2 = M + e / 2 by ring]
  have h3 : Real.sin (e / 2) ≤ Real.sin (1 / 2) :=
    Real.sin_le_sin_of_le_of_le_pi_div_two (by linarith [Real.pi_pos]) (by linarith [Real.pi_gt_three]) (by linarith)
  have h4 : Real.sin (1 / 2 : ℝ) ≤ 4825 / 10000 := by
    have := Real.sin_bound (x := 1 / 2) (by rw [abs_of_pos] <;> norm_num)
    rw [abs_of_pos (show (0 : ℝ) < 1 / 2 by norm_num)] at this
    have := (abs_le.mp this).2
    norm_num at this ⊢
    linarith
  have h5 : 0 ≤ Real.sin (e / 2) := Real.sin_nonneg_of_nonneg_of_le_pi (by linarith) (by linarith [Real.pi_gt_three])
  have h6 := Real.cos_le_one (M + e / 2)
  have h7 : 2 * Real.sin (e / 2) * Real.cos (M + e / 2) ≤ 2 * Real.sin (e / 2) := by nlinarith
  linarith

/-- the elliptic starting value for `M ≤ pi` as a real number -/
noncomputable def guessLow (e M : ℝ) : ℝ :=
  if M < 1 / 4 then M + e * Real.sin M / (1 - Real.sin (M + e) + Real.sin M)
  else if M < 2 then M + e else M + e * (Real.pi - M) / (1 + e)

theorem lit_quarter : (Np.lit (1 / 4) : FX) = fin (1 / 4) := by simp

theorem get_kepler_guess_fin {e : ℝ} (h0 : 0 ≤ e) (h1 : e < 1) (M : ℝ) :
    get_kepler_guess (fin M) (fin e)
      = fin (if Real.pi < M then 2 * Real.pi - guessLow e (2 * Real.pi - M) else guessLow e M) := by
  have key : ∀ m : ℝ, (if fin m <ᵇ Np.lit (1 / 4) then fin m + fin e * Np.sin (fin m) / (1 - Np.sin (fin m + fin e) + Np.sin (fin m))
    else if fin m <ᵇ 2 then fin m + fin e
    else fin m + (fin e * (Np.pi - fin m)) / (1 + fin e)) = fin (guessLow e m) := by
    intro m
    have hd := (smith_denominator_pos h0 h1 m)
    have hd : (1 - Real.sin (m + e) + Real.sin m) ≠ 0 := by linarith
    have h3 : (1 + e) ≠ 0 := by linarith
    simp only [lit_quarter, ofNat_fin, one_fin, pi_fin, lt_fin, add_fin, sub_fin, mul_fin, sin_fin, div_fin hd, div_fin h3,
      guessLow, decide_eq_true_eq]
    split_ifs <;> rfl
  unfold get_kepler_guess
  by_cases h : Real.pi < M
  · simp only [pi_fin, lt_fin, h, decide_true, if_true, twoPi_fin, sub_fin] at key ⊢
    rw [key, sub_fin]
  · simp only [pi_fin, lt_fin, h, decide_false, Bool.false_eq_true, if_false] at key ⊢
    rw [key]

theorem hyp_guess_fin {e M : ℝ} (h1 : 1 < e) (hM : -(9 / 10) * e < M) :
    get_hyperbolic_kepler_guess (fin M) (fin e) = fin (Real.log (2 * M / e + 18 / 10)) := by
  have he : e ≠ 0 := by linarith
  have : 0 < 2 * M / e + 18 / 10 := by
    have : -(18 / 10) < 2 * M / e := by rw [lt_div_iff₀ (by linarith)]; linarith
    linarith
  have hl : (Np.lit (18 / 10) : FX) = fin (18 / 10) := by simp
  simp only [get_hyperbolic_kepler_guess, ofNat_fin, mul_fin, div_fin he, hl, add_fin, log_fin this]

/-- scalar `kepler_guess` -/
theorem kepler_guess_fl (M e : ℝ) : kepler_guess (fl M) (fl e) = .ok (.sc .f64 (keplerGuess (fin M) (fin e))) := rfl

/-- C49, finiteness: on every ellipse for every real M, and on every hyperbola for M > -0.9 e (in particular M >= 0). -/
theorem c49_finite (M e : ℝ) (h0 : 0 ≤ e) (h : e < 1 ∨ 1 < e ∧ -(9 / 10) * e < M) :
    ∃ E0, kepler_guess (fl M) (fl e) = .ok (fl E0) := by
  rw [kepler_guess_fl, keplerGuess]
  rcases h with h1 | ⟨h1, hM⟩
  · have : ¬ (1 < e) := by linarith
    simp only [one_fin, lt_fin, this, decide_false, Bool.false_eq_true, if_false, get_kepler_guess_fin h0 h1]
    exact ⟨_, rfl⟩
  · simp only [one_fin, lt_fin, h1, decide_true, if_true, hyp_guess_fin h1 hM]
    exact ⟨_, rfl⟩

theorem guessLow_pi {e : ℝ} : guessLow e Real.pi = Real.pi := by
  have := Real.pi_gt_three
  simp [guessLow, not_lt.mpr (show (1 : ℝ) / 4 ≤ Real.pi by linarith), not_lt.mpr (show (2 : ℝ) ≤ Real.pi by linarith)]

/-- C49, symmetry: the guess for 2 pi - M is 2 pi minus the guess for M, for every real M. -/
theorem c49_symmetric (M e : ℝ) (h0 : 0 ≤ e) (h1 : e < 1) :
    ∃ E0, kepler_guess (fl M) (fl e) = .ok (fl E0) ∧
      kepler_guess (fl (2 * Real.pi - M)) (fl e) = .ok (fl (2 * Real.pi - E0)) := by
  have hn : ¬ (1 < e) := by linarith
  simp only [kepler_guess_fl, keplerGuess, one_fin, lt_fin, hn, decide_false, Bool.false_eq_true, if_false,
    get_kepler_guess_fin h0 h1]
  refine ⟨_, rfl, ?_⟩
  rcases lt_trichotomy M Real.pi with h | h | h
  · rw [if_neg (not_lt.mpr h.le), if_pos (by linarith), sub_sub_cancel]; rfl
  · subst h
    rw [if_neg (lt_irrefl _), if_neg (by linarith [Real.pi_pos]), show 2 * Real.pi - Real.pi = Real.pi by ring, guessLow_pi]
    rw [show 2 * Real.pi - Real.pi = Real.pi by ring]; rfl
  · rw [if_pos h, if_neg (by linarith), sub_sub_cancel]; rfl

theorem guessLow_near {e : ℝ} (h0 : 0 ≤ e) (h1 : e < 1) {M : ℝ} (hM0 : 0 ≤ M) (hM1 : M ≤ Real.pi) :
    0 ≤ guessLow e M - M ∧ guessLow e M - M ≤ 8 * e := by
  unfold guessLow
  split_ifs with ha hb
  · have hd := smith_denominator_pos h0 h1 M
    have hs0 : 0 ≤ Real.sin M := Real.sin_nonneg_of_nonneg_of_le_pi hM0 hM1
    have hs1 : Real.sin M ≤ 1 / 4 := (Real.sin_le hM0).trans ha.le
    rw [add_sub_cancel_left]
    refine ⟨div_nonneg (mul_nonneg h0 hs0) (by linarith), ?_⟩
    rw [div_le_iff₀ (by linarith)]
    have h3 : 8 * e * (1 / 30) ≤ 8 * e * (1 - Real.sin (M + e) + Real.sin M) :=
      mul_le_mul_of_nonneg_left hd.le (by linarith)
    have h4 : e * Real.sin M ≤ e * (1 / 4) := mul_le_mul_of_nonneg_left hs1 h0
    linarith
  · constructor <;> linarith
  · rw [add_sub_cancel_left]
    have : 0 ≤ Real.pi - M := by linarith
    refine ⟨div_nonneg (mul_nonneg h0 this) (by linarith), ?_⟩
    rw [div_le_iff₀ (by linarith)]
    have h5 := Real.pi_lt_four
    nlinarith

/-- C49, distance: on a revolution the guess lies within 8e of the mean anomaly, ahead of it on the first half and behind it
on the second. -/
theorem c49_near (M e : ℝ) (h0 : 0 ≤ e) (h1 : e < 1) (hM0 : 0 ≤ M) (hM1 : M ≤ 2 * Real.pi) :
    ∃ E0, kepler_guess (fl M) (fl e) = .ok (fl E0) ∧ |E0 - M| ≤ 8 * e ∧ (M ≤ Real.pi → M ≤ E0) ∧ (Real.pi < M → E0 ≤ M) := by
  have hn : ¬ (1 < e) := by linarith
  simp only [kepler_guess_fl, keplerGuess, one_fin, lt_fin, hn, decide_false, Bool.false_eq_true, if_false,
    get_kepler_guess_fin h0 h1]
  refine ⟨_, rfl, ?_⟩
  by_cases h : Real.pi < M
  · obtain ⟨h2, h3⟩ := guessLow_near h0 h1 (M := 2 * Real.pi - M) (by linarith) (by linarith)
    rw [if_pos h]
    refine ⟨?_, fun h' => by linarith, fun _ => by linarith⟩
    rw [abs_le]; constructor <;> linarith
  · obtain ⟨h2, h3⟩ := guessLow_near h0 h1 hM0 (not_lt.mp h)
    rw [if_neg h]
    refine ⟨?_, fun _ => by linarith, fun h' => absurd h' h⟩
    rw [abs_le]; constructor <;> linarith

example : (0 : ℝ) ≤ 1 / 2 ∧ (1 / 2 : ℝ) < 1 ∧ (0 : ℝ) ≤ 6 ∧ (6 : ℝ) ≤ 2 * Real.pi :=
  ⟨by norm_num, by norm_num, by norm_num, by linarith [Real.pi_gt_three]⟩

/-! ## C09: the residual -/

theorem realCbrt_cube {x : ℝ} (h : 0 ≤ x) : realCbrt x ^ 3 = x := by
  rw [realCbrt, if_pos h, ← Real.rpow_natCast, ← Real.rpow_mul h]
  norm_num

theorem realCbrt_pos {x : ℝ} (h : 0 < x) : 0 < realCbrt x := by
  rw [realCbrt, if_pos h.le]; exact Real.rpow_pos_of_pos h _

theorem barker_fin (M : ℝ) : ∃ E, barker (fin M) = fin E ∧ E + E ^ 3 / 3 = M := by
  set A := 3 / 2 * M with hA
  have hs0 : 0 ≤ A ^ 2 + 1 := by positivity
  have hsq := Real.sq_sqrt hs0
  set s := Real.sqrt (A ^ 2 + 1) with hs
  have hsp : 0 ≤ s := Real.sqrt_nonneg _
  have hpos : 0 < A + s := by
    have : |A| < s := by
      apply abs_lt_of_sq_lt_sq _ hsp
      rw [hsq]; linarith
    linarith [(abs_lt.mp this).1]
  set B := realCbrt (A + s) with hB
  have hBp : 0 < B := realCbrt_pos hpos
  have hB3 : B ^ 3 = A + s := realCbrt_cube hpos.le
  refine ⟨B - 1 / B, ?_, ?_⟩
  · have e1 : (3 / 2 * fin M : FX) = fin A := by simp [hA]
    simp only [barker, e1, sq_fin, one_fin, add_fin, sqrt_fin hs0, ← hs, cbrt_fin, ← hB, div_fin hBp.ne', sub_fin]
  · have h1 : (1 / B) ^ 3 = s - A := by
      rw [one_div, inv_pow, hB3]
      refine inv_eq_of_mul_eq_one_right ?_
      linear_combination hsq
    have h2 : B * (1 / B) = 1 := mul_one_div_cancel hBp.ne'
    have h3 : (B - 1 / B) ^ 3 = B ^ 3 - (1 / B) ^ 3 - 3 * (B * (1 / B)) * (B - 1 / B) := by ring
    rw [h3, h1, hB3, h2, hA]
    ring

/-- the solver call made by `mean_to_eccentric` for one element ran to the end of its iteration budget -/
def HitLimit {α : Type} [Np α] (o : SolverOpts α) (M e : α) : Prop :=
  max 1 o.max_iter ≤ (laguerre_solve_kepler (keplerGuess M e) M e o).2

theorem keplerGuess_fin {e M : ℝ} (h0 : 0 ≤ e) (h : e < 1 ∨ 1 < e ∧ -(9 / 10) * e < M) :
    ∃ E0, keplerGuess (fin M) (fin e) = fin E0 := by
  obtain ⟨E0, h⟩ := c49_finite M e h0 h
  rw [kepler_guess_fl] at h
  refine ⟨E0, ?_⟩
  injection h with h
  injection h

theorem meanToEccentricEl_guess {α : Type} [Np α] (o : SolverOpts α) (M e : α) (h : (e =ᵇ (1 : α)) = false) :
    meanToEccentricEl o M e = (laguerre_solve_kepler (keplerGuess M e) M e o).1 := by
  unfold meanToEccentricEl keplerGuess
  simp only [h, Bool.false_eq_true, if_false]
  split_ifs <;> rfl

/-- one element of the array path -/
theorem meanToEccentricEl_fin (tol : ℝ) (mi : Int) (d M e : ℝ) (h0 : 0 ≤ e)
    (h : e ≤ 1 ∨ 1 < e ∧ -(9 / 10) * e < M) :
    ∃ E, meanToEccentricEl (opts tol mi d) (fin M) (fin e) = fin E ∧
      (e = 1 → meanOf e E = M) ∧ (e ≠ 1 → ¬ HitLimit (opts tol mi d) (fin M) (fin e) → |meanOf e E - M| < tol) := by
  by_cases he : e = 1
  · subst he
    obtain ⟨E, h1, h2⟩ := barker_fin M
    refine ⟨E, by simp [meanToEccentricEl, h1], fun _ => by simp [meanOf, h2], fun h => absurd rfl h⟩
  · have hg : e < 1 ∨ 1 < e ∧ -(9 / 10) * e < M := h.imp_left fun h => lt_of_le_of_ne h he
    obtain ⟨E0, hE0⟩ := keplerGuess_fin h0 hg
    obtain ⟨E, n, h1, h2⟩ := laguerre_fin h0 he tol mi d M E0
    refine ⟨E, ?_, fun h => absurd h he, fun _ hl => h2 ?_⟩
    · rw [meanToEccentricEl_guess _ _ _ (by simp [he]), hE0, h1]
    · rw [HitLimit, hE0, h1] at hl
      exact not_le.mp hl

theorem mean_to_eccentric_fl (o : SolverOpts FX) (M e : ℝ) :
    mean_to_eccentric o (fl M) (fl e) false = .ok (.sc .f64 (meanToEccentricSc o (fin M) (fin e))) := by
  simp only [mean_to_eccentric, toRad, toDeg, fl, unify, bind, Except.bind, pure, Except.pure, Bool.false_eq_true, if_false,
    meanToEccentricSc]
  split_ifs <;> rfl

/-- C09: for an ellipse, a parabola, or a hyperbola with M > -0.9 e, every tolerance, limit and degree: the result is finite,
and inserting it in `eccentric_to_mean` gives M back: exactly for a parabola, within the tolerance otherwise unless the
iteration limit was reached. -/
theorem c09_residual (g : Nat → FX) (tol : ℝ) (mi : Int) (d M e : ℝ) (h0 : 0 ≤ e) (ht : 0 < tol)
    (h : e ≤ 1 ∨ 1 < e ∧ -(9 / 10) * e < M) :
    ∃ E M', mean_to_eccentric (opts tol mi d) (fl M) (fl e) false = .ok (fl E) ∧
      eccentric_to_mean g (fl E) (fl e) false = .ok (fl M') ∧
      (e = 1 → M' = M) ∧ (¬ HitLimit (opts tol mi d) (fin M) (fin e) → |M' - M| < tol) := by
  by_cases hz : e = 0
  · subst hz
    refine ⟨M, M, ?_, ?_, fun _ => rfl, fun _ => by simpa using ht⟩
    · rw [mean_to_eccentric_fl]; simp [meanToEccentricSc]; rfl
    · rw [eccentric_to_mean_meanOf]; simp [meanOf, show ¬ ((1 : ℝ) < 0) by norm_num]
  · obtain ⟨E, h1, h2, h3⟩ := meanToEccentricEl_fin tol mi d M e h0 h
    refine ⟨E, meanOf e E, ?_, eccentric_to_mean_meanOf g E e, h2, fun hl => ?_⟩
    · rw [mean_to_eccentric_fl, meanToEccentricSc]
      simp only [zero_fin, eq_fin, hz, decide_false, Bool.false_eq_true, if_false, h1]
      rfl
    · by_cases he : e = 1
      · rw [h2 he]; simpa using ht
      · exact h3 he hl

/-- a case that does not hit the limit: circular orbit, M = 1 (the guess is exact) -/
example : ¬ HitLimit (opts (1 / 2) 5 5) (fin 1) (fin 0) ∧ ((0 : ℝ) ≤ 1 ∨ 1 < (0 : ℝ) ∧ -(9 / 10) * 0 < (1 : ℝ)) := by
  have hp := Real.pi_gt_three
  refine ⟨?_, Or.inl (by norm_num)⟩
  have hg : keplerGuess (fin 1) (fin 0) = fin 1 := by
    rw [keplerGuess]
    simp only [one_fin, lt_fin, show ¬ ((1 : ℝ) < 0) by norm_num, decide_false, Bool.false_eq_true, if_false,
      get_kepler_guess_fin le_rfl one_pos, show ¬ (Real.pi < 1) by linarith]
    norm_num [guessLow]
  rw [HitLimit, hg, c11_start_accepted]
  · simp [opts]
  · simp [lagGoesOn, lagF, opts, show ¬ ((1 : ℝ) < 0) by norm_num]

/-! ## C10: uniqueness and error -/

theorem meanOf_gap {e : ℝ} (h0 : 0 ≤ e) (he : e ≠ 1) {x y : ℝ} (h : x ≤ y) :
    |1 - e| * (y - x) ≤ meanOf e y - meanOf e x := by
  unfold meanOf
  by_cases h1 : 1 < e
  · simp only [if_pos h1]
    have : Real.sinh x - x ≤ Real.sinh y - y := Real.sinh_sub_id_strictMono.monotone h
    rw [abs_of_neg (by linarith)]
    nlinarith
  · have h2 : e < 1 := lt_of_le_of_ne (not_lt.mp h1) he
    simp only [if_neg h1, if_neg he]
    have h3 := Real.abs_sin_sub_sin_le y x
    rw [abs_of_nonneg (sub_nonneg.mpr h)] at h3
    have h4 := (abs_le.mp h3).2
    rw [abs_of_pos (by linarith)]
    nlinarith

theorem meanOf_error {e : ℝ} (h0 : 0 ≤ e) (he : e ≠ 1) (x y : ℝ) : |x - y| ≤ |meanOf e x - meanOf e y| / |1 - e| := by
  have hp : 0 < |1 - e| := abs_pos.mpr (sub_ne_zero.mpr he.symm)
  rw [le_div_iff₀ hp]
  rcases le_total x y with h | h
  · have h1 := meanOf_gap h0 he h
    rw [abs_sub_comm x y, abs_of_nonneg (sub_nonneg.mpr h), abs_sub_comm (meanOf e x), mul_comm]
    exact h1.trans (le_abs_self _)
  · have h1 := meanOf_gap h0 he h
    rw [abs_of_nonneg (sub_nonneg.mpr h), mul_comm]
    exact h1.trans (le_abs_self _)

theorem meanOf_continuous (e : ℝ) : Continuous (meanOf e) := by
  unfold meanOf
  by_cases h : 1 < e
  · simp only [if_pos h]; exact (continuous_const.mul Real.continuous_sinh).sub continuous_id
  · by_cases h' : e = 1
    · simp only [if_neg h, if_pos h']; fun_prop
    · simp only [if_neg h, if_neg h']; fun_prop

theorem meanOf_zero (e : ℝ) : meanOf e 0 = 0 := by
  unfold meanOf; split_ifs <;> simp

theorem meanOf_surj {e : ℝ} (h0 : 0 ≤ e) (he : e ≠ 1) : Function.Surjective (meanOf e) := by
  have hp : 0 < |1 - e| := abs_pos.mpr (sub_ne_zero.mpr he.symm)
  refine (meanOf_continuous e).surjective ?_ ?_
  · refine Filter.tendsto_atTop_mono' Filter.atTop (f₁ := fun x => |1 - e| * x) ?_ ?_
    · filter_upwards [Filter.eventually_ge_atTop 0] with x hx
      have := meanOf_gap h0 he hx
      rw [meanOf_zero] at this
      linarith
    · exact Filter.Tendsto.const_mul_atTop hp Filter.tendsto_id
  · refine Filter.tendsto_atBot_mono' Filter.atBot (f₁ := fun x => |1 - e| * x) (f₂ := meanOf e) ?_ ?_
    · filter_upwards [Filter.eventually_le_atBot 0] with x hx
      have := meanOf_gap h0 he hx
      rw [meanOf_zero] at this
      linarith
    · exact Filter.Tendsto.const_mul_atBot hp Filter.tendsto_id

/-- C10, existence and uniqueness: for every real M and e >= 0, e != 1 exactly one E has `eccentric_to_mean(E, e) = M`. -/
theorem c10_unique (g : Nat → FX) (M e : ℝ) (h0 : 0 ≤ e) (he : e ≠ 1) :
    ∃! E, eccentric_to_mean g (fl E) (fl e) false = .ok (fl M) := by
  obtain ⟨E, hE⟩ := meanOf_surj h0 he M
  refine ⟨E, by simp only [eccentric_to_mean_meanOf, hE], fun E' h' => ?_⟩
  simp only [eccentric_to_mean_meanOf] at h'
  have h2 : meanOf e E' = M := by injection h' with h'; exact fl_inj h'
  have := meanOf_error h0 he E' E
  rw [h2, hE, sub_self, abs_zero, zero_div] at this
  exact sub_eq_zero.mp (abs_nonpos_iff.mp this)

/-- C10, error bound: whatever `mean_to_eccentric` returns without hitting the iteration limit is within tol/|1-e| of the
exact solution. -/
theorem c10_error (g : Nat → FX) (tol : ℝ) (mi : Int) (d M e Es : ℝ) (h0 : 0 ≤ e) (he : e ≠ 1) (ht : 0 < tol)
    (h : e < 1 ∨ 1 < e ∧ -(9 / 10) * e < M) (hl : ¬ HitLimit (opts tol mi d) (fin M) (fin e))
    (hs : eccentric_to_mean g (fl Es) (fl e) false = .ok (fl M)) :
    ∃ E, mean_to_eccentric (opts tol mi d) (fl M) (fl e) false = .ok (fl E) ∧ |E - Es| ≤ tol / |1 - e| := by
  obtain ⟨E, M', h1, h2, -, h4⟩ := c09_residual g tol mi d M e h0 ht (h.imp_left le_of_lt)
  refine ⟨E, h1, ?_⟩
  rw [eccentric_to_mean_meanOf] at h2 hs
  have h2 : meanOf e E = M' := by injection h2 with h'; exact fl_inj h'
  have hs : meanOf e Es = M := by injection hs with h'; exact fl_inj h'
  have h5 := meanOf_error h0 he E Es
  rw [h2, hs] at h5
  exact h5.trans (div_le_div_of_nonneg_right (h4 hl).le (abs_nonneg _))

/-- the same bound for any E that the solver's stopping rule accepts, whatever the start -/
theorem c10_accepted (tol : ℝ) (mi : Int) (d M e E Es : ℝ) (h0 : 0 ≤ e) (he : e ≠ 1)
    (ha : ¬ lagGoesOn (opts tol mi d) (fin M) (fin e) (fin E)) (hs : meanOf e Es = M) : |E - Es| ≤ tol / |1 - e| := by
  rw [lagGoesOn, lagF_fin he] at ha
  simp only [opts, abs_fin, le_fin, decide_eq_true_eq, not_le] at ha
  have h5 := meanOf_error h0 he E Es
  rw [hs, abs_sub_comm (meanOf e E)] at h5
  exact h5.trans (div_le_div_of_nonneg_right ha.le (abs_nonneg _))

/-! ## C12: hyperbolic inversion -/

theorem hyp_guess_not_fin {e M : ℝ} (h1 : 1 < e) (hM : M ≤ -(9 / 10) * e) :
    get_hyperbolic_kepler_guess (fin M) (fin e) = (if M = -(9 / 10) * e then ninf else nan) := by
  have he : e ≠ 0 := by linarith
  have hl : (Np.lit (18 / 10) : FX) = fin (18 / 10) := by simp
  simp only [get_hyperbolic_kepler_guess, ofNat_fin, mul_fin, div_fin he, hl, add_fin]
  by_cases h : M = -(9 / 10) * e
  · have : 2 * M / e + 18 / 10 = 0 := by rw [h]; field_simp; ring
    rw [this, if_pos h]
    show FX.log (fin 0) = _
    simp [FX.log]
  · rw [if_neg h]
    have hlt : M < -(9 / 10) * e := lt_of_le_of_ne hM h
    apply log_neg
    have : 2 * M / e < -(18 / 10) := by rw [div_lt_iff₀ (by linarith)]; linarith
    linarith

theorem not_goesOn_nan (o : SolverOpts FX) (M e : ℝ) (h1 : 1 < e) : ¬ lagGoesOn o (fin M) (fin e) nan := by
  simp [lagGoesOn, lagF, h1]

theorem not_goesOn_ninf (o : SolverOpts FX) (M e : ℝ) (h1 : 1 < e) : ¬ lagGoesOn o (fin M) (fin e) ninf := by
  have h2 : lagF (fin M) (fin e) ninf = nan := by
    have h3 : (fin M + ninf - fin e * Np.sinh ninf : FX) = nan := by
      show FX.sub (FX.add (fin M) ninf) (FX.mul (fin e) ninf) = nan
      simp [FX.add, FX.mul, FX.infSign, FX.neg, show 0 < e by linarith, FX.sub]
    simp only [lagF, one_fin, lt_fin, h1, decide_true, if_true, h3]
  simp [lagGoesOn, h2]

/-- C12 fails: exactly for M > -0.9 e does `mean_to_eccentric` return a finite hyperbolic anomaly. -/
theorem c12_finite_iff (tol : ℝ) (mi : Int) (d M e : ℝ) (h1 : 1 < e) :
    (∃ E, mean_to_eccentric (opts tol mi d) (fl M) (fl e) false = .ok (fl E)) ↔ -(9 / 10) * e < M := by
  have hz : e ≠ 0 := by linarith
  have hne : e ≠ 1 := by linarith
  have hred : mean_to_eccentric (opts tol mi d) (fl M) (fl e) false
      = .ok (.sc .f64 (laguerre_solve_kepler (get_hyperbolic_kepler_guess (fin M) (fin e)) (fin M) (fin e) (opts tol mi d)).1) := by
    rw [mean_to_eccentric_fl, meanToEccentricSc]
    simp only [zero_fin, eq_fin, hz, decide_false, Bool.false_eq_true, if_false, meanToEccentricEl, one_fin, lt_fin, h1,
      decide_true, if_true]
  rw [hred]
  constructor
  · rintro ⟨E, hE⟩
    by_contra hcon
    rw [hyp_guess_not_fin h1 (not_lt.mp hcon)] at hE
    split_ifs at hE
    · rw [c11_start_accepted _ _ _ _ (not_goesOn_ninf _ M e h1)] at hE
      injection hE with hE; injection hE with _ hE; exact FX.noConfusion hE
    · rw [c11_start_accepted _ _ _ _ (not_goesOn_nan _ M e h1)] at hE
      injection hE with hE; injection hE with _ hE; exact FX.noConfusion hE
  · intro hM
    obtain ⟨E, n, h2, -⟩ := laguerre_fin (by linarith) hne tol mi d M (Real.log (2 * M / e + 18 / 10))
    exact ⟨E, by rw [hyp_guess_fin h1 hM, h2]; rfl⟩

/-- C12, what holds: the whole outbound leg and the inbound leg down to M = -0.9 e.  Missing: M <= -0.9 e, where the result
is not a number (`c12_inbound_nan`). -/
theorem c12_finite_partial (tol : ℝ) (mi : Int) (d M e : ℝ) (h1 : 1 < e) (hM : -(9 / 10) * e < M) :
    ∃ E, mean_to_eccentric (opts tol mi d) (fl M) (fl e) false = .ok (fl E) := (c12_finite_iff tol mi d M e h1).mpr hM

/-- C12 fails: NaN for every M < -0.9 e. -/
theorem c12_inbound_nan (tol : ℝ) (mi : Int) (d M e : ℝ) (h1 : 1 < e) (hM : M < -(9 / 10) * e) :
    mean_to_eccentric (opts tol mi d) (fl M) (fl e) false = .ok (.sc .f64 nan) := by
  have hz : e ≠ 0 := by linarith
  rw [mean_to_eccentric_fl, meanToEccentricSc]
  simp only [zero_fin, eq_fin, hz, decide_false, Bool.false_eq_true, if_false, meanToEccentricEl, one_fin, lt_fin, h1,
    decide_true, if_true]
  rw [hyp_guess_not_fin h1 hM.le, if_neg hM.ne, c11_start_accepted _ _ _ _ (not_goesOn_nan _ M e h1)]

example : (1 : ℝ) < 2 ∧ (-5 : ℝ) < -(9 / 10) * 2 ∧ -(9 / 10) * 2 < (-1 : ℝ) := by norm_num

/-! ## C44: memory layout -/

theorem nditer_get {α : Type} [Np α] (A : NdArr α) (k : Nat) (hk : k < A.nditer.length) (hm : k < A.mem.length)
    (hd : A.mem[k] < A.data.length) : A.nditer[k] = A.data[A.mem[k]] := by
  simp [NdArr.nditer, List.getD_eq_getElem?_getD, hd]

/-- C44, what the array loop really computes (any scalar type, any layout): output element `k` combines the elements that
come `k`-th *in memory order* in the two arguments.  (`kepler_guess` refuses empty arrays, see `c54_kepler_guess`.) -/
theorem c44_pairing {α : Type} [Np α] (o : SolverOpts α) (X Y : NdArr α) (hX : X.WF) (hY : Y.WF) (hs : X.shape = Y.shape) :
    ∃ A G, mean_to_eccentric o (.arr X) (.arr Y) false = .ok (.arr A) ∧
      (X.size ≠ 0 → kepler_guess (.arr X) (.arr Y) = .ok (.arr G)) ∧
      A.shape = X.shape ∧ A.CContig ∧ A.data.length = X.size ∧ G.shape = X.shape ∧ G.CContig ∧ G.data.length = X.size ∧
      ∀ k, k < X.size → ∃ i j, X.mem[k]? = some i ∧ Y.mem[k]? = some j ∧
        ∃ x y, X.data[i]? = some x ∧ Y.data[j]? = some y ∧
          A.data[k]? = some (store X.dt (meanToEccentricEl o x y)) ∧ G.data[k]? = some (store X.dt (keplerGuess x y)) := by
  have hu : unify (.arr X) (.arr Y) = .ok (.arrays X Y) := by simp [unify, hs]
  have hsz : Y.size = X.size := by rw [NdArr.size, NdArr.size, hs]
  have hlX : X.mem.length = X.size := by rw [hX.perm.length_eq, List.length_range]
  have hlY : Y.mem.length = X.size := by rw [hY.perm.length_eq, List.length_range, hsz]
  have hnX : X.nditer.length = X.size := by simp [NdArr.nditer, hlX]
  have hnY : Y.nditer.length = X.size := by simp [NdArr.nditer, hlY]
  have hlen : ∀ f : α → α → α, (nditerLoop f X Y).data.length = X.size := by intro f; simp [nditerLoop, hnX, hnY]
  have hcc : ∀ f : α → α → α, (nditerLoop f X Y).CContig := by
    intro f
    show List.range (nditerLoop f X Y).data.length = List.range (nditerLoop f X Y).size
    rw [hlen]; rfl
  refine ⟨nditerLoop (meanToEccentricEl o) X Y, nditerLoop keplerGuess X Y, ?_, ?_, rfl, hcc _, hlen _, rfl, hcc _, hlen _, ?_⟩
  · simp [mean_to_eccentric, toRad, toDeg, hu, bind, Except.bind, pure, Except.pure]
  · intro h0; simp [kepler_guess, hu, bind, Except.bind, pure, Except.pure, h0]
  · intro k hk
    have hkX : k < X.mem.length := by omega
    have hkY : k < Y.mem.length := by omega
    have hiX : X.mem[k] < X.data.length := by
      have := hX.perm.mem_iff.mp (List.getElem_mem hkX)
      rw [List.mem_range] at this
      rw [hX.len]; exact this
    have hiY : Y.mem[k] < Y.data.length := by
      have := hY.perm.mem_iff.mp (List.getElem_mem hkY)
      rw [List.mem_range] at this
      rw [hY.len]; exact this
    refine ⟨_, _, List.getElem?_eq_getElem hkX, List.getElem?_eq_getElem hkY, _, _, List.getElem?_eq_getElem hiX,
      List.getElem?_eq_getElem hiY, ?_, ?_⟩
    · simp only [nditerLoop, List.getElem?_zipWith, List.getElem?_eq_getElem (show k < X.nditer.length by omega),
        List.getElem?_eq_getElem (show k < Y.nditer.length by omega), nditer_get X k (by omega) hkX hiX,
        nditer_get Y k (by omega) hkY hiY]
    · simp only [nditerLoop, List.getElem?_zipWith, List.getElem?_eq_getElem (show k < X.nditer.length by omega),
        List.getElem?_eq_getElem (show k < Y.nditer.length by omega), nditer_get X k (by omega) hkX hiX,
        nditer_get Y k (by omega) hkY hiY]

theorem guess_zero (M : ℝ) : get_kepler_guess (fin M) (fin 0) = fin M := by
  rw [get_kepler_guess_fin le_rfl one_pos]
  congr 1
  unfold guessLow
  simp only [zero_mul, zero_div, add_zero, ite_self, sub_sub_cancel]

theorem meanToEccentricEl_sc (tol : ℝ) (mi : Int) (d M : ℝ) (e : FX) (ht : 0 < tol) :
    meanToEccentricEl (opts tol mi d) (fin M) e = meanToEccentricSc (opts tol mi d) (fin M) e := by
  unfold meanToEccentricSc
  by_cases h : (e =ᵇ (0 : FX)) = true
  · rw [if_pos h]
    cases e with
    | fin e =>
      simp only [zero_fin, eq_fin, decide_eq_true_eq] at h
      subst h
      have hn : ¬ ((1 : ℝ) < 0) := by norm_num
      have hn' : ¬ ((0 : ℝ) = 1) := by norm_num
      simp only [meanToEccentricEl, one_fin, lt_fin, hn, decide_false, Bool.false_eq_true, if_false, eq_fin, hn', guess_zero]
      rw [c11_start_accepted]
      simp [lagGoesOn, lagF, opts, hn, ht]
    | pinf => rw [zero_fin] at h; exact absurd h (by show ¬ (false = true); simp)
    | ninf => rw [zero_fin] at h; exact absurd h (by show ¬ (false = true); simp)
    | nan => rw [zero_fin] at h; exact absurd h (by show ¬ (false = true); simp)
  · rw [if_neg h]

/-- C44, what holds: for C-contiguous float arrays of any shape each element is the result of the scalar call for that element
(M finite, positive tolerance).  Missing: other memory layouts, see `c44_fortran_wrong`. -/
theorem c44_ccontiguous_partial (tol : ℝ) (mi : Int) (d : ℝ) (X Y : NdArr FX) (hX : X.WF) (hY : Y.WF) (hs : X.shape = Y.shape)
    (hcX : X.CContig) (hcY : Y.CContig) (hdt : X.dt = .f64) (ht : 0 < tol) (hf : ∀ x ∈ X.data, ∃ r, x = fin r) :
    ∃ A, mean_to_eccentric (opts tol mi d) (.arr X) (.arr Y) false = .ok (.arr A) ∧ A.shape = X.shape ∧
      A.data.length = X.data.length ∧
      ∀ p (h1 : p < X.data.length) (h2 : p < Y.data.length) (h3 : p < A.data.length),
        mean_to_eccentric (opts tol mi d) (.sc .f64 X.data[p]) (.sc .f64 Y.data[p]) false = .ok (.sc .f64 A.data[p]) := by
  obtain ⟨A, G, hA, -, hAs, -, hAl, -, -, -, hk⟩ := c44_pairing (opts tol mi d) X Y hX hY hs
  refine ⟨A, hA, hAs, by rw [hAl, hX.len], fun p h1 h2 h3 => ?_⟩
  obtain ⟨i, j, hi, hj, x, y, hx, hy, hAk, -⟩ := hk p (by rw [← hX.len]; exact h1)
  have hsz : Y.size = X.size := by rw [NdArr.size, NdArr.size, hs]
  have hp : p < X.size := by rw [← hX.len]; exact h1
  have hi' : i = p := by rw [hcX, List.getElem?_range hp] at hi; exact (Option.some.inj hi).symm
  have hj' : j = p := by rw [hcY, hsz, List.getElem?_range hp] at hj; exact (Option.some.inj hj).symm
  subst hi' hj'
  rw [List.getElem?_eq_getElem h1] at hx
  rw [List.getElem?_eq_getElem h2] at hy
  rw [List.getElem?_eq_getElem h3] at hAk
  obtain ⟨r, hr⟩ := hf _ (List.getElem_mem h1)
  have hx := Option.some.inj hx
  have hy := Option.some.inj hy
  have hAk := Option.some.inj hAk
  rw [hAk, hx, hy, hdt, store_f64]
  have hxr : x = fin r := by rw [← hx]; exact hr
  subst hxr
  rw [meanToEccentricEl_sc tol mi d r y ht]
  simp only [mean_to_eccentric, toRad, toDeg, unify, bind, Except.bind, pure, Except.pure, Bool.false_eq_true, if_false,
    meanToEccentricSc]
  split_ifs <;> rfl

/-- C44 fails: for *every* 2x2 Fortran-ordered array M with M[0,1] != M[1,0] and a scalar e = 1 the element [0,1] of the result
is not the scalar result for M[0,1] (the two off-diagonal results are exchanged). -/
theorem c44_fortran_wrong (o : SolverOpts FX) (a b c d : ℝ) (h : b ≠ c) :
    ∃ A, mean_to_eccentric o (.arr ⟨.f64, [2, 2], [fin a, fin b, fin c, fin d], [0, 2, 1, 3]⟩) (fl 1) false = .ok (.arr A) ∧
      A.shape = [2, 2] ∧ A.CContig ∧ ∃ x, A.data[1]? = some x ∧
      mean_to_eccentric o (fl b) (fl 1) false ≠ .ok (.sc .f64 x) ∧
      mean_to_eccentric o (fl c) (fl 1) false = .ok (.sc .f64 x) := by
  have hb : ∀ M : ℝ, meanToEccentricEl o (fin M) (fin 1) = barker (fin M) := by
    intro M; simp [meanToEccentricEl]
  refine ⟨nditerLoop (meanToEccentricEl o) ⟨.f64, [2, 2], [fin a, fin b, fin c, fin d], [0, 2, 1, 3]⟩
    (NdArr.full [2, 2] .f64 (fin 1)), ?_, rfl, rfl, barker (fin c), ?_, ?_, ?_⟩
  · simp [mean_to_eccentric, toRad, toDeg, unify, bind, Except.bind, pure, Except.pure, DType.promote, fl]
  · simp [nditerLoop, NdArr.nditer, NdArr.full, hb, List.range_succ]
  · intro hcon
    rw [mean_to_eccentric_fl, meanToEccentricSc] at hcon
    simp only [zero_fin, eq_fin, one_ne_zero, decide_false, Bool.false_eq_true, if_false, hb] at hcon
    obtain ⟨E1, h1, h1'⟩ := barker_fin b
    obtain ⟨E2, h2, h2'⟩ := barker_fin c
    rw [h1, h2] at hcon
    injection hcon with hcon
    injection hcon with _ hcon
    injection hcon with hcon
    apply h
    rw [← h1', ← h2', hcon]
  · rw [mean_to_eccentric_fl, meanToEccentricSc]
    simp only [zero_fin, eq_fin, one_ne_zero, decide_false, Bool.false_eq_true, if_false, hb]

/-- a non-trivial C-contiguous pair of arrays, and the Fortran-ordered one is well formed too -/
example : (⟨.f64, [2, 2], [fin 1, fin 2, fin 3, fin 4], [0, 1, 2, 3]⟩ : NdArr FX).WF ∧
    (⟨.f64, [2, 2], [fin 1, fin 2, fin 3, fin 4], [0, 1, 2, 3]⟩ : NdArr FX).CContig ∧
    (⟨.f64, [2, 2], [fin 1, fin 2, fin 3, fin 4], [0, 2, 1, 3]⟩ : NdArr FX).WF :=
  ⟨⟨rfl, List.Perm.refl _⟩, rfl, ⟨rfl, by show [0, 2, 1, 3].Perm (List.range 4); decide⟩⟩

end Pyorb
