import Verif.Round
import Verif.Binary
import Verif.PropsSolver

/-!
# The Kepler solver with rounding (C69)

`mean_to_eccentric` in floating-point arithmetic: no NaN appears on ellipses and hyperbolas that the arithmetic can tell from a
parabola, and the result solves Kepler's equation up to the tolerance and the rounding of the residual.
-/

namespace Pyorb
open FX RF
variable (R : Rounding)

/-- solver options -/
noncomputable def ropts (tol : ℝ) (mi : Int) (d : ℝ) : SolverOpts (RF R) := ⟨num R tol, mi, num R d⟩

/-- a python float -/
noncomputable def rfl64 (x : ℝ) : Arg (RF R) := .sc .f64 (num R x)

variable {R}

theorem rd_neg {x : ℝ} (h : x < 0) : R.rd x < 0 := mul_neg_of_neg_of_pos h (Real.exp_pos _)
theorem rd_pos {x : ℝ} (h : 0 < x) : 0 < R.rd x := mul_pos h (Real.exp_pos _)
theorem rd_ne {x : ℝ} (h : x ≠ 0) : R.rd x ≠ 0 := mul_ne_zero h (Real.exp_pos _).ne'
theorem rd_nonneg {x : ℝ} (h : 0 ≤ x) : 0 ≤ R.rd x := mul_nonneg h (Real.exp_pos _).le

/-! ## The residual and one step -/

/-- the size of the sine or hyperbolic sine term in Kepler's equation -/
noncomputable def keplerTerm (e E : ℝ) : ℝ := if 1 < e then e * |Real.sinh E| else e * |Real.sin E|

/-- the residual that the code computes -/
theorem lagF_near {M e E : ℝ} (h0 : 0 ≤ e) (he : e ≠ 1) :
    Near 3 (|M| + |E| + keplerTerm e E) (lagF (num R M) (num R e) (num R E)) (M - meanOf e E) := by
  unfold lagF meanOf keplerTerm
  by_cases h : 1 < e
  · simp only [one_num, lt_num, h, decide_true, if_true]
    have h1 := Near.add (Rel.near (R := R) (Rel.num M) le_rfl) (Rel.near (R := R) (Rel.num E) le_rfl)
    have h2 := ((Rel.num (R := R) e).mul (Rel.sinh E)).near (B := e * |Real.sinh E|) (by rw [abs_mul, abs_of_nonneg h0])
    have h3 := Near.sub (h1.mono (k := 2) (by norm_num) (by norm_num) le_rfl) (h2.mono (k := 2) (by norm_num) (by norm_num) le_rfl)
    rw [show M - (e * Real.sinh E - E) = M + E - e * Real.sinh E by ring]
    exact h3.mono (by norm_num) (by norm_num) le_rfl
  · simp only [one_num, lt_num, h, decide_false, Bool.false_eq_true, if_false, if_neg he]
    have h1 := Near.sub (Rel.near (R := R) (Rel.num M) le_rfl) (Rel.near (R := R) (Rel.num E) le_rfl)
    have h2 := ((Rel.num (R := R) e).mul (Rel.sin E)).near (B := e * |Real.sin E|) (by rw [abs_mul, abs_of_nonneg h0])
    have h3 := Near.add (h1.mono (k := 2) (by norm_num) (by norm_num) le_rfl) (h2.mono (k := 2) (by norm_num) (by norm_num) le_rfl)
    rw [show M - (E - e * Real.sin E) = M - E + e * Real.sin E by ring]
    exact h3.mono (by norm_num) (by norm_num) le_rfl

/-- the eccentricity differs from 1 by more than the arithmetic can hide -/
def Apart (R : Rounding) (e : ℝ) : Prop := e * Real.exp (2 * R.u) < 1 ∨ 1 < e * Real.exp (-(2 * R.u))

theorem Apart.ne {e : ℝ} (h : Apart R e) : e ≠ 1 := by
  have hu := R.u_nonneg
  rintro rfl
  rcases h with h | h
  · have := Real.one_le_exp (show 0 ≤ 2 * R.u by linarith)
    linarith
  · have : Real.exp (-(2 * R.u)) ≤ 1 := Real.exp_le_one_iff.mpr (by linarith)
    linarith

theorem Apart.lt_iff {e : ℝ} (h0 : 0 ≤ e) (h : Apart R e) : (e < 1 → e * Real.exp (2 * R.u) < 1) ∧ (1 < e → 1 < e * Real.exp (-(2 * R.u))) := by
  have hu := R.u_nonneg
  have h1 := Real.one_le_exp (show 0 ≤ 2 * R.u by linarith)
  have h2 : Real.exp (-(2 * R.u)) ≤ 1 := Real.exp_le_one_iff.mpr (by linarith)
  rcases h with h | h
  · refine ⟨fun _ => h, fun h' => ?_⟩
    nlinarith
  · refine ⟨fun h' => ?_, fun _ => h⟩
    nlinarith [Real.exp_pos (-(2 * R.u))]

/-- the derivative that the code computes is negative -/
theorem lagFp_num {e : ℝ} (h0 : 0 ≤ e) (ha : Apart R e) (E : ℝ) : ∃ fp, lagFp (num R e) (num R E) = num R fp ∧ fp < 0 := by
  unfold lagFp
  obtain ⟨a1, a2⟩ := ha.lt_iff h0
  by_cases h : 1 < e
  · simp only [one_num, lt_num, h, decide_true, if_true]
    obtain ⟨t, t1, t2⟩ := (Rel.num (R := R) e).mul (show Rel 1 (Np.cosh (num R E)) (Real.cosh E) from ⟨R.lib .cosh E, by simpa using R.lib_le .cosh E, rfl⟩)
    refine ⟨_, by rw [t2, sub_num], rd_neg ?_⟩
    have h1 := Real.one_le_cosh E
    have h2 : Real.exp (-(2 * R.u)) ≤ Real.exp t := Real.exp_le_exp.mpr (by have := (abs_le.mp t1).1; linarith)
    have h3 := a2 h
    have h4 : e * Real.exp (-(2 * R.u)) ≤ e * Real.cosh E * Real.exp t := by
      calc e * Real.exp (-(2 * R.u)) ≤ e * Real.exp t := mul_le_mul_of_nonneg_left h2 h0
        _ = e * 1 * Real.exp t := by ring
        _ ≤ e * Real.cosh E * Real.exp t := mul_le_mul_of_nonneg_right (mul_le_mul_of_nonneg_left h1 h0) (Real.exp_pos _).le
    linarith
  · simp only [one_num, lt_num, h, decide_false, Bool.false_eq_true, if_false]
    obtain ⟨t, t1, t2⟩ := (Rel.num (R := R) e).mul (Rel.cos E)
    refine ⟨_, by rw [t2, sub_num], rd_neg ?_⟩
    have h1 := Real.cos_le_one E
    have h2 : Real.exp t ≤ Real.exp (2 * R.u) := Real.exp_le_exp.mpr (by have := (abs_le.mp t1).2; linarith)
    have h3 := a1 (lt_of_le_of_ne (not_lt.mp h) ha.ne)
    have h4 : e * Real.cos E * Real.exp t ≤ e * Real.exp (2 * R.u) := by
      calc e * Real.cos E * Real.exp t ≤ e * 1 * Real.exp t :=
            mul_le_mul_of_nonneg_right (mul_le_mul_of_nonneg_left h1 h0) (Real.exp_pos _).le
        _ = e * Real.exp t := by ring
        _ ≤ _ := mul_le_mul_of_nonneg_left h2 h0
    linarith

theorem lagFpp_num (e E : ℝ) : ∃ y, lagFpp (num R e) (num R E) = num R y := by
  unfold lagFpp
  by_cases h : 1 < e
  · simp only [one_num, lt_num, h, decide_true, if_true, sinh_num, neg_num, mul_num]; exact ⟨_, rfl⟩
  · simp only [one_num, lt_num, h, decide_false, Bool.false_eq_true, if_false, sin_num, neg_num, mul_num]; exact ⟨_, rfl⟩

/-- one step of the iteration computes a number from a number -/
theorem lagStep_num {e : ℝ} (h0 : 0 ≤ e) (ha : Apart R e) (d E f : ℝ) : ∃ E', lagStep (num R d) (num R e) (num R E) (num R f) = num R E' := by
  obtain ⟨fp, hfp, hneg⟩ := lagFp_num h0 ha E
  obtain ⟨y, hy⟩ := lagFpp_num (R := R) e E
  unfold lagStep
  simp only [hfp, hy, one_num, sq, sub_num, mul_num, abs_num]
  rw [sqrt_num (abs_nonneg _)]
  have hs : 0 ≤ R.rd (Real.sqrt |R.rd (R.rd (R.rd (R.rd (d - 1) * R.rd (d - 1)) * R.rd (fp * fp)) - R.rd (R.rd (R.rd (d * R.rd (d - 1)) * f) * y))|) :=
    rd_nonneg (Real.sqrt_nonneg _)
  generalize R.rd (Real.sqrt _) = s at hs
  simp only [add_num, sub_num, abs_num, lt_num, decide_eq_true_eq]
  have hm : R.rd (fp - s) < 0 := rd_neg (by linarith)
  by_cases h : |R.rd (fp - s)| < |R.rd (fp + s)|
  · rw [if_pos h, div_num _ (fun h' => by rw [h', abs_zero] at h; exact absurd h (not_lt.mpr (abs_nonneg _))), sub_num]
    exact ⟨_, rfl⟩
  · rw [if_neg h, div_num _ hm.ne, sub_num]
    exact ⟨_, rfl⟩

theorem lagNext_num {e : ℝ} (h0 : 0 ≤ e) (ha : Apart R e) (tol : ℝ) (mi : Int) (d M E : ℝ) :
    ∃ E', lagNext (ropts R tol mi d) (num R M) (num R e) (num R E) = num R E' := by
  obtain ⟨f, hf, -⟩ := lagF_near (R := R) (M := M) (E := E) h0 ha.ne
  unfold lagNext
  rw [hf]
  exact lagStep_num h0 ha d E f

/-- the solver returns a number; if it stops before the limit, the residual of that number is below the tolerance up to rounding -/
theorem laguerre_num {e : ℝ} (h0 : 0 ≤ e) (ha : Apart R e) (tol : ℝ) (mi : Int) (d M E0 : ℝ) :
    ∃ (E : ℝ) (n : Nat), laguerre_solve_kepler (num R E0) (num R M) (num R e) (ropts R tol mi d) = (num R E, (n : Int)) ∧
      ((n : Int) < max 1 mi → |meanOf e E - M| < tol + (Real.exp (3 * R.u) - 1) * (|M| + |E| + keplerTerm e E)) := by
  obtain ⟨n, h1, -, -, h4⟩ := c11_terminates (num R E0) (num R M) (num R e) (ropts R tol mi d)
  obtain ⟨E, hE⟩ : ∃ E, (lagNext (ropts R tol mi d) (num R M) (num R e))^[n] (num R E0) = num R E := by
    clear h1 h4
    induction n with
    | zero => exact ⟨E0, rfl⟩
    | succ n ih =>
      obtain ⟨E, hE⟩ := ih
      rw [Function.iterate_succ_apply', hE]
      exact lagNext_num h0 ha tol mi d M E
  refine ⟨E, n, by rw [h1, hE], fun hn => ?_⟩
  have hstop := h4 hn
  rw [hE, lagGoesOn] at hstop
  obtain ⟨f, hf, hf1, -⟩ := lagF_near (R := R) (M := M) (E := E) h0 ha.ne
  rw [hf] at hstop
  simp only [ropts, abs_num, le_num, decide_eq_true_eq, not_le] at hstop
  rw [show meanOf e E - M = (f - (M - meanOf e E)) - f by ring]
  refine lt_of_le_of_lt (abs_sub _ _) ?_
  linarith

/-! ## The starting guess -/

theorem quarter_num : (Np.lit (1 / 4) : RF R) = num R (1 / 4) := by
  rw [lit_num 1 (by norm_num) (by norm_num)]; norm_num

theorem expu {k : ℝ} (hk : 0 ≤ k) (hk1 : k ≤ 10) (hu : R.u ≤ 1 / 1000) : Real.exp (k * R.u) - 1 ≤ 4 / 3 * k / 1000 := by
  have h0 := R.u_nonneg
  have h1 : k * R.u ≤ k * (1 / 1000) := mul_le_mul_of_nonneg_left hu hk
  have := exp_sub_one_le (mul_nonneg hk h0) (by linarith)
  linarith

/-- the denominator in the guess is computed as a positive number -/
theorem smith_num {e m : ℝ} (h0 : 0 ≤ e) (h1 : e < 1) (hu : R.u ≤ 1 / 1000) (hm0 : -1 ≤ m) (hm1 : m ≤ 1) :
    ∃ D, (1 - Np.sin (num R m + num R e) + Np.sin (num R m) : RF R) = num R D ∧ 0 < D := by
  have hu0 := R.u_nonneg
  obtain ⟨s2, hs2, p2, -⟩ := (Rel.sin (R := R) m).near (B := 1) (Real.abs_sin_le_one m)
  have hy : |R.rd (m + e) - (m + e)| ≤ 4 / 3 / 1000 * 2 := by
    have e1 : |Real.exp (R.th (m + e)) - 1| ≤ Real.exp (1 * R.u) - 1 := exp_diff (by simpa using R.th_le (m + e))
    have e2 := expu (k := 1) (by norm_num) (by norm_num) hu
    rw [Rounding.rd, show (m + e) * Real.exp (R.th (m + e)) - (m + e) = (Real.exp (R.th (m + e)) - 1) * (m + e) by ring, abs_mul]
    exact mul_le_mul (by linarith) (by rw [abs_le]; constructor <;> linarith) (abs_nonneg _) (by norm_num)
  obtain ⟨s1, hs1, p1, -⟩ := (Rel.sin (R := R) (R.rd (m + e))).near (B := 1) (Real.abs_sin_le_one _)
  have hsin : |Real.sin (R.rd (m + e)) - Real.sin (m + e)| ≤ |R.rd (m + e) - (m + e)| := Real.abs_sin_sub_sin_le _ _
  have e3 := expu (k := 1) (by norm_num) (by norm_num) hu
  rw [mul_one] at p1 p2
  have hD := smith_denominator_pos h0 h1 m
  rw [add_num, hs1, hs2, one_num, sub_num, add_num]
  refine ⟨_, rfl, rd_pos ?_⟩
  -- the inner difference
  have e4 : |R.rd (1 - s1) - (1 - s1)| ≤ 4 / 3 / 1000 * 3 := by
    have e5 : |Real.exp (R.th (1 - s1)) - 1| ≤ Real.exp (1 * R.u) - 1 := exp_diff (by simpa using R.th_le (1 - s1))
    have e6 : |1 - s1| ≤ 3 := by
      have := Real.abs_sin_le_one (R.rd (m + e))
      rw [abs_le] at this p1 ⊢
      constructor <;> linarith
    rw [Rounding.rd, show (1 - s1) * Real.exp (R.th (1 - s1)) - (1 - s1) = (Real.exp (R.th (1 - s1)) - 1) * (1 - s1) by ring, abs_mul]
    exact mul_le_mul (by linarith) e6 (abs_nonneg _) (by norm_num)
  rw [abs_le] at p1 p2 hy hsin e4
  have hsin' := hsin.2
  have : |R.rd (m + e) - (m + e)| ≤ 4 / 3 / 1000 * 2 := abs_le.mpr hy
  linarith

/-- the guess for an ellipse is a number -/
theorem get_kepler_guess_num {e M : ℝ} (h0 : 0 ≤ e) (h1 : e < 1) (hu : R.u ≤ 1 / 1000) (hM0 : 0 ≤ M) (hM1 : M ≤ 2 * Real.pi) :
    ∃ E0, get_kepler_guess (num R M) (num R e) = num R E0 := by
  have hu0 := R.u_nonneg
  have hpi3 := Real.pi_gt_three
  have hpi4 := Real.pi_lt_four
  obtain ⟨tp, htp, tp1, -⟩ := ((Rel.num (R := R) 2).mul Rel.pi).near (B := 2 * Real.pi) (by rw [abs_of_pos (by positivity)])
  have htp' : (twoPi : RF R) = num R tp := by rw [twoPi, two_num]; exact htp
  have e1 := expu (R := R) (k := 0 + 1 + 1) (by norm_num) (by norm_num) hu
  have hmd : -1 ≤ R.rd (tp - M) := by
    have h2 : |tp - 2 * Real.pi| ≤ 1 / 10 := by
      refine tp1.trans ?_
      nlinarith
    have h3 : -(1 / 10) ≤ tp - M := by rw [abs_le] at h2; linarith
    have h4 : Real.exp (R.th (tp - M)) ≤ 2 := by
      have := Real.exp_le_exp.mpr ((le_abs_self _).trans (R.th_le (tp - M)))
      have e2 := expu (R := R) (k := 1) (by norm_num) (by norm_num) hu
      rw [one_mul] at e2
      linarith
    rw [Rounding.rd]
    have h5 := Real.exp_pos (R.th (tp - M))
    nlinarith
  have key : ∀ m : ℝ, -1 ≤ m → ∃ E0, (if num R m <ᵇ Np.lit (1 / 4) then
        num R m + num R e * Np.sin (num R m) / (1 - Np.sin (num R m + num R e) + Np.sin (num R m))
      else if num R m <ᵇ 2 then num R m + num R e
      else num R m + (num R e * (Np.pi - num R m)) / (1 + num R e) : RF R) = num R E0 := by
    intro m hm
    rw [quarter_num, two_num, lt_num, lt_num]
    by_cases hq : m < 1 / 4
    · obtain ⟨D, hD, hDp⟩ := smith_num (R := R) h0 h1 hu hm (by linarith)
      simp only [hq, decide_true, if_true]
      rw [hD, sin_num, mul_num, div_num _ hDp.ne', add_num]
      exact ⟨_, rfl⟩
    · by_cases h2 : m < 2
      · simp only [hq, h2, decide_true, decide_false, Bool.false_eq_true, if_true, if_false, add_num]
        exact ⟨_, rfl⟩
      · simp only [hq, h2, decide_false, Bool.false_eq_true, if_false, pi_num, one_num, sub_num, mul_num, add_num]
        rw [div_num _ (rd_pos (by linarith)).ne', add_num]
        exact ⟨_, rfl⟩
  unfold get_kepler_guess
  simp only [pi_num, lt_num, htp', decide_eq_true_eq]
  by_cases hM : R.rd Real.pi < M
  · simp only [if_pos hM, sub_num]
    obtain ⟨E0, hE0⟩ := key _ hmd
    simp only [pi_num, sub_num] at hE0
    rw [hE0, sub_num]
    exact ⟨_, rfl⟩
  · simp only [if_neg hM]
    obtain ⟨E0, hE0⟩ := key M (by linarith)
    simp only [pi_num] at hE0
    exact ⟨E0, hE0⟩

/-- the guess for a hyperbola is a number -/
theorem hyp_guess_num {e M : ℝ} (h1 : 1 < e) (hM0 : 0 ≤ M) : ∃ E0, get_hyperbolic_kepler_guess (num R M) (num R e) = num R E0 := by
  unfold get_hyperbolic_kepler_guess
  rw [two_num, mul_num, div_num _ (by linarith : e ≠ 0)]
  have hl : (Np.lit (18 / 10) : RF R) = num R (R.rd (18 / 10)) := by
    show (⟨R.round (fin ((18 / 10 : ℚ) : ℝ))⟩ : RF R) = _
    norm_num
    rfl
  rw [hl, add_num]
  have hp : 0 < R.rd (R.rd (R.rd (2 * M) / e) + R.rd (18 / 10)) := by
    have h2 : 0 ≤ R.rd (R.rd (2 * M) / e) := rd_nonneg (div_nonneg (rd_nonneg (by linarith)) (by linarith))
    have h3 : 0 < R.rd (18 / 10) := rd_pos (by norm_num)
    exact rd_pos (by linarith)
  generalize R.rd (R.rd (R.rd (2 * M) / e) + R.rd (18 / 10)) = x at hp
  refine ⟨Real.log x * Real.exp (R.lib .log x), ?_⟩
  show (⟨R.libRound .log (fin x) (Np.log (fin x))⟩ : RF R) = _
  rw [FX.log_fin hp]
  rfl

/-! ## C69 -/

theorem mean_to_eccentric_num (o : SolverOpts (RF R)) (M e : ℝ) :
    mean_to_eccentric o (rfl64 R M) (rfl64 R e) false = .ok (.sc .f64 (meanToEccentricSc o (num R M) (num R e))) := by
  simp only [mean_to_eccentric, toRad, toDeg, rfl64, unify, bind, Except.bind, pure, Except.pure, Bool.false_eq_true, if_false,
    meanToEccentricSc]
  split_ifs <;> rfl

/-- C69: in every arithmetic with unit roundoff `u ≤ 1/1000`, for a mean anomaly in one turn of an ellipse or a non-negative one of a hyperbola,
whose eccentricity can be told from 1: `mean_to_eccentric` returns a number `E`, not NaN, and unless the iteration limit was reached it solves
Kepler's equation (evaluated exactly) up to the tolerance plus `(exp (3 u) - 1)` times the size of the terms of the equation. -/
theorem c69_residual (hu : R.u ≤ 1 / 1000) (tol : ℝ) (mi : Int) (d M e : ℝ) (h0 : 0 ≤ e) (ht : 0 < tol) (ha : Apart R e) (hM0 : 0 ≤ M)
    (hM1 : e < 1 → M ≤ 2 * Real.pi) :
    ∃ E, mean_to_eccentric (ropts R tol mi d) (rfl64 R M) (rfl64 R e) false = .ok (rfl64 R E) ∧
      (¬ HitLimit (ropts R tol mi d) (num R M) (num R e) →
        |meanOf e E - M| < tol + (Real.exp (3 * R.u) - 1) * (|M| + |E| + keplerTerm e E)) := by
  by_cases hz : e = 0
  · subst hz
    refine ⟨M, ?_, fun _ => ?_⟩
    · rw [mean_to_eccentric_num]; simp [meanToEccentricSc]; rfl
    · have h2 : 0 ≤ (Real.exp (3 * R.u) - 1) * (|M| + |M| + keplerTerm 0 M) :=
        mul_nonneg (exp_u_nonneg (by norm_num)) (by simp [keplerTerm, show ¬ ((1 : ℝ) < 0) by norm_num])
      simp only [meanOf, show ¬ ((1 : ℝ) < 0) by norm_num, if_false, show ¬ ((0 : ℝ) = 1) by norm_num, zero_mul, sub_zero, sub_self, abs_zero]
      linarith
  · obtain ⟨E0, hE0⟩ : ∃ E0, keplerGuess (num R M) (num R e) = num R E0 := by
      unfold keplerGuess
      rw [one_num, lt_num]
      rcases lt_or_gt_of_ne ha.ne with h | h
      · simp only [not_lt.mpr h.le, decide_false, Bool.false_eq_true, if_false]
        exact get_kepler_guess_num h0 h hu hM0 (hM1 h)
      · simp only [h, decide_true, if_true]
        exact hyp_guess_num h hM0
    obtain ⟨E, n, h1, h2⟩ := laguerre_num h0 ha tol mi d M E0
    refine ⟨E, ?_, fun hl => h2 ?_⟩
    · rw [mean_to_eccentric_num, meanToEccentricSc]
      simp only [zero_num, eq_num, hz, decide_false, Bool.false_eq_true, if_false]
      rw [meanToEccentricEl_guess _ _ _ (by simp [ha.ne]), hE0, h1]
      rfl
    · rw [HitLimit, hE0, h1] at hl
      exact not_le.mp hl

/-- C69, error: the result is that close to the exact solution -/
theorem c69_error (hu : R.u ≤ 1 / 1000) (tol : ℝ) (mi : Int) (d M e Es : ℝ) (h0 : 0 ≤ e) (ht : 0 < tol) (ha : Apart R e) (hM0 : 0 ≤ M)
    (hM1 : e < 1 → M ≤ 2 * Real.pi) (hl : ¬ HitLimit (ropts R tol mi d) (num R M) (num R e)) (hs : meanOf e Es = M) :
    ∃ E, mean_to_eccentric (ropts R tol mi d) (rfl64 R M) (rfl64 R e) false = .ok (rfl64 R E) ∧
      |E - Es| ≤ (tol + (Real.exp (3 * R.u) - 1) * (|M| + |E| + keplerTerm e E)) / |1 - e| := by
  obtain ⟨E, h1, h2⟩ := c69_residual hu tol mi d M e h0 ht ha hM0 hM1
  refine ⟨E, h1, (meanOf_error h0 ha.ne E Es).trans ?_⟩
  rw [hs]
  exact div_le_div_of_nonneg_right (h2 hl).le (abs_nonneg _)

/-- C69 for double precision: for an ellipse and a tolerance of at most 1 the residual is below `tol + 1e-14` -/
theorem c69_binary64 (tol : ℝ) (mi : Int) (d M e : ℝ) (h0 : 0 ≤ e) (ht : 0 < tol) (ht1 : tol ≤ 1) (h1 : e * Real.exp (2 * (1 / 2) ^ 53) < 1)
    (hM0 : 0 ≤ M) (hM1 : M ≤ 2 * Real.pi) :
    ∃ E, mean_to_eccentric (ropts Binary.binary64 tol mi d) (rfl64 _ M) (rfl64 _ e) false = .ok (rfl64 _ E) ∧
      (¬ HitLimit (ropts Binary.binary64 tol mi d) (num _ M) (num _ e) → |E - e * Real.sin E - M| < tol + 1 / 10 ^ 14) := by
  have hu : Binary.binary64.u ≤ 1 / 1000 := by
    show (1 / 2 : ℝ) ^ 53 ≤ 1 / 1000
    norm_num
  obtain ⟨E, h2, h3⟩ := c69_residual (R := Binary.binary64) hu tol mi d M e h0 ht (.inl h1) hM0 (fun _ => hM1)
  have he : e < 1 := by
    have := Real.one_le_exp (show (0 : ℝ) ≤ 2 * (1 / 2) ^ 53 by positivity)
    nlinarith
  refine ⟨E, h2, fun hl => ?_⟩
  have h3 := h3 hl
  rw [meanOf, if_neg (not_lt.mpr he.le), if_neg he.ne] at h3
  refine lt_of_lt_of_le h3 ?_
  have hes : e * |Real.sin E| ≤ 1 := by
    have := Real.abs_sin_le_one E
    have := abs_nonneg (Real.sin E)
    nlinarith
  have hk : keplerTerm e E = e * |Real.sin E| := by rw [keplerTerm, if_neg (not_lt.mpr he.le)]
  have hk0 : 0 ≤ e * |Real.sin E| := by positivity
  have hM : |M| ≤ 7 := by
    rw [abs_of_nonneg hM0]
    have := Real.pi_lt_d2
    linarith
  have hx : Real.exp (3 * Binary.binary64.u) - 1 ≤ 4 / 3 * (3 * (1 / 2) ^ 53) := by
    show Real.exp (3 * (1 / 2) ^ 53) - 1 ≤ _
    exact exp_sub_one_le (by positivity) (by norm_num)
  have hd : (4 / 3 * (3 * (1 / 2) ^ 53) : ℝ) ≤ 1 / 1000 := by norm_num
  have hE0 := abs_nonneg E
  have hM0' := abs_nonneg M
  have hE : |E| ≤ 10 := by
    have e1 : |E| ≤ |E - e * Real.sin E - M| + |M| + e * |Real.sin E| := by
      have a1 := abs_add_le (E - e * Real.sin E - M + M) (e * Real.sin E)
      have a2 := abs_add_le (E - e * Real.sin E - M) M
      rw [abs_mul, abs_of_nonneg h0] at a1
      rw [show E - e * Real.sin E - M + M + e * Real.sin E = E by ring] at a1
      linarith
    have e2 : (Real.exp (3 * Binary.binary64.u) - 1) * (|M| + |E| + keplerTerm e E) ≤ 1 / 1000 * (8 + |E|) :=
      mul_le_mul (by linarith) (by rw [hk]; linarith) (by rw [hk]; linarith) (by norm_num)
    linarith
  have h4 : (Real.exp (3 * Binary.binary64.u) - 1) * (|M| + |E| + keplerTerm e E) ≤ 4 / 3 * (3 * (1 / 2) ^ 53) * 18 :=
    mul_le_mul hx (by rw [hk]; linarith) (by rw [hk]; linarith) (by positivity)
  have h5 : (4 / 3 * (3 * (1 / 2) ^ 53) * 18 : ℝ) ≤ 1 / 10 ^ 14 := by norm_num
  linarith

/-- a case: e = 1/2 can be told from 1 in double precision -/
example : Apart Binary.binary64 (1 / 2) := by
  left
  show (1 / 2 : ℝ) * Real.exp (2 * (1 / 2) ^ 53) < 1
  have := exp_sub_one_le (t := 2 * (1 / 2) ^ 53) (by positivity) (by norm_num)
  norm_num at this ⊢
  linarith

end Pyorb
