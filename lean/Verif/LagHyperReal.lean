import Verif.LagReal
import Mathlib.Analysis.SpecialFunctions.Trigonometric.DerivHyp
import Mathlib.Analysis.Complex.ExponentialBounds

/-!
# Hyperbolic functions and Laguerre steps

Real inequalities used in `PropsConvergeHyp`.
-/

namespace Pyorb.Lag

/-! ## Steps -/

/-- upper bound of a step -/
theorem delta_le {F p w d m : ℝ} (hp : 0 < p) (hm : 0 ≤ m * d) (h : (5 * F - m * d * p) ^ 2 ≤ (m * d) ^ 2 * (16 * p ^ 2 - 20 * F * w)) :
    delta F p w ≤ m * d := by
  unfold delta
  rw [div_le_iff₀ (den_pos hp _)]
  have h2 : (5 * F - m * d * p) ^ 2 ≤ (m * d * √|16 * p ^ 2 - 20 * F * w|) ^ 2 := by
    rw [mul_pow, Real.sq_sqrt (abs_nonneg _)]
    exact h.trans (mul_le_mul_of_nonneg_left (le_abs_self _) (sq_nonneg _))
  have h3 := abs_le_of_sq_le_sq' h2 (mul_nonneg hm (Real.sqrt_nonneg _))
  linarith [h3.2]

/-- lower bound of a step -/
theorem le_delta {F p w D : ℝ} (hp : 0 < p) (hF : 0 ≤ F) (h0 : 0 ≤ F * w) (h1 : F * w ≤ 8 / 5 * p ^ 2) (h : D * p ≤ F) : D ≤ delta F p w := by
  unfold delta
  rw [le_div_iff₀ (den_pos hp _)]
  have h2 : √|16 * p ^ 2 - 20 * F * w| ≤ 4 * p := by
    rw [Real.sqrt_le_left (by linarith), abs_le]
    constructor <;> nlinarith
  rcases le_or_gt D 0 with hD | hD
  · have := mul_nonpos_of_nonpos_of_nonneg hD (den_pos hp |16 * p ^ 2 - 20 * F * w|).le
    linarith
  · nlinarith

/-! ## Hyperbolic functions -/

theorem sinh_nonneg {t : ℝ} (h : 0 ≤ t) : 0 ≤ Real.sinh t := Real.sinh_nonneg_iff.mpr h

theorem sinh_le_mul_cosh {t : ℝ} (h : 0 ≤ t) : Real.sinh t ≤ t * Real.cosh t := by
  have := le_of_deriv (f := fun t => t * Real.cosh t - Real.sinh t) (f' := fun t => t * Real.sinh t) h
    (fun y => by
      refine (((hasDerivAt_id y).mul (Real.hasDerivAt_cosh y)).sub (Real.hasDerivAt_sinh y)).congr_deriv ?_
      simp)
    (fun y hy _ => mul_nonneg hy (sinh_nonneg hy))
  simp at this
  linarith

theorem mul_cosh_le {t : ℝ} (h : 0 ≤ t) : t * Real.cosh t ≤ (1 + t ^ 2 / 3) * Real.sinh t := by
  have := le_of_deriv (f := fun t => (1 + t ^ 2 / 3) * Real.sinh t - t * Real.cosh t) (f' := fun t => t / 3 * (t * Real.cosh t - Real.sinh t)) h
    (fun y => by
      have h1 := (((hasDerivAt_pow 2 y).div_const 3).const_add 1).mul (Real.hasDerivAt_sinh y)
      refine (h1.sub ((hasDerivAt_id y).mul (Real.hasDerivAt_cosh y))).congr_deriv ?_
      simp
      ring)
    (fun y hy _ => mul_nonneg (by linarith) (sub_nonneg.mpr (sinh_le_mul_cosh hy)))
  simp at this
  linarith

/-- the hyperbolic sine lies below its chord from the origin -/
theorem sinh_chord {t b : ℝ} (h0 : 0 ≤ t) (h : t ≤ b) : b * Real.sinh t ≤ t * Real.sinh b := by
  have := le_of_deriv (f := fun b => t * Real.sinh b - b * Real.sinh t) (f' := fun b => t * Real.cosh b - Real.sinh t) h
    (fun y => by
      refine (((Real.hasDerivAt_sinh y).const_mul t).sub ((hasDerivAt_id y).mul_const (Real.sinh t))).congr_deriv ?_
      simp)
    (fun y hy _ => by
      have h1 : Real.cosh t ≤ Real.cosh y := Real.cosh_le_cosh.mpr (by rw [abs_of_nonneg h0, abs_of_nonneg (h0.trans hy)]; exact hy)
      have := mul_le_mul_of_nonneg_left h1 h0
      linarith [sinh_le_mul_cosh h0])
  simp at this
  linarith

theorem cosh_sub_one (x : ℝ) : Real.cosh x - 1 = 2 * Real.sinh (x / 2) ^ 2 := by
  have h1 := Real.cosh_two_mul (x / 2)
  rw [mul_div_cancel₀ _ (two_ne_zero)] at h1
  have := Real.cosh_sq (x / 2)
  linarith

/-- `cosh - 1` over the square grows -/
theorem cosh_chord {t b : ℝ} (h0 : 0 ≤ t) (h : t ≤ b) : b ^ 2 * (Real.cosh t - 1) ≤ t ^ 2 * (Real.cosh b - 1) := by
  have h1 := sinh_chord (show 0 ≤ t / 2 by linarith) (show t / 2 ≤ b / 2 by linarith)
  have h2 := pow_le_pow_left₀ (mul_nonneg (by linarith) (sinh_nonneg (by linarith))) h1 2
  rw [cosh_sub_one, cosh_sub_one]
  nlinarith

theorem sinh_one_le : Real.sinh 1 ≤ 6 / 5 := by
  rw [Real.sinh_eq]
  have h1 := Real.exp_one_lt_d9
  have h2 : 36 / 100 ≤ Real.exp (-1) := by
    rw [Real.exp_neg, ← one_div, le_div_iff₀ (Real.exp_pos 1)]
    linarith
  linarith

theorem sinh_le_unit {t : ℝ} (h0 : 0 ≤ t) (h1 : t ≤ 1) : Real.sinh t ≤ 6 / 5 * t := by
  have := sinh_chord h0 h1
  have := mul_le_mul_of_nonneg_left sinh_one_le h0
  linarith

theorem cosh_le_unit2 {t : ℝ} (h0 : 0 ≤ t) (h1 : t ≤ 1) : Real.cosh t ≤ 1 + 3 / 5 * t ^ 2 := by
  have := le_of_deriv (f := fun t => 1 + 3 / 5 * t ^ 2 - Real.cosh t) (f' := fun t => 6 / 5 * t - Real.sinh t) h0
    (fun y => by
      refine ((((hasDerivAt_pow 2 y).const_mul (3 / 5)).const_add 1).sub (Real.hasDerivAt_cosh y)).congr_deriv ?_
      simp
      ring)
    (fun y hy hy1 => sub_nonneg.mpr (sinh_le_unit hy (hy1.trans h1)))
  simp at this
  linarith

theorem sinh_le_unit3 {t : ℝ} (h0 : 0 ≤ t) (h1 : t ≤ 1) : Real.sinh t ≤ t + t ^ 3 / 5 := by
  have := le_of_deriv (f := fun t => t + t ^ 3 / 5 - Real.sinh t) (f' := fun t => 1 + 3 / 5 * t ^ 2 - Real.cosh t) h0
    (fun y => by
      refine (((hasDerivAt_id y).add ((hasDerivAt_pow 3 y).div_const 5)).sub (Real.hasDerivAt_sinh y)).congr_deriv ?_
      simp
      ring)
    (fun y hy hy1 => sub_nonneg.mpr (cosh_le_unit2 hy (hy1.trans h1)))
  simp at this
  linarith

theorem cosh_le_unit4 {t : ℝ} (h0 : 0 ≤ t) (h1 : t ≤ 1) : Real.cosh t ≤ 1 + t ^ 2 / 2 + t ^ 4 / 20 := by
  have := le_of_deriv (f := fun t => 1 + t ^ 2 / 2 + t ^ 4 / 20 - Real.cosh t) (f' := fun t => t + t ^ 3 / 5 - Real.sinh t) h0
    (fun y => by
      refine (((((hasDerivAt_pow 2 y).div_const 2).const_add 1).add ((hasDerivAt_pow 4 y).div_const 20)).sub (Real.hasDerivAt_cosh y)).congr_deriv ?_
      simp
      ring)
    (fun y hy hy1 => sub_nonneg.mpr (sinh_le_unit3 hy (hy1.trans h1)))
  simp at this
  linarith

theorem sinh_le_unit5 {t : ℝ} (h0 : 0 ≤ t) (h1 : t ≤ 1) : Real.sinh t ≤ t + t ^ 3 / 6 + t ^ 5 / 100 := by
  have := le_of_deriv (f := fun t => t + t ^ 3 / 6 + t ^ 5 / 100 - Real.sinh t) (f' := fun t => 1 + t ^ 2 / 2 + t ^ 4 / 20 - Real.cosh t) h0
    (fun y => by
      refine ((((hasDerivAt_id y).add ((hasDerivAt_pow 3 y).div_const 6)).add ((hasDerivAt_pow 5 y).div_const 100)).sub (Real.hasDerivAt_sinh y)).congr_deriv ?_
      simp
      ring)
    (fun y hy hy1 => sub_nonneg.mpr (cosh_le_unit4 hy (hy1.trans h1)))
  simp at this
  linarith

theorem cosh_ge2 {t : ℝ} (h0 : 0 ≤ t) : 1 + t ^ 2 / 2 ≤ Real.cosh t := by
  have := le_of_deriv (f := fun t => Real.cosh t - (1 + t ^ 2 / 2)) (f' := fun t => Real.sinh t - t) h0
    (fun y => by
      refine ((Real.hasDerivAt_cosh y).sub (((hasDerivAt_pow 2 y).div_const 2).const_add 1)).congr_deriv ?_
      simp)
    (fun y hy hy1 => sub_nonneg.mpr (Real.self_le_sinh_iff.mpr hy))
  simp at this
  linarith

theorem sinh_ge3 {t : ℝ} (h0 : 0 ≤ t) : t + t ^ 3 / 6 ≤ Real.sinh t := by
  have := le_of_deriv (f := fun t => Real.sinh t - (t + t ^ 3 / 6)) (f' := fun t => Real.cosh t - (1 + t ^ 2 / 2)) h0
    (fun y => by
      refine ((Real.hasDerivAt_sinh y).sub ((hasDerivAt_id y).add ((hasDerivAt_pow 3 y).div_const 6))).congr_deriv ?_
      simp
      ring)
    (fun y hy hy1 => sub_nonneg.mpr (cosh_ge2 hy))
  simp at this
  linarith

theorem cosh_ge4 {t : ℝ} (h0 : 0 ≤ t) : 1 + t ^ 2 / 2 + t ^ 4 / 24 ≤ Real.cosh t := by
  have := le_of_deriv (f := fun t => Real.cosh t - (1 + t ^ 2 / 2 + t ^ 4 / 24)) (f' := fun t => Real.sinh t - (t + t ^ 3 / 6)) h0
    (fun y => by
      refine ((Real.hasDerivAt_cosh y).sub ((((hasDerivAt_pow 2 y).div_const 2).const_add 1).add ((hasDerivAt_pow 4 y).div_const 24))).congr_deriv ?_
      simp
      ring)
    (fun y hy hy1 => sub_nonneg.mpr (sinh_ge3 hy))
  simp at this
  linarith

theorem one_le_cosh' (x : ℝ) : 0 ≤ Real.cosh x - 1 := sub_nonneg.mpr (Real.one_le_cosh x)

theorem mul_sinh_le {y : ℝ} (h0 : 0 ≤ y) : y * Real.sinh y ≤ (2 + y ^ 2 / 6) * (Real.cosh y - 1) := by
  have h2 : Real.sinh y = 2 * Real.sinh (y / 2) * Real.cosh (y / 2) := by rw [← Real.sinh_two_mul]; ring_nf
  have h3 := mul_cosh_le (show 0 ≤ y / 2 by linarith)
  have h4 := mul_le_mul_of_nonneg_left h3 (sinh_nonneg (show 0 ≤ y / 2 by linarith))
  rw [cosh_sub_one, h2]
  nlinarith

/-- rise over `[s, y]`, bounded by that of a cubic -/
theorem sinh_rise_le {s y : ℝ} (hs : 0 ≤ s) (hsy : s ≤ y) (hy : 0 < y) :
    (Real.sinh y - Real.sinh s) - (y - s) ≤ (Real.cosh y - 1) * (y ^ 3 - s ^ 3) / (3 * y ^ 2) := by
  have := le_of_deriv (f := fun t => (Real.cosh y - 1) * t ^ 3 / (3 * y ^ 2) - (Real.sinh t - t))
    (f' := fun t => (Real.cosh y - 1) * t ^ 2 / y ^ 2 - (Real.cosh t - 1)) hsy
    (fun t => by
      refine ((((hasDerivAt_pow 3 t).const_mul (Real.cosh y - 1)).div_const (3 * y ^ 2)).sub ((Real.hasDerivAt_sinh t).sub (hasDerivAt_id t))).congr_deriv ?_
      simp
      field_simp)
    (fun t ht hty => by
      rw [sub_nonneg, le_div_iff₀ (by positivity)]
      have := cosh_chord (hs.trans ht) hty
      linarith)
  have e1 : (Real.cosh y - 1) * (y ^ 3 - s ^ 3) / (3 * y ^ 2) = (Real.cosh y - 1) * y ^ 3 / (3 * y ^ 2) - (Real.cosh y - 1) * s ^ 3 / (3 * y ^ 2) := by ring
  rw [e1]
  linarith

theorem sinh_sub' (y d : ℝ) : Real.sinh (y - d) = Real.sinh y * Real.cosh d - Real.cosh y * Real.sinh d := Real.sinh_sub y d

/-- `coth` decreases -/
theorem cosh_mul_sinh_le {z y : ℝ} (h : z ≤ y) : Real.cosh y * Real.sinh z ≤ Real.sinh y * Real.cosh z := by
  have h1 := sinh_nonneg (sub_nonneg.mpr h)
  rw [Real.sinh_sub] at h1
  linarith

/-- lower bound of the rise over an interval of length at most 3/5 -/
theorem sinh_third {s y : ℝ} (hs : 0 ≤ s) (hsy : s ≤ y) (hd : y - s ≤ 3 / 5) :
    (y - s) * (Real.cosh y - 1) ≤ 16 / 5 * ((Real.sinh y - Real.sinh s) - (y - s)) := by
  obtain ⟨d, rfl⟩ : ∃ d, y = s + d := ⟨y - s, by ring⟩
  rw [add_sub_cancel_left] at hd ⊢
  have hd0 : 0 ≤ d := by linarith
  have := le_of_deriv (f := fun s => 16 / 5 * ((Real.sinh (s + d) - Real.sinh s) - d) - d * (Real.cosh (s + d) - 1))
    (f' := fun s => 16 / 5 * (Real.cosh (s + d) - Real.cosh s) - d * Real.sinh (s + d)) hs
    (fun t => by
      have h1 := (Real.hasDerivAt_sinh (t + d)).comp_add_const t d
      have h2 := (Real.hasDerivAt_cosh (t + d)).comp_add_const t d
      exact (((h1.sub (Real.hasDerivAt_sinh t)).sub_const d).const_mul (16 / 5)).sub ((h2.sub_const 1).const_mul d))
    (fun t ht _ => by
      rcases hd0.eq_or_lt with rfl | hdp
      · simp
      have h1 : Real.cosh t = Real.cosh (t + d) * Real.cosh d - Real.sinh (t + d) * Real.sinh d := by
        rw [← Real.cosh_sub, add_sub_cancel_right]
      have h2 := cosh_mul_sinh_le (show d ≤ t + d by linarith)
      have h3 := cosh_ge2 hd0
      have h4 := sinh_le_unit hd0 (by linarith)
      have h5 : 0 ≤ Real.sinh (t + d) := sinh_nonneg (by linarith)
      have h6 : 0 < Real.sinh d := Real.sinh_pos_iff.mpr hdp
      have h7 := Real.cosh_sq d
      rw [h1]
      have h8 : 0 ≤ Real.sinh d * (16 / 5 * (Real.cosh (t + d) - (Real.cosh (t + d) * Real.cosh d - Real.sinh (t + d) * Real.sinh d)) - d * Real.sinh (t + d)) := by
        have h9 : 0 ≤ Real.cosh d - 1 := one_le_cosh' d
        have h10 := mul_le_mul_of_nonneg_right h2 h9
        have h11 : d * Real.sinh d ≤ 16 / 5 * (Real.cosh d - 1) := by nlinarith
        have h12 := mul_le_mul_of_nonneg_left h11 h5
        nlinarith
      exact nonneg_of_mul_nonneg_right h8 h6)
  simp only [zero_add, Real.sinh_zero, sub_zero] at this
  have h1 := sinh_ge3 hd0
  have h2 := cosh_le_unit4 hd0 (by linarith)
  have h3 : 0 ≤ 16 / 5 * (Real.sinh d - d) - d * (Real.cosh d - 1) := by
    have h4 := mul_le_mul_of_nonneg_left h2 hd0
    have h5 : 0 ≤ d ^ 3 * (1 / 30 - d ^ 2 / 20) := by
      refine mul_nonneg (by positivity) ?_
      nlinarith
    nlinarith
  linarith

/-- upper bound of the rise, from the slope and the second derivative at the upper end -/
theorem sinh_above {s y : ℝ} (hs : 0 ≤ s) (hsy : s < y) (hd : y - s ≤ 3 / 5) :
    8 / 25 * (y - s) ^ 2 * Real.sinh y ≤ (y - s) * Real.cosh y - (Real.sinh y - Real.sinh s) := by
  obtain ⟨d, rfl⟩ : ∃ d, s = y - d := ⟨y - s, by ring⟩
  rw [sub_sub_cancel] at hd ⊢
  have hd0 : 0 < d := by linarith
  have hK : 8 / 25 * d ^ 2 * Real.sinh d ≤ d * Real.cosh d - Real.sinh d := by
    have := le_of_deriv (f := fun d => d * Real.cosh d - Real.sinh d - 8 / 25 * d ^ 2 * Real.sinh d)
      (f' := fun d => d * (9 / 25 * Real.sinh d - 8 / 25 * (d * Real.cosh d))) hd0.le
      (fun t => by
        have h1 := ((hasDerivAt_id t).mul (Real.hasDerivAt_cosh t)).sub (Real.hasDerivAt_sinh t)
        refine (h1.sub (((hasDerivAt_pow 2 t).const_mul (8 / 25)).mul (Real.hasDerivAt_sinh t))).congr_deriv ?_
        simp
        ring)
      (fun t ht htd => by
        refine mul_nonneg ht ?_
        have h1 := sinh_ge3 ht
        have h2 := mul_le_mul_of_nonneg_left (cosh_le_unit4 ht (by linarith)) ht
        have h3 : 0 ≤ t * (1 / 25 - t ^ 2 / 10 - 2 / 125 * t ^ 4) := by
          refine mul_nonneg ht ?_
          have h4 : t ^ 2 ≤ 9 / 25 := by nlinarith
          nlinarith [sq_nonneg (t ^ 2)]
        nlinarith)
    simp at this
    linarith
  have h1 := cosh_mul_sinh_le (show d ≤ y by linarith)
  have h2 : 0 ≤ Real.sinh d - d := sub_nonneg.mpr (Real.self_le_sinh_iff.mpr hd0.le)
  have h3 := mul_le_mul_of_nonneg_right h1 h2
  have h4 : 0 ≤ Real.sinh y := sinh_nonneg (by linarith)
  have h5 := mul_le_mul_of_nonneg_left hK h4
  have h6 : 0 < Real.sinh d := Real.sinh_pos_iff.mpr hd0
  rw [Real.sinh_sub]
  have h7 := Real.cosh_sq d
  have h8 : Real.sinh d * (8 / 25 * d ^ 2 * Real.sinh y) ≤
      Real.sinh d * (d * Real.cosh y - (Real.sinh y - (Real.sinh y * Real.cosh d - Real.cosh y * Real.sinh d))) := by nlinarith
  exact le_of_mul_le_mul_left h8 h6

/-- the same, where the interval is not too long compared with its upper end -/
theorem sinh_above_wide {s y : ℝ} (hs : 0 ≤ s) (hsy : s < y) (hd : y - s ≤ 3 / 5) (hb : 3 * y ≤ 10 * s) :
    9 / 25 * (y - s) ^ 2 * Real.sinh y ≤ (y - s) * Real.cosh y - (Real.sinh y - Real.sinh s) := by
  obtain ⟨d, rfl⟩ : ∃ d, s = y - d := ⟨y - s, by ring⟩
  rw [sub_sub_cancel] at hd ⊢
  have hd0 : 0 < d := by linarith
  set z := 10 / 7 * d with hz
  have hz0 : 0 < z := by positivity
  have hzy : z ≤ y := by rw [hz]; linarith
  have h1 := mul_le_mul_of_nonneg_left (cosh_mul_sinh_le hzy) hz0.le
  have h4 : 0 ≤ Real.sinh y := sinh_nonneg (by linarith)
  have h2 := mul_le_mul_of_nonneg_left (mul_cosh_le hz0.le) h4
  have hsz : 0 < Real.sinh z := Real.sinh_pos_iff.mpr hz0
  have h3 : z * Real.cosh y ≤ (1 + z ^ 2 / 3) * Real.sinh y := by
    have : Real.sinh z * (z * Real.cosh y) ≤ Real.sinh z * ((1 + z ^ 2 / 3) * Real.sinh y) := by linarith
    exact le_of_mul_le_mul_left this hsz
  have h5 := cosh_ge4 hd0.le
  have h6 := sinh_le_unit5 hd0.le (by linarith)
  rw [Real.sinh_sub]
  -- d^2 sinh y (..)
  have h7 : d * Real.cosh y ≤ (7 / 10 + 10 / 21 * d ^ 2) * Real.sinh y := by
    rw [hz] at h3
    nlinarith
  have hc : 0 ≤ Real.cosh y := (Real.cosh_pos y).le
  have h8 : Real.cosh y * (Real.sinh d - d) ≤ (d * Real.cosh y) * (d ^ 2 / 6 + d ^ 4 / 100) := by
    have := mul_le_mul_of_nonneg_left (show Real.sinh d - d ≤ d * (d ^ 2 / 6 + d ^ 4 / 100) by nlinarith) hc
    linarith
  have h9 := mul_le_mul_of_nonneg_right h7 (show 0 ≤ d ^ 2 / 6 + d ^ 4 / 100 by positivity)
  have h10 := mul_le_mul_of_nonneg_left (show d ^ 2 / 2 + d ^ 4 / 24 ≤ Real.cosh d - 1 by linarith) h4
  have h11 : 0 ≤ Real.sinh y * (d ^ 2 * (1 / 2 + d ^ 2 / 24 - (7 / 10 + 10 / 21 * d ^ 2) * (1 / 6 + d ^ 2 / 100) - 9 / 25)) := by
    refine mul_nonneg h4 (mul_nonneg (sq_nonneg d) ?_)
    have h12 : d ^ 2 ≤ 9 / 25 := by nlinarith
    nlinarith [sq_nonneg d]
  nlinarith

end Pyorb.Lag
