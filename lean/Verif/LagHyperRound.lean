import Verif.LagHyper

/-!
# Laguerre's method for the hyperbolic Kepler equation with disturbed steps, `e ≥ 6/5`

A step that differs a little from the exact one still reduces the distance to the root by the factor 95/100.
-/

namespace Pyorb.Lag.Hyp

/-- the points from which disturbed steps are followed -/
def Reg (s x : ℝ) : Prop := s - x ≤ 373 / 1000 ∧ x - s ≤ 595 / 1000

theorem exp_le_inv {x : ℝ} (h : x < 1) : Real.exp x ≤ 1 / (1 - x) := by
  have h1 := Real.add_one_le_exp (-x)
  rw [Real.exp_neg] at h1
  rw [le_div_iff₀ (by linarith)]
  have := mul_le_mul_of_nonneg_left h1 (Real.exp_pos x).le
  rw [mul_inv_cancel₀ (Real.exp_pos x).ne'] at this
  linarith

theorem cosh_le_one_add_sinh {x : ℝ} (h : 0 ≤ x) : Real.cosh x ≤ 1 + Real.sinh x := by
  have h1 := Real.cosh_sub_sinh x
  have h2 : Real.exp (-x) ≤ 1 := Real.exp_le_one_iff.mpr (by linarith)
  linarith

theorem cosh_small {s : ℝ} (h0 : 0 ≤ s) (h1 : s ≤ 57 / 100) : Real.cosh s - 1 ≤ 1 / 3 := by
  have h2 := sinh_le_unit (show 0 ≤ s / 2 by linarith) (by linarith)
  have h3 := sinh_nonneg (show 0 ≤ s / 2 by linarith)
  rw [cosh_sub_one]
  nlinarith

/-- the exact step from below the root -/
theorem reg_below {e s x : ℝ} (he : 6 / 5 ≤ e) (hs : 0 ≤ s) (hxs : x < s) (h : s - x ≤ 373 / 1000) :
    x + 1 / 2 * (s - x) ≤ next e s x ∧ next e s x ≤ s + (s - x) := by
  have h1 : 1 < e := by linarith
  have hD : 0 < s - x := by linarith
  by_cases hs5 : 57 / 100 ≤ s
  · have hx : 197 / 1000 ≤ x := by linarith
    have h2 := Real.self_le_sinh_iff.mpr (show 0 ≤ x by linarith)
    have h3 := cosh_le_one_add_sinh (show 0 ≤ x by linarith)
    have h4 : (s - x) * Real.cosh x ≤ 373 / 1000 * (1 + Real.sinh x) := mul_le_mul h h3 (Real.cosh_pos x).le (by norm_num)
    obtain ⟨a, b⟩ := next_below_wide h1 hxs (by linarith) (by linarith)
    exact ⟨by linarith, by linarith⟩
  · have hc := cosh_small hs (by linarith)
    rcases le_or_gt 0 x with hx | hx
    · exact next_below_tame h1 hx hxs (by nlinarith)
    · have := next_beyond (z := -x) h1 hs (by linarith) (by linarith) (by
        have : (s + -x) ^ 2 ≤ (373 / 1000) ^ 2 := pow_le_pow_left₀ (by linarith) (by linarith) 2
        nlinarith)
      rw [neg_neg, ← sub_eq_add_neg] at this
      exact this

/-- second derivative against slope -/
theorem sinh_le_slope {e x : ℝ} (he : 6 / 5 ≤ e) : e * |Real.sinh x| ≤ 2 * slope e x := by
  unfold slope
  have h1 := Real.cosh_sq x
  have h2 := Real.one_le_cosh x
  have h3 : 5 / 3 + |Real.sinh x| ≤ 2 * Real.cosh x := by
    refine abs_le_of_sq_le_sq' ?_ (by linarith) |>.2
    have := sq_abs (Real.sinh x)
    nlinarith [sq_nonneg (|Real.sinh x| - 5 / 9)]
  nlinarith

theorem rise_sign {e s x : ℝ} (h1 : 1 < e) (h : s ≤ x) : (e - 1) * (x - s) ≤ rise e s x := by
  have h2 := le_of_deriv (f := fun t => Real.sinh t - t) (f' := fun t => Real.cosh t - 1) h
    (fun y => (Real.hasDerivAt_sinh y).sub (hasDerivAt_id y)) (fun y _ _ => one_le_cosh' y)
  unfold rise
  nlinarith

theorem rise_sign' {e s x : ℝ} (h1 : 1 < e) (h : x ≤ s) : (e - 1) * (s - x) ≤ -rise e s x := by
  have := rise_sign h1 h
  unfold rise at *
  linarith

/-- the residual is at least (e - 1) times the distance -/
theorem rise_ge {e s x : ℝ} (h1 : 1 < e) : (e - 1) * |x - s| ≤ |rise e s x| := by
  rcases le_total s x with h | h
  · have := rise_sign h1 h
    rw [abs_of_nonneg (by linarith : 0 ≤ x - s)]
    exact this.trans (le_abs_self _)
  · have := rise_sign' h1 h
    rw [abs_of_nonpos (by linarith : x - s ≤ 0), neg_sub]
    exact this.trans (neg_le_abs _)

theorem rad_far {e s x : ℝ} (he : 6 / 5 ≤ e) (hs : 0 ≤ s) (h : Reg s x) : 20 * rise e s x * (e * Real.sinh x) ≤ 125 / 8 * slope e x ^ 2 := by
  have h1 : 1 < e := by linarith
  have hp := slope_pos h1 x
  rcases lt_trichotomy s x with hsx | rfl | hxs
  · have h2 := rise_le h1 (sinh_above hs hsx (by linarith [h.2]))
    have hw : 0 ≤ e * Real.sinh x := mul_nonneg (by linarith) (sinh_nonneg (by linarith))
    have h3 := mul_le_mul_of_nonneg_right h2 hw
    nlinarith [sq_nonneg (slope e x - 16 / 25 * (e * Real.sinh x) * (x - s))]
  · have : rise e s s = 0 := by simp [rise]
    rw [this]; nlinarith [sq_nonneg (slope e s)]
  · rcases le_or_gt 0 x with hx | hx
    · have h2 := rise_sign' h1 hxs.le
      have h3 : 0 ≤ e * Real.sinh x := mul_nonneg (by linarith) (sinh_nonneg hx)
      have h4 : 0 ≤ (e - 1) * (s - x) := mul_nonneg (by linarith) (by linarith)
      nlinarith [sq_nonneg (slope e x), mul_nonneg (show 0 ≤ -rise e s x by linarith) h3]
    · obtain ⟨z, rfl⟩ : ∃ z, x = -z := ⟨-x, by ring⟩
      have hz : 0 < z := by linarith
      have hD : s + z ≤ 373 / 1000 := by have := h.1; linarith
      have a1 := sinh_le_unit3 hs (by linarith)
      have a2 := sinh_le_unit3 hz.le (by linarith)
      have a3 : Real.sinh z ≤ 103 / 100 * z := by nlinarith [mul_nonneg hz.le (show 0 ≤ 4 / 25 - z ^ 2 by nlinarith)]
      have a4 := cosh_ge2 hz.le
      have hsl : slope e (-z) = slope e z := by unfold slope; rw [Real.cosh_neg]
      have hri : rise e s (-z) = -(e * (Real.sinh s + Real.sinh z) - (s + z)) := by unfold rise; rw [Real.sinh_neg]; ring
      rw [hsl, hri, Real.sinh_neg]
      -- the rise
      have b1 : s ^ 3 + z ^ 3 ≤ 14 / 100 * (s + z) := by
        have : s ^ 3 + z ^ 3 = (s + z) * ((s + z) ^ 2 - 3 * (s * z)) := by ring
        rw [this, mul_comm (14 / 100 : ℝ)]
        refine mul_le_mul_of_nonneg_left ?_ (by linarith)
        have : 0 ≤ s * z := by positivity
        nlinarith
      have b2 : e * (Real.sinh s + Real.sinh z) - (s + z) ≤ 117 / 100 * (e - 1) * (s + z) := by
        have := mul_le_mul_of_nonneg_left (show Real.sinh s + Real.sinh z ≤ (s + z) * (1 + 28 / 1000) by linarith) (show 0 ≤ e by linarith)
        nlinarith
      have b3 : e * (Real.sinh s + Real.sinh z) - (s + z) ≤ 437 / 1000 * (e - 1) := by
        have := mul_le_mul_of_nonneg_left hD (show 0 ≤ e - 1 by linarith)
        linarith
      have b4 : (e * (Real.sinh s + Real.sinh z) - (s + z)) * (e * Real.sinh z) ≤ 437 / 1000 * (e - 1) * (e * (103 / 100 * z)) :=
        mul_le_mul b3 (mul_le_mul_of_nonneg_left a3 (by linarith)) (mul_nonneg (by linarith) (sinh_nonneg hz.le)) (by nlinarith)
      have b5 : (e - 1) + e * (z ^ 2 / 2) ≤ slope e z := by
        rw [slope_eq]
        have := mul_le_mul_of_nonneg_left (show z ^ 2 / 2 ≤ Real.cosh z - 1 by linarith) (show 0 ≤ e by linarith)
        linarith
      have b6 : (e - 1) * ((e - 1) + e * z ^ 2) ≤ slope e z ^ 2 := by
        have c0 : 0 ≤ e * (z ^ 2 / 2) := mul_nonneg (by linarith) (by positivity)
        have := pow_le_pow_left₀ (show 0 ≤ (e - 1) + e * (z ^ 2 / 2) by linarith) b5 2
        nlinarith [sq_nonneg (e * (z ^ 2 / 2))]
      have b7 : 4 / 5 * e * z ≤ (e - 1) + e * z ^ 2 := by nlinarith [sq_nonneg (z - 2 / 5)]
      have b8 := mul_le_mul_of_nonneg_left b7 (show 0 ≤ e - 1 by linarith)
      have b9 : 0 ≤ (e - 1) * e * z := by
        have : 0 ≤ (e - 1) * e := mul_nonneg (by linarith) (by linarith)
        positivity
      nlinarith

theorem rad_near {e s x : ℝ} (he : 6 / 5 ≤ e) (hs : 0 ≤ s) (h : |x - s| ≤ 1 / 10) : 20 * rise e s x * (e * Real.sinh x) ≤ 6 * slope e x ^ 2 := by
  have h1 : 1 < e := by linarith
  have hp := slope_pos h1 x
  have hw := sinh_le_slope (x := x) he
  have hsx := abs_le.mp h
  -- the rise is at most 3/2 times distance times slope, unless the product is negative
  by_cases hneg : rise e s x * (e * Real.sinh x) ≤ 0
  · nlinarith [sq_nonneg (slope e x)]
  push Not at hneg
  have key : |rise e s x| ≤ 1 / 10 * (3 / 2 * slope e x) := by
    rcases le_or_gt s x with hx | hx
    · have h2 := le_of_deriv (f := fun t => t * Real.cosh x - Real.sinh t) (f' := fun t => Real.cosh x - Real.cosh t) hx
        (fun y => by
          refine (((hasDerivAt_id y).mul_const (Real.cosh x)).sub (Real.hasDerivAt_sinh y)).congr_deriv ?_
          simp)
        (fun y hy hy1 => sub_nonneg.mpr (by rw [Real.cosh_le_cosh, abs_of_nonneg (by linarith), abs_of_nonneg (by linarith)]; exact hy1))
      have h3 := rise_sign h1 hx
      rw [abs_of_nonneg (le_trans (mul_nonneg (by linarith) (by linarith)) h3)]
      have h4 : rise e s x ≤ (x - s) * slope e x := by
        unfold rise slope
        have := mul_le_mul_of_nonneg_left h2 (show 0 ≤ e by linarith)
        linarith
      have := mul_le_mul_of_nonneg_right hsx.2 hp.le
      linarith
    · have h3 := rise_sign' h1 hx.le
      have h3' : 0 ≤ (e - 1) * (s - x) := mul_nonneg (by linarith) (by linarith)
      have hx0 : x < 0 := by
        by_contra hx0
        have : 0 ≤ e * Real.sinh x := mul_nonneg (by linarith) (sinh_nonneg (not_lt.mp hx0))
        nlinarith
      obtain ⟨z, rfl⟩ : ∃ z, x = -z := ⟨-x, by ring⟩
      have a1 := sinh_le_unit3 hs (by linarith)
      have a2 := sinh_le_unit3 (show 0 ≤ z by linarith) (by linarith)
      have hri : -rise e s (-z) = e * (Real.sinh s + Real.sinh z) - (s + z) := by unfold rise; rw [Real.sinh_neg]; ring
      have b1 : s ^ 3 + z ^ 3 ≤ 1 / 100 * (s + z) := by
        have : s ^ 3 + z ^ 3 = (s + z) * ((s + z) ^ 2 - 3 * (s * z)) := by ring
        rw [this, mul_comm (1 / 100 : ℝ)]
        refine mul_le_mul_of_nonneg_left ?_ (by linarith)
        have : 0 ≤ s * z := mul_nonneg hs (by linarith)
        nlinarith
      have b2 : e * (Real.sinh s + Real.sinh z) - (s + z) ≤ 15 / 10 * (e - 1) * (s + z) := by
        have := mul_le_mul_of_nonneg_left (show Real.sinh s + Real.sinh z ≤ (s + z) * (1 + 2 / 1000) by linarith) (show 0 ≤ e by linarith)
        nlinarith
      rw [← abs_neg, abs_of_nonneg (le_trans h3' h3), hri]
      have b3 := slope_ge h1 (-z)
      have b4 : (e - 1) * (s + z) ≤ slope e (-z) * (1 / 10) := mul_le_mul b3 (by linarith) (by linarith) hp.le
      linarith
  have h5 : rise e s x * (e * Real.sinh x) ≤ |rise e s x| * (e * |Real.sinh x|) := by
    refine (le_abs_self _).trans (le_of_eq ?_)
    rw [abs_mul, abs_mul e, abs_of_pos (show 0 < e by linarith)]
  have h6 := mul_le_mul key hw (mul_nonneg (by linarith) (abs_nonneg _)) (by linarith)
  nlinarith

/-- the radicand is not large against the slope -/
theorem rad_up {e s x : ℝ} (he : 6 / 5 ≤ e) (hs : 0 ≤ s) (h : Reg s x) : 16 * slope e x ^ 2 - 20 * rise e s x * (e * Real.sinh x) ≤ 160 * slope e x ^ 2 := by
  have h1 : 1 < e := by linarith
  have hp := slope_pos h1 x
  have hw := sinh_le_slope (x := x) he
  rcases le_or_gt s x with hx | hx
  · have h2 := rise_sign h1 hx
    have h3 : 0 ≤ (e - 1) * (x - s) := mul_nonneg (by linarith) (by linarith)
    have h4 : 0 ≤ e * Real.sinh x := mul_nonneg (by linarith) (sinh_nonneg (by linarith))
    have := mul_nonneg (h3.trans h2) h4
    nlinarith [sq_nonneg (slope e x)]
  · have h2 := rise_sign' h1 hx.le
    have h3 : 0 ≤ (e - 1) * (s - x) := mul_nonneg (by linarith) (by linarith)
    have hm : |s| ≤ |x| + 373 / 1000 := by
      have := abs_add_le (s - x) x
      rw [sub_add_cancel, abs_of_pos (show 0 < s - x by linarith)] at this
      linarith [h.1]
    have h4 := abs_sinh_sub_le hm (show |x| ≤ |x| + 373 / 1000 by linarith)
    rw [abs_of_pos (show 0 < s - x by linarith)] at h4
    have h5 : Real.cosh (|x| + 373 / 1000) ≤ Real.cosh x * (16 / 10) := by
      have k1 := exp_le_inv (show (373 / 1000 : ℝ) < 1 by norm_num)
      norm_num at k1
      rw [Real.cosh_add, Real.cosh_abs]
      have k2 : Real.sinh |x| ≤ Real.cosh x := by rw [← Real.cosh_abs x]; exact (Real.sinh_lt_cosh _).le
      have k3 := mul_le_mul_of_nonneg_right k2 (sinh_nonneg (show (0 : ℝ) ≤ 373 / 1000 by norm_num))
      have k4 := Real.cosh_add_sinh (373 / 1000)
      have k5 := mul_le_mul_of_nonneg_left (show Real.cosh (373 / 1000) + Real.sinh (373 / 1000) ≤ 16 / 10 by rw [k4]; linarith) (Real.cosh_pos x).le
      linarith
    have h6 : -rise e s x ≤ e * |Real.sinh s - Real.sinh x| := by
      have := mul_le_mul_of_nonneg_left (le_abs_self (Real.sinh s - Real.sinh x)) (show 0 ≤ e by linarith)
      unfold rise
      linarith
    have h7 : |Real.sinh s - Real.sinh x| ≤ Real.cosh x * (16 / 10) * (373 / 1000) :=
      h4.trans (mul_le_mul h5 h.1 (by linarith) (by have := Real.cosh_pos x; linarith))
    have h8 : e * Real.cosh x ≤ 6 * slope e x := by
      unfold slope
      have := Real.one_le_cosh x
      nlinarith
    have h9 : -rise e s x ≤ 3582 / 1000 * slope e x := by
      have := mul_le_mul_of_nonneg_left h7 (show 0 ≤ e by linarith)
      linarith
    have h10 : -rise e s x * (e * Real.sinh x) ≤ 3582 / 1000 * slope e x * (2 * slope e x) := by
      have k1 : e * Real.sinh x ≤ 2 * slope e x := (mul_le_mul_of_nonneg_left (le_abs_self _) (by linarith)).trans hw
      refine (mul_le_mul_of_nonneg_left k1 (by linarith)).trans (mul_le_mul_of_nonneg_right h9 (by linarith))
    nlinarith [sq_nonneg (slope e x)]

/-- a disturbed step -/
theorem reg_step {e s x q y ν l : ℝ} (he : 6 / 5 ≤ e) (hs : 0 ≤ s) (h : Reg s x) (hq : |q - (x - next e s x)| ≤ l * |x - next e s x|)
    (hl0 : 0 ≤ l) (hl : l ≤ 32 / 1000) (hfar : 1 / 10 < |x - s| → l ≤ 1 / 10 ^ 4) (hy : |y - (x - q)| ≤ ν) (hν : ν ≤ 1 / 10 ^ 7) :
    Reg s y ∧ dist s y ≤ 95 / 100 * dist s x + 7 / 5 * ν := by
  have h1 : 1 < e := by linarith
  have hν0 := (abs_nonneg _).trans hy
  rw [abs_le] at hq hy
  have fin : ∀ lo hi : ℝ, s - lo ≤ y → y ≤ s + hi → lo ≤ 373 / 1000 → hi ≤ 595 / 1000 → 7 / 5 * lo ≤ 95 / 100 * dist s x + 7 / 5 * ν →
      hi ≤ 95 / 100 * dist s x + 7 / 5 * ν → Reg s y ∧ dist s y ≤ 95 / 100 * dist s x + 7 / 5 * ν := by
    intro lo hi k1 k2 k3 k4 k5 k6
    refine ⟨⟨by linarith, by linarith⟩, ?_⟩
    conv_lhs => unfold dist
    split_ifs <;> linarith
  rcases lt_trichotomy s x with hsx | rfl | hxs
  · obtain ⟨h2, h3⟩ := next_above h1 hs hsx (by linarith [h.2])
    have hd : |x - next e s x| ≤ 13 / 8 * (x - s) := by rw [abs_le]; constructor <;> linarith
    have hl1 := mul_le_mul_of_nonneg_left hd hl0
    have hl2 : l * (13 / 8 * (x - s)) ≤ 32 / 1000 * (13 / 8 * (x - s)) := mul_le_mul_of_nonneg_right hl (by linarith)
    have hdist : dist s x = x - s := if_pos hsx.le
    rw [hdist] at fin ⊢
    have h595 := h.2
    have hlo : (5 / 8 * (x - s) + l * (13 / 8 * (x - s)) + ν) ≤ 373 / 1000 := by
      by_cases hf : 1 / 10 < x - s
      · have := hfar (by rw [abs_of_pos (by linarith)]; exact hf)
        have : l * (13 / 8 * (x - s)) ≤ 1 / 10 ^ 4 * (13 / 8 * (x - s)) := mul_le_mul_of_nonneg_right this (by linarith)
        linarith
      · linarith
    exact fin (5 / 8 * (x - s) + l * (13 / 8 * (x - s)) + ν) (11 / 16 * (x - s) + l * (13 / 8 * (x - s)) + ν) (by linarith) (by linarith)
      hlo (by linarith) (by linarith) (by linarith)
  · have : next e s s = s := by simp [next, rise, delta]
    rw [this, sub_self, abs_zero, mul_zero, sub_zero] at hq
    have hd0 : dist s s = 0 := by simp [dist]
    rw [hd0] at fin ⊢
    exact fin ν ν (by linarith) (by linarith) (by linarith) (by linarith) (by linarith) (by linarith)
  · obtain ⟨h2, h3⟩ := reg_below he hs hxs h.1
    have hd : |x - next e s x| ≤ 2 * (s - x) := by rw [abs_le]; constructor <;> linarith
    have hl1 := mul_le_mul_of_nonneg_left hd hl0
    have hl2 : l * (2 * (s - x)) ≤ 32 / 1000 * (2 * (s - x)) := mul_le_mul_of_nonneg_right hl (by linarith)
    have hdist : dist s x = 7 / 5 * (s - x) := if_neg (not_le.mpr hxs)
    rw [hdist] at fin ⊢
    have h595 := h.1
    exact fin (1 / 2 * (s - x) + l * (2 * (s - x)) + ν) ((s - x) + l * (2 * (s - x)) + ν) (by linarith) (by linarith)
      (by linarith) (by linarith) (by linarith) (by linarith)

/-! ## The root and the guess -/

theorem root_le {e M s : ℝ} (h1 : 1 < e) (hs : 0 ≤ s) (hM : e * Real.sinh s - s = M) : s ≤ M + e := by
  have h2 := le_of_deriv (f := fun t => Real.sinh t - (t + t ^ 3 / 6)) (f' := fun t => Real.cosh t - (1 + t ^ 2 / 2)) hs
    (fun t => by
      refine ((Real.hasDerivAt_sinh t).sub ((hasDerivAt_id t).add ((hasDerivAt_pow 3 t).div_const 6))).congr_deriv ?_
      norm_num
      ring)
    (fun t ht _ => sub_nonneg.mpr (cosh_ge2 ht))
  simp at h2
  have h3 : 2 * s ≤ 1 + Real.sinh s := by nlinarith [mul_nonneg hs (sq_nonneg (s - 7 / 5)), sq_nonneg (s - 7 / 5)]
  have h4 : 1 * (1 + Real.sinh s) ≤ e * (1 + Real.sinh s) := mul_le_mul_of_nonneg_right h1.le (by linarith)
  linarith

theorem exp_three_fifths_le : Real.exp (3 / 5) ≤ 183 / 100 := by
  have h4 : Real.exp (3 / 5) ^ 5 = Real.exp 1 ^ 3 := by
    rw [← Real.exp_nat_mul, ← Real.exp_nat_mul]; norm_num
  by_contra hlt
  have h5 := pow_lt_pow_left₀ (not_le.mp hlt) (by norm_num) (show (5 : ℕ) ≠ 0 by norm_num)
  have h6 := pow_lt_pow_left₀ Real.exp_one_lt_d9 (Real.exp_pos 1).le (show (3 : ℕ) ≠ 0 by norm_num)
  rw [h4] at h5
  have := h5.trans h6
  norm_num at this

theorem exp_poly {x : ℝ} (h : 0 ≤ x) : 1 + x + x ^ 2 / 2 + x ^ 3 / 6 + x ^ 4 / 24 + x ^ 5 / 120 ≤ Real.exp x := by
  have h := Real.sum_le_exp_of_nonneg h 6
  refine le_trans (le_of_eq ?_) h
  norm_num [Finset.sum_range_succ, Nat.factorial]

/-- the sum of the magnitudes of the terms of the residual -/
theorem terms_le {e M s x : ℝ} (he : 6 / 5 ≤ e) (hs : 0 ≤ s) (hM : e * Real.sinh s - s = M) (h : Reg s x) :
    M + |x| + e * |Real.sinh x| ≤ 6 * (M + e) := by
  have h1 : 1 < e := by linarith
  have hr := root_le h1 hs hM
  have hx : |x| ≤ s + 3 / 5 := by rw [abs_le]; constructor <;> linarith [h.1, h.2]
  have h2 : |Real.sinh x| ≤ Real.sinh (s + 3 / 5) := by
    rw [abs_le] at hx ⊢
    exact ⟨by rw [← Real.sinh_neg]; exact Real.sinh_le_sinh.mpr hx.1, Real.sinh_le_sinh.mpr hx.2⟩
  have hb : Real.exp (-(3 / 5)) * Real.exp (3 / 5) = 1 := by rw [← Real.exp_add]; simp
  have hE1 := exp_three_fifths
  have hE2 := exp_three_fifths_le
  have hi0 := Real.exp_pos (-(3 / 5))
  have hi1 : Real.exp (-(3 / 5)) ≤ 55 / 100 := by nlinarith
  have hi2 : 54 / 100 ≤ Real.exp (-(3 / 5)) := by nlinarith
  have hc : Real.cosh (3 / 5) ≤ 119 / 100 := by rw [Real.cosh_eq]; linarith
  have hS : Real.sinh (3 / 5) ≤ 645 / 1000 := by rw [Real.sinh_eq]; linarith
  have hS0 : 0 ≤ Real.sinh (3 / 5) := sinh_nonneg (by norm_num)
  have hss := sinh_nonneg hs
  have h3 := cosh_le_one_add_sinh hs
  have h4 : Real.sinh (s + 3 / 5) ≤ Real.sinh s * (119 / 100) + (1 + Real.sinh s) * (645 / 1000) := by
    rw [Real.sinh_add]
    have := mul_le_mul_of_nonneg_left hc hss
    have := mul_le_mul h3 hS hS0 (by linarith)
    linarith
  have h5 := mul_le_mul_of_nonneg_left (h2.trans h4) (show 0 ≤ e by linarith)
  have h6 : 0 ≤ M := by
    have := Real.self_le_sinh_iff.mpr hs
    nlinarith
  linarith

/-- the slope near the root -/
theorem rise_near {e M s x d : ℝ} (h1 : 1 < e) (hs : 0 ≤ s) (hM : e * Real.sinh s - s = M) (hd : |x - s| ≤ d) (hd1 : d ≤ 1 / 100) :
    |rise e s x| ≤ 203 / 100 * (M + e) * d := by
  have he : 0 < e := by linarith
  have hd0 := (abs_nonneg _).trans hd
  have hr := root_le h1 hs hM
  have hx : |x| ≤ s + d := by
    have := abs_add_le (x - s) s
    rw [sub_add_cancel, abs_of_nonneg hs] at this
    linarith
  have h2 := abs_sinh_sub_le hx (show |s| ≤ s + d by rw [abs_of_nonneg hs]; linarith)
  have hmono : 0 ≤ (x - s) * (Real.sinh x - Real.sinh s) := by
    rcases le_total s x with hsx | hsx
    · exact mul_nonneg (by linarith) (sub_nonneg.mpr (Real.sinh_le_sinh.mpr hsx))
    · exact mul_nonneg_of_nonpos_of_nonpos (by linarith) (sub_nonpos.mpr (Real.sinh_le_sinh.mpr hsx))
  have h3 : |rise e s x| ≤ e * |Real.sinh x - Real.sinh s| := by
    rcases le_total s x with hsx | hsx
    · have a1 := rise_sign h1 hsx
      have a2 : 0 ≤ (e - 1) * (x - s) := mul_nonneg (by linarith) (by linarith)
      rw [abs_of_nonneg (by linarith), abs_of_nonneg (sub_nonneg.mpr (Real.sinh_le_sinh.mpr hsx))]
      unfold rise
      linarith
    · have a1 := rise_sign' h1 hsx
      have a2 : 0 ≤ (e - 1) * (s - x) := mul_nonneg (by linarith) (by linarith)
      rw [abs_of_nonpos (by linarith), abs_of_nonpos (sub_nonpos.mpr (Real.sinh_le_sinh.mpr hsx))]
      unfold rise
      linarith
  have h4 : Real.cosh (s + d) ≤ Real.cosh s * Real.exp d := by
    rw [Real.cosh_add, show Real.exp d = Real.cosh d + Real.sinh d by rw [Real.cosh_add_sinh], mul_add]
    have := mul_le_mul_of_nonneg_right (Real.sinh_lt_cosh s).le (sinh_nonneg hd0)
    linarith
  have h5 : Real.exp d ≤ 1011 / 1000 := by
    have := (Real.exp_le_exp.mpr hd1).trans (exp_le_inv (by norm_num))
    norm_num at this
    linarith
  have h6 := cosh_le_one_add_sinh hs
  have h7 : e * Real.cosh s ≤ 2 * (M + e) := by
    have := mul_le_mul_of_nonneg_left h6 he.le
    linarith
  have h8 : Real.cosh (s + d) ≤ Real.cosh s * (1011 / 1000) := h4.trans (mul_le_mul_of_nonneg_left h5 (Real.cosh_pos s).le)
  have h9 : e * Real.cosh (s + d) ≤ 203 / 100 * (M + e) := by
    have := mul_le_mul_of_nonneg_left h8 he.le
    have h0 : 0 ≤ e * Real.cosh s := mul_nonneg he.le (Real.cosh_pos s).le
    linarith
  have h10 : e * |Real.sinh x - Real.sinh s| ≤ e * (Real.cosh (s + d) * d) :=
    mul_le_mul_of_nonneg_left (h2.trans (mul_le_mul_of_nonneg_left hd (Real.cosh_pos _).le)) he.le
  have := mul_le_mul_of_nonneg_right h9 hd0
  linarith

theorem guess_poly {s : ℝ} (hs : 0 ≤ s) : 1395 / 1000 * (1 / Real.exp s) ≤ 395 / 1000 * Real.exp s - 2325 / 1000 * s + 2511 / 1000 := by
  have h5 := exp_poly hs
  obtain ⟨c, hc⟩ : ∃ c, c = 1 + s + s ^ 2 / 2 := ⟨_, rfl⟩
  have hc1 : 1 ≤ c := by rw [hc]; nlinarith
  have h3 : 0 ≤ s ^ 3 / 6 := by positivity
  have hca : c + s ^ 3 / 6 ≤ Real.exp s := by
    have : 0 ≤ s ^ 4 / 24 + s ^ 5 / 120 := by positivity
    linarith
  have hc1a : 1 / Real.exp s ≤ 1 / c := one_div_le_one_div_of_le (by linarith) (by linarith)
  have hg : 1395 / 1000 ≤ (395 / 1000 * (c + s ^ 3 / 6) - 2325 / 1000 * s + 2511 / 1000) * c := by
    rcases le_or_gt s (19 / 10) with hs19 | hs19
    · have hg1 : 186 / 100 - 793 / 1000 * s ≤ 395 / 1000 * (c + s ^ 3 / 6) - 2325 / 1000 * s + 2511 / 1000 := by
        rw [hc]
        nlinarith [mul_nonneg hs (sq_nonneg (s - 16 / 10)), sq_nonneg (s - 16 / 10)]
      refine le_trans ?_ (mul_le_mul_of_nonneg_right hg1 (by linarith))
      rw [hc]
      nlinarith [mul_nonneg hs (show 0 ≤ 19 / 10 - s by linarith), mul_nonneg (mul_nonneg hs hs) (show 0 ≤ 19 / 10 - s by linarith)]
    · have hg1 : 3 / 10 ≤ 395 / 1000 * (c + s ^ 3 / 6) - 2325 / 1000 * s + 2511 / 1000 := by
        rw [hc]
        nlinarith [mul_nonneg hs (sq_nonneg (s - 215 / 100)), sq_nonneg (s - 215 / 100)]
      have hc4 : 47 / 10 ≤ c := by rw [hc]; nlinarith
      have := mul_le_mul hg1 hc4 (by norm_num) (by linarith)
      linarith
  have hg2 : 1395 / 1000 * (1 / c) ≤ 395 / 1000 * (c + s ^ 3 / 6) - 2325 / 1000 * s + 2511 / 1000 := by
    rw [mul_one_div, div_le_iff₀ (by linarith)]
    exact hg
  linarith

/-- the starting value -/
theorem guess_reg {e M s : ℝ} (he : 6 / 5 ≤ e) (hs : 0 ≤ s) (hM : e * Real.sinh s - s = M) :
    guess e M - s ≤ 594 / 1000 ∧ s - guess e M ≤ 1 / 3 := by
  have h1 : 1 < e := by linarith
  have he0 : 0 < e := by linarith
  have hM0 : 0 ≤ M := by
    have h2 := Real.self_le_sinh_iff.mpr hs
    nlinarith
  set q := 2 * M / e + 9 / 5 with hq
  have hq18 : 9 / 5 ≤ q := by
    have : 0 ≤ 2 * M / e := by positivity
    linarith
  have hq0 : 0 < q := by linarith
  set x := guess e M with hx
  have hxq : Real.exp x = q := by rw [hx, guess, Real.exp_log hq0]
  set a := Real.exp s with ha
  have ha1 : 1 ≤ a := Real.one_le_exp hs
  have ha0 : 0 < a := by linarith
  have hsinh : 2 * Real.sinh s = a - 1 / a := by rw [Real.sinh_eq, ha, Real.exp_neg, one_div]; ring
  have hqe : q = a - 1 / a - 2 * s / e + 9 / 5 := by
    rw [hq, ← hM, ← hsinh]
    field_simp
  have hse : 0 ≤ 2 * s / e := by positivity
  have hse1 : 2 * s / e ≤ 5 / 3 * s := by
    rw [div_le_iff₀ he0]
    nlinarith
  have hia1 : a * (1 / a) = 1 := by field_simp
  constructor
  · have hup : x ≤ s + 594 / 1000 := by
      rw [← Real.exp_le_exp, hxq, Real.exp_add, ← ha]
      have h0 : 1811 / 1000 ≤ Real.exp (594 / 1000) := by
        refine le_trans ?_ (exp_poly (by norm_num))
        norm_num
      have h2 := mul_le_mul_of_nonneg_left h0 ha0.le
      refine le_trans ?_ h2
      rw [hqe]
      have h3 : 9 / 5 ≤ 811 / 1000 * a + 1 / a := by
        have : a * (9 / 5) ≤ a * (811 / 1000 * a + 1 / a) := by
          rw [mul_add, hia1]
          nlinarith [sq_nonneg (a - 111 / 100)]
        exact le_of_mul_le_mul_left this ha0
      linarith
    linarith
  · have hdown : s ≤ x + 1 / 3 := by
      rw [← Real.exp_le_exp, Real.exp_add, hxq, ← ha]
      have h0 : 1395 / 1000 ≤ Real.exp (1 / 3) := by
        refine le_trans ?_ (exp_poly (by norm_num))
        norm_num
      have h2 := mul_le_mul_of_nonneg_left h0 hq0.le
      refine le_trans ?_ h2
      have := guess_poly hs
      rw [← ha] at this
      linarith
    linarith

/-! ## Conditioning of the step -/

theorem sqrt_cond {r r' η : ℝ} (hr : 0 < r) (hη : η ≤ 1 / 25) (h : |r' - r| ≤ η * r) : |√r' - √r| ≤ 51 / 100 * η * √r := by
  have hη0 : 0 ≤ η := by
    by_contra hn
    have := (abs_nonneg _).trans h
    nlinarith
  have h1 := abs_le.mp h
  have hr' : 96 / 100 * r ≤ r' := by nlinarith
  have hr'0 : 0 < r' := by linarith
  have h2 : 97 / 100 * √r ≤ √r' := by
    refine Real.le_sqrt_of_sq_le ?_
    have := Real.sq_sqrt hr.le
    nlinarith
  have e1 : (√r' - √r) * (√r' + √r) = r' - r := by
    have a1 := Real.mul_self_sqrt hr'0.le
    have a2 := Real.mul_self_sqrt hr.le
    linarith
  have hs := Real.sqrt_pos.mpr hr
  have e2 : |√r' - √r| * (√r' + √r) ≤ η * (√r * √r) := by
    rw [← abs_of_pos (show 0 < √r' + √r by linarith), ← abs_mul, e1, Real.mul_self_sqrt hr.le]; exact h
  have e3 : |√r' - √r| * (197 / 100 * √r) ≤ |√r' - √r| * (√r' + √r) := mul_le_mul_of_nonneg_left (by linarith) (abs_nonneg _)
  have e4 : |√r' - √r| * (197 / 100) * √r ≤ η * √r * √r := by linarith
  have e5 := le_of_mul_le_mul_right e4 hs
  have : 0 ≤ η * √r := by positivity
  linarith

theorem quot_cond {F f D D' ε θ : ℝ} (hD : 0 < D) (hf : |f - F| ≤ ε * |F|) (hθ : θ ≤ 1 / 50) (h : |D' - D| ≤ θ * D) :
    |5 * f / D' - 5 * F / D| ≤ (ε + θ) * (103 / 100) * |5 * F / D| := by
  have h1 := abs_le.mp h
  have hθ0 : 0 ≤ θ := by
    by_contra hn
    have := (abs_nonneg _).trans h
    nlinarith
  have hD' : 49 / 50 * D ≤ D' := by nlinarith
  have hD'0 : 0 < D' := by linarith
  have e1 : 5 * f / D' - 5 * F / D = 5 * ((f - F) * D - F * (D' - D)) / (D * D') := by field_simp; ring
  have e2 : |(f - F) * D - F * (D' - D)| ≤ (ε + θ) * (|F| * D) := by
    refine (abs_sub _ _).trans ?_
    rw [abs_mul, abs_mul, abs_of_pos hD]
    have a1 := mul_le_mul_of_nonneg_right hf hD.le
    have a2 := mul_le_mul_of_nonneg_left h (abs_nonneg F)
    linarith
  rw [e1, abs_div, abs_mul, abs_of_pos (mul_pos hD hD'0), abs_of_pos (show (0 : ℝ) < 5 by norm_num), abs_div, abs_mul, abs_of_pos hD,
    abs_of_pos (show (0 : ℝ) < 5 by norm_num), div_le_iff₀ (mul_pos hD hD'0)]
  have e3 : (ε + θ) * (103 / 100) * (5 * |F| / D) * (D * D') = 5 * ((ε + θ) * |F| * (103 / 100 * D')) := by field_simp
  rw [e3]
  have e4 : 0 ≤ (ε + θ) * |F| := by
    have := (abs_nonneg _).trans e2
    by_contra hn
    push Not at hn
    have := mul_neg_of_neg_of_pos hn hD
    linarith
  have e5 := mul_le_mul_of_nonneg_left (show D ≤ 103 / 100 * D' by linarith) e4
  linarith

end Pyorb.Lag.Hyp
