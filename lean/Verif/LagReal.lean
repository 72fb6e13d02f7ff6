import Mathlib.Analysis.Convex.SpecificFunctions.Deriv
import Mathlib.Analysis.SpecialFunctions.Trigonometric.Bounds
import Mathlib.Analysis.Calculus.Deriv.MeanValue
import Mathlib.Analysis.Real.Pi.Bounds
import Mathlib.Tactic.Linarith
import Mathlib.Tactic.Positivity
import Mathlib.Tactic.FieldSimp
import Mathlib.Tactic.LinearCombination
import Mathlib.Tactic.NormNum
import Mathlib.Tactic.Set

/-!
# One step of Laguerre's method of degree 5

Real inequalities used in `PropsConverge`: how far a step goes, and trigonometric bounds.
-/

namespace Pyorb.Lag

/-- the step of Laguerre's method of degree 5 at a point with value `F`, slope `p > 0` and second derivative `w` -/
noncomputable def delta (F p w : ℝ) : ℝ := 5 * F / (p + √|16 * p ^ 2 - 20 * F * w|)

theorem den_pos {p : ℝ} (hp : 0 < p) (R : ℝ) : 0 < p + √R := by
  have := Real.sqrt_nonneg R
  linarith

theorem delta_neg (F p w : ℝ) : delta (-F) p (-w) = -delta F p w := by
  unfold delta
  rw [show 20 * -F * -w = 20 * F * w by ring]
  ring

/-! ## Above the root -/

theorem radicand {p g u : ℝ} (hg : 0 ≤ g) (h : u ≤ 3 * (p - g)) : p ^ 2 ≤ 16 * p ^ 2 - 20 * g * u := by
  nlinarith [mul_le_mul_of_nonneg_left h hg, sq_nonneg (p - 2 * g)]

theorem delta_upper {F p w d : ℝ} (hp : 0 < p) (hd : 0 < d) (hw : 0 ≤ w) (h1 : d * p ≤ 3 * F) (h2 : F ≤ d * (p - w * d / 3)) :
    d / 3 ≤ delta F p w ∧ delta F p w ≤ 4 / 3 * d := by
  obtain ⟨g, rfl⟩ : ∃ g, F = d * g := ⟨F / d, by field_simp⟩
  have hg : p ≤ 3 * g := by nlinarith
  have hg0 : 0 ≤ g := by linarith
  have hu : w * d ≤ 3 * (p - g) := by
    have := le_of_mul_le_mul_left h2 hd
    linarith
  have hR := radicand hg0 hu
  have e1 : 16 * p ^ 2 - 20 * (d * g) * w = 16 * p ^ 2 - 20 * g * (w * d) := by ring
  unfold delta
  rw [e1, abs_of_nonneg (by nlinarith)]
  have hD := den_pos hp (16 * p ^ 2 - 20 * g * (w * d))
  constructor
  · rw [le_div_iff₀ hD]
    have : √(16 * p ^ 2 - 20 * g * (w * d)) ≤ 4 * p := by
      rw [Real.sqrt_le_left (by linarith)]
      nlinarith [mul_nonneg hg0 (mul_nonneg hw hd.le)]
    nlinarith
  · rw [div_le_iff₀ hD]
    have : 15 * g / 4 - p ≤ √(16 * p ^ 2 - 20 * g * (w * d)) := by
      refine (le_abs_self _).trans (Real.abs_le_sqrt ?_)
      nlinarith [mul_le_mul_of_nonneg_left hu hg0, sq_nonneg (p - 7 / 4 * g)]
    nlinarith

/-- the step grows with the value -/
theorem delta_mono {F G p w : ℝ} (hp : 0 < p) (hw : 0 ≤ w) (hF : 0 ≤ F) (h : F ≤ G) (hG : 0 ≤ 16 * p ^ 2 - 20 * G * w) :
    delta F p w ≤ delta G p w := by
  have h1 : 16 * p ^ 2 - 20 * G * w ≤ 16 * p ^ 2 - 20 * F * w := by nlinarith
  unfold delta
  rw [abs_of_nonneg hG, abs_of_nonneg (hG.trans h1)]
  have := Real.sqrt_le_sqrt h1
  exact div_le_div₀ (by linarith) (by linarith) (den_pos hp _) (by linarith)

/-! ## Below the root -/

theorem delta_below (P p w : ℝ) : delta (-P) p w = -(5 * P / (p + √|16 * p ^ 2 + 20 * P * w|)) := by
  unfold delta
  rw [show 16 * p ^ 2 - 20 * -P * w = 16 * p ^ 2 + 20 * P * w by ring]
  ring

theorem delta_lower {P p w D : ℝ} (hp : 0 < p) (hD : 0 < D) (hw : 0 ≤ w) (h1 : D * p ≤ P) (h2 : P ≤ 3 * D * p) (h3 : w * D ≤ 3 * p) :
    D / 2 ≤ -delta (-P) p w ∧ -delta (-P) p w ≤ 3 * D := by
  obtain ⟨g, rfl⟩ : ∃ g, P = D * g := ⟨P / D, by field_simp⟩
  have hg : p ≤ g := le_of_mul_le_mul_left h1 hD
  have hg2 : g ≤ 3 * p := by nlinarith
  have hgw : 0 ≤ g * (w * D) := mul_nonneg (by linarith) (by positivity)
  rw [delta_below, neg_neg, show 20 * (D * g) * w = 20 * (g * (w * D)) by ring, abs_of_nonneg (by positivity)]
  have hd := den_pos hp (16 * p ^ 2 + 20 * (g * (w * D)))
  constructor
  · rw [le_div_iff₀ hd]
    have : √(16 * p ^ 2 + 20 * (g * (w * D))) ≤ 9 * g := by
      rw [Real.sqrt_le_left (by linarith)]
      nlinarith [mul_le_mul_of_nonneg_left h3 (show 0 ≤ g by linarith)]
    nlinarith
  · rw [div_le_iff₀ hd]
    have : 4 * p ≤ √(16 * p ^ 2 + 20 * (g * (w * D))) := Real.le_sqrt_of_sq_le (by nlinarith)
    nlinarith

/-- below the root of a function whose slope grows at least as a parabola: three quarters of the way, or more -/
theorem delta_lower_start {P p w D : ℝ} (hp : 0 < p) (hD : 0 < D) (hw : 0 ≤ w) (h1 : D * (p + w * D / 2) ≤ P) :
    3 / 4 * D ≤ -delta (-P) p w ∧ 4 * w * (delta (-P) p w) ^ 2 ≤ 5 * P := by
  obtain ⟨g, rfl⟩ : ∃ g, P = D * g := ⟨P / D, by field_simp⟩
  have hg := le_of_mul_le_mul_left h1 hD
  have hu : 0 ≤ w * D := by positivity
  have hg0 : p ≤ g := by linarith
  have hgw : 0 ≤ g * (w * D) := mul_nonneg (by linarith) hu
  rw [delta_below, neg_neg, show 20 * (D * g) * w = 20 * (g * (w * D)) by ring, abs_of_nonneg (by positivity)]
  have hd := den_pos hp (16 * p ^ 2 + 20 * (g * (w * D)))
  have hs := Real.sq_sqrt (show 0 ≤ 16 * p ^ 2 + 20 * (g * (w * D)) by positivity)
  constructor
  · rw [le_div_iff₀ hd]
    have : √(16 * p ^ 2 + 20 * (g * (w * D))) ≤ 20 * g / 3 - p := by
      rw [Real.sqrt_le_left (by linarith)]
      have : g * (w * D) ≤ g * (2 * (g - p)) := mul_le_mul_of_nonneg_left (by linarith) (by linarith)
      nlinarith
    nlinarith
  · rw [neg_sq, div_pow, ← mul_div_assoc, div_le_iff₀ (by positivity)]
    have h5 : 20 * (g * (w * D)) ≤ (p + √(16 * p ^ 2 + 20 * (g * (w * D)))) ^ 2 := by
      have := mul_nonneg hp.le (Real.sqrt_nonneg (16 * p ^ 2 + 20 * (g * (w * D))))
      nlinarith
    have h6 : 0 ≤ 5 * (D * g) := by
      have := mul_nonneg hD.le (show 0 ≤ g by linarith)
      linarith
    calc 4 * w * (5 * (D * g)) ^ 2 = 5 * (D * g) * (20 * (g * (w * D))) := by ring
      _ ≤ _ := mul_le_mul_of_nonneg_left h5 h6

/-- beyond the point of inflection, close enough to the root -/
theorem delta_beyond {P p w D : ℝ} (hp : 0 < p) (hD : 0 < D) (hw : 0 ≤ w) (h1 : D * p ≤ 2 * P) (h2 : P ≤ 14 / 10 * D * p) (h3 : P * w ≤ 7 / 10 * p ^ 2) :
    D / 2 ≤ delta P p w ∧ delta P p w ≤ 3 * D := by
  have hP : 0 ≤ P := by nlinarith
  have hPw : 0 ≤ P * w := mul_nonneg hP hw
  unfold delta
  rw [show 20 * P * w = 20 * (P * w) by ring, abs_of_nonneg (by nlinarith)]
  have hd := den_pos hp (16 * p ^ 2 - 20 * (P * w))
  constructor
  · rw [le_div_iff₀ hd]
    have : √(16 * p ^ 2 - 20 * (P * w)) ≤ 4 * p := by
      rw [Real.sqrt_le_left (by linarith)]
      nlinarith
    nlinarith
  · rw [div_le_iff₀ hd]
    have : 14 / 10 * p ≤ √(16 * p ^ 2 - 20 * (P * w)) := Real.le_sqrt_of_sq_le (by nlinarith)
    nlinarith

/-! ## Trigonometry -/

theorem le_of_deriv {f f' : ℝ → ℝ} {a b : ℝ} (hab : a ≤ b) (hf : ∀ x, HasDerivAt f (f' x) x) (h : ∀ x, a ≤ x → x ≤ b → 0 ≤ f' x) : f a ≤ f b := by
  have hd : Differentiable ℝ f := fun x => (hf x).differentiableAt
  refine monotoneOn_of_deriv_nonneg (convex_Icc a b) hd.continuous.continuousOn hd.differentiableOn (fun x hx => ?_)
    (Set.left_mem_Icc.mpr hab) (Set.right_mem_Icc.mpr hab) hab
  rw [interior_Icc] at hx
  rw [(hf x).deriv]
  exact h x hx.1.le hx.2.le

/-- the sine lies above its chord from the origin -/
theorem sin_chord {s x : ℝ} (hs : 0 ≤ s) (hsx : s ≤ x) (hx : x ≤ Real.pi) : s * Real.sin x ≤ x * Real.sin s := by
  rcases hs.eq_or_lt with rfl | hs
  · simp
  have hx0 : 0 < x := hs.trans_le hsx
  have h := strictConcaveOn_sin_Icc.concaveOn.2 (Set.left_mem_Icc.mpr Real.pi_pos.le) (Set.mem_Icc.mpr ⟨hx0.le, hx⟩)
    (show 0 ≤ 1 - s / x by rw [sub_nonneg, div_le_one hx0]; exact hsx) (show 0 ≤ s / x by positivity) (by ring)
  simp only [smul_eq_mul, mul_zero, Real.sin_zero, zero_add, div_mul_cancel₀ _ hx0.ne'] at h
  have := mul_le_mul_of_nonneg_left h hx0.le
  rwa [← mul_assoc, mul_div_cancel₀ _ hx0.ne'] at this

/-- slope at the upper end: upper bound of the rise -/
theorem trig_above {s x : ℝ} (hs : 0 ≤ s) (hsx : s ≤ x) (hx0 : 0 < x) (hx : x ≤ Real.pi) :
    (x - s) * Real.cos x + Real.sin x * (x - s) ^ 2 * (2 * x + s) / (6 * x) ≤ Real.sin x - Real.sin s := by
  -- derivative in s
  have key : ∀ t, 0 ≤ t → t ≤ x → 0 ≤ Real.cos t - Real.cos x - Real.sin x * (x ^ 2 - t ^ 2) / (2 * x) := by
    intro t ht htx
    have := le_of_deriv (f := fun t => -(Real.cos t - Real.cos x - Real.sin x * (x ^ 2 - t ^ 2) / (2 * x)))
      (f' := fun t => Real.sin t - Real.sin x * t / x) htx
      (fun y => by
        have h1 := ((Real.hasDerivAt_cos y).sub_const (Real.cos x)).sub
          (((((hasDerivAt_pow 2 y).const_sub (x ^ 2)).const_mul (Real.sin x))).div_const (2 * x))
        refine h1.neg.congr_deriv ?_
        field_simp
        simp
        ring)
      (fun y hy hyx => by
        have := sin_chord (ht.trans hy) hyx hx
        rw [sub_nonneg, div_le_iff₀ hx0]
        linarith)
    simp at this
    linarith
  have := le_of_deriv (f := fun t => -(Real.sin x - Real.sin t - (x - t) * Real.cos x - Real.sin x * (x - t) ^ 2 * (2 * x + t) / (6 * x)))
      (f' := fun t => Real.cos t - Real.cos x - Real.sin x * (x ^ 2 - t ^ 2) / (2 * x)) hsx
      (fun y => by
        have h1 := (((Real.hasDerivAt_sin y).const_sub (Real.sin x)).sub (((hasDerivAt_id y).const_sub x).mul_const (Real.cos x))).sub
          ((((((hasDerivAt_id y).const_sub x).pow 2).const_mul (Real.sin x)).mul ((hasDerivAt_id y).const_add (2 * x))).div_const (6 * x))
        refine h1.neg.congr_deriv ?_
        simp
        field_simp
        ring)
      (fun y hy hyx => key y (hs.trans hy) hyx)
  simp at this
  linarith

theorem two_add_cos {x : ℝ} (h0 : 0 ≤ x) (h1 : x ≤ Real.pi) : 3 * Real.sin x ≤ x * (2 + Real.cos x) := by
  have k1 : ∀ t, 0 ≤ t → t ≤ Real.pi → t * Real.cos t ≤ Real.sin t := by
    intro t h0 h1
    have := le_of_deriv (f := fun t => Real.sin t - t * Real.cos t) (f' := fun t => t * Real.sin t) h0
      (fun y => by
        refine ((Real.hasDerivAt_sin y).sub ((hasDerivAt_id y).mul (Real.hasDerivAt_cos y))).congr_deriv ?_
        simp)
      (fun y hy hy1 => mul_nonneg hy (Real.sin_nonneg_of_nonneg_of_le_pi hy (hy1.trans h1)))
    simp at this
    linarith
  have k2 : ∀ t, 0 ≤ t → t ≤ Real.pi → 0 ≤ 2 - 2 * Real.cos t - t * Real.sin t := by
    intro t h0 h1
    have := le_of_deriv (f := fun t => 2 - 2 * Real.cos t - t * Real.sin t) (f' := fun t => Real.sin t - t * Real.cos t) h0
      (fun y => by
        refine ((((Real.hasDerivAt_cos y).const_mul 2).const_sub 2).sub ((hasDerivAt_id y).mul (Real.hasDerivAt_sin y))).congr_deriv ?_
        simp
        ring)
      (fun y hy hy1 => sub_nonneg.mpr (k1 y hy (hy1.trans h1)))
    simpa using this
  have := le_of_deriv (f := fun t => t * (2 + Real.cos t) - 3 * Real.sin t) (f' := fun t => 2 - 2 * Real.cos t - t * Real.sin t) h0
    (fun y => by
      refine (((hasDerivAt_id y).mul ((Real.hasDerivAt_cos y).const_add 2)).sub ((Real.hasDerivAt_sin y).const_mul 3)).congr_deriv ?_
      simp
      ring)
    (fun y hy hy1 => k2 y hy (hy1.trans h1))
  simp at this
  linarith

theorem one_sub_cos (x : ℝ) : 1 - Real.cos x = 2 * Real.sin (x / 2) ^ 2 := by
  have h1 := Real.cos_two_mul (x / 2)
  rw [mul_div_cancel₀ _ (two_ne_zero)] at h1
  have := Real.sin_sq_add_cos_sq (x / 2)
  linarith

theorem mul_sin_le {x : ℝ} (h0 : 0 ≤ x) (h1 : x ≤ Real.pi) : x * Real.sin x ≤ 2 * (1 - Real.cos x) := by
  have h2 : Real.sin x = 2 * Real.sin (x / 2) * Real.cos (x / 2) := by rw [← Real.sin_two_mul]; ring_nf
  have h3 := one_sub_cos x
  have hs : 0 ≤ Real.sin (x / 2) := Real.sin_nonneg_of_nonneg_of_le_pi (by linarith) (by linarith)
  have h4 : x / 2 * Real.cos (x / 2) ≤ Real.sin (x / 2) := by
    rcases h1.eq_or_lt with rfl | h1
    · simp
    · have hc : 0 < Real.cos (x / 2) := Real.cos_pos_of_mem_Ioo ⟨by linarith, by linarith⟩
      have := Real.le_tan (show 0 ≤ x / 2 by linarith) (by linarith)
      rwa [Real.tan_eq_sin_div_cos, le_div_iff₀ hc] at this
  rw [h2, h3]
  nlinarith

/-- slope at the upper end: lower bound of the rise, on the parabola -/
theorem trig_third {s x : ℝ} (hs : 0 ≤ s) (hsx : s ≤ x) (hx : x ≤ Real.pi) :
    (x - s) * (1 - Real.cos x) ≤ 3 * ((x - s) - (Real.sin x - Real.sin s)) := by
  rcases (hs.trans hsx).eq_or_lt with h | hx0
  · have : s = 0 := by linarith
    subst this; subst h; simp
  have h1 := sin_chord hs hsx hx
  have h2 := two_add_cos hx0.le hx
  -- sin s ≥ s sin x / x
  have h3 : x * ((x - s) * (1 - Real.cos x)) ≤ x * (3 * ((x - s) - (Real.sin x - Real.sin s))) := by
    nlinarith [mul_le_mul_of_nonneg_left h2 (sub_nonneg.mpr hsx)]
  exact le_of_mul_le_mul_left h3 hx0

/-- the slope grows at most with the square -/
theorem trig_square {x t : ℝ} (h0 : 0 ≤ x) (hxt : x ≤ t) (ht : t ≤ Real.pi) : x ^ 2 * (1 - Real.cos t) ≤ t ^ 2 * (1 - Real.cos x) := by
  have h2 := one_sub_cos
  have h3 := sin_chord (s := x / 2) (x := t / 2) (by linarith) (by linarith) (by linarith [Real.pi_pos])
  have h4 : 0 ≤ Real.sin (t / 2) := Real.sin_nonneg_of_nonneg_of_le_pi (by linarith) (by linarith [Real.pi_pos])
  have h5 := pow_le_pow_left₀ (mul_nonneg (by linarith) h4) h3 2
  rw [h2, h2]
  nlinarith

/-- rise below the root -/
theorem trig_below {x s : ℝ} (h0 : 0 < x) (hxs : x ≤ s) (hs : s ≤ Real.pi) (h : 13 * s ≤ 30 * x) :
    (s - x) - (Real.sin s - Real.sin x) ≤ 3 * (s - x) * (1 - Real.cos x) := by
  have h1 := le_of_deriv (f := fun t => (1 - Real.cos x) * t ^ 3 / (3 * x ^ 2) - t + Real.sin t)
    (f' := fun t => (1 - Real.cos x) * t ^ 2 / x ^ 2 - 1 + Real.cos t) hxs
    (fun y => by
      refine (((((hasDerivAt_pow 3 y).const_mul (1 - Real.cos x)).div_const (3 * x ^ 2)).sub (hasDerivAt_id y)).add (Real.hasDerivAt_sin y)).congr_deriv ?_
      field_simp
      norm_num
      ring)
    (fun y hy hys => by
      have := trig_square h0.le hy (hys.trans hs)
      have h2 : 1 - Real.cos y ≤ (1 - Real.cos x) * y ^ 2 / x ^ 2 := by
        rw [le_div_iff₀ (by positivity)]; linarith
      linarith)
  have hc : 0 ≤ 1 - Real.cos x := sub_nonneg.mpr (Real.cos_le_one x)
  have h2 : (1 - Real.cos x) * s ^ 3 / (3 * x ^ 2) - (1 - Real.cos x) * x ^ 3 / (3 * x ^ 2) ≤ 3 * (s - x) * (1 - Real.cos x) := by
    rw [← sub_div, div_le_iff₀ (by positivity)]
    have h3 : s ^ 2 + s * x + x ^ 2 ≤ 9 * x ^ 2 := by nlinarith
    have h4 := mul_le_mul_of_nonneg_left h3 (mul_nonneg hc (sub_nonneg.mpr hxs))
    nlinarith
  linarith

theorem sin_concave {x s : ℝ} (h0 : 0 ≤ x) (hxs : x ≤ s) (hs : s ≤ Real.pi) : Real.sin s - Real.sin x ≤ (s - x) * Real.cos x := by
  have h1 := le_of_deriv (f := fun t => t * Real.cos x - Real.sin t) (f' := fun t => Real.cos x - Real.cos t) hxs
    (fun y => by
      refine (((hasDerivAt_id y).mul_const (Real.cos x)).sub (Real.hasDerivAt_sin y)).congr_deriv ?_
      simp)
    (fun y hy hys => sub_nonneg.mpr (Real.cos_le_cos_of_nonneg_of_le_pi h0 (hys.trans hs) hy))
  linarith

theorem sin_second {x s : ℝ} (h0 : 0 ≤ x) (hxs : x ≤ s) (hs : s ≤ Real.pi / 2) :
    Real.sin s - Real.sin x ≤ (s - x) * Real.cos x - Real.sin x * (s - x) ^ 2 / 2 := by
  have k : ∀ t, x ≤ t → t ≤ s → Real.cos t ≤ Real.cos x - Real.sin x * (t - x) := by
    intro t h1 h2
    have := le_of_deriv (f := fun t => -Real.sin x * t - Real.cos t) (f' := fun t => -Real.sin x + Real.sin t) h1
      (fun y => by
        refine (((hasDerivAt_id y).const_mul (-Real.sin x)).sub (Real.hasDerivAt_cos y)).congr_deriv ?_
        simp)
      (fun y hy hys => by
        have := Real.sin_le_sin_of_le_of_le_pi_div_two (by linarith [Real.pi_pos]) (show y ≤ Real.pi / 2 by linarith) hy
        linarith)
    linarith
  have h1 := le_of_deriv (f := fun t => (t - x) * Real.cos x - Real.sin x * (t - x) ^ 2 / 2 - Real.sin t)
    (f' := fun t => Real.cos x - Real.sin x * (t - x) - Real.cos t) hxs
    (fun y => by
      refine (((((hasDerivAt_id y).sub_const x).mul_const (Real.cos x)).sub (((((hasDerivAt_id y).sub_const x).pow 2).const_mul (Real.sin x)).div_const 2)).sub
        (Real.hasDerivAt_sin y)).congr_deriv ?_
      simp
      ring)
    (fun y hy hys => by linarith [k y hy hys])
  simp at h1
  linarith

/-- the cubic is steeper than `t - sin t` -/
theorem sub_sin_le {x s : ℝ} (h : x ≤ s) : (s - Real.sin s) - (x - Real.sin x) ≤ (s ^ 3 - x ^ 3) / 6 := by
  have h1 := le_of_deriv (f := fun t => t ^ 3 / 6 - t + Real.sin t) (f' := fun t => t ^ 2 / 2 - 1 + Real.cos t) h
    (fun y => by
      refine ((((hasDerivAt_pow 3 y).div_const 6).sub (hasDerivAt_id y)).add (Real.hasDerivAt_sin y)).congr_deriv ?_
      simp
      ring)
    (fun y hy hys => by linarith [Real.one_sub_sq_div_two_le_cos (x := y)])
  linarith

/-- lower bound of `1 - cos` -/
theorem one_sub_cos_ge {y b : ℝ} (h0 : 0 ≤ y) (hy : y ≤ 2) (hb : b = 1 - y ^ 2 / 24) : y ^ 2 * b ^ 2 / 2 ≤ 1 - Real.cos y := by
  have h3 := one_sub_cos y
  rcases h0.eq_or_lt with rfl | h0
  · simp
  have h4 := (Real.sin_gt_sub_cube (x := y / 2) (by linarith)).le
  have h5 : 0 ≤ y / 2 - (y / 2) ^ 3 / 6 := by nlinarith
  have h6 := pow_le_pow_left₀ h5 h4 2
  have h7 : y / 2 - (y / 2) ^ 3 / 6 = y / 2 * b := by rw [hb]; ring
  rw [h7] at h6
  rw [h3]
  nlinarith

/-- the curvature for small arguments -/
theorem mul_sin_ge {y : ℝ} (h0 : 0 ≤ y) (hy : y ≤ 86 / 100) : 13 * (1 - Real.cos y) ≤ 7 * (y * Real.sin y) := by
  have h2 : Real.sin y = 2 * Real.sin (y / 2) * Real.cos (y / 2) := by rw [← Real.sin_two_mul]; ring_nf
  have h3 := one_sub_cos y
  obtain ⟨t, rfl⟩ : ∃ t, y = 2 * t := ⟨y / 2, by ring⟩
  rw [show 2 * t / 2 = t by ring] at h2 h3
  have hs : 0 ≤ Real.sin t := Real.sin_nonneg_of_nonneg_of_le_pi (by linarith) (by linarith [Real.pi_gt_three])
  have h4 : 13 * Real.sin t ≤ 14 * (t * Real.cos t) := by
    have ht : 0 ≤ t := by linarith
    have h5 := Real.one_sub_sq_div_two_le_cos (x := t)
    have h6 := (abs_le.mp (Real.sin_bound (x := t) (by rw [abs_of_nonneg ht]; linarith))).2
    rw [abs_of_nonneg ht] at h6
    have h7 : t * (1 - t ^ 2 / 2) ≤ t * Real.cos t := mul_le_mul_of_nonneg_left h5 ht
    have h8 : 13 * (t - t ^ 3 / 6 + t ^ 5 / 100) ≤ 14 * (t * (1 - t ^ 2 / 2)) := by
      have h9 : t ≤ 43 / 100 := by linarith
      have h10 : t ^ 2 ≤ (43 / 100) ^ 2 := pow_le_pow_left₀ ht h9 2
      have h11 : t ^ 3 ≤ (43 / 100) ^ 3 := pow_le_pow_left₀ ht h9 3
      nlinarith
    linarith
  rw [h2, h3]
  nlinarith

end Pyorb.Lag
