import Verif.PropsConvergeAll

/-!
# Laguerre's method for Kepler's equation contracts for eccentricities up to 0.7

Around the root, up to a distance of 0.71, one step at least halves the distance.
-/

namespace Pyorb.Lag

theorem cos_quad (x a : ℝ) : |Real.cos (x + a) - Real.cos x + a * Real.sin x| ≤ a ^ 2 / 2 := by
  have h := sin_quad (x + Real.pi / 2) a
  rw [show x + Real.pi / 2 + a = x + a + Real.pi / 2 by ring, Real.sin_add_pi_div_two, Real.sin_add_pi_div_two, Real.cos_add_pi_div_two] at h
  rw [show Real.cos (x + a) - Real.cos x + a * Real.sin x = Real.cos (x + a) - Real.cos x - a * -Real.sin x by ring]
  exact h

theorem sin_cubic_up (x : ℝ) {a : ℝ} (ha : 0 ≤ a) : Real.sin (x + a) - Real.sin x - a * Real.cos x + a ^ 2 / 2 * Real.sin x ≤ a ^ 3 / 6 := by
  have h1 := le_of_deriv (f := fun t => t ^ 3 / 6 - (Real.sin (x + t) - Real.sin x - t * Real.cos x + t ^ 2 / 2 * Real.sin x))
    (f' := fun t => t ^ 2 / 2 - (Real.cos (x + t) - Real.cos x + t * Real.sin x)) ha
    (fun y => by
      have e1 : HasDerivAt (fun t => Real.sin (x + t)) (Real.cos (x + y)) y := by
        have := (Real.hasDerivAt_sin (x + y)).comp y ((hasDerivAt_id y).const_add x)
        rw [mul_one] at this
        exact this
      refine ((((hasDerivAt_id y).pow 3).div_const 6).sub (((e1.sub_const (Real.sin x)).sub ((hasDerivAt_id y).mul_const (Real.cos x))).add
        ((((hasDerivAt_id y).pow 2).div_const 2).mul_const (Real.sin x)))).congr_deriv ?_
      simp
      ring)
    (fun y hy _ => by
      have h2 := (abs_le.mp (cos_quad x y)).2
      linarith)
  simp at h1
  linarith

theorem sin_cubic (x a : ℝ) : |Real.sin (x + a) - Real.sin x - a * Real.cos x + a ^ 2 / 2 * Real.sin x| ≤ |a| ^ 3 / 6 := by
  rcases le_total 0 a with h | h
  · rw [abs_of_nonneg h]
    refine abs_le.mpr ⟨?_, sin_cubic_up x h⟩
    have := sin_cubic_up (x + Real.pi) h
    rw [show x + Real.pi + a = x + a + Real.pi by ring, Real.sin_add_pi, Real.sin_add_pi, Real.cos_add_pi] at this
    linarith
  · have h1 := sin_cubic_up (-x) (neg_nonneg.mpr h)
    have h2 := sin_cubic_up (-x + Real.pi) (neg_nonneg.mpr h)
    rw [show -x + Real.pi + -a = -(x + a) + Real.pi by ring, Real.sin_add_pi, Real.sin_add_pi, Real.cos_add_pi] at h2
    rw [show -x + -a = -(x + a) by ring] at h1
    simp only [Real.sin_neg, Real.cos_neg] at h1 h2
    rw [abs_of_nonpos h]
    refine abs_le.mpr ⟨?_, ?_⟩ <;> nlinarith

/-- the step in units of the distance -/
theorem contract_core {t y : ℝ} (ht : |t - 1 + y / 2| ≤ 197 / 1000) (hy : |y| ≤ 697 / 1000) :
    4 ≤ 16 - 20 * t * y ∧ 1 + √(16 - 20 * t * y) ≤ 10 * t ∧ 10 * t ≤ 3 * (1 + √(16 - 20 * t * y)) := by
  rw [abs_le] at ht hy
  have ht0 : 454 / 1000 ≤ t := by linarith
  have h1 : 4 ≤ 16 - 20 * t * y := by
    rcases le_total y 0 with h | h
    · nlinarith
    · have : t * y ≤ (1197 / 1000 - y / 2) * y := mul_le_mul_of_nonneg_right (by linarith) h
      nlinarith
  refine ⟨h1, ?_, ?_⟩
  · have : √(16 - 20 * t * y) ≤ 10 * t - 1 := by
      rw [Real.sqrt_le_left (by linarith)]
      have : t * (2 * (1 - t) - 394 / 1000) ≤ t * y := mul_le_mul_of_nonneg_left (by linarith) (by linarith)
      nlinarith
    linarith
  · have : (10 * t - 3) / 3 ≤ √(16 - 20 * t * y) := by
      refine Real.le_sqrt_of_sq_le ?_
      have : t * y ≤ t * (2 * (1 - t) + 394 / 1000) := mul_le_mul_of_nonneg_left (by linarith) (by linarith)
      nlinarith [sq_nonneg (t - 713 / 1000)]
    linarith

theorem slope_ge {e : ℝ} (h0 : 0 ≤ e) (h7 : e ≤ 7 / 10) (x : ℝ) : 3 / 10 ≤ slope e x ∧ slope e x ≤ 17 / 10 := by
  have h1 := Real.cos_le_one x
  have h2 := Real.neg_one_le_cos x
  unfold slope
  constructor <;> nlinarith

theorem curv_le {e : ℝ} (h0 : 0 ≤ e) (h7 : e ≤ 7 / 10) (x : ℝ) : |e * Real.sin x| ≤ 981 / 1000 * slope e x := by
  obtain ⟨h1, -⟩ := slope_ge h0 h7 x
  refine abs_le_of_sq_le_sq ?_ (by linarith)
  have h2 := Real.sin_sq_add_cos_sq x
  have h3 : (1 - e ^ 2) * (e * Real.sin x) ^ 2 ≤ e ^ 2 * slope e x ^ 2 := by
    unfold slope
    have : (1 - e ^ 2) * (e * Real.sin x) ^ 2 = e ^ 2 * ((1 - e ^ 2) * (1 - Real.cos x ^ 2)) := by rw [← h2]; ring
    rw [this]
    refine mul_le_mul_of_nonneg_left ?_ (by positivity)
    nlinarith [sq_nonneg (Real.cos x - e)]
  have h4 : e ^ 2 ≤ 49 / 100 := by nlinarith
  have h5 : 0 ≤ (e * Real.sin x) ^ 2 := by positivity
  have h6 : 0 ≤ slope e x ^ 2 := by positivity
  nlinarith

/-- One step at least halves the distance to the root, for every point up to 0.71 away from it; the expression under the root is well away
from zero. -/
theorem contract {e s x : ℝ} (h0 : 0 ≤ e) (h7 : e ≤ 7 / 10) (hd : |x - s| ≤ 71 / 100) :
    4 * slope e x ^ 2 ≤ 16 * slope e x ^ 2 - 20 * fall e s x * (e * Real.sin x) ∧
      |next e s x - s| ≤ |x - s| / 2 := by
  obtain ⟨hp, -⟩ := slope_ge h0 h7 x
  have hw := curv_le h0 h7 x
  have hp0 : 0 < slope e x := by linarith
  by_cases hz : x = s
  · subst hz
    have : fall e x x = 0 := by unfold fall; ring
    refine ⟨by rw [this]; nlinarith, ?_⟩
    rw [next, this, delta]; simp
  have hdz : x - s ≠ 0 := sub_ne_zero.mpr hz
  have hda : 0 < |x - s| := abs_pos.mpr hdz
  -- the function in units of slope times distance
  obtain ⟨t, ht⟩ : ∃ t, fall e s x = slope e x * (x - s) * t := ⟨fall e s x / (slope e x * (x - s)), by field_simp⟩
  obtain ⟨y, hy⟩ : ∃ y, e * Real.sin x * (x - s) = slope e x * y := ⟨e * Real.sin x * (x - s) / slope e x, by field_simp⟩
  have hy1 : |y| ≤ 697 / 1000 := by
    have : slope e x * |y| = |e * Real.sin x| * |x - s| := by rw [← abs_mul, hy, abs_mul, abs_of_pos hp0]
    have h2 : |e * Real.sin x| * |x - s| ≤ 981 / 1000 * slope e x * (71 / 100) := mul_le_mul hw hd hda.le (by linarith)
    rw [← this] at h2
    have : slope e x * |y| ≤ slope e x * (697 / 1000) := by nlinarith
    exact le_of_mul_le_mul_left this hp0
  have ht1 : |t - 1 + y / 2| ≤ 197 / 1000 := by
    have hc := sin_cubic x (s - x)
    rw [add_sub_cancel, abs_sub_comm s x] at hc
    have e1 : slope e x * (x - s) * (t - 1 + y / 2) = e * (Real.sin s - Real.sin x - (s - x) * Real.cos x + (s - x) ^ 2 / 2 * Real.sin x) := by
      have : slope e x * (x - s) * (t - 1 + y / 2) = slope e x * (x - s) * t - slope e x * (x - s) + (slope e x * y) * (x - s) / 2 := by ring
      rw [this, ← ht, ← hy]
      unfold fall slope
      ring
    have e2 : slope e x * |x - s| * |t - 1 + y / 2| ≤ e * (|x - s| ^ 3 / 6) := by
      have : slope e x * |x - s| * |t - 1 + y / 2| = |slope e x * (x - s) * (t - 1 + y / 2)| := by rw [abs_mul, abs_mul, abs_of_pos hp0]
      rw [this, e1, abs_mul, abs_of_nonneg h0]
      exact mul_le_mul_of_nonneg_left hc h0
    have e3 : slope e x * |t - 1 + y / 2| ≤ e * (|x - s| ^ 2 / 6) := by
      refine le_of_mul_le_mul_left ?_ hda
      calc |x - s| * (slope e x * |t - 1 + y / 2|) = slope e x * |x - s| * |t - 1 + y / 2| := by ring
        _ ≤ e * (|x - s| ^ 3 / 6) := e2
        _ = _ := by ring
    have e4 : e * (|x - s| ^ 2 / 6) ≤ 7 / 10 * ((71 / 100) ^ 2 / 6) :=
      mul_le_mul h7 (by have := pow_le_pow_left₀ hda.le hd 2; linarith) (by positivity) (by norm_num)
    have e5 : 3 / 10 * |t - 1 + y / 2| ≤ slope e x * |t - 1 + y / 2| := mul_le_mul_of_nonneg_right hp (abs_nonneg _)
    linarith
  obtain ⟨c1, c2, c3⟩ := contract_core ht1 hy1
  have hFw : fall e s x * (e * Real.sin x) = slope e x ^ 2 * (t * y) := by
    rw [ht, show slope e x * (x - s) * t * (e * Real.sin x) = slope e x * t * (e * Real.sin x * (x - s)) by ring, hy]; ring
  have hrad : 16 * slope e x ^ 2 - 20 * fall e s x * (e * Real.sin x) = slope e x ^ 2 * (16 - 20 * t * y) := by
    rw [mul_assoc 20, hFw]; ring
  refine ⟨by rw [hrad]; nlinarith [pow_pos hp0 2], ?_⟩
  have hsq : √|16 * slope e x ^ 2 - 20 * fall e s x * (e * Real.sin x)| = slope e x * √(16 - 20 * t * y) := by
    rw [hrad, abs_of_nonneg (mul_nonneg (by positivity) (by linarith)), Real.sqrt_mul (by positivity), Real.sqrt_sq hp0.le]
  have hQ : 0 < 1 + √(16 - 20 * t * y) := by have := Real.sqrt_nonneg (16 - 20 * t * y); linarith
  set Q := √(16 - 20 * t * y) with hQd
  have hdel : delta (fall e s x) (slope e x) (e * Real.sin x) = (x - s) * (5 * t / (1 + Q)) := by
    rw [delta, hsq, ht]
    field_simp
  rw [next, hdel, show x - (x - s) * (5 * t / (1 + Q)) - s = (x - s) * (1 - 5 * t / (1 + Q)) by ring, abs_mul]
  have : |1 - 5 * t / (1 + Q)| ≤ 1 / 2 := by
    rw [abs_le]
    have k1 : 1 / 2 ≤ 5 * t / (1 + Q) := by rw [le_div_iff₀ hQ]; linarith
    have k2 : 5 * t / (1 + Q) ≤ 3 / 2 := by rw [div_le_iff₀ hQ]; linarith
    constructor <;> linarith
  have := mul_le_mul_of_nonneg_left this hda.le
  linarith

end Pyorb.Lag
