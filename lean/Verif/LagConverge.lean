import Verif.LagReal
import Mathlib.Logic.Function.Iterate

/-!
# Convergence of Laguerre's method for Kepler's equation, from a point above the root
-/

namespace Pyorb.Lag

/-- slope of Kepler's function -/
noncomputable def slope (e x : ℝ) : ℝ := 1 - e * Real.cos x

/-- Kepler's function minus its value at `s` -/
noncomputable def fall (e s x : ℝ) : ℝ := (x - s) - e * (Real.sin x - Real.sin s)

/-- one Laguerre step of degree 5 for the root `s` -/
noncomputable def next (e s x : ℝ) : ℝ := x - delta (fall e s x) (slope e x) (e * Real.sin x)

theorem slope_pos {e : ℝ} (h0 : 0 ≤ e) (h1 : e < 1) (x : ℝ) : 0 < slope e x := by
  have := Real.cos_le_one x
  unfold slope
  nlinarith

theorem slope_eq (e x : ℝ) : slope e x = (1 - e) + e * (1 - Real.cos x) := by unfold slope; ring

/-- above the root -/
theorem fall_above {e s x : ℝ} (h0 : 0 ≤ e) (h1 : e < 1) (hs : 0 ≤ s) (hsx : s < x) (hx : x ≤ Real.pi) :
    (x - s) * slope e x ≤ 3 * fall e s x ∧
      fall e s x ≤ (x - s) * (slope e x - e * Real.sin x * (x - s) * (2 * x + s) / (6 * x)) := by
  have hx0 : 0 < x := by linarith
  constructor
  · have := trig_third hs hsx.le hx
    unfold slope fall
    nlinarith
  · have := mul_le_mul_of_nonneg_left (trig_above hs hsx.le hx0 hx) h0
    unfold slope fall
    have e1 : e * Real.sin x * (x - s) * (2 * x + s) / (6 * x) * (x - s) = e * (Real.sin x * (x - s) ^ 2 * (2 * x + s) / (6 * x)) := by ring
    nlinarith

theorem fall_third {e s x : ℝ} (h0 : 0 ≤ e) (hs : 0 ≤ s) (hsx : s < x) (hx : x ≤ Real.pi)
    (h : fall e s x ≤ (x - s) * (slope e x - e * Real.sin x * (x - s) * (2 * x + s) / (6 * x))) :
    fall e s x ≤ (x - s) * (slope e x - e * Real.sin x * (x - s) / 3) := by
  refine h.trans (mul_le_mul_of_nonneg_left ?_ (by linarith))
  have hx0 : 0 < x := by linarith
  have hsin : 0 ≤ Real.sin x := Real.sin_nonneg_of_nonneg_of_le_pi hx0.le hx
  have hw : 0 ≤ e * Real.sin x * (x - s) := mul_nonneg (mul_nonneg h0 hsin) (by linarith)
  have : e * Real.sin x * (x - s) / 3 ≤ e * Real.sin x * (x - s) * (2 * x + s) / (6 * x) := by
    rw [div_le_div_iff₀ (by norm_num) (by positivity)]
    nlinarith
  linarith

theorem next_above {e s x : ℝ} (h0 : 0 ≤ e) (h1 : e < 1) (hs : 0 ≤ s) (hsx : s < x) (hx : x ≤ Real.pi) :
    s - (x - s) / 3 ≤ next e s x ∧ next e s x ≤ s + 2 / 3 * (x - s) := by
  obtain ⟨h2, h3⟩ := fall_above h0 h1 hs hsx hx
  have hsin : 0 ≤ Real.sin x := Real.sin_nonneg_of_nonneg_of_le_pi (by linarith) hx
  obtain ⟨h4, h5⟩ := delta_upper (slope_pos h0 h1 x) (sub_pos.mpr hsx) (mul_nonneg h0 hsin) h2 (fall_third h0 hs hsx hx h3)
  unfold next
  constructor <;> linarith

/-- polynomial bound of an undershoot -/
theorem undershoot_poly {E c : ℝ} (hE : 0 < E) (hc : 0 ≤ c) (hc1 : c ≤ 12 * E) :
    22 / 10 * c ^ 3 * (12 * E - c) ^ 2 ≤ 9 * E * ((E + c) * (3 * E + c)) ^ 2 := by
  have h1 : c * (12 * E - c) * (c + 289 / 100 * E) ≤ 687 / 100 * (E * ((E + c) * (3 * E + c))) := by
    have : 0 ≤ (c - 246 / 100 * E) ^ 2 * (c + 268 / 100 * E) := by positivity
    nlinarith [mul_nonneg hc (sq_nonneg E), mul_nonneg hc hE.le, pow_pos hE 3, mul_nonneg (mul_nonneg hc hc) hE.le]
  have h2 : 0 ≤ c * (12 * E - c) * (c + 289 / 100 * E) := mul_nonneg (mul_nonneg hc (by linarith)) (by linarith)
  have h3 := pow_le_pow_left₀ h2 h1 2
  have h4 : 4 * (289 / 100) * (E * c) ≤ (c + 289 / 100 * E) ^ 2 := by nlinarith [sq_nonneg (c - 289 / 100 * E)]
  have h5 := mul_le_mul_of_nonneg_left h4 (sq_nonneg (c * (12 * E - c)))
  have h6 : E * (22 / 10 * c ^ 3 * (12 * E - c) ^ 2) ≤ E * (9 * E * ((E + c) * (3 * E + c)) ^ 2) := by nlinarith
  exact le_of_mul_le_mul_left h6 hE

/-- the algebra of an undershoot -/
theorem undershoot_alg {E c p Y b y d u w g F r : ℝ} (hE : 0 < E) (hc0 : 0 ≤ c) (hpc : p = E + c) (hY0 : 0 ≤ Y) (hY1 : 13 * c ≤ 7 * Y) (hY2 : Y ≤ 2 * c)
    (hb0 : 0 ≤ b) (hb1 : b < 10 / 27) (hy0 : 0 < y) (hd' : d = (1 - b) * y) (hd0 : 0 < d) (hw : 0 ≤ w) (hu : w * d = u) (hu' : u = (1 - b) * Y)
    (hg : g = p - (2 + b) / 6 * u) (hg0 : 0 ≤ g) (hF0 : 0 ≤ F) (hFg : F ≤ d * g) (hr0 : 0 < r) (hr : d + r = delta F p w) :
    c < 12 * E ∧ r * (3 * (E + c) * (3 * E + c)) ≤ y * c * (12 * E - c) := by
  have hp0 : 0 < p := by rw [hpc]; linarith
  have hu0 : 0 ≤ u := by rw [← hu]; positivity
  have hR := radicand (p := p) (g := g) (u := u) hg0 (by rw [hg]; nlinarith)
  have hRe : 16 * p ^ 2 - 20 * (d * g) * (w) = 16 * p ^ 2 - 20 * g * u := by rw [← hu]; ring
  have hmono := delta_mono hp0 hw hF0 hFg (by rw [hRe]; nlinarith)
  set q := √(16 * p ^ 2 - 20 * g * u) with hq
  have hq2 : q ^ 2 = 16 * p ^ 2 - 20 * g * u := Real.sq_sqrt (by nlinarith)
  have hqp : p ≤ q := Real.le_sqrt_of_sq_le hR
  have hrd : (d + r) * (p + q) ≤ 5 * (d * g) := by
    have h5 : delta (d * g) p (w) = 5 * (d * g) / (p + q) := by
      unfold delta
      rw [hRe, abs_of_nonneg (by nlinarith)]
    rw [hr]
    rw [h5] at hmono
    rwa [le_div_iff₀ (by linarith)] at hmono
  have hr1 : r * (p + q) ≤ d * (5 * g - p - q) := by linarith
  have hpos : 0 < 5 * g - p - q := by
    by_contra hneg
    have h4 : d * (5 * g - p - q) ≤ 0 := mul_nonpos_of_nonneg_of_nonpos hd0.le (not_lt.mp hneg)
    have h5 : 0 < r * (p + q) := mul_pos hr0 (by linarith)
    linarith
  have hprod : r * ((p + q) * (5 * g - p + q)) ≤ d * (5 / 9 * (1 - b) * u * (12 * p - 7 * Y)) := by
    have h4 : r * ((p + q) * (5 * g - p + q)) ≤ d * ((5 * g - p) ^ 2 - q ^ 2) := by
      have := mul_le_mul_of_nonneg_right hr1 (show 0 ≤ 5 * g - p + q by linarith)
      linarith
    refine h4.trans (mul_le_mul_of_nonneg_left ?_ hd0.le)
    rw [hq2]
    have h5 : (5 * g - p) ^ 2 - (16 * p ^ 2 - 20 * g * u) = 5 / 36 * (1 - b) * u * (48 * p - (28 + 4 * b - 5 * b ^ 2) * Y) := by
      rw [hg, hu']; ring
    rw [h5]
    have h6 : 0 ≤ (1 - b) * u := mul_nonneg (by linarith) hu0
    have h7 : 0 ≤ b * (4 - 5 * b) * Y := mul_nonneg (mul_nonneg hb0 (by linarith)) hY0
    have h8 := mul_le_mul_of_nonneg_left (show 48 * p - (28 + 4 * b - 5 * b ^ 2) * Y ≤ 48 * p - 28 * Y by linarith) h6
    linarith
  have h12 : 0 < 12 * p - 7 * Y := by
    by_contra hneg
    have h4 : d * (5 / 9 * (1 - b) * u * (12 * p - 7 * Y)) ≤ 0 :=
      mul_nonpos_of_nonneg_of_nonpos hd0.le (mul_nonpos_of_nonneg_of_nonpos (mul_nonneg (by linarith) hu0) (not_lt.mp hneg))
    have h5 : 0 < r * ((p + q) * (5 * g - p + q)) := mul_pos hr0 (mul_pos (by linarith) (by linarith))
    linarith
  have hc12 : c < 12 * E := by rw [hpc] at h12; linarith
  have hgY : p - Y / 3 ≤ g := by
    rw [hg, hu']
    nlinarith [mul_nonneg hb0 hY0, mul_nonneg (mul_nonneg hb0 hb0) hY0]
  have hr2 : r * (3 * (E + c) * (3 * E + c)) ≤ y * c * (12 * E - c) := by
    have h4 : (2 * p) * (5 * (p - Y / 3)) ≤ (p + q) * (5 * g - p + q) := by
      have : 0 ≤ p - Y / 3 := by rw [hpc]; linarith
      exact mul_le_mul (by linarith) (by linarith) (by linarith) (by linarith)
    have h5 := (mul_le_mul_of_nonneg_left h4 hr0.le).trans hprod
    have h6 : d * (5 / 9 * (1 - b) * u * (12 * p - 7 * Y)) ≤ 5 / 9 * (y * (2 * c) * (12 * E - c)) := by
      have e1 : d * (5 / 9 * (1 - b) * u * (12 * p - 7 * Y)) = 5 / 9 * ((1 - b) ^ 3 * (y * Y * (12 * p - 7 * Y))) := by
        rw [hd', hu']; ring
      rw [e1]
      have h7 : (1 - b) ^ 3 ≤ 1 := pow_le_one₀ (by linarith) (by linarith)
      have h8 : 0 ≤ y * Y * (12 * p - 7 * Y) := mul_nonneg (mul_nonneg hy0.le hY0) h12.le
      have h9 : y * Y * (12 * p - 7 * Y) ≤ y * (2 * c) * (12 * E - c) := by
        refine mul_le_mul (mul_le_mul_of_nonneg_left hY2 hy0.le) ?_ h12.le (by positivity)
        rw [hpc]; linarith
      have h10 := mul_le_of_le_one_left h8 h7
      linarith
    have h10 : 2 * (E + c) * (5 / 3 * (3 * E + c)) ≤ 2 * p * (5 * (p - Y / 3)) := by
      rw [← hpc]
      have : 5 / 3 * (3 * E + c) ≤ 5 * (p - Y / 3) := by rw [hpc]; linarith
      exact mul_le_mul_of_nonneg_left this (by linarith)
    have h11 := mul_le_mul_of_nonneg_left h10 hr0.le
    linarith
  exact ⟨hc12, hr2⟩

/-- a step from above that ends below the root -/
theorem undershoot {e s y : ℝ} (h0 : 0 ≤ e) (h1 : e < 1) (hs : 0 ≤ s) (hsy : 27 * s < 10 * y) (hy : y ≤ 86 / 100) (hn : next e s y < s) :
    e * s ^ 2 ≤ 4 * (1 - e) ∧ e * (s - next e s y) ^ 2 ≤ 1 - e := by
  have hpi := Real.pi_gt_three
  have hy0 : 0 < y := by linarith
  have hsy' : s < y := by linarith
  obtain ⟨h2, h3⟩ := fall_above h0 h1 hs hsy' (by linarith)
  have hE : 0 < 1 - e := by linarith
  set E := 1 - e with hEdef
  set c := e * (1 - Real.cos y) with hc
  set p := slope e y with hp
  have hpc : p = E + c := slope_eq e y
  have hp0 : 0 < p := slope_pos h0 h1 y
  have hc0 : 0 ≤ c := mul_nonneg h0 (sub_nonneg.mpr (Real.cos_le_one y))
  have hsin : 0 ≤ Real.sin y := Real.sin_nonneg_of_nonneg_of_le_pi hy0.le (by linarith)
  set Y := e * (y * Real.sin y) with hY
  have hY0 : 0 ≤ Y := by positivity
  have hY1 : 13 * c ≤ 7 * Y := by
    have := mul_le_mul_of_nonneg_left (mul_sin_ge hy0.le hy) h0
    rw [hc, hY]; linarith
  have hY2 : Y ≤ 2 * c := by
    have := mul_le_mul_of_nonneg_left (mul_sin_le hy0.le (by linarith)) h0
    rw [hc, hY]; linarith
  have hyc : e * y ^ 2 ≤ 22 / 10 * c := by
    have h4 := one_sub_cos_ge hy0.le (by linarith) rfl
    have h5 : 10 / 22 * y ^ 2 ≤ 1 - Real.cos y := by
      refine le_trans ?_ h4
      have h6 : y ^ 2 ≤ (86 / 100) ^ 2 := pow_le_pow_left₀ hy0.le hy 2
      have h7 : (96 / 100 : ℝ) ≤ 1 - y ^ 2 / 24 := by nlinarith
      have h8 : (96 / 100 : ℝ) ^ 2 ≤ (1 - y ^ 2 / 24) ^ 2 := pow_le_pow_left₀ (by norm_num) h7 2
      nlinarith [sq_nonneg y]
    have := mul_le_mul_of_nonneg_left h5 h0
    rw [hc]; linarith
  -- the fraction of the root
  obtain ⟨b, rfl⟩ : ∃ b, s = b * y := ⟨s / y, by field_simp⟩
  have hb0 : 0 ≤ b := by
    by_contra hb
    have : b * y < 0 := mul_neg_of_neg_of_pos (not_le.mp hb) hy0
    linarith
  have hb1 : b < 10 / 27 := by
    have : 27 * b * y < 10 * y := by linarith
    have := lt_of_mul_lt_mul_right this hy0.le
    linarith
  set d := y - b * y with hd
  have hd' : d = (1 - b) * y := by rw [hd]; ring
  have hd0 : 0 < d := by rw [hd]; linarith
  set u := e * Real.sin y * d with hu
  have hu' : u = (1 - b) * Y := by rw [hu, hd', hY]; ring
  have hu0 : 0 ≤ u := by positivity
  set g := p - (2 + b) / 6 * u with hg
  have hFg : fall e (b * y) y ≤ d * g := by
    refine h3.trans (le_of_eq ?_)
    rw [hg, hu]
    have : (2 * y + b * y) / (6 * y) = (2 + b) / 6 := by field_simp
    rw [mul_div_assoc, this]
    ring
  have hF0 : 0 ≤ fall e (b * y) y := by
    have := mul_pos hd0 hp0
    linarith
  have hg0 : 0 ≤ g := by
    by_contra hneg
    have := mul_neg_of_pos_of_neg hd0 (not_le.mp hneg)
    have := mul_pos hd0 hp0
    linarith
  obtain ⟨hc12, hr2⟩ := undershoot_alg (r := b * y - next e (b * y) y) hE hc0 hpc hY0 hY1 hY2 hb0 hb1 hy0 hd' hd0 (mul_nonneg h0 hsin) rfl hu' hg hg0 hF0 hFg
    (by linarith) (by rw [hd]; unfold next; ring)
  set r := b * y - next e (b * y) y with hr
  have hr0 : 0 < r := by rw [hr]; linarith
  refine ⟨?_, ?_⟩
  · have h4 : e * (b * y) ^ 2 = b ^ 2 * (e * y ^ 2) := by ring
    have h5 : b ^ 2 ≤ (10 / 27) ^ 2 := pow_le_pow_left₀ hb0 hb1.le 2
    have h6 : 0 ≤ e * y ^ 2 := by positivity
    rw [h4]
    nlinarith
  · have hA : 0 < (E + c) * (3 * E + c) := by positivity
    have h4 := pow_le_pow_left₀ (by positivity) hr2 2
    have h5 := undershoot_poly hE hc0 hc12.le
    have h6 : 9 * ((E + c) * (3 * E + c)) ^ 2 * (e * r ^ 2) ≤ 9 * ((E + c) * (3 * E + c)) ^ 2 * E := by
      have h7 : e * (y * c * (12 * E - c)) ^ 2 ≤ 22 / 10 * c ^ 3 * (12 * E - c) ^ 2 := by
        have := mul_le_mul_of_nonneg_right hyc (show 0 ≤ (c * (12 * E - c)) ^ 2 by positivity)
        calc e * (y * c * (12 * E - c)) ^ 2 = e * y ^ 2 * (c * (12 * E - c)) ^ 2 := by ring
          _ ≤ 22 / 10 * c * (c * (12 * E - c)) ^ 2 := this
          _ = _ := by ring
      have h8 := mul_le_mul_of_nonneg_left h4 h0
      calc 9 * ((E + c) * (3 * E + c)) ^ 2 * (e * r ^ 2) = e * (r * (3 * (E + c) * (3 * E + c))) ^ 2 := by ring
        _ ≤ _ := h8.trans (h7.trans h5)
        _ = _ := by ring
    exact le_of_mul_le_mul_left h6 (by positivity)

/-! ## Below the root -/

theorem fall_neg (e s x : ℝ) : fall e s x = -((s - x) - e * (Real.sin s - Real.sin x)) := by unfold fall; ring

/-- the step from below, where the slope is not too different from that at the root -/
theorem next_below {e s x : ℝ} (h0 : 0 ≤ e) (h1 : e < 1) (hx : 0 ≤ x) (hxs : x < s) (hs : s ≤ Real.pi)
    (h2 : (s - x) - e * (Real.sin s - Real.sin x) ≤ 3 * (s - x) * slope e x) (h3 : e * Real.sin x * (s - x) ≤ 3 * slope e x) :
    x + (s - x) / 2 ≤ next e s x ∧ next e s x ≤ s + 2 * (s - x) := by
  have hsin : 0 ≤ Real.sin x := Real.sin_nonneg_of_nonneg_of_le_pi hx (by linarith)
  have h4 := mul_le_mul_of_nonneg_left (sin_concave hx hxs.le hs) h0
  obtain ⟨h5, h6⟩ := delta_lower (slope_pos h0 h1 x) (sub_pos.mpr hxs) (mul_nonneg h0 hsin)
    (show (s - x) * slope e x ≤ (s - x) - e * (Real.sin s - Real.sin x) by unfold slope; linarith) h2 h3
  rw [next, fall_neg]
  constructor <;> linarith

theorem next_below_wide {e s x : ℝ} (h0 : 0 ≤ e) (h1 : e < 1) (hx : 0 < x) (hxs : x < s) (hs : s ≤ Real.pi) (h : 13 * s ≤ 30 * x) :
    x + (s - x) / 2 ≤ next e s x ∧ next e s x ≤ s + 2 * (s - x) := by
  refine next_below h0 h1 hx.le hxs hs ?_ ?_
  · have h2 := mul_le_mul_of_nonneg_left (trig_below hx hxs.le hs h) h0
    have h3 : 0 ≤ (1 - e) * (s - x) := mul_nonneg (by linarith) (by linarith)
    unfold slope
    nlinarith
  · have h2 := mul_le_mul_of_nonneg_left (mul_sin_le hx.le (hxs.le.trans hs)) h0
    have hsin : 0 ≤ Real.sin x := Real.sin_nonneg_of_nonneg_of_le_pi hx.le (by linarith)
    have h3 : e * Real.sin x * (s - x) ≤ e * Real.sin x * (17 / 13 * x) := mul_le_mul_of_nonneg_left (by linarith) (mul_nonneg h0 hsin)
    have h4 : 0 ≤ e * (1 - Real.cos x) := mul_nonneg h0 (sub_nonneg.mpr (Real.cos_le_one x))
    rw [slope_eq]
    linarith

theorem next_below_tame {e s x : ℝ} (h0 : 0 ≤ e) (h1 : e < 1) (hx : 0 ≤ x) (hxs : x < s) (hs : s ≤ Real.pi) (h : e * s ^ 2 ≤ 4 * (1 - e)) :
    x + (s - x) / 2 ≤ next e s x ∧ next e s x ≤ s + 2 * (s - x) := by
  have hsl : 1 - e ≤ slope e x := by
    have : 0 ≤ e * (1 - Real.cos x) := mul_nonneg h0 (sub_nonneg.mpr (Real.cos_le_one x))
    rw [slope_eq]; linarith
  refine next_below h0 h1 hx hxs hs ?_ ?_
  · have h2 := mul_le_mul_of_nonneg_left (sub_sin_le hxs.le) h0
    have h3 : e * ((s ^ 3 - x ^ 3) / 6) ≤ (s - x) * (2 * (1 - e)) := by
      have h4 : s ^ 2 + s * x + x ^ 2 ≤ 3 * s ^ 2 := by nlinarith
      have h5 := mul_le_mul_of_nonneg_left h4 (mul_nonneg h0 (show 0 ≤ (s - x) / 6 by linarith))
      have h6 := mul_le_mul_of_nonneg_left h (show 0 ≤ (s - x) / 2 by linarith)
      linarith
    have h4 := mul_le_mul_of_nonneg_left hsl (show 0 ≤ 3 * (s - x) by linarith)
    linarith
  · have h2 : e * Real.sin x * (s - x) ≤ e * x * (s - x) :=
      mul_le_mul_of_nonneg_right (mul_le_mul_of_nonneg_left (Real.sin_le hx) h0) (by linarith)
    have h3 : e * x * (s - x) ≤ e * (s ^ 2 / 4) := by
      rw [mul_assoc]
      exact mul_le_mul_of_nonneg_left (by nlinarith [sq_nonneg (s - 2 * x)]) h0
    linarith

/-- the step from the other side of the origin -/
theorem next_beyond {e s x : ℝ} (h0 : 0 ≤ e) (h1 : e < 1) (hs : 0 ≤ s) (hx : x < 0) (hx3 : -(3 / 10) ≤ x) (h : e * (s - x) ^ 2 ≤ 1 - e) :
    x + (s - x) / 2 ≤ next e s x ∧ next e s x ≤ s + 2 * (s - x) := by
  obtain ⟨z, rfl⟩ : ∃ z, x = -z := ⟨-x, by ring⟩
  have hz : 0 < z := by linarith
  have hpi := Real.pi_gt_three
  have hD : 0 < s + z := by linarith
  have hDe : e * (s + z) ^ 2 ≤ 1 - e := by rwa [sub_neg_eq_add] at h
  have hE : 0 < 1 - e := by linarith
  have hsl : slope e (-z) = slope e z := by unfold slope; rw [Real.cos_neg]
  have hsin : 0 ≤ Real.sin z := Real.sin_nonneg_of_nonneg_of_le_pi hz.le (by linarith)
  set P := (s + z) - e * (Real.sin s + Real.sin z) with hP
  have hfall : fall e s (-z) = -P := by rw [fall_neg, Real.sin_neg, hP]; ring
  have hnext : next e s (-z) = -z + delta P (slope e z) (e * Real.sin z) := by
    rw [next, hfall, hsl, Real.sin_neg, show e * -Real.sin z = -(e * Real.sin z) by ring, delta_neg]
    ring
  have h2 : (s + z) * (1 - e) ≤ P := by
    have h3 : Real.sin s + Real.sin z ≤ s + z := add_le_add (Real.sin_le hs) (Real.sin_le hz.le)
    have := mul_le_mul_of_nonneg_left h3 h0
    rw [hP]; linarith
  have h3 : P ≤ 7 / 6 * ((s + z) * (1 - e)) := by
    have h4 := mul_le_mul_of_nonneg_left (sub_sin_le (show -z ≤ s by linarith)) h0
    rw [Real.sin_neg] at h4
    have h5 : s ^ 3 - (-z) ^ 3 ≤ (s + z) * (s + z) ^ 2 := by nlinarith [mul_nonneg hs hz.le]
    have h6 := mul_le_mul_of_nonneg_left h5 h0
    have h7 := mul_le_mul_of_nonneg_left hDe hD.le
    rw [hP]; linarith
  have hp1 : slope e z ≤ 3 / 2 * (1 - e) := by
    have h4 := mul_le_mul_of_nonneg_left (show 1 - Real.cos z ≤ z ^ 2 / 2 by linarith [Real.one_sub_sq_div_two_le_cos (x := z)]) h0
    have h5 : e * z ^ 2 ≤ e * (s + z) ^ 2 := mul_le_mul_of_nonneg_left (by nlinarith) h0
    rw [slope_eq]; linarith
  have hp2 : (1 - e) + 48 / 100 * (e * z ^ 2) ≤ slope e z := by
    have h4 := one_sub_cos_ge hz.le (by linarith) rfl
    have h5 : 48 / 100 * z ^ 2 ≤ 1 - Real.cos z := by
      refine le_trans ?_ h4
      have h6 : z ^ 2 ≤ (3 / 10) ^ 2 := pow_le_pow_left₀ hz.le (by linarith) 2
      have h7 : (98 / 100 : ℝ) ≤ 1 - z ^ 2 / 24 := by nlinarith
      have h8 : (98 / 100 : ℝ) ^ 2 ≤ (1 - z ^ 2 / 24) ^ 2 := pow_le_pow_left₀ (by norm_num) h7 2
      nlinarith [sq_nonneg z]
    have := mul_le_mul_of_nonneg_left h5 h0
    rw [slope_eq]; linarith
  have hez : 0 ≤ e * z ^ 2 := by positivity
  have hpE : 1 - e ≤ slope e z := by linarith
  have h4 : P * (e * Real.sin z) ≤ 7 / 10 * slope e z ^ 2 := by
    have h5 : P * (e * Real.sin z) ≤ 7 / 6 * ((s + z) * (1 - e)) * (e * z) :=
      mul_le_mul h3 (mul_le_mul_of_nonneg_left (Real.sin_le hz.le) h0) (mul_nonneg h0 hsin) (by positivity)
    have h6 : 7 / 6 * (e * (z * (s + z))) ≤ 7 / 10 * (1 - e) + 672 / 1000 * (e * z ^ 2) := by
      have h7 : 7 / 6 * (z * (s + z)) ≤ 7 / 10 * (s + z) ^ 2 + 672 / 1000 * z ^ 2 := by
        nlinarith [sq_nonneg (z - (s + z))]
      have := mul_le_mul_of_nonneg_left h7 h0
      linarith
    have h8 := mul_le_mul_of_nonneg_left h6 hE.le
    have h9 : ((1 - e) + 48 / 100 * (e * z ^ 2)) ^ 2 ≤ slope e z ^ 2 := pow_le_pow_left₀ (by positivity) hp2 2
    nlinarith [sq_nonneg (e * z ^ 2)]
  obtain ⟨h5, h6⟩ := delta_beyond (slope_pos h0 h1 z) hD (mul_nonneg h0 hsin) (P := P) (by nlinarith) (by nlinarith) h4
  rw [hnext]
  constructor <;> linarith

/-! ## The region that the iteration does not leave -/

/-- distance from the root, counted more below the root -/
noncomputable def dist (s x : ℝ) : ℝ := if s ≤ x then x - s else 5 / 2 * (s - x)

/-- points that a step from `[s, Y]` can lead to -/
def Good (e s Y x : ℝ) : Prop :=
  x ≤ Y ∧ (s ≤ x ∨ s - (Y - s) / 3 ≤ x ∧ (13 * s ≤ 30 * x ∨ e * s ^ 2 ≤ 4 * (1 - e) ∧ e * (s - x) ^ 2 ≤ 1 - e))

theorem good_step {e s Y x : ℝ} (h0 : 0 ≤ e) (h1 : e < 1) (hs : 0 ≤ s) (hsY : s ≤ Y) (hY : Y ≤ Real.pi) (hW : 10 * Y ≤ 27 * s ∨ Y ≤ 86 / 100)
    (h : Good e s Y x) : Good e s Y (next e s x) ∧ dist s (next e s x) ≤ 5 / 6 * dist s x := by
  have hpi := Real.pi_gt_three
  obtain ⟨hxY, h⟩ := h
  by_cases hsx : s ≤ x
  · rcases hsx.eq_or_lt with rfl | hsx'
    · have : next e s s = s := by simp [next, fall, delta]
      rw [this]
      exact ⟨⟨hxY, .inl le_rfl⟩, by simp [dist]⟩
    obtain ⟨h2, h3⟩ := next_above h0 h1 hs hsx' (hxY.trans hY)
    have hd : dist s x = x - s := if_pos hsx
    by_cases hn : s ≤ next e s x
    · refine ⟨⟨by linarith, .inl hn⟩, ?_⟩
      rw [hd, dist, if_pos hn]
      linarith
    · refine ⟨⟨by linarith, .inr ⟨by linarith, ?_⟩⟩, ?_⟩
      · by_cases hx27 : 10 * x ≤ 27 * s
        · exact .inl (by linarith)
        · refine .inr (undershoot h0 h1 hs (not_le.mp hx27) ?_ (not_le.mp hn))
          rcases hW with hW | hW <;> linarith
      · rw [hd, dist, if_neg hn]
        linarith
  · have hxs := not_le.mp hsx
    obtain ⟨h2, h3⟩ := h.resolve_left hsx
    have hstep : x + (s - x) / 2 ≤ next e s x ∧ next e s x ≤ s + 2 * (s - x) := by
      rcases h3 with h3 | ⟨h3, h4⟩
      · exact next_below_wide h0 h1 (by linarith) hxs (hsY.trans hY) h3
      · rcases le_or_gt 0 x with hx | hx
        · exact next_below_tame h0 h1 hx hxs (hsY.trans hY) h3
        · refine next_beyond h0 h1 hs hx ?_ h4
          rcases hW with hW | hW <;> linarith
    obtain ⟨h5, h6⟩ := hstep
    have hd : dist s x = 5 / 2 * (s - x) := if_neg hsx
    by_cases hn : s ≤ next e s x
    · refine ⟨⟨by linarith, .inl hn⟩, ?_⟩
      rw [hd, dist, if_pos hn]
      linarith
    · have hn' := not_le.mp hn
      refine ⟨⟨by linarith, .inr ⟨by linarith, ?_⟩⟩, ?_⟩
      · rcases h3 with h3 | ⟨h3, h4⟩
        · exact .inl (by linarith)
        · refine .inr ⟨h3, (mul_le_mul_of_nonneg_left (pow_le_pow_left₀ (by linarith) (by linarith) 2) h0).trans h4⟩
      · rw [hd, dist, if_neg hn]
        linarith

theorem good_iterate {e s Y : ℝ} (h0 : 0 ≤ e) (h1 : e < 1) (hs : 0 ≤ s) (hsY : s ≤ Y) (hY : Y ≤ Real.pi) (hW : 10 * Y ≤ 27 * s ∨ Y ≤ 86 / 100) (n : Nat) :
    ∀ x, Good e s Y x → dist s ((next e s)^[n] x) ≤ (5 / 6) ^ n * dist s x := by
  induction n with
  | zero => intro x _; simp
  | succ n ih =>
    intro x hx
    obtain ⟨h2, h3⟩ := good_step h0 h1 hs hsY hY hW hx
    rw [Function.iterate_succ_apply]
    refine (ih _ h2).trans ?_
    rw [pow_succ]
    have := mul_le_mul_of_nonneg_left h3 (show (0 : ℝ) ≤ (5 / 6) ^ n by positivity)
    linarith

theorem fall_le {e s x : ℝ} (h0 : 0 ≤ e) (h1 : e < 1) : |fall e s x| ≤ 2 * dist s x := by
  have h2 := Real.abs_sin_sub_sin_le x s
  have h3 : |fall e s x| ≤ 2 * |x - s| := by
    unfold fall
    calc |(x - s) - e * (Real.sin x - Real.sin s)| ≤ |x - s| + |e * (Real.sin x - Real.sin s)| := abs_sub _ _
      _ ≤ _ := by
        rw [abs_mul, abs_of_nonneg h0]
        nlinarith [abs_nonneg (Real.sin x - Real.sin s)]
  refine h3.trans ?_
  unfold dist
  split_ifs with h
  · rw [abs_of_nonneg (by linarith)]
  · rw [abs_of_neg (by linarith)]
    linarith

end Pyorb.Lag
