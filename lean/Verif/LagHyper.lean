import Verif.LagHyperReal
import Mathlib.Logic.Function.Iterate

/-!
# Convergence of Laguerre's method for the hyperbolic Kepler equation, from a point near the root
-/

namespace Pyorb.Lag.Hyp

/-- slope of the hyperbolic Kepler function -/
noncomputable def slope (e x : ℝ) : ℝ := e * Real.cosh x - 1

/-- the hyperbolic Kepler function minus its value at `s` -/
noncomputable def rise (e s x : ℝ) : ℝ := e * (Real.sinh x - Real.sinh s) - (x - s)

/-- one Laguerre step of degree 5 for the root `s` -/
noncomputable def next (e s x : ℝ) : ℝ := x - delta (rise e s x) (slope e x) (e * Real.sinh x)

theorem slope_eq (e x : ℝ) : slope e x = (e - 1) + e * (Real.cosh x - 1) := by unfold slope; ring

theorem slope_ge {e : ℝ} (h1 : 1 < e) (x : ℝ) : e - 1 ≤ slope e x := by
  rw [slope_eq]
  have := mul_nonneg (show 0 ≤ e by linarith) (one_le_cosh' x)
  linarith

theorem slope_pos {e : ℝ} (h1 : 1 < e) (x : ℝ) : 0 < slope e x := by linarith [slope_ge h1 x]

/-! ## Above the root -/

theorem rise_third {e s y : ℝ} (h1 : 1 < e) (hs : 0 ≤ s) (hsy : s < y) (hd : y - s ≤ 3 / 5) : (y - s) * slope e y ≤ 16 / 5 * rise e s y := by
  have h2 := mul_le_mul_of_nonneg_left (sinh_third hs hsy.le hd) (show 0 ≤ e by linarith)
  have h3 : 0 ≤ (e - 1) * (y - s) := mul_nonneg (by linarith) (by linarith)
  rw [slope_eq]
  unfold rise
  nlinarith

theorem rise_le {e s y a : ℝ} (h1 : 1 < e) (h : a * (y - s) ^ 2 * Real.sinh y ≤ (y - s) * Real.cosh y - (Real.sinh y - Real.sinh s)) :
    rise e s y ≤ (y - s) * (slope e y - a * (e * Real.sinh y) * (y - s)) := by
  have h2 := mul_le_mul_of_nonneg_left h (show 0 ≤ e by linarith)
  unfold rise slope
  linarith

theorem next_above {e s y : ℝ} (h1 : 1 < e) (hs : 0 ≤ s) (hsy : s < y) (hd : y - s ≤ 3 / 5) :
    s - 5 / 8 * (y - s) ≤ next e s y ∧ next e s y ≤ s + 11 / 16 * (y - s) := by
  have hd0 : 0 < y - s := sub_pos.mpr hsy
  have h2 := rise_third h1 hs hsy hd
  have h3 := rise_le h1 (sinh_above hs hsy hd)
  have hp := slope_pos h1 y
  have hw : 0 ≤ e * Real.sinh y := mul_nonneg (by linarith) (sinh_nonneg (by linarith))
  unfold next
  set d := y - s with hdd
  set p := slope e y
  set w := e * Real.sinh y
  obtain ⟨g, hg⟩ : ∃ g, rise e s y = d * g := ⟨rise e s y / d, by field_simp⟩
  rw [hg] at h2 h3 ⊢
  have hg1 : p ≤ 16 / 5 * g := by nlinarith
  have hg0 : 0 < g := by linarith
  have hu : 8 / 25 * (w * d) ≤ p - g := by
    have := le_of_mul_le_mul_left h3 hd0
    linarith
  have hgu : 8 / 25 * (g * (w * d)) ≤ g * (p - g) := by
    have := mul_le_mul_of_nonneg_left hu hg0.le
    linarith
  have h4 : delta (d * g) p w ≤ 13 / 8 * d := by
    refine delta_le hp (by positivity) ?_
    have h5 : (5 * g - 13 / 8 * p) ^ 2 ≤ (13 / 8) ^ 2 * (16 * p ^ 2 - 20 * (g * (w * d))) := by
      nlinarith [sq_nonneg (p - 1878 / 1000 * g), sq_nonneg g]
    calc (5 * (d * g) - 13 / 8 * d * p) ^ 2 = d ^ 2 * (5 * g - 13 / 8 * p) ^ 2 := by ring
      _ ≤ d ^ 2 * ((13 / 8) ^ 2 * (16 * p ^ 2 - 20 * (g * (w * d)))) := mul_le_mul_of_nonneg_left h5 (sq_nonneg d)
      _ = _ := by ring
  have h5 : 5 / 16 * d ≤ delta (d * g) p w := by
    refine le_delta hp (by positivity) (by positivity) ?_ (by nlinarith)
    nlinarith [sq_nonneg (p - 2 * g)]
  constructor <;> linarith

/-- the step from above, where the interval is not too long compared with its upper end -/
theorem next_above_wide {e s y : ℝ} (h1 : 1 < e) (hs : 0 ≤ s) (hsy : s < y) (hd : y - s ≤ 3 / 5) (hb : 3 * y ≤ 10 * s) :
    s - 1 / 5 * (y - s) ≤ next e s y := by
  have hd0 : 0 < y - s := sub_pos.mpr hsy
  have h2 := rise_third h1 hs hsy hd
  have h3 := rise_le h1 (sinh_above_wide hs hsy hd hb)
  have hp := slope_pos h1 y
  have hw : 0 ≤ e * Real.sinh y := mul_nonneg (by linarith) (sinh_nonneg (by linarith))
  unfold next
  set d := y - s with hdd
  set p := slope e y
  set w := e * Real.sinh y
  obtain ⟨g, hg⟩ : ∃ g, rise e s y = d * g := ⟨rise e s y / d, by field_simp⟩
  rw [hg] at h2 h3 ⊢
  have hg1 : p ≤ 16 / 5 * g := by nlinarith
  have hg0 : 0 < g := by linarith
  have hu : 9 / 25 * (w * d) ≤ p - g := by
    have := le_of_mul_le_mul_left h3 hd0
    linarith
  have hgu : 9 / 25 * (g * (w * d)) ≤ g * (p - g) := by
    have := mul_le_mul_of_nonneg_left hu hg0.le
    linarith
  have h4 : delta (d * g) p w ≤ 6 / 5 * d := by
    refine delta_le hp (by positivity) ?_
    have h5 : (5 * g - 6 / 5 * p) ^ 2 ≤ (6 / 5) ^ 2 * (16 * p ^ 2 - 20 * (g * (w * d))) := by
      nlinarith [sq_nonneg (p - 1574 / 1000 * g), sq_nonneg g]
    calc (5 * (d * g) - 6 / 5 * d * p) ^ 2 = d ^ 2 * (5 * g - 6 / 5 * p) ^ 2 := by ring
      _ ≤ d ^ 2 * ((6 / 5) ^ 2 * (16 * p ^ 2 - 20 * (g * (w * d)))) := mul_le_mul_of_nonneg_left h5 (sq_nonneg d)
      _ = _ := by ring
  linarith

/-! ## Overshooting from above, far from the origin compared with the root -/

theorem overshoot_radicand {x b v : ℝ} (hx : 0 < x) (hb0 : 0 ≤ b) (hv : v ≤ 206 / 100 - 1914 / 1000 * b) :
    (67 / 100 * (1 + x)) ^ 2 ≤ 16 * (1 + x) ^ 2 - 20 * (x + (1 + b + b ^ 2) / 3) * v := by
  have h1 : (x + (1 + b + b ^ 2) / 3) * v ≤ (x + (1 + b + b ^ 2) / 3) * (206 / 100 - 1914 / 1000 * b) :=
    mul_le_mul_of_nonneg_left hv (by positivity)
  have h2 : (1 + b + b ^ 2) * (206 / 100 - 1914 / 1000 * b) ≤ 2082 / 1000 := by
    nlinarith [mul_nonneg hb0 (sq_nonneg (b - 187 / 1000)), sq_nonneg (b - 187 / 1000)]
  have h3 : 0 ≤ x * b := by positivity
  nlinarith [sq_nonneg (x - 3256 / 10000)]

/-- the numerator of an overshoot -/
noncomputable def over (x b : ℝ) : ℝ :=
  4 * (x + (1 + b + b ^ 2) / 3) * (206 / 100 - 1914 / 1000 * b)
    - (1 - (1 + b + b ^ 2) / 3) * (3 * (1 + x) + 5 * (x + (1 + b + b ^ 2) / 3))

theorem over_le {x b : ℝ} (hx : 0 < x) (hb0 : 0 ≤ b) (hb1 : b ≤ 3 / 10) :
    over x b ≤ 290667 / 100000 * x - 36444 / 100000 + b * (883 / 1000 - 4189 / 1000 * x) := by
  have e1 : over x b = x * (218 / 75 - 1871 / 375 * b + 8 / 3 * b ^ 2) - 82 / 225 + b * (719 / 1125 + 448 / 375 * b - 3242 / 2250 * b ^ 2 + 5 / 9 * b ^ 3) := by
    unfold over; ring
  rw [e1]
  have h1 : b * (1871 / 375 - 8 / 3 * b) ≥ b * (4189 / 1000) := mul_le_mul_of_nonneg_left (by linarith) hb0
  have h2 := mul_le_mul_of_nonneg_left h1 hx.le
  have h3 : 719 / 1125 + 448 / 375 * b - 3242 / 2250 * b ^ 2 + 5 / 9 * b ^ 3 ≤ 883 / 1000 := by
    nlinarith [mul_nonneg hb0 (sub_nonneg.mpr hb1), mul_nonneg (mul_nonneg hb0 hb0) (sub_nonneg.mpr hb1)]
  have h4 := mul_le_mul_of_nonneg_left h3 hb0
  linarith

theorem over_root {x b : ℝ} (hx : 0 < x) (hb0 : 0 ≤ b) (hb1 : b ≤ 3 / 10) (h : 0 < over x b) : b ^ 2 ≤ 2 * x := by
  by_contra hlt
  have hlt := not_le.mp hlt
  have h1 := over_le hx hb0 hb1
  nlinarith [mul_nonneg hb0 (sub_nonneg.mpr hb1)]

theorem over_distance {x b r : ℝ} (hx : 0 < x) (hb0 : 0 ≤ b) (hb1 : b ≤ 3 / 10)
    (h : r * (167 / 100 * (1 + x) * (467 / 100 * x + 13366 / 10000)) ≤ 5 * (1 - b) * over x b) (hr : 0 < r) : r ^ 2 ≤ 8 / 10 * x := by
  have h1 := mul_le_mul_of_nonneg_left (over_le hx hb0 hb1) (show 0 ≤ 5 * (1 - b) by linarith)
  have h2 : (1 - b) * (290667 / 100000 * x - 36444 / 100000 + b * (883 / 1000 - 4189 / 1000 * x)) * (x + 3 / 10) ≤
      (290667 / 100000 * x - 36444 / 100000) * (x + 3 / 10) + 2948 / 10000 * max 0 (1 - 468 / 100 * x) * (x + 3 / 10) := by
    have e1 : (1 - b) * (290667 / 100000 * x - 36444 / 100000 + b * (883 / 1000 - 4189 / 1000 * x)) =
        (290667 / 100000 * x - 36444 / 100000) + (b * (124744 / 100000 - 883 / 1000 * b) - b * x * (709567 / 100000 - 4189 / 1000 * b)) := by ring
    have h3 : 0 ≤ b * x := mul_nonneg hb0 hx.le
    have h4 : b * x * (58385 / 10000) ≤ b * x * (709567 / 100000 - 4189 / 1000 * b) := mul_le_mul_of_nonneg_left (by linarith) h3
    set m := b * (124744 / 100000 - 883 / 1000 * b) with hm
    have h5 : m ≤ 2948 / 10000 := by rw [hm]; nlinarith
    have h6 : m ≤ 124744 / 100000 * b := by rw [hm]; nlinarith [mul_nonneg hb0 hb0]
    have h7 : 0 ≤ m := mul_nonneg hb0 (by linarith)
    have h8 : 468 / 100 * (m * x) ≤ b * x * (58385 / 10000) := by
      have := mul_le_mul_of_nonneg_right h6 hx.le
      linarith
    have h9 : m * (1 - 468 / 100 * x) ≤ 2948 / 10000 * max 0 (1 - 468 / 100 * x) :=
      (mul_le_mul_of_nonneg_left (le_max_right 0 _) h7).trans (mul_le_mul_of_nonneg_right h5 (le_max_left 0 _))
    rw [e1, ← add_mul]
    exact mul_le_mul_of_nonneg_right (by linarith) (by linarith)
  have h3 : 5 * ((290667 / 100000 * x - 36444 / 100000) * (x + 3 / 10) + 2948 / 10000 * max 0 (1 - 468 / 100 * x) * (x + 3 / 10)) ≤
      979 / 1000 * x * (167 / 100 * (1 + x) * (467 / 100 * x + 13366 / 10000)) := by
    rcases le_total 0 (1 - 468 / 100 * x) with h4 | h4
    · rw [max_eq_right h4]
      nlinarith [mul_nonneg hx.le (sq_nonneg x), mul_nonneg hx.le h4]
    · rw [max_eq_left h4]
      nlinarith [mul_nonneg hx.le (sq_nonneg (x - 4462 / 10000)), sq_nonneg (x - 4462 / 10000)]
  set A := 167 / 100 * (1 + x) * (467 / 100 * x + 13366 / 10000) with hA
  have hA0 : 0 < A := by positivity
  have h4 : r * (x + 3 / 10) ≤ 979 / 1000 * x := by
    have h5 : A * (r * (x + 3 / 10)) ≤ A * (979 / 1000 * x) := by
      have h6 := mul_le_mul_of_nonneg_right (h.trans h1) (show 0 ≤ x + 3 / 10 by linarith)
      linarith
    exact le_of_mul_le_mul_left h5 hA0
  have h5 := pow_le_pow_left₀ (by positivity) h4 2
  have h6 : x * (12 / 10 * r ^ 2) ≤ x * (96 / 100 * x) := by nlinarith [mul_nonneg (sq_nonneg r) (sq_nonneg (x - 3 / 10))]
  have := le_of_mul_le_mul_left h6 hx
  linarith

/-- the algebra of an overshoot, in units of `c` and `y` -/
theorem overshoot_unit {x b v q r : ℝ} (hx : 0 < x) (hb0 : 0 ≤ b) (hb1 : b ≤ 3 / 10) (hv : v ≤ 206 / 100 - 1914 / 1000 * b) (hq0 : 0 ≤ q)
    (hq : q ^ 2 = 16 * (1 + x) ^ 2 - 20 * (x + (1 + b + b ^ 2) / 3) * v) (hr : 0 < r)
    (h : (1 - b + r) * (1 + x + q) ≤ 5 * (1 - b) * (x + (1 + b + b ^ 2) / 3)) : b ^ 2 ≤ 2 * x ∧ r ^ 2 ≤ 8 / 10 * x := by
  have hR := overshoot_radicand hx hb0 hv
  rw [← hq] at hR
  have hqx := (abs_le_of_sq_le_sq' hR hq0).2
  set g := x + (1 + b + b ^ 2) / 3 with hg
  have hg0 : x + 1 / 3 ≤ g := by rw [hg]; nlinarith
  have hr1 : r * (1 + x + q) ≤ (1 - b) * (5 * g - (1 + x) - q) := by linarith
  have hpos : 0 < 5 * g - (1 + x) - q := by
    by_contra hneg
    have h4 : (1 - b) * (5 * g - (1 + x) - q) ≤ 0 := mul_nonpos_of_nonneg_of_nonpos (by linarith) (not_lt.mp hneg)
    have h5 : 0 < r * (1 + x + q) := mul_pos hr (by linarith)
    linarith
  have hprod : r * ((1 + x + q) * (5 * g - (1 + x) + q)) ≤ 5 * (1 - b) * over x b := by
    have h4 : r * ((1 + x + q) * (5 * g - (1 + x) + q)) ≤ (1 - b) * ((5 * g - (1 + x)) ^ 2 - q ^ 2) := by
      have := mul_le_mul_of_nonneg_right hr1 (show 0 ≤ 5 * g - (1 + x) + q by linarith)
      linarith
    have h5 : (5 * g - (1 + x)) ^ 2 - q ^ 2 ≤ 5 * over x b := by
      rw [hq, over, ← hg, show 1 - (1 + b + b ^ 2) / 3 = 1 + x - g by rw [hg]; ring]
      have := mul_le_mul_of_nonneg_left hv (show 0 ≤ 20 * g by linarith)
      linarith
    have := mul_le_mul_of_nonneg_left h5 (show 0 ≤ 1 - b by linarith)
    linarith
  have hover : 0 < over x b := by
    by_contra hneg
    have h4 : 5 * (1 - b) * over x b ≤ 0 := mul_nonpos_of_nonneg_of_nonpos (by linarith) (not_lt.mp hneg)
    have h5 : 0 < r * ((1 + x + q) * (5 * g - (1 + x) + q)) := mul_pos hr (mul_pos (by linarith) (by linarith))
    linarith
  refine ⟨over_root hx hb0 hb1 hover, over_distance hx hb0 hb1 (le_trans (mul_le_mul_of_nonneg_left ?_ hr.le) hprod) hr⟩
  exact mul_le_mul (by linarith) (by linarith) (by linarith) (by linarith)

theorem overshoot_alg {E c p b y d u w g F r : ℝ} (hE : 0 < E) (hc0 : 0 < c) (hpc : p = E + c)
    (hb0 : 0 ≤ b) (hb1 : b ≤ 3 / 10) (hy0 : 0 < y) (hd' : d = (1 - b) * y) (hw : 0 ≤ w) (hu : w * d = u)
    (huY : u ≤ c * (206 / 100 - 1914 / 1000 * b))
    (hg : g = E + c * (1 + b + b ^ 2) / 3) (hF0 : 0 ≤ F) (hFg : F ≤ d * g) (hr0 : 0 < r) (hr : d + r = delta F p w) :
    b ^ 2 * c ≤ 2 * E ∧ r ^ 2 * c ≤ 8 / 10 * E * y ^ 2 := by
  obtain ⟨x, rfl⟩ : ∃ x, E = c * x := ⟨E / c, by field_simp⟩
  obtain ⟨v, rfl⟩ : ∃ v, u = c * v := ⟨u / c, by field_simp⟩
  obtain ⟨t, rfl⟩ : ∃ t, r = y * t := ⟨r / y, by field_simp⟩
  have hx : 0 < x := pos_of_mul_pos_right hE hc0.le
  have ht : 0 < t := pos_of_mul_pos_right hr0 hy0.le
  have hv := le_of_mul_le_mul_left huY hc0
  have hR := overshoot_radicand hx hb0 hv
  have hp : p = c * (1 + x) := by rw [hpc]; ring
  have hp0 : 0 < p := by rw [hp]; positivity
  have hg' : g = c * (x + (1 + b + b ^ 2) / 3) := by rw [hg]; ring
  set Q := 16 * (1 + x) ^ 2 - 20 * (x + (1 + b + b ^ 2) / 3) * v with hQ
  have hQ0 : 0 ≤ Q := le_trans (sq_nonneg _) hR
  have hRe : 16 * p ^ 2 - 20 * (d * g) * w = c ^ 2 * Q := by
    have : 20 * (d * g) * w = 20 * g * (c * v) := by rw [← hu]; ring
    rw [this, hp, hg', hQ]; ring
  have hmono := delta_mono hp0 hw hF0 hFg (by rw [hRe]; positivity)
  have hsq : √(c ^ 2 * Q) = c * √Q := by rw [Real.sqrt_mul (sq_nonneg c), Real.sqrt_sq hc0.le]
  have h1 := overshoot_unit hx hb0 hb1 hv (Real.sqrt_nonneg Q) (Real.sq_sqrt hQ0) ht (by
    have h5 : delta (d * g) p w = 5 * (d * g) / (p + c * √Q) := by
      unfold delta
      rw [hRe, abs_of_nonneg (by positivity), hsq]
    rw [h5, ← hr, le_div_iff₀ (by positivity), hp, hg', hd'] at hmono
    have hcy : 0 < c * y := mul_pos hc0 hy0
    have : c * y * ((1 - b + t) * (1 + x + √Q)) ≤ c * y * (5 * (1 - b) * (x + (1 + b + b ^ 2) / 3)) := by linarith
    exact le_of_mul_le_mul_left this hcy)
  obtain ⟨h2, h3⟩ := h1
  constructor
  · nlinarith
  · have := mul_le_mul_of_nonneg_left h3 (show 0 ≤ c * y ^ 2 by positivity)
    linarith

/-- a step from above that ends below the root -/
theorem overshoot {e s y : ℝ} (h1 : 1 < e) (hs : 0 ≤ s) (hsy : 10 * s ≤ 3 * y) (hsy' : s < y) (hd : y - s ≤ 3 / 5) (hn : next e s y < s) :
    e * (Real.cosh s - 1) ≤ 2 * (e - 1) ∧ e * (s - next e s y) ^ 2 ≤ 16 / 10 * (e - 1) := by
  have hy0 : 0 < y := by linarith
  have he : 0 < e := by linarith
  have hE : 0 < e - 1 := by linarith
  have hch : 0 < Real.cosh y - 1 := by
    have := cosh_ge2 hy0.le
    have : 0 < y ^ 2 := by positivity
    linarith
  obtain ⟨b, rfl⟩ : ∃ b, s = b * y := ⟨s / y, by field_simp⟩
  have hb0 : 0 ≤ b := nonneg_of_mul_nonneg_left hs hy0
  have hb1 : b ≤ 3 / 10 := by
    have : 10 * b * y ≤ 3 * y := by linarith
    have := le_of_mul_le_mul_right this hy0
    linarith
  set d := y - b * y with hdd
  have hd' : d = (1 - b) * y := by rw [hdd]; ring
  have hd0 : 0 < d := by rw [hdd]; linarith
  set c := e * (Real.cosh y - 1) with hc
  have hc0 : 0 < c := mul_pos he hch
  have hw : 0 ≤ e * Real.sinh y := mul_nonneg he.le (sinh_nonneg hy0.le)
  have huY : e * Real.sinh y * d ≤ c * (206 / 100 - 1914 / 1000 * b) := by
    have h2 := mul_le_mul_of_nonneg_left (mul_sinh_le hy0.le) (mul_nonneg he.le (show 0 ≤ 1 - b by linarith))
    have h3 : (1 - b) * (2 + y ^ 2 / 6) ≤ 206 / 100 - 1914 / 1000 * b := by
      have h4 : d ^ 2 ≤ 9 / 25 := by nlinarith
      have h5 : (1 - b) ^ 2 * y ^ 2 ≤ 9 / 25 := by rw [hd'] at h4; linarith
      have h6 : (1 - b) * ((1 - b) * (2 + y ^ 2 / 6)) ≤ (1 - b) * (206 / 100 - 1914 / 1000 * b) := by nlinarith
      exact le_of_mul_le_mul_left h6 (by linarith)
    have h4 := mul_le_mul_of_nonneg_left h3 hc0.le
    rw [hd']
    calc e * Real.sinh y * ((1 - b) * y) = e * (1 - b) * (y * Real.sinh y) := by ring
      _ ≤ _ := h2
      _ = c * ((1 - b) * (2 + y ^ 2 / 6)) := by rw [hc]; ring
      _ ≤ _ := h4
  have hFg : rise e (b * y) y ≤ d * ((e - 1) + c * (1 + b + b ^ 2) / 3) := by
    have h2 := mul_le_mul_of_nonneg_left (sinh_rise_le hs hsy'.le hy0) he.le
    have e1 : (Real.cosh y - 1) * (y ^ 3 - (b * y) ^ 3) / (3 * y ^ 2) = (Real.cosh y - 1) * ((1 - b) * y) * (1 + b + b ^ 2) / 3 := by
      field_simp
      ring
    rw [e1] at h2
    have e2 : rise e (b * y) y = e * ((Real.sinh y - Real.sinh (b * y)) - (y - b * y)) + (e - 1) * d := by unfold rise; rw [hdd]; ring
    rw [e2, hc, hd']
    rw [hd'] at e2
    linarith
  have hF0 : 0 ≤ rise e (b * y) y := by
    have := rise_third h1 hs hsy' hd
    have := mul_pos hd0 (slope_pos h1 y)
    linarith
  obtain ⟨h2, h3⟩ := overshoot_alg (r := b * y - next e (b * y) y) hE hc0 (slope_eq e y) hb0 hb1 hy0 hd' hw rfl huY rfl hF0 hFg
    (by linarith) (by rw [hdd]; unfold next; ring)
  constructor
  · have h4 := mul_le_mul_of_nonneg_left (cosh_chord hs hsy'.le) he.le
    have h5 : y ^ 2 * (e * (Real.cosh (b * y) - 1)) ≤ y ^ 2 * (2 * (e - 1)) := by
      have h6 := mul_le_mul_of_nonneg_left h2 (sq_nonneg y)
      rw [hc] at h6
      linarith
    exact le_of_mul_le_mul_left h5 (by positivity)
  · have h4 : e * y ^ 2 ≤ 2 * c := by
      have := mul_le_mul_of_nonneg_left (cosh_ge2 hy0.le) he.le
      rw [hc]
      linarith
    have h5 := mul_le_mul_of_nonneg_left h3 he.le
    have h6 := mul_le_mul_of_nonneg_left h4 (show 0 ≤ 8 / 10 * (e - 1) by linarith)
    have h7 : c * (e * (b * y - next e (b * y) y) ^ 2) ≤ c * (16 / 10 * (e - 1)) := by linarith
    exact le_of_mul_le_mul_left h7 hc0

/-! ## Below the root -/

theorem rise_neg (e s x : ℝ) : rise e s x = -(e * (Real.sinh s - Real.sinh x) - (s - x)) := by unfold rise; ring

theorem next_eq (e s x : ℝ) : next e s x = x + delta (e * (Real.sinh s - Real.sinh x) - (s - x)) (slope e x) (-(e * Real.sinh x)) := by
  have := delta_neg (e * (Real.sinh s - Real.sinh x) - (s - x)) (slope e x) (-(e * Real.sinh x))
  rw [neg_neg] at this
  rw [next, rise_neg, this]
  ring

theorem sinh_gap {x s : ℝ} (hx : 0 ≤ x) (hxs : x ≤ s) : (s - x) * (Real.cosh x + Real.sinh x * (s - x) / 2) ≤ Real.sinh s - Real.sinh x := by
  obtain ⟨D, rfl⟩ : ∃ D, s = x + D := ⟨s - x, by ring⟩
  have hD : 0 ≤ D := by linarith
  rw [add_sub_cancel_left, Real.sinh_add]
  have h1 := mul_le_mul_of_nonneg_left (cosh_ge2 hD) (sinh_nonneg hx)
  have h2 := mul_le_mul_of_nonneg_left (Real.self_le_sinh_iff.mpr hD) (Real.cosh_pos x).le
  linarith

theorem next_lower {e s x : ℝ} (h1 : 1 < e) (hx : 0 ≤ x) (hxs : x < s) : x + 3 / 4 * (s - x) ≤ next e s x := by
  have h2 := mul_le_mul_of_nonneg_left (sinh_gap hx hxs.le) (show 0 ≤ e by linarith)
  have hw : 0 ≤ e * Real.sinh x := mul_nonneg (by linarith) (sinh_nonneg hx)
  obtain ⟨h3, -⟩ := delta_lower_start (P := e * (Real.sinh s - Real.sinh x) - (s - x)) (slope_pos h1 x) (sub_pos.mpr hxs) hw (by unfold slope; linarith)
  rw [next, rise_neg]
  linarith

/-- the step from below, where the second derivative does not grow much -/
theorem next_below_wide {e s x : ℝ} (h1 : 1 < e) (hxs : x < s) (hD1 : s - x ≤ 1) (h : (s - x) * Real.cosh x ≤ 5 / 2 * Real.sinh x) :
    x + 3 / 4 * (s - x) ≤ next e s x ∧ next e s x ≤ s + 1 / 5 * (s - x) := by
  have hD : 0 < s - x := sub_pos.mpr hxs
  have hsx : 0 < Real.sinh x := by
    have := mul_pos hD (Real.cosh_pos x)
    linarith
  have hx : 0 < x := Real.sinh_pos_iff.mp hsx
  have hp := slope_pos h1 x
  have he : 0 ≤ e := by linarith
  refine ⟨next_lower h1 hx.le hxs, ?_⟩
  have h2 : e * (Real.sinh s - Real.sinh x) - (s - x) ≤ (s - x) * (slope e x + e * Real.sinh x * (s - x)) := by
    have h3 : Real.sinh s - Real.sinh x ≤ (s - x) * (Real.cosh x + Real.sinh x * (s - x)) := by
      obtain ⟨D, rfl⟩ : ∃ D, s = x + D := ⟨s - x, by ring⟩
      rw [add_sub_cancel_left] at *
      rw [Real.sinh_add]
      have h4 := mul_le_mul_of_nonneg_left (cosh_le_unit4 hD.le hD1) hsx.le
      have h5 := mul_le_mul_of_nonneg_left (sinh_le_unit5 hD.le hD1) (Real.cosh_pos x).le
      have hD2 : D ^ 2 ≤ 1 := by nlinarith
      have h6 := mul_le_mul_of_nonneg_right h (show 0 ≤ D ^ 2 / 6 + D ^ 4 / 100 by positivity)
      have h7 : 0 ≤ Real.sinh x * (D ^ 2 * (1 - 1 / 2 - D ^ 2 / 20 - 5 / 2 * (1 / 6 + D ^ 2 / 100))) := by
        refine mul_nonneg hsx.le (mul_nonneg (sq_nonneg D) ?_)
        linarith
      nlinarith
    have := mul_le_mul_of_nonneg_left h3 he
    unfold slope
    linarith
  have h3 : (s - x) * slope e x ≤ e * (Real.sinh s - Real.sinh x) - (s - x) := by
    have h4 := mul_le_mul_of_nonneg_left (sinh_gap hx.le hxs.le) he
    have h5 : 0 ≤ e * Real.sinh x * (s - x) ^ 2 := by positivity
    unfold slope
    nlinarith
  have h4 : delta (e * (Real.sinh s - Real.sinh x) - (s - x)) (slope e x) (-(e * Real.sinh x)) ≤ 6 / 5 * (s - x) := by
    refine delta_le hp (by positivity) ?_
    set P := e * (Real.sinh s - Real.sinh x) - (s - x)
    set D := s - x
    set p := slope e x
    set w := e * Real.sinh x
    obtain ⟨g, hg⟩ : ∃ g, P = D * g := ⟨P / D, by field_simp⟩
    rw [hg] at h2 h3 ⊢
    have hg1 := le_of_mul_le_mul_left h2 hD
    have hg2 := le_of_mul_le_mul_left h3 hD
    have hgu : g * (g - p) ≤ g * (w * D) := mul_le_mul_of_nonneg_left (by linarith) (by linarith)
    have h5 : (5 * g - 6 / 5 * p) ^ 2 ≤ (6 / 5) ^ 2 * (16 * p ^ 2 + 20 * (g * (w * D))) := by
      nlinarith [sq_nonneg (p - 4 / 10 * g), sq_nonneg g]
    calc (5 * (D * g) - 6 / 5 * D * p) ^ 2 = D ^ 2 * (5 * g - 6 / 5 * p) ^ 2 := by ring
      _ ≤ D ^ 2 * ((6 / 5) ^ 2 * (16 * p ^ 2 + 20 * (g * (w * D)))) := mul_le_mul_of_nonneg_left h5 (sq_nonneg D)
      _ = _ := by ring
  rw [next_eq]
  linarith

theorem sinh_trapezoid {x s : ℝ} (hxs : x ≤ s) : Real.sinh s - Real.sinh x ≤ (s - x) * (Real.cosh x + Real.cosh s) / 2 := by
  obtain ⟨m, h, rfl, rfl⟩ : ∃ m h, x = m - h ∧ s = m + h := ⟨(s + x) / 2, (s - x) / 2, by ring, by ring⟩
  have hh : 0 ≤ h := by linarith
  rw [Real.sinh_add, Real.sinh_sub, Real.cosh_add, Real.cosh_sub]
  have := mul_le_mul_of_nonneg_left (sinh_le_mul_cosh hh) (Real.cosh_pos m).le
  nlinarith

theorem next_below_tame {e s x : ℝ} (h1 : 1 < e) (hx : 0 ≤ x) (hxs : x < s) (h : e * (Real.cosh s - 1) ≤ 2 * (e - 1)) :
    x + 1 / 2 * (s - x) ≤ next e s x ∧ next e s x ≤ s + (s - x) := by
  have hD : 0 < s - x := sub_pos.mpr hxs
  have hp := slope_pos h1 x
  have he : 0 ≤ e := by linarith
  have hw : 0 ≤ e * Real.sinh x := mul_nonneg he (sinh_nonneg hx)
  refine ⟨by linarith [next_lower h1 hx hxs], ?_⟩
  have h2 : e * (Real.sinh s - Real.sinh x) - (s - x) ≤ (s - x) * (2 * slope e x) := by
    have h3 := mul_le_mul_of_nonneg_left (sinh_trapezoid hxs.le) he
    have h4 := mul_le_mul_of_nonneg_left h hD.le
    have h5 : 0 ≤ (s - x) * (e * (Real.cosh x - 1)) := mul_nonneg hD.le (mul_nonneg he (one_le_cosh' x))
    rw [slope_eq]
    nlinarith
  have h3 : 0 ≤ e * (Real.sinh s - Real.sinh x) - (s - x) := by
    have h4 := mul_le_mul_of_nonneg_left (sinh_gap hx hxs.le) he
    have h5 : 0 ≤ e * Real.sinh x * (s - x) ^ 2 := by positivity
    have h6 := mul_pos hD hp
    unfold slope at h6
    nlinarith
  have h4 : delta (e * (Real.sinh s - Real.sinh x) - (s - x)) (slope e x) (-(e * Real.sinh x)) ≤ 2 * (s - x) := by
    refine delta_le hp (by positivity) ?_
    set P := e * (Real.sinh s - Real.sinh x) - (s - x)
    set D := s - x
    set p := slope e x
    set w := e * Real.sinh x
    have hPw : 0 ≤ P * w := mul_nonneg h3 hw
    have h5 : (5 * P - 2 * D * p) ^ 2 ≤ (8 * D * p) ^ 2 := by
      refine sq_le_sq' ?_ ?_
      · have := mul_pos hD hp
        linarith
      · linarith
    have h6 : 0 ≤ (2 * D) ^ 2 * (20 * (P * w)) := by positivity
    nlinarith
  rw [next_eq]
  linarith

theorem beyond_poly {A B : ℝ} (hA : 0 ≤ A) (hAB : A ≤ B) (hB : B ^ 2 ≤ 16 / 10 * A) :
    82.4 * ((1 + 0.169 * (16 / 10 - 3 * B + 3 * A)) * B) + 25 * (1 + 0.169 * (16 / 10 - 3 * B + 3 * A)) ^ 2 ≤
      60 * (1 + A / 2) ^ 2 + 20 * (1 + 0.169 * (16 / 10 - 3 * B + 3 * A)) * (1 + A / 2) := by
  have hB0 : 0 ≤ B := hA.trans hAB
  obtain ⟨k, hk, rfl⟩ : ∃ k, 0 ≤ k ∧ A = 5 / 8 * B ^ 2 + k := ⟨A - 5 / 8 * B ^ 2, by linarith, by ring⟩
  have hB1 : B ≤ 16 / 10 := by nlinarith
  have h1 : 0 ≤ 45.06 - 82.62 * B + 67 * B ^ 2 - 21.25 * B ^ 3 + 5.33 * B ^ 4 - 2 := by
    nlinarith [sq_nonneg (B ^ 2 - 2 * B + 1), sq_nonneg (B - 9 / 10), mul_nonneg hB0 (sq_nonneg (B - 9 / 10))]
  nlinarith [mul_nonneg hk hB0, mul_nonneg hk (sq_nonneg B), sq_nonneg k, mul_nonneg hk (sub_nonneg.mpr hB1)]

theorem beyond_alg {E g p w D A B : ℝ} (hE : 0 < E) (hp : 0 < p) (hw : 0 ≤ w) (hD : 0 < D) (hgE : E ≤ g)
    (hgU : g ≤ E + 169 / 1000 * (16 / 10 * E - 3 * B + 3 * A)) (hpL : E + A / 2 ≤ p) (hpU : p ≤ 2 * E) (hA0 : 0 ≤ A) (hAB : A ≤ B)
    (hB2 : B ^ 2 ≤ 16 / 10 * (E * A)) (hDw : D * w ≤ 103 / 100 * B) : 1 / 2 * D ≤ delta (D * g) p w ∧ delta (D * g) p w ≤ 2 * D := by
  have hg0 : 0 < g := by linarith
  -- the polynomial, in units of E
  have main : 80 * (g * (D * w)) + 25 * g ^ 2 ≤ 60 * p ^ 2 + 20 * g * p := by
    set G := E + 169 / 1000 * (16 / 10 * E - 3 * B + 3 * A) with hG
    have hpoly : 82.4 * (G * B) + 25 * G ^ 2 ≤ 60 * (E + A / 2) ^ 2 + 20 * G * (E + A / 2) := by
      obtain ⟨a, ha⟩ : ∃ a, A = E * a := ⟨A / E, by field_simp⟩
      obtain ⟨b, hb⟩ : ∃ b, B = E * b := ⟨B / E, by field_simp⟩
      have ha0 : 0 ≤ a := nonneg_of_mul_nonneg_right (ha ▸ hA0) hE
      have hab : a ≤ b := le_of_mul_le_mul_left (by rw [← ha, ← hb]; exact hAB) hE
      have hb2 : b ^ 2 ≤ 16 / 10 * a := by
        have : E ^ 2 * b ^ 2 ≤ E ^ 2 * (16 / 10 * a) := by
          rw [ha, hb] at hB2
          linarith
        exact le_of_mul_le_mul_left this (by positivity)
      have := mul_le_mul_of_nonneg_left (beyond_poly ha0 hab hb2) (sq_nonneg E)
      rw [hG, ha, hb]
      linarith
    have hG0 : 0 < G := by linarith
    by_cases hc : 25 * g + 82.4 * B - 20 * p ≤ 0
    · have h2 := mul_le_mul_of_nonneg_left hDw hg0.le
      have h3 := mul_le_mul_of_nonneg_left hc hg0.le
      have h4 : 0 ≤ 60 * p ^ 2 := by positivity
      linarith
    · have hc := not_le.mp hc
      have h2 := mul_le_mul_of_nonneg_left hDw hg0.le
      have h3 := mul_le_mul_of_nonneg_right hgU hc.le
      have h4 : 25 * g + 82.4 * B - 20 * p ≤ 25 * G + 82.4 * B - 20 * (E + A / 2) := by linarith
      have h5 := mul_le_mul_of_nonneg_left h4 hG0.le
      have h6 : (E + A / 2) ^ 2 ≤ p ^ 2 := pow_le_pow_left₀ (by positivity) hpL 2
      linarith
  have hgw : 0 ≤ g * (D * w) := by positivity
  constructor
  · have hPw : D * g * w = g * (D * w) := by ring
    refine le_delta hp (by positivity) (by rw [hPw]; exact hgw) ?_ ?_
    · rw [hPw]
      nlinarith [sq_nonneg (5 * g - 2 * p)]
    · nlinarith
  · refine delta_le hp (by positivity) ?_
    have h5 : (5 * g - 2 * p) ^ 2 ≤ 2 ^ 2 * (16 * p ^ 2 - 20 * (g * (D * w))) := by linarith
    calc (5 * (D * g) - 2 * D * p) ^ 2 = D ^ 2 * (5 * g - 2 * p) ^ 2 := by ring
      _ ≤ D ^ 2 * (2 ^ 2 * (16 * p ^ 2 - 20 * (g * (D * w)))) := mul_le_mul_of_nonneg_left h5 (sq_nonneg D)
      _ = _ := by ring

theorem next_beyond {e s z : ℝ} (h1 : 1 < e) (hs : 0 ≤ s) (hz : 0 < z) (hD1 : s + z ≤ 3 / 8) (h : e * (s + z) ^ 2 ≤ 16 / 10 * (e - 1)) :
    -z + 1 / 2 * (s + z) ≤ next e s (-z) ∧ next e s (-z) ≤ s + (s + z) := by
  have he : 0 < e := by linarith
  have hE : 0 < e - 1 := by linarith
  have hD : 0 < s + z := by linarith
  have hnext : next e s (-z) = -z + delta (e * (Real.sinh s + Real.sinh z) - (s + z)) (slope e z) (e * Real.sinh z) := by
    rw [next_eq, Real.sinh_neg, show slope e (-z) = slope e z by unfold slope; rw [Real.cosh_neg]]
    simp only [sub_neg_eq_add, mul_neg, neg_neg]
  have hp := slope_pos h1 z
  have hsz : 0 ≤ Real.sinh z := sinh_nonneg hz.le
  set D := s + z with hDd
  set P := e * (Real.sinh s + Real.sinh z) - D with hP
  set p := slope e z with hpd
  set w := e * Real.sinh z with hwd
  have hw : 0 ≤ w := mul_nonneg he.le hsz
  obtain ⟨g, hg⟩ : ∃ g, P = D * g := ⟨P / D, by field_simp⟩
  -- bounds
  have hgE : e - 1 ≤ g := by
    have h2 : Real.sinh s + Real.sinh z ≥ s + z := add_le_add (Real.self_le_sinh_iff.mpr hs) (Real.self_le_sinh_iff.mpr hz.le)
    have h3 := mul_le_mul_of_nonneg_left h2 he.le
    have h4 : D * (e - 1) ≤ D * g := by rw [← hg, hP]; linarith
    exact le_of_mul_le_mul_left h4 hD
  have cube : ∀ t, 0 ≤ t → t ≤ 3 / 8 → Real.sinh t - t ≤ 169 / 1000 * t ^ 3 := by
    intro t ht ht1
    have h2 := sinh_le_unit5 ht (by linarith)
    have h3 : t ^ 2 ≤ 9 / 64 := by nlinarith
    have h4 : t ^ 5 ≤ 9 / 64 * t ^ 3 := by
      have := mul_le_mul_of_nonneg_right h3 (show 0 ≤ t ^ 3 by positivity)
      linarith
    have : 0 ≤ t ^ 3 := by positivity
    linarith
  set A := e * z ^ 2 with hA
  set B := e * (z * D) with hB
  have hA0 : 0 ≤ A := by positivity
  have hAB : A ≤ B := mul_le_mul_of_nonneg_left (by rw [hDd]; nlinarith) he.le
  have hB2 : B ^ 2 ≤ 16 / 10 * ((e - 1) * A) := by
    have := mul_le_mul_of_nonneg_left h hA0
    calc B ^ 2 = A * (e * D ^ 2) := by rw [hA, hB]; ring
      _ ≤ _ := this
      _ = _ := by ring
  have hgU : g ≤ (e - 1) + 169 / 1000 * (16 / 10 * (e - 1) - 3 * B + 3 * A) := by
    have h2 := add_le_add (cube s hs (by linarith)) (cube z hz.le (by linarith))
    have h3 := mul_le_mul_of_nonneg_left h2 he.le
    have h4 : D * g ≤ D * ((e - 1) + 169 / 1000 * (e * D ^ 2 - 3 * B + 3 * A)) := by
      have e1 : D * (e * D ^ 2 - 3 * B + 3 * A) = e * (s ^ 3 + z ^ 3) := by rw [hA, hB, hDd]; ring
      have e2 : D * ((e - 1) + 169 / 1000 * (e * D ^ 2 - 3 * B + 3 * A)) = D * (e - 1) + 169 / 1000 * (D * (e * D ^ 2 - 3 * B + 3 * A)) := by ring
      rw [e2, e1, ← hg, hP]
      rw [hDd] at *
      linarith
    have := le_of_mul_le_mul_left h4 hD
    linarith
  have hpL : (e - 1) + A / 2 ≤ p := by
    have := mul_le_mul_of_nonneg_left (cosh_ge2 hz.le) he.le
    rw [hpd, slope_eq, hA]
    linarith
  have hAE : A ≤ 16 / 10 * (e - 1) := by
    refine le_trans ?_ h
    exact mul_le_mul_of_nonneg_left (pow_le_pow_left₀ hz.le (by rw [hDd]; linarith) 2) he.le
  have hpU : p ≤ 2 * (e - 1) := by
    have := mul_le_mul_of_nonneg_left (cosh_le_unit2 hz.le (by linarith)) he.le
    rw [hpd, slope_eq]
    rw [hA] at hAE
    linarith
  have hDw : D * w ≤ 103 / 100 * B := by
    have h2 : Real.sinh z ≤ 103 / 100 * z := by
      have := cube z hz.le (by linarith)
      have h3 : z ^ 2 ≤ 9 / 64 := by nlinarith
      have h4 := mul_le_mul_of_nonneg_left h3 hz.le
      nlinarith
    have := mul_le_mul_of_nonneg_left h2 (show 0 ≤ D * e by positivity)
    rw [hwd, hB]
    linarith
  obtain ⟨h5, h6⟩ := beyond_alg hE hp hw hD hgE hgU hpL hpU hA0 hAB hB2 hDw
  rw [hnext, hg]
  constructor <;> linarith

/-! ## The region that the iteration does not leave -/

/-- distance from the root, counted more below the root -/
noncomputable def dist (s x : ℝ) : ℝ := if s ≤ x then x - s else 7 / 5 * (s - x)

theorem dist_nonneg (s x : ℝ) : 0 ≤ dist s x := by
  unfold dist
  split_ifs with h
  · linarith
  · linarith [not_le.mp h]

def Wide (s x : ℝ) : Prop := s - x ≤ 1 ∧ (s - x) * Real.cosh x ≤ 5 / 2 * Real.sinh x

def Tame (e s x : ℝ) : Prop := s - x ≤ 3 / 8 ∧ e * (Real.cosh s - 1) ≤ 2 * (e - 1) ∧ e * (s - x) ^ 2 ≤ 16 / 10 * (e - 1)

def Good (e s x : ℝ) : Prop := (s ≤ x ∧ x - s ≤ 3 / 5) ∨ x < s ∧ (Wide s x ∨ Tame e s x)

theorem good_step {e s x : ℝ} (h1 : 1 < e) (hs : 0 ≤ s) (h : Good e s x) : Good e s (next e s x) ∧ dist s (next e s x) ≤ 7 / 8 * dist s x := by
  rcases h with ⟨hsx, hd⟩ | ⟨hxs, h⟩
  · rcases hsx.eq_or_lt with rfl | hsx'
    · have : next e s s = s := by simp [next, rise, delta]
      rw [this]
      exact ⟨.inl ⟨le_rfl, by norm_num⟩, by simp [dist]⟩
    obtain ⟨h2, h3⟩ := next_above h1 hs hsx' hd
    have hdist : dist s x = x - s := if_pos hsx
    by_cases hn : s ≤ next e s x
    · refine ⟨.inl ⟨hn, by linarith⟩, ?_⟩
      rw [hdist, dist, if_pos hn]
      linarith
    · have hn' := not_le.mp hn
      refine ⟨.inr ⟨hn', ?_⟩, ?_⟩
      · by_cases hb : 3 * x ≤ 10 * s
        · left
          have h4 := next_above_wide h1 hs hsx' hd hb
          set y := next e s x
          have hy : 0 < y := by linarith
          refine ⟨by linarith, ?_⟩
          have h5 : Real.cosh y - Real.sinh y ≤ 1 := by
            rw [Real.cosh_sub_sinh]
            exact Real.exp_le_one_iff.mpr (by linarith)
          have h6 := Real.self_le_sinh_iff.mpr hy.le
          have h7 : 0 ≤ Real.sinh y := by linarith
          have h8 := mul_le_mul_of_nonneg_left h5 (show 0 ≤ s - y by linarith)
          have h9 : (s - y) * Real.sinh y ≤ 12 / 100 * Real.sinh y := mul_le_mul_of_nonneg_right (by linarith) h7
          linarith
        · right
          obtain ⟨h4, h5⟩ := overshoot h1 hs (not_le.mp hb).le hsx' hd hn'
          exact ⟨by linarith, h4, h5⟩
      · rw [hdist, dist, if_neg hn]
        linarith
  · have hsx : ¬ s ≤ x := not_le.mpr hxs
    have hdist : dist s x = 7 / 5 * (s - x) := if_neg hsx
    rcases h with ⟨h2, h3⟩ | ⟨h2, h3, h4⟩
    · obtain ⟨h4, h5⟩ := next_below_wide h1 hxs h2 h3
      by_cases hn : s ≤ next e s x
      · refine ⟨.inl ⟨hn, by linarith⟩, ?_⟩
        rw [hdist, dist, if_pos hn]
        linarith
      · have hn' := not_le.mp hn
        refine ⟨.inr ⟨hn', .inl ⟨by linarith, ?_⟩⟩, ?_⟩
        · set y := next e s x
          have hxy : x ≤ y := by linarith
          have hsx : 0 < Real.sinh x := by
            have := mul_pos (sub_pos.mpr hxs) (Real.cosh_pos x)
            linarith
          have hsy : 0 < Real.sinh y := hsx.trans_le (Real.sinh_le_sinh.mpr hxy)
          have h6 := mul_le_mul_of_nonneg_left (cosh_mul_sinh_le hxy) (show 0 ≤ s - y by linarith)
          have h7 : (s - y) * (Real.sinh y * Real.cosh x) ≤ (s - x) * (Real.sinh y * Real.cosh x) :=
            mul_le_mul_of_nonneg_right (by linarith) (mul_nonneg hsy.le (Real.cosh_pos x).le)
          have h8 := mul_le_mul_of_nonneg_left h3 hsy.le
          have h9 : Real.sinh x * ((s - y) * Real.cosh y) ≤ Real.sinh x * (5 / 2 * Real.sinh y) := by linarith
          exact le_of_mul_le_mul_left h9 hsx
        · rw [hdist, dist, if_neg hn]
          linarith
    · have hstep : x + 1 / 2 * (s - x) ≤ next e s x ∧ next e s x ≤ s + (s - x) := by
        rcases le_or_gt 0 x with hx | hx
        · exact next_below_tame h1 hx hxs h3
        · obtain ⟨z, rfl⟩ : ∃ z, x = -z := ⟨-x, by ring⟩
          rw [sub_neg_eq_add] at *
          exact next_beyond h1 hs (by linarith) h2 h4
      obtain ⟨h5, h6⟩ := hstep
      by_cases hn : s ≤ next e s x
      · refine ⟨.inl ⟨hn, by linarith⟩, ?_⟩
        rw [hdist, dist, if_pos hn]
        linarith
      · have hn' := not_le.mp hn
        refine ⟨.inr ⟨hn', .inr ⟨by linarith, h3, ?_⟩⟩, ?_⟩
        · exact (mul_le_mul_of_nonneg_left (pow_le_pow_left₀ (by linarith) (by linarith) 2) (by linarith)).trans h4
        · rw [hdist, dist, if_neg hn]
          linarith

theorem good_iterate {e s : ℝ} (h1 : 1 < e) (hs : 0 ≤ s) (n : Nat) :
    ∀ x, Good e s x → Good e s ((next e s)^[n] x) ∧ dist s ((next e s)^[n] x) ≤ (7 / 8) ^ n * dist s x := by
  induction n with
  | zero => intro x hx; simpa using hx
  | succ n ih =>
    intro x hx
    obtain ⟨h2, h3⟩ := good_step h1 hs hx
    rw [Function.iterate_succ_apply]
    refine ⟨(ih _ h2).1, (ih _ h2).2.trans ?_⟩
    rw [pow_succ]
    have := mul_le_mul_of_nonneg_left h3 (show (0 : ℝ) ≤ (7 / 8) ^ n by positivity)
    linarith

theorem abs_sinh_sub_le {x y m : ℝ} (hx : |x| ≤ m) (hy : |y| ≤ m) : |Real.sinh x - Real.sinh y| ≤ Real.cosh m * |x - y| := by
  wlog h : y ≤ x generalizing x y
  · have := this hy hx (not_le.mp h).le
    rwa [abs_sub_comm, abs_sub_comm x y]
  have hm : 0 ≤ m := (abs_nonneg x).trans hx
  have h2 := le_of_deriv (f := fun t => Real.cosh m * t - Real.sinh t) (f' := fun t => Real.cosh m - Real.cosh t) h
    (fun t => by
      refine (((hasDerivAt_id t).const_mul (Real.cosh m)).sub (Real.hasDerivAt_sinh t)).congr_deriv ?_
      simp)
    (fun t ht hty => by
      refine sub_nonneg.mpr (Real.cosh_le_cosh.mpr ?_)
      rw [abs_of_nonneg hm, abs_le]
      rw [abs_le] at hx hy
      constructor <;> linarith)
  rw [abs_of_nonneg (sub_nonneg.mpr (Real.sinh_le_sinh.mpr h)), abs_of_nonneg (sub_nonneg.mpr h)]
  linarith

/-- the residual in terms of the distance -/
theorem rise_le_dist {e s x : ℝ} (h1 : 1 < e) (hs : 0 ≤ s) (h : Good e s x) : |rise e s x| ≤ e * Real.cosh (s + 3 / 5) * dist s x := by
  have he : 0 ≤ e := by linarith
  have hdx : |x - s| ≤ dist s x := by
    unfold dist
    split_ifs with hsx
    · rw [abs_of_nonneg (by linarith)]
    · have := not_le.mp hsx
      rw [abs_of_neg (by linarith)]
      linarith
  have hxm : |x| ≤ s + 3 / 5 := by
    rcases h with ⟨h2, h3⟩ | ⟨h2, h3⟩
    · rw [abs_of_nonneg (by linarith)]
      linarith
    · have : -(3 / 8) ≤ x := by
        rcases h3 with ⟨h4, h5⟩ | ⟨h4, -⟩
        · have hsx : 0 < Real.sinh x := by
            have := mul_pos (sub_pos.mpr h2) (Real.cosh_pos x)
            linarith
          have := Real.sinh_pos_iff.mp hsx
          linarith
        · linarith
      rw [abs_le]
      constructor <;> linarith
  have h2 := abs_sinh_sub_le hxm (show |s| ≤ s + 3 / 5 by rw [abs_of_nonneg hs]; linarith)
  have hmono : 0 ≤ (x - s) * (Real.sinh x - Real.sinh s) := by
    rcases le_total s x with hsx | hsx
    · exact mul_nonneg (by linarith) (sub_nonneg.mpr (Real.sinh_le_sinh.mpr hsx))
    · exact mul_nonneg_of_nonpos_of_nonpos (by linarith) (sub_nonpos.mpr (Real.sinh_le_sinh.mpr hsx))
  have h3 : |rise e s x| ≤ e * |Real.sinh x - Real.sinh s| := by
    have hx1 : |x - s| ≤ |Real.sinh x - Real.sinh s| := by
      rcases le_total s x with hsx | hsx
      · have := le_of_deriv (f := fun t => Real.sinh t - t) (f' := fun t => Real.cosh t - 1) hsx
          (fun t => (Real.hasDerivAt_sinh t).sub (hasDerivAt_id t)) (fun t _ _ => one_le_cosh' t)
        rw [abs_of_nonneg (by linarith), abs_of_nonneg (sub_nonneg.mpr (Real.sinh_le_sinh.mpr hsx))]
        linarith
      · have := le_of_deriv (f := fun t => Real.sinh t - t) (f' := fun t => Real.cosh t - 1) hsx
          (fun t => (Real.hasDerivAt_sinh t).sub (hasDerivAt_id t)) (fun t _ _ => one_le_cosh' t)
        rw [abs_of_nonpos (by linarith), abs_of_nonpos (sub_nonpos.mpr (Real.sinh_le_sinh.mpr hsx))]
        linarith
    unfold rise
    rcases le_total s x with hsx | hsx
    · have h4 := sub_nonneg.mpr (Real.sinh_le_sinh.mpr hsx)
      rw [abs_of_nonneg (show 0 ≤ x - s by linarith), abs_of_nonneg h4] at hx1
      rw [abs_of_nonneg h4, abs_le]
      constructor <;> nlinarith
    · have h4 := sub_nonpos.mpr (Real.sinh_le_sinh.mpr hsx)
      rw [abs_of_nonpos (show x - s ≤ 0 by linarith), abs_of_nonpos h4] at hx1
      rw [abs_of_nonpos h4, abs_le]
      constructor <;> nlinarith
  have h4 := mul_le_mul_of_nonneg_left h2 he
  have h5 := mul_le_mul_of_nonneg_left hdx (mul_nonneg he (Real.cosh_pos (s + 3 / 5)).le)
  linarith

/-! ## The starting value -/

/-- the code's starting value -/
noncomputable def guess (e M : ℝ) : ℝ := Real.log (2 * M / e + 9 / 5)

theorem exp_three_fifths : 1822 / 1000 ≤ Real.exp (3 / 5) := by
  have h := Real.sum_le_exp_of_nonneg (show (0 : ℝ) ≤ 3 / 5 by norm_num) 6
  refine le_trans ?_ h
  norm_num [Finset.sum_range_succ, Nat.factorial]

theorem guess_good {e M s : ℝ} (h1 : 1 < e) (hs : 0 ≤ s) (hM : e * Real.sinh s - s = M) :
    Good e s (guess e M) ∧ dist s (guess e M) ≤ 7 / 5 ∧ e * Real.cosh (s + 3 / 5) ≤ 10 * (M + e) := by
  have he : 0 < e := by linarith
  have hM0 : 0 ≤ M := by
    have h2 := Real.self_le_sinh_iff.mpr hs
    have := mul_le_mul h1.le h2 hs he.le
    linarith
  set q := 2 * M / e + 9 / 5 with hq
  have hq18 : 9 / 5 ≤ q := by
    have : 0 ≤ 2 * M / e := by positivity
    linarith
  have hq0 : 0 < q := by linarith
  set x := guess e M with hx
  have hxq : Real.exp x = q := by rw [hx, guess, Real.exp_log hq0]
  set a := Real.exp s with ha
  have ha1 : 1 ≤ a := Real.one_le_exp hs
  have ha0 : 0 < a := by linarith
  have hsinh : 2 * Real.sinh s = a - 1 / a := by rw [Real.sinh_eq, ha, Real.exp_neg, one_div]; ring
  have hqe : q = a - 1 / a - 2 * s / e + 9 / 5 := by
    rw [hq, ← hM, ← hsinh]
    field_simp
  have hse : 0 ≤ 2 * s / e := by positivity
  have hse1 : 2 * s / e ≤ 2 * s := div_le_self (by linarith) h1.le
  have hia : 0 < 1 / a := by positivity
  have hia1 : a * (1 / a) = 1 := by field_simp
  -- not far above
  have hup : x ≤ s + 3 / 5 := by
    rw [← Real.exp_le_exp, hxq, Real.exp_add, ← ha]
    have h2 := mul_le_mul_of_nonneg_left exp_three_fifths ha0.le
    refine le_trans ?_ h2
    rw [hqe]
    have h3 : 9 / 5 ≤ 822 / 1000 * a + 1 / a := by
      have : a * (9 / 5) ≤ a * (822 / 1000 * a + 1 / a) := by
        rw [mul_add, hia1]
        nlinarith [sq_nonneg (a - 11 / 10)]
      exact le_of_mul_le_mul_left this ha0
    linarith
  -- not far below
  have hdown : s ≤ x + 1 := by
    rw [← Real.exp_le_exp, Real.exp_add, hxq, ← ha]
    have h2 := Real.exp_one_gt_d9
    have h3 : a ≤ q * (27 / 10) := by
      rw [hqe]
      have h4 : 1 / a ≤ 1 := by rw [div_le_one ha0]; exact ha1
      have h5 : 1 + s + s ^ 2 / 2 + s ^ 3 / 6 ≤ a := by
        have h := Real.sum_le_exp_of_nonneg hs 4
        refine le_trans (le_of_eq ?_) h
        norm_num [Finset.sum_range_succ, Nat.factorial]
      nlinarith [mul_nonneg hs (sq_nonneg (s - 3 / 2)), sq_nonneg (s - 3 / 2)]
    have := mul_le_mul_of_nonneg_left (show (27 / 10 : ℝ) ≤ Real.exp 1 by linarith) hq0.le
    linarith
  have hgood : Good e s x := by
    rcases le_or_gt s x with hsx | hsx
    · exact .inl ⟨hsx, by linarith⟩
    · refine .inr ⟨hsx, .inl ⟨by linarith, ?_⟩⟩
      have h2 : Real.cosh x ≤ 5 / 2 * Real.sinh x := by
        rw [Real.cosh_eq, Real.sinh_eq, Real.exp_neg, hxq]
        have h3 : q⁻¹ ≤ 5 / 9 := by
          rw [inv_le_comm₀ hq0 (by norm_num)]
          norm_num
          linarith
        linarith
      exact (mul_le_of_le_one_left (Real.cosh_pos x).le (by linarith)).trans h2
  refine ⟨hgood, ?_, ?_⟩
  · unfold dist
    split_ifs with hsx <;> linarith
  · have h2 : Real.cosh (s + 3 / 5) ≤ Real.exp (s + 3 / 5) := by
      have h3 : Real.exp (-(s + 3 / 5)) ≤ Real.exp (s + 3 / 5) := Real.exp_le_exp.mpr (by linarith)
      rw [Real.cosh_eq]
      linarith
    have h3 : Real.exp (3 / 5) ≤ 183 / 100 := by
      have h4 : Real.exp (3 / 5) ^ 5 = Real.exp 1 ^ 3 := by
        rw [← Real.exp_nat_mul, ← Real.exp_nat_mul]; norm_num
      by_contra hlt
      have h5 := pow_lt_pow_left₀ (not_le.mp hlt) (by norm_num) (show (5 : ℕ) ≠ 0 by norm_num)
      have h6 := pow_lt_pow_left₀ Real.exp_one_lt_d9 (Real.exp_pos 1).le (show (3 : ℕ) ≠ 0 by norm_num)
      rw [h4] at h5
      have := h5.trans h6
      norm_num at this
    have h4 : a ≤ q * (272 / 100) := by
      have h5 := Real.exp_le_exp.mpr hdown
      rw [Real.exp_add, hxq] at h5
      have h6 := Real.exp_one_lt_d9
      have := mul_le_mul_of_nonneg_left (show Real.exp 1 ≤ 272 / 100 by linarith) hq0.le
      linarith
    rw [Real.exp_add] at h2
    have h5 := mul_le_mul_of_nonneg_left h3 ha0.le
    have h6 : e * q = 2 * M + 9 / 5 * e := by rw [hq]; field_simp
    have h7 := mul_le_mul_of_nonneg_left h4 he.le
    have h8 := mul_le_mul_of_nonneg_left (h2.trans h5) he.le
    nlinarith

/-- the iteration reaches any residual -/
theorem reaches {e M s : ℝ} (h1 : 1 < e) (hs : 0 ≤ s) (hM : e * Real.sinh s - s = M) {tol : ℝ} {K : Nat}
    (hK : 14 * (M + e) * (7 / 8) ^ K < tol) : |rise e s ((next e s)^[K] (guess e M))| < tol := by
  obtain ⟨h2, h3, h4⟩ := guess_good h1 hs hM
  obtain ⟨h5, h6⟩ := good_iterate h1 hs K _ h2
  have h7 := rise_le_dist h1 hs h5
  have h8 := mul_le_mul h4 (h6.trans (mul_le_mul_of_nonneg_left h3 (by positivity))) (dist_nonneg s _)
    ((mul_nonneg (by linarith) (Real.cosh_pos _).le).trans h4)
  linarith

end Pyorb.Lag.Hyp
