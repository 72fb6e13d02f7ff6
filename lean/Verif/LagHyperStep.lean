import Verif.LagHyperRound

/-!
# Laguerre steps with a relative error in the correction, for the hyperbolic Kepler equation with any `e > 1`

Far above the root the error may be 1/200, elsewhere 1/10: the iteration stays in the region `Good` and contracts.
-/

namespace Pyorb.Lag.Hyp

/-- a step whose correction has the relative error `q` -/
noncomputable def pnext (q e s x : ℝ) : ℝ := x - (1 + q) * (x - next e s x)

/-! ## Overshooting from above -/

/-- the numerator of an overshoot with an error of 1/200 -/
noncomputable def pover (x b : ℝ) : ℝ :=
  (5025 / 1000 * (x + (1 + b + b ^ 2) / 3) - (1 + x)) ^ 2 - 16 * (1 + x) ^ 2 + 20 * (x + (1 + b + b ^ 2) / 3) * (206 / 100 - 1914 / 1000 * b)

theorem pover_le {x b : ℝ} (hx : 0 < x) (hx1 : x ≤ 51 / 100) (hb0 : 0 ≤ b) (hb1 : b ≤ 3 / 10) :
    pover x b ≤ 1474 / 100 * x - 1811 / 1000 + b * (45 / 10 - 207 / 10 * x) := by
  have e1 : pover x b = 200625 / 10 ^ 6 * x ^ 2 + x * (14633750 / 10 ^ 6 - b * (24796250 / 10 ^ 6 - 13483750 / 10 ^ 6 * b))
      + pover 0 b := by
    unfold pover; ring
  have h1 : x ^ 2 ≤ 51 / 100 * x := by rw [pow_two]; exact mul_le_mul_of_nonneg_right hx1 hx.le
  have h2 : b * (2075 / 100) ≤ b * (24796250 / 10 ^ 6 - 13483750 / 10 ^ 6 * b) := mul_le_mul_of_nonneg_left (by linarith) hb0
  have h3 := mul_le_mul_of_nonneg_left h2 hx.le
  have h4 : pover 0 b ≤ -(1811 / 1000) + b * (45 / 10) := by
    unfold pover
    nlinarith [mul_nonneg hb0 (sub_nonneg.mpr hb1), mul_nonneg (mul_nonneg hb0 hb0) (sub_nonneg.mpr hb1),
      mul_nonneg (mul_nonneg (mul_nonneg hb0 hb0) hb0) (sub_nonneg.mpr hb1)]
  have h5 : 0 ≤ b * x := mul_nonneg hb0 hx.le
  rw [e1]
  linarith

theorem pover_root {x b : ℝ} (hx : 0 < x) (hx1 : x ≤ 51 / 100) (hb0 : 0 ≤ b) (hb1 : b ≤ 3 / 10) (h : 0 < pover x b) : b ^ 2 ≤ 2 * x := by
  by_contra hlt
  have hlt := not_le.mp hlt
  have h1 := pover_le hx hx1 hb0 hb1
  have h2 : 0 ≤ (b ^ 2 / 2 - x) * (1474 / 100 - 207 / 10 * b) := mul_nonneg (by linarith) (by linarith)
  nlinarith [mul_nonneg hb0 (sub_nonneg.mpr hb1), mul_nonneg (mul_nonneg hb0 hb0) (sub_nonneg.mpr hb1)]

theorem pover_distance {x b r : ℝ} (hx : 0 < x) (hx1 : x ≤ 51 / 100) (hb0 : 0 ≤ b) (hb1 : b ≤ 3 / 10)
    (h : r * (167 / 100 * (1 + x) * (4695 / 1000 * x + 1345 / 1000)) ≤ (1 - b) * pover x b) (hr : 0 < r) : r ^ 2 ≤ 8 / 10 * x := by
  have h1 := mul_le_mul_of_nonneg_left (pover_le hx hx1 hb0 hb1) (show 0 ≤ 1 - b by linarith)
  have h2 : (1 - b) * (1474 / 100 * x - 1811 / 1000 + b * (45 / 10 - 207 / 10 * x)) * (x + 4 / 10) ≤
      (1474 / 100 * x - 1811 / 1000) * (x + 4 / 10) + 14884 / 10000 * max 0 (1 - 463 / 100 * x) * (x + 4 / 10) := by
    have e1 : (1 - b) * (1474 / 100 * x - 1811 / 1000 + b * (45 / 10 - 207 / 10 * x)) =
        (1474 / 100 * x - 1811 / 1000) + (b * (6311 / 1000 - 45 / 10 * b) - b * x * (3544 / 100 - 207 / 10 * b)) := by ring
    have h3 : 0 ≤ b * x := mul_nonneg hb0 hx.le
    have h4 : b * x * (2923 / 100) ≤ b * x * (3544 / 100 - 207 / 10 * b) := mul_le_mul_of_nonneg_left (by linarith) h3
    set m := b * (6311 / 1000 - 45 / 10 * b) with hm
    have h5 : m ≤ 14884 / 10000 := by rw [hm]; nlinarith
    have h6 : m ≤ 6311 / 1000 * b := by rw [hm]; nlinarith [mul_nonneg hb0 hb0]
    have h7 : 0 ≤ m := mul_nonneg hb0 (by linarith)
    have h8 : 463 / 100 * (m * x) ≤ b * x * (2923 / 100) := by
      have := mul_le_mul_of_nonneg_right h6 hx.le
      linarith
    have h9 : m * (1 - 463 / 100 * x) ≤ 14884 / 10000 * max 0 (1 - 463 / 100 * x) :=
      (mul_le_mul_of_nonneg_left (le_max_right 0 _) h7).trans (mul_le_mul_of_nonneg_right h5 (le_max_left 0 _))
    rw [e1, ← add_mul]
    exact mul_le_mul_of_nonneg_right (by linarith) (by linarith)
  have h3 : (1474 / 100 * x - 1811 / 1000) * (x + 4 / 10) + 14884 / 10000 * max 0 (1 - 463 / 100 * x) * (x + 4 / 10) ≤
      1131 / 1000 * x * (167 / 100 * (1 + x) * (4695 / 1000 * x + 1345 / 1000)) := by
    rcases le_total 0 (1 - 463 / 100 * x) with h4 | h4
    · rw [max_eq_right h4]
      nlinarith [mul_nonneg hx.le (sq_nonneg x), mul_nonneg hx.le h4, sq_nonneg (x - 4 / 100)]
    · rw [max_eq_left h4]
      nlinarith [mul_nonneg hx.le (sq_nonneg (x - 4 / 10)), sq_nonneg (x - 4 / 10)]
  set A := 167 / 100 * (1 + x) * (4695 / 1000 * x + 1345 / 1000) with hA
  have hA0 : 0 < A := by positivity
  have h4 : r * (x + 4 / 10) ≤ 1131 / 1000 * x := by
    have h5 : A * (r * (x + 4 / 10)) ≤ A * (1131 / 1000 * x) := by
      have h6 := mul_le_mul_of_nonneg_right (h.trans h1) (show 0 ≤ x + 4 / 10 by linarith)
      linarith
    exact le_of_mul_le_mul_left h5 hA0
  have h5 := pow_le_pow_left₀ (by positivity) h4 2
  have h6 : x * (16 / 10 * r ^ 2) ≤ x * (128 / 100 * x) := by nlinarith [mul_nonneg (sq_nonneg r) (sq_nonneg (x - 4 / 10))]
  have := le_of_mul_le_mul_left h6 hx
  linarith

/-- the algebra of an overshoot, in units of `c` and `y` -/
theorem povershoot_unit {x b v q r : ℝ} (hx : 0 < x) (hb0 : 0 ≤ b) (hb1 : b ≤ 3 / 10) (hv : v ≤ 206 / 100 - 1914 / 1000 * b) (hq0 : 0 ≤ q)
    (hq : q ^ 2 = 16 * (1 + x) ^ 2 - 20 * (x + (1 + b + b ^ 2) / 3) * v) (hr : 0 < r) (hr1 : r ≤ 634 / 1000)
    (h : (1 - b + r) * (1 + x + q) ≤ 5025 / 1000 * (1 - b) * (x + (1 + b + b ^ 2) / 3)) : b ^ 2 ≤ 2 * x ∧ r ^ 2 ≤ 8 / 10 * x := by
  by_cases hx1 : x ≤ 51 / 100
  swap
  · have hx1 := not_le.mp hx1
    have e1 : b ^ 2 ≤ (3 / 10) ^ 2 := pow_le_pow_left₀ hb0 hb1 2
    have e2 : r ^ 2 ≤ (634 / 1000) ^ 2 := pow_le_pow_left₀ hr.le hr1 2
    constructor <;> linarith
  have hR := overshoot_radicand hx hb0 hv
  rw [← hq] at hR
  have hqx := (abs_le_of_sq_le_sq' hR hq0).2
  obtain ⟨g, hg⟩ : ∃ g, g = x + (1 + b + b ^ 2) / 3 := ⟨_, rfl⟩
  have hg0 : x + 1 / 3 ≤ g := by
    have := sq_nonneg b
    rw [hg]; linarith
  rw [← hg] at h hq
  have hr1 : r * (1 + x + q) ≤ (1 - b) * (5025 / 1000 * g - (1 + x) - q) := by linarith
  have hpos : 0 < 5025 / 1000 * g - (1 + x) - q := by
    by_contra hneg
    have h4 : (1 - b) * (5025 / 1000 * g - (1 + x) - q) ≤ 0 := mul_nonpos_of_nonneg_of_nonpos (by linarith) (not_lt.mp hneg)
    have h5 : 0 < r * (1 + x + q) := mul_pos hr (by linarith)
    linarith
  have hprod : r * ((1 + x + q) * (5025 / 1000 * g - (1 + x) + q)) ≤ (1 - b) * pover x b := by
    have h4 : r * ((1 + x + q) * (5025 / 1000 * g - (1 + x) + q)) ≤ (1 - b) * ((5025 / 1000 * g - (1 + x)) ^ 2 - q ^ 2) := by
      have := mul_le_mul_of_nonneg_right hr1 (show 0 ≤ 5025 / 1000 * g - (1 + x) + q by linarith)
      linarith
    have h5 : (5025 / 1000 * g - (1 + x)) ^ 2 - q ^ 2 ≤ pover x b := by
      rw [hq, pover, ← hg]
      have := mul_le_mul_of_nonneg_left hv (show 0 ≤ 20 * g by linarith)
      linarith
    have := mul_le_mul_of_nonneg_left h5 (show 0 ≤ 1 - b by linarith)
    linarith
  have hover : 0 < pover x b := by
    by_contra hneg
    have h4 : (1 - b) * pover x b ≤ 0 := mul_nonpos_of_nonneg_of_nonpos (by linarith) (not_lt.mp hneg)
    have h5 : 0 < r * ((1 + x + q) * (5025 / 1000 * g - (1 + x) + q)) := mul_pos hr (mul_pos (by linarith) (by linarith))
    linarith
  refine ⟨pover_root hx hx1 hb0 hb1 hover, pover_distance hx hx1 hb0 hb1 (le_trans (mul_le_mul_of_nonneg_left ?_ hr.le) hprod) hr⟩
  exact mul_le_mul (by linarith) (by linarith) (by linarith) (by linarith)

theorem povershoot_alg {E c p b y d u w g F r : ℝ} (hE : 0 < E) (hc0 : 0 < c) (hpc : p = E + c)
    (hb0 : 0 ≤ b) (hb1 : b ≤ 3 / 10) (hy0 : 0 < y) (hd' : d = (1 - b) * y) (hw : 0 ≤ w) (hu : w * d = u)
    (huY : u ≤ c * (206 / 100 - 1914 / 1000 * b))
    (hg : g = E + c * (1 + b + b ^ 2) / 3) (hF0 : 0 ≤ F) (hFg : F ≤ d * g) (hr0 : 0 < r) (hr1 : r ≤ 634 / 1000 * y) (hr : d + r ≤ 201 / 200 * delta F p w) :
    b ^ 2 * c ≤ 2 * E ∧ r ^ 2 * c ≤ 8 / 10 * E * y ^ 2 := by
  obtain ⟨x, rfl⟩ : ∃ x, E = c * x := ⟨E / c, by field_simp⟩
  obtain ⟨v, rfl⟩ : ∃ v, u = c * v := ⟨u / c, by field_simp⟩
  obtain ⟨t, rfl⟩ : ∃ t, r = y * t := ⟨r / y, by field_simp⟩
  have hx : 0 < x := pos_of_mul_pos_right hE hc0.le
  have ht : 0 < t := pos_of_mul_pos_right hr0 hy0.le
  have ht1 : t ≤ 634 / 1000 := le_of_mul_le_mul_left (by linarith) hy0
  have hv := le_of_mul_le_mul_left huY hc0
  have hR := overshoot_radicand hx hb0 hv
  have hp : p = c * (1 + x) := by rw [hpc]; ring
  have hp0 : 0 < p := by rw [hp]; positivity
  have hg' : g = c * (x + (1 + b + b ^ 2) / 3) := by rw [hg]; ring
  set Q := 16 * (1 + x) ^ 2 - 20 * (x + (1 + b + b ^ 2) / 3) * v with hQ
  have hQ0 : 0 ≤ Q := le_trans (sq_nonneg _) hR
  have hRe : 16 * p ^ 2 - 20 * (d * g) * w = c ^ 2 * Q := by
    have : 20 * (d * g) * w = 20 * g * (c * v) := by rw [← hu]; ring
    rw [this, hp, hg', hQ]; ring
  have hmono := delta_mono hp0 hw hF0 hFg (by rw [hRe]; positivity)
  have hsq : √(c ^ 2 * Q) = c * √Q := by rw [Real.sqrt_mul (sq_nonneg c), Real.sqrt_sq hc0.le]
  have h1 := povershoot_unit hx hb0 hb1 hv (Real.sqrt_nonneg Q) (Real.sq_sqrt hQ0) ht ht1 (by
    have h5 : delta (d * g) p w = 5 * (d * g) / (p + c * √Q) := by
      unfold delta
      rw [hRe, abs_of_nonneg (by positivity), hsq]
    have h6 : d + y * t ≤ 201 / 200 * (5 * (d * g) / (p + c * √Q)) := by rw [h5] at hmono; linarith
    rw [← mul_div_assoc, le_div_iff₀ (by positivity), hp, hg', hd'] at h6
    have hcy : 0 < c * y := mul_pos hc0 hy0
    have : c * y * ((1 - b + t) * (1 + x + √Q)) ≤ c * y * (5025 / 1000 * (1 - b) * (x + (1 + b + b ^ 2) / 3)) := by linarith
    exact le_of_mul_le_mul_left this hcy)
  obtain ⟨h2, h3⟩ := h1
  constructor
  · have := mul_le_mul_of_nonneg_left h2 hc0.le
    linarith
  · have := mul_le_mul_of_nonneg_left h3 (show 0 ≤ c * y ^ 2 by positivity)
    linarith

/-- a step from above that ends below the root -/
theorem povershoot {e s y q : ℝ} (h1 : 1 < e) (hs : 0 ≤ s) (hsy : 10 * s ≤ 3 * y) (hsy' : s < y) (hd : y - s ≤ 3 / 5) (hq : q ≤ 1 / 200) (hn : pnext q e s y < s) :
    e * (Real.cosh s - 1) ≤ 2 * (e - 1) ∧ e * (s - pnext q e s y) ^ 2 ≤ 16 / 10 * (e - 1) := by
  have hab := next_above h1 hs hsy' hd
  have hy0 : 0 < y := by linarith
  have he : 0 < e := by linarith
  have hE : 0 < e - 1 := by linarith
  have hch : 0 < Real.cosh y - 1 := by
    have := cosh_ge2 hy0.le
    have : 0 < y ^ 2 := by positivity
    linarith
  obtain ⟨b, rfl⟩ : ∃ b, s = b * y := ⟨s / y, by field_simp⟩
  have hb0 : 0 ≤ b := nonneg_of_mul_nonneg_left hs hy0
  have hb1 : b ≤ 3 / 10 := by
    have : 10 * b * y ≤ 3 * y := by linarith
    have := le_of_mul_le_mul_right this hy0
    linarith
  have hδ : 0 ≤ y - next e (b * y) y := by linarith [hab.2]
  have hqδ := mul_le_mul_of_nonneg_right hq hδ
  have hpn : y - pnext q e (b * y) y = (1 + q) * (y - next e (b * y) y) := by unfold pnext; ring
  set d := y - b * y with hdd
  have hd' : d = (1 - b) * y := by rw [hdd]; ring
  have hd0 : 0 < d := by rw [hdd]; linarith
  set c := e * (Real.cosh y - 1) with hc
  have hc0 : 0 < c := mul_pos he hch
  have hw : 0 ≤ e * Real.sinh y := mul_nonneg he.le (sinh_nonneg hy0.le)
  have huY : e * Real.sinh y * d ≤ c * (206 / 100 - 1914 / 1000 * b) := by
    have h2 := mul_le_mul_of_nonneg_left (mul_sinh_le hy0.le) (mul_nonneg he.le (show 0 ≤ 1 - b by linarith))
    have h3 : (1 - b) * (2 + y ^ 2 / 6) ≤ 206 / 100 - 1914 / 1000 * b := by
      have h4 : d ^ 2 ≤ 9 / 25 := by nlinarith
      have h5 : (1 - b) ^ 2 * y ^ 2 ≤ 9 / 25 := by rw [hd'] at h4; linarith
      have h6 : (1 - b) * ((1 - b) * (2 + y ^ 2 / 6)) ≤ (1 - b) * (206 / 100 - 1914 / 1000 * b) := by nlinarith
      exact le_of_mul_le_mul_left h6 (by linarith)
    have h4 := mul_le_mul_of_nonneg_left h3 hc0.le
    rw [hd']
    calc e * Real.sinh y * ((1 - b) * y) = e * (1 - b) * (y * Real.sinh y) := by ring
      _ ≤ _ := h2
      _ = c * ((1 - b) * (2 + y ^ 2 / 6)) := by rw [hc]; ring
      _ ≤ _ := h4
  have hFg : rise e (b * y) y ≤ d * ((e - 1) + c * (1 + b + b ^ 2) / 3) := by
    have h2 := mul_le_mul_of_nonneg_left (sinh_rise_le hs hsy'.le hy0) he.le
    have e1 : (Real.cosh y - 1) * (y ^ 3 - (b * y) ^ 3) / (3 * y ^ 2) = (Real.cosh y - 1) * ((1 - b) * y) * (1 + b + b ^ 2) / 3 := by
      field_simp
      ring
    rw [e1] at h2
    have e2 : rise e (b * y) y = e * ((Real.sinh y - Real.sinh (b * y)) - (y - b * y)) + (e - 1) * d := by unfold rise; rw [hdd]; ring
    rw [e2, hc, hd']
    rw [hd'] at e2
    linarith
  have hF0 : 0 ≤ rise e (b * y) y := by
    have := rise_third h1 hs hsy' hd
    have := mul_pos hd0 (slope_pos h1 y)
    linarith
  have hdn : delta (rise e (b * y) y) (slope e y) (e * Real.sinh y) = y - next e (b * y) y := by unfold next; ring
  obtain ⟨h2, h3⟩ := povershoot_alg (r := b * y - pnext q e (b * y) y) hE hc0 (slope_eq e y) hb0 hb1 hy0 hd' hw rfl huY rfl hF0 hFg
    (by linarith) (by linarith [hab.1]) (by rw [hdn]; linarith)
  constructor
  · have h4 := mul_le_mul_of_nonneg_left (cosh_chord hs hsy'.le) he.le
    have h5 : y ^ 2 * (e * (Real.cosh (b * y) - 1)) ≤ y ^ 2 * (2 * (e - 1)) := by
      have h6 := mul_le_mul_of_nonneg_left h2 (sq_nonneg y)
      rw [hc] at h6
      linarith
    exact le_of_mul_le_mul_left h5 (by positivity)
  · have h4 : e * y ^ 2 ≤ 2 * c := by
      have := mul_le_mul_of_nonneg_left (cosh_ge2 hy0.le) he.le
      rw [hc]
      linarith
    have h5 := mul_le_mul_of_nonneg_left h3 he.le
    have h6 := mul_le_mul_of_nonneg_left h4 (show 0 ≤ 8 / 10 * (e - 1) by linarith)
    have h7 : c * (e * (b * y - pnext q e (b * y) y) ^ 2) ≤ c * (16 / 10 * (e - 1)) := by linarith
    exact le_of_mul_le_mul_left h7 hc0

/-- how far a step from above can lead -/
theorem next_above_len {e s y : ℝ} (h1 : 1 < e) (hs : 0 ≤ s) (hsy : s < y) (hd : y - s ≤ 3 / 5) : s - 605 / 1000 * (y - s) ≤ next e s y := by
  have hd0 : 0 < y - s := sub_pos.mpr hsy
  have h2 := rise_third h1 hs hsy hd
  have h3 := rise_le h1 (sinh_above hs hsy hd)
  have hp := slope_pos h1 y
  unfold next
  set d := y - s with hdd
  set p := slope e y
  set w := e * Real.sinh y
  obtain ⟨g, hg⟩ : ∃ g, rise e s y = d * g := ⟨rise e s y / d, by field_simp⟩
  rw [hg] at h2 h3 ⊢
  have hg1 : p ≤ 16 / 5 * g := le_of_mul_le_mul_left (by linarith) hd0
  have hg0 : 0 < g := by linarith
  have hu : 8 / 25 * (w * d) ≤ p - g := by
    have := le_of_mul_le_mul_left h3 hd0
    linarith
  have hgu : 8 / 25 * (g * (w * d)) ≤ g * (p - g) := by
    have := mul_le_mul_of_nonneg_left hu hg0.le
    linarith
  have h4 : delta (d * g) p w ≤ 1605 / 1000 * d := by
    refine delta_le hp (by positivity) ?_
    have h5 : (5 * g - 1605 / 1000 * p) ^ 2 ≤ (1605 / 1000) ^ 2 * (16 * p ^ 2 - 20 * (g * (w * d))) := by
      nlinarith [sq_nonneg (p - 1878 / 1000 * g), sq_nonneg g]
    calc (5 * (d * g) - 1605 / 1000 * d * p) ^ 2 = d ^ 2 * (5 * g - 1605 / 1000 * p) ^ 2 := by ring
      _ ≤ d ^ 2 * ((1605 / 1000) ^ 2 * (16 * p ^ 2 - 20 * (g * (w * d)))) := mul_le_mul_of_nonneg_left h5 (sq_nonneg d)
      _ = _ := by ring
  linarith

/-! ## The region -/

theorem pgood_step {e s x q : ℝ} (h1 : 1 < e) (hs : 0 ≤ s) (h : Good e s x) (hq : |q| ≤ 1 / 10) (hq' : s < x → 2 * s ≤ x → |q| ≤ 1 / 200) :
    Good e s (pnext q e s x) ∧ dist s (pnext q e s x) ≤ 9 / 10 * dist s x := by
  obtain ⟨q1, q2⟩ := abs_le.mp hq
  have hpn : pnext q e s x = x - (1 + q) * (x - next e s x) := rfl
  rcases h with ⟨hsx, hd⟩ | ⟨hxs, h⟩
  · rcases hsx.eq_or_lt with rfl | hsx'
    · have : pnext q e s s = s := by simp [pnext, next, rise, delta]
      rw [this]
      exact ⟨.inl ⟨le_rfl, by norm_num⟩, by simp [dist]⟩
    obtain ⟨h2, h3⟩ := next_above h1 hs hsx' hd
    have hdist : dist s x = x - s := if_pos hsx
    have hΔ : 0 ≤ x - next e s x := by linarith
    have m1 := mul_le_mul_of_nonneg_right q1 hΔ
    have m2 := mul_le_mul_of_nonneg_right q2 hΔ
    by_cases hn : s ≤ pnext q e s x
    · refine ⟨.inl ⟨hn, by rw [hpn]; linarith⟩, ?_⟩
      rw [hdist, dist, if_pos hn, hpn]
      linarith
    · have hn' := not_le.mp hn
      have hwide : 3 * x ≤ 10 * s → s - pnext q e s x ≤ 1 / 2 * s ∧ s - pnext q e s x ≤ 33 / 100 * (x - s) := by
        intro hb
        have h4 := next_above_wide h1 hs hsx' hd hb
        rcases le_or_gt (2 * s) x with hc | hc
        · have q3 := (abs_le.mp (hq' hsx' hc)).2
          have m3 := mul_le_mul_of_nonneg_right q3 hΔ
          rw [hpn]
          constructor <;> linarith
        · rw [hpn]
          constructor <;> linarith
      refine ⟨.inr ⟨hn', ?_⟩, ?_⟩
      · by_cases hb : 3 * x ≤ 10 * s
        · left
          obtain ⟨h4, h4'⟩ := hwide hb
          set y := pnext q e s x
          have hy : 0 < y := by linarith
          refine ⟨by linarith, ?_⟩
          have h5 : Real.cosh y - Real.sinh y ≤ 1 := by
            rw [Real.cosh_sub_sinh]
            exact Real.exp_le_one_iff.mpr (by linarith)
          have h6 := Real.self_le_sinh_iff.mpr hy.le
          have h7 : 0 ≤ Real.sinh y := by linarith
          have h8 := mul_le_mul_of_nonneg_left h5 (show 0 ≤ s - y by linarith)
          have h9 : (s - y) * Real.sinh y ≤ 20 / 100 * Real.sinh y := mul_le_mul_of_nonneg_right (by linarith) h7
          linarith
        · right
          have hb := not_le.mp hb
          have hc : 2 * s ≤ x := by linarith
          have q3 := (abs_le.mp (hq' hsx' hc)).2
          have m3 := mul_le_mul_of_nonneg_right q3 hΔ
          obtain ⟨h4, h5⟩ := povershoot h1 hs hb.le hsx' hd q3 hn'
          -- the length of the overshoot
          have h6 : s - pnext q e s x ≤ 375 / 1000 := by
            have := next_above_len h1 hs hsx' hd
            rw [hpn]; linarith
          exact ⟨by linarith, h4, h5⟩
      · rw [hdist, dist, if_neg hn]
        by_cases hb : 3 * x ≤ 10 * s
        · obtain ⟨-, h4⟩ := hwide hb
          linarith
        · have q3 := (abs_le.mp (hq' hsx' (by linarith [not_le.mp hb]))).2
          have m3 := mul_le_mul_of_nonneg_right q3 hΔ
          rw [hpn]
          linarith
  · have hsx : ¬ s ≤ x := not_le.mpr hxs
    have hdist : dist s x = 7 / 5 * (s - x) := if_neg hsx
    rcases h with ⟨h2, h3⟩ | ⟨h2, h3, h4⟩
    · obtain ⟨h4, h5⟩ := next_below_wide h1 hxs h2 h3
      have hΔ : 0 ≤ next e s x - x := by linarith
      have m1 := mul_le_mul_of_nonneg_right q1 hΔ
      have m2 := mul_le_mul_of_nonneg_right q2 hΔ
      by_cases hn : s ≤ pnext q e s x
      · refine ⟨.inl ⟨hn, by rw [hpn]; linarith⟩, ?_⟩
        rw [hdist, dist, if_pos hn, hpn]
        linarith
      · have hn' := not_le.mp hn
        have hxy : x ≤ pnext q e s x := by rw [hpn]; linarith
        have hsy' : s - pnext q e s x ≤ 9 / 10 * (s - x) := by rw [hpn]; linarith
        refine ⟨.inr ⟨hn', .inl ⟨by linarith, ?_⟩⟩, ?_⟩
        · set y := pnext q e s x
          have hsx : 0 < Real.sinh x := by
            have := mul_pos (sub_pos.mpr hxs) (Real.cosh_pos x)
            linarith
          have hsy : 0 < Real.sinh y := hsx.trans_le (Real.sinh_le_sinh.mpr hxy)
          have h6 := mul_le_mul_of_nonneg_left (cosh_mul_sinh_le hxy) (show 0 ≤ s - y by linarith)
          have h7 : (s - y) * (Real.sinh y * Real.cosh x) ≤ (s - x) * (Real.sinh y * Real.cosh x) :=
            mul_le_mul_of_nonneg_right (by linarith) (mul_nonneg hsy.le (Real.cosh_pos x).le)
          have h8 := mul_le_mul_of_nonneg_left h3 hsy.le
          have h9 : Real.sinh x * ((s - y) * Real.cosh y) ≤ Real.sinh x * (5 / 2 * Real.sinh y) := by linarith
          exact le_of_mul_le_mul_left h9 hsx
        · rw [hdist, dist, if_neg hn]
          linarith
    · have hstep : x + 1 / 2 * (s - x) ≤ next e s x ∧ next e s x ≤ s + (s - x) := by
        rcases le_or_gt 0 x with hx | hx
        · exact next_below_tame h1 hx hxs h3
        · obtain ⟨z, rfl⟩ : ∃ z, x = -z := ⟨-x, by ring⟩
          rw [sub_neg_eq_add] at *
          exact next_beyond h1 hs (by linarith) h2 h4
      obtain ⟨h5, h6⟩ := hstep
      have hΔ : 0 ≤ next e s x - x := by linarith
      have m1 := mul_le_mul_of_nonneg_right q1 hΔ
      have m2 := mul_le_mul_of_nonneg_right q2 hΔ
      by_cases hn : s ≤ pnext q e s x
      · refine ⟨.inl ⟨hn, by rw [hpn]; linarith⟩, ?_⟩
        rw [hdist, dist, if_pos hn, hpn]
        linarith
      · have hn' := not_le.mp hn
        have hsy' : s - pnext q e s x ≤ 9 / 10 * (s - x) := by rw [hpn]; linarith
        refine ⟨.inr ⟨hn', .inr ⟨by linarith, h3, ?_⟩⟩, ?_⟩
        · exact (mul_le_mul_of_nonneg_left (pow_le_pow_left₀ (by linarith) (by linarith) 2) (by linarith)).trans h4
        · rw [hdist, dist, if_neg hn]
          linarith

end Pyorb.Lag.Hyp
