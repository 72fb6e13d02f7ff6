import Verif.LagConverge

/-!
# Laguerre's method for Kepler's equation with a relative error in every step

The steps of `LagConverge` with an error of at most one part in 200 each: the iteration still approaches the root.
-/

namespace Pyorb.Lag

/-- a Laguerre step with the relative error `q` -/
noncomputable def pnext (e s q x : ℝ) : ℝ := x - (1 + q) * delta (fall e s x) (slope e x) (e * Real.sin x)

theorem pnext_eq (e s q x : ℝ) : pnext e s q x = next e s x - q * (x - next e s x) := by unfold pnext next; ring

/-- `mul_sin_ge` on a slightly wider range -/
theorem mul_sin_ge' {y : ℝ} (h0 : 0 ≤ y) (hy : y ≤ 87 / 100) : 13 * (1 - Real.cos y) ≤ 7 * (y * Real.sin y) := by
  have h2 : Real.sin y = 2 * Real.sin (y / 2) * Real.cos (y / 2) := by rw [← Real.sin_two_mul]; ring_nf
  have h3 := one_sub_cos y
  obtain ⟨t, rfl⟩ : ∃ t, y = 2 * t := ⟨y / 2, by ring⟩
  rw [show 2 * t / 2 = t by ring] at h2 h3
  have hs : 0 ≤ Real.sin t := Real.sin_nonneg_of_nonneg_of_le_pi (by linarith) (by linarith [Real.pi_gt_three])
  have h4 : 13 * Real.sin t ≤ 14 * (t * Real.cos t) := by
    have ht : 0 ≤ t := by linarith
    have h5 := Real.one_sub_sq_div_two_le_cos (x := t)
    have h6 := (abs_le.mp (Real.sin_bound (x := t) (by rw [abs_of_nonneg ht]; linarith))).2
    rw [abs_of_nonneg ht] at h6
    have h7 : t * (1 - t ^ 2 / 2) ≤ t * Real.cos t := mul_le_mul_of_nonneg_left h5 ht
    have h8 : 13 * (t - t ^ 3 / 6 + t ^ 5 / 100) ≤ 14 * (t * (1 - t ^ 2 / 2)) := by
      have h9 : t ≤ 435 / 1000 := by linarith
      have h10 : t ^ 2 ≤ (435 / 1000) ^ 2 := pow_le_pow_left₀ ht h9 2
      have h11 : t ^ 3 ≤ (435 / 1000) ^ 3 := pow_le_pow_left₀ ht h9 3
      nlinarith
    linarith
  rw [h2, h3]
  nlinarith

/-! ## A step from above that ends below the root -/

theorem pundershoot_poly {E c T : ℝ} (hE : 0 < E) (hc : 0 ≤ c) (hc1 : c ≤ 27 * E) (hT0 : 0 ≤ T) (hT : T = 0 ∨ T = 12 * E - c) :
    22 / 10 * c * (c * T + 1806 / 10000 * (E + c) ^ 2) ^ 2 ≤ 54 / 5 * E * ((E + c) * (3 * E + c)) ^ 2 := by
  rcases hT with rfl | rfl
  · have h1 : 22 / 10 * c * (1806 / 10000) ^ 2 ≤ 54 / 5 * E := by linarith
    have h2 : (E + c) ^ 2 ≤ (3 * E + c) ^ 2 := pow_le_pow_left₀ (by linarith) (by linarith) 2
    have h3 := mul_le_mul h1 (mul_le_mul_of_nonneg_left h2 (sq_nonneg (E + c))) (by positivity) (by positivity)
    calc _ = 22 / 10 * c * (1806 / 10000) ^ 2 * ((E + c) ^ 2 * (E + c) ^ 2) := by ring
      _ ≤ _ := h3
      _ = _ := by ring
  · set X := c * (12 * E - c) + 1806 / 10000 * (E + c) ^ 2 with hX
    have h1 : X * (c + 289 / 100 * E) ≤ 753 / 100 * (E * ((E + c) * (3 * E + c))) := by
      have : 0 ≤ (c - 275 / 100 * E) ^ 2 * (c + 268 / 100 * E) := by positivity
      rw [hX]
      nlinarith [mul_nonneg hc (sq_nonneg E), mul_nonneg hc hE.le, pow_pos hE 3, mul_nonneg (mul_nonneg hc hc) hE.le]
    have h2 : 0 ≤ X * (c + 289 / 100 * E) := by rw [hX]; positivity
    have h3 := pow_le_pow_left₀ h2 h1 2
    have h4 : 4 * (289 / 100) * (E * c) ≤ (c + 289 / 100 * E) ^ 2 := by nlinarith [sq_nonneg (c - 289 / 100 * E)]
    have h5 := mul_le_mul_of_nonneg_left h4 (sq_nonneg X)
    have h7 : 0 ≤ E ^ 2 * ((E + c) * (3 * E + c)) ^ 2 := by positivity
    have h6 : E * (22 / 10 * c * X ^ 2) ≤ E * (54 / 5 * E * ((E + c) * (3 * E + c)) ^ 2) := by
      clear_value X
      linarith
    exact le_of_mul_le_mul_left h6 hE

set_option maxHeartbeats 1000000 in
/-- the algebra of an undershoot, for a step that is too long by one part in 200 -/
theorem pundershoot_alg {E c p Y b y d u w g F r : ℝ} (hE : 0 < E) (hc0 : 0 ≤ c) (hpc : p = E + c) (hY0 : 0 ≤ Y) (hY1 : 13 * c ≤ 7 * Y) (hY2 : Y ≤ 2 * c)
    (hb0 : 0 ≤ b) (hb1 : b < 100 / 266) (hy0 : 0 < y) (hd' : d = (1 - b) * y) (hd0 : 0 < d) (hw : 0 ≤ w) (hu : w * d = u) (hu' : u = (1 - b) * Y)
    (hg : g = p - (2 + b) / 6 * u) (hg0 : 0 ≤ g) (hF0 : 0 ≤ F) (hFg : F ≤ d * g) (hr0 : 0 < r) (hr : d + r = 201 / 200 * delta F p w) :
    c < 27 * E ∧ ∃ T, 0 ≤ T ∧ (T = 0 ∨ T = 12 * E - c) ∧ r * (3 * (E + c) * (3 * E + c)) ≤ y * (c * T + 1806 / 10000 * (E + c) ^ 2) := by
  have hp0 : 0 < p := by rw [hpc]; linarith
  have hu0 : 0 ≤ u := by rw [← hu]; positivity
  have hbu := mul_nonneg hb0 hu0
  have hpsq := sq_nonneg p
  have hR := radicand (p := p) (g := g) (u := u) hg0 (by rw [hg]; linarith)
  have hRe : 16 * p ^ 2 - 20 * (d * g) * (w) = 16 * p ^ 2 - 20 * g * u := by rw [← hu]; ring
  have hmono := delta_mono hp0 hw hF0 hFg (by rw [hRe]; linarith)
  set q := √(16 * p ^ 2 - 20 * g * u) with hq
  have hq2 : q ^ 2 = 16 * p ^ 2 - 20 * g * u := Real.sq_sqrt (by linarith)
  have hqp : p ≤ q := Real.le_sqrt_of_sq_le hR
  have hgp : g ≤ p := by
    have : 0 ≤ (2 + b) / 6 * u := by positivity
    linarith
  have hrd : (d + r) * (p + q) ≤ 201 / 200 * (5 * (d * g)) := by
    have h5 : delta (d * g) p (w) = 5 * (d * g) / (p + q) := by
      unfold delta
      rw [hRe, abs_of_nonneg (by linarith)]
    rw [h5] at hmono
    rw [le_div_iff₀ (by linarith)] at hmono
    rw [hr]
    linarith
  have hr1 : r * (p + q) ≤ d * (201 / 40 * g - p - q) := by linarith
  have hpos : 0 < 201 / 40 * g - p - q := by
    by_contra hneg
    have h4 : d * (201 / 40 * g - p - q) ≤ 0 := mul_nonpos_of_nonneg_of_nonpos hd0.le (not_lt.mp hneg)
    have h5 : 0 < r * (p + q) := mul_pos hr0 (by linarith)
    linarith
  have hprod : r * ((p + q) * (201 / 40 * g - p + q)) ≤ d * (5 / 9 * (1 - b) * u * (12 * p - 7 * Y) + 200625 / 1000000 * p ^ 2) := by
    have h4 : r * ((p + q) * (201 / 40 * g - p + q)) ≤ d * ((201 / 40 * g - p) ^ 2 - q ^ 2) := by
      have := mul_le_mul_of_nonneg_right hr1 (show 0 ≤ 201 / 40 * g - p + q by linarith)
      linarith
    refine h4.trans (mul_le_mul_of_nonneg_left ?_ hd0.le)
    rw [hq2]
    have h5 : (5 * g - p) ^ 2 - (16 * p ^ 2 - 20 * g * u) = 5 / 36 * (1 - b) * u * (48 * p - (28 + 4 * b - 5 * b ^ 2) * Y) := by
      rw [hg, hu']; ring
    have h6 : 0 ≤ (1 - b) * u := mul_nonneg (by linarith) hu0
    have h7 : 0 ≤ b * (4 - 5 * b) * Y := mul_nonneg (mul_nonneg hb0 (by linarith)) hY0
    have h8 := mul_le_mul_of_nonneg_left (show 48 * p - (28 + 4 * b - 5 * b ^ 2) * Y ≤ 48 * p - 28 * Y by linarith) h6
    have h9 : (201 / 40 * g - p) ^ 2 ≤ (5 * g - p) ^ 2 + 200625 / 1000000 * p ^ 2 := by
      have := mul_nonneg hg0 (sub_nonneg.mpr hgp)
      have := mul_nonneg (sub_nonneg.mpr hgp) hp0.le
      linarith
    linarith
  have hup : 0 < r * ((p + q) * (201 / 40 * g - p + q)) := mul_pos hr0 (mul_pos (by linarith) (by linarith))
  have hub : (166 / 266) ^ 2 * Y ≤ (1 - b) * u := by
    have h4 : (166 / 266 : ℝ) ^ 2 ≤ (1 - b) ^ 2 := pow_le_pow_left₀ (by norm_num) (by linarith) 2
    have := mul_le_mul_of_nonneg_right h4 hY0
    rw [hu']; linarith
  have hc12 : c < 27 * E := by
    by_contra hneg
    have hneg := not_lt.mp hneg
    have h4 : 12 * p - 7 * Y ≤ -(15 / 27 * c) := by rw [hpc]; linarith
    have h5 : (1 - b) * u * (12 * p - 7 * Y) ≤ (166 / 266) ^ 2 * Y * (-(15 / 27 * c)) := by
      have h6 := mul_le_mul hub (show 15 / 27 * c ≤ -(12 * p - 7 * Y) by linarith) (by positivity) (mul_nonneg (by linarith) hu0)
      linarith
    have h6 : 13 / 7 * c * c ≤ Y * c := mul_le_mul_of_nonneg_right (by linarith) hc0
    have h7 : p ^ 2 ≤ (28 / 27 * c) ^ 2 := pow_le_pow_left₀ hp0.le (by rw [hpc]; linarith) 2
    have hcp : 0 < c * c := by
      have : 0 < c := by linarith
      positivity
    have h8 : 5 / 9 * (1 - b) * u * (12 * p - 7 * Y) + 200625 / 1000000 * p ^ 2 ≤ 0 := by
      have e1 : (28 / 27 * c) ^ 2 = (28 / 27) ^ 2 * (c * c) := by ring
      rw [e1] at h7
      norm_num at h5 h7 ⊢
      linarith
    have := mul_nonpos_of_nonneg_of_nonpos hd0.le h8
    linarith
  refine ⟨hc12, ?_⟩
  have hgY : p - Y / 3 ≤ g := by
    rw [hg, hu']
    linarith [mul_nonneg hb0 hY0, mul_nonneg (mul_nonneg hb0 hb0) hY0]
  have h4 : (2 * p) * (5 * (p - Y / 3)) ≤ (p + q) * (201 / 40 * g - p + q) := by
    have : 0 ≤ p - Y / 3 := by rw [hpc]; linarith
    exact mul_le_mul (by linarith) (by linarith) (by linarith) (by linarith)
  have h5 := (mul_le_mul_of_nonneg_left h4 hr0.le).trans hprod
  have h10 : 2 * (E + c) * (5 / 3 * (3 * E + c)) ≤ 2 * p * (5 * (p - Y / 3)) := by
    rw [← hpc]
    have : 5 / 3 * (3 * E + c) ≤ 5 * (p - Y / 3) := by rw [hpc]; linarith
    exact mul_le_mul_of_nonneg_left this (by linarith)
  have h11 := mul_le_mul_of_nonneg_left h10 hr0.le
  have hdy : d ≤ y := by
    rw [hd']
    have := mul_nonneg hb0 hy0.le
    linarith
  have h12 : d * p ^ 2 ≤ y * (E + c) ^ 2 := by
    rw [← hpc]
    exact mul_le_mul_of_nonneg_right hdy (sq_nonneg p)
  rcases le_or_gt (12 * p - 7 * Y) 0 with hs | hs
  · refine ⟨0, le_rfl, .inl rfl, ?_⟩
    have h6 : d * (5 / 9 * (1 - b) * u * (12 * p - 7 * Y)) ≤ 0 :=
      mul_nonpos_of_nonneg_of_nonpos hd0.le (mul_nonpos_of_nonneg_of_nonpos (mul_nonneg (by linarith) hu0) hs)
    have : 0 ≤ y * (E + c) ^ 2 := by positivity
    linarith
  · refine ⟨12 * E - c, by rw [hpc] at hs; linarith, .inr rfl, ?_⟩
    have h6 : d * (5 / 9 * (1 - b) * u * (12 * p - 7 * Y)) ≤ 5 / 9 * (y * (2 * c) * (12 * E - c)) := by
      have e1 : d * (5 / 9 * (1 - b) * u * (12 * p - 7 * Y)) = 5 / 9 * ((1 - b) ^ 3 * (y * Y * (12 * p - 7 * Y))) := by
        rw [hd', hu']; ring
      rw [e1]
      have h7 : (1 - b) ^ 3 ≤ 1 := pow_le_one₀ (by linarith) (by linarith)
      have h8 : 0 ≤ y * Y * (12 * p - 7 * Y) := mul_nonneg (mul_nonneg hy0.le hY0) hs.le
      have h9 : y * Y * (12 * p - 7 * Y) ≤ y * (2 * c) * (12 * E - c) := by
        refine mul_le_mul (mul_le_mul_of_nonneg_left hY2 hy0.le) ?_ hs.le (by positivity)
        rw [hpc]; linarith
      have h10 := mul_le_of_le_one_left h8 h7
      linarith
    have : 0 ≤ y * (E + c) ^ 2 := by positivity
    linarith

/-- a step from above, with its error, that ends below the root -/
theorem pundershoot {e s y q : ℝ} (h0 : 0 ≤ e) (h1 : e < 1) (hs : 0 ≤ s) (hsy : 266 * s < 100 * y) (hy : y ≤ 87 / 100) (hq : |q| ≤ 1 / 200)
    (hn : pnext e s q y < s) :
    e * s ^ 2 ≤ 9 * (1 - e) ∧ e * (s - pnext e s q y) ^ 2 ≤ 6 / 5 * (1 - e) := by
  have hpi := Real.pi_gt_three
  have hy0 : 0 < y := by linarith
  have hsy' : s < y := by linarith
  obtain ⟨h2, h3⟩ := fall_above h0 h1 hs hsy' (by linarith)
  obtain ⟨-, hna⟩ := next_above h0 h1 hs hsy' (by linarith)
  have hdl0 : 0 ≤ y - next e s y := by linarith
  have hqd : q * (y - next e s y) ≤ 1 / 200 * (y - next e s y) := mul_le_mul_of_nonneg_right (abs_le.mp hq).2 hdl0
  have hE : 0 < 1 - e := by linarith
  set E := 1 - e with hEdef
  set c := e * (1 - Real.cos y) with hc
  set p := slope e y with hp
  have hpc : p = E + c := slope_eq e y
  have hp0 : 0 < p := slope_pos h0 h1 y
  have hc0 : 0 ≤ c := mul_nonneg h0 (sub_nonneg.mpr (Real.cos_le_one y))
  have hsin : 0 ≤ Real.sin y := Real.sin_nonneg_of_nonneg_of_le_pi hy0.le (by linarith)
  set Y := e * (y * Real.sin y) with hY
  have hY0 : 0 ≤ Y := by positivity
  have hY1 : 13 * c ≤ 7 * Y := by
    have := mul_le_mul_of_nonneg_left (mul_sin_ge' hy0.le hy) h0
    rw [hc, hY]; linarith
  have hY2 : Y ≤ 2 * c := by
    have := mul_le_mul_of_nonneg_left (mul_sin_le hy0.le (by linarith)) h0
    rw [hc, hY]; linarith
  have hyc : e * y ^ 2 ≤ 22 / 10 * c := by
    have h4 := one_sub_cos_ge hy0.le (by linarith) rfl
    have h5 : 10 / 22 * y ^ 2 ≤ 1 - Real.cos y := by
      refine le_trans ?_ h4
      have h6 : y ^ 2 ≤ (87 / 100) ^ 2 := pow_le_pow_left₀ hy0.le hy 2
      have h7 : (96 / 100 : ℝ) ≤ 1 - y ^ 2 / 24 := by linarith
      have h8 : (96 / 100 : ℝ) ^ 2 ≤ (1 - y ^ 2 / 24) ^ 2 := pow_le_pow_left₀ (by norm_num) h7 2
      have := mul_le_mul_of_nonneg_left h8 (sq_nonneg y)
      linarith [sq_nonneg y]
    have := mul_le_mul_of_nonneg_left h5 h0
    rw [hc]; linarith
  -- the fraction of the root
  obtain ⟨b, rfl⟩ : ∃ b, s = b * y := ⟨s / y, by field_simp⟩
  have hb0 : 0 ≤ b := by
    by_contra hb
    have : b * y < 0 := mul_neg_of_neg_of_pos (not_le.mp hb) hy0
    linarith
  have hb1 : b < 100 / 266 := by
    have : 266 * b * y < 100 * y := by linarith
    have := lt_of_mul_lt_mul_right this hy0.le
    linarith
  set d := y - b * y with hd
  have hd' : d = (1 - b) * y := by rw [hd]; ring
  have hd0 : 0 < d := by rw [hd]; linarith
  set u := e * Real.sin y * d with hu
  have hu' : u = (1 - b) * Y := by rw [hu, hd', hY]; ring
  have hu0 : 0 ≤ u := by positivity
  set g := p - (2 + b) / 6 * u with hg
  have hFg : fall e (b * y) y ≤ d * g := by
    refine h3.trans (le_of_eq ?_)
    rw [hg, hu]
    have : (2 * y + b * y) / (6 * y) = (2 + b) / 6 := by field_simp
    rw [mul_div_assoc, this]
    ring
  have hF0 : 0 ≤ fall e (b * y) y := by
    have := mul_pos hd0 hp0
    linarith
  have hg0 : 0 ≤ g := by
    by_contra hneg
    have := mul_neg_of_pos_of_neg hd0 (not_le.mp hneg)
    have := mul_pos hd0 hp0
    linarith
  rw [pnext_eq] at hn ⊢
  have hrn : 0 < b * y - (next e (b * y) y - q * (y - next e (b * y) y)) := by linarith
  obtain ⟨hc12, T, hT0, hT, hr2⟩ := pundershoot_alg (r := 201 / 200 * (y - next e (b * y) y) - d) hE hc0 hpc hY0 hY1 hY2 hb0 hb1 hy0 hd' hd0
    (mul_nonneg h0 hsin) rfl hu' hg hg0 hF0 hFg (by rw [hd]; linarith) (by rw [hd]; unfold next; ring)
  set r := 201 / 200 * (y - next e (b * y) y) - d with hr
  have hr0 : 0 < r := by rw [hr, hd]; linarith
  refine ⟨?_, ?_⟩
  · have h4 : e * (b * y) ^ 2 = b ^ 2 * (e * y ^ 2) := by ring
    have h5 : b ^ 2 ≤ (100 / 266) ^ 2 := pow_le_pow_left₀ hb0 hb1.le 2
    have h6 : 0 ≤ e * y ^ 2 := by positivity
    rw [h4]
    have h7 := mul_le_mul_of_nonneg_right h5 h6
    norm_num at h7
    linarith
  · have hA : 0 < (E + c) * (3 * E + c) := by positivity
    have h4 := pow_le_pow_left₀ (by positivity) hr2 2
    have h5 := pundershoot_poly hE hc0 hc12.le hT0 hT
    have hrr : e * (b * y - (next e (b * y) y - q * (y - next e (b * y) y))) ^ 2 ≤ e * r ^ 2 :=
      mul_le_mul_of_nonneg_left (pow_le_pow_left₀ hrn.le (by rw [hr, hd]; linarith) 2) h0
    refine hrr.trans ?_
    set X := c * T + 1806 / 10000 * (E + c) ^ 2 with hX
    have h6 : 9 * ((E + c) * (3 * E + c)) ^ 2 * (e * r ^ 2) ≤ 9 * ((E + c) * (3 * E + c)) ^ 2 * (6 / 5 * E) := by
      have h7 : e * (y * X) ^ 2 ≤ 22 / 10 * c * X ^ 2 := by
        have := mul_le_mul_of_nonneg_right hyc (sq_nonneg X)
        calc e * (y * X) ^ 2 = e * y ^ 2 * X ^ 2 := by ring
          _ ≤ _ := this
      have h8 := mul_le_mul_of_nonneg_left h4 h0
      calc 9 * ((E + c) * (3 * E + c)) ^ 2 * (e * r ^ 2) = e * (r * (3 * (E + c) * (3 * E + c))) ^ 2 := by ring
        _ ≤ _ := h8.trans (h7.trans h5)
        _ = _ := by ring
    exact le_of_mul_le_mul_left h6 (by positivity)

/-! ## Below the root -/

theorem pnext_below_tame {e s x : ℝ} (h0 : 0 ≤ e) (h1 : e < 1) (hx : 0 ≤ x) (hxs : x < s) (hs : s ≤ 4 / 10) (h : e * s ^ 2 ≤ 9 * (1 - e)) :
    (x + (s - x) / 2 ≤ next e s x ∧ next e s x ≤ s + 2 * (s - x)) ∧ (s - x) - e * (Real.sin s - Real.sin x) ≤ 3 * (s - x) * slope e x := by
  have hpi := Real.pi_gt_three
  have hsl : (1 - e) + 48 / 100 * (e * x ^ 2) ≤ slope e x := by
    have h4 := one_sub_cos_ge hx (by linarith) rfl
    have h5 : 48 / 100 * x ^ 2 ≤ 1 - Real.cos x := by
      refine le_trans ?_ h4
      have h6 : x ^ 2 ≤ (4 / 10) ^ 2 := pow_le_pow_left₀ hx (by linarith) 2
      have h7 : (98 / 100 : ℝ) ≤ 1 - x ^ 2 / 24 := by linarith
      have h8 : (98 / 100 : ℝ) ^ 2 ≤ (1 - x ^ 2 / 24) ^ 2 := pow_le_pow_left₀ (by norm_num) h7 2
      have := mul_le_mul_of_nonneg_left h8 (sq_nonneg x)
      linarith [sq_nonneg x]
    have := mul_le_mul_of_nonneg_left h5 h0
    rw [slope_eq]; linarith
  have h2 : (s - x) - e * (Real.sin s - Real.sin x) ≤ 3 * (s - x) * slope e x := by
    have h2 := mul_le_mul_of_nonneg_left (sub_sin_le hxs.le) h0
    have h3 : e * ((s ^ 3 - x ^ 3) / 6) ≤ (s - x) * (2 * (1 - e) + 144 / 100 * (e * x ^ 2)) := by
      have h4 : (s ^ 2 + s * x + x ^ 2) / 6 ≤ 2 / 9 * s ^ 2 + 144 / 100 * x ^ 2 := by nlinarith [sq_nonneg (s - 2 * x)]
      have h5 := mul_le_mul_of_nonneg_left h4 h0
      have h6 : e * ((s ^ 2 + s * x + x ^ 2) / 6) ≤ 2 * (1 - e) + 144 / 100 * (e * x ^ 2) := by linarith
      have h7 := mul_le_mul_of_nonneg_left h6 (show 0 ≤ s - x by linarith)
      linarith
    have h4 := mul_le_mul_of_nonneg_left hsl (show 0 ≤ 3 * (s - x) by linarith)
    linarith
  refine ⟨next_below h0 h1 hx hxs (by linarith) h2 ?_, h2⟩
  have h2 : e * Real.sin x * (s - x) ≤ e * x * (s - x) :=
    mul_le_mul_of_nonneg_right (mul_le_mul_of_nonneg_left (Real.sin_le hx) h0) (by linarith)
  have h3 : e * x * (s - x) ≤ e * (s ^ 2 / 4) := by
    rw [mul_assoc]
    exact mul_le_mul_of_nonneg_left (by nlinarith [sq_nonneg (s - 2 * x)]) h0
  have h4 : 0 ≤ e * x ^ 2 := by positivity
  linarith

/-- the step from the other side of the origin -/
theorem pnext_beyond {e s x : ℝ} (h0 : 0 ≤ e) (h1 : e < 1) (hs : 0 ≤ s) (hx : x < 0) (hx3 : -(3 / 10) ≤ x) (h : e * (s - x) ^ 2 ≤ 6 / 5 * (1 - e)) :
    (x + (s - x) / 2 ≤ next e s x ∧ next e s x ≤ s + 2 * (s - x)) ∧ 0 ≤ fall e s x * (e * Real.sin x) ∧
      fall e s x * (e * Real.sin x) ≤ 7 / 10 * slope e x ^ 2 ∧ |fall e s x| ≤ 6 / 5 * ((s - x) * (1 - e)) ∧ 1 - e ≤ slope e x := by
  obtain ⟨z, rfl⟩ : ∃ z, x = -z := ⟨-x, by ring⟩
  have hz : 0 < z := by linarith
  have hpi := Real.pi_gt_three
  have hD : 0 < s + z := by linarith
  have hDe : e * (s + z) ^ 2 ≤ 6 / 5 * (1 - e) := by rwa [sub_neg_eq_add] at h
  have hE : 0 < 1 - e := by linarith
  have hsl : slope e (-z) = slope e z := by unfold slope; rw [Real.cos_neg]
  have hsin : 0 ≤ Real.sin z := Real.sin_nonneg_of_nonneg_of_le_pi hz.le (by linarith)
  set P := (s + z) - e * (Real.sin s + Real.sin z) with hP
  have hfall : fall e s (-z) = -P := by rw [fall_neg, Real.sin_neg, hP]; ring
  have hnext : next e s (-z) = -z + delta P (slope e z) (e * Real.sin z) := by
    rw [next, hfall, hsl, Real.sin_neg, show e * -Real.sin z = -(e * Real.sin z) by ring, delta_neg]
    ring
  have h2 : (s + z) * (1 - e) ≤ P := by
    have h3 : Real.sin s + Real.sin z ≤ s + z := add_le_add (Real.sin_le hs) (Real.sin_le hz.le)
    have := mul_le_mul_of_nonneg_left h3 h0
    rw [hP]; linarith
  have h3 : P ≤ 6 / 5 * ((s + z) * (1 - e)) := by
    have h4 := mul_le_mul_of_nonneg_left (sub_sin_le (show -z ≤ s by linarith)) h0
    rw [Real.sin_neg] at h4
    have h5 : s ^ 3 - (-z) ^ 3 ≤ (s + z) * (s + z) ^ 2 := by
      have := mul_nonneg (mul_nonneg hs hz.le) hD.le
      linarith
    have h6 := mul_le_mul_of_nonneg_left h5 h0
    have h7 := mul_le_mul_of_nonneg_left hDe hD.le
    rw [hP]; linarith
  have hp1 : slope e z ≤ 8 / 5 * (1 - e) := by
    have h4 := mul_le_mul_of_nonneg_left (show 1 - Real.cos z ≤ z ^ 2 / 2 by linarith [Real.one_sub_sq_div_two_le_cos (x := z)]) h0
    have h5 : e * z ^ 2 ≤ e * (s + z) ^ 2 := mul_le_mul_of_nonneg_left (pow_le_pow_left₀ hz.le (by linarith) 2) h0
    rw [slope_eq]; linarith
  have hp2 : (1 - e) + 48 / 100 * (e * z ^ 2) ≤ slope e z := by
    have h4 := one_sub_cos_ge hz.le (by linarith) rfl
    have h5 : 48 / 100 * z ^ 2 ≤ 1 - Real.cos z := by
      refine le_trans ?_ h4
      have h6 : z ^ 2 ≤ (3 / 10) ^ 2 := pow_le_pow_left₀ hz.le (by linarith) 2
      have h7 : (98 / 100 : ℝ) ≤ 1 - z ^ 2 / 24 := by linarith
      have h8 : (98 / 100 : ℝ) ^ 2 ≤ (1 - z ^ 2 / 24) ^ 2 := pow_le_pow_left₀ (by norm_num) h7 2
      have := mul_le_mul_of_nonneg_left h8 (sq_nonneg z)
      linarith [sq_nonneg z]
    have := mul_le_mul_of_nonneg_left h5 h0
    rw [slope_eq]; linarith
  have hez : 0 ≤ e * z ^ 2 := by positivity
  have hpE : 1 - e ≤ slope e z := by linarith
  have h4 : P * (e * Real.sin z) ≤ 7 / 10 * slope e z ^ 2 := by
    have h5 : P * (e * Real.sin z) ≤ 6 / 5 * ((s + z) * (1 - e)) * (e * z) :=
      mul_le_mul h3 (mul_le_mul_of_nonneg_left (Real.sin_le hz.le) h0) (mul_nonneg h0 hsin) (by positivity)
    have h6 : 6 / 5 * (e * (z * (s + z))) ≤ 7 / 10 * (1 - e) + 672 / 1000 * (e * z ^ 2) := by
      have h7 : 6 / 5 * (z * (s + z)) ≤ 7 / 12 * (s + z) ^ 2 + 672 / 1000 * z ^ 2 := by
        have := sq_nonneg (36 / 35 * z - (s + z))
        linarith [sq_nonneg z]
      have := mul_le_mul_of_nonneg_left h7 h0
      linarith
    have h8 := mul_le_mul_of_nonneg_left h6 hE.le
    have h9 : ((1 - e) + 48 / 100 * (e * z ^ 2)) ^ 2 ≤ slope e z ^ 2 := pow_le_pow_left₀ (by positivity) hp2 2
    linarith [sq_nonneg (e * z ^ 2)]
  have hP0 : 0 ≤ P := le_trans (by positivity) h2
  obtain ⟨h5, h6⟩ := delta_beyond (slope_pos h0 h1 z) hD (mul_nonneg h0 hsin) (P := P)
    (by have := mul_le_mul_of_nonneg_left hp1 hD.le; have := mul_nonneg hD.le hE.le; linarith)
    (by have := mul_le_mul_of_nonneg_left hpE hD.le; have := mul_pos hD (slope_pos h0 h1 z); linarith) h4
  rw [hnext, hfall, hsl, Real.sin_neg, sub_neg_eq_add, abs_neg, abs_of_nonneg hP0, show -P * (e * -Real.sin z) = P * (e * Real.sin z) by ring]
  exact ⟨by constructor <;> linarith, mul_nonneg hP0 (mul_nonneg h0 hsin), h4, h3, hpE⟩

/-! ## The denominator of the step -/

/-- the parts of a step are large enough for it to be computed: `m` bounds the denominator from below -/
def Fit (F p w m : ℝ) : Prop :=
  m ≤ p + √(16 * p ^ 2 - 20 * F * w) ∧
    ((p ^ 2 ≤ 16 * p ^ 2 - 20 * F * w ∧ 0 ≤ 20 * F * w) ∨ (20 * F * w ≤ 0 ∧ |F| ≤ 4 * |delta F p w|))

theorem slope_sq {e x : ℝ} (h7 : 7 / 10 ≤ e) (h1 : e < 1) (hx : |x| ≤ Real.pi) : 14 / 100 * x ^ 2 ≤ slope e x := by
  have h2 := Real.cos_le_one_sub_mul_cos_sq hx
  have hp := Real.pi_lt_d2
  have hp0 := Real.pi_pos
  have h3 : 1 / 5 ≤ 2 / Real.pi ^ 2 := by
    rw [div_le_div_iff₀ (by norm_num) (by positivity)]
    nlinarith
  have h4 := mul_le_mul_of_nonneg_right h3 (sq_nonneg x)
  have h5 : 1 / 5 * x ^ 2 ≤ 1 - Real.cos x := by linarith
  have h6 := mul_le_mul h7 h5 (by positivity) (by linarith)
  rw [slope_eq]
  linarith

/-- a slope that grows with the square of the distance is not small where the value is not small -/
theorem cube_ge {τ x p : ℝ} (K k a : ℝ) (hτ : 0 < τ) (hτ1 : τ ≤ 1 / 1000) (hp : 0 < p) (hK : 0 ≤ K) (h : τ ≤ K * x * p) (hk : k * x ^ 2 ≤ p)
    (hk0 : 0 ≤ k) (ha : 0 < a) (hc : K ^ 2 * a ^ 3 / 1000 ≤ k) : a * τ ≤ p := by
  by_contra hn
  have hn := not_le.mp hn
  have h1 : τ ^ 2 ≤ (K * x * p) ^ 2 := pow_le_pow_left₀ hτ.le h 2
  have h2 : k * τ ^ 2 ≤ K ^ 2 * p ^ 3 := by
    have e1 := mul_le_mul_of_nonneg_left h1 hk0
    have e2 := mul_le_mul_of_nonneg_left hk (show 0 ≤ K ^ 2 * p ^ 2 by positivity)
    calc k * τ ^ 2 ≤ k * (K * x * p) ^ 2 := e1
      _ = K ^ 2 * p ^ 2 * (k * x ^ 2) := by ring
      _ ≤ _ := e2
      _ = _ := by ring
  have hK0 : 0 < K := by
    rcases hK.eq_or_lt with h | h
    · subst h; simp at h; linarith
    · exact h
  have h3 : p ^ 3 < (a * τ) ^ 3 := pow_lt_pow_left₀ hn hp.le (by norm_num)
  have h4 : K ^ 2 * p ^ 3 < K ^ 2 * (a * τ) ^ 3 := mul_lt_mul_of_pos_left h3 (by positivity)
  have h5 : K ^ 2 * (a * τ) ^ 3 ≤ k * τ ^ 2 := by
    have e1 : K ^ 2 * a ^ 3 * τ ≤ k := by
      have := mul_le_mul_of_nonneg_left hτ1 (show 0 ≤ K ^ 2 * a ^ 3 by positivity)
      linarith
    have := mul_le_mul_of_nonneg_right e1 (sq_nonneg τ)
    calc K ^ 2 * (a * τ) ^ 3 = K ^ 2 * a ^ 3 * τ * τ ^ 2 := by ring
      _ ≤ _ := this
  linarith

theorem fall_dist (e s x : ℝ) (h0 : 0 ≤ e) (h1 : e < 1) : |fall e s x| ≤ 2 * |x - s| := by
  have h2 := Real.abs_sin_sub_sin_le x s
  unfold fall
  calc |(x - s) - e * (Real.sin x - Real.sin s)| ≤ |x - s| + |e * (Real.sin x - Real.sin s)| := abs_sub _ _
    _ ≤ _ := by
      rw [abs_mul, abs_of_nonneg h0]
      have := mul_le_mul h1.le h2 (abs_nonneg _) zero_le_one
      linarith

theorem fit_above {e s x τ : ℝ} (h7 : 7 / 10 ≤ e) (h1 : e < 1) (hs : 0 ≤ s) (hsx : s < x) (hx : x ≤ Real.pi) (hτ : 0 < τ) (hτ1 : τ ≤ 1 / 1000)
    (hF : τ ≤ |fall e s x|) : Fit (fall e s x) (slope e x) (e * Real.sin x) (89 / 10 * τ) := by
  have h0 : 0 ≤ e := by linarith
  obtain ⟨h2, h3⟩ := fall_above h0 h1 hs hsx hx
  have h4 := fall_third h0 hs hsx hx h3
  have hp := slope_pos h0 h1 x
  have hd : 0 < x - s := by linarith
  have hF0 : 0 < fall e s x := by have := mul_pos hd hp; linarith
  have hsin : 0 ≤ Real.sin x := Real.sin_nonneg_of_nonneg_of_le_pi (by linarith) hx
  have hw : 0 ≤ e * Real.sin x := mul_nonneg h0 hsin
  rw [abs_of_pos hF0] at hF
  have hR : slope e x ^ 2 ≤ 16 * slope e x ^ 2 - 20 * fall e s x * (e * Real.sin x) := by
    generalize fall e s x = F at *
    generalize e * Real.sin x = w at *
    generalize slope e x = p at *
    generalize x - s = d at *
    obtain ⟨g, rfl⟩ : ∃ g, F = d * g := ⟨F / d, by field_simp⟩
    have hu : w * d ≤ 3 * (p - g) := by
      have := le_of_mul_le_mul_left h4 hd
      linarith
    have hg : p ≤ 3 * g := le_of_mul_le_mul_left (show d * p ≤ d * (3 * g) by linarith) hd
    have := radicand (p := p) (g := g) (by linarith) hu
    linarith
  refine ⟨?_, .inl ⟨hR, by positivity⟩⟩
  have hFx : τ ≤ 1 * x * slope e x := by
    have e1 : fall e s x ≤ (x - s) * slope e x := by
      refine h4.trans (mul_le_mul_of_nonneg_left ?_ hd.le)
      have : 0 ≤ e * Real.sin x * (x - s) / 3 := by positivity
      linarith
    have e2 : (x - s) * slope e x ≤ x * slope e x := mul_le_mul_of_nonneg_right (by linarith) hp.le
    linarith
  have h5 := cube_ge 1 (14 / 100) (445 / 100) hτ hτ1 hp (by norm_num) hFx
    (slope_sq h7 h1 (by rw [abs_of_nonneg (by linarith)]; exact hx)) (by norm_num) (by norm_num) (by norm_num)
  have h6 : slope e x ≤ √(16 * slope e x ^ 2 - 20 * fall e s x * (e * Real.sin x)) := Real.le_sqrt_of_sq_le hR
  linarith

/-- the denominator below the root -/
theorem fit_below {e s x τ : ℝ} (h0 : 0 ≤ e) (h1 : e < 1) (hx : 0 ≤ x) (hxs : x < s) (hs : s ≤ Real.pi)
    (hn : x + (s - x) / 2 ≤ next e s x) (hp : 89 / 50 * τ ≤ slope e x) :
    Fit (fall e s x) (slope e x) (e * Real.sin x) (89 / 10 * τ) := by
  have hsin : 0 ≤ Real.sin x := Real.sin_nonneg_of_nonneg_of_le_pi hx (by linarith)
  have hw : 0 ≤ e * Real.sin x := mul_nonneg h0 hsin
  have hF : fall e s x ≤ 0 := by
    have h2 := Real.abs_sin_sub_sin_le s x
    rw [abs_of_pos (by linarith : 0 < s - x)] at h2
    have h3 := mul_le_mul_of_nonneg_left ((abs_le.mp h2).2) h0
    have h4 := mul_nonneg (show 0 ≤ 1 - e by linarith) (show 0 ≤ s - x by linarith)
    unfold fall
    linarith
  have hFw : 20 * fall e s x * (e * Real.sin x) ≤ 0 := mul_nonpos_of_nonpos_of_nonneg (by linarith) hw
  refine ⟨?_, .inr ⟨hFw, ?_⟩⟩
  · have : 4 * slope e x ≤ √(16 * slope e x ^ 2 - 20 * fall e s x * (e * Real.sin x)) := Real.le_sqrt_of_sq_le (by linarith)
    linarith
  · have h2 := fall_dist e s x h0 h1
    rw [abs_of_neg (by linarith : x - s < 0)] at h2
    have h3 : delta (fall e s x) (slope e x) (e * Real.sin x) = x - next e s x := by unfold next; ring
    rw [h3]
    have := neg_le_abs (x - next e s x)
    linarith

/-! ## The region that the iteration does not leave -/

/-- points that a step, with its error, from `[s, Y]` can lead to -/
def RGood (e s Y x : ℝ) : Prop :=
  x ≤ Y ∧ (s ≤ x ∨ s - 34 / 100 * (Y - s) ≤ x ∧
    (13 * s ≤ 30 * x ∨ s ≤ 4 / 10 ∧ e * s ^ 2 ≤ 9 * (1 - e) ∧ e * (s - x) ^ 2 ≤ 6 / 5 * (1 - e)))

theorem rgood_step {e s Y x τ : ℝ} (h7 : 7 / 10 ≤ e) (h1 : e < 1) (hs : 0 ≤ s) (hsY : s ≤ Y) (hY : Y ≤ Real.pi) (hW : 100 * Y ≤ 266 * s ∨ Y ≤ 87 / 100)
    (h : RGood e s Y x) (hτ : 0 < τ) (hτ1 : τ ≤ 1 / 1000) (hF : τ ≤ |fall e s x|) :
    Fit (fall e s x) (slope e x) (e * Real.sin x) (89 / 10 * τ) ∧
    ∀ q, |q| ≤ 1 / 200 → RGood e s Y (pnext e s q x) ∧ dist s (pnext e s q x) ≤ 17 / 20 * dist s x := by
  have hpi := Real.pi_gt_three
  have h0 : 0 ≤ e := by linarith
  obtain ⟨hxY, h⟩ := h
  by_cases hsx : s ≤ x
  · rcases hsx.eq_or_lt with rfl | hsx'
    · simp [fall] at hF
      linarith
    refine ⟨fit_above h7 h1 hs hsx' (hxY.trans hY) hτ hτ1 hF, fun q hq => ?_⟩
    obtain ⟨h2, h3⟩ := next_above h0 h1 hs hsx' (hxY.trans hY)
    have hd : dist s x = x - s := if_pos hsx
    have hqa := abs_le.mp hq
    have hd0 : 0 ≤ x - next e s x := by linarith
    have hq1 := mul_le_mul_of_nonneg_right hqa.1 hd0
    have hq2 := mul_le_mul_of_nonneg_right hqa.2 hd0
    have hpe := pnext_eq e s q x
    by_cases hn : s ≤ pnext e s q x
    · refine ⟨⟨by linarith, .inl hn⟩, ?_⟩
      rw [hd, dist, if_pos hn]
      linarith
    · refine ⟨⟨by linarith, .inr ⟨by linarith, ?_⟩⟩, ?_⟩
      · by_cases hx27 : 100 * x ≤ 266 * s
        · exact .inl (by linarith)
        · have hx87 : x ≤ 87 / 100 := by rcases hW with hW | hW <;> linarith
          exact .inr ⟨by linarith, pundershoot h0 h1 hs (not_le.mp hx27) hx87 hq (not_le.mp hn)⟩
      · rw [hd, dist, if_neg hn]
        linarith
  · have hxs := not_le.mp hsx
    obtain ⟨h2, h3⟩ := h.resolve_left hsx
    have hstep : (x + (s - x) / 2 ≤ next e s x ∧ next e s x ≤ s + 2 * (s - x)) ∧ Fit (fall e s x) (slope e x) (e * Real.sin x) (89 / 10 * τ) := by
      have hF' := hF
      rcases h3 with h3 | ⟨hs4, h3, h4⟩
      · have hx0 : 0 < x := by linarith
        have h4 := next_below_wide h0 h1 hx0 hxs (hsY.trans hY) h3
        refine ⟨h4, fit_below h0 h1 hx0.le hxs (hsY.trans hY) h4.1 ?_⟩
        have hp := slope_pos h0 h1 x
        refine cube_ge 4 (14 / 100) (89 / 50) hτ hτ1 hp (by norm_num) ?_ (slope_sq h7 h1 (by rw [abs_of_pos hx0]; linarith)) (by norm_num) (by norm_num) (by norm_num)
        have e1 := mul_le_mul_of_nonneg_left (trig_below hx0 hxs.le (hsY.trans hY) h3) h0
        have e2 : 0 ≤ (1 - e) * (s - x) := mul_nonneg (by linarith) (by linarith)
        have e3 : (s - x) - e * (Real.sin s - Real.sin x) ≤ 3 * (s - x) * slope e x := by unfold slope; linarith
        have e4 : 3 * (s - x) * slope e x ≤ 4 * x * slope e x := mul_le_mul_of_nonneg_right (by linarith) hp.le
        have e5 : 0 ≤ (s - x) - e * (Real.sin s - Real.sin x) := by
          have h2 := Real.abs_sin_sub_sin_le s x
          rw [abs_of_pos (by linarith : 0 < s - x)] at h2
          have := mul_le_mul_of_nonneg_left ((abs_le.mp h2).2) h0
          linarith
        rw [fall_neg, abs_neg, abs_of_nonneg e5] at hF'
        linarith
      · have hp := slope_pos h0 h1 x
        rcases le_or_gt 0 x with hx | hx
        · obtain ⟨h5, h6⟩ := pnext_below_tame h0 h1 hx hxs hs4 h3
          refine ⟨h5, fit_below h0 h1 hx hxs (hsY.trans hY) h5.1 ?_⟩
          have hpE : 1 - e ≤ slope e x := by
            have : 0 ≤ e * (1 - Real.cos x) := mul_nonneg h0 (sub_nonneg.mpr (Real.cos_le_one x))
            rw [slope_eq]; linarith
          refine cube_ge 3 (7 / 90) (89 / 50) hτ hτ1 (x := s) hp (by norm_num) ?_ ?_ (by norm_num) (by norm_num) (by norm_num)
          · have e4 : 3 * (s - x) * slope e x ≤ 3 * s * slope e x := mul_le_mul_of_nonneg_right (by linarith) hp.le
            have e5 : 0 ≤ (s - x) - e * (Real.sin s - Real.sin x) := by
              have h2 := Real.abs_sin_sub_sin_le s x
              rw [abs_of_pos (by linarith : 0 < s - x)] at h2
              have := mul_le_mul_of_nonneg_left ((abs_le.mp h2).2) h0
              have := mul_nonneg (show 0 ≤ 1 - e by linarith) (show 0 ≤ s - x by linarith)
              linarith
            rw [fall_neg, abs_neg, abs_of_nonneg e5] at hF'
            linarith
          · have := mul_le_mul_of_nonneg_right h7 (sq_nonneg s)
            linarith
        · obtain ⟨h5, h6, h8, h9, h10⟩ := pnext_beyond h0 h1 hs hx (by rcases hW with hW | hW <;> linarith) h4
          have hR : slope e x ^ 2 ≤ 16 * slope e x ^ 2 - 20 * fall e s x * (e * Real.sin x) := by
            have := sq_nonneg (slope e x)
            linarith
          refine ⟨h5, ?_, .inl ⟨hR, by linarith⟩⟩
          have h11 := cube_ge (6 / 5) (58 / 100) (445 / 100) hτ hτ1 (x := s - x) (show 0 < 1 - e by linarith) (by norm_num) (by linarith)
            (by have := mul_le_mul_of_nonneg_right h7 (sq_nonneg (s - x)); linarith) (by norm_num) (by norm_num) (by norm_num)
          have h12 : slope e x ≤ √(16 * slope e x ^ 2 - 20 * fall e s x * (e * Real.sin x)) := Real.le_sqrt_of_sq_le hR
          linarith
    obtain ⟨⟨h5, h6⟩, hfit⟩ := hstep
    refine ⟨hfit, fun q hq => ?_⟩
    have hd : dist s x = 5 / 2 * (s - x) := if_neg hsx
    have hqa := abs_le.mp hq
    have hd0 : 0 ≤ next e s x - x := by linarith
    have hq1 := mul_le_mul_of_nonneg_right hqa.1 hd0
    have hq2 := mul_le_mul_of_nonneg_right hqa.2 hd0
    have hpe := pnext_eq e s q x
    by_cases hn : s ≤ pnext e s q x
    · refine ⟨⟨by linarith, .inl hn⟩, ?_⟩
      rw [hd, dist, if_pos hn]
      linarith
    · have hn' := not_le.mp hn
      refine ⟨⟨by linarith, .inr ⟨by linarith, ?_⟩⟩, ?_⟩
      · rcases h3 with h3 | ⟨hs4, h3, h4⟩
        · exact .inl (by linarith)
        · refine .inr ⟨hs4, h3, (mul_le_mul_of_nonneg_left (pow_le_pow_left₀ (by linarith) (by linarith) 2) h0).trans h4⟩
      · rw [hd, dist, if_neg hn]
        linarith

/-! ## Starting below the root -/

/-- points below the root from which the iteration starts, or comes to before it passes the root -/
def RLow (e s x : ℝ) : Prop :=
  0 ≤ x ∧ x ≤ s ∧ s ≤ Real.pi / 2 ∧ (s - x) - e * (Real.sin s - Real.sin x) ≤ 2325 / 10000 * (e * Real.sin x)

theorem rlow_step {e s x τ : ℝ} (h7 : 7 / 10 ≤ e) (h1 : e < 1) (h : RLow e s x) (hτ : 0 < τ) (hF : τ ≤ |fall e s x|) :
    Fit (fall e s x) (slope e x) (e * Real.sin x) (89 / 10 * τ) ∧
    ∀ q, |q| ≤ 1 / 200 → (RLow e s (pnext e s q x) ∧ s - pnext e s q x ≤ 17 / 20 * (s - x)) ∨
      s ≤ pnext e s q x ∧ pnext e s q x ≤ Real.pi ∧ (100 * pnext e s q x ≤ 266 * s ∨ pnext e s q x ≤ 87 / 100) := by
  have hpi := Real.pi_gt_three
  have h0 : 0 ≤ e := by linarith
  obtain ⟨hx, hxs, hs, hPw⟩ := h
  have hxs' : x < s := by
    rcases hxs.eq_or_lt with rfl | h
    · simp [fall] at hF
      linarith
    · exact h
  set P := (s - x) - e * (Real.sin s - Real.sin x) with hP
  have hP0 : 0 ≤ P := by
    have h2 := Real.abs_sin_sub_sin_le s x
    rw [abs_of_pos (by linarith : 0 < s - x)] at h2
    have := mul_le_mul_of_nonneg_left ((abs_le.mp h2).2) h0
    have := mul_nonneg (show 0 ≤ 1 - e by linarith) (show 0 ≤ s - x by linarith)
    linarith
  have hFP : fall e s x = -P := fall_neg e s x
  rw [hFP, abs_neg, abs_of_nonneg hP0] at hF
  have hw : 0 < e * Real.sin x := by linarith
  have h6 := mul_le_mul_of_nonneg_left (sin_second hx hxs (by linarith)) h0
  have hp := slope_pos h0 h1 x
  obtain ⟨h9, h8⟩ := delta_lower_start (P := P) hp (sub_pos.mpr hxs') hw.le (by rw [hP]; unfold slope; linarith)
  have hn : next e s x = x - delta (-P) (slope e x) (e * Real.sin x) := by rw [next, hFP]
  rw [hFP]
  constructor
  · have hX : 20 * -P * (e * Real.sin x) ≤ 0 := by
      have := mul_nonneg hP0 hw.le
      linarith
    refine ⟨?_, .inr ⟨hX, ?_⟩⟩
    · have h10 : 89 / 10 * τ ≤ √(16 * slope e x ^ 2 - 20 * -P * (e * Real.sin x)) := by
        refine Real.le_sqrt_of_sq_le ?_
        have e1 : (89 / 10 * τ) ^ 2 ≤ (89 / 10 * P) ^ 2 := pow_le_pow_left₀ (by positivity) (by linarith) 2
        have e2 : P * (4 * P) ≤ P * (e * Real.sin x) := mul_le_mul_of_nonneg_left (by linarith) hP0
        have := sq_nonneg (slope e x)
        linarith
      linarith
    · have h2 := fall_dist e s x h0 h1
      rw [hFP, abs_of_neg (by linarith : x - s < 0)] at h2
      have := neg_le_abs (delta (-P) (slope e x) (e * Real.sin x))
      linarith
  intro q hq
  set dl := -delta (-P) (slope e x) (e * Real.sin x) with hdl
  have hqa := abs_le.mp hq
  have hdl0 : 0 ≤ dl := by linarith
  have hq1 := mul_le_mul_of_nonneg_right hqa.1 hdl0
  have hq2 := mul_le_mul_of_nonneg_right hqa.2 hdl0
  have hn' : pnext e s q x = x + dl + q * dl := by rw [pnext, hFP, hdl]; ring
  have hdl2 : dl ^ 2 ≤ 290625 / 1000000 := by
    have h9 : delta (-P) (slope e x) (e * Real.sin x) ^ 2 = dl ^ 2 := by rw [hdl]; ring
    rw [h9] at h8
    have h10 : 4 * (e * Real.sin x) * dl ^ 2 ≤ 4 * (e * Real.sin x) * (290625 / 1000000) := by linarith
    exact le_of_mul_le_mul_left h10 (by linarith)
  have hdl1 : dl ≤ 5392 / 10000 := by
    by_contra hlt
    have := pow_lt_pow_left₀ (not_le.mp hlt) (by norm_num) two_ne_zero
    linarith
  rw [hn']
  by_cases hc : x + dl + q * dl ≤ s
  · left
    have hxx : x ≤ x + dl + q * dl := by linarith
    refine ⟨⟨by linarith, hc, hs, ?_⟩, by linarith⟩
    have e1 : Real.sin x ≤ Real.sin (x + dl + q * dl) := Real.sin_le_sin_of_le_of_le_pi_div_two (by linarith) (by linarith) hxx
    have e2 := mul_le_mul_of_nonneg_left e1 h0
    have e3 := Real.abs_sin_sub_sin_le (x + dl + q * dl) x
    rw [abs_of_nonneg (show 0 ≤ x + dl + q * dl - x by linarith)] at e3
    have e4 := mul_le_mul_of_nonneg_left ((abs_le.mp e3).2) h0
    have e5 : e * (x + dl + q * dl - x) ≤ x + dl + q * dl - x := mul_le_of_le_one_left (by linarith) h1.le
    linarith
  · right
    have hc := not_le.mp hc
    refine ⟨hc.le, by linarith, ?_⟩
    by_cases hq : 100 * (x + dl + q * dl) ≤ 266 * s
    · exact .inl hq
    · exact .inr (by linarith)

/-! ## The whole iteration -/

/-- where the iteration can be after `n` steps, when it leaves the start after at most `K` steps -/
def At (e s : ℝ) (K n : ℕ) (x : ℝ) : Prop :=
  (RLow e s x ∧ s - x ≤ 2 * (17 / 20) ^ n) ∨
    ∃ j ≤ K, j ≤ n ∧ ∃ Y, s ≤ Y ∧ Y ≤ Real.pi ∧ (100 * Y ≤ 266 * s ∨ Y ≤ 87 / 100) ∧ RGood e s Y x ∧ dist s x ≤ 35 / 10 * (17 / 20) ^ (n - j)

theorem at_step {e s x τ : ℝ} {K n : ℕ} (h7 : 7 / 10 ≤ e) (h1 : e < 1) (hs : 0 ≤ s) (hτ : 0 < τ) (hτ1 : τ ≤ 1 / 1000) (hK : 7 * (17 / 20) ^ K < τ)
    (h : At e s K n x) (hF : τ ≤ |fall e s x|) :
    Fit (fall e s x) (slope e x) (e * Real.sin x) (89 / 10 * τ) ∧ ∀ q, |q| ≤ 1 / 200 → At e s K (n + 1) (pnext e s q x) := by
  have hpi := Real.pi_lt_d2
  rcases h with ⟨h2, h3⟩ | ⟨j, hj, hjn, Y, h2, h3, h4, h5, h6⟩
  · obtain ⟨k1, k2⟩ := rlow_step h7 h1 h2 hτ hF
    refine ⟨k1, fun q hq => ?_⟩
    rcases k2 q hq with ⟨k3, k4⟩ | ⟨k3, k4, k5⟩
    · left
      refine ⟨k3, k4.trans ?_⟩
      rw [pow_succ]
      linarith
    · right
      have hnK : n < K := by
        by_contra hn
        have hn := not_lt.mp hn
        have e1 : (17 / 20 : ℝ) ^ n ≤ (17 / 20) ^ K := pow_le_pow_of_le_one (by norm_num) (by norm_num) hn
        have e2 := fall_dist e s x (by linarith) h1
        rw [abs_sub_comm, abs_of_nonneg (sub_nonneg.mpr h2.2.1)] at e2
        have e3 : (0 : ℝ) < (17 / 20) ^ K := by positivity
        linarith
      refine ⟨n + 1, hnK, le_rfl, _, k3, k4, k5, ⟨le_rfl, .inl k3⟩, ?_⟩
      rw [Nat.sub_self, pow_zero, dist, if_pos k3]
      linarith
  · obtain ⟨k1, k2⟩ := rgood_step h7 h1 hs h2 h3 h4 h5 hτ hτ1 hF
    refine ⟨k1, fun q hq => .inr ?_⟩
    obtain ⟨k3, k4⟩ := k2 q hq
    refine ⟨j, hj, by omega, Y, h2, h3, h4, k3, k4.trans ?_⟩
    rw [show n + 1 - j = (n - j) + 1 by omega, pow_succ]
    linarith

/-- after `2 K` steps the value is small -/
theorem at_end {e s x τ : ℝ} {K : ℕ} (h0 : 0 ≤ e) (h1 : e < 1) (hK : 7 * (17 / 20) ^ K < τ) (h : At e s K (2 * K) x) : |fall e s x| < τ := by
  rcases h with ⟨h2, h3⟩ | ⟨j, hj, hjn, Y, h2, h3, h4, h5, h6⟩
  · have e1 : (17 / 20 : ℝ) ^ (2 * K) ≤ (17 / 20) ^ K := pow_le_pow_of_le_one (by norm_num) (by norm_num) (by omega)
    have e2 := fall_dist e s x h0 h1
    rw [abs_sub_comm, abs_of_nonneg (sub_nonneg.mpr h2.2.1)] at e2
    have e3 : (0 : ℝ) < (17 / 20) ^ K := by positivity
    linarith
  · have e1 : (17 / 20 : ℝ) ^ (2 * K - j) ≤ (17 / 20) ^ K := pow_le_pow_of_le_one (by norm_num) (by norm_num) (by omega)
    have := fall_le (s := s) (x := x) h0 h1
    linarith

/-- every step keeps the point within half a turn and a bit of the root -/
theorem at_range {e s x : ℝ} {K n : ℕ} (hs : 0 ≤ s) (h : At e s K n x) : -(3 / 10) ≤ x ∧ x ≤ Real.pi := by
  have hpi := Real.pi_gt_three
  rcases h with ⟨⟨h2, h3, h4, -⟩, -⟩ | ⟨j, hj, hjn, Y, h2, h3, h4, ⟨h5, h6⟩, -⟩
  · constructor <;> linarith
  · refine ⟨?_, by linarith⟩
    rcases h6 with h6 | ⟨h6, -⟩
    · linarith
    · rcases h4 with h4 | h4 <;> linarith

end Pyorb.Lag
