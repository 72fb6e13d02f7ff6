import Verif.LagHyper

/-!
# Laguerre's method for the hyperbolic Kepler equation, started on the inbound leg

Everything is mirrored at the origin: the root is `s ≥ 0`, the mean anomaly is `-m` and the code starts at `-log (1.8 - 2 m / e)`.
-/

namespace Pyorb.Lag.Hyp

theorem rise_mirror (e s x : ℝ) : rise e (-s) (-x) = -rise e s x := by
  simp only [rise, Real.sinh_neg]; ring

theorem slope_mirror (e x : ℝ) : slope e (-x) = slope e x := by simp only [slope, Real.cosh_neg]

theorem next_mirror (e s x : ℝ) : next e (-s) (-x) = -next e s x := by
  simp only [next, rise_mirror, slope_mirror, Real.sinh_neg, delta]
  rw [show (20 : ℝ) * -rise e s x * (e * -Real.sinh x) = 20 * rise e s x * (e * Real.sinh x) by ring]
  ring

theorem iterate_mirror (e s : ℝ) (n : Nat) : ∀ x, (next e (-s))^[n] (-x) = -(next e s)^[n] x := by
  induction n with
  | zero => intro x; rfl
  | succ n ih => intro x; rw [Function.iterate_succ_apply, next_mirror, ih, Function.iterate_succ_apply]

/-! ## Below the root, for `e ≥ 2` -/

theorem cube_sum (s z : ℝ) : s ^ 3 + z ^ 3 = (s + z) * (s ^ 2 - s * z + z ^ 2) := by ring

theorem sinh_le_cube {t : ℝ} (h0 : 0 ≤ t) (h1 : t ≤ 3 / 4) : Real.sinh t ≤ t + 1723 / 10000 * t ^ 3 := by
  refine (sinh_le_unit5 h0 (by linarith)).trans ?_
  have h2 : t ^ 2 ≤ 9 / 16 := by nlinarith
  have h3 := mul_le_mul_of_nonneg_left h2 (show 0 ≤ t ^ 3 by positivity)
  nlinarith

theorem near_poly {a b c : ℝ} (ha : 0 ≤ a) (ha1 : a ≤ 3 / 5) (hb : 0 ≤ b) (hD : a + b ≤ 3 / 4) (hc0 : 0 ≤ c) (hc : c ≤ 2) :
    (32 / 10 + 5 * (c * (1723 / 10000) * (b ^ 2 - b * a + a ^ 2))) ^ 2 +
      6878 / 100 * (c * a * (a + b) * (1 + c * (1723 / 10000) * (b ^ 2 - b * a + a ^ 2))) ≤ 5184 / 100 * (1 + c * a ^ 2) := by
  set Q := b ^ 2 - b * a + a ^ 2 with hQ
  have hQ0 : 0 ≤ Q := by nlinarith [sq_nonneg (b - a)]
  have hQ1 : Q ≤ 9 / 16 := by nlinarith [mul_nonneg ha hb]
  have hcc : c ^ 2 ≤ 2 * c := by nlinarith
  have haD : 0 ≤ a * (a + b) := mul_nonneg ha (by linarith)
  have haD1 : a * (a + b) ≤ 3 / 4 * a := by nlinarith
  have hB : 552 / 100 * Q + 15 / 10 * Q ^ 2 + 6878 / 100 * (a * (a + b)) * (1 + 3446 / 10000 * Q) - 5184 / 100 * a ^ 2 ≤ 208 / 10 := by
    have h1 : a * (a + b) * (1 + 3446 / 10000 * Q) ≤ 3 / 4 * a * (1 + 3446 / 10000 * Q) := mul_le_mul_of_nonneg_right haD1 (by positivity)
    have h2 : Q ≤ 9 / 16 - 9 / 4 * a + 3 * a ^ 2 + 3 * a * (3 / 4 - a - b) := by rw [hQ]; nlinarith
    nlinarith [mul_nonneg ha hQ0, sq_nonneg (a - 1 / 2)]
  have e1 : (32 / 10 + 5 * (c * (1723 / 10000) * Q)) ^ 2 = 1024 / 100 + c * (32 * (1723 / 10000) * Q) + c ^ 2 * (25 * (1723 / 10000) ^ 2 * Q ^ 2) := by ring
  have h1 := mul_le_mul_of_nonneg_right hcc (show 0 ≤ 25 * (1723 / 10000 : ℝ) ^ 2 * Q ^ 2 by positivity)
  have h2 : c * a * (a + b) * (1 + c * (1723 / 10000) * Q) ≤ c * (a * (a + b) * (1 + 3446 / 10000 * Q)) := by
    have h3 : c * Q ≤ 2 * Q := mul_le_mul_of_nonneg_right hc hQ0
    have := mul_le_mul_of_nonneg_left (show 1 + c * (1723 / 10000) * Q ≤ 1 + 3446 / 10000 * Q by linarith) (mul_nonneg hc0 haD)
    linarith
  have h4 := mul_le_mul_of_nonneg_left hB hc0
  have h5 : c * Q ^ 2 * (50 * (1723 / 10000) ^ 2) ≤ c * Q ^ 2 * (15 / 10) := mul_le_mul_of_nonneg_left (by norm_num) (by positivity)
  have h6 : c * Q * (32 * (1723 / 10000)) ≤ c * Q * (552 / 100) := mul_le_mul_of_nonneg_left (by norm_num) (by positivity)
  rw [e1]
  nlinarith

theorem near_unit {c z D g q w G : ℝ} (hc0 : 0 ≤ c) (hz : 0 ≤ z) (hD : 0 ≤ D) (hG0 : 0 ≤ G) (hgL : 1 ≤ g) (hgU : g ≤ 1 + G)
    (hqL : 1 + c * (z ^ 2 / 2) ≤ q) (hqU : q ≤ 3 / 2) (hw0 : 0 ≤ w) (hwU : w ≤ c * (10613 / 10000 * z))
    (h : (32 / 10 + 5 * G) ^ 2 + 6878 / 100 * (c * z * D * (1 + G)) ≤ 5184 / 100 * (1 + c * z ^ 2)) :
    (5 * g - 9 / 5 * q) ^ 2 ≤ (9 / 5) ^ 2 * (16 * q ^ 2 - 20 * (D * g * w)) := by
  have h9 : 0 ≤ c * (z ^ 2 / 2) := by positivity
  have h5 : (5 * g - 9 / 5 * q) ^ 2 ≤ (32 / 10 + 5 * G) ^ 2 := by
    refine sq_le_sq' ?_ ?_ <;> linarith
  have h6 : D * g * w ≤ 10613 / 10000 * (c * z * D * (1 + G)) := by
    have h7 : g * w ≤ (1 + G) * (c * (10613 / 10000 * z)) := mul_le_mul hgU hwU hw0 (by linarith)
    have := mul_le_mul_of_nonneg_left h7 hD
    linarith
  have h8 : 1 + c * z ^ 2 ≤ q ^ 2 := by
    have h11 := pow_le_pow_left₀ (by linarith) hqL 2
    have h12 := sq_nonneg (c * (z ^ 2 / 2))
    linarith
  have h10 : 0 ≤ c * z * D * (1 + G) := by positivity
  linarith

/-- the step from beyond the origin -/
theorem next_near_beyond {e s z : ℝ} (h2 : 2 ≤ e) (hs : 0 ≤ s) (hz : 0 < z) (hz1 : z ≤ 3 / 5) (hD1 : s + z ≤ 3 / 4) :
    -z + 1 / 2 * (s + z) ≤ next e s (-z) ∧ next e s (-z) ≤ s + 4 / 5 * (s + z) := by
  have he : 0 < e := by linarith
  have hp := slope_pos (show 1 < e by linarith) z
  have hnext : next e s (-z) = -z + delta (e * (Real.sinh s + Real.sinh z) - (s + z)) (slope e z) (e * Real.sinh z) := by
    rw [next_eq, slope_mirror, Real.sinh_neg]
    congr 2 <;> ring
  set D := s + z with hDd
  have hD : 0 < D := by linarith
  set c := e / (e - 1) with hc
  have hE : 0 < e - 1 := by linarith
  have hcE : e = c * (e - 1) := by rw [hc]; field_simp
  have hc0 : 0 ≤ c := by positivity
  have hc2 : c ≤ 2 := by rw [hc, div_le_iff₀ hE]; linarith
  set Q := s ^ 2 - s * z + z ^ 2 with hQ
  have hQ0 : 0 ≤ Q := by nlinarith [sq_nonneg (s - z)]
  have hQ1 : Q ≤ 9 / 16 := by nlinarith [mul_nonneg hs hz.le]
  have hS1 : Real.sinh s + Real.sinh z - D ≤ 1723 / 10000 * (D * Q) := by
    have h3 := sinh_le_cube hs (by linarith)
    have h4 := sinh_le_cube hz.le (by linarith)
    have h5 := cube_sum s z
    rw [← hQ, ← hDd] at h5
    linarith
  have hS0 : 0 ≤ Real.sinh s + Real.sinh z - D := by
    have h3 := Real.self_le_sinh_iff.mpr hs
    have h4 := Real.self_le_sinh_iff.mpr hz.le
    linarith
  obtain ⟨g, hg⟩ : ∃ g, e * (Real.sinh s + Real.sinh z) - D = D * ((e - 1) * g) :=
    ⟨(e * (Real.sinh s + Real.sinh z) - D) / (D * (e - 1)), by field_simp⟩
  have hgL : 1 ≤ g := by
    have h3 := mul_nonneg he.le hS0
    have h4 : D * (e - 1) * 1 ≤ D * (e - 1) * g := by linarith
    exact le_of_mul_le_mul_left h4 (by positivity)
  have hgU : g ≤ 1 + c * (1723 / 10000) * Q := by
    have h3 := mul_le_mul_of_nonneg_left hS1 he.le
    have h4 : D * (e - 1) * g ≤ D * (e - 1) * (1 + c * (1723 / 10000) * Q) := by
      have h5 : D * (e - 1) * (1 + c * (1723 / 10000) * Q) = D * (e - 1) + 1723 / 10000 * (D * Q) * (c * (e - 1)) := by ring
      rw [h5, ← hcE]
      linarith
    exact le_of_mul_le_mul_left h4 (by positivity)
  obtain ⟨q, hq⟩ : ∃ q, slope e z = (e - 1) * q := ⟨slope e z / (e - 1), by field_simp⟩
  have hqe : q = 1 + c * (Real.cosh z - 1) := by
    have h3 : (e - 1) * q = (e - 1) * (1 + c * (Real.cosh z - 1)) := by
      rw [← hq, slope_eq]
      have : (e - 1) * (1 + c * (Real.cosh z - 1)) = (e - 1) + c * (e - 1) * (Real.cosh z - 1) := by ring
      rw [this, ← hcE]
    exact mul_left_cancel₀ hE.ne' h3
  have hqL : 1 + c * (z ^ 2 / 2) ≤ q := by
    have := mul_le_mul_of_nonneg_left (cosh_ge2 hz.le) hc0
    linarith
  have hq1 : 1 ≤ q := by
    have : 0 ≤ c * (z ^ 2 / 2) := by positivity
    linarith
  have hqU : q ≤ 3 / 2 := by
    have h3 := mul_le_mul_of_nonneg_left (cosh_le_unit2 hz.le (by linarith)) hc0
    have h4 : z ^ 2 ≤ 9 / 25 := by nlinarith
    have h5 : c * (3 / 5 * z ^ 2) ≤ 2 * (3 / 5 * (9 / 25)) := mul_le_mul hc2 (by linarith) (by positivity) (by norm_num)
    linarith
  set w := c * Real.sinh z with hw
  have hwe : e * Real.sinh z = (e - 1) * w := by
    rw [hw]
    have : (e - 1) * (c * Real.sinh z) = c * (e - 1) * Real.sinh z := by ring
    rw [this, ← hcE]
  have hsz : Real.sinh z ≤ 10613 / 10000 * z := by
    have h3 := sinh_le_unit5 hz.le (by linarith)
    have h4 : z ^ 2 ≤ 9 / 25 := by nlinarith
    have h5 : z ^ 4 ≤ 81 / 625 := by
      have := pow_le_pow_left₀ (sq_nonneg z) h4 2
      rw [← pow_mul] at this
      norm_num at this ⊢
      exact this
    have h6 := mul_le_mul_of_nonneg_left h4 hz.le
    have h7 := mul_le_mul_of_nonneg_left h5 hz.le
    linarith
  have hsz0 : 0 ≤ Real.sinh z := sinh_nonneg hz.le
  have hw0 : 0 ≤ w := mul_nonneg hc0 hsz0
  have hwU : w ≤ c * (10613 / 10000 * z) := mul_le_mul_of_nonneg_left hsz hc0
  rw [hnext, hg, hq, hwe]
  have hlow : 1 / 2 * D ≤ delta (D * ((e - 1) * g)) ((e - 1) * q) ((e - 1) * w) := by
    refine le_delta (by positivity) (by positivity) (by positivity) ?_ ?_
    · have h3 : D * (g * w) ≤ 8 / 5 * q ^ 2 := by
        have h4 : g ≤ 12 / 10 := by
          have : c * (1723 / 10000) * Q ≤ 2 * (1723 / 10000) * (9 / 16) := mul_le_mul (by linarith) hQ1 hQ0 (by norm_num)
          linarith
        have h5 : w ≤ 128 / 100 := by
          have : c * (10613 / 10000 * z) ≤ 2 * (10613 / 10000 * (3 / 5)) := mul_le_mul hc2 (by linarith) (by positivity) (by norm_num)
          linarith
        have h6 : g * w ≤ 12 / 10 * (128 / 100) := mul_le_mul h4 h5 hw0 (by norm_num)
        have h7 : D * (g * w) ≤ 3 / 4 * (12 / 10 * (128 / 100)) := mul_le_mul hD1 h6 (by positivity) (by norm_num)
        have h8 : 1 ≤ q ^ 2 := one_le_pow₀ hq1
        linarith
      have := mul_le_mul_of_nonneg_left h3 (show 0 ≤ (e - 1) ^ 2 by positivity)
      linarith
    · have h3 : 1 / 2 * q ≤ g := by linarith
      have := mul_le_mul_of_nonneg_left h3 (show 0 ≤ D * (e - 1) by positivity)
      linarith
  have hup : delta (D * ((e - 1) * g)) ((e - 1) * q) ((e - 1) * w) ≤ 9 / 5 * D := by
    refine delta_le (by positivity) (by positivity) ?_
    have h3 := near_poly hz.le hz1 hs (by linarith) hc0 hc2
    rw [← hQ, show z + s = D by rw [hDd]; ring] at h3
    set G := c * (1723 / 10000) * Q with hG
    have hG0 : 0 ≤ G := by positivity
    have h4 := near_unit hc0 hz.le hD.le hG0 hgL hgU hqL hqU hw0 hwU h3
    calc (5 * (D * ((e - 1) * g)) - 9 / 5 * D * ((e - 1) * q)) ^ 2 = (D * (e - 1)) ^ 2 * (5 * g - 9 / 5 * q) ^ 2 := by ring
      _ ≤ (D * (e - 1)) ^ 2 * ((9 / 5) ^ 2 * (16 * q ^ 2 - 20 * (D * g * w))) := mul_le_mul_of_nonneg_left h4 (sq_nonneg _)
      _ = _ := by ring
  constructor <;> linarith

/-- the step from between the origin and the root -/
theorem next_near_above {e s x : ℝ} (h2 : 2 ≤ e) (hx : 0 ≤ x) (hxs : x < s) (hs1 : s ≤ 1) :
    x + 1 / 2 * (s - x) ≤ next e s x ∧ next e s x ≤ s + 4 / 5 * (s - x) := by
  have h1 : 1 < e := by linarith
  have hD : 0 < s - x := sub_pos.mpr hxs
  have hp := slope_pos h1 x
  have he : 0 ≤ e := by linarith
  have hw : 0 ≤ e * Real.sinh x := mul_nonneg he (sinh_nonneg hx)
  refine ⟨by linarith [next_lower h1 hx hxs], ?_⟩
  have hcs : Real.cosh s - 1 ≤ 3 / 5 := by
    have := cosh_le_unit2 (hx.trans hxs.le) hs1
    nlinarith
  have h3 : e * (Real.sinh s - Real.sinh x) - (s - x) ≤ (s - x) * (9 / 5 * slope e x) := by
    have h3 := mul_le_mul_of_nonneg_left (sinh_trapezoid hxs.le) he
    have h4 := mul_le_mul_of_nonneg_left hcs (mul_nonneg hD.le he)
    have h5 : 0 ≤ (s - x) * (e * (Real.cosh x - 1)) := mul_nonneg hD.le (mul_nonneg he (one_le_cosh' x))
    have h6 : 0 ≤ (s - x) * (e - 2) := mul_nonneg hD.le (by linarith)
    rw [slope_eq]
    nlinarith
  have h0 : 0 ≤ e * (Real.sinh s - Real.sinh x) - (s - x) := by
    have h4 := mul_le_mul_of_nonneg_left (sinh_gap hx hxs.le) he
    have h5 : 0 ≤ e * Real.sinh x * (s - x) ^ 2 := by positivity
    have h6 := mul_pos hD hp
    unfold slope at h6
    nlinarith
  have h4 : delta (e * (Real.sinh s - Real.sinh x) - (s - x)) (slope e x) (-(e * Real.sinh x)) ≤ 9 / 5 * (s - x) := by
    refine delta_le hp (by positivity) ?_
    set P := e * (Real.sinh s - Real.sinh x) - (s - x)
    set D := s - x
    set p := slope e x
    have h7 : 0 ≤ P * (e * Real.sinh x) := mul_nonneg h0 hw
    have h8 : (5 * P - 9 / 5 * D * p) ^ 2 ≤ (9 / 5 * D) ^ 2 * (16 * p ^ 2) := by
      have : (9 / 5 * D) ^ 2 * (16 * p ^ 2) = (36 / 5 * D * p) ^ 2 := by ring
      rw [this]
      have := mul_pos hD hp
      refine sq_le_sq' ?_ ?_ <;> linarith
    have := mul_nonneg (sq_nonneg (9 / 5 * D)) h7
    nlinarith
  rw [next_eq]
  linarith

/-- near the root and below it -/
def Near (e s x : ℝ) : Prop := 2 ≤ e ∧ x < s ∧ s ≤ 1 ∧ s - x ≤ 3 / 4 ∧ -(3 / 5) ≤ x

theorem near_step {e s x : ℝ} (hs : 0 ≤ s) (h : Near e s x) :
    (Good e s (next e s x) ∨ Near e s (next e s x)) ∧ dist s (next e s x) ≤ 7 / 8 * dist s x := by
  obtain ⟨h2, hxs, hs1, hD, hx⟩ := h
  have hstep : x + 1 / 2 * (s - x) ≤ next e s x ∧ next e s x ≤ s + 4 / 5 * (s - x) := by
    rcases le_or_gt 0 x with hx0 | hx0
    · exact next_near_above h2 hx0 hxs hs1
    · obtain ⟨z, rfl⟩ : ∃ z, x = -z := ⟨-x, by ring⟩
      rw [sub_neg_eq_add] at *
      exact next_near_beyond h2 hs (by linarith) (by linarith) hD
  obtain ⟨h5, h6⟩ := hstep
  have hdist : dist s x = 7 / 5 * (s - x) := if_neg (not_le.mpr hxs)
  by_cases hn : s ≤ next e s x
  · refine ⟨.inl (.inl ⟨hn, by linarith⟩), ?_⟩
    rw [hdist, dist, if_pos hn]
    linarith
  · refine ⟨.inr ⟨h2, not_le.mp hn, hs1, by linarith, by linarith⟩, ?_⟩
    rw [hdist, dist, if_neg hn]
    linarith

theorem near_iterate {e s : ℝ} (h1 : 1 < e) (hs : 0 ≤ s) (n : Nat) :
    ∀ x, Good e s x ∨ Near e s x → (Good e s ((next e s)^[n] x) ∨ Near e s ((next e s)^[n] x)) ∧
      dist s ((next e s)^[n] x) ≤ (7 / 8) ^ n * dist s x := by
  induction n with
  | zero => intro x hx; simpa using hx
  | succ n ih =>
    intro x hx
    obtain ⟨h2, h3⟩ : (Good e s (next e s x) ∨ Near e s (next e s x)) ∧ dist s (next e s x) ≤ 7 / 8 * dist s x := by
      rcases hx with hx | hx
      · exact ⟨.inl (good_step h1 hs hx).1, (good_step h1 hs hx).2⟩
      · exact near_step hs hx
    rw [Function.iterate_succ_apply]
    refine ⟨(ih _ h2).1, (ih _ h2).2.trans ?_⟩
    rw [pow_succ]
    have := mul_le_mul_of_nonneg_left h3 (show (0 : ℝ) ≤ (7 / 8) ^ n by positivity)
    linarith

theorem near_rise {e s x : ℝ} (hs : 0 ≤ s) (h : Near e s x) : |rise e s x| ≤ e * Real.cosh (s + 3 / 5) * dist s x := by
  obtain ⟨h2, hxs, hs1, hD, hx⟩ := h
  have he : 0 ≤ e := by linarith
  have hdist : dist s x = 7 / 5 * (s - x) := if_neg (not_le.mpr hxs)
  have h3 := abs_sinh_sub_le (x := s) (y := x) (m := 1) (by rw [abs_of_nonneg hs]; exact hs1) (by rw [abs_le]; constructor <;> linarith)
  have h0 := sub_nonneg.mpr (Real.sinh_le_sinh.mpr hxs.le)
  rw [abs_of_nonneg h0, abs_of_pos (sub_pos.mpr hxs)] at h3
  have h4 : Real.cosh 1 ≤ 8 / 5 := by have := cosh_le_unit2 (t := 1) (by norm_num) le_rfl; linarith
  have h5 : 118 / 100 ≤ Real.cosh (s + 3 / 5) := by have := cosh_ge2 (show 0 ≤ s + 3 / 5 by linarith); nlinarith
  have h6 : s - x ≤ Real.sinh s - Real.sinh x := by
    have := le_of_deriv (f := fun t => Real.sinh t - t) (f' := fun t => Real.cosh t - 1) hxs.le
      (fun t => (Real.hasDerivAt_sinh t).sub (hasDerivAt_id t)) (fun t _ _ => one_le_cosh' t)
    linarith
  have h7 : |rise e s x| ≤ e * (Real.sinh s - Real.sinh x) := by
    rw [rise_neg, abs_neg, abs_le]
    constructor <;> nlinarith
  have h8 := mul_le_mul_of_nonneg_right h4 (sub_pos.mpr hxs).le
  have h9 := mul_le_mul_of_nonneg_right h5 (sub_pos.mpr hxs).le
  have h10 : Real.sinh s - Real.sinh x ≤ Real.cosh (s + 3 / 5) * (7 / 5 * (s - x)) := by nlinarith [sub_pos.mpr hxs]
  rw [hdist, mul_assoc]
  exact h7.trans (mul_le_mul_of_nonneg_left h10 he)

/-! ## The code's starting value, mirrored -/

noncomputable def inGuess (e m : ℝ) : ℝ := -guess e (-m)

theorem exp_one_half : 16486 / 10000 ≤ Real.exp (1 / 2) := by
  have h : Real.exp (1 / 2) ^ 2 = Real.exp 1 := by rw [← Real.exp_nat_mul]; norm_num
  have h2 := Real.exp_one_gt_d9
  have h3 := Real.exp_pos (1 / 2)
  by_contra hlt
  nlinarith [not_le.mp hlt]

theorem inGuess_far {s x r v : ℝ} (hv : Real.exp x = v) (hv1 : 5 / 3 ≤ v) (hr : r = 9 / 10 - 1 / (2 * v)) (hs : Real.sinh s - s ≤ r) : s ≤ x + 1 := by
  by_contra hlt
  have hlt := not_le.mp hlt
  have hv0 : 0 < v := by linarith
  have h1 := le_of_deriv (f := fun t => Real.sinh t - t) (f' := fun t => Real.cosh t - 1) hlt.le
      (fun t => (Real.hasDerivAt_sinh t).sub (hasDerivAt_id t)) (fun t _ _ => one_le_cosh' t)
  have h2 : x + 1 / 2 ≤ 6066 / 10000 * v := by
    have h3 := Real.add_one_le_exp (x - 1 / 2)
    rw [Real.exp_sub, hv] at h3
    have h4 : v / Real.exp (1 / 2) ≤ v * (6066 / 10000) := by
      rw [div_le_iff₀ (Real.exp_pos _)]
      have := mul_le_mul_of_nonneg_left exp_one_half (show 0 ≤ v * (6066 / 10000) by positivity)
      linarith
    linarith
  have hiv : 0 < 1 / v := by positivity
  have h5 : 13591 / 10000 * v - 185 / 1000 * (1 / v) ≤ Real.sinh (x + 1) := by
    rw [Real.sinh_eq, Real.exp_neg, Real.exp_add, hv, mul_inv]
    have h6 := Real.exp_one_gt_d9
    have h7 : (Real.exp 1)⁻¹ ≤ 37 / 100 := by
      rw [inv_le_comm₀ (Real.exp_pos 1) (by norm_num)]
      norm_num
      linarith
    have h8 := mul_le_mul_of_nonneg_left h6.le hv0.le
    have h9 := mul_le_mul_of_nonneg_left h7 (show 0 ≤ v⁻¹ by positivity)
    rw [one_div]
    linarith
  have h10 : 1 / (2 * v) = 1 / 2 * (1 / v) := by field_simp
  have h11 : v * (1 / v) = 1 := by field_simp
  rw [h10] at hr
  have h12 : 7525 / 10000 * v + 315 / 1000 * (1 / v) ≤ 14 / 10 := by linarith
  have h13 := mul_le_mul_of_nonneg_left h12 hv0.le
  nlinarith

theorem inGuess_near {s x r q : ℝ} (hs : 0 ≤ s) (hq : Real.exp (-x) = q) (hqr : q = 9 / 5 - 2 * r) (hr : Real.sinh s - s / 2 ≤ r) (hr1 : r ≤ 3 / 5) :
    s ≤ 1 ∧ s - x ≤ 3 / 4 := by
  have h1 := sinh_ge3 hs
  have hs1 : s ≤ 1 := by
    by_contra hlt
    have hlt := not_le.mp hlt
    have : 1 ≤ s ^ 3 := one_le_pow₀ hlt.le
    linarith
  refine ⟨hs1, ?_⟩
  have h2 : q ≤ Real.exp (3 / 4 - s) := by
    rcases le_or_gt s (3 / 4) with h3 | h3
    · have h := Real.sum_le_exp_of_nonneg (show 0 ≤ 3 / 4 - s by linarith) 4
      refine le_trans ?_ h
      norm_num [Finset.sum_range_succ, Nat.factorial]
      nlinarith [sq_nonneg (s - 1 / 2), mul_nonneg hs (sq_nonneg (s - 1 / 2))]
    · have h := Real.add_one_le_exp (3 / 4 - s)
      have : (3 / 4) ^ 3 ≤ s ^ 3 := pow_le_pow_left₀ (by norm_num) h3.le 3
      linarith
  rw [← hq, Real.exp_le_exp] at h2
  linarith

theorem inGuess_start {e m s : ℝ} (h1 : 1 < e) (hs : 0 ≤ s) (hm : e * Real.sinh s - s = m) (hm1 : m ≤ 3 / 4 * e) (h : 2 ≤ e ∨ 3 / 5 * e ≤ m) :
    (Good e s (inGuess e m) ∨ Near e s (inGuess e m)) ∧ dist s (inGuess e m) ≤ 7 / 5 := by
  have he : 0 < e := by linarith
  set r := m / e with hr
  have hme : m = r * e := by rw [hr]; field_simp
  have hr34 : r ≤ 3 / 4 := by rw [hr, div_le_iff₀ he]; exact hm1
  have hrs : r = Real.sinh s - s / e := by rw [hr, ← hm]; field_simp
  have hse : 0 ≤ s / e := by positivity
  set q := 9 / 5 - 2 * r with hq
  have hq0 : 0 < q := by linarith
  set x := inGuess e m with hx
  have hxq : Real.exp (-x) = q := by
    rw [hx, inGuess, neg_neg, guess, show 2 * -m / e + 9 / 5 = q by rw [hq, hr]; ring, Real.exp_log hq0]
  have hxv : Real.exp x = 1 / q := by rw [← hxq, Real.exp_neg]; simp
  -- not far above
  have hup : x ≤ s + 3 / 5 := by
    set a := Real.exp s with ha
    have ha1 : 1 ≤ a := Real.one_le_exp hs
    have ha0 : 0 < a := by linarith
    have hsinh : 2 * Real.sinh s = a - 1 / a := by rw [Real.sinh_eq, ha, Real.exp_neg, one_div]; ring
    have hqa : 3 / 5 ≤ q * a := by
      rcases le_or_gt a 2 with ha2 | ha2
      · have h3 : (9 / 5 - (a - 1 / a)) * a ≤ q * a := mul_le_mul_of_nonneg_right (by linarith) ha0.le
        have h4 : (9 / 5 - (a - 1 / a)) * a = 9 / 5 * a - a ^ 2 + 1 := by field_simp; ring
        nlinarith
      · nlinarith
    rw [← Real.exp_le_exp, hxv, Real.exp_add, ← ha, div_le_iff₀ hq0]
    have := mul_le_mul hqa exp_three_fifths (by norm_num) (by positivity)
    linarith
  have hx35 : -(3 / 5) ≤ x := by
    have h3 : 0 ≤ r := by
      have h4 := Real.self_le_sinh_iff.mpr hs
      have h5 : s / e ≤ s := div_le_self hs h1.le
      linarith
    have h4 : -x ≤ 3 / 5 := by
      rw [← Real.exp_le_exp, hxq]
      exact le_trans (by linarith) exp_three_fifths
    linarith
  rcases le_or_gt s x with hsx | hsx
  · refine ⟨.inl (.inl ⟨hsx, by linarith⟩), ?_⟩
    rw [dist, if_pos hsx]
    linarith
  have hdist : dist s x = 7 / 5 * (s - x) := if_neg (not_le.mpr hsx)
  rcases le_or_gt (3 / 5) r with h35 | h35
  · have hv1 : 5 / 3 ≤ 1 / q := by rw [le_div_iff₀ hq0]; linarith
    have h3 := inGuess_far (r := r) (s := s) hxv hv1 (by rw [show 2 * (1 / q) = 2 / q by ring, one_div_div, hq]; ring) (by
      have h5 : s / e ≤ s := div_le_self hs h1.le
      linarith)
    refine ⟨.inl (.inr ⟨hsx, .inl ⟨by linarith, ?_⟩⟩), by linarith⟩
    have h2 : Real.cosh x ≤ 5 / 2 * Real.sinh x := by
      rw [Real.cosh_eq, Real.sinh_eq, hxq, hxv]
      have : q ≤ 3 / 5 := by linarith
      linarith
    exact (mul_le_of_le_one_left (Real.cosh_pos x).le (by linarith)).trans h2
  · have he2 : 2 ≤ e := by
      rcases h with h | h
      · exact h
      · rw [hme] at h
        have := le_of_mul_le_mul_right h he
        linarith
    obtain ⟨h3, h4⟩ := inGuess_near hs hxq hq (by
      have : s / e ≤ s / 2 := div_le_div_of_nonneg_left hs (by norm_num) he2
      linarith) h35.le
    exact ⟨.inr ⟨he2, hsx, h3, h4, hx35⟩, by linarith⟩

theorem in_reaches {e m s : ℝ} (h1 : 1 < e) (hs : 0 ≤ s) (hm : e * Real.sinh s - s = m) (hm1 : m ≤ 3 / 4 * e) (h : 2 ≤ e ∨ 3 / 5 * e ≤ m)
    {tol : ℝ} {K : Nat} (hK : 14 * (m + e) * (7 / 8) ^ K < tol) : |rise e s ((next e s)^[K] (inGuess e m))| < tol := by
  obtain ⟨h2, h3⟩ := inGuess_start h1 hs hm hm1 h
  have h4 := (guess_good h1 hs hm).2.2
  obtain ⟨h5, h6⟩ := near_iterate h1 hs K _ h2
  have h7 : |rise e s ((next e s)^[K] (inGuess e m))| ≤ e * Real.cosh (s + 3 / 5) * dist s ((next e s)^[K] (inGuess e m)) := by
    rcases h5 with h5 | h5
    · exact rise_le_dist h1 hs h5
    · exact near_rise hs h5
  have hpow : (0 : ℝ) ≤ (7 / 8) ^ K := by positivity
  have h8 : dist s ((next e s)^[K] (inGuess e m)) ≤ (7 / 8) ^ K * (7 / 5) := h6.trans (mul_le_mul_of_nonneg_left h3 hpow)
  have h9 := mul_le_mul h4 h8 (dist_nonneg _ _) (by
    have := mul_nonneg (show 0 ≤ e by linarith) (Real.cosh_pos (s + 3 / 5)).le
    linarith)
  refine (h7.trans h9).trans_lt ?_
  linarith

/-! ## A start that is thrown out -/

/-- where the start is 0 the first step is `m / (e - 1)` -/
theorem next_zero {e m s : ℝ} (h1 : 1 < e) (hm : e * Real.sinh s - s = m) : next e s 0 = m / (e - 1) := by
  have h2 : rise e s 0 = -m := by rw [rise, ← hm, Real.sinh_zero]; ring
  have hE : 0 < e - 1 := by linarith
  rw [next, h2, slope, Real.cosh_zero, Real.sinh_zero, delta]
  have h3 : |16 * (e * 1 - 1) ^ 2 - 20 * -m * (e * 0)| = (4 * (e - 1)) ^ 2 := by
    rw [show 16 * (e * 1 - 1) ^ 2 - 20 * -m * (e * 0) = (4 * (e - 1)) ^ 2 by ring, abs_of_nonneg (sq_nonneg _)]
  rw [h3, Real.sqrt_sq (by linarith)]
  field_simp
  ring

/-- a step down is at most 5 -/
theorem next_slow {e m s x : ℝ} (h1 : 1 < e) (hm : e * Real.sinh s - s = m) (hm0 : 0 ≤ m) (hx : 1 ≤ x) : x - 5 ≤ next e s x := by
  have hp := slope_pos h1 x
  have h2 : rise e s x ≤ slope e x := by
    have h3 : Real.sinh x ≤ Real.cosh x := (Real.sinh_lt_cosh x).le
    have := mul_le_mul_of_nonneg_left h3 (show 0 ≤ e by linarith)
    unfold rise slope
    linarith
  have h4 : delta (rise e s x) (slope e x) (e * Real.sinh x) ≤ 5 := by
    unfold delta
    rw [div_le_iff₀ (den_pos hp _)]
    have := Real.sqrt_nonneg |16 * slope e x ^ 2 - 20 * rise e s x * (e * Real.sinh x)|
    linarith
  unfold next
  linarith

theorem iterate_slow {e m s : ℝ} (h1 : 1 < e) (hm : e * Real.sinh s - s = m) (hm0 : 0 ≤ m) (n : Nat) :
    ∀ x, 1 + 5 * (n : ℝ) ≤ x → x - 5 * n ≤ (next e s)^[n] x := by
  induction n with
  | zero => intro x _; simp
  | succ n ih =>
    intro x hx
    push_cast at hx ⊢
    have h2 := next_slow h1 hm hm0 (x := x) (by have : (0 : ℝ) ≤ n := Nat.cast_nonneg n; linarith)
    rw [Function.iterate_succ_apply]
    have := ih (next e s x) (by linarith)
    linarith

end Pyorb.Lag.Hyp
