import Verif.LagHyperStep

/-!
# The parts of a Laguerre step for the hyperbolic Kepler equation are well conditioned while the residual is not small
-/

namespace Pyorb.Lag.Hyp

/-- a slope that grows with the square of the distance is not small where the value is not small -/
theorem cube_ge {τ x p : ℝ} (K k a : ℝ) (hτ : 0 < τ) (hτ1 : τ ≤ 1 / 10 ^ 9) (hp : 0 < p) (hK : 0 < K) (h : τ ≤ K * x * p) (hk : k * x ^ 2 ≤ p)
    (hk0 : 0 ≤ k) (ha : 0 < a) (hc : K ^ 2 * a ^ 3 / 10 ^ 9 ≤ k) : a * τ ≤ p := by
  by_contra hn
  have hn := not_le.mp hn
  have h1 : τ ^ 2 ≤ (K * x * p) ^ 2 := pow_le_pow_left₀ hτ.le h 2
  have h2 : k * τ ^ 2 ≤ K ^ 2 * p ^ 3 := by
    have e1 := mul_le_mul_of_nonneg_left h1 hk0
    have e2 := mul_le_mul_of_nonneg_left hk (show 0 ≤ K ^ 2 * p ^ 2 by positivity)
    calc k * τ ^ 2 ≤ k * (K * x * p) ^ 2 := e1
      _ = K ^ 2 * p ^ 2 * (k * x ^ 2) := by ring
      _ ≤ _ := e2
      _ = _ := by ring
  have h3 : p ^ 3 < (a * τ) ^ 3 := pow_lt_pow_left₀ hn hp.le (by norm_num)
  have h4 : K ^ 2 * p ^ 3 < K ^ 2 * (a * τ) ^ 3 := mul_lt_mul_of_pos_left h3 (by positivity)
  have h5 : K ^ 2 * (a * τ) ^ 3 ≤ k * τ ^ 2 := by
    have e1 : K ^ 2 * a ^ 3 * τ ≤ k := by
      have := mul_le_mul_of_nonneg_left hτ1 (show 0 ≤ K ^ 2 * a ^ 3 by positivity)
      linarith
    have := mul_le_mul_of_nonneg_right e1 (sq_nonneg τ)
    calc K ^ 2 * (a * τ) ^ 3 = K ^ 2 * a ^ 3 * τ * τ ^ 2 := by ring
      _ ≤ _ := this
  linarith

theorem slope_sq {e x : ℝ} (h1 : 1 < e) (hx : 0 ≤ x) : 1 / 2 * x ^ 2 ≤ slope e x := by
  have h2 := cosh_ge2 hx
  have h3 := mul_le_mul_of_nonneg_right h1.le (one_le_cosh' x)
  rw [slope_eq]
  linarith

theorem mean_le {e M s : ℝ} (h1 : 1 < e) (hs : 0 ≤ s) (hM : e * Real.sinh s - s = M) : 0 ≤ M ∧ e * Real.cosh s ≤ 2 * (M + e) := by
  have h2 := Real.self_le_sinh_iff.mpr hs
  have h3 := mul_le_mul_of_nonneg_right h1.le (sinh_nonneg hs)
  have h4 := mul_le_mul_of_nonneg_left (cosh_le_one_add_sinh hs) (show 0 ≤ e by linarith)
  have h5 := root_le h1 hs hM
  constructor <;> linarith

/-- what the error analysis of a step from `x` needs: `ε` bounds the noise of the residual, `κ`, `κ'` the parts of the radicand against the radicand,
`l` the last rounding against the correction -/
structure Fit (e M s x u ε κ κ' l : ℝ) : Prop where
  noise : 304 / 100 * u * (M + |x| + e * |Real.sinh x|) ≤ ε * |rise e s x|
  square : 16 * slope e x ^ 2 ≤ κ * (16 * slope e x ^ 2 - 20 * rise e s x * (e * Real.sinh x))
  second : |20 * rise e s x * (e * Real.sinh x)| ≤ κ' * (16 * slope e x ^ 2 - 20 * rise e s x * (e * Real.sinh x))
  low : 3 / 8 * slope e x ^ 2 ≤ 16 * slope e x ^ 2 - 20 * rise e s x * (e * Real.sinh x)
  high : 16 * slope e x ^ 2 - 20 * rise e s x * (e * Real.sinh x) ≤ 625 * slope e x ^ 2
  slope_big : 10 ^ 5 * u ≤ slope e x
  last : u * |x| ≤ l * |x - next e s x|

/-! ## Above the root -/

theorem rise_above {e s x : ℝ} (h1 : 1 < e) (hs : 0 ≤ s) (hsx : s < x) (hd : x - s ≤ 3 / 5) :
    rise e s x ≤ (x - s) * slope e x ∧ 0 < rise e s x ∧ 20 * rise e s x * (e * Real.sinh x) ≤ 125 / 8 * slope e x ^ 2 := by
  have hd0 : 0 < x - s := sub_pos.mpr hsx
  have h2 := rise_third h1 hs hsx hd
  have h3 := rise_le h1 (sinh_above hs hsx hd)
  have hp := slope_pos h1 x
  have hw : 0 ≤ e * Real.sinh x := mul_nonneg (by linarith) (sinh_nonneg (by linarith))
  generalize rise e s x = F at *
  generalize slope e x = p at *
  generalize e * Real.sinh x = w at *
  generalize x - s = d at *
  obtain ⟨g, rfl⟩ : ∃ g, F = d * g := ⟨F / d, by field_simp⟩
  have hg1 : p ≤ 16 / 5 * g := le_of_mul_le_mul_left (by linarith) hd0
  have hg0 : 0 < g := by linarith
  have hu : 8 / 25 * (w * d) ≤ p - g := by
    have := le_of_mul_le_mul_left h3 hd0
    linarith
  refine ⟨mul_le_mul_of_nonneg_left ?_ hd0.le, mul_pos hd0 hg0, ?_⟩
  · have := mul_nonneg hw hd0.le
    linarith
  · have hgu := mul_le_mul_of_nonneg_left hu hg0.le
    have := sq_nonneg (p - 2 * g)
    linarith

theorem rise_close {e s x : ℝ} (h1 : 1 < e) (hs : 0 ≤ s) (hsx : s < x) (hd : x - s ≤ 1 / 10) (hd' : x - s ≤ x / 10) :
    20 * rise e s x * (e * Real.sinh x) ≤ 6 * slope e x ^ 2 := by
  obtain ⟨h2, h3, -⟩ := rise_above h1 hs hsx (by linarith)
  have he : 0 < e := by linarith
  have hx : 0 < x := by linarith
  have hp := slope_pos h1 x
  have hsh := sinh_nonneg hx.le
  have hw : 0 ≤ e * Real.sinh x := mul_nonneg he.le hsh
  have h4 : 20 * (x - s) * (e * Real.sinh x) ≤ 6 * slope e x := by
    rcases le_or_gt x 1 with hx1 | hx1
    · have k1 := mul_le_mul_of_nonneg_right hd' hw
      have k2 := mul_le_mul_of_nonneg_left (mul_sinh_le hx.le) he.le
      have k3 : x ^ 2 ≤ 1 := pow_le_one₀ hx.le hx1
      have k4 := mul_le_mul_of_nonneg_right k3 (mul_nonneg he.le (one_le_cosh' x))
      have k5 : 0 ≤ e * (Real.cosh x - 1) := mul_nonneg he.le (one_le_cosh' x)
      rw [slope_eq]
      linarith
    · have k1 := mul_le_mul_of_nonneg_right hd hw
      have k2 : 3 / 2 ≤ Real.cosh x := by
        have := cosh_ge2 hx.le
        have : 1 ≤ x ^ 2 := one_le_pow₀ hx1.le
        linarith
      have k3 := mul_le_mul_of_nonneg_left (Real.sinh_lt_cosh x).le he.le
      have k4 := mul_le_mul h1.le k2 (by norm_num) he.le
      unfold slope
      linarith
  have h5 := mul_le_mul_of_nonneg_right h2 hw
  have h6 := mul_le_mul_of_nonneg_right h4 hp.le
  rw [pow_two]
  linarith

theorem terms_above {e M s x : ℝ} (h1 : 1 < e) (hs : 0 ≤ s) (hsx : s < x) (hM : e * Real.sinh s - s = M) :
    M + |x| + e * |Real.sinh x| ≤ 3 * (e * Real.sinh x) ∧ e * Real.sinh x ≤ x * (slope e x + 1) := by
  have hx : 0 < x := by linarith
  have he : 0 < e := by linarith
  have hsh := sinh_nonneg hx.le
  have h2 := Real.self_le_sinh_iff.mpr hx.le
  have h3 := mul_le_mul_of_nonneg_right h1.le hsh
  have h4 := mul_le_mul_of_nonneg_left (Real.sinh_le_sinh.mpr hsx.le) he.le
  have h5 := mul_le_mul_of_nonneg_left (sinh_le_mul_cosh hx.le) he.le
  rw [abs_of_pos hx, abs_of_nonneg hsh]
  constructor
  · linarith
  · unfold slope
    linarith

theorem fit_above {e M s x u τ : ℝ} (h1 : 1 < e) (hs : 0 ≤ s) (hM : e * Real.sinh s - s = M) (hsx : s < x) (hd : x - s ≤ 3 / 5)
    (hu0 : 0 ≤ u) (hτ0 : 0 < τ) (hτ1 : τ ≤ 1 / 10 ^ 9) (hτ : τ ≤ |rise e s x|) (huτ : 980 * (u * (M + e)) ≤ τ) (huτs : 98 * (u * (M + e) * s) ≤ τ)
    (hT : 304 / 100 * u * (M + |x| + e * |Real.sinh x|) ≤ 19 / 1000 * |rise e s x|) :
    ∃ ε κ κ' l, Fit e M s x u ε κ κ' l ∧ 0 ≤ ε ∧ ε ≤ 19 / 1000 ∧ 0 ≤ κ ∧ κ ≤ 43 ∧ κ' ≤ 42 ∧ κ' * ε ≤ 19 / 1000 ∧ l ≤ 28 / 1000 ∧
      (2 * s ≤ x → ε ≤ 1 / 10 ^ 4 ∧ l ≤ 1 / 10 ^ 5) := by
  have hd0 : 0 < x - s := sub_pos.mpr hsx
  have hx : 0 < x := by linarith
  have he : 0 < e := by linarith
  have hp := slope_pos h1 x
  obtain ⟨hM0, hcs⟩ := mean_le h1 hs hM
  obtain ⟨hF1, hF0, hX⟩ := rise_above h1 hs hsx hd
  have hF2 := rise_third h1 hs hsx hd
  obtain ⟨hT1, hT2⟩ := terms_above h1 hs hsx hM
  obtain ⟨hn1, hn2⟩ := next_above h1 hs hsx hd
  have hsq := slope_sq h1 hx.le
  have hw : 0 ≤ e * Real.sinh x := mul_nonneg he.le (sinh_nonneg hx.le)
  have hFw : 0 ≤ 20 * rise e s x * (e * Real.sinh x) := mul_nonneg (by linarith) hw
  rw [abs_of_pos hF0] at hτ
  have hpτ : 790 * τ ≤ slope e x := by
    refine cube_ge 1 (1 / 2) 790 hτ0 hτ1 hp one_pos ?_ hsq (by norm_num) (by norm_num) (by norm_num)
    have := mul_le_mul_of_nonneg_right (show x - s ≤ x by linarith) hp.le
    linarith
  have huM : u ≤ u * (M + e) := by
    have := mul_le_mul_of_nonneg_left (show 1 ≤ M + e by linarith) hu0
    linarith
  have hu12 : u ≤ 1 / 10 ^ 11 := by linarith
  have hup : 774200 * u ≤ slope e x := by linarith
  have hpp : 0 < slope e x ^ 2 := by positivity
  have hlow : 3 / 8 * slope e x ^ 2 ≤ 16 * slope e x ^ 2 - 20 * rise e s x * (e * Real.sinh x) := by linarith
  have hhigh : 16 * slope e x ^ 2 - 20 * rise e s x * (e * Real.sinh x) ≤ 625 * slope e x ^ 2 := by linarith
  have hδ : 5 / 16 * (x - s) ≤ x - next e s x := by linarith
  have hδ0 : 0 < x - next e s x := by linarith
  by_cases hc : x - s ≤ 1 / 10 ∧ x - s ≤ x / 10
  · obtain ⟨c1, c2⟩ := hc
    have hX6 := rise_close h1 hs hsx c1 c2
    refine ⟨19 / 1000, 8 / 5, 1, 28 / 1000, ⟨hT, by linarith, ?_, hlow, hhigh, by linarith, ?_⟩, by norm_num, le_rfl, by norm_num, by norm_num, by norm_num,
      by norm_num, le_rfl, fun h => by linarith⟩
    · rw [abs_of_nonneg hFw]; linarith
    · rw [abs_of_pos hx, abs_of_pos hδ0]
      have k1 : rise e s x ≤ (x - next e s x) * slope e x := by
        have k2 : rise e s x / slope e x ≤ delta (rise e s x) (slope e x) (e * Real.sinh x) := by
          refine le_delta hp hF0.le (by linarith) (by linarith) (by field_simp; exact le_rfl)
        have k3 : delta (rise e s x) (slope e x) (e * Real.sinh x) = x - next e s x := by unfold next; ring
        rwa [k3, div_le_iff₀ hp] at k2
      have k4 : slope e x ≤ 222 / 100 * (M + e) := by
        have l1 : Real.cosh x ≤ Real.cosh s * Real.exp (1 / 10) := by
          have l2 : Real.cosh x ≤ Real.cosh (s + 1 / 10) := Real.cosh_le_cosh.mpr (by rw [abs_of_pos hx, abs_of_pos (by linarith)]; linarith)
          have l3 : Real.cosh (s + 1 / 10) ≤ Real.cosh s * Real.exp (1 / 10) := by
            rw [Real.cosh_add, show Real.exp (1 / 10) = Real.cosh (1 / 10) + Real.sinh (1 / 10) by rw [Real.cosh_add_sinh], mul_add]
            have := mul_le_mul_of_nonneg_right (Real.sinh_lt_cosh s).le (sinh_nonneg (show (0 : ℝ) ≤ 1 / 10 by norm_num))
            linarith
          linarith
        have l4 : Real.exp (1 / 10) ≤ 111 / 100 := by
          have := exp_le_inv (show (1 / 10 : ℝ) < 1 by norm_num)
          have l5 : Real.exp (1 / 10) ≤ 1 / (1 - 1 / 10) := this
          have l6 : Real.exp (1 / 10) = Real.exp (1 / 20) * Real.exp (1 / 20) := by rw [← Real.exp_add]; norm_num
          have l7 := exp_le_inv (show (1 / 20 : ℝ) < 1 by norm_num)
          have l8 : Real.exp (1 / 20) ≤ 20 / 19 := by norm_num at l7 ⊢; linarith
          have l9 := mul_le_mul l8 l8 (Real.exp_pos _).le (by norm_num)
          rw [l6]
          norm_num at l9 ⊢
          linarith
        have l5 := mul_le_mul_of_nonneg_left (l1.trans (mul_le_mul_of_nonneg_left l4 (Real.cosh_pos s).le)) he.le
        unfold slope
        linarith
      have k5 : u * x * slope e x ≤ 28 / 1000 * τ := by
        have l1 : u * x ≤ u * (112 / 100 * s) := mul_le_mul_of_nonneg_left (by linarith) hu0
        have l2 := mul_le_mul l1 k4 hp.le (mul_nonneg hu0 (by linarith))
        linarith
      have k6 : u * x * slope e x ≤ 28 / 1000 * (x - next e s x) * slope e x := by linarith
      exact le_of_mul_le_mul_right k6 hp
  · have hc : 1 / 10 < x - s ∨ x / 10 < x - s := by
      by_contra hn
      rw [not_or, not_lt, not_lt] at hn
      exact hc hn
    have hl : u * |x| ≤ 1 / 10 ^ 5 * |x - next e s x| := by
      rw [abs_of_pos hx, abs_of_pos hδ0]
      rcases le_or_gt x (10 * (x - s)) with c | c
      · have := mul_le_mul_of_nonneg_right hu12 hx.le
        linarith
      · have hd1 : 1 / 10 < x - s := by
          rcases hc with h | h
          · exact h
          · linarith
        have l1 : u * x ≤ u * (112 / 100 * s) := mul_le_mul_of_nonneg_left (by linarith) hu0
        have l2 : u * s ≤ u * (M + e) * s := by
          have := mul_le_mul_of_nonneg_right huM hs
          linarith
        linarith
    have hparts : 16 * slope e x ^ 2 ≤ 43 * (16 * slope e x ^ 2 - 20 * rise e s x * (e * Real.sinh x)) ∧
        |20 * rise e s x * (e * Real.sinh x)| ≤ 42 * (16 * slope e x ^ 2 - 20 * rise e s x * (e * Real.sinh x)) := by
      rw [abs_of_nonneg hFw]
      constructor <;> linarith
    -- the noise far from the root
    have far : ∀ c, 0 < c → c ≤ 1 → c * x ≤ x - s → 304 / 100 * u * (M + |x| + e * |Real.sinh x|) ≤ 378 / 10 ^ 7 / c * |rise e s x| := by
      intro c hc0 hc1 hcx
      rw [abs_of_pos hF0]
      have l1 := mul_le_mul_of_nonneg_left (hT1.trans (mul_le_mul_of_nonneg_left hT2 (by norm_num))) (show 0 ≤ 304 / 100 * u by linarith)
      have l2 : u * (slope e x + 1) ≤ 129168 / 10 ^ 11 * slope e x := by
        have := mul_le_mul_of_nonneg_right hu12 hp.le
        linarith
      have l3 := mul_le_mul_of_nonneg_left l2 hx.le
      have l4 := mul_le_mul_of_nonneg_right hcx hp.le
      have l5 : c * (304 / 100 * u * (M + |x| + e * |Real.sinh x|)) ≤ 378 / 10 ^ 7 * rise e s x := by
        have l6 := mul_le_mul_of_nonneg_left (l1.trans (show 304 / 100 * u * (3 * (x * (slope e x + 1))) ≤ 912 / 100 * (x * (129168 / 10 ^ 11 * slope e x)) by linarith)) hc0.le
        linarith
      have l7 : 378 / 10 ^ 7 / c * rise e s x = (378 / 10 ^ 7 * rise e s x) / c := by ring
      rw [l7, le_div_iff₀ hc0]
      linarith
    rcases le_or_gt (2 * s) x with hb | hb
    · refine ⟨1 / 10 ^ 4, 43, 42, 1 / 10 ^ 5, ⟨?_, hparts.1, hparts.2, hlow, hhigh, by linarith, hl⟩, by norm_num, by norm_num, by norm_num, le_rfl, le_rfl, by norm_num,
        by norm_num, fun _ => ⟨le_rfl, le_rfl⟩⟩
      have := far (1 / 2) (by norm_num) (by norm_num) (by linarith)
      refine this.trans (mul_le_mul_of_nonneg_right (by norm_num) (abs_nonneg _))
    · refine ⟨4 / 10 ^ 4, 43, 42, 1 / 10 ^ 5, ⟨?_, hparts.1, hparts.2, hlow, hhigh, by linarith, hl⟩, by norm_num, by norm_num, by norm_num, le_rfl, le_rfl, by norm_num,
        by norm_num, fun h => by linarith⟩
      rcases le_or_gt x (10 * (x - s)) with c | c
      · have := far (1 / 10) (by norm_num) (by norm_num) (by linarith)
        refine this.trans (mul_le_mul_of_nonneg_right (by norm_num) (abs_nonneg _))
      · have hd1 : 1 / 10 < x - s := by
          rcases hc with h | h
          · exact h
          · linarith
        rw [abs_of_pos hF0]
        have hx1 : 1 < x := by linarith
        have hp2 : 1 / 2 ≤ slope e x := by
          have : 1 ≤ x ^ 2 := one_le_pow₀ hx1.le
          linarith
        have l1 : e * Real.sinh x ≤ slope e x + 1 := by
          have := mul_le_mul_of_nonneg_left (Real.sinh_lt_cosh x).le he.le
          unfold slope
          linarith
        have l2 := mul_le_mul_of_nonneg_left (hT1.trans (show 3 * (e * Real.sinh x) ≤ 9 * slope e x by linarith)) (show 0 ≤ 304 / 100 * u by linarith)
        have l3 := mul_le_mul_of_nonneg_right hd1.le hp.le
        have l4 := mul_le_mul_of_nonneg_right hu12 hp.le
        linarith

/-! ## Below the root -/

theorem rise_below {e s x : ℝ} (h1 : 1 < e) (hx : 0 ≤ x) (hxs : x < s) : -rise e s x ≤ (s - x) * slope e s ∧ (s - x) * slope e x ≤ -rise e s x := by
  have he : 0 < e := by linarith
  have h2 := abs_sinh_sub_le (m := s) (show |s| ≤ s by rw [abs_of_pos (by linarith)]) (show |x| ≤ s by rw [abs_of_nonneg hx]; exact hxs.le)
  rw [abs_of_nonneg (sub_nonneg.mpr (Real.sinh_le_sinh.mpr hxs.le)), abs_of_pos (sub_pos.mpr hxs)] at h2
  have h3 := mul_le_mul_of_nonneg_left h2 he.le
  have h4 := mul_le_mul_of_nonneg_left (sinh_gap hx hxs.le) he.le
  have h5 : 0 ≤ e * ((s - x) * (Real.sinh x * (s - x) / 2)) :=
    mul_nonneg he.le (mul_nonneg (by linarith) (div_nonneg (mul_nonneg (sinh_nonneg hx) (by linarith)) (by norm_num)))
  unfold rise slope
  constructor <;> linarith

/-- below the root, at a positive argument -/
theorem fit_below {e M s x u τ : ℝ} (h1 : 1 < e) (hs : 0 ≤ s) (hM : e * Real.sinh s - s = M) (hx : 0 ≤ x) (hxs : x < s)
    (hu0 : 0 ≤ u) (hτ : τ ≤ |rise e s x|) (huτ : 980 * (u * (M + e)) ≤ τ) (huτs : 98 * (u * (M + e) * s) ≤ τ)
    (hT : 304 / 100 * u * (M + |x| + e * |Real.sinh x|) ≤ 19 / 1000 * |rise e s x|) (hpτ : 130 * τ ≤ slope e x)
    (hX : 20 * -rise e s x * (e * Real.sinh x) ≤ 609 * slope e x ^ 2) :
    Fit e M s x u (19 / 1000) 1 1 (28 / 1000) := by
  have he : 0 < e := by linarith
  have hp := slope_pos h1 x
  have hD : 0 < s - x := sub_pos.mpr hxs
  obtain ⟨hM0, hcs⟩ := mean_le h1 hs hM
  obtain ⟨hF1, hF2⟩ := rise_below h1 hx hxs
  have hF0 : 0 < -rise e s x := lt_of_lt_of_le (mul_pos hD hp) hF2
  have hw : 0 ≤ e * Real.sinh x := mul_nonneg he.le (sinh_nonneg hx)
  have hFw : 20 * rise e s x * (e * Real.sinh x) ≤ 0 := mul_nonpos_of_nonpos_of_nonneg (by linarith) hw
  have huM : u ≤ u * (M + e) := by
    have := mul_le_mul_of_nonneg_left (show 1 ≤ M + e by linarith) hu0
    linarith
  have hpp : 0 < slope e x ^ 2 := by positivity
  refine ⟨hT, by linarith, ?_, by linarith, by linarith, by linarith, ?_⟩
  · rw [abs_of_nonpos hFw]; linarith
  · rw [abs_of_nonneg hx]
    have hn := next_lower h1 hx hxs
    rw [abs_of_neg (by linarith)]
    rw [abs_of_neg (by linarith)] at hτ
    have k1 : τ ≤ (s - x) * (2 * (M + e)) := by
      refine hτ.trans (hF1.trans (mul_le_mul_of_nonneg_left ?_ hD.le))
      unfold slope
      linarith
    have k2 : u * x ≤ u * s := mul_le_mul_of_nonneg_left hxs.le hu0
    have k3 : (M + e) * (98 * (u * s)) ≤ (M + e) * (2 * (s - x)) := by linarith
    have k4 := le_of_mul_le_mul_left k3 (by linarith)
    linarith

theorem fit_wide {e M s x u τ : ℝ} (h1 : 1 < e) (hs : 0 ≤ s) (hM : e * Real.sinh s - s = M) (hxs : x < s) (hD1 : s - x ≤ 1)
    (h : (s - x) * Real.cosh x ≤ 5 / 2 * Real.sinh x) (hu0 : 0 ≤ u) (hτ0 : 0 < τ) (hτ1 : τ ≤ 1 / 10 ^ 9) (hτ : τ ≤ |rise e s x|)
    (huτ : 980 * (u * (M + e)) ≤ τ) (huτs : 98 * (u * (M + e) * s) ≤ τ)
    (hT : 304 / 100 * u * (M + |x| + e * |Real.sinh x|) ≤ 19 / 1000 * |rise e s x|) : Fit e M s x u (19 / 1000) 1 1 (28 / 1000) := by
  have hD : 0 < s - x := sub_pos.mpr hxs
  have hsx : 0 < Real.sinh x := by
    have := mul_pos hD (Real.cosh_pos x)
    linarith
  have hx : 0 < x := Real.sinh_pos_iff.mp hsx
  have hp := slope_pos h1 x
  have he : 0 < e := by linarith
  have hw : 0 ≤ e * Real.sinh x := mul_nonneg he.le hsx.le
  obtain ⟨-, hF2⟩ := rise_below h1 hx.le hxs
  have hF0 : 0 < -rise e s x := lt_of_lt_of_le (mul_pos hD hp) hF2
  have hF3 : -rise e s x ≤ (s - x) * (slope e x + e * Real.sinh x * (s - x)) := by
    have h3 : Real.sinh s - Real.sinh x ≤ (s - x) * (Real.cosh x + Real.sinh x * (s - x)) := by
      obtain ⟨D, rfl⟩ : ∃ D, s = x + D := ⟨s - x, by ring⟩
      rw [add_sub_cancel_left] at *
      rw [Real.sinh_add]
      have h4 := mul_le_mul_of_nonneg_left (cosh_le_unit4 hD.le hD1) hsx.le
      have h5 := mul_le_mul_of_nonneg_left (sinh_le_unit5 hD.le hD1) (Real.cosh_pos x).le
      have hD2 : D ^ 2 ≤ 1 := by nlinarith
      have h6 := mul_le_mul_of_nonneg_right h (show 0 ≤ D ^ 2 / 6 + D ^ 4 / 100 by positivity)
      have h7 : 0 ≤ Real.sinh x * (D ^ 2 * (1 - 1 / 2 - D ^ 2 / 20 - 5 / 2 * (1 / 6 + D ^ 2 / 100))) := by
        refine mul_nonneg hsx.le (mul_nonneg (sq_nonneg D) ?_)
        linarith
      nlinarith
    have := mul_le_mul_of_nonneg_left h3 he.le
    unfold rise slope
    linarith
  have hwD : e * Real.sinh x * (s - x) ≤ 5 * slope e x := by
    have hc := Real.one_le_cosh x
    have h4 := mul_le_mul_of_nonneg_left h (mul_nonneg he.le hsx.le)
    have h5 : Real.sinh x ^ 2 = Real.cosh x ^ 2 - 1 := by have := Real.cosh_sq x; linarith
    have h6 : Real.cosh x * (e * Real.sinh x * (s - x)) ≤ Real.cosh x * (5 * (e * (Real.cosh x - 1))) := by
      have h7 : 0 ≤ e * ((Real.cosh x - 1) * (Real.cosh x - 1)) := mul_nonneg he.le (mul_nonneg (by linarith) (by linarith))
      have h8 : e * Real.sinh x * (5 / 2 * Real.sinh x) = 5 / 2 * (e * (Real.cosh x ^ 2 - 1)) := by rw [← h5]; ring
      rw [h8] at h4
      linarith
    have h9 := le_of_mul_le_mul_left h6 (Real.cosh_pos x)
    rw [slope_eq]
    linarith
  have hF6 : -rise e s x ≤ (s - x) * (6 * slope e x) := hF3.trans (mul_le_mul_of_nonneg_left (by linarith) hD.le)
  have hDx : s - x ≤ 5 / 2 * x := by
    have h4 : (s - x) * Real.cosh x ≤ 5 / 2 * x * Real.cosh x := by
      have := sinh_le_mul_cosh hx.le
      linarith
    exact le_of_mul_le_mul_right h4 (Real.cosh_pos x)
  refine fit_below h1 hs hM hx.le hxs hu0 hτ huτ huτs hT ?_ ?_
  · rw [abs_of_neg (by linarith)] at hτ
    refine cube_ge 15 (1 / 2) 130 hτ0 hτ1 hp (by norm_num) ?_ (slope_sq h1 hx.le) (by norm_num) (by norm_num) (by norm_num)
    have := mul_le_mul_of_nonneg_right hDx hp.le
    linarith
  · have h4 := mul_le_mul_of_nonneg_right hF6 hw
    have h5 := mul_le_mul_of_nonneg_right hwD hp.le
    have hpp : 0 < slope e x ^ 2 := by positivity
    rw [pow_two] at *
    linarith

theorem tame_size {e s x τ : ℝ} (h1 : 1 < e) (hs : 0 ≤ s) (hxs : x < s) (hD1 : s - x ≤ 3 / 8) (h3 : e * (Real.cosh s - 1) ≤ 2 * (e - 1))
    (h4 : e * (s - x) ^ 2 ≤ 16 / 10 * (e - 1)) (hτ0 : 0 < τ) (hτ1 : τ ≤ 1 / 10 ^ 9) (hτ : τ ≤ |rise e s x|) :
    |rise e s x| ≤ 3 * (s - x) * (e - 1) ∧ 410 * τ ≤ e - 1 := by
  have he : 0 < e := by linarith
  have hE : 0 < e - 1 := by linarith
  have hD : 0 < s - x := sub_pos.mpr hxs
  have h5 : |rise e s x| ≤ 3 * (s - x) * (e - 1) := by
    rcases le_or_gt 0 x with hx | hx
    · obtain ⟨hF1, hF2⟩ := rise_below h1 hx hxs
      have := mul_pos hD (slope_pos h1 x)
      rw [abs_of_neg (by linarith)]
      have k1 := mul_le_mul_of_nonneg_left (show slope e s ≤ 3 * (e - 1) by rw [slope_eq]; linarith) hD.le
      linarith
    · have k1 := rise_sign' h1 hxs.le
      have k2 := mul_pos hE hD
      rw [abs_of_neg (by linarith)]
      have k3 := abs_sinh_sub_le (m := s - x) (show |s| ≤ s - x by rw [abs_of_nonneg hs]; linarith) (show |x| ≤ s - x by rw [abs_of_neg hx]; linarith)
      rw [abs_of_nonneg (sub_nonneg.mpr (Real.sinh_le_sinh.mpr hxs.le)), abs_of_pos hD] at k3
      have k4 := mul_le_mul_of_nonneg_left k3 he.le
      have k5 := mul_le_mul_of_nonneg_left (cosh_le_unit2 hD.le (by linarith)) he.le
      have k6 : (s - x) * (e * Real.cosh (s - x) - 1) ≤ (s - x) * (3 * (e - 1)) := mul_le_mul_of_nonneg_left (by linarith) hD.le
      unfold rise
      linarith
  refine ⟨h5, ?_⟩
  refine cube_ge 3 (5 / 8) 410 hτ0 hτ1 hE (by norm_num) (hτ.trans h5) ?_ (by norm_num) (by norm_num) (by norm_num)
  have := mul_le_mul_of_nonneg_right h1.le (sq_nonneg (s - x))
  linarith

theorem fit_tame {e M s x u τ : ℝ} (h1 : 1 < e) (hs : 0 ≤ s) (hM : e * Real.sinh s - s = M) (hx : 0 ≤ x) (hxs : x < s) (hD1 : s - x ≤ 3 / 8)
    (h3 : e * (Real.cosh s - 1) ≤ 2 * (e - 1)) (h4 : e * (s - x) ^ 2 ≤ 16 / 10 * (e - 1))
    (hu0 : 0 ≤ u) (hτ0 : 0 < τ) (hτ1 : τ ≤ 1 / 10 ^ 9) (hτ : τ ≤ |rise e s x|)
    (huτ : 980 * (u * (M + e)) ≤ τ) (huτs : 98 * (u * (M + e) * s) ≤ τ)
    (hT : 304 / 100 * u * (M + |x| + e * |Real.sinh x|) ≤ 19 / 1000 * |rise e s x|) : Fit e M s x u (19 / 1000) 1 1 (28 / 1000) := by
  obtain ⟨h5, h6⟩ := tame_size h1 hs hxs hD1 h3 h4 hτ0 hτ1 hτ
  have he : 0 < e := by linarith
  have hE : 0 < e - 1 := by linarith
  have hD : 0 < s - x := sub_pos.mpr hxs
  have hp := slope_ge h1 x
  obtain ⟨hF1, hF2⟩ := rise_below h1 hx hxs
  have hF0 := mul_pos hD (slope_pos h1 x)
  refine fit_below h1 hs hM hx hxs hu0 hτ huτ huτs hT (by linarith) ?_
  rw [abs_of_neg (by linarith)] at h5
  have hcx : Real.cosh x ≤ Real.cosh s := Real.cosh_le_cosh.mpr (by rw [abs_of_nonneg hx, abs_of_nonneg hs]; exact hxs.le)
  have hc3 : Real.cosh x ≤ 3 := by
    have : e * (Real.cosh s - 1) ≤ e * 2 := by linarith
    have := le_of_mul_le_mul_left this he
    linarith
  have hex2 : e * x ^ 2 ≤ 4 * (e - 1) := by
    have k1 := mul_le_mul_of_nonneg_left (cosh_ge2 hx) he.le
    have k2 := mul_le_mul_of_nonneg_left hcx he.le
    linarith
  have hxD : e * (x * (s - x)) ≤ 28 / 10 * (e - 1) := by
    have := mul_nonneg he.le (sq_nonneg (x - (s - x)))
    linarith
  have hwD : e * Real.sinh x * (s - x) ≤ 84 / 10 * (e - 1) := by
    have k1 := mul_le_mul_of_nonneg_left (sinh_le_mul_cosh hx) (mul_nonneg he.le hD.le)
    have k2 := mul_le_mul_of_nonneg_left hc3 (show 0 ≤ e * (x * (s - x)) by positivity)
    linarith
  have hw : 0 ≤ e * Real.sinh x := mul_nonneg he.le (sinh_nonneg hx)
  have k3 := mul_le_mul_of_nonneg_right h5 hw
  have k4 := mul_le_mul_of_nonneg_right hwD hE.le
  have k5 : (e - 1) ^ 2 ≤ slope e x ^ 2 := pow_le_pow_left₀ hE.le hp 2
  have k6 : 0 < (e - 1) ^ 2 := by positivity
  rw [pow_two] at k5 k6
  rw [pow_two]
  linarith

theorem beyond_poly2 {A B : ℝ} (hA : 0 ≤ A) (hAB : A ≤ B) (hB : B ^ 2 ≤ 16 / 10 * A) :
    20.6 * ((1 + 0.169 * (16 / 10 - 3 * B + 3 * A)) * B) ≤ 14.5 * (1 + A / 2) ^ 2 := by
  have hB0 : 0 ≤ B := hA.trans hAB
  obtain ⟨k, hk, rfl⟩ : ∃ k, 0 ≤ k ∧ A = 5 / 8 * B ^ 2 + k := ⟨A - 5 / 8 * B ^ 2, by linarith, by ring⟩
  have hB1 : B ≤ 16 / 10 := by nlinarith
  nlinarith [mul_nonneg hk hB0, mul_nonneg hk (sq_nonneg B), sq_nonneg k, mul_nonneg hk (sub_nonneg.mpr hB1), sq_nonneg (B ^ 2 - 2 * B + 1),
    sq_nonneg (B - 9 / 10), mul_nonneg hB0 (sq_nonneg (B - 9 / 10)), mul_nonneg hB0 (sq_nonneg (B - 12 / 10))]

/-- the radicand where the step starts beyond the origin -/
theorem beyond_rad {e s z : ℝ} (h1 : 1 < e) (hs : 0 ≤ s) (hz : 0 < z) (hD1 : s + z ≤ 3 / 8) (h : e * (s + z) ^ 2 ≤ 16 / 10 * (e - 1)) :
    20 * (e * (Real.sinh s + Real.sinh z) - (s + z)) * (e * Real.sinh z) ≤ 29 / 2 * slope e z ^ 2 := by
  have he : 0 < e := by linarith
  have hE : 0 < e - 1 := by linarith
  have hD : 0 < s + z := by linarith
  have hsz : 0 ≤ Real.sinh z := sinh_nonneg hz.le
  set D := s + z with hDd
  set P := e * (Real.sinh s + Real.sinh z) - D with hP
  set p := slope e z with hpd
  set w := e * Real.sinh z with hwd
  have hw : 0 ≤ w := mul_nonneg he.le hsz
  obtain ⟨g, hg⟩ : ∃ g, P = D * g := ⟨P / D, by field_simp⟩
  have cube : ∀ t, 0 ≤ t → t ≤ 3 / 8 → Real.sinh t - t ≤ 169 / 1000 * t ^ 3 := by
    intro t ht ht1
    have h2 := sinh_le_unit5 ht (by linarith)
    have h3 : t ^ 2 ≤ 9 / 64 := by nlinarith
    have h4 : t ^ 5 ≤ 9 / 64 * t ^ 3 := by
      have := mul_le_mul_of_nonneg_right h3 (show 0 ≤ t ^ 3 by positivity)
      linarith
    have : 0 ≤ t ^ 3 := by positivity
    linarith
  set A := e * z ^ 2 with hA
  set B := e * (z * D) with hB
  have hA0 : 0 ≤ A := by positivity
  have hAB : A ≤ B := mul_le_mul_of_nonneg_left (by rw [hDd]; nlinarith) he.le
  have hB2 : B ^ 2 ≤ 16 / 10 * ((e - 1) * A) := by
    have := mul_le_mul_of_nonneg_left h hA0
    calc B ^ 2 = A * (e * D ^ 2) := by rw [hA, hB]; ring
      _ ≤ _ := this
      _ = _ := by ring
  have hgU : g ≤ (e - 1) + 169 / 1000 * (16 / 10 * (e - 1) - 3 * B + 3 * A) := by
    have h2 := add_le_add (cube s hs (by linarith)) (cube z hz.le (by linarith))
    have h3 := mul_le_mul_of_nonneg_left h2 he.le
    have h4 : D * g ≤ D * ((e - 1) + 169 / 1000 * (e * D ^ 2 - 3 * B + 3 * A)) := by
      have e1 : D * (e * D ^ 2 - 3 * B + 3 * A) = e * (s ^ 3 + z ^ 3) := by rw [hA, hB, hDd]; ring
      have e2 : D * ((e - 1) + 169 / 1000 * (e * D ^ 2 - 3 * B + 3 * A)) = D * (e - 1) + 169 / 1000 * (D * (e * D ^ 2 - 3 * B + 3 * A)) := by ring
      rw [e2, e1, ← hg, hP]
      rw [hDd] at *
      linarith
    have := le_of_mul_le_mul_left h4 hD
    linarith
  have hpL : (e - 1) + A / 2 ≤ p := by
    have := mul_le_mul_of_nonneg_left (cosh_ge2 hz.le) he.le
    rw [hpd, slope_eq, hA]
    linarith
  have hDw : D * w ≤ 103 / 100 * B := by
    have h2 : Real.sinh z ≤ 103 / 100 * z := by
      have := cube z hz.le (by linarith)
      have h3 : z ^ 2 ≤ 9 / 64 := by nlinarith
      have h4 := mul_le_mul_of_nonneg_left h3 hz.le
      nlinarith
    have := mul_le_mul_of_nonneg_left h2 (show 0 ≤ D * e by positivity)
    rw [hwd, hB]
    linarith
  have hB0 : 0 ≤ B := hA0.trans hAB
  obtain ⟨G, hG⟩ : ∃ G, G = (e - 1) + 169 / 1000 * (16 / 10 * (e - 1) - 3 * B + 3 * A) := ⟨_, rfl⟩
  rw [← hG] at hgU
  have hpoly : 20.6 * (G * B) ≤ 14.5 * ((e - 1) + A / 2) ^ 2 := by
    obtain ⟨a, ha⟩ : ∃ a, A = (e - 1) * a := ⟨A / (e - 1), by field_simp⟩
    obtain ⟨b, hb⟩ : ∃ b, B = (e - 1) * b := ⟨B / (e - 1), by field_simp⟩
    have ha0 : 0 ≤ a := nonneg_of_mul_nonneg_right (ha ▸ hA0) hE
    have hab : a ≤ b := le_of_mul_le_mul_left (by rw [← ha, ← hb]; exact hAB) hE
    have hb2 : b ^ 2 ≤ 16 / 10 * a := by
      have : (e - 1) ^ 2 * b ^ 2 ≤ (e - 1) ^ 2 * (16 / 10 * a) := by
        rw [ha, hb] at hB2
        linarith
      exact le_of_mul_le_mul_left this (by positivity)
    have := mul_le_mul_of_nonneg_left (beyond_poly2 ha0 hab hb2) (sq_nonneg (e - 1))
    rw [hG, ha, hb]
    linarith
  have h6 : ((e - 1) + A / 2) ^ 2 ≤ p ^ 2 := pow_le_pow_left₀ (by positivity) hpL 2
  have hg0 : 0 ≤ g := by
    have h2 : Real.sinh s + Real.sinh z ≥ s + z := add_le_add (Real.self_le_sinh_iff.mpr hs) (Real.self_le_sinh_iff.mpr hz.le)
    have h3 := mul_le_mul_of_nonneg_left h2 he.le
    have h4 : 0 ≤ (e - 1) * D := mul_nonneg hE.le hD.le
    have h5 : 0 ≤ D * g := by rw [← hg, hP]; linarith
    exact nonneg_of_mul_nonneg_right h5 hD
  have h7 := mul_le_mul_of_nonneg_left hDw hg0
  have h8 := mul_le_mul_of_nonneg_right hgU hB0
  rw [hg]
  linarith

theorem fit_beyond {e M s z u τ : ℝ} (h1 : 1 < e) (hs : 0 ≤ s) (hM : e * Real.sinh s - s = M) (hz : 0 < z) (hD1 : s + z ≤ 3 / 8)
    (h3 : e * (Real.cosh s - 1) ≤ 2 * (e - 1)) (h4 : e * (s + z) ^ 2 ≤ 16 / 10 * (e - 1))
    (hu0 : 0 ≤ u) (hτ0 : 0 < τ) (hτ1 : τ ≤ 1 / 10 ^ 9) (hτ : τ ≤ |rise e s (-z)|) (huτ : 980 * (u * (M + e)) ≤ τ) :
    Fit e M s (-z) u (1 / 10 ^ 4) 43 42 (28 / 1000) := by
  have he : 0 < e := by linarith
  have hE : 0 < e - 1 := by linarith
  have hD : 0 < s + z := by linarith
  obtain ⟨hM0, -⟩ := mean_le h1 hs hM
  obtain ⟨h5, h6⟩ := tame_size (x := -z) h1 hs (by linarith) (by linarith) h3 (by rw [sub_neg_eq_add]; exact h4) hτ0 hτ1 hτ
  have hsl : slope e (-z) = slope e z := by unfold slope; rw [Real.cosh_neg]
  have hr : rise e s (-z) = -(e * (Real.sinh s + Real.sinh z) - (s + z)) := by unfold rise; rw [Real.sinh_neg]; ring
  have hrad := beyond_rad h1 hs hz hD1 h4
  have hsg := rise_sign' h1 (show -z ≤ s by linarith)
  rw [sub_neg_eq_add] at hsg
  have hF0 : 0 < -rise e s (-z) := lt_of_lt_of_le (mul_pos hE hD) hsg
  have hX : 20 * rise e s (-z) * (e * Real.sinh (-z)) = 20 * (e * (Real.sinh s + Real.sinh z) - (s + z)) * (e * Real.sinh z) := by
    rw [hr, Real.sinh_neg]; ring
  have hsz : 0 ≤ Real.sinh z := sinh_nonneg hz.le
  have hX0 : 0 ≤ 20 * (e * (Real.sinh s + Real.sinh z) - (s + z)) * (e * Real.sinh z) := by
    rw [hr] at hF0
    exact mul_nonneg (by linarith) (mul_nonneg he.le hsz)
  have hp := slope_ge h1 z
  have hpp : 0 < slope e z ^ 2 := by have : 0 < slope e z := by linarith
                                     positivity
  have huM : u * e ≤ u * (M + e) := mul_le_mul_of_nonneg_left (by linarith) hu0
  have hue : u ≤ u * e := by
    have := mul_le_mul_of_nonneg_left h1.le hu0
    linarith
  refine ⟨?_, ?_, ?_, ?_, ?_, ?_, ?_⟩
  · rw [abs_neg, abs_of_pos hz, Real.sinh_neg, abs_neg, abs_of_nonneg hsz, abs_of_neg (by linarith)]
    have sh : ∀ t, 0 ≤ t → t ≤ 3 / 8 → Real.sinh t ≤ 11 / 10 * t := by
      intro t t0 t1
      have k1 := sinh_le_unit5 t0 (by linarith)
      have k2 : t ^ 2 ≤ (3 / 8) ^ 2 := pow_le_pow_left₀ t0 t1 2
      have k3 := mul_le_mul_of_nonneg_left k2 t0
      have k4 : t ^ 4 ≤ (3 / 8) ^ 4 := pow_le_pow_left₀ t0 t1 4
      have k5 := mul_le_mul_of_nonneg_left k4 t0
      norm_num at k3 k5
      nlinarith
    have k1 := mul_le_mul_of_nonneg_left (sh s hs (by linarith)) he.le
    have k2 := mul_le_mul_of_nonneg_left (sh z hz.le (by linarith)) he.le
    have k3 := mul_le_mul_of_nonneg_right h1.le hz.le
    have k4 := mul_nonneg he.le hs
    have k5 : M + z + e * Real.sinh z ≤ 22 / 10 * (e * (s + z)) := by linarith
    have k6 := mul_le_mul_of_nonneg_left k5 (show 0 ≤ 304 / 100 * u by linarith)
    have k7 : 401800 * (u * e) ≤ e - 1 := by linarith
    have k8 := mul_le_mul_of_nonneg_right k7 hD.le
    linarith
  · rw [hX, hsl]; linarith
  · rw [hX, hsl, abs_of_nonneg hX0]; linarith
  · rw [hX, hsl]; linarith
  · rw [hX, hsl]; linarith
  · rw [hsl]; linarith
  · obtain ⟨k1, -⟩ := next_beyond h1 hs hz hD1 h4
    rw [abs_neg, abs_of_pos hz, abs_of_neg (by linarith)]
    have k2 : u ≤ 1 / 100 := by linarith
    have := mul_le_mul_of_nonneg_right k2 hz.le
    linarith

/-! ## Anywhere in the region -/

theorem good_abs {e s x : ℝ} (hs : 0 ≤ s) (h : Good e s x) : |x| ≤ s + 3 / 5 := by
  rcases h with ⟨h2, h3⟩ | ⟨h2, h3⟩
  · rw [abs_of_nonneg (by linarith)]
    linarith
  · have : -(3 / 8) ≤ x := by
      rcases h3 with ⟨h4, h5⟩ | ⟨h4, -⟩
      · have hsx : 0 < Real.sinh x := by
          have := mul_pos (sub_pos.mpr h2) (Real.cosh_pos x)
          linarith
        have := Real.sinh_pos_iff.mp hsx
        linarith
      · linarith
    rw [abs_le]
    constructor <;> linarith

/-- the sum of the magnitudes of the terms of the residual -/
theorem terms_good {e M s x : ℝ} (h1 : 1 < e) (hs : 0 ≤ s) (hM : e * Real.sinh s - s = M) (h : Good e s x) :
    M + |x| + e * |Real.sinh x| ≤ 6 * (M + e) := by
  have hr := root_le h1 hs hM
  have hx := good_abs hs h
  have h2 : |Real.sinh x| ≤ Real.sinh (s + 3 / 5) := by
    rw [abs_le] at hx ⊢
    exact ⟨by rw [← Real.sinh_neg]; exact Real.sinh_le_sinh.mpr hx.1, Real.sinh_le_sinh.mpr hx.2⟩
  have hb : Real.exp (-(3 / 5)) * Real.exp (3 / 5) = 1 := by rw [← Real.exp_add]; simp
  have hE1 := exp_three_fifths
  have hE2 := exp_three_fifths_le
  have hi0 := Real.exp_pos (-(3 / 5))
  have hi1 : Real.exp (-(3 / 5)) ≤ 55 / 100 := by nlinarith
  have hi2 : 54 / 100 ≤ Real.exp (-(3 / 5)) := by nlinarith
  have hc : Real.cosh (3 / 5) ≤ 119 / 100 := by rw [Real.cosh_eq]; linarith
  have hS : Real.sinh (3 / 5) ≤ 645 / 1000 := by rw [Real.sinh_eq]; linarith
  have hS0 : 0 ≤ Real.sinh (3 / 5) := sinh_nonneg (by norm_num)
  have hss := sinh_nonneg hs
  have h3 := cosh_le_one_add_sinh hs
  have h4 : Real.sinh (s + 3 / 5) ≤ Real.sinh s * (119 / 100) + (1 + Real.sinh s) * (645 / 1000) := by
    rw [Real.sinh_add]
    have := mul_le_mul_of_nonneg_left hc hss
    have := mul_le_mul h3 hS hS0 (by linarith)
    linarith
  have h5 := mul_le_mul_of_nonneg_left (h2.trans h4) (show 0 ≤ e by linarith)
  obtain ⟨h6, -⟩ := mean_le h1 hs hM
  linarith

theorem fit_good {e M s x u τ : ℝ} (h1 : 1 < e) (hs : 0 ≤ s) (hM : e * Real.sinh s - s = M) (h : Good e s x)
    (hu0 : 0 ≤ u) (hτ0 : 0 < τ) (hτ1 : τ ≤ 1 / 10 ^ 9) (hτ : τ ≤ |rise e s x|) (huτ : 980 * (u * (M + e)) ≤ τ) (huτs : 98 * (u * (M + e) * s) ≤ τ) :
    ∃ ε κ κ' l, Fit e M s x u ε κ κ' l ∧ 0 ≤ ε ∧ ε ≤ 19 / 1000 ∧ 0 ≤ κ ∧ κ ≤ 43 ∧ κ' ≤ 42 ∧ κ' * ε ≤ 19 / 1000 ∧ l ≤ 28 / 1000 ∧
      (s < x → 2 * s ≤ x → ε ≤ 1 / 10 ^ 4 ∧ l ≤ 1 / 10 ^ 5) := by
  have hT : 304 / 100 * u * (M + |x| + e * |Real.sinh x|) ≤ 19 / 1000 * |rise e s x| := by
    have := mul_le_mul_of_nonneg_left (terms_good h1 hs hM h) (show 0 ≤ 304 / 100 * u by linarith)
    linarith
  rcases h with ⟨hsx, hd⟩ | ⟨hxs, h⟩
  · rcases hsx.eq_or_lt with rfl | hsx
    · have : rise e s s = 0 := by simp [rise]
      rw [this, abs_zero] at hτ
      linarith
    obtain ⟨ε, κ, κ', l, k1, k2, k3, k4, k5, k6, k7, k8, k9⟩ := fit_above h1 hs hM hsx hd hu0 hτ0 hτ1 hτ huτ huτs hT
    exact ⟨ε, κ, κ', l, k1, k2, k3, k4, k5, k6, k7, k8, fun _ => k9⟩
  · rcases h with ⟨h2, h3⟩ | ⟨h2, h3, h4⟩
    · exact ⟨_, _, _, _, fit_wide h1 hs hM hxs h2 h3 hu0 hτ0 hτ1 hτ huτ huτs hT, by norm_num, by norm_num, by norm_num, by norm_num, by norm_num, by norm_num,
        le_rfl, fun h => absurd h hxs.not_gt⟩
    · rcases le_or_gt 0 x with hx | hx
      · exact ⟨_, _, _, _, fit_tame h1 hs hM hx hxs h2 h3 h4 hu0 hτ0 hτ1 hτ huτ huτs hT, by norm_num, by norm_num, by norm_num, by norm_num, by norm_num, by norm_num,
          le_rfl, fun h => absurd h hxs.not_gt⟩
      · obtain ⟨z, rfl⟩ : ∃ z, x = -z := ⟨-x, by ring⟩
        rw [sub_neg_eq_add] at h2 h4
        exact ⟨_, _, _, _, fit_beyond h1 hs hM (by linarith) h2 h3 h4 hu0 hτ0 hτ1 hτ huτ, by norm_num, by norm_num, by norm_num, le_rfl, le_rfl, by norm_num,
          le_rfl, fun h => absurd h hxs.not_gt⟩

/-! ## Near the starting value -/

theorem guess_near {e M s g : ℝ} (h1 : 1 < e) (hs : 0 ≤ s) (hM : e * Real.sinh s - s = M) (hg : |g - guess e M| ≤ 1 / 10 ^ 6) :
    Good e s g ∧ dist s g ≤ 7 / 5 := by
  obtain ⟨hg1, hg2⟩ := abs_le.mp hg
  have he : 0 < e := by linarith
  obtain ⟨hM0, -⟩ := mean_le h1 hs hM
  set q := 2 * M / e + 9 / 5 with hq
  have hq18 : 9 / 5 ≤ q := by
    have : 0 ≤ 2 * M / e := by positivity
    linarith
  have hq0 : 0 < q := by linarith
  set x := guess e M with hx
  have hxq : Real.exp x = q := by rw [hx, guess, Real.exp_log hq0]
  set a := Real.exp s with ha
  have ha1 : 1 ≤ a := Real.one_le_exp hs
  have ha0 : 0 < a := by linarith
  have hsinh : 2 * Real.sinh s = a - 1 / a := by rw [Real.sinh_eq, ha, Real.exp_neg, one_div]; ring
  have hqe : q = a - 1 / a - 2 * s / e + 9 / 5 := by
    rw [hq, ← hM, ← hsinh]
    field_simp
  have hse : 0 ≤ 2 * s / e := by positivity
  have hse1 : 2 * s / e ≤ 2 * s := div_le_self (by linarith) h1.le
  have hia1 : a * (1 / a) = 1 := by field_simp
  have hup : x ≤ s + 594 / 1000 := by
    rw [← Real.exp_le_exp, hxq, Real.exp_add, ← ha]
    have h0 : 1811 / 1000 ≤ Real.exp (594 / 1000) := by
      refine le_trans ?_ (exp_poly (by norm_num))
      norm_num
    have h2 := mul_le_mul_of_nonneg_left h0 ha0.le
    refine le_trans ?_ h2
    rw [hqe]
    have h3 : 9 / 5 ≤ 811 / 1000 * a + 1 / a := by
      have : a * (9 / 5) ≤ a * (811 / 1000 * a + 1 / a) := by
        rw [mul_add, hia1]
        nlinarith [sq_nonneg (a - 111 / 100)]
      exact le_of_mul_le_mul_left this ha0
    linarith
  have hdown : s ≤ x + 999 / 1000 := by
    rw [← Real.exp_le_exp, Real.exp_add, hxq, ← ha]
    have h2 : (27 / 10 : ℝ) ≤ Real.exp (999 / 1000) := by
      refine le_trans ?_ (exp_poly (by norm_num))
      norm_num
    have h3 : a ≤ q * (27 / 10) := by
      rw [hqe]
      have h4 : 1 / a ≤ 1 := by rw [div_le_one ha0]; exact ha1
      have h5 : 1 + s + s ^ 2 / 2 + s ^ 3 / 6 ≤ a := by
        have h := Real.sum_le_exp_of_nonneg hs 4
        refine le_trans (le_of_eq ?_) h
        norm_num [Finset.sum_range_succ, Nat.factorial]
      nlinarith [mul_nonneg hs (sq_nonneg (s - 3 / 2)), sq_nonneg (s - 3 / 2)]
    have := mul_le_mul_of_nonneg_left h2 hq0.le
    linarith
  constructor
  · rcases le_or_gt s g with hsg | hsg
    · exact .inl ⟨hsg, by linarith⟩
    · refine .inr ⟨hsg, .inl ⟨by linarith, ?_⟩⟩
      have h3 : 17 / 10 ≤ Real.exp g := by
        have h4 : Real.exp (x + (g - x)) = q * Real.exp (g - x) := by rw [Real.exp_add, hxq]
        rw [add_sub_cancel] at h4
        have h5 := Real.add_one_le_exp (g - x)
        have h6 := mul_le_mul hq18 (show 99 / 100 ≤ Real.exp (g - x) by linarith) (by norm_num) hq0.le
        linarith
      have h2 : Real.cosh g ≤ 5 / 2 * Real.sinh g := by
        rw [Real.cosh_eq, Real.sinh_eq, Real.exp_neg]
        have h4 : (Real.exp g)⁻¹ ≤ 10 / 17 := by
          rw [inv_le_comm₀ (Real.exp_pos g) (by norm_num)]
          norm_num
          linarith
        linarith
      exact (mul_le_of_le_one_left (Real.cosh_pos g).le (by linarith)).trans h2
  · unfold dist
    split_ifs with hsx <;> linarith

theorem guess_size {e M s : ℝ} (h1 : 1 < e) (hs : 0 ≤ s) (hM : e * Real.sinh s - s = M) : |guess e M| ≤ 10 + s := by
  have h := guess_near (g := guess e M) h1 hs hM (by simp)
  have := good_abs hs h.1
  linarith

/-- the residual grows at least with the cube of the distance, however close `e` is to 1 -/
theorem rise_cube {e s x : ℝ} (h1 : 1 < e) : |x - s| ^ 3 / 24 ≤ |rise e s x| := by
  have key : ∀ a b : ℝ, a ≤ b → (b - a) ^ 3 / 24 ≤ rise e a b := by
    intro a b hab
    obtain ⟨d, hd⟩ : ∃ d, d = (b - a) / 2 := ⟨_, rfl⟩
    obtain ⟨m, hm⟩ : ∃ m, m = (a + b) / 2 := ⟨_, rfl⟩
    have hd0 : 0 ≤ d := by rw [hd]; linarith
    have e1 : Real.sinh b - Real.sinh a = 2 * (Real.cosh m * Real.sinh d) := by
      rw [show b = m + d by rw [hm, hd]; ring, show a = m - d by rw [hm, hd]; ring, Real.sinh_add, Real.sinh_sub]
      ring
    have h2 := le_of_deriv (f := fun t => Real.sinh t - (t + t ^ 3 / 6)) (f' := fun t => Real.cosh t - (1 + t ^ 2 / 2)) hd0
      (fun t => by
        refine ((Real.hasDerivAt_sinh t).sub ((hasDerivAt_id t).add ((hasDerivAt_pow 3 t).div_const 6))).congr_deriv ?_
        norm_num
        ring)
      (fun t ht _ => sub_nonneg.mpr (cosh_ge2 ht))
    simp at h2
    have h3 := sinh_nonneg hd0
    have h4 : 1 * 1 ≤ e * Real.cosh m := mul_le_mul h1.le (Real.one_le_cosh m) (by norm_num) (by linarith)
    have h5 := mul_le_mul_of_nonneg_right h4 h3
    have e2 : rise e a b = 2 * (e * Real.cosh m * Real.sinh d) - 2 * d := by
      rw [rise, e1, hd]; ring
    have e3 : (b - a) ^ 3 / 24 = 2 * (d ^ 3 / 6) := by rw [hd]; ring
    rw [e2, e3]
    linarith
  rcases le_total s x with h | h
  · rw [abs_of_nonneg (sub_nonneg.mpr h)]
    exact (key s x h).trans (le_abs_self _)
  · have e1 : rise e s x = -rise e x s := by unfold rise; ring
    rw [abs_of_nonpos (sub_nonpos.mpr h), neg_sub, e1, abs_neg]
    exact (key x s h).trans (le_abs_self _)

end Pyorb.Lag.Hyp
