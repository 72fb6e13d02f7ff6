import Verif.LagRound
import Verif.PropsConverge

/-!
# The starting value of the Kepler solver with an error

A point near the code's starting value for a mean anomaly near the given one has a small residual, or lies in the region of `LagRound`.
-/

namespace Pyorb.Lag

theorem fall_root {e M s : ℝ} (hs : s - e * Real.sin s = M) (x : ℝ) : fall e s x = x - e * Real.sin x - M := by
  unfold fall; rw [← hs]; ring

theorem sin_lip {e : ℝ} (h0 : 0 ≤ e) (h1 : e < 1) (x y : ℝ) : |e * Real.sin x - e * Real.sin y| ≤ |x - y| := by
  rw [← mul_sub, abs_mul, abs_of_nonneg h0]
  have := mul_le_mul h1.le (Real.abs_sin_sub_sin_le x y) (abs_nonneg _) zero_le_one
  linarith

/-- the starting value for a small mean anomaly is close to the root -/
theorem start_tiny {e m : ℝ} (h0 : 0 ≤ e) (h1 : e < 1) (hm0 : 0 ≤ m) (hm : m ≤ 1 / 100) :
    m - guessLow e m + e * Real.sin (guessLow e m) ≤ 16 / 100 * (e * Real.sin (guessLow e m)) := by
  have hpi := Real.pi_gt_three
  have hpi' := Real.pi_lt_d4
  set l := Real.sin m / (1 - Real.sin (m + e) + Real.sin m) with hl
  have hg : guessLow e m = m + e * l := by rw [guessLow, if_pos (by linarith), hl]; ring
  have hd := smith_denominator_pos h0 h1 m
  have hd0 : 0 < 1 - Real.sin (m + e) + Real.sin m := by linarith
  have hsM : 0 ≤ Real.sin m := Real.sin_nonneg_of_nonneg_of_le_pi hm0 (by linarith)
  have hl0 : 0 ≤ l := div_nonneg hsM hd0.le
  have hl1 : l ≤ 1 := by
    rw [hl, div_le_one hd0]
    linarith [Real.sin_le_one (m + e)]
  have hlm : l * (1 - Real.sin (m + e) + Real.sin m) = Real.sin m := div_mul_cancel₀ _ hd0.ne'
  have hel : 0 ≤ e * l := mul_nonneg h0 hl0
  have hel1 : e * l ≤ e := mul_le_of_le_one_right h0 hl1
  rw [hg]
  have h2 := sin_concave hm0 (show m ≤ m + e * l by linarith) (by linarith)
  have h3 : (m + e * l - m) * Real.cos m ≤ e * l := by
    rw [add_sub_cancel_left]
    exact mul_le_of_le_one_right hel (Real.cos_le_one m)
  have h4 : e - (Real.sin (m + e) - Real.sin m) ≤ 19 / 100 := by
    have k2 := le_of_deriv (f := fun t => Real.sin t - Real.sin (t + e)) (f' := fun t => Real.cos t - Real.cos (t + e)) hm
      (fun y => by
        have := (Real.hasDerivAt_sin y).sub ((Real.hasDerivAt_sin (y + e)).comp_add_const y e)
        exact this)
      (fun y hy hy1 => sub_nonneg.mpr (Real.cos_le_cos_of_nonneg_of_le_pi (by linarith) (by linarith) (by linarith)))
    have k3 := le_of_deriv (f := fun t => t - Real.sin (1 / 100 + t)) (f' := fun t => 1 - Real.cos (1 / 100 + t)) h1.le
      (fun y => by
        have := (hasDerivAt_id y).sub ((Real.hasDerivAt_sin (1 / 100 + y)).comp_const_add (1 / 100) y)
        exact this)
      (fun y hy hy1 => sub_nonneg.mpr (Real.cos_le_one _))
    have k4 : 84 / 100 ≤ Real.sin (1 / 100 + 1) := by
      rw [← Real.cos_pi_div_two_sub]
      refine le_trans ?_ Real.one_sub_sq_div_two_le_cos
      have h5 : Real.pi / 2 - (1 / 100 + 1) ≤ 561 / 1000 := by linarith
      have h6 : (Real.pi / 2 - (1 / 100 + 1)) ^ 2 ≤ (561 / 1000) ^ 2 := pow_le_pow_left₀ (by linarith) h5 2
      norm_num at h6 ⊢
      linarith
    have k5 : Real.sin (1 / 100) ≤ 1 / 100 := Real.sin_le (by norm_num)
    linarith
  have h5 : Real.sin (m + e * l) ≤ l * (119 / 100) := by
    have := mul_le_mul_of_nonneg_left h4 hl0
    linarith
  have h6 := mul_le_mul_of_nonneg_left (show Real.sin (m + e * l) - l ≤ 16 / 100 * Real.sin (m + e * l) by linarith) h0
  linarith

/-- the residual near half a turn -/
theorem near_pi {e M s x a b : ℝ} (h0 : 0 ≤ e) (h1 : e < 1) (hs : s - e * Real.sin s = M) (hM : |M - Real.pi| ≤ b) (hx : |x - Real.pi| ≤ a) :
    |fall e s x| ≤ 2 * a + b := by
  rw [fall_root hs]
  have h2 := sin_lip h0 h1 x Real.pi
  rw [Real.sin_pi, mul_zero, sub_zero] at h2
  have h2 := h2.trans hx
  rw [abs_le] at hM hx h2 ⊢
  constructor <;> linarith [hM.1, hM.2, hx.1, hx.2, h2.1, h2.2]

theorem start {e M s m x τ : ℝ} (K : ℕ) (h7 : 7 / 10 ≤ e) (h1 : e < 1) (hτ : 0 < τ) (hτ1 : τ ≤ 1 / 10 ^ 5) (hM0 : -(τ / 180) ≤ M) (hM : M ≤ Real.pi + τ / 290)
    (hs : s - e * Real.sin s = M) (hm : |m - M| ≤ τ / 290) (hx : |x - guessLow e m| ≤ τ / 50) :
    |fall e s x| < τ ∨ (0 ≤ s ∧ At e s K 0 x) := by
  have h0 : 0 ≤ e := by linarith
  have hpi := Real.pi_gt_d4
  have hpi' := Real.pi_lt_d4
  have hsf := fall_root hs x
  have hm' := abs_le.mp hm
  have hx' := abs_le.mp hx
  have hlip := abs_le.mp ((sin_lip h0 h1 x (guessLow e m)).trans hx)
  by_cases hq : m < 1 / 4
  · -- below the root
    have hd := smith_denominator_pos h0 h1 m
    have hd0 : 0 < 1 - Real.sin (m + e) + Real.sin m := by linarith
    rcases le_or_gt M (τ / 180) with hM1 | hM1
    · left
      have hg : |guessLow e m| ≤ 31 * |m| := by
        rw [guessLow, if_pos hq]
        refine (abs_add_le _ _).trans ?_
        have : |e * Real.sin m / (1 - Real.sin (m + e) + Real.sin m)| ≤ 30 * |m| := by
          rw [abs_div, abs_of_pos hd0, div_le_iff₀ hd0, abs_mul, abs_of_nonneg h0]
          have e1 := mul_le_mul h1.le (Real.abs_sin_le_abs (x := m)) (abs_nonneg _) zero_le_one
          have e2 := mul_le_mul_of_nonneg_left hd.le (show 0 ≤ 30 * |m| by positivity)
          linarith
        linarith
      have hma : |m| ≤ τ / 111 := by rw [abs_le]; constructor <;> linarith
      have hg' := abs_le.mp hg
      have h2 := sin_lip h0 h1 x 0
      rw [Real.sin_zero, mul_zero, sub_zero, sub_zero] at h2
      have hxa : |x| ≤ 3 / 10 * τ := by rw [abs_le]; constructor <;> linarith [hx'.1, hx'.2, hg'.1, hg'.2]
      have h2' := abs_le.mp (h2.trans hxa)
      have hxa' := abs_le.mp hxa
      rw [hsf, abs_lt]
      constructor <;> linarith [h2'.1, h2'.2, hxa'.1, hxa'.2]
    · have hm0 : 0 ≤ m := by linarith [hm'.1]
      obtain ⟨σ, hσ⟩ := root_exists h0 h1 m
      obtain ⟨k1, k2, k3, k4⟩ := start_low h0 h1 hm0 hq hσ
      have k4' : m - guessLow e m + e * Real.sin (guessLow e m) ≤ 2317 / 10000 * (e * Real.sin (guessLow e m)) := by
        simp only at k4
        linarith
      have k5 : 0 ≤ m - guessLow e m + e * Real.sin (guessLow e m) := by
        have := mean_le h0 h1 k2
        linarith
      set g := guessLow e m with hg
      by_cases hF : |fall e s x| < τ
      · exact .inl hF
      right
      have hF := not_lt.mp hF
      -- the value is negative
      have hFn : fall e s x ≤ -τ := by
        rcases le_abs.mp hF with h | h
        · exfalso
          linarith [hm'.1, hm'.2, hx'.1, hx'.2, hlip.1, hlip.2]
        · linarith
      have hxs : x ≤ s := by
        refine mean_mono h0 h1 ?_
        rw [hs]; linarith
      have hsg : 95 / 100 * τ ≤ 2317 / 10000 * (e * Real.sin g) := by
        linarith [hm'.1, hm'.2, hx'.1, hx'.2, hlip.1, hlip.2]
      have hg0 : 0 ≤ g := by linarith
      have hsing : 4 * τ ≤ g := by
        have e1 := Real.sin_le hg0
        have e2 := mul_le_mul h1.le e1 (Real.sin_nonneg_of_nonneg_of_le_pi hg0 (by linarith)) zero_le_one
        linarith
      have hs2 : s ≤ Real.pi / 2 := by
        have e1 : e * Real.sin s ≤ 1 := by
          have := mul_le_mul_of_nonneg_left (Real.sin_le_one s) h0
          linarith
        linarith [hm'.1]
      have hx0 : 0 ≤ x := by linarith [hx'.1]
      refine ⟨by linarith, .inl ⟨⟨hx0, hxs, hs2, ?_⟩, by rw [pow_zero]; linarith⟩⟩
      have hP : (s - x) - e * (Real.sin s - Real.sin x) = M - x + e * Real.sin x := by rw [← hs]; ring
      rw [hP]
      rcases le_or_gt m (1 / 100) with hm1 | hm1
      · have k6 := start_tiny h0 h1 hm0 hm1
        rw [← hg] at k6
        linarith [hm'.1, hm'.2, hx'.1, hx'.2, hlip.1, hlip.2]
      · have e1 := Real.mul_le_sin hg0 (by linarith)
        have e2 : 6 / 10 * g ≤ Real.sin g := by
          refine le_trans (mul_le_mul_of_nonneg_right ?_ hg0) e1
          rw [div_le_div_iff₀ (by norm_num) Real.pi_pos]
          linarith
        have e3 : 7 / 10 * (6 / 1000) ≤ e * Real.sin g := mul_le_mul h7 (by linarith) (by norm_num) h0
        linarith [hm'.1, hm'.2, hx'.1, hx'.2, hlip.1, hlip.2]
  · have hq := not_lt.mp hq
    by_cases hmp : Real.pi < m ∨ Real.pi < M
    · -- near half a turn
      left
      have hmb : |m - Real.pi| ≤ 2 * τ / 290 := by
        rw [abs_le]
        constructor
        · rcases hmp with h | h <;> linarith [hm'.1]
        · linarith [hm'.2]
      have hmb' := abs_le.mp hmb
      have hMb : |M - Real.pi| ≤ 3 * τ / 290 := by
        rw [abs_le]
        constructor <;> linarith [hm'.1, hm'.2]
      have hgp : |guessLow e m - Real.pi| ≤ 2 * τ / 290 := by
        rw [guessLow, if_neg (not_lt.mpr hq), if_neg (by linarith)]
        have : m + e * (Real.pi - m) / (1 + e) - Real.pi = (m - Real.pi) / (1 + e) := by field_simp; ring
        rw [this, abs_div, abs_of_pos (by linarith : 0 < 1 + e), div_le_iff₀ (by linarith)]
        have : 0 ≤ 2 * τ / 290 * e := by positivity
        linarith
      have hxp : |x - Real.pi| ≤ τ / 50 + 2 * τ / 290 := by
        have := abs_add_le (x - guessLow e m) (guessLow e m - Real.pi)
        rw [sub_add_sub_cancel] at this
        linarith
      have := near_pi h0 h1 hs hMb hxp
      linarith
    · have hmp' : m ≤ Real.pi ∧ M ≤ Real.pi := ⟨not_lt.mp fun h => hmp (.inl h), not_lt.mp fun h => hmp (.inr h)⟩
      obtain ⟨hmp1, hmp2⟩ := hmp'
      obtain ⟨σ, hσ⟩ := root_exists h0 h1 m
      obtain ⟨k1, k2, -⟩ := start_high h0 h1 hq hmp1 hσ
      have k3 := mean_le h0 h1 k1
      rw [hσ] at k3
      set g := guessLow e m with hg
      by_cases hF : |fall e s x| < τ
      · exact .inl hF
      right
      have hF := not_lt.mp hF
      have hFp : τ ≤ fall e s x := by
        rcases le_abs.mp hF with h | h
        · exact h
        · exfalso
          linarith [hm'.1, hm'.2, hx'.1, hx'.2, hlip.1, hlip.2]
      have hs0 : 0 ≤ s := mean_mono h0 h1 (by simp; linarith [hm'.2])
      have hsp : s ≤ Real.pi := mean_mono h0 h1 (by rw [hs, Real.sin_pi]; linarith)
      have hsx : s ≤ x := by
        refine mean_mono h0 h1 ?_
        rw [hs]; linarith
      have hge : m < 2 ∧ g = m + e ∨ 2 ≤ m ∧ (Real.pi - g) * (1 + e) = Real.pi - m := by
        rw [hg, guessLow, if_neg (not_lt.mpr hq)]
        split_ifs with h2
        · exact .inl ⟨h2, rfl⟩
        · refine .inr ⟨not_lt.mp h2, ?_⟩
          field_simp
          ring
      have hxp : x ≤ Real.pi := by
        by_contra hn
        have hn := not_le.mp hn
        rcases hge with ⟨h2, h3⟩ | ⟨h2, h3⟩
        · linarith [hx'.2]
        · have e1 : Real.pi - g ≤ τ / 50 := by linarith [hx'.2]
          have e2 : (Real.pi - g) * (1 + e) ≤ τ / 50 * 2 := mul_le_mul e1 (by linarith) (by linarith) (by linarith)
          have e3 := near_pi (x := x) (a := τ / 50) (b := τ / 25 + τ / 290) h0 h1 hs (by rw [abs_le]; constructor <;> linarith [hm'.2])
            (by rw [abs_le]; constructor <;> linarith [hx'.2])
          linarith
      refine ⟨hs0, .inr ⟨0, Nat.zero_le _, le_rfl, x, hsx, hxp, .inl ?_, ⟨le_rfl, .inl hsx⟩, ?_⟩⟩
      · rcases hge with ⟨h2, h3⟩ | ⟨h2, h3⟩
        · have h6 : 100 / 266 * x ≤ s := by
            refine mean_mono h0 h1 ?_
            rw [hs]
            have hz : 0 ≤ 100 / 266 * x := by linarith
            have h7' := Real.mul_le_sin hz (by linarith)
            have h8 : 5 / 8 * (100 / 266 * x) ≤ Real.sin (100 / 266 * x) := by
              refine le_trans (mul_le_mul_of_nonneg_right ?_ hz) h7'
              rw [div_le_div_iff₀ (by norm_num) Real.pi_pos]
              linarith
            have h9 := mul_le_mul_of_nonneg_left h8 h0
            have hxM : x ≤ M + e + τ / 40 := by linarith [hx'.2, hm'.2]
            have h10 : x * (1 - 5 / 8 * e) ≤ (M + e + τ / 40) * (1 - 5 / 8 * e) := mul_le_mul_of_nonneg_right hxM (by linarith)
            have h11 : 0 ≤ τ * e := by positivity
            have h12 : 2499 / 10000 * e ≤ M * e := mul_le_mul_of_nonneg_right (by linarith [hm'.2]) h0
            have h13 := sq_nonneg (e - 27 / 40)
            linarith [hm'.2]
          linarith
        · have h4 : M ≤ s := by
            have := mul_nonneg h0 (Real.sin_nonneg_of_nonneg_of_le_pi hs0 hsp)
            linarith
          linarith [hm'.2]
      · rw [dist, if_pos hsx]
        simp
        linarith

end Pyorb.Lag
