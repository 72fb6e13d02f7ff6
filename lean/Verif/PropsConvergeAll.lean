import Verif.PropsConverge

/-!
# C84: the Kepler solver converges for every mean anomaly, on ellipses with e ≤ 0.7

The code does not reduce the mean anomaly to one turn.  Below 0 and above `2 pi` the starting value is Smith's secant formula.  For mean anomalies in
the first half of a turn the secant interpolates; in the second half it extrapolates.  Up to e = 0.7 both stay where `LagConverge` applies.
-/

namespace Pyorb.Lag

/-- Smith's starting value -/
noncomputable def smith (e M : ℝ) : ℝ := M + e * Real.sin M / (1 - Real.sin (M + e) + Real.sin M)

/-- Smith's starting value seen from `-M`: the secant on the other side -/
noncomputable def smithBack (e m : ℝ) : ℝ := m + e * Real.sin m / (1 + Real.sin (m - e) - Real.sin m)

/-- a point from which the iteration cannot leave -/
def Tame (e s x : ℝ) : Prop := ∃ Y, s ≤ Y ∧ Y ≤ Real.pi ∧ (10 * Y ≤ 27 * s ∨ Y ≤ 86 / 100) ∧ Good e s Y x

theorem tame_above {e s x : ℝ} (hx : x ≤ Real.pi) (hsx : s ≤ x) (hr : s ≤ 117 / 100 → 10 * x ≤ 27 * s) : Tame e s x := by
  have hpi' := Real.pi_lt_d2
  rcases le_total s (117 / 100) with h | h
  · exact ⟨x, hsx, hx, .inl (hr h), le_rfl, .inl hsx⟩
  · exact ⟨Real.pi, hsx.trans hx, le_rfl, .inl (by linarith), hx, .inl hsx⟩

theorem tame_below {e s x : ℝ} (hxs : x ≤ s) (h1 : 13 * s ≤ 30 * x) (h2 : 4 * s - 3 * x ≤ Real.pi) : Tame e s x :=
  ⟨s + 3 * (s - x), by linarith, by linarith, .inl (by linarith), by linarith, .inr ⟨by linarith, .inl h1⟩⟩

theorem tame_reaches {e s x : ℝ} (h0 : 0 ≤ e) (h1 : e < 1) (hs : 0 ≤ s) (h : Tame e s x) {tol : ℝ} {K : Nat} (hK : 7 * (5 / 6) ^ K < tol) :
    |fall e s ((next e s)^[K] x)| < tol := by
  have hpi' := Real.pi_lt_d2
  obtain ⟨Y, h2, h3, h4, h5⟩ := h
  have h6 := good_iterate h0 h1 hs h2 h3 h4 K x h5
  have h7 : dist s x ≤ 35 / 10 := by
    obtain ⟨h8, h9⟩ := h5
    unfold dist
    split_ifs with h10
    · linarith
    · have := (h9.resolve_left h10).1
      linarith
  have h8 : (5 / 6 : ℝ) ^ K * dist s x ≤ (5 / 6) ^ K * (35 / 10) := mul_le_mul_of_nonneg_left h7 (by positivity)
  have := fall_le (s := s) (x := (next e s)^[K] x) h0 h1
  linarith

/-! ## The sine and its tangent -/

theorem sin_quad_up (s : ℝ) {a : ℝ} (ha : 0 ≤ a) : Real.sin (s + a) - Real.sin s - a * Real.cos s ≤ a ^ 2 / 2 := by
  have h1 := le_of_deriv (f := fun t => t ^ 2 / 2 - (Real.sin (s + t) - Real.sin s - t * Real.cos s)) (f' := fun t => t - (Real.cos (s + t) - Real.cos s)) ha
    (fun y => by
      have e1 : HasDerivAt (fun t => Real.sin (s + t)) (Real.cos (s + y)) y := by
        have := (Real.hasDerivAt_sin (s + y)).comp y ((hasDerivAt_id y).const_add s)
        rw [mul_one] at this
        exact this
      refine ((((hasDerivAt_id y).pow 2).div_const 2).sub ((e1.sub_const (Real.sin s)).sub ((hasDerivAt_id y).mul_const (Real.cos s)))).congr_deriv ?_
      simp)
    (fun y hy _ => by
      have h2 := (abs_le.mp (Real.abs_cos_sub_cos_le (s + y) s)).2
      rw [add_sub_cancel_left, abs_of_nonneg hy] at h2
      linarith)
  simp at h1
  linarith

theorem sin_quad (s a : ℝ) : |Real.sin (s + a) - Real.sin s - a * Real.cos s| ≤ a ^ 2 / 2 := by
  rcases le_total 0 a with h | h
  · refine abs_le.mpr ⟨?_, sin_quad_up s h⟩
    have := sin_quad_up (s + Real.pi) h
    rw [show s + Real.pi + a = s + a + Real.pi by ring, Real.sin_add_pi, Real.sin_add_pi, Real.cos_add_pi] at this
    linarith
  · have h1 := sin_quad_up (-s) (neg_nonneg.mpr h)
    have h2 := sin_quad_up (-s + Real.pi) (neg_nonneg.mpr h)
    rw [show -s + Real.pi + -a = -(s + a) + Real.pi by ring, Real.sin_add_pi, Real.sin_add_pi, Real.cos_add_pi] at h2
    rw [show -s + -a = -(s + a) by ring] at h1
    simp only [Real.sin_neg, Real.cos_neg] at h1 h2
    refine abs_le.mpr ⟨?_, ?_⟩ <;> nlinarith

theorem half_sin_le {e : ℝ} (h0 : 0 ≤ e) (h7 : e ≤ 7 / 10) : 2 * Real.sin (e / 2) ≤ 688 / 1000 := by
  have hpi := Real.pi_gt_three
  have h1 : Real.sin (e / 2) ≤ Real.sin (35 / 100) := Real.sin_le_sin_of_le_of_le_pi_div_two (by linarith) (by linarith) (by linarith)
  have h2 := (abs_le.mp (Real.sin_bound (x := 35 / 100) (by rw [abs_of_pos] <;> norm_num))).2
  rw [abs_of_pos (by norm_num)] at h2
  norm_num at h2 ⊢
  linarith

theorem smith_den {e : ℝ} (h0 : 0 ≤ e) (h7 : e ≤ 7 / 10) (x : ℝ) : 312 / 1000 ≤ 1 - (Real.sin (x + e) - Real.sin x) := by
  have h1 := half_sin_le h0 h7
  have h2 : 0 ≤ Real.sin (e / 2) := Real.sin_nonneg_of_nonneg_of_le_pi (by linarith) (by linarith [Real.pi_gt_three])
  have h3 : Real.sin (x + e) - Real.sin x = 2 * Real.sin (e / 2) * Real.cos (x + e / 2) := by
    rw [Real.sin_sub_sin]
    congr 2 <;> [skip; skip] <;> ring_nf
  have := mul_le_mul_of_nonneg_left (Real.cos_le_one (x + e / 2)) (show 0 ≤ 2 * Real.sin (e / 2) by linarith)
  rw [h3]
  linarith

/-! ## First half of a turn -/

theorem tame_smith {e m s : ℝ} (h0 : 0 ≤ e) (h7 : e ≤ 7 / 10) (hm0 : 0 ≤ m) (hm : m ≤ Real.pi) (hs : s - e * Real.sin s = m) :
    Tame e s (smith e m) := by
  have hpi := Real.pi_gt_d2
  have hpi' := Real.pi_lt_d2
  have h1 : e < 1 := by linarith
  have hs0 : 0 ≤ s := mean_mono h0 h1 (by simp; linarith)
  have hsp : s ≤ Real.pi := mean_mono h0 h1 (by rw [hs, Real.sin_pi]; linarith)
  have hD := smith_den h0 h7 m
  set D := 1 - (Real.sin (m + e) - Real.sin m) with hDd
  have hx : smith e m = m + e * Real.sin m / D := by rw [smith, hDd]; congr 2; ring
  have hD0 : 0 < D := by linarith
  set σ := Real.sin s with hσ
  have hσ0 : 0 ≤ σ := Real.sin_nonneg_of_nonneg_of_le_pi hs0 hsp
  have hσ1 : σ ≤ 1 := Real.sin_le_one s
  have hσs : σ ≤ s := Real.sin_le hs0
  have q1 := sin_quad s (e * (1 - σ))
  have q2 := sin_quad s (-(e * σ))
  rw [show s + e * (1 - σ) = m + e by rw [← hs]; ring, abs_le] at q1
  rw [show s + -(e * σ) = m by rw [← hs]; ring, abs_le] at q2
  have hgap : (s - smith e m) * D = e * (σ * D - Real.sin m) := by
    rw [hx]; field_simp; rw [← hs]; ring
  have hbr : σ * D - Real.sin m = σ * (1 - Real.sin (m + e)) - (1 - σ) * Real.sin m := by rw [hDd]; ring
  have e3 : 0 ≤ e ^ 3 := pow_nonneg h0 3
  have e3' : e ^ 3 ≤ 343 / 1000 := by
    have := pow_le_pow_left₀ h0 h7 3
    norm_num at this ⊢; exact this
  have hτ : 0 ≤ 1 - σ := by linarith
  have hb : |(s - smith e m) * D| ≤ e ^ 3 / 2 * (σ * (1 - σ)) := by
    rw [hgap, hbr, abs_le]
    have a1 := mul_le_mul_of_nonneg_left q1.1 (mul_nonneg h0 hσ0)
    have a2 := mul_le_mul_of_nonneg_left q1.2 (mul_nonneg h0 hσ0)
    have a3 := mul_le_mul_of_nonneg_left q2.1 (mul_nonneg h0 hτ)
    have a4 := mul_le_mul_of_nonneg_left q2.2 (mul_nonneg h0 hτ)
    constructor <;> nlinarith
  have hσσ : 0 ≤ σ * (1 - σ) := mul_nonneg hσ0 hτ
  have hgen : |s - smith e m| ≤ 55 / 100 * (σ * (1 - σ)) := by
    rw [abs_mul, abs_of_pos hD0] at hb
    have b1 := mul_le_mul_of_nonneg_left hD (abs_nonneg (s - smith e m))
    have b2 := mul_le_mul_of_nonneg_right e3' hσσ
    linarith
  have hend : |s - smith e m| ≤ (Real.pi - s) / 3 := by
    rcases le_total s (27 / 10) with h | h
    · have : σ * (1 - σ) ≤ 1 / 4 := by nlinarith [sq_nonneg (σ - 1 / 2)]
      linarith
    · have hm2 : 2 ≤ m := by
        have := mul_le_mul h7 hσ1 hσ0 (by norm_num)
        linarith
      have hD1 : 1 ≤ D := by
        have h2 : 0 ≤ Real.sin (e / 2) := Real.sin_nonneg_of_nonneg_of_le_pi (by linarith) (by linarith)
        have h3 : Real.sin (m + e) - Real.sin m = 2 * Real.sin (e / 2) * Real.cos (m + e / 2) := by
          rw [Real.sin_sub_sin]
          congr 2 <;> [skip; skip] <;> ring_nf
        have h4 : Real.cos (m + e / 2) ≤ 0 := Real.cos_nonpos_of_pi_div_two_le_of_le (by linarith) (by linarith)
        rw [hDd, h3]
        nlinarith
      rw [abs_mul, abs_of_pos hD0] at hb
      have b1 := mul_le_mul_of_nonneg_left hD1 (abs_nonneg (s - smith e m))
      have b2 : σ * (1 - σ) ≤ Real.pi - s := by
        have b4 : σ ≤ Real.pi - s := by
          have := Real.sin_le (show 0 ≤ Real.pi - s by linarith)
          rwa [Real.sin_pi_sub] at this
        exact (mul_le_of_le_one_right hσ0 (by linarith)).trans b4
      have b3 := mul_le_mul e3' b2 hσσ (by norm_num)
      clear q1 q2 hgap hbr hDd hx hgen
      linarith
  have hsm : σ * (1 - σ) ≤ s := (mul_le_of_le_one_right hσ0 (by linarith)).trans hσs
  clear q1 q2 hgap hbr hDd hx hb hD
  obtain ⟨g1, g2⟩ := abs_le.mp hgen
  obtain ⟨g3, g4⟩ := abs_le.mp hend
  rcases le_total s (smith e m) with h | h
  · exact tame_above (by linarith) h (fun _ => by linarith)
  · exact tame_below h (by linarith) (by linarith)

/-! ## Second half of a turn -/

theorem back_le_pi_trig {m S C : ℝ} (h : S ^ 2 + C ^ 2 = 1) (hm : m ≤ 158 / 100 * S) :
    7 / 10 * S ≤ (314 / 100 - m) * (1 - 7 / 10 * C - 245 / 1000 * S) := by
  have h1 : 0 ≤ 1 - 7 / 10 * C - 245 / 1000 * S := by nlinarith [sq_nonneg (C - 94 / 100), sq_nonneg (S - 33 / 100)]
  have h2 := mul_le_mul_of_nonneg_right (show 314 / 100 - 158 / 100 * S ≤ 314 / 100 - m by linarith) h1
  nlinarith [sq_nonneg (S - 848 / 1000), sq_nonneg (C - 63 / 100), sq_nonneg (S - 848 / 1000 + (C - 63 / 100))]

theorem back_le_pi {e m D : ℝ} (h0 : 0 ≤ e) (h7 : e ≤ 7 / 10) (hm0 : 0 ≤ m) (hm : m ≤ Real.pi) (hD : D = 1 + Real.sin (m - e) - Real.sin m) :
    e * Real.sin m ≤ (Real.pi - m) * D := by
  have hpi := Real.pi_gt_d2
  have hpi' := Real.pi_lt_d2
  have hS0 : 0 ≤ Real.sin m := Real.sin_nonneg_of_nonneg_of_le_pi hm0 hm
  have hS1 := Real.sin_le_one m
  have hq : Real.sin m ≤ Real.pi - m := by
    have := Real.sin_le (show 0 ≤ Real.pi - m by linarith)
    rwa [Real.sin_pi_sub] at this
  have he2 : e ^ 2 ≤ 49 / 100 := by
    have := pow_le_pow_left₀ h0 h7 2
    norm_num at this ⊢; exact this
  have hexp : D = 1 - Real.sin m * (1 - Real.cos e) - Real.cos m * Real.sin e := by rw [hD, Real.sin_sub]; ring
  have hcos : 1 - Real.cos e ≤ e ^ 2 / 2 := by linarith [Real.one_sub_sq_div_two_le_cos (x := e)]
  have hsin0 : 0 ≤ Real.sin e := Real.sin_nonneg_of_nonneg_of_le_pi h0 (by linarith)
  have hsin1 : Real.sin e ≤ e := Real.sin_le h0
  have hSc := mul_le_mul_of_nonneg_left hcos hS0
  rcases le_total m (Real.pi / 2) with h | h
  · have hC0 : 0 ≤ Real.cos m := Real.cos_nonneg_of_neg_pi_div_two_le_of_le (by linarith) h
    have hj : m ≤ 158 / 100 * Real.sin m := by
      have h2 := Real.mul_le_sin hm0 h
      have h3 : m = Real.pi / 2 * (2 / Real.pi * m) := by field_simp
      have h4 := mul_le_mul_of_nonneg_left h2 (show 0 ≤ Real.pi / 2 by linarith)
      have h5 := mul_le_mul_of_nonneg_right (show Real.pi / 2 ≤ 158 / 100 by linarith) hS0
      linarith
    have h2 := back_le_pi_trig (Real.sin_sq_add_cos_sq m) hj
    have h3 : 1 - e * Real.cos m - e ^ 2 / 2 * Real.sin m ≤ D := by
      have := mul_le_mul_of_nonneg_left hsin1 hC0
      rw [hexp]; linarith
    have h4 : 10 / 7 * e * (1 - 7 / 10 * Real.cos m - 245 / 1000 * Real.sin m) ≤ D := by
      have h5 := mul_le_mul_of_nonneg_right (mul_le_mul_of_nonneg_left h7 h0) hS0
      linarith
    have h6 : (0 : ℝ) ≤ 1 - 7 / 10 * Real.cos m - 245 / 1000 * Real.sin m := by
      nlinarith [sq_nonneg (Real.cos m - 94 / 100), sq_nonneg (Real.sin m - 33 / 100), Real.sin_sq_add_cos_sq m]
    have h7' := mul_le_mul_of_nonneg_left h2 (show 0 ≤ 10 / 7 * e by linarith)
    have h8 := mul_le_mul_of_nonneg_left h4 (show 0 ≤ Real.pi - m by linarith)
    have h9 := mul_le_mul_of_nonneg_right (show 314 / 100 - m ≤ Real.pi - m by linarith) (mul_nonneg (show 0 ≤ 10 / 7 * e by linarith) h6)
    linarith
  · have hC0 : Real.cos m ≤ 0 := Real.cos_nonpos_of_pi_div_two_le_of_le h (by linarith)
    rcases le_total (Real.pi - m) (117 / 100) with h2 | h2
    · have h3 : 1 ≤ D := by
        have h4 : 0 ≤ Real.sin (e / 2) := Real.sin_nonneg_of_nonneg_of_le_pi (by linarith) (by linarith)
        have h5 : Real.sin m - Real.sin (m - e) = 2 * Real.sin (e / 2) * Real.cos (m - e / 2) := by
          rw [Real.sin_sub_sin]
          congr 2 <;> [skip; skip] <;> ring_nf
        have h6 : Real.cos (m - e / 2) ≤ 0 := Real.cos_nonpos_of_pi_div_two_le_of_le (by linarith) (by linarith)
        have := mul_nonpos_of_nonneg_of_nonpos (show 0 ≤ 2 * Real.sin (e / 2) by linarith) h6
        rw [hD]; linarith
      have h4 := mul_le_mul_of_nonneg_left h3 (show 0 ≤ Real.pi - m by linarith)
      have h5 := mul_le_mul_of_nonneg_right (show e ≤ 1 by linarith) hS0
      linarith
    · have h3 : 755 / 1000 ≤ D := by
        have h4 := mul_nonpos_of_nonpos_of_nonneg hC0 hsin0
        have h5 := mul_le_mul hS1 (show e ^ 2 / 2 ≤ 245 / 1000 by linarith) (by positivity) (by norm_num)
        rw [hexp]; linarith
      have h4 := mul_le_mul h2 h3 (by norm_num) (by linarith)
      have h5 := mul_le_mul h7 hS1 hS0 (by norm_num)
      linarith

theorem tame_smithBack {e m s : ℝ} (h0 : 0 ≤ e) (h7 : e ≤ 7 / 10) (hm0 : 0 ≤ m) (hm : m ≤ Real.pi) (hs : s - e * Real.sin s = m) :
    Tame e s (smithBack e m) := by
  have hpi := Real.pi_gt_d2
  have hpi' := Real.pi_lt_d2
  have h1 : e < 1 := by linarith
  have hs0 : 0 ≤ s := mean_mono h0 h1 (by simp; linarith)
  have hsp : s ≤ Real.pi := mean_mono h0 h1 (by rw [hs, Real.sin_pi]; linarith)
  have hS0 : 0 ≤ Real.sin m := Real.sin_nonneg_of_nonneg_of_le_pi hm0 hm
  have hSm : Real.sin m ≤ m := Real.sin_le hm0
  obtain ⟨D, hDd⟩ : ∃ D, D = 1 + Real.sin (m - e) - Real.sin m := ⟨_, rfl⟩
  have hD : 312 / 1000 ≤ D := by
    have := smith_den h0 h7 (m - e)
    rw [sub_add_cancel] at this
    rw [hDd]; linarith
  have hD0 : 0 < D := by linarith
  have hx : smithBack e m = m + e * Real.sin m / D := by rw [smithBack, hDd]
  have hle : smithBack e m ≤ Real.pi := by
    have : e * Real.sin m / D ≤ Real.pi - m := (div_le_iff₀ hD0).mpr (back_le_pi h0 h7 hm0 hm hDd)
    rw [hx]; linarith
  have hσ0 : 0 ≤ Real.sin s := Real.sin_nonneg_of_nonneg_of_le_pi hs0 hsp
  have hσs : Real.sin s ≤ s := Real.sin_le hs0
  have hms : m ≤ s := by linarith [mul_nonneg h0 hσ0]
  have heS : 0 ≤ e * Real.sin m := mul_nonneg h0 hS0
  rcases le_total s (smithBack e m) with hsx | hxs
  · refine tame_above hle hsx fun h => ?_
    have h2 : Real.sin m ≤ Real.sin s := Real.sin_le_sin_of_le_of_le_pi_div_two (by linarith) (by linarith) hms
    have h3 := mul_le_mul_of_nonneg_left h2 h0
    have h4 : e * Real.sin m / D ≤ e * Real.sin m * (1000 / 312) := by
      rw [div_le_iff₀ hD0]
      have := mul_le_mul_of_nonneg_left hD heS
      linarith
    have h5 := mul_le_mul h7 hSm hS0 (by norm_num)
    rw [hx]; linarith
  · have hme : m < e ∨ smithBack e m = s := by
      by_contra hno
      obtain ⟨h2, h3⟩ := not_or.mp hno
      have h2 := not_lt.mp h2
      refine h3 (le_antisymm hxs ?_)
      -- concavity of the sine on [m - e, s]
      have hσ1 : 0 < 1 + Real.sin s := by linarith
      have h4 := strictConcaveOn_sin_Icc.concaveOn.2 (Set.mem_Icc.mpr ⟨hs0, hsp⟩) (Set.mem_Icc.mpr ⟨by linarith, (by linarith : m - e ≤ Real.pi)⟩)
        (show 0 ≤ 1 / (1 + Real.sin s) by positivity) (show 0 ≤ Real.sin s / (1 + Real.sin s) by positivity) (by field_simp)
      simp only [smul_eq_mul] at h4
      rw [show 1 / (1 + Real.sin s) * s + Real.sin s / (1 + Real.sin s) * (m - e) = m by field_simp; rw [← hs]; ring] at h4
      have h5 : Real.sin s + Real.sin s * Real.sin (m - e) ≤ (1 + Real.sin s) * Real.sin m := by
        have := mul_le_mul_of_nonneg_left h4 hσ1.le
        refine le_trans (le_of_eq ?_) this
        field_simp
      have h6 : Real.sin s ≤ Real.sin m / D := by
        rw [le_div_iff₀ hD0, hDd]; linarith
      have h7 := mul_le_mul_of_nonneg_left h6 h0
      rw [hx, mul_div_assoc]; linarith
    rcases hme with hme | hme
    · have hD1 : D ≤ 1 := by
        have : Real.sin (m - e) ≤ Real.sin m := Real.sin_le_sin_of_le_of_le_pi_div_two (by linarith) (by linarith) (by linarith)
        rw [hDd]; linarith
      have h2 : e * Real.sin m ≤ e * Real.sin m / D := by
        rw [le_div_iff₀ hD0]
        exact mul_le_of_le_one_right heS hD1
      have h3 : 918 / 1000 * m ≤ Real.sin m := by
        have h4 := Real.sin_ge_sub_cube hm0
        have h5 : m ^ 2 ≤ 49 / 100 := by
          have := pow_le_pow_left₀ hm0 (hme.le.trans h7) 2
          norm_num at this ⊢; exact this
        have h6 := mul_le_mul_of_nonneg_left h5 hm0
        linarith
      have h4 : s * (1 - e) ≤ m := by
        have := mul_le_mul_of_nonneg_left hσs h0
        linarith
      have h5 : m * (1 + 918 / 1000 * e) ≤ smithBack e m := by
        have := mul_le_mul_of_nonneg_left h3 h0
        rw [hx]; linarith
      refine tame_below hxs ?_ ?_
      · have h6 := mul_le_mul_of_nonneg_left h5 (sub_pos.mpr h1).le
        have h8 : 13 ≤ 30 * ((1 - e) * (1 + 918 / 1000 * e)) := by nlinarith
        have h9 := mul_le_mul_of_nonneg_left h8 hm0
        refine le_of_mul_le_mul_left ?_ (sub_pos.mpr h1)
        linarith
      · have h6 := mul_le_mul_of_nonneg_left (Real.sin_le_one s) h0
        have h8 : e * (4 - 2754 / 1000 * m) ≤ 7 / 10 * (4 - 2754 / 1000 * m) := mul_le_mul_of_nonneg_right h7 (by linarith)
        linarith
    · rw [hme]
      exact tame_above hsp le_rfl fun _ => by linarith

/-! ## Whole turns -/

theorem iterate_turn (e s : ℝ) (j : ℤ) (n : Nat) : ∀ x, (next e (s + j * (2 * Real.pi)))^[n] (x + j * (2 * Real.pi)) = (next e s)^[n] x + j * (2 * Real.pi) := by
  induction n with
  | zero => intro x; rfl
  | succ n ih =>
    intro x
    have h1 : next e (s + j * (2 * Real.pi)) (x + j * (2 * Real.pi)) = next e s x + j * (2 * Real.pi) := by
      unfold next fall slope
      rw [Real.sin_add_int_mul_two_pi, Real.sin_add_int_mul_two_pi, Real.cos_add_int_mul_two_pi, add_sub_add_right_eq_sub]
      ring
    rw [Function.iterate_succ_apply, Function.iterate_succ_apply, h1, ih]

theorem fall_turn (e s x : ℝ) (j : ℤ) : fall e (s + j * (2 * Real.pi)) (x + j * (2 * Real.pi)) = fall e s x := by
  unfold fall
  rw [Real.sin_add_int_mul_two_pi, Real.sin_add_int_mul_two_pi, add_sub_add_right_eq_sub]

theorem smith_turn (e M : ℝ) (j : ℤ) : smith e (M + j * (2 * Real.pi)) = smith e M + j * (2 * Real.pi) := by
  unfold smith
  rw [show M + j * (2 * Real.pi) + e = M + e + j * (2 * Real.pi) by ring, Real.sin_add_int_mul_two_pi, Real.sin_add_int_mul_two_pi]
  ring

theorem iterate_mirror (e s : ℝ) (n : Nat) (x : ℝ) : (next e (-s))^[n] (-x) = -(next e s)^[n] x := by
  have h1 := iterate_turn e (2 * Real.pi - s) (-1) n (2 * Real.pi - x)
  rw [iterate_reflect] at h1
  push_cast at h1
  rw [show 2 * Real.pi - s + -1 * (2 * Real.pi) = -s by ring, show 2 * Real.pi - x + -1 * (2 * Real.pi) = -x by ring] at h1
  rw [h1]; ring

theorem smith_mirror (e m : ℝ) : smith e (-m) = -smithBack e m := by
  unfold smith smithBack
  rw [show -m + e = -(m - e) by ring, Real.sin_neg, Real.sin_neg]
  rw [show 1 - -Real.sin (m - e) + -Real.sin m = 1 + Real.sin (m - e) - Real.sin m by ring]
  ring

/-- Smith's value is a starting value from which the iteration converges, whatever the mean anomaly. -/
theorem smith_reaches {e M s : ℝ} (h0 : 0 ≤ e) (h7 : e ≤ 7 / 10) (hs : s - e * Real.sin s = M) {tol : ℝ} {K : Nat}
    (hK : 7 * (5 / 6) ^ K < tol) : |fall e s ((next e s)^[K] (smith e M))| < tol := by
  have hpi := Real.pi_pos
  have h1 : e < 1 := by linarith
  obtain ⟨j, hj⟩ : ∃ j : ℤ, |M - j * (2 * Real.pi)| ≤ Real.pi := by
    refine ⟨round (M / (2 * Real.pi)), ?_⟩
    have h2 := abs_sub_round (M / (2 * Real.pi))
    have h3 : M - round (M / (2 * Real.pi)) * (2 * Real.pi) = (M / (2 * Real.pi) - round (M / (2 * Real.pi))) * (2 * Real.pi) := by
      field_simp
    rw [h3, abs_mul, abs_of_pos (show 0 < 2 * Real.pi by linarith)]
    have := mul_le_mul_of_nonneg_right h2 (show 0 ≤ 2 * Real.pi by linarith)
    linarith
  obtain ⟨m, hm⟩ : ∃ m, m = M - j * (2 * Real.pi) := ⟨_, rfl⟩
  obtain ⟨r, hr⟩ : ∃ r, r = s - j * (2 * Real.pi) := ⟨_, rfl⟩
  rw [← hm] at hj
  have hM : M = m + j * (2 * Real.pi) := by rw [hm]; ring
  have hsr : s = r + j * (2 * Real.pi) := by rw [hr]; ring
  have hrm : r - e * Real.sin r = m := by
    rw [hsr, Real.sin_add_int_mul_two_pi] at hs
    rw [hm, ← hs]; ring
  rw [hM, smith_turn, hsr, iterate_turn, fall_turn]
  obtain ⟨h2, h3⟩ := abs_le.mp hj
  rcases le_total 0 m with h4 | h4
  · exact tame_reaches h0 h1 (mean_mono h0 h1 (by simp; linarith)) (tame_smith h0 h7 h4 h3 hrm) hK
  · have h5 : -r - e * Real.sin (-r) = -m := by rw [Real.sin_neg, ← hrm]; ring
    have h6 := tame_reaches h0 h1 (mean_mono h0 h1 (by simp at h5 ⊢; linarith)) (tame_smithBack h0 h7 (neg_nonneg.mpr h4) (by linarith) h5) hK
    have h7 : smith e m = -smithBack e (-m) := by rw [← smith_mirror, neg_neg]
    have h8 := iterate_mirror e (-r) K (smithBack e (-m))
    rw [neg_neg] at h8
    rw [h7, h8]
    have h9 : fall e r (-(next e (-r))^[K] (smithBack e (-m))) = -fall e (-r) ((next e (-r))^[K] (smithBack e (-m))) := by
      unfold fall; rw [Real.sin_neg, Real.sin_neg]; ring
    rw [h9, abs_neg]
    exact h6

theorem reaches_every {e M s : ℝ} (h0 : 0 ≤ e) (h7 : e ≤ 7 / 10) (hs : s - e * Real.sin s = M) {tol : ℝ} {K : Nat}
    (hK : 7 * (5 / 6) ^ K < tol) : ∃ n ≤ 2 * K, |fall e s ((next e s)^[n] (guess e M))| < tol := by
  have h1 : e < 1 := by linarith
  have hpi := Real.pi_pos
  rcases le_total 0 M with hM0 | hM0
  · rcases le_total M (2 * Real.pi) with hM | hM
    · exact reaches_all h0 h1 hM0 hM hs hK
    · refine ⟨K, by omega, ?_⟩
      have h2 : guess e M = 2 * Real.pi - smith e (2 * Real.pi - M) := by
        rw [guess, if_pos (by linarith), guessLow, if_pos (by linarith), smith]
      have h3 := iterate_reflect e (2 * Real.pi - s) K (smith e (2 * Real.pi - M))
      have h4 := fall_reflect e (2 * Real.pi - s) ((next e (2 * Real.pi - s))^[K] (smith e (2 * Real.pi - M)))
      rw [sub_sub_cancel] at h3 h4
      rw [h2, h3, h4, abs_neg]
      exact smith_reaches h0 h7 (root_reflect hs) hK
  · refine ⟨K, by omega, ?_⟩
    have h2 : guess e M = smith e M := by rw [guess, if_neg (by linarith), guessLow, if_pos (by linarith), smith]
    rw [h2]
    exact smith_reaches h0 h7 hs hK

end Pyorb.Lag

namespace Pyorb
open FX Lag

/-- C84: on an ellipse with e ≤ 0.7 the solver returns, for EVERY real mean anomaly, a value whose Kepler residual is below the tolerance, within `2 K` steps,
where `7 (5/6)^K` is below the tolerance. -/
theorem c84_solver (tol : ℝ) (mi : Int) (M e : ℝ) (h0 : 0 ≤ e) (h7 : e ≤ 7 / 10) (K : Nat) (hK : 7 * (5 / 6) ^ K < tol) (hmi : 2 * K < mi) :
    ∃ (E : ℝ) (n : Nat), laguerre_solve_kepler (keplerGuess (fin M) (fin e)) (fin M) (fin e) (opts tol mi 5) = (fin E, (n : Int)) ∧ n ≤ 2 * K ∧
      |meanOf e E - M| < tol := by
  have h1 : e < 1 := by linarith
  obtain ⟨s, hs⟩ := root_exists h0 h1 M
  obtain ⟨j, hj, h2⟩ := reaches_every h0 h7 hs hK
  obtain ⟨n, h3, h4, h5, h6⟩ := c11_terminates (keplerGuess (fin M) (fin e)) (fin M) (fin e) (opts tol mi 5)
  have hstop : ∀ k, lagGoesOn (opts tol mi 5) (fin M) (fin e) ((lagNext (opts tol mi 5) (fin M) (fin e))^[k] (keplerGuess (fin M) (fin e))) ↔
      tol ≤ |fall e s ((next e s)^[k] (guess e M))| := by
    intro k
    rw [keplerGuess_real h0 h1, lagIterate_real h0 h1 hs, lagGoesOn, lagF_fin h1.ne, abs_fin, abs_sub_comm, residual_fall h1 hs]
    simp only [opts, le_fin, decide_eq_true_eq]
  have hnj : n ≤ j := by
    by_contra hlt
    have := (hstop j).mp (h5 j (not_le.mp hlt))
    linarith
  refine ⟨(next e s)^[n] (guess e M), n, ?_, hnj.trans hj, ?_⟩
  · rw [h3, keplerGuess_real h0 h1, lagIterate_real h0 h1 hs]
  · have h7 : (n : Int) < max 1 (opts tol mi 5).max_iter := by
      refine lt_max_of_lt_right ?_
      show (n : Int) < mi
      have : (n : Int) ≤ 2 * K := by exact_mod_cast hnj.trans hj
      linarith
    have := (not_congr (hstop n)).mp (h6 h7)
    rw [residual_fall h1 hs]
    exact not_le.mp this

/-- C84: hence the iteration limit is never reached. -/
theorem c84_limit (tol : ℝ) (mi : Int) (M e : ℝ) (h0 : 0 ≤ e) (h7 : e ≤ 7 / 10) (K : Nat) (hK : 7 * (5 / 6) ^ K < tol) (hmi : 2 * K < mi) :
    ¬ HitLimit (opts tol mi 5) (fin M) (fin e) := by
  obtain ⟨E, n, h2, h3, -⟩ := c84_solver tol mi M e h0 h7 K hK hmi
  rw [HitLimit, h2]
  refine not_le.mpr (lt_max_of_lt_right ?_)
  show (n : Int) < mi
  have : (n : Int) ≤ 2 * K := by exact_mod_cast h3
  linarith

/-- C84, default options: `mean_to_eccentric` inverts `eccentric_to_mean` within 1e-12. -/
theorem c84_default (g : Nat → FX) (M e : ℝ) (h0 : 0 ≤ e) (h7 : e ≤ 7 / 10) :
    ∃ E M', mean_to_eccentric SolverOpts.dflt (fl M) (fl e) false = .ok (fl E) ∧ eccentric_to_mean g (fl E) (fl e) false = .ok (fl M') ∧
      |M' - M| < 1 / 1000000000000 := by
  rw [dflt_fin]
  obtain ⟨E, M', h2, h3, -, h5⟩ := c09_residual g (1 / 1000000000000) 5000 5 M e h0 (by norm_num) (.inl (by linarith))
  exact ⟨E, M', h2, h3, h5 (c84_limit _ _ M e h0 h7 163 dflt_steps (by norm_num))⟩

/-- C84: the distance to the exact eccentric anomaly. -/
theorem c84_error (g : Nat → FX) (M e Es : ℝ) (h0 : 0 ≤ e) (h7 : e ≤ 7 / 10) (hs : eccentric_to_mean g (fl Es) (fl e) false = .ok (fl M)) :
    ∃ E, mean_to_eccentric SolverOpts.dflt (fl M) (fl e) false = .ok (fl E) ∧ |E - Es| ≤ 1 / 1000000000000 / (1 - e) := by
  have h1 : e < 1 := by linarith
  rw [dflt_fin]
  have h2 := c10_error g (1 / 1000000000000) 5000 5 M e Es h0 h1.ne (by norm_num) (.inl h1)
    (c84_limit _ _ M e h0 h7 163 dflt_steps (by norm_num)) hs
  rwa [abs_of_pos (sub_pos.mpr h1)] at h2

/-- C84: adding whole turns to the mean anomaly adds as many turns to the eccentric anomaly. -/
theorem c84_turns (M e : ℝ) (h0 : 0 ≤ e) (h7 : e ≤ 7 / 10) (j : ℤ) :
    ∃ E E', mean_to_eccentric SolverOpts.dflt (fl M) (fl e) false = .ok (fl E) ∧
      mean_to_eccentric SolverOpts.dflt (fl (M + j * (2 * Real.pi))) (fl e) false = .ok (fl E') ∧
      |E' - (E + j * (2 * Real.pi))| ≤ 2 / 1000000000000 / (1 - e) := by
  have h1 : e < 1 := by linarith
  obtain ⟨s, hs⟩ := root_exists h0 h1 M
  have e1 : meanOf e s = M := by rw [← hs]; simp only [meanOf, if_neg (not_lt.mpr h1.le), if_neg h1.ne]
  have e2 : meanOf e (s + j * (2 * Real.pi)) = M + j * (2 * Real.pi) := by
    rw [← hs]
    simp only [meanOf, if_neg (not_lt.mpr h1.le), if_neg h1.ne, Real.sin_add_int_mul_two_pi]
    ring
  have a1 := eccentric_to_mean_meanOf (fun _ => nan) s e
  have a2 := eccentric_to_mean_meanOf (fun _ => nan) (s + j * (2 * Real.pi)) e
  rw [e1] at a1
  rw [e2] at a2
  obtain ⟨E, h2, h3⟩ := c84_error _ M e s h0 h7 a1
  obtain ⟨E', h4, h5⟩ := c84_error _ _ e _ h0 h7 a2
  refine ⟨E, E', h2, h4, ?_⟩
  rw [abs_le] at *
  have h6 : (2 : ℝ) / 1000000000000 / (1 - e) = 2 * (1 / 1000000000000 / (1 - e)) := by ring
  rw [h6]
  constructor <;> linarith [h3.1, h3.2, h5.1, h5.2]

/-- a case: e = 0.6, M = -20, more than three turns below 0 -/
example : ∃ (E : ℝ) (n : Nat), laguerre_solve_kepler (keplerGuess (fin (-20)) (fin (6 / 10))) (fin (-20)) (fin (6 / 10)) (opts (1 / 1000000000000) 5000 5)
    = (fin E, (n : Int)) ∧ n ≤ 2 * 163 ∧ |meanOf (6 / 10) E - -20| < 1 / 1000000000000 :=
  c84_solver _ _ (-20) (6 / 10) (by norm_num) (by norm_num) 163 dflt_steps (by norm_num)

end Pyorb
