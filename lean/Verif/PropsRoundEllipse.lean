import Verif.PropsRoundSolveEll

/-!
# The Kepler solver with rounding converges on all ellipses (C107)
-/

namespace Pyorb
open FX RF Lag
variable {R : Rounding}

namespace RSolveE
open RSolveH (exps rd_eq rd_small)

/-! ## The starting value as it is computed -/

theorem den_ge {e m : ℝ} (h0 : 0 ≤ e) (h1 : e < 1) (hm0 : -(1 / 1000) ≤ m) (hm1 : m ≤ 1 / 4) :
    13 / 100 ≤ 1 - Real.sin (m + e) + Real.sin m := by
  have hpi := Real.pi_gt_three
  have hs1 : Real.sin e ≤ 867 / 1000 := by
    have a1 : Real.sin e ≤ Real.sin 1 := Real.sin_le_sin_of_le_of_le_pi_div_two (by linarith) (by linarith) h1.le
    have a2 : (1 / 2 : ℝ) ≤ Real.cos 1 := by
      have := Real.one_sub_sq_div_two_le_cos (x := 1)
      norm_num at this ⊢
      linarith
    have a3 := Real.sin_sq_add_cos_sq 1
    have a4 : Real.sin 1 ≤ 867 / 1000 := by
      by_contra hn
      have := not_le.mp hn
      nlinarith
    linarith
  have hse : 0 ≤ Real.sin e := Real.sin_nonneg_of_nonneg_of_le_pi h0 (by linarith)
  have hce : Real.cos e ≤ 1 := Real.cos_le_one e
  have hce0 : 0 ≤ Real.cos e := Real.cos_nonneg_of_neg_pi_div_two_le_of_le (by linarith) (by linarith)
  have hcm := mul_le_mul_of_nonneg_right (Real.cos_le_one m) hse
  rw [Real.sin_add]
  rcases le_or_gt 0 m with h | h
  · have hsm : 0 ≤ Real.sin m := Real.sin_nonneg_of_nonneg_of_le_pi h (by linarith)
    have := mul_le_mul_of_nonneg_left hce hsm
    linarith
  · have hsm := (abs_le.mp (Real.abs_sin_le_abs (x := m)))
    rw [abs_of_neg h] at hsm
    have h2 : Real.sin m ≤ 0 := Real.sin_nonpos_of_nonpos_of_neg_pi_le h.le (by linarith)
    have := mul_nonneg (show 0 ≤ -Real.sin m by linarith) hce0
    linarith [hsm.1]

theorem den_err {e m : ℝ} (hu : R.u ≤ 1 / 10 ^ 9) (h0 : 0 ≤ e) (h1 : e < 1) (hm0 : -(1 / 1000) ≤ m) (hm1 : m ≤ 1 / 4) :
    ∃ D, (1 - Np.sin (num R m + num R e) + Np.sin (num R m) : RF R) = num R D ∧ |D - (1 - Real.sin (m + e) + Real.sin m)| ≤ 8 * R.u := by
  have hu0 := R.u_nonneg
  have hu6 : R.u ≤ 1 / 10 ^ 6 := by linarith
  obtain ⟨t2, q2, hs2⟩ := Rel.sin (R := R) m
  obtain ⟨t1, q1, hs1⟩ := Rel.sin (R := R) (R.rd (m + e))
  have hy := rd_err (R := R) (x := m + e) (B := 126 / 100) hu6 (by rw [abs_le]; constructor <;> linarith)
  have hsin := (Real.abs_sin_sub_sin_le (R.rd (m + e)) (m + e)).trans hy
  have b1 := Real.abs_sin_le_one (R.rd (m + e))
  have b2 := Real.abs_sin_le_one m
  have p1 : |Real.sin (R.rd (m + e)) * Real.exp t1 - Real.sin (R.rd (m + e))| ≤ 101 / 100 * R.u := by
    have a1 := exps (t := t1) (k := R.u) (by linarith) (by linarith)
    rw [show ∀ x y : ℝ, x * y - x = (y - 1) * x by intro x y; ring, abs_mul]
    have := mul_le_mul a1 b1 (abs_nonneg _) (by linarith)
    linarith
  have p2 : |Real.sin m * Real.exp t2 - Real.sin m| ≤ 101 / 100 * R.u := by
    have a1 := exps (t := t2) (k := R.u) (by linarith) (by linarith)
    rw [show ∀ x y : ℝ, x * y - x = (y - 1) * x by intro x y; ring, abs_mul]
    have := mul_le_mul a1 b2 (abs_nonneg _) (by linarith)
    linarith
  rw [add_num, hs1, hs2, one_num, sub_num, add_num]
  refine ⟨_, rfl, ?_⟩
  have b3 : |Real.sin m| ≤ 1 / 4 := by
    refine (Real.abs_sin_le_abs (x := m)).trans ?_
    rw [abs_le]; constructor <;> linarith
  have b4 : -(2 / 1000) ≤ Real.sin (m + e) := by
    have hpi := Real.pi_gt_three
    rcases le_or_gt 0 (m + e) with h | h
    · have := Real.sin_nonneg_of_nonneg_of_le_pi h (by linarith)
      linarith
    · have := (abs_le.mp (Real.abs_sin_le_abs (x := m + e))).1
      rw [abs_of_neg h] at this
      linarith
  generalize Real.sin (R.rd (m + e)) * Real.exp t1 = s1 at *
  generalize Real.sin m * Real.exp t2 = s2 at *
  rw [abs_le] at p1 p2 hsin b1 b2 b3
  have q1 := rd_err (R := R) (x := 1 - s1) (B := 11 / 10) hu6 (by rw [abs_le]; constructor <;> linarith [p1.1, p1.2, hsin.1, hsin.2])
  rw [abs_le] at q1
  have q2 := rd_err (R := R) (x := R.rd (1 - s1) + s2) (B := 14 / 10) hu6 (by
    rw [abs_le]; constructor <;> linarith [p1.1, p1.2, p2.1, p2.2, q1.1, q1.2, hsin.1, hsin.2])
  rw [abs_le] at q2 ⊢
  constructor <;> linarith [p1.1, p1.2, p2.1, p2.2, q1.1, q1.2, q2.1, q2.2, hsin.1, hsin.2]

/-- a quotient of at most 1 with a disturbed denominator and rounding -/
theorem quot_ell {N D D' t v : ℝ} {u : ℝ} (hu : u ≤ 1 / 10 ^ 9) (hu0 : 0 ≤ u) (hD : 13 / 100 ≤ D) (hD' : |D' - D| ≤ 8 * u) (ht : |Real.exp t - 1| ≤ 4 * u)
    (hv : v = N / D) (hv1 : |v| ≤ 1) : |N * Real.exp t / D' - v| ≤ 70 * u := by
  have h1 : 129 / 1000 ≤ D' ∧ D ≤ D' * (11 / 10) := by rw [abs_le] at hD'; constructor <;> linarith [hD'.1]
  have h2 : N * Real.exp t / D' - v = v * (D * (Real.exp t - 1) - (D' - D)) / D' := by
    have : 0 < D' := by linarith [h1.1]
    rw [hv]; field_simp; ring
  rw [h2, abs_div, abs_mul, abs_of_pos (by linarith : 0 < D'), div_le_iff₀ (by linarith)]
  have h3 : |D * (Real.exp t - 1) - (D' - D)| ≤ D * (4 * u) + 8 * u := by
    refine (abs_sub _ _).trans ?_
    rw [abs_mul, abs_of_pos (by linarith : 0 < D)]
    have := mul_le_mul_of_nonneg_left ht (show 0 ≤ D by linarith)
    linarith
  have h5 := mul_le_mul hv1 h3 (abs_nonneg _) (by norm_num)
  have h6 := mul_le_mul_of_nonneg_right h1.2 hu0
  have h7 := mul_le_mul_of_nonneg_right h1.1 hu0
  linarith

/-- the starting value for an anomaly in the first half of a turn -/
theorem half_ell {e m : ℝ} (hu : R.u ≤ 1 / 10 ^ 9) (h0 : 0 ≤ e) (h1 : e < 1) (hm0 : -(1 / 1000) ≤ m) (hm1 : m ≤ 3142 / 1000) :
    ∃ g, (if num R m <ᵇ Np.lit (1 / 4) then
        num R m + num R e * Np.sin (num R m) / (1 - Np.sin (num R m + num R e) + Np.sin (num R m))
      else if num R m <ᵇ 2 then num R m + num R e
      else num R m + (num R e * (Np.pi - num R m)) / (1 + num R e) : RF R) = num R g ∧ |g - guessLow e m| ≤ 85 * R.u ∧ -(1 / 10) ≤ g ∧ g ≤ 315 / 100 := by
  have hu0 := R.u_nonneg
  have hu6 : R.u ≤ 1 / 10 ^ 6 := by linarith
  have hp := Real.pi_gt_d4
  have hp' := Real.pi_lt_d4
  -- adding the correction `w` to `m`
  have fin : ∀ v w, |v| ≤ 2 → |w - v| ≤ 77 * R.u → -(1 / 20) ≤ m + v → m + v ≤ 3145 / 1000 →
      |R.rd (m + w) - (m + v)| ≤ 85 * R.u ∧ -(1 / 10) ≤ R.rd (m + w) ∧ R.rd (m + w) ≤ 315 / 100 := by
    intro v w hv hw g1 g2
    have hw := abs_le.mp hw
    have e1 := abs_le.mp (rd_err (R := R) (x := m + w) (B := 4) hu6 (by rw [abs_le]; constructor <;> linarith [hw.1, hw.2]))
    refine ⟨?_, by linarith [hw.1, e1.1], by linarith [hw.2, e1.2]⟩
    rw [abs_le]
    constructor <;> linarith [hw.1, hw.2, e1.1, e1.2]
  rw [quarter_num, two_num, lt_num, lt_num]
  by_cases hq : m < 1 / 4
  · obtain ⟨D, hD, hDe⟩ := den_err (R := R) hu h0 h1 hm0 hq.le
    have hD0 := den_ge h0 h1 hm0 hq.le
    have hDp : 0 < D := by rw [abs_le] at hDe; linarith [hDe.1]
    simp only [hq, decide_true, if_true, guessLow]
    obtain ⟨t, t1, t2⟩ := (Rel.num (R := R) e).mul (Rel.sin m)
    rw [hD, t2, div_num _ hDp.ne', add_num]
    refine ⟨_, rfl, ?_⟩
    obtain ⟨v, hv⟩ : ∃ v, v = e * Real.sin m / (1 - Real.sin (m + e) + Real.sin m) := ⟨_, rfl⟩
    rw [← hv]
    have hD00 : 0 < 1 - Real.sin (m + e) + Real.sin m := by linarith
    have hv1 : -(1 / 100) ≤ v ∧ v ≤ 1 := by
      rcases le_or_gt 0 m with h | h
      · have hs0 : 0 ≤ Real.sin m := Real.sin_nonneg_of_nonneg_of_le_pi h (by linarith)
        have : 0 ≤ v := by rw [hv]; positivity
        refine ⟨by linarith, ?_⟩
        rw [hv, div_le_iff₀ hD00]
        have h1' := Real.sin_le_one (m + e)
        have h2 : e * Real.sin m ≤ 1 * Real.sin m := mul_le_mul_of_nonneg_right h1.le hs0
        linarith
      · have : |v| ≤ 1 / 100 := by
          rw [hv, abs_div, abs_of_pos hD00, div_le_iff₀ hD00, abs_mul, abs_of_nonneg h0]
          have h1' := Real.abs_sin_le_abs (x := m)
          rw [abs_of_neg h] at h1'
          have h2 : e * |Real.sin m| ≤ 1 * (1 / 1000) := mul_le_mul h1.le (by linarith) (abs_nonneg _) (by norm_num)
          linarith
        have := abs_le.mp this
        constructor <;> linarith [this.1, this.2]
    have hv3 : |v| ≤ 1 := by rw [abs_le]; constructor <;> linarith [hv1.1, hv1.2]
    have hw := quot_ell (N := e * Real.sin m) (D' := D) (t := t + R.th (e * Real.sin m * Real.exp t / D)) hu hu0 (by linarith) hDe
      ((exps (k := 3 * R.u) (by
        refine (abs_add_le _ _).trans ?_
        have := R.th_le (e * Real.sin m * Real.exp t / D)
        linarith) (by linarith)).trans (by linarith)) hv hv3
    have hrw : R.rd (e * Real.sin m * Real.exp t / D) = e * Real.sin m * Real.exp (t + R.th (e * Real.sin m * Real.exp t / D)) / D := by
      rw [Rounding.rd, Real.exp_add]; ring
    rw [← hrw] at hw
    exact fin _ _ (by linarith) (by linarith) (by linarith [hv1.1]) (by linarith [hv1.2])
  · have hq := not_lt.mp hq
    by_cases h2 : m < 2
    · simp only [not_lt.mpr hq, h2, decide_true, decide_false, Bool.false_eq_true, if_true, if_false, add_num, guessLow]
      exact ⟨_, rfl, fin e e (by rw [abs_of_nonneg h0]; linarith) (by rw [sub_self, abs_zero]; linarith) (by linarith) (by linarith)⟩
    · have h2 := not_lt.mp h2
      simp only [not_lt.mpr hq, not_lt.mpr h2, decide_false, Bool.false_eq_true, if_false, pi_num, one_num, sub_num, mul_num, add_num, guessLow]
      rw [div_num _ (rd_pos (by linarith)).ne', add_num]
      refine ⟨_, rfl, ?_⟩
      have a1 := rd_err (R := R) (x := Real.pi) (B := 4) hu6 (by rw [abs_le]; constructor <;> linarith)
      have a2 := rd_err (R := R) (x := R.rd Real.pi - m) (B := 2) hu6 (by
        rw [abs_le] at a1 ⊢; constructor <;> linarith [a1.1, a1.2])
      have a3 := rd_err (R := R) (x := 1 + e) (B := 2) hu6 (by rw [abs_le]; constructor <;> linarith)
      obtain ⟨b, hb⟩ : ∃ b, b = R.rd (R.rd Real.pi - m) := ⟨_, rfl⟩
      obtain ⟨D, hD⟩ : ∃ D, D = R.rd (1 + e) := ⟨_, rfl⟩
      rw [← hb] at a2 ⊢
      rw [← hD] at a3 ⊢
      have b1 : |b - (Real.pi - m)| ≤ 7 * R.u := by
        rw [abs_le] at a1 a2 ⊢; constructor <;> linarith [a1.1, a1.2, a2.1, a2.2]
      have b1' := abs_le.mp b1
      obtain ⟨t, ht⟩ : ∃ t, t = R.th (e * b) + R.th (R.rd (e * b) / D) := ⟨_, rfl⟩
      have ht1 : |t| ≤ 2 * R.u := by
        rw [ht]
        exact (abs_add_le _ _).trans (by linarith [R.th_le (e * b), R.th_le (R.rd (e * b) / D)])
      have hrw : R.rd (R.rd (e * b) / D) = e * b * Real.exp t / D := by
        rw [Rounding.rd, ht, Real.exp_add, show R.rd (e * b) = e * b * Real.exp (R.th (e * b)) from rfl]; ring
      obtain ⟨v, hv⟩ : ∃ v, v = e * (Real.pi - m) / (1 + e) := ⟨_, rfl⟩
      have hd1 : 0 < 1 + e := by linarith
      rw [← hv]
      have hmv : (Real.pi - (m + v)) * (1 + e) = Real.pi - m := by rw [hv]; field_simp; ring
      have hv1 : -(1 / 1000) ≤ v ∧ v ≤ 6 / 10 := by
        rw [hv, le_div_iff₀ hd1, div_le_iff₀ hd1]
        constructor <;> nlinarith
      -- the quotient with the computed numerator
      obtain ⟨v', hv'⟩ : ∃ v', v' = e * b / (1 + e) := ⟨_, rfl⟩
      have hvv : |v' - v| ≤ 7 * R.u := by
        rw [hv', hv, ← sub_div, ← mul_sub, abs_div, abs_mul, abs_of_pos hd1, abs_of_nonneg h0, div_le_iff₀ hd1]
        have := mul_le_mul_of_nonneg_left b1 h0
        have := mul_nonneg hu0 h0
        linarith
      have hvv' := abs_le.mp hvv
      have hw := quot_ell (N := e * b) (D := 1 + e) (D' := D) (t := t) hu hu0 (by linarith) (a3.trans (by linarith))
        ((exps ht1 (by linarith)).trans (by linarith)) hv' (by rw [abs_le]; constructor <;> linarith [hv1.1, hv1.2, hvv'.1, hvv'.2])
      rw [← hrw] at hw
      refine fin v _ (by rw [abs_le]; constructor <;> linarith [hv1.1, hv1.2]) ?_ (by linarith [hv1.1]) ?_
      · have := abs_add_le (R.rd (R.rd (e * b) / D) - v') (v' - v)
        rw [sub_add_sub_cancel] at this
        linarith
      · by_contra hn
        have hn := not_le.mp hn
        have := mul_le_mul_of_nonneg_left (show 1 ≤ 1 + e by linarith) (show 0 ≤ (m + v) - Real.pi by linarith)
        linarith

/-! ## The region, for both halves of the turn -/

/-- the region of `LagRound`, or its mirror image -/
def W (e s : ℝ) (K n : ℕ) (E : ℝ) : Prop :=
  (0 ≤ s ∧ At e s K n E) ∨ (0 ≤ 2 * Real.pi - s ∧ At e (2 * Real.pi - s) K n (2 * Real.pi - E))

theorem w_step {e s E τ : ℝ} {K n : ℕ} (h7 : 7 / 10 ≤ e) (h1 : e < 1) (hτ : 0 < τ) (hτ1 : τ ≤ 1 / 1000) (hK : 7 * (17 / 20) ^ K < τ)
    (h : W e s K n E) (hF : τ ≤ |fall e s E|) :
    Fit (fall e s E) (Lag.slope e E) (e * Real.sin E) (89 / 10 * τ) ∧ |E| ≤ 66 / 10 ∧
      |E - delta (fall e s E) (Lag.slope e E) (e * Real.sin E)| ≤ 66 / 10 ∧
      ∀ q, |q| ≤ 1 / 200 → W e s K (n + 1) (E - (1 + q) * delta (fall e s E) (Lag.slope e E) (e * Real.sin E)) := by
  have hpi := Real.pi_gt_d4
  have hpi' := Real.pi_lt_d4
  rcases h with ⟨hs, h⟩ | ⟨hs, h⟩
  · obtain ⟨k1, k2⟩ := at_step h7 h1 hs hτ hτ1 hK h hF
    have r1 := at_range hs h
    have r2 := at_range hs (k2 0 (by norm_num))
    rw [pnext, add_zero, one_mul] at r2
    refine ⟨k1, ?_, ?_, fun q hq => .inl ⟨hs, k2 q hq⟩⟩
    · rw [abs_le]; constructor <;> linarith [r1.1, r1.2]
    · rw [abs_le]; constructor <;> linarith [r2.1, r2.2]
  · have hf := fall_reflect e s E
    have hsl : Lag.slope e (2 * Real.pi - E) = Lag.slope e E := by unfold Lag.slope; rw [Real.cos_two_pi_sub]
    have hsn : e * Real.sin (2 * Real.pi - E) = -(e * Real.sin E) := by rw [Real.sin_two_pi_sub]; ring
    have hpn : ∀ q, pnext e (2 * Real.pi - s) q (2 * Real.pi - E)
        = 2 * Real.pi - (E - (1 + q) * delta (fall e s E) (Lag.slope e E) (e * Real.sin E)) := by
      intro q
      rw [pnext, hf, hsl, hsn, delta_neg]; ring
    obtain ⟨k1, k2⟩ := at_step h7 h1 hs hτ hτ1 hK h (by rw [hf, abs_neg]; exact hF)
    rw [hf, hsl, hsn] at k1
    have r1 := at_range hs h
    have r2 := at_range hs (k2 0 (by norm_num))
    rw [hpn, add_zero, one_mul] at r2
    refine ⟨?_, ?_, ?_, fun q hq => .inr ⟨hs, by rw [← hpn]; exact k2 q hq⟩⟩
    · unfold Fit at k1 ⊢
      rw [delta_neg, abs_neg, abs_neg, show 20 * -fall e s E * -(e * Real.sin E) = 20 * fall e s E * (e * Real.sin E) by ring] at k1
      exact k1
    · rw [abs_le]; constructor <;> linarith [r1.1, r1.2]
    · rw [abs_le]; constructor <;> linarith [r2.1, r2.2]

theorem w_end {e s E τ : ℝ} {K : ℕ} (h0 : 0 ≤ e) (h1 : e < 1) (hK : 7 * (17 / 20) ^ K < τ) (h : W e s K (2 * K) E) : |fall e s E| < τ := by
  rcases h with ⟨-, h⟩ | ⟨-, h⟩
  · exact at_end h0 h1 hK h
  · have := at_end h0 h1 hK h
    rwa [fall_reflect, abs_neg] at this

/-- the starting value for an ellipse, as it is computed -/
theorem guess_ell {e M s τ : ℝ} (K : ℕ) (hu : R.u ≤ 1 / 10 ^ 9) (h7 : 7 / 10 ≤ e) (h1 : e < 1) (hM0 : 0 ≤ M) (hM1 : M ≤ 2 * Real.pi + 40 * R.u) (hs : s - e * Real.sin s = M)
    (hτ : 0 < τ) (hτ1 : τ ≤ 1 / 10 ^ 5) (hτu : 8990 * R.u ≤ τ) :
    ∃ E0, get_kepler_guess (num R M) (num R e) = num R E0 ∧ (|fall e s E0| < τ ∨ W e s K 0 E0) := by
  have hu0 := R.u_nonneg
  have hu6 : R.u ≤ 1 / 10 ^ 6 := by linarith
  have h0 : 0 ≤ e := by linarith
  have hp := Real.pi_gt_d4
  have hp' := Real.pi_lt_d4
  have hpr := rd_err (R := R) (x := Real.pi) (B := 315 / 100) hu6 (by rw [abs_le]; constructor <;> linarith)
  rw [abs_le] at hpr
  obtain ⟨tp, htp, tp1⟩ := twoPi_err (R := R) hu6
  rw [abs_le] at tp1
  unfold get_kepler_guess
  simp only [pi_num, lt_num, htp, decide_eq_true_eq]
  by_cases hM : R.rd Real.pi < M
  · simp only [if_pos hM, sub_num]
    have hm := rd_err (R := R) (x := tp - M) (B := 315 / 100) hu6 (by rw [abs_le]; constructor <;> linarith [tp1.1, tp1.2])
    rw [abs_le] at hm
    obtain ⟨g, hg, g1, g2, g3⟩ := half_ell (R := R) hu h0 h1 (m := R.rd (tp - M)) (by linarith [tp1.1, tp1.2, hm.1]) (by linarith [tp1.1, tp1.2, hm.2, hpr.1])
    simp only [pi_num, sub_num] at hg
    rw [hg, sub_num]
    refine ⟨_, rfl, ?_⟩
    have hf := abs_le.mp (rd_err (R := R) (x := tp - g) (B := 7) hu6 (by rw [abs_le]; constructor <;> linarith [tp1.1, tp1.2]))
    have g1' := abs_le.mp g1
    have hst := start (x := 2 * Real.pi - R.rd (tp - g)) (m := R.rd (tp - M)) K h7 h1 hτ hτ1 (show -(τ / 180) ≤ 2 * Real.pi - M by linarith) (by linarith [hpr.1]) (root_reflect hs)
      (by rw [abs_le]; constructor <;> linarith [tp1.1, tp1.2, hm.1, hm.2])
      (by rw [abs_le]; constructor <;> linarith [tp1.1, tp1.2, hf.1, hf.2, g1'.1, g1'.2])
    rw [fall_reflect, abs_neg] at hst
    exact hst.imp_right fun h => .inr h
  · simp only [if_neg hM]
    have hM := not_lt.mp hM
    obtain ⟨g, hg, g1, -⟩ := half_ell (R := R) hu h0 h1 (m := M) (by linarith) (by linarith [hpr.2])
    simp only [pi_num] at hg
    refine ⟨g, hg, ?_⟩
    have hst := start (x := g) (m := M) K h7 h1 hτ hτ1 (by linarith) (by linarith [hpr.2]) hs (by rw [sub_self, abs_zero]; linarith) (by linarith)
    exact hst.imp_right fun h => .inl h

/-- the solver stops after at most `2 K` steps -/
theorem solve_ell {tol : ℝ} {mi : Int} {M e s : ℝ} (hu : R.u ≤ 1 / 10 ^ 9) (h7 : 7 / 10 ≤ e) (h1 : e ≤ 1 - 25 * R.u) (h1' : e < 1) (hM0 : 0 ≤ M)
    (hM1 : M ≤ 2 * Real.pi + 40 * R.u) (hs : s - e * Real.sin s = M) (ht : 0 < tol) (ht1 : tol ≤ 1 / 10 ^ 5) (htu : 9000 * R.u ≤ tol) (K : Nat)
    (hK : 7 * (17 / 20 : ℝ) ^ K < 999 / 1000 * tol) (hmi : 2 * K < mi) :
    ∃ (E : ℝ) (n : Nat), laguerre_solve_kepler (get_kepler_guess (num R M) (num R e)) (num R M) (num R e) (ropts R tol mi 5) = (num R E, (n : Int)) ∧
      n ≤ 2 * K ∧ |E - e * Real.sin E - M| < tol + 9 * R.u := by
  have hu0 := R.u_nonneg
  have h0 : 0 ≤ e := by linarith
  have hpi' := Real.pi_lt_d4
  obtain ⟨τ, hτd⟩ : ∃ τ, τ = 999 / 1000 * tol := ⟨_, rfl⟩
  rw [← hτd] at hK
  have hτ : 0 < τ := by linarith
  have hτu : 8990 * R.u ≤ τ := by linarith
  obtain ⟨E0, hE0, hst⟩ := guess_ell (R := R) K hu h7 h1' hM0 hM1 hs hτ (by linarith) hτu
  rw [hE0]
  obtain ⟨n, k1, k2, k3, k4⟩ := c11_terminates (num R E0) (num R M) (num R e) (ropts R tol mi 5)
  have goes : ∀ E, ∃ f, (lagGoesOn (ropts R tol mi 5) (num R M) (num R e) (num R E) ↔ tol ≤ |f|) ∧
      |f + fall e s E| ≤ 31 / 10 * R.u + 21 / 10 * R.u * |fall e s E| := by
    intro E
    obtain ⟨f, hf, f1⟩ := ellF (R := R) (E := E) hu h0 h1' hs
    refine ⟨f, ?_, f1⟩
    rw [lagGoesOn, hf]
    simp only [ropts, abs_num, le_num, decide_eq_true_eq]
  have goes1 : ∀ E, lagGoesOn (ropts R tol mi 5) (num R M) (num R e) (num R E) → τ ≤ |fall e s E| := by
    intro E h
    obtain ⟨f, f1, f2⟩ := goes E
    have f3 := f1.mp h
    have f4 := abs_sub (f + fall e s E) (fall e s E)
    rw [add_sub_cancel_right] at f4
    by_contra hn
    have hn := not_le.mp hn
    have : R.u * |fall e s E| ≤ 1 / 10 ^ 9 * |fall e s E| := mul_le_mul_of_nonneg_right hu (abs_nonneg _)
    linarith
  have iter : ∀ j : ℕ, j ≤ n → ∃ E, (lagNext (ropts R tol mi 5) (num R M) (num R e))^[j] (num R E0) = num R E ∧
      ((j = 0 ∧ |fall e s E| < τ) ∨ W e s K j E) := by
    intro j
    induction j with
    | zero => intro _; exact ⟨E0, rfl, hst.imp_left fun h => ⟨rfl, h⟩⟩
    | succ j ih =>
      intro hj
      obtain ⟨E, q1, q2⟩ := ih (by omega)
      have q3 := k3 j (by omega)
      rw [q1] at q3
      have q4 := goes1 E q3
      rcases q2 with ⟨-, q2⟩ | q2
      · exact absurd q4 (not_le.mpr q2)
      obtain ⟨w1, w2, w3, w4⟩ := w_step h7 h1' hτ (by linarith) hK q2 q4
      obtain ⟨q, r1, r2⟩ := step_ell (R := R) (tol := tol) (mi := mi) hu h0 h1 h1' hM0 (by linarith) hs hτu q4 w1 w2 w3
      refine ⟨_, by rw [Function.iterate_succ_apply', q1, r2], .inr (w4 q r1)⟩
  have hK0 : 0 < K := by
    by_contra hn
    rw [show K = 0 by omega, pow_zero] at hK
    linarith
  have hn : n ≤ 2 * K := by
    by_contra hlt
    obtain ⟨E, q1, q2⟩ := iter (2 * K) (by omega)
    have q3 := k3 (2 * K) (by omega)
    rw [q1] at q3
    have q4 := goes1 E q3
    rcases q2 with ⟨q2, -⟩ | q2
    · omega
    · exact absurd q4 (not_le.mpr (w_end h0 h1' hK q2))
  obtain ⟨E, q1, -⟩ := iter n le_rfl
  rw [q1] at k1 k4
  refine ⟨E, n, k1, hn, ?_⟩
  obtain ⟨f, f1, f2⟩ := goes E
  have f3 := k4 (lt_of_lt_of_le (by exact_mod_cast lt_of_le_of_lt (by exact_mod_cast hn) hmi) (le_max_right 1 mi))
  rw [f1, not_le] at f3
  rw [← fall_root hs]
  have f4 := abs_sub (f + fall e s E) f
  rw [add_sub_cancel_left] at f4
  have f5 : R.u * |fall e s E| ≤ 1 / 10 ^ 9 * |fall e s E| := mul_le_mul_of_nonneg_right hu (abs_nonneg _)
  have f6 : |fall e s E| ≤ 1 := by linarith
  have f7 := mul_le_mul_of_nonneg_left f6 hu0
  linarith

end RSolveE

/-! ## C107 -/

open RSolveE Orbit

/-- C107: on ellipses with `e ≤ 1 - 25 u`, for a mean anomaly from 0 to a full turn (to `2 pi + 40 u`), in every arithmetic with unit roundoff `u ≤ 1e-9`, with a tolerance
from `9000 u` to 1e-5: the iteration limit is not reached.  The solver stops after at most `2 K` steps when `7 * 0.85^K < 0.999 tol` and `max_iter > 2 K`,
and `mean_to_eccentric` returns a number that solves Kepler's equation (evaluated exactly) up to `tol + 9 u`; its distance to the exact eccentric anomaly
`Es` is at most `1 / (1 - e)` times that. -/
theorem c107 (hu : R.u ≤ 1 / 10 ^ 9) (tol : ℝ) (ht : 0 < tol) (ht1 : tol ≤ 1 / 10 ^ 5) (htu : 9000 * R.u ≤ tol) (mi : Int) (K : Nat)
    (hK : 7 * (17 / 20 : ℝ) ^ K < 999 / 1000 * tol) (hmi : 2 * K < mi) (M e Es : ℝ) (h0 : 0 ≤ e) (h1 : e < 1) (h25 : e ≤ 1 - 25 * R.u) (hM0 : 0 ≤ M)
    (hM1 : M ≤ 2 * Real.pi + 40 * R.u) (hs : Es - e * Real.sin Es = M) :
    (∃ (E : ℝ) (n : Nat), laguerre_solve_kepler (keplerGuess (num R M) (num R e)) (num R M) (num R e) (ropts R tol mi 5) = (num R E, (n : Int)) ∧ n ≤ 2 * K) ∧
    ¬ HitLimit (ropts R tol mi 5) (num R M) (num R e) ∧
    ∃ E, mean_to_eccentric (ropts R tol mi 5) (rfl64 R M) (rfl64 R e) false = .ok (rfl64 R E) ∧ |E - e * Real.sin E - M| < tol + 9 * R.u ∧
      |E - Es| ≤ (tol + 9 * R.u) / (1 - e) := by
  have hu0 := R.u_nonneg
  have hpi' := Real.pi_lt_d4
  have main : (∃ (E : ℝ) (n : Nat), laguerre_solve_kepler (keplerGuess (num R M) (num R e)) (num R M) (num R e) (ropts R tol mi 5) = (num R E, (n : Int)) ∧
      n ≤ 2 * K) ∧ ¬ HitLimit (ropts R tol mi 5) (num R M) (num R e) ∧
    ∃ E, mean_to_eccentric (ropts R tol mi 5) (rfl64 R M) (rfl64 R e) false = .ok (rfl64 R E) ∧ |E - e * Real.sin E - M| < tol + 9 * R.u := by
    rcases le_total e (7 / 10) with h7 | h7
    · refine c96 (R := R) (by linarith) tol ht (by linarith) mi (2 * K) ?_ (by exact_mod_cast hmi) M e h0 h7 hM0 (by linarith)
      have e1 : (51 / 100 : ℝ) ^ (2 * K) ≤ (17 / 20) ^ K := by
        rw [pow_mul]
        exact pow_le_pow_left₀ (by norm_num) (by norm_num) K
      linarith
    · obtain ⟨E, n, h2, h3, h4⟩ := solve_ell (R := R) hu h7 h25 h1 hM0 hM1 hs ht ht1 htu K hK hmi
      have hg : keplerGuess (num R M) (num R e) = get_kepler_guess (num R M) (num R e) := by
        unfold keplerGuess
        simp only [one_num, lt_num, not_lt.mpr h1.le, decide_false, Bool.false_eq_true, if_false]
      refine ⟨⟨E, n, by rw [hg, h2], h3⟩, ?_, E, ?_, h4⟩
      · rw [HitLimit, hg, h2, not_le]
        refine lt_of_lt_of_le ?_ (le_max_right 1 mi)
        show (n : Int) < mi
        exact lt_of_le_of_lt (by exact_mod_cast h3) hmi
      · rw [mean_to_eccentric_num, meanToEccentricSc]
        simp only [zero_num, eq_num, show e ≠ 0 by linarith, decide_false, Bool.false_eq_true, if_false]
        rw [meanToEccentricEl_guess _ _ _ (by simp; linarith), hg, h2]
        rfl
  obtain ⟨k1, k2, E, k3, k4⟩ := main
  refine ⟨k1, k2, E, k3, k4, ?_⟩
  have h := meanOf_error h0 (show e ≠ 1 by linarith) E Es
  simp only [meanOf, if_neg (not_lt.mpr h1.le), if_neg (show e ≠ 1 by linarith), hs] at h
  rw [abs_of_pos (show 0 < 1 - e by linarith)] at h
  exact h.trans (div_le_div_of_nonneg_right k4.le (by linarith))

/-- C107: `mean_to_true` there: the computed true anomaly differs from an exact one by at most `k (tol + 9 u) / (1 - e) + (85 + 15 k) u`,
`k = sqrt ((1 + e) / (1 - e))` -/
theorem c107_true (g : Nat → RF R) (hu : R.u ≤ 1 / 10 ^ 9) (tol : ℝ) (ht : 0 < tol) (ht1 : tol ≤ 1 / 10 ^ 5) (htu : 9000 * R.u ≤ tol) (mi : Int) (K : Nat)
    (hK : 7 * (17 / 20 : ℝ) ^ K < 999 / 1000 * tol) (hmi : 2 * K < mi) (M e Es : ℝ) (h0 : 0 ≤ e) (h1 : e < 1) (h25 : e ≤ 1 - 25 * R.u) (hM0 : 0 ≤ M)
    (hM1 : M ≤ 2 * Real.pi + 40 * R.u) (hs : Es - e * Real.sin Es = M) :
    ∃ nu nu0 : ℝ, mean_to_true g (ropts R tol mi 5) (rfl64 R M) (rfl64 R e) false = .ok (rfl64 R nu) ∧ 0 ≤ nu ∧ nu ≤ 629 / 100 ∧ SamePoint e nu0 Es ∧
      |nu - nu0| ≤ √((1 + e) / (1 - e)) * ((tol + 9 * R.u) / (1 - e)) + (85 + 15 * √((1 + e) / (1 - e))) * R.u := by
  have hu0 := R.u_nonneg
  have hpi := Real.pi_lt_d4
  have he : |e| < 1 := by rwa [abs_of_nonneg h0]
  obtain ⟨-, -, E, a1, a2, a3⟩ := c107 (R := R) hu tol ht ht1 htu mi K hK hmi M e Es h0 h1 h25 hM0 hM1 hs
  obtain ⟨nu, nu1, b1, b2, b3, b4, b5⟩ := c97_true g (show R.u ≤ 1 / 10 ^ 6 by linarith) h0 h1 E
  obtain ⟨nu0, c1, c2⟩ := samePoint_lipschitz he b4 Es
  refine ⟨nu, nu0, ?_, b2, b3, c1, ?_⟩
  · show (mean_to_eccentric _ (toRad false (rfl64 R M)) (rfl64 R e) false >>= fun E => eccentric_to_true g E (rfl64 R e) false >>= fun nu => pure (toDeg false nu)) = _
    show (mean_to_eccentric _ (rfl64 R M) (rfl64 R e) false >>= fun E => eccentric_to_true g E (rfl64 R e) false >>= fun nu => pure nu) = _
    rw [a1]
    show (eccentric_to_true g (rfl64 R E) (rfl64 R e) false >>= fun nu => pure nu) = _
    rw [b1]; rfl
  · rw [anomCond, abs_of_nonneg h0] at c2
    have hc := anomCond_pos h0 h1
    rw [anomCond, abs_of_nonneg h0] at hc
    obtain ⟨k, hk⟩ : ∃ k, k = √((1 + e) / (1 - e)) := ⟨_, rfl⟩
    rw [← hk] at hc b5 c2 ⊢
    have hk0 : 0 ≤ k := by linarith
    rw [abs_sub_comm Es E, abs_sub_comm nu0 nu1] at c2
    have hE : |E| ≤ 15 / 2 := by
      have h2 := abs_le.mp a2.le
      have h3 : |e * Real.sin E| ≤ 1 := by
        rw [abs_mul, abs_of_nonneg h0]
        exact (mul_le_of_le_one_right h0 (Real.abs_sin_le_one E)).trans h1.le
      have h4 := abs_le.mp h3
      rw [abs_le]
      constructor <;> linarith [h2.1, h2.2, h4.1, h4.2]
    have d1 := mul_le_mul_of_nonneg_left a3 hk0
    have d2 := abs_sub_le nu nu1 nu0
    have d3 := mul_le_mul_of_nonneg_right (mul_le_mul_of_nonneg_left hE hk0) hu0
    linarith

/-- C107 with the default options: in every arithmetic at least as accurate as double precision (`u ≤ 2^-53`), `mean_to_eccentric(M, e)` solves Kepler's
equation up to `1.002e-12` in at most 366 steps -/
theorem c107_default (hu : R.u ≤ (1 / 2) ^ 53) (M e Es : ℝ) (h0 : 0 ≤ e) (h1 : e < 1) (h25 : e ≤ 1 - 25 * R.u) (hM0 : 0 ≤ M) (hM1 : M ≤ 2 * Real.pi + 40 * R.u)
    (hs : Es - e * Real.sin Es = M) :
    (∃ (E : ℝ) (n : Nat), laguerre_solve_kepler (keplerGuess (num R M) (num R e)) (num R M) (num R e) .dflt = (num R E, (n : Int)) ∧ n ≤ 366) ∧
    ¬ HitLimit .dflt (num R M) (num R e) ∧
    ∃ E, mean_to_eccentric .dflt (rfl64 R M) (rfl64 R e) false = .ok (rfl64 R E) ∧ |E - e * Real.sin E - M| < 1002 / 10 ^ 15 ∧
      |E - Es| ≤ 1002 / 10 ^ 15 / (1 - e) := by
  have hu0 := R.u_nonneg
  have hu9 : R.u ≤ 11103 / 10 ^ 20 := hu.trans (by norm_num)
  have ht := abs_le.mp (rd_err (R := R) (x := 1 / 10 ^ 12) (B := 1 / 10 ^ 12) (by linarith) (by rw [abs_of_pos (by norm_num)]))
  obtain ⟨t1, t2⟩ := ht
  have t3 : 101 / 100 * R.u * (1 / 10 ^ 12) ≤ 101 / 100 * (1 / 10 ^ 6) * (1 / 10 ^ 12) := by
    refine mul_le_mul_of_nonneg_right ?_ (by norm_num)
    linarith
  rw [dflt_ropts]
  obtain ⟨k1, k2, E, k3, k4, k5⟩ := c107 (R := R) (by linarith) (R.rd (1 / 10 ^ 12)) (rd_pos (by norm_num)) (by linarith) (by linarith) 5000 183
    (by linarith [show 7 * (17 / 20 : ℝ) ^ 183 < 9 / 10 ^ 13 by norm_num]) (by norm_num) M e Es h0 h1 h25 hM0 hM1 hs
  refine ⟨k1, k2, E, k3, by linarith, k5.trans (div_le_div_of_nonneg_right (by linarith) (by linarith))⟩

/-- C107 for double precision -/
theorem c107_binary64 (M e Es : ℝ) (h0 : 0 ≤ e) (h25 : e ≤ 1 - 25 * (1 / 2) ^ 53) (hM0 : 0 ≤ M) (hM1 : M ≤ 2 * Real.pi + 40 * (1 / 2) ^ 53) (hs : Es - e * Real.sin Es = M) :
    ¬ HitLimit .dflt (num Binary.binary64 M) (num Binary.binary64 e) ∧
    ∃ E, mean_to_eccentric .dflt (rfl64 Binary.binary64 M) (rfl64 _ e) false = .ok (rfl64 _ E) ∧ |E - e * Real.sin E - M| < 1002 / 10 ^ 15 ∧
      |E - Es| ≤ 1002 / 10 ^ 15 / (1 - e) :=
  (c107_default (R := Binary.binary64) le_rfl M e Es h0 (by
    have : (0 : ℝ) < (1 / 2) ^ 53 := by positivity
    linarith) h25 hM0 hM1 hs).2

/-- C107, `mean_to_true` for double precision and the default options -/
theorem c107_true_binary64 (g : Nat → RF Binary.binary64) (M e Es : ℝ) (h0 : 0 ≤ e) (h25 : e ≤ 1 - 25 * (1 / 2) ^ 53) (hM0 : 0 ≤ M)
    (hM1 : M ≤ 2 * Real.pi + 40 * (1 / 2) ^ 53) (hs : Es - e * Real.sin Es = M) :
    ∃ nu nu0 : ℝ, mean_to_true g .dflt (rfl64 Binary.binary64 M) (rfl64 _ e) false = .ok (rfl64 _ nu) ∧ 0 ≤ nu ∧ nu ≤ 629 / 100 ∧ SamePoint e nu0 Es ∧
      |nu - nu0| ≤ 102 / 10 ^ 14 * √((1 + e) / (1 - e)) / (1 - e) := by
  have hud : Binary.binary64.u = (1 / 2 : ℝ) ^ 53 := rfl
  have hu0 : (0 : ℝ) < (1 / 2) ^ 53 := by positivity
  have hu9 : (1 / 2 : ℝ) ^ 53 ≤ 11103 / 10 ^ 20 := by norm_num
  have h1 : e < 1 := by linarith
  have ht := abs_le.mp (rd_err (R := Binary.binary64) (x := 1 / 10 ^ 12) (B := 1 / 10 ^ 12) (by rw [hud]; linarith) (by rw [abs_of_pos (by norm_num)]))
  rw [hud] at ht
  obtain ⟨t1, t2⟩ := ht
  have t3 : 101 / 100 * (1 / 2 : ℝ) ^ 53 * (1 / 10 ^ 12) ≤ 101 / 100 * (1 / 10 ^ 6) * (1 / 10 ^ 12) := by
    refine mul_le_mul_of_nonneg_right ?_ (by norm_num)
    linarith
  rw [dflt_ropts]
  obtain ⟨nu, nu0, k1, k2, k3, k4, k5⟩ := c107_true (R := Binary.binary64) g (by rw [hud]; linarith) (Binary.binary64.rd (1 / 10 ^ 12)) (rd_pos (by norm_num)) (by linarith)
    (by rw [hud]; linarith) 5000 183 (by linarith [show 7 * (17 / 20 : ℝ) ^ 183 < 9 / 10 ^ 13 by norm_num]) (by norm_num) M e Es h0 h1 h25 hM0 hM1 hs
  refine ⟨nu, nu0, k1, k2, k3, k4, k5.trans ?_⟩
  rw [hud]
  have hc := anomCond_pos h0 h1
  rw [anomCond, abs_of_nonneg h0] at hc
  obtain ⟨k, hk⟩ : ∃ k, k = √((1 + e) / (1 - e)) := ⟨_, rfl⟩
  rw [← hk] at hc ⊢
  have hk0 : 0 ≤ k := by linarith
  obtain ⟨y, hy⟩ : ∃ y, y = k / (1 - e) := ⟨_, rfl⟩
  have hky : k ≤ y := by rw [hy, le_div_iff₀ (by linarith)]; nlinarith
  rw [show k * ((Binary.binary64.rd (1 / 10 ^ 12) + 9 * (1 / 2) ^ 53) / (1 - e)) = (Binary.binary64.rd (1 / 10 ^ 12) + 9 * (1 / 2) ^ 53) * y by rw [hy]; ring,
    show 102 / 10 ^ 14 * k / (1 - e) = 102 / 10 ^ 14 * y by rw [hy]; ring]
  have q1 : (Binary.binary64.rd (1 / 10 ^ 12) + 9 * (1 / 2) ^ 53) * y ≤ 1002 / 10 ^ 15 * y := mul_le_mul_of_nonneg_right (by linarith) (by linarith)
  have q2 : (85 + 15 * k) * (1 / 2 : ℝ) ^ 53 ≤ (100 * k) * (11103 / 10 ^ 20) := mul_le_mul (by linarith) hu9 hu0.le (by linarith)
  linarith

/-- a case: e = 0.999, eccentric anomaly 1/100 -/
example : ∃ E, mean_to_eccentric .dflt (rfl64 Binary.binary64 (1 / 100 - 999 / 1000 * Real.sin (1 / 100))) (rfl64 _ (999 / 1000)) false = .ok (rfl64 _ E) ∧
    |E - 1 / 100| ≤ 1002 / 10 ^ 15 / (1 - 999 / 1000) := by
  have h1 := Real.sin_le (show (0 : ℝ) ≤ 1 / 100 by norm_num)
  have h2 := Real.neg_one_le_sin (1 / 100)
  have hpi := Real.pi_gt_three
  obtain ⟨-, E, k1, -, k3⟩ := c107_binary64 (1 / 100 - 999 / 1000 * Real.sin (1 / 100)) (999 / 1000) (1 / 100) (by norm_num) (by norm_num) (by linarith) (by linarith) rfl
  exact ⟨E, k1, k3⟩

end Pyorb
