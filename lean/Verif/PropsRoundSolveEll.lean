import Verif.LagRoundStart
import Verif.PropsRoundSolveHyp

/-!
# The Kepler solver with rounding converges on all ellipses (C107)
-/

namespace Pyorb
open FX RF Lag
variable {R : Rounding}

namespace RSolveE
open RSolveH (exps rd_eq rd_small)

/-! ## What one step uses -/

theorem ellF {e M s E : ℝ} (hu : R.u ≤ 1 / 10 ^ 9) (h0 : 0 ≤ e) (h1 : e < 1) (hs : s - e * Real.sin s = M) :
    ∃ f, lagF (num R M) (num R e) (num R E) = num R f ∧ |f + fall e s E| ≤ 31 / 10 * R.u + 21 / 10 * R.u * |fall e s E| := by
  have hu0 := R.u_nonneg
  unfold lagF
  simp only [one_num, lt_num, not_lt.mpr h1.le, decide_false, Bool.false_eq_true, if_false]
  obtain ⟨t, t1, t2⟩ := (Rel.num (R := R) e).mul (Rel.sin E)
  rw [t2, sub_num, add_num]
  refine ⟨_, rfl, ?_⟩
  have hF : fall e s E = E - e * Real.sin E - M := fall_root hs E
  have hw : |e * Real.sin E| ≤ 1 := by
    rw [abs_mul, abs_of_nonneg h0]
    have := mul_le_mul h1.le (Real.abs_sin_le_one E) (abs_nonneg _) zero_le_one
    linarith
  obtain ⟨F, hFd⟩ : ∃ F, F = fall e s E := ⟨_, rfl⟩
  obtain ⟨w, hwd⟩ : ∃ w, w = e * Real.sin E := ⟨_, rfl⟩
  rw [← hFd] at hF ⊢
  rw [← hwd] at hF hw ⊢
  have hwa := abs_le.mp hw
  have hFa := abs_le.mp (le_refl |F|)
  have h2 := abs_le.mp (rd_err (R := R) (x := M - E) (B := |F| + 1) (by linarith) (by rw [abs_le]; constructor <;> linarith [hFa.1, hFa.2, hwa.1, hwa.2]))
  have h3 : |w * Real.exp t - w| ≤ 101 / 100 * (2 * R.u) := by
    rw [show w * Real.exp t - w = (Real.exp t - 1) * w by ring, abs_mul]
    have := mul_le_mul (exps (t := t) (k := 2 * R.u) (by linarith) (by linarith)) hw (abs_nonneg _) (by linarith)
    linarith
  have h3 := abs_le.mp h3
  have hu2 : R.u * |F| ≤ 1 / 10 ^ 9 * |F| := mul_le_mul_of_nonneg_right hu (abs_nonneg _)
  have hu3 : 0 ≤ R.u * |F| := mul_nonneg hu0 (abs_nonneg _)
  have h4 := abs_le.mp (rd_err (R := R) (x := R.rd (M - E) + w * Real.exp t) (B := 101 / 100 * |F| + 1 / 10 ^ 6) (by linarith) (by
    rw [abs_le]; constructor <;> linarith [hFa.1, hFa.2, h2.1, h2.2, h3.1, h3.2]))
  rw [abs_le]
  constructor <;> linarith [h2.1, h2.2, h3.1, h3.2, h4.1, h4.2]

theorem ellFp {e : ℝ} (hu : R.u ≤ 1 / 10 ^ 9) (h0 : 0 ≤ e) (h1 : e < 1) (E : ℝ) :
    ∃ α, lagFp (num R e) (num R E) = num R (-(slope e E + α)) ∧ |α| ≤ 41 / 10 * R.u := by
  have hu0 := R.u_nonneg
  unfold lagFp
  simp only [one_num, lt_num, not_lt.mpr h1.le, decide_false, Bool.false_eq_true, if_false]
  obtain ⟨t, t1, t2⟩ := (Rel.num (R := R) e).mul (Rel.cos E)
  rw [t2, sub_num]
  refine ⟨-R.rd (e * Real.cos E * Real.exp t - 1) - slope e E, by congr 1; ring, ?_⟩
  have hw : |e * Real.cos E| ≤ 1 := by
    rw [abs_mul, abs_of_nonneg h0]
    have := mul_le_mul h1.le (Real.abs_cos_le_one E) (abs_nonneg _) zero_le_one
    linarith
  rw [Lag.slope]
  obtain ⟨w, hwd⟩ : ∃ w, w = e * Real.cos E := ⟨_, rfl⟩
  rw [← hwd] at hw ⊢
  have h3 : |w * Real.exp t - w| ≤ 101 / 100 * (2 * R.u) := by
    rw [show w * Real.exp t - w = (Real.exp t - 1) * w by ring, abs_mul]
    have := mul_le_mul (exps (t := t) (k := 2 * R.u) (by linarith) (by linarith)) hw (abs_nonneg _) (by linarith)
    linarith
  have h3 := abs_le.mp h3
  have hwa := abs_le.mp hw
  have h4 := abs_le.mp (rd_err (R := R) (x := w * Real.exp t - 1) (B := 201 / 100) (by linarith) (by
    rw [abs_le]; constructor <;> linarith [h3.1, h3.2]))
  rw [abs_le]
  constructor <;> linarith [h3.1, h3.2, h4.1, h4.2]

theorem ellFpp {e : ℝ} (h1 : e < 1) (E : ℝ) :
    ∃ t, lagFpp (num R e) (num R E) = num R (-(e * Real.sin E) * Real.exp t) ∧ |t| ≤ 2 * R.u := by
  unfold lagFpp
  simp only [one_num, lt_num, not_lt.mpr h1.le, decide_false, Bool.false_eq_true, if_false]
  obtain ⟨t, t1, t2⟩ := (Rel.num (R := R) e).neg.mul (Rel.sin E)
  refine ⟨t, by rw [t2, neg_mul], by linarith⟩

/-- the expression under the root -/
theorem rad_ell {p S X α A B c u : ℝ} (hu0 : 0 ≤ u) (hu : u ≤ 1 / 10 ^ 9) (hp : 0 < p) (hpS : p ≤ S) (hSu : 40000 * u ≤ S) (hS : S ^ 2 = 16 * p ^ 2 - X)
    (hX : |X| ≤ 15 * S ^ 2) (hα : |α| ≤ 41 / 10 * u) (hA : |A| ≤ 21 / 10 * u) (hB : |B| ≤ 346 / 10 ^ 6 + 6 * u) (hc : |c| ≤ 101 / 100 * u) :
    |(16 * (p + α) ^ 2 * (1 + A) - X * (1 + B)) * (1 + c) - S ^ 2| ≤ 132 * u * S + 346 / 10 ^ 6 * |X| + 1 / 10 ^ 6 * S ^ 2 := by
  have hS0 : 0 < S := by linarith
  have hSS : 0 < S ^ 2 := by positivity
  have hus : 0 ≤ u * S := by positivity
  have huS : u * S ^ 2 ≤ 1 / 10 ^ 9 * S ^ 2 := mul_le_mul_of_nonneg_right hu hSS.le
  have huS0 : 0 ≤ u * S ^ 2 := by positivity
  -- the square
  have h1 : |α * (2 * p + α)| ≤ 41 / 10 * u * (20002 / 10000 * S) := by
    rw [abs_mul]
    refine mul_le_mul hα ?_ (abs_nonneg _) (by linarith)
    have := abs_le.mp hα
    rw [abs_le]; constructor <;> linarith [this.1, this.2]
  have h2 : u * S ≤ 1 / 40000 * S ^ 2 := by
    have := mul_le_mul_of_nonneg_right hSu hS0.le
    rw [pow_two]; linarith
  have h3 : |16 * (p + α) ^ 2| ≤ 17 * S ^ 2 := by
    have e1 : 16 * (p + α) ^ 2 = 16 * p ^ 2 + 16 * (α * (2 * p + α)) := by ring
    have e2 : p ^ 2 ≤ S ^ 2 := pow_le_pow_left₀ hp.le hpS 2
    have e3 := abs_le.mp h1
    have e4 : 0 ≤ p ^ 2 := by positivity
    rw [e1, abs_le]; constructor <;> linarith [e3.1, e3.2]
  have h4 : |16 * (p + α) ^ 2 * A| ≤ 17 * S ^ 2 * (21 / 10 * u) := by
    rw [abs_mul]
    exact mul_le_mul h3 hA (abs_nonneg _) (by positivity)
  have h5 : |X * B| ≤ 346 / 10 ^ 6 * |X| + 90 * (u * S ^ 2) := by
    rw [abs_mul]
    have e1 := mul_le_mul_of_nonneg_left hB (abs_nonneg X)
    have e2 := mul_le_mul_of_nonneg_right hX hu0
    linarith
  obtain ⟨G, hG⟩ : ∃ G, G = 16 * (α * (2 * p + α)) + 16 * (p + α) ^ 2 * A - X * B := ⟨_, rfl⟩
  have h6 : |G| ≤ 1313 / 10 * (u * S) + 346 / 10 ^ 6 * |X| + 126 * (u * S ^ 2) := by
    have e1 := abs_le.mp h1
    have e2 := abs_le.mp h4
    have e3 := abs_le.mp h5
    rw [hG, abs_le]; constructor <;> linarith [e1.1, e1.2, e2.1, e2.2, e3.1, e3.2]
  have h7 : |S ^ 2 + G| ≤ 102 / 100 * S ^ 2 := by
    have e1 := abs_le.mp h6
    rw [abs_le]; constructor <;> linarith [e1.1, e1.2]
  have h8 : |(S ^ 2 + G) * c| ≤ 102 / 100 * S ^ 2 * (101 / 100 * u) := by
    rw [abs_mul]
    exact mul_le_mul h7 hc (abs_nonneg _) (by positivity)
  have h9 : (16 * (p + α) ^ 2 * (1 + A) - X * (1 + B)) * (1 + c) - S ^ 2 = G + (S ^ 2 + G) * c := by
    rw [hG, hS]; ring
  rw [h9]
  refine (abs_add_le _ _).trans ?_
  linarith

/-- the root -/
theorem root_ell {S rad X D0 κ u : ℝ} (hu0 : 0 ≤ u) (hSu : 40000 * u ≤ S) (hS0 : 0 < S) (hSD : S ≤ D0) (hX : |X| ≤ 15 * S ^ 2) (hXκ : |X| ≤ κ * (S * D0))
    (h : |rad - S ^ 2| ≤ 132 * u * S + 346 / 10 ^ 6 * |X| + 1 / 10 ^ 6 * S ^ 2) :
    0 < rad ∧ |√rad - S| ≤ 664 / 10 * u + (κ * (175 / 10 ^ 6) + 6 / 10 ^ 7) * D0 ∧ 99 / 100 * S ≤ √rad ∧ √rad ≤ 101 / 100 * S := by
  have hSS : 0 < S ^ 2 := by positivity
  have h2 : u * S ≤ 1 / 40000 * S ^ 2 := by
    have := mul_le_mul_of_nonneg_right hSu hS0.le
    rw [pow_two]; linarith
  have h3 := abs_le.mp h
  have hr1 : (99 / 100 * S) ^ 2 ≤ rad := by rw [mul_pow]; linarith [h3.1]
  have hr2 : rad ≤ (101 / 100 * S) ^ 2 := by rw [mul_pow]; linarith [h3.2]
  have hT : 99 / 100 * S ≤ √rad := Real.le_sqrt_of_sq_le hr1
  have hrad : 0 < rad := lt_of_lt_of_le (by positivity) hr1
  refine ⟨hrad, ?_, hT, Real.sqrt_le_iff.mpr ⟨by linarith, hr2⟩⟩
  have e2 : |√rad - S| * (√rad + S) = |rad - S ^ 2| := by
    rw [show rad - S ^ 2 = (√rad - S) * (√rad + S) by
      have := Real.mul_self_sqrt hrad.le
      linarith, abs_mul, abs_of_nonneg (show 0 ≤ √rad + S by positivity)]
  have e3 : |√rad - S| * (199 / 100 * S) ≤ |√rad - S| * (√rad + S) := mul_le_mul_of_nonneg_left (by linarith) (abs_nonneg _)
  have e4 : |√rad - S| * S ≤ (664 / 10 * u + (κ * (175 / 10 ^ 6) + 6 / 10 ^ 7) * D0) * S := by
    have e5 := mul_le_mul_of_nonneg_right hSD hS0.le
    have e6 : 0 ≤ u * S := by positivity
    have e7 := (abs_nonneg X).trans hXκ
    linarith
  exact le_of_mul_le_mul_right e4 hS0

set_option maxHeartbeats 1000000 in
/-- one step: the correction that is computed has a relative error of at most 1/200 -/
theorem step_ell {tol τ : ℝ} {mi : Int} {e M s E : ℝ} (hu : R.u ≤ 1 / 10 ^ 9) (h0 : 0 ≤ e) (h1 : e ≤ 1 - 25 * R.u) (h1' : e < 1) (hM0 : 0 ≤ M) (hM1 : M ≤ 63 / 10)
    (hs : s - e * Real.sin s = M) (hτu : 8990 * R.u ≤ τ) (hF : τ ≤ |fall e s E|) (hfit : Fit (fall e s E) (slope e E) (e * Real.sin E) (89 / 10 * τ))
    (hE : |E| ≤ 66 / 10) (hEδ : |E - delta (fall e s E) (slope e E) (e * Real.sin E)| ≤ 66 / 10) :
    ∃ q, |q| ≤ 1 / 200 ∧ lagNext (ropts R tol mi 5) (num R M) (num R e) (num R E)
      = num R (E - (1 + q) * delta (fall e s E) (slope e E) (e * Real.sin E)) := by
  have hu0 := R.u_nonneg
  have hp := slope_pos h0 h1' E
  obtain ⟨f, hf, hfF⟩ := ellF (R := R) (E := E) hu h0 h1' hs
  obtain ⟨α, hfp, hα⟩ := ellFp (R := R) hu h0 h1' E
  obtain ⟨t, hfpp, ht⟩ := ellFpp (R := R) h1' E
  have hp25 : 25 * R.u ≤ slope e E := by
    unfold Lag.slope
    have := mul_le_mul_of_nonneg_left (Real.cos_le_one E) h0
    linarith
  have hp2 : slope e E ≤ 2 := by
    unfold Lag.slope
    have := mul_le_mul_of_nonneg_left (Real.neg_one_le_cos E) h0
    linarith
  have hw1 : |e * Real.sin E| ≤ 1 := by
    rw [abs_mul, abs_of_nonneg h0]
    have := mul_le_mul h1'.le (Real.abs_sin_le_one E) (abs_nonneg _) zero_le_one
    linarith
  have hF15 : |fall e s E| ≤ 14 := by
    rw [fall_root hs]
    have a1 := abs_le.mp hw1
    have a2 := abs_le.mp hE
    rw [abs_le]; constructor <;> linarith [a1.1, a1.2, a2.1, a2.2]
  have e4 : (num R 5 - 1 : RF R) = num R 4 := by
    rw [one_num, sub_num, show (5 - 1 : ℝ) = 4 by norm_num, rd_quarter 16 (by norm_num) (by norm_num)]
  have e16 : R.rd (4 * 4) = 16 := by
    rw [show (4 * 4 : ℝ) = 16 by norm_num, rd_quarter 64 (by norm_num) (by norm_num)]
  have e20 : (num R 5 * num R 4 : RF R) = num R 20 := by
    rw [mul_num, show (5 * 4 : ℝ) = 20 by norm_num, rd_quarter 80 (by norm_num) (by norm_num)]
  unfold lagNext lagStep
  simp only [ropts, hf, hfp, hfpp, e4, e20, sq]
  simp only [abs_num, sqrt_num (abs_nonneg _), sub_num, add_num, lt_num, mul_num, e16, decide_eq_true_eq]
  clear hf hfp hfpp e4 e16 e20
  generalize fall e s E = F at *
  generalize slope e E = p at *
  generalize e * Real.sin E = w at *
  -- relative errors
  obtain ⟨β, hβf, hβ⟩ : ∃ β, f = -(F * (1 + β)) ∧ |β| ≤ 346 / 10 ^ 6 := by
    have k1 : |f + F| ≤ 346 / 10 ^ 6 * |F| := by
      have : R.u * |F| ≤ 1 / 10 ^ 9 * |F| := mul_le_mul_of_nonneg_right hu (abs_nonneg _)
      linarith
    by_cases hF : F = 0
    · subst hF
      simp at k1
      exact ⟨0, by simp [k1], by rw [abs_zero]; norm_num⟩
    · refine ⟨(-f - F) / F, by field_simp; ring, ?_⟩
      rw [abs_div, div_le_iff₀ (abs_pos.mpr hF), show -f - F = -(f + F) by ring, abs_neg]
      exact k1
  obtain ⟨fp, hfpd⟩ : ∃ fp, fp = -(p + α) := ⟨_, rfl⟩
  rw [← hfpd]
  obtain ⟨hD80, hcase⟩ := hfit
  obtain ⟨r0, hr0⟩ : ∃ r0, r0 = 16 * p ^ 2 - 20 * F * w := ⟨_, rfl⟩
  rw [← hr0] at hD80
  have hpp : 0 < p ^ 2 := by positivity
  have hr0p : p ^ 2 ≤ r0 := by
    rcases hcase with ⟨h, -⟩ | ⟨h, -⟩ <;> linarith
  obtain ⟨S0, hS0⟩ : ∃ S0, S0 = √r0 := ⟨_, rfl⟩
  rw [← hS0] at hD80
  have hδ : delta F p w = 5 * F / (p + S0) := by
    rw [delta, ← hr0, abs_of_pos (by linarith : 0 < r0), hS0]
  have hpS : p ≤ S0 := by rw [hS0]; exact Real.le_sqrt_of_sq_le hr0p
  have hS0p : 0 < S0 := by linarith
  have hS0q : S0 ^ 2 = r0 := by rw [hS0]; exact Real.sq_sqrt (by linarith)
  have hSu : 40000 * R.u ≤ S0 := by linarith
  have hD0u : 80000 * R.u ≤ p + S0 := by linarith
  have hX15 : |20 * F * w| ≤ 15 * S0 ^ 2 := by
    rw [hS0q]
    rcases hcase with ⟨h, h'⟩ | ⟨h, -⟩
    · rw [abs_of_nonneg h']; linarith
    · rw [abs_of_nonpos h]; linarith
  obtain ⟨κ, ρ, hκX, hκ, hρ⟩ : ∃ κ ρ : ℝ, |20 * F * w| ≤ κ * (S0 * (p + S0)) ∧
      ((κ = 15 / 2 ∧ ρ = 2) ∨ (κ = 1 ∧ ρ = 4)) ∧ |F| ≤ ρ * |5 * F / (p + S0)| := by
    rcases hcase with ⟨h, h'⟩ | ⟨h, h'⟩
    · refine ⟨15 / 2, 2, ?_, .inl ⟨rfl, rfl⟩, ?_⟩
      · rw [abs_of_nonneg h']
        have a1 := mul_le_mul_of_nonneg_left hpS hp.le
        have a2 : p ^ 2 ≤ S0 ^ 2 := pow_le_pow_left₀ hp.le hpS 2
        have a3 : S0 * (p + S0) = p * S0 + S0 ^ 2 := by ring
        rw [a3]
        have a4 : p * p = p ^ 2 := by ring
        linarith
      · have a1 : S0 ≤ 4 * p := by
          refine le_of_sq_le_sq ?_ (by linarith)
          rw [hS0q, mul_pow]; linarith
        rw [abs_div, abs_mul, abs_of_pos (by linarith : 0 < p + S0), abs_of_pos (by norm_num : (0 : ℝ) < 5), ← mul_div_assoc, le_div_iff₀ (by linarith)]
        have := mul_le_mul_of_nonneg_left (show p + S0 ≤ 10 by linarith) (abs_nonneg F)
        linarith
    · refine ⟨1, 4, ?_, .inr ⟨rfl, rfl⟩, ?_⟩
      · rw [abs_of_nonpos h]
        have a1 := mul_nonneg hp.le hS0p.le
        have a3 : S0 * (p + S0) = p * S0 + S0 ^ 2 := by ring
        rw [a3, hS0q]
        linarith
      · rw [delta, ← hr0, abs_of_pos (by linarith : 0 < r0), ← hS0] at h'
        exact h'
  have hκ1 : 1 ≤ κ ∧ κ ≤ 15 / 2 := by
    rcases hκ with ⟨h, -⟩ | ⟨h, -⟩ <;> rw [h] <;> norm_num
  have hS19 : S0 ≤ 187 / 10 := by
    rw [hS0]
    refine Real.sqrt_le_iff.mpr ⟨by norm_num, ?_⟩
    · have a1 : |20 * F * w| ≤ 280 := by
        rw [abs_mul, abs_mul, abs_of_pos (by norm_num : (0 : ℝ) < 20)]
        have := mul_le_mul hF15 hw1 (abs_nonneg _) (by norm_num)
        linarith
      have a2 := abs_le.mp a1
      have a3 : p ^ 2 ≤ 2 ^ 2 := pow_le_pow_left₀ hp.le hp2 2
      rw [hr0]; linarith [a2.1]
  -- the radicand
  obtain ⟨rad, hrad⟩ : ∃ rad, rad = R.rd (R.rd (16 * R.rd (fp * fp)) - R.rd (R.rd (20 * f) * (-w * Real.exp t))) := ⟨_, rfl⟩
  rw [← hrad]
  have hradc : |rad - S0 ^ 2| ≤ 132 * R.u * S0 + 346 / 10 ^ 6 * |20 * F * w| + 1 / 10 ^ 6 * S0 ^ 2 := by
    obtain ⟨A, hA, hA1⟩ : ∃ A, R.rd (16 * R.rd (fp * fp)) = 16 * (p + α) ^ 2 * (1 + A) ∧ |A| ≤ 21 / 10 * R.u := by
      refine ⟨Real.exp (R.th (fp * fp) + R.th (16 * R.rd (fp * fp))) - 1, ?_, ?_⟩
      · rw [Real.exp_add]
        conv_lhs => rw [Rounding.rd]
        conv_lhs => enter [1, 2]; rw [Rounding.rd]
        rw [hfpd]; ring
      · have k1 : |R.th (fp * fp) + R.th (16 * R.rd (fp * fp))| ≤ 2 * R.u := by
          refine (abs_add_le _ _).trans ?_
          linarith [R.th_le (fp * fp), R.th_le (16 * R.rd (fp * fp))]
        have k2 := exps k1 (by linarith)
        linarith
    obtain ⟨B, hB, hB1⟩ : ∃ B, R.rd (R.rd (20 * f) * (-w * Real.exp t)) = 20 * F * w * (1 + B) ∧ |B| ≤ 346 / 10 ^ 6 + 6 * R.u := by
      refine ⟨(1 + β) * Real.exp (R.th (20 * f) + t + R.th (R.rd (20 * f) * (-w * Real.exp t))) - 1, ?_, ?_⟩
      · rw [Real.exp_add, Real.exp_add]
        conv_lhs => rw [Rounding.rd]
        conv_lhs => enter [1, 1]; rw [Rounding.rd]
        generalize Real.exp (R.th (R.rd (20 * f) * (-w * Real.exp t))) = x1
        generalize Real.exp (R.th (20 * f)) = x2
        rw [hβf]; ring
      · have k1 : |R.th (20 * f) + t + R.th (R.rd (20 * f) * (-w * Real.exp t))| ≤ 4 * R.u := by
          refine (abs_add_le _ _).trans ?_
          have := abs_add_le (R.th (20 * f)) t
          linarith [R.th_le (20 * f), R.th_le (R.rd (20 * f) * (-w * Real.exp t))]
        have k2 := exps k1 (by linarith)
        generalize Real.exp (R.th (20 * f) + t + R.th (R.rd (20 * f) * (-w * Real.exp t))) = x at k2 ⊢
        have k3 : (1 + β) * x - 1 = β + (1 + β) * (x - 1) := by ring
        have k6 : |1 + β| ≤ 51 / 50 := by
          rw [abs_le] at hβ ⊢
          constructor <;> linarith [hβ.1, hβ.2]
        rw [k3]
        refine (abs_add_le _ _).trans ?_
        rw [abs_mul (1 + β)]
        have := mul_le_mul k6 k2 (abs_nonneg _) (by norm_num)
        linarith
    rw [hrad, rd_eq, hA, hB]
    exact rad_ell hu0 hu hp hpS hSu (by rw [hS0q, hr0]) hX15 hα hA1 hB1 (rd_small hu _)
  obtain ⟨hradp, hT, hT1, hT2⟩ := root_ell hu0 hSu hS0p (show S0 ≤ p + S0 by linarith) hX15 hκX hradc
  rw [abs_of_pos hradp]
  obtain ⟨S, hSd⟩ : ∃ S, S = R.rd (√rad) := ⟨_, rfl⟩
  rw [← hSd]
  have hD0 : 0 < p + S0 := by linarith
  have huS : R.u * S0 ≤ 1 / 10 ^ 9 * S0 := mul_le_mul_of_nonneg_right hu hS0p.le
  have huD : R.u * (p + S0) ≤ 1 / 10 ^ 9 * (p + S0) := mul_le_mul_of_nonneg_right hu hD0.le
  have hrS : |S - √rad| ≤ 2 * R.u * S0 := by
    have k2 := rd_err (R := R) (x := √rad) (B := 101 / 100 * S0) (by linarith) (by rw [abs_of_nonneg (Real.sqrt_nonneg _)]; exact hT2)
    rw [← hSd] at k2
    have : 0 ≤ R.u * S0 := by positivity
    linarith
  generalize √rad = T at *
  have hSS : |S - S0| ≤ 664 / 10 * R.u + (κ * (175 / 10 ^ 6) + 7 / 10 ^ 7) * (p + S0) := by
    have := abs_add_le (S - T) (T - S0)
    rw [sub_add_sub_cancel] at this
    linarith
  have hSl : 98 / 100 * S0 ≤ S ∧ S ≤ 102 / 100 * S0 := by
    have := abs_le.mp hrS
    constructor <;> linarith [this.1, this.2]
  clear hrad hradc hradp hT hT1 hT2 hrS hSd hcase hκX hX15 hr0 hr0p hS0q
  -- the denominator
  obtain ⟨D, hDd⟩ : ∃ D, D = -R.rd (fp - S) := ⟨_, rfl⟩
  have hα' := abs_le.mp hα
  have hSS' := abs_le.mp hSS
  have hDb : |fp - S| ≤ 11 / 10 * (p + S0) := by
    rw [hfpd, abs_le]
    constructor <;> linarith [hα'.1, hα'.2, hSl.1, hSl.2]
  have hDr := abs_le.mp (rd_err (R := R) (by linarith) hDb)
  have hD : |D - (p + S0)| ≤ (κ * (175 / 10 ^ 6) + 885 / 10 ^ 6) * (p + S0) := by
    rw [hDd, abs_le]
    constructor <;> linarith [hα'.1, hα'.2, hSS'.1, hSS'.2, hDr.1, hDr.2]
  have hθ : κ * (175 / 10 ^ 6) + 885 / 10 ^ 6 ≤ 1 / 50 := by linarith [hκ1.2]
  have hDp : 49 / 50 * (p + S0) ≤ D := by
    have := (abs_le.mp hD).1
    have := mul_le_mul_of_nonneg_right hθ hD0.le
    linarith
  have hlt : ¬ |R.rd (fp - S)| < |R.rd (fp + S)| := by
    have a1 := rd_err (R := R) (x := fp - S) (B := |fp - S|) (by linarith) le_rfl
    have a2 := rd_err (R := R) (x := fp + S) (B := |fp + S|) (by linarith) le_rfl
    have b1 : |fp - S| = p + α + S := by
      rw [hfpd, show -(p + α) - S = -(p + α + S) by ring, abs_neg, abs_of_nonneg (by linarith [hα'.1])]
    have a3 := abs_sub_abs_le_abs_sub (fp - S) (R.rd (fp - S))
    have a4 := abs_sub_abs_le_abs_sub (R.rd (fp + S)) (fp + S)
    rw [abs_sub_comm (fp - S)] at a3
    rw [b1] at a1 a3
    have b2 : R.u * S ≤ R.u * 20 := mul_le_mul_of_nonneg_left (by linarith) hu0
    have b3 : R.u * (p + α) ≤ R.u * 3 := mul_le_mul_of_nonneg_left (by linarith) hu0
    rw [not_lt]
    rcases le_total (p + α) S with h | h
    · rw [show |fp + S| = S - (p + α) by rw [hfpd, show -(p + α) + S = S - (p + α) by ring, abs_of_nonneg (by linarith)]] at a2 a4
      linarith
    · rw [show |fp + S| = p + α - S by rw [hfpd, show -(p + α) + S = -(p + α - S) by ring, abs_neg, abs_of_nonneg (by linarith)]] at a2 a4
      linarith
  rw [if_neg hlt]
  have hnz : R.rd (fp - S) ≠ 0 := by
    intro h
    rw [h] at hDd
    linarith
  rw [div_num _ hnz, sub_num]
  rw [hδ] at hEδ ⊢
  have hq := Hyp.quot_cond (F := F) (f := -f) (ε := 346 / 10 ^ 6) hD0 (by
    rw [hβf, show - -(F * (1 + β)) - F = β * F by ring, abs_mul]
    exact mul_le_mul_of_nonneg_right hβ (abs_nonneg _)) hθ hD
  obtain ⟨δ, hδd⟩ : ∃ δ, δ = 5 * F / (p + S0) := ⟨_, rfl⟩
  rw [← hδd] at hq hρ hEδ ⊢
  obtain ⟨q, hqd⟩ : ∃ q, q = 5 * -f / D := ⟨_, rfl⟩
  rw [← hqd] at hq
  have hex : ∃ x, R.rd (R.rd (5 * f) / R.rd (fp - S)) = q * (1 + x) ∧ |x| ≤ 3 * R.u := by
    refine ⟨Real.exp (R.th (5 * f) + R.th (R.rd (5 * f) / R.rd (fp - S))) - 1, ?_, ?_⟩
    · have k1 : R.rd (fp - S) = -D := by rw [hDd]; ring
      rw [Real.exp_add]
      conv_lhs => rw [Rounding.rd]
      conv_lhs => enter [1, 1]; rw [Rounding.rd]
      rw [k1, hqd]
      have : D ≠ 0 := by linarith
      field_simp
      ring
    · have k1 : |R.th (5 * f) + R.th (R.rd (5 * f) / R.rd (fp - S))| ≤ 2 * R.u := by
        refine (abs_add_le _ _).trans ?_
        linarith [R.th_le (5 * f), R.th_le (R.rd (5 * f) / R.rd (fp - S))]
      have := exps k1 (by linarith)
      linarith
  obtain ⟨x, hx, hx1⟩ := hex
  rw [hx]
  obtain ⟨q', hq'⟩ : ∃ q', q' = q * (1 + x) := ⟨_, rfl⟩
  rw [← hq']
  clear hx hlt hnz
  have hq3 : |q' - δ| ≤ (κ * (181 / 10 ^ 6) + 1270 / 10 ^ 6) * |δ| := by
    have k1 : |q| ≤ 11 / 10 * |δ| := by
      have := abs_add_le (q - δ) δ
      rw [sub_add_cancel] at this
      have k2 : (346 / 10 ^ 6 + (κ * (175 / 10 ^ 6) + 885 / 10 ^ 6)) * (103 / 100) * |δ| ≤ 1 / 10 * |δ| :=
        mul_le_mul_of_nonneg_right (by linarith [hκ1.2]) (abs_nonneg _)
      linarith
    rw [hq', show q * (1 + x) - δ = (q - δ) + q * x by ring]
    refine (abs_add_le _ _).trans ?_
    rw [abs_mul]
    have k3 := mul_le_mul k1 hx1 (abs_nonneg _) (by positivity)
    have k5 : R.u * |δ| ≤ 1 / 10 ^ 9 * |δ| := mul_le_mul_of_nonneg_right hu (abs_nonneg _)
    have k6 : 0 ≤ κ * |δ| := mul_nonneg (by linarith [hκ1.1]) (abs_nonneg _)
    have k7 := abs_nonneg δ
    linarith
  have hδ14 : |δ| ≤ 132 / 10 := by
    have a1 := abs_le.mp hE
    have a2 := abs_le.mp hEδ
    rw [abs_le]; constructor <;> linarith [a1.1, a1.2, a2.1, a2.2]
  have hfin : |R.rd (E - q') - (E - q')| ≤ 671 / 100 * R.u := by
    have k1 : |E - q'| ≤ 664 / 100 := by
      have a2 := abs_le.mp hEδ
      have a3 : (κ * (181 / 10 ^ 6) + 1270 / 10 ^ 6) * |δ| ≤ 27 / 10000 * (132 / 10) := mul_le_mul (by linarith [hκ1.2]) hδ14 (abs_nonneg _) (by norm_num)
      have a4 := abs_le.mp (hq3.trans a3)
      rw [abs_le]; constructor <;> linarith [a2.1, a2.2, a4.1, a4.2]
    have := rd_err (R := R) (by linarith) k1
    linarith
  have hall : |R.rd (E - q') - (E - δ)| ≤ 1 / 200 * |δ| := by
    have a1 := abs_sub (R.rd (E - q') - (E - q')) (q' - δ)
    rw [show R.rd (E - q') - (E - q') - (q' - δ) = R.rd (E - q') - (E - δ) by ring] at a1
    have a2 : 671 / 100 * R.u ≤ 747 / 10 ^ 6 * |F| := by linarith
    have a3 := abs_nonneg δ
    rcases hκ with ⟨c1, c2⟩ | ⟨c1, c2⟩ <;> rw [c1] at hq3 <;> rw [c2] at hρ <;> linarith
  by_cases hz : δ = 0
  · refine ⟨0, by norm_num, ?_⟩
    rw [hz, abs_zero, mul_zero] at hall
    have := abs_nonpos_iff.mp hall
    rw [hz]; congr 1; linarith
  · refine ⟨-(R.rd (E - q') - (E - δ)) / δ, ?_, ?_⟩
    · rw [abs_div, div_le_iff₀ (abs_pos.mpr hz), abs_neg]; exact hall
    · congr 1; field_simp; ring

end RSolveE
end Pyorb
