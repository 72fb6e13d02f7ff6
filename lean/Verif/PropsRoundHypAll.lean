import Verif.LagHyperFit
import Verif.PropsRoundSolveHyp

/-!
# The Kepler solver with rounding converges on every hyperbola (C111)
-/

namespace Pyorb
open FX RF Lag
variable {R : Rounding}

namespace RSolveH

/-- the residual as it is computed -/
theorem hypF' {e M E : ℝ} (hu : R.u ≤ 1 / 10 ^ 9) (h1 : 1 < e) {s : ℝ} (hM0 : 0 ≤ M) (hM : e * Real.sinh s - s = M) :
    ∃ f, lagF (num R M) (num R e) (num R E) = num R f ∧ |f + Hyp.rise e s E| ≤ 304 / 100 * R.u * (M + |E| + e * |Real.sinh E|) := by
  have hu0 := R.u_nonneg
  obtain ⟨f, hf, hf1, -⟩ := lagF_near (R := R) (M := M) (E := E) (show 0 ≤ e by linarith) h1.ne'
  refine ⟨f, hf, ?_⟩
  rw [keplerTerm, if_pos h1, abs_of_nonneg hM0] at hf1
  rw [← hyp_residual h1 hM, show f + (meanOf e E - M) = f - (M - meanOf e E) by ring]
  have h3 := (le_abs_self _).trans (exps (t := 3 * R.u) (k := 3 * R.u) (by rw [abs_of_nonneg (by linarith)]) (by linarith))
  refine hf1.trans ?_
  have h4 : 0 ≤ M + |E| + e * |Real.sinh E| := by have := abs_nonneg E; have := mul_nonneg (show 0 ≤ e by linarith) (abs_nonneg (Real.sinh E)); linarith
  exact mul_le_mul_of_nonneg_right (by linarith) h4

/-- the slope as it is computed -/
theorem hypFp' {e E : ℝ} (hu : R.u ≤ 1 / 10 ^ 9) (h1 : 1 < e) (hpu : 10 ^ 5 * R.u ≤ Hyp.slope e E) :
    ∃ α, lagFp (num R e) (num R E) = num R (-(Hyp.slope e E * (1 + α))) ∧ |α| ≤ 32 / 10 ^ 6 := by
  have hu0 := R.u_nonneg
  have hp := Hyp.slope_pos h1 E
  unfold lagFp
  simp only [one_num, lt_num, h1, decide_true, if_true]
  obtain ⟨t, t1, t2⟩ := (Rel.num (R := R) e).mul (show Rel 1 (Np.cosh (num R E)) (Real.cosh E) from ⟨R.lib .cosh E, by simpa using R.lib_le .cosh E, rfl⟩)
  rw [t2, sub_num]
  have hc : e * Real.cosh E = Hyp.slope e E + 1 := by unfold Hyp.slope; ring
  obtain ⟨c, hcd⟩ : ∃ c, c = e * Real.cosh E := ⟨_, rfl⟩
  rw [← hcd] at hc ⊢
  have hc0 : 1 ≤ c := by linarith
  have h2 := exps (t := t) (k := 2 * R.u) (by linarith) (by linarith)
  have h3 : |c * Real.exp t - c| ≤ 101 / 100 * (2 * R.u) * c := by
    rw [show c * Real.exp t - c = (Real.exp t - 1) * c by ring, abs_mul, abs_of_pos (by linarith : 0 < c)]
    exact mul_le_mul_of_nonneg_right h2 (by linarith)
  have hcu : R.u * c ≤ 1 / 10 ^ 9 * c := mul_le_mul_of_nonneg_right hu (by linarith)
  have h4 := rd_err (R := R) (x := 1 - c * Real.exp t) (B := 101 / 100 * c) (by linarith) (by
    rw [abs_le] at h3 ⊢
    constructor <;> linarith [h3.1, h3.2])
  refine ⟨(-R.rd (1 - c * Real.exp t) - Hyp.slope e E) / Hyp.slope e E, ?_, ?_⟩
  · congr 1
    field_simp
    ring
  · rw [abs_div, abs_of_pos hp, div_le_iff₀ hp]
    have h5 : Hyp.slope e E = c - 1 := by linarith
    have h6 := abs_add_le (R.rd (1 - c * Real.exp t) - (1 - c * Real.exp t)) (-(c * Real.exp t - c))
    rw [show R.rd (1 - c * Real.exp t) - (1 - c * Real.exp t) + -(c * Real.exp t - c) = R.rd (1 - c * Real.exp t) + (c - 1) by ring, abs_neg, ← h5] at h6
    rw [show -R.rd (1 - c * Real.exp t) - Hyp.slope e E = -(R.rd (1 - c * Real.exp t) + Hyp.slope e E) by ring, abs_neg]
    have h7 : R.u * c = R.u * Hyp.slope e E + R.u := by rw [hc]; ring
    have h8 := mul_le_mul_of_nonneg_right hu hp.le
    linarith

/-- the expression under the root with relative errors in its parts -/
theorem rad_cond' {P X κ κ' ε u a b c : ℝ} (hP0 : 0 ≤ P) (hP : P ≤ κ * (P - X)) (hX : |X| ≤ κ' * (P - X)) (hu0 : 0 ≤ u) (hu : u ≤ 1 / 10 ^ 9)
    (hκ : κ ≤ 43) (hκ' : κ' ≤ 42) (hr : 0 < P - X) (hb : |b| ≤ ε + 6 * u) (ha : |a| ≤ 7 / 10 ^ 5) (hc : |c| ≤ 101 / 100 * u)
    (hε : κ' * ε ≤ 19 / 1000) :
    |(P * (1 + a) - X * (1 + b)) * (1 + c) - (P - X)| ≤ (κ' * ε + 302 / 10 ^ 5) * (P - X) := by
  have hκ'0 : 0 ≤ κ' := nonneg_of_mul_nonneg_left ((abs_nonneg X).trans hX) hr
  have hκ0 : 0 ≤ κ := nonneg_of_mul_nonneg_left (hP0.trans hP) hr
  have h6 : u * (P - X) ≤ 1 / 10 ^ 9 * (P - X) := mul_le_mul_of_nonneg_right hu hr.le
  have h1 : |P * a - X * b| ≤ (κ' * ε + 3011 / 10 ^ 6) * (P - X) := by
    refine (abs_sub _ _).trans ?_
    rw [abs_mul, abs_mul, abs_of_nonneg hP0]
    have e1 := mul_le_mul hP ha (abs_nonneg _) (mul_nonneg hκ0 hr.le)
    have e2 := mul_le_mul hX hb (abs_nonneg _) (mul_nonneg hκ'0 hr.le)
    have e3 : κ * ((P - X) * (7 / 10 ^ 5)) ≤ 43 * ((P - X) * (7 / 10 ^ 5)) := mul_le_mul_of_nonneg_right hκ (by positivity)
    have e4 : κ' * ((P - X) * (6 * u)) ≤ 42 * ((P - X) * (6 * u)) := mul_le_mul_of_nonneg_right hκ' (by positivity)
    linarith
  have h2 : |P * a - X * b| ≤ 4 / 100 * (P - X) := h1.trans (mul_le_mul_of_nonneg_right (by linarith) hr.le)
  have h3 : (P * (1 + a) - X * (1 + b)) * (1 + c) - (P - X) = (P * a - X * b) + ((P - X) + (P * a - X * b)) * c := by ring
  rw [h3]
  refine (abs_add_le _ _).trans ?_
  have h4 : |(P - X) + (P * a - X * b)| ≤ 104 / 100 * (P - X) := by
    refine (abs_add_le _ _).trans ?_
    rw [abs_of_pos hr]
    linarith
  have h5 : |((P - X) + (P * a - X * b)) * c| ≤ 104 / 100 * (P - X) * (101 / 100 * u) := by
    rw [abs_mul]
    exact mul_le_mul h4 hc (abs_nonneg _) (by linarith)
  linarith

/-- the denominator of the step as it is computed -/
theorem den_cond' {p S0 S α u η : ℝ} (hu : u ≤ 1 / 10 ^ 9) (hp : 0 < p) (hS0 : 1 / 2 * p ≤ S0) (hα : |α| ≤ 32 / 10 ^ 6)
    (hS : |S - S0| ≤ η * S0) (hη : η ≤ 3 / 100) {c : ℝ} (hc : |c| ≤ 101 / 100 * u) :
    |(p * (1 + α) + S) * (1 + c) - (p + S0)| ≤ (η + 5 / 10 ^ 5) * (p + S0) := by
  have hS00 : 0 < S0 := by linarith
  have hη0 : 0 ≤ η := nonneg_of_mul_nonneg_left ((abs_nonneg _).trans hS) hS00
  have hD : 0 < p + S0 := by linarith
  have h1 : |p * α + (S - S0)| ≤ (η + 32 / 10 ^ 6) * (p + S0) := by
    refine (abs_add_le _ _).trans ?_
    rw [abs_mul, abs_of_pos hp]
    have h1 := mul_le_mul_of_nonneg_left hα hp.le
    have h2 : 0 ≤ η * p := by positivity
    linarith
  have h3 : (p * (1 + α) + S) * (1 + c) - (p + S0) = (p * α + (S - S0)) + ((p + S0) + (p * α + (S - S0))) * c := by ring
  have h4 : |(p + S0) + (p * α + (S - S0))| ≤ 104 / 100 * (p + S0) := by
    refine (abs_add_le _ _).trans ?_
    rw [abs_of_pos hD]
    have : (η + 32 / 10 ^ 6) * (p + S0) ≤ 4 / 100 * (p + S0) := mul_le_mul_of_nonneg_right (by linarith) hD.le
    linarith
  have h5 : |((p + S0) + (p * α + (S - S0))) * c| ≤ 104 / 100 * (p + S0) * (101 / 100 * u) := by
    rw [abs_mul]
    exact mul_le_mul h4 hc (abs_nonneg _) (by linarith)
  rw [h3]
  refine (abs_add_le _ _).trans ?_
  have : u * (p + S0) ≤ 1 / 10 ^ 9 * (p + S0) := mul_le_mul_of_nonneg_right hu hD.le
  linarith

set_option maxHeartbeats 1000000 in
/-- the correction that one step computes: relative error -/
theorem step_cond' {tol : ℝ} {mi : Int} {e M E f F ε κ κ' : ℝ} (hu : R.u ≤ 1 / 10 ^ 9) (h1 : 1 < e) (hpu : 10 ^ 5 * R.u ≤ Hyp.slope e E)
    (hf : lagF (num R M) (num R e) (num R E) = num R f) (hfF : |f + F| ≤ ε * |F|) (hε0 : 0 ≤ ε) (hε : ε ≤ 1 / 50) (hκ : κ ≤ 43) (hκ' : κ' ≤ 42)
    (hκε : κ' * ε ≤ 19 / 1000) (hfar : 3 / 8 * Hyp.slope e E ^ 2 ≤ 16 * Hyp.slope e E ^ 2 - 20 * F * (e * Real.sinh E))
    (hup : 16 * Hyp.slope e E ^ 2 - 20 * F * (e * Real.sinh E) ≤ 625 * Hyp.slope e E ^ 2)
    (hP : 16 * Hyp.slope e E ^ 2 ≤ κ * (16 * Hyp.slope e E ^ 2 - 20 * F * (e * Real.sinh E)))
    (hX : |20 * F * (e * Real.sinh E)| ≤ κ' * (16 * Hyp.slope e E ^ 2 - 20 * F * (e * Real.sinh E))) :
    ∃ q, lagNext (ropts R tol mi 5) (num R M) (num R e) (num R E) = num R (R.rd (E - q)) ∧
      |q - delta F (Hyp.slope e E) (e * Real.sinh E)| ≤ (106 / 100 * ε + 54 / 100 * (κ' * ε) + 17 / 10 ^ 4) * |delta F (Hyp.slope e E) (e * Real.sinh E)| := by
  have hu0 := R.u_nonneg
  have hp := Hyp.slope_pos h1 E
  obtain ⟨α, hfp, hα⟩ := hypFp' (R := R) hu h1 hpu
  obtain ⟨t, hfpp, ht⟩ := hypFpp (R := R) h1 E
  have e4 : (num R 5 - 1 : RF R) = num R 4 := by
    rw [one_num, sub_num, show (5 - 1 : ℝ) = 4 by norm_num, rd_quarter 16 (by norm_num) (by norm_num)]
  have e16 : R.rd (4 * 4) = 16 := by
    rw [show (4 * 4 : ℝ) = 16 by norm_num, rd_quarter 64 (by norm_num) (by norm_num)]
  have e20 : (num R 5 * num R 4 : RF R) = num R 20 := by
    rw [mul_num, show (5 * 4 : ℝ) = 20 by norm_num, rd_quarter 80 (by norm_num) (by norm_num)]
  obtain ⟨β, hβf, hβ⟩ : ∃ β, f = -(F * (1 + β)) ∧ |β| ≤ ε := by
    by_cases hF : F = 0
    · subst hF
      simp at hfF
      exact ⟨0, by simp [hfF], by simpa using hε0⟩
    · refine ⟨(-f - F) / F, by field_simp; ring, ?_⟩
      rw [abs_div, div_le_iff₀ (abs_pos.mpr hF), show -f - F = -(f + F) by ring, abs_neg]
      exact hfF
  unfold lagNext lagStep
  simp only [ropts, hf, hfp, hfpp, e4, e20, sq]
  simp only [abs_num, sqrt_num (abs_nonneg _), sub_num, add_num, lt_num, mul_num, e16, decide_eq_true_eq]
  set p := Hyp.slope e E with hpd
  set w := e * Real.sinh E with hwd
  obtain ⟨fp, hfpd⟩ : ∃ fp, fp = -(p * (1 + α)) := ⟨_, rfl⟩
  rw [← hfpd]
  obtain ⟨r0, hr0⟩ : ∃ r0, r0 = 16 * p ^ 2 - 20 * F * w := ⟨_, rfl⟩
  have hr0p : 3 / 8 * p ^ 2 ≤ r0 := by rw [hr0]; exact hfar
  have hpp : 0 < p ^ 2 := by positivity
  have hr0pos : 0 < r0 := by linarith
  -- the radicand
  obtain ⟨rad, hrad⟩ : ∃ rad, rad = R.rd (R.rd (16 * R.rd (fp * fp)) - R.rd (R.rd (20 * f) * (-w * Real.exp t))) := ⟨_, rfl⟩
  rw [← hrad]
  have hradc : |rad - r0| ≤ (κ' * ε + 302 / 10 ^ 5) * r0 := by
    obtain ⟨A, hA, hA1⟩ : ∃ A, R.rd (16 * R.rd (fp * fp)) = 16 * p ^ 2 * (1 + A) ∧ |A| ≤ 7 / 10 ^ 5 := by
      refine ⟨(1 + α) ^ 2 * Real.exp (R.th (fp * fp) + R.th (16 * R.rd (fp * fp))) - 1, ?_, ?_⟩
      · rw [Real.exp_add]
        conv_lhs => rw [Rounding.rd]
        conv_lhs => enter [1, 2]; rw [Rounding.rd]
        rw [hfpd]; ring
      · have k1 : |R.th (fp * fp) + R.th (16 * R.rd (fp * fp))| ≤ 2 * R.u := by
          refine (abs_add_le _ _).trans ?_
          linarith [R.th_le (fp * fp), R.th_le (16 * R.rd (fp * fp))]
        have k2 := exps k1 (by linarith)
        generalize Real.exp (R.th (fp * fp) + R.th (16 * R.rd (fp * fp))) = x at k2 ⊢
        have k3 : (1 + α) ^ 2 * x - 1 = (2 * α + α * α) + (1 + (2 * α + α * α)) * (x - 1) := by ring
        have k4 : |α * α| ≤ 1 / 10 ^ 8 := by
          rw [abs_mul]
          have := mul_le_mul hα hα (abs_nonneg _) (by norm_num)
          linarith
        have k5 : |2 * α + α * α| ≤ 66 / 10 ^ 6 := by
          refine (abs_add_le _ _).trans ?_
          rw [abs_mul, abs_of_pos (show (0 : ℝ) < 2 by norm_num)]
          linarith
        have k6 : |1 + (2 * α + α * α)| ≤ 101 / 100 := by
          rw [abs_le] at k5 ⊢
          constructor <;> linarith [k5.1, k5.2]
        rw [k3]
        refine (abs_add_le _ _).trans ?_
        rw [abs_mul (1 + (2 * α + α * α))]
        have := mul_le_mul k6 k2 (abs_nonneg _) (by norm_num)
        linarith
    obtain ⟨B, hB, hB1⟩ : ∃ B, R.rd (R.rd (20 * f) * (-w * Real.exp t)) = 20 * F * w * (1 + B) ∧ |B| ≤ ε + 6 * R.u := by
      refine ⟨(1 + β) * Real.exp (R.th (20 * f) + t + R.th (R.rd (20 * f) * (-w * Real.exp t))) - 1, ?_, ?_⟩
      · rw [Real.exp_add, Real.exp_add]
        conv_lhs => rw [Rounding.rd]
        conv_lhs => enter [1, 1]; rw [Rounding.rd]
        generalize Real.exp (R.th (R.rd (20 * f) * (-w * Real.exp t))) = x1
        generalize Real.exp (R.th (20 * f)) = x2
        rw [hβf]; ring
      · have k1 : |R.th (20 * f) + t + R.th (R.rd (20 * f) * (-w * Real.exp t))| ≤ 4 * R.u := by
          refine (abs_add_le _ _).trans ?_
          have := abs_add_le (R.th (20 * f)) t
          linarith [R.th_le (20 * f), R.th_le (R.rd (20 * f) * (-w * Real.exp t))]
        have k2 := exps k1 (by linarith)
        generalize Real.exp (R.th (20 * f) + t + R.th (R.rd (20 * f) * (-w * Real.exp t))) = x at k2 ⊢
        have k3 : (1 + β) * x - 1 = β + (1 + β) * (x - 1) := by ring
        have k6 : |1 + β| ≤ 51 / 50 := by
          rw [abs_le] at hβ ⊢
          constructor <;> linarith [hβ.1, hβ.2]
        rw [k3]
        refine (abs_add_le _ _).trans ?_
        rw [abs_mul (1 + β)]
        have := mul_le_mul k6 k2 (abs_nonneg _) (by norm_num)
        linarith
    rw [hrad, rd_eq, hA, hB]
    rw [hr0] at hr0pos ⊢
    exact rad_cond' (by positivity) hP hX hu0 hu hκ hκ' hr0pos hB1 hA1 (rd_small hu _) hκε
  have hη1 : κ' * ε + 302 / 10 ^ 5 ≤ 1 / 25 := by linarith
  have hradp : 0 < rad := by
    have := (abs_le.mp hradc).1
    have := mul_le_mul_of_nonneg_right hη1 hr0pos.le
    linarith
  rw [abs_of_pos hradp]
  have hS1 := Hyp.sqrt_cond hr0pos hη1 hradc
  obtain ⟨S0, hS0⟩ : ∃ S0, S0 = √r0 := ⟨_, rfl⟩
  have hS0p : 1 / 2 * p ≤ S0 := by
    rw [hS0]
    refine Real.le_sqrt_of_sq_le ?_
    nlinarith
  have hS0u : S0 ≤ 25 * p := by
    rw [hS0]
    refine Real.sqrt_le_iff.mpr ⟨by linarith, ?_⟩
    rw [hr0, mul_pow]
    linarith
  have hκε0 : 0 ≤ κ' * ε + 302 / 10 ^ 5 := by
    by_contra hn
    have := (abs_nonneg _).trans hradc
    nlinarith
  rw [← hS0] at hS1
  obtain ⟨S, hSd⟩ : ∃ S, S = R.rd (√rad) := ⟨_, rfl⟩
  rw [← hSd]
  have hS00 : 0 ≤ S0 := by linarith
  have hSS : |S - S0| ≤ (51 / 100 * (κ' * ε + 302 / 10 ^ 5) + 2 * R.u) * S0 := by
    have k1 : |√rad| ≤ 103 / 100 * S0 := by
      have := abs_add_le (√rad - S0) S0
      rw [sub_add_cancel, abs_of_nonneg hS00] at this
      have k2 : 51 / 100 * (κ' * ε + 302 / 10 ^ 5) * S0 ≤ 51 / 100 * (1 / 25) * S0 :=
        mul_le_mul_of_nonneg_right (mul_le_mul_of_nonneg_left hη1 (by norm_num)) hS00
      linarith
    have k2 := rd_err (R := R) (by linarith) k1
    rw [← hSd] at k2
    have := abs_add_le (S - √rad) (√rad - S0)
    rw [sub_add_sub_cancel] at this
    have : 0 ≤ R.u * S0 := mul_nonneg hu0 hS00
    linarith
  -- the denominator
  have hD := den_cond' hu hp hS0p hα hSS (by linarith) (rd_small hu (fp - S))
  obtain ⟨D, hDd⟩ : ∃ D, D = -R.rd (fp - S) := ⟨_, rfl⟩
  have hDe : (p * (1 + α) + S) * (1 + (Real.exp (R.th (fp - S)) - 1)) = D := by
    rw [hDd, rd_eq (fp - S)]
    rw [hfpd]; ring
  rw [hDe] at hD
  have hD0 : 0 < p + S0 := by linarith
  have hθ : 51 / 100 * (κ' * ε + 302 / 10 ^ 5) + 2 * R.u + 5 / 10 ^ 5 ≤ 1 / 50 := by linarith
  have hDp : 49 / 50 * (p + S0) ≤ D := by
    have := (abs_le.mp hD).1
    have := mul_le_mul_of_nonneg_right hθ hD0.le
    linarith
  have hSlo := abs_le.mp hSS
  have hSb : (51 / 100 * (κ' * ε + 302 / 10 ^ 5) + 2 * R.u) * S0 ≤ 1 / 25 * S0 := mul_le_mul_of_nonneg_right (by linarith) hS00
  have hlt : ¬ |R.rd (fp - S)| < |R.rd (fp + S)| := by
    rw [not_lt, show |R.rd (fp - S)| = D by rw [show R.rd (fp - S) = -D by rw [hDd]; ring, abs_neg, abs_of_pos (by linarith)]]
    have k0 : |p * α| ≤ 1 / 10 ^ 4 * p := by
      rw [abs_mul, abs_of_pos hp, mul_comm]
      exact mul_le_mul_of_nonneg_right (by linarith) hp.le
    have k1 : |fp + S| ≤ p * (1 + α) + S - 9 / 10 * p := by
      rw [hfpd]
      rw [abs_le] at k0 ⊢
      constructor <;> linarith [k0.1, k0.2]
    have k2 := rd_err (R := R) (x := fp + S) (by linarith) k1
    have k3 := abs_add_le (R.rd (fp + S) - (fp + S)) (fp + S)
    rw [sub_add_cancel] at k3
    have k4 : p * (1 + α) + S ≤ 28 * p := by
      rw [abs_le] at k0
      linarith [k0.2]
    have k4' : 0 ≤ p * (1 + α) + S - 9 / 10 * p := (abs_nonneg _).trans k1
    have k5 := abs_le.mp (rd_err (R := R) (x := fp - S) (B := p * (1 + α) + S) (by linarith) (by
      rw [show fp - S = -(p * (1 + α) + S) by rw [hfpd]; ring, abs_neg, abs_of_nonneg (by linarith)]))
    have k6 : R.u * (p * (1 + α) + S) ≤ 1 / 10 ^ 9 * (28 * p) := mul_le_mul hu k4 (by linarith) (by norm_num)
    have k7 : R.u * (p * (1 + α) + S - 9 / 10 * p) ≤ R.u * (p * (1 + α) + S) := mul_le_mul_of_nonneg_left (by linarith) hu0
    have k8 : fp - S = -(p * (1 + α) + S) := by rw [hfpd]; ring
    rw [k8] at k5 hDd
    linarith [k5.2]
  rw [if_neg hlt]
  have hnz : R.rd (fp - S) ≠ 0 := by
    intro h
    rw [h] at hDd
    linarith
  rw [div_num _ hnz, sub_num]
  refine ⟨_, rfl, ?_⟩
  -- the quotient
  have hδ : delta F p w = 5 * F / (p + S0) := by
    rw [delta, ← hr0, abs_of_pos hr0pos, hS0]
  rw [hδ]
  have hq := Hyp.quot_cond (F := F) (f := -f) (ε := ε) hD0 (by rw [show -f - F = -(f + F) by ring, abs_neg]; exact hfF) hθ hD
  obtain ⟨δ, hδd⟩ : ∃ δ, δ = 5 * F / (p + S0) := ⟨_, rfl⟩
  rw [← hδd] at hq ⊢
  obtain ⟨q, hqd⟩ : ∃ q, q = 5 * -f / D := ⟨_, rfl⟩
  rw [← hqd] at hq
  have hex : ∃ x, R.rd (R.rd (5 * f) / R.rd (fp - S)) = q * (1 + x) ∧ |x| ≤ 3 * R.u := by
    refine ⟨Real.exp (R.th (5 * f) + R.th (R.rd (5 * f) / R.rd (fp - S))) - 1, ?_, ?_⟩
    · have k1 : R.rd (fp - S) = -D := by rw [hDd]; ring
      rw [Real.exp_add]
      conv_lhs => rw [Rounding.rd]
      conv_lhs => enter [1, 1]; rw [Rounding.rd]
      rw [k1, hqd]
      have : D ≠ 0 := by linarith
      field_simp
      ring
    · have k1 : |R.th (5 * f) + R.th (R.rd (5 * f) / R.rd (fp - S))| ≤ 2 * R.u := by
        refine (abs_add_le _ _).trans ?_
        linarith [R.th_le (5 * f), R.th_le (R.rd (5 * f) / R.rd (fp - S))]
      have := exps k1 (by linarith)
      linarith
  obtain ⟨x, hx, hx1⟩ := hex
  rw [hx]
  have k1 : |q| ≤ 11 / 10 * |δ| := by
    have := abs_add_le (q - δ) δ
    rw [sub_add_cancel] at this
    have k2 : (ε + (51 / 100 * (κ' * ε + 302 / 10 ^ 5) + 2 * R.u + 5 / 10 ^ 5)) * (103 / 100) * |δ| ≤ 1 / 10 * |δ| :=
      mul_le_mul_of_nonneg_right (by linarith) (abs_nonneg _)
    linarith
  rw [show q * (1 + x) - δ = (q - δ) + q * x by ring]
  refine (abs_add_le _ _).trans ?_
  rw [abs_mul]
  have k3 := mul_le_mul k1 hx1 (abs_nonneg _) (by positivity)
  have k4 : (ε + (51 / 100 * (κ' * ε + 302 / 10 ^ 5) + 2 * R.u + 5 / 10 ^ 5)) * (103 / 100) + 33 / 10 * R.u ≤ 106 / 100 * ε + 54 / 100 * (κ' * ε) + 17 / 10 ^ 4 := by
    have : 0 ≤ κ' * ε + 302 / 10 ^ 5 := hκε0
    linarith
  have k5 := mul_le_mul_of_nonneg_right k4 (abs_nonneg δ)
  linarith

/-- the starting value as it is computed -/
theorem guess_hyp' {e M s : ℝ} (hu : R.u ≤ 1 / 10 ^ 9) (hus : R.u * (10 + s) ≤ 1 / 10 ^ 8) (h1 : 1 < e) (hs : 0 ≤ s) (hM : e * Real.sinh s - s = M) :
    ∃ g, get_hyperbolic_kepler_guess (num R M) (num R e) = num R g ∧ |g - Hyp.guess e M| ≤ 1 / 10 ^ 6 := by
  have hu0 := R.u_nonneg
  have he0 : 0 < e := by linarith
  have hM0 : 0 ≤ M := by
    have := Real.self_le_sinh_iff.mpr hs
    nlinarith
  unfold get_hyperbolic_kepler_guess
  rw [two_num, mul_num, div_num _ (by linarith : e ≠ 0)]
  have hl : (Np.lit (18 / 10) : RF R) = num R (R.rd (18 / 10)) := by
    show (⟨R.round (fin ((18 / 10 : ℚ) : ℝ))⟩ : RF R) = _
    norm_num
    rfl
  rw [hl, add_num]
  obtain ⟨Q, hQ⟩ : ∃ Q, Q = 2 * M / e := ⟨_, rfl⟩
  have hQ0 : 0 ≤ Q := by rw [hQ]; positivity
  have hg : Hyp.guess e M = Real.log (Q + 9 / 5) := by rw [Hyp.guess, hQ]
  obtain ⟨a, ha, ha1⟩ : ∃ a, R.rd (R.rd (2 * M) / e) = Q * (1 + a) ∧ |a| ≤ 3 * R.u := by
    refine ⟨Real.exp (R.th (2 * M) + R.th (R.rd (2 * M) / e)) - 1, ?_, ?_⟩
    · rw [Real.exp_add]
      conv_lhs => rw [Rounding.rd]
      conv_lhs => enter [1, 1]; rw [Rounding.rd]
      rw [hQ]; field_simp
      ring
    · have := exps (t := R.th (2 * M) + R.th (R.rd (2 * M) / e)) (k := 2 * R.u) (by
        refine (abs_add_le _ _).trans ?_
        linarith [R.th_le (2 * M), R.th_le (R.rd (2 * M) / e)]) (by linarith)
      linarith
  obtain ⟨b, hb, hb1⟩ : ∃ b, R.rd (18 / 10) = 9 / 5 * (1 + b) ∧ |b| ≤ 3 * R.u :=
    ⟨Real.exp (R.th (18 / 10)) - 1, by rw [Rounding.rd]; ring, by have := rd_small (R := R) hu (18 / 10); linarith⟩
  rw [ha, hb]
  obtain ⟨c, hc, hc1⟩ : ∃ c, R.rd (Q * (1 + a) + 9 / 5 * (1 + b)) = (Q + 9 / 5) * (1 + c) ∧ |c| ≤ 5 * R.u := by
    have hq : 0 < Q + 9 / 5 := by linarith
    refine ⟨(R.rd (Q * (1 + a) + 9 / 5 * (1 + b)) - (Q + 9 / 5)) / (Q + 9 / 5), by field_simp; ring, ?_⟩
    rw [abs_div, abs_of_pos hq, div_le_iff₀ hq]
    have k1 : |Q * a + 9 / 5 * b| ≤ 3 * R.u * (Q + 9 / 5) := by
      refine (abs_add_le _ _).trans ?_
      rw [abs_mul, abs_mul, abs_of_nonneg hQ0, abs_of_pos (by norm_num : (0 : ℝ) < 9 / 5)]
      have := mul_le_mul_of_nonneg_left ha1 hQ0
      linarith
    have k2 := rd_err (R := R) (x := Q * (1 + a) + 9 / 5 * (1 + b)) (B := 101 / 100 * (Q + 9 / 5)) (by linarith) (by
      rw [show Q * (1 + a) + 9 / 5 * (1 + b) = (Q + 9 / 5) + (Q * a + 9 / 5 * b) by ring]
      refine (abs_add_le _ _).trans ?_
      rw [abs_of_pos hq]
      have : R.u * (Q + 9 / 5) ≤ 1 / 10 ^ 9 * (Q + 9 / 5) := mul_le_mul_of_nonneg_right hu hq.le
      linarith)
    have k3 := abs_add_le (R.rd (Q * (1 + a) + 9 / 5 * (1 + b)) - (Q * (1 + a) + 9 / 5 * (1 + b))) (Q * a + 9 / 5 * b)
    rw [show R.rd (Q * (1 + a) + 9 / 5 * (1 + b)) - (Q * (1 + a) + 9 / 5 * (1 + b)) + (Q * a + 9 / 5 * b)
      = R.rd (Q * (1 + a) + 9 / 5 * (1 + b)) - (Q + 9 / 5) by ring] at k3
    have : 0 ≤ R.u * (Q + 9 / 5) := mul_nonneg hu0 hq.le
    linarith
  rw [hc]
  have hcc := abs_le.mp hc1
  have hpos : 0 < (Q + 9 / 5) * (1 + c) := mul_pos (by linarith) (by linarith)
  refine ⟨Real.log ((Q + 9 / 5) * (1 + c)) * Real.exp (R.lib .log ((Q + 9 / 5) * (1 + c))), ?_, ?_⟩
  · show (⟨R.libRound .log (fin ((Q + 9 / 5) * (1 + c))) (Np.log (fin ((Q + 9 / 5) * (1 + c))))⟩ : RF R) = _
    rw [FX.log_fin hpos]
    rfl
  · have k1 : |Real.log (1 + c)| ≤ 6 * R.u := by
      have l1 := Real.log_le_sub_one_of_pos (show 0 < 1 + c by linarith)
      have l2 := Real.one_sub_inv_le_log_of_pos (show 0 < 1 + c by linarith)
      have l3 : (1 + c)⁻¹ ≤ 1 + 6 * R.u := by
        rw [inv_le_comm₀ (by linarith) (by linarith), inv_le_iff_one_le_mul₀ (by linarith)]
        nlinarith
      rw [abs_le]
      constructor <;> linarith
    have k2 := exps (R.lib_le .log ((Q + 9 / 5) * (1 + c))) (by linarith)
    rw [Real.log_mul (by linarith) (by linarith), ← hg]
    generalize Real.exp (R.lib .log ((Q + 9 / 5) * (1 + c))) = x at k2 ⊢
    have k3 := Hyp.guess_size h1 hs hM
    rw [show (Hyp.guess e M + Real.log (1 + c)) * x - Hyp.guess e M = Real.log (1 + c) + (Hyp.guess e M + Real.log (1 + c)) * (x - 1) by ring]
    refine (abs_add_le _ _).trans ?_
    rw [abs_mul]
    have k4 : |Hyp.guess e M + Real.log (1 + c)| ≤ 11 + s := by
      refine (abs_add_le _ _).trans ?_
      linarith
    have k5 := mul_le_mul k4 k2 (abs_nonneg _) (by linarith)
    linarith

/-- one step of the loop while it goes on -/
theorem lagNext_hyp' {tol : ℝ} {mi : Int} {e M s E : ℝ} (hu : R.u ≤ 1 / 10 ^ 9) (h1 : 1 < e) (hs : 0 ≤ s) (hM : e * Real.sinh s - s = M)
    (ht : 0 < tol) (ht1 : tol ≤ 1 / 10 ^ 9) (htu : 100 * R.u * ((M + e) * (10 + s)) ≤ tol) (hr : Hyp.Good e s E)
    (hgo : lagGoesOn (ropts R tol mi 5) (num R M) (num R e) (num R E)) :
    ∃ E', lagNext (ropts R tol mi 5) (num R M) (num R e) (num R E) = num R E' ∧ Hyp.Good e s E' ∧ Hyp.dist s E' ≤ 9 / 10 * Hyp.dist s E := by
  have hu0 := R.u_nonneg
  obtain ⟨hM0, -⟩ := Hyp.mean_le h1 hs hM
  obtain ⟨f, hf, hfe⟩ := hypF' (R := R) (E := E) hu h1 hM0 hM
  rw [lagGoesOn, hf] at hgo
  simp only [ropts, abs_num, le_num, decide_eq_true_eq] at hgo
  have hv0 : 0 ≤ R.u * (M + e) := mul_nonneg hu0 (by linarith)
  have hvs : 0 ≤ R.u * (M + e) * s := mul_nonneg hv0 hs
  have hτ : 98 / 100 * tol ≤ |Hyp.rise e s E| := by
    have k1 := abs_sub (f + Hyp.rise e s E) (Hyp.rise e s E)
    rw [add_sub_cancel_right] at k1
    have k2 := mul_le_mul_of_nonneg_left (Hyp.terms_good h1 hs hM hr) (show 0 ≤ 304 / 100 * R.u by linarith)
    linarith
  obtain ⟨ε, κ, κ', l, hfit, hε0, hε1, hκ0, hκ, hκ', hκε, hl, hfar⟩ := Hyp.fit_good (τ := 98 / 100 * tol) h1 hs hM hr hu0 (by linarith) (by linarith) hτ
    (by linarith) (by linarith)
  obtain ⟨q, hq1, hq2⟩ := step_cond' (tol := tol) (mi := mi) (ε := ε) (κ := κ) (κ' := κ') hu h1 hfit.slope_big hf (hfe.trans hfit.noise) hε0 (by linarith)
    hκ hκ' hκε hfit.low hfit.high hfit.square hfit.second
  have hnext : delta (Hyp.rise e s E) (Hyp.slope e E) (e * Real.sinh E) = E - Hyp.next e s E := by unfold Hyp.next; ring
  rw [hnext] at hq2
  have hlast := hfit.last
  obtain ⟨δ, hδ⟩ : ∃ δ, δ = E - Hyp.next e s E := ⟨_, rfl⟩
  rw [← hδ] at hq2 hlast
  obtain ⟨m, hm⟩ : ∃ m, m = 106 / 100 * ε + 54 / 100 * (κ' * ε) + 17 / 10 ^ 4 := ⟨_, rfl⟩
  rw [← hm] at hq2
  have hδa := abs_nonneg δ
  have hm1 : m ≤ 1 / 10 := by linarith
  have hqa : |q| ≤ 11 / 10 * |δ| := by
    have := abs_add_le (q - δ) δ
    rw [sub_add_cancel] at this
    have := mul_le_mul_of_nonneg_right hm1 hδa
    linarith
  have herr : |R.rd (E - q) - (E - δ)| ≤ (m + 101 / 100 * l + 1 / 10 ^ 6) * |δ| := by
    have k1 := rd_err (R := R) (x := E - q) (by linarith) (abs_sub E q)
    have k2 := abs_sub (R.rd (E - q) - (E - q)) (q - δ)
    rw [show R.rd (E - q) - (E - q) - (q - δ) = R.rd (E - q) - (E - δ) by ring] at k2
    have k3 := mul_le_mul hu hqa (abs_nonneg _) (by norm_num)
    linarith
  refine ⟨_, hq1, ?_⟩
  obtain ⟨x, hx1, hx2⟩ : ∃ x, R.rd (E - q) = Hyp.pnext x e s E ∧ |x| ≤ m + 101 / 100 * l + 1 / 10 ^ 6 := by
    by_cases hz : δ = 0
    · rw [hz, abs_zero, mul_zero] at herr
      have k1 := abs_eq_zero.mp (le_antisymm herr (abs_nonneg _))
      refine ⟨0, ?_, ?_⟩
      · unfold Hyp.pnext
        rw [← hδ, hz]
        linarith
      · rw [abs_zero]
        have k2 : 0 ≤ l := by
          have k3 := (abs_pos.mp (lt_of_lt_of_le (show 0 < 98 / 100 * tol by linarith) hτ))
          exfalso
          have k4 := hfit.low
          have k5 := Hyp.slope_pos h1 E
          rw [← hnext] at hδ
          rw [hz, delta] at hδ
          have k6 : 5 * Hyp.rise e s E ≠ 0 := mul_ne_zero (by norm_num) k3
          have k7 : Hyp.slope e E + √|16 * Hyp.slope e E ^ 2 - 20 * Hyp.rise e s E * (e * Real.sinh E)| ≠ 0 :=
            (add_pos_of_pos_of_nonneg k5 (Real.sqrt_nonneg _)).ne'
          exact div_ne_zero k6 k7 hδ.symm
        have k3 : 0 ≤ κ' * ε := mul_nonneg (by
          have k4 := hfit.low
          have k5 := Hyp.slope_pos h1 E
          have k6 : 0 < Hyp.slope e E ^ 2 := by positivity
          exact nonneg_of_mul_nonneg_left ((abs_nonneg _).trans hfit.second) (by linarith)) hε0
        linarith
    · refine ⟨(E - R.rd (E - q)) / δ - 1, ?_, ?_⟩
      · unfold Hyp.pnext
        rw [← hδ]
        field_simp
        ring
      · rw [show (E - R.rd (E - q)) / δ - 1 = -(R.rd (E - q) - (E - δ)) / δ by field_simp; ring, abs_div, abs_neg, div_le_iff₀ (abs_pos.mpr hz)]
        exact herr
  rw [hx1]
  refine Hyp.pgood_step h1 hs hr (by linarith) ?_
  intro k1 k2
  obtain ⟨k3, k4⟩ := hfar k1 k2
  have k5 : κ' * ε ≤ 42 * ε := mul_le_mul_of_nonneg_right hκ' hε0
  linarith

/-- the iterates while the loop goes on -/
theorem lagIter_hyp' {tol : ℝ} {mi : Int} {e M s E0 : ℝ} (hu : R.u ≤ 1 / 10 ^ 9) (h1 : 1 < e) (hs : 0 ≤ s) (hM : e * Real.sinh s - s = M)
    (ht : 0 < tol) (ht1 : tol ≤ 1 / 10 ^ 9) (htu : 100 * R.u * ((M + e) * (10 + s)) ≤ tol) (hr : Hyp.Good e s E0) (hd : Hyp.dist s E0 ≤ 7 / 5) (n : Nat)
    (hgo : ∀ k < n, lagGoesOn (ropts R tol mi 5) (num R M) (num R e) ((lagNext (ropts R tol mi 5) (num R M) (num R e))^[k] (num R E0))) :
    ∃ E, (lagNext (ropts R tol mi 5) (num R M) (num R e))^[n] (num R E0) = num R E ∧ Hyp.Good e s E ∧ Hyp.dist s E ≤ 7 / 5 * (9 / 10) ^ n := by
  induction n with
  | zero => exact ⟨E0, rfl, hr, by rw [pow_zero]; linarith⟩
  | succ n ih =>
    obtain ⟨E, k1, k2, k3⟩ := ih (fun k hk => hgo k (by omega))
    have hg := hgo n (by omega)
    rw [k1] at hg
    obtain ⟨E', k4, k5, k6⟩ := lagNext_hyp' hu h1 hs hM ht ht1 htu k2 hg
    refine ⟨E', by rw [Function.iterate_succ_apply', k1, k4], k5, ?_⟩
    rw [pow_succ]
    linarith

/-- the solver stops after at most `N` steps -/
theorem solve_hyp' {tol : ℝ} {mi : Int} {e M s : ℝ} (h1 : 1 < e) (hs : 0 ≤ s) (hM : e * Real.sinh s - s = M) (ht : 0 < tol) (ht1 : tol ≤ 1 / 10 ^ 9)
    (htu : 100 * R.u * ((M + e) * (10 + s)) ≤ tol) (N : Nat) (hN : 15 * (M + e) * (9 / 10 : ℝ) ^ N ≤ tol) (hmi : N < mi) :
    ∃ (E : ℝ) (n : Nat), laguerre_solve_kepler (get_hyperbolic_kepler_guess (num R M) (num R e)) (num R M) (num R e) (ropts R tol mi 5) = (num R E, (n : Int)) ∧
      n ≤ N ∧ |e * Real.sinh E - E - M| < tol + 19 * R.u * (M + e) := by
  have hu0 := R.u_nonneg
  obtain ⟨hM0, -⟩ := Hyp.mean_le h1 hs hM
  have hus : R.u * (10 + s) ≤ 1 / 10 ^ 8 := by
    have := mul_le_mul_of_nonneg_right (show 1 ≤ M + e by linarith) (mul_nonneg hu0 (show 0 ≤ 10 + s by linarith))
    linarith
  have hu : R.u ≤ 1 / 10 ^ 9 := by
    have := mul_nonneg hu0 hs
    linarith
  obtain ⟨E0, hE0, hd⟩ := guess_hyp' (R := R) hu hus h1 hs hM
  obtain ⟨hr, hd0⟩ := Hyp.guess_near h1 hs hM hd
  rw [hE0]
  obtain ⟨n, h3, h4, h5, h6⟩ := c11_terminates (num R E0) (num R M) (num R e) (ropts R tol mi 5)
  have goes : ∀ E, Hyp.Good e s E → ∃ f, (lagGoesOn (ropts R tol mi 5) (num R M) (num R e) (num R E) ↔ tol ≤ |f|) ∧
      |f + Hyp.rise e s E| ≤ 1824 / 100 * (R.u * (M + e)) := by
    intro E hE
    obtain ⟨f, hf, f1⟩ := hypF' (R := R) (E := E) hu h1 hM0 hM
    refine ⟨f, ?_, ?_⟩
    · rw [lagGoesOn, hf]
      simp only [ropts, abs_num, le_num, decide_eq_true_eq]
    · have := mul_le_mul_of_nonneg_left (Hyp.terms_good h1 hs hM hE) (show 0 ≤ 304 / 100 * R.u by linarith)
      linarith
  have hue0 : 0 ≤ R.u * (M + e) := mul_nonneg hu0 (by linarith)
  have hues0 : 0 ≤ R.u * (M + e) * s := mul_nonneg hue0 hs
  have hnN : n ≤ N := by
    by_contra hlt
    push Not at hlt
    obtain ⟨E, k1, k2, k3⟩ := lagIter_hyp' (tol := tol) (mi := mi) hu h1 hs hM ht ht1 htu hr hd0 N (fun k hk => h5 k (by omega))
    have k4 := h5 N hlt
    rw [k1] at k4
    obtain ⟨f, q1, q2⟩ := goes E k2
    have k5 := q1.mp k4
    obtain ⟨-, -, k6⟩ := Hyp.guess_good h1 hs hM
    have k7 := mul_le_mul k6 k3 (Hyp.dist_nonneg s E) (show 0 ≤ 10 * (M + e) by linarith)
    have k8 := Hyp.rise_le_dist h1 hs k2
    have k9 := abs_sub (f + Hyp.rise e s E) (Hyp.rise e s E)
    rw [add_sub_cancel_right] at k9
    linarith
  obtain ⟨E, k1, k2, k3⟩ := lagIter_hyp' (tol := tol) (mi := mi) hu h1 hs hM ht ht1 htu hr hd0 n h5
  rw [k1] at h3 h6
  refine ⟨E, n, h3, hnN, ?_⟩
  obtain ⟨f, q1, q2⟩ := goes E k2
  have k4 := h6 (lt_of_lt_of_le (by exact_mod_cast lt_of_le_of_lt (by exact_mod_cast hnN) hmi) (le_max_right 1 mi))
  rw [q1, not_le] at k4
  rw [show e * Real.sinh E - E - M = (f + Hyp.rise e s E) - f by rw [← hM]; unfold Hyp.rise; ring]
  have := abs_sub (f + Hyp.rise e s E) f
  linarith

end RSolveH

/-! ## C111 -/

open RSolveH RHyper Orbit

/-- C111: on every hyperbola (`e > 1`, however close to 1), for a mean anomaly `M ≥ 0` with the exact hyperbolic anomaly `Es`, in every arithmetic whose
unit roundoff `u` satisfies `100 u (M + e) (10 + Es) ≤ tol`, for a tolerance of at most 1e-9: the iteration limit is not reached.  The solver stops after at
most `N` steps when `15 (M + e) 0.9^N ≤ tol` and `max_iter > N`, and `mean_to_eccentric` returns a number that solves Kepler's equation (evaluated exactly)
up to `tol + 19 u (M + e)`; its distance to `Es` is at most `1 / (e - 1)` times that, and the cube of its distance at most 24 times that. -/
theorem c111 (tol : ℝ) (ht : 0 < tol) (ht1 : tol ≤ 1 / 10 ^ 9) (mi : Int) (M e Es : ℝ) (h1 : 1 < e) (hs : 0 ≤ Es) (hM : e * Real.sinh Es - Es = M)
    (htu : 100 * R.u * ((M + e) * (10 + Es)) ≤ tol) (N : Nat) (hN : 15 * (M + e) * (9 / 10 : ℝ) ^ N ≤ tol) (hmi : N < mi) :
    (∃ (E : ℝ) (n : Nat), laguerre_solve_kepler (keplerGuess (num R M) (num R e)) (num R M) (num R e) (ropts R tol mi 5) = (num R E, (n : Int)) ∧ n ≤ N) ∧
    ¬ HitLimit (ropts R tol mi 5) (num R M) (num R e) ∧
    ∃ E, mean_to_eccentric (ropts R tol mi 5) (rfl64 R M) (rfl64 R e) false = .ok (rfl64 R E) ∧ |e * Real.sinh E - E - M| < tol + 19 * R.u * (M + e) ∧
      |E - Es| ≤ (tol + 19 * R.u * (M + e)) / (e - 1) ∧ |E - Es| ^ 3 ≤ 24 * (tol + 19 * R.u * (M + e)) := by
  obtain ⟨E, n, h2, h3, h4⟩ := solve_hyp' (R := R) h1 hs hM ht ht1 htu N hN hmi
  have hg : keplerGuess (num R M) (num R e) = get_hyperbolic_kepler_guess (num R M) (num R e) := by
    unfold keplerGuess
    simp only [one_num, lt_num, h1, decide_true, if_true]
  refine ⟨⟨E, n, by rw [hg, h2], h3⟩, ?_, E, ?_, h4, ?_, ?_⟩
  · rw [HitLimit, hg, h2, not_le]
    refine lt_of_lt_of_le ?_ (le_max_right 1 mi)
    show (n : Int) < mi
    exact lt_of_le_of_lt (by exact_mod_cast h3) hmi
  · rw [mean_to_eccentric_num, meanToEccentricSc]
    simp only [zero_num, eq_num, show e ≠ 0 by linarith, decide_false, Bool.false_eq_true, if_false]
    rw [meanToEccentricEl_guess _ _ _ (by simp; linarith), hg, h2]
    rfl
  · have h := meanOf_error (show 0 ≤ e by linarith) (show e ≠ 1 by linarith) E Es
    simp only [meanOf, if_pos h1, hM] at h
    rw [abs_sub_comm 1 e, abs_of_pos (show 0 < e - 1 by linarith)] at h
    exact h.trans (div_le_div_of_nonneg_right h4.le (by linarith))
  · have h := Lag.Hyp.rise_cube (s := Es) (x := E) h1
    rw [show Lag.Hyp.rise e Es E = e * Real.sinh E - E - M by rw [← hM]; unfold Lag.Hyp.rise; ring] at h
    linarith

/-- C111: `mean_to_true` there: the computed true anomaly differs from an exact one by at most `90 u + k (tol + 19 u (M + e)) / (e - 1)`,
`k = sqrt ((e + 1) / (e - 1))` -/
theorem c111_true (g : Nat → RF R) (tol : ℝ) (ht : 0 < tol) (ht1 : tol ≤ 1 / 10 ^ 9) (mi : Int) (M e Es : ℝ) (h1 : 1 < e) (hs : 0 ≤ Es)
    (hM : e * Real.sinh Es - Es = M) (htu : 100 * R.u * ((M + e) * (10 + Es)) ≤ tol) (N : Nat) (hN : 15 * (M + e) * (9 / 10 : ℝ) ^ N ≤ tol) (hmi : N < mi) :
    ∃ nu nu0 : ℝ, mean_to_true g (ropts R tol mi 5) (rfl64 R M) (rfl64 R e) false = .ok (rfl64 R nu) ∧ 0 ≤ nu ∧ nu ≤ 629 / 100 ∧ SamePointHyp e nu0 Es ∧
      |nu - nu0| ≤ 90 * R.u + √((e + 1) / (e - 1)) * ((tol + 19 * R.u * (M + e)) / (e - 1)) := by
  have hu0 := R.u_nonneg
  obtain ⟨-, -, E, k1, k2, k3, -⟩ := c111 (R := R) tol ht ht1 mi M e Es h1 hs hM htu N hN hmi
  have hu : R.u ≤ 1 / 10 ^ 6 := by
    obtain ⟨hM0, -⟩ := Lag.Hyp.mean_le h1 hs hM
    have a1 := mul_le_mul_of_nonneg_right (show 1 ≤ M + e by linarith) (mul_nonneg hu0 (show 0 ≤ 10 + Es by linarith))
    have := mul_nonneg hu0 hs
    linarith
  obtain ⟨nu, z, l1, l2, l3, l4⟩ := RHyper.ett_err (R := R) hu h1 E
  refine ⟨nu, 2 * halfNu √((e + 1) / (e - 1)) Es + z * (2 * Real.pi), ?_, l2, l3, hyp_point Es z, ?_⟩
  · have k4 : eccentric_to_true g (rfl64 R E) (rfl64 R e) false = .ok (rfl64 R nu) := by
      show Except.ok (Arg.sc .f64 (eccentricToTrueSc (num R E) (num R e))) = _
      rw [eccentricToTrueSc, hyp_sc h1, l1]; rfl
    show (mean_to_eccentric (ropts R tol mi 5) (rfl64 R M) (rfl64 R e) false >>= fun E => eccentric_to_true g E (rfl64 R e) false >>= fun nu => pure nu) = _
    rw [k1]
    show (eccentric_to_true g (rfl64 R E) (rfl64 R e) false >>= fun nu => pure nu) = _
    rw [k4]; rfl
  · obtain ⟨k, hkd⟩ : ∃ k, k = √((e + 1) / (e - 1)) := ⟨_, rfl⟩
    have hk0 : 0 < k := by rw [hkd]; exact Real.sqrt_pos.mpr (div_pos (by linarith) (by linarith))
    rw [← hkd] at l4 ⊢
    have m1 := halfNu_lipschitz hk0 E Es
    have m2 := mul_le_mul_of_nonneg_left k3 (show 0 ≤ k / 2 by linarith)
    rw [abs_le] at l4 m1 ⊢
    constructor <;> linarith [l4.1, l4.2, m1.1, m1.2]

/-- C111 with the default options in double precision: for `M + e ≤ 6.9`, every `e > 1`, at most 320 steps; the result solves Kepler's equation up to `1.02e-12` -/
theorem c111_binary64 (M e Es : ℝ) (h1 : 1 < e) (hs : 0 ≤ Es) (hM : e * Real.sinh Es - Es = M) (h7 : M + e ≤ 69 / 10) :
    ¬ HitLimit .dflt (num Binary.binary64 M) (num _ e) ∧
    ∃ E, mean_to_eccentric .dflt (rfl64 Binary.binary64 M) (rfl64 _ e) false = .ok (rfl64 _ E) ∧ |e * Real.sinh E - E - M| < 102 / 10 ^ 14 ∧
      |E - Es| ≤ 102 / 10 ^ 14 / (e - 1) ∧ |E - Es| ≤ 3 / 10 ^ 4 := by
  have hu : (Binary.binary64).u = (1 / 2 : ℝ) ^ 53 := rfl
  have hu' : (Binary.binary64).u ≤ 11103 / 10 ^ 20 := by rw [hu]; norm_num
  have hu0 := (Binary.binary64).u_nonneg
  have ht := abs_le.mp (rd_err (R := Binary.binary64) (x := 1 / 10 ^ 12) (B := 1 / 10 ^ 12) (by linarith) (by rw [abs_of_pos (by norm_num)]))
  obtain ⟨t1, t2⟩ := ht
  have hM0 : 0 ≤ M := by
    have := Real.self_le_sinh_iff.mpr hs
    nlinarith
  have hEs : Es ≤ 29 / 10 := by
    by_contra hn
    push Not at hn
    have h2 := Lag.Hyp.rise_sign h1 hn.le
    have h3 : 895 / 100 ≤ Real.sinh (29 / 10) := by
      have h4 := Lag.Hyp.exp_poly (show (0 : ℝ) ≤ 29 / 20 by norm_num)
      have h5 : Real.exp (29 / 10) = Real.exp (29 / 20) * Real.exp (29 / 20) := by rw [← Real.exp_add]; norm_num
      have h6 : 4246 / 1000 ≤ Real.exp (29 / 20) := le_trans (by norm_num) h4
      have h7 : Real.exp (-(29 / 10)) * Real.exp (29 / 10) = 1 := by rw [← Real.exp_add]; simp
      have h8 : 18 ≤ Real.exp (29 / 10) := by
        rw [h5]
        have := mul_le_mul h6 h6 (by norm_num) (Real.exp_pos _).le
        linarith
      have h9 := mul_le_mul_of_nonneg_left h8 (Real.exp_pos (-(29 / 10))).le
      rw [Real.sinh_eq]
      linarith
    have h4 : 0 ≤ (e - 1) * (Es - 29 / 10) := mul_nonneg (by linarith) (by linarith)
    unfold Lag.Hyp.rise at h2
    have h5 := mul_le_mul_of_nonneg_left h3 (show 0 ≤ e by linarith)
    linarith
  have hb : (M + e) * (10 + Es) ≤ 69 / 10 * (129 / 10) := mul_le_mul h7 (by linarith) (by linarith) (by norm_num)
  have hub := mul_le_mul hu' hb (mul_nonneg (by linarith) (by linarith)) (by norm_num)
  have hN : (9 / 10 : ℝ) ^ 320 ≤ 9 / 10 ^ 15 := by
    have h1 : (9 / 10 : ℝ) ^ 20 ≤ 122 / 1000 := by norm_num
    rw [show 320 = 20 * 16 by norm_num, pow_mul]
    refine (pow_le_pow_left₀ (by positivity) h1 16).trans (by norm_num)
  rw [dflt_ropts]
  obtain ⟨-, k1, E, k2, k3, k4, k5⟩ := c111 (R := Binary.binary64) ((Binary.binary64).rd (1 / 10 ^ 12)) (rd_pos (by norm_num)) (by linarith) 5000 M e Es h1 hs hM
    (by linarith) 320 (by
      refine (mul_le_mul_of_nonneg_left hN (show 0 ≤ 15 * (M + e) by linarith)).trans ?_
      linarith) (by norm_num)
  have hub2 := mul_le_mul hu' h7 (by linarith) (by norm_num)
  refine ⟨k1, E, k2, by linarith, k4.trans (div_le_div_of_nonneg_right (by linarith) (by linarith)), ?_⟩
  refine le_of_pow_le_pow_left₀ (n := 3) (by norm_num) (by norm_num) ?_
  refine k5.trans ?_
  norm_num
  linarith

/-- a case: e = 1.0001, hyperbolic anomaly 1/2 -/
example : ¬ HitLimit .dflt (num Binary.binary64 (10001 / 10000 * Real.sinh (1 / 2) - 1 / 2)) (num _ (10001 / 10000)) ∧
    ∃ E, mean_to_eccentric .dflt (rfl64 Binary.binary64 (10001 / 10000 * Real.sinh (1 / 2) - 1 / 2)) (rfl64 _ (10001 / 10000)) false = .ok (rfl64 _ E) ∧
      |E - 1 / 2| ≤ 102 / 10 ^ 14 / (10001 / 10000 - 1) := by
  have h1 := Lag.sinh_one_le
  have h2 : Real.sinh (1 / 2) ≤ Real.sinh 1 := Real.sinh_le_sinh.mpr (by norm_num)
  obtain ⟨k0, E, k1, -, k3, -⟩ := c111_binary64 (10001 / 10000 * Real.sinh (1 / 2) - 1 / 2) (10001 / 10000) (1 / 2) (by norm_num) (by norm_num) rfl (by linarith)
  exact ⟨k0, E, k1, k3⟩

end Pyorb
