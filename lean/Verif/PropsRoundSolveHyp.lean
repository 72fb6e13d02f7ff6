import Verif.LagHyperRound
import Verif.PropsRoundHyper
import Verif.PropsRoundSolve
import Verif.PropsConvergeHyp

/-!
# The Kepler solver with rounding converges on hyperbolas (C105)
-/

namespace Pyorb
open FX RF Lag
variable {R : Rounding}

namespace RSolveH

theorem exps {t k : ℝ} (hk : |t| ≤ k) (hk1 : k ≤ 1 / 10 ^ 3) : |Real.exp t - 1| ≤ 101 / 100 * k := by
  have hk0 := (abs_nonneg _).trans hk
  have h2 := Hyp.exp_le_inv (show k < 1 by linarith)
  have h3 : 1 / (1 - k) ≤ 1 + 101 / 100 * k := by
    rw [div_le_iff₀ (by linarith)]
    nlinarith
  have := exp_diff hk
  linarith

/-! ## What one step uses -/

theorem hypF {e M s E : ℝ} (hu : R.u ≤ 1 / 10 ^ 9) (he : 6 / 5 ≤ e) (hs : 0 ≤ s) (hM : e * Real.sinh s - s = M) (hr : Hyp.Reg s E) :
    ∃ f, lagF (num R M) (num R e) (num R E) = num R f ∧ |f + Hyp.rise e s E| ≤ 182 / 10 * R.u * (M + e) := by
  have hu0 := R.u_nonneg
  have h1 : 1 < e := by linarith
  have hM0 : 0 ≤ M := by
    have := Real.self_le_sinh_iff.mpr hs
    nlinarith
  obtain ⟨f, hf, hf1, -⟩ := lagF_near (R := R) (M := M) (E := E) (show 0 ≤ e by linarith) h1.ne'
  refine ⟨f, hf, ?_⟩
  rw [keplerTerm, if_pos h1, abs_of_nonneg hM0] at hf1
  rw [← hyp_residual h1 hM, show f + (meanOf e E - M) = f - (M - meanOf e E) by ring]
  have h2 := Hyp.terms_le he hs hM hr
  have h3 := (le_abs_self _).trans (exps (t := 3 * R.u) (k := 3 * R.u) (by rw [abs_of_nonneg (by linarith)]) (by linarith))
  refine hf1.trans ?_
  have h4 : 0 ≤ M + |E| + e * |Real.sinh E| := by have := abs_nonneg E; have := mul_nonneg (show 0 ≤ e by linarith) (abs_nonneg (Real.sinh E)); linarith
  have := mul_le_mul h3 h2 h4 (by linarith)
  have h5 : 0 ≤ R.u * (M + e) := mul_nonneg hu0 (by linarith)
  linarith

theorem hypFp {e : ℝ} (hu : R.u ≤ 1 / 10 ^ 9) (he : 6 / 5 ≤ e) (E : ℝ) :
    ∃ α, lagFp (num R e) (num R E) = num R (-(Hyp.slope e E * (1 + α))) ∧ |α| ≤ 20 * R.u := by
  have hu0 := R.u_nonneg
  have h1 : 1 < e := by linarith
  have hp := Hyp.slope_pos h1 E
  unfold lagFp
  simp only [one_num, lt_num, h1, decide_true, if_true]
  obtain ⟨t, t1, t2⟩ := (Rel.num (R := R) e).mul (show Rel 1 (Np.cosh (num R E)) (Real.cosh E) from ⟨R.lib .cosh E, by simpa using R.lib_le .cosh E, rfl⟩)
  rw [t2, sub_num]
  have hc : e * Real.cosh E ≤ 6 * Hyp.slope e E := by
    unfold Hyp.slope
    have := Real.one_le_cosh E
    nlinarith
  obtain ⟨c, hcd⟩ : ∃ c, c = e * Real.cosh E := ⟨_, rfl⟩
  have hc0 : 1 ≤ c := by
    rw [hcd]
    have := Real.one_le_cosh E
    nlinarith
  rw [← hcd] at hc ⊢
  have h2 := exps (t := t) (k := 2 * R.u) (by linarith) (by linarith)
  have h3 : |c * Real.exp t - c| ≤ 101 / 100 * (2 * R.u) * c := by
    rw [show c * Real.exp t - c = (Real.exp t - 1) * c by ring, abs_mul, abs_of_pos (by linarith : 0 < c)]
    exact mul_le_mul_of_nonneg_right h2 (by linarith)
  have hcu : R.u * c ≤ 1 / 10 ^ 9 * c := mul_le_mul_of_nonneg_right hu (by linarith)
  have h4 := rd_err (R := R) (x := 1 - c * Real.exp t) (B := 101 / 100 * c) (by linarith) (by
    rw [abs_le] at h3 ⊢
    constructor <;> linarith [h3.1, h3.2])
  refine ⟨(-R.rd (1 - c * Real.exp t) - Hyp.slope e E) / Hyp.slope e E, ?_, ?_⟩
  · congr 1
    field_simp
    ring
  · rw [abs_div, abs_of_pos hp, div_le_iff₀ hp]
    have h5 : Hyp.slope e E = c - 1 := by rw [hcd]; rfl
    have h6 := abs_add_le (R.rd (1 - c * Real.exp t) - (1 - c * Real.exp t)) (-(c * Real.exp t - c))
    rw [show R.rd (1 - c * Real.exp t) - (1 - c * Real.exp t) + -(c * Real.exp t - c) = R.rd (1 - c * Real.exp t) + (c - 1) by ring, abs_neg, ← h5] at h6
    rw [show -R.rd (1 - c * Real.exp t) - Hyp.slope e E = -(R.rd (1 - c * Real.exp t) + Hyp.slope e E) by ring, abs_neg]
    have h7 := mul_le_mul_of_nonneg_left hc hu0
    have h8 := mul_nonneg hu0 hp.le
    linarith

theorem hypFpp {e : ℝ} (h1 : 1 < e) (E : ℝ) :
    ∃ t, lagFpp (num R e) (num R E) = num R (-(e * Real.sinh E) * Real.exp t) ∧ |t| ≤ 2 * R.u := by
  unfold lagFpp
  simp only [one_num, lt_num, h1, decide_true, if_true]
  obtain ⟨t, t1, t2⟩ := (Rel.num (R := R) e).neg.mul (Rel.sinh E)
  refine ⟨t, by rw [t2, neg_mul], by linarith⟩

/-- the expression under the root with relative errors in its parts -/
theorem rad_cond {P X κ κ' ε u a b c : ℝ} (hP0 : 0 ≤ P) (hP : P ≤ κ * (P - X)) (hX : |X| ≤ κ' * (P - X)) (hu0 : 0 ≤ u) (hu : u ≤ 1 / 10 ^ 9)
    (hκ : κ ≤ 43) (hκ' : κ' ≤ 42) (hr : 0 < P - X) (hb : |b| ≤ ε + 6 * u) (ha : |a| ≤ 44 * u) (hc : |c| ≤ 101 / 100 * u)
    (hε : κ' * ε ≤ 3 / 100) :
    |(P * (1 + a) - X * (1 + b)) * (1 + c) - (P - X)| ≤ (κ' * ε + 3 / 10 ^ 6) * (P - X) := by
  have hκ'0 : 0 ≤ κ' := by
    by_contra hn
    have := (abs_nonneg X).trans hX
    nlinarith
  have hκ0 : 0 ≤ κ := by
    by_contra hn
    nlinarith
  have h1 : |P * a - X * b| ≤ (κ' * ε + 2200 * u) * (P - X) := by
    refine (abs_sub _ _).trans ?_
    rw [abs_mul, abs_mul, abs_of_nonneg hP0]
    have e1 := mul_le_mul hP ha (abs_nonneg _) (mul_nonneg hκ0 hr.le)
    have e2 := mul_le_mul hX hb (abs_nonneg _) (mul_nonneg hκ'0 hr.le)
    have e3 : κ * ((P - X) * (44 * u)) ≤ 43 * ((P - X) * (44 * u)) := mul_le_mul_of_nonneg_right hκ (by positivity)
    have e4 : κ' * ((P - X) * (6 * u)) ≤ 42 * ((P - X) * (6 * u)) := mul_le_mul_of_nonneg_right hκ' (by positivity)
    have e5 : 0 ≤ (P - X) * u := by positivity
    nlinarith
  have h2 : |P * a - X * b| ≤ 4 / 100 * (P - X) := h1.trans (mul_le_mul_of_nonneg_right (by linarith) hr.le)
  have h3 : (P * (1 + a) - X * (1 + b)) * (1 + c) - (P - X) = (P * a - X * b) + ((P - X) + (P * a - X * b)) * c := by ring
  rw [h3]
  refine (abs_add_le _ _).trans ?_
  have h4 : |(P - X) + (P * a - X * b)| ≤ 104 / 100 * (P - X) := by
    refine (abs_add_le _ _).trans ?_
    rw [abs_of_pos hr]
    linarith
  have h5 : |((P - X) + (P * a - X * b)) * c| ≤ 104 / 100 * (P - X) * (101 / 100 * u) := by
    rw [abs_mul]
    exact mul_le_mul h4 hc (abs_nonneg _) (by linarith)
  have h6 : u * (P - X) ≤ 1 / 10 ^ 9 * (P - X) := mul_le_mul_of_nonneg_right hu hr.le
  nlinarith

/-- the size of the parts of the radicand against the radicand -/
theorem rad_parts {p F w c κ κ' : ℝ} (hc : c < 16) (h : 20 * F * w ≤ c * p ^ 2) (hκ : 16 ≤ κ * (16 - c)) (hκ1 : 1 ≤ κ) (hκ' : c ≤ κ' * (16 - c)) (hκ'1 : 1 ≤ κ') :
    16 * p ^ 2 ≤ κ * (16 * p ^ 2 - 20 * F * w) ∧ |20 * F * w| ≤ κ' * (16 * p ^ 2 - 20 * F * w) := by
  have hp := sq_nonneg p
  have h2 : (16 - c) * p ^ 2 ≤ 16 * p ^ 2 - 20 * F * w := by linarith
  have h3 := mul_le_mul_of_nonneg_left h2 (show 0 ≤ κ by linarith)
  have h4 := mul_le_mul_of_nonneg_left h2 (show 0 ≤ κ' by linarith)
  have h5 := mul_le_mul_of_nonneg_right hκ hp
  have h6 := mul_le_mul_of_nonneg_right hκ' hp
  refine ⟨by linarith, ?_⟩
  rw [abs_le]
  refine ⟨?_, by linarith⟩
  by_cases hn : 0 ≤ 20 * F * w
  · have := mul_nonneg (show 0 ≤ κ' by linarith) (show 0 ≤ 16 * p ^ 2 - 20 * F * w by nlinarith)
    linarith
  · have : 1 * (16 * p ^ 2 - 20 * F * w) ≤ κ' * (16 * p ^ 2 - 20 * F * w) := mul_le_mul_of_nonneg_right hκ'1 (by linarith)
    linarith

/-- the denominator of the step as it is computed -/
theorem den_cond {p S0 S α u η : ℝ} (hu0 : 0 ≤ u) (hu : u ≤ 1 / 10 ^ 9) (hp : 0 < p) (hS0 : 1 / 2 * p ≤ S0) (hα : |α| ≤ 20 * u)
    (hS : |S - S0| ≤ η * S0) (hη : η ≤ 3 / 100) {c : ℝ} (hc : |c| ≤ 101 / 100 * u) :
    |(p * (1 + α) + S) * (1 + c) - (p + S0)| ≤ (η + 30 * u) * (p + S0) := by
  have hη0 : 0 ≤ η := by
    by_contra hn
    have := (abs_nonneg _).trans hS
    nlinarith
  have h1 : |p * α + (S - S0)| ≤ 20 * u * p + η * S0 := by
    refine (abs_add_le _ _).trans ?_
    rw [abs_mul, abs_of_pos hp]
    have := mul_le_mul_of_nonneg_left hα hp.le
    linarith
  have h2 : 20 * u * p + η * S0 ≤ (20 * u + η) * (p + S0) := by
    have : 0 ≤ η * p := by positivity
    have : 0 ≤ u * S0 := mul_nonneg hu0 (by linarith)
    nlinarith
  have h3 : (p * (1 + α) + S) * (1 + c) - (p + S0) = (p * α + (S - S0)) + ((p + S0) + (p * α + (S - S0))) * c := by ring
  have hD : 0 < p + S0 := by linarith
  have h4 : |(p + S0) + (p * α + (S - S0))| ≤ 104 / 100 * (p + S0) := by
    refine (abs_add_le _ _).trans ?_
    rw [abs_of_pos hD]
    have : (20 * u + η) * (p + S0) ≤ 4 / 100 * (p + S0) := mul_le_mul_of_nonneg_right (by linarith) hD.le
    linarith
  have h5 : |((p + S0) + (p * α + (S - S0))) * c| ≤ 104 / 100 * (p + S0) * (101 / 100 * u) := by
    rw [abs_mul]
    exact mul_le_mul h4 hc (abs_nonneg _) (by linarith)
  rw [h3]
  refine (abs_add_le _ _).trans ?_
  have : 0 ≤ u * (p + S0) := by positivity
  linarith

theorem rd_eq (x : ℝ) : R.rd x = x * (1 + (Real.exp (R.th x) - 1)) := by rw [Rounding.rd]; ring

theorem rd_small (hu : R.u ≤ 1 / 10 ^ 9) (x : ℝ) : |Real.exp (R.th x) - 1| ≤ 101 / 100 * R.u := exps (R.th_le x) (by linarith)

set_option maxHeartbeats 1000000 in
/-- the correction that one step computes: relative error -/
theorem step_cond {tol : ℝ} {mi : Int} {e M E f F ε κ κ' : ℝ} (hu : R.u ≤ 1 / 10 ^ 9) (he : 6 / 5 ≤ e)
    (hf : lagF (num R M) (num R e) (num R E) = num R f) (hfF : |f + F| ≤ ε * |F|) (hε0 : 0 ≤ ε) (hε : ε ≤ 1 / 50) (hκ : κ ≤ 43) (hκ' : κ' ≤ 42)
    (hκε : κ' * ε ≤ 3 / 100) (hfar : 20 * F * (e * Real.sinh E) ≤ 125 / 8 * Hyp.slope e E ^ 2)
    (hup : 16 * Hyp.slope e E ^ 2 - 20 * F * (e * Real.sinh E) ≤ 160 * Hyp.slope e E ^ 2)
    (hP : 16 * Hyp.slope e E ^ 2 ≤ κ * (16 * Hyp.slope e E ^ 2 - 20 * F * (e * Real.sinh E)))
    (hX : |20 * F * (e * Real.sinh E)| ≤ κ' * (16 * Hyp.slope e E ^ 2 - 20 * F * (e * Real.sinh E))) :
    ∃ q, lagNext (ropts R tol mi 5) (num R M) (num R e) (num R E) = num R (R.rd (E - q)) ∧
      |q - delta F (Hyp.slope e E) (e * Real.sinh E)| ≤ (106 / 100 * ε + 54 / 100 * (κ' * ε) + 3 / 10 ^ 6) * |delta F (Hyp.slope e E) (e * Real.sinh E)| := by
  have hu0 := R.u_nonneg
  have h1 : 1 < e := by linarith
  have hp := Hyp.slope_pos h1 E
  obtain ⟨α, hfp, hα⟩ := hypFp (R := R) hu he E
  obtain ⟨t, hfpp, ht⟩ := hypFpp (R := R) h1 E
  have e4 : (num R 5 - 1 : RF R) = num R 4 := by
    rw [one_num, sub_num, show (5 - 1 : ℝ) = 4 by norm_num, rd_quarter 16 (by norm_num) (by norm_num)]
  have e16 : R.rd (4 * 4) = 16 := by
    rw [show (4 * 4 : ℝ) = 16 by norm_num, rd_quarter 64 (by norm_num) (by norm_num)]
  have e20 : (num R 5 * num R 4 : RF R) = num R 20 := by
    rw [mul_num, show (5 * 4 : ℝ) = 20 by norm_num, rd_quarter 80 (by norm_num) (by norm_num)]
  obtain ⟨β, hβf, hβ⟩ : ∃ β, f = -(F * (1 + β)) ∧ |β| ≤ ε := by
    by_cases hF : F = 0
    · subst hF
      simp at hfF
      exact ⟨0, by simp [hfF], by simpa using hε0⟩
    · refine ⟨(-f - F) / F, by field_simp; ring, ?_⟩
      rw [abs_div, div_le_iff₀ (abs_pos.mpr hF), show -f - F = -(f + F) by ring, abs_neg]
      exact hfF
  unfold lagNext lagStep
  simp only [ropts, hf, hfp, hfpp, e4, e20, sq]
  simp only [abs_num, sqrt_num (abs_nonneg _), sub_num, add_num, lt_num, mul_num, e16, decide_eq_true_eq]
  set p := Hyp.slope e E with hpd
  set w := e * Real.sinh E with hwd
  obtain ⟨fp, hfpd⟩ : ∃ fp, fp = -(p * (1 + α)) := ⟨_, rfl⟩
  rw [← hfpd]
  obtain ⟨r0, hr0⟩ : ∃ r0, r0 = 16 * p ^ 2 - 20 * F * w := ⟨_, rfl⟩
  have hr0p : 3 / 8 * p ^ 2 ≤ r0 := by linarith
  have hpp : 0 < p ^ 2 := by positivity
  have hr0pos : 0 < r0 := by linarith
  -- the radicand
  obtain ⟨rad, hrad⟩ : ∃ rad, rad = R.rd (R.rd (16 * R.rd (fp * fp)) - R.rd (R.rd (20 * f) * (-w * Real.exp t))) := ⟨_, rfl⟩
  rw [← hrad]
  have hradc : |rad - r0| ≤ (κ' * ε + 3 / 10 ^ 6) * r0 := by
    obtain ⟨A, hA, hA1⟩ : ∃ A, R.rd (16 * R.rd (fp * fp)) = 16 * p ^ 2 * (1 + A) ∧ |A| ≤ 44 * R.u := by
      refine ⟨(1 + α) ^ 2 * Real.exp (R.th (fp * fp) + R.th (16 * R.rd (fp * fp))) - 1, ?_, ?_⟩
      · rw [Real.exp_add]
        conv_lhs => rw [Rounding.rd]
        conv_lhs => enter [1, 2]; rw [Rounding.rd]
        rw [hfpd]; ring
      · have k1 : |R.th (fp * fp) + R.th (16 * R.rd (fp * fp))| ≤ 2 * R.u := by
          refine (abs_add_le _ _).trans ?_
          linarith [R.th_le (fp * fp), R.th_le (16 * R.rd (fp * fp))]
        have k2 := exps k1 (by linarith)
        generalize Real.exp (R.th (fp * fp) + R.th (16 * R.rd (fp * fp))) = x at k2 ⊢
        have k3 : (1 + α) ^ 2 * x - 1 = (2 * α + α * α) + (1 + (2 * α + α * α)) * (x - 1) := by ring
        have k4 : |α * α| ≤ R.u := by
          rw [abs_mul]
          have := mul_le_mul hα hα (abs_nonneg _) (by linarith)
          nlinarith
        have k5 : |2 * α + α * α| ≤ 41 * R.u := by
          refine (abs_add_le _ _).trans ?_
          rw [abs_mul, abs_of_pos (show (0 : ℝ) < 2 by norm_num)]
          linarith
        have k6 : |1 + (2 * α + α * α)| ≤ 101 / 100 := by
          rw [abs_le] at k5 ⊢
          constructor <;> linarith [k5.1, k5.2]
        rw [k3]
        refine (abs_add_le _ _).trans ?_
        rw [abs_mul (1 + (2 * α + α * α))]
        have := mul_le_mul k6 k2 (abs_nonneg _) (by norm_num)
        linarith
    obtain ⟨B, hB, hB1⟩ : ∃ B, R.rd (R.rd (20 * f) * (-w * Real.exp t)) = 20 * F * w * (1 + B) ∧ |B| ≤ ε + 6 * R.u := by
      refine ⟨(1 + β) * Real.exp (R.th (20 * f) + t + R.th (R.rd (20 * f) * (-w * Real.exp t))) - 1, ?_, ?_⟩
      · rw [Real.exp_add, Real.exp_add]
        conv_lhs => rw [Rounding.rd]
        conv_lhs => enter [1, 1]; rw [Rounding.rd]
        generalize Real.exp (R.th (R.rd (20 * f) * (-w * Real.exp t))) = x1
        generalize Real.exp (R.th (20 * f)) = x2
        rw [hβf]; ring
      · have k1 : |R.th (20 * f) + t + R.th (R.rd (20 * f) * (-w * Real.exp t))| ≤ 4 * R.u := by
          refine (abs_add_le _ _).trans ?_
          have := abs_add_le (R.th (20 * f)) t
          linarith [R.th_le (20 * f), R.th_le (R.rd (20 * f) * (-w * Real.exp t))]
        have k2 := exps k1 (by linarith)
        generalize Real.exp (R.th (20 * f) + t + R.th (R.rd (20 * f) * (-w * Real.exp t))) = x at k2 ⊢
        have k3 : (1 + β) * x - 1 = β + (1 + β) * (x - 1) := by ring
        have k6 : |1 + β| ≤ 51 / 50 := by
          rw [abs_le] at hβ ⊢
          constructor <;> linarith [hβ.1, hβ.2]
        rw [k3]
        refine (abs_add_le _ _).trans ?_
        rw [abs_mul (1 + β)]
        have := mul_le_mul k6 k2 (abs_nonneg _) (by norm_num)
        linarith
    rw [hrad, rd_eq, hA, hB]
    rw [hr0] at hr0pos ⊢
    exact rad_cond (by positivity) hP hX hu0 hu hκ hκ' hr0pos hB1 hA1 (rd_small hu _) hκε
  have hη1 : κ' * ε + 3 / 10 ^ 6 ≤ 1 / 25 := by linarith
  have hradp : 0 < rad := by
    have := (abs_le.mp hradc).1
    have := mul_le_mul_of_nonneg_right hη1 hr0pos.le
    linarith
  rw [abs_of_pos hradp]
  have hS1 := Hyp.sqrt_cond hr0pos hη1 hradc
  obtain ⟨S0, hS0⟩ : ∃ S0, S0 = √r0 := ⟨_, rfl⟩
  have hS0p : 1 / 2 * p ≤ S0 := by
    rw [hS0]
    refine Real.le_sqrt_of_sq_le ?_
    nlinarith
  have hS0u : S0 ≤ 1265 / 100 * p := by
    rw [hS0]
    refine Real.sqrt_le_iff.mpr ⟨by linarith, ?_⟩
    rw [hr0, mul_pow]
    linarith
  have hκε0 : 0 ≤ κ' * ε + 3 / 10 ^ 6 := by
    by_contra hn
    have := (abs_nonneg _).trans hradc
    nlinarith
  rw [← hS0] at hS1
  obtain ⟨S, hSd⟩ : ∃ S, S = R.rd (√rad) := ⟨_, rfl⟩
  rw [← hSd]
  have hS00 : 0 ≤ S0 := by linarith
  have hSS : |S - S0| ≤ (51 / 100 * (κ' * ε + 3 / 10 ^ 6) + 2 * R.u) * S0 := by
    have k1 : |√rad| ≤ 103 / 100 * S0 := by
      have := abs_add_le (√rad - S0) S0
      rw [sub_add_cancel, abs_of_nonneg hS00] at this
      have k2 : 51 / 100 * (κ' * ε + 3 / 10 ^ 6) * S0 ≤ 51 / 100 * (1 / 25) * S0 :=
        mul_le_mul_of_nonneg_right (mul_le_mul_of_nonneg_left hη1 (by norm_num)) hS00
      linarith
    have k2 := rd_err (R := R) (by linarith) k1
    rw [← hSd] at k2
    have := abs_add_le (S - √rad) (√rad - S0)
    rw [sub_add_sub_cancel] at this
    have : 0 ≤ R.u * S0 := mul_nonneg hu0 hS00
    linarith
  -- the denominator
  have hD := den_cond hu0 hu hp hS0p hα hSS (by linarith) (rd_small hu (fp - S))
  obtain ⟨D, hDd⟩ : ∃ D, D = -R.rd (fp - S) := ⟨_, rfl⟩
  have hDe : (p * (1 + α) + S) * (1 + (Real.exp (R.th (fp - S)) - 1)) = D := by
    rw [hDd, rd_eq (fp - S)]
    rw [hfpd]; ring
  rw [hDe] at hD
  have hD0 : 0 < p + S0 := by linarith
  have hθ : 51 / 100 * (κ' * ε + 3 / 10 ^ 6) + 2 * R.u + 30 * R.u ≤ 1 / 50 := by linarith
  have hDp : 49 / 50 * (p + S0) ≤ D := by
    have := (abs_le.mp hD).1
    have := mul_le_mul_of_nonneg_right hθ hD0.le
    linarith
  have hSlo := abs_le.mp hSS
  have hSb : (51 / 100 * (κ' * ε + 3 / 10 ^ 6) + 2 * R.u) * S0 ≤ 1 / 25 * S0 := mul_le_mul_of_nonneg_right (by linarith) hS00
  have hlt : ¬ |R.rd (fp - S)| < |R.rd (fp + S)| := by
    rw [not_lt, show |R.rd (fp - S)| = D by rw [show R.rd (fp - S) = -D by rw [hDd]; ring, abs_neg, abs_of_pos (by linarith)]]
    have k0 : |p * α| ≤ 1 / 10 ^ 6 * p := by
      rw [abs_mul, abs_of_pos hp, mul_comm]
      exact mul_le_mul_of_nonneg_right (by linarith) hp.le
    have k1 : |fp + S| ≤ 9 / 10 * (p + S0) := by
      rw [hfpd]
      rw [abs_le] at k0 ⊢
      constructor <;> linarith [k0.1, k0.2]
    have k2 := rd_err (R := R) (x := fp + S) (by linarith) k1
    have k3 := abs_add_le (R.rd (fp + S) - (fp + S)) (fp + S)
    rw [sub_add_cancel] at k3
    have : R.u * (p + S0) ≤ 1 / 10 ^ 9 * (p + S0) := mul_le_mul_of_nonneg_right hu hD0.le
    linarith
  rw [if_neg hlt]
  have hnz : R.rd (fp - S) ≠ 0 := by
    intro h
    rw [h] at hDd
    linarith
  rw [div_num _ hnz, sub_num]
  refine ⟨_, rfl, ?_⟩
  -- the quotient
  have hδ : delta F p w = 5 * F / (p + S0) := by
    rw [delta, ← hr0, abs_of_pos hr0pos, hS0]
  rw [hδ]
  have hq := Hyp.quot_cond (F := F) (f := -f) (ε := ε) hD0 (by rw [show -f - F = -(f + F) by ring, abs_neg]; exact hfF) hθ hD
  obtain ⟨δ, hδd⟩ : ∃ δ, δ = 5 * F / (p + S0) := ⟨_, rfl⟩
  rw [← hδd] at hq ⊢
  obtain ⟨q, hqd⟩ : ∃ q, q = 5 * -f / D := ⟨_, rfl⟩
  rw [← hqd] at hq
  have hex : ∃ x, R.rd (R.rd (5 * f) / R.rd (fp - S)) = q * (1 + x) ∧ |x| ≤ 3 * R.u := by
    refine ⟨Real.exp (R.th (5 * f) + R.th (R.rd (5 * f) / R.rd (fp - S))) - 1, ?_, ?_⟩
    · have k1 : R.rd (fp - S) = -D := by rw [hDd]; ring
      rw [Real.exp_add]
      conv_lhs => rw [Rounding.rd]
      conv_lhs => enter [1, 1]; rw [Rounding.rd]
      rw [k1, hqd]
      have : D ≠ 0 := by linarith
      field_simp
      ring
    · have k1 : |R.th (5 * f) + R.th (R.rd (5 * f) / R.rd (fp - S))| ≤ 2 * R.u := by
        refine (abs_add_le _ _).trans ?_
        linarith [R.th_le (5 * f), R.th_le (R.rd (5 * f) / R.rd (fp - S))]
      have := exps k1 (by linarith)
      linarith
  obtain ⟨x, hx, hx1⟩ := hex
  rw [hx]
  have k1 : |q| ≤ 11 / 10 * |δ| := by
    have := abs_add_le (q - δ) δ
    rw [sub_add_cancel] at this
    have k2 : (ε + (51 / 100 * (κ' * ε + 3 / 10 ^ 6) + 2 * R.u + 30 * R.u)) * (103 / 100) * |δ| ≤ 1 / 10 * |δ| :=
      mul_le_mul_of_nonneg_right (by linarith) (abs_nonneg _)
    linarith
  rw [show q * (1 + x) - δ = (q - δ) + q * x by ring]
  refine (abs_add_le _ _).trans ?_
  rw [abs_mul]
  have k3 := mul_le_mul k1 hx1 (abs_nonneg _) (by positivity)
  have k4 : (ε + (51 / 100 * (κ' * ε + 3 / 10 ^ 6) + 2 * R.u + 30 * R.u)) * (103 / 100) + 33 / 10 * R.u ≤ 106 / 100 * ε + 54 / 100 * (κ' * ε) + 3 / 10 ^ 6 := by
    have : 0 ≤ κ' * ε + 3 / 10 ^ 6 := hκε0
    linarith
  have k5 := mul_le_mul_of_nonneg_right k4 (abs_nonneg δ)
  linarith

/-- the starting value as it is computed -/
theorem guess_hyp {e M s : ℝ} (hu : R.u ≤ 1 / 10 ^ 9) (hus : R.u * (10 + s) ≤ 1 / 10 ^ 8) (he : 6 / 5 ≤ e) (hs : 0 ≤ s) (hM : e * Real.sinh s - s = M) :
    ∃ g, get_hyperbolic_kepler_guess (num R M) (num R e) = num R g ∧ |g - Hyp.guess e M| ≤ 1 / 10 ^ 6 := by
  have hu0 := R.u_nonneg
  have he0 : 0 < e := by linarith
  have hM0 : 0 ≤ M := by
    have := Real.self_le_sinh_iff.mpr hs
    nlinarith
  unfold get_hyperbolic_kepler_guess
  rw [two_num, mul_num, div_num _ (by linarith : e ≠ 0)]
  have hl : (Np.lit (18 / 10) : RF R) = num R (R.rd (18 / 10)) := by
    show (⟨R.round (fin ((18 / 10 : ℚ) : ℝ))⟩ : RF R) = _
    norm_num
    rfl
  rw [hl, add_num]
  obtain ⟨Q, hQ⟩ : ∃ Q, Q = 2 * M / e := ⟨_, rfl⟩
  have hQ0 : 0 ≤ Q := by rw [hQ]; positivity
  have hg : Hyp.guess e M = Real.log (Q + 9 / 5) := by rw [Hyp.guess, hQ]
  obtain ⟨a, ha, ha1⟩ : ∃ a, R.rd (R.rd (2 * M) / e) = Q * (1 + a) ∧ |a| ≤ 3 * R.u := by
    refine ⟨Real.exp (R.th (2 * M) + R.th (R.rd (2 * M) / e)) - 1, ?_, ?_⟩
    · rw [Real.exp_add]
      conv_lhs => rw [Rounding.rd]
      conv_lhs => enter [1, 1]; rw [Rounding.rd]
      rw [hQ]; field_simp
      ring
    · have := exps (t := R.th (2 * M) + R.th (R.rd (2 * M) / e)) (k := 2 * R.u) (by
        refine (abs_add_le _ _).trans ?_
        linarith [R.th_le (2 * M), R.th_le (R.rd (2 * M) / e)]) (by linarith)
      linarith
  obtain ⟨b, hb, hb1⟩ : ∃ b, R.rd (18 / 10) = 9 / 5 * (1 + b) ∧ |b| ≤ 3 * R.u :=
    ⟨Real.exp (R.th (18 / 10)) - 1, by rw [Rounding.rd]; ring, by have := rd_small (R := R) hu (18 / 10); linarith⟩
  rw [ha, hb]
  obtain ⟨c, hc, hc1⟩ : ∃ c, R.rd (Q * (1 + a) + 9 / 5 * (1 + b)) = (Q + 9 / 5) * (1 + c) ∧ |c| ≤ 5 * R.u := by
    have hq : 0 < Q + 9 / 5 := by linarith
    refine ⟨(R.rd (Q * (1 + a) + 9 / 5 * (1 + b)) - (Q + 9 / 5)) / (Q + 9 / 5), by field_simp; ring, ?_⟩
    rw [abs_div, abs_of_pos hq, div_le_iff₀ hq]
    have k1 : |Q * a + 9 / 5 * b| ≤ 3 * R.u * (Q + 9 / 5) := by
      refine (abs_add_le _ _).trans ?_
      rw [abs_mul, abs_mul, abs_of_nonneg hQ0, abs_of_pos (by norm_num : (0 : ℝ) < 9 / 5)]
      have := mul_le_mul_of_nonneg_left ha1 hQ0
      linarith
    have k2 := rd_err (R := R) (x := Q * (1 + a) + 9 / 5 * (1 + b)) (B := 101 / 100 * (Q + 9 / 5)) (by linarith) (by
      rw [show Q * (1 + a) + 9 / 5 * (1 + b) = (Q + 9 / 5) + (Q * a + 9 / 5 * b) by ring]
      refine (abs_add_le _ _).trans ?_
      rw [abs_of_pos hq]
      have : R.u * (Q + 9 / 5) ≤ 1 / 10 ^ 9 * (Q + 9 / 5) := mul_le_mul_of_nonneg_right hu hq.le
      linarith)
    have k3 := abs_add_le (R.rd (Q * (1 + a) + 9 / 5 * (1 + b)) - (Q * (1 + a) + 9 / 5 * (1 + b))) (Q * a + 9 / 5 * b)
    rw [show R.rd (Q * (1 + a) + 9 / 5 * (1 + b)) - (Q * (1 + a) + 9 / 5 * (1 + b)) + (Q * a + 9 / 5 * b)
      = R.rd (Q * (1 + a) + 9 / 5 * (1 + b)) - (Q + 9 / 5) by ring] at k3
    have : 0 ≤ R.u * (Q + 9 / 5) := mul_nonneg hu0 hq.le
    linarith
  rw [hc]
  have hcc := abs_le.mp hc1
  have hpos : 0 < (Q + 9 / 5) * (1 + c) := mul_pos (by linarith) (by linarith)
  refine ⟨Real.log ((Q + 9 / 5) * (1 + c)) * Real.exp (R.lib .log ((Q + 9 / 5) * (1 + c))), ?_, ?_⟩
  · show (⟨R.libRound .log (fin ((Q + 9 / 5) * (1 + c))) (Np.log (fin ((Q + 9 / 5) * (1 + c))))⟩ : RF R) = _
    rw [FX.log_fin hpos]
    rfl
  · have k1 : |Real.log (1 + c)| ≤ 6 * R.u := by
      have l1 := Real.log_le_sub_one_of_pos (show 0 < 1 + c by linarith)
      have l2 := Real.one_sub_inv_le_log_of_pos (show 0 < 1 + c by linarith)
      have l3 : (1 + c)⁻¹ ≤ 1 + 6 * R.u := by
        rw [inv_le_comm₀ (by linarith) (by linarith), inv_le_iff_one_le_mul₀ (by linarith)]
        nlinarith
      rw [abs_le]
      constructor <;> linarith
    have k2 := exps (R.lib_le .log ((Q + 9 / 5) * (1 + c))) (by linarith)
    rw [Real.log_mul (by linarith) (by linarith), ← hg]
    obtain ⟨g1, g2⟩ := Hyp.guess_reg he hs hM
    generalize Real.exp (R.lib .log ((Q + 9 / 5) * (1 + c))) = x at k2 ⊢
    have k3 : |Hyp.guess e M| ≤ 10 + s := by rw [abs_le]; constructor <;> linarith
    rw [show (Hyp.guess e M + Real.log (1 + c)) * x - Hyp.guess e M = Real.log (1 + c) + (Hyp.guess e M + Real.log (1 + c)) * (x - 1) by ring]
    refine (abs_add_le _ _).trans ?_
    rw [abs_mul]
    have k4 : |Hyp.guess e M + Real.log (1 + c)| ≤ 11 + s := by
      refine (abs_add_le _ _).trans ?_
      linarith
    have k5 := mul_le_mul k4 k2 (abs_nonneg _) (by linarith)
    linarith

/-- one step of the loop while it goes on -/
theorem lagNext_hyp {tol : ℝ} {mi : Int} {e M s E : ℝ} (hu : R.u ≤ 1 / 10 ^ 9) (he : 6 / 5 ≤ e) (hs : 0 ≤ s) (hM : e * Real.sinh s - s = M)
    (ht1 : tol ≤ 1 / 10 ^ 6) (htu : 100 * R.u * ((M + e) * (10 + s)) ≤ tol) (hus : R.u * (10 + s) ≤ 1 / 10 ^ 8) (hr : Hyp.Reg s E)
    (hgo : lagGoesOn (ropts R tol mi 5) (num R M) (num R e) (num R E)) :
    ∃ E', lagNext (ropts R tol mi 5) (num R M) (num R e) (num R E) = num R E' ∧ Hyp.Reg s E' ∧
      Hyp.dist s E' ≤ 95 / 100 * Hyp.dist s E + 142 / 100 * (R.u * (s + 1)) := by
  have hu0 := R.u_nonneg
  have h1 : 1 < e := by linarith
  have hM0 : 0 ≤ M := by
    have := Real.self_le_sinh_iff.mpr hs
    nlinarith
  obtain ⟨f, hf, hfe⟩ := hypF (R := R) hu he hs hM hr
  obtain ⟨F, hF⟩ : ∃ F, F = Hyp.rise e s E := ⟨_, rfl⟩
  rw [lagGoesOn, hf] at hgo
  simp only [ropts, abs_num, le_num, decide_eq_true_eq] at hgo
  have hue : 1000 * R.u * (M + e) ≤ tol := by
    have : 0 ≤ R.u * (M + e) * s := mul_nonneg (mul_nonneg hu0 (by linarith)) hs
    linarith
  have hrad := Hyp.rad_far he hs hr
  have hup := Hyp.rad_up he hs hr
  have hge := Hyp.rise_ge (s := s) (x := E) h1
  rw [← hF] at hfe hrad hup hge
  have hfF : |f| ≤ |F| + 182 / 10 * R.u * (M + e) := by
    have := abs_sub (f + F) F
    rw [add_sub_cancel_right] at this
    linarith
  have hnext : Hyp.next e s E = E - delta F (Hyp.slope e E) (e * Real.sinh E) := by rw [Hyp.next, hF]
  have hv0 : 0 ≤ R.u * (M + e) := mul_nonneg hu0 (by linarith)
  have hFa := abs_nonneg F
  have key : ∃ q l, lagNext (ropts R tol mi 5) (num R M) (num R e) (num R E) = num R (R.rd (E - q)) ∧
      |q - delta F (Hyp.slope e E) (e * Real.sinh E)| ≤ l * |delta F (Hyp.slope e E) (e * Real.sinh E)| ∧ 0 ≤ l ∧ l ≤ 32 / 1000 ∧
      (1 / 10 < |E - s| → l ≤ 1 / 10 ^ 4) := by
    by_cases hn : |E - s| ≤ 1 / 10
    · obtain ⟨k1, k2⟩ := rad_parts (κ := 8 / 5) (κ' := 1) (c := 6) (by norm_num) (by have := Hyp.rad_near he hs hn; rw [← hF] at this; exact this)
        (by norm_num) (by norm_num) (by norm_num) le_rfl
      obtain ⟨q, l1, l2⟩ := step_cond (tol := tol) (mi := mi) (ε := 19 / 1000) (κ := 8 / 5) (κ' := 1) hu he hf (by linarith) (by norm_num) (by norm_num)
        (by norm_num) (by norm_num) (by norm_num) hrad hup k1 k2
      exact ⟨q, _, l1, l2, by norm_num, by norm_num, fun h => absurd hn (not_le.mpr h)⟩
    · obtain ⟨k1, k2⟩ := rad_parts (κ := 43) (κ' := 42) (c := 125 / 8) (by norm_num) hrad
        (by norm_num) (by norm_num) (by norm_num) (by norm_num)
      have hF2 : 2 / 100 ≤ |F| := by
        have := mul_le_mul (show 2 / 10 ≤ e - 1 by linarith) (not_le.mp hn).le (by norm_num) (by linarith)
        linarith
      obtain ⟨q, l1, l2⟩ := step_cond (tol := tol) (mi := mi) (ε := 1 / 10 ^ 6) (κ := 43) (κ' := 42) hu he hf (by linarith) (by norm_num) (by norm_num)
        (by norm_num) (by norm_num) (by norm_num) hrad hup k1 k2
      exact ⟨q, _, l1, l2, by norm_num, by norm_num, fun _ => by norm_num⟩
  obtain ⟨q, l, hq1, hq2, hl0, hl1, hl2⟩ := key
  rw [show delta F (Hyp.slope e E) (e * Real.sinh E) = E - Hyp.next e s E by rw [hnext]; ring] at hq2
  -- without the last rounding
  obtain ⟨r1, -⟩ := Hyp.reg_step (y := E - q) (ν := 0) he hs hr hq2 hl0 hl1 hl2 (by simp) (by norm_num)
  have hEq : |E - q| ≤ s + 1 := by rw [abs_le]; constructor <;> linarith [r1.1, r1.2]
  have hrd := rd_err (R := R) (by linarith) hEq
  obtain ⟨r2, r3⟩ := Hyp.reg_step (y := R.rd (E - q)) (ν := 101 / 100 * R.u * (s + 1)) he hs hr hq2 hl0 hl1 hl2 hrd (by linarith)
  refine ⟨_, hq1, r2, ?_⟩
  have : 0 ≤ R.u * (s + 1) := mul_nonneg hu0 (by linarith)
  linarith

/-- the iterates while the loop goes on -/
theorem lagIter_hyp {tol : ℝ} {mi : Int} {e M s E0 : ℝ} (hu : R.u ≤ 1 / 10 ^ 9) (he : 6 / 5 ≤ e) (hs : 0 ≤ s) (hM : e * Real.sinh s - s = M)
    (ht1 : tol ≤ 1 / 10 ^ 6) (htu : 100 * R.u * ((M + e) * (10 + s)) ≤ tol) (hus : R.u * (10 + s) ≤ 1 / 10 ^ 8) (hr : Hyp.Reg s E0) (n : Nat)
    (hgo : ∀ k < n, lagGoesOn (ropts R tol mi 5) (num R M) (num R e) ((lagNext (ropts R tol mi 5) (num R M) (num R e))^[k] (num R E0))) :
    ∃ E, (lagNext (ropts R tol mi 5) (num R M) (num R e))^[n] (num R E0) = num R E ∧ Hyp.Reg s E ∧
      Hyp.dist s E ≤ 6 / 10 * (95 / 100) ^ n + 285 / 10 * (R.u * (s + 1)) := by
  have hu0 := R.u_nonneg
  have hus0 : 0 ≤ R.u * (s + 1) := mul_nonneg hu0 (by linarith)
  induction n with
  | zero =>
    refine ⟨E0, rfl, hr, ?_⟩
    rw [pow_zero]
    unfold Hyp.dist
    obtain ⟨a, b⟩ := hr
    split_ifs <;> linarith
  | succ n ih =>
    obtain ⟨E, k1, k2, k3⟩ := ih (fun k hk => hgo k (by omega))
    have hg := hgo n (by omega)
    rw [k1] at hg
    obtain ⟨E', k4, k5, k6⟩ := lagNext_hyp hu he hs hM ht1 htu hus k2 hg
    refine ⟨E', by rw [Function.iterate_succ_apply', k1, k4], k5, ?_⟩
    rw [pow_succ]
    linarith

theorem abs_le_dist (s x : ℝ) : |x - s| ≤ Hyp.dist s x := by
  unfold Hyp.dist
  split_ifs with h
  · rw [abs_of_nonneg (by linarith)]
  · rw [abs_of_neg (by linarith [not_le.mp h])]; linarith [not_le.mp h]

/-- the solver stops after at most `N` steps -/
theorem solve_hyp {tol : ℝ} {mi : Int} {e M s : ℝ} (he : 6 / 5 ≤ e) (hs : 0 ≤ s) (hM : e * Real.sinh s - s = M) (ht : 0 < tol) (ht1 : tol ≤ 1 / 10 ^ 6)
    (htu : 100 * R.u * ((M + e) * (10 + s)) ≤ tol) (N : Nat) (hN : 5 * (M + e) * (95 / 100 : ℝ) ^ N ≤ tol) (hmi : N < mi) :
    ∃ (E : ℝ) (n : Nat), laguerre_solve_kepler (get_hyperbolic_kepler_guess (num R M) (num R e)) (num R M) (num R e) (ropts R tol mi 5) = (num R E, (n : Int)) ∧
      n ≤ N ∧ |e * Real.sinh E - E - M| < tol + 19 * R.u * (M + e) := by
  have hu0 := R.u_nonneg
  have h1 : 1 < e := by linarith
  have hM0 : 0 ≤ M := by
    have := Real.self_le_sinh_iff.mpr hs
    nlinarith
  have hus : R.u * (10 + s) ≤ 1 / 10 ^ 8 := by
    have := mul_le_mul_of_nonneg_right (show 6 / 5 ≤ M + e by linarith) (mul_nonneg hu0 (show 0 ≤ 10 + s by linarith))
    linarith
  have hu : R.u ≤ 1 / 10 ^ 9 := by
    have := mul_nonneg hu0 hs
    linarith
  obtain ⟨E0, hE0, hd⟩ := guess_hyp (R := R) hu hus he hs hM
  obtain ⟨g1, g2⟩ := Hyp.guess_reg he hs hM
  have hr : Hyp.Reg s E0 := by
    rw [abs_le] at hd
    exact ⟨by linarith [hd.1], by linarith [hd.2]⟩
  rw [hE0]
  obtain ⟨n, h3, h4, h5, h6⟩ := c11_terminates (num R E0) (num R M) (num R e) (ropts R tol mi 5)
  have goes : ∀ E, Hyp.Reg s E → ∃ f, (lagGoesOn (ropts R tol mi 5) (num R M) (num R e) (num R E) ↔ tol ≤ |f|) ∧
      |f + Hyp.rise e s E| ≤ 182 / 10 * R.u * (M + e) := by
    intro E hE
    obtain ⟨f, hf, f1⟩ := hypF (R := R) hu he hs hM hE
    refine ⟨f, ?_, f1⟩
    rw [lagGoesOn, hf]
    simp only [ropts, abs_num, le_num, decide_eq_true_eq]
  have hue0 : 0 ≤ R.u * (M + e) := mul_nonneg hu0 (by linarith)
  have hues0 : 0 ≤ R.u * (M + e) * s := mul_nonneg hue0 hs
  have hnN : n ≤ N := by
    by_contra hlt
    push Not at hlt
    obtain ⟨E, k1, k2, k3⟩ := lagIter_hyp (tol := tol) (mi := mi) hu he hs hM ht1 htu hus hr N (fun k hk => h5 k (by omega))
    have k4 := h5 N hlt
    rw [k1] at k4
    obtain ⟨f, q1, q2⟩ := goes E k2
    have k5 := q1.mp k4
    have hp : 0 < (95 / 100 : ℝ) ^ N := by positivity
    have hpN : (95 / 100 : ℝ) ^ N ≤ 1 / 10 ^ 6 := by
      have := mul_le_mul_of_nonneg_right (show 6 / 5 ≤ M + e by linarith) hp.le
      linarith
    have k6 := Hyp.rise_near h1 hs hM ((abs_le_dist s E).trans k3) (by linarith)
    have k7 := abs_sub (f + Hyp.rise e s E) (Hyp.rise e s E)
    rw [add_sub_cancel_right] at k7
    have k8 : 203 / 100 * (M + e) * (6 / 10 * (95 / 100) ^ N + 285 / 10 * (R.u * (s + 1)))
        = 203 / 100 * (6 / 10) * ((M + e) * (95 / 100) ^ N) + 203 / 100 * (285 / 10) * (R.u * (M + e) * s + R.u * (M + e)) := by ring
    linarith
  obtain ⟨E, k1, k2, k3⟩ := lagIter_hyp (tol := tol) (mi := mi) hu he hs hM ht1 htu hus hr n h5
  rw [k1] at h3 h6
  refine ⟨E, n, h3, hnN, ?_⟩
  obtain ⟨f, q1, q2⟩ := goes E k2
  have k4 := h6 (lt_of_lt_of_le (by exact_mod_cast lt_of_le_of_lt (by exact_mod_cast hnN) hmi) (le_max_right 1 mi))
  rw [q1, not_le] at k4
  rw [show e * Real.sinh E - E - M = (f + Hyp.rise e s E) - f by rw [← hM]; unfold Hyp.rise; ring]
  have := abs_sub (f + Hyp.rise e s E) f
  linarith

end RSolveH

/-! ## C105 -/

open RSolveH RHyper Orbit

/-- C105: on hyperbolas with `e ≥ 1.2`, for a mean anomaly `M ≥ 0` with the exact hyperbolic anomaly `Es`, in every arithmetic whose unit roundoff `u`
satisfies `100 u (M + e) (10 + Es) ≤ tol`, for a tolerance of at most 1e-6: the iteration limit is not reached.  The solver stops after at most `N` steps
when `5 (M + e) 0.95^N ≤ tol` and `max_iter > N`, and `mean_to_eccentric` returns a number that solves Kepler's equation (evaluated exactly) up to
`tol + 19 u (M + e)`; its distance to `Es` is at most `1 / (e - 1)` times that. -/
theorem c105 (tol : ℝ) (ht : 0 < tol) (ht1 : tol ≤ 1 / 10 ^ 6) (mi : Int) (M e Es : ℝ) (he : 6 / 5 ≤ e) (hs : 0 ≤ Es) (hM : e * Real.sinh Es - Es = M)
    (htu : 100 * R.u * ((M + e) * (10 + Es)) ≤ tol) (N : Nat) (hN : 5 * (M + e) * (95 / 100 : ℝ) ^ N ≤ tol) (hmi : N < mi) :
    (∃ (E : ℝ) (n : Nat), laguerre_solve_kepler (keplerGuess (num R M) (num R e)) (num R M) (num R e) (ropts R tol mi 5) = (num R E, (n : Int)) ∧ n ≤ N) ∧
    ¬ HitLimit (ropts R tol mi 5) (num R M) (num R e) ∧
    ∃ E, mean_to_eccentric (ropts R tol mi 5) (rfl64 R M) (rfl64 R e) false = .ok (rfl64 R E) ∧ |e * Real.sinh E - E - M| < tol + 19 * R.u * (M + e) ∧
      |E - Es| ≤ (tol + 19 * R.u * (M + e)) / (e - 1) := by
  have h1 : 1 < e := by linarith
  obtain ⟨E, n, h2, h3, h4⟩ := solve_hyp (R := R) he hs hM ht ht1 htu N hN hmi
  have hg : keplerGuess (num R M) (num R e) = get_hyperbolic_kepler_guess (num R M) (num R e) := by
    unfold keplerGuess
    simp only [one_num, lt_num, h1, decide_true, if_true]
  refine ⟨⟨E, n, by rw [hg, h2], h3⟩, ?_, E, ?_, h4, ?_⟩
  · rw [HitLimit, hg, h2, not_le]
    refine lt_of_lt_of_le ?_ (le_max_right 1 mi)
    show (n : Int) < mi
    exact lt_of_le_of_lt (by exact_mod_cast h3) hmi
  · rw [mean_to_eccentric_num, meanToEccentricSc]
    simp only [zero_num, eq_num, show e ≠ 0 by linarith, decide_false, Bool.false_eq_true, if_false]
    rw [meanToEccentricEl_guess _ _ _ (by simp; linarith), hg, h2]
    rfl
  · have h := meanOf_error (show 0 ≤ e by linarith) (show e ≠ 1 by linarith) E Es
    simp only [meanOf, if_pos h1, hM] at h
    rw [abs_sub_comm 1 e, abs_of_pos (show 0 < e - 1 by linarith)] at h
    exact h.trans (div_le_div_of_nonneg_right h4.le (by linarith))

/-- C105: `mean_to_true` there: the computed true anomaly differs from an exact one by at most `90 u + k (tol + 19 u (M + e)) / (e - 1)`,
`k = sqrt ((e + 1) / (e - 1))` -/
theorem c105_true (g : Nat → RF R) (tol : ℝ) (ht : 0 < tol) (ht1 : tol ≤ 1 / 10 ^ 6) (mi : Int) (M e Es : ℝ) (he : 6 / 5 ≤ e) (hs : 0 ≤ Es)
    (hM : e * Real.sinh Es - Es = M) (htu : 100 * R.u * ((M + e) * (10 + Es)) ≤ tol) (N : Nat) (hN : 5 * (M + e) * (95 / 100 : ℝ) ^ N ≤ tol) (hmi : N < mi) :
    ∃ nu nu0 : ℝ, mean_to_true g (ropts R tol mi 5) (rfl64 R M) (rfl64 R e) false = .ok (rfl64 R nu) ∧ 0 ≤ nu ∧ nu ≤ 629 / 100 ∧ SamePointHyp e nu0 Es ∧
      |nu - nu0| ≤ 90 * R.u + √((e + 1) / (e - 1)) * ((tol + 19 * R.u * (M + e)) / (e - 1)) := by
  have hu0 := R.u_nonneg
  have h1 : 1 < e := by linarith
  obtain ⟨-, -, E, k1, k2, k3⟩ := c105 (R := R) tol ht ht1 mi M e Es he hs hM htu N hN hmi
  have hu : R.u ≤ 1 / 10 ^ 6 := by
    have hM0 : 0 ≤ M := by
      have := Real.self_le_sinh_iff.mpr hs
      nlinarith
    have a1 := mul_le_mul_of_nonneg_right (show 6 / 5 ≤ M + e by linarith) (mul_nonneg hu0 (show 0 ≤ 10 + Es by linarith))
    have := mul_nonneg hu0 hs
    linarith
  obtain ⟨nu, z, l1, l2, l3, l4⟩ := RHyper.ett_err (R := R) hu h1 E
  refine ⟨nu, 2 * halfNu √((e + 1) / (e - 1)) Es + z * (2 * Real.pi), ?_, l2, l3, hyp_point Es z, ?_⟩
  · have k4 : eccentric_to_true g (rfl64 R E) (rfl64 R e) false = .ok (rfl64 R nu) := by
      show Except.ok (Arg.sc .f64 (eccentricToTrueSc (num R E) (num R e))) = _
      rw [eccentricToTrueSc, hyp_sc h1, l1]; rfl
    show (mean_to_eccentric (ropts R tol mi 5) (rfl64 R M) (rfl64 R e) false >>= fun E => eccentric_to_true g E (rfl64 R e) false >>= fun nu => pure nu) = _
    rw [k1]
    show (eccentric_to_true g (rfl64 R E) (rfl64 R e) false >>= fun nu => pure nu) = _
    rw [k4]; rfl
  · obtain ⟨k, hkd⟩ : ∃ k, k = √((e + 1) / (e - 1)) := ⟨_, rfl⟩
    have hk0 : 0 < k := by rw [hkd]; exact Real.sqrt_pos.mpr (div_pos (by linarith) (by linarith))
    rw [← hkd] at l4 ⊢
    have m1 := halfNu_lipschitz hk0 E Es
    have m2 := mul_le_mul_of_nonneg_left k3 (show 0 ≤ k / 2 by linarith)
    rw [abs_le] at l4 m1 ⊢
    constructor <;> linarith [l4.1, l4.2, m1.1, m1.2]

/-- C105 with the default options in double precision: for `M + e ≤ 7`, at most 660 steps; the result solves Kepler's equation up to `1.02e-12` -/
theorem c105_binary64 (M e Es : ℝ) (he : 6 / 5 ≤ e) (hs : 0 ≤ Es) (hM : e * Real.sinh Es - Es = M) (h7 : M + e ≤ 7) :
    ¬ HitLimit .dflt (num Binary.binary64 M) (num _ e) ∧
    ∃ E, mean_to_eccentric .dflt (rfl64 Binary.binary64 M) (rfl64 _ e) false = .ok (rfl64 _ E) ∧ |e * Real.sinh E - E - M| < 102 / 10 ^ 14 ∧
      |E - Es| ≤ 102 / 10 ^ 14 / (e - 1) := by
  have hu : (Binary.binary64).u = (1 / 2 : ℝ) ^ 53 := rfl
  have hu' : (Binary.binary64).u ≤ 11103 / 10 ^ 20 := by rw [hu]; norm_num
  have hu0 := (Binary.binary64).u_nonneg
  have ht := abs_le.mp (rd_err (R := Binary.binary64) (x := 1 / 10 ^ 12) (B := 1 / 10 ^ 12) (by linarith) (by rw [abs_of_pos (by norm_num)]))
  obtain ⟨t1, t2⟩ := ht
  have hM0 : 0 ≤ M := by
    have := Real.self_le_sinh_iff.mpr hs
    nlinarith
  have hEs : Es ≤ 27 / 10 := by
    by_contra hn
    push Not at hn
    have h2 := Lag.Hyp.rise_sign (e := e) (by linarith) hn.le
    have h3 : 73 / 10 ≤ Real.sinh (27 / 10) := by
      have h4 := Lag.Hyp.exp_poly (show (0 : ℝ) ≤ 27 / 20 by norm_num)
      have h5 : Real.exp (27 / 10) = Real.exp (27 / 20) * Real.exp (27 / 20) := by rw [← Real.exp_add]; norm_num
      have h6 : 38 / 10 ≤ Real.exp (27 / 20) := le_trans (by norm_num) h4
      have h7 := Real.exp_pos (-(27 / 10))
      have h8 : Real.exp (-(27 / 10)) * Real.exp (27 / 10) = 1 := by rw [← Real.exp_add]; simp
      have h9 : 1444 / 100 ≤ Real.exp (27 / 10) := by rw [h5]; nlinarith
      have h10 : 147 / 10 ≤ Real.exp (27 / 10) := by
        have h6 : 3845 / 1000 ≤ Real.exp (27 / 20) := le_trans (by norm_num) h4
        rw [h5]; nlinarith
      rw [Real.sinh_eq]
      nlinarith
    have h4 : 0 ≤ (e - 1) * (Es - 27 / 10) := mul_nonneg (by linarith) (by linarith)
    unfold Lag.Hyp.rise at h2
    have h5 := mul_le_mul_of_nonneg_left h3 (show 0 ≤ e by linarith)
    linarith
  have hb : (M + e) * (10 + Es) ≤ 7 * (127 / 10) := mul_le_mul h7 (by linarith) (by linarith) (by norm_num)
  have hub := mul_le_mul hu' hb (mul_nonneg (by linarith) (by linarith)) (by norm_num)
  have hN : (95 / 100 : ℝ) ^ 660 ≤ 1 / 10 ^ 14 := by
    have h1 : (95 / 100 : ℝ) ^ 20 ≤ 36 / 100 := by norm_num
    rw [show 660 = 20 * 33 by norm_num, pow_mul]
    refine (pow_le_pow_left₀ (by positivity) h1 33).trans (by norm_num)
  rw [dflt_ropts]
  obtain ⟨-, k1, E, k2, k3, k4⟩ := c105 (R := Binary.binary64) ((Binary.binary64).rd (1 / 10 ^ 12)) (rd_pos (by norm_num)) (by linarith) 5000 M e Es he hs hM
    (by linarith) 660 (by
      refine (mul_le_mul_of_nonneg_left hN (show 0 ≤ 5 * (M + e) by linarith)).trans ?_
      linarith) (by norm_num)
  have hub2 := mul_le_mul hu' h7 (by linarith) (by norm_num)
  refine ⟨k1, E, k2, by linarith, k4.trans (div_le_div_of_nonneg_right (by linarith) (by linarith))⟩

/-- a case: e = 3/2, hyperbolic anomaly 1 -/
example : ∃ E, mean_to_eccentric .dflt (rfl64 Binary.binary64 (3 / 2 * Real.sinh 1 - 1)) (rfl64 _ (3 / 2)) false = .ok (rfl64 _ E) ∧
    |E - 1| ≤ 102 / 10 ^ 14 / (3 / 2 - 1) := by
  have h1 := Lag.sinh_one_le
  obtain ⟨-, E, k1, -, k3⟩ := c105_binary64 (3 / 2 * Real.sinh 1 - 1) (3 / 2) 1 (by norm_num) (by norm_num) rfl (by linarith)
  exact ⟨E, k1, k3⟩

end Pyorb
