import Verif.PropsRound
import Verif.LagContract

/-!
# The Kepler solver with rounding converges (C96)
-/

namespace Pyorb
open FX RF
variable {R : Rounding}

theorem rd_quarter (n : ℤ) (hn : |n| ≤ 4096) {x : ℝ} (hx : x = n / 4) : R.rd x = x := by
  rw [Rounding.rd, hx, R.exact n hn]; simp

/-- the error of one rounding -/
theorem rd_err {x B : ℝ} (hu : R.u ≤ 1 / 10 ^ 6) (hx : |x| ≤ B) : |R.rd x - x| ≤ 101 / 100 * R.u * B := by
  have hu0 := R.u_nonneg
  have h1 : |Real.exp (R.th x) - 1| ≤ Real.exp R.u - 1 := exp_diff (R.th_le x)
  have h2 : Real.exp R.u - 1 ≤ 101 / 100 * R.u := by
    have h2 := Real.add_one_le_exp (-R.u)
    have h3 : Real.exp R.u * Real.exp (-R.u) = 1 := by rw [← Real.exp_add]; simp
    have h4 := Real.exp_pos R.u
    have h5 : Real.exp R.u * (1 - R.u) ≤ 1 := by nlinarith
    nlinarith
  rw [Rounding.rd, show x * Real.exp (R.th x) - x = (Real.exp (R.th x) - 1) * x by ring, abs_mul]
  exact mul_le_mul (h1.trans h2) hx (abs_nonneg _) (by linarith)

/-! ## What one step uses -/

theorem lagF_err {M e s E : ℝ} (h0 : 0 ≤ e) (h7 : e ≤ 7 / 10) (hs : s - e * Real.sin s = M) (hd : |E - s| ≤ 71 / 100) :
    Near 3 (211 / 100) (lagF (num R M) (num R e) (num R E)) (-Lag.fall e s E) := by
  have hsin := Real.abs_sin_le_one s
  have hsE := Real.abs_sin_le_one E
  have h1 : |M - E| ≤ 141 / 100 := by
    rw [← hs, show s - e * Real.sin s - E = -(E - s) - e * Real.sin s by ring]
    refine (abs_sub _ _).trans ?_
    rw [abs_neg, abs_mul, abs_of_nonneg h0]
    nlinarith [abs_nonneg (Real.sin s)]
  unfold lagF
  simp only [one_num, lt_num, not_lt.mpr (show e ≤ 1 by linarith), decide_false, Bool.false_eq_true, if_false]
  have h2 : Near 1 (141 / 100) (num R M - num R E) (M - E) := by
    have := rel_rd (R := R) (k := 0) (x := M - E) (y := M - E) (t := 0) (by simp) (by simp)
    rw [zero_add] at this
    exact this.near h1
  have h3 := ((Rel.num (R := R) e).mul (Rel.sin E)).near (B := 7 / 10) (by
    rw [abs_mul, abs_of_nonneg h0]
    nlinarith [abs_nonneg (Real.sin E)])
  have h4 := Near.add (h2.mono (k := 2) (by norm_num) (by norm_num) le_rfl) (h3.mono (k := 2) (by norm_num) (by norm_num) le_rfl)
  rw [show -Lag.fall e s E = M - E + e * Real.sin E by unfold Lag.fall; rw [← hs]; ring]
  exact h4.mono (by norm_num) (by norm_num) (by norm_num)

theorem lagFp_err {e : ℝ} (h0 : 0 ≤ e) (h7 : e ≤ 7 / 10) (E : ℝ) : Near 3 (17 / 10) (lagFp (num R e) (num R E)) (-Lag.slope e E) := by
  unfold lagFp
  simp only [one_num, lt_num, not_lt.mpr (show e ≤ 1 by linarith), decide_false, Bool.false_eq_true, if_false]
  have h1 := ((Rel.num (R := R) e).mul (Rel.cos E)).near (B := 7 / 10) (by
    rw [abs_mul, abs_of_nonneg h0]
    nlinarith [abs_nonneg (Real.cos E), Real.abs_cos_le_one E])
  have h2 := (Rel.num (R := R) 1).near (B := 1) (by simp)
  have h3 := Near.sub (h1.mono (k := 2) (by norm_num) (by norm_num) le_rfl) (h2.mono (k := 2) (by norm_num) (by norm_num) le_rfl)
  rw [show -Lag.slope e E = e * Real.cos E - 1 by unfold Lag.slope; ring]
  exact h3.mono (by norm_num) (by norm_num) (by norm_num)

theorem lagFpp_err {e : ℝ} (h0 : 0 ≤ e) (h7 : e ≤ 7 / 10) (E : ℝ) : Near 2 (7 / 10) (lagFpp (num R e) (num R E)) (-(e * Real.sin E)) := by
  unfold lagFpp
  simp only [one_num, lt_num, not_lt.mpr (show e ≤ 1 by linarith), decide_false, Bool.false_eq_true, if_false]
  have h1 := ((Rel.num (R := R) e).neg.mul (Rel.sin E)).near (B := 7 / 10) (by
    rw [abs_mul, abs_neg, abs_of_nonneg h0]
    nlinarith [abs_nonneg (Real.sin E), Real.abs_sin_le_one E])
  rw [show -(e * Real.sin E) = -e * Real.sin E by ring]
  exact h1.mono (by norm_num) (by norm_num) le_rfl

/-- the expression under the root -/
theorem lagRad_err {e s E : ℝ} {f fp fpp : RF R} (hf : Near 3 (211 / 100) f (-Lag.fall e s E)) (hfp : Near 3 (17 / 10) fp (-Lag.slope e E))
    (hfpp : Near 2 (7 / 10) fpp (-(e * Real.sin E))) :
    Near 9 76 (sq (num R 5 - 1) * sq fp - num R 5 * (num R 5 - 1) * f * fpp)
      (16 * Lag.slope e E ^ 2 - 20 * Lag.fall e s E * (e * Real.sin E)) := by
  have e4 : (num R 5 - 1 : RF R) = num R 4 := by
    rw [one_num, sub_num, show (5 - 1 : ℝ) = 4 by norm_num, rd_quarter 16 (by norm_num) (by norm_num)]
  have e16 : (sq (num R 4) : RF R) = num R 16 := by
    rw [sq, mul_num, show (4 * 4 : ℝ) = 16 by norm_num, rd_quarter 64 (by norm_num) (by norm_num)]
  have e20 : (num R 5 * num R 4 : RF R) = num R 20 := by
    rw [mul_num, show (5 * 4 : ℝ) = 20 by norm_num, rd_quarter 80 (by norm_num) (by norm_num)]
  rw [e4, e16, e20]
  have h1 := ((Rel.num (R := R) 16).near (B := 16) (by norm_num)).mul (hfp.mul hfp)
  have h2 := (((Rel.num (R := R) 20).near (B := 20) (by norm_num)).mul hf).mul hfpp
  have h3 := Near.sub (h1.mono (k := 8) (by norm_num) (by norm_num) le_rfl) (h2.mono (k := 8) (by norm_num) (by norm_num) le_rfl)
  rw [show 16 * Lag.slope e E ^ 2 - 20 * Lag.fall e s E * (e * Real.sin E)
    = 16 * (-Lag.slope e E * -Lag.slope e E) - 20 * -Lag.fall e s E * -(e * Real.sin E) by ring]
  exact h3.mono (by norm_num) (by norm_num) (by norm_num)

theorem fall_le' {e s x : ℝ} (h0 : 0 ≤ e) (h7 : e ≤ 7 / 10) : |Lag.fall e s x| ≤ 17 / 10 * |x - s| := by
  have h1 := Real.abs_sin_sub_sin_le x s
  unfold Lag.fall
  refine (abs_sub _ _).trans ?_
  rw [abs_mul, abs_of_nonneg h0]
  have := mul_le_mul h7 h1 (abs_nonneg _) (by norm_num)
  linarith

/-- the rounding errors of the step as a whole -/
theorem step_tail {u q q' δ d E s : ℝ} (hu0 : 0 ≤ u) (hu : u ≤ 1 / 10 ^ 6) (hqδ : |q - δ| ≤ 51 * u + 1743 * u * |δ|) (hq1 : |q' - q| ≤ 3 * u * |q|)
    (hδd : |δ| ≤ 3 / 2 * d) (c2 : |E - δ - s| ≤ d / 2) : |E - q' - s| ≤ 51 / 100 * d + 52 * u := by
  have hqa : |q| ≤ 101 / 100 * |δ| + 51 * u := by
    have e1 := abs_add_le (q - δ) δ
    rw [sub_add_cancel] at e1
    have e3 : u * |δ| ≤ 1 / 10 ^ 6 * |δ| := mul_le_mul_of_nonneg_right hu (abs_nonneg _)
    linarith [abs_nonneg δ]
  have e4 : 0 ≤ u * |δ| := mul_nonneg hu0 (abs_nonneg _)
  have hq2 : |q' - δ| ≤ 52 * u + 1750 * u * |δ| := by
    have e1 := abs_add_le (q' - q) (q - δ)
    rw [sub_add_sub_cancel] at e1
    have e2 : 3 * u * |q| ≤ 3 * u * (101 / 100 * |δ| + 51 * u) := mul_le_mul_of_nonneg_left hqa (by linarith)
    have e3 : u * u ≤ 1 / 10 ^ 6 * u := mul_le_mul_of_nonneg_right hu hu0
    linarith
  have e3 : u * |δ| ≤ 1 / 10 ^ 6 * (3 / 2 * d) := mul_le_mul hu hδd (abs_nonneg _) (by norm_num)
  have e1 := abs_add_le (E - δ - s) (-(q' - δ))
  rw [show E - δ - s + -(q' - δ) = E - q' - s by ring, abs_neg] at e1
  have e5 := (abs_nonneg _).trans hδd
  linarith

/-- one step of the iteration computed with rounding -/
theorem lagNext_err {tol : ℝ} {mi : Int} {M e s E : ℝ} (hu : R.u ≤ 1 / 10 ^ 6) (h0 : 0 ≤ e) (h7 : e ≤ 7 / 10) (hs : s - e * Real.sin s = M)
    (hs8 : |s| ≤ 7) (hd : |E - s| ≤ 71 / 100) :
    ∃ E', lagNext (ropts R tol mi 5) (num R M) (num R e) (num R E) = num R E' ∧ |E' - s| ≤ 51 / 100 * |E - s| + 70 * R.u := by
  have hu0 := R.u_nonneg
  have hF := lagF_err (R := R) h0 h7 hs hd
  have hP := lagFp_err (R := R) h0 h7 E
  have hW := lagFpp_err (R := R) h0 h7 E
  obtain ⟨c1, c2⟩ := Lag.contract h0 h7 hd
  obtain ⟨p3, p17⟩ := Lag.slope_ge h0 h7 E
  have hRad := lagRad_err hF hP hW
  have hFl := fall_le' (s := s) (x := E) h0 h7
  obtain ⟨f, hf, f1⟩ := hF.abs_le (by norm_num) (by linarith)
  obtain ⟨fp, hfp, fp1⟩ := hP.abs_le (by norm_num) (by linarith)
  obtain ⟨rad, hrad, rad1⟩ := hRad.abs_le (by norm_num) (by linarith)
  unfold lagNext lagStep
  rw [hf, hfp] at hrad
  simp only [ropts, hf, hfp, hrad]
  simp only [abs_num, sqrt_num (abs_nonneg _), sub_num, add_num, lt_num, mul_num, decide_eq_true_eq]
  rw [Lag.next, Lag.delta] at c2
  set F := Lag.fall e s E with hFd
  set p := Lag.slope e E with hpd
  set rad0 := 16 * p ^ 2 - 20 * F * (e * Real.sin E) with hr0
  have hrad0 : 36 / 100 ≤ rad0 := by nlinarith
  rw [abs_of_nonneg (by linarith : 0 ≤ rad0)] at c2
  have hradp : 0 < rad := by rw [abs_le] at rad1; linarith [rad1.1]
  rw [abs_of_pos hradp]
  -- the root
  have hS2 : 2 * p ≤ √rad0 := by
    refine Real.le_sqrt_of_sq_le ?_
    nlinarith
  have hS9 : √rad0 ≤ 9 := by
    rw [Real.sqrt_le_left (by norm_num)]
    have : |rad0| ≤ 76 := hRad.choose_spec.2.2
    have := le_abs_self rad0
    linarith
  have hS : |√rad - √rad0| ≤ 1520 * R.u := by
    have e1 : (√rad - √rad0) * (√rad + √rad0) = rad - rad0 := by
      have a1 := Real.mul_self_sqrt hradp.le
      have a2 := Real.mul_self_sqrt (show 0 ≤ rad0 by linarith)
      linarith
    have e2 : |√rad - √rad0| * (√rad + √rad0) = |rad - rad0| := by
      rw [← e1, abs_mul, abs_of_nonneg (show 0 ≤ √rad + √rad0 by positivity)]
    have e3 : 6 / 10 ≤ √rad + √rad0 := by
      have := Real.sqrt_nonneg rad
      linarith
    have e4 : |√rad - √rad0| * (6 / 10) ≤ |√rad - √rad0| * (√rad + √rad0) := mul_le_mul_of_nonneg_left e3 (abs_nonneg _)
    linarith
  obtain ⟨S, hSd⟩ : ∃ S, S = R.rd (√rad) := ⟨_, rfl⟩
  rw [← hSd]
  have hSS : |S - √rad0| ≤ 1531 * R.u := by
    have e1 : |√rad| ≤ 10 := by
      rw [abs_of_nonneg (Real.sqrt_nonneg _)]
      rw [abs_le] at hS
      linarith [hS.2]
    have e2 := rd_err (R := R) hu e1
    rw [← hSd] at e2
    have := abs_add_le (S - √rad) (√rad - √rad0)
    rw [sub_add_sub_cancel] at this
    linarith
  generalize hgS : √rad0 = S0 at *
  have hpp : |-fp - p| ≤ 7 * R.u := by
    rw [show -fp - p = -(fp - -p) by ring, abs_neg]
    linarith
  have hff : |-f - F| ≤ 9 * R.u := by
    rw [show -f - F = -(f - -F) by ring, abs_neg]
    linarith
  clear hF hP hW hRad hrad hfp hf f1 fp1 rad1 hr0 hrad0 hradp hS hSd hgS c1
  -- the denominator
  have hDx : |fp - S| ≤ 11 := by
    rw [abs_le] at hSS hpp ⊢
    constructor <;> linarith [hSS.1, hSS.2, hpp.1, hpp.2]
  have hD := rd_err (R := R) hu hDx
  have hDy : |fp + S| ≤ S - fp - 58 / 100 := by
    rw [abs_le] at hSS hpp ⊢
    constructor <;> linarith [hSS.1, hSS.2, hpp.1, hpp.2]
  have hDp := rd_err (R := R) (x := fp + S) (B := 11) hu (by
    rw [abs_le] at hSS hpp
    linarith [hSS.1, hSS.2, hpp.1, hpp.2])
  have hlt : ¬ |R.rd (fp - S)| < |R.rd (fp + S)| := by
    rw [not_lt]
    have a1 := abs_sub_abs_le_abs_sub (R.rd (fp + S)) (fp + S)
    have a2 := neg_le_abs (R.rd (fp - S))
    rw [abs_le] at hD
    linarith [hD.2]
  rw [if_neg hlt]
  obtain ⟨D, hDd⟩ : ∃ D, D = -R.rd (fp - S) := ⟨_, rfl⟩
  have hDD : |D - (p + S0)| ≤ 1551 * R.u := by
    have e1 : D - (p + S0) = -(R.rd (fp - S) - (fp - S)) + (-fp - p) + (S - S0) := by rw [hDd]; ring
    rw [e1]
    refine (abs_add_le _ _).trans ?_
    have := abs_add_le (-(R.rd (fp - S) - (fp - S))) (-fp - p)
    rw [abs_neg] at this
    linarith
  have hD9 : 89 / 100 ≤ D := by
    rw [abs_le] at hDD
    linarith [hDD.1]
  have hnz : R.rd (fp - S) ≠ 0 := by
    intro h
    rw [h] at hDd
    linarith
  rw [div_num _ hnz, sub_num]
  refine ⟨_, rfl, ?_⟩
  have hD0 : 0 < p + S0 := by linarith
  -- the step
  obtain ⟨δ, hδ⟩ : ∃ δ, δ = 5 * F / (p + S0) := ⟨_, rfl⟩
  rw [← hδ] at c2
  have hδd : |δ| ≤ 3 / 2 * |E - s| := by
    have := abs_add_le (-(E - δ - s)) (E - s)
    rw [show -(E - δ - s) + (E - s) = δ by ring, abs_neg] at this
    linarith
  have hda := abs_nonneg (E - s)
  obtain ⟨q, hq⟩ : ∃ q, q = 5 * -f / D := ⟨_, rfl⟩
  have hqδ : |q - δ| ≤ 51 * R.u + 1743 * R.u * |δ| := by
    have e1 : q - δ = (5 * (-f - F) - δ * (D - (p + S0))) / D := by
      rw [hq, hδ]; field_simp; ring
    rw [e1, abs_div, abs_of_pos (by linarith : 0 < D), div_le_iff₀ (by linarith)]
    have e2 : |5 * (-f - F) - δ * (D - (p + S0))| ≤ 5 * (9 * R.u) + |δ| * (1551 * R.u) := by
      refine (abs_sub _ _).trans ?_
      rw [abs_mul, abs_mul, abs_of_pos (by norm_num : (0 : ℝ) < 5)]
      have := mul_le_mul_of_nonneg_left hDD (abs_nonneg δ)
      linarith
    have e3 : 0 ≤ R.u * |δ| := mul_nonneg hu0 (abs_nonneg _)
    have e4 : (51 * R.u + 1743 * R.u * |δ|) * (89 / 100) ≤ (51 * R.u + 1743 * R.u * |δ|) * D := mul_le_mul_of_nonneg_left hD9 (by linarith)
    linarith
  -- the rounded quotient
  have hex : ∃ q', R.rd (R.rd (5 * f) / R.rd (fp - S)) = q' ∧ |q' - q| ≤ 3 * R.u * |q| := by
    refine ⟨_, rfl, ?_⟩
    have e1 : R.rd (5 * f) / R.rd (fp - S) = q * Real.exp (R.th (5 * f)) := by
      have : R.rd (fp - S) = -D := by rw [hDd]; ring
      rw [this, hq, Rounding.rd]
      have : D ≠ 0 := by linarith
      field_simp
    rw [e1, Rounding.rd, mul_assoc, ← Real.exp_add, show ∀ x : ℝ, q * x - q = (x - 1) * q by intro x; ring, abs_mul]
    refine mul_le_mul_of_nonneg_right ?_ (abs_nonneg _)
    have e2 : |R.th (5 * f) + R.th (q * Real.exp (R.th (5 * f)))| ≤ 2 * R.u :=
      (abs_add_le _ _).trans (by linarith [R.th_le (5 * f), R.th_le (q * Real.exp (R.th (5 * f)))])
    have e3 := exp_sub_one_le (t := 2 * R.u) (by linarith) (by linarith)
    have := exp_diff e2
    linarith
  obtain ⟨q', hq', hq1⟩ := hex
  rw [hq']
  have hEs := step_tail hu0 hu hqδ hq1 hδd c2
  have hEq : |E - q'| ≤ 8 := by
    have e1 := abs_add_le (E - q' - s) s
    rw [sub_add_cancel] at e1
    linarith
  have hfin := rd_err (R := R) hu hEq
  have e1 := abs_add_le (R.rd (E - q') - (E - q')) (E - q' - s)
  rw [show R.rd (E - q') - (E - q') + (E - q' - s) = R.rd (E - q') - s by ring] at e1
  linarith

/-! ## The starting guess -/

theorem root_nonneg {e m σ : ℝ} (h0 : 0 ≤ e) (h1 : e < 1) (hσ : σ - e * Real.sin σ = m) (hm : 0 ≤ m) : 0 ≤ σ := by
  by_contra h
  push Not at h
  have h2 := (abs_le.mp (Real.abs_sin_le_abs (x := σ))).1
  rw [abs_of_neg h] at h2
  nlinarith

theorem root_sin {e m σ : ℝ} (h0 : 0 ≤ e) (h7 : e ≤ 7 / 10) (hσ : σ - e * Real.sin σ = m) (hm0 : 0 ≤ m) (hm : m ≤ 3142 / 1000) :
    -(1 / 500) ≤ Real.sin σ := by
  have hσ0 := root_nonneg h0 (by linarith) hσ hm0
  rcases le_total σ Real.pi with h | h
  · have := Real.sin_nonneg_of_nonneg_of_le_pi hσ0 h
    linarith
  · have hp := Real.pi_gt_d4
    have h2 := Real.sin_le (sub_nonneg.mpr h)
    rw [Real.sin_sub_pi] at h2
    have h4 : Real.sin σ ≤ σ - Real.pi := by
      have := (abs_le.mp (Real.abs_sin_le_abs (x := σ - Real.pi))).1
      rw [Real.sin_sub_pi, abs_of_nonneg (sub_nonneg.mpr h)] at this
      linarith
    have h3 : (σ - Real.pi) * (3 / 10) ≤ m - Real.pi := by
      have h5 := mul_le_mul_of_nonneg_left h4 h0
      have h6 := mul_le_mul_of_nonneg_right h7 (sub_nonneg.mpr h)
      linarith
    linarith

theorem root_small {e m σ : ℝ} (h0 : 0 ≤ e) (h7 : e ≤ 7 / 10) (hσ : σ - e * Real.sin σ = m) : |σ| * (3 / 10) ≤ |m| := by
  have h1 := Real.abs_sin_le_abs (x := σ)
  have h2 : |σ| ≤ |m| + e * |Real.sin σ| := by
    have := abs_add_le m (e * Real.sin σ)
    rw [abs_mul, abs_of_nonneg h0] at this
    rw [show σ = m + e * Real.sin σ by linarith]
    rwa [show m + e * Real.sin σ = σ by linarith] at this ⊢
  have := mul_le_mul h7 h1 (abs_nonneg _) (by norm_num)
  linarith

/-- the denominator in the guess -/
theorem smith_err {e m : ℝ} (hu : R.u ≤ 1 / 10 ^ 6) (h0 : 0 ≤ e) (h7 : e ≤ 7 / 10) (hm0 : -(1 / 50) ≤ m) (hm1 : m ≤ 1 / 4) :
    ∃ D, (1 - Np.sin (num R m + num R e) + Np.sin (num R m) : RF R) = num R D ∧ |D - (1 - Real.sin (m + e) + Real.sin m)| ≤ 2 / 10 ^ 5 := by
  have hu0 := R.u_nonneg
  obtain ⟨s2, hs2, p2⟩ := ((Rel.sin (R := R) m).near (B := 1) (Real.abs_sin_le_one m)).abs_le (by norm_num) (by linarith)
  obtain ⟨s1, hs1, p1⟩ := ((Rel.sin (R := R) (R.rd (m + e))).near (B := 1) (Real.abs_sin_le_one _)).abs_le (by norm_num) (by linarith)
  have hy := rd_err (R := R) (x := m + e) (B := 1) hu (by rw [abs_le]; constructor <;> linarith)
  have hsin := (Real.abs_sin_sub_sin_le (R.rd (m + e)) (m + e)).trans hy
  have b1 := Real.abs_sin_le_one (R.rd (m + e))
  have b2 := Real.abs_sin_le_one m
  rw [add_num, hs1, hs2, one_num, sub_num, add_num]
  refine ⟨_, rfl, ?_⟩
  rw [abs_le] at p1 p2 hsin b1 b2
  have q1 := rd_err (R := R) (x := 1 - s1) (B := 3) hu (by rw [abs_le]; constructor <;> linarith [p1.1, p1.2])
  rw [abs_le] at q1
  have q2 := rd_err (R := R) (x := R.rd (1 - s1) + s2) (B := 5) hu (by
    rw [abs_le]; constructor <;> linarith [p1.1, p1.2, p2.1, p2.2, q1.1, q1.2])
  rw [abs_le] at q2 ⊢
  constructor <;> linarith [p1.1, p1.2, p2.1, p2.2, q1.1, q1.2, q2.1, q2.2, hsin.1, hsin.2]

/-- a quotient with a disturbed denominator and rounding -/
theorem quot_err {N D D' t v : ℝ} (hD : 3 / 10 ≤ D) (hD' : |D' - D| ≤ 2 / 10 ^ 5) (ht : |Real.exp t - 1| ≤ 1 / 10 ^ 5) (hv : v = N / D)
    (hv3 : |v| ≤ 3) : |N * Real.exp t / D' - v| ≤ 1 / 1000 := by
  have h1 : 29 / 100 ≤ D' := by rw [abs_le] at hD'; linarith [hD'.1]
  have h2 : N * Real.exp t / D' - v = v * (D * (Real.exp t - 1) - (D' - D)) / D' := by
    rw [hv]; field_simp; ring
  rw [h2, abs_div, abs_mul, abs_of_pos (by linarith : 0 < D'), div_le_iff₀ (by linarith)]
  have h3 : |D * (Real.exp t - 1) - (D' - D)| ≤ D * (1 / 10 ^ 5) + 2 / 10 ^ 5 := by
    refine (abs_sub _ _).trans ?_
    rw [abs_mul, abs_of_pos (by linarith : 0 < D)]
    have := mul_le_mul_of_nonneg_left ht (show 0 ≤ D by linarith)
    linarith
  have h4 : D ≤ D' + 1 / 100 := by rw [abs_le] at hD'; linarith [hD'.1]
  have h5 := mul_le_mul hv3 h3 (abs_nonneg _) (by norm_num)
  linarith

/-- the guess for an anomaly in the first half of a turn, as it is computed -/
theorem guess_half {e m σ : ℝ} (hu : R.u ≤ 1 / 10 ^ 6) (h0 : 0 ≤ e) (h7 : e ≤ 7 / 10) (hm0 : -(1 / 50) ≤ m) (hm1 : m ≤ 3142 / 1000)
    (hσ : σ - e * Real.sin σ = m) :
    ∃ g, (if num R m <ᵇ Np.lit (1 / 4) then
        num R m + num R e * Np.sin (num R m) / (1 - Np.sin (num R m + num R e) + Np.sin (num R m))
      else if num R m <ᵇ 2 then num R m + num R e
      else num R m + (num R e * (Np.pi - num R m)) / (1 + num R e) : RF R) = num R g ∧ |g - σ| ≤ 705 / 1000 := by
  have hu0 := R.u_nonneg
  have hp := Real.pi_gt_d4
  have hp' := Real.pi_lt_d4
  have hex : ∀ {t k : ℝ}, |t| ≤ k * R.u → 0 ≤ k → k ≤ 6 → |Real.exp t - 1| ≤ 1 / 10 ^ 5 := by
    intro t k h1 h2 h3
    have h4 : k * R.u ≤ 6 * R.u := mul_le_mul_of_nonneg_right h3 hu0
    have h5 := exp_sub_one_le (mul_nonneg h2 hu0) (by linarith)
    have := exp_diff h1
    linarith
  -- adding the correction `w` to `m`
  have fin : ∀ w, |w| ≤ 3 → |m + w - σ| ≤ 704 / 1000 → |R.rd (m + w) - σ| ≤ 705 / 1000 := by
    intro w hw hm
    have e1 := rd_err (R := R) (x := m + w) (B := 7) hu (by
      refine (abs_add_le _ _).trans ?_
      have : |m| ≤ 4 := by rw [abs_le]; constructor <;> linarith
      linarith)
    have e2 := abs_add_le (R.rd (m + w) - (m + w)) (m + w - σ)
    rw [sub_add_sub_cancel] at e2
    linarith
  have hsσ := Real.abs_sin_le_one σ
  have hsσ' := Real.sin_le_one σ
  have hup : e * Real.sin σ ≤ 7 / 10 := by nlinarith [Real.sin_le_one σ]
  rw [quarter_num, two_num, lt_num, lt_num]
  by_cases hq : m < 1 / 4
  · obtain ⟨D, hD, hDe⟩ := smith_err (R := R) hu h0 h7 hm0 hq.le
    have hD0 := Lag.smith_den h0 h7 m
    rw [show 1 - (Real.sin (m + e) - Real.sin m) = 1 - Real.sin (m + e) + Real.sin m by ring] at hD0
    have hDp : 0 < D := by rw [abs_le] at hDe; linarith [hDe.1]
    simp only [hq, decide_true, if_true]
    obtain ⟨t, t1, t2⟩ := (Rel.num (R := R) e).mul (Rel.sin m)
    rw [hD, t2, div_num _ hDp.ne', add_num]
    refine ⟨_, rfl, ?_⟩
    obtain ⟨v, hv⟩ : ∃ v, v = e * Real.sin m / (1 - Real.sin (m + e) + Real.sin m) := ⟨_, rfl⟩
    have hD00 : 0 < 1 - Real.sin (m + e) + Real.sin m := by linarith
    have hv1 : 0 ≤ m → 0 ≤ v ∧ v ≤ 7 / 10 := by
      intro hm
      have hs0 : 0 ≤ Real.sin m := Real.sin_nonneg_of_nonneg_of_le_pi hm (by linarith)
      refine ⟨by rw [hv]; positivity, ?_⟩
      rw [hv, div_le_iff₀ hD00]
      have h1 := Real.sin_le_one (m + e)
      have h2 : e * Real.sin m ≤ 7 / 10 * Real.sin m := mul_le_mul_of_nonneg_right h7 hs0
      linarith
    have hv2 : m < 0 → |v| ≤ 45 / 1000 := by
      intro hm
      rw [hv, abs_div, abs_of_pos hD00, div_le_iff₀ hD00, abs_mul, abs_of_nonneg h0]
      have h1 := Real.abs_sin_le_abs (x := m)
      rw [abs_of_neg hm] at h1
      have h2 : e * |Real.sin m| ≤ 7 / 10 * (1 / 50) := mul_le_mul h7 (by linarith) (abs_nonneg _) (by norm_num)
      linarith
    have hv3 : |v| ≤ 7 / 10 := by
      rcases le_or_gt 0 m with h | h
      · rw [abs_of_nonneg (hv1 h).1]; exact (hv1 h).2
      · linarith [hv2 h]
    have hw := quot_err (N := e * Real.sin m) (D' := D) (t := t + R.th (e * Real.sin m * Real.exp t / D)) (by linarith) hDe
      (hex (k := 3) (by
        refine (abs_add_le _ _).trans ?_
        have := R.th_le (e * Real.sin m * Real.exp t / D)
        linarith) (by norm_num) (by norm_num)) hv (by linarith)
    have hrw : R.rd (e * Real.sin m * Real.exp t / D) = e * Real.sin m * Real.exp (t + R.th (e * Real.sin m * Real.exp t / D)) / D := by
      rw [Rounding.rd, Real.exp_add]; ring
    rw [← hrw] at hw
    refine fin _ ?_ ?_
    · have := abs_add_le (R.rd (e * Real.sin m * Real.exp t / D) - v) v
      rw [sub_add_cancel] at this
      linarith
    · have h1 := abs_add_le (R.rd (e * Real.sin m * Real.exp t / D) - v) (m + v - σ)
      rw [show R.rd (e * Real.sin m * Real.exp t / D) - v + (m + v - σ) = m + R.rd (e * Real.sin m * Real.exp t / D) - σ by ring] at h1
      have h2 : |m + v - σ| ≤ 702 / 1000 := by
        rcases le_or_gt 0 m with h | h
        · have h3 := root_sin h0 h7 hσ h hm1
          obtain ⟨h4, h5⟩ := hv1 h
          have h6 : -(2 / 1000) ≤ e * Real.sin σ := by nlinarith
          rw [abs_le]; constructor <;> linarith
        · have h3 := root_small h0 h7 hσ
          rw [abs_of_neg h] at h3
          have h4 := Real.abs_sin_le_abs (x := σ)
          have h5 : e * |Real.sin σ| ≤ 7 / 10 * (1 / 10) := mul_le_mul h7 (by linarith) (abs_nonneg _) (by norm_num)
          have h6 := abs_sub v (e * Real.sin σ)
          rw [abs_mul, abs_of_nonneg h0] at h6
          rw [show m + v - σ = v - e * Real.sin σ by linarith]
          linarith [hv2 h]
      linarith
  · push Not at hq
    have h3 := root_sin h0 h7 hσ (by linarith) hm1
    have h6 : -(2 / 1000) ≤ e * Real.sin σ := by nlinarith
    by_cases h2 : m < 2
    · simp only [not_lt.mpr hq, h2, decide_true, decide_false, Bool.false_eq_true, if_true, if_false, add_num]
      refine ⟨_, rfl, fin e (by rw [abs_le]; constructor <;> linarith) ?_⟩
      rw [show m + e - σ = e - e * Real.sin σ by linarith, abs_le]
      constructor <;> linarith
    · push Not at h2
      simp only [not_lt.mpr hq, not_lt.mpr h2, decide_false, Bool.false_eq_true, if_false, pi_num, one_num, sub_num, mul_num, add_num]
      rw [div_num _ (rd_pos (by linarith)).ne', add_num]
      refine ⟨_, rfl, ?_⟩
      have a1 := rd_err (R := R) (x := Real.pi) (B := 4) hu (by rw [abs_le]; constructor <;> linarith)
      have a2 := rd_err (R := R) (x := R.rd Real.pi - m) (B := 6) hu (by
        rw [abs_le] at a1 ⊢; constructor <;> linarith [a1.1, a1.2])
      have a3 := rd_err (R := R) (x := 1 + e) (B := 2) hu (by rw [abs_le]; constructor <;> linarith)
      obtain ⟨b, hb⟩ : ∃ b, b = R.rd (R.rd Real.pi - m) := ⟨_, rfl⟩
      obtain ⟨D, hD⟩ : ∃ D, D = R.rd (1 + e) := ⟨_, rfl⟩
      rw [← hb] at a2 ⊢
      rw [← hD] at a3 ⊢
      have b1 : |b - (Real.pi - m)| ≤ 2 / 10 ^ 5 := by
        rw [abs_le] at a1 a2 ⊢; constructor <;> linarith [a1.1, a1.2, a2.1, a2.2]
      obtain ⟨t, ht⟩ : ∃ t, t = R.th (e * b) + R.th (R.rd (e * b) / D) := ⟨_, rfl⟩
      have ht1 : |t| ≤ 2 * R.u := by
        rw [ht]
        exact (abs_add_le _ _).trans (by linarith [R.th_le (e * b), R.th_le (R.rd (e * b) / D)])
      have hrw : R.rd (R.rd (e * b) / D) = e * b * Real.exp t / D := by
        rw [Rounding.rd, ht, Real.exp_add, show R.rd (e * b) = e * b * Real.exp (R.th (e * b)) from rfl]; ring
      have hb2 : -(1 / 1000) ≤ b ∧ b ≤ 1142 / 1000 := by
        rw [abs_le] at b1; constructor <;> linarith [b1.1, b1.2]
      obtain ⟨v, hv⟩ : ∃ v, v = e * b / (1 + e) := ⟨_, rfl⟩
      have hv1 : -(1 / 1000) ≤ v ∧ v ≤ 48 / 100 := by
        rw [hv, le_div_iff₀ (by linarith), div_le_iff₀ (by linarith)]
        constructor <;> nlinarith [hb2.1, hb2.2]
      have hw := quot_err (N := e * b) (D := 1 + e) (D' := D) (t := t) (by linarith) (a3.trans (by linarith)) (hex ht1 (by norm_num) (by norm_num)) hv
        (by rw [abs_le]; constructor <;> linarith [hv1.1, hv1.2])
      rw [← hrw] at hw
      refine fin _ ?_ ?_
      · rw [abs_le] at hw ⊢; constructor <;> linarith [hv1.1, hv1.2, hw.1, hw.2]
      · rw [abs_le] at hw ⊢; constructor <;> linarith [hv1.1, hv1.2, hw.1, hw.2]

theorem twoPi_err (hu : R.u ≤ 1 / 10 ^ 6) : ∃ tp, (twoPi : RF R) = num R tp ∧ |tp - 2 * Real.pi| ≤ 13 * R.u := by
  have hu0 := R.u_nonneg
  have hp := Real.pi_lt_d4
  have hp0 := Real.pi_pos
  have h := rd_err (R := R) (x := Real.pi) (B := 315 / 100) hu (by rw [abs_of_pos hp0]; linarith)
  refine ⟨_, by rw [twoPi, two_num, pi_num, mul_num], ?_⟩
  rw [abs_le] at h
  have h2 := rd_err (R := R) (x := 2 * R.rd Real.pi) (B := 631 / 100) hu (by
    have := rd_pos (R := R) hp0
    rw [abs_of_pos (by linarith)]
    linarith [h.2])
  rw [abs_le] at h2 ⊢
  constructor <;> linarith [h.1, h.2, h2.1, h2.2]

/-- solutions of Kepler's equation for two mean anomalies -/
theorem root_lipschitz {e s σ m n : ℝ} (h0 : 0 ≤ e) (h7 : e ≤ 7 / 10) (hs : s - e * Real.sin s = m) (hσ : σ - e * Real.sin σ = n) :
    |s - σ| * (3 / 10) ≤ |m - n| := by
  have h1 := Real.abs_sin_sub_sin_le s σ
  have h2 : |s - σ| ≤ |m - n| + e * |Real.sin s - Real.sin σ| := by
    have := abs_add_le (m - n) (e * (Real.sin s - Real.sin σ))
    rw [abs_mul, abs_of_nonneg h0] at this
    rwa [show m - n + e * (Real.sin s - Real.sin σ) = s - σ by rw [← hs, ← hσ]; ring] at this
  have := mul_le_mul h7 h1 (abs_nonneg _) (by norm_num)
  linarith

/-- the guess for an ellipse, as it is computed, is within 0.71 of the solution -/
theorem guess_err {e M s : ℝ} (hu : R.u ≤ 1 / 10 ^ 6) (h0 : 0 ≤ e) (h7 : e ≤ 7 / 10) (hM0 : 0 ≤ M) (hM1 : M ≤ 63 / 10)
    (hs : s - e * Real.sin s = M) : ∃ E0, get_kepler_guess (num R M) (num R e) = num R E0 ∧ |E0 - s| ≤ 71 / 100 := by
  have hu0 := R.u_nonneg
  have hp := Real.pi_gt_d4
  have hp' := Real.pi_lt_d4
  have hpr := rd_err (R := R) (x := Real.pi) (B := 4) hu (by rw [abs_le]; constructor <;> linarith)
  rw [abs_le] at hpr
  obtain ⟨tp, htp, tp1⟩ := twoPi_err (R := R) hu
  rw [abs_le] at tp1
  unfold get_kepler_guess
  simp only [pi_num, lt_num, htp, decide_eq_true_eq]
  by_cases hM : R.rd Real.pi < M
  · simp only [if_pos hM, sub_num]
    have hm := rd_err (R := R) (x := tp - M) (B := 7) hu (by rw [abs_le]; constructor <;> linarith [tp1.1, tp1.2])
    rw [abs_le] at hm
    obtain ⟨σ, hσ⟩ := root_exists h0 (by linarith) (R.rd (tp - M))
    obtain ⟨g, hg, g1⟩ := guess_half (R := R) hu h0 h7 (m := R.rd (tp - M)) (by linarith [tp1.1, tp1.2, hm.1]) (by linarith [tp1.1, tp1.2, hm.2, hpr.1]) hσ
    simp only [pi_num, sub_num] at hg
    rw [hg, sub_num]
    refine ⟨_, rfl, ?_⟩
    have hs' : (2 * Real.pi - s) - e * Real.sin (2 * Real.pi - s) = 2 * Real.pi - M := by
      rw [Real.sin_two_pi_sub, ← hs]; ring
    have hL := root_lipschitz h0 h7 hσ hs'
    have hb : |R.rd (tp - M) - (2 * Real.pi - M)| ≤ 30 * R.u := by
      rw [abs_le]; constructor <;> linarith [tp1.1, tp1.2, hm.1, hm.2]
    have hL2 := (abs_le.mp (show |σ - (2 * Real.pi - s)| ≤ 100 * R.u by linarith))
    have hb' := abs_le.mp hb
    have hg' := abs_le.mp g1
    have hsM : |s - M| ≤ 7 / 10 := by
      rw [show s - M = e * Real.sin s by linarith, abs_mul, abs_of_nonneg h0]
      nlinarith [Real.abs_sin_le_one s, abs_nonneg (Real.sin s)]
    have hsM' := abs_le.mp hsM
    have hf := abs_le.mp (rd_err (R := R) (x := tp - g) (B := 10) hu (by
      rw [abs_le]; constructor <;> linarith [tp1.1, tp1.2, hm.1, hm.2, hL2.1, hL2.2, hg'.1, hg'.2]))
    rw [abs_le]
    constructor <;> linarith [tp1.1, tp1.2, hL2.1, hL2.2, hg'.1, hg'.2, hf.1, hf.2]
  · simp only [if_neg hM]
    push Not at hM
    obtain ⟨g, hg, g1⟩ := guess_half (R := R) hu h0 h7 (m := M) (by linarith) (by linarith [hpr.2]) hs
    simp only [pi_num] at hg
    exact ⟨g, hg, by linarith⟩

/-! ## The iteration -/

theorem lagIter_err {tol : ℝ} {mi : Int} {M e s E0 : ℝ} (hu : R.u ≤ 1 / 10 ^ 6) (h0 : 0 ≤ e) (h7 : e ≤ 7 / 10) (hs : s - e * Real.sin s = M)
    (hs7 : |s| ≤ 7) (hd : |E0 - s| ≤ 71 / 100) (n : Nat) :
    ∃ E, (lagNext (ropts R tol mi 5) (num R M) (num R e))^[n] (num R E0) = num R E ∧
      |E - s| ≤ 71 / 100 * (51 / 100) ^ n + 143 * R.u ∧ |E - s| ≤ 71 / 100 := by
  have hu0 := R.u_nonneg
  induction n with
  | zero => exact ⟨E0, rfl, by rw [pow_zero]; linarith, hd⟩
  | succ n ih =>
    obtain ⟨E, h1, h2, h3⟩ := ih
    obtain ⟨E', h4, h5⟩ := lagNext_err (tol := tol) (mi := mi) hu h0 h7 hs hs7 h3
    refine ⟨E', by rw [Function.iterate_succ_apply', h1, h4], ?_, by linarith⟩
    rw [pow_succ]
    linarith

/-- the solver stops after at most `N` steps -/
theorem solve_err {tol : ℝ} {mi : Int} {M e s : ℝ} (hu : R.u ≤ 1 / 10 ^ 6) (h0 : 0 ≤ e) (h7 : e ≤ 7 / 10) (hM0 : 0 ≤ M) (hM1 : M ≤ 63 / 10)
    (hs : s - e * Real.sin s = M) (ht : 0 < tol) (htu : 400 * R.u ≤ tol) (N : Nat) (hN : (51 / 100 : ℝ) ^ N ≤ tol / 4) (hmi : N < mi) :
    ∃ (E : ℝ) (n : Nat), laguerre_solve_kepler (get_kepler_guess (num R M) (num R e)) (num R M) (num R e) (ropts R tol mi 5) = (num R E, (n : Int)) ∧
      n ≤ N ∧ |E - e * Real.sin E - M| < tol + 9 * R.u ∧ |E - s| ≤ 71 / 100 := by
  have hu0 := R.u_nonneg
  have hs7 : |s| ≤ 7 := by
    have h2 := Real.abs_sin_le_one s
    have h3 := abs_add_le M (e * Real.sin s)
    rw [show M + e * Real.sin s = s by linarith, abs_mul, abs_of_nonneg h0, abs_of_nonneg hM0] at h3
    have : e * |Real.sin s| ≤ 7 / 10 * 1 := mul_le_mul h7 h2 (abs_nonneg _) (by norm_num)
    linarith
  obtain ⟨E0, hE0, hd⟩ := guess_err (R := R) hu h0 h7 hM0 hM1 hs
  rw [hE0]
  obtain ⟨n, h1, h2, h3, h4⟩ := c11_terminates (num R E0) (num R M) (num R e) (ropts R tol mi 5)
  have goes : ∀ E, |E - s| ≤ 71 / 100 → ∃ f, (lagGoesOn (ropts R tol mi 5) (num R M) (num R e) (num R E) ↔ tol ≤ |f|) ∧ |f + Lag.fall e s E| ≤ 9 * R.u := by
    intro E hE
    obtain ⟨f, hf, f1⟩ := (lagF_err (R := R) h0 h7 hs hE).abs_le (by norm_num) (by linarith)
    refine ⟨f, ?_, ?_⟩
    · rw [lagGoesOn, hf]
      simp only [ropts, abs_num, le_num, decide_eq_true_eq]
    · rw [sub_neg_eq_add] at f1
      linarith
  have hnN : n ≤ N := by
    by_contra hlt
    push Not at hlt
    obtain ⟨E, k1, k2, k3⟩ := lagIter_err (tol := tol) (mi := mi) hu h0 h7 hs hs7 hd N
    have k4 := h3 N hlt
    rw [k1] at k4
    obtain ⟨f, g1, g2⟩ := goes E k3
    have k5 := g1.mp k4
    have k6 := fall_le' (s := s) (x := E) h0 h7
    have k7 := abs_sub (f + Lag.fall e s E) (Lag.fall e s E)
    rw [add_sub_cancel_right] at k7
    linarith
  obtain ⟨E, k1, k2, k3⟩ := lagIter_err (tol := tol) (mi := mi) hu h0 h7 hs hs7 hd n
  rw [k1] at h1 h4
  refine ⟨E, n, h1, hnN, ?_, k3⟩
  obtain ⟨f, g1, g2⟩ := goes E k3
  have k4 := h4 (lt_of_lt_of_le (by exact_mod_cast lt_of_le_of_lt (by exact_mod_cast hnN) hmi) (le_max_right 1 mi))
  rw [g1, not_le] at k4
  rw [show E - e * Real.sin E - M = (f + Lag.fall e s E) - f by rw [← hs]; unfold Lag.fall; ring]
  have := abs_sub (f + Lag.fall e s E) f
  linarith

/-! ## C96 -/

/-- C96: on ellipses with `e ≤ 0.7`, for a mean anomaly from 0 to 6.3 (a little more than a turn), in every arithmetic with unit roundoff
`u ≤ 1e-6`, with a tolerance of at least `400 u`: the iteration limit is not reached.  The solver stops after at most `N` steps when
`0.51^N ≤ tol/4` and `max_iter > N`, and `mean_to_eccentric` returns a number that solves Kepler's equation (evaluated exactly) up to
`tol + 9 u`. -/
theorem c96 (hu : R.u ≤ 1 / 10 ^ 6) (tol : ℝ) (ht : 0 < tol) (htu : 400 * R.u ≤ tol) (mi : Int) (N : Nat) (hN : (51 / 100 : ℝ) ^ N ≤ tol / 4) (hmi : N < mi)
    (M e : ℝ) (h0 : 0 ≤ e) (h7 : e ≤ 7 / 10) (hM0 : 0 ≤ M) (hM1 : M ≤ 63 / 10) :
    (∃ (E : ℝ) (n : Nat), laguerre_solve_kepler (keplerGuess (num R M) (num R e)) (num R M) (num R e) (ropts R tol mi 5) = (num R E, (n : Int)) ∧ n ≤ N) ∧
    ¬ HitLimit (ropts R tol mi 5) (num R M) (num R e) ∧
    ∃ E, mean_to_eccentric (ropts R tol mi 5) (rfl64 R M) (rfl64 R e) false = .ok (rfl64 R E) ∧ |E - e * Real.sin E - M| < tol + 9 * R.u := by
  have hu0 := R.u_nonneg
  obtain ⟨s, hs⟩ := root_exists h0 (by linarith) M
  obtain ⟨E, n, h1, h2, h3, -⟩ := solve_err (R := R) hu h0 h7 hM0 hM1 hs ht htu N hN hmi
  have hg : keplerGuess (num R M) (num R e) = get_kepler_guess (num R M) (num R e) := by
    unfold keplerGuess
    simp only [one_num, lt_num, not_lt.mpr (show e ≤ 1 by linarith), decide_false, Bool.false_eq_true, if_false]
  refine ⟨⟨E, n, by rw [hg, h1], h2⟩, ?_, ?_⟩
  · rw [HitLimit, hg, h1, not_le]
    refine lt_of_lt_of_le ?_ (le_max_right 1 mi)
    show (n : Int) < mi
    exact lt_of_le_of_lt (by exact_mod_cast h2) hmi
  · rw [mean_to_eccentric_num, meanToEccentricSc]
    by_cases hz : e = 0
    · subst hz
      refine ⟨M, by simp; rfl, ?_⟩
      simp
      linarith
    · refine ⟨E, ?_, h3⟩
      simp only [zero_num, eq_num, hz, decide_false, Bool.false_eq_true, if_false]
      rw [meanToEccentricEl_guess _ _ _ (by simp; linarith), hg, h1]
      rfl

theorem dflt_ropts : (SolverOpts.dflt : SolverOpts (RF R)) = ropts R (R.rd (1 / 10 ^ 12)) 5000 5 := by
  have h1 : (Np.lit (1 / 1000000000000) : RF R) = num R (R.rd (1 / 10 ^ 12)) := by
    show (⟨R.round (fin ((1 / 1000000000000 : ℚ) : ℝ))⟩ : RF R) = _
    norm_num
    rfl
  have h2 : (5 : RF R) = num R 5 := by
    show (Np.lit ((5 : ℕ) : ℚ) : RF R) = _
    rw [ofNat_num 5 (by norm_num)]; norm_num
  rw [SolverOpts.dflt, h1, h2]; rfl

/-- C96 with the default options: in every arithmetic with `u ≤ 2^-50` (double precision has `2^-53`), `mean_to_eccentric(M, e)` solves Kepler's
equation up to `1.02e-12` in at most 44 steps, and the result is within `1.02e-12 / (1 - e)` of the exact eccentric anomaly. -/
theorem c96_default (hu : R.u ≤ (1 / 2) ^ 50) (M e Es : ℝ) (h0 : 0 ≤ e) (h7 : e ≤ 7 / 10) (hM0 : 0 ≤ M) (hM1 : M ≤ 63 / 10)
    (hs : Es - e * Real.sin Es = M) :
    (∃ (E : ℝ) (n : Nat), laguerre_solve_kepler (keplerGuess (num R M) (num R e)) (num R M) (num R e) .dflt = (num R E, (n : Int)) ∧ n ≤ 44) ∧
    ∃ E, mean_to_eccentric .dflt (rfl64 R M) (rfl64 R e) false = .ok (rfl64 R E) ∧ |E - e * Real.sin E - M| < 102 / 10 ^ 14 ∧
      |E - Es| ≤ 102 / 10 ^ 14 / (1 - e) := by
  have hu0 := R.u_nonneg
  have hu6 : R.u ≤ 1 / 10 ^ 6 := hu.trans (by norm_num)
  have ht := abs_le.mp (rd_err (R := R) (x := 1 / 10 ^ 12) (B := 1 / 10 ^ 12) hu6 (by rw [abs_of_pos (by norm_num)]))
  have hu9 : R.u ≤ 89 / 10 ^ 17 := hu.trans (by norm_num)
  obtain ⟨t1, t2⟩ := ht
  have t3 : 101 / 100 * R.u * (1 / 10 ^ 12) ≤ 101 / 100 * (1 / 10 ^ 6) * (1 / 10 ^ 12) := by
    refine mul_le_mul_of_nonneg_right ?_ (by norm_num)
    linarith
  rw [dflt_ropts]
  obtain ⟨k1, -, E, k2, k3⟩ := c96 hu6 (R.rd (1 / 10 ^ 12)) (rd_pos (by norm_num)) (by linarith) 5000 44 (by linarith [show (51 / 100 : ℝ) ^ 44 ≤ 14 / 10 ^ 14 by norm_num])
    (by norm_num) M e h0 h7 hM0 hM1
  refine ⟨k1, E, k2, by linarith, ?_⟩
  have h := meanOf_error h0 (show e ≠ 1 by linarith) E Es
  simp only [meanOf, if_neg (not_lt.mpr (show e ≤ 1 by linarith)), if_neg (show e ≠ 1 by linarith), hs] at h
  rw [abs_of_pos (show 0 < 1 - e by linarith)] at h
  refine h.trans (div_le_div_of_nonneg_right (by linarith) (by linarith))

/-- C96 for double precision -/
theorem c96_binary64 (M e Es : ℝ) (h0 : 0 ≤ e) (h7 : e ≤ 7 / 10) (hM0 : 0 ≤ M) (hM1 : M ≤ 63 / 10) (hs : Es - e * Real.sin Es = M) :
    ∃ E, mean_to_eccentric .dflt (rfl64 Binary.binary64 M) (rfl64 _ e) false = .ok (rfl64 _ E) ∧ |E - e * Real.sin E - M| < 102 / 10 ^ 14 ∧
      |E - Es| ≤ 102 / 10 ^ 14 / (1 - e) :=
  (c96_default (R := Binary.binary64) (by show (1 / 2 : ℝ) ^ 53 ≤ _; norm_num) M e Es h0 h7 hM0 hM1 hs).2

/-- a case: e = 1/2, eccentric anomaly 2 -/
example : ∃ E, mean_to_eccentric .dflt (rfl64 Binary.binary64 (2 - 1 / 2 * Real.sin 2)) (rfl64 _ (1 / 2)) false = .ok (rfl64 _ E) ∧
    |E - 2| ≤ 102 / 10 ^ 14 / (1 - 1 / 2) := by
  have h1 := Real.sin_le_one 2
  have h2 := Real.neg_one_le_sin 2
  obtain ⟨E, k1, -, k3⟩ := c96_binary64 (2 - 1 / 2 * Real.sin 2) (1 / 2) 2 (by norm_num) (by norm_num) (by linarith) (by linarith) rfl
  exact ⟨E, k1, k3⟩

end Pyorb
