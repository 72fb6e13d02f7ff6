import Verif.PropsOrbitRoundAll
import Verif.PropsRoundRot

/-!
# `Orbit.propagate` computed with rounding, angles in degrees (C109)

C108 for objects with `degrees=True`: the anomaly, the inclination, the argument of periapsis and the node are stored in degrees and converted, with rounding, at each
call of the anomaly functions and of `kep_to_cart`; the mean anomaly is advanced and reduced to one turn in degrees.
-/

set_option linter.unusedSimpArgs false
set_option linter.unusedVariables false

namespace Pyorb
namespace Orbit
namespace WideDeg
open Py FX RF RSolveE RRot RStumpff
variable {R : Rounding} (g : Garb (RF R))

/-! ## Conversion of angles -/

theorem in_num (x : ℝ) : inA true (RF.num R x) = RF.num R (flRad R true x) := by
  rw [inA, if_pos rfl, radians_num]

theorem in_err (hu : R.u ≤ 1 / 10 ^ 6) (x : ℝ) : |flRad R true x - angleOf true x| ≤ 304 / 100 * R.u * |angleOf true x| := by
  have h := flRad_err (R := R) hu true x
  simp only [if_true] at h
  exact h

theorem out_err (hu : R.u ≤ 1 / 10 ^ 6) (y : ℝ) : ∃ x, outA true (RF.num R y) = RF.num R x ∧ |angleOf true x - y| ≤ 304 / 100 * R.u * |y| := by
  have hpi := Real.pi_pos
  have h180 : (180 : RF R) = RF.num R 180 := by
    show (Np.lit ((180 : ℕ) : ℚ) : RF R) = _
    rw [ofNat_num 180 (by norm_num)]; norm_num
  obtain ⟨t, t1, t2⟩ := (Rel.num (R := R) y).mul ((Rel.num (R := R) 180).div Rel.pi hpi.ne')
  refine ⟨_, by rw [outA, if_pos rfl, degrees, h180]; exact t2, ?_⟩
  have e1 : angleOf true (y * (180 / Real.pi) * Real.exp t) = y * Real.exp t := by
    simp only [angleOf, if_true]; field_simp
  rw [e1]
  refine (factor_err (k := 3) hu (by norm_num) (by norm_num) (t1.trans (le_of_eq (by ring)))).trans ?_
  refine mul_le_mul_of_nonneg_right ?_ (abs_nonneg _)
  linarith [R.u_nonneg]

/-- the mean anomalies of two anomalies that differ by little -/
theorem hasMean_lip (t : Anom) {e x M : ℝ} (h0 : 0 ≤ e) (h1 : e < 1) (h : HasMean t e x M) (y : ℝ) :
    ∃ M', HasMean t e y M' ∧ |M' - M| ≤ 2 * (anomCond e * |y - x|) := by
  have he : |e| < 1 := by rwa [abs_of_nonneg h0]
  have hc := anomCond_pos h0 h1
  have hcx := mul_le_mul_of_nonneg_right hc (abs_nonneg (y - x))
  cases t
  · obtain ⟨E, e1, e2⟩ := h
    obtain ⟨F, l1, l2⟩ := samePoint_lipschitz (by rwa [abs_neg]) (samePoint_symm he e1) y
    have l1' := samePoint_symm (by rwa [abs_neg]) l1
    rw [neg_neg] at l1'
    rw [anomCond_neg] at l2
    refine ⟨_, ⟨F, l1', rfl⟩, ?_⟩
    rw [← e2]
    have q4 := meanOf_lipschitz h0 F E
    have q5 : (1 + e) * |F - E| ≤ 2 * |F - E| := mul_le_mul_of_nonneg_right (by linarith) (abs_nonneg _)
    linarith
  · obtain rfl : x - e * Real.sin x = M := h
    refine ⟨_, rfl, ?_⟩
    have q4 := meanOf_lipschitz h0 y x
    have q5 : (1 + e) * |y - x| ≤ 2 * |y - x| := mul_le_mul_of_nonneg_right (by linarith) (abs_nonneg _)
    linarith
  · obtain rfl : x = M := h
    refine ⟨y, rfl, ?_⟩
    linarith [abs_nonneg (y - x)]

/-! ## The functions of the kernel -/

theorem conv_to (o : SolverOpts (RF R)) {t : Anom} (ht : t ≠ .mean) (x e : RF R) :
    conv (rfKern g) o true t .mean x e = outA true (conv (rfKern g) o false t .mean (inA true x) e) := by
  cases t
  · rfl
  · rfl
  · exact absurd rfl ht

theorem conv_from (o : SolverOpts (RF R)) {t : Anom} (ht : t ≠ .mean) (x e : RF R) :
    conv (rfKern g) o true .mean t x e = outA true (conv (rfKern g) o false .mean t (inA true x) e) := by
  cases t
  · rfl
  · rfl
  · exact absurd rfl ht

theorem toTrue_deg (o : SolverOpts (RF R)) {t : Anom} (ht : t ≠ .tru) (x e : RF R) :
    toTrue (rfKern g) t o true x e = outA true (toTrue (rfKern g) t o false (inA true x) e) := by
  cases t
  · exact absurd rfl ht
  · rfl
  · rfl

/-- the mean anomaly `propagate` starts from -/
theorem read_mean (hu : R.u ≤ 1 / 10 ^ 6) (o : SolverOpts (RF R)) (t : Anom) {e : ℝ} (h0 : 0 ≤ e) (h1 : e < 1) (x : ℝ) :
    ∃ M M0 : ℝ, conv (rfKern g) o true t .mean (RF.num R x) (RF.num R e) = RF.num R M ∧ HasMean t e (angleOf true x) M0 ∧
      |angleOf true M - M0| ≤ (225 + 17 * anomCond e * |angleOf true x|) * R.u ∧ |angleOf true M| ≤ 3 * |angleOf true x| + 9 := by
  have hu0 := R.u_nonneg
  have hc := anomCond_pos h0 h1
  obtain ⟨y, hy⟩ : ∃ y, y = angleOf true x := ⟨_, rfl⟩
  rw [← hy]
  have hyu := mul_nonneg (abs_nonneg y) hu0
  have hyc : |y| * R.u ≤ anomCond e * (|y| * R.u) := le_mul_of_one_le_left hyu hc
  by_cases ht : t = .mean
  · subst ht
    refine ⟨x, y, rfl, rfl, ?_, by rw [← hy]; linarith [abs_nonneg y]⟩
    rw [← hy, sub_self, abs_zero]; positivity
  · have hin := in_err (R := R) hu x
    rw [← hy] at hin
    obtain ⟨M, M0, r1, r2, r3, r4⟩ := Wide.read_mean g hu o t h0 h1 (flRad R true x)
    obtain ⟨M0', s1, s2⟩ := hasMean_lip t h0 h1 r2 y
    obtain ⟨Md, d1, d2⟩ := out_err (R := R) hu M
    refine ⟨Md, M0', by rw [conv_to g o ht, in_num, r1, d1], s1, ?_, ?_⟩
    all_goals
      have hsmall : 304 / 100 * R.u * |y| ≤ 1 / 10 ^ 5 * |y| := mul_le_mul_of_nonneg_right (by linarith) (abs_nonneg y)
      have hf : |flRad R true x| ≤ 101 / 100 * |y| := by
        have := abs_add_le (flRad R true x - y) y
        rw [sub_add_cancel] at this
        linarith [abs_nonneg y]
      have hM : |M| ≤ 203 / 100 * |y| + 8 := by linarith [abs_nonneg y]
    · have f1 := mul_le_mul_of_nonneg_left hin (show 0 ≤ anomCond e by linarith)
      rw [abs_sub_comm (flRad R true x) y] at f1
      have f2 := mul_le_mul_of_nonneg_right hM hu0
      have f3 := mul_le_mul_of_nonneg_left (mul_le_mul_of_nonneg_right hf hu0) (show 0 ≤ anomCond e by linarith)
      have f4 := abs_sub_le (angleOf true Md) M M0'
      have f5 := abs_sub_le M M0 M0'
      rw [abs_sub_comm M0 M0'] at f5
      linarith
    · have f1 := abs_add_le (angleOf true Md - M) M
      rw [sub_add_cancel] at f1
      have f2 : 304 / 100 * R.u * |M| ≤ 1 / 10 ^ 5 * |M| := mul_le_mul_of_nonneg_right (by linarith) (abs_nonneg M)
      linarith [abs_nonneg y]

/-- the mean motion in degrees -/
theorem motion_rel {a mu : ℝ} (ha : 0 < a) (hmu : 0 < mu) :
    Rel (13 / 2) ((rfKern g).motion true ((rfKern g).period (RF.num R a) (RF.num R mu))) (√(mu / a ^ 3) * (180 / Real.pi)) := by
  show Rel _ ((360 : RF R) / orbital_period (RF.num R a) (RF.num R mu)) _
  have hs : 0 < √(a ^ 3 / mu) := Real.sqrt_pos.mpr (by positivity)
  have hpi := Real.pi_pos
  have h360 : (360 : RF R) = RF.num R 360 := by
    show (Np.lit ((360 : ℕ) : ℚ) : RF R) = _
    rw [ofNat_num 360 (by norm_num)]; norm_num
  have h := (Rel.num (R := R) 360).div (period_rel (R := R) ha hmu) (by positivity)
  rw [h360]
  have e1 : 360 / (2 * Real.pi * √(a ^ 3 / mu)) = √(mu / a ^ 3) * (180 / Real.pi) := by
    rw [← sqrt_flip ha hmu]; field_simp; ring
  rw [e1] at h
  exact h.mono (by norm_num)

/-- `np.mod(x, 360)` as computed -/
theorem mod_err (hu : R.u ≤ 1 / 10 ^ 6) (x : ℝ) :
    ∃ (y : ℝ) (z : ℤ), Np.mod (RF.num R x) (360 : RF R) = RF.num R y ∧ 0 ≤ y ∧ y ≤ 360 * (1 + 101 / 100 * R.u) ∧ |y - (x - 360 * z)| ≤ 360 * (101 / 100 * R.u) := by
  have hu0 := R.u_nonneg
  have h360 : (360 : RF R) = RF.num R 360 := by
    show (Np.lit ((360 : ℕ) : ℚ) : RF R) = _
    rw [ofNat_num 360 (by norm_num)]; norm_num
  have hm : Np.mod (RF.num R x) (360 : RF R) = RF.num R ((x - 360 * ⌊x / 360⌋) * Real.exp (R.lib2 false x 360)) := by
    rw [h360]
    show (⟨R.lib2Round false (fin x) (fin 360) (Np.mod (fin x) (fin 360))⟩ : RF R) = _
    rw [FX.mod_fin (by norm_num)]; rfl
  have f1 := Int.floor_le (x / 360)
  have f2 := Int.lt_floor_add_one (x / 360)
  rw [le_div_iff₀ (by norm_num)] at f1
  rw [div_lt_iff₀ (by norm_num)] at f2
  have g0 : 0 ≤ x - 360 * ⌊x / 360⌋ := by linarith
  have g1 : x - 360 * ⌊x / 360⌋ ≤ 360 := by linarith
  have hl := factor_err (R := R) (k := 1) (y := x - 360 * ⌊x / 360⌋) hu (by norm_num) (by norm_num) (t := R.lib2 false x 360)
    (by rw [one_mul]; exact R.lib2_le false x 360)
  rw [one_mul, abs_of_nonneg g0] at hl
  have hl2 := mul_le_mul_of_nonneg_left g1 (show 0 ≤ 101 / 100 * R.u by positivity)
  refine ⟨_, ⌊x / 360⌋, hm, mul_nonneg g0 (Real.exp_pos _).le, ?_, by linarith⟩
  have := (abs_le.mp hl).2
  linarith

/-- the mean anomaly after one step -/
theorem advance_err (hu : R.u ≤ 1 / 10 ^ 6) {a mu : ℝ} (ha : 0 < a) (hmu : 0 < mu) (M d : ℝ) :
    ∃ (M' : ℝ) (z : ℤ), (rfKern g).wrapM true ((rfKern g).advance (RF.num R M) ((rfKern g).motion true ((rfKern g).period (RF.num R a) (RF.num R mu))) (RF.num R d)) = RF.num R M' ∧
      0 ≤ angleOf true M' ∧ angleOf true M' ≤ 2 * Real.pi + 7 * R.u ∧
      |angleOf true M' - (angleOf true M + √(mu / a ^ 3) * d - z * (2 * Real.pi))| ≤ (7 + 2 * |angleOf true M| + 13 * |√(mu / a ^ 3) * d|) * R.u := by
  have hu0 := R.u_nonneg
  have hpi := Real.pi_pos
  have hpi' := Real.pi_lt_d4
  obtain ⟨w, hw⟩ : ∃ w, w = √(mu / a ^ 3) * d := ⟨_, rfl⟩
  rw [← hw]
  obtain ⟨t, t1, t2⟩ := (motion_rel g ha hmu).mul (Rel.num (R := R) d)
  have e1 : √(mu / a ^ 3) * (180 / Real.pi) * d = w * (180 / Real.pi) := by rw [hw]; ring
  rw [e1] at t2
  have hadv : (rfKern g).advance (RF.num R M) ((rfKern g).motion true ((rfKern g).period (RF.num R a) (RF.num R mu))) (RF.num R d) =
      RF.num R (R.rd (M + w * (180 / Real.pi) * Real.exp t)) := by
    show RF.num R M + (rfKern g).motion true ((rfKern g).period (RF.num R a) (RF.num R mu)) * RF.num R d = _
    rw [t2, add_num]
  rw [hadv]
  obtain ⟨M', z, m1, m2, m3, m4⟩ := mod_err hu (R.rd (M + w * (180 / Real.pi) * Real.exp t))
  refine ⟨M', z, m1, ?_, ?_, ?_⟩
  · simp only [angleOf, if_true]; positivity
  · simp only [angleOf, if_true]
    have := mul_le_mul_of_nonneg_right m3 (show 0 ≤ Real.pi / 180 by positivity)
    have q := mul_le_mul_of_nonneg_right hpi'.le hu0
    linarith
  · obtain ⟨Y, hY⟩ : ∃ Y, Y = w * Real.exp t := ⟨_, rfl⟩
    have y1 : |Y - w| ≤ 101 / 100 * (15 / 2 * R.u) * |w| := by
      rw [hY]
      exact factor_err hu (by norm_num) (by norm_num) (t1.trans (le_of_eq (by ring)))
    have hX : angleOf true (M + w * (180 / Real.pi) * Real.exp t) = angleOf true M + Y := by
      simp only [angleOf, if_true]; rw [hY]; field_simp
    obtain ⟨X, hXd⟩ : ∃ X, X = M + w * (180 / Real.pi) * Real.exp t := ⟨_, rfl⟩
    rw [← hXd] at hX m4
    have x1 : |angleOf true (R.rd X) - angleOf true X| ≤ 101 / 100 * (1 * R.u) * |angleOf true X| := by
      have := factor_err (R := R) (k := 1) (y := angleOf true X) hu (by norm_num) (by norm_num) (t := R.th X) (by rw [one_mul]; exact R.th_le X)
      refine le_trans (le_of_eq ?_) this
      simp only [angleOf, if_true, Rounding.rd]; congr 1; ring
    have m5 : |angleOf true M' - (angleOf true (R.rd X) - z * (2 * Real.pi))| ≤ 2 * Real.pi * (101 / 100 * R.u) := by
      have e2 : angleOf true M' - (angleOf true (R.rd X) - z * (2 * Real.pi)) = (M' - (R.rd X - 360 * z)) * (Real.pi / 180) := by
        simp only [angleOf, if_true]; ring
      rw [e2, abs_mul, abs_of_pos (show 0 < Real.pi / 180 by positivity)]
      have := mul_le_mul_of_nonneg_right m4 (show 0 ≤ Real.pi / 180 by positivity)
      linarith
    have hYw : |Y| ≤ 101 / 100 * |w| := by
      have := abs_add_le (Y - w) w
      rw [sub_add_cancel] at this
      have q : 101 / 100 * (15 / 2 * R.u) * |w| ≤ 1 / 100 * |w| := mul_le_mul_of_nonneg_right (by linarith) (abs_nonneg _)
      linarith
    have hXb : |angleOf true X| ≤ |angleOf true M| + 101 / 100 * |w| := by
      rw [hX]; exact (abs_add_le _ _).trans (by linarith)
    have hXu := mul_le_mul_of_nonneg_right hXb hu0
    have hpu := mul_le_mul_of_nonneg_right hpi'.le hu0
    have hMu := mul_nonneg (abs_nonneg (angleOf true M)) hu0
    have hwu := mul_nonneg (abs_nonneg w) hu0
    have e3 : angleOf true M' - (angleOf true M + w - z * (2 * Real.pi)) =
        (angleOf true M' - (angleOf true (R.rd X) - z * (2 * Real.pi))) + (angleOf true (R.rd X) - angleOf true X) + (Y - w) := by rw [hX]; ring
    rw [e3]
    have e4 := abs_add_le (angleOf true M' - (angleOf true (R.rd X) - z * (2 * Real.pi)) + (angleOf true (R.rd X) - angleOf true X)) (Y - w)
    have e5 := abs_add_le (angleOf true M' - (angleOf true (R.rd X) - z * (2 * Real.pi))) (angleOf true (R.rd X) - angleOf true X)
    linarith

/-- an angle of one turn, in radians as computed -/
theorem in_turn (hu : R.u ≤ 1 / 10 ^ 6) {M : ℝ} (h0 : 0 ≤ angleOf true M) (h1 : angleOf true M ≤ 2 * Real.pi + 7 * R.u) :
    0 ≤ flRad R true M ∧ flRad R true M ≤ 2 * Real.pi + 40 * R.u ∧ |flRad R true M - angleOf true M| ≤ 20 * R.u := by
  have hu0 := R.u_nonneg
  have hpi := Real.pi_lt_d4
  have h := in_err (R := R) hu M
  rw [abs_of_nonneg h0] at h
  have h2 : 304 / 100 * R.u * angleOf true M ≤ 304 / 100 * R.u * (63 / 10) := mul_le_mul_of_nonneg_left (by linarith) (by positivity)
  have h3 : 304 / 100 * R.u * angleOf true M ≤ 1 * angleOf true M := mul_le_mul_of_nonneg_right (by linarith) h0
  obtain ⟨a, b⟩ := abs_le.mp h
  exact ⟨by linarith, by linarith, by linarith⟩

/-- the anomaly `propagate` stores for a mean anomaly -/
theorem store_err (hu : R.u ≤ 1 / 10 ^ 9) {o : SolverOpts (RF R)} {tol : ℝ} (ho : Wide.WideSolver o tol) (t : Anom) {e : ℝ} (h0 : 0 ≤ e) (h1 : e < 1)
    (h25 : e ≤ 1 - 25 * R.u) {M : ℝ} (hM0 : 0 ≤ angleOf true M) (hM1 : angleOf true M ≤ 2 * Real.pi + 7 * R.u) :
    ∃ x M1 : ℝ, conv (rfKern g) o true .mean t (RF.num R M) (RF.num R e) = RF.num R x ∧ HasMean t e (angleOf true x) M1 ∧ |angleOf true x| ≤ 76 / 10 ∧
      (t = .mean → 0 ≤ angleOf true x ∧ angleOf true x ≤ 2 * Real.pi + 7 * R.u) ∧ |M1 - angleOf true M| ≤ (if t = .mean then 0 else tol) + 270 * anomCond e * R.u := by
  have hu0 := R.u_nonneg
  have hu6 : R.u ≤ 1 / 10 ^ 6 := by linarith
  have hpi := Real.pi_lt_d4
  have hc := anomCond_pos h0 h1
  have hcu := mul_le_mul_of_nonneg_right hc hu0
  by_cases ht : t = .mean
  · subst ht
    refine ⟨M, _, rfl, rfl, by rw [abs_of_nonneg hM0]; linarith, fun _ => ⟨hM0, hM1⟩, ?_⟩
    rw [sub_self, abs_zero, if_pos rfl]; linarith
  · obtain ⟨i1, i2, i3⟩ := in_turn (R := R) hu6 hM0 hM1
    obtain ⟨y, M1, y1, y2, y3, -, y5⟩ := Wide.store_err g hu ho t h0 h1 h25 i1 i2
    obtain ⟨x, x1, x2⟩ := out_err (R := R) hu6 y
    obtain ⟨M2, z1, z2⟩ := hasMean_lip t h0 h1 y2 (angleOf true x)
    have hy : 304 / 100 * R.u * |y| ≤ 304 / 100 * R.u * (15 / 2) := mul_le_mul_of_nonneg_left y3 (by positivity)
    refine ⟨x, M2, by rw [conv_from g o ht, in_num, y1, x1], z1, ?_, fun h => absurd h ht, ?_⟩
    · have := abs_add_le (angleOf true x - y) y
      rw [sub_add_cancel] at this
      linarith
    · rw [if_neg ht] at y5 ⊢
      have q1 := mul_le_mul_of_nonneg_left (x2.trans hy) (show 0 ≤ anomCond e by linarith)
      have q2 := abs_sub_le M2 M1 (angleOf true M)
      have q3 := abs_sub_le M1 (flRad R true M) (angleOf true M)
      linarith

/-- the true anomaly the Cartesian state is calculated with, after its conversion to radians -/
theorem state_err (hu : R.u ≤ 1 / 10 ^ 9) {o : SolverOpts (RF R)} {tol : ℝ} (ho : Wide.WideSolver o tol) (t : Anom) {e : ℝ} (h0 : 0 ≤ e) (h1 : e < 1)
    (h25 : e ≤ 1 - 25 * R.u) {x M1 : ℝ} (hx : HasMean t e (angleOf true x) M1) (hx8 : |angleOf true x| ≤ 76 / 10)
    (hm : t = .mean → 0 ≤ angleOf true x ∧ angleOf true x ≤ 2 * Real.pi + 7 * R.u) :
    ∃ nu F : ℝ, toTrue (rfKern g) t o true (RF.num R x) (RF.num R e) = RF.num R nu ∧ SamePoint e (flRad R true nu) F ∧
      |F - e * Real.sin F - M1| ≤ (if t = .mean then tol else 0) + 360 * anomCond e * R.u := by
  have hu0 := R.u_nonneg
  have hu6 : R.u ≤ 1 / 10 ^ 6 := by linarith
  have hpi := Real.pi_lt_d4
  have hc := anomCond_pos h0 h1
  have hcu := mul_le_mul_of_nonneg_right hc hu0
  have hin := in_err (R := R) hu6 x
  have hin2 : |flRad R true x - angleOf true x| ≤ 24 * R.u := by
    have : 304 / 100 * R.u * |angleOf true x| ≤ 304 / 100 * R.u * (76 / 10) := mul_le_mul_of_nonneg_left hx8 (by positivity)
    linarith
  obtain ⟨M2, p1, p2⟩ := hasMean_lip t h0 h1 hx (flRad R true x)
  have q0 := mul_le_mul_of_nonneg_left hin2 (show 0 ≤ anomCond e by linarith)
  by_cases ht : t = .tru
  · subst ht
    obtain ⟨F, f1, f2⟩ := p1
    refine ⟨x, F, rfl, f1, ?_⟩
    rw [if_neg (by simp), f2]
    linarith
  · have hf8 : |flRad R true x| ≤ 8 := by
      have := abs_add_le (flRad R true x - angleOf true x) (angleOf true x)
      rw [sub_add_cancel] at this
      linarith
    obtain ⟨nu, F, n1, n2, n3, n4⟩ := Wide.state_err g hu ho t h0 h1 h25 p1 hf8 (fun h => by
      obtain ⟨a, b⟩ := hm h
      obtain ⟨c1, c2, -⟩ := in_turn (R := R) hu6 a b
      exact ⟨c1, c2⟩)
    obtain ⟨nd, d1, d2⟩ := out_err (R := R) hu6 nu
    have e1 := in_err (R := R) hu6 nd
    have k1 : 304 / 100 * R.u * |nu| ≤ 304 / 100 * R.u * 8 := mul_le_mul_of_nonneg_left n2 (by positivity)
    have k2 : |angleOf true nd| ≤ 81 / 10 := by
      have := abs_add_le (angleOf true nd - nu) nu
      rw [sub_add_cancel] at this
      linarith
    have k3 : 304 / 100 * R.u * |angleOf true nd| ≤ 304 / 100 * R.u * (81 / 10) := mul_le_mul_of_nonneg_left k2 (by positivity)
    have k4 : |flRad R true nd - nu| ≤ 50 * R.u := by
      have := abs_sub_le (flRad R true nd) (angleOf true nd) nu
      linarith
    obtain ⟨-, ⟨G, g1, rfl⟩, s2⟩ := hasMean_lip .tru h0 h1 (x := nu) (M := F - e * Real.sin F) ⟨F, n3, rfl⟩ (flRad R true nd)
    refine ⟨nd, G, by rw [toTrue_deg g o ht, in_num, n1, d1], g1, ?_⟩
    have q1 := mul_le_mul_of_nonneg_left k4 (show 0 ≤ anomCond e by linarith)
    have q2 := abs_sub_le (G - e * Real.sin G) (F - e * Real.sin F) M1
    have q3 := abs_sub_le (F - e * Real.sin F) M2 M1
    linarith

/-! ## The orbital plane -/

theorem plane_lip (k k' : Kep ℝ) : let D := |k.OM - k'.OM| + |k.i - k'.i| + |k.om - k'.om|
    (|k.px - k'.px| ≤ 2 * D ∧ |k.py - k'.py| ≤ 2 * D ∧ |k.pz - k'.pz| ≤ 2 * D) ∧ (|k.qx - k'.qx| ≤ 2 * D ∧ |k.qy - k'.qy| ≤ 2 * D ∧ |k.qz - k'.qz| ≤ 2 * D) := by
  have h := euler_lip k.i k.om k.OM k'.i k'.om k'.OM
  have e00 : ∀ k : Kep ℝ, (RZ k.OM * RX k.i * RZ k.om) 0 0 = k.px := fun k => by simp [RZ, RX, Matrix.mul_apply, Fin.sum_univ_three, Kep.px]; ring
  have e10 : ∀ k : Kep ℝ, (RZ k.OM * RX k.i * RZ k.om) 1 0 = k.py := fun k => by simp [RZ, RX, Matrix.mul_apply, Fin.sum_univ_three, Kep.py]; ring
  have e20 : ∀ k : Kep ℝ, (RZ k.OM * RX k.i * RZ k.om) 2 0 = k.pz := fun k => by simp [RZ, RX, Matrix.mul_apply, Fin.sum_univ_three, Kep.pz]
  have e01 : ∀ k : Kep ℝ, (RZ k.OM * RX k.i * RZ k.om) 0 1 = k.qx := fun k => by simp [RZ, RX, Matrix.mul_apply, Fin.sum_univ_three, Kep.qx]; ring
  have e11 : ∀ k : Kep ℝ, (RZ k.OM * RX k.i * RZ k.om) 1 1 = k.qy := fun k => by simp [RZ, RX, Matrix.mul_apply, Fin.sum_univ_three, Kep.qy]; ring
  have e21 : ∀ k : Kep ℝ, (RZ k.OM * RX k.i * RZ k.om) 2 1 = k.qz := fun k => by simp [RZ, RX, Matrix.mul_apply, Fin.sum_univ_three, Kep.qz]; ring
  have h00 := h 0 0; have h10 := h 1 0; have h20 := h 2 0; have h01 := h 0 1; have h11 := h 1 1; have h21 := h 2 1
  rw [e00 k, e00 k'] at h00
  rw [e10 k, e10 k'] at h10
  rw [e20 k, e20 k'] at h20
  rw [e01 k, e01 k'] at h01
  rw [e11 k, e11 k'] at h11
  rw [e21 k, e21 k'] at h21
  exact ⟨⟨h00, h10, h20⟩, h01, h11, h21⟩

theorem comb_lip {p q p' q' X Y B D : ℝ} (h1 : |p - p'| ≤ 2 * D) (h2 : |q - q'| ≤ 2 * D) (hB : |X| + |Y| ≤ B) : |p * X + q * Y - (p' * X + q' * Y)| ≤ 2 * D * B := by
  rw [show p * X + q * Y - (p' * X + q' * Y) = (p - p') * X + (q - q') * Y by ring]
  refine (abs_add_le _ _).trans ?_
  rw [abs_mul, abs_mul]
  have e1 := mul_le_mul_of_nonneg_right h1 (abs_nonneg X)
  have e2 := mul_le_mul_of_nonneg_right h2 (abs_nonneg Y)
  have e3 := mul_le_mul_of_nonneg_left hB ((abs_nonneg _).trans h1)
  linarith

/-- the states of two ellipses of the same shape in slightly different planes -/
theorem turned (k k' : Kep ℝ) {N : ℝ} (hN : 0 < N) (F : ℝ) (ha : 0 < k.a) (h0 : 0 ≤ k.e) (h1 : k.e < 1) (hae : k'.a = k.a) (hee : k'.e = k.e) {D : ℝ}
    (hD : |k.OM - k'.OM| + |k.i - k'.i| + |k.om - k'.om| ≤ D) :
    vlen ((ellipseState k N F).r - (ellipseState k' N F).r) ≤ k.a / (1 - k.e) * (12 * D) ∧
    vlen ((ellipseState k N F).v - (ellipseState k' N F).v) ≤ k.a * N / (1 - k.e) ^ 2 * (12 * D) := by
  have hq : 0 < 1 - k.e := by linarith
  have hD0 : 0 ≤ D := le_trans (by positivity) hD
  obtain ⟨⟨p1, p2, p3⟩, q1, q2, q3⟩ := plane_lip k k'
  have up : ∀ {x : ℝ}, x ≤ 2 * (|k.OM - k'.OM| + |k.i - k'.i| + |k.om - k'.om|) → x ≤ 2 * D := fun h => h.trans (by linarith)
  have hc := Real.abs_cos_le_one F
  have hs := Real.abs_sin_le_one F
  have hw1 : √(1 - k.e ^ 2) ≤ 1 := by rw [Real.sqrt_le_left (by norm_num)]; nlinarith [sq_nonneg k.e]
  have hw0 : 0 ≤ √(1 - k.e ^ 2) := Real.sqrt_nonneg _
  have hden : 1 - k.e ≤ 1 - k.e * Real.cos F := by nlinarith [Real.cos_le_one F]
  constructor
  · have hB : |k.a * (Real.cos F - k.e)| + |k.a * √(1 - k.e ^ 2) * Real.sin F| ≤ 3 * k.a := by
      rw [abs_mul, abs_mul, abs_mul, abs_of_pos ha, abs_of_nonneg hw0]
      have e1 : |Real.cos F - k.e| ≤ 2 := by
        refine (abs_sub _ _).trans ?_
        rw [abs_of_nonneg h0]; linarith
      have e2 := mul_le_mul_of_nonneg_left e1 ha.le
      have e3 := mul_le_one₀ hw1 (abs_nonneg _) hs
      have e4 := mul_le_mul_of_nonneg_left e3 ha.le
      linarith
    refine (vlen_le (B := 2 * D * (3 * k.a)) ?_).trans ?_
    · intro i
      fin_cases i
      · simpa [ellipseState, Cart.r, hae, hee] using comb_lip (up p1) (up q1) hB
      · simpa [ellipseState, Cart.r, hae, hee] using comb_lip (up p2) (up q2) hB
      · simpa [ellipseState, Cart.r, hae, hee] using comb_lip (up p3) (up q3) hB
    · have : k.a ≤ k.a / (1 - k.e) := by rw [le_div_iff₀ hq]; nlinarith
      have := mul_le_mul_of_nonneg_right this (show 0 ≤ 12 * D by positivity)
      linarith
  · have hdpos : 0 < 1 - k.e * Real.cos F := by linarith
    have hb : ∀ {x : ℝ}, |x| ≤ k.a * N → |x / (1 - k.e * Real.cos F)| ≤ k.a * N / (1 - k.e) := fun {x} h => by
      rw [abs_div, abs_of_pos hdpos]
      exact div_le_div₀ (by positivity) h hq hden
    have hB : |-(k.a * N * Real.sin F) / (1 - k.e * Real.cos F)| + |k.a * N * √(1 - k.e ^ 2) * Real.cos F / (1 - k.e * Real.cos F)| ≤ 2 * (k.a * N / (1 - k.e)) := by
      have haN : 0 ≤ k.a * N := by positivity
      have e1 := hb (x := -(k.a * N * Real.sin F)) (by rw [abs_neg, abs_mul, abs_of_nonneg haN]; exact mul_le_of_le_one_right haN hs)
      have e2 := hb (x := k.a * N * √(1 - k.e ^ 2) * Real.cos F) (by
        rw [abs_mul, abs_mul, abs_of_nonneg haN, abs_of_nonneg hw0, mul_assoc]
        exact mul_le_of_le_one_right haN (mul_le_one₀ hw1 (abs_nonneg _) hc))
      linarith
    refine (vlen_le (B := 2 * D * (2 * (k.a * N / (1 - k.e)))) ?_).trans ?_
    · intro i
      fin_cases i
      · simpa [ellipseState, Cart.v, hae, hee] using comb_lip (up p1) (up q1) hB
      · simpa [ellipseState, Cart.v, hae, hee] using comb_lip (up p2) (up q2) hB
      · simpa [ellipseState, Cart.v, hae, hee] using comb_lip (up p3) (up q3) hB
    · have haN : 0 ≤ k.a * N / (1 - k.e) ^ 2 := by positivity
      have : k.a * N / (1 - k.e) ≤ k.a * N / (1 - k.e) ^ 2 := by
        rw [div_le_div_iff₀ hq (by positivity)]
        have : 0 ≤ k.a * N := by positivity
        nlinarith [mul_nonneg this (mul_nonneg hq.le h0)]
      have := mul_le_mul_of_nonneg_right this hD0
      have := mul_nonneg haN hD0
      linarith

/-- the state calculated from elements in degrees -/
theorem cart_err (hu : R.u ≤ 1 / 10 ^ 6) {mu : ℝ} (hmu : 0 < mu) {k : Kep ℝ} (ha : 0 < k.a) (h0 : 0 ≤ k.e) (h1 : k.e < 1) (hwide : 300 * R.u ≤ 1 - k.e) {nu F : ℝ}
    (h : SamePoint k.e (flRad R true nu) F) :
    ∃ c : Cart ℝ, (rfKern g).kepToCart true (RF.num R mu) (Kep.num R { k with nu := nu }) = c.num R ∧
      vlen (c.r - (ellipseState (k.inRad true) √(mu / k.a ^ 3) F).r) ≤
        k.a / (1 - k.e) * ((1200 + 40 * (|angleOf true k.OM| + |angleOf true k.i| + |angleOf true k.om|)) * R.u) ∧
      vlen (c.v - (ellipseState (k.inRad true) √(mu / k.a ^ 3) F).v) ≤
        k.a * √(mu / k.a ^ 3) / (1 - k.e) ^ 2 * ((1200 + 40 * (|angleOf true k.OM| + |angleOf true k.i| + |angleOf true k.om|)) * R.u) := by
  have hu0 := R.u_nonneg
  have hq : 0 < 1 - k.e := by linarith
  obtain ⟨hn, -⟩ := motion_pos hmu ha
  obtain ⟨c, c1, c2, c3⟩ := cart_err_wide g hmu (k := { k.flRad R true with nu := flRad R true nu }) (nu := flRad R true nu) (F := F) ha h0 h1 hwide h
  have hk : (rfKern g).kepToCart true (RF.num R mu) (Kep.num R { k with nu := nu }) = c.num R := by
    rw [← c1]
    exact kepToCart_flRad g.h mu true { k with nu := nu }
  have i1 := in_err (R := R) hu k.OM
  have i2 := in_err (R := R) hu k.i
  have i3 := in_err (R := R) hu k.om
  obtain ⟨S, hS⟩ : ∃ S, S = |angleOf true k.OM| + |angleOf true k.i| + |angleOf true k.om| := ⟨_, rfl⟩
  have hS0 : 0 ≤ S := by rw [hS]; positivity
  obtain ⟨d1, d2⟩ := turned { k.flRad R true with nu := flRad R true nu } (k.inRad true) hn F ha h0 h1 rfl rfl (D := 304 / 100 * R.u * S) (by
    show |flRad R true k.OM - angleOf true k.OM| + |flRad R true k.i - angleOf true k.i| + |flRad R true k.om - angleOf true k.om| ≤ _
    rw [hS]; linarith)
  rw [← hS]
  have hSu := mul_nonneg hS0 hu0
  refine ⟨c, hk, (vlen_via _ _ _).trans ((add_le_add c2 d1).trans ?_), (vlen_via _ _ _).trans ((add_le_add c3 d2).trans ?_)⟩
  · show k.a / (1 - k.e) * (600 * (1 + k.e) * R.u) + k.a / (1 - k.e) * (12 * (304 / 100 * R.u * S)) ≤ _
    rw [← mul_add]
    refine mul_le_mul_of_nonneg_left ?_ (by positivity)
    have := mul_le_mul_of_nonneg_right (show 1 + k.e ≤ 2 by linarith) hu0
    linarith
  · show k.a * √(mu / k.a ^ 3) / (1 - k.e) ^ 2 * (400 * R.u) + k.a * √(mu / k.a ^ 3) / (1 - k.e) ^ 2 * (12 * (304 / 100 * R.u * S)) ≤ _
    rw [← mul_add]
    refine mul_le_mul_of_nonneg_left ?_ (by positivity)
    linarith

/-! ## One step -/

/-- an elliptic orbit (any `e ≤ 1 - 300 u`) of an object that holds its angles in degrees -/
structure RDegEllipse (s : Orb (RF R)) (j : Nat) (k : Kep ℝ) (mu tol : ℝ) : Prop where
  read : ∃ ks, (get_kepler (rfKern g) s).1 = .ok ks ∧ ks[j]? = some (k.num R)
  grav : ∃ m, s.m[j]? = some m ∧ s.G * (s.M0 + m) = RF.num R mu
  mu_pos : 0 < mu
  a_pos : 0 < k.a
  e_nonneg : 0 ≤ k.e
  e_lt : k.e < 1
  e_le : 300 * R.u ≤ 1 - k.e
  degs : s.degrees = true
  solver : Wide.WideSolver s.opts tol

theorem RDegEllipse.step {n : Nat} (hu : R.u ≤ 1 / 10 ^ 9) {s : Orb (RF R)} {j : Nat} {k : Kep ℝ} {mu tol : ℝ} (hs : OneEntryPerOrbit s n) (hr : s.kro = false)
    (h : RDegEllipse g s j k mu tol) {M0 : ℝ} (hM : HasMean s.type k.e (angleOf true k.nu) M0) {dt : Val (RF R)} {dts : List (RF R)} (hdt : dt.Row n dts) {d : ℝ}
    (hd : dts[j]? = some (RF.num R d)) :
    ∃ (s' : Orb (RF R)) (x M1 : ℝ) (z : ℤ), propagate (rfKern g) dt s = (.ok (), s') ∧ OneEntryPerOrbit s' n ∧ OnlyElements s s' ∧
      (∃ ks, (get_kepler (rfKern g) s').1 = .ok ks ∧ ks[j]? = some (Kep.num R { k with nu := x })) ∧ HasMean s.type k.e (angleOf true x) M1 ∧ |angleOf true x| ≤ 8 ∧
      |M1 - (M0 + √(mu / k.a ^ 3) * d + z * (2 * Real.pi))| ≤ (if s.type = .mean then 0 else tol) + (520 * anomCond k.e + 23 * anomCond k.e * |angleOf true k.nu| + 13 * (√(mu / k.a ^ 3) * |d|)) * R.u ∧
      (s.auto = true ∨ s.direct = true → ∃ cs c F, (get_cartesian (rfKern g) s').1 = .ok cs ∧ cs[j]? = some (Cart.num R c) ∧
        |F - k.e * Real.sin F - M1| ≤ (if s.type = .mean then tol else 0) + 360 * anomCond k.e * R.u ∧
        vlen (c.r - (ellipseState (k.inRad true) √(mu / k.a ^ 3) F).r) ≤ k.a / (1 - k.e) * ((1200 + 40 * (|angleOf true k.OM| + |angleOf true k.i| + |angleOf true k.om|)) * R.u) ∧
        vlen (c.v - (ellipseState (k.inRad true) √(mu / k.a ^ 3) F).v) ≤ k.a * √(mu / k.a ^ 3) / (1 - k.e) ^ 2 * ((1200 + 40 * (|angleOf true k.OM| + |angleOf true k.i| + |angleOf true k.om|)) * R.u)) := by
  have hu0 := R.u_nonneg
  have h0 := h.e_nonneg
  have h1 := h.e_lt
  have hwide := h.e_le
  have h25 : k.e ≤ 1 - 25 * R.u := by linarith
  have hu6 : R.u ≤ 1 / 10 ^ 6 := by linarith
  have hdeg := h.degs
  have he : |k.e| < 1 := by rw [abs_of_nonneg h0]; linarith
  obtain ⟨ks, hks, hk⟩ := h.read
  obtain rfl : ks = (kepCheck (rfKern g) s).kep := (Except.ok.inj hks).symm
  obtain ⟨m, hm, hmu⟩ := h.grav
  have hmu : (rfKern g).mu s.G s.M0 m = RF.num R mu := hmu
  obtain ⟨e1, e2, e3, -⟩ := kepCheck_settings (rfKern g) s
  obtain ⟨-, em, eG, eM0⟩ := kepCheck_body (rfKern g) s
  obtain ⟨Mc, M0', r1, r2, r3, r4⟩ := read_mean g hu6 s.opts s.type h0 h1 k.nu
  obtain ⟨z1, hz1⟩ := hasMean_unique he hM r2
  obtain ⟨M', z2, a1, a2, a3, a4⟩ := advance_err g hu6 h.a_pos h.mu_pos Mc d
  have hnew : newMean (rfKern g) (kepCheck (rfKern g) s) (k.num R) m (RF.num R d) = RF.num R M' := by
    unfold newMean
    rw [anomOf_conv, e1, e2, e3, eG, eM0, hmu, hdeg]
    show (rfKern g).wrapM true ((rfKern g).advance (conv (rfKern g) s.opts true s.type .mean (RF.num R k.nu) (RF.num R k.e)) _ _) = _
    rw [r1]
    exact a1
  obtain ⟨x, M1, x1, x2, x3, x4, x5⟩ := store_err g hu h.solver s.type h0 h1 h25 a2 a3
  have hcol : ({ k.num R with nu := conv (rfKern g) s.opts s.degrees .mean s.type (newMean (rfKern g) (kepCheck (rfKern g) s) (k.num R) m (RF.num R d)) (k.num R).e } : Kep (RF R))
      = Kep.num R { k with nu := x } := by
    rw [hnew, hdeg]
    show ({ k.num R with nu := conv (rfKern g) s.opts true .mean s.type _ (RF.num R k.e) } : Kep (RF R)) = _
    rw [x1]; rfl
  obtain ⟨s', p1, p2, p3, p4, p5⟩ := propagate_ok (rfKern g) hs.wfe hr hdt
  refine ⟨s', x, M1, z1 - z2, p1, p2.one, p3, ⟨s'.kep, ?_, ?_⟩, x2, x3.trans (by norm_num), ?_, fun hmode => ?_⟩
  · show Except.ok (kepCheck (rfKern g) s').kep = _
    rw [p4.check]
  · have hmk : (kepCheck (rfKern g) s).m[j]? = some m := by rw [em]; exact hm
    rw [p5, List.getElem?_zipWith, hk]
    unfold newMeans
    rw [List.getElem?_zipWith]
    simp only [List.zip, List.getElem?_zipWith, hk, hmk, hd]
    rw [hcol]
  · rw [abs_mul, abs_of_pos (motion_pos h.mu_pos h.a_pos).1] at a4
    have q1 := mul_le_mul_of_nonneg_right r4 hu0
    have hc := anomCond_pos h0 h1
    have q2 := mul_le_mul_of_nonneg_right hc hu0
    have q3 := mul_le_mul_of_nonneg_right hc (mul_nonneg (abs_nonneg (angleOf true k.nu)) hu0)
    rw [hz1] at r3
    push_cast
    have e4 : M1 - (M0 + √(mu / k.a ^ 3) * d + ((z1 : ℝ) - z2) * (2 * Real.pi)) =
        (M1 - angleOf true M') + (angleOf true M' - (angleOf true Mc + √(mu / k.a ^ 3) * d - z2 * (2 * Real.pi))) + (angleOf true Mc - (M0 + z1 * (2 * Real.pi))) := by ring
    rw [e4]
    have e5 := abs_add_le ((M1 - angleOf true M') + (angleOf true M' - (angleOf true Mc + √(mu / k.a ^ 3) * d - z2 * (2 * Real.pi)))) (angleOf true Mc - (M0 + z1 * (2 * Real.pi)))
    have e6 := abs_add_le (M1 - angleOf true M') (angleOf true M' - (angleOf true Mc + √(mu / k.a ^ 3) * d - z2 * (2 * Real.pi)))
    linarith
  · obtain ⟨cs, c1, c2⟩ := propagate_cart (rfKern g) hs.wfe hr hdt hmode p1 hk hm hd (by rw [hcol]; rfl)
    obtain ⟨nu, F, f1, f2, f3⟩ := state_err g hu h.solver s.type h0 h1 h25 x2 x3 x4
    obtain ⟨c, d1, d2, d3⟩ := cart_err g hu6 h.mu_pos h.a_pos h0 h1 hwide f2
    refine ⟨cs, c, F, c1, ?_, f3, d2, d3⟩
    rw [c2, hcol, hmu, hdeg]
    refine congrArg some ?_
    rw [← d1]
    show (rfKern g).kepToCart true (RF.num R mu) { Kep.num R { k with nu := x } with nu := toTrue (rfKern g) s.type s.opts true (RF.num R x) (RF.num R k.e) } = _
    rw [f1]; rfl

/-! ## Any number of steps -/

variable {g} in
theorem RDegEllipse.after {s s' : Orb (RF R)} {j : Nat} {k : Kep ℝ} {mu tol : ℝ} (h : RDegEllipse g s j k mu tol) (ho : OnlyElements s s') {x : ℝ}
    (hk : ∃ ks, (get_kepler (rfKern g) s').1 = .ok ks ∧ ks[j]? = some (Kep.num R { k with nu := x })) : RDegEllipse g s' j { k with nu := x } mu tol := by
  refine ⟨hk, ?_, h.mu_pos, h.a_pos, h.e_nonneg, h.e_lt, h.e_le, ?_, ?_⟩
  · rw [ho]; exact h.grav
  · rw [ho]; exact h.degs
  · rw [ho]; exact h.solver

/-- what holds after any number of steps -/
structure RDegAfter (n j : Nat) (s s' : Orb (RF R)) (k : Kep ℝ) (mu tol M0 : ℝ) (m : Nat) (D T x M1 : ℝ) : Prop where
  entries : OneEntryPerOrbit s' n
  only : OnlyElements s s'
  read : ∃ ks, (get_kepler (rfKern g) s').1 = .ok ks ∧ ks[j]? = some (Kep.num R { k with nu := x })
  has : HasMean s.type k.e (angleOf true x) M1
  small : |angleOf true x| ≤ 8
  close : ∃ z : ℤ, |M1 - (M0 + √(mu / k.a ^ 3) * D + z * (2 * Real.pi))| ≤
    m * (if s.type = .mean then 0 else tol) + (710 * anomCond k.e * m + 23 * anomCond k.e * |angleOf true k.nu| + 13 * (√(mu / k.a ^ 3) * T)) * R.u
  cart : s.auto = true ∨ s.direct = true → ∃ cs c F, (get_cartesian (rfKern g) s').1 = .ok cs ∧ cs[j]? = some (Cart.num R c) ∧
    |F - k.e * Real.sin F - M1| ≤ (if s.type = .mean then tol else 0) + 360 * anomCond k.e * R.u ∧
    vlen (c.r - (ellipseState (k.inRad true) √(mu / k.a ^ 3) F).r) ≤ k.a / (1 - k.e) * ((1200 + 40 * (|angleOf true k.OM| + |angleOf true k.i| + |angleOf true k.om|)) * R.u) ∧
    vlen (c.v - (ellipseState (k.inRad true) √(mu / k.a ^ 3) F).v) ≤ k.a * √(mu / k.a ^ 3) / (1 - k.e) ^ 2 * ((1200 + 40 * (|angleOf true k.OM| + |angleOf true k.i| + |angleOf true k.om|)) * R.u)

variable {g} in
theorem run_after {n j m : Nat} (hu : R.u ≤ 1 / 10 ^ 9) {s s' : Orb (RF R)} {D T : ℝ} (hrun : RRun g n j s s' m D T) (hs : OneEntryPerOrbit s n) (hr : s.kro = false)
    {k : Kep ℝ} {mu tol : ℝ} (h : RDegEllipse g s j k mu tol) {M0 : ℝ} (hM : HasMean s.type k.e (angleOf true k.nu) M0) :
    ∃ x M1, RDegAfter g n j s s' k mu tol M0 m D T x M1 := by
  have hu0 := R.u_nonneg
  obtain ⟨hn, -⟩ := motion_pos h.mu_pos h.a_pos
  have hc := anomCond_pos h.e_nonneg h.e_lt
  have hcu : 0 ≤ anomCond k.e * R.u := mul_nonneg (by linarith) hu0
  induction hrun with
  | one dt dts d row at_j run =>
    obtain ⟨s1, x, M1, z, p1, p2, p3, p4, p5, p6, p7, p8⟩ := h.step g hu hs hr hM row at_j
    obtain rfl : s1 = _ := congrArg Prod.snd (p1.symm.trans run)
    refine ⟨x, M1, p2, p3, p4, p5, p6, ⟨z, p7.trans ?_⟩, p8⟩
    push_cast
    linarith
  | @more s' s'' m D T before dt dts d row at_j run ih =>
    obtain ⟨x, M1, a⟩ := ih
    have h' := h.after a.only a.read
    have ht : s'.type = s.type := by rw [a.only]
    have hau : s'.auto = s.auto := by rw [a.only]
    have hdi : s'.direct = s.direct := by rw [a.only]
    obtain ⟨s1, y, M2, z, p1, p2, p3, p4, p5, p6, p7, p8⟩ := h'.step g hu a.entries (by rw [a.only]; exact hr) (M0 := M1) (by rw [ht]; exact a.has) row at_j
    obtain rfl : s1 = _ := congrArg Prod.snd (p1.symm.trans run)
    rw [ht] at p5 p7 p8
    rw [hau, hdi] at p8
    obtain ⟨z', hz'⟩ := a.close
    refine ⟨y, M2, p2, ?_, p4, p5, p6, ⟨z + z', ?_⟩, p8⟩
    · rw [p3, a.only]; rfl
    · have p7 : |M2 - (M1 + √(mu / k.a ^ 3) * d + z * (2 * Real.pi))| ≤
          (if s.type = .mean then 0 else tol) + (520 * anomCond k.e + 23 * anomCond k.e * |angleOf true x| + 13 * (√(mu / k.a ^ 3) * |d|)) * R.u := p7
      push_cast
      have e4 : M2 - (M0 + √(mu / k.a ^ 3) * (D + d) + ((z : ℝ) + z') * (2 * Real.pi)) =
        (M2 - (M1 + √(mu / k.a ^ 3) * d + z * (2 * Real.pi))) + (M1 - (M0 + √(mu / k.a ^ 3) * D + z' * (2 * Real.pi))) := by ring
      rw [e4]
      have e5 := abs_add_le (M2 - (M1 + √(mu / k.a ^ 3) * d + z * (2 * Real.pi))) (M1 - (M0 + √(mu / k.a ^ 3) * D + z' * (2 * Real.pi)))
      have e6 := mul_le_mul_of_nonneg_right a.small hcu
      linarith

end WideDeg

open Py FX RF Wide WideDeg
variable {R : Rounding} (g : Garb (RF R))

/-- C109: an elliptic orbit (any `e ≤ 1 - 300 u`) of an object that holds its angles in degrees, with automatic updates whose arithmetic rounds: there is a solution `c` of Newton's equations of
motion that starts at the exact point its elements describe, such that after any number `m` of calls of `propagate`, with time steps of either sign that add up
to `D`, their absolute values to `T`, the state read from `orb.cartesian` is close to `c D`.  The rounding errors add up with the number of calls; those of the
solver of Kepler's equation only when the object does not store the mean anomaly.  (That the calls return: `c98_returns`.) -/
theorem c109 {n : Nat} (hu : R.u ≤ 1 / 10 ^ 9) (s : Orb (RF R)) (hs : OneEntryPerOrbit s n) (hr : s.kro = false) (hmode : s.auto = true ∨ s.direct = true)
    (j : Nat) (k : Kep ℝ) (mu tol : ℝ) (h : RDegEllipse g s j k mu tol) :
    ∃ c : ℝ → Cart ℝ, ObeysNewton mu c ∧ (∀ nu, IsTrue s.type k.e (angleOf true k.nu) (angleOf true nu) → DescribesOrbit mu (Kep.inRad true { k with nu := nu }) (c 0)) ∧
      ∀ (s' : Orb (RF R)) (m : Nat) (D T : ℝ), RRun g n j s s' m D T →
        ∃ cs c', (get_cartesian (rfKern g) s').1 = .ok cs ∧ cs[j]? = some (Cart.num R c') ∧
          vlen (c'.r - (c D).r) ≤ k.a / (1 - k.e) *
            ((if s.type = .mean then tol else m * tol) + (2300 * √((1 + k.e) / (1 - k.e)) * m + 23 * √((1 + k.e) / (1 - k.e)) * |angleOf true k.nu| + 13 * (√(mu / k.a ^ 3) * T) +
              40 * (|angleOf true k.OM| + |angleOf true k.i| + |angleOf true k.om|)) * R.u) ∧
          vlen (c'.v - (c D).v) ≤ k.a * √(mu / k.a ^ 3) / (1 - k.e) ^ 2 *
            ((if s.type = .mean then tol else m * tol) + (2300 * √((1 + k.e) / (1 - k.e)) * m + 23 * √((1 + k.e) / (1 - k.e)) * |angleOf true k.nu| + 13 * (√(mu / k.a ^ 3) * T) +
              40 * (|angleOf true k.OM| + |angleOf true k.i| + |angleOf true k.om|)) * R.u) := by
  have hu0 := R.u_nonneg
  have hmu := h.mu_pos
  have ha := h.a_pos
  have h0 := h.e_nonneg
  have h1 := h.e_lt
  have hc := anomCond_pos h0 h1
  have hcond : √((1 + k.e) / (1 - k.e)) = anomCond k.e := by rw [anomCond, abs_of_nonneg h0]
  have hcu := mul_le_mul_of_nonneg_right hc hu0
  rw [hcond]
  have hq : 0 < 1 - k.e := by linarith
  obtain ⟨hn, -⟩ := motion_pos hmu ha
  obtain ⟨-, M0, -, hM, -⟩ := WideDeg.read_mean g (show R.u ≤ 1 / 10 ^ 6 by linarith) s.opts s.type h0 h1 k.nu
  obtain ⟨c, hcur, hN, hst⟩ := newton_curve hmu ha h0 h1 true M0
  refine ⟨c, hN, fun nu hnu => ?_, fun s' m D T hrun => ?_⟩
  · obtain ⟨E, e1, e2⟩ : ∃ E, SamePoint k.e (angleOf true nu) E ∧ E - k.e * Real.sin E = M0 := by
      generalize s.type = t at hM hnu
      cases t
      · have hnu : angleOf true nu = angleOf true k.nu := hnu
        rw [hnu]; exact hM
      · exact ⟨angleOf true k.nu, hnu, hM⟩
      · obtain ⟨E, e1, e2⟩ := hnu
        exact ⟨E, e1, e2.trans hM⟩
    exact hst nu E e1 e2
  · obtain ⟨x, M1, a⟩ := run_after hu hrun hs hr h hM
    obtain ⟨hm1, hT⟩ := hrun.pos
    have hm1 : (1 : ℝ) ≤ m := by exact_mod_cast hm1
    obtain ⟨cs, c', F, c1, c2, c3, c4, c5⟩ := a.cart hmode
    obtain ⟨G, hG, hGm⟩ := hcur D
    obtain ⟨z, hz⟩ := a.close
    have htot : |meanOf k.e F - (meanOf k.e G + z * (2 * Real.pi))| ≤
        (if s.type = .mean then tol else m * tol) + (710 * anomCond k.e * m + 360 * anomCond k.e + 23 * anomCond k.e * |angleOf true k.nu| + 13 * (√(mu / k.a ^ 3) * T)) * R.u := by
      rw [hGm, meanOf_eli _ h1]
      have := abs_sub_le (F - k.e * Real.sin F) M1 (M0 + √(mu / k.a ^ 3) * D + z * (2 * Real.pi))
      split_ifs at c3 hz ⊢ <;> linarith
    obtain ⟨q1, q2⟩ := points_close hmu ha h0 h1 true htot
    rw [← hG] at q1 q2
    refine ⟨cs, c', c1, c2, ?_, ?_⟩
    · refine (vlen_via _ _ _).trans ((add_le_add c4 q1).trans ?_)
      rw [show ∀ b, k.a * b / (1 - k.e) = k.a / (1 - k.e) * b from fun b => by ring, ← mul_add]
      refine mul_le_mul_of_nonneg_left ?_ (by positivity)
      have := mul_le_mul_of_nonneg_right hm1 (show 0 ≤ anomCond k.e * R.u by linarith)
      linarith
    · refine (vlen_via _ _ _).trans ((add_le_add c5 q2).trans ?_)
      rw [show ∀ b, k.a * √(mu / k.a ^ 3) * b / (1 - k.e) ^ 2 = k.a * √(mu / k.a ^ 3) / (1 - k.e) ^ 2 * b from fun b => by ring, ← mul_add]
      refine mul_le_mul_of_nonneg_left ?_ (by positivity)
      have := mul_le_mul_of_nonneg_right hm1 (show 0 ≤ anomCond k.e * R.u by linarith)
      linarith

/-- C109 with the default options of the solver and arithmetic at least as accurate as double precision -/
theorem c109_default {n : Nat} (hu : R.u ≤ (1 / 2) ^ 53) (s : Orb (RF R)) (hs : OneEntryPerOrbit s n) (hr : s.kro = false) (hmode : s.auto = true ∨ s.direct = true)
    (ho : s.opts = .dflt) (hdeg : s.degrees = true) (j : Nat) (k : Kep ℝ) (mu : ℝ) (hread : ∃ ks, (get_kepler (rfKern g) s).1 = .ok ks ∧ ks[j]? = some (k.num R))
    (hgrav : ∃ m, s.m[j]? = some m ∧ s.G * (s.M0 + m) = RF.num R mu) (hmu : 0 < mu) (ha : 0 < k.a) (h0 : 0 ≤ k.e) (h1 : k.e < 1)
    (h300 : 300 * R.u ≤ 1 - k.e) :
    ∃ c : ℝ → Cart ℝ, ObeysNewton mu c ∧ (∀ nu, IsTrue s.type k.e (angleOf true k.nu) (angleOf true nu) → DescribesOrbit mu (Kep.inRad true { k with nu := nu }) (c 0)) ∧
      ∀ (s' : Orb (RF R)) (m : Nat) (D T : ℝ), RRun g n j s s' m D T →
        ∃ cs c', (get_cartesian (rfKern g) s').1 = .ok cs ∧ cs[j]? = some (Cart.num R c') ∧
          vlen (c'.r - (c D).r) ≤ k.a / (1 - k.e) * (101 / 10 ^ 14 * (if s.type = .mean then (1 : ℝ) else m) +
            (2300 * √((1 + k.e) / (1 - k.e)) * m + 23 * √((1 + k.e) / (1 - k.e)) * |angleOf true k.nu| + 13 * (√(mu / k.a ^ 3) * T) +
              40 * (|angleOf true k.OM| + |angleOf true k.i| + |angleOf true k.om|)) * R.u) ∧
          vlen (c'.v - (c D).v) ≤ k.a * √(mu / k.a ^ 3) / (1 - k.e) ^ 2 * (101 / 10 ^ 14 * (if s.type = .mean then (1 : ℝ) else m) +
            (2300 * √((1 + k.e) / (1 - k.e)) * m + 23 * √((1 + k.e) / (1 - k.e)) * |angleOf true k.nu| + 13 * (√(mu / k.a ^ 3) * T) +
              40 * (|angleOf true k.OM| + |angleOf true k.i| + |angleOf true k.om|)) * R.u) := by
  have hq : 0 < 1 - k.e := by linarith
  have hn := (motion_pos hmu ha).1
  obtain ⟨ok, ht⟩ := wideSolver_default (R := R) hu
  obtain ⟨c, c1, c2, c3⟩ := c109 g (hu.trans (by norm_num)) s hs hr hmode j k mu _ ⟨hread, hgrav, hmu, ha, h0, h1, h300, hdeg, ho ▸ ok⟩
  refine ⟨c, c1, c2, fun s' m D T hrun => ?_⟩
  obtain ⟨cs, c', d1, d2, d3, d4⟩ := c3 s' m D T hrun
  have hm : (if s.type = .mean then R.rd (1 / 10 ^ 12) else m * R.rd (1 / 10 ^ 12)) ≤ 101 / 10 ^ 14 * (if s.type = .mean then (1 : ℝ) else m) := by
    split_ifs
    · linarith
    · have := mul_le_mul_of_nonneg_left ht (Nat.cast_nonneg (α := ℝ) m)
      linarith
  refine ⟨cs, c', d1, d2, d3.trans (mul_le_mul_of_nonneg_left (add_le_add hm le_rfl) (by positivity)),
    d4.trans (mul_le_mul_of_nonneg_left (add_le_add hm le_rfl) (by positivity))⟩

/-- a new object in lazy mode with angles in degrees, with one orbit assigned -/
noncomputable def lazyDeg64 (g : Garb (RF Binary.binary64)) (t : Anom) (k : Kep ℝ) : Orb (RF Binary.binary64) :=
  exec (rfKern g) { (allocate (rfKern g) 1 (empty (RF.num _ 1) { G := RF.num _ 1, opts := .dflt, degrees := true, direct := false } t)).2 with kro := false, cro := false }
    [.setKepler (.mat [k.num _])]

/-- a case: two calls for an orbit with e = 0.96, inclined by 30°, that stores its true anomaly, 0 at the start, in double precision -/
example (g : Garb (RF Binary.binary64)) : ∃ (c : ℝ → Cart ℝ) (s1 s2 : Orb (RF Binary.binary64)) (cs : List (Cart (RF Binary.binary64))) (c' : Cart ℝ),
    ObeysNewton 1 c ∧ DescribesOrbit 1 (Kep.inRad true ⟨1, 24 / 25, 30, 60, 90, 0⟩) (c 0) ∧
    propagate (rfKern g) (.sc (RF.num _ 6)) (lazyDeg64 g .tru ⟨1, 24 / 25, 30, 60, 90, 0⟩) = (.ok (), s1) ∧ propagate (rfKern g) (.sc (RF.num _ (-3 / 2))) s1 = (.ok (), s2) ∧
    (get_cartesian (rfKern g) s2).1 = .ok cs ∧ cs[0]? = some (Cart.num Binary.binary64 c') ∧ vlen (c'.r - (c (9 / 2)).r) ≤ 15 / 10 ^ 11 := by
  have hs : OneEntryPerOrbit (lazyDeg64 g .tru ⟨1, 24 / 25, 30, 60, 90, 0⟩) 1 := ⟨rfl, rfl, rfl, rfl, ⟨_, rfl, rfl⟩, rfl, rfl, rfl⟩
  obtain ⟨c, c1, c2, c3⟩ := c109_default g (n := 1) (show (1 / 2 : ℝ) ^ 53 ≤ (1 / 2) ^ 53 from le_rfl) (lazyDeg64 g .tru ⟨1, 24 / 25, 30, 60, 90, 0⟩) hs rfl (.inl rfl) rfl rfl 0
    ⟨1, 24 / 25, 30, 60, 90, 0⟩ 1 ⟨_, rfl, rfl⟩ ⟨0, rfl, by
      show (RF.num Binary.binary64 1 : RF _) * (RF.num _ 1 + 0) = _
      have : Binary.binary64.rd 1 = 1 := by
        have h1 := Binary.binary64.exact 4 (by norm_num)
        norm_num at h1
        rw [Rounding.rd, h1, Real.exp_zero, one_mul]
      rw [zero_num, add_num, mul_num, add_zero, this, one_mul, this]⟩ one_pos one_pos (by norm_num) (by norm_num)
    (by show 300 * (1 / 2 : ℝ) ^ 53 ≤ 1 - 24 / 25; norm_num)
  obtain ⟨⟨s1, p1⟩, -⟩ := c98_returns g _ hs rfl 0 (dt := .sc (RF.num _ 6)) (dts := [RF.num _ 6]) rfl
  have r1 := RRun.one (g := g) (n := 1) (j := 0) (.sc (RF.num _ 6)) [RF.num _ 6] 6 rfl rfl p1
  obtain ⟨s2, p2⟩ := (c98_returns g _ hs rfl 0 (dt := .sc (RF.num _ (-3 / 2))) (dts := [RF.num _ (-3 / 2)]) rfl).2 _ _ _ _ r1
  have r2 := r1.more (.sc (RF.num _ (-3 / 2))) [RF.num _ (-3 / 2)] (-3 / 2) rfl rfl p2
  obtain ⟨cs, c', d1, d2, d3, -⟩ := c3 _ _ _ _ r2
  refine ⟨c, s1, s2, cs, c', c1, c2 0 rfl, p1, p2, d1, d2, ?_⟩
  have e : (6 + -3 / 2 : ℝ) = 9 / 2 := by norm_num
  rw [e] at d3
  refine d3.trans ?_
  have ht : (lazyDeg64 g .tru ⟨1, 24 / 25, 30, 60, 90, 0⟩).type = .tru := rfl
  have hc : √((1 + 24 / 25 : ℝ) / (1 - 24 / 25)) = 7 := by
    rw [show (1 + 24 / 25 : ℝ) / (1 - 24 / 25) = 7 ^ 2 by norm_num, Real.sqrt_sq (by norm_num)]
  have hpi := Real.pi_lt_d4
  have hS : |angleOf true 90| + |angleOf true 30| + |angleOf true 60| ≤ 4 := by
    simp only [angleOf, if_true]
    rw [abs_of_pos (by positivity), abs_of_pos (by positivity), abs_of_pos (by positivity)]
    linarith
  have h0 : angleOf true 0 = 0 := by simp [angleOf]
  simp only [ht, hc, h0]
  rw [if_neg (by simp), show Binary.binary64.u = (1 / 2) ^ 53 from rfl, abs_of_pos (show (0 : ℝ) < 6 by norm_num), abs_of_neg (show (-3 / 2 : ℝ) < 0 by norm_num)]
  have hn : √((1 : ℝ) / 1 ^ 3) = 1 := by norm_num
  rw [hn, abs_zero]
  have := mul_le_mul_of_nonneg_right hS (show (0 : ℝ) ≤ (1 / 2) ^ 53 by norm_num)
  norm_num at this ⊢
  linarith

end Orbit
end Pyorb
