import Verif.OrbitKern
import Verif.PropsRoundAnom
import Verif.PropsRoundFormula
import Verif.PropsRoundBoth

/-!
# `Orbit.propagate` computed with rounding (C98)

The model of the class runs on the numbers of `Round.lean` (kernel `rfKern` of `OrbitKern.lean`, the same definitions as for exact arithmetic): `propagate`
reads the anomaly, converts it to the mean anomaly, adds the mean motion times the time step, reduces it to one turn and converts it back; reading `cartesian`
converts to the true anomaly and calls `kep_to_cart`.
-/

set_option linter.unusedSimpArgs false
set_option linter.unusedVariables false

namespace Pyorb
namespace Orbit
open Py FX RF
variable {R : Rounding} (g : Garb (RF R))

/-- what the anomaly stored in the elements says about the point of the ellipse: `M` is its mean anomaly -/
def HasMean (t : Anom) (e x M : ℝ) : Prop :=
  match t with
  | .tru => ∃ E, SamePoint e x E ∧ E - e * Real.sin E = M
  | .ecc => x - e * Real.sin x = M
  | .mean => x = M

/-- the true anomalies of the point of the ellipse with the stored anomaly `x` -/
def IsTrue (t : Anom) (e x nu : ℝ) : Prop :=
  match t with
  | .tru => nu = x
  | .ecc => SamePoint e nu x
  | .mean => ∃ E, SamePoint e nu E ∧ E - e * Real.sin E = x

/-! ## The functions of the kernel -/

theorem rk_ett {e : ℝ} (h1 : e < 1) (E : ℝ) : (rfKern g).eccToTrue false false (RF.num R E) (RF.num R e) = wrap (ettEli (RF.num R E) (RF.num R e)) := by
  show eccentricToTrueEl g.tru .f64 (RF.num R E) (RF.num R e) = _
  rw [eccentricToTrueEl, rtri_mask h1]

theorem rk_etm {e : ℝ} (h1 : e < 1) (E : ℝ) : (rfKern g).eccToMean false false (RF.num R E) (RF.num R e) = etmEli (RF.num R E) (RF.num R e) := by
  show eccentricToMeanEl g.mean .f64 (RF.num R E) (RF.num R e) = _
  rw [eccentricToMeanEl, rtri_mask h1]

theorem rk_ttm {e : ℝ} (h1 : e < 1) {nu E : ℝ} (h : wrap (tteEli (RF.num R nu) (RF.num R e)) = RF.num R E) :
    (rfKern g).trueToMean false false (RF.num R nu) (RF.num R e) = etmEli (RF.num R E) (RF.num R e) := by
  show eccentricToMeanEl g.mean .f64 (trueToEccentricEl g.ecc .f64 (RF.num R nu) (RF.num R e)) (RF.num R e) = _
  rw [trueToEccentricEl, rtri_mask h1, h, eccentricToMeanEl, rtri_mask h1]

theorem rk_mte (o : SolverOpts (RF R)) (M e : ℝ) : (rfKern g).meanToEcc o false false (RF.num R M) (RF.num R e) = meanToEccentricEl o (RF.num R M) (RF.num R e) := rfl

theorem rk_mtt {o : SolverOpts (RF R)} {e : ℝ} (h1 : e < 1) {M E : ℝ} (h : meanToEccentricEl o (RF.num R M) (RF.num R e) = RF.num R E) :
    (rfKern g).meanToTrue o false false (RF.num R M) (RF.num R e) = wrap (ettEli (RF.num R E) (RF.num R e)) := by
  show eccentricToTrueEl g.tru .f64 (meanToEccentricEl o (RF.num R M) (RF.num R e)) (RF.num R e) = _
  rw [h, eccentricToTrueEl, rtri_mask h1]

/-- the condition number for the eccentricities of the theorem -/
theorem cond_le {e : ℝ} (h0 : 0 ≤ e) (h7 : e ≤ 7 / 10) : anomCond e ≤ 239 / 100 := by
  unfold anomCond
  rw [abs_of_nonneg h0, Real.sqrt_le_left (by norm_num), div_le_iff₀ (by linarith)]
  linarith

/-- the mean anomaly `propagate` starts from -/
theorem read_mean (hu : R.u ≤ 1 / 10 ^ 6) (o : SolverOpts (RF R)) (t : Anom) {e : ℝ} (h0 : 0 ≤ e) (h7 : e ≤ 7 / 10) (x : ℝ) :
    ∃ M M0 : ℝ, conv (rfKern g) o false t .mean (RF.num R x) (RF.num R e) = RF.num R M ∧ HasMean t e x M0 ∧ |M - M0| ≤ (200 + 10 * |x|) * R.u ∧ |M| ≤ 2 * |x| + 8 := by
  have hu0 := R.u_nonneg
  have h1 : e < 1 := by linarith
  have hx := abs_nonneg x
  have hxu := mul_nonneg hx hu0
  cases t
  · obtain ⟨E, E0, k1, k2, k3, k4, k5⟩ := tte_forward (R := R) hu h0 h1 x
    obtain ⟨M, m1, m2⟩ := etm_err (R := R) hu h0 h1 E
    have hc := cond_le h0 h7
    have h3 := meanOf_lipschitz h0 E E0
    have h4 : (1 + e) * |E - E0| ≤ 2 * |E - E0| := mul_le_mul_of_nonneg_right (by linarith) (abs_nonneg _)
    have h5 := abs_sub_le M (E - e * Real.sin E) (E0 - e * Real.sin E0)
    have h6 : 4 * R.u * (|E| + e) ≤ 4 * R.u * (729 / 100) := by
      refine mul_le_mul_of_nonneg_left ?_ (by positivity)
      rw [abs_of_nonneg k2]; linarith
    refine ⟨M, _, (rk_ttm g h1 k1).trans m1, ⟨E0, k4, rfl⟩, ?_, ?_⟩
    · have := mul_le_mul_of_nonneg_right hc hxu
      linarith
    · have h7 : |e * Real.sin E| ≤ 7 / 10 := by
        rw [abs_mul, abs_of_nonneg h0]
        exact (mul_le_of_le_one_right h0 (Real.abs_sin_le_one E)).trans h7
      rw [abs_le] at m2 h7 ⊢
      constructor <;> linarith
  · obtain ⟨M, m1, m2⟩ := etm_err (R := R) hu h0 h1 x
    have h6 : 4 * R.u * (|x| + e) ≤ 4 * R.u * (|x| + 1) := mul_le_mul_of_nonneg_left (by linarith) (by positivity)
    refine ⟨M, _, (rk_etm g h1 x).trans m1, rfl, by linarith, ?_⟩
    have h7 : |e * Real.sin x| ≤ 7 / 10 := by
      rw [abs_mul, abs_of_nonneg h0]
      exact (mul_le_of_le_one_right h0 (Real.abs_sin_le_one x)).trans h7
    have h8 : 4 * R.u * (|x| + 1) ≤ 1 / 10 ^ 5 * (|x| + 1) := mul_le_mul_of_nonneg_right (by linarith) (by positivity)
    have h9 := abs_add_le (M - (x - e * Real.sin x)) (x - e * Real.sin x)
    have h10 := abs_sub x (e * Real.sin x)
    rw [sub_add_cancel] at h9
    linarith
  · refine ⟨x, x, rfl, rfl, ?_, by linarith⟩
    rw [sub_self, abs_zero]; positivity

/-- the mean motion -/
theorem motion_rel {a mu : ℝ} (ha : 0 < a) (hmu : 0 < mu) :
    Rel (17 / 2) ((rfKern g).motion false ((rfKern g).period (RF.num R a) (RF.num R mu))) √(mu / a ^ 3) := by
  show Rel _ ((Np.pi * 2 : RF R) / orbital_period (RF.num R a) (RF.num R mu)) _
  have hs : 0 < √(a ^ 3 / mu) := Real.sqrt_pos.mpr (by positivity)
  have hpi := Real.pi_pos
  have h := (Rel.pi.mul (Rel.num (R := R) 2)).div (period_rel (R := R) ha hmu) (by positivity)
  rw [two_num]
  have e1 : Real.pi * 2 / (2 * Real.pi * √(a ^ 3 / mu)) = √(mu / a ^ 3) := by
    rw [← sqrt_flip ha hmu]; field_simp
  rw [e1] at h
  exact h.mono (by norm_num)

/-- the mean anomaly after one step -/
theorem advance_err (hu : R.u ≤ 1 / 10 ^ 6) {a mu : ℝ} (ha : 0 < a) (hmu : 0 < mu) (M d : ℝ) :
    ∃ (M' : ℝ) (z : ℤ), (rfKern g).wrapM false ((rfKern g).advance (RF.num R M) ((rfKern g).motion false ((rfKern g).period (RF.num R a) (RF.num R mu))) (RF.num R d)) = RF.num R M' ∧
      0 ≤ M' ∧ M' ≤ 629 / 100 ∧ |M' - (M + √(mu / a ^ 3) * d - z * (2 * Real.pi))| ≤ (21 + 5 * |M| + 18 * |√(mu / a ^ 3) * d|) * R.u := by
  have hu0 := R.u_nonneg
  obtain ⟨w, hw⟩ : ∃ w, w = √(mu / a ^ 3) * d := ⟨_, rfl⟩
  rw [← hw]
  have h1 := (((motion_rel g ha hmu).mul (Rel.num (R := R) d)).near (B := |w|) (by rw [hw])).mono (k := 19 / 2) (by norm_num) (by norm_num) le_rfl
  rw [← hw] at h1
  obtain ⟨y, y1, y2, -⟩ := h1
  have y3 : |y - w| ≤ 127 / 10 * R.u * |w| := by
    refine y2.trans (mul_le_mul_of_nonneg_right ?_ (abs_nonneg _))
    refine (exp_sub_one_le (by positivity) (by linarith)).trans ?_
    linarith
  have hadv : (rfKern g).advance (RF.num R M) ((rfKern g).motion false ((rfKern g).period (RF.num R a) (RF.num R mu))) (RF.num R d) = RF.num R (R.rd (M + y)) := by
    show RF.num R M + (rfKern g).motion false ((rfKern g).period (RF.num R a) (RF.num R mu)) * RF.num R d = _
    rw [y1, add_num]
  rw [hadv]
  have hy : |y| ≤ 101 / 100 * |w| := by
    have := abs_add_le (y - w) w
    rw [sub_add_cancel] at this
    have q : 127 / 10 * R.u * |w| ≤ 1 / 100 * |w| := mul_le_mul_of_nonneg_right (by linarith) (abs_nonneg _)
    linarith
  have hMy : |M + y| ≤ |M| + 101 / 100 * |w| := (abs_add_le _ _).trans (by linarith)
  have h3 := rd_err (R := R) hu hMy
  obtain ⟨M', z, m1, m2, m3, m4⟩ := mod_err hu (R.rd (M + y))
  refine ⟨M', z, m1, m2, m3, ?_⟩
  have hB : |R.rd (M + y)| ≤ 102 / 100 * (|M| + 101 / 100 * |w|) := by
    have := abs_add_le (R.rd (M + y) - (M + y)) (M + y)
    rw [sub_add_cancel] at this
    have q : 101 / 100 * R.u * (|M| + 101 / 100 * |w|) ≤ 1 / 100 * (|M| + 101 / 100 * |w|) := mul_le_mul_of_nonneg_right (by linarith) (by positivity)
    linarith [abs_nonneg M, abs_nonneg w]
  have hB2 := mul_le_mul_of_nonneg_right hB hu0
  have hMu := mul_nonneg (abs_nonneg M) hu0
  have hwu := mul_nonneg (abs_nonneg w) hu0
  have e1 : M' - (M + w - z * (2 * Real.pi)) = (M' - (R.rd (M + y) - z * (2 * Real.pi))) + (R.rd (M + y) - (M + y)) + (y - w) := by ring
  rw [e1]
  have e2 := abs_add_le (M' - (R.rd (M + y) - z * (2 * Real.pi)) + (R.rd (M + y) - (M + y))) (y - w)
  have e3 := abs_add_le (M' - (R.rd (M + y) - z * (2 * Real.pi))) (R.rd (M + y) - (M + y))
  linarith

/-- options with which the solver converges: `tol` is at least `400 u`, and the limit of iterations is large enough for it -/
structure SolverOk (o : SolverOpts (RF R)) (tol : ℝ) : Prop where
  pos : 0 < tol
  coarse : 400 * R.u ≤ tol
  enough : ∃ (mi : Int) (N : Nat), o = ropts R tol mi 5 ∧ (51 / 100 : ℝ) ^ N ≤ tol / 4 ∧ N < mi

theorem solver_el (hu : R.u ≤ 1 / 10 ^ 6) {o : SolverOpts (RF R)} {tol : ℝ} (ho : SolverOk o tol) {e : ℝ} (h0 : 0 ≤ e) (h7 : e ≤ 7 / 10) {M : ℝ}
    (hM0 : 0 ≤ M) (hM1 : M ≤ 63 / 10) :
    ∃ E : ℝ, meanToEccentricEl o (RF.num R M) (RF.num R e) = RF.num R E ∧ |E - e * Real.sin E - M| < tol + 9 * R.u ∧ |E| ≤ 8 := by
  obtain ⟨ht, htu, mi, N, rfl, hN, hmi⟩ := ho
  have h1 : e < 1 := by linarith
  obtain ⟨s, hs⟩ := root_exists h0 h1 M
  obtain ⟨E, n, k1, k2, k3, k4⟩ := solve_err (R := R) hu h0 h7 hM0 hM1 hs ht htu N hN hmi
  refine ⟨E, ?_, k3, ?_⟩
  · simp only [meanToEccentricEl, one_num, lt_num, eq_num, not_lt.mpr h1.le, h1.ne, decide_false, Bool.false_eq_true, if_false]
    rw [k1]
  · have h3 : |e * Real.sin s| ≤ 7 / 10 := by
      rw [abs_mul, abs_of_nonneg h0]
      exact (mul_le_of_le_one_right h0 (Real.abs_sin_le_one s)).trans h7
    rw [abs_le] at h3 k4 ⊢
    constructor <;> linarith

/-- the true anomaly computed from an eccentric one, and the point it belongs to -/
theorem ett_point (hu : R.u ≤ 1 / 10 ^ 6) {e : ℝ} (h0 : 0 ≤ e) (h7 : e ≤ 7 / 10) {E : ℝ} (hE : |E| ≤ 8) :
    ∃ nu F : ℝ, wrap (ettEli (RF.num R E) (RF.num R e)) = RF.num R nu ∧ 0 ≤ nu ∧ nu ≤ 629 / 100 ∧ SamePoint e nu F ∧
      |(F - e * Real.sin F) - (E - e * Real.sin E)| ≤ 390 * R.u := by
  have hu0 := R.u_nonneg
  have h1 : e < 1 := by linarith
  have he : |e| < 1 := by rwa [abs_of_nonneg h0]
  obtain ⟨nu, nu1, E1, k1, k2, k3, k4, k5, k6⟩ := ett_err (R := R) hu h0 h1 E
  obtain ⟨F, l1, l2⟩ := samePoint_lipschitz (by rwa [abs_neg]) (samePoint_symm he k5) nu
  have l1' := samePoint_symm (by rwa [abs_neg]) l1
  rw [neg_neg] at l1'
  refine ⟨nu, F, k1, k2, k3, l1', ?_⟩
  rw [anomCond_neg] at l2
  have hc := cond_le h0 h7
  have hc0 : 0 ≤ anomCond e := Real.sqrt_nonneg _
  have q1 : |F - E1| ≤ 239 / 100 * (85 * R.u) := l2.trans (mul_le_mul hc k6 (abs_nonneg _) (by norm_num))
  have q2 : 101 / 100 * R.u * |E| ≤ 101 / 100 * R.u * 8 := mul_le_mul_of_nonneg_left hE (by positivity)
  have q3 := abs_sub_le F E1 E
  have q4 := meanOf_lipschitz h0 F E
  have q5 : (1 + e) * |F - E| ≤ 17 / 10 * (212 * R.u) := mul_le_mul (by linarith) (by linarith) (abs_nonneg _) (by norm_num)
  linarith

/-- the anomaly `propagate` stores for a mean anomaly -/
theorem store_err (hu : R.u ≤ 1 / 10 ^ 6) {o : SolverOpts (RF R)} {tol : ℝ} (ho : SolverOk o tol) (t : Anom) {e : ℝ} (h0 : 0 ≤ e) (h7 : e ≤ 7 / 10) {M : ℝ}
    (hM0 : 0 ≤ M) (hM1 : M ≤ 63 / 10) :
    ∃ x M1 : ℝ, conv (rfKern g) o false .mean t (RF.num R M) (RF.num R e) = RF.num R x ∧ HasMean t e x M1 ∧ |x| ≤ 8 ∧
      (t = .mean → 0 ≤ x ∧ x ≤ 63 / 10) ∧ |M1 - M| ≤ (if t = .mean then 0 else tol) + 400 * R.u := by
  have hu0 := R.u_nonneg
  have h1 : e < 1 := by linarith
  obtain ⟨E, k1, k2, k3⟩ := solver_el hu ho h0 h7 hM0 hM1
  cases t
  · obtain ⟨nu, F, l1, l2, l3, l4, l5⟩ := ett_point (R := R) hu h0 h7 k3
    refine ⟨nu, _, (rk_mtt g h1 k1).trans l1, ⟨F, l4, rfl⟩, by rw [abs_of_nonneg l2]; linarith, by simp, ?_⟩
    rw [if_neg (by simp)]
    have := abs_sub_le (F - e * Real.sin F) (E - e * Real.sin E) M
    linarith
  · refine ⟨E, _, k1, rfl, k3, by simp, ?_⟩
    rw [if_neg (by simp)]
    linarith
  · refine ⟨M, M, rfl, rfl, by rw [abs_of_nonneg hM0]; linarith, fun _ => ⟨hM0, hM1⟩, ?_⟩
    rw [sub_self, abs_zero, if_pos rfl]; linarith

/-- the true anomaly the Cartesian state is calculated with -/
theorem state_err (hu : R.u ≤ 1 / 10 ^ 6) {o : SolverOpts (RF R)} {tol : ℝ} (ho : SolverOk o tol) (t : Anom) {e : ℝ} (h0 : 0 ≤ e) (h7 : e ≤ 7 / 10) {x M1 : ℝ}
    (hx : HasMean t e x M1) (hx8 : |x| ≤ 8) (hm : t = .mean → 0 ≤ x ∧ x ≤ 63 / 10) :
    ∃ nu F : ℝ, toTrue (rfKern g) t o false (RF.num R x) (RF.num R e) = RF.num R nu ∧ SamePoint e nu F ∧
      |F - e * Real.sin F - M1| ≤ (if t = .mean then tol else 0) + 400 * R.u := by
  have hu0 := R.u_nonneg
  have h1 : e < 1 := by linarith
  cases t
  · obtain ⟨E, e1, e2⟩ := hx
    refine ⟨x, E, rfl, e1, ?_⟩
    rw [e2, sub_self, abs_zero, if_neg (by simp)]; linarith
  · obtain ⟨nu, F, l1, l2, l3, l4, l5⟩ := ett_point (R := R) hu h0 h7 hx8
    refine ⟨nu, F, (rk_ett g h1 x).trans l1, l4, ?_⟩
    rw [show M1 = x - e * Real.sin x from hx.symm, if_neg (by simp)]
    linarith
  · obtain ⟨hM0, hM1⟩ := hm rfl
    obtain ⟨E, k1, k2, k3⟩ := solver_el hu ho h0 h7 hM0 hM1
    obtain ⟨nu, F, l1, l2, l3, l4, l5⟩ := ett_point (R := R) hu h0 h7 k3
    refine ⟨nu, F, (rk_mtt g h1 k1).trans l1, l4, ?_⟩
    rw [if_pos rfl, show M1 = x from hx.symm]
    have := abs_sub_le (F - e * Real.sin F) (E - e * Real.sin E) x
    linarith

/-- the state calculated from elements with a true anomaly is close to the point of the ellipse -/
theorem cart_err_wide {mu : ℝ} (hmu : 0 < mu) {k : Kep ℝ} (ha : 0 < k.a) (h0 : 0 ≤ k.e) (h1 : k.e < 1) (hwide : 300 * R.u ≤ 1 - k.e) {nu F : ℝ}
    (h : SamePoint k.e nu F) :
    ∃ c : Cart ℝ, (rfKern g).kepToCart false (RF.num R mu) (Kep.num R { k with nu := nu }) = c.num R ∧
      vlen (c.r - (ellipseState k √(mu / k.a ^ 3) F).r) ≤ k.a / (1 - k.e) * (600 * (1 + k.e) * R.u) ∧
      vlen (c.v - (ellipseState k √(mu / k.a ^ 3) F).v) ≤ k.a * √(mu / k.a ^ 3) / (1 - k.e) ^ 2 * (400 * R.u) := by
  have hu0 := R.u_nonneg
  have hq : 0 < 1 - k.e := by linarith
  obtain ⟨hn, hn2⟩ := motion_pos hmu ha
  have hst : ({ k with nu := nu } : Kep ℝ).state mu = ellipseState k √(mu / k.a ^ 3) F := state_point hmu ha h0 h1 false h
  have hcos := Real.neg_one_le_cos nu
  have hp : Physical mu ({ k with nu := nu } : Kep ℝ) := ⟨hmu, ha, h0, by show 0 < 1 + k.e * Real.cos nu; nlinarith⟩
  have hcu : 150 * (2 / (1 - k.e)) * R.u ≤ 1 := by
    rw [show 150 * (2 / (1 - k.e)) * R.u = 300 * R.u / (1 - k.e) by ring, div_le_one hq]
    exact hwide
  obtain ⟨c, c1, c2, c3⟩ := kepToCartCol_close (R := R) g.h hp (condition_ellipse (k := { k with nu := nu }) h0 h1) hcu
  have hmom : vlen (angMom (({ k with nu := nu } : Kep ℝ).state mu)) = √(mu * (k.a * (1 - k.e ^ 2))) := by
    rw [vlen_angMom, hp.adm.state_hn]
    show √(mu * Kep.slr _) = _
    rw [Kep.slr, if_neg (show k.e ≠ 1 from h1.ne)]
    show √(mu * (k.a * |1 - k.e ^ 2|)) = _
    rw [abs_of_pos (by nlinarith)]
  rw [hmom] at c3
  rw [hst] at c2 c3
  obtain ⟨N, hN⟩ : ∃ N, N = √(mu / k.a ^ 3) := ⟨_, rfl⟩
  rw [← hN] at hn hn2 c2 c3 ⊢
  have hr : vlen (ellipseState k N F).r ≤ k.a * (1 + k.e) := by
    have hw : √(1 - k.e ^ 2) ^ 2 = 1 - k.e ^ 2 := Real.sq_sqrt (by nlinarith)
    rw [vlen_plane k (k.a * (Real.cos F - k.e)) (k.a * √(1 - k.e ^ 2) * Real.sin F) _ rfl rfl rfl]
    have hF := Real.neg_one_le_cos F
    have hF1 := Real.cos_le_one F
    refine (sq_sum_le (d := k.a * (1 - k.e * Real.cos F)) (mul_nonneg ha.le (by nlinarith)) (le_of_eq ?_)).trans ?_
    · rw [mul_pow, mul_pow, mul_pow, hw, Real.sin_sq]; ring
    · refine mul_le_mul_of_nonneg_left ?_ ha.le
      nlinarith
  refine ⟨c, c1, c2.trans ?_, c3.trans ?_⟩
  · have e1 : k.a / (1 - k.e) * (600 * (1 + k.e) * R.u) = 300 * (2 / (1 - k.e)) * R.u * (k.a * (1 + k.e)) := by ring
    rw [e1]
    exact mul_le_mul_of_nonneg_left hr (by positivity)
  · have e1 : k.a * N / (1 - k.e) ^ 2 * (400 * R.u) = 200 * (2 / (1 - k.e)) * R.u * (k.a * N / (1 - k.e)) := by field_simp; ring
    rw [e1]
    refine mul_le_mul_of_nonneg_left ?_ (by positivity)
    show (1 + k.e) * mu / √(mu * (k.a * (1 - k.e ^ 2))) ≤ k.a * N / (1 - k.e)
    have hw0 : 0 < √(1 - k.e ^ 2) := Real.sqrt_pos.mpr (by nlinarith)
    have hw2 : √(1 - k.e ^ 2) ^ 2 = 1 - k.e ^ 2 := Real.sq_sqrt (by nlinarith)
    have hh : √(mu * (k.a * (1 - k.e ^ 2))) = N * k.a ^ 2 * √(1 - k.e ^ 2) := by
      rw [Real.sqrt_eq_iff_mul_self_eq_of_pos (by positivity)]
      rw [← hn2]
      linear_combination N ^ 2 * k.a ^ 4 * hw2
    rw [hh, div_le_div_iff₀ (by positivity) hq, ← hn2]
    obtain ⟨w, hw⟩ : ∃ w, w = √(1 - k.e ^ 2) := ⟨_, rfl⟩
    rw [← hw] at hw0 hw2 ⊢
    have hw1 : w ≤ 1 := by nlinarith
    have e2 : (1 + k.e) * (N ^ 2 * k.a ^ 3) * (1 - k.e) = N ^ 2 * k.a ^ 3 * w ^ 2 := by rw [hw2]; ring
    have e3 : k.a * N * (N * k.a ^ 2 * w) = N ^ 2 * k.a ^ 3 * w := by ring
    rw [e2, e3]
    refine mul_le_mul_of_nonneg_left ?_ (by positivity)
    nlinarith

theorem cart_err (hu : R.u ≤ 1 / 10 ^ 6) {mu : ℝ} (hmu : 0 < mu) {k : Kep ℝ} (ha : 0 < k.a) (h0 : 0 ≤ k.e) (h7 : k.e ≤ 7 / 10) {nu F : ℝ}
    (h : SamePoint k.e nu F) :
    ∃ c : Cart ℝ, (rfKern g).kepToCart false (RF.num R mu) (Kep.num R { k with nu := nu }) = c.num R ∧
      vlen (c.r - (ellipseState k √(mu / k.a ^ 3) F).r) ≤ k.a / (1 - k.e) * (1020 * R.u) ∧
      vlen (c.v - (ellipseState k √(mu / k.a ^ 3) F).v) ≤ k.a * √(mu / k.a ^ 3) / (1 - k.e) ^ 2 * (400 * R.u) := by
  obtain ⟨c, c1, c2, c3⟩ := cart_err_wide g hmu ha h0 (by linarith) (by linarith) h
  refine ⟨c, c1, c2.trans (mul_le_mul_of_nonneg_left ?_ (div_nonneg ha.le (by linarith))), c3⟩
  exact mul_le_mul_of_nonneg_right (by linarith) R.u_nonneg

/-! ## One step of `propagate` -/

/-- one elliptic orbit of an object computed with rounding, at position `j`: the numbers `k` are read from `orb.kepler`, `mu` is what `G*(M0 + m)` computes to,
the angles are in radians, and the options of the solver are such that it converges -/
structure REllipse (s : Orb (RF R)) (j : Nat) (k : Kep ℝ) (mu tol : ℝ) : Prop where
  read : ∃ ks, (get_kepler (rfKern g) s).1 = .ok ks ∧ ks[j]? = some (k.num R)
  grav : ∃ m, s.m[j]? = some m ∧ s.G * (s.M0 + m) = RF.num R mu
  mu_pos : 0 < mu
  a_pos : 0 < k.a
  e_nonneg : 0 ≤ k.e
  e_le : k.e ≤ 7 / 10
  radians : s.degrees = false
  solver : SolverOk s.opts tol

theorem hasMean_unique {t : Anom} {e x M M' : ℝ} (he : |e| < 1) (h : HasMean t e x M) (h' : HasMean t e x M') : ∃ z : ℤ, M' = M + z * (2 * Real.pi) := by
  cases t
  · obtain ⟨E, e1, e2⟩ := h
    obtain ⟨E', e1', e2'⟩ := h'
    obtain ⟨z, hz⟩ := samePoint_unique (by rwa [abs_neg]) (samePoint_symm he e1) (samePoint_symm he e1')
    refine ⟨z, ?_⟩
    rw [← e2, ← e2', hz, Real.sin_add_int_mul_two_pi]; ring
  · exact ⟨0, by simp only [HasMean] at h h'; rw [← h, ← h']; simp⟩
  · exact ⟨0, by simp only [HasMean] at h h'; rw [← h, ← h']; simp⟩

theorem REllipse.step {n : Nat} (hu : R.u ≤ 1 / 10 ^ 6) {s : Orb (RF R)} {j : Nat} {k : Kep ℝ} {mu tol : ℝ} (hs : OneEntryPerOrbit s n) (hr : s.kro = false)
    (h : REllipse g s j k mu tol) {M0 : ℝ} (hM : HasMean s.type k.e k.nu M0) {dt : Val (RF R)} {dts : List (RF R)} (hdt : dt.Row n dts) {d : ℝ}
    (hd : dts[j]? = some (RF.num R d)) :
    ∃ (s' : Orb (RF R)) (x M1 : ℝ) (z : ℤ), propagate (rfKern g) dt s = (.ok (), s') ∧ OneEntryPerOrbit s' n ∧ OnlyElements s s' ∧
      (∃ ks, (get_kepler (rfKern g) s').1 = .ok ks ∧ ks[j]? = some (Kep.num R { k with nu := x })) ∧ HasMean s.type k.e x M1 ∧ |x| ≤ 8 ∧
      |M1 - (M0 + √(mu / k.a ^ 3) * d + z * (2 * Real.pi))| ≤ (if s.type = .mean then 0 else tol) + (661 + 20 * |k.nu| + 18 * (√(mu / k.a ^ 3) * |d|)) * R.u ∧
      (s.auto = true ∨ s.direct = true → ∃ cs c F, (get_cartesian (rfKern g) s').1 = .ok cs ∧ cs[j]? = some (Cart.num R c) ∧
        |F - k.e * Real.sin F - M1| ≤ (if s.type = .mean then tol else 0) + 400 * R.u ∧
        vlen (c.r - (ellipseState k √(mu / k.a ^ 3) F).r) ≤ k.a / (1 - k.e) * (1020 * R.u) ∧
        vlen (c.v - (ellipseState k √(mu / k.a ^ 3) F).v) ≤ k.a * √(mu / k.a ^ 3) / (1 - k.e) ^ 2 * (400 * R.u)) := by
  have hu0 := R.u_nonneg
  have h0 := h.e_nonneg
  have h7 := h.e_le
  have hdeg := h.radians
  have he : |k.e| < 1 := by rw [abs_of_nonneg h0]; linarith
  obtain ⟨ks, hks, hk⟩ := h.read
  obtain rfl : ks = (kepCheck (rfKern g) s).kep := (Except.ok.inj hks).symm
  obtain ⟨m, hm, hmu⟩ := h.grav
  have hmu : (rfKern g).mu s.G s.M0 m = RF.num R mu := hmu
  obtain ⟨e1, e2, e3, -⟩ := kepCheck_settings (rfKern g) s
  obtain ⟨-, em, eG, eM0⟩ := kepCheck_body (rfKern g) s
  obtain ⟨Mc, M0', r1, r2, r3, r4⟩ := read_mean g hu s.opts s.type h0 h7 k.nu
  obtain ⟨z1, hz1⟩ := hasMean_unique he hM r2
  obtain ⟨M', z2, a1, a2, a3, a4⟩ := advance_err g hu h.a_pos h.mu_pos Mc d
  have hnew : newMean (rfKern g) (kepCheck (rfKern g) s) (k.num R) m (RF.num R d) = RF.num R M' := by
    unfold newMean
    rw [anomOf_conv, e1, e2, e3, eG, eM0, hmu, hdeg]
    show (rfKern g).wrapM false ((rfKern g).advance (conv (rfKern g) s.opts false s.type .mean (RF.num R k.nu) (RF.num R k.e)) _ _) = _
    rw [r1]
    exact a1
  obtain ⟨x, M1, x1, x2, x3, x4, x5⟩ := store_err g hu h.solver s.type h0 h7 a2 (a3.trans (by norm_num))
  have hcol : ({ k.num R with nu := conv (rfKern g) s.opts s.degrees .mean s.type (newMean (rfKern g) (kepCheck (rfKern g) s) (k.num R) m (RF.num R d)) (k.num R).e } : Kep (RF R))
      = Kep.num R { k with nu := x } := by
    rw [hnew, hdeg]
    show ({ k.num R with nu := conv (rfKern g) s.opts false .mean s.type _ (RF.num R k.e) } : Kep (RF R)) = _
    rw [x1]; rfl
  obtain ⟨s', p1, p2, p3, p4, p5⟩ := propagate_ok (rfKern g) hs.wfe hr hdt
  refine ⟨s', x, M1, z1 - z2, p1, p2.one, p3, ⟨s'.kep, ?_, ?_⟩, x2, x3, ?_, fun hmode => ?_⟩
  · show Except.ok (kepCheck (rfKern g) s').kep = _
    rw [p4.check]
  · have hmk : (kepCheck (rfKern g) s).m[j]? = some m := by rw [em]; exact hm
    rw [p5, List.getElem?_zipWith, hk]
    unfold newMeans
    rw [List.getElem?_zipWith]
    simp only [List.zip, List.getElem?_zipWith, hk, hmk, hd]
    rw [hcol]
  · rw [abs_mul, abs_of_pos (motion_pos h.mu_pos h.a_pos).1] at a4
    have q1 := mul_le_mul_of_nonneg_right r4 hu0
    rw [hz1] at r3
    push_cast
    have e4 : M1 - (M0 + √(mu / k.a ^ 3) * d + ((z1 : ℝ) - z2) * (2 * Real.pi)) =
        (M1 - M') + (M' - (Mc + √(mu / k.a ^ 3) * d - z2 * (2 * Real.pi))) + (Mc - (M0 + z1 * (2 * Real.pi))) := by ring
    rw [e4]
    have e5 := abs_add_le ((M1 - M') + (M' - (Mc + √(mu / k.a ^ 3) * d - z2 * (2 * Real.pi)))) (Mc - (M0 + z1 * (2 * Real.pi)))
    have e6 := abs_add_le (M1 - M') (M' - (Mc + √(mu / k.a ^ 3) * d - z2 * (2 * Real.pi)))
    linarith
  · obtain ⟨cs, c1, c2⟩ := propagate_cart (rfKern g) hs.wfe hr hdt hmode p1 hk hm hd (by rw [hcol]; rfl)
    obtain ⟨nu, F, f1, f2, f3⟩ := state_err g hu h.solver s.type h0 h7 x2 x3 x4
    obtain ⟨c, d1, d2, d3⟩ := cart_err g hu h.mu_pos h.a_pos h0 h7 f2
    refine ⟨cs, c, F, c1, ?_, f3, d2, d3⟩
    rw [c2, hcol, hmu, hdeg]
    refine congrArg some ?_
    rw [← d1]
    show (rfKern g).kepToCart false (RF.num R mu) { Kep.num R { k with nu := x } with nu := toTrue (rfKern g) s.type s.opts false (RF.num R x) (RF.num R k.e) } = _
    rw [f1]; rfl

/-! ## Any number of steps -/

/-- `m` calls of `propagate`, one or more, with time steps for the orbit at position `j` that add up to `D`, their absolute values to `T` -/
inductive RRun (n j : Nat) (s : Orb (RF R)) : Orb (RF R) → Nat → ℝ → ℝ → Prop where
  | one {s' : Orb (RF R)} (dt : Val (RF R)) (dts : List (RF R)) (d : ℝ) (row : dt.Row n dts) (at_j : dts[j]? = some (RF.num R d))
      (run : propagate (rfKern g) dt s = (.ok (), s')) : RRun n j s s' 1 d |d|
  | more {s' s'' : Orb (RF R)} {m : Nat} {D T : ℝ} (before : RRun n j s s' m D T) (dt : Val (RF R)) (dts : List (RF R)) (d : ℝ) (row : dt.Row n dts)
      (at_j : dts[j]? = some (RF.num R d)) (run : propagate (rfKern g) dt s' = (.ok (), s'')) : RRun n j s s'' (m + 1) (D + d) (T + |d|)

variable {g} in
theorem RRun.pos {n j m : Nat} {s s' : Orb (RF R)} {D T : ℝ} (h : RRun g n j s s' m D T) : 1 ≤ m ∧ 0 ≤ T := by
  induction h with
  | one dt dts d row at_j run => exact ⟨le_refl _, abs_nonneg d⟩
  | more before dt dts d row at_j run ih => exact ⟨by omega, add_nonneg ih.2 (abs_nonneg d)⟩

variable {g} in
theorem REllipse.after {s s' : Orb (RF R)} {j : Nat} {k : Kep ℝ} {mu tol : ℝ} (h : REllipse g s j k mu tol) (ho : OnlyElements s s') {x : ℝ}
    (hk : ∃ ks, (get_kepler (rfKern g) s').1 = .ok ks ∧ ks[j]? = some (Kep.num R { k with nu := x })) : REllipse g s' j { k with nu := x } mu tol := by
  refine ⟨hk, ?_, h.mu_pos, h.a_pos, h.e_nonneg, h.e_le, ?_, ?_⟩
  · rw [ho]; exact h.grav
  · rw [ho]; exact h.radians
  · rw [ho]; exact h.solver

/-- what holds after any number of steps -/
structure RAfter (n j : Nat) (s s' : Orb (RF R)) (k : Kep ℝ) (mu tol M0 : ℝ) (m : Nat) (D T x M1 : ℝ) : Prop where
  entries : OneEntryPerOrbit s' n
  only : OnlyElements s s'
  read : ∃ ks, (get_kepler (rfKern g) s').1 = .ok ks ∧ ks[j]? = some (Kep.num R { k with nu := x })
  has : HasMean s.type k.e x M1
  small : |x| ≤ 8
  close : ∃ z : ℤ, |M1 - (M0 + √(mu / k.a ^ 3) * D + z * (2 * Real.pi))| ≤
    m * (if s.type = .mean then 0 else tol) + (850 * m + 20 * |k.nu| + 18 * (√(mu / k.a ^ 3) * T)) * R.u
  cart : s.auto = true ∨ s.direct = true → ∃ cs c F, (get_cartesian (rfKern g) s').1 = .ok cs ∧ cs[j]? = some (Cart.num R c) ∧
    |F - k.e * Real.sin F - M1| ≤ (if s.type = .mean then tol else 0) + 400 * R.u ∧
    vlen (c.r - (ellipseState k √(mu / k.a ^ 3) F).r) ≤ k.a / (1 - k.e) * (1020 * R.u) ∧
    vlen (c.v - (ellipseState k √(mu / k.a ^ 3) F).v) ≤ k.a * √(mu / k.a ^ 3) / (1 - k.e) ^ 2 * (400 * R.u)

variable {g} in
theorem RRun.after {n j m : Nat} (hu : R.u ≤ 1 / 10 ^ 6) {s s' : Orb (RF R)} {D T : ℝ} (hrun : RRun g n j s s' m D T) (hs : OneEntryPerOrbit s n) (hr : s.kro = false)
    {k : Kep ℝ} {mu tol : ℝ} (h : REllipse g s j k mu tol) {M0 : ℝ} (hM : HasMean s.type k.e k.nu M0) :
    ∃ x M1, RAfter g n j s s' k mu tol M0 m D T x M1 := by
  have hu0 := R.u_nonneg
  obtain ⟨hn, -⟩ := motion_pos h.mu_pos h.a_pos
  have hx0 := mul_nonneg (abs_nonneg k.nu) hu0
  induction hrun with
  | one dt dts d row at_j run =>
    obtain ⟨s1, x, M1, z, p1, p2, p3, p4, p5, p6, p7, p8⟩ := h.step g hu hs hr hM row at_j
    obtain rfl : s1 = _ := congrArg Prod.snd (p1.symm.trans run)
    refine ⟨x, M1, p2, p3, p4, p5, p6, ⟨z, p7.trans ?_⟩, p8⟩
    push_cast
    linarith
  | @more s' s'' m D T before dt dts d row at_j run ih =>
    obtain ⟨x, M1, a⟩ := ih
    have h' := h.after a.only a.read
    have ht : s'.type = s.type := by rw [a.only]
    have hau : s'.auto = s.auto := by rw [a.only]
    have hdi : s'.direct = s.direct := by rw [a.only]
    obtain ⟨s1, y, M2, z, p1, p2, p3, p4, p5, p6, p7, p8⟩ := h'.step g hu a.entries (by rw [a.only]; exact hr) (M0 := M1) (by rw [ht]; exact a.has) row at_j
    obtain rfl : s1 = _ := congrArg Prod.snd (p1.symm.trans run)
    rw [ht] at p5 p7 p8
    rw [hau, hdi] at p8
    obtain ⟨z', hz'⟩ := a.close
    refine ⟨y, M2, p2, ?_, p4, p5, p6, ⟨z + z', ?_⟩, p8⟩
    · rw [p3, a.only]; rfl
    · have p7 : |M2 - (M1 + √(mu / k.a ^ 3) * d + z * (2 * Real.pi))| ≤
          (if s.type = .mean then 0 else tol) + (661 + 20 * |x| + 18 * (√(mu / k.a ^ 3) * |d|)) * R.u := p7
      push_cast
      have e4 : M2 - (M0 + √(mu / k.a ^ 3) * (D + d) + ((z : ℝ) + z') * (2 * Real.pi)) =
        (M2 - (M1 + √(mu / k.a ^ 3) * d + z * (2 * Real.pi))) + (M1 - (M0 + √(mu / k.a ^ 3) * D + z' * (2 * Real.pi))) := by ring
      rw [e4]
      have e5 := abs_add_le (M2 - (M1 + √(mu / k.a ^ 3) * d + z * (2 * Real.pi))) (M1 - (M0 + √(mu / k.a ^ 3) * D + z' * (2 * Real.pi)))
      have e6 := mul_le_mul_of_nonneg_right a.small hu0
      linarith

theorem vlen_via (a b c : Fin 3 → ℝ) : vlen (a - c) ≤ vlen (a - b) + vlen (b - c) := by
  have := vlen_add_le (a - b) (b - c)
  rwa [sub_add_sub_cancel] at this

/-- C98: an elliptic orbit (e ≤ 0.7, radians) of an object with automatic updates whose arithmetic rounds: there is a solution `c` of Newton's equations of
motion that starts at the exact point its elements describe, such that after any number `m` of calls of `propagate`, with time steps of either sign that add up
to `D`, their absolute values to `T`, the state read from `orb.cartesian` is close to `c D`.  The rounding errors add up with the number of calls; those of the
solver of Kepler's equation only when the object does not store the mean anomaly.  (That the calls return: `c98_returns`.) -/
theorem c98 {n : Nat} (hu : R.u ≤ 1 / 10 ^ 6) (s : Orb (RF R)) (hs : OneEntryPerOrbit s n) (hr : s.kro = false) (hmode : s.auto = true ∨ s.direct = true)
    (j : Nat) (k : Kep ℝ) (mu tol : ℝ) (h : REllipse g s j k mu tol) :
    ∃ c : ℝ → Cart ℝ, ObeysNewton mu c ∧ (∀ nu, IsTrue s.type k.e k.nu nu → DescribesOrbit mu { k with nu := nu } (c 0)) ∧
      ∀ (s' : Orb (RF R)) (m : Nat) (D T : ℝ), RRun g n j s s' m D T →
        ∃ cs c', (get_cartesian (rfKern g) s').1 = .ok cs ∧ cs[j]? = some (Cart.num R c') ∧
          vlen (c'.r - (c D).r) ≤ k.a / (1 - k.e) *
            ((if s.type = .mean then tol else m * tol) + (2300 * m + 20 * |k.nu| + 18 * (√(mu / k.a ^ 3) * T)) * R.u) ∧
          vlen (c'.v - (c D).v) ≤ k.a * √(mu / k.a ^ 3) / (1 - k.e) ^ 2 *
            ((if s.type = .mean then tol else m * tol) + (2300 * m + 20 * |k.nu| + 18 * (√(mu / k.a ^ 3) * T)) * R.u) := by
  have hu0 := R.u_nonneg
  have hmu := h.mu_pos
  have ha := h.a_pos
  have h0 := h.e_nonneg
  have h1 : k.e < 1 := by have := h.e_le; linarith
  have hq : 0 < 1 - k.e := by linarith
  obtain ⟨hn, -⟩ := motion_pos hmu ha
  obtain ⟨-, M0, -, hM, -⟩ := read_mean g hu s.opts s.type h0 h.e_le k.nu
  obtain ⟨c, hc, hN, hst⟩ := newton_curve hmu ha h0 h1 false M0
  refine ⟨c, hN, fun nu hnu => ?_, fun s' m D T hrun => ?_⟩
  · obtain ⟨E, e1, e2⟩ : ∃ E, SamePoint k.e nu E ∧ E - k.e * Real.sin E = M0 := by
      generalize s.type = t at hM hnu
      cases t
      · obtain rfl : nu = k.nu := hnu
        exact hM
      · exact ⟨k.nu, hnu, hM⟩
      · obtain ⟨E, e1, e2⟩ := hnu
        exact ⟨E, e1, e2.trans hM⟩
    exact hst nu E e1 e2
  · obtain ⟨x, M1, a⟩ := hrun.after hu hs hr h hM
    obtain ⟨hm1, hT⟩ := hrun.pos
    have hm1 : (1 : ℝ) ≤ m := by exact_mod_cast hm1
    obtain ⟨cs, c', F, c1, c2, c3, c4, c5⟩ := a.cart hmode
    obtain ⟨G, hG, hGm⟩ := hc D
    obtain ⟨z, hz⟩ := a.close
    have htot : |meanOf k.e F - (meanOf k.e G + z * (2 * Real.pi))| ≤
        (if s.type = .mean then tol else m * tol) + (850 * m + 400 + 20 * |k.nu| + 18 * (√(mu / k.a ^ 3) * T)) * R.u := by
      rw [hGm, meanOf_eli _ h1]
      have := abs_sub_le (F - k.e * Real.sin F) M1 (M0 + √(mu / k.a ^ 3) * D + z * (2 * Real.pi))
      split_ifs at c3 hz ⊢ <;> linarith
    obtain ⟨q1, q2⟩ := points_close hmu ha h0 h1 false htot
    rw [← hG] at q1 q2
    refine ⟨cs, c', c1, c2, ?_, ?_⟩
    · refine (vlen_via _ _ _).trans ((add_le_add c4 q1).trans ?_)
      rw [show ∀ b, k.a * b / (1 - k.e) = k.a / (1 - k.e) * b from fun b => by ring, ← mul_add]
      refine mul_le_mul_of_nonneg_left ?_ (by positivity)
      have := mul_le_mul_of_nonneg_right hm1 hu0
      linarith
    · refine (vlen_via _ _ _).trans ((add_le_add c5 q2).trans ?_)
      rw [show ∀ b, k.a * √(mu / k.a ^ 3) * b / (1 - k.e) ^ 2 = k.a * √(mu / k.a ^ 3) / (1 - k.e) ^ 2 * b from fun b => by ring, ← mul_add]
      refine mul_le_mul_of_nonneg_left ?_ (by positivity)
      have := mul_le_mul_of_nonneg_right hm1 hu0
      linarith

/-- C98, the calls: `propagate` returns, from the start and after any number of calls, whatever the time steps are -/
theorem c98_returns {n : Nat} (s : Orb (RF R)) (hs : OneEntryPerOrbit s n) (hr : s.kro = false) (j : Nat) {dt : Val (RF R)} {dts : List (RF R)} (hdt : dt.Row n dts) :
    (∃ s', propagate (rfKern g) dt s = (.ok (), s')) ∧
    ∀ (s' : Orb (RF R)) (m : Nat) (D T : ℝ), RRun g n j s s' m D T → ∃ s'', propagate (rfKern g) dt s' = (.ok (), s'') := by
  have ok : ∀ {s : Orb (RF R)} (hs : OneEntryPerOrbit s n) (hr : s.kro = false) {dt : Val (RF R)} {dts : List (RF R)} (hdt : dt.Row n dts),
      ∃ s', propagate (rfKern g) dt s = (.ok (), s') ∧ OneEntryPerOrbit s' n ∧ s'.kro = false := by
    intro s hs hr dt dts hdt
    obtain ⟨s', p1, p2, p3, -⟩ := propagate_ok (rfKern g) hs.wfe hr hdt
    exact ⟨s', p1, p2.one, by rw [p3]; exact hr⟩
  refine ⟨let ⟨s', p, _⟩ := ok hs hr hdt; ⟨s', p⟩, fun s' m D T hrun => ?_⟩
  obtain ⟨hs', hr'⟩ : OneEntryPerOrbit s' n ∧ s'.kro = false := by
    induction hrun with
    | one dt dts d row at_j run =>
      obtain ⟨s1, p1, p2, p3⟩ := ok hs hr row
      obtain rfl : s1 = _ := congrArg Prod.snd (p1.symm.trans run)
      exact ⟨p2, p3⟩
    | more before dt dts d row at_j run ih =>
      obtain ⟨s1, p1, p2, p3⟩ := ok ih.1 ih.2 row
      obtain rfl : s1 = _ := congrArg Prod.snd (p1.symm.trans run)
      exact ⟨p2, p3⟩
  obtain ⟨s'', p, -⟩ := ok hs' hr' hdt
  exact ⟨s'', p⟩

/-- the default options of the solver -/
theorem solverOk_default (hu : R.u ≤ (1 / 2) ^ 50) :
    SolverOk (R := R) .dflt (R.rd (1 / 10 ^ 12)) ∧ R.rd (1 / 10 ^ 12) ≤ 101 / 10 ^ 14 := by
  have hu0 := R.u_nonneg
  have hu6 : R.u ≤ 1 / 10 ^ 6 := hu.trans (by norm_num)
  have ht := abs_le.mp (rd_err (R := R) (x := 1 / 10 ^ 12) (B := 1 / 10 ^ 12) hu6 (by rw [abs_of_pos (by norm_num)]))
  have hu9 : R.u ≤ 89 / 10 ^ 17 := hu.trans (by norm_num)
  obtain ⟨t1, t2⟩ := ht
  have t3 : 101 / 100 * R.u * (1 / 10 ^ 12) ≤ 101 / 100 * (1 / 10 ^ 6) * (1 / 10 ^ 12) := by
    refine mul_le_mul_of_nonneg_right ?_ (by norm_num)
    linarith
  refine ⟨⟨?_, ?_, 5000, 44, dflt_ropts, ?_, by norm_num⟩, ?_⟩
  · norm_num at t1 t3 ⊢; linarith
  · norm_num at t1 t3 ⊢; linarith
  · have : (51 / 100 : ℝ) ^ 44 ≤ 2 / 10 ^ 13 := by norm_num
    refine this.trans ?_
    norm_num at t1 t3 ⊢; linarith
  · norm_num at t2 t3 ⊢; linarith

/-- C98 with the default options of the solver and arithmetic like double precision -/
theorem c98_default {n : Nat} (hu : R.u ≤ (1 / 2) ^ 50) (s : Orb (RF R)) (hs : OneEntryPerOrbit s n) (hr : s.kro = false) (hmode : s.auto = true ∨ s.direct = true)
    (ho : s.opts = .dflt) (hdeg : s.degrees = false) (j : Nat) (k : Kep ℝ) (mu : ℝ) (hread : ∃ ks, (get_kepler (rfKern g) s).1 = .ok ks ∧ ks[j]? = some (k.num R))
    (hgrav : ∃ m, s.m[j]? = some m ∧ s.G * (s.M0 + m) = RF.num R mu) (hmu : 0 < mu) (ha : 0 < k.a) (h0 : 0 ≤ k.e) (h7 : k.e ≤ 7 / 10) :
    ∃ c : ℝ → Cart ℝ, ObeysNewton mu c ∧ (∀ nu, IsTrue s.type k.e k.nu nu → DescribesOrbit mu { k with nu := nu } (c 0)) ∧
      ∀ (s' : Orb (RF R)) (m : Nat) (D T : ℝ), RRun g n j s s' m D T →
        ∃ cs c', (get_cartesian (rfKern g) s').1 = .ok cs ∧ cs[j]? = some (Cart.num R c') ∧
          vlen (c'.r - (c D).r) ≤ k.a / (1 - k.e) *
            (101 / 10 ^ 14 * (if s.type = .mean then (1 : ℝ) else m) + (2300 * m + 20 * |k.nu| + 18 * (√(mu / k.a ^ 3) * T)) * R.u) ∧
          vlen (c'.v - (c D).v) ≤ k.a * √(mu / k.a ^ 3) / (1 - k.e) ^ 2 *
            (101 / 10 ^ 14 * (if s.type = .mean then (1 : ℝ) else m) + (2300 * m + 20 * |k.nu| + 18 * (√(mu / k.a ^ 3) * T)) * R.u) := by
  have hq : 0 < 1 - k.e := by linarith
  have hn := (motion_pos hmu ha).1
  obtain ⟨ok, ht⟩ := solverOk_default (R := R) hu
  obtain ⟨c, c1, c2, c3⟩ := c98 g (hu.trans (by norm_num)) s hs hr hmode j k mu _ ⟨hread, hgrav, hmu, ha, h0, h7, hdeg, ho ▸ ok⟩
  refine ⟨c, c1, c2, fun s' m D T hrun => ?_⟩
  obtain ⟨cs, c', d1, d2, d3, d4⟩ := c3 s' m D T hrun
  have hm : (if s.type = .mean then R.rd (1 / 10 ^ 12) else m * R.rd (1 / 10 ^ 12)) ≤ 101 / 10 ^ 14 * (if s.type = .mean then (1 : ℝ) else m) := by
    split_ifs
    · linarith
    · have := mul_le_mul_of_nonneg_left ht (Nat.cast_nonneg (α := ℝ) m)
      linarith
  refine ⟨cs, c', d1, d2, d3.trans (mul_le_mul_of_nonneg_left (add_le_add hm le_rfl) (by positivity)),
    d4.trans (mul_le_mul_of_nonneg_left (add_le_add hm le_rfl) (by positivity))⟩

/-- an object of the constructor in lazy mode, computed in double precision, with elements assigned -/
noncomputable def lazy64 (g : Garb (RF Binary.binary64)) (t : Anom) (k : Kep ℝ) : Orb (RF Binary.binary64) :=
  exec (rfKern g) (lazyBlank (rfKern g) (RF.num _ 1) (RF.num _ 1) .dflt t) [.setKepler (.mat [k.num _])]

/-- a case: two calls for an orbit with e = 1/2 that stores its mean anomaly, 0 at the start, one revolution forward and a quarter back, in double precision -/
example (g : Garb (RF Binary.binary64)) : ∃ (c : ℝ → Cart ℝ) (s1 s2 : Orb (RF Binary.binary64)) (cs : List (Cart (RF Binary.binary64))) (c' : Cart ℝ),
    ObeysNewton 1 c ∧ DescribesOrbit 1 ⟨1, 1 / 2, 1, 2, 3, 0⟩ (c 0) ∧
    propagate (rfKern g) (.sc (RF.num _ 6)) (lazy64 g .mean ⟨1, 1 / 2, 1, 2, 3, 0⟩) = (.ok (), s1) ∧ propagate (rfKern g) (.sc (RF.num _ (-3 / 2))) s1 = (.ok (), s2) ∧
    (get_cartesian (rfKern g) s2).1 = .ok cs ∧ cs[0]? = some (Cart.num Binary.binary64 c') ∧ vlen (c'.r - (c (9 / 2)).r) ≤ 4 / 10 ^ 12 := by
  have hs : OneEntryPerOrbit (lazy64 g .mean ⟨1, 1 / 2, 1, 2, 3, 0⟩) 1 := ⟨rfl, rfl, rfl, rfl, ⟨_, rfl, rfl⟩, rfl, rfl, rfl⟩
  obtain ⟨c, c1, c2, c3⟩ := c98_default g (n := 1) (show (1 / 2 : ℝ) ^ 53 ≤ (1 / 2) ^ 50 by norm_num) (lazy64 g .mean ⟨1, 1 / 2, 1, 2, 3, 0⟩) hs rfl (.inl rfl) rfl rfl 0
    ⟨1, 1 / 2, 1, 2, 3, 0⟩ 1 ⟨_, rfl, rfl⟩ ⟨0, rfl, by
      show (RF.num Binary.binary64 1 : RF _) * (RF.num _ 1 + 0) = _
      have : Binary.binary64.rd 1 = 1 := by
        have h1 := Binary.binary64.exact 4 (by norm_num)
        norm_num at h1
        rw [Rounding.rd, h1, Real.exp_zero, one_mul]
      rw [zero_num, add_num, mul_num, add_zero, this, one_mul, this]⟩ one_pos one_pos (by norm_num) (by norm_num)
  obtain ⟨⟨s1, p1⟩, -⟩ := c98_returns g _ hs rfl 0 (dt := .sc (RF.num _ 6)) (dts := [RF.num _ 6]) rfl
  have r1 := RRun.one (g := g) (n := 1) (j := 0) (.sc (RF.num _ 6)) [RF.num _ 6] 6 rfl rfl p1
  obtain ⟨s2, p2⟩ := (c98_returns g _ hs rfl 0 (dt := .sc (RF.num _ (-3 / 2))) (dts := [RF.num _ (-3 / 2)]) rfl).2 _ _ _ _ r1
  have r2 := r1.more (.sc (RF.num _ (-3 / 2))) [RF.num _ (-3 / 2)] (-3 / 2) rfl rfl p2
  obtain ⟨cs, c', d1, d2, d3, -⟩ := c3 _ _ _ _ r2
  refine ⟨c, s1, s2, cs, c', c1, c2 0 ⟨0, ⟨by simp, by simp⟩, by simp⟩, p1, p2, d1, d2, ?_⟩
  have e : (6 + -3 / 2 : ℝ) = 9 / 2 := by norm_num
  rw [e] at d3
  refine d3.trans ?_
  have ht : (lazy64 g .mean ⟨1, 1 / 2, 1, 2, 3, 0⟩).type = .mean := rfl
  rw [ht, if_pos rfl, show Binary.binary64.u = (1 / 2) ^ 53 from rfl, abs_of_pos (show (0 : ℝ) < 6 by norm_num), abs_of_neg (show (-3 / 2 : ℝ) < 0 by norm_num)]
  norm_num

end Orbit
end Pyorb
