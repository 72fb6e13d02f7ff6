import Verif.PropsOrbitRound
import Verif.PropsRoundEllipse

/-!
# `Orbit.propagate` computed with rounding on every ellipse with `e ≤ 1 - 300 u` (C108)

C98 with the eccentricities of C107.  The factor `anomCond e = sqrt ((1 + e) / (1 - e))` is the one of the conversions between eccentric and true anomaly.
-/

set_option linter.unusedSimpArgs false
set_option linter.unusedVariables false

namespace Pyorb
namespace Orbit
namespace Wide
open Py FX RF RSolveE
variable {R : Rounding} (g : Garb (RF R))

/-- the mean anomaly `propagate` starts from -/
theorem read_mean (hu : R.u ≤ 1 / 10 ^ 6) (o : SolverOpts (RF R)) (t : Anom) {e : ℝ} (h0 : 0 ≤ e) (h1 : e < 1) (x : ℝ) :
    ∃ M M0 : ℝ, conv (rfKern g) o false t .mean (RF.num R x) (RF.num R e) = RF.num R M ∧ HasMean t e x M0 ∧ |M - M0| ≤ (200 + 4 * anomCond e * |x|) * R.u ∧
      |M| ≤ 2 * |x| + 8 := by
  have hu0 := R.u_nonneg
  have hx := abs_nonneg x
  have hxu := mul_nonneg hx hu0
  have hc := anomCond_pos h0 h1
  have hcx : |x| * R.u ≤ anomCond e * |x| * R.u := by
    have := mul_le_mul_of_nonneg_right hc hxu
    linarith
  cases t
  · obtain ⟨E, E0, k1, k2, k3, k4, k5⟩ := tte_forward (R := R) hu h0 h1 x
    obtain ⟨M, m1, m2⟩ := etm_err (R := R) hu h0 h1 E
    have h3 := meanOf_lipschitz h0 E E0
    have h4 : (1 + e) * |E - E0| ≤ 2 * |E - E0| := mul_le_mul_of_nonneg_right (by linarith) (abs_nonneg _)
    have h5 := abs_sub_le M (E - e * Real.sin E) (E0 - e * Real.sin E0)
    have h6 : 4 * R.u * (|E| + e) ≤ 4 * R.u * (729 / 100) := by
      refine mul_le_mul_of_nonneg_left ?_ (by positivity)
      rw [abs_of_nonneg k2]; linarith
    refine ⟨M, _, (rk_ttm g h1 k1).trans m1, ⟨E0, k4, rfl⟩, by linarith, ?_⟩
    have h7 : |e * Real.sin E| ≤ 1 := by
      rw [abs_mul, abs_of_nonneg h0]
      exact (mul_le_of_le_one_right h0 (Real.abs_sin_le_one E)).trans h1.le
    rw [abs_le] at m2 h7 ⊢
    constructor <;> linarith
  · obtain ⟨M, m1, m2⟩ := etm_err (R := R) hu h0 h1 x
    have h6 : 4 * R.u * (|x| + e) ≤ 4 * R.u * (|x| + 1) := mul_le_mul_of_nonneg_left (by linarith) (by positivity)
    refine ⟨M, _, (rk_etm g h1 x).trans m1, rfl, by linarith, ?_⟩
    have h7 : |e * Real.sin x| ≤ 1 := by
      rw [abs_mul, abs_of_nonneg h0]
      exact (mul_le_of_le_one_right h0 (Real.abs_sin_le_one x)).trans h1.le
    have h8 : 4 * R.u * (|x| + 1) ≤ 1 / 10 ^ 5 * (|x| + 1) := mul_le_mul_of_nonneg_right (by linarith) (by positivity)
    have h9 := abs_add_le (M - (x - e * Real.sin x)) (x - e * Real.sin x)
    have h10 := abs_sub x (e * Real.sin x)
    rw [sub_add_cancel] at h9
    linarith
  · refine ⟨x, x, rfl, rfl, ?_, by linarith⟩
    rw [sub_self, abs_zero]; positivity

/-- the upper end of the range of `np.mod(x, 2*np.pi)` as computed -/
theorem mod_upper (hu : R.u ≤ 1 / 10 ^ 6) {x y : ℝ} (h : Np.mod (RF.num R x) twoPi = RF.num R y) : y ≤ 2 * Real.pi + 22 * R.u := by
  have hu0 := R.u_nonneg
  have hpi := Real.pi_lt_d4
  have hpi2 := Real.pi_gt_d4
  obtain ⟨tp, h1, h2⟩ := twoPi_err (R := R) hu
  have h2' := abs_le.mp h2
  have htp : 6 < tp := by linarith
  have htp' : tp < 6285 / 1000 := by linarith
  have hm : Np.mod (RF.num R x) twoPi = RF.num R ((x - tp * ⌊x / tp⌋) * Real.exp (R.lib2 false x tp)) := by
    rw [h1]
    show (⟨R.lib2Round false (fin x) (fin tp) (Np.mod (fin x) (fin tp))⟩ : RF R) = _
    rw [FX.mod_fin (by linarith)]; rfl
  rw [hm] at h
  obtain rfl : (x - tp * ⌊x / tp⌋) * Real.exp (R.lib2 false x tp) = y := by
    have := congrArg RF.val h
    exact FX.fin.inj this
  have f1 := Int.floor_le (x / tp)
  have f2 := Int.lt_floor_add_one (x / tp)
  rw [le_div_iff₀ (by linarith)] at f1
  rw [div_lt_iff₀ (by linarith)] at f2
  have hl : |Real.exp (R.lib2 false x tp) - 1| ≤ Real.exp R.u - 1 := exp_diff (R.lib2_le false x tp)
  have hl2 := exp_sub_one_le (t := R.u) hu0 (by linarith)
  have hl3 := (abs_le.mp hl).2
  have q := mul_le_mul (show x - tp * ⌊x / tp⌋ ≤ tp by linarith) (show Real.exp (R.lib2 false x tp) ≤ 1 + 4 / 3 * R.u by linarith) (Real.exp_pos _).le (by linarith)
  have q2 : tp * (4 / 3 * R.u) ≤ 6285 / 1000 * (4 / 3 * R.u) := mul_le_mul_of_nonneg_right htp'.le (by positivity)
  linarith

/-- the mean anomaly after one step -/
theorem advance_err (hu : R.u ≤ 1 / 10 ^ 6) {a mu : ℝ} (ha : 0 < a) (hmu : 0 < mu) (M d : ℝ) :
    ∃ (M' : ℝ) (z : ℤ), (rfKern g).wrapM false ((rfKern g).advance (RF.num R M) ((rfKern g).motion false ((rfKern g).period (RF.num R a) (RF.num R mu))) (RF.num R d)) = RF.num R M' ∧
      0 ≤ M' ∧ M' ≤ 2 * Real.pi + 40 * R.u ∧
      |M' - (M + √(mu / a ^ 3) * d - z * (2 * Real.pi))| ≤ (21 + 5 * |M| + 18 * |√(mu / a ^ 3) * d|) * R.u := by
  obtain ⟨M', z, m1, m2, m3, m4⟩ := Orbit.advance_err g hu ha hmu M d
  refine ⟨M', z, m1, m2, ?_, m4⟩
  obtain ⟨t, -, ht⟩ := (motion_rel g ha hmu).mul (Rel.num (R := R) d)
  have hadv : (rfKern g).advance (RF.num R M) ((rfKern g).motion false ((rfKern g).period (RF.num R a) (RF.num R mu))) (RF.num R d) =
      RF.num R (R.rd (M + √(mu / a ^ 3) * d * Real.exp t)) := by
    show RF.num R M + (rfKern g).motion false ((rfKern g).period (RF.num R a) (RF.num R mu)) * RF.num R d = _
    rw [ht, add_num]
  rw [hadv] at m1
  have := mod_upper hu m1
  linarith [R.u_nonneg]

/-- options with which the solver converges on every ellipse: `tol` is between `9000 u` and `1e-5`, and the limit of iterations is large enough for it -/
structure WideSolver (o : SolverOpts (RF R)) (tol : ℝ) : Prop where
  pos : 0 < tol
  small : tol ≤ 1 / 10 ^ 5
  coarse : 9000 * R.u ≤ tol
  enough : ∃ (mi : Int) (K : Nat), o = ropts R tol mi 5 ∧ 7 * (17 / 20 : ℝ) ^ K < 999 / 1000 * tol ∧ 2 * K < mi

theorem solver_el (hu : R.u ≤ 1 / 10 ^ 9) {o : SolverOpts (RF R)} {tol : ℝ} (ho : WideSolver o tol) {e : ℝ} (h0 : 0 ≤ e) (h1 : e < 1) (h25 : e ≤ 1 - 25 * R.u) {M : ℝ}
    (hM0 : 0 ≤ M) (hM1 : M ≤ 2 * Real.pi + 40 * R.u) :
    ∃ E : ℝ, meanToEccentricEl o (RF.num R M) (RF.num R e) = RF.num R E ∧ |E - e * Real.sin E - M| < tol + 9 * R.u ∧ |E| ≤ 15 / 2 := by
  have hpi := Real.pi_lt_d4
  obtain ⟨ht, ht1, htu, mi, K, rfl, hK, hmi⟩ := ho
  have hres : ∃ E : ℝ, meanToEccentricEl (ropts R tol mi 5) (RF.num R M) (RF.num R e) = RF.num R E ∧ |E - e * Real.sin E - M| < tol + 9 * R.u := by
    obtain ⟨s, hs⟩ := root_exists h0 h1 M
    rcases le_total e (7 / 10) with h7 | h7
    · have e1 : (51 / 100 : ℝ) ^ (2 * K) ≤ (17 / 20) ^ K := by
        rw [pow_mul]
        exact pow_le_pow_left₀ (by norm_num) (by norm_num) K
      obtain ⟨E, n, k1, k2, k3, k4⟩ := solve_err (R := R) (by linarith) h0 h7 hM0 (by linarith) hs ht (by linarith [R.u_nonneg]) (2 * K) (by linarith) (by exact_mod_cast hmi)
      refine ⟨E, ?_, k3⟩
      simp only [meanToEccentricEl, one_num, lt_num, eq_num, not_lt.mpr h1.le, h1.ne, decide_false, Bool.false_eq_true, if_false]
      rw [k1]
    · obtain ⟨E, n, k1, k2, k3⟩ := solve_ell (R := R) hu h7 h25 h1 hM0 hM1 hs ht ht1 htu K hK hmi
      refine ⟨E, ?_, k3⟩
      simp only [meanToEccentricEl, one_num, lt_num, eq_num, not_lt.mpr h1.le, h1.ne, decide_false, Bool.false_eq_true, if_false]
      rw [k1]
  obtain ⟨E, k1, k2⟩ := hres
  refine ⟨E, k1, k2, ?_⟩
  have h2 := abs_le.mp k2.le
  have h3 : |e * Real.sin E| ≤ 1 := by
    rw [abs_mul, abs_of_nonneg h0]
    exact (mul_le_of_le_one_right h0 (Real.abs_sin_le_one E)).trans h1.le
  have h4 := abs_le.mp h3
  rw [abs_le]
  constructor <;> linarith [h2.1, h2.2, h4.1, h4.2]

/-- the true anomaly computed from an eccentric one, and the point it belongs to -/
theorem ett_point (hu : R.u ≤ 1 / 10 ^ 6) {e : ℝ} (h0 : 0 ≤ e) (h1 : e < 1) {E : ℝ} (hE : |E| ≤ 8) :
    ∃ nu F : ℝ, wrap (ettEli (RF.num R E) (RF.num R e)) = RF.num R nu ∧ 0 ≤ nu ∧ nu ≤ 629 / 100 ∧ SamePoint e nu F ∧
      |(F - e * Real.sin F) - (E - e * Real.sin E)| ≤ 190 * anomCond e * R.u := by
  have hu0 := R.u_nonneg
  have he : |e| < 1 := by rwa [abs_of_nonneg h0]
  obtain ⟨nu, nu1, E1, k1, k2, k3, k4, k5, k6⟩ := ett_err (R := R) hu h0 h1 E
  obtain ⟨F, l1, l2⟩ := samePoint_lipschitz (by rwa [abs_neg]) (samePoint_symm he k5) nu
  have l1' := samePoint_symm (by rwa [abs_neg]) l1
  rw [neg_neg] at l1'
  refine ⟨nu, F, k1, k2, k3, l1', ?_⟩
  rw [anomCond_neg] at l2
  have hc := anomCond_pos h0 h1
  have hcu := mul_le_mul_of_nonneg_right hc hu0
  have q1 : |F - E1| ≤ anomCond e * (85 * R.u) := l2.trans (mul_le_mul_of_nonneg_left k6 (by linarith))
  have q2 : 101 / 100 * R.u * |E| ≤ 101 / 100 * R.u * 8 := mul_le_mul_of_nonneg_left hE (by positivity)
  have q3 := abs_sub_le F E1 E
  have q4 := meanOf_lipschitz h0 F E
  have q5 : (1 + e) * |F - E| ≤ 2 * |F - E| := mul_le_mul_of_nonneg_right (by linarith) (abs_nonneg _)
  linarith

/-- the anomaly `propagate` stores for a mean anomaly -/
theorem store_err (hu : R.u ≤ 1 / 10 ^ 9) {o : SolverOpts (RF R)} {tol : ℝ} (ho : WideSolver o tol) (t : Anom) {e : ℝ} (h0 : 0 ≤ e) (h1 : e < 1) (h25 : e ≤ 1 - 25 * R.u) {M : ℝ}
    (hM0 : 0 ≤ M) (hM1 : M ≤ 2 * Real.pi + 40 * R.u) :
    ∃ x M1 : ℝ, conv (rfKern g) o false .mean t (RF.num R M) (RF.num R e) = RF.num R x ∧ HasMean t e x M1 ∧ |x| ≤ 15 / 2 ∧
      (t = .mean → 0 ≤ x ∧ x ≤ 2 * Real.pi + 40 * R.u) ∧ |M1 - M| ≤ (if t = .mean then 0 else tol) + 200 * anomCond e * R.u := by
  have hu0 := R.u_nonneg
  have hpi := Real.pi_lt_d4
  have hc := anomCond_pos h0 h1
  have hcu := mul_le_mul_of_nonneg_right hc hu0
  obtain ⟨E, k1, k2, k3⟩ := solver_el hu ho h0 h1 h25 hM0 hM1
  cases t
  · obtain ⟨nu, F, l1, l2, l3, l4, l5⟩ := ett_point (R := R) (by linarith) h0 h1 (E := E) (by linarith)
    refine ⟨nu, _, (rk_mtt g h1 k1).trans l1, ⟨F, l4, rfl⟩, by rw [abs_of_nonneg l2]; linarith, by simp, ?_⟩
    rw [if_neg (by simp)]
    have := abs_sub_le (F - e * Real.sin F) (E - e * Real.sin E) M
    linarith
  · refine ⟨E, _, k1, rfl, k3, by simp, ?_⟩
    rw [if_neg (by simp)]
    linarith
  · refine ⟨M, M, rfl, rfl, by rw [abs_of_nonneg hM0]; linarith, fun _ => ⟨hM0, hM1⟩, ?_⟩
    rw [sub_self, abs_zero, if_pos rfl]; linarith

/-- the true anomaly the Cartesian state is calculated with -/
theorem state_err (hu : R.u ≤ 1 / 10 ^ 9) {o : SolverOpts (RF R)} {tol : ℝ} (ho : WideSolver o tol) (t : Anom) {e : ℝ} (h0 : 0 ≤ e) (h1 : e < 1) (h25 : e ≤ 1 - 25 * R.u) {x M1 : ℝ}
    (hx : HasMean t e x M1) (hx8 : |x| ≤ 8) (hm : t = .mean → 0 ≤ x ∧ x ≤ 2 * Real.pi + 40 * R.u) :
    ∃ nu F : ℝ, toTrue (rfKern g) t o false (RF.num R x) (RF.num R e) = RF.num R nu ∧ |nu| ≤ 8 ∧ SamePoint e nu F ∧
      |F - e * Real.sin F - M1| ≤ (if t = .mean then tol else 0) + 200 * anomCond e * R.u := by
  have hu0 := R.u_nonneg
  have hpi := Real.pi_lt_d4
  have hc := anomCond_pos h0 h1
  have hcu := mul_le_mul_of_nonneg_right hc hu0
  cases t
  · obtain ⟨E, e1, e2⟩ := hx
    refine ⟨x, E, rfl, hx8, e1, ?_⟩
    rw [e2, sub_self, abs_zero, if_neg (by simp)]; linarith
  · obtain ⟨nu, F, l1, l2, l3, l4, l5⟩ := ett_point (R := R) (by linarith) h0 h1 hx8
    refine ⟨nu, F, (rk_ett g h1 x).trans l1, by rw [abs_of_nonneg l2]; linarith, l4, ?_⟩
    rw [show M1 = x - e * Real.sin x from hx.symm, if_neg (by simp)]
    linarith
  · obtain ⟨hM0, hM1⟩ := hm rfl
    obtain ⟨E, k1, k2, k3⟩ := solver_el hu ho h0 h1 h25 hM0 hM1
    obtain ⟨nu, F, l1, l2, l3, l4, l5⟩ := ett_point (R := R) (by linarith) h0 h1 (E := E) (by linarith)
    refine ⟨nu, F, (rk_mtt g h1 k1).trans l1, by rw [abs_of_nonneg l2]; linarith, l4, ?_⟩
    rw [if_pos rfl, show M1 = x from hx.symm]
    have := abs_sub_le (F - e * Real.sin F) (E - e * Real.sin E) x
    linarith

/-! ## One step of `propagate` -/

/-- one elliptic orbit of an object computed with rounding, at position `j`: the numbers `k` are read from `orb.kepler`, `mu` is what `G*(M0 + m)` computes to,
the angles are in radians, and the options of the solver are such that it converges -/
structure RWideEllipse (s : Orb (RF R)) (j : Nat) (k : Kep ℝ) (mu tol : ℝ) : Prop where
  read : ∃ ks, (get_kepler (rfKern g) s).1 = .ok ks ∧ ks[j]? = some (k.num R)
  grav : ∃ m, s.m[j]? = some m ∧ s.G * (s.M0 + m) = RF.num R mu
  mu_pos : 0 < mu
  a_pos : 0 < k.a
  e_nonneg : 0 ≤ k.e
  e_lt : k.e < 1
  e_le : 300 * R.u ≤ 1 - k.e
  radians : s.degrees = false
  solver : WideSolver s.opts tol

theorem RWideEllipse.step {n : Nat} (hu : R.u ≤ 1 / 10 ^ 9) {s : Orb (RF R)} {j : Nat} {k : Kep ℝ} {mu tol : ℝ} (hs : OneEntryPerOrbit s n) (hr : s.kro = false)
    (h : RWideEllipse g s j k mu tol) {M0 : ℝ} (hM : HasMean s.type k.e k.nu M0) {dt : Val (RF R)} {dts : List (RF R)} (hdt : dt.Row n dts) {d : ℝ}
    (hd : dts[j]? = some (RF.num R d)) :
    ∃ (s' : Orb (RF R)) (x M1 : ℝ) (z : ℤ), propagate (rfKern g) dt s = (.ok (), s') ∧ OneEntryPerOrbit s' n ∧ OnlyElements s s' ∧
      (∃ ks, (get_kepler (rfKern g) s').1 = .ok ks ∧ ks[j]? = some (Kep.num R { k with nu := x })) ∧ HasMean s.type k.e x M1 ∧ |x| ≤ 8 ∧
      |M1 - (M0 + √(mu / k.a ^ 3) * d + z * (2 * Real.pi))| ≤ (if s.type = .mean then 0 else tol) + (461 * anomCond k.e + 14 * anomCond k.e * |k.nu| + 18 * (√(mu / k.a ^ 3) * |d|)) * R.u ∧
      (s.auto = true ∨ s.direct = true → ∃ cs c F, (get_cartesian (rfKern g) s').1 = .ok cs ∧ cs[j]? = some (Cart.num R c) ∧
        |F - k.e * Real.sin F - M1| ≤ (if s.type = .mean then tol else 0) + 200 * anomCond k.e * R.u ∧
        vlen (c.r - (ellipseState k √(mu / k.a ^ 3) F).r) ≤ k.a / (1 - k.e) * (600 * (1 + k.e) * R.u) ∧
        vlen (c.v - (ellipseState k √(mu / k.a ^ 3) F).v) ≤ k.a * √(mu / k.a ^ 3) / (1 - k.e) ^ 2 * (400 * R.u)) := by
  have hu0 := R.u_nonneg
  have h0 := h.e_nonneg
  have h1 := h.e_lt
  have hwide := h.e_le
  have h25 : k.e ≤ 1 - 25 * R.u := by linarith
  have hu6 : R.u ≤ 1 / 10 ^ 6 := by linarith
  have hdeg := h.radians
  have he : |k.e| < 1 := by rw [abs_of_nonneg h0]; linarith
  obtain ⟨ks, hks, hk⟩ := h.read
  obtain rfl : ks = (kepCheck (rfKern g) s).kep := (Except.ok.inj hks).symm
  obtain ⟨m, hm, hmu⟩ := h.grav
  have hmu : (rfKern g).mu s.G s.M0 m = RF.num R mu := hmu
  obtain ⟨e1, e2, e3, -⟩ := kepCheck_settings (rfKern g) s
  obtain ⟨-, em, eG, eM0⟩ := kepCheck_body (rfKern g) s
  obtain ⟨Mc, M0', r1, r2, r3, r4⟩ := read_mean g hu6 s.opts s.type h0 h1 k.nu
  obtain ⟨z1, hz1⟩ := hasMean_unique he hM r2
  obtain ⟨M', z2, a1, a2, a3, a4⟩ := advance_err g hu6 h.a_pos h.mu_pos Mc d
  have hnew : newMean (rfKern g) (kepCheck (rfKern g) s) (k.num R) m (RF.num R d) = RF.num R M' := by
    unfold newMean
    rw [anomOf_conv, e1, e2, e3, eG, eM0, hmu, hdeg]
    show (rfKern g).wrapM false ((rfKern g).advance (conv (rfKern g) s.opts false s.type .mean (RF.num R k.nu) (RF.num R k.e)) _ _) = _
    rw [r1]
    exact a1
  obtain ⟨x, M1, x1, x2, x3, x4, x5⟩ := store_err g hu h.solver s.type h0 h1 h25 a2 a3
  have hcol : ({ k.num R with nu := conv (rfKern g) s.opts s.degrees .mean s.type (newMean (rfKern g) (kepCheck (rfKern g) s) (k.num R) m (RF.num R d)) (k.num R).e } : Kep (RF R))
      = Kep.num R { k with nu := x } := by
    rw [hnew, hdeg]
    show ({ k.num R with nu := conv (rfKern g) s.opts false .mean s.type _ (RF.num R k.e) } : Kep (RF R)) = _
    rw [x1]; rfl
  obtain ⟨s', p1, p2, p3, p4, p5⟩ := propagate_ok (rfKern g) hs.wfe hr hdt
  refine ⟨s', x, M1, z1 - z2, p1, p2.one, p3, ⟨s'.kep, ?_, ?_⟩, x2, x3.trans (by norm_num), ?_, fun hmode => ?_⟩
  · show Except.ok (kepCheck (rfKern g) s').kep = _
    rw [p4.check]
  · have hmk : (kepCheck (rfKern g) s).m[j]? = some m := by rw [em]; exact hm
    rw [p5, List.getElem?_zipWith, hk]
    unfold newMeans
    rw [List.getElem?_zipWith]
    simp only [List.zip, List.getElem?_zipWith, hk, hmk, hd]
    rw [hcol]
  · rw [abs_mul, abs_of_pos (motion_pos h.mu_pos h.a_pos).1] at a4
    have q1 := mul_le_mul_of_nonneg_right r4 hu0
    have hc := anomCond_pos h0 h1
    have q2 := mul_le_mul_of_nonneg_right hc hu0
    have q3 := mul_le_mul_of_nonneg_right hc (mul_nonneg (abs_nonneg k.nu) hu0)
    rw [hz1] at r3
    push_cast
    have e4 : M1 - (M0 + √(mu / k.a ^ 3) * d + ((z1 : ℝ) - z2) * (2 * Real.pi)) =
        (M1 - M') + (M' - (Mc + √(mu / k.a ^ 3) * d - z2 * (2 * Real.pi))) + (Mc - (M0 + z1 * (2 * Real.pi))) := by ring
    rw [e4]
    have e5 := abs_add_le ((M1 - M') + (M' - (Mc + √(mu / k.a ^ 3) * d - z2 * (2 * Real.pi)))) (Mc - (M0 + z1 * (2 * Real.pi)))
    have e6 := abs_add_le (M1 - M') (M' - (Mc + √(mu / k.a ^ 3) * d - z2 * (2 * Real.pi)))
    linarith
  · obtain ⟨cs, c1, c2⟩ := propagate_cart (rfKern g) hs.wfe hr hdt hmode p1 hk hm hd (by rw [hcol]; rfl)
    obtain ⟨nu, F, f1, -, f2, f3⟩ := state_err g hu h.solver s.type h0 h1 h25 x2 (x3.trans (by norm_num)) x4
    obtain ⟨c, d1, d2, d3⟩ := cart_err_wide g h.mu_pos h.a_pos h0 h1 hwide f2
    refine ⟨cs, c, F, c1, ?_, f3, d2, d3⟩
    rw [c2, hcol, hmu, hdeg]
    refine congrArg some ?_
    rw [← d1]
    show (rfKern g).kepToCart false (RF.num R mu) { Kep.num R { k with nu := x } with nu := toTrue (rfKern g) s.type s.opts false (RF.num R x) (RF.num R k.e) } = _
    rw [f1]; rfl

/-! ## Any number of steps -/

variable {g} in
theorem RWideEllipse.after {s s' : Orb (RF R)} {j : Nat} {k : Kep ℝ} {mu tol : ℝ} (h : RWideEllipse g s j k mu tol) (ho : OnlyElements s s') {x : ℝ}
    (hk : ∃ ks, (get_kepler (rfKern g) s').1 = .ok ks ∧ ks[j]? = some (Kep.num R { k with nu := x })) : RWideEllipse g s' j { k with nu := x } mu tol := by
  refine ⟨hk, ?_, h.mu_pos, h.a_pos, h.e_nonneg, h.e_lt, h.e_le, ?_, ?_⟩
  · rw [ho]; exact h.grav
  · rw [ho]; exact h.radians
  · rw [ho]; exact h.solver

/-- what holds after any number of steps -/
structure RAfter (n j : Nat) (s s' : Orb (RF R)) (k : Kep ℝ) (mu tol M0 : ℝ) (m : Nat) (D T x M1 : ℝ) : Prop where
  entries : OneEntryPerOrbit s' n
  only : OnlyElements s s'
  read : ∃ ks, (get_kepler (rfKern g) s').1 = .ok ks ∧ ks[j]? = some (Kep.num R { k with nu := x })
  has : HasMean s.type k.e x M1
  small : |x| ≤ 8
  close : ∃ z : ℤ, |M1 - (M0 + √(mu / k.a ^ 3) * D + z * (2 * Real.pi))| ≤
    m * (if s.type = .mean then 0 else tol) + (600 * anomCond k.e * m + 14 * anomCond k.e * |k.nu| + 18 * (√(mu / k.a ^ 3) * T)) * R.u
  cart : s.auto = true ∨ s.direct = true → ∃ cs c F, (get_cartesian (rfKern g) s').1 = .ok cs ∧ cs[j]? = some (Cart.num R c) ∧
    |F - k.e * Real.sin F - M1| ≤ (if s.type = .mean then tol else 0) + 200 * anomCond k.e * R.u ∧
    vlen (c.r - (ellipseState k √(mu / k.a ^ 3) F).r) ≤ k.a / (1 - k.e) * (600 * (1 + k.e) * R.u) ∧
    vlen (c.v - (ellipseState k √(mu / k.a ^ 3) F).v) ≤ k.a * √(mu / k.a ^ 3) / (1 - k.e) ^ 2 * (400 * R.u)

variable {g} in
theorem run_after {n j m : Nat} (hu : R.u ≤ 1 / 10 ^ 9) {s s' : Orb (RF R)} {D T : ℝ} (hrun : RRun g n j s s' m D T) (hs : OneEntryPerOrbit s n) (hr : s.kro = false)
    {k : Kep ℝ} {mu tol : ℝ} (h : RWideEllipse g s j k mu tol) {M0 : ℝ} (hM : HasMean s.type k.e k.nu M0) :
    ∃ x M1, RAfter g n j s s' k mu tol M0 m D T x M1 := by
  have hu0 := R.u_nonneg
  obtain ⟨hn, -⟩ := motion_pos h.mu_pos h.a_pos
  have hc := anomCond_pos h.e_nonneg h.e_lt
  have hcu : 0 ≤ anomCond k.e * R.u := mul_nonneg (by linarith) hu0
  induction hrun with
  | one dt dts d row at_j run =>
    obtain ⟨s1, x, M1, z, p1, p2, p3, p4, p5, p6, p7, p8⟩ := h.step g hu hs hr hM row at_j
    obtain rfl : s1 = _ := congrArg Prod.snd (p1.symm.trans run)
    refine ⟨x, M1, p2, p3, p4, p5, p6, ⟨z, p7.trans ?_⟩, p8⟩
    push_cast
    linarith
  | @more s' s'' m D T before dt dts d row at_j run ih =>
    obtain ⟨x, M1, a⟩ := ih
    have h' := h.after a.only a.read
    have ht : s'.type = s.type := by rw [a.only]
    have hau : s'.auto = s.auto := by rw [a.only]
    have hdi : s'.direct = s.direct := by rw [a.only]
    obtain ⟨s1, y, M2, z, p1, p2, p3, p4, p5, p6, p7, p8⟩ := h'.step g hu a.entries (by rw [a.only]; exact hr) (M0 := M1) (by rw [ht]; exact a.has) row at_j
    obtain rfl : s1 = _ := congrArg Prod.snd (p1.symm.trans run)
    rw [ht] at p5 p7 p8
    rw [hau, hdi] at p8
    obtain ⟨z', hz'⟩ := a.close
    refine ⟨y, M2, p2, ?_, p4, p5, p6, ⟨z + z', ?_⟩, p8⟩
    · rw [p3, a.only]; rfl
    · have p7 : |M2 - (M1 + √(mu / k.a ^ 3) * d + z * (2 * Real.pi))| ≤
          (if s.type = .mean then 0 else tol) + (461 * anomCond k.e + 14 * anomCond k.e * |x| + 18 * (√(mu / k.a ^ 3) * |d|)) * R.u := p7
      push_cast
      have e4 : M2 - (M0 + √(mu / k.a ^ 3) * (D + d) + ((z : ℝ) + z') * (2 * Real.pi)) =
        (M2 - (M1 + √(mu / k.a ^ 3) * d + z * (2 * Real.pi))) + (M1 - (M0 + √(mu / k.a ^ 3) * D + z' * (2 * Real.pi))) := by ring
      rw [e4]
      have e5 := abs_add_le (M2 - (M1 + √(mu / k.a ^ 3) * d + z * (2 * Real.pi))) (M1 - (M0 + √(mu / k.a ^ 3) * D + z' * (2 * Real.pi)))
      have e6 := mul_le_mul_of_nonneg_right a.small hcu
      linarith

end Wide

open Py FX RF Wide
variable {R : Rounding} (g : Garb (RF R))

/-- C108: an elliptic orbit (any `e ≤ 1 - 300 u`, radians) of an object with automatic updates whose arithmetic rounds: there is a solution `c` of Newton's equations of
motion that starts at the exact point its elements describe, such that after any number `m` of calls of `propagate`, with time steps of either sign that add up
to `D`, their absolute values to `T`, the state read from `orb.cartesian` is close to `c D`.  The rounding errors add up with the number of calls; those of the
solver of Kepler's equation only when the object does not store the mean anomaly.  (That the calls return: `c98_returns`.) -/
theorem c108 {n : Nat} (hu : R.u ≤ 1 / 10 ^ 9) (s : Orb (RF R)) (hs : OneEntryPerOrbit s n) (hr : s.kro = false) (hmode : s.auto = true ∨ s.direct = true)
    (j : Nat) (k : Kep ℝ) (mu tol : ℝ) (h : RWideEllipse g s j k mu tol) :
    ∃ c : ℝ → Cart ℝ, ObeysNewton mu c ∧ (∀ nu, IsTrue s.type k.e k.nu nu → DescribesOrbit mu { k with nu := nu } (c 0)) ∧
      ∀ (s' : Orb (RF R)) (m : Nat) (D T : ℝ), RRun g n j s s' m D T →
        ∃ cs c', (get_cartesian (rfKern g) s').1 = .ok cs ∧ cs[j]? = some (Cart.num R c') ∧
          vlen (c'.r - (c D).r) ≤ k.a / (1 - k.e) *
            ((if s.type = .mean then tol else m * tol) + (2000 * √((1 + k.e) / (1 - k.e)) * m + 14 * √((1 + k.e) / (1 - k.e)) * |k.nu| + 18 * (√(mu / k.a ^ 3) * T)) * R.u) ∧
          vlen (c'.v - (c D).v) ≤ k.a * √(mu / k.a ^ 3) / (1 - k.e) ^ 2 *
            ((if s.type = .mean then tol else m * tol) + (2000 * √((1 + k.e) / (1 - k.e)) * m + 14 * √((1 + k.e) / (1 - k.e)) * |k.nu| + 18 * (√(mu / k.a ^ 3) * T)) * R.u) := by
  have hu0 := R.u_nonneg
  have hmu := h.mu_pos
  have ha := h.a_pos
  have h0 := h.e_nonneg
  have h1 := h.e_lt
  have hc := anomCond_pos h0 h1
  have hcond : √((1 + k.e) / (1 - k.e)) = anomCond k.e := by rw [anomCond, abs_of_nonneg h0]
  have hcu := mul_le_mul_of_nonneg_right hc hu0
  rw [hcond]
  have hq : 0 < 1 - k.e := by linarith
  obtain ⟨hn, -⟩ := motion_pos hmu ha
  obtain ⟨-, M0, -, hM, -⟩ := Wide.read_mean g (show R.u ≤ 1 / 10 ^ 6 by linarith) s.opts s.type h0 h1 k.nu
  obtain ⟨c, hcur, hN, hst⟩ := newton_curve hmu ha h0 h1 false M0
  refine ⟨c, hN, fun nu hnu => ?_, fun s' m D T hrun => ?_⟩
  · obtain ⟨E, e1, e2⟩ : ∃ E, SamePoint k.e nu E ∧ E - k.e * Real.sin E = M0 := by
      generalize s.type = t at hM hnu
      cases t
      · obtain rfl : nu = k.nu := hnu
        exact hM
      · exact ⟨k.nu, hnu, hM⟩
      · obtain ⟨E, e1, e2⟩ := hnu
        exact ⟨E, e1, e2.trans hM⟩
    exact hst nu E e1 e2
  · obtain ⟨x, M1, a⟩ := run_after hu hrun hs hr h hM
    obtain ⟨hm1, hT⟩ := hrun.pos
    have hm1 : (1 : ℝ) ≤ m := by exact_mod_cast hm1
    obtain ⟨cs, c', F, c1, c2, c3, c4, c5⟩ := a.cart hmode
    obtain ⟨G, hG, hGm⟩ := hcur D
    obtain ⟨z, hz⟩ := a.close
    have htot : |meanOf k.e F - (meanOf k.e G + z * (2 * Real.pi))| ≤
        (if s.type = .mean then tol else m * tol) + (600 * anomCond k.e * m + 200 * anomCond k.e + 14 * anomCond k.e * |k.nu| + 18 * (√(mu / k.a ^ 3) * T)) * R.u := by
      rw [hGm, meanOf_eli _ h1]
      have := abs_sub_le (F - k.e * Real.sin F) M1 (M0 + √(mu / k.a ^ 3) * D + z * (2 * Real.pi))
      split_ifs at c3 hz ⊢ <;> linarith
    obtain ⟨q1, q2⟩ := points_close hmu ha h0 h1 false htot
    rw [← hG] at q1 q2
    refine ⟨cs, c', c1, c2, ?_, ?_⟩
    · refine (vlen_via _ _ _).trans ((add_le_add c4 q1).trans ?_)
      rw [show ∀ b, k.a * b / (1 - k.e) = k.a / (1 - k.e) * b from fun b => by ring, ← mul_add]
      refine mul_le_mul_of_nonneg_left ?_ (by positivity)
      have := mul_le_mul_of_nonneg_right hm1 (show 0 ≤ anomCond k.e * R.u by linarith)
      have := mul_le_mul_of_nonneg_right (show 1 + k.e ≤ 2 by linarith) hu0
      linarith
    · refine (vlen_via _ _ _).trans ((add_le_add c5 q2).trans ?_)
      rw [show ∀ b, k.a * √(mu / k.a ^ 3) * b / (1 - k.e) ^ 2 = k.a * √(mu / k.a ^ 3) / (1 - k.e) ^ 2 * b from fun b => by ring, ← mul_add]
      refine mul_le_mul_of_nonneg_left ?_ (by positivity)
      have := mul_le_mul_of_nonneg_right hm1 (show 0 ≤ anomCond k.e * R.u by linarith)
      have := mul_le_mul_of_nonneg_right (show 1 + k.e ≤ 2 by linarith) hu0
      linarith

/-- the default options of the solver -/
theorem wideSolver_default (hu : R.u ≤ (1 / 2) ^ 53) :
    WideSolver (R := R) .dflt (R.rd (1 / 10 ^ 12)) ∧ R.rd (1 / 10 ^ 12) ≤ 101 / 10 ^ 14 := by
  have hu0 := R.u_nonneg
  have hu9 : R.u ≤ 11103 / 10 ^ 20 := hu.trans (by norm_num)
  have ht := abs_le.mp (rd_err (R := R) (x := 1 / 10 ^ 12) (B := 1 / 10 ^ 12) (by linarith) (by rw [abs_of_pos (by norm_num)]))
  obtain ⟨t1, t2⟩ := ht
  have t3 : 101 / 100 * R.u * (1 / 10 ^ 12) ≤ 101 / 100 * (1 / 10 ^ 6) * (1 / 10 ^ 12) := by
    refine mul_le_mul_of_nonneg_right ?_ (by norm_num)
    linarith
  exact ⟨⟨rd_pos (by norm_num), by linarith, by linarith, 5000, 183, dflt_ropts, by linarith [show 7 * (17 / 20 : ℝ) ^ 183 < 9 / 10 ^ 13 by norm_num], by norm_num⟩,
    by linarith⟩

/-- C108 with the default options of the solver and arithmetic at least as accurate as double precision -/
theorem c108_default {n : Nat} (hu : R.u ≤ (1 / 2) ^ 53) (s : Orb (RF R)) (hs : OneEntryPerOrbit s n) (hr : s.kro = false) (hmode : s.auto = true ∨ s.direct = true)
    (ho : s.opts = .dflt) (hdeg : s.degrees = false) (j : Nat) (k : Kep ℝ) (mu : ℝ) (hread : ∃ ks, (get_kepler (rfKern g) s).1 = .ok ks ∧ ks[j]? = some (k.num R))
    (hgrav : ∃ m, s.m[j]? = some m ∧ s.G * (s.M0 + m) = RF.num R mu) (hmu : 0 < mu) (ha : 0 < k.a) (h0 : 0 ≤ k.e) (h1 : k.e < 1)
    (h300 : 300 * R.u ≤ 1 - k.e) :
    ∃ c : ℝ → Cart ℝ, ObeysNewton mu c ∧ (∀ nu, IsTrue s.type k.e k.nu nu → DescribesOrbit mu { k with nu := nu } (c 0)) ∧
      ∀ (s' : Orb (RF R)) (m : Nat) (D T : ℝ), RRun g n j s s' m D T →
        ∃ cs c', (get_cartesian (rfKern g) s').1 = .ok cs ∧ cs[j]? = some (Cart.num R c') ∧
          vlen (c'.r - (c D).r) ≤ k.a / (1 - k.e) * (101 / 10 ^ 14 * (if s.type = .mean then (1 : ℝ) else m) +
            (2000 * √((1 + k.e) / (1 - k.e)) * m + 14 * √((1 + k.e) / (1 - k.e)) * |k.nu| + 18 * (√(mu / k.a ^ 3) * T)) * R.u) ∧
          vlen (c'.v - (c D).v) ≤ k.a * √(mu / k.a ^ 3) / (1 - k.e) ^ 2 * (101 / 10 ^ 14 * (if s.type = .mean then (1 : ℝ) else m) +
            (2000 * √((1 + k.e) / (1 - k.e)) * m + 14 * √((1 + k.e) / (1 - k.e)) * |k.nu| + 18 * (√(mu / k.a ^ 3) * T)) * R.u) := by
  have hq : 0 < 1 - k.e := by linarith
  have hn := (motion_pos hmu ha).1
  obtain ⟨ok, ht⟩ := wideSolver_default (R := R) hu
  obtain ⟨c, c1, c2, c3⟩ := c108 g (hu.trans (by norm_num)) s hs hr hmode j k mu _ ⟨hread, hgrav, hmu, ha, h0, h1, h300, hdeg, ho ▸ ok⟩
  refine ⟨c, c1, c2, fun s' m D T hrun => ?_⟩
  obtain ⟨cs, c', d1, d2, d3, d4⟩ := c3 s' m D T hrun
  have hm : (if s.type = .mean then R.rd (1 / 10 ^ 12) else m * R.rd (1 / 10 ^ 12)) ≤ 101 / 10 ^ 14 * (if s.type = .mean then (1 : ℝ) else m) := by
    split_ifs
    · linarith
    · have := mul_le_mul_of_nonneg_left ht (Nat.cast_nonneg (α := ℝ) m)
      linarith
  refine ⟨cs, c', d1, d2, d3.trans (mul_le_mul_of_nonneg_left (add_le_add hm le_rfl) (by positivity)),
    d4.trans (mul_le_mul_of_nonneg_left (add_le_add hm le_rfl) (by positivity))⟩

/-- a case: two calls for an orbit with e = 0.96 that stores its true anomaly, 0 at the start, in double precision -/
example (g : Garb (RF Binary.binary64)) : ∃ (c : ℝ → Cart ℝ) (s1 s2 : Orb (RF Binary.binary64)) (cs : List (Cart (RF Binary.binary64))) (c' : Cart ℝ),
    ObeysNewton 1 c ∧ DescribesOrbit 1 ⟨1, 24 / 25, 1, 2, 3, 0⟩ (c 0) ∧
    propagate (rfKern g) (.sc (RF.num _ 6)) (lazy64 g .tru ⟨1, 24 / 25, 1, 2, 3, 0⟩) = (.ok (), s1) ∧ propagate (rfKern g) (.sc (RF.num _ (-3 / 2))) s1 = (.ok (), s2) ∧
    (get_cartesian (rfKern g) s2).1 = .ok cs ∧ cs[0]? = some (Cart.num Binary.binary64 c') ∧ vlen (c'.r - (c (9 / 2)).r) ≤ 13 / 10 ^ 11 := by
  have hs : OneEntryPerOrbit (lazy64 g .tru ⟨1, 24 / 25, 1, 2, 3, 0⟩) 1 := ⟨rfl, rfl, rfl, rfl, ⟨_, rfl, rfl⟩, rfl, rfl, rfl⟩
  obtain ⟨c, c1, c2, c3⟩ := c108_default g (n := 1) (show (1 / 2 : ℝ) ^ 53 ≤ (1 / 2) ^ 53 from le_rfl) (lazy64 g .tru ⟨1, 24 / 25, 1, 2, 3, 0⟩) hs rfl (.inl rfl) rfl rfl 0
    ⟨1, 24 / 25, 1, 2, 3, 0⟩ 1 ⟨_, rfl, rfl⟩ ⟨0, rfl, by
      show (RF.num Binary.binary64 1 : RF _) * (RF.num _ 1 + 0) = _
      have : Binary.binary64.rd 1 = 1 := by
        have h1 := Binary.binary64.exact 4 (by norm_num)
        norm_num at h1
        rw [Rounding.rd, h1, Real.exp_zero, one_mul]
      rw [zero_num, add_num, mul_num, add_zero, this, one_mul, this]⟩ one_pos one_pos (by norm_num) (by norm_num)
    (by show 300 * (1 / 2 : ℝ) ^ 53 ≤ 1 - 24 / 25; norm_num)
  obtain ⟨⟨s1, p1⟩, -⟩ := c98_returns g _ hs rfl 0 (dt := .sc (RF.num _ 6)) (dts := [RF.num _ 6]) rfl
  have r1 := RRun.one (g := g) (n := 1) (j := 0) (.sc (RF.num _ 6)) [RF.num _ 6] 6 rfl rfl p1
  obtain ⟨s2, p2⟩ := (c98_returns g _ hs rfl 0 (dt := .sc (RF.num _ (-3 / 2))) (dts := [RF.num _ (-3 / 2)]) rfl).2 _ _ _ _ r1
  have r2 := r1.more (.sc (RF.num _ (-3 / 2))) [RF.num _ (-3 / 2)] (-3 / 2) rfl rfl p2
  obtain ⟨cs, c', d1, d2, d3, -⟩ := c3 _ _ _ _ r2
  refine ⟨c, s1, s2, cs, c', c1, c2 0 rfl, p1, p2, d1, d2, ?_⟩
  have e : (6 + -3 / 2 : ℝ) = 9 / 2 := by norm_num
  rw [e] at d3
  refine d3.trans ?_
  have ht : (lazy64 g .tru ⟨1, 24 / 25, 1, 2, 3, 0⟩).type = .tru := rfl
  have hc : √((1 + 24 / 25 : ℝ) / (1 - 24 / 25)) = 7 := by
    rw [show (1 + 24 / 25 : ℝ) / (1 - 24 / 25) = 7 ^ 2 by norm_num, Real.sqrt_sq (by norm_num)]
  simp only [ht, hc]
  rw [if_neg (by simp), show Binary.binary64.u = (1 / 2) ^ 53 from rfl, abs_of_pos (show (0 : ℝ) < 6 by norm_num), abs_of_neg (show (-3 / 2 : ℝ) < 0 by norm_num)]
  norm_num

end Orbit
end Pyorb
