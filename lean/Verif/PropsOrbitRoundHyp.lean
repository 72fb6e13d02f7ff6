import Verif.PropsOrbitRoundAll
import Verif.HypNear
import Verif.PropsRoundHypAll

/-!
# `Orbit.propagate` computed with rounding on hyperbolas (C110)

The state read from an object after calls of `propagate` for a hyperbolic orbit, compared with the solution of Newton's equations of motion.
-/

set_option linter.unusedSimpArgs false
set_option linter.unusedVariables false

namespace Pyorb
namespace Orbit
namespace RHypProp
open Py FX RF
variable {R : Rounding} (g : Garb (RF R))

theorem rhyp_mask {e : ℝ} (h1 : 1 < e) (g a b c : RF R) : triMask g .f64 (RF.num R e) a b c = a := by
  simp only [triMask, one_num, lt_num, eq_num, not_lt.mpr h1.le, h1.ne', h1, decide_false, decide_true, Bool.false_eq_true, if_false, if_true]
  rfl

theorem rh_ett {e : ℝ} (h1 : 1 < e) (E : ℝ) : (rfKern g).eccToTrue false false (RF.num R E) (RF.num R e) = wrap (ettHyp (RF.num R E) (RF.num R e)) := by
  show eccentricToTrueEl g.tru .f64 (RF.num R E) (RF.num R e) = _
  rw [eccentricToTrueEl, rhyp_mask h1]

theorem rh_mtt {o : SolverOpts (RF R)} {e : ℝ} (h1 : 1 < e) {M E : ℝ} (h : meanToEccentricEl o (RF.num R M) (RF.num R e) = RF.num R E) :
    (rfKern g).meanToTrue o false false (RF.num R M) (RF.num R e) = wrap (ettHyp (RF.num R E) (RF.num R e)) := by
  show eccentricToTrueEl g.tru .f64 (meanToEccentricEl o (RF.num R M) (RF.num R e)) (RF.num R e) = _
  rw [h, eccentricToTrueEl, rhyp_mask h1]

/-- `Q = e cosh E - 1` is at most twice `W`, which bounds the mean anomaly plus `e - 1/2` -/
theorem radius_le {e E W : ℝ} (h1 : 1 < e) (h : |e * Real.sinh E - E| + e ≤ W + 1 / 2) : e * Real.cosh E - 1 ≤ 2 * W := by
  have hM : e * Real.sinh |E| - |E| = |e * Real.sinh E - E| := by
    rcases le_total 0 E with h0 | h0
    · rw [abs_of_nonneg h0, abs_of_nonneg]
      have := Real.self_le_sinh_iff.mpr h0
      nlinarith
    · rw [abs_of_nonpos h0, Real.sinh_neg, abs_of_nonpos]
      · ring
      · have := Real.sinh_le_self_iff.mpr h0
        nlinarith
  have h2 := Lag.Hyp.root_le h1 (abs_nonneg E) hM
  have h3 := Lag.Hyp.cosh_le_one_add_sinh (abs_nonneg E)
  rw [Real.cosh_abs] at h3
  nlinarith

set_option maxHeartbeats 1000000 in
/-- the computed state of the point `E`, for a true anomaly that is off by at most `150 u` -/
theorem cart_err {mu : ℝ} (hmu : 0 < mu) {k : Kep ℝ} (ha : 0 < k.a) (h1 : 1 < k.e) {nu nu0 E W : ℝ} (hp : SamePointHyp k.e nu0 E) (hd : |nu - nu0| ≤ 150 * R.u)
    (hW : k.e * Real.cosh E - 1 ≤ 2 * W) (heW : k.e ≤ W) (huW : R.u * W ≤ 1 / 10 ^ 9) (hroom : 2000 * (R.u * W) ≤ k.e - 1) :
    ∃ c : Cart ℝ, (rfKern g).kepToCart false (RF.num R mu) (Kep.num R { k with nu := nu }) = c.num R ∧
      vlen (c.r - (hyperbolaState k √(mu / k.a ^ 3) E).r) ≤ k.a * (4800 * W ^ 2 / (k.e - 1) * R.u) ∧
      vlen (c.v - (hyperbolaState k √(mu / k.a ^ 3) E).v) ≤ k.a * √(mu / k.a ^ 3) * √((k.e + 1) / (k.e - 1)) * (1300 * W / (k.e - 1) * R.u) := by
  have hu0 := R.u_nonneg
  have hq : 0 < k.e - 1 := by linarith
  have he1 : 0 < k.e ^ 2 - 1 := by nlinarith
  obtain ⟨Q, hQ⟩ : ∃ Q, Q = k.e * Real.cosh E - 1 := ⟨_, rfl⟩
  rw [← hQ] at hW
  have hQe : k.e - 1 ≤ Q := by
    rw [hQ]; nlinarith [Real.one_le_cosh E]
  have hQ0 : 0 < Q := by linarith
  have huQ : 1000 * (R.u * Q) ≤ k.e - 1 := by
    have := mul_le_mul_of_nonneg_left hW hu0
    linarith
  have huW1 : R.u ≤ 1 / 10 ^ 9 := by nlinarith
  obtain ⟨-, n1, n2, n3⟩ := near_state hmu ha h1 hp hQ hd (by
    have : k.e * (150 * R.u) * Q = 150 * k.e * (R.u * Q) := by ring
    rw [this]
    have := mul_le_mul_of_nonneg_left huQ (show 0 ≤ k.e by linarith)
    have : 0 ≤ k.e * (R.u * Q) := by positivity
    rcases le_total k.e 2 with h2 | h2
    · nlinarith
    · have := mul_le_mul_of_nonneg_left (show R.u * Q ≤ 2 / 10 ^ 9 by linarith [mul_le_mul_of_nonneg_left hW hu0]) (show 0 ≤ k.e by linarith)
      nlinarith)
  obtain ⟨hn, hn2⟩ := motion_pos hmu ha
  have hD : 0 < 1 + k.e * Real.cos nu := lt_of_lt_of_le (by positivity) n1
  have hph : Physical mu ({ k with nu := nu } : Kep ℝ) := ⟨hmu, ha, by show 0 ≤ k.e; linarith, hD⟩
  have hcond : Condition ({ k with nu := nu } : Kep ℝ) (10 / 9 * ((Q + 2) / (k.e - 1))) := by
    refine ⟨?_, ?_, fun _ => ?_⟩
    · have : 1 ≤ (Q + 2) / (k.e - 1) := by rw [le_div_iff₀ hq]; linarith
      linarith
    · show 1 + k.e ≤ 10 / 9 * ((Q + 2) / (k.e - 1)) * (1 + k.e * Real.cos nu)
      refine le_trans ?_ (mul_le_mul_of_nonneg_left n1 (by positivity))
      have : 10 / 9 * ((Q + 2) / (k.e - 1)) * (9 / 10 * ((k.e ^ 2 - 1) / Q)) = (Q + 2) / Q * (k.e + 1) := by field_simp; ring
      rw [this]
      have h2 : 1 ≤ (Q + 2) / Q := by rw [le_div_iff₀ hQ0]; linarith
      nlinarith
    · show 1 + k.e ^ 2 ≤ 10 / 9 * ((Q + 2) / (k.e - 1)) * |1 - k.e ^ 2|
      rw [abs_of_neg (by linarith), show 10 / 9 * ((Q + 2) / (k.e - 1)) * -(1 - k.e ^ 2) = 10 / 9 * (Q + 2) * (k.e + 1) by field_simp; ring]
      nlinarith
  have hcu : 150 * (10 / 9 * ((Q + 2) / (k.e - 1))) * R.u ≤ 1 := by
    have : 150 * (10 / 9 * ((Q + 2) / (k.e - 1))) * R.u = 1500 / 9 * (R.u * Q + 2 * R.u) / (k.e - 1) := by ring
    rw [this, div_le_one hq]
    have := le_mul_of_one_le_right hu0 (show 1 ≤ W by linarith)
    linarith
  obtain ⟨c, c1, c2, c3⟩ := kepToCartCol_close (R := R) g.h hph hcond hcu
  have hslr : Kep.slr { k with nu := nu } = k.a * (k.e ^ 2 - 1) := by
    rw [Kep.slr, if_neg (show k.e ≠ 1 from h1.ne')]
    show k.a * |1 - k.e ^ 2| = _
    rw [abs_of_neg (by linarith)]; ring
  have hrr : vlen ((({ k with nu := nu } : Kep ℝ).state mu).r) ≤ 10 / 9 * (k.a * Q) := by
    rw [vlen_r, hph.adm.state_rn, Kep.rad, hslr]
    show k.a * (k.e ^ 2 - 1) / (1 + k.e * Real.cos nu) ≤ _
    rw [div_le_iff₀ hD]
    refine le_trans (le_of_eq ?_) (mul_le_mul_of_nonneg_left n1 (by positivity))
    field_simp
  have hmom : vlen (angMom (({ k with nu := nu } : Kep ℝ).state mu)) = √(mu * (k.a * (k.e ^ 2 - 1))) := by
    rw [vlen_angMom, hph.adm.state_hn]
    show √(mu * Kep.slr _) = _
    rw [hslr]
  rw [hmom] at c3
  obtain ⟨N, hN⟩ : ∃ N, N = √(mu / k.a ^ 3) := ⟨_, rfl⟩
  rw [← hN] at hn hn2 n2 n3 ⊢
  obtain ⟨w, hw⟩ : ∃ w, w = √(k.e ^ 2 - 1) := ⟨_, rfl⟩
  have hw0 : 0 < w := by rw [hw]; exact Real.sqrt_pos.mpr he1
  have hw2 : w ^ 2 = k.e ^ 2 - 1 := by rw [hw]; exact Real.sq_sqrt he1.le
  have hk : √((k.e + 1) / (k.e - 1)) = (k.e + 1) / w := by
    rw [Real.sqrt_eq_iff_mul_self_eq_of_pos (by positivity)]
    field_simp
    rw [hw2]; ring
  have hh : √(mu * (k.a * (k.e ^ 2 - 1))) = N * k.a ^ 2 * w := by
    rw [Real.sqrt_eq_iff_mul_self_eq_of_pos (by positivity)]
    rw [← hn2, ← hw2]; ring
  rw [hh] at c3
  rw [← hw] at n3
  rw [hk]
  have hW1 : 1 ≤ W := by linarith
  refine ⟨c, c1, (vlen_via _ _ _).trans ((add_le_add c2 n2).trans ?_), (vlen_via _ _ _).trans ((add_le_add c3 n3).trans ?_)⟩
  · have b1 := mul_le_mul_of_nonneg_left hrr (show 0 ≤ 300 * (10 / 9 * ((Q + 2) / (k.e - 1))) * R.u by positivity)
    have b2 : 300 * (10 / 9 * ((Q + 2) / (k.e - 1))) * R.u * (10 / 9 * (k.a * Q)) = 30000 / 81 * (Q * (Q + 2)) * (k.a * R.u / (k.e - 1)) := by field_simp; ring
    have b3 : 10 / 9 * (k.a * Q * (150 * R.u * (1 + Q / (k.e - 1)))) = 500 / 3 * (Q * (k.e - 1 + Q)) * (k.a * R.u / (k.e - 1)) := by field_simp; ring
    have b4 : k.a * (4800 * W ^ 2 / (k.e - 1) * R.u) = 4800 * W ^ 2 * (k.a * R.u / (k.e - 1)) := by ring
    refine (add_le_add b1 le_rfl).trans ?_
    rw [b2, b3, b4, ← add_mul]
    refine mul_le_mul_of_nonneg_right ?_ (by positivity)
    have b5 : Q * (Q + 2) ≤ 2 * W * (4 * W) := mul_le_mul hW (by linarith) (by linarith) (by linarith)
    have b6 : Q * (k.e - 1 + Q) ≤ 2 * W * (4 * W) := mul_le_mul hW (by linarith) (by linarith) (by linarith)
    linarith [sq_nonneg W]
  · have b2 : 200 * (10 / 9 * ((Q + 2) / (k.e - 1))) * R.u * ((1 + k.e) * mu / (N * k.a ^ 2 * w)) = 2000 / 9 * (Q + 2) * (k.a * N * ((k.e + 1) / w) * R.u / (k.e - 1)) := by
      rw [← hn2]; field_simp; ring
    have b3 : k.a * N / w * (150 * R.u) ≤ 150 * W * (k.a * N * ((k.e + 1) / w) * R.u / (k.e - 1)) := by
      have : 150 * W * (k.a * N * ((k.e + 1) / w) * R.u / (k.e - 1)) = k.a * N / w * (150 * R.u) * (W * ((k.e + 1) / (k.e - 1))) := by ring
      rw [this]
      refine le_mul_of_one_le_right (by positivity) ?_
      have : 1 ≤ (k.e + 1) / (k.e - 1) := by rw [le_div_iff₀ hq]; linarith
      exact one_le_mul_of_one_le_of_one_le hW1 this
    have b4 : k.a * N * ((k.e + 1) / w) * (1300 * W / (k.e - 1) * R.u) = 1300 * W * (k.a * N * ((k.e + 1) / w) * R.u / (k.e - 1)) := by ring
    show 200 * (10 / 9 * ((Q + 2) / (k.e - 1))) * R.u * ((1 + k.e) * mu / (N * k.a ^ 2 * w)) + _ ≤ _
    refine (add_le_add le_rfl b3).trans ?_
    rw [b2, b4, ← add_mul]
    refine mul_le_mul_of_nonneg_right ?_ (by positivity)
    linarith

/-! ## One step of `propagate` -/

/-- the object answers the mean anomaly `M` for its orbit `j` -/
def RReadsMean (s : Orb (RF R)) (j : Nat) (M : ℝ) : Prop := ∃ Ms, (get_mean_anomaly (rfKern g) s).1 = .ok Ms ∧ Ms[j]? = some (RF.num R M)

/-- the solver with the options `o` converges for the eccentricity `e` up to the mean anomaly `top`, which belongs to the hyperbolic anomaly `S` -/
structure HypSolver (o : SolverOpts (RF R)) (e tol top S : ℝ) : Prop where
  e_gt : 1 < e
  top_le : top ≤ 2 * Real.pi
  anom_nonneg : 0 ≤ S
  anom : e * Real.sinh S - S = top
  tol_pos : 0 < tol
  tol_le : tol ≤ 1 / 10 ^ 6
  room : 2000 * (R.u * (top + e)) ≤ e - 1
  accuracy : 100 * R.u * ((top + e) * (10 + S)) ≤ tol
  solver : ∃ (mi : Int) (N : Nat), o = ropts R tol mi 5 ∧
    (6 / 5 ≤ e ∧ 5 * (top + e) * (95 / 100 : ℝ) ^ N ≤ tol ∨ tol ≤ 1 / 10 ^ 9 ∧ 15 * (top + e) * (9 / 10 : ℝ) ^ N ≤ tol) ∧ N < mi

/-- one hyperbolic orbit of an object computed with rounding, at position `j`: the numbers `k` are read from `orb.kepler`, `mu` is what `G*(M0 + m)` computes to,
the angles are in radians, and the solver converges up to the mean anomaly `top`, which belongs to the hyperbolic anomaly `S` -/
structure RHyperbola (s : Orb (RF R)) (j : Nat) (k : Kep ℝ) (mu tol top S : ℝ) : Prop extends HypSolver s.opts k.e tol top S where
  read : ∃ ks, (get_kepler (rfKern g) s).1 = .ok ks ∧ ks[j]? = some (k.num R)
  grav : ∃ m, s.m[j]? = some m ∧ s.G * (s.M0 + m) = RF.num R mu
  mu_pos : 0 < mu
  a_pos : 0 < k.a
  radians : s.degrees = false

theorem HypSolver.small {o : SolverOpts (RF R)} {e tol top S : ℝ} (h : HypSolver o e tol top S) :
    0 ≤ top ∧ R.u * (top + e) ≤ 1 / 10 ^ 9 ∧ R.u ≤ 1 / 10 ^ 9 := by
  have hu0 := R.u_nonneg
  have he := h.e_gt
  have hs := h.anom_nonneg
  have hM0 : 0 ≤ top := by
    rw [← h.anom]
    have := Real.self_le_sinh_iff.mpr hs
    nlinarith
  have h1 := mul_nonneg (mul_nonneg hu0 (show 0 ≤ top + e by linarith)) hs
  have h2 : R.u * (top + e) ≤ 1 / 10 ^ 9 := by linarith [h.accuracy, h.tol_le]
  exact ⟨hM0, h2, by nlinarith⟩

/-- the eccentric anomaly of the new mean anomaly -/
theorem HypSolver.solve {o : SolverOpts (RF R)} {e tol top S : ℝ} (h : HypSolver o e tol top S) {M : ℝ} (h0 : 0 ≤ M) (h1 : M ≤ top) :
    ∃ E, meanToEccentricEl o (RF.num R M) (RF.num R e) = RF.num R E ∧ |e * Real.sinh E - E - M| ≤ tol + 19 * R.u * (top + e) := by
  have hu0 := R.u_nonneg
  have he1 := h.e_gt
  obtain ⟨mi, N, ho, hN, hmi⟩ := h.solver
  obtain ⟨s0, hs0⟩ : ∃ s0, s0 = hypInv he1 M := ⟨_, rfl⟩
  have hm : e * Real.sinh s0 - s0 = M := by rw [← meanOf_hyp he1, hs0, meanOf_hypInv]
  have hmono : StrictMono (meanOf e) := meanOf_strictMono' (by linarith) he1.ne'
  have hs0n : 0 ≤ s0 := by
    rw [← hmono.le_iff_le, meanOf_hyp he1, meanOf_hyp he1, hm]; simpa using h0
  have hs0S : s0 ≤ S := by
    rw [← hmono.le_iff_le, meanOf_hyp he1, meanOf_hyp he1, hm, h.anom]; exact h1
  have hp1 : (M + e) * (10 + s0) ≤ (top + e) * (10 + S) := mul_le_mul (by linarith) (by linarith) (by linarith) (by linarith)
  have hp2 := mul_le_mul_of_nonneg_left hp1 (show 0 ≤ 100 * R.u by linarith)
  have hsol : ∃ (E : ℝ) (n : Nat), laguerre_solve_kepler (get_hyperbolic_kepler_guess (RF.num R M) (RF.num R e)) (RF.num R M) (RF.num R e) (ropts R tol mi 5)
      = (RF.num R E, (n : Int)) ∧ n ≤ N ∧ |e * Real.sinh E - E - M| < tol + 19 * R.u * (M + e) := by
    rcases hN with ⟨he, hN⟩ | ⟨ht, hN⟩
    · have hp3 := mul_le_mul_of_nonneg_right (show 5 * (M + e) ≤ 5 * (top + e) by linarith) (show 0 ≤ (95 / 100 : ℝ) ^ N by positivity)
      exact RSolveH.solve_hyp (R := R) (mi := mi) he hs0n hm h.tol_pos h.tol_le (hp2.trans h.accuracy) N (hp3.trans hN) hmi
    · have hp3 := mul_le_mul_of_nonneg_right (show 15 * (M + e) ≤ 15 * (top + e) by linarith) (show 0 ≤ (9 / 10 : ℝ) ^ N by positivity)
      exact RSolveH.solve_hyp' (R := R) (mi := mi) he1 hs0n hm h.tol_pos ht (hp2.trans h.accuracy) N (hp3.trans hN) hmi
  obtain ⟨E, n, q1, q2, q3⟩ := hsol
  have hg : keplerGuess (RF.num R M) (RF.num R e) = get_hyperbolic_kepler_guess (RF.num R M) (RF.num R e) := by
    unfold keplerGuess
    simp only [one_num, lt_num, he1, decide_true, if_true]
  refine ⟨E, ?_, q3.le.trans ?_⟩
  · rw [ho, meanToEccentricEl_guess _ _ _ (by simp; linarith), hg, q1]
  · have := mul_le_mul_of_nonneg_left (show M + e ≤ top + e by linarith) (show 0 ≤ 19 * R.u by linarith)
    linarith

theorem RHyperbola.mean {n : Nat} {s : Orb (RF R)} {j : Nat} {k : Kep ℝ} {mu tol top S M : ℝ} (hs : OneEntryPerOrbit s n) (h : RHyperbola g s j k mu tol top S)
    (hM : RReadsMean g s j M) : anomOf (rfKern g) .mean (kepCheck (rfKern g) s) (k.num R) = RF.num R M := by
  obtain ⟨ks, hks, hk⟩ := h.read
  obtain rfl : ks = (kepCheck (rfKern g) s).kep := (Except.ok.inj hks).symm
  obtain ⟨r, hr, -⟩ := get_anomaly_val (rfKern g) hs.wfe .mean
  obtain ⟨Ms, m1, m2⟩ := hM
  have e1 : (get_mean_anomaly (rfKern g) s).1 = _ := congrArg Prod.fst hr
  rw [e1] at m1
  obtain rfl := Except.ok.inj m1
  rw [List.getElem?_map, hk, Option.map_some] at m2
  exact Option.some.inj m2

/-- what is stored, and the true anomaly of it -/
theorem stored {o : SolverOpts (RF R)} {e : ℝ} (h1 : 1 < e) (t : Anom) {M E nu : ℝ} (hE : meanToEccentricEl o (RF.num R M) (RF.num R e) = RF.num R E)
    (hnu : wrap (ettHyp (RF.num R E) (RF.num R e)) = RF.num R nu) :
    ∃ x, conv (rfKern g) o false .mean t (RF.num R M) (RF.num R e) = RF.num R x ∧
      toTrue (rfKern g) t o false (RF.num R x) (RF.num R e) = RF.num R nu ∧ (t = .mean → x = M) ∧ (t = .ecc → x = E) ∧ (t = .tru → x = nu) := by
  cases t
  · exact ⟨nu, (rh_mtt g h1 hE).trans hnu, rfl, by simp, by simp, by simp⟩
  · exact ⟨E, hE, (rh_ett g h1 E).trans hnu, by simp, by simp, by simp⟩
  · exact ⟨M, rfl, (rh_mtt g h1 hE).trans hnu, by simp, by simp, by simp⟩

theorem RHyperbola.step {n : Nat} {s : Orb (RF R)} {j : Nat} {k : Kep ℝ} {mu tol top S M : ℝ} (hs : OneEntryPerOrbit s n) (hr : s.kro = false)
    (h : RHyperbola g s j k mu tol top S) (hM : RReadsMean g s j M) {dt : Val (RF R)} {dts : List (RF R)} (hdt : dt.Row n dts) {d : ℝ}
    (hd : dts[j]? = some (RF.num R d))
    (hlo : (62 + 5 * |M| + 18 * (√(mu / k.a ^ 3) * |d|)) * R.u < M + √(mu / k.a ^ 3) * d)
    (hhi : M + √(mu / k.a ^ 3) * d < top - (62 + 5 * |M| + 18 * (√(mu / k.a ^ 3) * |d|)) * R.u) :
    ∃ (s' : Orb (RF R)) (x M1 : ℝ), propagate (rfKern g) dt s = (.ok (), s') ∧ OneEntryPerOrbit s' n ∧ OnlyElements s s' ∧
      (∃ ks, (get_kepler (rfKern g) s').1 = .ok ks ∧ ks[j]? = some (Kep.num R { k with nu := x })) ∧ (s.type = .mean → x = M1) ∧ 0 ≤ M1 ∧ M1 ≤ top ∧
      |M1 - (M + √(mu / k.a ^ 3) * d)| ≤ (21 + 5 * |M| + 18 * (√(mu / k.a ^ 3) * |d|)) * R.u ∧
      (s.auto = true ∨ s.direct = true → ∃ cs c E, (get_cartesian (rfKern g) s').1 = .ok cs ∧ cs[j]? = some (Cart.num R c) ∧
        |k.e * Real.sinh E - E - M1| ≤ tol + 19 * R.u * (top + k.e) ∧
        vlen (c.r - (hyperbolaState k √(mu / k.a ^ 3) E).r) ≤ k.a * (4800 * (top + k.e) ^ 2 / (k.e - 1) * R.u) ∧
        vlen (c.v - (hyperbolaState k √(mu / k.a ^ 3) E).v) ≤ k.a * √(mu / k.a ^ 3) * √((k.e + 1) / (k.e - 1)) * (1300 * (top + k.e) / (k.e - 1) * R.u)) := by
  have hu0 := R.u_nonneg
  have h1 := h.e_gt
  have hdeg := h.radians
  obtain ⟨htop0, huW, hu9⟩ := h.small
  have hu6 : R.u ≤ 1 / 10 ^ 6 := by linarith
  have hM' := h.mean g hs hM
  obtain ⟨ks, hks, hk⟩ := h.read
  obtain rfl : ks = (kepCheck (rfKern g) s).kep := (Except.ok.inj hks).symm
  obtain ⟨m, hm, hmu⟩ := h.grav
  have hmu : (rfKern g).mu s.G s.M0 m = RF.num R mu := hmu
  obtain ⟨e1, e2, e3, -⟩ := kepCheck_settings (rfKern g) s
  obtain ⟨-, em, eG, eM0⟩ := kepCheck_body (rfKern g) s
  obtain ⟨M1, z, a1, a2, a3, a4⟩ := Wide.advance_err g hu6 h.a_pos h.mu_pos M d
  have hn := (motion_pos h.mu_pos h.a_pos).1
  rw [abs_mul, abs_of_pos hn] at a4
  obtain ⟨B, hB⟩ : ∃ B, B = (5 * |M| + 18 * (√(mu / k.a ^ 3) * |d|)) * R.u := ⟨_, rfl⟩
  have hB0 : 0 ≤ B := by rw [hB]; positivity
  have hB1 : (62 + 5 * |M| + 18 * (√(mu / k.a ^ 3) * |d|)) * R.u = 62 * R.u + B := by rw [hB]; ring
  have hB2 : (21 + 5 * |M| + 18 * (√(mu / k.a ^ 3) * |d|)) * R.u = 21 * R.u + B := by rw [hB]; ring
  rw [hB1] at hlo hhi
  rw [hB2] at a4 ⊢
  have hz : z = 0 := by
    have hpi := Real.pi_pos
    have ht := h.top_le
    obtain ⟨b1, b2⟩ := abs_le.mp a4
    rcases lt_trichotomy z 0 with hz | hz | hz
    · exfalso
      have hz' : (z : ℝ) ≤ -1 := by exact_mod_cast Int.le_sub_one_of_lt hz
      have := mul_le_mul_of_nonneg_right hz' (show 0 ≤ 2 * Real.pi by linarith)
      linarith
    · exact hz
    · exfalso
      have hz' : (1 : ℝ) ≤ z := by exact_mod_cast hz
      have := mul_le_mul_of_nonneg_right hz' (show 0 ≤ 2 * Real.pi by linarith)
      linarith
  rw [hz] at a4
  have a4 : |M1 - (M + √(mu / k.a ^ 3) * d)| ≤ 21 * R.u + B := by simpa using a4
  have hM1 : M1 ≤ top := by
    obtain ⟨b1, b2⟩ := abs_le.mp a4
    linarith
  have hnew : newMean (rfKern g) (kepCheck (rfKern g) s) (k.num R) m (RF.num R d) = RF.num R M1 := by
    unfold newMean
    rw [hM', e2, eG, eM0, hmu, hdeg]
    exact a1
  obtain ⟨E, q1, q2⟩ := h.solve a2 hM1
  obtain ⟨nu, y, l1, -, -, l4⟩ := RHyper.ett_err (R := R) hu6 h1 E
  obtain ⟨x, x1, x2, x3, -⟩ := stored g h1 s.type q1 l1
  have hcol : ({ k.num R with nu := conv (rfKern g) s.opts s.degrees .mean s.type (newMean (rfKern g) (kepCheck (rfKern g) s) (k.num R) m (RF.num R d)) (k.num R).e } : Kep (RF R))
      = Kep.num R { k with nu := x } := by
    rw [hnew, hdeg]
    show ({ k.num R with nu := conv (rfKern g) s.opts false .mean s.type _ (RF.num R k.e) } : Kep (RF R)) = _
    rw [x1]; rfl
  obtain ⟨s', p1, p2, p3, p4, p5⟩ := propagate_ok (rfKern g) hs.wfe hr hdt
  refine ⟨s', x, M1, p1, p2.one, p3, ⟨s'.kep, ?_, ?_⟩, x3, a2, hM1, a4, fun hmode => ?_⟩
  · show Except.ok (kepCheck (rfKern g) s').kep = _
    rw [p4.check]
  · have hmk : (kepCheck (rfKern g) s).m[j]? = some m := by rw [em]; exact hm
    rw [p5, List.getElem?_zipWith, hk]
    unfold newMeans
    rw [List.getElem?_zipWith]
    simp only [List.zip, List.getElem?_zipWith, hk, hmk, hd]
    rw [hcol]
  · obtain ⟨cs, c1, c2⟩ := propagate_cart (rfKern g) hs.wfe hr hdt hmode p1 hk hm hd (by rw [hcol]; rfl)
    have hQ := radius_le (W := top + k.e) h1 (E := E) (by
      have := abs_add_le (k.e * Real.sinh E - E - M1) M1
      rw [sub_add_cancel, abs_of_nonneg a2] at this
      linarith [h.tol_le])
    obtain ⟨c, d1, d2, d3⟩ := cart_err g h.mu_pos h.a_pos h1 (RHyper.hyp_point E y) (l4.trans (by linarith)) hQ (by linarith) huW h.room
    refine ⟨cs, c, E, c1, ?_, q2, d2, d3⟩
    rw [c2, hcol, hmu, hdeg]
    refine congrArg some ?_
    rw [← d1]
    show (rfKern g).kepToCart false (RF.num R mu) { Kep.num R { k with nu := x } with nu := toTrue (rfKern g) s.type s.opts false (RF.num R x) (RF.num R k.e) } = _
    rw [x2]; rfl


/-- points of a hyperbola with close mean anomalies -/
theorem points_close {mu : ℝ} (hmu : 0 < mu) {k : Kep ℝ} (ha : 0 < k.a) (h1 : 1 < k.e) {M D E Δ : ℝ} (hd : |k.e * Real.sinh E - E - (M + √(mu / k.a ^ 3) * D)| ≤ Δ) :
    vlen ((hyperbolaState k √(mu / k.a ^ 3) E).r - (hyperbolaState k √(mu / k.a ^ 3) (hypInv h1 (M + √(mu / k.a ^ 3) * D))).r) ≤ k.a * (√((k.e + 1) / (k.e - 1)) * Δ) ∧
    vlen ((hyperbolaState k √(mu / k.a ^ 3) E).v - (hyperbolaState k √(mu / k.a ^ 3) (hypInv h1 (M + √(mu / k.a ^ 3) * D))).v) ≤
      k.a * √(mu / k.a ^ 3) * (Δ / (k.e - 1) ^ 2) := by
  obtain ⟨hn, hn2⟩ := motion_pos hmu ha
  have hq : 0 < k.e - 1 := by linarith
  obtain ⟨w, hw⟩ : ∃ w, w = √(mu / k.a ^ 3) := ⟨_, rfl⟩
  rw [← hw] at hn hn2 hd ⊢
  have hN : ObeysNewton mu fun t => hyperbolaState k w (hypInv h1 (M + w * t)) := hyperbola_newton k mu w ha h1 hn2 M
  obtain ⟨t, ht⟩ : ∃ t, t = (k.e * Real.sinh E - E - M) / w := ⟨_, rfl⟩
  have hE : hypInv h1 (M + w * t) = E := by
    rw [ht, mul_div_cancel₀ _ hn.ne', add_sub_cancel, ← meanOf_hyp h1, hypInv_meanOf]
  have htime : |t - D| ≤ Δ * (1 / w) := by
    have : t - D = (k.e * Real.sinh E - E - (M + w * D)) / w := by rw [ht]; field_simp; ring
    rw [this, abs_div, abs_of_pos hn, mul_one_div]
    exact div_le_div_of_nonneg_right hd hn.le
  have c1 := curve_lipschitz (fun t => (hN t).1) (fun t => hyperbola_speed k hn.le ha h1 _) t D
  have c2 := curve_lipschitz (fun t => (hN t).2) (fun t => hyperbola_acc k ha h1 hn2 _) t D
  simp only [hE] at c1 c2
  refine ⟨c1.trans ((mul_le_mul_of_nonneg_left htime (by positivity)).trans (le_of_eq ?_)), c2.trans ((mul_le_mul_of_nonneg_left htime (by positivity)).trans (le_of_eq ?_))⟩
  · field_simp
  · field_simp

/-- the solution of Newton's equations of motion with the mean anomaly `M` at time 0 -/
theorem curve {mu : ℝ} (hmu : 0 < mu) {k : Kep ℝ} (ha : 0 < k.a) (h1 : 1 < k.e) (M : ℝ) :
    ∃ c : ℝ → Cart ℝ, (∀ t, c t = hyperbolaState k √(mu / k.a ^ 3) (hypInv h1 (M + √(mu / k.a ^ 3) * t))) ∧ ObeysNewton mu c ∧
      ∀ nu E, SamePointHyp k.e nu E → k.e * Real.sinh E - E = M → DescribesOrbit mu { k with nu := nu } (c 0) := by
  obtain ⟨hn, hn2⟩ := motion_pos hmu ha
  refine ⟨fun t => hyperbolaState k √(mu / k.a ^ 3) (hypInv h1 (M + √(mu / k.a ^ 3) * t)), fun t => rfl, hyperbola_newton k mu _ ha h1 hn2 M, ?_⟩
  intro nu E hp hE
  obtain ⟨h2, h3⟩ := hp.cos_sin h1
  obtain ⟨h4, h5⟩ := state_hyp { k with nu := nu } mu √(mu / k.a ^ 3) E ha h1 hn hn2 h2 h3
  show DescribesOrbit mu _ (hyperbolaState _ _ (hypInv h1 (M + √(mu / k.a ^ 3) * 0)))
  rw [mul_zero, add_zero, ← hE, ← meanOf_hyp h1, hypInv_meanOf]
  have h6 : ({ k with nu := nu } : Kep ℝ).state mu = hyperbolaState k √(mu / k.a ^ 3) E := h4
  rw [← h6]
  exact (show Kep.Adm mu { k with nu := nu } from ⟨hmu, ha, by show 0 ≤ k.e; linarith, h5⟩).describes

variable {g} in
theorem RHyperbola.after {s s' : Orb (RF R)} {j : Nat} {k : Kep ℝ} {mu tol top S : ℝ} (h : RHyperbola g s j k mu tol top S) (ho : OnlyElements s s') {x : ℝ}
    (hk : ∃ ks, (get_kepler (rfKern g) s').1 = .ok ks ∧ ks[j]? = some (Kep.num R { k with nu := x })) : RHyperbola g s' j { k with nu := x } mu tol top S := by
  refine ⟨?_, hk, ?_, h.mu_pos, h.a_pos, ?_⟩
  · rw [ho]; exact h.toHypSolver
  · rw [ho]; exact h.grav
  · rw [ho]; exact h.radians

theorem reads {n : Nat} {s : Orb (RF R)} (hs : OneEntryPerOrbit s n) (hdeg : s.degrees = false) {j : Nat} {k : Kep ℝ}
    (hread : ∃ ks, (get_kepler (rfKern g) s).1 = .ok ks ∧ ks[j]? = some (k.num R)) {M : ℝ}
    (h : conv (rfKern g) s.opts false s.type .mean (RF.num R k.nu) (RF.num R k.e) = RF.num R M) : RReadsMean g s j M := by
  obtain ⟨ks, hks, hk⟩ := hread
  obtain rfl : ks = (kepCheck (rfKern g) s).kep := (Except.ok.inj hks).symm
  obtain ⟨r, hr, -⟩ := get_anomaly_val (rfKern g) hs.wfe .mean
  obtain ⟨e1, e2, e3, -⟩ := kepCheck_settings (rfKern g) s
  refine ⟨_, congrArg Prod.fst hr, ?_⟩
  rw [List.getElem?_map, hk, Option.map_some, anomOf_conv, e1, e2, e3, hdeg]
  exact congrArg some h

/-! ## Any number of steps, for objects that store the mean anomaly -/

/-- `m` calls of `propagate`, one or more, with time steps for the orbit at position `j` that add up to `D`, their absolute values to `T`, such that the
mean anomaly `M0 + w t` stays between 0 and `top` after each, with the rounding errors as margin -/
inductive RHypRun (n j : Nat) (M0 w top : ℝ) (s : Orb (RF R)) : Orb (RF R) → Nat → ℝ → ℝ → Prop where
  | one {s' : Orb (RF R)} (dt : Val (RF R)) (dts : List (RF R)) (d : ℝ) (row : dt.Row n dts) (at_j : dts[j]? = some (RF.num R d))
      (lo : (94 + 5 * |M0| + 18 * (w * |d|)) * R.u < M0 + w * d) (hi : M0 + w * d < top - (94 + 5 * |M0| + 18 * (w * |d|)) * R.u)
      (run : propagate (rfKern g) dt s = (.ok (), s')) : RHypRun n j M0 w top s s' 1 d |d|
  | more {s' s'' : Orb (RF R)} {m : Nat} {D T : ℝ} (before : RHypRun n j M0 w top s s' m D T) (dt : Val (RF R)) (dts : List (RF R)) (d : ℝ) (row : dt.Row n dts)
      (at_j : dts[j]? = some (RF.num R d))
      (lo : (94 * (m + 1) + 5 * |M0| + 18 * (w * (T + |d|))) * R.u < M0 + w * (D + d))
      (hi : M0 + w * (D + d) < top - (94 * (m + 1) + 5 * |M0| + 18 * (w * (T + |d|))) * R.u)
      (run : propagate (rfKern g) dt s' = (.ok (), s'')) : RHypRun n j M0 w top s s'' (m + 1) (D + d) (T + |d|)

/-- what holds after any number of steps -/
structure RHypAfter (n j : Nat) (s s' : Orb (RF R)) (k : Kep ℝ) (mu tol top : ℝ) (m : Nat) (D T M1 : ℝ) : Prop where
  entries : OneEntryPerOrbit s' n
  only : OnlyElements s s'
  read : ∃ ks, (get_kepler (rfKern g) s').1 = .ok ks ∧ ks[j]? = some (Kep.num R { k with nu := M1 })
  nonneg : 0 ≤ M1
  le : M1 ≤ top
  close : |M1 - (k.nu + √(mu / k.a ^ 3) * D)| ≤ (53 * m + 5 * |k.nu| + 18 * (√(mu / k.a ^ 3) * T)) * R.u
  cart : s.auto = true ∨ s.direct = true → ∃ cs c E, (get_cartesian (rfKern g) s').1 = .ok cs ∧ cs[j]? = some (Cart.num R c) ∧
    |k.e * Real.sinh E - E - M1| ≤ tol + 19 * R.u * (top + k.e) ∧
    vlen (c.r - (hyperbolaState k √(mu / k.a ^ 3) E).r) ≤ k.a * (4800 * (top + k.e) ^ 2 / (k.e - 1) * R.u) ∧
    vlen (c.v - (hyperbolaState k √(mu / k.a ^ 3) E).v) ≤ k.a * √(mu / k.a ^ 3) * √((k.e + 1) / (k.e - 1)) * (1300 * (top + k.e) / (k.e - 1) * R.u)

variable {g} in
theorem run_after {n j m : Nat} {s s' : Orb (RF R)} {k : Kep ℝ} {mu tol top S D T : ℝ} (hrun : RHypRun g n j k.nu √(mu / k.a ^ 3) top s s' m D T)
    (hs : OneEntryPerOrbit s n) (hr : s.kro = false) (h : RHyperbola g s j k mu tol top S) (ht : s.type = .mean) :
    ∃ M1, RHypAfter g n j s s' k mu tol top m D T M1 := by
  have hu0 := R.u_nonneg
  obtain ⟨htop0, huW, hu9⟩ := h.small
  obtain ⟨hn, -⟩ := motion_pos h.mu_pos h.a_pos
  have hpi := Real.pi_lt_d4
  have htl := h.top_le
  induction hrun with
  | one dt dts d row at_j lo hi run =>
    have hM : RReadsMean g s j k.nu := reads g hs h.radians h.read (by rw [ht]; rfl)
    obtain ⟨s1, x, M1, p1, p2, p3, p4, p5, p6, p7, p8, p9⟩ := h.step g hs hr hM row at_j (by linarith) (by linarith)
    obtain rfl : s1 = _ := congrArg Prod.snd (p1.symm.trans run)
    obtain rfl := p5 ht
    refine ⟨x, p2, p3, p4, p6, p7, p8.trans ?_, p9⟩
    push_cast
    linarith
  | @more s' s'' m D T before dt dts d row at_j lo hi run ih =>
    obtain ⟨M1, a⟩ := ih
    have h' := h.after a.only a.read
    have ht' : s'.type = .mean := by rw [a.only]; exact ht
    have hau : s'.auto = s.auto := by rw [a.only]
    have hdi : s'.direct = s.direct := by rw [a.only]
    have hM : RReadsMean g s' j M1 := reads g a.entries h'.radians a.read (by rw [ht']; rfl)
    have hc := a.close
    obtain ⟨w, hw⟩ : ∃ w, w = √(mu / k.a ^ 3) := ⟨_, rfl⟩
    rw [← hw] at hc lo hi
    have habs : |M1| ≤ 63 / 10 := by rw [abs_of_nonneg a.nonneg]; linarith [a.le]
    have hq := mul_le_mul_of_nonneg_right habs hu0
    have hM1 := a.nonneg
    have hmu0 := mul_nonneg (Nat.cast_nonneg (α := ℝ) m) hu0
    have hcc := abs_le.mp hc
    obtain ⟨s1, x, M2, p1, p2, p3, p4, p5, p6, p7, p8, p9⟩ := h'.step g a.entries (by rw [a.only]; exact hr) hM row at_j
      (by show (62 + 5 * |M1| + 18 * (√(mu / k.a ^ 3) * |d|)) * R.u < M1 + √(mu / k.a ^ 3) * d
          rw [← hw]; linarith [hcc.1])
      (by show M1 + √(mu / k.a ^ 3) * d < top - (62 + 5 * |M1| + 18 * (√(mu / k.a ^ 3) * |d|)) * R.u
          rw [← hw]; linarith [hcc.2])
    obtain rfl : s1 = _ := congrArg Prod.snd (p1.symm.trans run)
    obtain rfl := p5 ht'
    rw [hau, hdi] at p9
    refine ⟨x, p2, ?_, p4, p6, p7, ?_, p9⟩
    · rw [p3, a.only]; rfl
    · have p8 : |x - (M1 + √(mu / k.a ^ 3) * d)| ≤ (21 + 5 * |M1| + 18 * (√(mu / k.a ^ 3) * |d|)) * R.u := p8
      rw [← hw] at p8 ⊢
      push_cast
      have e4 : x - (k.nu + w * (D + d)) = (x - (M1 + w * d)) + (M1 - (k.nu + w * D)) := by ring
      rw [e4]
      have e5 := abs_add_le (x - (M1 + w * d)) (M1 - (k.nu + w * D))
      linarith

/-- the default options, for `e` from 6/5 to 7 and mean anomalies up to `7 - e` -/
theorem default_solver (hu : R.u ≤ (1 / 2) ^ 53) {e : ℝ} (he : 6 / 5 ≤ e) (h7 : e ≤ 7) :
    ∃ tol S, tol ≤ 101 / 10 ^ 14 ∧ HypSolver (R := R) .dflt e tol (7 - e) S := by
  have h1 : 1 < e := by linarith
  have hu' : R.u ≤ 11103 / 10 ^ 20 := hu.trans (by norm_num)
  have hu0 := R.u_nonneg
  have hpi := Real.pi_gt_d4
  have ht := abs_le.mp (rd_err (R := R) (x := 1 / 10 ^ 12) (B := 1 / 10 ^ 12) (by linarith) (by rw [abs_of_pos (by norm_num)]))
  obtain ⟨t1, t2⟩ := ht
  obtain ⟨S, hS⟩ : ∃ S, S = hypInv h1 (7 - e) := ⟨_, rfl⟩
  have hM : e * Real.sinh S - S = 7 - e := by rw [← meanOf_hyp h1, hS, meanOf_hypInv]
  have hmono : StrictMono (meanOf e) := meanOf_strictMono' (by linarith) h1.ne'
  have hs : 0 ≤ S := by
    rw [← hmono.le_iff_le, meanOf_hyp h1, meanOf_hyp h1, hM]; simpa using h7
  have hEs : S ≤ 27 / 10 := by
    by_contra hn
    push Not at hn
    have h2 := Lag.Hyp.rise_sign (e := e) (by linarith) hn.le
    have h3 : 73 / 10 ≤ Real.sinh (27 / 10) := by
      have h4 := Lag.Hyp.exp_poly (show (0 : ℝ) ≤ 27 / 20 by norm_num)
      have h5 : Real.exp (27 / 10) = Real.exp (27 / 20) * Real.exp (27 / 20) := by rw [← Real.exp_add]; norm_num
      have h7 := Real.exp_pos (-(27 / 10))
      have h8 : Real.exp (-(27 / 10)) * Real.exp (27 / 10) = 1 := by rw [← Real.exp_add]; simp
      have h10 : 147 / 10 ≤ Real.exp (27 / 10) := by
        have h6 : 3845 / 1000 ≤ Real.exp (27 / 20) := le_trans (by norm_num) h4
        rw [h5]; nlinarith
      rw [Real.sinh_eq]
      nlinarith
    have h4 : 0 ≤ (e - 1) * (S - 27 / 10) := mul_nonneg (by linarith) (by linarith)
    unfold Lag.Hyp.rise at h2
    have h5 := mul_le_mul_of_nonneg_left h3 (show 0 ≤ e by linarith)
    linarith
  have hb : (7 - e + e) * (10 + S) ≤ 7 * (127 / 10) := mul_le_mul (by linarith) (by linarith) (by linarith) (by norm_num)
  have hub := mul_le_mul hu' hb (mul_nonneg (by linarith) (by linarith)) (by norm_num)
  have hN : (95 / 100 : ℝ) ^ 660 ≤ 1 / 10 ^ 14 := by
    have h1 : (95 / 100 : ℝ) ^ 20 ≤ 36 / 100 := by norm_num
    rw [show 660 = 20 * 33 by norm_num, pow_mul]
    refine (pow_le_pow_left₀ (by positivity) h1 33).trans (by norm_num)
  have t3 : 101 / 100 * R.u * (1 / 10 ^ 12) ≤ 101 / 100 * (1 / 10 ^ 6) * (1 / 10 ^ 12) := by
    refine mul_le_mul_of_nonneg_right ?_ (by norm_num)
    linarith
  obtain ⟨P, hP⟩ : ∃ P, P = (95 / 100 : ℝ) ^ 660 := ⟨_, rfl⟩
  refine ⟨R.rd (1 / 10 ^ 12), S, by linarith, h1, by linarith, hs, hM, rd_pos (R := R) (by norm_num), by linarith, by linarith, by linarith,
    5000, 660, dflt_ropts, .inl ⟨he, ?_⟩, by norm_num⟩
  rw [← hP] at hN ⊢
  linarith

/-- the default options, for `e` very close to 1 -/
theorem default_solver_near (hu : R.u ≤ (1 / 2) ^ 53) {e : ℝ} (he : 1 + 2 / 10 ^ 12 ≤ e) (h7 : e ≤ 69 / 10) :
    ∃ tol S, tol ≤ 101 / 10 ^ 14 ∧ HypSolver (R := R) .dflt e tol (69 / 10 - e) S := by
  have h1 : 1 < e := by linarith
  have hu' : R.u ≤ 11103 / 10 ^ 20 := hu.trans (by norm_num)
  have hu0 := R.u_nonneg
  have hpi := Real.pi_gt_d4
  have ht := abs_le.mp (rd_err (R := R) (x := 1 / 10 ^ 12) (B := 1 / 10 ^ 12) (by linarith) (by rw [abs_of_pos (by norm_num)]))
  obtain ⟨t1, t2⟩ := ht
  obtain ⟨S, hS⟩ : ∃ S, S = hypInv h1 (69 / 10 - e) := ⟨_, rfl⟩
  have hM : e * Real.sinh S - S = 69 / 10 - e := by rw [← meanOf_hyp h1, hS, meanOf_hypInv]
  have hmono : StrictMono (meanOf e) := meanOf_strictMono' (by linarith) h1.ne'
  have hs : 0 ≤ S := by
    rw [← hmono.le_iff_le, meanOf_hyp h1, meanOf_hyp h1, hM]; simpa using h7
  have hEs : S ≤ 29 / 10 := by
    by_contra hn
    push Not at hn
    have h2 := Lag.Hyp.rise_sign h1 hn.le
    have h3 : 895 / 100 ≤ Real.sinh (29 / 10) := by
      have h4 := Lag.Hyp.exp_poly (show (0 : ℝ) ≤ 29 / 20 by norm_num)
      have h5 : Real.exp (29 / 10) = Real.exp (29 / 20) * Real.exp (29 / 20) := by rw [← Real.exp_add]; norm_num
      have h6 : 4246 / 1000 ≤ Real.exp (29 / 20) := le_trans (by norm_num) h4
      have h7 : Real.exp (-(29 / 10)) * Real.exp (29 / 10) = 1 := by rw [← Real.exp_add]; simp
      have h8 : 18 ≤ Real.exp (29 / 10) := by
        rw [h5]
        have := mul_le_mul h6 h6 (by norm_num) (Real.exp_pos _).le
        linarith
      have h9 := mul_le_mul_of_nonneg_left h8 (Real.exp_pos (-(29 / 10))).le
      rw [Real.sinh_eq]
      linarith
    have h4 : 0 ≤ (e - 1) * (S - 29 / 10) := mul_nonneg (by linarith) (by linarith)
    unfold Lag.Hyp.rise at h2
    have h5 := mul_le_mul_of_nonneg_left h3 (show 0 ≤ e by linarith)
    linarith
  have hb : (69 / 10 - e + e) * (10 + S) ≤ 69 / 10 * (129 / 10) := mul_le_mul (by linarith) (by linarith) (by linarith) (by norm_num)
  have hub := mul_le_mul hu' hb (mul_nonneg (by linarith) (by linarith)) (by norm_num)
  have hN : (9 / 10 : ℝ) ^ 320 ≤ 9 / 10 ^ 15 := by
    have h1 : (9 / 10 : ℝ) ^ 20 ≤ 122 / 1000 := by norm_num
    rw [show 320 = 20 * 16 by norm_num, pow_mul]
    refine (pow_le_pow_left₀ (by positivity) h1 16).trans (by norm_num)
  have t3 : 101 / 100 * R.u * (1 / 10 ^ 12) ≤ 101 / 100 * (1 / 10 ^ 6) * (1 / 10 ^ 12) := by
    refine mul_le_mul_of_nonneg_right ?_ (by norm_num)
    linarith
  obtain ⟨P, hP⟩ : ∃ P, P = (9 / 10 : ℝ) ^ 320 := ⟨_, rfl⟩
  refine ⟨R.rd (1 / 10 ^ 12), S, by linarith, h1, by linarith, hs, hM, rd_pos (R := R) (by norm_num), by linarith, by linarith, by linarith,
    5000, 320, dflt_ropts, .inr ⟨by linarith, ?_⟩, by norm_num⟩
  rw [← hP] at hN ⊢
  linarith

end RHypProp

open Py FX RF RHypProp
variable {R : Rounding} (g : Garb (RF R))

/-- C110: for a hyperbolic orbit (`e > 1`, radians, any anomaly type) of an object with automatic updates whose arithmetic rounds there is one solution `c` of
Newton's equations of motion, which at time 0 is at the exact point with the mean anomaly `M` the object answers.  For every time `d` after which the mean
anomaly is between 0 and `top`, with the rounding errors as margin, `propagate` returns, and the state read from `orb.cartesian` afterwards is close to `c d`. -/
theorem c110 {n : Nat} (s : Orb (RF R)) (hs : OneEntryPerOrbit s n) (hr : s.kro = false) (hmode : s.auto = true ∨ s.direct = true)
    (j : Nat) (k : Kep ℝ) (mu tol top S M : ℝ) (h : RHyperbola g s j k mu tol top S) (hM : RReadsMean g s j M) :
    ∃ c : ℝ → Cart ℝ, ObeysNewton mu c ∧ (∀ nu E, SamePointHyp k.e nu E → k.e * Real.sinh E - E = M → DescribesOrbit mu { k with nu := nu } (c 0)) ∧
      ∀ (dt : Val (RF R)) (dts : List (RF R)) (d : ℝ), dt.Row n dts → dts[j]? = some (RF.num R d) →
        (62 + 5 * |M| + 18 * (√(mu / k.a ^ 3) * |d|)) * R.u < M + √(mu / k.a ^ 3) * d →
        M + √(mu / k.a ^ 3) * d < top - (62 + 5 * |M| + 18 * (√(mu / k.a ^ 3) * |d|)) * R.u →
        ∃ s' cs c', propagate (rfKern g) dt s = (.ok (), s') ∧ (get_cartesian (rfKern g) s').1 = .ok cs ∧ cs[j]? = some (Cart.num R c') ∧
          vlen (c'.r - (c d).r) ≤ k.a * (√((k.e + 1) / (k.e - 1)) * (tol + (19 * (top + k.e) + 21 + 5 * |M| + 18 * (√(mu / k.a ^ 3) * |d|)) * R.u) +
            4800 * (top + k.e) ^ 2 / (k.e - 1) * R.u) ∧
          vlen (c'.v - (c d).v) ≤ k.a * √(mu / k.a ^ 3) * ((tol + (19 * (top + k.e) + 21 + 5 * |M| + 18 * (√(mu / k.a ^ 3) * |d|)) * R.u) / (k.e - 1) ^ 2 +
            √((k.e + 1) / (k.e - 1)) * (1300 * (top + k.e) / (k.e - 1) * R.u)) := by
  have h1 := h.e_gt
  obtain ⟨c, hc, hN, hst⟩ := curve h.mu_pos h.a_pos h1 M
  refine ⟨c, hN, hst, fun dt dts d row at_j lo hi => ?_⟩
  obtain ⟨s', x, M1, p1, -, -, -, -, -, -, p8, p9⟩ := h.step g hs hr hM row at_j lo hi
  obtain ⟨cs, c', E, c1, c2, c3, c4, c5⟩ := p9 hmode
  have htot : |k.e * Real.sinh E - E - (M + √(mu / k.a ^ 3) * d)| ≤ tol + (19 * (top + k.e) + 21 + 5 * |M| + 18 * (√(mu / k.a ^ 3) * |d|)) * R.u := by
    have := abs_sub_le (k.e * Real.sinh E - E) M1 (M + √(mu / k.a ^ 3) * d)
    linarith
  obtain ⟨q1, q2⟩ := RHypProp.points_close h.mu_pos h.a_pos h1 htot
  rw [← hc d] at q1 q2
  refine ⟨s', cs, c', p1, c1, c2, (vlen_via _ _ _).trans ((add_le_add c4 q1).trans (le_of_eq ?_)), (vlen_via _ _ _).trans ((add_le_add c5 q2).trans (le_of_eq ?_))⟩
  · ring
  · ring

/-- C110, the mean anomaly an object answers for a hyperbola: the stored number, if it stores the mean anomaly; if it stores the eccentric or the true anomaly
(on the outbound leg, up to the hyperbolic anomaly 6), that of the exact point up to rounding errors -/
theorem c110_reads {n : Nat} (hu : R.u ≤ 1 / 10 ^ 6) (s : Orb (RF R)) (hs : OneEntryPerOrbit s n) (hdeg : s.degrees = false) (j : Nat) (k : Kep ℝ)
    (hread : ∃ ks, (get_kepler (rfKern g) s).1 = .ok ks ∧ ks[j]? = some (k.num R)) (h1 : 1 < k.e) :
    match s.type with
    | .mean => RReadsMean g s j k.nu
    | .ecc => ∃ M, RReadsMean g s j M ∧ |M - (k.e * Real.sinh k.nu - k.nu)| ≤ 4 * R.u * (k.e * |Real.sinh k.nu| + |k.nu|)
    | .tru => ∀ E, SamePointHyp k.e k.nu E → 0 ≤ k.nu → k.nu < Real.pi → E ≤ 6 → 800 * (√((k.e + 1) / (k.e - 1)) * Real.cosh E) * R.u ≤ E →
        ∃ M, RReadsMean g s j M ∧ |M - (k.e * Real.sinh E - E)| ≤ 170 * (k.e * √((k.e + 1) / (k.e - 1)) * Real.cosh E ^ 2) * R.u := by
  have key := fun M h => reads g hs hdeg hread (M := M) h
  cases ht : s.type <;> rw [ht] at key
  · intro E hE h0 hpi h6 hc
    obtain ⟨E', E1, k1, k2, k3, k4, k5⟩ := RHyper.tte_forward (R := R) hu h1 h0 hpi hE h6 hc
    obtain ⟨M, m1, m2⟩ := RHyper.etm_err (R := R) hu h1 E'
    refine ⟨M, key M ?_, RHyper.mean_forward h1 hu h6 hc k2 k4 k5 m2⟩
    show eccentricToMeanEl g.mean .f64 (trueToEccentricEl g.ecc .f64 (RF.num R k.nu) (RF.num R k.e)) (RF.num R k.e) = _
    rw [trueToEccentricEl, rhyp_mask h1, k1, eccentricToMeanEl, rhyp_mask h1, m1]
  · obtain ⟨M, m1, m2⟩ := RHyper.etm_err (R := R) hu h1 k.nu
    refine ⟨M, key M ?_, m2⟩
    show eccentricToMeanEl g.mean .f64 (RF.num R k.nu) (RF.num R k.e) = _
    rw [eccentricToMeanEl, rhyp_mask h1, m1]
  · exact key _ rfl

/-- C110 for any number of calls, on an object that stores the mean anomaly: only the rounding errors of the mean anomaly add up, not those of the solver
of Kepler's equation.  (That the calls return: `c98_returns`.) -/
theorem c110_repeated {n : Nat} (s : Orb (RF R)) (hs : OneEntryPerOrbit s n) (hr : s.kro = false) (hmode : s.auto = true ∨ s.direct = true) (ht : s.type = .mean)
    (j : Nat) (k : Kep ℝ) (mu tol top S : ℝ) (h : RHyperbola g s j k mu tol top S) :
    ∃ c : ℝ → Cart ℝ, ObeysNewton mu c ∧ (∀ nu E, SamePointHyp k.e nu E → k.e * Real.sinh E - E = k.nu → DescribesOrbit mu { k with nu := nu } (c 0)) ∧
      ∀ (s' : Orb (RF R)) (m : Nat) (D T : ℝ), RHypRun g n j k.nu √(mu / k.a ^ 3) top s s' m D T →
        ∃ cs c', (get_cartesian (rfKern g) s').1 = .ok cs ∧ cs[j]? = some (Cart.num R c') ∧
          vlen (c'.r - (c D).r) ≤ k.a * (√((k.e + 1) / (k.e - 1)) * (tol + (19 * (top + k.e) + 53 * m + 5 * |k.nu| + 18 * (√(mu / k.a ^ 3) * T)) * R.u) +
            4800 * (top + k.e) ^ 2 / (k.e - 1) * R.u) ∧
          vlen (c'.v - (c D).v) ≤ k.a * √(mu / k.a ^ 3) * ((tol + (19 * (top + k.e) + 53 * m + 5 * |k.nu| + 18 * (√(mu / k.a ^ 3) * T)) * R.u) / (k.e - 1) ^ 2 +
            √((k.e + 1) / (k.e - 1)) * (1300 * (top + k.e) / (k.e - 1) * R.u)) := by
  have h1 := h.e_gt
  obtain ⟨c, hc, hN, hst⟩ := curve h.mu_pos h.a_pos h1 k.nu
  refine ⟨c, hN, hst, fun s' m D T hrun => ?_⟩
  obtain ⟨M1, a⟩ := run_after hrun hs hr h ht
  obtain ⟨cs, c', E, c1, c2, c3, c4, c5⟩ := a.cart hmode
  have htot : |k.e * Real.sinh E - E - (k.nu + √(mu / k.a ^ 3) * D)| ≤ tol + (19 * (top + k.e) + 53 * m + 5 * |k.nu| + 18 * (√(mu / k.a ^ 3) * T)) * R.u := by
    have := abs_sub_le (k.e * Real.sinh E - E) M1 (k.nu + √(mu / k.a ^ 3) * D)
    linarith [a.close]
  obtain ⟨q1, q2⟩ := RHypProp.points_close h.mu_pos h.a_pos h1 htot
  rw [← hc D] at q1 q2
  refine ⟨cs, c', c1, c2, (vlen_via _ _ _).trans ((add_le_add c4 q1).trans (le_of_eq ?_)), (vlen_via _ _ _).trans ((add_le_add c5 q2).trans (le_of_eq ?_))⟩
  · ring
  · ring

/-- the hypotheses of C110 hold for the default options of the solver and arithmetic at least as accurate as double precision, when the mean anomaly plus `e`
stays below 7 -/
theorem c110_default {n : Nat} (hu : R.u ≤ (1 / 2) ^ 53) (s : Orb (RF R)) (ho : s.opts = .dflt) (hdeg : s.degrees = false) (j : Nat) (k : Kep ℝ) (mu : ℝ)
    (hread : ∃ ks, (get_kepler (rfKern g) s).1 = .ok ks ∧ ks[j]? = some (k.num R)) (hgrav : ∃ m, s.m[j]? = some m ∧ s.G * (s.M0 + m) = RF.num R mu)
    (hmu : 0 < mu) (ha : 0 < k.a) (he : 6 / 5 ≤ k.e) (h7 : k.e ≤ 7) :
    ∃ tol S, tol ≤ 101 / 10 ^ 14 ∧ RHyperbola g s j k mu tol (7 - k.e) S := by
  obtain ⟨tol, S, h1, h2⟩ := default_solver hu he h7
  exact ⟨tol, S, h1, by rw [ho]; exact h2, hread, hgrav, hmu, ha, hdeg⟩

/-- the hypotheses of C110 hold for the default options of the solver and arithmetic at least as accurate as double precision, also for `e` very close
to 1, when the mean anomaly plus `e` stays below 6.9 -/
theorem c110_default_near {n : Nat} (hu : R.u ≤ (1 / 2) ^ 53) (s : Orb (RF R)) (ho : s.opts = .dflt) (hdeg : s.degrees = false) (j : Nat) (k : Kep ℝ) (mu : ℝ)
    (hread : ∃ ks, (get_kepler (rfKern g) s).1 = .ok ks ∧ ks[j]? = some (k.num R)) (hgrav : ∃ m, s.m[j]? = some m ∧ s.G * (s.M0 + m) = RF.num R mu)
    (hmu : 0 < mu) (ha : 0 < k.a) (he : 1 + 2 / 10 ^ 12 ≤ k.e) (h7 : k.e ≤ 69 / 10) :
    ∃ tol S, tol ≤ 101 / 10 ^ 14 ∧ RHyperbola g s j k mu tol (69 / 10 - k.e) S := by
  obtain ⟨tol, S, h1, h2⟩ := default_solver_near hu he h7
  exact ⟨tol, S, h1, by rw [ho]; exact h2, hread, hgrav, hmu, ha, hdeg⟩

/-- a case: two calls for a hyperbola with e = 5/4 that stores its mean anomaly, 1 at the start, in double precision -/
example (g : Garb (RF Binary.binary64)) : ∃ (c : ℝ → Cart ℝ) (s1 s2 : Orb (RF Binary.binary64)) (cs : List (Cart (RF Binary.binary64))) (c' : Cart ℝ),
    ObeysNewton 1 c ∧ (∀ nu E, SamePointHyp (5 / 4) nu E → 5 / 4 * Real.sinh E - E = 1 → DescribesOrbit 1 ⟨1, 5 / 4, 1, 2, 3, nu⟩ (c 0)) ∧
    propagate (rfKern g) (.sc (RF.num _ 4)) (lazy64 g .mean ⟨1, 5 / 4, 1, 2, 3, 1⟩) = (.ok (), s1) ∧ propagate (rfKern g) (.sc (RF.num _ (-3 / 2))) s1 = (.ok (), s2) ∧
    (get_cartesian (rfKern g) s2).1 = .ok cs ∧ cs[0]? = some (Cart.num Binary.binary64 c') ∧ vlen (c'.r - (c (5 / 2)).r) ≤ 13 / 10 ^ 11 := by
  have hs : OneEntryPerOrbit (lazy64 g .mean ⟨1, 5 / 4, 1, 2, 3, 1⟩) 1 := ⟨rfl, rfl, rfl, rfl, ⟨_, rfl, rfl⟩, rfl, rfl, rfl⟩
  obtain ⟨tol, S, htol, h⟩ := c110_default g (n := 1) (show (1 / 2 : ℝ) ^ 53 ≤ (1 / 2) ^ 53 from le_rfl) (lazy64 g .mean ⟨1, 5 / 4, 1, 2, 3, 1⟩) rfl rfl 0
    ⟨1, 5 / 4, 1, 2, 3, 1⟩ 1 ⟨_, rfl, rfl⟩ ⟨0, rfl, by
      show (RF.num Binary.binary64 1 : RF _) * (RF.num _ 1 + 0) = _
      have : Binary.binary64.rd 1 = 1 := by
        have h1 := Binary.binary64.exact 4 (by norm_num)
        norm_num at h1
        rw [Rounding.rd, h1, Real.exp_zero, one_mul]
      rw [zero_num, add_num, mul_num, add_zero, this, one_mul, this]⟩ one_pos one_pos (by norm_num) (by norm_num)
  obtain ⟨c, c1, c2, c3⟩ := c110_repeated g _ hs rfl (.inl rfl) rfl 0 _ 1 tol _ S h
  obtain ⟨⟨s1, p1⟩, -⟩ := c98_returns g _ hs rfl 0 (dt := .sc (RF.num _ 4)) (dts := [RF.num _ 4]) rfl
  have hR := RRun.one (g := g) (n := 1) (j := 0) (.sc (RF.num _ 4)) [RF.num _ 4] 4 rfl rfl p1
  obtain ⟨s2, p2⟩ := (c98_returns g _ hs rfl 0 (dt := .sc (RF.num _ (-3 / 2))) (dts := [RF.num _ (-3 / 2)]) rfl).2 _ _ _ _ hR
  have hw : √((1 : ℝ) / 1 ^ 3) = 1 := by norm_num
  have hk : √((5 / 4 + 1 : ℝ) / (5 / 4 - 1)) = 3 := by
    rw [show (5 / 4 + 1 : ℝ) / (5 / 4 - 1) = 3 ^ 2 by norm_num, Real.sqrt_sq (by norm_num)]
  have hu : Binary.binary64.u = (1 / 2 : ℝ) ^ 53 := rfl
  simp only [hw, hk] at c3
  have r1 := RHypRun.one (g := g) (n := 1) (j := 0) (M0 := 1) (w := 1) (top := 7 - 5 / 4) (.sc (RF.num _ 4)) [RF.num _ 4] 4 rfl rfl
    (by rw [hu, abs_one, abs_of_pos (by norm_num)]; norm_num) (by rw [hu, abs_one, abs_of_pos (by norm_num)]; norm_num) p1
  have r2 := r1.more (.sc (RF.num _ (-3 / 2))) [RF.num _ (-3 / 2)] (-3 / 2) rfl rfl
    (by rw [hu, abs_one, abs_of_pos (show (0 : ℝ) < 4 by norm_num), abs_of_neg (show (-3 / 2 : ℝ) < 0 by norm_num)]; norm_num)
    (by rw [hu, abs_one, abs_of_pos (show (0 : ℝ) < 4 by norm_num), abs_of_neg (show (-3 / 2 : ℝ) < 0 by norm_num)]; norm_num) p2
  obtain ⟨cs, c', d1, d2, d3, -⟩ := c3 _ _ _ _ r2
  refine ⟨c, s1, s2, cs, c', c1, c2, p1, p2, d1, d2, ?_⟩
  have e : (4 + -3 / 2 : ℝ) = 5 / 2 := by norm_num
  rw [e] at d3
  refine d3.trans ?_
  rw [hu, abs_one, abs_of_pos (show (0 : ℝ) < 4 by norm_num), abs_of_neg (show (-3 / 2 : ℝ) < 0 by norm_num)]
  norm_num
  linarith

/-- a case: the same with e = 1.001 -/
example (g : Garb (RF Binary.binary64)) (s : Orb (RF Binary.binary64)) (ho : s.opts = .dflt) (hdeg : s.degrees = false)
    (hread : ∃ ks, (get_kepler (rfKern g) s).1 = .ok ks ∧ ks[0]? = some (Kep.num Binary.binary64 ⟨1, 1001 / 1000, 1, 2, 3, 1⟩))
    (hgrav : ∃ m, s.m[0]? = some m ∧ s.G * (s.M0 + m) = RF.num _ 1) :
    ∃ tol S, tol ≤ 101 / 10 ^ 14 ∧ RHyperbola g s 0 ⟨1, 1001 / 1000, 1, 2, 3, 1⟩ 1 tol (69 / 10 - 1001 / 1000) S :=
  c110_default_near g (n := 1) (show (1 / 2 : ℝ) ^ 53 ≤ (1 / 2) ^ 53 from le_rfl) s ho hdeg 0 _ 1 hread hgrav one_pos one_pos (by norm_num) (by norm_num)

end Orbit
end Pyorb
