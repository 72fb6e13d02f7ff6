import Verif.CartHypMove
import Verif.PropsCartMotion

/-!
# Propagation from Cartesian coordinates on a hyperbola with rounding (C122)
-/

set_option linter.unusedVariables false

namespace Pyorb
namespace Orbit
open Py FX RF RHypProp CartKep
variable {R : Rounding} (g : Garb (RF R))

/-- the anomaly that `calculate_kepler` stores for a hyperbola, and the mean anomaly the object answers for it -/
theorem stored_hyp (hu : R.u ≤ 1 / 10 ^ 6) (o : SolverOpts (RF R)) (t : Anom) {e nu E : ℝ} (h1 : 1 < e) (hp : SamePointHyp e nu E) (h0 : 0 ≤ nu) (hpi : nu < Real.pi) (h6 : E ≤ 6)
    (hc : 800 * (√((e + 1) / (e - 1)) * Real.cosh E) * R.u ≤ E) :
    ∃ x M, fromTrue (rfKern g) t false (RF.num R nu) (RF.num R e) = RF.num R x ∧ conv (rfKern g) o false t .mean (RF.num R x) (RF.num R e) = RF.num R M ∧
      |M - (e * Real.sinh E - E)| ≤ 170 * (e * √((e + 1) / (e - 1)) * Real.cosh E ^ 2) * R.u := by
  obtain ⟨E', E1, k1, k2, k3, k4, k5⟩ := RHyper.tte_forward (R := R) hu h1 h0 hpi hp h6 hc
  obtain ⟨M, m1, m2⟩ := RHyper.etm_err (R := R) hu h1 E'
  have hm := RHyper.mean_forward h1 hu h6 hc k2 k4 k5 m2
  have a1 : trueToEccentricEl g.ecc .f64 (RF.num R nu) (RF.num R e) = RF.num R E' := by rw [trueToEccentricEl, rhyp_mask h1, k1]
  have a2 : eccentricToMeanEl g.mean .f64 (RF.num R E') (RF.num R e) = RF.num R M := by rw [eccentricToMeanEl, rhyp_mask h1, m1]
  have a3 : eccentricToMeanEl g.mean .f64 (trueToEccentricEl g.ecc .f64 (RF.num R nu) (RF.num R e)) (RF.num R e) = RF.num R M := by rw [a1, a2]
  cases t
  · exact ⟨nu, M, rfl, a3, hm⟩
  · exact ⟨E', M, a1, a2, hm⟩
  · exact ⟨M, M, a3, rfl, hm⟩

theorem cosh_six : (151 : ℝ) < Real.cosh 6 := by
  have h1 := Real.exp_one_gt_d9
  have h2 : Real.exp 6 = Real.exp 1 ^ 6 := by rw [← Real.exp_nat_mul]; norm_num
  have h3 : (27 / 10 : ℝ) ^ 6 ≤ Real.exp 1 ^ 6 := pow_le_pow_left₀ (by norm_num) (by norm_num at h1 ⊢; linarith) 6
  rw [Real.cosh_eq, h2]
  have := Real.exp_pos (-6)
  norm_num at h3
  linarith

theorem hyp_factor {e : ℝ} (h1 : 1 < e) : √((e + 1) / (e - 1)) = (e + 1) / √(e ^ 2 - 1) := by
  have hsl : 0 < e ^ 2 - 1 := by nlinarith
  have hw := Real.sqrt_pos.mpr hsl
  have hq : 0 < e - 1 := by linarith
  rw [Real.sqrt_eq_iff_mul_self_eq_of_pos (by positivity), div_mul_div_comm, ← pow_two √(e ^ 2 - 1), Real.sq_sqrt hsl.le]
  field_simp
  ring

section
variable {k k' : Kep ℝ} {u r W t D T : ℝ} (h : NearHyp k k' u r W t D T)
include h

theorem _root_.Pyorb.CartKep.NearHyp.factor' : √((k'.e + 1) / (k'.e - 1)) ≤ 1004 / 1000 * √((k.e + 1) / (k.e - 1)) := by
  obtain ⟨w0, w0', -⟩ := h.droot
  obtain ⟨n1, n2⟩ := h.root_near
  have h1 := h.e1
  rw [hyp_factor h.e1, hyp_factor h.e1', div_le_iff₀ w0']
  have e1 := mul_le_mul_of_nonneg_left n1 (show 0 ≤ 1004 / 1000 * ((k.e + 1) / √(k.e ^ 2 - 1)) by positivity)
  refine le_trans ?_ e1
  rw [show 1004 / 1000 * ((k.e + 1) / √(k.e ^ 2 - 1)) * (998 / 1000 * √(k.e ^ 2 - 1)) = 1001992 / 1000000 * (k.e + 1) by field_simp; norm_num]
  linarith [h.e_le']

variable {E E' : ℝ} (hp : SamePointHyp k.e k.nu E) (hp' : SamePointHyp k'.e k'.nu E')
include hp hp'

/-- how the factors of the rounding errors compare with `t` -/
theorem _root_.Pyorb.CartKep.NearHyp.cosh_sq_le : √((k'.e + 1) / (k'.e - 1)) * Real.cosh E' ^ 2 * u ≤ 205 / 100 * (t * (W / k.e)) := by
  have hu0 := h.scale.u0
  have hκ := h.factor'
  have hc := h.cosh_le hp hp'
  have hc1 := Real.one_le_cosh E'
  have h1 := h.e1
  have he0 : 0 < k.e := by linarith
  obtain ⟨w0, -, -⟩ := h.droot
  have hw2 := Real.sq_sqrt h.sl.le
  have hwe : √(k.e ^ 2 - 1) ≤ k.e := by rw [Real.sqrt_le_left he0.le]; linarith
  have hW1 := h.W1
  have hc2 : Real.cosh E' ^ 2 ≤ (1006 / 1000 * (W / k.e)) ^ 2 := pow_le_pow_left₀ (by linarith) hc 2
  have a1 := mul_le_mul hκ hc2 (by positivity) (by positivity)
  have a2 := mul_le_mul_of_nonneg_right a1 hu0
  refine a2.trans ?_
  have ht := h.ht
  have hut : u * W ^ 2 = t * √(k.e ^ 2 - 1) ^ 2 := by rw [hw2, ht, mul_assoc, div_mul_cancel₀ _ h.sl.ne']
  have ht0 := h.t0
  have heW := h.eW
  rw [hyp_factor h1]
  generalize √(k.e ^ 2 - 1) = w at *
  have a3 : 1004 / 1000 * ((k.e + 1) / w) * (1006 / 1000 * (W / k.e)) ^ 2 * u = 1004 / 1000 * (1006 / 1000) ^ 2 * ((k.e + 1) / (w * k.e ^ 2)) * (u * W ^ 2) := by
    field_simp
  rw [a3, hut]
  have a4 : 1004 / 1000 * (1006 / 1000) ^ 2 * ((k.e + 1) / (w * k.e ^ 2)) * (t * w ^ 2) = 1004 / 1000 * (1006 / 1000) ^ 2 * (t * (w * (k.e + 1) / k.e ^ 2)) := by
    field_simp
  rw [a4]
  have a5 : w * (k.e + 1) / k.e ^ 2 ≤ 2 * (W / k.e) := by
    rw [div_le_iff₀ (by positivity), show 2 * (W / k.e) * k.e ^ 2 = 2 * W * k.e by field_simp]
    have := mul_le_mul (hwe.trans heW) (show k.e + 1 ≤ 2 * k.e by linarith) (by linarith) (by linarith)
    linarith
  have a6 := mul_le_mul_of_nonneg_left a5 ht0
  have a7 : 0 ≤ t * (W / k.e) := by positivity
  linarith

end

/-- the bound of C122 for the error of the mean anomaly -/
noncomputable def hypMeanTol (u e nu W t : ℝ) : ℝ := 21 / 10 * (e * W / √(e ^ 2 - 1)) * angTol (2000 * (u * W) / e) nu + 25000 * t * W

/-- the bound of C121 and C122 for the errors of the orbital plane -/
noncomputable def hypPlaneTol (t : ℝ) (k : Kep ℝ) : ℝ := angTol (100 * t / Real.sin k.i) k.OM + angTol (100 * t) k.i + angTol (2000 * t / Real.sin k.i) k.om

set_option maxHeartbeats 1000000 in
/-- the object after the assignment -/
theorem hyp_object {n : Nat} (hR : Nearest R) (hu : R.u ≤ (1 / 2) ^ 53) (s0 s : Orb (RF R)) (hs : OneEntryPerOrbit s0 n) (hmode : s0.auto = true ∨ s0.direct = true)
    (hdeg : s0.degrees = false) (ho : s0.opts = .dflt) (v : Val6 (RF R) (Cart (RF R))) (hset : set_cartesian (rfKern g) v s0 = (.ok (), s))
    (j : Nat) (k : Kep ℝ) (mu : ℝ) (c : Cart ℝ) (hc : ∃ cs, (get_cartesian (rfKern g) s).1 = .ok cs ∧ cs[j]? = some (c.num R))
    (hgrav : ∃ m, s0.m[j]? = some m ∧ s0.G * (s0.M0 + m) = RF.num R mu) (hmu : 0 < mu) (hd : DescribesOrbit mu k c) (ha : 0 < k.a)
    (h1 : 1 + 3 / 10 ^ 12 ≤ k.e) (h7 : k.e ≤ 68 / 10) (hi0 : 0 < Real.sin k.i) {W t : ℝ} (hW : W = 1 + vlen c.r / k.a) (ht : t = R.u * (W ^ 2 / (k.e ^ 2 - 1)))
    (hsm : 10 ^ 6 * t ≤ Real.sin k.i) (hi : 200 * t + 1 / 10 ^ 16 ≤ Real.sin k.i ^ 2) (hW1 : W ≤ 150) {E : ℝ} (hE : SamePointHyp k.e k.nu E)
    (hM : hypMeanTol R.u k.e k.nu W t < k.e * Real.sinh E - E) :
    ∃ (k' : Kep ℝ) (tol S Mr : ℝ), tol ≤ 101 / 10 ^ 14 ∧
      NearHyp k k' R.u (vlen c.r) W t (hypPlaneTol t k) (angTol (2000 * (R.u * W) / k.e) k.nu) ∧ OneEntryPerOrbit s n ∧ OnlyElements s0 s ∧
      (∃ x, RHyperbola g s j { k' with nu := x } mu tol (69 / 10 - k'.e) S) ∧ RReadsMean g s j Mr ∧
      |Mr - (k.e * Real.sinh E - E)| ≤ 203 / 100 * (k.e * W / √(k.e ^ 2 - 1)) * angTol (2000 * (R.u * W) / k.e) k.nu + 9600 * t * W := by
  have hu0 := R.u_nonneg
  have h1' : 1 < k.e := by norm_num at h1; linarith
  have he0 : 0 < k.e := by linarith
  obtain ⟨hs', honly, cs0, hcs0, hread⟩ := set_cartesian_only (rfKern g) hs hset
  obtain ⟨cs1, hcs1, hcj⟩ := hc
  obtain rfl : cs0 = cs1 := by rw [hcs0] at hcs1; injection hcs1
  obtain ⟨mj, hmj, hmuj⟩ := hgrav
  obtain ⟨ks, hks, hkj⟩ := hread hmode j _ mj hcj hmj rfl
  obtain ⟨k', hk', H⟩ := elements_hyp hR (fun _ => g.ctk) hmu hd ha h1' hi0 hW ht hsm hi
  have hcol : (rfKern g).cartToKep false (RF.num R mu) (c.num R) = k'.num R := by
    have h1 : (cart_to_kep (fun _ => g.ctk) (.sc (RF.num R mu)) false (.vec .f64 (c.num R))).1 = .ok (.vec .f64 (cartToKep g.ctk .f64 (RF.num R mu) false (c.num R))) := rfl
    rw [hk'] at h1
    injection h1 with h1
    injection h1 with _ h1
    exact h1.symm
  have N := H.near hmu hd ha h1' hi0 hW ht hsm
  have hset' : s.type = s0.type ∧ s.degrees = s0.degrees ∧ s.opts = s0.opts ∧ s.m = s0.m ∧ s.G = s0.G ∧ s.M0 = s0.M0 := by
    rw [honly]; exact ⟨rfl, rfl, rfl, rfl, rfl, rfl⟩
  obtain ⟨w1, w2, w3, w4, w5, w6⟩ := hset'
  obtain ⟨T, hT⟩ : ∃ T, T = angTol (2000 * (R.u * W) / k.e) k.nu := ⟨_, rfl⟩
  rw [hypMeanTol, ← hT] at hM
  rw [← hT] at N ⊢
  have hT0 := N.T0
  have ht0 := N.t0
  have hts := N.small
  have hWp := N.W1
  have heW := N.eW
  obtain ⟨w0, w0', -⟩ := N.droot
  have hut := N.scale.one
  have hwe : √(k.e ^ 2 - 1) ≤ k.e := by rw [Real.sqrt_le_left he0.le]; linarith
  -- the computed anomaly
  obtain ⟨E', hE'⟩ := hyp_anomaly N.e1' N.denom'_pos
  have hds := N.dsinh hE hE'
  have hdm := N.dmean hE hE'
  have hcs := N.cosh_le hE hE'
  have hcq := N.cosh_sq_le hE hE'
  have hC1 := Real.one_le_cosh E'
  have hx0 : 0 ≤ W / √(k.e ^ 2 - 1) * T := by positivity
  have hy0 : 0 ≤ t * (W / k.e) := by positivity
  have hEpos : 0 < E := by
    by_contra hneg
    have hneg := not_lt.mp hneg
    have := Real.sinh_le_self_iff.mpr hneg
    have a1 : 0 ≤ 21 / 10 * (k.e * W / √(k.e ^ 2 - 1)) * T + 25000 * t * W := by positivity
    nlinarith
  have hsE : 21 / 10 * (W / √(k.e ^ 2 - 1)) * T + 25000 * (t * (W / k.e)) < Real.sinh E := by
    refine lt_of_mul_lt_mul_left ?_ he0.le
    have : k.e * (21 / 10 * (W / √(k.e ^ 2 - 1)) * T + 25000 * (t * (W / k.e))) = 21 / 10 * (k.e * W / √(k.e ^ 2 - 1)) * T + 25000 * t * W := by field_simp
    rw [this]
    linarith
  have hsE' : 20000 * (t * (W / k.e)) < Real.sinh E' := by
    have := (abs_le.mp hds).1
    linarith
  have hE'pos : 0 < E' := Real.sinh_pos_iff.mp (lt_of_le_of_lt (by positivity) hsE')
  have h6 : E' ≤ 6 := by
    by_contra h6
    have h6 := not_le.mp h6
    have := Real.cosh_le_cosh.mpr (show |(6 : ℝ)| ≤ |E'| by rw [abs_of_pos (by norm_num), abs_of_pos hE'pos]; exact h6.le)
    have h8 := cosh_six
    have h9 : W / k.e ≤ 150 := by rw [div_le_iff₀ he0]; linarith
    linarith
  have hcond : 800 * (√((k'.e + 1) / (k'.e - 1)) * Real.cosh E') * R.u ≤ E' := by
    have a1 := sinh_le_two_mul hE'pos.le
    refine le_of_mul_le_mul_right (a := 2 * Real.cosh E') ?_ (by linarith)
    have a2 : 800 * (√((k'.e + 1) / (k'.e - 1)) * Real.cosh E') * R.u * (2 * Real.cosh E') = 1600 * (√((k'.e + 1) / (k'.e - 1)) * Real.cosh E' ^ 2 * R.u) := by ring
    rw [a2]
    linarith
  -- the outbound leg
  obtain ⟨q0, -, q2⟩ := hyp_point_eqs h1' hE
  obtain ⟨q0', -, q2'⟩ := hyp_point_eqs N.e1' hE'
  have hWeq := N.W_eq hE
  have hsin' : 0 < Real.sin k'.nu := by
    have : 0 < Real.sin k'.nu * (k'.e * Real.cosh E' - 1) := by rw [q2']; exact mul_pos w0' (Real.sinh_pos_iff.mpr hE'pos)
    exact pos_of_mul_pos_left this q0'.le
  have hsin : 18 * R.u < Real.sin k.nu := by
    have a1 : Real.sin k.nu * (k.e * Real.cosh E - 1) ≤ Real.sin k.nu * W := by
      have : 0 < Real.sin k.nu * (k.e * Real.cosh E - 1) := by rw [q2]; exact mul_pos w0 (Real.sinh_pos_iff.mpr hEpos)
      exact mul_le_mul_of_nonneg_left (by linarith) (pos_of_mul_pos_left this q0.le).le
    rw [q2] at a1
    have a2 := mul_lt_mul_of_pos_left (show 25000 * (t * (W / k.e)) < Real.sinh E by linarith) w0
    refine lt_of_mul_lt_mul_right (a := W) (lt_of_le_of_lt ?_ (a2.trans_le a1)) (by linarith)
    have a3 : R.u * W ≤ t * (W / k.e) * √(k.e ^ 2 - 1) := by
      have hw2 := Real.sq_sqrt N.sl.le
      have b1 : t * √(k.e ^ 2 - 1) ^ 2 = R.u * W ^ 2 := by rw [hw2, ht, mul_assoc, div_mul_cancel₀ _ N.sl.ne']
      refine le_of_mul_le_mul_right (a := √(k.e ^ 2 - 1) * k.e) ?_ (by positivity)
      have b2 : t * (W / k.e) * √(k.e ^ 2 - 1) * (√(k.e ^ 2 - 1) * k.e) = t * √(k.e ^ 2 - 1) ^ 2 * W := by field_simp
      rw [b2, b1]
      have b3 : √(k.e ^ 2 - 1) * k.e ≤ W * W := mul_le_mul (hwe.trans heW) heW he0.le (by linarith)
      have b4 := mul_le_mul_of_nonneg_left b3 (show 0 ≤ R.u * W by positivity)
      linarith
    have a4 : 0 ≤ R.u * W := by positivity
    linarith
  obtain ⟨r1, r2⟩ := H.nu.upper hsin
  have hpi : k'.nu < Real.pi := by
    by_contra hge
    have hge := not_lt.mp hge
    have := Real.sin_nonpos_of_nonpos_of_neg_pi_le (x := Real.pi - k'.nu) (by linarith) (by
      have := Real.pi_gt_three
      norm_num at hts
      linarith)
    rw [Real.sin_pi_sub] at this
    linarith
  have hu6 : R.u ≤ 1 / 10 ^ 6 := hu.trans (by norm_num)
  obtain ⟨x, Mr, x1, x2, x3⟩ := stored_hyp g hu6 s.opts s0.type N.e1' hE' r1 hpi h6 hcond
  have hstored : ks[j]? = some (Kep.num R { k' with nu := x }) := by
    rw [hkj]
    show some (kepOfCart (rfKern g) s0.type s0.degrees (s0.G * (s0.M0 + mj)) (c.num R)) = _
    rw [hmuj, hdeg, kepOfCart, hcol]
    show some ({ k'.num R with nu := fromTrue (rfKern g) s0.type false (RF.num R k'.nu) (RF.num R k'.e) } : Kep (RF R)) = _
    rw [x1]; rfl
  have hee := abs_le.mp N.e_near
  obtain ⟨tol, S, htol, hsol⟩ := default_solver_near (R := R) hu (e := k'.e) (by norm_num at h1 ⊢; linarith) (by norm_num at h7 ⊢; linarith)
  refine ⟨k', tol, S, Mr, htol, N, hs', honly, ⟨x, ⟨?_, ⟨ks, hks, hstored⟩, ⟨mj, by rw [w4]; exact hmj, by rw [w5, w6]; exact hmuj⟩, hmu, N.a_pos', by rw [w2]; exact hdeg⟩⟩, ?_, ?_⟩
  · rw [w3, ho]; exact hsol
  · refine reads g hs' (by rw [w2]; exact hdeg) ⟨ks, hks, hstored⟩ ?_
    rw [w1]
    exact x2
  · have a1 : 170 * (k'.e * √((k'.e + 1) / (k'.e - 1)) * Real.cosh E' ^ 2) * R.u ≤ 350 * (t * W) := by
      have b1 := mul_le_mul N.e_le' hcq (by positivity) (by linarith)
      have b2 : 1001 / 1000 * k.e * (205 / 100 * (t * (W / k.e))) = 205205 / 100000 * (t * W) := by
        linear_combination 205205 / 100000 * t * div_mul_cancel₀ W he0.ne'
      rw [b2] at b1
      have b3 : 0 ≤ t * W := by positivity
      linarith
    have b3 : 0 ≤ t * W := by positivity
    rw [abs_le] at x3 hdm ⊢
    constructor <;> linarith

set_option maxHeartbeats 1000000 in
/-- C122: the Cartesian state `c` of a hyperbola with elements `k`, on the outbound leg with the hyperbolic anomaly `E`, is assigned to an object (radians, automatic updates, default options of
the solver, any anomaly type) whose arithmetic rounds to nearest.  There is a solution of Newton's equations with the state `c` at time 0, such that for every time `d` at which the mean anomaly
is positive and at most `6.8 - e`, with the error `B` as margin, `propagate` returns, and the state read from `orb.cartesian` afterwards is close to that of the solution at `d`. -/
theorem c122 {n : Nat} (hR : Nearest R) (hu : R.u ≤ (1 / 2) ^ 53) (s0 s : Orb (RF R)) (hs : OneEntryPerOrbit s0 n) (hr : s0.kro = false) (hmode : s0.auto = true ∨ s0.direct = true)
    (hdeg : s0.degrees = false) (ho : s0.opts = .dflt) (v : Val6 (RF R) (Cart (RF R))) (hset : set_cartesian (rfKern g) v s0 = (.ok (), s))
    (j : Nat) (k : Kep ℝ) (mu : ℝ) (c : Cart ℝ) (hc : ∃ cs, (get_cartesian (rfKern g) s).1 = .ok cs ∧ cs[j]? = some (c.num R))
    (hgrav : ∃ m, s0.m[j]? = some m ∧ s0.G * (s0.M0 + m) = RF.num R mu) (hmu : 0 < mu) (hd : DescribesOrbit mu k c) (ha : 0 < k.a)
    (h1 : 1 + 3 / 10 ^ 12 ≤ k.e) (h7 : k.e ≤ 68 / 10) (hi0 : 0 < Real.sin k.i) {W t : ℝ} (hW : W = 1 + vlen c.r / k.a) (ht : t = R.u * (W ^ 2 / (k.e ^ 2 - 1)))
    (hsm : 10 ^ 6 * t ≤ Real.sin k.i) (hi : 200 * t + 1 / 10 ^ 16 ≤ Real.sin k.i ^ 2) (hW1 : W ≤ 150) {E B : ℝ} (hE : SamePointHyp k.e k.nu E)
    (hB : B = hypMeanTol R.u k.e k.nu W t) (hM : B < k.e * Real.sinh E - E) :
    ∃ C : ℝ → Cart ℝ, ObeysNewton mu C ∧ C 0 = c ∧
      ∀ (dt : Val (RF R)) (dts : List (RF R)) (d : ℝ), dt.Row n dts → dts[j]? = some (RF.num R d) →
        B < k.e * Real.sinh E - E + √(mu / k.a ^ 3) * d → k.e * Real.sinh E - E + √(mu / k.a ^ 3) * d + k.e + B ≤ 68 / 10 →
        ∃ s' cs c', propagate (rfKern g) dt s = (.ok (), s') ∧ (get_cartesian (rfKern g) s').1 = .ok cs ∧ cs[j]? = some (Cart.num R c') ∧
          vlen (c'.r - (C d).r) ≤ k.a * (√((k.e + 1) / (k.e - 1)) * (102 / 100 * (B + 101 / 10 ^ 14)) + 182 * hypPlaneTol t k + 30000 * t + 230000 * (R.u / (k.e - 1))) ∧
          vlen (c'.v - (C d).v) ≤ k.a * √(mu / k.a ^ 3) * (102 / 100 * (B + 101 / 10 ^ 14) / (k.e - 1) ^ 2 +
            √((k.e + 1) / (k.e - 1)) * (9 * hypPlaneTol t k + 3700 * t + 9100 * (R.u / (k.e - 1)))) := by
  have hu0 := R.u_nonneg
  have h1' : 1 < k.e := by norm_num at h1; linarith
  have he0 : 0 < k.e := by linarith
  have hq : 0 < k.e - 1 := by linarith
  obtain ⟨k', tol, S, Mr, htol, N, hs', honly, ⟨x, H⟩, hMr, hdM⟩ := hyp_object g hR hu s0 s hs hmode hdeg ho v hset j k mu c hc hgrav hmu hd ha h1 h7 hi0 hW ht hsm hi hW1 hE
    (by rw [← hB]; exact hM)
  obtain ⟨C, hC, hN, hst⟩ := curve hmu ha h1' (k.e * Real.sinh E - E)
  refine ⟨C, hN, ?_, fun dt dts d row at_j lo hi' => ?_⟩
  · have hd0 : DescribesOrbit mu k (C 0) := hst k.nu E hE rfl
    have hphys : Physical mu k := ⟨hmu, ha, he0.le, N.denom⟩
    rw [describes_unique hphys.adm hd0, describes_unique hphys.adm hd]
  have ht0 := N.t0
  have hts := N.small
  have hut := N.scale.one
  have hT0 := N.T0
  have hWp := N.W1
  have hWeq := N.W_eq hE
  have hDD0 := N.D0
  obtain ⟨w0, -, -⟩ := N.droot
  obtain ⟨n0, -⟩ := motion_pos hmu ha
  obtain ⟨n0', -⟩ := motion_pos hmu N.a_pos'
  have hdn := N.dmotion hmu
  obtain ⟨G, hG⟩ : ∃ G, G = hypInv h1' (k.e * Real.sinh E - E + √(mu / k.a ^ 3) * d) := ⟨_, rfl⟩
  have hGm : k.e * Real.sinh G - G = k.e * Real.sinh E - E + √(mu / k.a ^ 3) * d := by rw [← meanOf_hyp h1' G, hG, meanOf_hypInv]
  have hCG : C d = hyperbolaState k √(mu / k.a ^ 3) G := by rw [hC, hG]
  obtain ⟨P, hP⟩ : ∃ P, P = hypPlaneTol t k := ⟨_, rfl⟩
  rw [← hP] at N hDD0 ⊢
  rw [hypMeanTol] at hB
  obtain ⟨T, hT⟩ : ∃ T, T = angTol (2000 * (R.u * W) / k.e) k.nu := ⟨_, rfl⟩
  rw [← hT] at hB hdM hT0 N
  have hV0 : 0 ≤ k.e * W / √(k.e ^ 2 - 1) * T := by positivity
  have htW : 0 ≤ t * W := by positivity
  have htW1 : t ≤ t * W := le_mul_of_one_le_right ht0 hWp.le
  have huW : R.u * W ≤ t * W := mul_le_mul_of_nonneg_right hut (by linarith)
  have huW1 : R.u ≤ R.u * W := le_mul_of_one_le_right hu0 hWp.le
  have hB0 : 0 ≤ B := by rw [hB]; positivity
  have hMW : k.e * Real.sinh E - E ≤ W := by
    have a1 := mul_le_mul_of_nonneg_left (Real.sinh_lt_cosh E).le he0.le
    have a2 : 0 ≤ E := by
      by_contra hneg
      have hneg := not_le.mp hneg
      have := Real.sinh_lt_self_iff.mpr hneg
      nlinarith
    linarith
  obtain ⟨M, hMd⟩ : ∃ M, M = k.e * Real.sinh E - E := ⟨_, rfl⟩
  rw [← hMd] at hM lo hi' hGm hMW hdM
  have hnd : √(mu / k.a ^ 3) * |d| ≤ 78 / 10 * W := by
    have : √(mu / k.a ^ 3) * |d| = |√(mu / k.a ^ 3) * d| := by rw [abs_mul, abs_of_pos n0]
    rw [this, abs_le]
    constructor <;> linarith
  have hnd' : |√(mu / k'.a ^ 3) * d - √(mu / k.a ^ 3) * d| ≤ 4836 * (t * W) := by
    rw [← sub_mul, abs_mul]
    have a1 := mul_le_mul_of_nonneg_right hdn (abs_nonneg d)
    have a2 := mul_le_mul_of_nonneg_left hnd (show 0 ≤ 620 * t by linarith)
    linarith
  have hndle : √(mu / k'.a ^ 3) * |d| ≤ 79 / 10 * W := by
    have a1 := mul_le_mul_of_nonneg_right (abs_le.mp hdn).2 (abs_nonneg d)
    have a2 := mul_le_mul_of_nonneg_left hnd (show 0 ≤ 620 * t by linarith)
    have a3 := mul_le_mul_of_nonneg_right hts (show 0 ≤ W by linarith)
    linarith
  have hMrle : |Mr| ≤ 79 / 10 * W := by
    have a1 := abs_le.mp hdM
    rw [abs_le]
    constructor <;> linarith
  have hround : (62 + 5 * |Mr| + 18 * (√(mu / k'.a ^ 3) * |d|)) * R.u ≤ 250 * (t * W) := by
    have a1 := mul_le_mul_of_nonneg_right (show 62 + 5 * |Mr| + 18 * (√(mu / k'.a ^ 3) * |d|) ≤ 250 * W by linarith) hu0
    linarith
  have hround' : (21 + 5 * |Mr| + 18 * (√(mu / k'.a ^ 3) * |d|)) * R.u ≤ 250 * (t * W) := by linarith
  have hee := abs_le.mp N.e_near
  obtain ⟨s', y, M1, p1, -, -, -, -, -, -, p8, p9⟩ := H.step g hs' (by rw [honly]; exact hr) hMr row at_j
    (by show (62 + 5 * |Mr| + 18 * (√(mu / k'.a ^ 3) * |d|)) * R.u < Mr + √(mu / k'.a ^ 3) * d
        have a1 := abs_le.mp hdM
        have a2 := abs_le.mp hnd'
        linarith)
    (by show Mr + √(mu / k'.a ^ 3) * d < 69 / 10 - k'.e - (62 + 5 * |Mr| + 18 * (√(mu / k'.a ^ 3) * |d|)) * R.u
        have a1 := abs_le.mp hdM
        have a2 := abs_le.mp hnd'
        linarith)
  obtain ⟨cs, c', F, c1, c2, c3, c4, c5⟩ := p9 (by rw [honly]; exact hmode)
  change |M1 - (Mr + √(mu / k'.a ^ 3) * d)| ≤ (21 + 5 * |Mr| + 18 * (√(mu / k'.a ^ 3) * |d|)) * R.u at p8
  change |k'.e * Real.sinh F - F - M1| ≤ tol + 19 * R.u * (69 / 10 - k'.e + k'.e) at c3
  change vlen (c'.r - (hyperbolaState k' √(mu / k'.a ^ 3) F).r) ≤ k'.a * (4800 * (69 / 10 - k'.e + k'.e) ^ 2 / (k'.e - 1) * R.u) at c4
  change vlen (c'.v - (hyperbolaState k' √(mu / k'.a ^ 3) F).v) ≤ k'.a * √(mu / k'.a ^ 3) * √((k'.e + 1) / (k'.e - 1)) * (1300 * (69 / 10 - k'.e + k'.e) / (k'.e - 1) * R.u) at c5
  rw [sub_add_cancel] at c3 c4 c5
  -- where the point is at the time `d`
  have hGle : k.e * Real.cosh G ≤ 14 := by
    have := radius_le (E := G) (W := 63 / 10) h1' (by rw [hGm, abs_of_pos (by linarith)]; linarith)
    linarith
  have hsG : |(k'.e - k.e) * Real.sinh G| ≤ 7000 * t := by
    rw [abs_mul]
    have a1 := mul_le_mul_of_nonneg_right N.de' (abs_nonneg (Real.sinh G))
    have a2 := sinh_le_cosh_abs G
    have a3 : (k.e - 1) * |Real.sinh G| ≤ k.e * Real.cosh G := mul_le_mul (by linarith) a2 (abs_nonneg _) he0.le
    have a4 := mul_le_mul_of_nonneg_left (a3.trans hGle) (show 0 ≤ 500 * t by linarith)
    linarith
  have hΔ : |k'.e * Real.sinh F - F - ((k'.e * Real.sinh G - G) + √(mu / k'.a ^ 3) * 0)| ≤ B + 101 / 10 ^ 14 := by
    rw [mul_zero, add_zero]
    have e1 : k'.e * Real.sinh F - F - (k'.e * Real.sinh G - G) = (k'.e * Real.sinh F - F - M1) + (M1 - (Mr + √(mu / k'.a ^ 3) * d)) + (Mr - M) +
        (√(mu / k'.a ^ 3) * d - √(mu / k.a ^ 3) * d) - (k'.e - k.e) * Real.sinh G := by linear_combination -hGm
    rw [e1]
    have p8 := p8.trans hround'
    have c3 : |k'.e * Real.sinh F - F - M1| ≤ 101 / 10 ^ 14 + 132 * (t * W) := c3.trans (by linarith)
    rw [abs_le] at c3 p8 hdM hnd' hsG ⊢
    constructor <;> linarith
  obtain ⟨q1, q2⟩ := RHypProp.points_close hmu N.a_pos' N.e1' hΔ
  have hGG : hypInv N.e1' (k'.e * Real.sinh G - G + √(mu / k'.a ^ 3) * 0) = G := by rw [mul_zero, add_zero, ← meanOf_hyp N.e1' G, hypInv_meanOf]
  rw [hGG] at q1 q2
  obtain ⟨r1, r2⟩ := N.same_anomaly hmu G
  rw [← hCG] at r1 r2
  obtain ⟨Δ, hΔd⟩ : ∃ Δ, Δ = B + 101 / 10 ^ 14 := ⟨_, rfl⟩
  rw [← hΔd] at q1 q2 ⊢
  have hΔ0 : 0 ≤ Δ := by rw [hΔd]; positivity
  have hκ := N.factor'
  have hκ0 := Real.sqrt_nonneg ((k'.e + 1) / (k'.e - 1))
  have hale : k'.a ≤ 1001 / 1000 * k.a := by
    have := mul_le_mul_of_nonneg_right hts ha.le
    linarith [(abs_le.mp N.da).2]
  have hnle : √(mu / k'.a ^ 3) ≤ 1001 / 1000 * √(mu / k.a ^ 3) := by
    have := mul_le_mul_of_nonneg_right hts n0.le
    linarith [(abs_le.mp hdn).2]
  have hqle : 999 / 1000 * (k.e - 1) ≤ k'.e - 1 := by linarith
  have hq' : 0 < k'.e - 1 := by linarith
  have hinv : R.u / (k'.e - 1) ≤ 1002 / 1000 * (R.u / (k.e - 1)) := by
    rw [mul_div_assoc', div_le_div_iff₀ hq' hq]
    have := mul_le_mul_of_nonneg_left hqle (show 0 ≤ 1002 / 1000 * R.u by linarith)
    have := mul_nonneg hu0 hq.le
    linarith
  have hinv0 : 0 ≤ R.u / (k'.e - 1) := div_nonneg hu0 hq'.le
  have hinv0' : 0 ≤ R.u / (k.e - 1) := div_nonneg hu0 hq.le
  have ha' := N.a_pos'
  refine ⟨s', cs, c', p1, c1, c2, ?_, ?_⟩
  · refine (vlen_via _ (hyperbolaState k' √(mu / k'.a ^ 3) F).r _).trans ((add_le_add c4 ((vlen_via _ (hyperbolaState k' √(mu / k'.a ^ 3) G).r _).trans (add_le_add q1 r1))).trans ?_)
    have a1 : k'.a * (4800 * (69 / 10) ^ 2 / (k'.e - 1) * R.u) ≤ k.a * (230000 * (R.u / (k.e - 1))) := by
      rw [show 4800 * (69 / 10 : ℝ) ^ 2 / (k'.e - 1) * R.u = 228528 * (R.u / (k'.e - 1)) by ring]
      have := mul_le_mul hale (mul_le_mul_of_nonneg_left hinv (show (0 : ℝ) ≤ 228528 by norm_num)) (by positivity) (by positivity)
      have a0 : 0 ≤ k.a * (R.u / (k.e - 1)) := by positivity
      linarith
    have a2 : k'.a * (√((k'.e + 1) / (k'.e - 1)) * Δ) ≤ k.a * (√((k.e + 1) / (k.e - 1)) * (102 / 100 * Δ)) := by
      have := mul_le_mul hale (mul_le_mul_of_nonneg_right hκ hΔ0) (by positivity) (by positivity)
      have a0 : 0 ≤ k.a * (√((k.e + 1) / (k.e - 1)) * Δ) := by positivity
      linarith
    have a3 : k.a * (k.e * Real.cosh G) * (13 * P + 2100 * t) ≤ k.a * (182 * P + 30000 * t) := by
      have := mul_le_mul_of_nonneg_right (mul_le_mul_of_nonneg_left hGle ha.le) (show 0 ≤ 13 * P + 2100 * t by positivity)
      have a0 : 0 ≤ k.a * t := by positivity
      linarith
    linarith
  · refine (vlen_via _ (hyperbolaState k' √(mu / k'.a ^ 3) F).v _).trans ((add_le_add c5 ((vlen_via _ (hyperbolaState k' √(mu / k'.a ^ 3) G).v _).trans (add_le_add q2 r2))).trans ?_)
    have han : k'.a * √(mu / k'.a ^ 3) ≤ 1003 / 1000 * (k.a * √(mu / k.a ^ 3)) := by
      have := mul_le_mul hale hnle n0'.le (by positivity)
      have a0 : 0 ≤ k.a * √(mu / k.a ^ 3) := by positivity
      linarith
    generalize √(mu / k'.a ^ 3) = n' at *
    generalize √(mu / k.a ^ 3) = nn at *
    generalize √((k'.e + 1) / (k'.e - 1)) = κ' at *
    obtain ⟨κ, hκd⟩ : ∃ κ, κ = √((k.e + 1) / (k.e - 1)) := ⟨_, rfl⟩
    rw [← hκd] at hκ ⊢
    have hκp : 0 ≤ κ := by linarith
    have a1 : k'.a * n' * κ' * (1300 * (69 / 10) / (k'.e - 1) * R.u) ≤ k.a * nn * (κ * (9100 * (R.u / (k.e - 1)))) := by
      rw [show 1300 * (69 / 10 : ℝ) / (k'.e - 1) * R.u = 8970 * (R.u / (k'.e - 1)) by ring]
      have := mul_le_mul (mul_le_mul han hκ hκ0 (by positivity)) (mul_le_mul_of_nonneg_left hinv (show (0 : ℝ) ≤ 8970 by norm_num)) (by positivity) (by positivity)
      have a0 : 0 ≤ k.a * nn * (κ * (R.u / (k.e - 1))) := by positivity
      linarith
    have a2 : k'.a * n' * (Δ / (k'.e - 1) ^ 2) ≤ k.a * nn * (102 / 100 * Δ / (k.e - 1) ^ 2) := by
      have b1 : Δ / (k'.e - 1) ^ 2 ≤ 1003 / 1000 * (Δ / (k.e - 1) ^ 2) := by
        rw [mul_div_assoc', div_le_div_iff₀ (by positivity) (by positivity)]
        have b2 : (999 / 1000 * (k.e - 1)) ^ 2 ≤ (k'.e - 1) ^ 2 := pow_le_pow_left₀ (by positivity) hqle 2
        have b3 := mul_le_mul_of_nonneg_left b2 (show 0 ≤ 1003 / 1000 * Δ by positivity)
        have b4 : 0 ≤ Δ * (k.e - 1) ^ 2 := by positivity
        linarith
      have := mul_le_mul han b1 (by positivity) (by positivity)
      have a0 : 0 ≤ k.a * nn * (Δ / (k.e - 1) ^ 2) := by positivity
      rw [mul_div_assoc (102 / 100) Δ]
      linarith
    linarith

/-- C122 in double precision, where `(1 + r / a)² ≤ 10 (e² - 1)` and the sines of the four angles are at least 0.1 in absolute value: the error of the position is at most `4e-7 a`, that of the
velocity at most `2e-6 a n`. -/
theorem c122_binary64 (g : Garb (RF Binary.binary64)) {n : Nat} (s0 s : Orb (RF Binary.binary64)) (hs : OneEntryPerOrbit s0 n) (hr : s0.kro = false)
    (hmode : s0.auto = true ∨ s0.direct = true) (hdeg : s0.degrees = false) (ho : s0.opts = .dflt) (v : Val6 (RF Binary.binary64) (Cart (RF Binary.binary64)))
    (hset : set_cartesian (rfKern g) v s0 = (.ok (), s)) (j : Nat) (k : Kep ℝ) (mu : ℝ) (c : Cart ℝ)
    (hc : ∃ cs, (get_cartesian (rfKern g) s).1 = .ok cs ∧ cs[j]? = some (c.num _)) (hgrav : ∃ m, s0.m[j]? = some m ∧ s0.G * (s0.M0 + m) = RF.num _ mu) (hmu : 0 < mu)
    (hd : DescribesOrbit mu k c) (ha : 0 < k.a) (h1 : 1 < k.e) (h7 : k.e ≤ 68 / 10) (hW : (1 + vlen c.r / k.a) ^ 2 ≤ 10 * (k.e ^ 2 - 1)) (hi : 1 / 10 ≤ Real.sin k.i)
    (hOM : 1 / 10 ≤ |Real.sin k.OM|) (hom : 1 / 10 ≤ |Real.sin k.om|) (hnu : 1 / 10 ≤ |Real.sin k.nu|) {E : ℝ} (hE : SamePointHyp k.e k.nu E) (hM : 4 / 10 ^ 9 < k.e * Real.sinh E - E) :
    ∃ C : ℝ → Cart ℝ, ObeysNewton mu C ∧ C 0 = c ∧
      ∀ (dt : Val (RF Binary.binary64)) (dts : List (RF Binary.binary64)) (d : ℝ), dt.Row n dts → dts[j]? = some (RF.num _ d) →
        4 / 10 ^ 9 < k.e * Real.sinh E - E + √(mu / k.a ^ 3) * d → k.e * Real.sinh E - E + √(mu / k.a ^ 3) * d + k.e ≤ 679 / 100 →
        ∃ s' cs c', propagate (rfKern g) dt s = (.ok (), s') ∧ (get_cartesian (rfKern g) s').1 = .ok cs ∧ cs[j]? = some (Cart.num Binary.binary64 c') ∧
          vlen (c'.r - (C d).r) ≤ k.a * (4 / 10 ^ 7) ∧ vlen (c'.v - (C d).v) ≤ k.a * √(mu / k.a ^ 3) * (2 / 10 ^ 6) := by
  have hu : Binary.binary64.u = (1 / 2) ^ 53 := rfl
  have hu0 := Binary.binary64.u_nonneg
  have hu1 : Binary.binary64.u ≤ 1112 / 10 ^ 19 := by rw [hu]; norm_num
  have hsl : 0 < k.e ^ 2 - 1 := by nlinarith
  have he0 : 0 < k.e := by linarith
  obtain ⟨W, hWd⟩ : ∃ W, W = 1 + vlen c.r / k.a := ⟨_, rfl⟩
  obtain ⟨t, ht⟩ : ∃ t, t = Binary.binary64.u * (W ^ 2 / (k.e ^ 2 - 1)) := ⟨_, rfl⟩
  rw [← hWd] at hW
  have H := hd.hyp hmu ha h1
  rw [← hWd] at H
  have heW := H.e_le
  have S := hypScale hu0 h1 heW ht
  have ht0 : 0 ≤ t := hu0.trans S.one
  have ht1 : t ≤ 1112 / 10 ^ 18 := by
    have h2 : W ^ 2 / (k.e ^ 2 - 1) ≤ 10 := by rw [div_le_iff₀ hsl]; exact hW
    rw [ht]
    have := mul_le_mul hu1 h2 (by positivity) (by norm_num)
    norm_num at this ⊢
    linarith
  have he2 : 10 ≤ 9 * k.e ^ 2 := by nlinarith
  have he3 : 1054 / 1000 ≤ k.e := by nlinarith
  have hw0 := Real.sqrt_pos.mpr hsl
  have hw2 := Real.sq_sqrt hsl.le
  have hWw : W ≤ 317 / 100 * √(k.e ^ 2 - 1) := abs_le_of_sq_le_sq' (by rw [mul_pow, hw2]; nlinarith) (by positivity) |>.2
  have hwe : √(k.e ^ 2 - 1) ≤ k.e := by rw [Real.sqrt_le_left he0.le]; linarith
  have hW21 : W ≤ 216 / 10 := by linarith
  have hi0 : 0 < Real.sin k.i := by linarith
  have hi2 := pow_le_pow_left₀ (by norm_num) hi 2
  have gen : ∀ {ε θ B : ℝ}, 0 ≤ ε → ε ≤ B → 1 / 10 ≤ |Real.sin θ| → angTol ε θ ≤ 80 * B := by
    intro ε θ B a b d
    refine (AngleDist.tol_le_sin a (by norm_num) d).trans ?_
    linarith
  have hW0 : 0 < W := by linarith
  have hB : hypMeanTol Binary.binary64.u k.e k.nu W t ≤ 4 / 10 ^ 9 := by
    have a1 : Binary.binary64.u * W / k.e ≤ 317 / 100 * Binary.binary64.u := by
      rw [div_le_iff₀ he0]
      have := mul_le_mul_of_nonneg_left (hWw.trans (mul_le_mul_of_nonneg_left hwe (by norm_num))) hu0
      linarith
    have a0 : 0 ≤ Binary.binary64.u * W / k.e := div_nonneg (mul_nonneg hu0 hW0.le) he0.le
    have a2 := gen (ε := 2000 * (Binary.binary64.u * W) / k.e) (θ := k.nu) (B := 2000 * (317 / 100 * Binary.binary64.u)) (by rw [mul_div_assoc]; linarith) (by rw [mul_div_assoc]; linarith) hnu
    have a3 : k.e * W / √(k.e ^ 2 - 1) ≤ 216 / 10 := by
      rw [div_le_iff₀ hw0]
      have := mul_le_mul h7 hWw hW0.le (by norm_num)
      linarith
    have a4 := mul_le_mul a3 a2 (AngleDist.tol_nonneg (by rw [mul_div_assoc]; linarith) _) (by norm_num)
    have a5 := mul_le_mul ht1 hW21 hW0.le (by norm_num)
    rw [hypMeanTol]
    clear hu
    generalize angTol (2000 * (Binary.binary64.u * W) / k.e) k.nu = T at *
    generalize k.e * W / √(k.e ^ 2 - 1) = V at *
    generalize Binary.binary64.u = u at *
    norm_num at a4 a5 hu1 ⊢
    linarith
  have hP : hypPlaneTol t k ≤ 19 / 10 ^ 10 := by
    have b1 := gen (ε := 100 * t / Real.sin k.i) (θ := k.OM) (B := 1000 * t) (by positivity) (by
      rw [div_le_iff₀ hi0]; have := mul_le_mul_of_nonneg_left hi (show 0 ≤ 1000 * t by linarith); linarith) hOM
    have b2 := gen (ε := 100 * t) (θ := k.i) (B := 100 * t) (by positivity) le_rfl (hi.trans (le_abs_self _))
    have b3 := gen (ε := 2000 * t / Real.sin k.i) (θ := k.om) (B := 20000 * t) (by positivity) (by
      rw [div_le_iff₀ hi0]; have := mul_le_mul_of_nonneg_left hi (show 0 ≤ 20000 * t by linarith); linarith) hom
    rw [hypPlaneTol]
    norm_num at ht1 ⊢
    linarith
  have hP0 : 0 ≤ hypPlaneTol t k := by
    have b1 := AngleDist.tol_nonneg (ε := 100 * t / Real.sin k.i) (by positivity) k.OM
    have b2 := AngleDist.tol_nonneg (ε := 100 * t) (by positivity) k.i
    have b3 := AngleDist.tol_nonneg (ε := 2000 * t / Real.sin k.i) (by positivity) k.om
    rw [hypPlaneTol]; linarith
  have hκ : √((k.e + 1) / (k.e - 1)) ≤ 62 / 10 := by
    rw [Real.sqrt_le_left (by norm_num), div_le_iff₀ (by linarith)]; linarith
  have hinv : Binary.binary64.u / (k.e - 1) ≤ 206 / 10 ^ 17 := by
    rw [div_le_iff₀ (by linarith)]
    clear hu
    generalize Binary.binary64.u = u at *
    norm_num at hu1 ⊢
    linarith
  have hinv0 : 0 ≤ Binary.binary64.u / (k.e - 1) := div_nonneg hu0 (by linarith)
  obtain ⟨C, C1, C2, C3⟩ := c122 g Binary.nearest (le_of_eq hu) s0 s hs hr hmode hdeg ho v hset j k mu c hc hgrav hmu hd ha (by norm_num at he3 ⊢; linarith) h7 hi0 hWd ht
    (by norm_num at ht1 ⊢; linarith) (by norm_num at ht1 hi2 ⊢; linarith) (by linarith) hE rfl (hB.trans_lt hM)
  refine ⟨C, C1, C2, fun dt dts d row at_j lo hi' => ?_⟩
  obtain ⟨s', cs, c', d1, d2, d3, d4, d5⟩ := C3 dt dts d row at_j (hB.trans_lt lo) (by norm_num at hB hi' ⊢; linarith)
  have hN := Real.sqrt_nonneg (mu / k.a ^ 3)
  have hB0 : 0 ≤ hypMeanTol Binary.binary64.u k.e k.nu W t := by
    have := AngleDist.tol_nonneg (ε := 2000 * (Binary.binary64.u * W) / k.e) (div_nonneg (mul_nonneg (by norm_num) (mul_nonneg hu0 hW0.le)) he0.le) k.nu
    rw [hypMeanTol]; positivity
  have hκ0 := Real.sqrt_nonneg ((k.e + 1) / (k.e - 1))
  have hq2 : (54 / 1000 : ℝ) ^ 2 ≤ (k.e - 1) ^ 2 := pow_le_pow_left₀ (by norm_num) (by linarith) 2
  have hq20 : 0 < (k.e - 1) ^ 2 := lt_of_lt_of_le (by norm_num) hq2
  refine ⟨s', cs, c', d1, d2, d3, d4.trans (mul_le_mul_of_nonneg_left ?_ ha.le), d5.trans (mul_le_mul_of_nonneg_left ?_ (by positivity))⟩ <;> clear d4 d5 C3 hu
  · generalize hypMeanTol Binary.binary64.u k.e k.nu W t = B at *
    generalize hypPlaneTol t k = P at *
    generalize Binary.binary64.u / (k.e - 1) = x at *
    generalize √((k.e + 1) / (k.e - 1)) = κ at *
    have a1 := mul_le_mul hκ (show 102 / 100 * (B + 101 / 10 ^ 14) ≤ 102 / 100 * (4 / 10 ^ 9 + 101 / 10 ^ 14) by linarith) (by positivity) (by norm_num)
    norm_num at a1 hP hinv ht1 ⊢
    linarith
  · generalize hypMeanTol Binary.binary64.u k.e k.nu W t = B at *
    generalize hypPlaneTol t k = P at *
    generalize Binary.binary64.u / (k.e - 1) = x at *
    generalize √((k.e + 1) / (k.e - 1)) = κ at *
    have a1 := mul_le_mul hκ (show 9 * P + 3700 * t + 9100 * x ≤ 9 * (19 / 10 ^ 10) + 3700 * (1112 / 10 ^ 18) + 9100 * (206 / 10 ^ 17) by linarith) (by positivity) (by norm_num)
    have a2 : 102 / 100 * (B + 101 / 10 ^ 14) / (k.e - 1) ^ 2 ≤ 15 / 10 ^ 7 := by
      rw [div_le_iff₀ hq20]
      norm_num at hB hq2 ⊢
      linarith
    norm_num at a1 a2 ⊢
    linarith

set_option maxHeartbeats 1000000 in
/-- a case: the state on the hyperbola with a = 1 and e = 2 at the true anomaly π/2, assigned to an object with one orbit that stores the mean anomaly, then a call of `propagate` -/
example (g : Garb (RF Binary.binary64)) : ∃ (c : Cart ℝ) (C : ℝ → Cart ℝ) (s s1 : Orb (RF Binary.binary64)) (cs : List (Cart (RF Binary.binary64))) (c' : Cart ℝ),
    DescribesOrbit 1 ⟨1, 2, Real.pi / 6, Real.pi / 6, Real.pi / 6, Real.pi / 2⟩ c ∧ ObeysNewton 1 C ∧ C 0 = c ∧
    set_cartesian (rfKern g) (.mat [c.num _]) (lazyBlank (rfKern g) (RF.num _ 1) (RF.num _ 1) .dflt .mean) = (.ok (), s) ∧
    propagate (rfKern g) (.sc (RF.num _ 1)) s = (.ok (), s1) ∧ (get_cartesian (rfKern g) s1).1 = .ok cs ∧ cs[0]? = some (Cart.num Binary.binary64 c') ∧
    vlen (c'.r - (C 1).r) ≤ 4 / 10 ^ 7 := by
  have hp : Physical 1 (⟨1, 2, Real.pi / 6, Real.pi / 6, Real.pi / 6, Real.pi / 2⟩ : Kep ℝ) := by
    refine ⟨by norm_num, by norm_num, by norm_num, ?_⟩
    show 0 < 1 + 2 * Real.cos (Real.pi / 2)
    rw [Real.cos_pi_div_two]; norm_num
  have hsin : 1 / 10 ≤ |Real.sin (Real.pi / 6)| := by rw [Real.sin_pi_div_six]; norm_num
  have hs : OneEntryPerOrbit (lazyBlank (rfKern g) (RF.num Binary.binary64 1) (RF.num _ 1) .dflt .mean) 1 := ⟨rfl, rfl, rfl, rfl, ⟨_, rfl, rfl⟩, rfl, rfl, rfl⟩
  obtain ⟨c, hc⟩ : ∃ c, DescribesOrbit 1 (⟨1, 2, Real.pi / 6, Real.pi / 6, Real.pi / 6, Real.pi / 2⟩ : Kep ℝ) c := ⟨_, hp.adm.describes⟩
  obtain ⟨s, hset⟩ : ∃ s, set_cartesian (rfKern g) (.mat [c.num _]) (lazyBlank (rfKern g) (RF.num Binary.binary64 1) (RF.num _ 1) .dflt .mean) = (.ok (), s) := ⟨_, rfl⟩
  have hread : ∃ cs, (get_cartesian (rfKern g) s).1 = .ok cs ∧ cs[0]? = some (c.num _) := by
    obtain ⟨l, l1, l2⟩ := c32_cartesian (rfKern g) _ _ hs _ hset
    refine ⟨l, l1, ?_⟩
    obtain ⟨-, ⟨-, h⟩ | ⟨c0, h1, h2⟩⟩ := l2
    · rw [h]; rfl
    · injection h1 with h1 _
      rw [h2, ← h1]; rfl
  obtain ⟨E, hE⟩ := hyp_anomaly (e := 2) (nu := Real.pi / 2) (by norm_num) (by rw [Real.cos_pi_div_two]; norm_num)
  obtain ⟨q0, q1, q2⟩ := hyp_point_eqs (by norm_num) hE
  rw [Real.cos_pi_div_two] at q1
  rw [Real.sin_pi_div_two, one_mul] at q2
  have hcosh : Real.cosh E = 2 := by norm_num at q1; linarith
  have hsq := Real.cosh_sq E
  have hw : (0 : ℝ) < √(2 ^ 2 - 1) := Real.sqrt_pos.mpr (by norm_num)
  have hpos : 0 < Real.sinh E := by
    have : 0 < √((2 : ℝ) ^ 2 - 1) * Real.sinh E := by rw [← q2]; exact q0
    exact pos_of_mul_pos_right this hw.le
  have hE0 : 0 < E := Real.sinh_pos_iff.mp hpos
  have hle := Real.self_le_sinh_iff.mpr hE0.le
  rw [hcosh] at hsq
  have hs1 : 17 / 10 ≤ Real.sinh E := by nlinarith
  have hs2 : Real.sinh E ≤ 174 / 100 := by nlinarith
  have hn : √((1 : ℝ) / 1 ^ 3) = 1 := by norm_num
  have hdist : vlen c.r = 3 := by
    have := hc.distance
    rw [this, if_neg (by norm_num)]
    show 1 * |1 - (2 : ℝ) ^ 2| / (1 + 2 * Real.cos (Real.pi / 2)) = 3
    rw [Real.cos_pi_div_two]; norm_num
  obtain ⟨C, C1, C2, C3⟩ := c122_binary64 g (n := 1) _ s hs rfl (.inl rfl) rfl rfl _ hset 0 _ 1 c hread ⟨0, rfl, by
      show (RF.num Binary.binary64 1 : RF _) * (RF.num _ 1 + 0) = _
      have : Binary.binary64.rd 1 = 1 := by
        have h1 := Binary.binary64.exact 4 (by norm_num)
        norm_num at h1
        rw [Rounding.rd, h1, Real.exp_zero, one_mul]
      rw [zero_num, add_num, mul_num, add_zero, this, one_mul, this]⟩ one_pos hc (by norm_num) (by norm_num) (by norm_num) (by rw [hdist]; norm_num)
    (by show 1 / 10 ≤ Real.sin (Real.pi / 6); rw [Real.sin_pi_div_six]; norm_num) hsin hsin (by show 1 / 10 ≤ |Real.sin (Real.pi / 2)|; rw [Real.sin_pi_div_two]; norm_num) hE
    (by show (4 / 10 ^ 9 : ℝ) < 2 * Real.sinh E - E; norm_num; linarith)
  obtain ⟨s1, cs, c', d1, d2, d3, d4, -⟩ := C3 (.sc (RF.num _ 1)) [RF.num _ 1] 1 rfl rfl
    (by show (4 / 10 ^ 9 : ℝ) < 2 * Real.sinh E - E + √((1 : ℝ) / 1 ^ 3) * 1; rw [hn]; norm_num; linarith)
    (by show 2 * Real.sinh E - E + √((1 : ℝ) / 1 ^ 3) * 1 + 2 ≤ 679 / 100; rw [hn]; linarith)
  refine ⟨c, C, s, s1, cs, c', hc, C1, C2, hset, d1, d2, d3, d4.trans ?_⟩
  show (1 : ℝ) * (4 / 10 ^ 7) ≤ _
  norm_num

end Orbit
end Pyorb
