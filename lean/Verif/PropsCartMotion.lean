import Verif.PropsCartBack

/-!
# Propagation from Cartesian coordinates with rounding (C115)
-/

set_option linter.unusedVariables false

namespace Pyorb
namespace Orbit

/-! ## What is read after `orb.cartesian = value` -/

section
open Py
variable {α : Type} (K : Kern α)

theorem set_cartesian_only {n : Nat} {s s' : Orb α} (hs : OneEntryPerOrbit s n) {v : Val6 α (Cart α)} (h : set_cartesian K v s = (.ok (), s')) :
    OneEntryPerOrbit s' n ∧ OnlyElements s s' ∧ ∃ cs, (get_cartesian K s').1 = .ok cs ∧
      (s.auto = true ∨ s.direct = true → ∀ (j : Nat) (c : Cart α) (m : α), cs[j]? = some c → s.m[j]? = some m → c.any K.isnan = false →
        ∃ ks, (get_kepler K s').1 = .ok ks ∧ ks[j]? = some (kepOfCart K s.type s.degrees (K.mu s.G s.M0 m) c)) := by
  unfold set_cartesian at h
  have hw := hs.wfe.1
  rcases guardCart_cases s with ⟨e, he⟩ | he
  · rw [bind_err he] at h; cases h
  rw [bind_ok he, self_bind, lift_bind, hw.cart] at h
  cases hv : v.setter Cart.const Cart.ofList n with
  | error e => rw [hv] at h; cases h
  | ok vs =>
    rw [hv] at h
    have hlen := Val6.setter_length hv
    have hw' : WF n ({ s with cart := vs } : Orb α) := ⟨hw.m, hlen, hw.kep, hw.tA, hw.mA, hw.cartCalc, hw.kepCalc⟩
    have h4 : afterCart K ({ s with cart := vs } : Orb α) = (.ok (), s') := h
    obtain ⟨t, h1, h2, h3⟩ := afterCart_ok K hw'
    obtain rfl : t = s' := by rw [h1] at h4; injection h4
    have hcs : (get_cartesian K t).1 = .ok vs := by rw [get_cartesian_run, h3.check, h2]
    cases hd : s.direct with
    | false =>
      rw [afterCart_lazy K (s := ({ s with cart := vs } : Orb α)) hd] at h4
      injection h4 with _ h4
      subst h4
      refine ⟨⟨hw.m, hlen, hw.kep, hw.tA, hs.cachedEccentric, hw.mA, by simp [allFlags, hw.cartCalc], by simp [allFlags, hw.kepCalc]⟩, rfl, vs, hcs, fun hmode j c m hc hm hn => ?_⟩
      have ha : s.auto = true := by simpa using hmode
      refine ⟨_, rfl, ?_⟩
      have hj : j < n := by rw [← hlen]; exact (List.getElem?_eq_some_iff.mp hc).1
      rw [kepCheck_eq]
      have hst : checkSet K ({ s with cart := vs, kepCalc := allFlags s.kepCalc false, cartCalc := allFlags s.cartCalc true } : Orb α) j = true := by
        have h5 : stale (allFlags s.kepCalc false) j = true := by
          have : j < s.kepCalc.length := by rw [hw.kepCalc]; exact hj
          simp [stale, allFlags, List.getD_eq_getElem?_getD, this]
        have h6 : lazy ({ s with cart := vs, kepCalc := allFlags s.kepCalc false, cartCalc := allFlags s.cartCalc true } : Orb α) = true := by simp [lazy, ha, hd]
        have h7 : cartOk K ({ s with cart := vs, kepCalc := allFlags s.kepCalc false, cartCalc := allFlags s.cartCalc true } : Orb α) j = true := by
          simp [cartOk, cartAt_of K (s := ({ s with cart := vs, kepCalc := allFlags s.kepCalc false, cartCalc := allFlags s.cartCalc true } : Orb α)) hc, hn, hlen, hj]
        rw [checkSet, h5, h6, h7]; rfl
      simp only [recalcKep, List.getElem?_mapIdx]
      rw [List.getElem?_eq_getElem (by rw [hw.kep]; exact hj)]
      simp only [Option.map_some, hst, if_true]
      rw [cartAt_of K (s := ({ s with cart := vs, kepCalc := allFlags s.kepCalc false, cartCalc := allFlags s.cartCalc true } : Orb α)) hc,
        muAt_of K (s := ({ s with cart := vs, kepCalc := allFlags s.kepCalc false, cartCalc := allFlags s.cartCalc true } : Orb α)) hm]
    | true =>
      have hl : lazy ({ s with cart := vs } : Orb α) = false := lazy_direct hd
      have h5 : afterCart K ({ s with cart := vs } : Orb α) = (.ok (), recalcKep K (cartOk K ({ s with cart := vs } : Orb α)) { s with cart := vs }) := by
        rw [← calculate_kepler_direct K hw' hl]
        simp only [afterCart, self_bind, hd, if_true]
      rw [h5] at h4
      injection h4 with _ h4
      subst h4
      refine ⟨⟨hw.m, hlen, by simp [recalcKep, hw.kep], hw.tA, hs.cachedEccentric, hw.mA, hw.cartCalc, by simp [recalcKep, hw.kepCalc]⟩, rfl, vs, hcs, fun hmode j c m hc hm hn => ?_⟩
      refine ⟨_, rfl, ?_⟩
      have hj : j < n := by rw [← hlen]; exact (List.getElem?_eq_some_iff.mp hc).1
      rw [kepCheck_direct K (s := recalcKep K (cartOk K ({ s with cart := vs } : Orb α)) { s with cart := vs }) hl]
      have h7 : cartOk K ({ s with cart := vs } : Orb α) j = true := by
        simp [cartOk, cartAt_of K (s := ({ s with cart := vs } : Orb α)) hc, hn, hlen, hj]
      simp only [recalcKep, List.getElem?_mapIdx]
      rw [List.getElem?_eq_getElem (by rw [hw.kep]; exact hj)]
      simp only [Option.map_some, h7, if_true]
      rw [cartAt_of K (s := ({ s with cart := vs } : Orb α)) hc, muAt_of K (s := ({ s with cart := vs } : Orb α)) hm]

end

/-! ## The stored anomaly -/

open Py FX RF Wide
variable {R : Rounding} (g : Garb (RF R))

/-- the anomaly `calculate_kepler` stores for a true anomaly in one turn -/
theorem stored_anom (hu : R.u ≤ 1 / 10 ^ 6) (t : Anom) {e nu F : ℝ} (h0 : 0 ≤ e) (h1 : e < 1) (hF : SamePoint e nu F) (hnu : |nu| ≤ 7) :
    ∃ (x M0 : ℝ) (z : ℤ), fromTrue (rfKern g) t false (RF.num R nu) (RF.num R e) = RF.num R x ∧ HasMean t e x M0 ∧
      |M0 - (F - e * Real.sin F + z * (2 * Real.pi))| ≤ (200 + 28 * anomCond e) * R.u ∧ |x| ≤ 22 := by
  have hu0 := R.u_nonneg
  have hc := anomCond_pos h0 h1
  have he : |e| < 1 := by rwa [abs_of_nonneg h0]
  have hcn := mul_le_mul_of_nonneg_right (mul_le_mul_of_nonneg_left hnu (show 0 ≤ anomCond e by linarith)) hu0
  cases t
  · refine ⟨nu, F - e * Real.sin F, 0, rfl, ⟨F, hF, rfl⟩, ?_, by linarith⟩
    rw [Int.cast_zero, zero_mul, add_zero, sub_self, abs_zero]; positivity
  · obtain ⟨E, E0, k1, k2, k3, k4, k5⟩ := tte_forward (R := R) hu h0 h1 nu
    obtain ⟨z, hz⟩ := hasMean_unique (t := .tru) he ⟨F, hF, rfl⟩ ⟨E0, k4, rfl⟩
    refine ⟨E, E - e * Real.sin E, z, ?_, rfl, ?_, ?_⟩
    · show trueToEccentricEl g.ecc .f64 (RF.num R nu) (RF.num R e) = _
      rw [trueToEccentricEl, rtri_mask h1, k1]
    · rw [← hz]
      have h3 := meanOf_lipschitz h0 E E0
      have h4 : (1 + e) * |E - E0| ≤ 2 * |E - E0| := mul_le_mul_of_nonneg_right (by linarith) (abs_nonneg _)
      linarith
    · rw [abs_of_nonneg k2]; linarith
  · obtain ⟨M, M0, m1, m2, m3, m4⟩ := Wide.read_mean g hu .dflt .tru h0 h1 nu
    obtain ⟨z, hz⟩ := hasMean_unique (t := .tru) he ⟨F, hF, rfl⟩ m2
    refine ⟨M, M, z, m1, rfl, ?_, by linarith⟩
    rw [← hz]
    linarith

theorem _root_.Pyorb.CartKep.NearShape.motion {a e a' e' α β : ℝ} (h : CartKep.NearShape a e a' e' α β) {mu : ℝ} (hmu : 0 < mu) :
    |√(mu / a' ^ 3) - √(mu / a ^ 3)| ≤ 205 / 100 * α * √(mu / a ^ 3) ∧ √(mu / a' ^ 3) ≤ 102 / 100 * √(mu / a ^ 3) := by
  obtain ⟨s1, -⟩ := h.speed hmu
  have hN := Real.sqrt_nonneg (mu / a ^ 3)
  have ha := h.a_pos
  have ha' := h.a_pos'
  have hge := h.a_ge
  have hda := h.da
  have hα0 := h.α0
  have hα := h.hα
  generalize √(mu / a ^ 3) = N at *
  generalize √(mu / a' ^ 3) = N' at *
  have h1 : a' * |N' - N| ≤ 202 / 100 * α * (a * N) := by
    rw [show a' * |N' - N| = |a' * (N' - N)| by rw [abs_mul, abs_of_pos ha'], show a' * (N' - N) = (a' * N' - a * N) - (a' - a) * N by ring]
    refine (abs_sub _ _).trans ?_
    rw [abs_mul, abs_of_nonneg hN]
    have := mul_le_mul_of_nonneg_right hda hN
    linarith
  have h2 : |N' - N| ≤ 205 / 100 * α * N := by
    refine le_of_mul_le_mul_left (h1.trans ?_) ha'
    have := mul_le_mul_of_nonneg_right hge (show 0 ≤ 205 / 100 * α * N by positivity)
    have h3 : 0 ≤ α * (a * N) := by positivity
    linarith
  refine ⟨h2, ?_⟩
  have h4 := (abs_le.mp h2).2
  have h5 := mul_le_mul_of_nonneg_right hα hN
  linarith

variable {g} in
theorem RRun.abs_le {n j m : Nat} {s s' : Orb (RF R)} {D T : ℝ} (h : RRun g n j s s' m D T) : |D| ≤ T := by
  induction h with
  | one dt dts d row at_j run => exact le_rfl
  | more before dt dts d row at_j run ih => exact (abs_add_le _ _).trans (by linarith)

/-! ## C115 -/

/-- the bound of C114 and C115 for the errors of the elements computed from a state -/
noncomputable def cartTol (u : ℝ) (k : Kep ℝ) : ℝ :=
  13 * (angTol (120 * (u / (1 - k.e)) / Real.sin k.i) k.OM + angTol (140 * (u / (1 - k.e))) k.i + angTol (4000 * (u / (1 - k.e)) / (k.e * Real.sin k.i)) k.om) +
    4 * √((1 + k.e) / (1 - k.e)) * angTol (2000 * u / k.e) k.nu

set_option maxHeartbeats 1000000 in
open CartKep in
/-- C115: the Cartesian state `c` of an orbit, on an ellipse as in C114 with elements `k`, is assigned to an object (radians, automatic updates, any anomaly type) whose arithmetic rounds to
nearest.  There is a solution of Newton's equations with the state `c` at time 0, such that after any number `m` of calls of `propagate`, with time steps of either sign that add up to `D`, their
absolute values to `T`, the state read from `orb.cartesian` is close to that of the solution at `D`. -/
theorem c115 {n : Nat} (hR : Nearest R) (hu : R.u ≤ 1 / 10 ^ 9) (s0 s : Orb (RF R)) (hs : OneEntryPerOrbit s0 n) (hr : s0.kro = false) (hmode : s0.auto = true ∨ s0.direct = true)
    (hdeg : s0.degrees = false) {tol : ℝ} (hsol : WideSolver s0.opts tol) (v : Val6 (RF R) (Cart (RF R))) (hset : set_cartesian (rfKern g) v s0 = (.ok (), s))
    (j : Nat) (k : Kep ℝ) (mu : ℝ) (c : Cart ℝ) (hc : ∃ cs, (get_cartesian (rfKern g) s).1 = .ok cs ∧ cs[j]? = some (c.num R))
    (hgrav : ∃ m, s0.m[j]? = some m ∧ s0.G * (s0.M0 + m) = RF.num R mu) (hmu : 0 < mu) (hd : DescribesOrbit mu k c) (ha : 0 < k.a)
    (he0 : 3 / 10 ^ 9 ≤ k.e) (he1 : k.e < 1) (hi0 : 0 < Real.sin k.i) (hsm : 10 ^ 6 * (R.u / (1 - k.e)) ≤ k.e * Real.sin k.i)
    (hi : 200 * (R.u / (1 - k.e)) + 1 / 10 ^ 16 ≤ Real.sin k.i ^ 2) :
    ∃ C : ℝ → Cart ℝ, ObeysNewton mu C ∧ C 0 = c ∧
      ∀ (s' : Orb (RF R)) (m : Nat) (D T : ℝ), RRun g n j s s' m D T →
        ∃ cs c', (get_cartesian (rfKern g) s').1 = .ok cs ∧ cs[j]? = some (Cart.num R c') ∧
          vlen (c'.r - (C D).r) ≤ k.a / (1 - k.e) * (26 / 25 * (if s0.type = .mean then tol else m * tol) + cartTol R.u k +
            (5400 / (1 - k.e) + 2000 * √((1 + k.e) / (1 - k.e)) * m + 230 / (1 - k.e) * (√(mu / k.a ^ 3) * T)) * R.u) ∧
          vlen (c'.v - (C D).v) ≤ k.a * √(mu / k.a ^ 3) / (1 - k.e) ^ 2 * (26 / 25 * (if s0.type = .mean then tol else m * tol) + cartTol R.u k +
            (5400 / (1 - k.e) + 2000 * √((1 + k.e) / (1 - k.e)) * m + 230 / (1 - k.e) * (√(mu / k.a ^ 3) * T)) * R.u) := by
  have hu0 := R.u_nonneg
  have hep : 0 < k.e := lt_of_lt_of_le (by norm_num) he0
  have hq : 0 < 1 - k.e := by linarith
  obtain ⟨hs', honly, cs0, hcs0, hread⟩ := set_cartesian_only (rfKern g) hs hset
  obtain ⟨cs1, hcs1, hcj⟩ := hc
  obtain rfl : cs0 = cs1 := by rw [hcs0] at hcs1; injection hcs1
  obtain ⟨mj, hmj, hmuj⟩ := hgrav
  obtain ⟨ks, hks, hkj⟩ := hread hmode j _ mj hcj hmj rfl
  -- the computed elements
  obtain ⟨k', hk', E⟩ := elements hR (fun _ => g.ctk) hmu hd ha he0 he1 hi0 hsm hi
  have hcol : (rfKern g).cartToKep false (RF.num R mu) (c.num R) = k'.num R := by
    have h1 : (cart_to_kep (fun _ => g.ctk) (.sc (RF.num R mu)) false (.vec .f64 (c.num R))).1 = .ok (.vec .f64 (cartToKep g.ctk .f64 (RF.num R mu) false (c.num R))) := rfl
    rw [hk'] at h1
    injection h1 with h1
    injection h1 with _ h1
    exact h1.symm
  have hN := E.near ha hep he1 hi0 hsm
  obtain ⟨F0, hF0⟩ : ∃ F, SamePoint k.e k.nu F := ⟨_, samePoint_eccOf hep.le he1⟩
  obtain ⟨F1, hF1, hb1⟩ := E.anom hep he1 hsm hF0
  have S := hN.shape
  have hnu : |k'.nu| ≤ 7 := by
    obtain ⟨r1, r2⟩ := E.nu.range
    have := Real.pi_lt_d2
    rw [abs_of_nonneg r1]
    linarith
  obtain ⟨x, M0, z0, x1, x2, x3, x4⟩ := stored_anom g (show R.u ≤ 1 / 10 ^ 6 by linarith) s0.type S.e0' S.e1' hF1 hnu
  have hset' : s.type = s0.type ∧ s.degrees = s0.degrees ∧ s.opts = s0.opts ∧ s.m = s0.m ∧ s.G = s0.G ∧ s.M0 = s0.M0 ∧ s.kro = s0.kro ∧ s.auto = s0.auto ∧ s.direct = s0.direct := by
    rw [honly]; exact ⟨rfl, rfl, rfl, rfl, rfl, rfl, rfl, rfl, rfl⟩
  obtain ⟨w1, w2, w3, w4, w5, w6, w7, w8, w9⟩ := hset'
  have hstored : ks[j]? = some (Kep.num R { k' with nu := x }) := by
    rw [hkj]
    show some (kepOfCart (rfKern g) s0.type s0.degrees (s0.G * (s0.M0 + mj)) (c.num R)) = _
    rw [hmuj, hdeg, kepOfCart, hcol]
    show some ({ k'.num R with nu := fromTrue (rfKern g) s0.type false (RF.num R k'.nu) (RF.num R k'.e) } : Kep (RF R)) = _
    rw [x1]; rfl
  have htu : R.u ≤ R.u / (1 - k.e) := by rw [le_div_iff₀ hq]; nlinarith
  have hmot := S.motion hmu
  obtain ⟨t, ht⟩ : ∃ t, t = R.u / (1 - k.e) := ⟨_, rfl⟩
  have hut : R.u = t * (1 - k.e) := by rw [ht, div_mul_cancel₀ _ hq.ne']
  rw [← ht] at htu hsm hb1 hmot
  have ht0 : 0 ≤ t := by linarith
  have hei : k.e * Real.sin k.i ≤ 1 := mul_le_one₀ he1.le hi0.le (Real.sin_le_one _)
  have hue : R.u ≤ 1 / 1000000 * (1 - k.e) := by
    rw [hut]; exact mul_le_mul_of_nonneg_right (by norm_num at hsm ⊢; linarith) hq.le
  have hwide : 300 * R.u ≤ 1 - k'.e := by
    have h1 := S.q_ge
    linarith
  have W : RWideEllipse g s j { k' with nu := x } mu tol :=
    ⟨⟨ks, hks, hstored⟩, ⟨mj, by rw [w4]; exact hmj, by rw [w5, w6]; exact hmuj⟩, hmu, S.a_pos', S.e0', S.e1', hwide, by rw [w2]; exact hdeg, by rw [w3]; exact hsol⟩
  -- the motion
  obtain ⟨C, hC, hNewt, hst⟩ := newton_curve hmu ha hep.le he1 false (meanOf k.e F0)
  have hphys : Physical mu k := ⟨hmu, ha, hep.le, by have := Real.neg_one_le_cos k.nu; nlinarith⟩
  refine ⟨C, hNewt, ?_, fun s' m D T hrun => ?_⟩
  · have h1 : DescribesOrbit mu k (C 0) := hst k.nu F0 hF0 (meanOf_eli _ he1 _).symm
    rw [describes_unique hphys.adm h1, describes_unique hphys.adm hd]
  obtain ⟨y, M1, A⟩ := run_after hu hrun hs' (by rw [w7]; exact hr) W (M0 := M0) (by rw [w1]; exact x2)
  obtain ⟨hm1, hT⟩ := hrun.pos
  have hDT := hrun.abs_le
  have hm1 : (1 : ℝ) ≤ m := by exact_mod_cast hm1
  obtain ⟨cs, c', F, c1, c2, c3, c4, c5⟩ := A.cart (by rw [w8, w9]; exact hmode)
  obtain ⟨z, hz⟩ := A.close
  obtain ⟨G, hG, hGm⟩ := hC D
  change |F - k'.e * Real.sin F - M1| ≤ _ + 200 * anomCond k'.e * R.u at c3
  change vlen (c'.r - (ellipseState k' √(mu / k'.a ^ 3) F).r) ≤ k'.a / (1 - k'.e) * (600 * (1 + k'.e) * R.u) at c4
  change vlen (c'.v - (ellipseState k' √(mu / k'.a ^ 3) F).v) ≤ k'.a * √(mu / k'.a ^ 3) / (1 - k'.e) ^ 2 * (400 * R.u) at c5
  change |M1 - (M0 + √(mu / k'.a ^ 3) * D + z * (2 * Real.pi))| ≤ _ + (600 * anomCond k'.e * m + 14 * anomCond k'.e * |x| + 18 * (√(mu / k'.a ^ 3) * T)) * R.u at hz
  rw [w1] at c3 hz
  obtain ⟨tm, htm⟩ : ∃ tm, tm = (if s0.type = .mean then tol else m * tol) := ⟨_, rfl⟩
  have htm0 : 0 ≤ tm := by
    rw [htm]; have := hsol.pos; split_ifs <;> positivity
  obtain ⟨cd, hcd⟩ : ∃ cd, cd = √((1 + k.e) / (1 - k.e)) := ⟨_, rfl⟩
  have hcd1 : 1 ≤ cd := by rw [hcd, Real.one_le_sqrt, le_div_iff₀ hq]; linarith
  have hcond : anomCond k'.e ≤ 3 / 2 * cd := by
    have hq' := S.q_ge
    have he' := abs_le.mp S.de
    rw [hcd, anomCond, abs_of_nonneg S.e0', Real.sqrt_le_left (by positivity), mul_pow, Real.sq_sqrt (by positivity), mul_div_assoc', div_le_div_iff₀ (by linarith [S.e1']) hq]
    nlinarith
  obtain ⟨N, hNd⟩ : ∃ N, N = √(mu / k.a ^ 3) := ⟨_, rfl⟩
  have hN0 : 0 ≤ N := by rw [hNd]; positivity
  rw [← hNd] at hmot hGm
  obtain ⟨Tn, hTn⟩ : ∃ Tn, Tn = angTol (2000 * R.u / k.e) k.nu := ⟨_, rfl⟩
  have hTn0 : 0 ≤ Tn := by rw [hTn]; exact AngleDist.tol_nonneg (by positivity) _
  rw [← hcd, ← hTn] at hb1
  have hNT : 0 ≤ N * T := mul_nonneg hN0 hT
  have htNT : 0 ≤ t * (N * T) := mul_nonneg ht0 hNT
  have hcu : 0 ≤ cd * R.u := mul_nonneg (by linarith) hu0
  -- the phase
  have hphase : |meanOf k'.e F - (meanOf k'.e G + (z + z0 : ℤ) * (2 * Real.pi))| ≤ tm + 1910 * m * (cd * R.u) + 2000 * t + 3 * cd * Tn + 700 * R.u + 216 * (t * (N * T)) := by
    rw [meanOf_eli _ S.e1'] at hb1 ⊢
    rw [meanOf_eli _ S.e1'] at hb1 ⊢
    rw [meanOf_eli _ he1, meanOf_eli _ he1] at hGm
    push_cast
    have hsin (y : ℝ) : |(k'.e - k.e) * Real.sin y| ≤ 250 * R.u := by
      rw [abs_mul]
      have := mul_le_mul E.e (Real.abs_sin_le_one y) (abs_nonneg _) (by positivity)
      linarith
    have s1 := hsin G
    have s2 := hsin F0
    have s3 : |(√(mu / k'.a ^ 3) - N) * D| ≤ 197 * (t * (N * T)) := by
      rw [abs_mul]
      have h1 := mul_le_mul hmot.1 hDT (abs_nonneg _) (by positivity)
      linarith
    have s4 : 18 * (√(mu / k'.a ^ 3) * T) * R.u ≤ 19 * (t * (N * T)) := by
      have h1 := mul_le_mul_of_nonneg_right hmot.2 hT
      have h2 := mul_le_mul_of_nonneg_right h1 hu0
      have h3 := mul_le_mul_of_nonneg_left htu hNT
      linarith
    have s5 : (600 * anomCond k'.e * m + 14 * anomCond k'.e * |x|) * R.u + 200 * anomCond k'.e * R.u + (200 + 28 * anomCond k'.e) * R.u ≤ 1910 * m * (cd * R.u) + 200 * R.u := by
      have hc0 : 0 ≤ anomCond k'.e := by rw [anomCond]; positivity
      have h0 : anomCond k'.e * R.u ≤ 3 / 2 * (cd * R.u) := by
        have := mul_le_mul_of_nonneg_right hcond hu0
        linarith
      have h00 : 0 ≤ anomCond k'.e * R.u := mul_nonneg hc0 hu0
      have h1 := mul_le_mul_of_nonneg_left x4 h00
      have h2 := mul_le_mul_of_nonneg_right h0 (show (0 : ℝ) ≤ m by linarith)
      have h3 := mul_le_mul_of_nonneg_right hm1 hcu
      linarith
    have s6 : (if s0.type = .mean then tol else 0) + m * (if s0.type = .mean then 0 else tol) ≤ tm := by
      rw [htm]; split_ifs <;> linarith
    have e1 : F - k'.e * Real.sin F - (G - k'.e * Real.sin G + ((z : ℝ) + z0) * (2 * Real.pi)) =
        (F - k'.e * Real.sin F - M1) + (M1 - (M0 + √(mu / k'.a ^ 3) * D + z * (2 * Real.pi))) + (M0 - (F1 - k'.e * Real.sin F1 + z0 * (2 * Real.pi))) +
          (F1 - k'.e * Real.sin F1 - (F0 - k'.e * Real.sin F0)) + (k'.e - k.e) * Real.sin G - (k'.e - k.e) * Real.sin F0 + (√(mu / k'.a ^ 3) - N) * D := by
      linear_combination -hGm
    rw [e1]
    rw [abs_le] at c3 hz x3 hb1 s1 s2 s3 ⊢
    constructor <;> linarith
  obtain ⟨q1, q2⟩ := near_ellipse hmu hN hphase
  have hG' : C D = ellipseState k √(mu / k.a ^ 3) G := hG
  obtain ⟨DD, hDD⟩ : ∃ DD, DD = angTol (120 * (R.u / (1 - k.e)) / Real.sin k.i) k.OM + angTol (140 * (R.u / (1 - k.e))) k.i + angTol (4000 * (R.u / (1 - k.e)) / (k.e * Real.sin k.i)) k.om := ⟨_, rfl⟩
  have hDD0 : 0 ≤ DD := by
    rw [hDD]
    have a1 := AngleDist.tol_nonneg (ε := 120 * (R.u / (1 - k.e)) / Real.sin k.i) (by positivity) k.OM
    have a2 := AngleDist.tol_nonneg (ε := 140 * (R.u / (1 - k.e))) (by positivity) k.i
    have a3 := AngleDist.tol_nonneg (ε := 4000 * (R.u / (1 - k.e)) / (k.e * Real.sin k.i)) (by positivity) k.om
    linarith
  have hfin : 26 / 25 * tm + (13 * DD + 4 * cd * Tn) + (5400 / (1 - k.e) + 2000 * cd * m + 230 / (1 - k.e) * (N * T)) * R.u =
      26 / 25 * tm + (13 * DD + 4 * cd * Tn) + 5400 * t + 2000 * m * (cd * R.u) + 230 * (t * (N * T)) := by
    rw [ht]; ring
  rw [← hDD, ← ht] at q1 q2
  refine ⟨cs, c', c1, c2, ?_, ?_⟩
  · rw [cartTol, ← hDD, ← hcd, ← hTn, ← htm, ← hNd, hfin, hG']
    refine (vlen_via _ _ _).trans ((add_le_add c4 q1).trans ?_)
    have e1 := mul_le_mul S.quot (show 600 * (1 + k'.e) * R.u ≤ 1200 * R.u by have := mul_le_mul_of_nonneg_right (show 1 + k'.e ≤ 2 by linarith [S.e1']) hu0; linarith)
      (by have := S.e0'; positivity) (by positivity)
    refine (add_le_add_left e1 _).trans ?_
    rw [show 102 / 100 * (k.a / (1 - k.e)) * (1200 * R.u) = k.a / (1 - k.e) * (1224 * R.u) by ring, ← mul_add]
    refine mul_le_mul_of_nonneg_left ?_ (by positivity)
    have e2 : 0 ≤ cd * Tn := mul_nonneg (by linarith) hTn0
    have e3 := mul_nonneg (show (0 : ℝ) ≤ m by linarith) hcu
    linarith
  · rw [hG', cartTol, ← hDD, ← hcd, ← hTn, ← htm, ← hNd, hfin]
    rw [← hNd] at q2
    refine (vlen_via _ _ _).trans ((add_le_add c5 q2).trans ?_)
    have e1 := mul_le_mul_of_nonneg_right (S.quot2 hmu) (show 0 ≤ 400 * R.u by linarith)
    rw [← hNd] at e1
    refine (add_le_add_left e1 _).trans ?_
    rw [show 104 / 100 * (k.a * N / (1 - k.e) ^ 2) * (400 * R.u) = k.a * N / (1 - k.e) ^ 2 * (416 * R.u) by ring, ← mul_add]
    refine mul_le_mul_of_nonneg_left ?_ (by positivity)
    have e2 : 0 ≤ cd * Tn := mul_nonneg (by linarith) hTn0
    have e3 := mul_nonneg (show (0 : ℝ) ≤ m by linarith) hcu
    linarith

/-- the errors of the elements for moderate eccentricities and angles, in double precision -/
theorem cartTol_binary64 {k : Kep ℝ} (he0 : 1 / 10 ≤ k.e) (he1 : k.e ≤ 9 / 10) (hi : 1 / 10 ≤ Real.sin k.i) (hOM : 1 / 10 ≤ |Real.sin k.OM|)
    (hom : 1 / 10 ≤ |Real.sin k.om|) (hnu : 1 / 10 ≤ |Real.sin k.nu|) {u : ℝ} (hu0 : 0 ≤ u) (hu1 : u ≤ 1112 / 10 ^ 19) :
    cartTol u k ≤ 468 / 10 ^ 9 ∧ u / (1 - k.e) ≤ 1112 / 10 ^ 18 ∧ √((1 + k.e) / (1 - k.e)) ≤ 22 / 5 := by
  have hq : (1 / 10 : ℝ) ≤ 1 - k.e := by linarith
  have hq0 : 0 < 1 - k.e := by linarith
  have hei : (1 / 100 : ℝ) ≤ k.e * Real.sin k.i := by have := mul_le_mul he0 hi (by norm_num) (by linarith); linarith
  have ht1 : u / (1 - k.e) ≤ 1112 / 10 ^ 18 := by
    rw [div_le_iff₀ hq0]
    have := mul_le_mul_of_nonneg_left hq (show (0 : ℝ) ≤ 1112 / 10 ^ 18 by norm_num)
    norm_num at hu1 this ⊢
    linarith
  have ht0 : 0 ≤ u / (1 - k.e) := div_nonneg hu0 hq0.le
  have hc : √((1 + k.e) / (1 - k.e)) ≤ 22 / 5 := by
    rw [Real.sqrt_le_left (by norm_num), div_le_iff₀ hq0]; linarith
  refine ⟨?_, ht1, hc⟩
  rw [cartTol]
  generalize u / (1 - k.e) = t at *
  have gen : ∀ {ε θ B : ℝ}, 0 ≤ ε → ε ≤ B → 1 / 10 ≤ |Real.sin θ| → angTol ε θ ≤ 80 * B := by
    intro ε θ B a b d
    refine (AngleDist.tol_le_sin a (by norm_num) d).trans ?_
    linarith
  have hi0 : 0 < Real.sin k.i := by linarith
  have hep : 0 < k.e := by linarith
  have a1 := gen (ε := 120 * t / Real.sin k.i) (θ := k.OM) (B := 1200 * t) (by positivity) (by
    rw [div_le_iff₀ hi0]; have := mul_le_mul_of_nonneg_left hi (show 0 ≤ 1200 * t by linarith); linarith) hOM
  have a2 := gen (ε := 140 * t) (θ := k.i) (B := 140 * t) (by positivity) le_rfl (hi.trans (le_abs_self _))
  have a3 := gen (ε := 4000 * t / (k.e * Real.sin k.i)) (θ := k.om) (B := 400000 * t) (by positivity) (by
    rw [div_le_iff₀ (by positivity)]; have := mul_le_mul_of_nonneg_left hei (show 0 ≤ 400000 * t by linarith); linarith) hom
  have a4 := gen (ε := 2000 * u / k.e) (θ := k.nu) (B := 20000 * u) (by positivity) (by
    rw [div_le_iff₀ hep]; have := mul_le_mul_of_nonneg_left he0 (show 0 ≤ 20000 * u by linarith); linarith) hnu
  have a5 := mul_le_mul hc a4 (AngleDist.tol_nonneg (by positivity) _) (by norm_num)
  norm_num at ht1 hu1 ⊢
  linarith

/-- C115 in double precision with the default options of the solver, for eccentricities between 0.1 and 0.9, `sin i ≥ 0.1` and sines of node, argument of periapsis and true anomaly of
at least 0.1 in absolute value: `4.7e-7` for the elements, `2.1e-12` for each call and `2.6e-13` for each radian of mean anomaly. -/
theorem c115_binary64 (g : Garb (RF Binary.binary64)) {n : Nat} (s0 s : Orb (RF Binary.binary64)) (hs : OneEntryPerOrbit s0 n) (hr : s0.kro = false)
    (hmode : s0.auto = true ∨ s0.direct = true) (hdeg : s0.degrees = false) (ho : s0.opts = .dflt) (v : Val6 (RF Binary.binary64) (Cart (RF Binary.binary64)))
    (hset : set_cartesian (rfKern g) v s0 = (.ok (), s)) (j : Nat) (k : Kep ℝ) (mu : ℝ) (c : Cart ℝ)
    (hc : ∃ cs, (get_cartesian (rfKern g) s).1 = .ok cs ∧ cs[j]? = some (c.num _)) (hgrav : ∃ m, s0.m[j]? = some m ∧ s0.G * (s0.M0 + m) = RF.num _ mu) (hmu : 0 < mu)
    (hd : DescribesOrbit mu k c) (ha : 0 < k.a) (he0 : 1 / 10 ≤ k.e) (he1 : k.e ≤ 9 / 10) (hi : 1 / 10 ≤ Real.sin k.i) (hOM : 1 / 10 ≤ |Real.sin k.OM|)
    (hom : 1 / 10 ≤ |Real.sin k.om|) (hnu : 1 / 10 ≤ |Real.sin k.nu|) :
    ∃ C : ℝ → Cart ℝ, ObeysNewton mu C ∧ C 0 = c ∧
      ∀ (s' : Orb (RF Binary.binary64)) (m : Nat) (D T : ℝ), RRun g n j s s' m D T →
        ∃ cs c', (get_cartesian (rfKern g) s').1 = .ok cs ∧ cs[j]? = some (Cart.num Binary.binary64 c') ∧
          vlen (c'.r - (C D).r) ≤ k.a / (1 - k.e) * (47 / 10 ^ 8 + 21 / 10 ^ 13 * m + 26 / 10 ^ 14 * (√(mu / k.a ^ 3) * T)) ∧
          vlen (c'.v - (C D).v) ≤ k.a * √(mu / k.a ^ 3) / (1 - k.e) ^ 2 * (47 / 10 ^ 8 + 21 / 10 ^ 13 * m + 26 / 10 ^ 14 * (√(mu / k.a ^ 3) * T)) := by
  have hu : Binary.binary64.u = (1 / 2) ^ 53 := rfl
  have hu0 := Binary.binary64.u_nonneg
  have hu1 : Binary.binary64.u ≤ 1112 / 10 ^ 19 := by rw [hu]; norm_num
  obtain ⟨k1, k2, k3⟩ := cartTol_binary64 he0 he1 hi hOM hom hnu hu0 hu1
  have hq0 : 0 < 1 - k.e := by linarith
  have hei : (1 / 100 : ℝ) ≤ k.e * Real.sin k.i := by have := mul_le_mul he0 hi (by norm_num) (by linarith); linarith
  have hi2 := pow_le_pow_left₀ (by norm_num) hi 2
  obtain ⟨ok, ht⟩ := wideSolver_default (R := Binary.binary64) (le_of_eq hu)
  obtain ⟨C, C1, C2, C3⟩ := c115 g Binary.nearest (by norm_num at hu1 ⊢; linarith) s0 s hs hr hmode hdeg (by rw [ho]; exact ok) v hset j k mu c hc hgrav hmu hd ha
    (by norm_num at he0 ⊢; linarith) (by linarith) (by linarith) (by norm_num at k2 ⊢; linarith) (by norm_num at k2 hi2 ⊢; linarith)
  refine ⟨C, C1, C2, fun s' m D T hrun => ?_⟩
  obtain ⟨cs, c', d1, d2, d3, d4⟩ := C3 s' m D T hrun
  obtain ⟨hm1, hT⟩ := hrun.pos
  have hm1 : (1 : ℝ) ≤ m := by exact_mod_cast hm1
  have hN := Real.sqrt_nonneg (mu / k.a ^ 3)
  have hNT := mul_nonneg hN hT
  have hb : 26 / 25 * (if s0.type = .mean then Binary.binary64.rd (1 / 10 ^ 12) else m * Binary.binary64.rd (1 / 10 ^ 12)) + cartTol Binary.binary64.u k +
      (5400 / (1 - k.e) + 2000 * √((1 + k.e) / (1 - k.e)) * m + 230 / (1 - k.e) * (√(mu / k.a ^ 3) * T)) * Binary.binary64.u ≤
      47 / 10 ^ 8 + 21 / 10 ^ 13 * m + 26 / 10 ^ 14 * (√(mu / k.a ^ 3) * T) := by
    have h1 : (if s0.type = .mean then Binary.binary64.rd (1 / 10 ^ 12) else m * Binary.binary64.rd (1 / 10 ^ 12)) ≤ 101 / 10 ^ 14 * m := by
      have := mul_le_mul_of_nonneg_left ht (show (0 : ℝ) ≤ m by linarith)
      split_ifs <;> linarith
    rw [show (5400 / (1 - k.e) + 2000 * √((1 + k.e) / (1 - k.e)) * m + 230 / (1 - k.e) * (√(mu / k.a ^ 3) * T)) * Binary.binary64.u =
      5400 * (Binary.binary64.u / (1 - k.e)) + 2000 * (√((1 + k.e) / (1 - k.e)) * Binary.binary64.u) * m + 230 * (Binary.binary64.u / (1 - k.e)) * (√(mu / k.a ^ 3) * T) by ring]
    have h2 := mul_le_mul k3 hu1 hu0 (by norm_num)
    have h3 := mul_le_mul_of_nonneg_right h2 (show (0 : ℝ) ≤ m by linarith)
    have h4 := mul_le_mul_of_nonneg_right k2 hNT
    clear d3 d4 hu
    generalize (if s0.type = .mean then Binary.binary64.rd (1 / 10 ^ 12) else m * Binary.binary64.rd (1 / 10 ^ 12)) = tm at *
    generalize Binary.binary64.u / (1 - k.e) = t at *
    generalize Binary.binary64.u = u at *
    norm_num at h1 h2 h3 h4 k1 k2 ⊢
    linarith
  exact ⟨cs, c', d1, d2, d3.trans (mul_le_mul_of_nonneg_left hb (by positivity)), d4.trans (mul_le_mul_of_nonneg_left hb (by positivity))⟩

/-- a case: the state with e = 1/2 and four angles of 30 degrees assigned to an object with one orbit that stores the mean anomaly, then a call of `propagate` -/
example (g : Garb (RF Binary.binary64)) : ∃ (c : Cart ℝ) (C : ℝ → Cart ℝ) (s s1 : Orb (RF Binary.binary64)) (cs : List (Cart (RF Binary.binary64))) (c' : Cart ℝ),
    DescribesOrbit 1 ⟨2, 1 / 2, Real.pi / 6, Real.pi / 6, Real.pi / 6, Real.pi / 6⟩ c ∧ ObeysNewton 1 C ∧ C 0 = c ∧
    set_cartesian (rfKern g) (.mat [c.num _]) (lazyBlank (rfKern g) (RF.num _ 1) (RF.num _ 1) .dflt .mean) = (.ok (), s) ∧
    propagate (rfKern g) (.sc (RF.num _ 5)) s = (.ok (), s1) ∧ (get_cartesian (rfKern g) s1).1 = .ok cs ∧ cs[0]? = some (Cart.num Binary.binary64 c') ∧
    vlen (c'.r - (C 5).r) ≤ 19 / 10 ^ 7 := by
  have hp : Physical 1 (⟨2, 1 / 2, Real.pi / 6, Real.pi / 6, Real.pi / 6, Real.pi / 6⟩ : Kep ℝ) := by
    refine ⟨by norm_num, by norm_num, by norm_num, ?_⟩
    show 0 < 1 + 1 / 2 * Real.cos (Real.pi / 6)
    have := Real.neg_one_le_cos (Real.pi / 6)
    linarith
  have hsin : 1 / 10 ≤ |Real.sin (Real.pi / 6)| := by rw [Real.sin_pi_div_six]; norm_num
  have hs : OneEntryPerOrbit (lazyBlank (rfKern g) (RF.num Binary.binary64 1) (RF.num _ 1) .dflt .mean) 1 := ⟨rfl, rfl, rfl, rfl, ⟨_, rfl, rfl⟩, rfl, rfl, rfl⟩
  obtain ⟨c, hc⟩ : ∃ c, DescribesOrbit 1 (⟨2, 1 / 2, Real.pi / 6, Real.pi / 6, Real.pi / 6, Real.pi / 6⟩ : Kep ℝ) c := ⟨_, hp.adm.describes⟩
  obtain ⟨s, hset⟩ : ∃ s, set_cartesian (rfKern g) (.mat [c.num _]) (lazyBlank (rfKern g) (RF.num Binary.binary64 1) (RF.num _ 1) .dflt .mean) = (.ok (), s) := ⟨_, rfl⟩
  have hread : ∃ cs, (get_cartesian (rfKern g) s).1 = .ok cs ∧ cs[0]? = some (c.num _) := by
    obtain ⟨l, l1, l2⟩ := c32_cartesian (rfKern g) _ _ hs _ hset
    refine ⟨l, l1, ?_⟩
    obtain ⟨-, ⟨-, h⟩ | ⟨c0, h1, h2⟩⟩ := l2
    · rw [h]; rfl
    · injection h1 with h1 _
      rw [h2, ← h1]; rfl
  obtain ⟨hs', honly, -⟩ := set_cartesian_only (rfKern g) hs hset
  obtain ⟨C, C1, C2, C3⟩ := c115_binary64 g (n := 1) _ s hs rfl (.inl rfl) rfl rfl _ hset 0 _ 1 c hread ⟨0, rfl, by
      show (RF.num Binary.binary64 1 : RF _) * (RF.num _ 1 + 0) = _
      have : Binary.binary64.rd 1 = 1 := by
        have h1 := Binary.binary64.exact 4 (by norm_num)
        norm_num at h1
        rw [Rounding.rd, h1, Real.exp_zero, one_mul]
      rw [zero_num, add_num, mul_num, add_zero, this, one_mul, this]⟩ one_pos hc (by norm_num) (by norm_num) (by norm_num)
    (by show 1 / 10 ≤ Real.sin (Real.pi / 6); rw [Real.sin_pi_div_six]; norm_num) hsin hsin hsin
  obtain ⟨⟨s1, p1⟩, -⟩ := c98_returns g _ hs' (by rw [honly]; rfl) 0 (dt := .sc (RF.num _ 5)) (dts := [RF.num _ 5]) rfl
  have r1 := RRun.one (g := g) (n := 1) (j := 0) (.sc (RF.num _ 5)) [RF.num _ 5] 5 rfl rfl p1
  obtain ⟨cs, c', d1, d2, d3, -⟩ := C3 _ _ _ _ r1
  refine ⟨c, C, s, s1, cs, c', hc, C1, C2, hset, p1, d1, d2, d3.trans ?_⟩
  have hN : √((1 : ℝ) / 2 ^ 3) ≤ 1 := by rw [Real.sqrt_le_left (by norm_num)]; norm_num
  show (2 : ℝ) / (1 - 1 / 2) * (47 / 10 ^ 8 + 21 / 10 ^ 13 * (1 : ℕ) + 26 / 10 ^ 14 * (√((1 : ℝ) / 2 ^ 3) * |(5 : ℝ)|)) ≤ _
  rw [abs_of_pos (show (0 : ℝ) < 5 by norm_num), Nat.cast_one]
  generalize √((1 : ℝ) / 2 ^ 3) = N at *
  norm_num
  linarith

end Orbit
end Pyorb
