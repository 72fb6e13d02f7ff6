import Verif.PropsOrbitSet
import Verif.PropsOrbitDefault
import Verif.PropsTripMean

/-!
# Assigning an anomaly of any kind with the default solver options (C82)

The setters of `true_anomaly`, `eccentric_anomaly` and `mean_anomaly` (orbit.py 918-1009) convert to the kind of anomaly the object stores and the
getters (902-984) convert back.
-/

set_option linter.unusedVariables false

namespace Pyorb
namespace Orbit
open Py FX
variable {α : Type} (K : Kern α)

/-- what is read after an assignment: the value assigned, converted to the kind stored and back -/
theorem set_anomaly_read {n : Nat} (s s' : Orb α) (hs : OneEntryPerOrbit s n) (t : Anom) (v : Val α) (es : List α)
    (hup : s.type = t → s.auto = true → s.direct = false → KepUpToDate K s) (hes : (get_kep K 1 s).1 = .ok es)
    (h : set_anomaly K t v s = (.ok (), s')) :
    ∃ xs, v.Row n xs ∧ xs.length = n ∧ es.length = n ∧
      readAnomaly K t s' = .ok (List.zipWith (fun x e => conv K s.opts s.degrees s.type t (conv K s.opts s.degrees t s.type x e) e) xs es) := by
  have hup' : s.type = t → Fresh K s := by
    intro ht
    cases hl : lazy s with
    | false => exact fresh_direct K hl
    | true => exact upToDate_fresh K hs.wfe.1 (hup ht (lazy_iff.mp hl).1 (lazy_iff.mp hl).2)
  obtain ⟨xs, h1, h2, h3⟩ := set_anomaly_ok K hs.wfe hup' h
  have hw' : WFE n s' := by
    have : WFE n (set_anomaly K t v s).2 := by
      cases t
      · exact (set_true_anomaly_sh K v s hs.wfe).1
      · exact (set_eccentric_anomaly_sh K v s hs.wfe).1
      · exact (set_mean_anomaly_sh K v s hs.wfe).1
    rw [h] at this; exact this
  have hf : Fresh K s' := h3.fresh fun j => fresh_kepCheck K s j
  have hes' : es = (kepCheck K s).kep.map Kep.e := (Except.ok.inj hes).symm
  have hk : (kepCheck K s).kep.length = n := (hs.wfe.1.kepCheck K).kep
  have hel : es.length = n := by rw [hes', List.length_map, hk]
  refine ⟨xs, h1, h2, hel, ?_⟩
  obtain ⟨_, e1, _⟩ := get_anomaly_val K hw' t
  rw [readAnomaly_eq, e1, hf.check, h3.kep]
  refine congrArg Except.ok ?_
  have hset := kepCheck_settings K s
  have e2 : s'.type = s.type := h3.type.trans hset.1
  have e3 : s'.degrees = s.degrees := h3.degrees.trans hset.2.1
  have e4 : s'.opts = s.opts := h3.opts.trans hset.2.2.1
  refine List.ext_getElem? fun j => ?_
  rw [List.getElem?_map, List.getElem?_zipWith, List.getElem?_zipWith]
  by_cases hj : j < n
  · rw [List.getElem?_eq_getElem (hk ▸ hj), List.getElem?_eq_getElem (h2 ▸ hj), List.getElem?_eq_getElem (hel.symm ▸ hj)]
    simp only [Option.map_some]
    rw [anomOf_conv, e2, e3, e4]
    subst hes'
    simp only [List.getElem_map]
  · rw [List.getElem?_eq_none (by omega), List.getElem?_eq_none (by omega), List.getElem?_eq_none (by omega)]
    rfl

/-- how far, in radians and apart from whole turns, the anomaly of kind `t` read back may be from the one assigned to an object that stores the kind `t0` -/
noncomputable def assignError (t t0 : Anom) (e : ℝ) : ℝ :=
  match t, t0 with
  | .tru, .mean => √((1 + e) / (1 - e)) * (tol0 / (1 - e))
  | .ecc, .mean => tol0 / (1 - e)
  | .mean, .tru | .mean, .ecc => tol0
  | _, _ => 0

/-- the solver on the elements of arrays -/
theorem default_solves {e : ℝ} (h0 : 0 ≤ e) (h1 : e < 1) {M : ℝ} (hM0 : 0 ≤ M) (hM1 : M ≤ 2 * Real.pi) :
    ∃ E, meanToEccentricEl SolverOpts.dflt (fin M) (fin e) = fin E ∧ |meanOf e E - M| < tol0 := by
  obtain ⟨E, h2, -, h4⟩ := meanToEccentricEl_fin tol0 5000 5 M e h0 (.inl h1.le)
  rw [tol0, ← dflt_fin] at h2 h4
  refine ⟨E, h2, h4 h1.ne ?_⟩
  rw [dflt_fin]
  exact c72_limit _ _ M e h0 h1 hM0 hM1 163 dflt_steps (by norm_num)

theorem default_near {e : ℝ} (h0 : 0 ≤ e) (h1 : e < 1) {Es : ℝ} (hM0 : 0 ≤ Es) (hM1 : Es ≤ 2 * Real.pi) :
    ∃ E, meanToEccentricEl SolverOpts.dflt (fin (meanOf e Es)) (fin e) = fin E ∧ |E - Es| ≤ tol0 / (1 - e) := by
  have hm := (meanOf_strictMono h0 h1).monotone
  obtain ⟨E, h2, h3⟩ := default_solves h0 h1 (M := meanOf e Es) (by have := hm hM0; rwa [meanOf_zero] at this)
    (by have := hm hM1; rwa [meanOf_two_pi h1] at this)
  refine ⟨E, h2, ?_⟩
  have h4 : (1 - e) * |E - Es| ≤ |meanOf e E - meanOf e Es| := by
    rcases le_total Es E with h | h
    · have := meanOf_gap h0 h1.ne h
      rw [abs_of_pos (sub_pos.mpr h1)] at this
      rw [abs_of_nonneg (sub_nonneg.mpr h)]
      exact this.trans (le_abs_self _)
    · have := meanOf_gap h0 h1.ne h
      rw [abs_of_pos (sub_pos.mpr h1)] at this
      rw [abs_of_nonpos (sub_nonpos.mpr h), abs_sub_comm, neg_sub]
      exact this.trans (le_abs_self _)
  rw [le_div_iff₀ (sub_pos.mpr h1), mul_comm]
  exact h4.trans h3.le

theorem conv_back (g : KGarbage) (deg : Bool) (t0 t : Anom) {x e : ℝ} (h0 : 0 ≤ e) (h1 : e < 1)
    (hr : 0 ≤ angleOf deg x) (hr2 : angleOf deg x ≤ 2 * Real.pi) :
    ∃ (y : ℝ) (z : ℤ), conv (fxKern g) SolverOpts.dflt deg t0 t (conv (fxKern g) SolverOpts.dflt deg t t0 (fin x) (fin e)) (fin e) = fin y ∧
      |angleOf deg y - (angleOf deg x + z * (2 * Real.pi))| ≤ assignError t t0 e := by
  set a := angleOf deg x with ha
  obtain ⟨z, hz⟩ := turn_eq a
  have hown : ∃ (y : ℝ) (z : ℤ), fin x = fin y ∧ |angleOf deg y - (a + z * (2 * Real.pi))| ≤ 0 := ⟨x, 0, rfl, by simp [ha]⟩
  have hturn : |turn a - (a + ((-z : ℤ) : ℝ) * (2 * Real.pi))| ≤ 0 := by
    rw [hz]; push_cast
    rw [show a - z * (2 * Real.pi) - (a + -z * (2 * Real.pi)) = 0 by ring, abs_zero]
  cases t <;> cases t0 <;> simp only [conv, assignError]
  · exact hown
  · exact ⟨angleOut deg (turn a), -z, by rw [fx_tte g deg h0 h1, fx_ett g deg h0 h1, angleOf_angleOut, trueOf_eccOf h0 h1],
      by rw [angleOf_angleOut]; exact hturn⟩
  · have hEs := scaleHalf_mem (eliFac e) a
    obtain ⟨E, hE, hd⟩ := default_near h0 h1 hEs.1 hEs.2.le
    rw [fx_ttm g deg h0 h1, fx_mtt g deg h0 h1 (by rw [angleOf_angleOut]; exact hE)]
    obtain ⟨z1, hz1⟩ := trueOf_nuLift h0 h1 E
    obtain ⟨z2, hz2⟩ := trueOf_nuLift h0 h1 (eccOf e a)
    rw [trueOf_eccOf h0 h1] at hz2
    refine ⟨_, z1 - z2 - z, rfl, ?_⟩
    rw [angleOf_angleOut, eliFac_inv]
    have hk := eliFac_pos h0 h1
    have hk1 : eliFac e ≤ 1 := by
      have : eliFac e ^ 2 ≤ 1 := by rw [eliFac_sq h0 h1, div_le_one (by linarith)]; linarith
      nlinarith
    have h2 : trueOf e E - (a + ((z1 - z2 - z : ℤ) : ℝ) * (2 * Real.pi)) = nuLift (eliFac e) E - nuLift (eliFac e) (eccOf e a) := by
      push_cast
      linarith
    rw [h2]
    exact (nuLift_lipschitz hk hk1 E _).trans (mul_le_mul_of_nonneg_left hd (inv_nonneg.mpr hk.le))
  · exact ⟨angleOut deg (turn a), -z, by rw [fx_ett g deg h0 h1, fx_tte g deg h0 h1, angleOf_angleOut, eccOf_trueOf h0 h1],
      by rw [angleOf_angleOut]; exact hturn⟩
  · exact hown
  · obtain ⟨E, hE, hd⟩ := default_near h0 h1 hr hr2
    refine ⟨angleOut deg E, 0, by rw [fx_etm g deg h1, fx_mte g deg (by rw [angleOf_angleOut]; exact hE)], ?_⟩
    rw [angleOf_angleOut]
    simpa using hd
  · obtain ⟨E, hE, hd⟩ := default_solves h0 h1 hr hr2
    obtain ⟨z1, hz1⟩ := turn_eq E
    refine ⟨angleOut deg (meanOf e (turn E)), -z1, by
      rw [fx_mtt g deg h0 h1 hE, fx_ttm g deg h0 h1, angleOf_angleOut, eccOf_trueOf h0 h1], ?_⟩
    rw [angleOf_angleOut]
    have h2 : meanOf e (turn E) - (a + ((-z1 : ℤ) : ℝ) * (2 * Real.pi)) = meanOf e E - a := by
      rw [meanOf_eli e h1, meanOf_eli e h1, sin_turn, hz1]
      push_cast
      ring
    rw [h2]
    exact hd.le
  · obtain ⟨E, hE, hd⟩ := default_solves h0 h1 hr hr2
    refine ⟨angleOut deg (meanOf e E), 0, by rw [fx_mte g deg hE, fx_etm g deg h1, angleOf_angleOut], ?_⟩
    rw [angleOf_angleOut]
    simpa using hd.le
  · exact hown

/-- C82: on ellipses, with the default solver options, an anomaly of any kind within one turn, assigned to an object that stores any kind, is read back
up to whole turns and up to `assignError`: not at all changed unless the mean anomaly is involved, by at most 1e-12 if it is the one assigned, by at
most 1e-12/(1-e) (eccentric) or sqrt((1+e)/(1-e)) 1e-12/(1-e) (true) if it is the one stored. -/
theorem c82 (g : KGarbage) {n : Nat} (s s' : Orb FX) (hs : OneEntryPerOrbit s n) (t : Anom) (v : Val FX) (es xs : List ℝ)
    (ho : s.opts = SolverOpts.dflt) (hup : s.type = t → s.auto = true → s.direct = false → KepUpToDate (fxKern g) s)
    (hes : (get_kep (fxKern g) 1 s).1 = .ok (es.map fin)) (hell : ∀ e ∈ es, 0 ≤ e ∧ e < 1)
    (hxs : v.Row n (xs.map fin)) (hrange : ∀ x ∈ xs, 0 ≤ angleOf s.degrees x ∧ angleOf s.degrees x ≤ 2 * Real.pi)
    (h : set_anomaly (fxKern g) t v s = (.ok (), s')) :
    ∃ ys, readAnomaly (fxKern g) t s' = .ok ys ∧ ys.length = n ∧ ∀ (j : Nat) (x e : ℝ), xs[j]? = some x → es[j]? = some e →
      ∃ (y : ℝ) (z : ℤ), ys[j]? = some (fin y) ∧ |angleOf s.degrees y - (angleOf s.degrees x + z * (2 * Real.pi))| ≤ assignError t s.type e := by
  have huniq : ∀ l, v.Row n l → l = xs.map fin := by
    intro l hl
    cases v with
    | sc x => exact hl.trans hxs.symm
    | zd x => exact hl.trans hxs.symm
    | vec ys =>
      rcases hl with ⟨h1, h2⟩ | ⟨y, h1, h2⟩ <;> rcases hxs with ⟨h3, h4⟩ | ⟨z, h3, h4⟩
      · rw [h2, h4]
      · rw [h2, h4, h3]; rw [h3] at h1; simp only [List.length_singleton] at h1; subst h1; rfl
      · rw [h2, h4, h1]; rw [h1] at h3; simp only [List.length_singleton] at h3; subst h3; rfl
      · rw [h1] at h3; cases h3; rw [h2, h4]
  obtain ⟨l, h1, h2, h3, h4⟩ := set_anomaly_read (fxKern g) s s' hs t v (es.map fin) hup hes h
  refine ⟨_, h4, by rw [List.length_zipWith, h2, h3, min_self], fun j x e hx he => ?_⟩
  obtain ⟨hx0, hx1⟩ := hrange x (List.mem_of_getElem? hx)
  obtain ⟨he0, he1⟩ := hell e (List.mem_of_getElem? he)
  obtain ⟨y, z, h5, h6⟩ := conv_back g s.degrees s.type t he0 he1 hx0 hx1
  refine ⟨y, z, ?_, h6⟩
  rw [List.getElem?_zipWith, huniq l h1, List.getElem?_map, List.getElem?_map, hx, he]
  simp only [Option.map_some]
  rw [ho, h5]

/-- a case: the mean anomaly 1 assigned to an object (e = 1/2) that stores the true anomaly is read back within 1e-12 -/
example (g : KGarbage) : ∃ s', set_mean_anomaly (fxKern g) (.sc (fin 1)) (lazyKep g SolverOpts.dflt .tru ⟨2, 1 / 2, 1, 2, 3, 4⟩) = (.ok (), s') ∧
    ∃ (ys : List FX) (y : ℝ) (z : ℤ), (get_mean_anomaly (fxKern g) s').1 = .ok ys ∧ ys[0]? = some (fin y) ∧
      |y - (1 + z * (2 * Real.pi))| ≤ 1 / 1000000000000 := by
  have hp := Real.pi_gt_three
  refine ⟨_, rfl, ?_⟩
  obtain ⟨ys, h1, -, h2⟩ := c82 g (lazyKep g SolverOpts.dflt .tru ⟨2, 1 / 2, 1, 2, 3, 4⟩) _ (lazyKep_one g _ _ _) .mean (.sc (fin 1)) [1 / 2] [1]
    rfl nofun rfl (by intro e he; rw [List.mem_singleton.mp he]; norm_num) rfl
    (by intro x hx; rw [List.mem_singleton.mp hx]; exact ⟨zero_le_one, by show (1 : ℝ) ≤ _; linarith⟩) rfl
  obtain ⟨y, z, h3, h4⟩ := h2 0 1 (1 / 2) rfl rfl
  exact ⟨ys, y, z, h1, h3, h4⟩

end Orbit
end Pyorb
