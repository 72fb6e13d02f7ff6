import Verif.PropsOrbitLazy
import Verif.PropsDegrees

/-!
# Changing the anomaly type of an `Orbit` (C30)

Assigning `orb.type` stores the anomaly of the new kind in the last Kepler row (`c30_kepler_partial`, in every mode).  In lazy
mode the Cartesian elements are recalculated with the new type, so the object does not move (`c30_lazy_partial`,
`c30_lazy_formulas`).  In direct mode they are recalculated before the new type is stored: the new number is taken as an anomaly
of the old kind (`c30_direct_partial`), and the object moves (`c30_false`).
-/

set_option linter.unusedSimpArgs false
set_option linter.unusedVariables false

namespace Pyorb
namespace Orbit
open Py FX
variable {α : Type} (K : Kern α)

/-- Kepler columns with the last row replaced -/
def withAnom (ks : List (Kep α)) (xs : List α) : List (Kep α) := List.zipWith (fun k x => { k with nu := x }) ks xs

/-- what `orb.true_anomaly`, `orb.eccentric_anomaly` or `orb.mean_anomaly` returns -/
def readAnomaly (t : Anom) (s : Orb α) : Except PyErr (List α) :=
  match t with
  | .tru => (get_true_anomaly K s).1
  | .ecc => (get_eccentric_anomaly K s).1
  | .mean => (get_mean_anomaly K s).1

theorem readAnomaly_eq (t : Anom) (s : Orb α) : readAnomaly K t s = (get_anomaly K t s).1 := by cases t <;> rfl

/-- the anomaly getters, in every mode -/
theorem get_anomaly_val {n : Nat} {s : Orb α} (hw : WFE n s) (t : Anom) :
    ∃ r, get_anomaly K t s = (.ok ((kepCheck K s).kep.map (anomOf K t (kepCheck K s))), r) ∧ SameCore (kepCheck K s) r ∧ WFE n r := by
  have hw' : WFE n (kepCheck K s) := kepCheck_wfe K s hw
  cases t
  · have h : get_anomaly K .tru s = get_true_anomaly K (kepCheck K s) := get_kepCheck K .trueAnomaly rfl s
    rw [h]; exact get_true_anomaly_val K hw' (fresh_kepCheck K s)
  · have h : get_anomaly K .ecc s = get_eccentric_anomaly K (kepCheck K s) := get_kepCheck K .eccentricAnomaly rfl s
    rw [h]; exact get_eccentric_anomaly_val K hw' (fresh_kepCheck K s)
  · have h : get_anomaly K .mean s = get_mean_anomaly K (kepCheck K s) := get_kepCheck K .meanAnomaly rfl s
    rw [h]; exact get_mean_anomaly_val K hw' (fresh_kepCheck K s)

/-- the Kepler elements with the anomaly re-expressed -/
def reExpressed (t : Anom) (s : Orb α) : List (Kep α) := s.kep.map fun k => { k with nu := anomOf K t s k }

/-- the `type` setter when the type changes -/
theorem set_type_run {n : Nat} {s : Orb α} (hw : WFE n s) (hr : s.kro = false) (t : Anom) (ht : s.type ≠ t) :
    ∃ r, SameCore (kepCheck K s) r ∧ WFE n r ∧ WFE n { r with kep := reExpressed K t (kepCheck K s) } ∧
      (s.direct = true → set_type K (some t) s = (.ok (), { recalcCart K (kepOk K { r with kep := reExpressed K t (kepCheck K s) })
        { r with kep := reExpressed K t (kepCheck K s) } with type := t })) ∧
      (s.direct = false → set_type K (some t) s = (.ok (), { r with
        kep := reExpressed K t (kepCheck K s), cartCalc := allFlags r.cartCalc false, type := t })) := by
  obtain ⟨r, h1, h2, h3⟩ := get_anomaly_val K hw t
  have hkep : r.kep = (kepCheck K s).kep := h2.kep
  have hlen : (kepCheck K s).kep.length = n := by rw [← hkep]; exact h3.1.kep
  have hks : List.zipWith (fun k x => k.set 5 x) r.kep ((kepCheck K s).kep.map (anomOf K t (kepCheck K s))) =
      reExpressed K t (kepCheck K s) := by
    rw [hkep, List.zipWith_map_right, List.zipWith_self]; rfl
  have hw2 : WFE n { r with kep := reExpressed K t (kepCheck K s) } :=
    ⟨⟨h3.1.m, h3.1.cart, by simp [reExpressed, hlen], h3.1.tA, h3.1.mA, h3.1.cartCalc, h3.1.kepCalc⟩, h3.2⟩
  have hkro : r.kro = false := by rw [h2.kro, kepCheck_eq]; exact hr
  have hdir : r.direct = s.direct := by rw [h2.direct, kepCheck_dir]
  have hg : (guardKep : Py α Unit) r = (.ok (), r) := by simp [guardKep, hkro, self_bind, pure_run]
  have hsk : set_kep K 5 (.vec ((kepCheck K s).kep.map (anomOf K t (kepCheck K s)))) r =
      afterKepEl K { r with kep := reExpressed K t (kepCheck K s) } := by
    unfold set_kep
    rw [bind_ok hg, self_bind, spread_vec (by simp [h3.1.kep, hlen]), liftOk_bind, upd_bind]
    simp only [hks]
  have hst : set_type K (some t) s = ((do afterKepEl K; upd fun s => { s with type := t }) : Py α Unit) { r with kep := reExpressed K t (kepCheck K s) } := by
    show ((do let s ← self; if s.type = t then pure () else do
      let x ← get_anomaly K t
      set_kep K 5 (.vec x)
      upd fun s => { s with type := t }) : Py α Unit) s = _
    rw [self_bind, if_neg ht, bind_ok h1, bind_run, hsk]
    rfl
  refine ⟨r, h2, h3, hw2, fun hd => ?_, fun hd => ?_⟩
  · rw [hst, bind_run]
    have : afterKepEl K { r with kep := reExpressed K t (kepCheck K s) } =
        calculate_cartesian K .all { r with kep := reExpressed K t (kepCheck K s) } := by
      unfold afterKepEl
      rw [self_bind, if_pos (hdir.trans hd)]
    rw [this, calculate_cartesian_direct K hw2.1 (lazy_direct (hdir.trans hd))]
    rfl
  · rw [hst, bind_run, afterKepEl_lazy K (s := { r with kep := reExpressed K t (kepCheck K s) }) (hdir.trans hd)]
    rfl

theorem set_type_same {s : Orb α} (t : Anom) (ht : s.type = t) : set_type K (some t) s = (.ok (), s) := by
  show ((do let s ← self; if s.type = t then pure () else _) : Py α Unit) s = _
  rw [self_bind, if_pos ht]; rfl

theorem anomOf_own {s : Orb α} (k : Kep α) : anomOf K s.type s k = k.nu := by
  unfold anomOf trueFn meanFn eccFn
  cases s.type <;> rfl

theorem fresh_set_type {s r : Orb α} (hr : SameCore (kepCheck K s) r) (ks : List (Kep α)) (cc : List Bool) (t : Anom) :
    Fresh K { r with kep := ks, cartCalc := cc, type := t } := by
  intro j
  have := (fresh_kepCheck K s).core K hr j
  exact this

/-- C30, part of it in every mode: assigning the type replaces the last Kepler row by the anomaly of the new kind that was read
before, and leaves the other rows.  The Cartesian elements are the subject of the theorems below; in direct mode they change. -/
theorem c30_kepler_partial {n : Nat} (s : Orb α) (hs : OneEntryPerOrbit s n) (hr : s.kro = false) (t : Anom) :
    ∃ ks xs s', (get_kepler K s).1 = .ok ks ∧ readAnomaly K t s = .ok xs ∧ set_type K (some t) s = (.ok (), s') ∧ s'.type = t ∧
      xs.length = ks.length ∧ (get_kepler K s').1 = .ok (withAnom ks xs) := by
  obtain ⟨r, h1, h2, h3⟩ := get_anomaly_val K hs.wfe t
  refine ⟨(kepCheck K s).kep, (kepCheck K s).kep.map (anomOf K t (kepCheck K s)), ?_⟩
  have hks : withAnom (kepCheck K s).kep ((kepCheck K s).kep.map (anomOf K t (kepCheck K s))) = reExpressed K t (kepCheck K s) := by
    unfold withAnom reExpressed
    rw [List.zipWith_map_right, List.zipWith_self]
  have hx : readAnomaly K t s = .ok ((kepCheck K s).kep.map (anomOf K t (kepCheck K s))) := by rw [readAnomaly_eq, h1]
  by_cases ht : s.type = t
  · refine ⟨s, rfl, hx, set_type_same K t ht, ht, by simp, ?_⟩
    rw [hks, get_kepler_run]
    have : (kepCheck K s).type = t := by rw [(kepCheck_settings K s).1, ht]
    refine congrArg Except.ok ?_
    unfold reExpressed
    refine ((List.map_congr_left fun k _ => ?_).trans (List.map_id _)).symm
    rw [← this, anomOf_own]; rfl
  · obtain ⟨r, g1, g2, g3, g4, g5⟩ := set_type_run K hs.wfe hr t ht
    cases hd : s.direct
    · refine ⟨_, rfl, hx, g5 hd, rfl, by simp, ?_⟩
      rw [get_kepler_run, (fresh_set_type K g1 _ _ t).check K, hks]
    · refine ⟨_, rfl, hx, g4 hd, rfl, by simp, ?_⟩
      rw [hks, get_kepler_run, kepCheck_direct K]
      · rfl
      · refine lazy_direct ?_
        show r.direct = true
        rw [g1.direct, kepCheck_dir, hd]

/-- C30 in lazy mode: where the Cartesian elements `c` read before are the state of the Kepler elements `k` read before, and the
re-expressed anomaly denotes the same point of the orbit, `orb.cartesian` reads `c` again after the type is assigned.
(Missing for the full claim: direct mode, where it is false, and the correctness of the anomaly conversions.) -/
theorem c30_lazy_partial {n : Nat} (s s' : Orb α) (hs : OneEntryPerOrbit s n) (hl : s.auto = true ∧ s.direct = false)
    (hr : s.kro = false) (t : Anom) (ht : s.type ≠ t) (ks : List (Kep α)) (xs : List α) (hks : (get_kepler K s).1 = .ok ks)
    (hxs : readAnomaly K t s = .ok xs) (h : set_type K (some t) s = (.ok (), s')) (j : Nat) (k : Kep α) (x m : α) (c : Cart α)
    (hk : ks[j]? = some k) (hx : xs[j]? = some x) (hm : s.m[j]? = some m)
    (hc : c = cartOfKep K s.type s.opts s.degrees (K.mu s.G s.M0 m) k)
    (hn : ({ k with nu := x } : Kep α).any K.isnan = false)
    (hsame : cartOfKep K t s.opts s.degrees (K.mu s.G s.M0 m) { k with nu := x } =
      cartOfKep K s.type s.opts s.degrees (K.mu s.G s.M0 m) k) :
    ∃ cs, (get_cartesian K s').1 = .ok cs ∧ cs[j]? = some c := by
  obtain ⟨r, g1, g2, g3, g4, g5⟩ := set_type_run K hs.wfe hr t ht
  rw [g5 hl.2] at h
  have hs' : s' = { r with kep := reExpressed K t (kepCheck K s), cartCalc := allFlags r.cartCalc false, type := t } := by
    injection h with _ h; exact h.symm
  have hks' : ks = (kepCheck K s).kep := by
    rw [get_kepler_run] at hks; injection hks with hks; exact hks.symm
  have hxs' : xs = (kepCheck K s).kep.map (anomOf K t (kepCheck K s)) := by
    obtain ⟨_, e1, _⟩ := get_anomaly_val K hs.wfe t
    rw [readAnomaly_eq, e1] at hxs; injection hxs with hxs; exact hxs.symm
  subst hks' hxs'
  have hxk : x = anomOf K t (kepCheck K s) k := by
    rw [List.getElem?_map, hk, Option.map_some] at hx
    exact (Option.some.inj hx).symm
  have hf : Fresh K s' := by rw [hs']; exact fresh_set_type K g1 _ _ t
  have hw' : WF n s' := by
    rw [hs']
    exact ⟨g2.1.m, g2.1.cart, g3.1.kep, g2.1.tA, g2.1.mA, by simp [allFlags, g2.1.cartCalc], g2.1.kepCalc⟩
  have hlazy : lazy s' = true := by
    rw [hs', lazy_iff]
    have := g1.lazy
    rw [lazy_kepCheck K (lazy_iff.mpr hl), lazy_iff] at this
    exact this
  have hdo : doCart K (fun j => !s'.cartCalc.getD j true) s' = kepOk K s' := by
    funext i
    rw [doCart_eq]
    by_cases hi : i < n
    · have : s'.cartCalc.getD i true = false := by
        rw [hs']
        simp [allFlags, List.getD_eq_getElem?_getD, g2.1.cartCalc, hi]
      rw [this]; simp
    · have : kepOk K s' i = false := by simp [kepOk, hw'.kep, hi]
      rw [this]; simp
  have hcc : cartCheck K s' = recalcCart K (kepOk K s') s' := by
    have h' : (s'.auto && !s'.direct) = true := hlazy
    unfold cartCheck
    rw [if_pos h', calcCart_eq K _ s' hw' (Or.inr hf), hdo]
  refine ⟨(cartCheck K s').cart, rfl, ?_⟩
  have hj : j < n := by
    have := lt_of_getElem? hk
    rw [(kepCheck_settings K s).2.2.2] at this
    exact hs.kepler ▸ this
  obtain ⟨c0, hc0⟩ : ∃ c0, s'.cart[j]? = some c0 := ⟨_, List.getElem?_eq_getElem (by rw [hw'.cart]; exact hj)⟩
  have hk' : s'.kep[j]? = some { k with nu := x } := by
    rw [hs']
    show (reExpressed K t (kepCheck K s))[j]? = _
    simp [reExpressed, hk, hxk]
  have hm' : s'.m[j]? = some m := by
    rw [hs']
    show r.m[j]? = _
    rw [g1.m, kepCheck_eq]; exact hm
  rw [hcc, recalcCart_getElem? K hw' hk' hc0 hm', hn]
  have e1 : s'.type = t := by rw [hs']
  have e2 : s'.opts = s.opts := by rw [hs']; show r.opts = _; rw [g1.opts, (kepCheck_settings K s).2.2.1]
  have e3 : s'.degrees = s.degrees := by rw [hs']; show r.degrees = _; rw [g1.degrees, (kepCheck_settings K s).2.1]
  have e4 : s'.G = s.G := by rw [hs']; show r.G = _; rw [g1.G, kepCheck_eq]; rfl
  have e5 : s'.M0 = s.M0 := by rw [hs']; show r.M0 = _; rw [g1.M0, kepCheck_eq]; rfl
  rw [e1, e2, e3, e4, e5, if_neg (by simp), hsame, hc]

/-- C30 in direct mode, what happens: the Cartesian elements become those of the new number taken as an anomaly of the OLD kind. -/
theorem c30_direct_partial {n : Nat} (s s' : Orb α) (hs : OneEntryPerOrbit s n) (hd : s.direct = true)
    (hr : s.kro = false) (t : Anom) (ht : s.type ≠ t) (xs : List α)
    (hxs : readAnomaly K t s = .ok xs) (h : set_type K (some t) s = (.ok (), s')) (j : Nat) (k : Kep α) (x m : α) (c : Cart α)
    (hk : s.kep[j]? = some k) (hx : xs[j]? = some x) (hm : s.m[j]? = some m) (hc : s.cart[j]? = some c)
    (hn : ({ k with nu := x } : Kep α).any K.isnan = false) :
    ∃ cs, (get_cartesian K s').1 = .ok cs ∧
      cs[j]? = some (cartOfKep K s.type s.opts s.degrees (K.mu s.G s.M0 m) { k with nu := x }) := by
  obtain ⟨r, g1, g2, g3, g4, g5⟩ := set_type_run K hs.wfe hr t ht
  have hlz : lazy s = false := lazy_direct hd
  have hkc : kepCheck K s = s := kepCheck_direct K hlz
  rw [hkc] at g1 g3 g4
  rw [g4 hd] at h
  have hs' : s' = { recalcCart K (kepOk K { r with kep := reExpressed K t s }) { r with kep := reExpressed K t s } with type := t } := by
    injection h with _ h; exact h.symm
  have hxs' : xs = s.kep.map (anomOf K t s) := by
    obtain ⟨_, e1, _⟩ := get_anomaly_val K hs.wfe t
    rw [readAnomaly_eq, e1] at hxs; injection hxs with hxs; rw [hkc] at hxs; exact hxs.symm
  subst hxs'
  have hxk : x = anomOf K t s k := by
    rw [List.getElem?_map, hk, Option.map_some] at hx
    exact (Option.some.inj hx).symm
  have hds' : s'.direct = true := by rw [hs']; show r.direct = true; rw [g1.direct, hd]
  refine ⟨s'.cart, by rw [get_cartesian_run, cartCheck_direct K (lazy_direct hds')], ?_⟩
  rw [hs']
  show (recalcCart K (kepOk K { r with kep := reExpressed K t s }) { r with kep := reExpressed K t s }).cart[j]? = _
  have hk' : ({ r with kep := reExpressed K t s } : Orb α).kep[j]? = some { k with nu := x } := by
    show (reExpressed K t s)[j]? = _
    simp [reExpressed, hk, hxk]
  have hc' : ({ r with kep := reExpressed K t s } : Orb α).cart[j]? = some c := by
    show r.cart[j]? = _; rw [g1.cart]; exact hc
  have hm' : ({ r with kep := reExpressed K t s } : Orb α).m[j]? = some m := by
    show r.m[j]? = _; rw [g1.m]; exact hm
  rw [recalcCart_getElem? K g3.1 hk' hc' hm', hn, if_neg (by simp)]
  show some (cartOfKep K r.type r.opts r.degrees (K.mu r.G r.M0 m) _) = _
  rw [g1.type, g1.opts, g1.degrees, g1.G, g1.M0]

/-! ## With the functions of the package -/

theorem inR_outR (deg : Bool) (x : FX) : inR deg (outR deg x) = x := by
  cases deg
  · rfl
  · exact radians_degrees x

/-- the changes of type for which the conversions lose nothing: to the true anomaly and from the mean to the eccentric one always,
from the true to the eccentric anomaly on ellipses, and to the mean anomaly where Kepler's equation is
solved exactly -/
def LosesNothing (o : SolverOpts FX) (deg : Bool) (k : Kep ℝ) (t0 t : Anom) : Prop :=
  t = .tru ∨ t0 = .mean ∧ t = .ecc ∨
  (t0 = .tru ∧ t = .ecc ∧ 0 < k.a ∧ 0 ≤ k.e ∧ k.e < 1) ∨
  (t0 = .tru ∧ t = .mean ∧ 0 < k.a ∧ 0 ≤ k.e ∧ k.e < 1 ∧
    SolvedExactly o k.e (meanOf k.e (eccOf k.e (angleOf deg k.nu)))) ∨
  (t0 = .ecc ∧ t = .mean ∧ 0 ≤ k.e ∧ k.e < 1 ∧ SolvedExactly o k.e (meanOf k.e (angleOf deg k.nu)))

theorem inR_fin (deg : Bool) (x : ℝ) : inR deg (fin x) = fin (angleOf deg x) := toRad_fin deg x
theorem outR_fin (deg : Bool) (x : ℝ) : outR deg (fin x) = fin (angleOut deg x) := toDeg_fin deg x

/-- the solution of Kepler's equation is the one we started from -/
theorem solved_eq {o : SolverOpts FX} {e E : ℝ} (h0 : 0 ≤ e) (h1 : e < 1) (h : SolvedExactly o e (meanOf e E)) :
    meanToEccentricEl o (fin (meanOf e E)) (fin e) = fin E := by
  obtain ⟨E', h2, h3⟩ := h
  have := meanOf_error h0 h1.ne E' E
  rw [h3, sub_self, abs_zero, zero_div] at this
  rw [h2, sub_eq_zero.mp (abs_nonpos_iff.mp this)]

/-- a full turn more or less is the same state -/
theorem state_turn (g : KGarbage) {mu : ℝ} (hmu : 0 < mu) (deg : Bool) {k : Kep ℝ} (ha : 0 < k.a) (h0 : 0 ≤ k.e) (h1 : k.e < 1) :
    (fxKern g).kepToCart deg (fin mu) { k.fx with nu := fin (angleOut deg (turn (angleOf deg k.nu))) } =
      (fxKern g).kepToCart deg (fin mu) k.fx := by
  have pos : ∀ x : ℝ, 0 < 1 + k.e * Real.cos x := fun x => by
    have := Real.neg_one_le_cos x
    nlinarith
  have e1 : ({ k.fx with nu := fin (angleOut deg (turn (angleOf deg k.nu))) } : Kep FX) =
      Kep.fx { k with nu := angleOut deg (turn (angleOf deg k.nu)) } := rfl
  show (kepToCart g.h .f64 (fin mu) deg _).1 = (kepToCart g.h .f64 (fin mu) deg _).1
  have a1 : (k.inRad deg).Adm mu := by
    cases deg <;> exact ⟨hmu, ha, h0, pos _⟩
  have a2 : (Kep.inRad deg { k with nu := angleOut deg (turn (angleOf deg k.nu)) }).Adm mu := by
    cases deg <;> exact ⟨hmu, ha, h0, pos _⟩
  rw [e1, kepToCart_fst g.h a1, kepToCart_fst g.h a2]
  have hnu : (Kep.inRad deg { k with nu := angleOut deg (turn (angleOf deg k.nu)) }) = { k.inRad deg with nu := turn (k.inRad deg).nu } := by
    have h := angleOf_angleOut deg (turn (angleOf deg k.nu))
    cases deg
    · rfl
    · simp only [Kep.inRad]
      simp only [angleOf, if_true] at h ⊢
      simpa using h
  rw [hnu]
  simp only [Kep.state, Kep.rx, Kep.ry, Kep.rad, Kep.ux, Kep.uy, cos_turn, sin_turn]
  rfl

/-- in these cases the re-expressed anomaly denotes the same point -/
theorem loses_nothing (g : KGarbage) (s : Orb FX) {mu : ℝ} (hmu : 0 < mu) (k : Kep ℝ) (t : Anom)
    (h : LosesNothing s.opts s.degrees k s.type t) :
    cartOfKep (fxKern g) t s.opts s.degrees (fin mu) { k.fx with nu := anomOf (fxKern g) t s k.fx } =
      cartOfKep (fxKern g) s.type s.opts s.degrees (fin mu) k.fx := by
  unfold cartOfKep
  rcases h with rfl | ⟨h1, rfl⟩ | ⟨h1, rfl, ha, h2, h3⟩ | ⟨h1, rfl, ha, h2, h3, h5⟩ | ⟨h1, rfl, h2, h3, h5⟩
  · simp only [anomOf, trueFn_eq]
    rfl
  · simp only [anomOf, eccFn, h1, toTrue]
    have e2 : (fxKern g).eccToTrue false s.degrees ((fxKern g).meanToEcc s.opts false s.degrees k.fx.nu k.fx.e) k.fx.e =
        (fxKern g).meanToTrue s.opts false s.degrees k.fx.nu k.fx.e := by
      show outR s.degrees (ettK g false (inR s.degrees (outR s.degrees (mteK s.opts false (inR s.degrees k.fx.nu) k.fx.e))) k.fx.e) = _
      rw [inR_outR]
      rfl
    exact congrArg (fun x => (fxKern g).kepToCart s.degrees (fin mu) { k.fx with nu := x }) e2
  · simp only [anomOf, eccFn, h1, toTrue]
    have e1 : (fxKern g).trueToEcc false s.degrees k.fx.nu k.fx.e = fin (angleOut s.degrees (eccOf k.e (angleOf s.degrees k.nu))) := by
      show outR s.degrees (trueToEccentricEl g.ecc .f64 (inR s.degrees (fin k.nu)) (fin k.e)) = _
      rw [inR_fin, trueToEccentricEl_eli g.ecc h2 h3, outR_fin]
    have e2 : (fxKern g).eccToTrue false s.degrees (fin (angleOut s.degrees (eccOf k.e (angleOf s.degrees k.nu)))) (fin k.e) =
        fin (angleOut s.degrees (turn (angleOf s.degrees k.nu))) := by
      show outR s.degrees (eccentricToTrueEl g.tru .f64 (inR s.degrees (fin _)) (fin k.e)) = _
      rw [inR_fin, angleOf_angleOut, eccentricToTrueEl_eli g.tru h2 h3, trueOf_eccOf h2 h3, outR_fin]
    rw [e1]
    exact (congrArg (fun x => (fxKern g).kepToCart s.degrees (fin mu) { k.fx with nu := x }) e2).trans
      (state_turn g hmu s.degrees ha h2 h3)
  · simp only [anomOf, meanFn, h1, toTrue]
    have e1 : (fxKern g).trueToMean false s.degrees k.fx.nu k.fx.e =
        fin (angleOut s.degrees (meanOf k.e (eccOf k.e (angleOf s.degrees k.nu)))) := by
      show outR s.degrees (eccentricToMeanEl g.mean .f64 (trueToEccentricEl g.ecc .f64 (inR s.degrees (fin k.nu)) (fin k.e)) (fin k.e)) = _
      rw [inR_fin, trueToEccentricEl_eli g.ecc h2 h3, eccentricToMeanEl_eli g.mean h3, outR_fin]
    have e2 : (fxKern g).meanToTrue s.opts false s.degrees (fin (angleOut s.degrees (meanOf k.e (eccOf k.e (angleOf s.degrees k.nu))))) (fin k.e) =
        fin (angleOut s.degrees (turn (angleOf s.degrees k.nu))) := by
      show outR s.degrees (eccentricToTrueEl g.tru .f64 (meanToEccentricEl s.opts (inR s.degrees (fin _)) (fin k.e)) (fin k.e)) = _
      rw [inR_fin, angleOf_angleOut, solved_eq h2 h3 h5, eccentricToTrueEl_eli g.tru h2 h3, trueOf_eccOf h2 h3, outR_fin]
    rw [e1]
    exact (congrArg (fun x => (fxKern g).kepToCart s.degrees (fin mu) { k.fx with nu := x }) e2).trans
      (state_turn g hmu s.degrees ha h2 h3)
  · simp only [anomOf, meanFn, h1, toTrue]
    have e1 : (fxKern g).eccToMean false s.degrees k.fx.nu k.fx.e = fin (angleOut s.degrees (meanOf k.e (angleOf s.degrees k.nu))) := by
      show outR s.degrees (eccentricToMeanEl g.mean .f64 (inR s.degrees (fin k.nu)) (fin k.e)) = _
      rw [inR_fin, eccentricToMeanEl_eli g.mean h3, outR_fin]
    have e2 : (fxKern g).meanToTrue s.opts false s.degrees (fin (angleOut s.degrees (meanOf k.e (angleOf s.degrees k.nu)))) (fin k.e) =
        (fxKern g).eccToTrue false s.degrees k.fx.nu (fin k.e) := by
      show outR s.degrees (eccentricToTrueEl g.tru .f64 (meanToEccentricEl s.opts (inR s.degrees (fin _)) (fin k.e)) (fin k.e)) =
        outR s.degrees (eccentricToTrueEl g.tru .f64 (inR s.degrees (fin k.nu)) (fin k.e))
      rw [inR_fin, angleOf_angleOut, solved_eq h2 h3 h5, inR_fin]
    rw [e1]
    exact congrArg (fun x => (fxKern g).kepToCart s.degrees (fin mu) { k.fx with nu := x }) e2

/-- C30, lazy mode, with the functions of the package: if before the assignment the Cartesian elements read are the states of the
Kepler elements read (C31), and no conversion loses anything, the Cartesian elements read afterwards are the same. -/
theorem c30_lazy_formulas (g : KGarbage) {n : Nat} (s s' : Orb FX) (hs : OneEntryPerOrbit s n) (hl : s.auto = true ∧ s.direct = false)
    (hr : s.kro = false) (t : Anom) (ht : s.type ≠ t) (ks : List (Kep ℝ)) (xs : List FX) (cs : List (Cart FX)) (mus : List ℝ)
    (hks : (get_kepler (fxKern g) s).1 = .ok (ks.map Kep.fx)) (hcs : (get_cartesian (fxKern g) s).1 = .ok cs)
    (hmu : (s.m.map fun m => s.G * (s.M0 + m)) = mus.map fin) (hpos : ∀ mu ∈ mus, 0 < mu)
    (hagree : cs = List.zipWith (fun mu k => cartOfKep (fxKern g) s.type s.opts s.degrees (fin mu) k.fx) mus ks)
    (hloss : ∀ k ∈ ks, LosesNothing s.opts s.degrees k s.type t)
    (hxs : readAnomaly (fxKern g) t s = .ok xs) (hxn : ∀ x ∈ xs, Np.isnan x = false)
    (h : set_type (fxKern g) (some t) s = (.ok (), s')) :
    (get_cartesian (fxKern g) s').1 = .ok cs := by
  have hwf : WF n s' := by
    have := set_type_sh (fxKern g) (some t) s hs.wfe
    rw [h] at this
    exact this.1.1
  have hlks : ks.length = n := by
    rw [get_kepler_run] at hks
    have := (hs.wfe.1.kepCheck (fxKern g)).kep
    rw [Except.ok.inj hks, List.length_map] at this
    exact this
  have hlmu : mus.length = n := by
    have := congrArg List.length hmu
    simp only [List.length_map] at this
    rw [← this]; exact hs.wfe.1.m
  have hlxs : xs.length = n := by
    obtain ⟨_, e1, _⟩ := get_anomaly_val (fxKern g) hs.wfe t
    rw [readAnomaly_eq, e1] at hxs
    rw [← Except.ok.inj hxs, List.length_map]
    exact (hs.wfe.1.kepCheck (fxKern g)).kep
  obtain ⟨cs', hcs'⟩ : ∃ cs', (get_cartesian (fxKern g) s').1 = .ok cs' := ⟨_, rfl⟩
  have hlcs' : cs'.length = n := by
    rw [get_cartesian_run] at hcs'
    rw [← Except.ok.inj hcs']
    exact (hwf.cartCheck (fxKern g)).cart
  rw [hcs']
  refine congrArg Except.ok (List.ext_getElem? fun j => ?_)
  by_cases hj : j < n
  · have hk : (ks.map Kep.fx)[j]? = some (ks[j]'(hlks ▸ hj)).fx := by simp [hlks, hj]
    have hx : xs[j]? = some (xs[j]'(hlxs ▸ hj)) := by simp [hlxs, hj]
    have hm : s.m[j]? = some (s.m[j]'(hs.wfe.1.m ▸ hj)) := by simp [hs.wfe.1.m, hj]
    have hmuj : (fxKern g).mu s.G s.M0 (s.m[j]'(hs.wfe.1.m ▸ hj)) = fin (mus[j]'(hlmu ▸ hj)) := by
      replace hmu : s.m.map ((fxKern g).mu s.G s.M0) = mus.map fin := hmu
      have := congrArg (fun l => l[j]?) hmu
      simpa [hs.wfe.1.m, hlmu, hj] using this
    obtain ⟨cs2, h1, h2⟩ := c30_lazy_partial (fxKern g) s s' hs hl hr t ht _ xs hks hxs h j _ _ _ _ hk hx hm rfl
      (by
        have := hxn _ (List.getElem_mem (hlxs ▸ hj))
        show (_ || _ || _ || _ || _ || Np.isnan (xs[j]'(hlxs ▸ hj))) = false
        rw [this]; rfl)
      (by
        rw [hmuj]
        have hxk : xs[j]'(hlxs ▸ hj) = anomOf (fxKern g) t s (ks[j]'(hlks ▸ hj)).fx := by
          obtain ⟨_, e1, _⟩ := get_anomaly_val (fxKern g) hs.wfe t
          rw [readAnomaly_eq, e1] at hxs
          rw [get_kepler_run] at hks
          rw [Except.ok.inj hks] at hxs
          have := congrArg (fun l => l[j]?) (Except.ok.inj hxs)
          simp only [List.map_map, List.getElem?_map, List.getElem?_eq_getElem (hlks ▸ hj), hx, Option.map_some, Function.comp] at this
          rw [← Option.some.inj this]
          obtain ⟨e1, e2, e3, _⟩ := kepCheck_settings (fxKern g) s
          unfold anomOf trueFn meanFn eccFn
          rw [e1, e2, e3]
        rw [hxk]
        exact loses_nothing g s (hpos _ (List.getElem_mem _)) _ t (hloss _ (List.getElem_mem _)))
    rw [hcs'] at h1
    rw [Except.ok.inj h1, h2, hagree, hmuj]
    simp [hlmu, hlks, hj]
  · rw [List.getElem?_eq_none (by omega), hagree, List.getElem?_eq_none (by simp [hlmu, hlks]; omega)]

/-! ## In direct mode the object moves -/

/-- an ellipse with the object a quarter turn past periapsis -/
noncomputable def quarter (nu : ℝ) : Kep ℝ := ⟨1, 1 / 2, 0, 0, 0, nu⟩

theorem quarter_adm (nu : ℝ) : (quarter nu).Adm 1 := by
  have := Real.neg_one_le_cos nu
  exact ⟨one_pos, one_pos, by norm_num [quarter], by norm_num [quarter]; linarith⟩

theorem quarter_cart (g : KGarbage) (o : SolverOpts FX) (nu : ℝ) :
    cartOfKep (fxKern g) .tru o false (.fin 1) (quarter nu).fx = ((quarter nu).state 1).fx :=
  kepToCart_fst g.h (deg := false) (quarter_adm nu)

theorem quarter_x (nu : ℝ) : ((quarter nu).state 1).x = 3 / 4 / (1 + 1 / 2 * Real.cos nu) * Real.cos nu := by
  simp only [quarter, Kep.state, Kep.rx, Kep.ry, Kep.rad, Kep.ux, Kep.uy, Kep.px, Kep.qx, Kep.slr]
  norm_num

theorem cos_ecc_quarter : Real.cos (eccOf (1 / 2) (Real.pi / 2)) = 1 / 2 := by
  have hc : Real.cos (Real.pi / 2 / 2) ≠ 0 := by
    rw [show Real.pi / 2 / 2 = Real.pi / 4 by ring, Real.cos_pi_div_four]
    positivity
  unfold eccOf
  rw [scaleHalf_of_ne hc, cos_turn, show Real.pi / 2 / 2 = Real.pi / 4 by ring, Real.tan_pi_div_four, mul_one, Real.cos_two_mul, Real.cos_sq_arctan]
  unfold eliFac
  rw [Real.sq_sqrt (by norm_num)]
  norm_num

/-- C30, refuted in direct mode: an object at a quarter turn past periapsis moves when its type is set to `eccentric`. -/
theorem c30_false (g : KGarbage) : ¬ ∀ (M0 : FX) (kw : InitKw FX) (u : Upd FX) (s0 s' : Orb FX) (ops : List (Op FX)) (t : Anom)
    (cs : List (Cart FX)), init (fxKern g) M0 kw u = .ok s0 → (get_cartesian (fxKern g) (exec (fxKern g) s0 ops)).1 = .ok cs →
    set_type (fxKern g) (some t) (exec (fxKern g) s0 ops) = (.ok (), s') → (get_cartesian (fxKern g) s').1 = .ok cs := by
  intro h
  have hm : (fxKern g).mu 1 1 (fxKern g).zero = .fin 1 := fx_mu g
  have hset := blank_setKepler (fxKern g) 1 1 .dflt (quarter (Real.pi / 2)).fx (kep_fx_any _)
  rw [hm, quarter_cart] at hset
  have hex : exec (fxKern g) (blank (fxKern g) 1 1 .dflt) [.setKepler (.mat [(quarter (Real.pi / 2)).fx])] =
      single (fxKern g) 1 1 .dflt .tru (quarter (Real.pi / 2)).fx ((quarter (Real.pi / 2)).state 1).fx true false := by
    rw [exec_cons, hset, exec_nil]
  obtain ⟨s, hs⟩ : ∃ s, s = single (fxKern g) 1 1 .dflt .tru (quarter (Real.pi / 2)).fx ((quarter (Real.pi / 2)).state 1).fx true false :=
    ⟨_, rfl⟩
  have hone : OneEntryPerOrbit s 1 := by rw [hs]; exact single_one _ _ _ _ _ _ _ _ _
  have hkc : kepCheck (fxKern g) s = s := kepCheck_direct _ (lazy_direct (by rw [hs]; rfl))
  obtain ⟨ks, xs, s', h1, h2, h3, -, -, -⟩ := c30_kepler_partial (fxKern g) s hone (by rw [hs]; rfl) .ecc
  have hx : xs = [fin (eccOf (1 / 2) (Real.pi / 2))] := by
    obtain ⟨_, e1, _⟩ := get_anomaly_val (fxKern g) hone.wfe .ecc
    rw [readAnomaly_eq, e1, hkc, hs] at h2
    rw [← Except.ok.inj h2]
    show [trueToEccentricEl g.ecc .f64 (fin (Real.pi / 2)) (fin (1 / 2))] = _
    rw [trueToEccentricEl_eli _ (by norm_num) (by norm_num)]
  obtain ⟨cs, h4, h5⟩ := c30_direct_partial (fxKern g) s s' hone (by rw [hs]; rfl) (by rw [hs]; rfl) .ecc (by rw [hs]; intro h; cases h) xs h2 h3
    0 (quarter (Real.pi / 2)).fx (fin (eccOf (1 / 2) (Real.pi / 2))) 0 ((quarter (Real.pi / 2)).state 1).fx (by rw [hs]; rfl) (by rw [hx]; rfl)
    (by rw [hs]; rfl) (by rw [hs]; rfl) rfl
  have := h 1 _ {} _ s' [.setKepler (.mat [(quarter (Real.pi / 2)).fx])] .ecc [((quarter (Real.pi / 2)).state 1).fx]
    (init_blank1 (fxKern g) 1 1 .dflt) (by rw [hex]; rfl) (by rw [hex, ← hs]; exact h3)
  rw [h4] at this
  rw [Except.ok.inj this] at h5
  have h6 : ((quarter (Real.pi / 2)).state 1).fx = ((quarter (eccOf (1 / 2) (Real.pi / 2))).state 1).fx := by
    rw [← quarter_cart g .dflt, ← quarter_cart g .dflt]
    have h7 := Option.some.inj h5
    rw [hs] at h7
    rw [quarter_cart g .dflt]
    refine h7.trans ?_
    show cartOfKep (fxKern g) .tru .dflt false ((fxKern g).mu 1 1 (fxKern g).zero) _ = _
    rw [hm]
    rfl
  have := congrArg Cart.x (Cart.fx_inj h6)
  rw [quarter_x, quarter_x, cos_ecc_quarter, Real.cos_pi_div_two] at this
  norm_num at this

/-! ## Cases of the theorems -/

/-- the changes of type of `c30_lazy_formulas` on an ellipse: to the eccentric anomaly, and back to the true anomaly -/
example (o : SolverOpts FX) : LosesNothing o false (quarter (Real.pi / 2)) .tru .ecc ∧ LosesNothing o false (quarter 1) .ecc .tru :=
  ⟨.inr (.inr (.inl ⟨rfl, rfl, one_pos, by norm_num [quarter], by norm_num [quarter]⟩)), .inl rfl⟩

/-- to the mean anomaly at periapsis, where the solver accepts its starting value -/
example {tol : ℝ} (ht : 0 < tol) (mi : Int) (d : ℝ) : LosesNothing (opts tol mi d) false (quarter 0) .ecc .mean := by
  refine .inr (.inr (.inr (.inr ⟨rfl, rfl, by norm_num [quarter], by norm_num [quarter], 0, ?_, rfl⟩)))
  show meanToEccentricEl _ (fin (meanOf (1 / 2) 0)) (fin (1 / 2)) = _
  rw [meanOf_zero, meanToEccentricEl_guess _ _ _ (by simp), exampleSolve ht]

/-- an object in lazy mode, made by the constructor and given Kepler elements -/
noncomputable def lazyQuarter (g : KGarbage) : Orb FX :=
  { lazyBlank (fxKern g) 1 1 .dflt .tru with kep := [(quarter (Real.pi / 2)).fx], cartCalc := [false], kepCalc := [true] }

theorem lazyQuarter_exec (g : KGarbage) :
    exec (fxKern g) (lazyBlank (fxKern g) 1 1 .dflt .tru) [.setKepler (.mat [(quarter (Real.pi / 2)).fx])] = lazyQuarter g := rfl

theorem lazyQuarter_one (g : KGarbage) : OneEntryPerOrbit (lazyQuarter g) 1 := ⟨rfl, rfl, rfl, rfl, ⟨_, rfl, rfl⟩, rfl, rfl, rfl⟩

/-- a case of `c30_lazy_formulas`: the object of `c30_false` in lazy mode stays where it is -/
example (g : KGarbage) : ∃ s', set_type (fxKern g) (some .ecc) (lazyQuarter g) = (.ok (), s') ∧
    (get_cartesian (fxKern g) s').1 = .ok [((quarter (Real.pi / 2)).state 1).fx] := by
  have hone := lazyQuarter_one g
  obtain ⟨ks, xs, s', h1, h2, h3, -, -, -⟩ := c30_kepler_partial (fxKern g) (lazyQuarter g) hone rfl .ecc
  have hf : Fresh (fxKern g) (lazyQuarter g) := by
    intro j
    cases j with
    | zero => rfl
    | succ j => simp [stale, checkSet, lazyQuarter]
  have hkc : kepCheck (fxKern g) (lazyQuarter g) = lazyQuarter g := Fresh.check _ hf
  have hm : (fxKern g).mu 1 1 0 = .fin 1 := fx_mu g
  refine ⟨s', h3, ?_⟩
  refine c30_lazy_formulas g (lazyQuarter g) s' hone ⟨rfl, rfl⟩ rfl .ecc nofun [quarter (Real.pi / 2)] xs
    [((quarter (Real.pi / 2)).state 1).fx] [1] (by rw [get_kepler_run, hkc]; rfl) ?_ ?_ (by simp)
    (congrArg (fun c => [c]) (quarter_cart g .dflt _).symm) ?_ h2 ?_ h3
  · have hw := hone.wfe.1
    have hl' : ((lazyQuarter g).auto && !(lazyQuarter g).direct) = true := rfl
    rw [get_cartesian_run]
    unfold cartCheck
    rw [if_pos hl', calcCart_eq (fxKern g) _ _ hw (.inl rfl)]
    refine congrArg Except.ok (congrArg (fun c => [c]) ?_)
    show (if true then cartOfKep (fxKern g) .tru .dflt false ((fxKern g).mu 1 1 0) (quarter (Real.pi / 2)).fx else _) = _
    rw [hm, if_pos rfl]
    exact quarter_cart g .dflt _
  · exact congrArg (fun x => [x]) hm
  · intro k hk
    rw [List.mem_singleton.mp hk]
    exact .inr (.inr (.inl ⟨rfl, rfl, one_pos, by norm_num [quarter], by norm_num [quarter]⟩))
  · obtain ⟨_, e1, _⟩ := get_anomaly_val (fxKern g) hone.wfe .ecc
    rw [readAnomaly_eq, e1, hkc] at h2
    have : xs = [fin (eccOf (1 / 2) (Real.pi / 2))] := by
      rw [← Except.ok.inj h2]
      show [trueToEccentricEl g.ecc .f64 (fin (Real.pi / 2)) (fin (1 / 2))] = _
      rw [trueToEccentricEl_eli _ (by norm_num) (by norm_num)]
    rw [this]
    intro x hx
    rw [List.mem_singleton.mp hx]; rfl

end Orbit
end Pyorb
