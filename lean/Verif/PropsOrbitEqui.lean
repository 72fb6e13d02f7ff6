import Verif.PropsOrbitSpeed
import Verif.PropsEqui

/-!
# The `equinoctial` property (C48)

`orb.equinoctial = q` stores the first five Kepler elements and then assigns the mean anomaly.  In direct and manual mode what is
read afterwards is what `kep_to_equi(equi_to_kep(q))` gives (`c48_partial`), which is `q` again (`c48_formulas_partial`).  For
one orbit the getter returns a 6-vector; assigning a 6-vector raises TypeError in radians unless the anomaly type is `mean`,
with the first five Kepler elements already overwritten (`c48_raises`, `c48_false`).
-/

set_option linter.unusedSimpArgs false
set_option linter.unusedVariables false

namespace Pyorb
namespace Orbit
open Py FX
variable {α : Type} (K : Kern α)

/-- `qs` is the assigned value, one column per orbit: a 6-vector and a single column stand for all orbits -/
def EquiCols (v : Equi α ⊕ List (Equi α)) (n : Nat) (qs : List (Equi α)) : Prop :=
  match v with
  | .inl q => qs = List.replicate n q
  | .inr l => l.length = n ∧ qs = l ∨ ∃ q, l = [q] ∧ qs = List.replicate n q

theorem EquiCols.length {v : Equi α ⊕ List (Equi α)} {n : Nat} {qs : List (Equi α)} (h : EquiCols v n qs) : qs.length = n := by
  match v, h with
  | .inl q, h => rw [show qs = _ from h]; simp
  | .inr l, .inl ⟨h1, h2⟩ => rw [h2, h1]
  | .inr l, .inr ⟨q, h1, h2⟩ => rw [h2]; simp

theorem row_unique {v : Val α} {n : Nat} {l l' : List α} (h : v.Row n l) (h' : v.Row n l') : l = l' := by
  have := spread_of_row h
  rw [spread_of_row h'] at this
  exact (Except.ok.inj this).symm

/-! ## Assignments that return -/

theorem set_kep_returns {n : Nat} {s : Orb α} (hw : WFE n s) (hr : s.kro = false) (i : Fin 6) {v : Val α} {l : List α} (hv : v.Row n l) :
    ∃ s', set_kep K i v s = (.ok (), s') ∧ WFE n s' := by
  have hw1 : WF n ({ s with kep := List.zipWith (fun k x => k.set i x) s.kep l } : Orb α) :=
    ⟨hw.1.m, hw.1.cart, by simp [hw.1.kep, Val.spread_length (spread_of_row hv)], hw.1.tA, hw.1.mA, hw.1.cartCalc, hw.1.kepCalc⟩
  obtain ⟨t, h1, -⟩ := afterKepEl_ok K hw1
  have h2 : set_kep K i v s = (.ok (), t) := by
    unfold set_kep
    rw [bind_ok (guardKep_of hr), self_bind, hw.1.kep, spread_of_row hv, liftOk_bind, upd_bind]
    exact h1
  refine ⟨t, h2, ?_⟩
  have := set_kep_sh K i v s hw
  rw [h2] at this
  exact this.1

/-- values an anomaly function accepts next to `n` eccentricities: a scalar, one value per orbit, or a 0-d array in degrees -/
def Fits (deg : Bool) (n : Nat) : Val α → Prop
  | .sc _ => True
  | .zd _ => deg = true
  | .vec xs => xs.length = n

theorem convVal_fits {deg : Bool} {n : Nat} {v : Val α} (h : Fits deg n v) (f : α → α → α) {es : List α} (hes : es.length = n) :
    ∃ vs, convVal deg f v es = .ok vs ∧ vs.length = n := by
  match v, h with
  | .sc x, _ => exact ⟨_, rfl, by simp [hes]⟩
  | .zd x, h => exact ⟨_, by rw [convVal, show deg = true from h]; rfl, by simp [hes]⟩
  | .vec xs, h =>
    have h' : xs.length = n := h
    exact ⟨List.zipWith f xs es, by simp [convVal, h', hes], by simp [hes, h']⟩

/-- the anomaly setters return, in every mode: with a value of the object's own kind that fits the orbits, or of another kind
that the anomaly functions accept -/
theorem set_anomaly_returns {n : Nat} {s : Orb α} (hw : WFE n s) (hr : s.kro = false) (t : Anom) {v : Val α}
    (h1 : s.type = t → ∃ l, v.Row n l) (h2 : s.type ≠ t → Fits s.degrees n v) : ∃ s', set_anomaly K t v s = (.ok (), s') := by
  by_cases ht : s.type = t
  · obtain ⟨l, hl⟩ := h1 ht
    obtain ⟨r, h3, h4⟩ := set_kep_returns K hw hr 5 hl
    obtain ⟨r', h5, -⟩ := afterKepEl_ok K h4.1
    refine ⟨r', ?_⟩
    rw [set_anomaly_own K ht, bind_ok (guardKep_of hr), bind_ok h3, h5]
  · have hw' : WFE n (kepCheck K s) := kepCheck_wfe K s hw
    have hr' : (kepCheck K s).kro = false := by rw [kepCheck_eq]; exact hr
    obtain ⟨vs, h3, h4⟩ := convVal_fits (h2 ht) (conv K s.opts s.degrees t s.type)
      (es := (kepCheck K s).kep.map (·.get 1)) (by simp [hw'.1.kep])
    obtain ⟨r, h5, h6⟩ := set_kep_returns K hw' hr' 5 (v := .vec vs) (.inl ⟨h4, rfl⟩)
    obtain ⟨r', h7, -⟩ := afterKepEl_ok K h6.1
    refine ⟨r', ?_⟩
    rw [set_anomaly_other K ht, bind_ok (guardKep_of hr)]
    have : setConv K s.degrees (conv K s.opts s.degrees t s.type) v s = (.ok (), r) := by
      unfold setConv
      rw [bind_ok (get_kep_run K 1 s), h3, liftOk_bind]
      exact h5
    rw [bind_ok this, h7]

/-! ## C48 -/

/-- the Kepler elements after a successful assignment of equinoctial elements -/
theorem set_equinoctial_ok {n : Nat} {s s' : Orb α} (hw : WFE n s) (hl : lazy s = false) {v : Equi α ⊕ List (Equi α)}
    {qs : List (Equi α)} (hq : EquiCols v n qs) (h : set_equinoctial K v s = (.ok (), s')) :
    s'.kep = qs.map (fun q => { K.equiToKep s.degrees q with
        nu := conv K s.opts s.degrees .mean s.type (K.equiToKep s.degrees q).nu (K.equiToKep s.degrees q).e }) ∧
      s'.type = s.type ∧ s'.degrees = s.degrees ∧ s'.opts = s.opts ∧ Fresh K s' ∧ WFE n s' := by
  have hwf : WFE n s' := by
    have := set_equinoctial_sh K v s hw
    rw [h] at this
    exact this.1
  obtain ⟨ks, hks⟩ : ∃ ks, ks = (match v with | .inl q => [K.equiToKep s.degrees q] | .inr qs => qs.map (K.equiToKep s.degrees)) := ⟨_, rfl⟩
  obtain ⟨w, hwv⟩ : ∃ w : Val α, w = (match v with | .inl q => .zd (K.equiToKep s.degrees q).nu | .inr _ => .vec (ks.map Kep.nu)) := ⟨_, rfl⟩
  have hsp : (Val6.mat ks : Val6 α (Kep α)).spread Kep.const n = .ok (qs.map (K.equiToKep s.degrees)) := by
    match v, hq, hks with
    | .inl q, hq, hks => rw [hks, show qs = _ from hq, List.map_replicate]; rfl
    | .inr l, .inl ⟨h1, h2⟩, hks => rw [hks, h2]; exact matSpread (by simp [h1])
    | .inr l, .inr ⟨q, h1, h2⟩, hks => subst h1; rw [hks, h2, List.map_replicate]; rfl
  have hrow : w.Row n ((qs.map (K.equiToKep s.degrees)).map Kep.nu) := by
    match v, hq, hks, hwv with
    | .inl q, hq, hks, hwv => rw [hwv, show qs = _ from hq]; simp [Val.Row]
    | .inr l, .inl ⟨h1, h2⟩, hks, hwv => rw [hwv, h2, hks]; exact .inl ⟨by simp [h1], rfl⟩
    | .inr l, .inr ⟨q, h1, h2⟩, hks, hwv => subst h1; rw [hwv, h2, hks]; exact .inr ⟨_, rfl, by simp⟩
  have hlq := hq.length
  obtain ⟨s1, hs1⟩ : ∃ s1, s1 = ({ s with
    kep := List.zipWith (fun (old new : Kep α) => { new with nu := old.nu }) s.kep (qs.map (K.equiToKep s.degrees)) } : Orb α) := ⟨_, rfl⟩
  have hset : set_anomaly K .mean w s1 = (.ok (), s') := by
    rw [← h]
    have hrun : set_equinoctial K v s = (do
        let cs ← lift ((Val6.mat ks : Val6 α (Kep α)).spread Kep.const s.kep.length)
        upd fun s => { s with kep := List.zipWith (fun (old new : Kep α) => { new with nu := old.nu }) s.kep cs }
        set_mean_anomaly K w : Py α Unit) s := by
      subst hwv hks
      cases v <;> rfl
    rw [hrun, hw.1.kep, hsp, liftOk_bind, upd_bind, ← hs1]
    rfl
  have hw1 : WFE n s1 := by
    rw [hs1]
    exact hw.of ⟨hw.1.m, hw.1.cart, by simp [hw.1.kep, hlq], hw.1.tA, hw.1.mA, hw.1.cartCalc, hw.1.kepCalc⟩ rfl
  have hf1 : Fresh K s1 := fresh_direct K (by rw [hs1]; exact hl)
  obtain ⟨xs, h1, h2, h3⟩ := set_anomaly_ok K hw1 (fun _ => hf1) hset
  rw [hf1.check] at h3
  have hxs := row_unique h1 hrow
  have e1 : s1.type = s.type := by rw [hs1]
  have e2 : s1.degrees = s.degrees := by rw [hs1]
  have e3 : s1.opts = s.opts := by rw [hs1]
  refine ⟨?_, h3.type.trans e1, h3.degrees.trans e2, h3.opts.trans e3, h3.fresh fun j => hf1 j, hwf⟩
  rw [h3.kep]
  show List.zipWith _ s1.kep xs = _
  rw [hxs, e1, e2, e3, hs1]
  apply List.ext_getElem?
  intro j
  simp only [List.getElem?_zipWith, List.getElem?_map]
  by_cases hj : j < n
  · have a1 : s.kep[j]? = some (s.kep[j]'(hw.1.kep ▸ hj)) := by simp [hw.1.kep, hj]
    have a2 : qs[j]? = some (qs[j]'(hlq ▸ hj)) := by simp [hlq, hj]
    rw [a1, a2]
    rfl
  · have a1 : s.kep[j]? = none := by simp [hw.1.kep]; omega
    have a2 : qs[j]? = none := by simp [hlq]; omega
    rw [a1, a2]
    rfl

/-- values for which the assignment returns: one column per orbit, for a type `mean` also one column for all, and a 6-vector in
degrees or for a type `mean` -/
def Accepted (t : Anom) (deg : Bool) (n : Nat) : Equi α ⊕ List (Equi α) → Prop
  | .inl _ => deg = true ∨ t = .mean
  | .inr l => l.length = n ∨ l.length = 1 ∧ t = .mean

theorem Accepted.cols {t : Anom} {deg : Bool} {n : Nat} {v : Equi α ⊕ List (Equi α)} (h : Accepted t deg n v) : ∃ qs, EquiCols v n qs := by
  match v, h with
  | .inl q, _ => exact ⟨_, rfl⟩
  | .inr l, .inl h => exact ⟨l, .inl ⟨h, rfl⟩⟩
  | .inr l, .inr ⟨h, _⟩ =>
    obtain ⟨q, rfl⟩ := List.length_eq_one_iff.mp h
    exact ⟨_, .inr ⟨q, rfl, rfl⟩⟩

/-- the assignment of equinoctial elements returns, in every mode -/
theorem set_equinoctial_returns {n : Nat} {s : Orb α} (hw : WFE n s) (hr : s.kro = false) {v : Equi α ⊕ List (Equi α)}
    (hv : Accepted s.type s.degrees n v) : ∃ s', set_equinoctial K v s = (.ok (), s') := by
  have key : ∀ (ks cs : List (Kep α)) (w : Val α), (Val6.mat ks : Val6 α (Kep α)).spread Kep.const n = .ok cs → cs.length = n →
      (s.type = .mean → ∃ l, w.Row n l) → (s.type ≠ .mean → Fits s.degrees n w) →
      ∃ s', (do
        let cs ← lift ((Val6.mat ks : Val6 α (Kep α)).spread Kep.const s.kep.length)
        upd fun s => { s with kep := List.zipWith (fun (old new : Kep α) => { new with nu := old.nu }) s.kep cs }
        set_mean_anomaly K w : Py α Unit) s = (.ok (), s') := by
    intro ks cs w h1 h2 h3 h4
    rw [hw.1.kep, h1, liftOk_bind, upd_bind]
    exact set_anomaly_returns K (t := .mean) (hw.of (t := { s with
      kep := List.zipWith (fun (old new : Kep α) => { new with nu := old.nu }) s.kep cs })
      ⟨hw.1.m, hw.1.cart, by simp [hw.1.kep, h2], hw.1.tA, hw.1.mA, hw.1.cartCalc, hw.1.kepCalc⟩ rfl) hr h3 h4
  match v, hv with
  | .inl q, hv =>
    exact key [K.equiToKep s.degrees q] _ (.zd (K.equiToKep s.degrees q).nu) rfl (by simp) (fun _ => ⟨_, rfl⟩) fun h => hv.resolve_right h
  | .inr l, .inl hl =>
    exact key (l.map (K.equiToKep s.degrees)) _ (.vec ((l.map (K.equiToKep s.degrees)).map Kep.nu)) (matSpread (by simp [hl])) (by simp [hl])
      (fun _ => ⟨_, .inl ⟨by simp [hl], rfl⟩⟩) fun _ => by simp [Fits, hl]
  | .inr l, .inr ⟨hl, ht⟩ =>
    obtain ⟨q, rfl⟩ := List.length_eq_one_iff.mp hl
    exact key [K.equiToKep s.degrees q] _ (.vec [(K.equiToKep s.degrees q).nu]) rfl (by simp) (fun _ => ⟨_, .inr ⟨_, rfl, rfl⟩⟩)
      fun h => absurd ht h

/-- C48 in direct and manual mode: where the conversion of the mean anomaly to the object's kind is undone by the conversion back,
`orb.equinoctial` reads `kep_to_equi(equi_to_kep(q))` of what was assigned.  (Missing for the full claim: an assignment of a
6-vector that raises, and the conversions, see `c48_formulas_partial`.) -/
theorem c48_partial {n : Nat} (s s' : Orb α) (hs : OneEntryPerOrbit s n) (hd : s.direct = true ∨ s.auto = false)
    (v : Equi α ⊕ List (Equi α)) (qs : List (Equi α)) (hq : EquiCols v n qs)
    (hinv : ∀ q ∈ qs, conv K s.opts s.degrees s.type .mean (conv K s.opts s.degrees .mean s.type (K.equiToKep s.degrees q).nu
      (K.equiToKep s.degrees q).e) (K.equiToKep s.degrees q).e = (K.equiToKep s.degrees q).nu)
    (h : set_equinoctial K v s = (.ok (), s')) :
    (get_equinoctial K s').1 = .ok (qs.map fun q => K.kepToEqui s.degrees (K.equiToKep s.degrees q)) := by
  have hl : lazy s = false := by
    rcases hd with h | h
    · exact lazy_direct h
    · simp [lazy, h]
  obtain ⟨h1, h2, h3, h4, h5, h6⟩ := set_equinoctial_ok K hs.wfe hl hq h
  rw [show (get_equinoctial K s').1 = .ok (Read.val K .equinoctial s') from read_val_kep K h6 h5 .equinoctial rfl]
  show Except.ok (s'.kep.map _) = _
  rw [h1, List.map_map]
  refine congrArg Except.ok (List.map_congr_left fun q hqm => ?_)
  simp only [Function.comp]
  rw [anomOf_conv, h2, h3, h4]
  simp only
  rw [hinv q hqm]

/-- equinoctial elements of C48 that survive the assignment: as in C19, and for an object whose anomaly type is not `mean` an
ellipse, Kepler's equation being solved exactly -/
structure Storable (t : Anom) (o : SolverOpts FX) (deg : Bool) (q : Equi ℝ) : Prop where
  ecc : eLim < √(q.h ^ 2 + q.k ^ 2) ∨ q.h = 0 ∧ q.k = 0
  lon : 0 ≤ angleOf deg q.lam ∧ angleOf deg q.lam < 2 * Real.pi
  ellipse : t ≠ .mean → √(q.h ^ 2 + q.k ^ 2) < 1
  solved : t ≠ .mean → SolvedExactly o √(q.h ^ 2 + q.k ^ 2) (kepOf (q.inRad deg)).nu

/-- C48 with the functions of the package: the assignment of accepted equinoctial elements returns and they are read back.
(Missing for the full claim: a 6-vector in radians with type `true` or `eccentric`, for which it is false; one turn only of the
longitude; and, for these types, `e >= 1` and inexact solutions of Kepler's equation.) -/
theorem c48_formulas_partial (g : KGarbage) {n : Nat} (s : Orb FX) (hs : OneEntryPerOrbit s n) (hd : s.direct = true ∨ s.auto = false)
    (hk : s.kro = false) (v : Equi FX ⊕ List (Equi FX)) (hv : Accepted s.type s.degrees n v) (qs : List (Equi ℝ))
    (hq : EquiCols v n (qs.map Equi.fx)) (hr : ∀ q ∈ qs, Storable s.type s.opts s.degrees q) :
    ∃ s', set_equinoctial (fxKern g) v s = (.ok (), s') ∧ (get_equinoctial (fxKern g) s').1 = .ok (qs.map Equi.fx) := by
  obtain ⟨s', h⟩ := set_equinoctial_returns (fxKern g) hs.wfe hk hv
  refine ⟨s', h, ?_⟩
  have hek : ∀ q : Equi ℝ, (fxKern g).equiToKep s.degrees q.fx = ((kepOf (q.inRad s.degrees)).outDeg s.degrees).fx :=
    fun q => equiToKep_fx g.equi s.degrees q
  rw [c48_partial (fxKern g) s s' hs hd v _ hq ?_ h]
  · rw [List.map_map]
    refine congrArg Except.ok (List.map_congr_left fun q hqm => ?_)
    show kepToEqui .f64 s.degrees (equiToKep g.equi .f64 s.degrees q.fx) = _
    rw [equi_kep_equi_col, equiOf_kepOf (q := q.inRad s.degrees) (hr q hqm).ecc (hr q hqm).lon, Equi.outDeg_inRad]
  · intro q' hq'
    obtain ⟨q, hqm, rfl⟩ := List.mem_map.mp hq'
    obtain ⟨h1, h2, h3, h5⟩ := hr q hqm
    rw [hek]
    by_cases ht : s.type = .mean
    · rw [ht]; rfl
    · have e1 : ((kepOf (q.inRad s.degrees)).outDeg s.degrees).fx.nu = fin (angleOut s.degrees (kepOf (q.inRad s.degrees)).nu) := by
        rw [Kep.outDeg_eq]; rfl
      have e2 : ((kepOf (q.inRad s.degrees)).outDeg s.degrees).fx.e = fin √(q.h ^ 2 + q.k ^ 2) := by
        rw [Kep.outDeg_eq]; rfl
      rw [e1, e2]
      have hm := turn_mem ((q.inRad s.degrees).lam - if eLim < √((q.inRad s.degrees).h ^ 2 + (q.inRad s.degrees).k ^ 2) then
        Complex.arg ⟨(q.inRad s.degrees).k, (q.inRad s.degrees).h⟩ else Complex.arg ⟨(q.inRad s.degrees).q, (q.inRad s.degrees).p⟩)
      refine conv_inverse g s.opts s.degrees s.type .mean (Real.sqrt_nonneg _) (h3 ht) ?_ ?_ fun _ => ?_
      · rw [angleOf_angleOut]; exact hm.1
      · rw [angleOf_angleOut]; exact hm.2
      · rw [angleOf_angleOut]; exact h5 ht

/-! ## A 6-vector -/

/-- C48, what happens with a 6-vector in radians unless the anomaly type is `mean`: TypeError, and the first five Kepler elements of
every orbit are already overwritten. -/
theorem c48_raises {n : Nat} (s : Orb α) (hs : OneEntryPerOrbit s n) (hd : s.direct = true ∨ s.auto = false) (hr : s.kro = false)
    (hdeg : s.degrees = false) (ht : s.type ≠ .mean) (q : Equi α) :
    ∃ s', set_equinoctial K (.inl q) s = (.error .typeError, s') ∧
      s'.kep = s.kep.map fun old => { K.equiToKep false q with nu := old.nu } := by
  have hl : lazy s = false := by
    rcases hd with h | h
    · exact lazy_direct h
    · simp [lazy, h]
  obtain ⟨s1, hs1⟩ : ∃ s1, s1 = ({ s with
    kep := List.zipWith (fun (old new : Kep α) => { new with nu := old.nu }) s.kep (List.replicate n (K.equiToKep false q)) } : Orb α) := ⟨_, rfl⟩
  have hk1 : s1.kep = s.kep.map fun old => { K.equiToKep false q with nu := old.nu } := by
    rw [hs1]
    apply List.ext_getElem?
    intro j
    simp only [List.getElem?_zipWith, List.getElem?_map, List.getElem?_replicate]
    by_cases hj : j < n
    · rw [List.getElem?_eq_getElem (by rw [hs.wfe.1.kep]; exact hj), if_pos hj]; rfl
    · rw [List.getElem?_eq_none (by rw [hs.wfe.1.kep]; omega), if_neg hj]; rfl
  refine ⟨s1, ?_, hk1⟩
  have h1 : set_equinoctial K (.inl q) s = set_anomaly K .mean (.zd (K.equiToKep false q).nu) s1 := by
    unfold set_equinoctial
    rw [self_bind]
    simp only [hdeg, hs.wfe.1.kep]
    rw [show (Val6.mat [K.equiToKep false q] : Val6 α (Kep α)).spread Kep.const n = .ok (List.replicate n (K.equiToKep false q)) from rfl,
      liftOk_bind, upd_bind, ← hs1]
    rfl
  have hl1 : lazy s1 = false := by rw [hs1]; exact hl
  have e1 : s1.type = s.type := by rw [hs1]
  have e2 : s1.degrees = false := by rw [hs1]; exact hdeg
  have hg : (guardKep : Py α Unit) s1 = (.ok (), s1) := guardKep_of (by rw [hs1]; exact hr)
  rw [h1, set_anomaly_other K (by rw [e1]; exact ht), bind_ok hg]
  have h2 : setConv K s1.degrees (conv K s1.opts s1.degrees .mean s1.type) (.zd (K.equiToKep false q).nu) s1 = (.error .typeError, s1) := by
    unfold setConv
    rw [bind_ok (get_kep_run K 1 s1), kepCheck_direct K hl1, e2]
    rfl
  rw [bind_err h2]

/-- C48, refuted: with the default settings `orb.equinoctial = orb.equinoctial` raises. -/
theorem c48_false (g : KGarbage) : ¬ ∀ (M0 : FX) (kw : InitKw FX) (u : Upd FX) (s0 : Orb FX) (ops : List (Op FX)) (q : Equi ℝ),
    kw.direct = true → init (fxKern g) M0 kw u = .ok s0 → (get_equinoctial (fxKern g) (exec (fxKern g) s0 ops)).1 = .ok [q.fx] →
    ∃ s', set_equinoctial (fxKern g) (.inl q.fx) (exec (fxKern g) s0 ops) = (.ok (), s') ∧ (get_equinoctial (fxKern g) s').1 = .ok [q.fx] := by
  intro h
  obtain ⟨s0, h0, h1⟩ := quarterObj_made g
  have hone : OneEntryPerOrbit (quarterObj g) 1 := single_one _ _ _ _ _ _ _ _ _
  have hq : (get_equinoctial (fxKern g) (quarterObj g)).1 =
      .ok [((equiOf { quarter (Real.pi / 2) with nu := meanOf (1 / 2) (eccOf (1 / 2) (Real.pi / 2)) })).fx] := by
    rw [show (get_equinoctial (fxKern g) (quarterObj g)).1 = .ok (Read.val (fxKern g) .equinoctial (quarterObj g)) from
      read_val_kep (fxKern g) hone.wfe (fresh_direct _ rfl) .equinoctial rfl]
    show Except.ok [kepToEqui .f64 false { (quarter (Real.pi / 2)).fx with nu := (fxKern g).trueToMean false false (fin (Real.pi / 2)) (fin (1 / 2)) }] = _
    rw [fx_ttm g false (by norm_num) (by norm_num)]
    refine congrArg (fun x => Except.ok [x]) ?_
    exact kepToEqui_fx false { quarter (Real.pi / 2) with nu := meanOf (1 / 2) (eccOf (1 / 2) (Real.pi / 2)) } (by simp [quarter, angleOf])
  rw [← h1] at hq
  obtain ⟨s', h2, -⟩ := h 1 _ {} s0 [.setKepler (.mat [(quarter (Real.pi / 2)).fx])] _ rfl h0 hq
  rw [h1] at h2
  obtain ⟨s'', h3, -⟩ := c48_raises (fxKern g) (quarterObj g) hone (.inl rfl) rfl rfl nofun
    (equiOf { quarter (Real.pi / 2) with nu := meanOf (1 / 2) (eccOf (1 / 2) (Real.pi / 2)) }).fx
  rw [h3] at h2
  cases h2

/-! ## Cases of the theorems -/

/-- an eccentric, slightly inclined orbit at periapsis -/
noncomputable def equiPeri : Equi ℝ := ⟨1, 0, 1 / 2, 0, 1 / 10, 0⟩

theorem equiPeri_e : √(equiPeri.h ^ 2 + equiPeri.k ^ 2) = 1 / 2 := by
  rw [show equiPeri.h ^ 2 + equiPeri.k ^ 2 = (1 / 2 : ℝ) ^ 2 by norm_num [equiPeri], Real.sqrt_sq (by norm_num)]

theorem equiPeri_nu : (kepOf equiPeri).nu = 0 := by
  have h1 : Complex.arg ⟨1 / 2, 0⟩ = 0 := by
    have := Complex.arg_ofReal_of_nonneg (x := 1 / 2) (by norm_num)
    exact this
  show turn (equiPeri.lam - if eLim < √(equiPeri.h ^ 2 + equiPeri.k ^ 2) then Complex.arg ⟨1 / 2, 0⟩ else _) = 0
  rw [if_pos (by rw [equiPeri_e]; norm_num [eLim]), h1, show equiPeri.lam - 0 = 0 from sub_zero _]
  exact turn_of_mem le_rfl Real.two_pi_pos

theorem equiPeri_storable (t : Anom) {tol : ℝ} (ht : 0 < tol) (mi : Int) (d : ℝ) : Storable t (opts tol mi d) false equiPeri := by
  refine ⟨.inl ?_, ⟨le_rfl, Real.two_pi_pos⟩, fun _ => ?_, fun _ => ⟨0, ?_, ?_⟩⟩
  · rw [equiPeri_e]; norm_num [eLim]
  · rw [equiPeri_e]; norm_num
  · show meanToEccentricEl _ (fin (kepOf equiPeri).nu) _ = _
    rw [equiPeri_e, equiPeri_nu, meanToEccentricEl_guess _ _ _ (by simp), exampleSolve ht]
  · show _ = (kepOf equiPeri).nu
    rw [equiPeri_nu, equiPeri_e, meanOf_zero]

/-- `c48_formulas_partial` for an object of type `true` and a column of elements -/
example (g : KGarbage) {tol : ℝ} (ht : 0 < tol) (mi : Int) (d : ℝ) :
    ∃ s', set_equinoctial (fxKern g) (.inr [equiPeri.fx]) { quarterObj g with opts := opts tol mi d } = (.ok (), s') ∧
      (get_equinoctial (fxKern g) s').1 = .ok [equiPeri.fx] :=
  c48_formulas_partial g { quarterObj g with opts := opts tol mi d } (n := 1) ⟨rfl, rfl, rfl, rfl, ⟨_, rfl, rfl⟩, rfl, rfl, rfl⟩ (.inl rfl) rfl
    (.inr [equiPeri.fx]) (.inl rfl) [equiPeri] (.inl ⟨rfl, rfl⟩)
    fun q hq => by rw [List.mem_singleton.mp hq]; exact equiPeri_storable _ ht mi d

end Orbit
end Pyorb
