import Verif.PropsOrbitAgree
import Verif.OrbitReal

/-!
# C33, C39: read-only flags; the setters of `period` and `mean_motion`
-/

set_option linter.unusedSimpArgs false
set_option linter.unusedVariables false

namespace Pyorb
namespace Orbit
open Py
variable {α : Type} (K : Kern α)

/-! ## C33 -/

/-- the operations that assign Kepler elements, among them `update` and `add` when given Kepler values -/
def Op.assignsKep : Op α → Bool
  | .setKep .. | .setKepler _ | .setTrue _ | .setEcc _ | .setMean _ | .setPeriod _ | .setMeanMotion _ | .setEquinoctial _ => true
  | .update _ u | .add _ u => u.kepler.isSome || u.kepUp
  | _ => false

/-- the operations that assign Cartesian elements -/
def Op.assignsCart : Op α → Bool
  | .setCart .. | .setCartesian _ | .setR _ | .setV _ | .setVelocity _ => true
  | .update _ u | .add _ u => u.cartesian.isSome || u.cartUp
  | _ => false

/-- what C33 asks of one operation on one object -/
def Refused (s : Orb α) (o : Op α) : Prop :=
  (o.run K s).1 = .error .attributeError ∧ (o.run K s).2.kep = s.kep ∧ (o.run K s).2.cart = s.cart ∧ (o.run K s).2.m = s.m

/-- The Kepler assignments that are refused as C33 says.  Not among them: `period` (C39), `equinoctial` and `add`, and an
`update` that also has the keyword `cartesian`, which hides all others. -/
def Op.guardedKep : Op α → Bool
  | .setPeriod _ | .setEquinoctial _ | .add .. => false
  | .update _ u => u.cartesian.isNone && (u.kepler.isSome || u.kepUp)
  | o => o.assignsKep

/-- The Cartesian assignments that are refused as C33 says.  Not among them: `add`, and an `update` whose keyword `kepler`
hides the Cartesian names. -/
def Op.guardedCart : Op α → Bool
  | .add .. => false
  | .update _ u => u.cartesian.isSome || (u.kepler.isNone && u.cartUp)
  | o => o.assignsCart

theorem guardKep_run {s : Orb α} (h : s.kro = true) : (guardKep : Py α Unit) s = (.error .attributeError, s) := by
  simp [guardKep, h]
theorem guardCart_run {s : Orb α} (h : s.cro = true) : (guardCart : Py α Unit) s = (.error .attributeError, s) := by
  simp [guardCart, h]

theorem updGuard_kro {s : Orb α} (h : s.kro = true) (c : Bool) :
    (updGuard c true : Py α Unit) s = (.error .attributeError, s) := by
  unfold updGuard when
  cases c
  · simp only [Bool.false_eq_true, if_false, if_true, pure_bind']
    exact bind_err (guardKep_run h)
  · simp only [if_true]
    by_cases hc : s.cro = true
    · exact bind_err (guardCart_run hc)
    · have : (guardCart : Py α Unit) s = (.ok (), s) := by simp [guardCart, hc]
      rw [bind_ok this]
      exact bind_err (guardKep_run h)

theorem updGuard_cro {s : Orb α} (h : s.cro = true) (k : Bool) :
    (updGuard true k : Py α Unit) s = (.error .attributeError, s) := by
  unfold updGuard when
  exact bind_err (guardCart_run h)

theorem guardedKep_run {s : Orb α} (h : s.kro = true) {o : Op α} (ho : o.guardedKep = true) :
    o.run K s = (.error .attributeError, s) := by
  cases o with
  | setKep i v => exact bind_err (guardKep_run h)
  | setKepler v => exact bind_err (guardKep_run h)
  | setTrue v => exact bind_err (guardKep_run h)
  | setEcc v => exact bind_err (guardKep_run h)
  | setMean v => exact bind_err (guardKep_run h)
  | setMeanMotion v => exact bind_err (guardKep_run h)
  | update inds u =>
    simp only [Op.guardedKep, Bool.and_eq_true, Bool.or_eq_true, Option.isNone_iff_eq_none] at ho
    obtain ⟨h1, h2⟩ := ho
    show Orbit.update K inds u s = _
    unfold Orbit.update
    rw [h1]
    cases hk : u.kepler with
    | some v => exact bind_err (guardKep_run h)
    | none =>
      rw [hk] at h2
      have h3 : u.kepUp = true := by simpa using h2
      simp only [h3]
      exact bind_err (updGuard_kro h _)
  | _ => cases ho

theorem guardedCart_run {s : Orb α} (h : s.cro = true) {o : Op α} (ho : o.guardedCart = true) :
    o.run K s = (.error .attributeError, s) := by
  cases o with
  | setCart i v => exact bind_err (guardCart_run h)
  | setCartesian v => exact bind_err (guardCart_run h)
  | setR v => exact bind_err (guardCart_run h)
  | setV v => exact bind_err (guardCart_run h)
  | setVelocity v => exact bind_err (guardCart_run h)
  | update inds u =>
    simp only [Op.guardedCart, Bool.and_eq_true, Bool.or_eq_true, Option.isNone_iff_eq_none] at ho
    show Orbit.update K inds u s = _
    unfold Orbit.update
    cases hc : u.cartesian with
    | some v => exact bind_err (guardCart_run h)
    | none =>
      rw [hc] at ho
      obtain ⟨h1, h2⟩ : u.kepler = none ∧ u.cartUp = true := by simpa using ho
      simp only [h1, h2]
      exact bind_err (updGuard_cro h _)
  | _ => cases ho

/-- C33 (partial): with `kepler_read_only` set, the listed Kepler assignments raise AttributeError and leave the whole object
as it was, for every state, mode, value and kernel; likewise for `cartesian_read_only`.  The assignments of C33 that are
missing here are exactly those for which C33 fails, see the `c33_false` theorems. -/
theorem c33_partial (s : Orb α) (o : Op α) :
    (s.kro = true → o.guardedKep = true → Refused K s o ∧ (o.run K s).2 = s) ∧
    (s.cro = true → o.guardedCart = true → Refused K s o ∧ (o.run K s).2 = s) := by
  constructor
  · intro h ho
    have := guardedKep_run K h ho
    exact ⟨⟨by rw [this], by rw [this], by rw [this], by rw [this]⟩, by rw [this]⟩
  · intro h ho
    have := guardedCart_run K h ho
    exact ⟨⟨by rw [this], by rw [this], by rw [this], by rw [this]⟩, by rw [this]⟩

/-- C33, other ways to change elements: with `kepler_read_only` set, changing the anomaly type and `propagate` raise as well,
and in direct mode they leave all stored elements as they were. -/
theorem c33_propagate_partial {n : Nat} (s : Orb α) (hw : WFE n s) (hd : s.direct = true) (h : s.kro = true) (dt : Val α) (t : Anom)
    (ht : t ≠ s.type) :
    (∃ e, (propagate K dt s).1 = .error e) ∧ SameCore s (propagate K dt s).2 ∧
    (∃ e, (set_type K (some t) s).1 = .error e) ∧ SameCore s (set_type K (some t) s).2 := by
  have hl : lazy s = false := lazy_direct hd
  have hDir : Dir n s := ⟨hw, hd⟩
  -- a method whose tail is refused is refused
  have key : ∀ {β : Type} (x : Py α β) (f : β → Py α Unit), Co s x (fun _ => True) →
      (∀ b t, SameCore s t → (∃ e, (f b t).1 = .error e) ∧ SameCore s (f b t).2) →
      ∀ t, SameCore s t → (∃ e, ((x >>= f) t).1 = .error e) ∧ SameCore s ((x >>= f) t).2 := by
    intro β x f hx hf t ht
    have h1 := (hx t ht).1
    rw [bind_run]
    rcases hxs : x t with ⟨e | b, s1⟩
    · rw [hxs] at h1; exact ⟨⟨e, rfl⟩, h1⟩
    · rw [hxs] at h1; exact hf b s1 h1
  have hg : ∀ (f : Unit → Py α Unit) (t : Orb α), SameCore s t →
      (∃ e, (((guardKep : Py α Unit) >>= f) t).1 = .error e) ∧ SameCore s (((guardKep : Py α Unit) >>= f) t).2 := by
    intro f t ht
    have : t.kro = true := ht.kro.trans h
    rw [bind_err (guardKep_run this)]
    exact ⟨⟨_, rfl⟩, ht⟩
  have hp := key (get_mean_anomaly K) _ (get_mean_anomaly_co K hl) (fun M t ht =>
    key (get_mean_motion K) (fun n => do
        let s ← self
        let nd ← lift (bcast (fun n dt => (n, dt)) n dt)
        let Ms ← lift (if nd.length = M.length then .ok (List.zipWith (fun M p => K.wrapM s.degrees (K.advance M p.1 p.2)) M nd)
          else match M with
            | [M] => .ok (nd.map fun p => K.wrapM s.degrees (K.advance M p.1 p.2))
            | _ => .error .valueError)
        set_mean_anomaly K (.vec Ms)
        let s ← self
        if s.direct then calculate_cartesian K .all else pure ())
      ((get_mean_motion_co K hl).mono fun _ _ => trivial) (fun n t ht =>
      key self _ (Keeps.self.mono fun _ _ => trivial) (fun s1 t ht =>
        key (lift _) _ (Keeps.lift.mono fun _ _ => trivial) (fun nd t ht =>
          key (lift _) _ (Keeps.lift.mono fun _ _ => trivial) (fun Ms t ht => by
            have hm := hg (fun _ => do
              let s ← self
              match s.type with
              | .mean => set_kep K 5 (.vec Ms)
              | .tru => setConv K s.degrees (K.meanToTrue s.opts false s.degrees) (.vec Ms)
              | .ecc => setConv K s.degrees (K.meanToEcc s.opts false s.degrees) (.vec Ms)
              afterKepEl K) t ht
            obtain ⟨⟨e, he⟩, h2⟩ := hm
            have heq : set_mean_anomaly K (.vec Ms) t = (.error e, (set_mean_anomaly K (.vec Ms) t).2) := Prod.ext he rfl
            rw [bind_err heq]
            exact ⟨⟨e, rfl⟩, h2⟩) t ht) t ht) t ht) t ht) s (SameCore.refl s)
  have hts : set_type K (some t) s = (do let x ← get_anomaly K t; set_kep K 5 (.vec x); upd fun s => { s with type := t } : Py α Unit) s := by
    show (do let s ← self; if s.type = t then pure () else _ : Py α Unit) s = _
    rw [self_bind, if_neg (Ne.symm ht)]
  have hq := key (get_anomaly K t) (fun x => do set_kep K 5 (.vec x); upd fun s => { s with type := t }) (get_anomaly_co K hl t)
    (fun x r hr => by
      have hm := hg (fun _ => do
        let s ← self
        let vs ← lift ((Val.vec x).spread s.kep.length)
        upd fun s => { s with kep := List.zipWith (fun k x => k.set 5 x) s.kep vs }
        afterKepEl K) r hr
      obtain ⟨⟨e, he⟩, h2⟩ := hm
      have heq : set_kep K 5 (.vec x) r = (.error e, (set_kep K 5 (.vec x) r).2) := Prod.ext he rfl
      rw [bind_err heq]
      exact ⟨⟨e, rfl⟩, h2⟩) s (SameCore.refl s)
  rw [← hts] at hq
  exact ⟨hp.1, hp.2, hq.1, hq.2⟩

/-- C33 fails for `orb.equinoctial = q`: AttributeError is raised, but five of the six Kepler elements of every orbit have
been overwritten before. -/
theorem c33_false_equinoctial {n : Nat} (s : Orb α) (hw : WF n s) (h : s.kro = true) (q : Equi α) :
    set_equinoctial K (.inl q) s =
      (.error .attributeError, { s with kep := s.kep.map fun old => { K.equiToKep s.degrees q with nu := old.nu } }) := by
  simp only [set_equinoctial, self_bind]
  have hs : (Val6.mat [K.equiToKep s.degrees q] : Val6 α (Kep α)).spread Kep.const s.kep.length
      = .ok (List.replicate s.kep.length (K.equiToKep s.degrees q)) := rfl
  rw [hs, liftOk_bind, upd_bind]
  have hz : List.zipWith (fun old new : Kep α => { new with nu := old.nu }) s.kep
      (List.replicate s.kep.length (K.equiToKep s.degrees q)) = s.kep.map fun old => { K.equiToKep s.degrees q with nu := old.nu } := by
    generalize s.kep = l
    induction l with
    | nil => rfl
    | cons a l ih => simp [List.replicate_succ, ih]
  rw [hz]
  exact bind_err (guardKep_run h)

/-- C33 fails for `add` with Kepler values: AttributeError is raised after the new, empty orbits have been appended. -/
theorem c33_false_add {n k : Nat} (s : Orb α) (hw : WFE n s) (h : s.kro = true) (u : Upd α) (hm : u.m = none)
    (hu : u.cartesian = none) (hk : u.kepler.isSome || u.kepUp) :
    (add K k u s).1 = .error .attributeError ∧ (add K k u s).2.kep = s.kep ++ List.replicate k (Kep.const K.nan) := by
  obtain ⟨l, hl, hn⟩ := hw.2
  have hg : ({ u with m := none } : Upd α) = u := by cases u; cases hm; rfl
  rw [add_run K hw.1 hl, hm, hg]
  have hr : writeMass (.slice (some (n : Int)) (some ((n + k : Nat) : Int)) 1) none (extend K k s l) = (.ok (), extend K k s l) := rfl
  rw [bind_ok hr]
  have := guardedKep_run K (s := extend K k s l) (by exact h) (o := .update (.slice (some (n : Int)) (some ((n + k : Nat) : Int)) 1) u)
    (by simp [Op.guardedKep, hu]; simpa using hk)
  have h' : update K (.slice (some (n : Int)) (some ((n + k : Nat) : Int)) 1) u (extend K k s l) = (.error .attributeError, extend K k s l) :=
    this
  rw [h']
  exact ⟨rfl, rfl⟩

/-- C33 fails for `update` with the keywords `cartesian` and `kepler`: no AttributeError is raised although Kepler elements
are read-only, the Kepler values are ignored and the elements are recalculated. -/
theorem c33_false_update {n : Nat} (s : Orb α) (hw : WF n s) (hd : s.direct = true) (h : s.cro = false) (c : Cart α)
    (v : Val6 α (Kep α)) :
    (update K .all { cartesian := some (.mat [c]), kepler := some v } s).1 = .ok () := by
  have hg : (guardCart : Py α Unit) s = (.ok (), s) := by simp [guardCart, h]
  unfold update
  simp only
  rw [bind_ok hg, self_bind]
  have hwc : writeCols Cart.const Cart.ofList s.cart .all (Val6.mat [c] : Val6 α (Cart α)) =
      .ok (writeAt (fun _ c => c) s.cart (List.range n) (List.replicate n c)) := by
    have hp := pos_all n
    simp only [writeCols, hw.cart]
    rw [hp]
    show (do let cs ← (Val6.mat [c] : Val6 α (Cart α)).spread Cart.const (List.range n).length; pure _ : Except PyErr _) = _
    simp only [Val6.spread, List.length_range]
    rfl
  rw [hwc, liftOk_bind, upd_bind]
  have hw' : WF n { s with cart := writeAt (fun _ c => c) s.cart (List.range n) (List.replicate n c) } :=
    ⟨hw.m, by simp [writeAt_length, hw.cart], hw.kep, hw.tA, hw.mA, hw.cartCalc, hw.kepCalc⟩
  show ((if s.direct then calculate_kepler K .all else markFlags .all false true : Py α Unit) _).1 = _
  rw [if_pos hd, calculate_kepler_all K hw']

/-- an object with one orbit and read-only Kepler elements -/
noncomputable def roOrb : Orb FX where
  auto := true
  direct := true
  G := 1
  M0 := 1
  opts := .dflt
  epoch := none
  degrees := false
  type := .tru
  kro := true
  cro := false
  m := [0]
  cart := [⟨1, 0, 0, 0, 1, 0⟩]
  kep := [⟨1, 0, 0, 0, 0, 0⟩]
  tA := [0]
  eA := .arr [0]
  mA := [0]
  cartCalc := [false]
  kepCalc := [false]
  it := none

/-- C33, refuted: with the numerical functions of pyorb there is an object with read-only Kepler elements whose semi-major
axis is changed by assigning `equinoctial`. -/
theorem c33_false (g : KGarbage) : ¬ ∀ (s : Orb FX) (o : Op FX), (∃ n, WFE n s) → s.kro = true → o.assignsKep = true →
    Refused (fxKern g) s o := by
  intro h
  let s := roOrb
  have hw : WF 1 s := ⟨rfl, rfl, rfl, rfl, rfl, rfl, rfl⟩
  have := (h s (.setEquinoctial (.inl ⟨2, 0, 0, 0, 0, 0⟩)) ⟨1, hw, [0], rfl, rfl⟩ rfl rfl).2.1
  have h2 := c33_false_equinoctial (fxKern g) s hw rfl (⟨2, 0, 0, 0, 0, 0⟩ : Equi FX)
  have h3 : (set_equinoctial (fxKern g) (.inl (⟨2, 0, 0, 0, 0, 0⟩ : Equi FX)) s).2.kep = s.kep := this
  rw [h2] at h3
  have h4 := congrArg (fun l : List (Kep FX) => l.map Kep.a) h3
  have h5 : [(2 : FX)] = [1] := h4
  simp at h5

/-- a non-trivial case of `c33_partial`: `orb.a = 3` on an object made with `kepler_read_only=True` -/
example (s : Orb α) (h : s.kro = true) (x : α) : (set_kep K 0 (.sc x) s) = (.error .attributeError, s) :=
  guardedKep_run K h (o := .setKep 0 (.sc x)) rfl

/-! ## C39 -/

/-- C39 fails in every case: assigning `period` raises TypeError (the setter takes no value) and so does assigning
`mean_motion`; the object is left as it was, so that the next read returns the old value. -/
theorem c39_false (s : Orb α) (v : Val α) :
    set_period v s = (.error .typeError, s) ∧
    (s.kro = false → set_mean_motion K v s = (.error .typeError, s)) ∧
    (s.kro = true → set_mean_motion K v s = (.error .attributeError, s)) := by
  refine ⟨rfl, fun h => ?_, fun h => bind_err (guardKep_run h)⟩
  have hg : (guardKep : Py α Unit) s = (.ok (), s) := by simp [guardKep, h]
  rw [set_mean_motion, bind_ok hg]
  rfl

/-- C39 (partial): what is left of the claim.  The value given is never stored: after `orb.period = P`, reading `period`
returns what it returned before, for every `P`, state and kernel; likewise for `mean_motion`. -/
theorem c39_partial (s : Orb α) (v : Val α) :
    get_period K (set_period v s).2 = get_period K s ∧ get_mean_motion K (set_mean_motion K v s).2 = get_mean_motion K s := by
  refine ⟨rfl, ?_⟩
  cases h : s.kro
  · rw [(c39_false K s v).2.1 h]
  · rw [(c39_false K s v).2.2 h]

end Orbit
end Pyorb
