import Verif.PropsOrbitShape

/-!
# What an operation on an `Orbit` leaves alone (C59)

Settings, the anomaly type and the masses change only through the operations that are meant to change them, whatever the mode,
the history and the outcome (an exception included).
-/

set_option linter.unusedSimpArgs false
set_option linter.unusedVariables false

namespace Pyorb

/-- the attributes of an `Orbit` that a user sets, apart from anomaly type, masses and elements -/
structure Settings (α : Type) where
  auto_update : Bool
  direct_update : Bool
  kepler_read_only : Bool
  cartesian_read_only : Bool
  degrees : Bool
  G : α
  M0 : α
  solver_options : SolverOpts α
  epoch : Option α

/-- the settings of an object -/
def Orb.settings {α : Type} (s : Orb α) : Settings α :=
  ⟨s.auto, s.direct, s.kro, s.cro, s.degrees, s.G, s.M0, s.opts, s.epoch⟩

namespace Orbit
open Py
variable {α : Type} (K : Kern α)

/-- plain assignments of settings -/
def Op.assignsSettings : Op α → Bool
  | .setFlags .. | .setDegrees _ | .setGM .. | .setOpts _ => true
  | _ => false

/-- operations meant to change masses, or the number of orbits -/
def Op.assignsMass : Op α → Bool
  | .update _ u => u.m.isSome
  | .add .. | .delete _ | .allocate _ | .writeM _ => true
  | _ => false

/-- `orb.type = ..` -/
def Op.assignsType : Op α → Bool
  | .setType _ => true
  | _ => false

/-! ## A part of the object that element assignments and refreshes do not touch -/

/-- `f` does not look at elements, cached anomalies, flags and the position of the iterator -/
def Aside {β : Type} (f : Orb α → β) : Prop :=
  ∀ s k c t e m cc kc it,
    f { s with kep := k, cart := c, tA := t, eA := e, mA := m, cartCalc := cc, kepCalc := kc, it := it } = f s

section
variable {β : Type} {f : Orb α → β} {c : β}

/-- whatever the outcome, `f` of the object stays `c` -/
structure Fr (f : Orb α → β) (c : β) {γ : Type} (x : Py α γ) : Prop where
  out : ∀ s, f s = c → f (x s).2 = c

variable {γ δ : Type}

theorem Fr.bind {x : Py α γ} {g : γ → Py α δ} (hx : Fr f c x) (hg : ∀ b, Fr f c (g b)) : Fr f c (x >>= g) := by
  refine ⟨fun s hs => ?_⟩
  have h1 := hx.out s hs
  rw [bind_run]
  rcases h : x s with ⟨e | b, s'⟩
  · rw [h] at h1; exact h1
  · rw [h] at h1; exact (hg b).out s' h1
theorem Fr.pure {b : γ} : Fr f c (Pure.pure b : Py α γ) := ⟨fun _ hs => hs⟩
theorem Fr.raise {e : PyErr} : Fr f c (Py.raise e : Py α γ) := ⟨fun _ hs => hs⟩
theorem Fr.self : Fr f c (Py.self : Py α (Orb α)) := ⟨fun _ hs => hs⟩
theorem Fr.lift {x : Except PyErr γ} : Fr f c (Py.lift x : Py α γ) := ⟨fun _ hs => hs⟩
theorem Fr.upd {g : Orb α → Orb α} (h : ∀ s, f (g s) = f s) : Fr f c (Py.upd g) := ⟨fun s hs => (h s).trans hs⟩
theorem Fr.ite {p : Prop} [Decidable p] {x y : Py α γ} (hx : Fr f c x) (hy : Fr f c y) : Fr f c (if p then x else y) := by
  split <;> assumption

/-- follows the structure of a method body -/
macro "fr" "[" ts:term,* "]" : tactic => do
  let ts := ts.getElems
  `(tactic|
  repeat' first
    | exact Fr.raise | exact Fr.pure | exact Fr.self | exact Fr.lift
    | first | fail $[| exact $ts]*
    | apply Fr.bind | apply Fr.ite | intro _ | split)

variable (hf : Aside f)
include hf

theorem aside_kepCheck (s : Orb α) : f (kepCheck K s) = f s := by rw [kepCheck_eq]; exact hf ..
theorem aside_calcKep (P : Nat → Bool) (s : Orb α) : f (calcKep K depth P s) = f s := by
  rw [show depth = 1 + 2 from rfl, calcKep_eq]; exact hf ..
theorem aside_calcTrue (sc : Bool) (P : Nat → Bool) (s : Orb α) : f (calcTrue K sc P s) = f s := by
  rw [calcTrue_eq]; exact (hf ..).trans (aside_kepCheck K hf s)
theorem aside_calcMean (sc : Bool) (P : Nat → Bool) (s : Orb α) : f (calcMean K sc P s) = f s := by
  rw [calcMean_eq]; exact (hf ..).trans (aside_kepCheck K hf s)
theorem aside_calcCart (P : Nat → Bool) (s : Orb α) : f (calcCart K P s) = f s := by
  unfold calcCart
  simp only
  split_ifs
  · exact hf s ..
  · refine (hf ..).trans ((aside_calcTrue K hf _ _ _).trans ?_)
    exact hf s ..
  · rfl
theorem aside_cartCheck (s : Orb α) : f (cartCheck K s) = f s := by
  unfold cartCheck
  split_ifs
  · exact aside_calcCart K hf _ s
  · rfl

theorem fr_kepCheck : Fr f c (upd (kepCheck K)) := Fr.upd (aside_kepCheck K hf)
theorem fr_cartCheck : Fr f c (upd (cartCheck K)) := Fr.upd (aside_cartCheck K hf)
omit hf in
theorem fr_num : Fr f c (num : Py α Nat) := by unfold num; fr [Fr.self]
theorem fr_calculate_cartesian (inds : Inds) : Fr f c (calculate_cartesian K inds) := by
  unfold calculate_cartesian; fr [fr_num, Fr.upd (aside_calcCart K hf _)]
theorem fr_calculate_kepler (inds : Inds) : Fr f c (calculate_kepler K inds) := by
  unfold calculate_kepler; fr [fr_num, Fr.upd (aside_calcKep K hf _)]
theorem fr_calc_true (inds : Inds) : Fr f c (calc_true_anomaly K inds) := by
  unfold calc_true_anomaly; fr [fr_kepCheck K hf, Fr.upd (aside_calcTrue K hf _ _)]
theorem fr_calc_mean (inds : Inds) : Fr f c (calc_mean_anomaly K inds) := by
  unfold calc_mean_anomaly; fr [fr_kepCheck K hf, Fr.upd (aside_calcMean K hf _ _)]
theorem fr_calc_ecc (inds : Inds) : Fr f c (calc_eccentric_anomaly K inds) := by
  unfold calc_eccentric_anomaly; fr [fr_kepCheck K hf, Fr.upd fun s => hf s ..]


theorem fr_get_kep (i : Fin 6) : Fr f c (get_kep K i) := by unfold get_kep; fr [fr_kepCheck K hf]
theorem fr_get_cart (i : Fin 6) : Fr f c (get_cart K i) := by unfold get_cart; fr [fr_cartCheck K hf]
theorem fr_get_kepler : Fr f c (get_kepler K) := by unfold get_kepler; fr [fr_kepCheck K hf]
theorem fr_get_cartesian : Fr f c (get_cartesian K) := by unfold get_cartesian; fr [fr_cartCheck K hf]
theorem fr_get_r : Fr f c (get_r K) := by unfold get_r; fr [fr_cartCheck K hf]
theorem fr_get_v : Fr f c (get_v K) := by unfold get_v; fr [fr_cartCheck K hf]
theorem fr_get_period : Fr f c (get_period K) := by unfold get_period; fr [fr_kepCheck K hf, fr_get_kep K hf _]
theorem fr_get_mean_motion : Fr f c (get_mean_motion K) := by unfold get_mean_motion; fr [fr_get_period K hf]
theorem fr_get_true : Fr f c (get_true_anomaly K) := by unfold get_true_anomaly; fr [fr_get_kep K hf _, fr_calc_true K hf _]
theorem fr_get_mean : Fr f c (get_mean_anomaly K) := by unfold get_mean_anomaly; fr [fr_get_kep K hf _, fr_calc_mean K hf _]
theorem fr_get_ecc : Fr f c (get_eccentric_anomaly K) := by
  unfold get_eccentric_anomaly; fr [fr_get_kep K hf _, fr_calc_ecc K hf _]
theorem fr_get_apoapsis : Fr f c (get_apoapsis K) := by unfold get_apoapsis; fr [fr_get_kep K hf _]
theorem fr_get_periapsis : Fr f c (get_periapsis K) := by unfold get_periapsis; fr [fr_get_kep K hf _]
theorem fr_get_mean_longitude : Fr f c (get_mean_longitude K) := by
  unfold get_mean_longitude; fr [fr_get_kep K hf _, fr_get_mean K hf]
theorem fr_get_equinoctial : Fr f c (get_equinoctial K) := by
  unfold get_equinoctial; fr [fr_get_kepler K hf, fr_get_mean K hf]
theorem fr_get_velocity : Fr f c (get_velocity K) := by unfold get_velocity; fr [fr_cartCheck K hf]
theorem fr_get_speed : Fr f c (get_speed K) := by
  unfold get_speed; fr [fr_kepCheck K hf, fr_get_kep K hf _, fr_get_ecc K hf]
omit hf in
theorem fr_str : Fr f c (Orbit.str K) := by unfold Orbit.str; fr [fr_num]

theorem fr_read (g : Read) : Fr f c (g.get K) := by
  cases g
  case num => exact fr_num
  case m => unfold Read.get; fr [Fr.self]
  case str => exact fr_str K
  case r => exact fr_get_r K hf
  case v => exact fr_get_v K hf
  case cartesian => exact fr_get_cartesian K hf
  case cart i => exact fr_get_cart K hf i
  case kepler => exact fr_get_kepler K hf
  case kep i => exact fr_get_kep K hf i
  case period => exact fr_get_period K hf
  case meanMotion => exact fr_get_mean_motion K hf
  case trueAnomaly => exact fr_get_true K hf
  case meanAnomaly => exact fr_get_mean K hf
  case eccentricAnomaly => exact fr_get_ecc K hf
  case apoapsis => exact fr_get_apoapsis K hf
  case periapsis => exact fr_get_periapsis K hf
  case meanLongitude => exact fr_get_mean_longitude K hf
  case equinoctial => exact fr_get_equinoctial K hf
  case velocity => exact fr_get_velocity K hf
  case speed => exact fr_get_speed K hf

/-! ### Setters -/

theorem fr_afterKepEl : Fr f c (afterKepEl K) := by
  unfold afterKepEl; fr [fr_calculate_cartesian K hf _, Fr.upd fun s => hf s ..]
theorem fr_afterKep : Fr f c (afterKep K) := by
  unfold afterKep; fr [fr_calculate_cartesian K hf _, Fr.upd fun s => hf s ..]
theorem fr_afterCartEl : Fr f c (afterCartEl K) := by
  unfold afterCartEl; fr [fr_calculate_kepler K hf _, Fr.upd fun s => hf s ..]
theorem fr_afterCart : Fr f c (afterCart K) := by
  unfold afterCart; fr [fr_calculate_kepler K hf _, Fr.upd fun s => hf s ..]
omit hf in
theorem fr_guardKep : Fr f c (guardKep : Py α Unit) := by unfold guardKep; fr [Fr.self]
omit hf in
theorem fr_guardCart : Fr f c (guardCart : Py α Unit) := by unfold guardCart; fr [Fr.self]

theorem fr_set_kep (i : Fin 6) (v : Val α) : Fr f c (set_kep K i v) := by
  unfold set_kep; fr [fr_guardKep, Fr.upd fun s => hf s .., fr_afterKepEl K hf]
theorem fr_set_cart (i : Fin 6) (v : Val α) : Fr f c (set_cart K i v) := by
  unfold set_cart; fr [fr_guardCart, Fr.upd fun s => hf s .., fr_afterCartEl K hf]
theorem fr_set_kepler (v : Val6 α (Kep α)) : Fr f c (set_kepler K v) := by
  unfold set_kepler; fr [fr_guardKep, Fr.upd fun s => hf s .., fr_afterKep K hf]
theorem fr_set_cartesian (v : Val6 α (Cart α)) : Fr f c (set_cartesian K v) := by
  unfold set_cartesian; fr [fr_guardCart, Fr.upd fun s => hf s .., fr_afterCart K hf]
theorem fr_set_r (v : Val6 α (Tri α)) : Fr f c (set_r K v) := by
  unfold set_r; fr [fr_guardCart, Fr.upd fun s => hf s .., fr_afterCart K hf]
theorem fr_set_v (v : Val6 α (Tri α)) : Fr f c (set_v K v) := by
  unfold set_v; fr [fr_guardCart, Fr.upd fun s => hf s .., fr_afterCart K hf]
theorem fr_setConv (deg : Bool) (g : α → α → α) (v : Val α) : Fr f c (setConv K deg g v) := by
  unfold setConv; fr [fr_get_kep K hf _, fr_set_kep K hf _ _]
theorem fr_set_true (v : Val α) : Fr f c (set_true_anomaly K v) := by
  unfold set_true_anomaly; fr [fr_guardKep, fr_setConv K hf _ _ _, fr_set_kep K hf _ _, fr_afterKepEl K hf]
theorem fr_set_ecc (v : Val α) : Fr f c (set_eccentric_anomaly K v) := by
  unfold set_eccentric_anomaly; fr [fr_guardKep, fr_setConv K hf _ _ _, fr_set_kep K hf _ _, fr_afterKepEl K hf]
theorem fr_set_mean (v : Val α) : Fr f c (set_mean_anomaly K v) := by
  unfold set_mean_anomaly; fr [fr_guardKep, fr_setConv K hf _ _ _, fr_set_kep K hf _ _, fr_afterKepEl K hf]
omit hf in
theorem fr_set_period (v : Val α) : Fr f c (set_period v) := Fr.raise
omit hf in
theorem fr_set_mean_motion (v : Val α) : Fr f c (set_mean_motion K v) := by
  unfold set_mean_motion; fr [fr_guardKep, fr_set_period v, Fr.raise]
theorem fr_set_velocity (v : Val α) : Fr f c (set_velocity K v) := by
  unfold set_velocity; fr [fr_guardCart, fr_cartCheck K hf, fr_set_v K hf _, fr_afterCartEl K hf]
theorem fr_set_equinoctial (v : Equi α ⊕ List (Equi α)) : Fr f c (set_equinoctial K v) := by
  unfold set_equinoctial; fr [Fr.upd fun s => hf s .., fr_set_mean K hf _]
theorem fr_get_anomaly (t : Anom) : Fr f c (get_anomaly K t) := by
  unfold get_anomaly; fr [fr_get_true K hf, fr_get_ecc K hf, fr_get_mean K hf]
theorem fr_set_type (ht : ∀ s t, f { s with type := t } = f s) (t : Option Anom) : Fr f c (set_type K t) := by
  unfold set_type; fr [fr_get_anomaly K hf _, fr_set_kep K hf _ _, Fr.upd fun s => ht s _]
theorem fr_propagate (dt : Val α) : Fr f c (propagate K dt) := by
  unfold propagate
  fr [fr_get_mean K hf, fr_get_mean_motion K hf, fr_set_mean K hf _, fr_calculate_cartesian K hf _]

/-! ### `update`, `add`, `delete`, `allocate`, iteration -/

theorem fr_updKepRow (inds : Inds) (i : Fin 6) (v : Option (Val α)) : Fr f c (updKepRow inds i v) := by
  unfold updKepRow; fr [Fr.upd fun s => hf s ..]
theorem fr_updCartRow (inds : Inds) (i : Fin 6) (v : Option (Val α)) : Fr f c (updCartRow inds i v) := by
  unfold updCartRow; fr [Fr.upd fun s => hf s ..]
theorem fr_updKepRows (inds : Inds) (u : Fin 6 → Option (Val α)) (is : List (Fin 6)) : Fr f c (updKepRows inds u is) := by
  induction is with
  | nil => exact Fr.pure
  | cons i is ih => unfold updKepRows; fr [fr_updKepRow hf _ _ _, ih]
theorem fr_updCartRows (inds : Inds) (u : Fin 6 → Option (Val α)) (is : List (Fin 6)) : Fr f c (updCartRows inds u is) := by
  induction is with
  | nil => exact Fr.pure
  | cons i is ih => unfold updCartRows; fr [fr_updCartRow hf _ _ _, ih]
theorem fr_markFlags (inds : Inds) (kc cc : Bool) : Fr f c (markFlags inds kc cc : Py α Unit) := by
  unfold markFlags; fr [Fr.upd fun s => hf s ..]
theorem fr_updAfterCart (inds : Inds) : Fr f c (updAfterCart K inds) := by
  unfold updAfterCart; fr [fr_calculate_kepler K hf _, fr_markFlags hf _ _ _]
theorem fr_updAfterKep (inds : Inds) : Fr f c (updAfterKep K inds) := by
  unfold updAfterKep; fr [fr_calculate_cartesian K hf _, fr_markFlags hf _ _ _]
omit hf in
theorem fr_when (b : Bool) {x : Py α Unit} (hx : Fr f c x) : Fr f c (when b x) := by unfold when; fr [hx]
omit hf in
theorem fr_updGuard (a b : Bool) : Fr f c (updGuard a b : Py α Unit) := by
  unfold updGuard; fr [fr_when _ fr_guardCart, fr_when _ fr_guardKep, fr_when _ Fr.raise]
omit hf in
theorem fr_updM (inds : Inds) (v : Option (Val α)) (hm : v = none ∨ ∀ s m, f { s with m := m } = f s) : Fr f c (updM inds v) := by
  rcases hm with rfl | hm
  · exact Fr.pure
  · unfold updM; fr [Fr.upd fun s => hm s _]
theorem fr_updCartEls (inds : Inds) (u : Upd α) : Fr f c (updCartEls K inds u) := by
  unfold updCartEls; fr [fr_updCartRows hf _ _ _, fr_updAfterCart K hf _]
theorem fr_updKepEls (inds : Inds) (u : Upd α) : Fr f c (updKepEls K inds u) := by
  unfold updKepEls; fr [fr_updKepRows hf _ _ _, fr_updAfterKep K hf _]
theorem fr_update (inds : Inds) (u : Upd α) (hm : u.m = none ∨ ∀ s m, f { s with m := m } = f s) : Fr f c (update K inds u) := by
  unfold update
  fr [fr_guardCart, fr_guardKep, Fr.upd fun s => hf s .., fr_updAfterCart K hf _, fr_updAfterKep K hf _, fr_updGuard _ _,
    fr_updM _ _ hm, fr_updCartEls K hf _ _, fr_updKepEls K hf _ _]

theorem fr_next : Fr f c (next K) := by
  unfold next; fr [fr_num, Fr.upd fun s => hf s ..]

variable (hm : ∀ s m, f { s with m := m } = f s)
include hm

theorem fr_delete (inds : Inds) : Fr f c (delete inds : Py α Unit) := by
  unfold delete; fr [Fr.upd fun s => hf s .., Fr.upd fun s => hm s _]
theorem fr_allocate (n : Nat) : Fr f c (allocate K n) := by
  unfold allocate
  exact Fr.upd fun s => (hf { s with m := List.replicate n K.zero } ..).trans (hm s _)
omit hf in
theorem fr_writeMass (inds : Inds) (v : Option (Val α)) : Fr f c (writeMass inds v) := by
  unfold writeMass; fr [Fr.upd fun s => hm s _]
theorem fr_add (n : Nat) (u : Upd α) : Fr f c (add K n u) := by
  unfold add
  fr [fr_num, Fr.upd fun s => hf s .., Fr.upd fun s => hm s _, fr_writeMass hm _ _, fr_update K hf _ _ (.inr hm)]

omit hm in
theorem fr_run (o : Op α)
    (hs : o.assignsSettings = false ∨ ∀ s a d k c dg G M0 o,
      f { s with auto := a, direct := d, kro := k, cro := c, degrees := dg, G := G, M0 := M0, opts := o } = f s)
    (ht : o.assignsType = false ∨ ∀ s t, f { s with type := t } = f s)
    (hm : o.assignsMass = false ∨ ∀ s m, f { s with m := m } = f s) : Fr f c (o.run K) := by
  cases o
  case read g => unfold Op.run; fr [fr_read K hf g]
  case setKep i v => exact fr_set_kep K hf i v
  case setCart i v => exact fr_set_cart K hf i v
  case setKepler v => exact fr_set_kepler K hf v
  case setCartesian v => exact fr_set_cartesian K hf v
  case setR v => exact fr_set_r K hf v
  case setV v => exact fr_set_v K hf v
  case setTrue v => exact fr_set_true K hf v
  case setEcc v => exact fr_set_ecc K hf v
  case setMean v => exact fr_set_mean K hf v
  case setPeriod v => exact fr_set_period v
  case setMeanMotion v => exact fr_set_mean_motion K v
  case setVelocity v => exact fr_set_velocity K hf v
  case setEquinoctial v => exact fr_set_equinoctial K hf v
  case setType t =>
    rcases ht with ht | ht
    · cases ht
    · exact fr_set_type K hf ht t
  case propagate dt => exact fr_propagate K hf dt
  case update inds u =>
    refine fr_update K hf inds u (hm.imp (fun h => ?_) id)
    cases hu : u.m with
    | none => rfl
    | some v => rw [Op.assignsMass, hu] at h; cases h
  case add n u =>
    rcases hm with hm | hm
    · cases hm
    · exact fr_add K hf hm n u
  case delete inds =>
    rcases hm with hm | hm
    · cases hm
    · exact fr_delete hf hm inds
  case allocate n =>
    rcases hm with hm | hm
    · cases hm
    · exact fr_allocate K hf hm n
  case calcCartesian inds => exact fr_calculate_cartesian K hf inds
  case calcKepler inds => exact fr_calculate_kepler K hf inds
  case calcTrue inds => exact fr_calc_true K hf inds
  case calcMean inds => exact fr_calc_mean K hf inds
  case calcEcc inds => exact fr_calc_ecc K hf inds
  case iter => exact Fr.upd fun s => hf s ..
  case next => unfold Op.run; fr [fr_next K hf]
  case writeM v =>
    rcases hm with hm | hm
    · cases hm
    · unfold Op.run; fr [Fr.upd fun s => hm s _]
  all_goals
    rcases hs with hs | hs
    · cases hs
    · exact Fr.upd fun s => hs s ..

end

theorem aside_settings : Aside (Orb.settings : Orb α → Settings α) := fun _ _ _ _ _ _ _ _ _ => rfl
theorem aside_type : Aside (Orb.type : Orb α → Anom) := fun _ _ _ _ _ _ _ _ _ => rfl
theorem aside_mass : Aside (Orb.m : Orb α → List α) := fun _ _ _ _ _ _ _ _ _ => rfl

theorem fr_exec {β : Type} {f : Orb α → β} (h : List (Op α)) (hf : ∀ o ∈ h, ∀ c, Fr f c (o.run K)) (s : Orb α) :
    f (exec K s h) = f s := by
  induction h generalizing s with
  | nil => rfl
  | cons o h ih =>
    rw [exec_cons, ih (fun o ho => hf o (List.mem_cons_of_mem _ ho))]
    exact (hf o (List.mem_cons_self ..) _).out s rfl

/-! ## C59 -/

/-- C59, settings: after any history without a plain assignment of a setting (whatever raised on the way) update mode, read-only
flags, degrees, G, M0, solver options and epoch are what they were. -/
theorem c59_settings (s : Orb α) (h : List (Op α)) (hh : ∀ o ∈ h, o.assignsSettings = false) :
    (exec K s h).settings = s.settings :=
  fr_exec K h (fun o ho _ => fr_run K aside_settings o (.inl (hh o ho)) (.inr fun _ _ => rfl) (.inr fun _ _ => rfl)) s

/-- C59, anomaly type: it changes by assigning `type` only. -/
theorem c59_type (s : Orb α) (h : List (Op α)) (hh : ∀ o ∈ h, o.assignsType = false) :
    (exec K s h).type = s.type :=
  fr_exec K h (fun o ho _ => fr_run K aside_type o (.inr fun _ _ _ _ _ _ _ _ _ => rfl) (.inl (hh o ho)) (.inr fun _ _ => rfl)) s

/-- C59, masses: they change by `orb.m = ..`, `update(m=..)`, `add`, `delete` and `allocate` only. -/
theorem c59_mass (s : Orb α) (h : List (Op α)) (hh : ∀ o ∈ h, o.assignsMass = false) :
    (exec K s h).m = s.m :=
  fr_exec K h (fun o ho _ => fr_run K aside_mass o (.inr fun _ _ _ _ _ _ _ _ _ => rfl) (.inr fun _ _ => rfl) (.inl (hh o ho))) s

/-- A history that meets the hypotheses of all three theorems. -/
example (s : Orb α) (a : α) (dt : List α) (i : Int) :
    let h : List (Op α) := [.setKep 0 (.sc a), .propagate (.vec dt), .update (.int i) { kepEl := fun _ => some (.sc a) }, .read .speed]
    (exec K s h).settings = s.settings ∧ (exec K s h).type = s.type ∧ (exec K s h).m = s.m := by
  refine ⟨c59_settings K _ _ ?_, c59_type K _ _ ?_, c59_mass K _ _ ?_⟩ <;>
    (intro o ho; simp only [List.mem_cons, List.not_mem_nil, or_false] at ho; rcases ho with rfl | rfl | rfl | rfl <;> rfl)

end Orbit
end Pyorb
