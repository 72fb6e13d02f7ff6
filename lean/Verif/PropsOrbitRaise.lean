import Verif.PropsOrbitInit
import Verif.PropsOrbitAgree
import Verif.PropsOrbitIter

/-!
# C65: an operation that raises has stored nothing

For every operation except `add`, assigning `equinoctial`, and `update` with several names (for which it is false, see C33 and C38).
-/

set_option linter.unusedSimpArgs false
set_option linter.unusedVariables false

namespace Pyorb
namespace Orbit
open Py
variable {α : Type} (K : Kern α)

/-- from `s` to `s'` only queries are made -/
def OnlyQueries (s s' : Orb α) : Prop := ∃ gs : List Read, s' = exec K s (gs.map Op.read)

theorem OnlyQueries.refl (s : Orb α) : OnlyQueries K s s := ⟨[], rfl⟩
theorem OnlyQueries.trans {s t r : Orb α} (h : OnlyQueries K s t) (h' : OnlyQueries K t r) : OnlyQueries K s r := by
  obtain ⟨g, rfl⟩ := h
  obtain ⟨g', rfl⟩ := h'
  exact ⟨g ++ g', by rw [List.map_append]; unfold exec; rw [List.foldl_append]⟩
theorem OnlyQueries.read (s : Orb α) (g : Read) : OnlyQueries K s (g.get K s).2 := by
  refine ⟨[g], ?_⟩
  show _ = ((do let _ ← g.get K; pure ()) s : Except PyErr Unit × Orb α).2
  rw [bind_run]
  rcases g.get K s with ⟨e | b, s'⟩ <;> rfl
theorem OnlyQueries.kepCheck (s : Orb α) : OnlyQueries K s (Orbit.kepCheck K s) := OnlyQueries.read K s .kepler
theorem OnlyQueries.cartCheck (s : Orb α) : OnlyQueries K s (Orbit.cartCheck K s) := OnlyQueries.read K s .cartesian

/-- a call that raises has only made queries -/
def ErrQ {β : Type} (n : Nat) (x : Py α β) : Prop := ∀ s, WFE n s → ∀ e s', x s = (.error e, s') → OnlyQueries K s s'
/-- a call that does not raise -/
def Total {β : Type} (n : Nat) (x : Py α β) : Prop := ∀ s, WFE n s → ∃ b s', x s = (.ok b, s')

section
variable {n : Nat}

theorem Total.errQ {β : Type} {x : Py α β} (h : Total n x) : ErrQ K n x := by
  intro s hs e s' he
  obtain ⟨b, s1, h1⟩ := h s hs
  rw [h1] at he; cases he

theorem ErrQ.raise {β : Type} (e : PyErr) : ErrQ K n (Py.raise e : Py α β) := by
  intro s hs e s' h
  cases h
  exact OnlyQueries.refl K s

/-- after a first part that makes only queries -/
theorem qBind {β γ : Type} {x : Py α β} {Q : β → Prop} {f : β → Py α γ} (hsh : Sh n x Q) (hq : ∀ s, WFE n s → OnlyQueries K s (x s).2)
    (hf : ∀ b, Q b → ErrQ K n (f b)) : ErrQ K n (x >>= f) := by
  intro s hs e s' h
  have h1 := hsh s hs
  have h2 := hq s hs
  rw [bind_run] at h
  rcases hx : x s with ⟨e1 | b, s1⟩
  · rw [hx] at h h2
    cases h
    exact h2
  · rw [hx] at h h1 h2
    exact h2.trans K (hf b (h1.2 b rfl) s1 h1.1 e s' h)
/-- before a last part that does not raise -/
theorem qThen {x y : Py α Unit} {Q : Unit → Prop} (hx : ErrQ K n x) (hsh : Sh n x Q) (hy : Total n y) : ErrQ K n (do x; y) := by
  intro s hs e s' h
  have h1 := hsh s hs
  rw [bind_run] at h
  rcases hxs : x s with ⟨e1 | b, s1⟩
  · rw [hxs] at h; cases h
    exact hx s hs _ _ hxs
  · rw [hxs] at h h1
    obtain ⟨c, s2, h2⟩ := hy s1 h1.1
    have h' : y s1 = (.error e, s') := h
    rw [h2] at h'; cases h'
theorem qSelf {γ : Type} {f : Orb α → Py α γ} (hf : ∀ b, WFE n b → ErrQ K n (f b)) : ErrQ K n (self >>= f) :=
  qBind K Keeps.self (fun s _ => OnlyQueries.refl K s) hf
theorem qLift {β γ : Type} {x : Except PyErr β} {f : β → Py α γ} (hf : ∀ b, x = .ok b → ErrQ K n (f b)) : ErrQ K n (lift x >>= f) :=
  qBind K Keeps.lift (fun s _ => by cases x <;> exact OnlyQueries.refl K s) hf
theorem guardKep_state (s : Orb α) : ((guardKep : Py α Unit) s).2 = s := by
  rcases guardKep_cases s with ⟨e, h⟩ | h <;> rw [h]
theorem guardCart_state (s : Orb α) : ((guardCart : Py α Unit) s).2 = s := by
  unfold guardCart; rw [self_bind]; split <;> rfl
theorem qGuardKep {γ : Type} {f : Unit → Py α γ} (hf : ErrQ K n (f ())) : ErrQ K n (guardKep >>= f) :=
  qBind K guardKep_sh (fun s _ => by rw [guardKep_state]; exact OnlyQueries.refl K s) fun _ _ => hf
theorem qGuardCart {γ : Type} {f : Unit → Py α γ} (hf : ErrQ K n (f ())) : ErrQ K n (guardCart >>= f) :=
  qBind K guardCart_sh (fun s _ => by rw [guardCart_state]; exact OnlyQueries.refl K s) fun _ _ => hf
theorem qRead {γ : Type} (g : Read) {f : g.Ans α → Py α γ} (hf : ∀ b, ErrQ K n (f b)) : ErrQ K n (g.get K >>= f) :=
  qBind K (read_sh K g) (fun s _ => OnlyQueries.read K s g) fun b _ => hf b

theorem calculate_cartesian_total : Total n (calculate_cartesian K .all) := fun s hs => by
  unfold calculate_cartesian
  rw [bind_ok (num_wf hs.1), pos_all]
  exact ⟨_, _, rfl⟩
theorem calculate_kepler_total : Total n (calculate_kepler K .all) := fun s hs => by
  unfold calculate_kepler
  rw [bind_ok (num_wf hs.1), pos_all]
  exact ⟨_, _, rfl⟩
theorem ite_total {x : Py α Unit} {f : Orb α → Orb α} (h : Total n x) : Total n (do let s ← self; if s.direct then x else upd f) := by
  intro s hs
  rw [self_bind]
  split
  · exact h s hs
  · exact ⟨_, _, rfl⟩
theorem afterKepEl_total : Total n (afterKepEl K) := ite_total (calculate_cartesian_total K)
theorem afterKep_total : Total n (afterKep K) := ite_total (calculate_cartesian_total K)
theorem afterCartEl_total : Total n (afterCartEl K) := ite_total (calculate_kepler_total K)
theorem afterCart_total : Total n (afterCart K) := ite_total (calculate_kepler_total K)
theorem upd_total {f : Orb α → Orb α} {y : Py α Unit} (hf : ∀ s, WFE n s → WFE n (f s)) (hy : Total n y) : Total n (do upd f; y) :=
  fun s hs => hy (f s) (hf s hs)

theorem set_kep_q (i : Fin 6) (v : Val α) : ErrQ K n (set_kep K i v) :=
  qGuardKep K <| qSelf K fun s hs => qLift K fun vs hvs => (upd_total
    (fun t ht => setKepCol_wfe ht (by simp [ht.1.kep, Val.spread_length hvs, hs.1.kep])) (afterKepEl_total K)).errQ K
theorem set_cart_q (i : Fin 6) (v : Val α) : ErrQ K n (set_cart K i v) :=
  qGuardCart K <| qSelf K fun s hs => qLift K fun vs hvs => (upd_total
    (fun t ht => setCartCol_wfe ht (by simp [ht.1.cart, Val.spread_length hvs, hs.1.cart])) (afterCartEl_total K)).errQ K
theorem set_kepler_q (v : Val6 α (Kep α)) : ErrQ K n (set_kepler K v) :=
  qGuardKep K <| qSelf K fun s hs => qLift K fun vs hvs => (upd_total
    (fun t ht => setKepCol_wfe ht (by simp [Val6.setter_length hvs, hs.1.kep])) (afterKep_total K)).errQ K
theorem set_cartesian_q (v : Val6 α (Cart α)) : ErrQ K n (set_cartesian K v) :=
  qGuardCart K <| qSelf K fun s hs => qLift K fun vs hvs => (upd_total
    (fun t ht => setCartCol_wfe ht (by simp [Val6.setter_length hvs, hs.1.cart])) (afterCart_total K)).errQ K
theorem set_r_q (v : Val6 α (Tri α)) : ErrQ K n (set_r K v) :=
  qGuardCart K <| qSelf K fun s hs => qLift K fun vs hvs => (upd_total
    (fun t ht => setCartCol_wfe ht (by simp [ht.1.cart, Val6.spread_length hvs, hs.1.cart])) (afterCart_total K)).errQ K
theorem set_v_q (v : Val6 α (Tri α)) : ErrQ K n (set_v K v) :=
  qGuardCart K <| qSelf K fun s hs => qLift K fun vs hvs => (upd_total
    (fun t ht => setCartCol_wfe ht (by simp [ht.1.cart, Val6.spread_length hvs, hs.1.cart])) (afterCart_total K)).errQ K
theorem setConv_q (deg : Bool) (f : α → α → α) (v : Val α) : ErrQ K n (setConv K deg f v) :=
  qRead K (.kep 1) fun _ => qLift K fun _ _ => set_kep_q K 5 _
theorem set_true_anomaly_q (v : Val α) : ErrQ K n (set_true_anomaly K v) := by
  refine qGuardKep K <| qSelf K fun s hs => ?_
  split
  · exact qThen K (set_kep_q K 5 v) (set_kep_sh K 5 v) (afterKepEl_total K)
  · exact qThen K (setConv_q K _ _ v) (setConv_sh K _ _ v) (afterKepEl_total K)
  · exact qThen K (setConv_q K _ _ v) (setConv_sh K _ _ v) (afterKepEl_total K)
theorem set_eccentric_anomaly_q (v : Val α) : ErrQ K n (set_eccentric_anomaly K v) := by
  refine qGuardKep K <| qSelf K fun s hs => ?_
  split
  · exact qThen K (set_kep_q K 5 v) (set_kep_sh K 5 v) (afterKepEl_total K)
  · exact qThen K (setConv_q K _ _ v) (setConv_sh K _ _ v) (afterKepEl_total K)
  · exact qThen K (setConv_q K _ _ v) (setConv_sh K _ _ v) (afterKepEl_total K)
theorem set_mean_anomaly_q (v : Val α) : ErrQ K n (set_mean_anomaly K v) := by
  refine qGuardKep K <| qSelf K fun s hs => ?_
  split
  · exact qThen K (set_kep_q K 5 v) (set_kep_sh K 5 v) (afterKepEl_total K)
  · exact qThen K (setConv_q K _ _ v) (setConv_sh K _ _ v) (afterKepEl_total K)
  · exact qThen K (setConv_q K _ _ v) (setConv_sh K _ _ v) (afterKepEl_total K)
theorem set_period_q (v : Val α) : ErrQ K n (set_period v) := ErrQ.raise K _
theorem set_mean_motion_q (v : Val α) : ErrQ K n (set_mean_motion K v) :=
  qGuardKep K <| qThen K (set_period_q K v) (Keeps.raise (Q := fun _ => True)) (afterKepEl_total K)
theorem set_velocity_q (v : Val α) : ErrQ K n (set_velocity K v) :=
  qGuardCart K <| qBind K (Keeps.upd (cartCheck_wfe K)) (fun s _ => OnlyQueries.cartCheck K s) fun _ _ =>
    qBind K (Keeps.upd (cartCheck_wfe K)) (fun s _ => OnlyQueries.cartCheck K s) fun _ _ => qSelf K fun s hs => qLift K fun vs hvs =>
      qThen K (set_v_q K _) (set_v_sh K _) (afterCartEl_total K)
theorem propagate_q (dt : Val α) : ErrQ K n (propagate K dt) :=
  qRead K .meanAnomaly fun M => qRead K .meanMotion fun m => qSelf K fun s _ => qLift K fun nd _ => qLift K fun Ms _ =>
    qThen K (set_mean_anomaly_q K _) (set_mean_anomaly_sh K _) (fun s hs => by
      rw [self_bind]
      split
      · exact calculate_cartesian_total K s hs
      · exact ⟨_, _, rfl⟩)
theorem get_anomaly_q (t : Anom) (s : Orb α) : OnlyQueries K s (get_anomaly K t s).2 := by
  cases t
  · exact OnlyQueries.read K s .trueAnomaly
  · exact OnlyQueries.read K s .eccentricAnomaly
  · exact OnlyQueries.read K s .meanAnomaly
theorem set_type_q (t : Option Anom) : ErrQ K n (set_type K t) := by
  cases t with
  | none => exact ErrQ.raise K _
  | some t =>
    refine qSelf K fun s hs => ?_
    split
    · exact Total.errQ K (fun s _ => ⟨_, _, rfl⟩)
    · exact qBind K (get_anomaly_sh K t) (fun s _ => get_anomaly_q K t s) fun x _ =>
        qThen K (set_kep_q K 5 _) (set_kep_sh K 5 _) (fun s _ => ⟨_, _, rfl⟩)

theorem calculate_cartesian_q (inds : Inds) : ErrQ K n (calculate_cartesian K inds) :=
  qRead K .num fun _ => qLift K fun _ _ => Total.errQ K fun s _ => ⟨_, _, rfl⟩
theorem calculate_kepler_q (inds : Inds) : ErrQ K n (calculate_kepler K inds) :=
  qRead K .num fun _ => qLift K fun _ _ => Total.errQ K fun s _ => ⟨_, _, rfl⟩
theorem qCheck {γ : Type} {f : Unit → Py α γ} (hf : ErrQ K n (f ())) : ErrQ K n (upd (kepCheck K) >>= f) :=
  qBind K (Keeps.upd (kepCheck_wfe K)) (fun s _ => OnlyQueries.kepCheck K s) fun _ _ => hf
theorem calc_true_anomaly_q (inds : Inds) : ErrQ K n (calc_true_anomaly K inds) := by
  refine qSelf K fun s hs => ?_
  split
  · exact Total.errQ K fun s _ => ⟨_, _, rfl⟩
  · exact qCheck K (ErrQ.raise K _)
theorem calc_mean_anomaly_q (inds : Inds) : ErrQ K n (calc_mean_anomaly K inds) := by
  refine qSelf K fun s hs => ?_
  split
  · exact Total.errQ K fun s _ => ⟨_, _, rfl⟩
  · exact qCheck K (ErrQ.raise K _)
theorem calc_eccentric_anomaly_q (inds : Inds) : ErrQ K n (calc_eccentric_anomaly K inds) := by
  refine qCheck K <| qSelf K fun s1 h1 => qLift K fun ps hp => ?_
  split
  · exact qCheck K <| qSelf K fun s2 _ => Total.errQ K fun s _ => ⟨_, _, rfl⟩
  · exact qCheck K <| qSelf K fun s2 _ => qLift K fun c _ => Total.errQ K fun s _ => ⟨_, _, rfl⟩
  · exact qLift K fun c _ => Total.errQ K fun s _ => ⟨_, _, rfl⟩
theorem next_q : ErrQ K n (next K) := by
  intro s hs e s' h
  cases hi : s.it with
  | none =>
    simp only [next, self_bind, hi] at h
    cases h
    exact OnlyQueries.refl K s
  | some k =>
    by_cases hk : k < n
    · rw [next_lt K hs.1 hi hk] at h; cases h
    · rw [next_stop K hs.1 hi (by omega)] at h; cases h
      exact OnlyQueries.refl K s
theorem delete_q (inds : Inds) : ErrQ K n (delete inds) := by
  intro s hs e s' h
  obtain ⟨l, hl, hn⟩ := hs.2
  rw [delete_run hs.1 hl hn] at h
  cases hp : inds.pos n with
  | ok ps => rw [hp] at h; cases h
  | error e' => rw [hp] at h; cases h; exact OnlyQueries.refl K s

/-! ### `update` -/

theorem writeCols_pos {C : Type} {const : α → C} {col : List α → Option C} {l l' : List C} {inds : Inds} {v : Val6 α C}
    (h : writeCols const col l inds v = .ok l') : ∃ ps, inds.pos l.length = .ok ps ∧ l'.length = l.length := by
  obtain ⟨ps, hp, h⟩ := ebind_ok h
  refine ⟨ps, hp, ?_⟩
  split at h
  · obtain ⟨c, -, h⟩ := ebind_ok h
    injection h with h
    rw [← h, writeAt_length]
  · obtain ⟨c, -, h⟩ := ebind_ok h
    injection h with h
    rw [← h, writeAt_length]

theorem updGuard_state (c k : Bool) (s : Orb α) : ((updGuard c k : Py α Unit) s).2 = s := by
  cases hk : s.kro <;> cases hc : s.cro <;> cases c <;> cases k <;>
    simp [updGuard, when, guardCart, guardKep, bind_assoc', self_bind, hk, hc, pure_bind', bind_run, Py.self, raise_run, pure_run]

theorem updKepRows_none {inds : Inds} {u : Fin 6 → Option (Val α)} : ∀ (is : List (Fin 6)), (∀ i ∈ is, u i = none) → ∀ s : Orb α,
    updKepRows inds u is s = (.ok (), s) := by
  intro is
  induction is with
  | nil => intro _ s; rfl
  | cons i is ih =>
    intro h s
    unfold updKepRows
    rw [h i (by simp)]
    exact ih (fun i hi => h i (by simp [hi])) s

theorem updCartRows_none {inds : Inds} {u : Fin 6 → Option (Val α)} : ∀ (is : List (Fin 6)), (∀ i ∈ is, u i = none) → ∀ s : Orb α,
    updCartRows inds u is s = (.ok (), s) := by
  intro is
  induction is with
  | nil => intro _ s; rfl
  | cons i is ih =>
    intro h s
    unfold updCartRows
    rw [h i (by simp)]
    exact ih (fun i hi => h i (by simp [hi])) s

theorem updKepRows_one {inds : Inds} {u : Fin 6 → Option (Val α)} : ∀ (is : List (Fin 6)), (is.filter fun i => (u i).isSome).length ≤ 1 →
    ∀ (s s' : Orb α) e, updKepRows inds u is s = (.error e, s') → s' = s := by
  intro is
  induction is with
  | nil => intro _ s s' e h; cases h
  | cons i is ih =>
    intro hl s s' e h
    unfold updKepRows at h
    cases hu : u i with
    | none =>
      rw [hu] at h
      rw [List.filter_cons_of_neg (by rw [hu]; simp)] at hl
      exact ih hl s s' e h
    | some v =>
      rw [hu] at h
      rw [List.filter_cons_of_pos (by rw [hu]; rfl), List.length_cons] at hl
      have h0 : (is.filter fun i => (u i).isSome) = [] := List.length_eq_zero_iff.mp (by omega)
      simp only [updKepRow, bind_assoc', self_bind] at h
      rw [lift_bind] at h
      cases hr : writeRow (fun k x => k.set i x) s.kep inds v with
      | error e => rw [hr] at h; cases h; rfl
      | ok k =>
        rw [hr] at h
        simp only [upd_bind] at h
        rw [updKepRows_none is (fun j hj => by
          have := List.filter_eq_nil_iff.mp h0 j hj
          simpa using this)] at h
        cases h

theorem updCartRows_one {inds : Inds} {u : Fin 6 → Option (Val α)} : ∀ (is : List (Fin 6)), (is.filter fun i => (u i).isSome).length ≤ 1 →
    ∀ (s s' : Orb α) e, updCartRows inds u is s = (.error e, s') → s' = s := by
  intro is
  induction is with
  | nil => intro _ s s' e h; cases h
  | cons i is ih =>
    intro hl s s' e h
    unfold updCartRows at h
    cases hu : u i with
    | none =>
      rw [hu] at h
      rw [List.filter_cons_of_neg (by rw [hu]; simp)] at hl
      exact ih hl s s' e h
    | some v =>
      rw [hu] at h
      rw [List.filter_cons_of_pos (by rw [hu]; rfl), List.length_cons] at hl
      have h0 : (is.filter fun i => (u i).isSome) = [] := List.length_eq_zero_iff.mp (by omega)
      simp only [updCartRow, bind_assoc', self_bind] at h
      rw [lift_bind] at h
      cases hr : writeRow (fun k x => k.set i x) s.cart inds v with
      | error e => rw [hr] at h; cases h; rfl
      | ok k =>
        rw [hr] at h
        simp only [upd_bind] at h
        rw [updCartRows_none is (fun j hj => by
          have := List.filter_eq_nil_iff.mp h0 j hj
          simpa using this)] at h
        cases h

theorem updKepEls_q {inds : Inds} {u : Upd α} (h1 : ((List.finRange 6).filter fun i => (u.kepEl i).isSome).length ≤ 1) :
    ErrQ K n (updKepEls K inds u) := by
  intro s hs e s' h
  unfold updKepEls at h
  split at h
  · rename_i hk
    obtain ⟨i, v, hi⟩ : ∃ i v, u.kepEl i = some v := by
      obtain ⟨i, hi⟩ := (up_iff u.kepEl).mp hk
      exact ⟨i, Option.ne_none_iff_exists'.mp hi⟩
    have hsh := updKepRows_sh inds u.kepEl (List.finRange 6) s hs
    rw [bind_run] at h
    rcases hx : updKepRows inds u.kepEl (List.finRange 6) s with ⟨e1 | b, s1⟩
    · rw [hx] at h; cases h
      rw [updKepRows_one _ h1 s _ e hx]
      exact OnlyQueries.refl K s
    · rw [hx] at h hsh
      obtain ⟨ps, hp⟩ := updKepRows_pos hi _ (List.mem_finRange i) s s1 b hs.1.kep hx
      obtain ⟨s2, h2, -⟩ := updAfterKep_run K hsh.1.1 hp
      have h' : updAfterKep K inds s1 = (.error e, s') := h
      rw [h2] at h'; cases h'
  · cases h

theorem updCartEls_q {inds : Inds} {u : Upd α} (h1 : ((List.finRange 6).filter fun i => (u.cartEl i).isSome).length ≤ 1) :
    ErrQ K n (updCartEls K inds u) := by
  intro s hs e s' h
  unfold updCartEls at h
  split at h
  · rename_i hk
    obtain ⟨i, v, hi⟩ : ∃ i v, u.cartEl i = some v := by
      obtain ⟨i, hi⟩ := (up_iff u.cartEl).mp hk
      exact ⟨i, Option.ne_none_iff_exists'.mp hi⟩
    have hsh := updCartRows_sh inds u.cartEl (List.finRange 6) s hs
    rw [bind_run] at h
    rcases hx : updCartRows inds u.cartEl (List.finRange 6) s with ⟨e1 | b, s1⟩
    · rw [hx] at h; cases h
      rw [updCartRows_one _ h1 s _ e hx]
      exact OnlyQueries.refl K s
    · rw [hx] at h hsh
      obtain ⟨ps, hp⟩ := updCartRows_pos hi _ (List.mem_finRange i) s s1 b hs.1.cart hx
      obtain ⟨s2, h2, -⟩ := updAfterCart_run K hsh.1.1 hp
      have h' : updAfterCart K inds s1 = (.error e, s') := h
      rw [h2] at h'; cases h'
  · cases h

theorem updM_q (inds : Inds) (v : Option (Val α)) : ErrQ K n (updM inds v) := by
  cases v with
  | none => exact Total.errQ K fun s _ => ⟨_, _, rfl⟩
  | some v =>
    refine qSelf K fun s hs => ?_
    split
    · exact ErrQ.raise K _
    · exact qLift K fun _ _ => Total.errQ K fun s _ => ⟨_, _, rfl⟩

theorem els_none {f : Fin 6 → Option (Val α)} (h : ((List.finRange 6).filter fun i => (f i).isSome).length = 0) :
    ((List.finRange 6).any fun i => (f i).isSome) = false := by
  rw [List.any_eq_false]
  exact fun i hi => List.filter_eq_nil_iff.mp (List.length_eq_zero_iff.mp h) i hi

theorem update_q (inds : Inds) (u : Upd α)
    (h : u.cartesian.isSome || u.kepler.isSome ||
      decide (u.m.toList.length + ((List.finRange 6).filter fun i => (u.kepEl i).isSome).length +
        ((List.finRange 6).filter fun i => (u.cartEl i).isSome).length ≤ 1)) : ErrQ K n (update K inds u) := by
  unfold update
  split
  · refine qGuardCart K <| qSelf K fun s hs => qLift K fun c hc => Total.errQ K fun t ht => ?_
    obtain ⟨ps, hp, hl⟩ := writeCols_pos hc
    rw [hs.1.cart] at hp hl
    obtain ⟨s', h, -⟩ := updAfterCart_run K (setCartCol_wfe ht hl).1 hp
    exact ⟨(), s', h⟩
  · refine qGuardKep K <| qSelf K fun s hs => qLift K fun c hc => Total.errQ K fun t ht => ?_
    obtain ⟨ps, hp, hl⟩ := writeCols_pos hc
    rw [hs.1.kep] at hp hl
    obtain ⟨s', h, -⟩ := updAfterKep_run K (setKepCol_wfe ht hl).1 hp
    exact ⟨(), s', h⟩
  · rename_i hc hk
    simp only [hc, hk, Option.isSome_none, Bool.false_or, decide_eq_true_eq] at h
    refine qBind K (updGuard_sh _ _) (fun s _ => by rw [updGuard_state]; exact OnlyQueries.refl K s) fun _ _ => ?_
    have tk : u.kepUp = false → Total n (updKepEls K inds u) := fun h s _ => by
      unfold updKepEls; rw [h]; exact ⟨_, _, rfl⟩
    have tc : u.cartUp = false → Total n (updCartEls K inds u) := fun h s _ => by
      unfold updCartEls; rw [h]; exact ⟨_, _, rfl⟩
    rcases hm : u.m with _ | m
    · refine qBind K (updM_sh inds none) (fun s _ => OnlyQueries.refl K s) fun _ _ => ?_
      by_cases h0 : ((List.finRange 6).filter fun i => (u.kepEl i).isSome).length = 0
      · exact qThen K (updCartEls_q K (by omega)) (updCartEls_sh K inds u) (tk (els_none h0))
      · refine qBind K (updCartEls_sh K inds u) (fun s _ => ?_) fun _ _ => updKepEls_q K (by omega)
        have : u.cartUp = false := els_none (by omega)
        unfold updCartEls
        rw [this]
        exact OnlyQueries.refl K s
    · rw [hm] at h
      simp only [Option.toList_some, List.length_singleton] at h
      refine qThen K (updM_q K inds _) (updM_sh inds _) fun s hs => ?_
      obtain ⟨b, s1, h1⟩ := tc (els_none (by omega)) s hs
      obtain ⟨b', s2, h2⟩ := tk (els_none (by omega)) s1 (by have := (updCartEls_sh K inds u s hs).1; rw [h1] at this; exact this)
      exact ⟨b', s2, by rw [bind_ok h1]; exact h2⟩

end

/-- the operations that do not store in several steps that can each raise: all but `add`, assigning `equinoctial`, and `update` with
several names -/
def Op.atomic : Op α → Bool
  | .add _ _ | .setEquinoctial _ => false
  | .update _ u => u.cartesian.isSome || u.kepler.isSome ||
      decide (u.m.toList.length + ((List.finRange 6).filter fun i => (u.kepEl i).isSome).length +
        ((List.finRange 6).filter fun i => (u.cartEl i).isSome).length ≤ 1)
  | _ => true

theorem run_q {n : Nat} (o : Op α) (ho : o.atomic = true) : ErrQ K n (o.run K) := by
  cases o with
  | read g => exact qRead K g fun _ => Total.errQ K fun s _ => ⟨_, _, rfl⟩
  | setKep i v => exact set_kep_q K i v
  | setCart i v => exact set_cart_q K i v
  | setKepler v => exact set_kepler_q K v
  | setCartesian v => exact set_cartesian_q K v
  | setR v => exact set_r_q K v
  | setV v => exact set_v_q K v
  | setTrue v => exact set_true_anomaly_q K v
  | setEcc v => exact set_eccentric_anomaly_q K v
  | setMean v => exact set_mean_anomaly_q K v
  | setPeriod v => exact set_period_q K v
  | setMeanMotion v => exact set_mean_motion_q K v
  | setVelocity v => exact set_velocity_q K v
  | setEquinoctial v => cases ho
  | setType t => exact set_type_q K t
  | propagate dt => exact propagate_q K dt
  | update inds u => exact update_q K inds u ho
  | add n u => cases ho
  | delete inds => exact delete_q K inds
  | allocate n => exact Total.errQ K fun s _ => ⟨_, _, rfl⟩
  | calcCartesian inds => exact calculate_cartesian_q K inds
  | calcKepler inds => exact calculate_kepler_q K inds
  | calcTrue inds => exact calc_true_anomaly_q K inds
  | calcMean inds => exact calc_mean_anomaly_q K inds
  | calcEcc inds => exact calc_eccentric_anomaly_q K inds
  | iter => exact Total.errQ K fun s _ => ⟨_, _, rfl⟩
  | next =>
    intro s hs e s' h
    have h' : (do let _ ← Orbit.next K; pure () : Py α Unit) s = (.error e, s') := h
    rw [bind_run] at h'
    rcases hx : Orbit.next K s with ⟨e1 | b, s1⟩
    · rw [hx] at h'; cases h'
      exact next_q K s hs _ _ hx
    · rw [hx] at h'; cases h'
  | writeM v => exact qSelf K fun s hs => qLift K fun _ _ => Total.errQ K fun s _ => ⟨_, _, rfl⟩
  | setFlags a b c d => exact Total.errQ K fun s _ => ⟨_, _, rfl⟩
  | setDegrees b => exact Total.errQ K fun s _ => ⟨_, _, rfl⟩
  | setGM G M0 => exact Total.errQ K fun s _ => ⟨_, _, rfl⟩
  | setOpts o => exact Total.errQ K fun s _ => ⟨_, _, rfl⟩

/-- C65, all modes: an operation that raises, other than `add`, assigning `equinoctial` and `update` with several names, has had no
effect but that of queries. -/
theorem c65 {n : Nat} (s : Orb α) (hs : OneEntryPerOrbit s n) (o : Op α) (ho : o.atomic = true) (e : PyErr)
    (h : (o.run K s).1 = .error e) : ∃ gs : List Read, (o.run K s).2 = exec K s (gs.map Op.read) :=
  run_q K o ho s hs.wfe e _ (Prod.ext h rfl)

theorem queries_core {s0 : Orb α} (hl : lazy s0 = false) : ∀ (gs : List Read) (s : Orb α), SameCore s0 s → SameCore s0 (exec K s (gs.map Op.read)) := by
  intro gs
  induction gs with
  | nil => exact fun s h => h
  | cons g gs ih =>
    intro s h
    rw [List.map_cons, exec_cons]
    refine ih _ ?_
    have := (read_co K hl g s h).1
    show SameCore s0 ((do let _ ← g.get K; pure ()) s : Except PyErr Unit × Orb α).2
    rw [bind_run]
    rcases hx : g.get K s with ⟨e | b, s'⟩ <;> (rw [hx] at this; exact this)

theorem queries_wfe {n : Nat} : ∀ (gs : List Read) (s : Orb α), WFE n s → WFE n (exec K s (gs.map Op.read)) := by
  intro gs
  induction gs with
  | nil => exact fun s h => h
  | cons g gs ih =>
    intro s h
    rw [List.map_cons, exec_cons]
    exact ih _ (((read_sh K g).bind fun _ _ => unit_sh) s h).1

/-- answers do not depend on the cached anomalies -/
theorem read_core {n : Nat} {s t : Orb α} (hs : WFE n s) (ht : WFE n t) (hl : lazy s = false) (h : SameCore s t) (g : Read) :
    (g.get K t).1 = (g.get K s).1 := by
  have hl' : lazy t = false := h.lazy.trans hl
  rw [read_fresh K hs, read_fresh K ht]
  have e1 : ∀ r : Orb α, lazy r = false → g.fresh K r = r := fun r hr => by
    unfold Read.fresh
    rw [kepCheck_direct K hr, cartCheck_direct K hr]
    cases g <;> first | rfl | exact cartCheck_direct K hr
  rw [e1 s hl, e1 t hl', h]
  cases g <;> rfl

/-- C65 without lazy updates (`direct_update`, or no automatic update): such an operation that raises leaves masses, elements,
settings and all answers of the object as they were. -/
theorem c65_direct {n : Nat} (s : Orb α) (hs : OneEntryPerOrbit s n) (hd : s.direct = true ∨ s.auto = false) (o : Op α)
    (ho : o.atomic = true) (e : PyErr) (h : (o.run K s).1 = .error e) :
    (o.run K s).2.kep = s.kep ∧ (o.run K s).2.cart = s.cart ∧ (o.run K s).2.m = s.m ∧ (o.run K s).2.settings = s.settings ∧
      (o.run K s).2.type = s.type ∧ ∀ g : Read, (g.get K (o.run K s).2).1 = (g.get K s).1 := by
  have hl : lazy s = false := by
    cases hz : lazy s with
    | false => rfl
    | true =>
      obtain ⟨h1, h2⟩ := lazy_iff.mp hz
      rcases hd with hd | hd
      · rw [h2] at hd; cases hd
      · rw [h1] at hd; cases hd
  obtain ⟨gs, hgs⟩ := c65 K s hs o ho e h
  have hc := queries_core K hl gs s (SameCore.refl s)
  have hw := queries_wfe K gs s hs.wfe
  rw [← hgs] at hc hw
  exact ⟨hc.kep, hc.cart, hc.m, by rw [hc]; rfl, hc.type, fun g => read_core K hs.wfe hw hl hc g⟩

/-- a guarded store: a check, a value, the store and a last step that does not raise -/
theorem store_same {n : Nat} {g : Py α Unit} {β : Type} {y : Orb α → Except PyErr β} {f : β → Orb α → Orb α} {z : Py α Unit} {s : Orb α}
    (hg : (g s).2 = s) (hz : ∀ b, y s = .ok b → WFE n (f b s)) (ht : Total n z) (e : PyErr)
    (h : ((do g; let s ← self; let b ← lift (y s); upd (f b); z : Py α Unit) s).1 = .error e) :
    ((do g; let s ← self; let b ← lift (y s); upd (f b); z : Py α Unit) s).2 = s := by
  rcases hgs : g s with ⟨e1 | b, s1⟩
  · rw [hgs] at hg
    rw [bind_err hgs]; exact hg
  · rw [hgs] at hg
    obtain rfl : s1 = s := hg
    rw [bind_ok hgs, self_bind, lift_bind] at h ⊢
    cases hy : y s1 with
    | error e' => rfl
    | ok b =>
      rw [hy] at h
      simp only [upd_bind] at h
      obtain ⟨c, s2, h2⟩ := ht _ (hz b hy)
      rw [h2] at h; cases h

/-- C65, all modes: an element or an element set that is assigned a value of the wrong size, or a read-only one, leaves the object
exactly as it was. -/
theorem c65_elements {n : Nat} (s : Orb α) (hs : OneEntryPerOrbit s n) (e : PyErr) :
    (∀ i v, (set_kep K i v s).1 = .error e → (set_kep K i v s).2 = s) ∧ (∀ i v, (set_cart K i v s).1 = .error e → (set_cart K i v s).2 = s) ∧
    (∀ v, (set_kepler K v s).1 = .error e → (set_kepler K v s).2 = s) ∧ (∀ v, (set_cartesian K v s).1 = .error e → (set_cartesian K v s).2 = s) ∧
    (∀ v, (set_r K v s).1 = .error e → (set_r K v s).2 = s) ∧ (∀ v, (set_v K v s).1 = .error e → (set_v K v s).2 = s) ∧
    ∀ inds, (delete inds s).1 = .error e → (delete inds s).2 = s := by
  have hw := hs.wfe
  refine ⟨fun i v h => ?_, fun i v h => ?_, fun v h => ?_, fun v h => ?_, fun v h => ?_, fun v h => ?_, fun inds h => ?_⟩
  · exact store_same (guardKep_state s) (fun b hb => setKepCol_wfe hw (by simp [Val.spread_length hb, hw.1.kep])) (afterKepEl_total K) e h
  · exact store_same (guardCart_state s) (fun b hb => setCartCol_wfe hw (by simp [Val.spread_length hb, hw.1.cart])) (afterCartEl_total K) e h
  · exact store_same (guardKep_state s) (fun b hb => setKepCol_wfe hw (by simp [Val6.setter_length hb, hw.1.kep])) (afterKep_total K) e h
  · exact store_same (guardCart_state s) (fun b hb => setCartCol_wfe hw (by simp [Val6.setter_length hb, hw.1.cart])) (afterCart_total K) e h
  · exact store_same (guardCart_state s) (fun b hb => setCartCol_wfe hw (by simp [Val6.spread_length hb, hw.1.cart])) (afterCart_total K) e h
  · exact store_same (guardCart_state s) (fun b hb => setCartCol_wfe hw (by simp [Val6.spread_length hb, hw.1.cart])) (afterCart_total K) e h
  · obtain ⟨l, hl, hn⟩ := hw.2
    rw [delete_run hw.1 hl hn] at h ⊢
    cases hp : inds.pos n with
    | ok ps => rw [hp] at h; cases h
    | error e' => rfl

/-! ## Case -/

/-- three orbits cannot be assigned two mean anomalies; in direct mode nothing changes -/
example (s : Orb α) (hs : OneEntryPerOrbit s 3) (hd : s.direct = true) (hk : s.kro = false) (ht : s.type = .tru) (x y : α) :
    (∃ e, ((Op.setMean (.vec [x, y])).run K s).1 = .error e) ∧
      (get_kepler K ((Op.setMean (.vec [x, y])).run K s).2).1 = (get_kepler K s).1 := by
  have h : ∃ e, ((Op.setMean (.vec [x, y])).run K s).1 = .error e := by
    refine ⟨.typeError, ?_⟩
    show (set_mean_anomaly K (.vec [x, y]) s).1 = _
    unfold set_mean_anomaly
    rw [bind_ok (guardKep_ok hk), self_bind, ht]
    simp only []
    unfold setConv
    simp only [bind_assoc']
    have hl : lazy s = false := lazy_direct hd
    have hr : get_kep K 1 s = (.ok (s.kep.map (·.get 1)), s) := by
      show (Except.ok ((kepCheck K s).kep.map (·.get 1)), kepCheck K s) = _
      rw [kepCheck_direct K hl]
    rw [bind_ok hr, bind_assoc', lift_bind]
    match hkk : s.kep, hs.kepler with
    | [a, b, c], _ => rfl
  obtain ⟨e, he⟩ := h
  exact ⟨⟨e, he⟩, (c65_direct K s hs (.inl hd) _ rfl e he).2.2.2.2.2 .kepler⟩

end Orbit
end Pyorb
