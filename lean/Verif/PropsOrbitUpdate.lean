import Verif.PropsOrbitCopy

/-!
# `update` (C38)
-/

set_option linter.unusedSimpArgs false
set_option linter.unusedVariables false

namespace Pyorb
namespace Orbit
open Py
variable {α : Type} (K : Kern α)

/-! ## What it means to write rows or columns at positions (specification) -/

/-- entry `q` of `ps` is the last occurrence of `p`; numpy keeps the last of several values written to one position -/
def LastAt (ps : List Nat) (q p : Nat) : Prop := ps[q]? = some p ∧ ∀ q', q < q' → ps[q']? ≠ some p

/-- `new` is `old` with the values `vs` written at the positions `ps` -/
structure Written {β : Type} (ps : List Nat) (vs : List β) (old new : List β) : Prop where
  length : new.length = old.length
  others : ∀ j, j ∉ ps → new[j]? = old[j]?
  values : ∀ q p, LastAt ps q p → new[p]? = vs[q]?

/-- `new` is `old` with the values `named i` written in row `i` at the positions `ps`; rows that are not named and positions
that are not selected keep their values -/
structure RowsWritten {C : Type} (get : C → Fin 6 → α) (ps : List Nat) (named : Fin 6 → Option (List α)) (old new : List C) : Prop where
  length : new.length = old.length
  others : ∀ j, j ∉ ps → new[j]? = old[j]?
  rows : ∀ (j : Nat) (i : Fin 6), named i = none → (new[j]?).map (get · i) = (old[j]?).map (get · i)
  values : ∀ (i : Fin 6) vs q p, named i = some vs → LastAt ps q p → (new[p]?).map (get · i) = vs[q]?

/-! ## Lemmas on `writeAt` -/

theorem writeAt_last {β γ : Type} (w : β → γ → β) (hw : ∀ b x y, w (w b x) y = w b y) :
    ∀ (ps : List Nat) (vs : List γ) (l : List β) (q p : Nat) (v : γ), LastAt ps q p → vs[q]? = some v →
      (writeAt w l ps vs)[p]? = (l[p]?).map (w · v) := by
  intro ps
  induction ps with
  | nil => intro vs l q p v h _; simp [LastAt] at h
  | cons p0 ps ih =>
    intro vs l q p v h hv
    cases vs with
    | nil => simp at hv
    | cons v0 vs =>
      have hstep : writeAt w l (p0 :: ps) (v0 :: vs) = writeAt w (l.modify p0 (fun b => w b v0)) ps vs := by
        simp [writeAt]
      rw [hstep]
      cases q with
      | zero =>
        have h0 : p0 = p := by simpa using h.1
        have hv0 : v0 = v := by simpa using hv
        subst h0 hv0
        rw [writeAt_getElem? _ _ _ _ _ (fun hm => ?_), List.getElem?_modify]
        · simp
        · obtain ⟨q', hq'⟩ := List.getElem?_of_mem hm
          exact h.2 (q' + 1) (by omega) (by simpa using hq')
      | succ q =>
        have h' : LastAt ps q p := ⟨by simpa using h.1, fun q' hq' => by simpa using h.2 (q' + 1) (by omega)⟩
        rw [ih vs _ q p v h' (by simpa using hv), List.getElem?_modify]
        by_cases hp : p0 = p
        · subst hp
          simp only [if_pos]
          cases l[p0]? with
          | none => rfl
          | some b => simp [hw]
        · simp [hp]

theorem writeAt_written {β : Type} (l : List β) (ps : List Nat) (vs : List β) (hps : ∀ p ∈ ps, p < l.length) (hl : vs.length = ps.length) :
    Written ps vs l (writeAt (fun _ x => x) l ps vs) := by
  refine ⟨writeAt_length _ _ _ _, fun j hj => writeAt_getElem? _ _ _ _ _ hj, fun q p h => ?_⟩
  have hq : q < ps.length := (List.getElem?_eq_some_iff.mp h.1).1
  have hv : vs[q]? = some (vs[q]'(by omega)) := List.getElem?_eq_getElem (by omega)
  rw [writeAt_last (fun _ x => x) (fun _ _ _ => rfl) ps vs l q p _ h hv, hv]
  have hp : p < l.length := hps p (List.mem_of_getElem? h.1)
  simp [hp]

section rows
variable {C : Type} {get : C → Fin 6 → α} {set : C → Fin 6 → α → C}

theorem rows_refl (ps : List Nat) (l : List C) : RowsWritten get ps (fun _ => none) l l :=
  ⟨rfl, fun _ _ => rfl, fun _ _ _ => rfl, fun _ _ _ _ h => by cases h⟩

theorem row_written (hgs : ∀ c i x i', get (set c i x) i' = if i' = i then x else get c i')
    (hss : ∀ c i x y, set (set c i x) i y = set c i y) (i : Fin 6) (l : List C) (ps : List Nat) (vs : List α) (hps : ∀ p ∈ ps, p < l.length)
    (hl : vs.length = ps.length) :
    RowsWritten get ps (fun i' => if i' = i then some vs else none) l (writeAt (fun c x => set c i x) l ps vs) := by
  have hrow : ∀ (ps : List Nat) (vs : List α) (l : List C) (j : Nat) (i' : Fin 6), i' ≠ i →
      ((writeAt (fun c x => set c i x) l ps vs)[j]?).map (get · i') = (l[j]?).map (get · i') := by
    intro ps
    induction ps with
    | nil => intros; rfl
    | cons p ps ih =>
      intro vs l j i' hi
      cases vs with
      | nil => rfl
      | cons v vs =>
        have hstep : writeAt (fun c x => set c i x) l (p :: ps) (v :: vs) =
            writeAt (fun c x => set c i x) (l.modify p (fun b => set b i v)) ps vs := by simp [writeAt]
        rw [hstep, ih _ _ _ _ hi, List.getElem?_modify]
        cases l[j]? with
        | none => simp
        | some c => by_cases hp : p = j <;> simp [hp, hgs, hi]
  refine ⟨writeAt_length _ _ _ _, fun j hj => writeAt_getElem? _ _ _ _ _ hj, fun j i' hi => ?_, fun i' vs' q p hi h => ?_⟩
  · have hi' : i' ≠ i := by intro e; simp [e] at hi
    exact hrow ps vs l j i' hi'
  · by_cases hi' : i' = i
    · rw [if_pos hi'] at hi
      injection hi with hi
      subst hi hi'
      have hq : q < ps.length := (List.getElem?_eq_some_iff.mp h.1).1
      have hv : vs[q]? = some (vs[q]'(by omega)) := List.getElem?_eq_getElem (by omega)
      rw [writeAt_last _ (fun b x y => hss b i' x y) ps vs l q p _ h hv, hv]
      have hp : p < l.length := hps p (List.mem_of_getElem? h.1)
      simp [hp, hgs]
    · rw [if_neg hi'] at hi; cases hi

theorem rows_trans {ps : List Nat} {a b : Fin 6 → Option (List α)} (hd : ∀ i, a i = none ∨ b i = none) {l1 l2 l3 : List C}
    (h1 : RowsWritten get ps a l1 l2) (h2 : RowsWritten get ps b l2 l3) :
    RowsWritten get ps (fun i => (a i).or (b i)) l1 l3 := by
  refine ⟨h2.length.trans h1.length, fun j hj => (h2.others j hj).trans (h1.others j hj), fun j i hi => ?_, fun i vs q p hi h => ?_⟩
  · cases ha : a i with
    | some x => rw [ha] at hi; cases hi
    | none =>
      rw [ha] at hi
      exact (h2.rows j i hi).trans (h1.rows j i ha)
  · cases ha : a i with
    | some x =>
      rw [ha] at hi
      have hb : b i = none := by rcases hd i with h | h
                                 · rw [ha] at h; cases h
                                 · exact h
      injection hi with hi
      subst hi
      exact (h2.rows p i hb).trans (h1.values i x q p ha h)
    | none =>
      rw [ha] at hi
      exact h2.values i vs q p hi h

end rows

theorem Kep.get_set (k : Kep α) (i : Fin 6) (x : α) (i' : Fin 6) : (k.set i x).get i' = if i' = i then x else k.get i' := by
  fin_cases i <;> fin_cases i' <;> rfl
theorem Kep.set_set (k : Kep α) (i : Fin 6) (x y : α) : (k.set i x).set i y = k.set i y := by fin_cases i <;> rfl
theorem Cart.get_set (k : Cart α) (i : Fin 6) (x : α) (i' : Fin 6) : (k.set i x).get i' = if i' = i then x else k.get i' := by
  fin_cases i <;> fin_cases i' <;> rfl
theorem Cart.set_set (k : Cart α) (i : Fin 6) (x y : α) : (k.set i x).set i y = k.set i y := by fin_cases i <;> rfl

/-! ## The steps of `update` -/

/-- values of the named rows, spread over `k` positions -/
def spreadAll (k : Nat) (u : Fin 6 → Option (Val α)) (i : Fin 6) : Option (List α) :=
  (u i).bind fun v => match v.spread k with | .ok vs => some vs | .error _ => none

section steps
variable {n : Nat}

theorem writeRow_ok {C : Type} {set : C → α → C} {l l' : List C} {inds : Inds} {v : Val α} (h : writeRow set l inds v = .ok l') :
    ∃ ps vs, inds.pos l.length = .ok ps ∧ v.spread ps.length = .ok vs ∧ l' = writeAt set l ps vs := by
  obtain ⟨ps, h1, h2⟩ := ebind_ok h
  obtain ⟨vs, h3, h4⟩ := ebind_ok h2
  injection h4 with h4
  exact ⟨ps, vs, h1, h3, h4.symm⟩

theorem updKepRows_ok {inds : Inds} {u : Fin 6 → Option (Val α)} {ps : List Nat} (hp : inds.pos n = .ok ps) :
    ∀ (is : List (Fin 6)), is.Nodup → ∀ (s s' : Orb α) (b : Unit), s.kep.length = n → updKepRows inds u is s = (.ok b, s') →
      ∃ ks, s' = { s with kep := ks } ∧ RowsWritten Kep.get ps (fun i => if i ∈ is then spreadAll ps.length u i else none) s.kep ks ∧
        ∀ i ∈ is, (u i).isSome → (spreadAll ps.length u i).isSome := by
  intro is
  induction is with
  | nil =>
    intro _ s s' b _ h
    cases h
    exact ⟨s.kep, rfl, by simpa using rows_refl ps s.kep, by simp⟩
  | cons i is ih =>
    intro hnd s s' b hk h
    obtain ⟨hni, hnd⟩ := List.nodup_cons.mp hnd
    unfold updKepRows at h
    cases hu : u i with
    | none =>
      rw [hu] at h
      have h' : updKepRows inds u is s = (.ok b, s') := h
      obtain ⟨ks, h1, h2, h3⟩ := ih hnd s s' b hk h'
      refine ⟨ks, h1, ?_, ?_⟩
      · have : (fun i' => if i' ∈ i :: is then spreadAll ps.length u i' else none) = fun i' => if i' ∈ is then spreadAll ps.length u i' else none := by
          funext i'
          by_cases he : i' = i
          · subst he
            simp [hni, spreadAll, hu]
          · simp [he]
        rw [this]; exact h2
      · intro i' hi' hs
        rcases List.mem_cons.mp hi' with rfl | hm
        · rw [hu] at hs; cases hs
        · exact h3 i' hm hs
    | some v =>
      rw [hu] at h
      simp only [updKepRow, bind_assoc', self_bind] at h
      rw [lift_bind] at h
      cases hr : writeRow (fun k x => k.set i x) s.kep inds v with
      | error e => rw [hr] at h; cases h
      | ok k1 =>
        rw [hr] at h
        simp only [upd_bind] at h
        obtain ⟨ps', vs, hp', hv, rfl⟩ := writeRow_ok hr
        rw [hk, hp] at hp'
        injection hp' with hp'
        subst hp'
        obtain ⟨ks, h1, h2, h3⟩ := ih hnd _ s' b (by simp [writeAt_length, hk]) h
        have hrow := row_written (get := Kep.get) (set := Kep.set) Kep.get_set Kep.set_set i s.kep ps vs (by rw [hk]; exact pos_lt hp)
          (Val.spread_length hv)
        have hsp : spreadAll ps.length u i = some vs := by simp [spreadAll, hu, hv]
        have htr := rows_trans (a := fun i' => if i' = i then some vs else none)
          (b := fun i' => if i' ∈ is then spreadAll ps.length u i' else none) (fun i' => by
            by_cases he : i' = i
            · right; simp [he, hni]
            · left; simp [he]) hrow h2
        refine ⟨ks, h1, ?_, ?_⟩
        · have : (fun i' => if i' ∈ i :: is then spreadAll ps.length u i' else none) =
              fun i' => ((if i' = i then some vs else none : Option (List α)).or (if i' ∈ is then spreadAll ps.length u i' else none)) := by
            funext i'
            by_cases he : i' = i
            · subst he; simp [hsp]
            · simp [he]
          rw [this]; exact htr
        · intro i' hi' hs
          rcases List.mem_cons.mp hi' with rfl | hm
          · rw [hsp]; rfl
          · exact h3 i' hm hs

theorem updCartRows_ok {inds : Inds} {u : Fin 6 → Option (Val α)} {ps : List Nat} (hp : inds.pos n = .ok ps) :
    ∀ (is : List (Fin 6)), is.Nodup → ∀ (s s' : Orb α) (b : Unit), s.cart.length = n → updCartRows inds u is s = (.ok b, s') →
      ∃ ks, s' = { s with cart := ks } ∧ RowsWritten Cart.get ps (fun i => if i ∈ is then spreadAll ps.length u i else none) s.cart ks ∧
        ∀ i ∈ is, (u i).isSome → (spreadAll ps.length u i).isSome := by
  intro is
  induction is with
  | nil =>
    intro _ s s' b _ h
    cases h
    exact ⟨s.cart, rfl, by simpa using rows_refl ps s.cart, by simp⟩
  | cons i is ih =>
    intro hnd s s' b hk h
    obtain ⟨hni, hnd⟩ := List.nodup_cons.mp hnd
    unfold updCartRows at h
    cases hu : u i with
    | none =>
      rw [hu] at h
      have h' : updCartRows inds u is s = (.ok b, s') := h
      obtain ⟨ks, h1, h2, h3⟩ := ih hnd s s' b hk h'
      refine ⟨ks, h1, ?_, ?_⟩
      · have : (fun i' => if i' ∈ i :: is then spreadAll ps.length u i' else none) = fun i' => if i' ∈ is then spreadAll ps.length u i' else none := by
          funext i'
          by_cases he : i' = i
          · subst he
            simp [hni, spreadAll, hu]
          · simp [he]
        rw [this]; exact h2
      · intro i' hi' hs
        rcases List.mem_cons.mp hi' with rfl | hm
        · rw [hu] at hs; cases hs
        · exact h3 i' hm hs
    | some v =>
      rw [hu] at h
      simp only [updCartRow, bind_assoc', self_bind] at h
      rw [lift_bind] at h
      cases hr : writeRow (fun k x => k.set i x) s.cart inds v with
      | error e => rw [hr] at h; cases h
      | ok k1 =>
        rw [hr] at h
        simp only [upd_bind] at h
        obtain ⟨ps', vs, hp', hv, rfl⟩ := writeRow_ok hr
        rw [hk, hp] at hp'
        injection hp' with hp'
        subst hp'
        obtain ⟨ks, h1, h2, h3⟩ := ih hnd _ s' b (by simp [writeAt_length, hk]) h
        have hrow := row_written (get := Cart.get) (set := Cart.set) Cart.get_set Cart.set_set i s.cart ps vs (by rw [hk]; exact pos_lt hp)
          (Val.spread_length hv)
        have hsp : spreadAll ps.length u i = some vs := by simp [spreadAll, hu, hv]
        have htr := rows_trans (a := fun i' => if i' = i then some vs else none)
          (b := fun i' => if i' ∈ is then spreadAll ps.length u i' else none) (fun i' => by
            by_cases he : i' = i
            · right; simp [he, hni]
            · left; simp [he]) hrow h2
        refine ⟨ks, h1, ?_, ?_⟩
        · have : (fun i' => if i' ∈ i :: is then spreadAll ps.length u i' else none) =
              fun i' => ((if i' = i then some vs else none : Option (List α)).or (if i' ∈ is then spreadAll ps.length u i' else none)) := by
            funext i'
            by_cases he : i' = i
            · subst he; simp [hsp]
            · simp [he]
          rw [this]; exact htr
        · intro i' hi' hs
          rcases List.mem_cons.mp hi' with rfl | hm
          · rw [hsp]; rfl
          · exact h3 i' hm hs

end steps

/-! ## What follows the write -/

/-- The Cartesian side after Kepler elements were written (`t`: object with the new elements, `s'`: result).  In direct mode
the state of every orbit with complete elements is recalculated; in lazy mode the selected orbits are marked. -/
structure CartFollows (ps : List Nat) (t s' : Orb α) : Prop where
  direct : t.direct = true → ∀ (j : Nat) (k : Kep α) (c : Cart α) (m : α), t.kep[j]? = some k → t.cart[j]? = some c → t.m[j]? = some m →
    s'.cart[j]? = some (if k.any K.isnan then c else cartOfKep K t.type t.opts t.degrees (K.mu t.G t.M0 m) k)
  lazy : t.direct = false → s'.cart = t.cart ∧ Written ps (ps.map fun _ => true) t.kepCalc s'.kepCalc ∧
    Written ps (ps.map fun _ => false) t.cartCalc s'.cartCalc
  rest : s' = { t with cart := s'.cart, tA := s'.tA, cartCalc := s'.cartCalc, kepCalc := s'.kepCalc }

/-- The Kepler side after Cartesian elements were written, see `CartFollows`. -/
structure KepFollows (ps : List Nat) (t s' : Orb α) : Prop where
  direct : t.direct = true → ∀ (j : Nat) (k : Kep α) (c : Cart α) (m : α), t.kep[j]? = some k → t.cart[j]? = some c → t.m[j]? = some m →
    s'.kep[j]? = some (if c.any K.isnan then k else kepOfCart K t.type t.degrees (K.mu t.G t.M0 m) c)
  lazy : t.direct = false → s'.kep = t.kep ∧ Written ps (ps.map fun _ => false) t.kepCalc s'.kepCalc ∧
    Written ps (ps.map fun _ => true) t.cartCalc s'.cartCalc
  rest : s' = { t with kep := s'.kep, cartCalc := s'.cartCalc, kepCalc := s'.kepCalc }

theorem recalcCart_getElem? {n : Nat} {t : Orb α} (hw : WF n t) {j : Nat} {k : Kep α} {c : Cart α} {m : α} (hk : t.kep[j]? = some k)
    (hc : t.cart[j]? = some c) (hm : t.m[j]? = some m) :
    (recalcCart K (kepOk K t) t).cart[j]? =
      some (if k.any K.isnan then c else cartOfKep K t.type t.opts t.degrees (K.mu t.G t.M0 m) k) := by
  have hj : j < t.kep.length := (List.getElem?_eq_some_iff.mp hk).1
  have hka : kepAt K t j = k := kepAt_of K hk
  have hmu : muAt K t j = K.mu t.G t.M0 m := by simp [muAt, List.getD_eq_getElem?_getD, hm]
  show (t.cart.mapIdx _)[j]? = _
  rw [List.getElem?_mapIdx, hc]
  simp only [Option.map_some, kepOk, hka, hj, hmu, decide_true, Bool.true_and]
  cases k.any K.isnan <;> rfl

theorem recalcKep_getElem? {n : Nat} {t : Orb α} (hw : WF n t) {j : Nat} {k : Kep α} {c : Cart α} {m : α} (hk : t.kep[j]? = some k)
    (hc : t.cart[j]? = some c) (hm : t.m[j]? = some m) :
    (recalcKep K (cartOk K t) t).kep[j]? =
      some (if c.any K.isnan then k else kepOfCart K t.type t.degrees (K.mu t.G t.M0 m) c) := by
  have hj : j < t.cart.length := (List.getElem?_eq_some_iff.mp hc).1
  have hka : cartAt K t j = c := cartAt_of K hc
  have hmu : muAt K t j = K.mu t.G t.M0 m := by simp [muAt, List.getD_eq_getElem?_getD, hm]
  show (t.kep.mapIdx _)[j]? = _
  rw [List.getElem?_mapIdx, hk]
  simp only [Option.map_some, cartOk, hka, hj, hmu, decide_true, Bool.true_and]
  cases c.any K.isnan <;> rfl

theorem writeFlags_run {n : Nat} {l : List Bool} (hl : l.length = n) {inds : Inds} {ps : List Nat} (hp : inds.pos n = .ok ps) (b : Bool) :
    ∃ l', writeFlags l inds b = .ok l' ∧ Written ps (ps.map fun _ => b) l l' := by
  refine ⟨writeAt (fun _ b => b) l ps (ps.map fun _ => b), ?_, writeAt_written l ps _ (by rw [hl]; exact pos_lt hp) (by simp)⟩
  unfold writeFlags
  rw [hl, hp]
  rfl

theorem updAfterKep_run {n : Nat} {t : Orb α} (hw : WF n t) {inds : Inds} {ps : List Nat} (hp : inds.pos n = .ok ps) :
    ∃ s', updAfterKep K inds t = (.ok (), s') ∧ CartFollows K ps t s' := by
  unfold updAfterKep
  rw [self_bind]
  by_cases hd : t.direct = true
  · rw [if_pos hd]
    refine ⟨_, calculate_cartesian_direct K hw (lazy_direct hd), fun _ j k c m hk hc hm => recalcCart_getElem? K hw hk hc hm,
      fun h => ?_, rfl⟩
    rw [hd] at h; cases h
  · rw [if_neg hd]
    obtain ⟨f1, h1, w1⟩ := writeFlags_run hw.kepCalc hp true
    obtain ⟨f2, h2, w2⟩ := writeFlags_run hw.cartCalc hp false
    refine ⟨{ t with kepCalc := f1, cartCalc := f2 }, ?_, fun h => absurd h hd, fun _ => ⟨rfl, w1, w2⟩, rfl⟩
    simp only [markFlags, self_bind, h1, liftOk_bind, upd_bind, h2, upd_run]

theorem updAfterCart_run {n : Nat} {t : Orb α} (hw : WF n t) {inds : Inds} {ps : List Nat} (hp : inds.pos n = .ok ps) :
    ∃ s', updAfterCart K inds t = (.ok (), s') ∧ KepFollows K ps t s' := by
  unfold updAfterCart
  rw [self_bind]
  by_cases hd : t.direct = true
  · rw [if_pos hd]
    refine ⟨_, calculate_kepler_direct K hw (lazy_direct hd), fun _ j k c m hk hc hm => recalcKep_getElem? K hw hk hc hm,
      fun h => ?_, rfl⟩
    rw [hd] at h; cases h
  · rw [if_neg hd]
    obtain ⟨f1, h1, w1⟩ := writeFlags_run hw.kepCalc hp false
    obtain ⟨f2, h2, w2⟩ := writeFlags_run hw.cartCalc hp true
    refine ⟨{ t with kepCalc := f1, cartCalc := f2 }, ?_, fun h => absurd h hd, fun _ => ⟨rfl, w1, w2⟩, rfl⟩
    simp only [markFlags, self_bind, h1, liftOk_bind, upd_bind, h2, upd_run]

/-! ## C38: successful updates -/

/-- Columns written by a six-row value at `ps`: an integer index takes a 1-d value as the column, every other index
broadcasts. -/
def colsOf {C : Type} (const : α → C) (col : List α → Option C) (inds : Inds) (ps : List Nat) (v : Val6 α C) : Except PyErr (List C) :=
  if inds.isInt then (v.one const col).map fun c => [c] else v.spread const ps.length

theorem isInt_pos {n : Nat} {inds : Inds} {ps : List Nat} (hi : inds.isInt = true) (hp : inds.pos n = .ok ps) : ps.length = 1 := by
  cases inds with
  | int i =>
    simp only [Inds.pos] at hp
    cases hj : pyIndex n i with
    | none => rw [hj] at hp; cases hp
    | some j => rw [hj] at hp; cases hp; rfl
  | _ => cases hi

theorem writeCols_ok {C : Type} {const : α → C} {col : List α → Option C} {l l' : List C} {n : Nat} (hl : l.length = n) {inds : Inds}
    {v : Val6 α C} (h : writeCols const col l inds v = .ok l') :
    ∃ ps cs, inds.pos n = .ok ps ∧ colsOf const col inds ps v = .ok cs ∧ Written ps cs l l' := by
  obtain ⟨ps, h1, h2⟩ := ebind_ok h
  rw [hl] at h1
  have hlt := pos_lt h1
  rw [← hl] at hlt
  by_cases hi : inds.isInt = true
  · rw [if_pos hi] at h2
    obtain ⟨c, h3, h4⟩ := ebind_ok h2
    injection h4 with h4
    refine ⟨ps, [c], h1, by rw [colsOf, if_pos hi, h3]; rfl, ?_⟩
    rw [← h4]
    exact writeAt_written l ps [c] hlt (by rw [isInt_pos hi h1]; rfl)
  · rw [if_neg hi] at h2
    obtain ⟨cs, h3, h4⟩ := ebind_ok h2
    injection h4 with h4
    refine ⟨ps, cs, h1, by rw [colsOf, if_neg hi, h3], ?_⟩
    rw [← h4]
    exact writeAt_written l ps cs hlt (Val6.spread_length h3)

theorem guard_ok {c : Bool} {e : PyErr} {s s' : Orb α} {b : Unit} (h : (if c then raise e else pure () : Py α Unit) s = (.ok b, s')) :
    c = false ∧ s' = s := by
  cases c
  · cases h; exact ⟨rfl, rfl⟩
  · cases h

/-- an update with keyword `kepler` that returns, in terms of the model's selection and columns -/
theorem update_kepler_ok {n : Nat} (s s' : Orb α) (hs : OneEntryPerOrbit s n) (inds : Inds) (u : Upd α) (v : Val6 α (Kep α))
    (hc : u.cartesian = none) (hk : u.kepler = some v) (h : update K inds u s = (.ok (), s')) :
    s.kro = false ∧ ∃ ps cs ks, inds.pos n = .ok ps ∧ colsOf Kep.const Kep.ofList inds ps v = .ok cs ∧ Written ps cs s.kep ks ∧
      CartFollows K ps { s with kep := ks } s' := by
  have hw := hs.wfe.1
  unfold update at h
  rw [hc, hk] at h
  simp only at h
  rw [bind_run] at h
  rcases hg : (guardKep : Py α Unit) s with ⟨e | b, s1⟩
  · rw [hg] at h; cases h
  · rw [hg] at h
    obtain ⟨h0, rfl⟩ := guard_ok (by simpa [guardKep] using hg)
    refine ⟨h0, ?_⟩
    simp only [self_bind] at h
    rw [lift_bind] at h
    cases hr : writeCols Kep.const Kep.ofList s1.kep inds v with
    | error e => rw [hr] at h; cases h
    | ok ks =>
      rw [hr] at h
      simp only [upd_bind] at h
      obtain ⟨ps, cs, hp, hcs, hwr⟩ := writeCols_ok hw.kep hr
      have hw' : WF n { s1 with kep := ks } := ⟨hw.m, hw.cart, by rw [hwr.length]; exact hw.kep, hw.tA, hw.mA, hw.cartCalc, hw.kepCalc⟩
      obtain ⟨s2, h2, hf⟩ := updAfterKep_run K hw' hp
      rw [h2] at h
      cases h
      exact ⟨ps, cs, ks, hp, hcs, hwr, hf⟩

/-- an update with keyword `cartesian` that returns, in terms of the model's selection and columns -/
theorem update_cartesian_ok {n : Nat} (s s' : Orb α) (hs : OneEntryPerOrbit s n) (inds : Inds) (u : Upd α) (v : Val6 α (Cart α))
    (hc : u.cartesian = some v) (h : update K inds u s = (.ok (), s')) :
    s.cro = false ∧ ∃ ps cs ks, inds.pos n = .ok ps ∧ colsOf Cart.const Cart.ofList inds ps v = .ok cs ∧ Written ps cs s.cart ks ∧
      KepFollows K ps { s with cart := ks } s' := by
  have hw := hs.wfe.1
  unfold update at h
  rw [hc] at h
  simp only at h
  rw [bind_run] at h
  rcases hg : (guardCart : Py α Unit) s with ⟨e | b, s1⟩
  · rw [hg] at h; cases h
  · rw [hg] at h
    obtain ⟨h0, rfl⟩ := guard_ok (by simpa [guardCart] using hg)
    refine ⟨h0, ?_⟩
    simp only [self_bind] at h
    rw [lift_bind] at h
    cases hr : writeCols Cart.const Cart.ofList s1.cart inds v with
    | error e => rw [hr] at h; cases h
    | ok ks =>
      rw [hr] at h
      simp only [upd_bind] at h
      obtain ⟨ps, cs, hp, hcs, hwr⟩ := writeCols_ok hw.cart hr
      have hw' : WF n { s1 with cart := ks } := ⟨hw.m, by rw [hwr.length]; exact hw.cart, hw.kep, hw.tA, hw.mA, hw.cartCalc, hw.kepCalc⟩
      obtain ⟨s2, h2, hf⟩ := updAfterCart_run K hw' hp
      rw [h2] at h
      cases h
      exact ⟨ps, cs, ks, hp, hcs, hwr, hf⟩

theorem updGuard_ok {cu ku : Bool} {s s' : Orb α} {b : Unit} (h : updGuard cu ku s = (.ok b, s')) :
    s' = s ∧ (cu = true → s.cro = false) ∧ (ku = true → s.kro = false) ∧ (cu && ku) = false := by
  unfold updGuard at h
  cases hcu : cu <;> cases hku : ku <;> rw [hcu, hku] at h
  · cases h; exact ⟨rfl, by simp, by simp, rfl⟩
  · rw [bind_run] at h
    have e1 : when false (guardCart : Py α Unit) s = (.ok (), s) := rfl
    rw [e1] at h
    simp only at h
    rw [bind_run] at h
    rcases hg : when true (guardKep : Py α Unit) s with ⟨e | b', s1⟩
    · rw [hg] at h; cases h
    · rw [hg] at h
      obtain ⟨h0, rfl⟩ := guard_ok (by simpa [guardKep, when] using hg)
      cases h
      exact ⟨rfl, by simp, fun _ => h0, rfl⟩
  · rw [bind_run] at h
    rcases hg : when true (guardCart : Py α Unit) s with ⟨e | b', s1⟩
    · rw [hg] at h; cases h
    · rw [hg] at h
      obtain ⟨h0, rfl⟩ := guard_ok (by simpa [guardCart, when] using hg)
      cases h
      exact ⟨rfl, fun _ => h0, by simp, rfl⟩
  · rw [bind_run] at h
    rcases hg : when true (guardCart : Py α Unit) s with ⟨e | b', s1⟩
    · rw [hg] at h; cases h
    · rw [hg] at h
      simp only at h
      rw [bind_run] at h
      rcases hg' : when true (guardKep : Py α Unit) s1 with ⟨e | b', s2⟩
      · rw [hg'] at h; cases h
      · rw [hg'] at h; cases h

/-- the mass keyword: nothing, or written at the positions in lazy mode -/
theorem updM_ok {n : Nat} {inds : Inds} {v : Option (Val α)} {s s' : Orb α} {b : Unit} (hm : s.m.length = n)
    (h : updM inds v s = (.ok b, s')) :
    ∃ ms, s' = { s with m := ms } ∧ (v = none → ms = s.m) ∧
      ∀ x, v = some x → s.direct = false ∧ ∃ ps vs, inds.pos n = .ok ps ∧ x.spread ps.length = .ok vs ∧ Written ps vs s.m ms := by
  cases v with
  | none => cases h; exact ⟨s.m, rfl, fun _ => rfl, fun _ hx => by cases hx⟩
  | some x =>
    simp only [updM, self_bind] at h
    by_cases hd : s.direct = true
    · rw [if_pos hd] at h; cases h
    · rw [if_neg hd, lift_bind] at h
      cases hr : writeRow (fun _ x => x) s.m inds x with
      | error e => rw [hr] at h; cases h
      | ok ms =>
        rw [hr] at h
        cases h
        refine ⟨ms, rfl, (fun hx => by cases hx), fun y hy => ?_⟩
        cases hy
        obtain ⟨ps, vs, h1, h2, h3⟩ := writeRow_ok hr
        rw [hm] at h1
        refine ⟨by simpa using hd, ps, vs, h1, h2, ?_⟩
        rw [h3]
        exact writeAt_written _ _ _ (by rw [hm]; exact pos_lt h1) (Val.spread_length h2)

theorem any_some {u : Fin 6 → Option (Val α)} (h : ((List.finRange 6).any fun i => (u i).isSome) = true) :
    ∃ i v, u i = some v := by
  obtain ⟨i, _, hi⟩ := List.any_eq_true.mp h
  exact ⟨i, _, (Option.some_get hi).symm⟩

theorem updKepRows_pos {n : Nat} {inds : Inds} {u : Fin 6 → Option (Val α)} {i : Fin 6} {v : Val α} (hu : u i = some v) :
    ∀ (is : List (Fin 6)), i ∈ is → ∀ (s s' : Orb α) (b : Unit), s.kep.length = n → updKepRows inds u is s = (.ok b, s') →
      ∃ ps, inds.pos n = .ok ps := by
  intro is
  induction is with
  | nil => intro h; cases h
  | cons i0 is ih =>
    intro hi s s' b hk h
    unfold updKepRows at h
    cases hu0 : u i0 with
    | none =>
      rw [hu0] at h
      rcases List.mem_cons.mp hi with rfl | hm
      · rw [hu] at hu0; cases hu0
      · exact ih hm s s' b hk h
    | some v0 =>
      rw [hu0] at h
      simp only [updKepRow, bind_assoc', self_bind] at h
      rw [lift_bind] at h
      cases hr : writeRow (fun k x => k.set i0 x) s.kep inds v0 with
      | error e => rw [hr] at h; cases h
      | ok k1 =>
        obtain ⟨ps, _, h1, _⟩ := writeRow_ok hr
        rw [hk] at h1
        exact ⟨ps, h1⟩

theorem updCartRows_pos {n : Nat} {inds : Inds} {u : Fin 6 → Option (Val α)} {i : Fin 6} {v : Val α} (hu : u i = some v) :
    ∀ (is : List (Fin 6)), i ∈ is → ∀ (s s' : Orb α) (b : Unit), s.cart.length = n → updCartRows inds u is s = (.ok b, s') →
      ∃ ps, inds.pos n = .ok ps := by
  intro is
  induction is with
  | nil => intro h; cases h
  | cons i0 is ih =>
    intro hi s s' b hk h
    unfold updCartRows at h
    cases hu0 : u i0 with
    | none =>
      rw [hu0] at h
      rcases List.mem_cons.mp hi with rfl | hm
      · rw [hu] at hu0; cases hu0
      · exact ih hm s s' b hk h
    | some v0 =>
      rw [hu0] at h
      simp only [updCartRow, bind_assoc', self_bind] at h
      rw [lift_bind] at h
      cases hr : writeRow (fun k x => k.set i0 x) s.cart inds v0 with
      | error e => rw [hr] at h; cases h
      | ok k1 =>
        obtain ⟨ps, _, h1, _⟩ := writeRow_ok hr
        rw [hk] at h1
        exact ⟨ps, h1⟩

/-- values written in the rows named by keywords; every named value fits -/
def NamedRows {C : Type} (get : C → Fin 6 → α) (ps : List Nat) (u : Fin 6 → Option (Val α)) (old new : List C) : Prop :=
  ∃ vals : Fin 6 → Option (List α), (∀ i, u i = none → vals i = none) ∧
    (∀ i v, u i = some v → ∃ vs, v.Row ps.length vs ∧ vals i = some vs) ∧ RowsWritten get ps vals old new

theorem namedRows_of {C : Type} {get : C → Fin 6 → α} {ps : List Nat} {u : Fin 6 → Option (Val α)} {old new : List C}
    (h : RowsWritten get ps (fun i => if i ∈ List.finRange 6 then spreadAll ps.length u i else none) old new)
    (h' : ∀ i ∈ List.finRange 6, (u i).isSome → (spreadAll ps.length u i).isSome) : NamedRows get ps u old new := by
  refine ⟨spreadAll ps.length u, fun i hi => by simp [spreadAll, hi], fun i v hi => ?_, ?_⟩
  · have := h' i (List.mem_finRange i) (by rw [hi]; rfl)
    simp only [spreadAll, hi, Option.bind_some] at this ⊢
    cases hv : v.spread ps.length with
    | error e => rw [hv] at this; cases this
    | ok vs => exact ⟨vs, row_of_spread hv, rfl⟩
  · have he : (fun i => if i ∈ List.finRange 6 then spreadAll ps.length u i else none) = spreadAll ps.length u := by
      funext i; rw [if_pos (List.mem_finRange i)]
    rw [he] at h
    exact h

/-- an update with keywords of single elements that returns, in terms of the model's selection and values -/
theorem update_elements_ok {n : Nat} (s s' : Orb α) (hs : OneEntryPerOrbit s n) (inds : Inds) (u : Upd α)
    (hc : u.cartesian = none) (hk : u.kepler = none) (h : update K inds u s = (.ok (), s')) :
    ∃ ms, (u.m = none → ms = s.m) ∧
      (∀ x, u.m = some x → s.direct = false ∧ ∃ ps vs, inds.pos n = .ok ps ∧ x.spread ps.length = .ok vs ∧ Written ps vs s.m ms) ∧
      (((∀ i, u.cartEl i = none) ∧ (∀ i, u.kepEl i = none) ∧ s' = { s with m := ms }) ∨
       ((∀ i, u.cartEl i = none) ∧ (∃ i, u.kepEl i ≠ none) ∧ s.kro = false ∧ ∃ ps ks, inds.pos n = .ok ps ∧
          NamedRows Kep.get ps u.kepEl s.kep ks ∧ CartFollows K ps { s with m := ms, kep := ks } s') ∨
       ((∀ i, u.kepEl i = none) ∧ (∃ i, u.cartEl i ≠ none) ∧ s.cro = false ∧ ∃ ps cs, inds.pos n = .ok ps ∧
          NamedRows Cart.get ps u.cartEl s.cart cs ∧ KepFollows K ps { s with m := ms, cart := cs } s')) := by
  have hw := hs.wfe.1
  have none_of : ∀ (f : Fin 6 → Option (Val α)), ((List.finRange 6).any fun i => (f i).isSome) = false → ∀ i, f i = none := by
    intro f hf i
    have := List.any_eq_false.mp hf i (List.mem_finRange i)
    simpa using this
  unfold update at h
  rw [hc, hk] at h
  simp only at h
  rw [bind_run] at h
  rcases hg : updGuard u.cartUp u.kepUp s with ⟨e | b, s1⟩
  · rw [hg] at h; cases h
  · rw [hg] at h
    obtain ⟨rfl, hcro, hkro, hboth⟩ := updGuard_ok hg
    simp only at h
    rw [bind_run] at h
    rcases hm : updM inds u.m s1 with ⟨e | b', s2⟩
    · rw [hm] at h; cases h
    · rw [hm] at h
      obtain ⟨ms, rfl, hm1, hm2⟩ := updM_ok hw.m hm
      have hml : ms.length = n := by
        cases hv : u.m with
        | none => rw [hm1 hv, hw.m]
        | some x =>
          obtain ⟨_, _, _, _, _, hwr⟩ := hm2 x hv
          rw [hwr.length, hw.m]
      refine ⟨ms, hm1, hm2, ?_⟩
      simp only at h
      cases hcu : u.cartUp with
      | true =>
        have hku : u.kepUp = false := by rw [hcu] at hboth; simpa using hboth
        obtain ⟨i, v, hi⟩ := any_some hcu
        have e1 : ∀ t : Orb α, updCartEls K inds u t = (updCartRows inds u.cartEl (List.finRange 6) >>= fun _ => updAfterCart K inds) t := by
          intro t; unfold updCartEls; rw [if_pos hcu]
        have e2 : ∀ t : Orb α, updKepEls K inds u t = (.ok (), t) := by
          intro t; unfold updKepEls; rw [if_neg (by rw [hku]; simp)]; rfl
        rw [bind_run, e1, bind_run] at h
        rcases hrow : updCartRows inds u.cartEl (List.finRange 6) { s1 with m := ms } with ⟨e | b'', s3⟩
        · rw [hrow] at h; cases h
        · rw [hrow] at h
          simp only at h
          obtain ⟨ps, hp⟩ := updCartRows_pos (n := n) hi _ (List.mem_finRange i) { s1 with m := ms } _ _ hw.cart hrow
          obtain ⟨cs, rfl, hrw, hall⟩ := updCartRows_ok (n := n) hp _ (List.nodup_finRange 6) { s1 with m := ms } _ _ hw.cart hrow
          have hw' : WF n { s1 with m := ms, cart := cs } :=
            ⟨hml, by rw [hrw.length]; exact hw.cart, hw.kep, hw.tA, hw.mA, hw.cartCalc, hw.kepCalc⟩
          obtain ⟨s4, h4, hf⟩ := updAfterCart_run K hw' hp
          rw [h4] at h
          simp only at h
          rw [e2] at h
          cases h
          exact .inr (.inr ⟨none_of _ hku, ⟨i, by rw [hi]; simp⟩, hcro hcu, ps, cs, hp, namedRows_of hrw hall, hf⟩)
      | false =>
        have e1 : ∀ t : Orb α, updCartEls K inds u t = (.ok (), t) := by
          intro t; unfold updCartEls; rw [if_neg (by rw [hcu]; simp)]; rfl
        rw [bind_run, e1] at h
        simp only at h
        cases hku : u.kepUp with
        | false =>
          unfold updKepEls at h
          rw [if_neg (by rw [hku]; simp)] at h
          cases h
          exact .inl ⟨none_of _ hcu, none_of _ hku, rfl⟩
        | true =>
          obtain ⟨i, v, hi⟩ := any_some hku
          unfold updKepEls at h
          rw [if_pos hku, bind_run] at h
          rcases hrow : updKepRows inds u.kepEl (List.finRange 6) { s1 with m := ms } with ⟨e | b'', s3⟩
          · rw [hrow] at h; cases h
          · rw [hrow] at h
            simp only at h
            obtain ⟨ps, hp⟩ := updKepRows_pos (n := n) hi _ (List.mem_finRange i) { s1 with m := ms } _ _ hw.kep hrow
            obtain ⟨ks, rfl, hrw, hall⟩ := updKepRows_ok (n := n) hp _ (List.nodup_finRange 6) { s1 with m := ms } _ _ hw.kep hrow
            have hw' : WF n { s1 with m := ms, kep := ks } :=
              ⟨hml, hw.cart, by rw [hrw.length]; exact hw.kep, hw.tA, hw.mA, hw.cartCalc, hw.kepCalc⟩
            obtain ⟨s4, h4, hf⟩ := updAfterKep_run K hw' hp
            rw [h4] at h
            cases h
            exact .inr (.inl ⟨none_of _ hcu, ⟨i, by rw [hi]; simp⟩, hkro hku, ps, ks, hp, namedRows_of hrw hall, hf⟩)

/-- what the model's columns are -/
theorem fills_of_colsOf {C : Type} {get : C → Fin 6 → α} {const : α → C} {col : List α → Option C} (hg : Columned get const col) {n : Nat}
    {inds : Inds} {ps : List Nat} {v : Val6 α C} {cs : List C} (hp : inds.pos n = .ok ps) (h : colsOf const col inds ps v = .ok cs) :
    v.Fills get (fun _ => single_index inds) ps.length cs := by
  unfold colsOf at h
  cases inds with
  | int i =>
    rw [isInt_pos rfl hp]
    simp only [Inds.isInt, if_true] at h
    cases hc : v.one const col with
    | error e => rw [hc] at h; cases h
    | ok c => rw [hc] at h; cases h; exact fills_of_one hg hc
  | list is => exact fills_of_spread hg h
  | mask bs => exact fills_of_spread hg h
  | slice a b c => exact fills_of_spread hg h

/-- C38 (partial), keyword `kepler`: an update that returns has written the columns of the value at the selected orbits and no
other Kepler element, and nothing but the Cartesian side follows.  (Other keywords are ignored; `c38_false_*` are the parts of
C38 that do not hold.) -/
theorem c38_kepler_partial {n : Nat} (s s' : Orb α) (hs : OneEntryPerOrbit s n) (inds : Inds) (u : Upd α) (v : Val6 α (Kep α))
    (hc : u.cartesian = none) (hk : u.kepler = some v) (h : update K inds u s = (.ok (), s')) :
    s.kro = false ∧ ∃ ps cs ks, Selects n inds ps ∧ v.Fills Kep.get (fun _ => single_index inds) ps.length cs ∧ Written ps cs s.kep ks ∧
      CartFollows K ps { s with kep := ks } s' := by
  obtain ⟨h0, ps, cs, ks, h1, h2, h3⟩ := update_kepler_ok K s s' hs inds u v hc hk h
  exact ⟨h0, ps, cs, ks, pos_selects.mp h1, fills_of_colsOf kep_columned h1 h2, h3⟩

/-- C38 (partial), keyword `cartesian`, see `c38_kepler_partial` -/
theorem c38_cartesian_partial {n : Nat} (s s' : Orb α) (hs : OneEntryPerOrbit s n) (inds : Inds) (u : Upd α) (v : Val6 α (Cart α))
    (hc : u.cartesian = some v) (h : update K inds u s = (.ok (), s')) :
    s.cro = false ∧ ∃ ps cs ks, Selects n inds ps ∧ v.Fills Cart.get (fun _ => single_index inds) ps.length cs ∧ Written ps cs s.cart ks ∧
      KepFollows K ps { s with cart := ks } s' := by
  obtain ⟨h0, ps, cs, ks, h1, h2, h3⟩ := update_cartesian_ok K s s' hs inds u v hc h
  exact ⟨h0, ps, cs, ks, pos_selects.mp h1, fills_of_colsOf cart_columned h1 h2, h3⟩

/-- C38 (partial), keywords of single elements and `m`: an update that returns has written exactly the named rows at the
selected orbits.  Masses are written only in lazy mode; Kepler and Cartesian names are never mixed; with no name at all
nothing changes.  In the first statement `t` is the object with the new masses and elements. -/
theorem c38_elements_partial {n : Nat} (s s' : Orb α) (hs : OneEntryPerOrbit s n) (inds : Inds) (u : Upd α)
    (hc : u.cartesian = none) (hk : u.kepler = none) (h : update K inds u s = (.ok (), s')) :
    ∃ ms, (u.m = none → ms = s.m) ∧
      (∀ x, u.m = some x → s.direct = false ∧ ∃ ps vs, Selects n inds ps ∧ x.Row ps.length vs ∧ Written ps vs s.m ms) ∧
      (((∀ i, u.cartEl i = none) ∧ (∀ i, u.kepEl i = none) ∧ s' = { s with m := ms }) ∨
       ((∀ i, u.cartEl i = none) ∧ (∃ i, u.kepEl i ≠ none) ∧ s.kro = false ∧ ∃ ps ks, Selects n inds ps ∧
          NamedRows Kep.get ps u.kepEl s.kep ks ∧ CartFollows K ps { s with m := ms, kep := ks } s') ∨
       ((∀ i, u.kepEl i = none) ∧ (∃ i, u.cartEl i ≠ none) ∧ s.cro = false ∧ ∃ ps cs, Selects n inds ps ∧
          NamedRows Cart.get ps u.cartEl s.cart cs ∧ KepFollows K ps { s with m := ms, cart := cs } s')) := by
  obtain ⟨ms, h1, h2, h3⟩ := update_elements_ok K s s' hs inds u hc hk h
  refine ⟨ms, h1, fun x hx => ?_, ?_⟩
  · obtain ⟨h4, ps, vs, h5, h6, h7⟩ := h2 x hx
    exact ⟨h4, ps, vs, pos_selects.mp h5, row_of_spread h6, h7⟩
  · rcases h3 with h3 | ⟨a, b, c, ps, ks, hp, d⟩ | ⟨a, b, c, ps, ks, hp, d⟩
    · exact .inl h3
    · exact .inr (.inl ⟨a, b, c, ps, ks, pos_selects.mp hp, d⟩)
    · exact .inr (.inr ⟨a, b, c, ps, ks, pos_selects.mp hp, d⟩)

/-! ## C38: what does not hold -/

/-- C38 fails for unknown names: they are ignored. -/
theorem c38_false_unknown (s : Orb α) (inds : Inds) (u : Upd α) (names : List String) :
    update K inds { u with unknown := names } s = update K inds u s := rfl

/-- C38 fails for updates that raise: `update(a=x, e=[..])` with an array of the wrong length raises ValueError after the
semi-major axes have been written. -/
theorem c38_false_atomic {n : Nat} (s : Orb α) (hs : OneEntryPerOrbit s n) (hk : s.kro = false) (x : α) (es : List α)
    (h1 : es.length ≠ 1) (h2 : es.length ≠ n) :
    update K .all { kepEl := fun i => if i = 0 then some (.sc x) else if i = 1 then some (.vec es) else none } s =
      (.error .valueError, { s with kep := s.kep.map fun k => { k with a := x } }) := by
  have hw := hs.wfe.1
  have hg : updGuard (α := α) false true s = (.ok (), s) := by
    unfold updGuard
    have e2 : when true (guardKep : Py α Unit) s = (.ok (), s) := by simp [when, guardKep, hk]
    rw [bind_ok (x := when false guardCart) rfl, bind_ok e2]
    rfl
  have hspread : ∀ k, k = n → (Val.vec es).spread k = .error .valueError := by
    rintro k rfl
    rcases es with _ | ⟨a, _ | ⟨b, r⟩⟩
    · simp only [Val.spread]; rw [if_neg h2]
    · simp at h1
    · simp only [Val.spread]; rw [if_neg h2]
  have hr1 : writeRow (fun k x => Kep.set k 0 x) s.kep .all (.sc x) =
      .ok (writeAt (fun k x => Kep.set k 0 x) s.kep (List.range n) (List.replicate n x)) := by
    unfold writeRow
    rw [hw.kep, pos_all]
    show (do let vs ← (Val.sc x).spread (List.range n).length; pure _ : Except PyErr _) = _
    rw [List.length_range]
    rfl
  have hmap : writeAt (fun k x => Kep.set k 0 x) s.kep (List.range n) (List.replicate n x) = s.kep.map fun k => { k with a := x } := by
    apply List.ext_getElem?
    intro j
    by_cases hj : j < n
    · have hl : LastAt (List.range n) j j := by
        refine ⟨by simp [hj], fun q' hq' he => ?_⟩
        obtain ⟨h3, h4⟩ := List.getElem?_eq_some_iff.mp he
        simp at h4
        omega
      rw [writeAt_last _ (fun b x y => Kep.set_set b 0 x y) _ _ _ j j x hl (by simp [hj]), List.getElem?_map]
      rfl
    · rw [writeAt_getElem? _ _ _ _ _ (by simpa using hj)]
      have : s.kep.length ≤ j := by rw [hw.kep]; omega
      simp [this]
  have hr2 : ∀ l : List (Kep α), l.length = n → writeRow (fun k x => Kep.set k 1 x) l .all (.vec es) = .error .valueError := by
    intro l hl
    unfold writeRow
    rw [hl, pos_all]
    show (do let vs ← (Val.vec es).spread (List.range n).length; pure _ : Except PyErr _) = _
    rw [hspread _ (by simp)]
    rfl
  unfold update
  simp only
  rw [show ({ kepEl := fun i => if i = 0 then some (Val.sc x) else if i = 1 then some (.vec es) else none } : Upd α).cartUp = false from rfl,
    show ({ kepEl := fun i => if i = 0 then some (Val.sc x) else if i = 1 then some (.vec es) else none } : Upd α).kepUp = true from rfl,
    bind_ok hg, bind_ok (x := updM _ none) rfl]
  have hce : updCartEls K .all { kepEl := fun i => if i = 0 then some (Val.sc x) else if i = 1 then some (.vec es) else none } s = (.ok (), s) := rfl
  rw [bind_ok hce]
  unfold updKepEls
  rw [if_pos (by rfl)]
  show ((do updKepRow .all 0 (some (.sc x)); (do updKepRow .all 1 (some (.vec es)); updKepRows .all _ [2, 3, 4, 5])) >>= fun _ => updAfterKep K .all : Py α Unit) s = _
  simp only [updKepRow, bind_assoc', self_bind, hr1, liftOk_bind, upd_bind, hmap]
  rw [hr2 _ (by simp [hw.kep]), liftErr_bind]

/-- C38 fails for the mass in direct mode: it cannot be updated at all. -/
theorem c38_false_mass (s : Orb α) (hd : s.direct = true) (inds : Inds) (v : Val α) :
    update K inds { m := some v } s = (.error .valueError, s) := by
  unfold update
  simp only
  have hg : updGuard (({ m := some v } : Upd α).cartUp) (({ m := some v } : Upd α).kepUp) s = (.ok (), s) := rfl
  rw [bind_ok hg]
  refine bind_err ?_
  simp only [updM, self_bind, if_pos hd, raise_run]

/-- C38 fails for `kepler=` with an array of six numbers and two orbits: `orb.kepler = x` stores it in every orbit,
`orb.update(kepler=x)` raises ValueError. -/
theorem c38_false_vector (s : Orb α) (hs : OneEntryPerOrbit s 2) (hk : s.kro = false) (a e i om OM nu : α) :
    (set_kepler K (.vec true [a, e, i, om, OM, nu]) s).1 = .ok () ∧
    (set_kepler K (.vec true [a, e, i, om, OM, nu]) s).2.kep = [⟨a, e, i, om, OM, nu⟩, ⟨a, e, i, om, OM, nu⟩] ∧
    update K .all { kepler := some (.vec true [a, e, i, om, OM, nu]) } s = (.error .valueError, s) := by
  have hw := hs.wfe.1
  have hg : (guardKep : Py α Unit) s = (.ok (), s) := by simp [guardKep, hk]
  have hset : set_kepler K (.vec true [a, e, i, om, OM, nu]) s =
      afterKep K { s with kep := [⟨a, e, i, om, OM, nu⟩, ⟨a, e, i, om, OM, nu⟩] } := by
    unfold set_kepler
    rw [bind_ok hg, self_bind, hw.kep]
    have : (Val6.vec true [a, e, i, om, OM, nu] : Val6 α (Kep α)).setter Kep.const Kep.ofList 2 =
      .ok [⟨a, e, i, om, OM, nu⟩, ⟨a, e, i, om, OM, nu⟩] := rfl
    rw [this, liftOk_bind, upd_bind]
  have hw' : WF 2 { s with kep := [⟨a, e, i, om, OM, nu⟩, ⟨a, e, i, om, OM, nu⟩] } :=
    ⟨hw.m, hw.cart, rfl, hw.tA, hw.mA, hw.cartCalc, hw.kepCalc⟩
  rw [hset]
  unfold afterKep
  rw [self_bind]
  refine ⟨?_, ?_, ?_⟩
  · by_cases hd : s.direct = true
    · rw [if_pos hd, calculate_cartesian_direct K hw' (lazy_direct hd)]
    · rw [if_neg hd]; rfl
  · by_cases hd : s.direct = true
    · rw [if_pos hd, calculate_cartesian_direct K hw' (lazy_direct hd)]; rfl
    · rw [if_neg hd]; rfl
  · unfold update
    simp only
    rw [bind_ok hg, self_bind]
    have hwc : writeCols Kep.const Kep.ofList s.kep .all (Val6.vec true [a, e, i, om, OM, nu]) = .error .valueError := by
      unfold writeCols
      rw [hw.kep, pos_all]
      rfl
    rw [hwc, liftErr_bind]

/-- cases of the partial theorems: on a lazy object with two orbits the updates `update([1, 0, 1], a=x, m=[y, z, w])` and
`update(0, kepler=..)` return -/
example (M0 G x y z w : α) (o : SolverOpts α) (k : Kep α) :
    ∃ s, init K M0 { G := G, opts := o, n := 2, direct := false } {} = .ok s ∧ OneEntryPerOrbit s 2 ∧
      (∃ s', update K (.list [1, 0, 1]) { m := some (.vec [y, z, w]), kepEl := fun i => if i = 0 then some (.sc x) else none } s = (.ok (), s')) ∧
      ∃ s', update K (.int 0) { kepler := some (.vec true [x, x, x, x, x, y]) } s = (.ok (), s') :=
  ⟨_, init_plain K M0 _ .tru rfl rfl, ⟨rfl, rfl, rfl, rfl, ⟨_, rfl, rfl⟩, rfl, rfl, rfl⟩, ⟨_, rfl⟩, ⟨_, rfl⟩⟩

/-- an object for the refutations: one orbit and two values, and a direct object with two orbits -/
example (M0 G : α) (o : SolverOpts α) :
    (∃ s, init K M0 { G := G, opts := o } {} = .ok s ∧ OneEntryPerOrbit s 1 ∧ s.kro = false ∧ s.direct = true) ∧
    ∃ s, init K M0 { G := G, opts := o, n := 2 } {} = .ok s ∧ OneEntryPerOrbit s 2 ∧ s.kro = false :=
  ⟨⟨_, init_plain K M0 _ .tru rfl rfl, ⟨rfl, rfl, rfl, rfl, ⟨_, rfl, rfl⟩, rfl, rfl, rfl⟩, rfl, rfl⟩,
   ⟨_, init_plain K M0 _ .tru rfl rfl, ⟨rfl, rfl, rfl, rfl, ⟨_, rfl, rfl⟩, rfl, rfl, rfl⟩, rfl⟩⟩

end Orbit
end Pyorb
