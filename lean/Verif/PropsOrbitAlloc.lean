import Verif.PropsOrbitUpdate

/-!
# `allocate`, `delete`, `add` (C37) and direct updates that raise (C29)
-/

set_option linter.unusedSimpArgs false
set_option linter.unusedVariables false

namespace Pyorb
namespace Orbit
open Py
variable {α : Type} (K : Kern α)

/-! ## Specification -/

/-- `qs` lists the positions below `n` that are not in `ps`, in increasing order -/
structure Remaining (n : Nat) (ps qs : List Nat) : Prop where
  increasing : qs.Pairwise (· < ·)
  members : ∀ j, j ∈ qs ↔ j < n ∧ j ∉ ps

/-- `t` consists of the orbits `qs` of `s`: every array is selected, nothing else differs -/
structure Consists (qs : List Nat) (s t : Orb α) : Prop where
  masses : t.m = gather s.m qs
  cartesian : t.cart = gather s.cart qs
  kepler : t.kep = gather s.kep qs
  keplerFlags : t.kepCalc = gather s.kepCalc qs
  cartesianFlags : t.cartCalc = gather s.cartCalc qs
  rest : t.auto = s.auto ∧ t.direct = s.direct ∧ t.G = s.G ∧ t.M0 = s.M0 ∧ t.opts = s.opts ∧ t.epoch = s.epoch ∧
    t.degrees = s.degrees ∧ t.type = s.type ∧ t.kro = s.kro ∧ t.cro = s.cro

/-- a keyword names Cartesian elements -/
def Upd.namesCart (u : Upd α) : Prop := u.cartesian ≠ none ∨ ∃ i, u.cartEl i ≠ none
/-- a keyword names Kepler elements -/
def Upd.namesKep (u : Upd α) : Prop := u.kepler ≠ none ∨ ∃ i, u.kepEl i ≠ none

/-! ## allocate -/

theorem WFE.one {n : Nat} {s : Orb α} (h : WFE n s) : OneEntryPerOrbit s n :=
  ⟨h.1.m, h.1.cart, h.1.kep, h.1.tA, h.2, h.1.mA, h.1.cartCalc, h.1.kepCalc⟩

/-- C37: `allocate(n)` gives `n` orbits of mass zero without elements, whatever was stored before and in every mode. -/
theorem c37_allocate (n : Nat) (s : Orb α) :
    (allocate K n s).1 = .ok () ∧ OneEntryPerOrbit (allocate K n s).2 n ∧ (allocate K n s).2.m = List.replicate n K.zero ∧
    (get_kepler K (allocate K n s).2).1 = .ok (List.replicate n (Kep.const K.nan)) ∧
    (get_cartesian K (allocate K n s).2).1 = .ok (List.replicate n (Cart.const K.nan)) := by
  have hw : WFE n (allocate K n s).2 := ⟨⟨by simp [allocate], by simp [allocate], by simp [allocate], by simp [allocate],
    by simp [allocate], by simp [allocate], by simp [allocate]⟩, _, rfl, by simp⟩
  have hka : ∀ j, kepOk K (allocate K n s).2 j = false := by
    intro j
    have : kepAt K (allocate K n s).2 j = Kep.const K.nan := by
      show (List.replicate n (Kep.const K.nan)).getD j _ = _
      rw [List.getD_eq_getElem?_getD, List.getElem?_replicate]
      split <;> rfl
    simp [kepOk, this, kepConst_any]
  have hca : ∀ j, cartOk K (allocate K n s).2 j = false := by
    intro j
    have : cartAt K (allocate K n s).2 j = Cart.const K.nan := by
      show (List.replicate n (Cart.const K.nan)).getD j _ = _
      rw [List.getD_eq_getElem?_getD, List.getElem?_replicate]
      split <;> rfl
    simp [cartOk, this, cartConst_any]
  refine ⟨rfl, WFE.one hw, rfl, ?_, ?_⟩
  · simp only [get_kepler, upd_bind, self_bind, pure_run]
    rw [kepCheck_eq, recalcKep_none K (fun j => by simp [checkSet, hca])]
    rfl
  · simp only [get_cartesian, upd_bind, self_bind, pure_run]
    have : cartCheck K (allocate K n s).2 = (allocate K n s).2 := by
      unfold cartCheck
      split
      · rw [calcCart_eq K _ _ hw.1 (.inr fun j => by simp [checkSet, hca]), recalcCart_none K (fun j => by rw [doCart_eq, hka, Bool.and_false])]
      · rfl
    rw [this]
    rfl

/-! ## delete -/

theorem keptPos_remaining (ps : List Nat) (n : Nat) : Remaining n ps (keptPos ps n) := by
  constructor
  · exact (List.pairwise_lt_range).filter _
  · intro j
    simp [keptPos]

/-- C37: `delete(inds)` raises exactly when the index does not fit, changing nothing; otherwise the orbits that are not
selected remain, in order, and answer all queries as before (without lazy recalculation; the stored arrays, including the
flags that govern lazy recalculation, are selected in every mode). -/
theorem c37_delete {n : Nat} (s : Orb α) (hs : OneEntryPerOrbit s n) (inds : Inds) :
    ((∀ ps, ¬ Selects n inds ps) → delete inds s = (.error (delRefusal inds), s)) ∧
    ∀ ps, Selects n inds ps → ∃ t qs, delete inds s = (.ok (), t) ∧ Remaining n ps qs ∧ OneEntryPerOrbit t qs.length ∧
      Consists qs s t ∧ ((s.direct = true ∨ s.auto = false) → ∀ g : Read, g ≠ .str →
        ∃ a, (g.get K s).1 = .ok a ∧ (g.get K t).1 = .ok (g.pick qs a)) := by
  have hw := hs.wfe
  obtain ⟨l, hel, hln⟩ := hw.2
  have hr := delete_run hw.1 hel hln inds
  constructor
  · intro he
    rw [hr, pos_refuses he, ← delErr_refusal]
  · intro ps hp
    rw [pos_selects.mpr hp] at hr
    have hlt : ∀ p ∈ keptPos ps n, p < n := fun p h => keptPos_lt h
    have hwt : WFE (keptPos ps n).length (select (keptPos ps n) s l) :=
      ⟨⟨gather_length _ _ (by rw [hw.1.m]; exact hlt), gather_length _ _ (by rw [hw.1.cart]; exact hlt),
        gather_length _ _ (by rw [hw.1.kep]; exact hlt), gather_length _ _ (by rw [hw.1.tA]; exact hlt),
        gather_length _ _ (by rw [hw.1.mA]; exact hlt), gather_length _ _ (by rw [hw.1.cartCalc]; exact hlt),
        gather_length _ _ (by rw [hw.1.kepCalc]; exact hlt)⟩, _, rfl, gather_length _ _ (by rw [hln]; exact hlt)⟩
    refine ⟨select (keptPos ps n) s l, keptPos ps n, hr, keptPos_remaining ps n, WFE.one hwt,
      ⟨rfl, rfl, rfl, rfl, rfl, rfl, rfl, rfl, rfl, rfl, rfl, rfl, rfl, rfl, rfl⟩, fun hd g hg => ⟨g.val K s, ?_, ?_⟩⟩
    · exact read_val K hw (by rcases hd with h | h <;> simp [lazy, h]) g
    · rw [read_val K hwt (by rcases hd with h | h <;> simp [lazy, select, h]) g, ← view_val K hw.1 hlt g hg]
      cases g <;> rfl

/-! ## add -/

theorem pos_tail (n k : Nat) : (Inds.slice (some (n : Int)) (some ((n + k : Nat) : Int)) 1).pos (n + k) = .ok (List.range' n k) := by
  simp only [Inds.pos, slice_tail]
  rw [if_neg (by decide)]

theorem not_tail {n k j : Nat} (h : j < n) : j ∉ List.range' n k := by
  simp; omega
theorem last_tail {n k q : Nat} (h : q < k) : LastAt (List.range' n k) q (n + q) := by
  refine ⟨by simp [h], fun q' hq he => ?_⟩
  obtain ⟨h1, h2⟩ := List.getElem?_eq_some_iff.mp he
  simp at h2
  omega

/-- an `add` that returns is a growth of all arrays followed by an update of the new orbits -/
theorem add_ok {n k : Nat} {s s' : Orb α} (hs : OneEntryPerOrbit s n) {u : Upd α} (h : add K k u s = (.ok (), s')) :
    ∃ l ms, OneEntryPerOrbit { extend K k s l with m := ms } (n + k) ∧
      (u.m = none → ms = s.m ++ List.replicate k K.zero) ∧
      (∀ v, u.m = some v → ∃ vs, v.spread k = .ok vs ∧ Written (List.range' n k) vs (s.m ++ List.replicate k K.zero) ms) ∧
      update K (.slice (some (n : Int)) (some ((n + k : Nat) : Int)) 1) { u with m := none } { extend K k s l with m := ms } = (.ok (), s') := by
  have hw := hs.wfe
  obtain ⟨l, hel, hln⟩ := hw.2
  rw [add_run K hw.1 hel k u] at h
  have hwt : WFE (n + k) (extend K k s l) :=
    ⟨⟨by simp [extend, hw.1.m], by simp [extend, hw.1.cart], by simp [extend, hw.1.kep], by simp [extend, hw.1.tA],
      by simp [extend, hw.1.mA], by simp [extend, hw.1.cartCalc], by simp [extend, hw.1.kepCalc]⟩, _, rfl, by simp [hln]⟩
  refine ⟨l, ?_⟩
  cases hm : u.m with
  | none =>
    rw [hm, bind_ok (x := writeMass _ none) rfl] at h
    exact ⟨_, WFE.one hwt, fun _ => rfl, fun v hv => (by cases hv), h⟩
  | some v =>
    rw [hm] at h
    simp only [writeMass, bind_assoc', self_bind] at h
    rw [lift_bind] at h
    cases hr : writeRow (fun _ x => x) (extend K k s l).m (.slice (some (n : Int)) (some ((n + k : Nat) : Int)) 1) v with
    | error e => rw [hr] at h; cases h
    | ok ms =>
      rw [hr] at h
      simp only [upd_bind] at h
      obtain ⟨ps, vs, hp, hv, rfl⟩ := writeRow_ok hr
      have hml : (extend K k s l).m.length = n + k := hwt.1.m
      rw [hml, pos_tail] at hp
      cases hp
      have hwr := writeAt_written (extend K k s l).m (List.range' n k) vs (by rw [hml]; intro p hp; simp at hp; omega) (Val.spread_length hv)
      refine ⟨_, ?_, (fun h => by cases h), fun v' hv' => ?_, h⟩
      · exact WFE.one ⟨⟨hwr.length.trans hml, hwt.1.cart, hwt.1.kep, hwt.1.tA, hwt.1.mA,
          hwt.1.cartCalc, hwt.1.kepCalc⟩, hwt.2⟩
      · cases hv'
        exact ⟨vs, by simpa using hv, hwr⟩

theorem head_get {β : Type} {l r : List β} {n j : Nat} (hl : l.length = n) (hj : j < n) : (l ++ r)[j]? = l[j]? := by
  rw [List.getElem?_append_left (by omega)]
theorem tail_get {β : Type} {l : List β} {n k q : Nat} {b : β} (hl : l.length = n) (hq : q < k) :
    (l ++ List.replicate k b)[n + q]? = some b := by
  rw [List.getElem?_append_right (by omega)]
  simp [hl, hq]

/-- the three kinds of keyword sets -/
theorem upd_kinds (u : Upd α) :
    (∃ v, u.cartesian = some v) ∨ (u.cartesian = none ∧ ∃ v, u.kepler = some v) ∨ (u.cartesian = none ∧ u.kepler = none) := by
  cases u.cartesian with
  | some v => exact .inl ⟨v, rfl⟩
  | none =>
    cases u.kepler with
    | some v => exact .inr (.inl ⟨rfl, v, rfl⟩)
    | none => exact .inr (.inr ⟨rfl, rfl⟩)

/-- What happens to old orbits when an element set is written at new ones: the set itself is kept, the other one is kept or,
in direct mode, recalculated from it. -/
structure OldOrbits (n : Nat) (u : Upd α) (s s' : Orb α) : Prop where
  masses : ∀ j < n, s'.m[j]? = s.m[j]?
  kepler : ∀ j < n, s'.kep[j]? = s.kep[j]? ∨ u.namesCart ∧ s.direct = true ∧ ∃ c m, s.cart[j]? = some c ∧ s.m[j]? = some m ∧
    c.any K.isnan = false ∧ s'.kep[j]? = some (kepOfCart K s.type s.degrees (K.mu s.G s.M0 m) c)
  cartesian : ∀ j < n, s'.cart[j]? = s.cart[j]? ∨ u.namesKep ∧ s.direct = true ∧ ∃ k m, s.kep[j]? = some k ∧ s.m[j]? = some m ∧
    k.any K.isnan = false ∧ s'.cart[j]? = some (cartOfKep K s.type s.opts s.degrees (K.mu s.G s.M0 m) k)
  oneSide : ∀ j < n, s'.kep[j]? = s.kep[j]? ∨ s'.cart[j]? = s.cart[j]?
  flags : s.direct = false → ∀ j < n, s'.kepCalc[j]? = s.kepCalc[j]? ∧ s'.cartCalc[j]? = s.cartCalc[j]?
  settings : s'.auto = s.auto ∧ s'.direct = s.direct ∧ s'.G = s.G ∧ s'.M0 = s.M0 ∧ s'.opts = s.opts ∧ s'.epoch = s.epoch ∧
    s'.degrees = s.degrees ∧ s'.type = s.type ∧ s'.kro = s.kro ∧ s'.cro = s.cro

section
variable {n k : Nat} {s s' : Orb α} {l ms : List α} {u : Upd α}

theorem old_kep (hs : OneEntryPerOrbit s n) (hms : ∀ j < n, ms[j]? = s.m[j]?) (hu : u.namesKep) {ks : List (Kep α)}
    (hks : ∀ j < n, ks[j]? = s.kep[j]?) (hf : CartFollows K (List.range' n k) { extend K k s l with m := ms, kep := ks } s') :
    OldOrbits K n u s s' := by
  have hkep : ∀ j < n, s'.kep[j]? = s.kep[j]? := by
    intro j hj; rw [hf.rest]; exact hks j hj
  have hst : s'.m = ms := by rw [hf.rest]
  refine ⟨fun j hj => by rw [hst]; exact hms j hj, fun j hj => .inl (hkep j hj), ?_, fun j hj => .inl (hkep j hj), ?_, ?_⟩
  · intro j hj
    obtain ⟨k0, hk0⟩ : ∃ k0, s.kep[j]? = some k0 := ⟨_, List.getElem?_eq_getElem (by rw [hs.kepler]; exact hj)⟩
    obtain ⟨c0, hc0⟩ : ∃ c0, s.cart[j]? = some c0 := ⟨_, List.getElem?_eq_getElem (by rw [hs.cartesian]; exact hj)⟩
    obtain ⟨m0, hm0⟩ : ∃ m0, s.m[j]? = some m0 := ⟨_, List.getElem?_eq_getElem (by rw [hs.masses]; exact hj)⟩
    by_cases hd : s.direct = true
    · have := hf.direct hd j k0 c0 m0 (by rw [← hk0]; exact hks j hj)
        (by rw [← hc0]; exact head_get hs.cartesian hj) (by rw [← hm0]; exact hms j hj)
      by_cases hn : k0.any K.isnan = true
      · rw [if_pos hn] at this
        exact .inl (this.trans hc0.symm)
      · rw [if_neg hn] at this
        exact .inr ⟨hu, hd, k0, m0, hk0, hm0, by simpa using hn, this⟩
    · have := (hf.lazy (Bool.eq_false_iff.mpr hd)).1
      left
      rw [this]
      exact head_get hs.cartesian hj
  · intro hd j hj
    obtain ⟨_, h1, h2⟩ := hf.lazy hd
    exact ⟨by rw [h1.others j (not_tail hj)]; exact head_get hs.keplerFlags hj,
      by rw [h2.others j (not_tail hj)]; exact head_get hs.cartesianFlags hj⟩
  · rw [hf.rest]; exact ⟨rfl, rfl, rfl, rfl, rfl, rfl, rfl, rfl, rfl, rfl⟩

theorem old_cart (hs : OneEntryPerOrbit s n) (hms : ∀ j < n, ms[j]? = s.m[j]?) (hu : u.namesCart) {cs : List (Cart α)}
    (hcs : ∀ j < n, cs[j]? = s.cart[j]?) (hf : KepFollows K (List.range' n k) { extend K k s l with m := ms, cart := cs } s') :
    OldOrbits K n u s s' := by
  have hcart : ∀ j < n, s'.cart[j]? = s.cart[j]? := by
    intro j hj; rw [hf.rest]; exact hcs j hj
  have hst : s'.m = ms := by rw [hf.rest]
  refine ⟨fun j hj => by rw [hst]; exact hms j hj, ?_, fun j hj => .inl (hcart j hj), fun j hj => .inr (hcart j hj), ?_, ?_⟩
  · intro j hj
    obtain ⟨k0, hk0⟩ : ∃ k0, s.kep[j]? = some k0 := ⟨_, List.getElem?_eq_getElem (by rw [hs.kepler]; exact hj)⟩
    obtain ⟨c0, hc0⟩ : ∃ c0, s.cart[j]? = some c0 := ⟨_, List.getElem?_eq_getElem (by rw [hs.cartesian]; exact hj)⟩
    obtain ⟨m0, hm0⟩ : ∃ m0, s.m[j]? = some m0 := ⟨_, List.getElem?_eq_getElem (by rw [hs.masses]; exact hj)⟩
    by_cases hd : s.direct = true
    · have := hf.direct hd j k0 c0 m0 (by rw [← hk0]; exact head_get hs.kepler hj) (by rw [← hc0]; exact hcs j hj)
        (by rw [← hm0]; exact hms j hj)
      by_cases hn : c0.any K.isnan = true
      · rw [if_pos hn] at this
        exact .inl (this.trans hk0.symm)
      · rw [if_neg hn] at this
        exact .inr ⟨hu, hd, c0, m0, hc0, hm0, by simpa using hn, this⟩
    · have := (hf.lazy (Bool.eq_false_iff.mpr hd)).1
      left
      rw [this]
      exact head_get hs.kepler hj
  · intro hd j hj
    obtain ⟨_, h1, h2⟩ := hf.lazy hd
    exact ⟨by rw [h1.others j (not_tail hj)]; exact head_get hs.keplerFlags hj,
      by rw [h2.others j (not_tail hj)]; exact head_get hs.cartesianFlags hj⟩
  · rw [hf.rest]; exact ⟨rfl, rfl, rfl, rfl, rfl, rfl, rfl, rfl, rfl, rfl⟩

end

/-- C37 (partial): an `add(k, ...)` that returns has appended `k` orbits.  The old orbits keep their masses and the element
set that was not computed from the other; in direct mode the other set is recalculated for all orbits (`c37_false` shows that
this can change it).  Without element keywords nothing of the old orbits changes. -/
theorem c37_add_partial {n k : Nat} (s s' : Orb α) (hs : OneEntryPerOrbit s n) (u : Upd α) (h : add K k u s = (.ok (), s')) :
    OneEntryPerOrbit s' (n + k) ∧ OldOrbits K n u s s' := by
  have hwf : WFE (n + k) s' := by
    have := add_wfe K hs.wfe k u
    rw [h] at this
    exact this
  refine ⟨WFE.one hwf, ?_⟩
  obtain ⟨l, ms, ht, hm1, hm2, hup⟩ := add_ok K hs h
  have hms : ∀ j < n, ms[j]? = s.m[j]? := by
    intro j hj
    cases hu : u.m with
    | none => rw [hm1 hu]; exact head_get hs.masses hj
    | some v =>
      obtain ⟨vs, _, hwr⟩ := hm2 v hu
      rw [hwr.others j (not_tail hj)]
      exact head_get hs.masses hj
  rcases upd_kinds u with ⟨v, hc⟩ | ⟨hc, v, hk⟩ | ⟨hc, hk⟩
  · obtain ⟨_, ps, cs, cs', hp, _, hwr, hf⟩ := update_cartesian_ok K _ s' ht _ { u with m := none } v hc hup
    rw [pos_tail] at hp
    cases hp
    exact old_cart K hs hms (.inl (by rw [hc]; simp))
      (fun j hj => by rw [hwr.others j (not_tail hj)]; exact head_get hs.cartesian hj) hf
  · obtain ⟨_, ps, cs, cs', hp, _, hwr, hf⟩ := update_kepler_ok K _ s' ht _ { u with m := none } v hc hk hup
    rw [pos_tail] at hp
    cases hp
    exact old_kep K hs hms (.inl (by rw [hk]; simp))
      (fun j hj => by rw [hwr.others j (not_tail hj)]; exact head_get hs.kepler hj) hf
  · obtain ⟨ms', hm3, _, hor⟩ := update_elements_ok K _ s' ht _ { u with m := none } hc hk hup
    have := hm3 rfl
    subst this
    rcases hor with ⟨_, _, hs'⟩ | ⟨_, ⟨i, hi⟩, _, ps, ks, hp, ⟨vals, _, _, hrw⟩, hf⟩ | ⟨_, ⟨i, hi⟩, _, ps, cs, hp, ⟨vals, _, _, hrw⟩, hf⟩
    · rw [hs']
      have e1 : ∀ j < n, (extend K k s l).kep[j]? = s.kep[j]? := fun j hj => head_get hs.kepler hj
      have e2 : ∀ j < n, (extend K k s l).cart[j]? = s.cart[j]? := fun j hj => head_get hs.cartesian hj
      exact ⟨hms, fun j hj => .inl (e1 j hj), fun j hj => .inl (e2 j hj), fun j hj => .inl (e1 j hj),
        fun _ j hj => ⟨head_get hs.keplerFlags hj, head_get hs.cartesianFlags hj⟩, rfl, rfl, rfl, rfl, rfl, rfl, rfl, rfl, rfl, rfl⟩
    · rw [pos_tail] at hp
      cases hp
      exact old_kep K hs hms (.inr ⟨i, hi⟩) (fun j hj => by rw [hrw.others j (not_tail hj)]; exact head_get hs.kepler hj) hf
    · rw [pos_tail] at hp
      cases hp
      exact old_cart K hs hms (.inr ⟨i, hi⟩) (fun j hj => by rw [hrw.others j (not_tail hj)]; exact head_get hs.cartesian hj) hf

/-- C37: the masses of the new orbits are the given ones, zero if none are given -/
theorem c37_add_masses {n k : Nat} (s s' : Orb α) (hs : OneEntryPerOrbit s n) (u : Upd α) (h : add K k u s = (.ok (), s')) :
    (u.m = none → ∀ q < k, s'.m[n + q]? = some K.zero) ∧
    ∀ v, u.m = some v → ∃ vs, v.Row k vs ∧ ∀ q < k, s'.m[n + q]? = vs[q]? := by
  obtain ⟨l, ms, ht, hm1, hm2, hup⟩ := add_ok K hs h
  have hms : s'.m = ms := by
    rcases upd_kinds u with ⟨v, hc⟩ | ⟨hc, v, hk⟩ | ⟨hc, hk⟩
    · obtain ⟨_, ps, cs, cs', hp, _, hwr, hf⟩ := update_cartesian_ok K _ s' ht _ { u with m := none } v hc hup
      rw [hf.rest]
    · obtain ⟨_, ps, cs, cs', hp, _, hwr, hf⟩ := update_kepler_ok K _ s' ht _ { u with m := none } v hc hk hup
      rw [hf.rest]
    · obtain ⟨ms', hm3, _, hor⟩ := update_elements_ok K _ s' ht _ { u with m := none } hc hk hup
      have := hm3 rfl
      subst this
      rcases hor with ⟨_, _, hs'⟩ | ⟨_, _, _, ps, ks, hp, _, hf⟩ | ⟨_, _, _, ps, cs, hp, _, hf⟩
      · rw [hs']
      · rw [hf.rest]
      · rw [hf.rest]
  rw [hms]
  refine ⟨fun hu q hq => ?_, fun v hu => ?_⟩
  · rw [hm1 hu]; exact tail_get hs.masses hq
  · obtain ⟨vs, hv, hwr⟩ := hm2 v hu
    exact ⟨vs, row_of_spread hv, fun q hq => hwr.values q (n + q) (last_tail hq)⟩

/-- C37: `add(k, kepler=v)` stores the columns of `v` in the new orbits -/
theorem c37_add_kepler {n k : Nat} (s s' : Orb α) (hs : OneEntryPerOrbit s n) (u : Upd α) (v : Val6 α (Kep α))
    (hc : u.cartesian = none) (hk : u.kepler = some v) (h : add K k u s = (.ok (), s')) :
    ∃ cs, v.Fills Kep.get (fun _ => false) k cs ∧ ∀ q < k, s'.kep[n + q]? = cs[q]? := by
  obtain ⟨l, ms, ht, _, _, hup⟩ := add_ok K hs h
  obtain ⟨_, ps, cs, ks, hp, hcs, hwr, hf⟩ := update_kepler_ok K _ s' ht _ { u with m := none } v hc hk hup
  rw [pos_tail] at hp
  cases hp
  refine ⟨cs, fills_of_spread kep_columned (by simpa [colsOf, Inds.isInt] using hcs), fun q hq => ?_⟩
  rw [← hwr.values q (n + q) (last_tail hq), hf.rest]

/-- C37: `add(k, cartesian=v)` stores the columns of `v` in the new orbits -/
theorem c37_add_cartesian {n k : Nat} (s s' : Orb α) (hs : OneEntryPerOrbit s n) (u : Upd α) (v : Val6 α (Cart α))
    (hc : u.cartesian = some v) (h : add K k u s = (.ok (), s')) :
    ∃ cs, v.Fills Cart.get (fun _ => false) k cs ∧ ∀ q < k, s'.cart[n + q]? = cs[q]? := by
  obtain ⟨l, ms, ht, _, _, hup⟩ := add_ok K hs h
  obtain ⟨_, ps, cs, ks, hp, hcs, hwr, hf⟩ := update_cartesian_ok K _ s' ht _ { u with m := none } v hc hup
  rw [pos_tail] at hp
  cases hp
  refine ⟨cs, fills_of_spread cart_columned (by simpa [colsOf, Inds.isInt] using hcs), fun q hq => ?_⟩
  rw [← hwr.values q (n + q) (last_tail hq), hf.rest]

/-- C37: `add(k, a=.., e=.., ...)` stores the named Kepler elements in the new orbits; the others are NaN -/
theorem c37_add_elements {n k : Nat} (s s' : Orb α) (hs : OneEntryPerOrbit s n) (u : Upd α) (hc : u.cartesian = none)
    (hk : u.kepler = none) (h : add K k u s = (.ok (), s')) :
    (∀ i v, u.kepEl i = some v → ∃ vs, v.Row k vs ∧ ∀ q < k, (s'.kep[n + q]?).map (·.get i) = vs[q]?) ∧
    (∀ i v, u.cartEl i = some v → ∃ vs, v.Row k vs ∧ ∀ q < k, (s'.cart[n + q]?).map (·.get i) = vs[q]?) ∧
    ((∃ i, u.kepEl i ≠ none) → ∀ i, u.kepEl i = none → ∀ q < k, (s'.kep[n + q]?).map (·.get i) = some K.nan) ∧
    ((∃ i, u.cartEl i ≠ none) → ∀ i, u.cartEl i = none → ∀ q < k, (s'.cart[n + q]?).map (·.get i) = some K.nan) := by
  obtain ⟨l, ms, ht, _, _, hup⟩ := add_ok K hs h
  obtain ⟨ms', hm3, _, hor⟩ := update_elements_ok K _ s' ht _ { u with m := none } hc hk hup
  have gk : ∀ i : Fin 6, (Kep.const K.nan).get i = K.nan := by intro i; fin_cases i <;> rfl
  have gc : ∀ i : Fin 6, (Cart.const K.nan).get i = K.nan := by intro i; fin_cases i <;> rfl
  rcases hor with ⟨h1, h2, _⟩ | ⟨h1, _, _, ps, ks, hp, ⟨vals, hv1, hv2, hrw⟩, hf⟩ | ⟨h1, _, _, ps, cs, hp, ⟨vals, hv1, hv2, hrw⟩, hf⟩
  · refine ⟨fun i v hi => ?_, fun i v hi => ?_, fun ⟨i, hi⟩ => absurd (h2 i) hi, fun ⟨i, hi⟩ => absurd (h1 i) hi⟩
    · have := h2 i; rw [show u.kepEl i = none from this] at hi; cases hi
    · have := h1 i; rw [show u.cartEl i = none from this] at hi; cases hi
  · rw [pos_tail] at hp
    cases hp
    have hkep : s'.kep = ks := by rw [hf.rest]
    refine ⟨fun i v hi => ?_, fun i v hi => ?_, fun _ i hi q hq => ?_, fun ⟨i, hi⟩ => absurd (h1 i) hi⟩
    · obtain ⟨vs, e1, e2⟩ := hv2 i v hi
      exact ⟨vs, by simpa using e1, fun q hq => by rw [hkep]; exact hrw.values i vs q (n + q) e2 (last_tail hq)⟩
    · have := h1 i; rw [show u.cartEl i = none from this] at hi; cases hi
    · rw [hkep, hrw.rows (n + q) i (hv1 i hi)]
      show ((s.kep ++ List.replicate k (Kep.const K.nan))[n + q]?).map _ = _
      rw [tail_get hs.kepler hq, Option.map_some, gk]
  · rw [pos_tail] at hp
    cases hp
    have hcart : s'.cart = cs := by rw [hf.rest]
    refine ⟨fun i v hi => ?_, fun i v hi => ?_, fun ⟨i, hi⟩ => absurd (h1 i) hi, fun _ i hi q hq => ?_⟩
    · have := h1 i; rw [show u.kepEl i = none from this] at hi; cases hi
    · obtain ⟨vs, e1, e2⟩ := hv2 i v hi
      exact ⟨vs, by simpa using e1, fun q hq => by rw [hcart]; exact hrw.values i vs q (n + q) e2 (last_tail hq)⟩
    · rw [hcart, hrw.rows (n + q) i (hv1 i hi)]
      show ((s.cart ++ List.replicate k (Cart.const K.nan))[n + q]?).map _ = _
      rw [tail_get hs.cartesian hq, Option.map_some, gc]

/-! ## What does not hold in direct mode -/

/-- a new object in direct mode with one orbit -/
def blank (M0 G : α) (o : SolverOpts α) : Orb α :=
  { (allocate K 1 (empty M0 { G := G, opts := o } .tru)).2 with kro := false, cro := false }

theorem init_blank1 (M0 G : α) (o : SolverOpts α) : init K M0 { G := G, opts := o } {} = .ok (blank K M0 G o) :=
  init_plain K M0 { G := G, opts := o } .tru rfl rfl

/-- the same object with given elements of both kinds, all marked `cc`, `kc` -/
def single (M0 G : α) (o : SolverOpts α) (ty : Anom) (k : Kep α) (c : Cart α) (cc kc : Bool) : Orb α :=
  { blank K M0 G o with type := ty, kep := [k], cart := [c], cartCalc := [cc], kepCalc := [kc] }

theorem single_one (M0 G : α) (o : SolverOpts α) (ty : Anom) (k : Kep α) (c : Cart α) (cc kc : Bool) :
    OneEntryPerOrbit (single K M0 G o ty k c cc kc) 1 :=
  ⟨rfl, rfl, rfl, rfl, ⟨_, rfl, rfl⟩, rfl, rfl, rfl⟩

/-- `orb.kepler = k` on the new object -/
theorem blank_setKepler (M0 G : α) (o : SolverOpts α) (k : Kep α) (hk : k.any K.isnan = false) :
    (Op.setKepler (.mat [k])).run K (blank K M0 G o) =
      (.ok (), single K M0 G o .tru k (cartOfKep K .tru o false (K.mu G M0 K.zero) k) true false) := by
  have hw : WF 1 ({ blank K M0 G o with kep := [k] } : Orb α) := ⟨rfl, rfl, rfl, rfl, rfl, rfl, rfl⟩
  have h1 : (Op.setKepler (.mat [k])).run K (blank K M0 G o) = calculate_cartesian K .all ({ blank K M0 G o with kep := [k] } : Orb α) := rfl
  rw [h1, calculate_cartesian_direct K hw rfl]
  have hd : kepOk K ({ blank K M0 G o with kep := [k] } : Orb α) 0 = true := by
    show (true && !k.any K.isnan) = true
    rw [hk]; rfl
  refine congrArg _ ?_
  show ({ blank K M0 G o with
    kep := [k]
    cartCalc := [if kepOk K ({ blank K M0 G o with kep := [k] } : Orb α) 0 then true else false]
    cart := [if kepOk K ({ blank K M0 G o with kep := [k] } : Orb α) 0 then cartOfKep K .tru o false (K.mu G M0 K.zero) k else Cart.const K.nan] } : Orb α) = _
  rw [hd]
  rfl

/-- `add(1, cartesian=c)` returns in direct mode -/
theorem add_cart_returns {n : Nat} {s : Orb α} (hs : OneEntryPerOrbit s n) (hc : s.cro = false) (c : Cart α) :
    ∃ s', add K 1 { cartesian := some (.mat [c]) } s = (.ok (), s') := by
  obtain ⟨l, hel, hln⟩ := hs.cachedEccentric
  rw [add_run K hs.wfe.1 hel, bind_ok (x := writeMass _ none) rfl]
  unfold update
  simp only
  have hg : (guardCart : Py α Unit) (extend K 1 s l) = (.ok (), extend K 1 s l) := by
    have : (extend K 1 s l).cro = false := hc
    simp [guardCart, this]
  rw [bind_ok hg, self_bind]
  have hcl : (extend K 1 s l).cart.length = n + 1 := by simp [extend, hs.cartesian]
  have hwc : writeCols Cart.const Cart.ofList (extend K 1 s l).cart (.slice (some (n : Int)) (some ((n + 1 : Nat) : Int)) 1) (.mat [c]) =
      .ok (writeAt (fun _ c => c) (extend K 1 s l).cart (List.range' n 1) [c]) := by
    unfold writeCols
    rw [hcl, pos_tail]
    rfl
  rw [hwc, liftOk_bind, upd_bind]
  have hw' : WF (n + 1) ({ extend K 1 s l with cart := writeAt (fun _ c => c) (extend K 1 s l).cart (List.range' n 1) [c] } : Orb α) :=
    ⟨by simp [extend, hs.masses], (writeAt_length (fun _ c => c) (extend K 1 s l).cart (List.range' n 1) [c]).trans hcl, by simp [extend, hs.kepler],
      by simp [extend, hs.cachedTrue], by simp [extend, hs.cachedMean], by simp [extend, hs.cartesianFlags], by simp [extend, hs.keplerFlags]⟩
  obtain ⟨s', h, _⟩ := updAfterCart_run K hw' (pos_tail n 1)
  exact ⟨s', h⟩

/-- the anomaly is given beyond a full turn -/
noncomputable def overTurn : Kep ℝ := ⟨7000, 1 / 10, 1, 2, 3, 4 + 2 * Real.pi⟩

theorem state_add_turn (k : Kep ℝ) (mu : ℝ) : ({ k with nu := k.nu + 2 * Real.pi } : Kep ℝ).state mu = k.state mu := by
  simp only [Kep.state, Kep.rx, Kep.ry, Kep.rad, Kep.ux, Kep.uy, Real.cos_add_two_pi, Real.sin_add_two_pi]
  rfl
theorem overTurn_state : overTurn.state 1 = (⟨7000, 1 / 10, 1, 2, 3, 4⟩ : Kep ℝ).state 1 :=
  state_add_turn ⟨7000, 1 / 10, 1, 2, 3, 4⟩ 1

theorem example_larger : Canonical (⟨8000, 1 / 10, 1, 2, 3, 4⟩ : Kep ℝ) :=
  have h := example_ellipse
  ⟨⟨by norm_num, h.e_nonneg, h.i_nonneg, h.i_le, h.on_branch, h.inclined, h.planar, h.ecc_om, h.ecc_om_retro, h.circ_om, h.nu_range,
    h.nu_range_retro⟩, h.e_ne_one⟩

/-- C37, refuted for `add`: in direct mode there is a history after which `add(1, cartesian=..)` changes the Kepler elements
of the orbit that was there before (an anomaly beyond a full turn is replaced by the wrapped one). -/
theorem c37_false (g : KGarbage) : ¬ ∀ (M0 : FX) (kw : InitKw FX) (u0 : Upd FX) (s0 : Orb FX) (ops : List (Op FX)) (k : Nat) (u : Upd FX) (s' : Orb FX),
    init (fxKern g) M0 kw u0 = .ok s0 → add (fxKern g) k u (exec (fxKern g) s0 ops) = (.ok (), s') →
    ∀ l l' : List (Kep FX), (get_kepler (fxKern g) (exec (fxKern g) s0 ops)).1 = .ok l → (get_kepler (fxKern g) s').1 = .ok l' → l <+: l' := by
  intro h
  have hm : (fxKern g).mu 1 1 (fxKern g).zero = .fin 1 := fx_mu g
  have hadm : overTurn.Adm 1 := by
    have := example_ellipse.toCanonicalAny.adm one_pos
    refine ⟨this.1, this.2, this.3, ?_⟩
    have h4 := this.4
    simp only [overTurn, Real.cos_add_two_pi]
    exact h4
  have hc : cartOfKep (fxKern g) .tru .dflt false ((fxKern g).mu 1 1 (fxKern g).zero) overTurn.fx =
      ((⟨7000, 1 / 10, 1, 2, 3, 4⟩ : Kep ℝ).state 1).fx := by
    rw [hm, ← overTurn_state]
    exact kepToCart_fst g.h (deg := false) hadm
  have hset := blank_setKepler (fxKern g) 1 1 .dflt overTurn.fx (kep_fx_any _)
  rw [hc] at hset
  have hex : exec (fxKern g) (blank (fxKern g) 1 1 .dflt) [.setKepler (.mat [overTurn.fx])] =
      single (fxKern g) 1 1 .dflt .tru overTurn.fx ((⟨7000, 1 / 10, 1, 2, 3, 4⟩ : Kep ℝ).state 1).fx true false := by
    rw [exec_cons, hset, exec_nil]
  have hone := single_one (fxKern g) 1 1 .dflt .tru overTurn.fx ((⟨7000, 1 / 10, 1, 2, 3, 4⟩ : Kep ℝ).state 1).fx true false
  obtain ⟨s', hadd⟩ := add_cart_returns (fxKern g) hone rfl ((⟨7000, 1 / 10, 1, 2, 3, 4⟩ : Kep ℝ).state 1).fx
  have hold := h 1 _ _ _ [.setKepler (.mat [overTurn.fx])] 1 { cartesian := some (.mat [((⟨7000, 1 / 10, 1, 2, 3, 4⟩ : Kep ℝ).state 1).fx]) } s'
    (init_blank1 (fxKern g) 1 1 .dflt) (by rw [hex]; exact hadd) [overTurn.fx] s'.kep (by
      rw [hex]
      exact read_val (fxKern g) hone.wfe rfl .kepler) (by
      obtain ⟨h1, h2⟩ := c37_add_partial (fxKern g) _ s' hone _ hadd
      exact read_val (fxKern g) h1.wfe (by
        have : s'.direct = true := h2.settings.2.1
        exact lazy_direct this) .kepler)
  obtain ⟨l, ms, ht, hm1, _, hup⟩ := add_ok (fxKern g) hone hadd
  obtain ⟨_, ps, cs, cs', hp, _, hwr, hf⟩ := update_cartesian_ok (fxKern g) _ s' ht _
    { cartesian := some (.mat [((⟨7000, 1 / 10, 1, 2, 3, 4⟩ : Kep ℝ).state 1).fx]) } _ rfl hup
  rw [pos_tail] at hp
  cases hp
  have hk0 := hf.direct rfl 0 overTurn.fx ((⟨7000, 1 / 10, 1, 2, 3, 4⟩ : Kep ℝ).state 1).fx (fxKern g).zero rfl
    (by rw [show ({ extend (fxKern g) 1 (single (fxKern g) 1 1 .dflt .tru overTurn.fx ((⟨7000, 1 / 10, 1, 2, 3, 4⟩ : Kep ℝ).state 1).fx true false) l with
          m := ms, cart := cs' } : Orb FX).cart = cs' from rfl, hwr.others 0 (not_tail (by omega))]; rfl)
    (by show ms[0]? = _; rw [hm1 rfl]; rfl)
  rw [if_neg (by rw [show ((⟨7000, 1 / 10, 1, 2, 3, 4⟩ : Kep ℝ).state 1).fx.any (fxKern g).isnan = false from cart_fx_any _]; simp)] at hk0
  have hk1 : s'.kep[0]? = some (Kep.fx ⟨7000, 1 / 10, 1, 2, 3, 4⟩) := by
    rw [hk0]
    show some (kepOfCart (fxKern g) .tru false ((fxKern g).mu 1 1 (fxKern g).zero) _) = _
    rw [hm, fx_kepOfCart g example_ellipse one_pos]
  obtain ⟨r, hr⟩ := hold
  rw [← hr] at hk1
  have h2 : overTurn = ⟨7000, 1 / 10, 1, 2, 3, 4⟩ := Kep.fx_inj (by simpa using hk1)
  have h3 : (4 : ℝ) + 2 * Real.pi = 4 := congrArg Kep.nu h2
  have := Real.pi_pos
  linarith

/-- C29, refuted without the restriction of `c29_partial`: `update(a=8000, e=[])` on a direct object raises ValueError after
the semi-major axis has been stored, and the Cartesian state still belongs to the old elements. -/
theorem c29_false (g : KGarbage) : ¬ ∀ (M0 : FX) (kw : InitKw FX) (u0 : Upd FX) (s0 : Orb FX) (ops : List (Op FX)),
    kw.direct = true → init (fxKern g) M0 kw u0 = .ok s0 → (∀ o ∈ ops, o.elementwise = true) →
    Agree (fxKern g) (exec (fxKern g) s0 ops) := by
  intro h
  have hm : (fxKern g).mu 1 1 (fxKern g).zero = .fin 1 := fx_mu g
  have hc : cartOfKep (fxKern g) .tru .dflt false ((fxKern g).mu 1 1 (fxKern g).zero) (Kep.fx ⟨7000, 1 / 10, 1, 2, 3, 4⟩) =
      ((⟨7000, 1 / 10, 1, 2, 3, 4⟩ : Kep ℝ).state 1).fx := by
    rw [hm]; exact fx_cartOfKep g .dflt example_ellipse one_pos
  have hset := blank_setKepler (fxKern g) 1 1 .dflt (Kep.fx ⟨7000, 1 / 10, 1, 2, 3, 4⟩) (kep_fx_any _)
  rw [hc] at hset
  have hone := single_one (fxKern g) 1 1 .dflt .tru (Kep.fx ⟨7000, 1 / 10, 1, 2, 3, 4⟩) ((⟨7000, 1 / 10, 1, 2, 3, 4⟩ : Kep ℝ).state 1).fx true false
  have hupd := c38_false_atomic (fxKern g) _ hone rfl (.fin 8000) [] (by simp) (by simp)
  have hA := h 1 _ _ _ [.setKepler (.mat [Kep.fx ⟨7000, 1 / 10, 1, 2, 3, 4⟩]),
    .update .all { kepEl := fun i => if i = 0 then some (.sc (.fin 8000)) else if i = 1 then some (.vec []) else none }] rfl
    (init_blank1 (fxKern g) 1 1 .dflt) (by
      intro o ho
      simp only [List.mem_cons, List.not_mem_nil, or_false] at ho
      rcases ho with rfl | rfl <;> rfl)
  rw [exec_cons, hset, exec_cons, exec_nil, show ((Op.update .all { kepEl := fun i => if i = 0 then some (.sc (.fin 8000)) else if i = 1 then some (.vec []) else none }).run (fxKern g) _).2 = _ from congrArg Prod.snd hupd] at hA
  have := hA 0 (Kep.fx ⟨8000, 1 / 10, 1, 2, 3, 4⟩) ((⟨7000, 1 / 10, 1, 2, 3, 4⟩ : Kep ℝ).state 1).fx (fxKern g).zero rfl rfl rfl
    (kep_fx_any _) (cart_fx_any _)
  have h7 := fx_kepOfCart g example_ellipse one_pos
  have h8 := fx_kepOfCart g example_larger one_pos
  have hne : (Kep.fx ⟨8000, 1 / 10, 1, 2, 3, 4⟩ : Kep FX) ≠ Kep.fx ⟨7000, 1 / 10, 1, 2, 3, 4⟩ := by
    intro he
    have : (8000 : ℝ) = 7000 := congrArg Kep.a (Kep.fx_inj he)
    norm_num at this
  rcases this with h1 | h1
  · have h2 : ((⟨7000, 1 / 10, 1, 2, 3, 4⟩ : Kep ℝ).state 1).fx =
        cartOfKep (fxKern g) .tru .dflt false ((fxKern g).mu 1 1 (fxKern g).zero) (Kep.fx ⟨8000, 1 / 10, 1, 2, 3, 4⟩) := h1
    rw [hm, fx_cartOfKep g .dflt example_larger one_pos] at h2
    rw [← h2, h7] at h8
    exact hne h8.symm
  · have h2 : (Kep.fx ⟨8000, 1 / 10, 1, 2, 3, 4⟩ : Kep FX) =
        kepOfCart (fxKern g) .tru false ((fxKern g).mu 1 1 (fxKern g).zero) ((⟨7000, 1 / 10, 1, 2, 3, 4⟩ : Kep ℝ).state 1).fx := h1
    rw [hm, h7] at h2
    exact hne h2

/-- cases of the theorems on `delete` and `add`: three orbits, positions 0 and 2 deleted; two orbits added to one -/
example (M0 G x : α) (o : SolverOpts α) : ∃ s, init K M0 { G := G, opts := o, n := 3, direct := false } {} = .ok s ∧ OneEntryPerOrbit s 3 ∧
    Selects 3 (.list [0, -1]) [0, 2] ∧ (∀ ps, ¬ Selects 3 (.mask [true]) ps) ∧
    (∃ t, add K 2 { kepEl := fun i => if i = 0 then some (.sc x) else none, m := some (.vec [x]) } s = (.ok (), t)) ∧
    (∃ t, add K 2 { kepler := some (.sc x) } s = (.ok (), t)) ∧ ∃ t, add K 2 { cartesian := some (.sc x) } s = (.ok (), t) := by
  refine ⟨_, init_plain K M0 _ .tru rfl rfl, ⟨rfl, rfl, rfl, rfl, ⟨_, rfl, rfl⟩, rfl, rfl, rfl⟩, pos_selects.mp rfl,
    (pos_error (e := .indexError) rfl).1, ?_, ?_, ?_⟩
  · exact ⟨_, rfl⟩
  · exact ⟨_, rfl⟩
  · exact ⟨_, rfl⟩

end Orbit
end Pyorb
