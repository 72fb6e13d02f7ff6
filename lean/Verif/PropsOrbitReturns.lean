import Verif.PropsOrbitFrame
import Verif.PropsOrbitSet
import Mathlib.Data.Fintype.Basic
import Mathlib.Tactic.FinCases

/-!
# C64: exactly which calls of `update` succeed
-/

set_option linter.unusedSimpArgs false
set_option linter.unusedVariables false

namespace Pyorb
namespace Orbit
open Py
variable {α : Type} (K : Kern α)

/-- an optional value fits `k` orbits: a scalar, one entry, or one entry per orbit -/
def FitsRow (k : Nat) (v : Option (Val α)) : Prop := ∀ x, v = some x → ∃ vs, x.Row k vs

/-- the call `update(inds, **u)` with single names is acceptable for `n` orbits -/
structure NamesAccepted (n : Nat) (s : Orb α) (inds : Inds) (u : Upd α) : Prop where
  /-- Kepler and Cartesian names are not mixed -/
  unmixed : (∀ i, u.cartEl i = none) ∨ ∀ i, u.kepEl i = none
  /-- the elements are not read-only -/
  kepler : (∃ i, u.kepEl i ≠ none) → s.kro = false
  cartesian : (∃ i, u.cartEl i ≠ none) → s.cro = false
  /-- masses are updated only without direct recalculation -/
  mass : u.m ≠ none → s.direct = false
  /-- the selection exists and every value fits it -/
  values : (u.m ≠ none ∨ (∃ i, u.kepEl i ≠ none) ∨ ∃ i, u.cartEl i ≠ none) →
    ∃ ps, Selects n inds ps ∧ FitsRow ps.length u.m ∧ (∀ i, FitsRow ps.length (u.kepEl i)) ∧ ∀ i, FitsRow ps.length (u.cartEl i)

/-- a value of six elements per orbit fits the selection; a single orbit takes no matrix -/
def Fits6 {C : Type} (get : C → Fin 6 → α) (n : Nat) (inds : Inds) (v : Val6 α C) : Prop :=
  ∃ ps cs, Selects n inds ps ∧ v.Fills get (fun _ => single_index inds) ps.length cs ∧ (single_index inds = true → ∀ cs, v ≠ .mat cs)

theorem guardKep_ok {s : Orb α} (h : s.kro = false) : (guardKep : Py α Unit) s = (.ok (), s) := by
  unfold guardKep; rw [self_bind, h]; rfl
theorem guardCart_ok {s : Orb α} (h : s.cro = false) : (guardCart : Py α Unit) s = (.ok (), s) := by
  unfold guardCart; rw [self_bind, h]; rfl

theorem writeRow_returns {C : Type} {set : C → α → C} {l : List C} {inds : Inds} {v : Val α} {ps : List Nat} {vs : List α}
    (hp : inds.pos l.length = .ok ps) (hv : v.Row ps.length vs) : writeRow set l inds v = .ok (writeAt set l ps vs) := by
  unfold writeRow
  rw [hp]
  show (v.spread ps.length >>= _) = _
  rw [spread_of_row hv]; rfl

theorem updKepRows_returns {n : Nat} {inds : Inds} {u : Fin 6 → Option (Val α)} {ps : List Nat} (hp : inds.pos n = .ok ps)
    (hu : ∀ i, FitsRow ps.length (u i)) : ∀ (is : List (Fin 6)) (s : Orb α), s.kep.length = n →
      ∃ ks, ks.length = n ∧ updKepRows inds u is s = (.ok (), { s with kep := ks }) := by
  intro is
  induction is with
  | nil => exact fun s hk => ⟨s.kep, hk, rfl⟩
  | cons i is ih =>
    intro s hk
    unfold updKepRows
    cases hi : u i with
    | none => exact ih s hk
    | some v =>
      obtain ⟨vs, hv⟩ := hu i v hi
      obtain ⟨ks, h1, h2⟩ := ih { s with kep := writeAt (fun k x => k.set i x) s.kep ps vs } (by rw [writeAt_length]; exact hk)
      refine ⟨ks, h1, ?_⟩
      simp only [updKepRow, bind_assoc', self_bind]
      rw [lift_bind, writeRow_returns (by rw [hk]; exact hp) hv]
      simp only [upd_bind]
      exact h2

theorem updCartRows_returns {n : Nat} {inds : Inds} {u : Fin 6 → Option (Val α)} {ps : List Nat} (hp : inds.pos n = .ok ps)
    (hu : ∀ i, FitsRow ps.length (u i)) : ∀ (is : List (Fin 6)) (s : Orb α), s.cart.length = n →
      ∃ cs, cs.length = n ∧ updCartRows inds u is s = (.ok (), { s with cart := cs }) := by
  intro is
  induction is with
  | nil => exact fun s hk => ⟨s.cart, hk, rfl⟩
  | cons i is ih =>
    intro s hk
    unfold updCartRows
    cases hi : u i with
    | none => exact ih s hk
    | some v =>
      obtain ⟨vs, hv⟩ := hu i v hi
      obtain ⟨ks, h1, h2⟩ := ih { s with cart := writeAt (fun k x => k.set i x) s.cart ps vs } (by rw [writeAt_length]; exact hk)
      refine ⟨ks, h1, ?_⟩
      simp only [updCartRow, bind_assoc', self_bind]
      rw [lift_bind, writeRow_returns (by rw [hk]; exact hp) hv]
      simp only [upd_bind]
      exact h2

theorem up_iff (f : Fin 6 → Option (Val α)) : ((List.finRange 6).any fun i => (f i).isSome) = true ↔ ∃ i, f i ≠ none := by
  rw [List.any_eq_true]
  constructor
  · rintro ⟨i, -, hi⟩
    exact ⟨i, by rw [← Option.isSome_iff_ne_none]; exact hi⟩
  · rintro ⟨i, hi⟩
    exact ⟨i, List.mem_finRange i, Option.isSome_iff_ne_none.mpr hi⟩

theorem updGuard_returns {s : Orb α} {c k : Bool} (h1 : c = true → s.cro = false) (h2 : k = true → s.kro = false) (h3 : (k && c) = false) :
    (updGuard c k : Py α Unit) s = (.ok (), s) := by
  unfold updGuard
  have e1 : (when c guardCart : Py α Unit) s = (.ok (), s) := by
    cases c
    · rfl
    · exact guardCart_ok (h1 rfl)
  have e2 : (when k guardKep : Py α Unit) s = (.ok (), s) := by
    cases k
    · rfl
    · exact guardKep_ok (h2 rfl)
  rw [bind_ok e1, bind_ok e2, h3]; rfl

/-- C64, names: `update(inds, **u)` with the keywords `m` and single elements returns exactly when Kepler and Cartesian names are
not mixed, the named elements are not read-only, masses are given only without direct recalculation, the selection exists and
every value fits it. -/
theorem c64_names {n : Nat} (s : Orb α) (hs : OneEntryPerOrbit s n) (inds : Inds) (u : Upd α) (hc : u.cartesian = none) (hk : u.kepler = none) :
    (∃ s', update K inds u s = (.ok (), s')) ↔ NamesAccepted n s inds u := by
  constructor
  · rintro ⟨s', h⟩
    obtain ⟨ms, h1, h2, h3⟩ := c38_elements_partial K s s' hs inds u hc hk h
    have hmass : u.m ≠ none → s.direct = false := fun hm => by
      obtain ⟨x, hx⟩ := Option.ne_none_iff_exists'.mp hm
      exact (h2 x hx).1
    have none_fits : ∀ k, FitsRow k (none : Option (Val α)) := fun k x hx => by cases hx
    have mfits : ∀ ps, Selects n inds ps → FitsRow ps.length u.m := fun ps hp x hx => by
      obtain ⟨-, ps', vs, hp', hv, -⟩ := h2 x hx
      have := pos_selects.mpr hp
      rw [pos_selects.mpr hp'] at this
      injection this with this
      subst this
      exact ⟨vs, hv⟩
    rcases h3 with ⟨ha, hb, -⟩ | ⟨ha, ⟨i, hi⟩, hro, ps, ks, hp, ⟨vals, -, hv, -⟩, -⟩ | ⟨hb, ⟨i, hi⟩, hro, ps, ks, hp, ⟨vals, -, hv, -⟩, -⟩
    · refine ⟨.inl ha, fun ⟨i, hi⟩ => absurd (hb i) hi, fun ⟨i, hi⟩ => absurd (ha i) hi, hmass, ?_⟩
      rintro (hm | ⟨i, hi⟩ | ⟨i, hi⟩)
      · obtain ⟨x, hx⟩ := Option.ne_none_iff_exists'.mp hm
        obtain ⟨-, ps, vs, hp, -, -⟩ := h2 x hx
        exact ⟨ps, hp, mfits ps hp, fun i => by rw [hb i]; exact none_fits _, fun i => by rw [ha i]; exact none_fits _⟩
      · exact absurd (hb i) hi
      · exact absurd (ha i) hi
    · refine ⟨.inl ha, fun _ => hro, fun ⟨i, hi⟩ => absurd (ha i) hi, hmass, fun _ => ⟨ps, hp, mfits ps hp, fun i x hx => ?_, fun i => by rw [ha i]; exact none_fits _⟩⟩
      obtain ⟨vs, h, -⟩ := hv i x hx
      exact ⟨vs, h⟩
    · refine ⟨.inr hb, fun ⟨i, hi⟩ => absurd (hb i) hi, fun _ => hro, hmass, fun _ => ⟨ps, hp, mfits ps hp, fun i => by rw [hb i]; exact none_fits _, fun i x hx => ?_⟩⟩
      obtain ⟨vs, h, -⟩ := hv i x hx
      exact ⟨vs, h⟩
  · rintro ⟨h1, h2, h3, h4, h5⟩
    have hw := hs.wfe.1
    have ku : u.kepUp = true ↔ ∃ i, u.kepEl i ≠ none := up_iff u.kepEl
    have cu : u.cartUp = true ↔ ∃ i, u.cartEl i ≠ none := up_iff u.cartEl
    unfold update
    rw [hc, hk]
    simp only []
    rw [bind_ok (updGuard_returns (fun h => h3 (cu.mp h)) (fun h => h2 (ku.mp h)) (by
      cases hk' : u.kepUp with
      | false => rfl
      | true =>
        cases hc' : u.cartUp with
        | false => rfl
        | true =>
          obtain ⟨i, hi⟩ := ku.mp hk'
          obtain ⟨j, hj⟩ := cu.mp hc'
          rcases h1 with h | h
          · exact absurd (h j) hj
          · exact absurd (h i) hi))]
    obtain ⟨ms, hml, hm⟩ : ∃ ms, ms.length = n ∧ updM inds u.m s = (.ok (), { s with m := ms }) := by
      cases hum : u.m with
      | none => exact ⟨s.m, hs.masses, rfl⟩
      | some v =>
        obtain ⟨ps, hp, hf, -, -⟩ := h5 (.inl (by rw [hum]; simp))
        obtain ⟨vs, hv⟩ := hf v hum
        refine ⟨writeAt (fun _ x => x) s.m ps vs, by rw [writeAt_length]; exact hs.masses, ?_⟩
        unfold updM
        simp only [self_bind]
        rw [if_neg (by rw [h4 (by rw [hum]; simp)]; simp), lift_bind, writeRow_returns (by rw [hs.masses]; exact pos_selects.mpr hp) hv]
        rfl
    rw [bind_ok hm]
    have hwm : WF n { s with m := ms } := ⟨hml, hw.cart, hw.kep, hw.tA, hw.mA, hw.cartCalc, hw.kepCalc⟩
    cases hc' : u.cartUp with
    | true =>
      obtain ⟨ps, hp, -, -, hf⟩ := h5 (.inr (.inr (cu.mp hc')))
      have hp' := pos_selects.mpr hp
      have hk' : u.kepUp = false := by
        by_contra hne
        obtain ⟨i, hi⟩ := ku.mp (by simpa using hne)
        obtain ⟨j, hj⟩ := cu.mp hc'
        rcases h1 with h | h
        · exact absurd (h j) hj
        · exact absurd (h i) hi
      obtain ⟨cs, hl, hrun⟩ := updCartRows_returns hp' hf (List.finRange 6) { s with m := ms } hwm.cart
      obtain ⟨s', hs', -⟩ := updAfterCart_run K (t := { s with m := ms, cart := cs })
        ⟨hml, hl, hw.kep, hw.tA, hw.mA, hw.cartCalc, hw.kepCalc⟩ hp'
      refine ⟨s', ?_⟩
      unfold updCartEls updKepEls
      rw [if_pos hc', hk']
      simp only [bind_assoc']
      rw [bind_ok hrun, bind_ok hs']
      rfl
    | false =>
      unfold updCartEls updKepEls
      rw [if_neg (by rw [hc']; simp), bind_ok (x := (pure () : Py α Unit)) rfl]
      cases hk' : u.kepUp with
      | false => exact ⟨_, rfl⟩
      | true =>
        obtain ⟨ps, hp, -, hf, -⟩ := h5 (.inr (.inl (ku.mp hk')))
        have hp' := pos_selects.mpr hp
        obtain ⟨cs, hl, hrun⟩ := updKepRows_returns hp' hf (List.finRange 6) { s with m := ms } hwm.kep
        obtain ⟨s', hs', -⟩ := updAfterKep_run K (t := { s with m := ms, kep := cs })
          ⟨hml, hw.cart, hl, hw.tA, hw.mA, hw.cartCalc, hw.kepCalc⟩ hp'
        refine ⟨s', ?_⟩
        rw [if_pos rfl, bind_ok hrun, hs']

theorem one_of_fills {C : Type} {get : C → Fin 6 → α} {const : α → C} {col : List α → Option C} (hcol : ∀ xs, xs.length = 6 → ∃ c, col xs = some c)
    {v : Val6 α C} {n : Nat} {cs : List C} (h : v.Fills get (fun _ => true) n cs) (hm : ∀ cs, v ≠ .mat cs) : ∃ c, v.one const col = .ok c := by
  obtain ⟨-, h⟩ := h
  match v, h, hm with
  | .sc x, _, _ => exact ⟨_, rfl⟩
  | .vec nd xs, .inl ⟨x, h1, _⟩, _ => subst h1; exact ⟨_, rfl⟩
  | .vec nd xs, .inr (.inl ⟨_, h1, _⟩), _ =>
    obtain ⟨c, hc⟩ := hcol xs h1
    match xs, h1, hc with
    | [a, b, d, e, f, g], _, hc => exact ⟨c, by simp only [Val6.one, hc]⟩
  | .vec nd xs, .inr (.inr ⟨h0, _⟩), _ => cases h0
  | .mat cs, _, hm => exact absurd rfl (hm cs)

theorem spread_of_fills {C : Type} {get : C → Fin 6 → α} {const : α → C} {v : Val6 α C} {n : Nat} {cs : List C}
    (h : v.Fills get (fun _ => false) n cs) : ∃ l, v.spread const n = .ok l ∧ l.length = n := by
  obtain ⟨-, h⟩ := h
  match v, h with
  | .sc x, _ => exact ⟨_, rfl, by simp⟩
  | .vec nd xs, .inl ⟨x, h1, _⟩ => subst h1; exact ⟨_, rfl, by simp⟩
  | .vec nd xs, .inr (.inl ⟨h0, _⟩) => cases h0
  | .vec nd xs, .inr (.inr ⟨_, h1, _⟩) =>
    match xs, h1 with
    | [], h1 => exact ⟨_, if_pos h1, by simpa using h1⟩
    | [x], h1 => exact ⟨_, rfl, by simp⟩
    | x :: y :: xs, h1 => exact ⟨_, if_pos h1, by simpa using h1⟩
  | .mat cs, .inl ⟨h1, _⟩ =>
    match cs, h1 with
    | [], h1 => exact ⟨_, if_pos h1, by simpa using h1⟩
    | [x], h1 => exact ⟨_, rfl, by simp⟩
    | x :: y :: xs, h1 => exact ⟨_, if_pos h1, by simpa using h1⟩
  | .mat cs, .inr ⟨c, h1, _⟩ => subst h1; exact ⟨_, rfl, by simp⟩

theorem writeCols_returns {C : Type} {get : C → Fin 6 → α} {const : α → C} {col : List α → Option C} (hcol : ∀ xs, xs.length = 6 → ∃ c, col xs = some c)
    {l : List C} {inds : Inds} {v : Val6 α C} (h : Fits6 get l.length inds v) :
    ∃ l', writeCols const col l inds v = .ok l' ∧ l'.length = l.length := by
  obtain ⟨ps, cs, hp, hf, hm⟩ := h
  unfold writeCols
  rw [pos_selects.mpr hp]
  show ∃ l', (if inds.isInt then _ else _) = Except.ok l' ∧ _
  have hsi : single_index inds = inds.isInt := by cases inds <;> rfl
  cases hi : inds.isInt with
  | true =>
    rw [hsi, hi] at hf hm
    obtain ⟨c, hc⟩ := one_of_fills (const := const) hcol hf (hm rfl)
    refine ⟨writeAt (fun _ c => c) l ps [c], ?_, writeAt_length _ _ _ _⟩
    rw [if_pos rfl, hc]; rfl
  | false =>
    rw [hsi, hi] at hf
    obtain ⟨c, hc, -⟩ := spread_of_fills (const := const) hf
    refine ⟨writeAt (fun _ c => c) l ps c, ?_, writeAt_length _ _ _ _⟩
    rw [if_neg (by simp), hc]; rfl

theorem mat_refused {C : Type} {const : α → C} {col : List α → Option C} {l l' cs : List C} {inds : Inds} (hi : single_index inds = true)
    (h : writeCols const col l inds (.mat cs) = .ok l') : False := by
  have hsi : single_index inds = inds.isInt := by cases inds <;> rfl
  obtain ⟨ps, -, h⟩ := ebind_ok h
  rw [← hsi, hi, if_pos rfl] at h
  cases h

/-- C64, `update(inds, kepler=v)` returns exactly when Kepler elements are not read-only and the value fits the selection; other
keywords do not matter. -/
theorem c64_kepler {n : Nat} (s : Orb α) (hs : OneEntryPerOrbit s n) (inds : Inds) (u : Upd α) (v : Val6 α (Kep α)) (hc : u.cartesian = none)
    (hk : u.kepler = some v) :
    (∃ s', update K inds u s = (.ok (), s')) ↔ s.kro = false ∧ Fits6 Kep.get n inds v := by
  have hw := hs.wfe.1
  constructor
  · rintro ⟨s', h⟩
    obtain ⟨h0, ps, cs, ks, hp, hf, -⟩ := c38_kepler_partial K s s' hs inds u v hc hk h
    refine ⟨h0, ps, cs, hp, hf, fun hi cs he => ?_⟩
    subst he
    unfold update at h
    simp only [hc, hk] at h
    rw [bind_ok (guardKep_ok h0), self_bind, lift_bind] at h
    cases hx : writeCols Kep.const Kep.ofList s.kep inds (.mat cs) with
    | ok l => exact mat_refused hi hx
    | error e => rw [hx] at h; cases h
  · rintro ⟨h0, hf⟩
    obtain ⟨l, h1, h2⟩ := writeCols_returns (const := Kep.const) (col := Kep.ofList) (l := s.kep) (fun xs hx => by
      match xs, hx with
      | [a, b, c, d, e, f], _ => exact ⟨_, rfl⟩) (by rw [hs.kepler]; exact hf)
    obtain ⟨ps, -, hp, -⟩ := hf
    obtain ⟨s', hs', -⟩ := updAfterKep_run K (t := { s with kep := l })
      ⟨hw.m, hw.cart, h2.trans hs.kepler, hw.tA, hw.mA, hw.cartCalc, hw.kepCalc⟩ (pos_selects.mpr hp)
    refine ⟨s', ?_⟩
    unfold update
    simp only [hc, hk]
    rw [bind_ok (guardKep_ok h0), self_bind, lift_bind, h1]
    simp only [upd_bind]
    exact hs'

/-- C64, `update(inds, cartesian=v)` -/
theorem c64_cartesian {n : Nat} (s : Orb α) (hs : OneEntryPerOrbit s n) (inds : Inds) (u : Upd α) (v : Val6 α (Cart α))
    (hc : u.cartesian = some v) :
    (∃ s', update K inds u s = (.ok (), s')) ↔ s.cro = false ∧ Fits6 Cart.get n inds v := by
  have hw := hs.wfe.1
  constructor
  · rintro ⟨s', h⟩
    obtain ⟨h0, ps, cs, ks, hp, hf, -⟩ := c38_cartesian_partial K s s' hs inds u v hc h
    refine ⟨h0, ps, cs, hp, hf, fun hi cs he => ?_⟩
    subst he
    unfold update at h
    simp only [hc] at h
    rw [bind_ok (guardCart_ok h0), self_bind, lift_bind] at h
    cases hx : writeCols Cart.const Cart.ofList s.cart inds (.mat cs) with
    | ok l => exact mat_refused hi hx
    | error e => rw [hx] at h; cases h
  · rintro ⟨h0, hf⟩
    obtain ⟨l, h1, h2⟩ := writeCols_returns (const := Cart.const) (col := Cart.ofList) (l := s.cart) (fun xs hx => by
      match xs, hx with
      | [a, b, c, d, e, f], _ => exact ⟨_, rfl⟩) (by rw [hs.cartesian]; exact hf)
    obtain ⟨ps, -, hp, -⟩ := hf
    obtain ⟨s', hs', -⟩ := updAfterCart_run K (t := { s with cart := l })
      ⟨hw.m, h2.trans hs.cartesian, hw.kep, hw.tA, hw.mA, hw.cartCalc, hw.kepCalc⟩ (pos_selects.mpr hp)
    refine ⟨s', ?_⟩
    unfold update
    simp only [hc]
    rw [bind_ok (guardCart_ok h0), self_bind, lift_bind, h1]
    simp only [upd_bind]
    exact hs'

/-! ## Cases -/

/-- two new values of `e` for the orbits 2 and 0 of three are accepted; three values are not -/
example (s : Orb α) (hs : OneEntryPerOrbit s 3) (h : s.kro = false) (x y z : α) :
    (∃ s', update K (.list [2, 0]) { kepEl := fun i => if i = 1 then some (.vec [x, y]) else none } s = (.ok (), s')) ∧
    ¬ ∃ s', update K (.list [2, 0]) { kepEl := fun i => if i = 1 then some (.vec [x, y, z]) else none } s = (.ok (), s') := by
  have hp : Selects 3 (.list [2, 0]) [2, 0] := pos_selects.mp rfl
  constructor
  · refine (c64_names K s hs _ _ rfl rfl).mpr ⟨.inl fun _ => rfl, fun _ => h, fun ⟨i, hi⟩ => absurd rfl hi, fun hm => absurd rfl hm, fun _ =>
      ⟨_, hp, fun x hx => (by cases hx), fun i w hw => ?_, fun i w hw => (by cases hw)⟩⟩
    by_cases hi : i = 1
    · simp only [hi, if_true, Option.some.injEq] at hw
      subst hw
      exact ⟨[x, y], .inl ⟨rfl, rfl⟩⟩
    · simp [hi] at hw
  · intro h'
    obtain ⟨ps, hp', -, hf, -⟩ := ((c64_names K s hs _ _ rfl rfl).mp h').values (.inr (.inl ⟨1, by simp⟩))
    have := pos_selects.mpr hp'
    rw [pos_selects.mpr hp] at this
    injection this with this
    subst this
    obtain ⟨vs, hv⟩ := hf 1 (.vec [x, y, z]) (by simp)
    rcases hv with ⟨h1, -⟩ | ⟨w, h1, -⟩ <;> simp at h1

/-- one column for all orbits is accepted as `kepler`, but not for the index of one orbit -/
example (s : Orb α) (hs : OneEntryPerOrbit s 3) (h : s.kro = false) (c : Kep α) :
    (∃ s', update K .all { kepler := some (.mat [c]) } s = (.ok (), s')) ∧ ¬ ∃ s', update K (.int 1) { kepler := some (.mat [c]) } s = (.ok (), s') := by
  constructor
  · exact (c64_kepler K s hs _ _ (.mat [c]) rfl rfl).mpr ⟨h, _, List.replicate 3 c, (pos_selects.mp rfl : Selects 3 .all [0, 1, 2]), ⟨rfl, .inr ⟨c, rfl, rfl⟩⟩,
      fun hi => by cases hi⟩
  · intro h'
    obtain ⟨-, ps, cs, -, -, hm⟩ := (c64_kepler K s hs _ _ _ rfl rfl).mp h'
    exact hm rfl _ rfl

end Orbit
end Pyorb
