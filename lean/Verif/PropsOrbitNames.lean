import Mathlib.Data.List.TakeWhile
import Verif.OrbitNames
import Verif.PropsOrbitType
import Verif.PropsOrbitInit

/-!
# Names of anomaly types (C95)
-/

namespace Pyorb
namespace Orbit
variable {α : Type} (K : Kern α)

/-- the documented names -/
def typeName : Anom → String
  | .tru => "true"
  | .ecc => "eccentric"
  | .mean => "mean"

/-- only ASCII characters -/
def Ascii (s : List Char) : Prop := ∀ c ∈ s, c.toNat < 128

/-- one of tab, line feed, vertical tab, form feed, carriage return, the four information separators and the space -/
def Blank (c : Char) : Prop := c.toNat ∈ [9, 10, 11, 12, 13, 28, 29, 30, 31, 32]

/-- `s` is a name of the type `t` in any mixture of cases, with blanks around it -/
def Spells (s : List Char) (t : Anom) : Prop :=
  ∃ l name r, s = l ++ name ++ r ∧ (∀ c ∈ l, Blank c) ∧ (∀ c ∈ r, Blank c) ∧ name.map Char.toLower = (typeName t).toList

theorem blank_iff (sp : Char → Bool) {c : Char} (h : c.toNat < 128) : isSpace sp c = true ↔ Blank c := by
  unfold isSpace Blank
  rw [if_pos h, decide_eq_true_eq]
  simp only [List.mem_cons, List.not_mem_nil, or_false]
  omega

theorem lower_ascii (ext : Char → List Char) {s : List Char} (h : Ascii s) : lower ext s = s.map Char.toLower := by
  unfold lower
  rw [List.map_eq_flatMap]
  refine List.flatMap_congr fun c hc => ?_
  rw [lowerChar, if_pos (h c hc)]

theorem toLower_toNat (c : Char) : (65 ≤ c.toNat ∧ c.toNat ≤ 90 ∧ c.toLower.toNat = c.toNat + 32) ∨ c.toLower = c := by
  unfold Char.toLower
  split
  · rename_i h
    left
    have h1 : 65 ≤ c.toNat := h.1
    have h2 : c.toNat ≤ 90 := h.2
    refine ⟨h1, h2, ?_⟩
    show (c.val + ('a'.val - 'A'.val)).toNat = _
    rw [UInt32.toNat_add]
    show (c.toNat + 32) % 2 ^ 32 = _
    omega
  · right; rfl

theorem toLower_ascii {c : Char} (h : c.toNat < 128) : c.toLower.toNat < 128 := by
  rcases toLower_toNat c with ⟨-, h2, h3⟩ | h1
  · omega
  · rw [h1]; exact h

theorem toLower_blank {c : Char} : Blank c.toLower ↔ Blank c := by
  rcases toLower_toNat c with ⟨h1, h2, h3⟩ | h
  · unfold Blank
    simp only [List.mem_cons, List.not_mem_nil, or_false]
    omega
  · rw [h]

/-- what `strip` removes -/
theorem strip_split (sp : Char → Bool) (s : List Char) :
    ∃ l r, s = l ++ strip sp s ++ r ∧ (∀ c ∈ l, isSpace sp c = true) ∧ (∀ c ∈ r, isSpace sp c = true) := by
  refine ⟨s.takeWhile (isSpace sp), ((s.dropWhile (isSpace sp)).reverse.takeWhile (isSpace sp)).reverse, ?_, fun c hc => List.mem_takeWhile_imp hc,
    fun c hc => List.mem_takeWhile_imp (List.mem_reverse.mp hc)⟩
  unfold strip
  rw [List.append_assoc, ← List.reverse_append, List.takeWhile_append_dropWhile, List.reverse_reverse, List.takeWhile_append_dropWhile]

/-- a text that begins and ends with other characters is what `strip` leaves -/
theorem strip_core (sp : Char → Bool) {l n r : List Char} (hl : ∀ c ∈ l, isSpace sp c = true) (hr : ∀ c ∈ r, isSpace sp c = true)
    (hn : ∀ c ∈ n, isSpace sp c = false) : strip sp (l ++ n ++ r) = n := by
  unfold strip
  rw [List.append_assoc, List.dropWhile_append_of_pos hl]
  cases n with
  | nil =>
    rw [List.nil_append, List.dropWhile_eq_nil_iff.mpr hr]; rfl
  | cons a n =>
    rw [List.cons_append, List.dropWhile_cons_of_neg (by rw [hn a (by simp)]; simp), ← List.cons_append, List.reverse_append,
      List.dropWhile_append_of_pos (fun c hc => hr c (List.mem_reverse.mp hc))]
    have : (a :: n).reverse.dropWhile (isSpace sp) = (a :: n).reverse := by
      refine List.dropWhile_eq_self_iff.mpr fun hlen => ?_
      rw [hn _ (List.mem_reverse.mp (List.getElem_mem hlen))]; simp
    rw [this, List.reverse_reverse]

theorem anomalyOf_iff (s : List Char) (t : Anom) : anomalyOf s = some t ↔ s = (typeName t).toList := by
  unfold anomalyOf anomalyNames
  constructor
  · intro h
    simp only [List.lookup] at h
    split at h
    · rename_i h1; cases h; exact beq_iff_eq.mp h1
    · split at h
      · rename_i h1; cases h; exact beq_iff_eq.mp h1
      · split at h
        · rename_i h1; cases h; exact beq_iff_eq.mp h1
        · cases h
  · rintro rfl
    cases t <;> rfl

theorem name_no_space (sp : Char → Bool) (t : Anom) : ∀ c ∈ (typeName t).toList, isSpace sp c = false := by
  cases t <;> simp [typeName, isSpace]

/-- which strings the setter takes for the name of `t` -/
theorem setter_name (ext : Char → List Char) (sp : Char → Bool) {s : List Char} (hs : Ascii s) (t : Anom) :
    anomalyOf (strip sp (lower ext s)) = some t ↔ Spells s t := by
  rw [anomalyOf_iff, lower_ascii ext hs]
  have hb : ∀ c : Char, c.toNat < 128 → (isSpace sp c.toLower = true ↔ Blank c) := fun c hc => (blank_iff sp (toLower_ascii hc)).trans toLower_blank
  constructor
  · intro h
    obtain ⟨l, r, h1, h2, h3⟩ := strip_split sp (s.map Char.toLower)
    rw [h, List.map_eq_append_iff] at h1
    obtain ⟨x, r', rfl, hx, rfl⟩ := h1
    rw [List.map_eq_append_iff] at hx
    obtain ⟨l', n', rfl, rfl, hn⟩ := hx
    refine ⟨l', n', r', rfl, fun c hc => (hb c (hs c (by simp [hc]))).mp (h2 _ (List.mem_map_of_mem hc)),
      fun c hc => (hb c (hs c (by simp [hc]))).mp (h3 _ (List.mem_map_of_mem hc)), hn⟩
  · rintro ⟨l, n, r, rfl, hl, hr, hn⟩
    rw [List.map_append, List.map_append, hn]
    refine strip_core sp ?_ ?_ (name_no_space sp t)
    · intro c hc
      obtain ⟨d, hd, rfl⟩ := List.mem_map.mp hc
      exact (hb d (hs d (by simp [hd]))).mpr (hl d hd)
    · intro c hc
      obtain ⟨d, hd, rfl⟩ := List.mem_map.mp hc
      exact (hb d (hs d (by simp [hd]))).mpr (hr d hd)

/-- C95, setter: for every ASCII string that spells the type `t` (any case, blanks around it), on every object whose Kepler elements may be
written: the assignment succeeds, the type is `t` afterwards, and if it was `t` before nothing changes at all. -/
theorem c95_accepts {n : Nat} (ext : Char → List Char) (sp : Char → Bool) (o : Orb α) (ho : OneEntryPerOrbit o n) (hr : o.kro = false)
    (s : List Char) (hs : Ascii s) (t : Anom) (h : Spells s t) :
    ∃ o', set_type_name K ext sp s o = (.ok (), o') ∧ o'.type = t ∧ (o.type = t → o' = o) := by
  have e : set_type_name K ext sp s = set_type K (some t) := by rw [set_type_name, (setter_name ext sp hs t).mpr h]
  by_cases ht : o.type = t
  · exact ⟨o, by rw [e, set_type_same K t ht], ht, fun _ => rfl⟩
  · obtain ⟨-, -, o', -, -, h1, h2, -⟩ := c30_kepler_partial K o ho hr t
    exact ⟨o', by rw [e, h1], h2, fun h => absurd h ht⟩

/-- C95, setter, other strings: an ASCII string that spells no type is refused with a ValueError and changes nothing. -/
theorem c95_refuses (ext : Char → List Char) (sp : Char → Bool) (o : Orb α) (s : List Char) (hs : Ascii s) (h : ∀ t, ¬ Spells s t) :
    set_type_name K ext sp s o = (.error .valueError, o) := by
  have : anomalyOf (strip sp (lower ext s)) = none := by
    cases hx : anomalyOf (strip sp (lower ext s)) with
    | none => rfl
    | some t => exact absurd ((setter_name ext sp hs t).mp hx) (h t)
  rw [set_type_name, this]; rfl

/-- C95: no string spells two types. -/
theorem c95_unique (s : List Char) (hs : Ascii s) (t t' : Anom) (h : Spells s t) (h' : Spells s t') : t = t' := by
  have h1 := (setter_name (fun _ => []) (fun _ => false) hs t).mpr h
  have h2 := (setter_name (fun _ => []) (fun _ => false) hs t').mpr h'
  rw [h1] at h2
  exact Option.some.inj h2

/-- C95, constructor: it takes the three names only as they are written in the documentation; any other string, such as a name with a
capital letter or a blank, is refused with a ValueError. -/
theorem c95_constructor (M0 : α) (s : List Char) (kw : InitKw α) (u : Upd α) :
    (∀ t, s = (typeName t).toList → init_name K M0 s kw u = init K M0 { kw with type := some t } u) ∧
    ((∀ t, s ≠ (typeName t).toList) → init_name K M0 s kw u = .error .valueError) := by
  refine ⟨fun t h => by rw [init_name, (anomalyOf_iff s t).mpr h], fun h => ?_⟩
  refine c63_unknown_type K M0 _ u ?_
  show anomalyOf s = none
  cases hx : anomalyOf s with
  | none => rfl
  | some t => exact absurd ((anomalyOf_iff s t).mp hx) (h t)

/-- a case: `" Mean\n"` is ASCII and spells the mean anomaly; the constructor refuses it -/
example : Ascii [' ', 'M', 'e', 'a', 'n', '\n'] ∧ Spells [' ', 'M', 'e', 'a', 'n', '\n'] .mean ∧ ∀ t, [' ', 'M', 'e', 'a', 'n', '\n'] ≠ (typeName t).toList := by
  refine ⟨?_, ⟨[' '], ['M', 'e', 'a', 'n'], ['\n'], rfl, ?_, ?_, by decide⟩, ?_⟩
  · unfold Ascii; decide
  · simp [Blank]
  · simp [Blank]
  · intro t; cases t <;> decide

/-- a case: `"tru e"` spells no type -/
example : Ascii ['t', 'r', 'u', ' ', 'e'] ∧ ∀ t, ¬ Spells ['t', 'r', 'u', ' ', 'e'] t := by
  refine ⟨by unfold Ascii; decide, fun t h => ?_⟩
  have := (setter_name (fun _ => []) (fun _ => false) (by unfold Ascii; decide) t).mpr h
  revert this
  cases t <;> decide

end Orbit
end Pyorb
