import Verif.Unit
import Mathlib.Logic.Function.Iterate
import Mathlib.Data.List.Nodup
import Mathlib.Data.List.Count

/-!
# C23, C52: the decorator `angle_units`, for all wrapped functions
-/

set_option linter.unusedSimpArgs false

namespace Pyorb

variable {V : Type}

/-- how often the selection names position `j` of a list of length `n` -/
def timesNamed (n : Nat) (is : List Int) (j : Nat) : Nat := is.countP fun i => pyIndex n i == some j

/-- `xs` with `g` applied to position `j` as often as the selection names it -/
def convertedAt (g : V → V) (is : List Int) (xs : List V) : List V :=
  xs.mapIdx fun j x => g^[timesNamed xs.length is j] x

theorem pyIndex_lt {n : Nat} {i : Int} {j : Nat} (h : pyIndex n i = some j) : j < n := by
  unfold pyIndex at h
  split_ifs at h with h1 h2 h3
  · simp only [Option.some.injEq] at h; omega
  · simp only [Option.some.injEq] at h; omega

theorem convertAt_ok {f : V → Except PyErr V} {g : V → V} (hf : ∀ x, f x = .ok (g x)) (is : List Int) (xs : List V)
    (hi : ∀ i ∈ is, pyIndex xs.length i ≠ none) : convertAt f is xs = .ok (convertedAt g is xs) := by
  induction is generalizing xs with
  | nil =>
    simp only [convertAt, convertedAt, timesNamed, List.countP_nil, Function.iterate_zero, id_eq]
    congr 1
    apply List.ext_getElem <;> simp
  | cons i t ih =>
    obtain ⟨j, hj⟩ := Option.ne_none_iff_exists'.mp (hi i (by simp))
    have hlt := pyIndex_lt hj
    have hx : xs[j]? = some xs[j] := List.getElem?_eq_getElem hlt
    simp only [convertAt, hj, hx, hf, bind, Except.bind]
    rw [ih _ (by intro k hk; simpa using hi k (by simp [hk]))]
    congr 1
    apply List.ext_getElem
    · simp [convertedAt]
    · intro k h1 h2
      simp only [convertedAt, List.getElem_mapIdx, List.length_set, timesNamed, List.countP_cons, hj]
      by_cases hk : j = k
      · subst hk
        simp [List.getElem_set_self, Function.iterate_succ_apply]
      · simp [List.getElem_set_ne hk, hk]

theorem convertAt_index {f : V → Except PyErr V} {g : V → V} (hf : ∀ x, f x = .ok (g x)) (is : List Int) (xs : List V)
    (hi : ∃ i ∈ is, pyIndex xs.length i = none) : convertAt f is xs = .error .indexError := by
  induction is generalizing xs with
  | nil => simp at hi
  | cons i t ih =>
    simp only [convertAt]
    cases hj : pyIndex xs.length i with
    | none => rfl
    | some j =>
      have hx : xs[j]? = some (xs[j]'(pyIndex_lt hj)) := List.getElem?_eq_getElem (pyIndex_lt hj)
      simp only [hx, hf, bind, Except.bind]
      apply ih
      obtain ⟨k, hk, hn⟩ := hi
      rcases List.mem_cons.mp hk with rfl | hk
      · rw [hj] at hn; cases hn
      · exact ⟨k, hk, by simpa using hn⟩

/-- keyword arguments with `g` applied to each value as often as its keyword is listed -/
def convertedKeys (g : V → V) (ks : List String) (kw : List (String × V)) : List (String × V) :=
  kw.map fun p => (p.1, g^[ks.count p.1] p.2)

theorem convertKeys_ok {f : V → Except PyErr V} {g : V → V} (hf : ∀ x, f x = .ok (g x)) (ks : List String)
    (kw : List (String × V)) (hn : (kw.map Prod.fst).Nodup) : convertKeys f ks kw = .ok (convertedKeys g ks kw) := by
  induction ks generalizing kw with
  | nil => simp [convertKeys, convertedKeys]
  | cons k t ih =>
    simp only [convertKeys]
    cases hk : kw.find? (fun p => decide (p.1 = k)) with
    | none =>
      simp only
      rw [ih kw hn]
      congr 1
      apply List.map_congr_left
      intro p hp
      have := List.find?_eq_none.mp hk p hp
      have hne : k ≠ p.1 := by simpa [eq_comm] using this
      simp [List.count_cons, hne]
    | some p =>
      have hp := List.mem_of_find?_eq_some hk
      have hpk : p.1 = k := by simpa using List.find?_some hk
      simp only [hf, bind, Except.bind]
      rw [ih]
      · congr 1
        simp only [convertedKeys, List.map_map]
        apply List.map_congr_left
        intro q hq
        simp only [Function.comp_apply]
        by_cases hqk : q.1 = k
        · have : q = p := by
            have := List.inj_on_of_nodup_map hn hq hp (hqk.trans hpk.symm)
            exact this
          subst this
          simp [hqk, List.count_cons, Function.iterate_succ_apply]
        · have hne : ¬ k = q.1 := fun h => hqk h.symm
          simp [hqk, hne, List.count_cons]
      · have : (kw.map fun q => if q.1 = k then (k, g p.2) else q).map Prod.fst = kw.map Prod.fst := by
          rw [List.map_map]
          apply List.map_congr_left
          intro q _
          simp only [Function.comp_apply]
          split_ifs with h
          · exact h.symm
          · rfl
        rw [this]; exact hn

/-- C23, C52: without `degrees` (explicitly false, or by default) the call is the call of the wrapped function with the
`degrees` keyword removed and everything else untouched. -/
theorem c23_passthrough (w : PyOps V) (func : List V → List (String × V) → Except PyErr V) (inInds : Option (List Int))
    (inKeys : Option (List String)) (out : OutSel) (dflt : Bool) (args : List V) (kwargs : List (String × V))
    (h : (∃ v, kwargs.find? (fun p => p.1 = "degrees") = some ("degrees", v) ∧ w.truthy v = .ok false) ∨
      ((∀ p ∈ kwargs, p.1 ≠ "degrees") ∧ dflt = false)) :
    wrapped w func inInds inKeys out dflt args kwargs = func args (kwargs.filter fun p => p.1 ≠ "degrees") := by
  rcases h with ⟨v, h1, h2⟩ | ⟨h1, rfl⟩
  · simp [wrapped, degreesFlag, h1, h2, bind, Except.bind]
  · have : kwargs.find? (fun p => p.1 = "degrees") = none := List.find?_eq_none.mpr (by simpa using h1)
    simp [wrapped, degreesFlag, this, bind, Except.bind, pure, Except.pure]

/-- the call is in degrees: keyword given and true, or not given and true by default -/
def InDegrees (w : PyOps V) (dflt : Bool) (kwargs : List (String × V)) : Prop :=
  (∃ v, kwargs.find? (fun p => p.1 = "degrees") = some ("degrees", v) ∧ w.truthy v = .ok true) ∨
    ((∀ p ∈ kwargs, p.1 ≠ "degrees") ∧ dflt = true)

/-- what happens to the return value -/
def outConverted (w : PyOps V) (deg : V → V) (out : OutSel) (ret : V) : Except PyErr V :=
  if w.isNone ret then .ok ret
  else match out with
    | .none => .ok ret
    | .bool _ => .ok (deg ret)
    | .inds is => do
      let xs ← w.toList ret
      if is.all (fun i => (pyIndex xs.length i).isSome) then .ok (w.tuple (convertedAt deg is xs)) else .error .indexError

theorem wrapped_degrees (w : PyOps V) (func : List V → List (String × V) → Except PyErr V) (inInds : Option (List Int))
    (inKeys : Option (List String)) (out : OutSel) (dflt : Bool) (args : List V) (kwargs : List (String × V))
    (h : InDegrees w dflt kwargs) : wrapped w func inInds inKeys out dflt args kwargs =
      (do
        let args ← convertArgs w inInds args
        let kwargs ← convertKwargs w inKeys (kwargs.filter fun p => p.1 ≠ "degrees")
        let ret ← func args kwargs
        convertRet w out ret) := by
  rcases h with ⟨v, h1, h2⟩ | ⟨h1, rfl⟩
  · simp [wrapped, degreesFlag, h1, h2, bind, Except.bind]
  · have : kwargs.find? (fun p => p.1 = "degrees") = none := List.find?_eq_none.mpr (by simpa using h1)
    simp [wrapped, degreesFlag, this, bind, Except.bind, pure, Except.pure]

/-- C52: a call in degrees.  The wrapped function is called once, with each positional argument converted to radians as
often as its position is named by the index list, each keyword value as often as its keyword is listed, `degrees` removed,
and its outputs are converted to degrees likewise; exceptions of the function are passed on.  For all functions, argument
lists, keyword sets and selections whose positions exist, on values on which `np.radians`/`np.degrees` succeed. -/
theorem c52_degrees (w : PyOps V) (rad deg : V → V) (hr : ∀ x, w.radians x = .ok (rad x))
    (hd : ∀ x, w.degrees x = .ok (deg x)) (func : List V → List (String × V) → Except PyErr V)
    (inInds : Option (List Int)) (inKeys : Option (List String)) (out : OutSel) (dflt : Bool) (args : List V)
    (kwargs : List (String × V)) (h : InDegrees w dflt kwargs) (hkw : (kwargs.map Prod.fst).Nodup)
    (hi : ∀ i ∈ inInds.getD [], pyIndex args.length i ≠ none) :
    wrapped w func inInds inKeys out dflt args kwargs =
      (func (convertedAt rad (inInds.getD []) args)
        (convertedKeys rad (inKeys.getD []) (kwargs.filter fun p => p.1 ≠ "degrees"))).bind (outConverted w deg out) := by
  rw [wrapped_degrees w func inInds inKeys out dflt args kwargs h]
  have h1 : convertArgs w inInds args = .ok (convertedAt rad (inInds.getD []) args) := by
    cases inInds with
    | none =>
      have := convertAt_ok hr [] args (by simp)
      simp only [convertAt] at this
      simpa [convertArgs, convertKwargs] using this
    | some is => exact convertAt_ok hr is args hi
  have hf : ((kwargs.filter fun p => decide (p.1 ≠ "degrees")).map Prod.fst).Nodup :=
    (List.Sublist.map _ List.filter_sublist).nodup hkw
  have h2 : convertKwargs w inKeys (kwargs.filter fun p => p.1 ≠ "degrees") =
      .ok (convertedKeys rad (inKeys.getD []) (kwargs.filter fun p => p.1 ≠ "degrees")) := by
    cases inKeys with
    | none =>
      have := convertKeys_ok hr [] _ hf
      simp only [convertKeys] at this
      simpa [convertArgs, convertKwargs] using this
    | some ks => exact convertKeys_ok hr ks _ hf
  simp only [h1, h2]
  simp only [bind, Except.bind]
  cases func (convertedAt rad (inInds.getD []) args)
      (convertedKeys rad (inKeys.getD []) (kwargs.filter fun p => p.1 ≠ "degrees")) with
  | error e => rfl
  | ok ret =>
    simp only [outConverted, convertRet]
    by_cases hnone : w.isNone ret = true
    · simp [hnone, pure, Except.pure]
    · simp only [hnone, Bool.false_eq_true, if_false]
      cases out with
      | none => rfl
      | bool b => simp [hd]
      | inds is =>
        simp only [bind, Except.bind]
        cases w.toList ret with
        | error e => rfl
        | ok xs =>
          simp only
          by_cases hall : is.all (fun i => (pyIndex xs.length i).isSome) = true
          · rw [convertAt_ok hd is xs (by
              intro i hi hnone
              have := List.all_eq_true.mp hall i hi
              rw [hnone] at this; simp at this)]
            simp [hall, pure, Except.pure]
          · rw [convertAt_index hd is xs (by
              by_contra hcon
              apply hall
              rw [List.all_eq_true]
              intro i hi
              rw [Option.isSome_iff_ne_none]
              exact fun hn => hcon ⟨i, hi, hn⟩)]
            simp [hall]

/-- C52: a selected position that the caller did not pass positionally is an IndexError, raised before the function is
called (the result does not depend on it). -/
theorem c52_index (w : PyOps V) (rad : V → V) (hr : ∀ x, w.radians x = .ok (rad x))
    (func : List V → List (String × V) → Except PyErr V) (is : List Int) (inKeys : Option (List String)) (out : OutSel)
    (dflt : Bool) (args : List V) (kwargs : List (String × V)) (h : InDegrees w dflt kwargs)
    (hi : ∃ i ∈ is, pyIndex args.length i = none) :
    wrapped w func (some is) inKeys out dflt args kwargs = .error .indexError := by
  rw [wrapped_degrees w func _ inKeys out dflt args kwargs h]
  simp only [convertArgs, convertAt_index hr is args hi]
  rfl

/-- a selection naming distinct positions -/
def Distinct (n : Nat) (is : List Int) : Prop := (is.map (pyIndex n)).Nodup

theorem timesNamed_distinct {n : Nat} {is : List Int} (h : Distinct n is) (j : Nat) :
    timesNamed n is j = if some j ∈ is.map (pyIndex n) then 1 else 0 := by
  have h1 : timesNamed n is j = (is.map (pyIndex n)).count (some j) := by
    simp only [timesNamed, List.count, List.countP_map]
    rfl
  rw [h1]
  split_ifs with hm
  · exact List.count_eq_one_of_mem h hm
  · exact List.count_eq_zero_of_not_mem hm

/-- C23 restricted to selections without repetition: each selected value is converted once, all others are unchanged. -/
theorem c23_once_partial (n : Nat) (g : V → V) (is : List Int) (xs : List V) (hn : xs.length = n) (h : Distinct n is)
    (j : Nat) (hj : j < n) : (convertedAt g is xs)[j]? =
      some (if some j ∈ is.map (pyIndex n) then g (xs[j]'(hn ▸ hj)) else xs[j]'(hn ▸ hj)) := by
  subst hn
  simp only [convertedAt, List.getElem?_mapIdx, List.getElem?_eq_getElem hj, Option.map_some]
  rw [timesNamed_distinct h]
  split_ifs <;> simp

/-- C23 likewise for keywords. -/
theorem c23_keys_once_partial (g : V → V) (ks : List String) (kw : List (String × V)) (h : ks.Nodup) :
    convertedKeys g ks kw = kw.map fun p => (p.1, if p.1 ∈ ks then g p.2 else p.2) := by
  apply List.map_congr_left
  intro p _
  split_ifs with hm
  · simp [List.count_eq_one_of_mem h hm]
  · simp [List.count_eq_zero_of_not_mem hm]

/-- values that are integers; conversions shift by one, so that repeated conversion shows -/
def countOps : PyOps Int where
  radians x := .ok (x - 1)
  degrees x := .ok (x + 1)
  truthy x := .ok (x ≠ 0)
  toList x := .ok [x, x]
  tuple xs := xs.foldl (fun a b => 10 * a + b) 0
  isNone _ := false

/-- C23 fails for a repeated index (the argument 0 and its alias -1 of a one-argument call are converted twice), and for
`out_arg_inds=False`, which converts the output although nothing is selected. -/
theorem c23_repeated :
    wrapped countOps (fun a _ => .ok (a.getD 0 0)) (some [0, -1]) none .none true [5] [] = .ok 3 ∧
    wrapped countOps (fun a _ => .ok (a.getD 0 0)) none none (.bool false) true [5] [] = .ok 6 := by
  constructor <;> rfl

/-- a non-trivial case of `c52_degrees` -/
example : InDegrees countOps false [("degrees", 1), ("nu", 4)] ∧ ([("degrees", (1 : Int)), ("nu", 4)].map Prod.fst).Nodup ∧
    ∀ i ∈ (some [(1 : Int), -1]).getD [], pyIndex [(7 : Int), 8, 9].length i ≠ none := by
  refine ⟨.inl ⟨1, rfl, rfl⟩, by decide, by decide⟩
example : Distinct 3 [1, -1] := by unfold Distinct; decide

end Pyorb
