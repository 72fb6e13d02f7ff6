import Verif.Unit
import Verif.FX

/-!
# C22-C25: units and constants
-/

set_option linter.unusedSimpArgs false

namespace Pyorb
open FX

/-! ## C22: `get_G` -/

/-- the SI sizes of the documented mass units, by lower-case name without separators -/
noncomputable def massTable : List (String × ℝ) := [("kg", 1), ("g", 1 / 1000), ("msun", 1.98847e30), ("msol", 1.98847e30)]
/-- the SI sizes of the documented time units -/
noncomputable def timeTable : List (String × ℝ) := [("s", 1), ("h", 3600), ("d", 86400), ("y", 31557600)]
/-- the SI sizes of the documented length units -/
noncomputable def lengthTable : List (String × ℝ) :=
  [("m", 1), ("cm", 1 / 100), ("km", 1000), ("au", 1.495978707e11), ("pc", 3.08567758149137e16)]

/-- `s` differs from the lower-case name `n` only in the case of letters -/
def SameUpToCase (s n : List Char) : Prop := List.Forall₂ (fun c d => c = d ∨ c = d.toUpper) s n

/-- the characters ignored in a mass unit -/
def isSep (c : Char) : Bool := c = '_' || c = ' ' || c = '-'

/-- the argument stands for a unit of SI size `x`: a float of that value, or a name from the table in any letter case
(for masses with separators anywhere) -/
def StandsFor (table : List (String × ℝ)) (dropSep : Bool) (a : UnitArg FX) (x : ℝ) : Prop :=
  a = .pyFloat (fin x) ∨ a = .npFloat (fin x) ∨
  ∃ s n, a = .str s ∧ (n, x) ∈ table ∧ SameUpToCase (if dropSep then s.filter (fun c => !isSep c) else s) n.toList

/-- all characters of the unit names -/
def unitChars : List Char := ['a', 'c', 'd', 'g', 'h', 'k', 'l', 'm', 'n', 'o', 'p', 's', 'u', 'y']

theorem lower_unit {c d : Char} (ext : Char → List Char) (hd : d ∈ unitChars) (h : c = d ∨ c = d.toUpper) :
    lowerChar ext c = [d] := by
  simp only [unitChars, List.mem_cons, List.not_mem_nil, or_false] at hd
  rcases hd with rfl | rfl | rfl | rfl | rfl | rfl | rfl | rfl | rfl | rfl | rfl | rfl | rfl | rfl <;>
    rcases h with rfl | rfl <;> rfl

theorem lower_of_same (ext : Char → List Char) {s n : List Char} (h : SameUpToCase s n) (hn : ∀ c ∈ n, c ∈ unitChars) :
    lower ext s = n := by
  induction h with
  | nil => rfl
  | @cons c d s n hcd _ ih =>
    simp only [lower, List.flatMap_cons]
    rw [lower_unit ext (hn d (by simp)) hcd]
    have := ih fun c hc => hn c (by simp [hc])
    simp only [lower] at this
    rw [this]; rfl

theorem dropSeps_eq (s : List Char) : dropSeps s = s.filter fun c => !isSep c := by
  simp only [dropSeps, List.filter_filter]
  apply List.filter_congr
  intro c _
  by_cases h1 : c = '_' <;> by_cases h2 : c = ' ' <;> by_cases h3 : c = '-' <;> simp_all [isSep]

theorem isSep_iff (c : Char) : isSep c = true ↔ c = '_' ∨ c = ' ' ∨ c = '-' := by
  simp [isSep, or_assoc]

/-- lower-casing and removing separators commute when the non-separator part is a unit name -/
theorem dropSeps_lower (ext : Char → List Char) (s n : List Char) (h : SameUpToCase (s.filter fun c => !isSep c) n)
    (hn : ∀ c ∈ n, c ∈ unitChars) : dropSeps (lower ext s) = n := by
  rw [dropSeps_eq]
  induction s generalizing n with
  | nil =>
    simp at h
    cases h; rfl
  | cons c t ih =>
    by_cases hc : isSep c = true
    · simp only [List.filter_cons, hc, Bool.not_true, Bool.false_eq_true, if_false] at h
      have h2 := ih n h hn
      have h3 : lowerChar ext c = [c] := by
        rcases (isSep_iff c).mp hc with rfl | rfl | rfl <;> rfl
      simp only [lower, List.flatMap_cons, h3] at h2 ⊢
      simp only [List.singleton_append, List.filter_cons, hc, Bool.not_true, Bool.false_eq_true, if_false]
      exact h2
    · have hc' : isSep c = false := by simpa using hc
      simp only [List.filter_cons, hc', Bool.not_false, if_true] at h
      cases h with
      | @cons _ d _ n' hcd ht =>
        have h2 := ih n' ht fun c hc => hn c (by simp [hc])
        have hd := hn d (by simp)
        have h3 := lower_unit ext hd hcd
        have h4 : isSep d = false := by
          simp only [unitChars, List.mem_cons, List.not_mem_nil, or_false] at hd
          rcases hd with rfl | rfl | rfl | rfl | rfl | rfl | rfl | rfl | rfl | rfl | rfl | rfl | rfl | rfl <;> rfl
        simp only [lower, List.flatMap_cons, h3] at h2 ⊢
        simp only [List.singleton_append, List.filter_cons, h4, Bool.not_false, if_true, h2]

theorem mass_value (ext : Char → List Char) {a : UnitArg FX} {x : ℝ} (h : StandsFor massTable true a x) :
    ∃ b, unitValue (fun s => dropSeps (lower ext s)) massUnit a = .ok (fin x, b) ∧ (b = true ↔ a = .npFloat (fin x)) := by
  rcases h with rfl | rfl | ⟨s, n, rfl, hm, hs⟩
  · exact ⟨_, rfl, by simp⟩
  · exact ⟨_, rfl, by simp⟩
  · refine ⟨false, ?_, by simp⟩
    simp only [massTable, List.mem_cons, Prod.mk.injEq, List.not_mem_nil, or_false] at hm
    simp only [if_true] at hs
    rcases hm with ⟨rfl, rfl⟩ | ⟨rfl, rfl⟩ | ⟨rfl, rfl⟩ | ⟨rfl, rfl⟩ <;>
      simp only [unitValue, dropSeps_lower ext s _ hs (by decide)] <;>
      simp [massUnit, constMsol] <;> norm_num

theorem time_value (ext : Char → List Char) {a : UnitArg FX} {x : ℝ} (h : StandsFor timeTable false a x) :
    ∃ b, unitValue (lower ext) timeUnit a = .ok (fin x, b) ∧ (b = true ↔ a = .npFloat (fin x)) := by
  rcases h with rfl | rfl | ⟨s, n, rfl, hm, hs⟩
  · exact ⟨_, rfl, by simp⟩
  · exact ⟨_, rfl, by simp⟩
  · refine ⟨false, ?_, by simp⟩
    simp only [timeTable, List.mem_cons, Prod.mk.injEq, List.not_mem_nil, or_false] at hm
    simp only [Bool.false_eq_true, if_false] at hs
    rcases hm with ⟨rfl, rfl⟩ | ⟨rfl, rfl⟩ | ⟨rfl, rfl⟩ | ⟨rfl, rfl⟩ <;>
      simp only [unitValue, lower_of_same ext hs (by decide)] <;>
      simp [timeUnit] <;> norm_num

theorem length_value (ext : Char → List Char) {a : UnitArg FX} {x : ℝ} (h : StandsFor lengthTable false a x) :
    ∃ b, unitValue (lower ext) lengthUnit a = .ok (fin x, b) ∧ (b = true ↔ a = .npFloat (fin x)) := by
  rcases h with rfl | rfl | ⟨s, n, rfl, hm, hs⟩
  · exact ⟨_, rfl, by simp⟩
  · exact ⟨_, rfl, by simp⟩
  · refine ⟨false, ?_, by simp⟩
    simp only [lengthTable, List.mem_cons, Prod.mk.injEq, List.not_mem_nil, or_false] at hm
    simp only [Bool.false_eq_true, if_false] at hs
    rcases hm with ⟨rfl, rfl⟩ | ⟨rfl, rfl⟩ | ⟨rfl, rfl⟩ | ⟨rfl, rfl⟩ | ⟨rfl, rfl⟩ <;>
      simp only [unitValue, lower_of_same ext hs (by decide)] <;>
      simp [lengthUnit, constAU] <;> norm_num

/-- C22: the value of `get_G` for all units, given by name (any letter case, separators in the mass) or as floats, with a
non-zero length unit; `ext` is the unmodelled action of `str.lower` on non-ASCII characters. -/
theorem c22_value (ext : Char → List Char) (length mass time : UnitArg FX) (l m t : ℝ)
    (hl : StandsFor lengthTable false length l) (hm : StandsFor massTable true mass m)
    (ht : StandsFor timeTable false time t) (h0 : l ≠ 0) :
    get_G ext length mass time = .ok (fin (6.6743e-11 * m * t ^ 2 / l ^ 3)) := by
  obtain ⟨b1, h1, -⟩ := mass_value ext hm
  obtain ⟨b2, h2, -⟩ := time_value ext ht
  obtain ⟨b3, h3, -⟩ := length_value ext hl
  have h4 : l ^ 3 ≠ 0 := pow_ne_zero 3 h0
  simp only [get_G, h1, h2, h3, bind, Except.bind, cube_fin, zero_fin, eq_fin, h4, decide_false, Bool.false_and,
    Bool.false_eq_true, if_false, pure, Except.pure, sq_fin, mul_fin, div_fin h4, constG, lit_fin]
  congr 2
  push_cast
  ring

/-- C22: a zero length unit: ZeroDivisionError, unless a numpy scalar takes part in the quotient. -/
theorem c22_zero_length (ext : Char → List Char) (mass time : UnitArg FX) (m t : ℝ)
    (hm : StandsFor massTable true mass m) (ht : StandsFor timeTable false time t)
    (hm' : mass ≠ .npFloat (fin m)) (ht' : time ≠ .npFloat (fin t)) :
    get_G ext (.pyFloat (fin 0)) mass time = .error .zeroDivisionError := by
  obtain ⟨b1, h1, hb1⟩ := mass_value ext hm
  obtain ⟨b2, h2, hb2⟩ := time_value ext ht
  have e1 : b1 = false := by cases b1; rfl; exact absurd (hb1.mp rfl) hm'
  have e2 : b2 = false := by cases b2; rfl; exact absurd (hb2.mp rfl) ht'
  subst e1 e2
  have h3 : unitValue (lower ext) lengthUnit (.pyFloat (fin 0)) = .ok (fin 0, false) := rfl
  simp [get_G, h1, h2, h3, bind, Except.bind]

/-- a string that `str.lower` does not turn into one of the names -/
def NotAName (ext : Char → List Char) (dropSep : Bool) (table : List (String × ℝ)) (s : List Char) : Prop :=
  ∀ p ∈ table, (if dropSep then (lower ext s).filter (fun c => !isSep c) else lower ext s) ≠ p.1.toList

/-- an argument that stands for no unit: neither a string nor a float, or an unknown name -/
def NoUnit (ext : Char → List Char) (dropSep : Bool) (table : List (String × ℝ)) : UnitArg FX → Prop
  | .other => True
  | .str s => NotAName ext dropSep table s
  | _ => False

theorem mass_reject (ext : Char → List Char) {a : UnitArg FX} (h : NoUnit ext true massTable a) :
    unitValue (fun s => dropSeps (lower ext s)) massUnit a = .error .typeError := by
  cases a with
  | other => rfl
  | pyFloat x => exact h.elim
  | npFloat x => exact h.elim
  | str s =>
    simp only [NoUnit, NotAName, massTable, List.mem_cons, List.not_mem_nil, or_false, if_true, forall_eq_or_imp, forall_eq,
      ← dropSeps_eq] at h
    obtain ⟨h1, h2, h3, h4⟩ := h
    have h1 : dropSeps (lower ext s) ≠ ['k', 'g'] := h1
    have h2 : dropSeps (lower ext s) ≠ ['g'] := h2
    have h3 : dropSeps (lower ext s) ≠ ['m', 's', 'u', 'n'] := h3
    have h4 : dropSeps (lower ext s) ≠ ['m', 's', 'o', 'l'] := h4
    simp [unitValue, massUnit, h1, h2, h3, h4]

theorem time_reject (ext : Char → List Char) {a : UnitArg FX} (h : NoUnit ext false timeTable a) :
    unitValue (lower ext) timeUnit a = .error .typeError := by
  cases a with
  | other => rfl
  | pyFloat x => exact h.elim
  | npFloat x => exact h.elim
  | str s =>
    simp only [NoUnit, NotAName, timeTable, List.mem_cons, List.not_mem_nil, or_false, Bool.false_eq_true, if_false,
      forall_eq_or_imp, forall_eq] at h
    obtain ⟨h1, h2, h3, h4⟩ := h
    have h1 : lower ext s ≠ ['s'] := h1
    have h2 : lower ext s ≠ ['h'] := h2
    have h3 : lower ext s ≠ ['d'] := h3
    have h4 : lower ext s ≠ ['y'] := h4
    simp [unitValue, timeUnit, h1, h2, h3, h4]

theorem length_reject (ext : Char → List Char) {a : UnitArg FX} (h : NoUnit ext false lengthTable a) :
    unitValue (lower ext) lengthUnit a = .error .typeError := by
  cases a with
  | other => rfl
  | pyFloat x => exact h.elim
  | npFloat x => exact h.elim
  | str s =>
    simp only [NoUnit, NotAName, lengthTable, List.mem_cons, List.not_mem_nil, or_false, Bool.false_eq_true, if_false,
      forall_eq_or_imp, forall_eq] at h
    obtain ⟨h1, h2, h3, h4, h5⟩ := h
    have h1 : lower ext s ≠ ['m'] := h1
    have h2 : lower ext s ≠ ['c', 'm'] := h2
    have h3 : lower ext s ≠ ['k', 'm'] := h3
    have h4 : lower ext s ≠ ['a', 'u'] := h4
    have h5 : lower ext s ≠ ['p', 'c'] := h5
    simp [unitValue, lengthUnit, h1, h2, h3, h4, h5]

theorem unitValue_error {norm : List Char → List Char} {table : List Char → Option FX} {a : UnitArg FX} {e : PyErr}
    (h : unitValue norm table a = .error e) : e = .typeError := by
  cases a with
  | str s =>
    simp only [unitValue] at h
    split at h <;> simp_all
  | pyFloat x => simp [unitValue] at h
  | npFloat x => simp [unitValue] at h
  | other => simp [unitValue] at h; exact h.symm

/-- C22: if any argument stands for no unit, `get_G` raises TypeError, whatever the other arguments are. -/
theorem c22_reject (ext : Char → List Char) (length mass time : UnitArg FX)
    (h : NoUnit ext false lengthTable length ∨ NoUnit ext true massTable mass ∨ NoUnit ext false timeTable time) :
    get_G ext length mass time = .error .typeError := by
  simp only [get_G, bind, Except.bind]
  cases hm : unitValue (fun s => dropSeps (lower ext s)) massUnit mass with
  | error e => simp only [unitValue_error hm]
  | ok p =>
    cases ht : unitValue (lower ext) timeUnit time with
    | error e => simp only [unitValue_error ht]
    | ok p' =>
      cases hl : unitValue (lower ext) lengthUnit length with
      | error e => simp only [unitValue_error hl]
      | ok p'' =>
        rcases h with h | h | h
        · rw [length_reject ext h] at hl; cases hl
        · rw [mass_reject ext h] at hm; cases hm
        · rw [time_reject ext h] at ht; cases ht

/-- concrete arguments: get_G('AU', 'M_sun', 'D'), an unknown name, an int -/
example : StandsFor lengthTable false (.str ['A', 'U']) 1.495978707e11 ∧
    StandsFor massTable true (.str ['M', '_', 's', 'u', 'n']) 1.98847e30 ∧ StandsFor timeTable false (.str ['D']) 86400 ∧
    NoUnit (fun _ => []) false lengthTable (.str ['f', 't']) ∧ NoUnit (fun _ => []) false lengthTable .other := by
  refine ⟨.inr (.inr ⟨_, "au", rfl, by simp [lengthTable], ?_⟩), .inr (.inr ⟨_, "msun", rfl, by simp [massTable], ?_⟩),
    .inr (.inr ⟨_, "d", rfl, by simp [timeTable], ?_⟩), ?_, trivial⟩
  · exact .cons (.inr rfl) (.cons (.inr rfl) .nil)
  · exact .cons (.inr rfl) (.cons (.inl rfl) (.cons (.inl rfl) (.cons (.inl rfl) .nil)))
  · exact .cons (.inr rfl) .nil
  · have : lower (fun _ => []) ['f', 't'] = ['f', 't'] := rfl
    simp [NoUnit, NotAName, lengthTable, this]

/-! ## C24: constants -/

/-- an operation on the constants object -/
inductive ConstOp (V : Type)
  | set (name : String) (v : V)
  | del (name : String)
  | get (name : String)

variable {V : Type}

/-- state after one operation -/
def ConstOp.after (eq : V → V → Bool) (d : ConstDict V) : ConstOp V → ConstDict V
  | .set n v => (constSet eq d n v).2
  | .del n => (constDel d n).2
  | .get _ => d

theorem constOp_keeps (eq : V → V → Bool) (d : ConstDict V) (op : ConstOp V) (n : String) (v : V) (h : d n = some v) :
    op.after eq d n = some v := by
  cases op with
  | set m w =>
    simp only [ConstOp.after, constSet]
    cases hm : d m with
    | some old =>
      simp only
      split_ifs
      · exact h
      · exact h
    | none =>
      simp only
      by_cases hnm : n = m
      · subst hnm; rw [h] at hm; cases hm
      · rw [if_neg hnm]; exact h
  | del m =>
    simp only [ConstOp.after, constDel]
    cases hm : d m <;> exact h
  | get m => exact h

/-- C24: after any sequence of assignments, deletions and reads, a constant that was bound still has its first value, and
reading it gives the same as before. -/
theorem c24_history (eq : V → V → Bool) (desc cls : String → Option V) (ops : List (ConstOp V)) (d : ConstDict V)
    (n : String) (v : V) (h : d n = some v) :
    (ops.foldl (ConstOp.after eq) d) n = some v ∧
      constGet desc cls (ops.foldl (ConstOp.after eq) d) n = constGet desc cls d n := by
  have key : (ops.foldl (ConstOp.after eq) d) n = some v := by
    induction ops generalizing d with
    | nil => exact h
    | cons op t ih => exact ih _ (constOp_keeps eq d op n v h)
  refine ⟨key, ?_⟩
  unfold constGet
  rw [key, h]

/-- C24: a rebinding to a different value, or a deletion, of a bound name raises and changes nothing; the exception is
ConstError unless a user attribute called `ConstError` has been bound before. -/
theorem c24_rebind (eq : V → V → Bool) (d : ConstDict V) (n : String) (old v : V) (h : d n = some old)
    (hne : eq old v = false) : (∃ e, constSet eq d n v = (.error e, d) ∧ (d "ConstError" = none → e = .constError)) ∧
      ∃ e, constDel d n = (.error e, d) ∧ (d "ConstError" = none → e = .constError) := by
  refine ⟨⟨constExc d, by simp [constSet, h, hne], fun h => by simp [constExc, h]⟩,
    ⟨constExc d, by simp [constDel, h], fun h => by simp [constExc, h]⟩⟩

/-- C24: assigning an equal value is accepted and keeps the first value; deleting an unbound name is a NameError; a fresh
name is bound. -/
theorem c24_other (eq : V → V → Bool) (d : ConstDict V) (n : String) :
    (∀ old v, d n = some old → eq old v = true → constSet eq d n v = (.ok (), d)) ∧
    (d n = none → constDel d n = (.error .nameError, d)) ∧
    (∀ v, d n = none → (constSet eq d n v).1 = .ok () ∧ (constSet eq d n v).2 n = some v ∧
      ∀ m, m ≠ n → (constSet eq d n v).2 m = d m) := by
  refine ⟨fun old v h he => by simp [constSet, h, he], fun h => by simp [constDel, h], fun v h => ?_⟩
  simp only [constSet, h, if_true, true_and]
  intro m hm
  simp [hm]

theorem constRunSets_ok (eq : V → V → Bool) (l : List (String × V)) (d : ConstDict V) (hn : (l.map Prod.fst).Nodup)
    (hd : ∀ p ∈ l, d p.1 = none) : ∃ d', constRunSets eq l d = (.ok (), d') ∧ (∀ p ∈ l, d' p.1 = some p.2) ∧
      ∀ m, m ∉ l.map Prod.fst → d' m = d m := by
  induction l generalizing d with
  | nil => exact ⟨d, rfl, by simp, fun _ _ => rfl⟩
  | cons p t ih =>
    obtain ⟨n, v⟩ := p
    simp only [List.map_cons, List.nodup_cons] at hn
    have hdn : d n = none := hd (n, v) (by simp)
    have hd1 : constSet eq d n v = (.ok (), fun m => if m = n then some v else d m) := by simp [constSet, hdn]
    obtain ⟨d', h1, h2, h3⟩ := ih (fun m => if m = n then some v else d m) hn.2 (by
      intro q hq
      have : q.1 ≠ n := fun h => hn.1 (h ▸ List.mem_map_of_mem hq)
      simp [this, hd q (by simp [hq])])
    refine ⟨d', by simp [constRunSets, hd1, h1], ?_, ?_⟩
    · intro q hq
      rcases List.mem_cons.mp hq with rfl | hq
      · rw [h3 _ hn.1]; simp
      · exact h2 q hq
    · intro m hm
      simp only [List.map_cons, List.mem_cons, not_or] at hm
      rw [h3 m hm.2]; simp [hm.1]

/-- C24 for `pyorb.const` itself: the module body succeeds, and after any further sequence of attribute operations every
constant of the module reads as the value the module gave it (`desc`: data descriptors of the type, none of which has
the name of a constant). -/
theorem c24_module (eq : FX → FX → Bool) (desc cls : String → Option FX) (shared eNum : FX) (ops : List (ConstOp FX))
    (hdesc : ∀ p ∈ constModule eNum, desc p.1 = none) :
    ∃ d, constRunSets eq (constModule eNum) (constInit eq shared) = (.ok (), d) ∧
      ∀ p ∈ constModule eNum, constGet desc cls (ops.foldl (ConstOp.after eq) d) p.1 = some p.2 := by
  obtain ⟨d, h1, h2, -⟩ := constRunSets_ok eq (constModule eNum) (constInit eq shared) (by simp [constModule]) (by
    intro p hp
    have : p.1 ≠ "__dict__" := by
      have : p.1 ∈ (constModule eNum).map Prod.fst := List.mem_map_of_mem hp
      intro h
      rw [h] at this
      revert this
      simp [constModule]
    simp [constInit, constSet, this])
  refine ⟨d, h1, fun p hp => ?_⟩
  rw [(c24_history eq desc cls ops d p.1 p.2 (h2 p hp)).2]
  simp [constGet, hdesc p hp, h2 p hp]

/-- the shadowing of `ConstError`: after a user binds that name, a rebinding raises something else -/
theorem c24_shadowed (eq : V → V → Bool) (d : ConstDict V) (u old v : V) (n : String) (h0 : d "ConstError" = none)
    (h : d n = some old) (hne : eq old v = false) :
    (constSet eq (constSet eq d "ConstError" u).2 n v).1 = .error (.fromUser u) := by
  have hn : n ≠ "ConstError" := by rintro rfl; rw [h0] at h; cases h
  simp [constSet, h0, hn, h, hne, constExc]

example : ∃ d : ConstDict Nat, d "G" = some 1 ∧ d "ConstError" = none ∧ d "x" = none :=
  ⟨fun n => if n = "G" then some 1 else none, by simp, by simp, by simp⟩

/-! ## C25: the Borg pattern -/

/-- The dictionaries of all instances of the class, by creation number. -/
abbrev ConstHeap (V : Type) := Nat → ConstDict V

/-- what a statement on instance `i` does to the instances -/
inductive HeapOp (V : Type)
  /-- `_const()` -/
  | create (i : Nat) (shared : V)
  /-- attribute operation on instance `i` -/
  | on (i : Nat) (op : ConstOp V)

/-- effect on the heap: each statement changes the dictionary of its own instance only, because `__init__` does not
replace the real `__dict__` -/
def HeapOp.after (eq : V → V → Bool) (h : ConstHeap V) : HeapOp V → ConstHeap V
  | .create i shared => fun j => if j = i then constInit eq shared else h j
  | .on i op => fun j => if j = i then op.after eq (h i) else h j

/-- the instance a statement works on -/
def HeapOp.inst : HeapOp V → Nat
  | .create i _ => i
  | .on i _ => i

/-- C25 is false: for any two instances and any name other than `__dict__`, a constant bound through the first is not
visible through the second (reading it there falls through to the class, i.e. AttributeError). -/
theorem c25_not_shared (eq : V → V → Bool) (cls desc : String → Option V) (shared : V) (i j : Nat) (hij : i ≠ j)
    (n : String) (hn : n ≠ "__dict__") (hd : desc n = none) (hc : cls n = none) (v : V) (h : ConstHeap V) :
    let h1 := [HeapOp.create i shared, .create j shared, .on i (.set n v)].foldl (HeapOp.after eq) h
    constGet desc cls (h1 i) n = some v ∧ constGet desc cls (h1 j) n = none := by
  have hji : j ≠ i := hij.symm
  simp [HeapOp.after, ConstOp.after, constInit, constSet, constGet, hn, hd, hc, hij, hji]

/-- C51: instances are independent: whatever is done to other instances, an instance keeps its own constants. -/
theorem c51_independent (eq : V → V → Bool) (ops : List (HeapOp V)) (j : Nat) (h : ConstHeap V)
    (ho : ∀ op ∈ ops, op.inst ≠ j) : (ops.foldl (HeapOp.after eq) h) j = h j := by
  induction ops generalizing h with
  | nil => rfl
  | cons op t ih =>
    simp only [List.foldl_cons]
    rw [ih _ fun o ho' => ho o (by simp [ho'])]
    have := ho op (by simp)
    cases op with
    | create i s => simp only [HeapOp.inst] at this; simp [HeapOp.after, this.symm]
    | on i o => simp only [HeapOp.inst] at this; simp [HeapOp.after, this.symm]

/-- C51: what an instance itself has bound it keeps, under any history of statements on any instances that does not
create instance `j` anew. -/
theorem c51_keeps (eq : V → V → Bool) (ops : List (HeapOp V)) (j : Nat) (h : ConstHeap V) (n : String) (v : V)
    (hb : h j n = some v) (ho : ∀ op ∈ ops, ∀ s, op ≠ .create j s) : (ops.foldl (HeapOp.after eq) h) j n = some v := by
  induction ops generalizing h with
  | nil => exact hb
  | cons op t ih =>
    simp only [List.foldl_cons]
    apply ih
    · cases op with
      | create i s =>
        have : j ≠ i := by rintro rfl; exact ho (.create j s) (by simp) s rfl
        simp [HeapOp.after, this, hb]
      | on i o =>
        by_cases hji : j = i
        · subst hji; simp only [HeapOp.after, if_true]; exact constOp_keeps eq _ o n v hb
        · simp [HeapOp.after, hji, hb]
    · exact fun o ho' => ho o (by simp [ho'])

example : ∀ op ∈ [HeapOp.on 0 (.set "x" (1 : Nat)), .create 2 5], op.inst ≠ 1 := by decide

end Pyorb
