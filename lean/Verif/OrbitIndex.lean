import Verif.OrbitCls
import Mathlib.Data.List.Sort
import Mathlib.Data.Fintype.Basic
import Mathlib.Tactic.FinCases
import Mathlib.Tactic.Linarith
import Mathlib.Tactic.Ring

/-!
# Which orbits an index selects, and which values an assignment stores (specification)

Python's rules for indices, slices, lists of indices and masks, and numpy's rules for filling a row or columns, stated without
the functions of the model; the model is proved to follow them (`pos_selects`, `pos_refuses`, `spread_iff_row`, `writeCols` in
`PropsOrbitUpdate`).
-/

namespace Pyorb
namespace Orbit
variable {α : Type}

/-! ## Selections -/

/-- a negative position counts from the end -/
def fromEnd (n : Nat) (x : Int) : Int := if x < 0 then x + n else x

/-- `i` is a valid index of the position `j` in a sequence of length `n` -/
def IndexOf (n : Nat) (i : Int) (j : Nat) : Prop := j < n ∧ (j : Int) = fromEnd n i

/-- where a slice with positive step starts -/
def firstUp (n : Nat) (start : Option Int) : Int := match start with | none => 0 | some x => max 0 (fromEnd n x)
/-- where a slice with negative step starts -/
def firstDown (n : Nat) (start : Option Int) : Int := match start with | none => n - 1 | some x => min (n - 1) (fromEnd n x)

/-- `ps` are the positions selected by `inds` in a sequence of length `n`, in order -/
def Selects (n : Nat) (inds : Inds) (ps : List Nat) : Prop :=
  match inds with
  | .int i => ∃ j, IndexOf n i j ∧ ps = [j]
  | .list is => List.Forall₂ (IndexOf n) is ps
  | .mask bs => bs.length = n ∧ ps.Pairwise (· < ·) ∧ ∀ j, j ∈ ps ↔ bs[j]? = some true
  | .slice start stop step =>
    (0 < step ∧ ps.Pairwise (· < ·) ∧ ∀ j : Nat, j ∈ ps ↔ j < n ∧ firstUp n start ≤ j ∧ (∀ x, stop = some x → j < fromEnd n x) ∧
      step ∣ j - firstUp n start) ∨
    (step < 0 ∧ ps.Pairwise (· > ·) ∧ ∀ j : Nat, j ∈ ps ↔ j < n ∧ j ≤ firstDown n start ∧ (∀ x, stop = some x → fromEnd n x < j) ∧
      step ∣ j - firstDown n start)

/-- the error raised where nothing can be selected: `ValueError` for a slice (step 0), `IndexError` otherwise -/
def refusal : Inds → PyErr
  | .slice .. => .valueError
  | _ => .indexError

/-- the error of `delete`, where numpy rejects a mask of the wrong length with a `ValueError` -/
def delRefusal : Inds → PyErr
  | .slice .. | .mask .. => .valueError
  | _ => .indexError

/-- a 1-d value assigned through a single index is a column -/
def single_index : Inds → Bool
  | .int _ => true
  | _ => false

theorem delErr_refusal (inds : Inds) : inds.delErr (refusal inds) = delRefusal inds := by cases inds <;> rfl

theorem pyIndex_iff {n : Nat} {i : Int} {j : Nat} : pyIndex n i = some j ↔ IndexOf n i j := by
  unfold pyIndex IndexOf fromEnd
  split <;> split <;> simp only [Option.some.injEq, reduceCtorEq, false_iff] <;> split <;> omega

theorem slice_up {n : Nat} {start stop : Option Int} {step : Int} (h : 0 < step) :
    (slicePos n start stop step).Pairwise (· < ·) ∧ ∀ j : Nat, j ∈ slicePos n start stop step ↔
      j < n ∧ firstUp n start ≤ j ∧ (∀ x, stop = some x → j < fromEnd n x) ∧ step ∣ j - firstUp n start := by
  have ha : (0 : Int) ≤ (sliceUp n start stop).1 := by
    cases start with
    | none => simp [sliceUp]
    | some x => simp only [sliceUp]; split <;> omega
  have hform : slicePos n start stop step = (List.range (((sliceUp n start stop).2 - (sliceUp n start stop).1 + step - 1) / step).toNat).map
      fun k : Nat => ((sliceUp n start stop).1 + (k : Int) * step).toNat := by
    rw [slicePos, if_pos h]
  have hk : ∀ k : Nat, (0 : Int) ≤ k * step := fun k => mul_nonneg (Int.natCast_nonneg k) h.le
  refine ⟨?_, fun j => ?_⟩
  · rw [hform, List.pairwise_map]
    refine List.pairwise_lt_range.imp fun {k l} hkl => ?_
    have : (k : Int) * step < l * step := mul_lt_mul_of_pos_right (by exact_mod_cast hkl) h
    have := hk k
    omega
  · rw [hform]
    simp only [List.mem_map, List.mem_range]
    have hcnt : ∀ k : Nat, k < (((sliceUp n start stop).2 - (sliceUp n start stop).1 + step - 1) / step).toNat ↔
        (sliceUp n start stop).1 + k * step < (sliceUp n start stop).2 := by
      intro k
      rw [Int.lt_toNat, Int.lt_iff_add_one_le, Int.le_ediv_iff_mul_le h]
      constructor <;> intro h' <;> nlinarith
    have hcore : (∃ k : Nat, k < (((sliceUp n start stop).2 - (sliceUp n start stop).1 + step - 1) / step).toNat ∧
        ((sliceUp n start stop).1 + (k : Int) * step).toNat = j) ↔
        (sliceUp n start stop).1 ≤ j ∧ (j : Int) < (sliceUp n start stop).2 ∧ step ∣ j - (sliceUp n start stop).1 := by
      constructor
      · rintro ⟨k, h1, h2⟩
        have h1 := (hcnt k).mp h1
        have := hk k
        have hj : (j : Int) = (sliceUp n start stop).1 + k * step := by omega
        exact ⟨by omega, by omega, k, by rw [hj]; ring⟩
      · rintro ⟨h1, h2, c, hc⟩
        have hc0 : 0 ≤ c := by
          by_contra hneg
          have : step * c < 0 := mul_neg_of_pos_of_neg h (by omega)
          omega
        have hcs : ((c.toNat : Nat) : Int) = c := Int.toNat_of_nonneg hc0
        have hcm : c * step = step * c := mul_comm _ _
        refine ⟨c.toNat, (hcnt _).mpr (by rw [hcs]; omega), by rw [hcs]; omega⟩
    rw [hcore]
    by_cases hlow : ∃ x, start = some x ∧ (n : Int) < fromEnd n x
    · obtain ⟨x, rfl, hx⟩ := hlow
      have h1 : (sliceUp n (some x) stop).1 = n := by
        unfold fromEnd at hx
        simp only [sliceUp]; split at hx <;> split <;> omega
      have h2 : (sliceUp n (some x) stop).2 ≤ n := by
        cases stop with
        | none => simp [sliceUp]
        | some y => simp only [sliceUp]; split <;> omega
      rw [h1]
      simp only [firstUp]
      constructor
      · rintro ⟨h3, h4, -⟩; omega
      · rintro ⟨h3, h4, -⟩; omega
    · have h1 : (sliceUp n start stop).1 = firstUp n start := by
        cases start with
        | none => rfl
        | some x =>
          have : ¬ (n : Int) < fromEnd n x := fun hc => hlow ⟨x, rfl, hc⟩
          unfold fromEnd at this
          simp only [sliceUp, firstUp, fromEnd]
          split at this <;> split <;> omega
      rw [h1]
      have h2 : (j : Int) < (sliceUp n start stop).2 ↔ j < n ∧ ∀ x, stop = some x → (j : Int) < fromEnd n x := by
        cases stop with
        | none => simp [sliceUp]
        | some y =>
          simp only [sliceUp, Option.some.injEq, forall_eq', fromEnd]
          split <;> omega
      rw [h2]
      constructor
      · rintro ⟨a, ⟨b, c⟩, d⟩; exact ⟨b, a, c, d⟩
      · rintro ⟨b, a, c, d⟩; exact ⟨a, ⟨b, c⟩, d⟩

theorem slice_down {n : Nat} {start stop : Option Int} {step : Int} (h : step < 0) :
    (slicePos n start stop step).Pairwise (· > ·) ∧ ∀ j : Nat, j ∈ slicePos n start stop step ↔
      j < n ∧ j ≤ firstDown n start ∧ (∀ x, stop = some x → fromEnd n x < j) ∧ step ∣ j - firstDown n start := by
  have hb : (-1 : Int) ≤ (sliceDown n start stop).2 := by
    cases stop with
    | none => simp [sliceDown]
    | some x => simp only [sliceDown]; split <;> omega
  have hform : slicePos n start stop step = (List.range (((sliceDown n start stop).1 - (sliceDown n start stop).2 - step - 1) / -step).toNat).map
      fun k : Nat => ((sliceDown n start stop).1 + (k : Int) * step).toNat := by
    rw [slicePos, if_neg (by omega)]
  have hcnt : ∀ k : Nat, k < (((sliceDown n start stop).1 - (sliceDown n start stop).2 - step - 1) / -step).toNat ↔
      (sliceDown n start stop).2 < (sliceDown n start stop).1 + k * step := by
    intro k
    rw [Int.lt_toNat, Int.lt_iff_add_one_le, Int.le_ediv_iff_mul_le (by omega)]
    constructor <;> intro h' <;> nlinarith
  refine ⟨?_, fun j => ?_⟩
  · rw [hform, List.pairwise_map]
    refine (List.pairwise_lt_range.imp_of_mem fun {k l} hkm hlm hkl => ?_)
    have hl := (hcnt l).mp (List.mem_range.mp hlm)
    have : (l : Int) * step < k * step := mul_lt_mul_of_neg_right (by exact_mod_cast hkl) h
    show ((sliceDown n start stop).1 + (l : Int) * step).toNat < ((sliceDown n start stop).1 + (k : Int) * step).toNat
    omega
  · rw [hform]
    simp only [List.mem_map, List.mem_range]
    have hcore : (∃ k : Nat, k < (((sliceDown n start stop).1 - (sliceDown n start stop).2 - step - 1) / -step).toNat ∧
        ((sliceDown n start stop).1 + (k : Int) * step).toNat = j) ↔
        (j : Int) ≤ (sliceDown n start stop).1 ∧ (sliceDown n start stop).2 < j ∧ step ∣ j - (sliceDown n start stop).1 := by
      constructor
      · rintro ⟨k, h1, h2⟩
        have h1 := (hcnt k).mp h1
        have : (k : Int) * step ≤ 0 := mul_nonpos_of_nonneg_of_nonpos (Int.natCast_nonneg k) h.le
        have hj : (j : Int) = (sliceDown n start stop).1 + k * step := by omega
        exact ⟨by omega, by omega, k, by rw [hj]; ring⟩
      · rintro ⟨h1, h2, c, hc⟩
        have hc0 : 0 ≤ c := by
          by_contra hneg
          have : 0 < step * c := mul_pos_of_neg_of_neg h (by omega)
          omega
        have hcs : ((c.toNat : Nat) : Int) = c := Int.toNat_of_nonneg hc0
        have hcm : c * step = step * c := mul_comm _ _
        refine ⟨c.toNat, (hcnt _).mpr (by rw [hcs]; omega), by rw [hcs]; omega⟩
    rw [hcore]
    by_cases hlow : ∃ x, start = some x ∧ fromEnd n x < -1
    · obtain ⟨x, rfl, hx⟩ := hlow
      have h1 : (sliceDown n (some x) stop).1 = -1 := by
        unfold fromEnd at hx
        simp only [sliceDown]; split at hx <;> split <;> omega
      rw [h1]
      simp only [firstDown]
      constructor
      · rintro ⟨h3, h4, -⟩; omega
      · rintro ⟨h3, h4, -⟩; omega
    · have h1 : (sliceDown n start stop).1 = firstDown n start := by
        cases start with
        | none => rfl
        | some x =>
          have : ¬ fromEnd n x < -1 := fun hc => hlow ⟨x, rfl, hc⟩
          unfold fromEnd at this
          simp only [sliceDown, firstDown, fromEnd]
          split at this <;> split <;> omega
      have h3 : firstDown n start ≤ n - 1 := by
        cases start with
        | none => simp [firstDown]
        | some x => simp only [firstDown]; omega
      rw [h1]
      have h2 : (sliceDown n start stop).2 < j ↔ (∀ x, stop = some x → fromEnd n x < j) ∨ (n : Int) - 1 < j ∧ (sliceDown n start stop).2 < j := by
        cases stop with
        | none => simp [sliceDown]; omega
        | some y =>
          simp only [sliceDown, Option.some.injEq, forall_eq', fromEnd]
          split <;> omega
      rw [h2]
      constructor
      · rintro ⟨a, b, d⟩
        rcases b with b | b
        · exact ⟨by omega, a, b, d⟩
        · omega
      · rintro ⟨b, a, c, d⟩; exact ⟨a, .inl c, d⟩

theorem sorted_unique {l l' : List Nat} (r : Nat → Nat → Prop) (hr : ∀ a b, r a b → ¬ r b a) (h : l.Pairwise r) (h' : l'.Pairwise r)
    (hm : ∀ j, j ∈ l ↔ j ∈ l') : l = l' := by
  have hne : ∀ {a b}, r a b → a ≠ b := fun {a b} h1 h2 => hr a b h1 (by rw [h2] at h1 ⊢; exact h1)
  exact List.Perm.eq_of_pairwise (fun a b _ _ h1 h2 => absurd h2 (hr _ _ h1)) h h'
    ((List.perm_ext_iff_of_nodup (h.imp hne) (h'.imp hne)).mpr hm)

theorem maskPos_spec (bs : List Bool) : (maskPos bs).Pairwise (· < ·) ∧ ∀ j, j ∈ maskPos bs ↔ bs[j]? = some true := by
  refine ⟨List.pairwise_lt_range.filter _, fun j => ?_⟩
  simp only [maskPos, List.mem_filter, List.mem_range]
  by_cases h : j < bs.length
  · rw [List.getElem?_eq_getElem h, List.getD_eq_getElem?_getD, List.getElem?_eq_getElem h]; simp [h]
  · rw [List.getElem?_eq_none (by omega)]; simp [h]

theorem mapM_index {n : Nat} {is : List Int} {ps : List Nat} :
    (is.mapM fun i => match pyIndex n i with | some j => (.ok j : Except PyErr Nat) | none => .error .indexError) = .ok ps ↔
      List.Forall₂ (IndexOf n) is ps := by
  induction is generalizing ps with
  | nil =>
    simp only [List.mapM_nil]
    constructor
    · intro h; cases h; exact .nil
    · intro h; cases h; rfl
  | cons i is ih =>
    rw [List.mapM_cons]
    constructor
    · intro h
      cases hj : pyIndex n i with
      | none => rw [hj] at h; cases h
      | some j =>
        rw [hj] at h
        cases hr : (is.mapM fun i => match pyIndex n i with | some j => (.ok j : Except PyErr Nat) | none => .error .indexError) with
        | error e => rw [hr] at h; cases h
        | ok qs => rw [hr] at h; cases h; exact .cons (pyIndex_iff.mp hj) (ih.mp hr)
    · intro h
      cases h with
      | cons h1 h2 => rw [pyIndex_iff.mpr h1, ih.mpr h2]; rfl

theorem mapM_index_error {n : Nat} {is : List Int} {e : PyErr}
    (h : (is.mapM fun i => match pyIndex n i with | some j => (.ok j : Except PyErr Nat) | none => .error .indexError) = .error e) :
    e = .indexError := by
  induction is with
  | nil => cases h
  | cons i is ih =>
    rw [List.mapM_cons] at h
    cases hj : pyIndex n i with
    | none => rw [hj] at h; cases h; rfl
    | some j =>
      rw [hj] at h
      cases hr : (is.mapM fun i => match pyIndex n i with | some j => (.ok j : Except PyErr Nat) | none => .error .indexError) with
      | error e' => rw [hr] at h; cases h; exact ih hr
      | ok qs => rw [hr] at h; cases h

/-- the model selects the positions of python -/
theorem pos_selects {n : Nat} {inds : Inds} {ps : List Nat} : inds.pos n = .ok ps ↔ Selects n inds ps := by
  cases inds with
  | int i =>
    simp only [Inds.pos, Selects]
    cases hj : pyIndex n i with
    | none =>
      constructor
      · intro h; cases h
      · rintro ⟨j, h, -⟩; rw [pyIndex_iff.mpr h] at hj; cases hj
    | some j =>
      constructor
      · intro h; cases h; exact ⟨j, pyIndex_iff.mp hj, rfl⟩
      · rintro ⟨j', h, rfl⟩; rw [pyIndex_iff.mpr h] at hj; cases hj; rfl
  | list is => exact mapM_index
  | mask bs =>
    simp only [Inds.pos, Selects]
    by_cases h : bs.length = n
    · rw [if_pos h]
      constructor
      · intro h'; cases h'; exact ⟨h, maskPos_spec bs⟩
      · rintro ⟨-, h1, h2⟩
        exact congrArg Except.ok (sorted_unique (· < ·) (fun _ _ => Nat.lt_asymm) (maskPos_spec bs).1 h1 fun j => ((maskPos_spec bs).2 j).trans (h2 j).symm)
    · rw [if_neg h]
      constructor
      · intro h'; cases h'
      · rintro ⟨h', -⟩; exact absurd h' h
  | slice a b step =>
    simp only [Inds.pos, Selects]
    rcases lt_trichotomy step 0 with h | h | h
    · rw [if_neg h.ne]
      constructor
      · intro h'; cases h'; exact .inr ⟨h, slice_down h⟩
      · rintro (⟨h', -⟩ | ⟨-, h1, h2⟩)
        · omega
        · exact congrArg Except.ok (sorted_unique (· > ·) (fun _ _ => Nat.lt_asymm) (slice_down h).1 h1 fun j => ((slice_down h).2 j).trans (h2 j).symm)
    · rw [if_pos h]
      constructor
      · intro h'; cases h'
      · rintro (⟨h', -⟩ | ⟨h', -⟩) <;> omega
    · rw [if_neg h.ne']
      constructor
      · intro h'; cases h'; exact .inl ⟨h, slice_up h⟩
      · rintro (⟨-, h1, h2⟩ | ⟨h', -⟩)
        · exact congrArg Except.ok (sorted_unique (· < ·) (fun _ _ => Nat.lt_asymm) (slice_up h).1 h1 fun j => ((slice_up h).2 j).trans (h2 j).symm)
        · omega

/-- and raises where there is nothing to select -/
theorem pos_refuses {n : Nat} {inds : Inds} (h : ∀ ps, ¬ Selects n inds ps) : inds.pos n = .error (refusal inds) := by
  cases hp : inds.pos n with
  | ok ps => exact absurd (pos_selects.mp hp) (h ps)
  | error e =>
    cases inds with
    | int i =>
      simp only [Inds.pos] at hp
      cases hj : pyIndex n i with
      | none => rw [hj] at hp; cases hp; rfl
      | some j => rw [hj] at hp; cases hp
    | list is => rw [mapM_index_error hp]; rfl
    | mask bs =>
      simp only [Inds.pos] at hp
      split at hp
      · cases hp
      · cases hp; rfl
    | slice a b step =>
      simp only [Inds.pos] at hp
      split at hp
      · cases hp; rfl
      · cases hp

theorem pos_error {n : Nat} {inds : Inds} {e : PyErr} (h : inds.pos n = .error e) : (∀ ps, ¬ Selects n inds ps) ∧ e = refusal inds := by
  have h1 : ∀ ps, ¬ Selects n inds ps := fun ps hs => by rw [pos_selects.mpr hs] at h; cases h
  refine ⟨h1, ?_⟩
  rw [pos_refuses h1] at h
  cases h; rfl

/-- `orb[1:-1:2]` of six orbits are the second and the fourth, `orb[::-1]` of three are all of them backwards, `orb[[0, -1]]` the first and
the last, and `orb[3]` of three does not exist -/
example : Selects 6 (.slice (some 1) (some (-1)) 2) [1, 3] ∧ Selects 3 (.slice none none (-1)) [2, 1, 0] ∧ Selects 3 (.list [0, -1]) [0, 2] ∧
    Selects 3 (.mask [true, false, true]) [0, 2] ∧ ∀ ps, ¬ Selects 3 (.int 3) ps :=
  ⟨pos_selects.mp rfl, pos_selects.mp rfl, pos_selects.mp rfl, pos_selects.mp rfl, (pos_error (e := .indexError) rfl).1⟩

/-! ## What an assigned value means for `n` orbits -/

/-- `l` is the value `v`, one entry per orbit: a scalar and a 1-d value of one entry stand for all orbits -/
def _root_.Pyorb.Val.Row (v : Val α) (n : Nat) (l : List α) : Prop :=
  match v with
  | .sc x | .zd x => l = List.replicate n x
  | .vec xs => xs.length = n ∧ l = xs ∨ ∃ x, xs = [x] ∧ l = List.replicate n x

/-- `l` is the value `v`, one column per orbit: a scalar stands for every entry, one column for every orbit, and a 1-d value is
a column (`down`) or a row of values for all entries of a column -/
def _root_.Pyorb.Val6.Cols {C : Type} (const : α → C) (col : List α → Option C) (down : Bool → Bool) (v : Val6 α C) (n : Nat) (l : List C) : Prop :=
  match v with
  | .sc x => l = List.replicate n (const x)
  | .vec nd xs => (∃ x, xs = [x] ∧ l = List.replicate n (const x)) ∨
      (down nd = true ∧ ∃ c, col xs = some c ∧ l = List.replicate n c) ∨ (down nd = false ∧ xs.length = n ∧ l = xs.map const)
  | .mat cs => cs.length = n ∧ l = cs ∨ ∃ c, cs = [c] ∧ l = List.replicate n c

theorem row_of_spread {n : Nat} {v : Val α} {l : List α} (h : v.spread n = .ok l) : v.Row n l := by
  match v, h with
  | .sc x, h => cases h; rfl
  | .zd x, h => cases h; rfl
  | .vec [x], h => cases h; exact .inr ⟨x, rfl, rfl⟩
  | .vec [], h =>
    by_cases h0 : ([] : List α).length = n
    · simp only [Val.spread, h0, if_true] at h; cases h; exact .inl ⟨h0, rfl⟩
    · simp only [Val.spread, h0, if_false] at h; cases h
  | .vec (x :: y :: xs), h =>
    by_cases h0 : (x :: y :: xs).length = n
    · simp only [Val.spread, h0, if_true] at h; cases h; exact .inl ⟨h0, rfl⟩
    · simp only [Val.spread, h0, if_false] at h; cases h

theorem cols_of_spread {C : Type} {const : α → C} {col : List α → Option C} {n : Nat} {v : Val6 α C} {l : List C}
    (h : v.spread const n = .ok l) : v.Cols const col (fun _ => false) n l := by
  match v, h with
  | .sc x, h => cases h; rfl
  | .vec nd [x], h => cases h; exact .inl ⟨x, rfl, rfl⟩
  | .vec nd [], h =>
    by_cases h0 : ([] : List α).length = n
    · simp only [Val6.spread, h0, if_true] at h; cases h; exact .inr (.inr ⟨rfl, h0, rfl⟩)
    · simp only [Val6.spread, h0, if_false] at h; cases h
  | .vec nd (x :: y :: xs), h =>
    by_cases h0 : (x :: y :: xs).length = n
    · simp only [Val6.spread, h0, if_true] at h; cases h; exact .inr (.inr ⟨rfl, h0, rfl⟩)
    · simp only [Val6.spread, h0, if_false] at h; cases h
  | .mat [c], h => cases h; exact .inr ⟨c, rfl, rfl⟩
  | .mat [], h =>
    by_cases h0 : ([] : List C).length = n
    · simp only [Val6.spread, h0, if_true] at h; cases h; exact .inl ⟨h0, rfl⟩
    · simp only [Val6.spread, h0, if_false] at h; cases h
  | .mat (x :: y :: xs), h =>
    by_cases h0 : (x :: y :: xs).length = n
    · simp only [Val6.spread, h0, if_true] at h; cases h; exact .inl ⟨h0, rfl⟩
    · simp only [Val6.spread, h0, if_false] at h; cases h

theorem spread_vec {n : Nat} {xs : List α} (h : xs.length = n) : (Val.vec xs).spread n = .ok xs := by
  match xs, h with
  | [], h => simp [Val.spread, h]
  | [x], h => subst h; rfl
  | x :: y :: l, h => simp [Val.spread, h]

theorem spread_of_row {α : Type} {n : Nat} {v : Val α} {l : List α} (h : v.Row n l) : v.spread n = .ok l := by
  match v, h with
  | .sc x, h => exact congrArg Except.ok (show l = List.replicate n x from h).symm
  | .zd x, h => exact congrArg Except.ok (show l = List.replicate n x from h).symm
  | .vec xs, .inl ⟨h1, h2⟩ => rw [h2]; exact spread_vec h1
  | .vec xs, .inr ⟨x, h1, h2⟩ => subst h1; rw [h2]; rfl

/-- numpy's rule for filling `n` places -/
theorem spread_iff_row {n : Nat} {v : Val α} {l : List α} : v.spread n = .ok l ↔ v.Row n l := ⟨row_of_spread, spread_of_row⟩

/-- `l` is the value `v`, one column of six entries for each of `n` orbits: a scalar stands for every entry, one column for every
orbit, and a 1-d value of more than one entry is a column (`down`), or its entry `j` fills the column `j` -/
def _root_.Pyorb.Val6.Fills {C : Type} (get : C → Fin 6 → α) (down : Bool → Bool) (v : Val6 α C) (n : Nat) (l : List C) : Prop :=
  l.length = n ∧ match v with
  | .sc x => ∀ c ∈ l, ∀ i, get c i = x
  | .vec nd xs => (∃ x, xs = [x] ∧ ∀ c ∈ l, ∀ i, get c i = x) ∨
      (down nd = true ∧ xs.length = 6 ∧ ∀ c ∈ l, ∀ i : Fin 6, xs[i.1]? = some (get c i)) ∨
      (down nd = false ∧ xs.length = n ∧ ∀ (j : Nat) c, l[j]? = some c → ∀ i, xs[j]? = some (get c i))
  | .mat cs => cs.length = n ∧ l = cs ∨ ∃ c, cs = [c] ∧ l = List.replicate n c

/-- the columns made by `const` and `col` have the entries of the values -/
structure Columned {C : Type} (get : C → Fin 6 → α) (const : α → C) (col : List α → Option C) : Prop where
  const : ∀ x i, get (const x) i = x
  col : ∀ xs c, col xs = some c → xs.length = 6 ∧ ∀ i : Fin 6, xs[i.1]? = some (get c i)

theorem fills_of_cols {C : Type} {get : C → Fin 6 → α} {const : α → C} {col : List α → Option C} (hg : Columned get const col)
    {down : Bool → Bool} {v : Val6 α C} {n : Nat} {l : List C} (h : v.Cols const col down n l) : v.Fills get down n l := by
  have hrep : ∀ (c : C) {P : C → Prop}, P c → ∀ c' ∈ List.replicate n c, P c' := by
    intro c P hP c' hc'
    rw [List.eq_of_mem_replicate hc']; exact hP
  match v, h with
  | .sc x, h =>
    rw [show l = _ from h]
    exact ⟨List.length_replicate, hrep _ fun i => hg.const x i⟩
  | .vec nd xs, .inl ⟨x, h1, h2⟩ =>
    rw [h2]
    exact ⟨List.length_replicate, .inl ⟨x, h1, hrep _ fun i => hg.const x i⟩⟩
  | .vec nd xs, .inr (.inl ⟨hd, c, h1, h2⟩) =>
    rw [h2]
    exact ⟨List.length_replicate, .inr (.inl ⟨hd, (hg.col xs c h1).1, hrep _ (hg.col xs c h1).2⟩)⟩
  | .vec nd xs, .inr (.inr ⟨hd, h1, h2⟩) =>
    rw [h2]
    refine ⟨by simp [h1], .inr (.inr ⟨hd, h1, fun j c hc i => ?_⟩)⟩
    rw [List.getElem?_map] at hc
    obtain ⟨x, hx, rfl⟩ := Option.map_eq_some_iff.mp hc
    rw [hx, hg.const]
  | .mat cs, .inl ⟨h1, h2⟩ => exact ⟨by rw [h2, h1], .inl ⟨h1, h2⟩⟩
  | .mat cs, .inr ⟨c, h1, h2⟩ => exact ⟨by rw [h2, List.length_replicate], .inr ⟨c, h1, h2⟩⟩

theorem kep_columned : Columned (Kep.get (α := α)) Kep.const Kep.ofList := by
  refine ⟨fun x i => by fin_cases i <;> rfl, fun xs c h => ?_⟩
  match xs, h with
  | [a, e, i, om, OM, nu], h => cases h; exact ⟨rfl, fun i => by fin_cases i <;> rfl⟩

theorem cart_columned : Columned (Cart.get (α := α)) Cart.const Cart.ofList := by
  refine ⟨fun x i => by fin_cases i <;> rfl, fun xs c h => ?_⟩
  match xs, h with
  | [a, e, i, om, OM, nu], h => cases h; exact ⟨rfl, fun i => by fin_cases i <;> rfl⟩

/-- a column stored by an integer index -/
theorem fills_of_one {C : Type} {get : C → Fin 6 → α} {const : α → C} {col : List α → Option C} (hg : Columned get const col)
    {v : Val6 α C} {c : C} (h : v.one const col = .ok c) : v.Fills get (fun _ => true) 1 [c] := by
  match v, h with
  | .sc x, h => cases h; exact ⟨rfl, fun c hc i => by rw [List.mem_singleton.mp hc]; exact hg.const x i⟩
  | .vec nd [x], h => cases h; exact ⟨rfl, .inl ⟨x, rfl, fun c hc i => by rw [List.mem_singleton.mp hc]; exact hg.const x i⟩⟩
  | .vec nd [], h =>
    cases hc : col [] with
    | none => simp only [Val6.one, hc] at h; cases h
    | some c' => exact absurd (hg.col _ _ hc).1 (by simp)
  | .vec nd (x :: y :: xs), h =>
    cases hc : col (x :: y :: xs) with
    | none => simp only [Val6.one, hc] at h; cases h
    | some c' =>
      simp only [Val6.one, hc] at h
      cases h
      refine ⟨rfl, .inr (.inl ⟨rfl, (hg.col _ _ hc).1, fun c hc' i => ?_⟩)⟩
      rw [List.mem_singleton.mp hc']
      exact (hg.col _ _ hc).2 i
  | .mat cs, h => cases h

theorem fills_of_spread {C : Type} {get : C → Fin 6 → α} {const : α → C} {col : List α → Option C} (hg : Columned get const col)
    {n : Nat} {v : Val6 α C} {l : List C} (h : v.spread const n = .ok l) : v.Fills get (fun _ => false) n l :=
  fills_of_cols hg (cols_of_spread h)

end Orbit
end Pyorb
