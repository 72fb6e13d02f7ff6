import Verif.PropsOrbitCopy

/-!
# Iteration over an `Orbit` (C36)
-/

set_option linter.unusedSimpArgs false
set_option linter.unusedVariables false

namespace Pyorb
namespace Orbit
open Py
variable {α : Type} (K : Kern α)

/-- The python statement `for x in orb: body`, after `iter(orb)` has been called on the object.  `body x t out t'`: run for
the item `x` on the object `t`, the body outputs `out` and leaves `t'`. -/
inductive ForLoop {β : Type} (body : Orb α → Orb α → List β → Orb α → Prop) : Orb α → List β → Orb α → Prop
  | stop {s s' : Orb α} : next K s = (.error .stopIteration, s') → ForLoop body s [] s'
  | step {s s1 s2 s' x : Orb α} {out rest : List β} : next K s = (.ok x, s1) → body x s1 out s2 → ForLoop body s2 rest s' →
      ForLoop body s (out ++ rest) s'

/-- a body that outputs the item and does not touch the object -/
def collect : Orb α → Orb α → List (Orb α) → Orb α → Prop := fun x t out t' => out = [x] ∧ t' = t

/-- `[x for x in orb]` -/
def ListLoop (s : Orb α) (xs : List (Orb α)) (s' : Orb α) : Prop := ForLoop K collect (iter s).2 xs s'

/-- `[(x, y) for x in orb for y in orb]`: both loops use the same object -/
def PairLoop (s : Orb α) (out : List (Orb α × Orb α)) (s' : Orb α) : Prop :=
  ForLoop K (fun x t out t' => ∃ ys, ListLoop K t ys t' ∧ out = ys.map fun y => (x, y)) (iter s).2 out s'

/-- `[(x, y) for x in orb for y in orb.copy()]` -/
def PairLoopCopy (s : Orb α) (out : List (Orb α × Orb α)) (s' : Orb α) : Prop :=
  ForLoop K (fun x t out t' => t' = t ∧ ∃ c ys c', copy K t = .ok c ∧ ListLoop K c ys c' ∧ out = ys.map fun y => (x, y))
    (iter s).2 out s'

theorem wf_it {n : Nat} {s : Orb α} (h : WF n s) (i : Option Nat) : WF n { s with it := i } :=
  ⟨h.m, h.cart, h.kep, h.tA, h.mA, h.cartCalc, h.kepCalc⟩

theorem pos_int {n k : Nat} (h : k < n) : (Inds.int (k : Int)).pos n = .ok [k] := by
  have : pyIndex n (k : Int) = some k := by
    unfold pyIndex
    rw [if_pos (by omega), if_pos (by omega)]
    rfl
  simp only [Inds.pos, this]

theorem next_lt {n k : Nat} {s : Orb α} (hw : WF n s) (hi : s.it = some k) (h : k < n) :
    next K s = (.ok (view K [k] s), { s with it := some (k + 1) }) := by
  simp only [next, self_bind, hi, bind_ok (num_wf hw), if_pos h, upd_bind, lift_run]
  rw [getitem_run K (wf_it hw _), pos_int h]
  rfl

theorem next_stop {n k : Nat} {s : Orb α} (hw : WF n s) (hi : s.it = some k) (h : n ≤ k) :
    next K s = (.error .stopIteration, s) := by
  simp only [next, self_bind, hi, bind_ok (num_wf hw), if_neg (by omega : ¬ k < n), raise_run]

/-- the loop from position `k` on, for a body that keeps the object apart from the counter, and the counter beyond `k` -/
theorem loop_from {β : Type} {n : Nat} {body : Orb α → Orb α → List β → Orb α → Prop} {s : Orb α} (hw : WF n s) (f : Orb α → List β)
    (hb : ∀ x k out t', body x { s with it := some k } out t' ↔ out = f x ∧ t' = { s with it := some k }) :
    ∀ (d k : Nat), n - k = d → k ≤ n → ∀ out s', ForLoop K body { s with it := some k } out s' ↔
      out = (List.range' k d).flatMap (fun j => f (view K [j] s)) ∧ s' = { s with it := some n } := by
  intro d
  induction d with
  | zero =>
    intro k hd hk out s'
    have hk' : k = n := by omega
    subst hk'
    have hn := next_stop K (wf_it hw (some k)) rfl (Nat.le_refl k)
    constructor
    · intro h
      cases h with
      | stop h1 =>
        rw [hn] at h1
        injection h1 with _ h2
        exact ⟨rfl, h2.symm⟩
      | step h1 _ _ =>
        rw [hn] at h1
        cases h1
    · rintro ⟨rfl, rfl⟩
      exact .stop hn
  | succ d ih =>
    intro k hd hk out s'
    have hlt : k < n := by omega
    have hn := next_lt K (wf_it hw (some k)) rfl hlt
    have hv : view K [k] { s with it := some k } = view K [k] s := rfl
    rw [hv] at hn
    constructor
    · intro h
      cases h with
      | stop h1 =>
        rw [hn] at h1
        cases h1
      | step h1 h2 h3 =>
        rw [hn] at h1
        injection h1 with h4 h5
        injection h4 with h4
        subst h4
        subst h5
        obtain ⟨rfl, rfl⟩ := (hb _ _ _ _).1 h2
        obtain ⟨rfl, rfl⟩ := (ih (k + 1) (by omega) (by omega) _ _).1 h3
        exact ⟨by rw [List.range'_succ, List.flatMap_cons], rfl⟩
    · rintro ⟨rfl, rfl⟩
      rw [List.range'_succ, List.flatMap_cons]
      exact .step hn ((hb _ _ _ _).2 ⟨rfl, rfl⟩) ((ih (k + 1) (by omega) (by omega) _ _).2 ⟨rfl, rfl⟩)

theorem listLoop_iff {n : Nat} {s : Orb α} (hw : WF n s) (xs : List (Orb α)) (s' : Orb α) :
    ListLoop K s xs s' ↔ xs = (List.range n).map (fun j => view K [j] s) ∧ s' = { s with it := some n } := by
  have := loop_from K (body := collect) hw (fun x => [x]) (fun x k out t' => Iff.rfl) n 0 (by omega) (by omega) xs s'
  rw [show (List.range' 0 n).flatMap (fun j => [view K [j] s]) = (List.range n).map (fun j => view K [j] s) by
    rw [List.range_eq_range']; generalize List.range' 0 n = l; induction l with
      | nil => rfl
      | cons a l ih => rw [List.flatMap_cons, ih]; rfl] at this
  exact this

/-- C36 (partial), one loop: for every object, `for x in orb` runs its body for exactly `orb[0]`, `orb[1]`, ..,
`orb[num-1]`, in this order, and then ends, leaving only the counter changed.  Left out: nested loops over the same object
(`c36_false`). -/
theorem c36_loop_partial {n : Nat} (s : Orb α) (hs : OneEntryPerOrbit s n) :
    ∃ ys : List (Orb α), ys.length = n ∧ (∀ k (h : k < ys.length), getitem K (.int k) s = .ok ys[k]) ∧
      ∀ xs s', ListLoop K s xs s' ↔ xs = ys ∧ s' = { s with it := some n } := by
  have hw := hs.wfe.1
  refine ⟨(List.range n).map (fun j => view K [j] s), by simp, fun k h => ?_, fun xs s' => listLoop_iff K hw xs s'⟩
  have hk : k < n := by simpa using h
  rw [getitem_run K hw, pos_int hk]
  simp

/-- C36, nested loops over one object: the inner loop moves the counter of the outer loop to the end, so that only the pairs
`(orb[0], orb[j])` are visited. -/
theorem c36_nested {n : Nat} (s : Orb α) (hs : OneEntryPerOrbit s n) (hn : 0 < n) :
    ∃ ys : List (Orb α), ∃ h : 0 < ys.length, ys.length = n ∧ (∀ k (h : k < ys.length), getitem K (.int k) s = .ok ys[k]) ∧
      ∀ out s', PairLoop K s out s' ↔ out = ys.map (fun y => (ys[0], y)) ∧ s' = { s with it := some n } := by
  have hw := hs.wfe.1
  refine ⟨(List.range n).map (fun j => view K [j] s), by simpa using hn, by simp, fun k h => ?_, fun out s' => ?_⟩
  · have hk : k < n := by simpa using h
    rw [getitem_run K hw, pos_int hk]
    simp
  · have hn1 := next_lt K (wf_it hw (some 0)) rfl hn
    have hv : view K [0] { s with it := some 0 } = view K [0] s := rfl
    rw [hv] at hn1
    have hn2 := next_stop K (wf_it hw (some n)) rfl (Nat.le_refl n)
    have hy : ((List.range n).map (fun j => view K [j] s))[0]'(by simpa using hn) = view K [0] s := by simp
    rw [hy]
    constructor
    · intro h
      cases h with
      | stop h1 =>
        have h1' : next K { s with it := some 0 } = (.error .stopIteration, s') := h1
        rw [hn1] at h1'; cases h1'
      | step h1 h2 h3 =>
        have h1' : next K { s with it := some 0 } = _ := h1
        rw [hn1] at h1'
        injection h1' with h4 h5
        injection h4 with h4
        subst h4
        subst h5
        obtain ⟨ys, hys, rfl⟩ := h2
        obtain ⟨rfl, rfl⟩ := (listLoop_iff K (wf_it hw (some 1)) _ _).1 hys
        cases h3 with
        | stop h6 =>
          have h6' : next K { s with it := some n } = (.error .stopIteration, s') := h6
          rw [hn2] at h6'
          injection h6' with _ h7
          exact ⟨List.append_nil _, h7.symm⟩
        | step h6 _ _ =>
          have h6' : next K { s with it := some n } = _ := h6
          rw [hn2] at h6'; cases h6'
    · rintro ⟨rfl, rfl⟩
      have := ForLoop.step (K := K) (body := fun x t (out : List (Orb α × Orb α)) t' => ∃ ys, ListLoop K t ys t' ∧ out = ys.map fun y => (x, y))
        (s := { s with it := some 0 }) hn1 ⟨_, (listLoop_iff K (wf_it hw (some (0 + 1))) _ _).2 ⟨rfl, rfl⟩, rfl⟩ (.stop hn2)
      rw [List.append_nil] at this
      exact this

/-- C36, refuted: for an object with two or more orbits, two nested loops over it do not visit all pairs: there are `num` of
them instead of `num*num`. -/
theorem c36_false {n : Nat} (s : Orb α) (hs : OneEntryPerOrbit s n) (hn : 2 ≤ n) :
    (∃ out s', PairLoop K s out s') ∧ ∀ out s', PairLoop K s out s' → out.length ≠ n * n := by
  obtain ⟨ys, h0, hl, -, h⟩ := c36_nested K s hs (by omega)
  refine ⟨⟨_, _, (h _ _).2 ⟨rfl, rfl⟩⟩, fun out s' ho => ?_⟩
  obtain ⟨rfl, -⟩ := (h _ _).1 ho
  rw [List.length_map, hl]
  have : n * 2 ≤ n * n := Nat.mul_le_mul_left n hn
  omega

theorem view_view {n : Nat} {s : Orb α} (hw : WF n s) {j : Nat} (hj : j < n) :
    view K [j] (view K (List.range n) s) = view K [j] s := by
  simp only [view]
  rw [show gather s.m (List.range n) = s.m by rw [← hw.m]; exact gather_range _,
      show gather s.cart (List.range n) = s.cart by rw [← hw.cart]; exact gather_range _,
      show gather s.kep (List.range n) = s.kep by rw [← hw.kep]; exact gather_range _]

/-- C36 (partial), nested loops: when the inner loop runs over a copy, all pairs of orbits are visited in order. -/
theorem c36_nested_partial {n : Nat} (s : Orb α) (hs : OneEntryPerOrbit s n) :
    ∃ ys : List (Orb α), ys.length = n ∧ (∀ k (h : k < ys.length), getitem K (.int k) s = .ok ys[k]) ∧
      ∀ out s', PairLoopCopy K s out s' ↔ out = ys.flatMap (fun x => ys.map fun y => (x, y)) ∧ s' = { s with it := some n } := by
  have hw := hs.wfe.1
  refine ⟨(List.range n).map (fun j => view K [j] s), by simp, fun k h => ?_, fun out s' => ?_⟩
  · have hk : k < n := by simpa using h
    rw [getitem_run K hw, pos_int hk]
    simp
  · have hcopy : ∀ k, copy K { s with it := some k } = .ok (view K (List.range n) s) := by
      intro k
      rw [copy, getitem_run K (wf_it hw _), pos_all]
      rfl
    have hwv : WF n (view K (List.range n) s) := by
      have := (view_wfe K hw (ps := List.range n) (by simp)).1
      rwa [List.length_range] at this
    have hmap : (List.range n).map (fun j => view K [j] (view K (List.range n) s)) = (List.range n).map (fun j => view K [j] s) := by
      apply List.map_congr_left
      intro j hj
      exact view_view K hw (by simpa using hj)
    have := loop_from K (s := s) (n := n) hw
      (body := fun x t out t' => t' = t ∧ ∃ c ys c', copy K t = .ok c ∧ ListLoop K c ys c' ∧ out = ys.map fun y => (x, y))
      (fun x => ((List.range n).map (fun j => view K [j] s)).map fun y => (x, y)) (fun x k out t' => by
        constructor
        · rintro ⟨rfl, c, ys, c', hc, hl, rfl⟩
          rw [hcopy] at hc
          injection hc with hc
          subst hc
          obtain ⟨rfl, -⟩ := (listLoop_iff K hwv _ _).1 hl
          rw [hmap]
          exact ⟨rfl, rfl⟩
        · rintro ⟨rfl, rfl⟩
          refine ⟨rfl, _, _, _, hcopy k, (listLoop_iff K hwv _ _).2 ⟨rfl, rfl⟩, ?_⟩
          rw [hmap]) n 0 (by omega) (by omega) out s'
    rw [List.flatMap_map, List.range_eq_range']
    rw [List.range_eq_range'] at this
    exact this

/-- `next(orb)` before any `iter(orb)` raises AttributeError and changes nothing -/
theorem c36_next_first (s : Orb α) (h : s.it = none) : next K s = (.error .attributeError, s) := by
  simp only [next, self_bind, h, raise_run]

/-- an object with three orbits, for the theorems above -/
example (M0 G : α) (o : SolverOpts α) : ∃ s, init K M0 { G := G, opts := o, n := 3 } {} = .ok s ∧ OneEntryPerOrbit s 3 ∧ s.it = none :=
  ⟨_, init_blank K M0 G o .tru 3, ⟨rfl, rfl, rfl, rfl, ⟨_, rfl, rfl⟩, rfl, rfl, rfl⟩, rfl⟩

end Orbit
end Pyorb
