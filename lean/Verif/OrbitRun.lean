import Verif.OrbitCalc
import Verif.OrbitIndex

/-!
# What each method of `Orbit` computes, written without the monad
-/

set_option linter.unusedSimpArgs false

namespace Pyorb
namespace Py
variable {α β γ : Type}

theorem bind_run (x : Py α β) (f : β → Py α γ) (s : Orb α) :
    (x >>= f) s = match x s with | (.ok b, s') => f b s' | (.error e, s') => (.error e, s') := rfl
@[simp] theorem pure_run (b : β) (s : Orb α) : (pure b : Py α β) s = (.ok b, s) := rfl
@[simp] theorem raise_run (e : PyErr) (s : Orb α) : (raise e : Py α β) s = (.error e, s) := rfl
@[simp] theorem self_run (s : Orb α) : (self : Py α (Orb α)) s = (.ok s, s) := rfl
@[simp] theorem upd_run (f : Orb α → Orb α) (s : Orb α) : upd f s = (.ok (), f s) := rfl
@[simp] theorem lift_run (x : Except PyErr β) (s : Orb α) : (lift x : Py α β) s = (x, s) := rfl
@[simp] theorem self_bind (f : Orb α → Py α γ) (s : Orb α) : (self >>= f) s = f s s := rfl
@[simp] theorem upd_bind (g : Orb α → Orb α) (f : Unit → Py α γ) (s : Orb α) : (upd g >>= f) s = f () (g s) := rfl
@[simp] theorem pure_bind' (b : β) (f : β → Py α γ) (s : Orb α) : ((pure b : Py α β) >>= f) s = f b s := rfl
@[simp] theorem raise_bind (e : PyErr) (f : β → Py α γ) (s : Orb α) : ((raise e : Py α β) >>= f) s = (.error e, s) := rfl
@[simp] theorem liftOk_bind (b : β) (f : β → Py α γ) (s : Orb α) : ((lift (.ok b) : Py α β) >>= f) s = f b s := rfl
@[simp] theorem liftErr_bind (e : PyErr) (f : β → Py α γ) (s : Orb α) :
    ((lift (.error e) : Py α β) >>= f) s = (.error e, s) := rfl
theorem bind_ok {x : Py α β} {f : β → Py α γ} {s s' : Orb α} {b : β} (h : x s = (.ok b, s')) : (x >>= f) s = f b s' := by
  rw [bind_run, h]
theorem bind_err {x : Py α β} {f : β → Py α γ} {s s' : Orb α} {e : PyErr} (h : x s = (.error e, s')) :
    (x >>= f) s = (.error e, s') := by
  rw [bind_run, h]
theorem lift_bind (x : Except PyErr β) (f : β → Py α γ) (s : Orb α) :
    ((lift x : Py α β) >>= f) s = match x with | .ok b => f b s | .error e => (.error e, s) := by
  cases x <;> rfl
theorem bind_assoc' {δ : Type} (x : Py α β) (f : β → Py α γ) (g : γ → Py α δ) (s : Orb α) :
    ((x >>= f) >>= g) s = (x >>= fun b => f b >>= g) s := by
  simp only [bind_run]
  rcases h : x s with ⟨b | b, s'⟩ <;> rfl

end Py

namespace Orbit
open Py
variable {α : Type} (K : Kern α)

theorem slicePos_all (n : Nat) : slicePos n none none 1 = List.range n := by
  have h : ((n : Int) - 0 + 1 - 1) / 1 = n := by omega
  simp only [slicePos, sliceUp, if_pos (show (0:Int) < 1 by decide), h, Int.toNat_natCast]
  apply List.ext_getElem <;> simp

theorem pos_all (n : Nat) : Inds.all.pos n = .ok (List.range n) := by
  simp [Inds.all, Inds.pos, slicePos_all]

/-- everything selected -/
def allPos (n : Nat) (j : Nat) : Bool := decide (j < n)

theorem contains_range (n : Nat) : (fun j => (List.range n).contains j) = allPos n := by
  funext j
  simp [allPos]

theorem num_wf {n : Nat} {s : Orb α} (h : WF n s) : num s = (.ok n, s) := by
  simp [num, h.kep, h.cart]

theorem calculate_cartesian_all {n : Nat} {s : Orb α} (h : WF n s) :
    calculate_cartesian K .all s = (.ok (), calcCart K (allPos n) s) := by
  simp only [calculate_cartesian, bind_ok (num_wf h), pos_all, liftOk_bind, upd_run, contains_range]

theorem calculate_kepler_all {n : Nat} {s : Orb α} (h : WF n s) :
    calculate_kepler K .all s = (.ok (), calcKep K depth (allPos n) s) := by
  simp only [calculate_kepler, bind_ok (num_wf h), pos_all, liftOk_bind, upd_run, contains_range]

theorem calculate_cartesian_run {n : Nat} {s : Orb α} (h : WF n s) (inds : Inds) :
    calculate_cartesian K inds s = match inds.pos n with
      | .ok ps => (.ok (), calcCart K (fun j => ps.contains j) s)
      | .error e => (.error e, s) := by
  simp only [calculate_cartesian, bind_ok (num_wf h), lift_bind]
  cases inds.pos n <;> rfl

theorem calculate_kepler_run {n : Nat} {s : Orb α} (h : WF n s) (inds : Inds) :
    calculate_kepler K inds s = match inds.pos n with
      | .ok ps => (.ok (), calcKep K depth (fun j => ps.contains j) s)
      | .error e => (.error e, s) := by
  simp only [calculate_kepler, bind_ok (num_wf h), lift_bind]
  cases inds.pos n <;> rfl

/-! ## WF of the pure pieces -/

theorem WF.recalcKep {n : Nat} {s : Orb α} (h : WF n s) (E : Nat → Bool) : WF n (recalcKep K E s) :=
  ⟨h.m, h.cart, by simp [Orbit.recalcKep, h.kep], h.tA, h.mA, h.cartCalc, by simp [Orbit.recalcKep, h.kepCalc]⟩

theorem WF.calcKep {n : Nat} {s : Orb α} (h : WF n s) (P : Nat → Bool) : WF n (calcKep K depth P s) := by
  rw [show depth = 1 + 2 from rfl, calcKep_eq]; exact h.recalcKep K _

theorem WF.kepCheck {n : Nat} {s : Orb α} (h : WF n s) : WF n (kepCheck K s) := by
  rw [kepCheck_eq]; exact h.recalcKep K _

theorem WF.calcTrue {n : Nat} {s : Orb α} (h : WF n s) (sc : Bool) (P : Nat → Bool) : WF n (calcTrue K sc P s) := by
  rw [calcTrue_eq]
  have h' := h.kepCheck K
  exact ⟨h'.m, h'.cart, h'.kep, by simp [storeTrue, h'.tA], h'.mA, h'.cartCalc, h'.kepCalc⟩

theorem WF.calcMean {n : Nat} {s : Orb α} (h : WF n s) (sc : Bool) (P : Nat → Bool) : WF n (calcMean K sc P s) := by
  rw [calcMean_eq]
  have h' := h.kepCheck K
  exact ⟨h'.m, h'.cart, h'.kep, h'.tA, by simp [storeMean, h'.mA], h'.cartCalc, h'.kepCalc⟩

theorem WF.markCart {n : Nat} {s : Orb α} (h : WF n s) (d : Nat → Bool) : WF n (markCart d s) :=
  ⟨h.m, h.cart, h.kep, h.tA, h.mA, by simp [Orbit.markCart, h.cartCalc], h.kepCalc⟩

theorem WF.storeCart {n : Nat} {s : Orb α} (h : WF n s) (d : Nat → Bool) (t : Nat → Kep α) : WF n (storeCart K d t s) :=
  ⟨h.m, by simp [Orbit.storeCart, h.cart], h.kep, h.tA, h.mA, h.cartCalc, h.kepCalc⟩

theorem WF.calcCart {n : Nat} {s : Orb α} (h : WF n s) (P : Nat → Bool) : WF n (calcCart K P s) := by
  unfold Orbit.calcCart
  simp only
  split_ifs
  · exact (h.markCart _).storeCart K _ _
  · exact ((h.markCart _).calcTrue K _ _).storeCart K _ _
  · exact h

theorem WF.cartCheck {n : Nat} {s : Orb α} (h : WF n s) : WF n (cartCheck K s) := by
  unfold Orbit.cartCheck; split_ifs
  · exact h.calcCart K _
  · exact h

/-! ## Broadcasting -/

theorem ite_length {β : Type} {l vs : List β} {k : Nat}
    (h : (if l.length = k then Except.ok l else Except.error PyErr.valueError) = Except.ok vs) : vs.length = k := by
  split_ifs at h with h'
  injection h with h; rw [← h, h']

theorem Val.spread_length {k : Nat} {v : Val α} {vs : List α} (h : v.spread k = .ok vs) : vs.length = k := by
  match v with
  | .sc x => simp [Val.spread] at h; simp [← h]
  | .zd x => simp [Val.spread] at h; simp [← h]
  | .vec [x] => simp [Val.spread] at h; simp [← h]
  | .vec [] => exact ite_length h
  | .vec (x :: y :: l) => exact ite_length h

theorem Val6.spread_length {C : Type} {const : α → C} {k : Nat} {v : Val6 α C} {cs : List C}
    (h : v.spread const k = .ok cs) : cs.length = k := by
  match v with
  | .sc x => simp [Val6.spread] at h; simp [← h]
  | .vec _ [x] => simp [Val6.spread] at h; simp [← h]
  | .vec nd [] => exact ite_length (l := []) h
  | .vec nd (x :: y :: l) =>
    have h' : (if (x :: y :: l).length = k then Except.ok ((x :: y :: l).map const) else Except.error PyErr.valueError)
      = Except.ok cs := h
    rw [← List.length_map (f := const)] at h'
    exact ite_length h'
  | .mat [x] => simp [Val6.spread] at h; simp [← h]
  | .mat [] => exact ite_length h
  | .mat (x :: y :: l) => exact ite_length h

theorem Val6.setter_length {C : Type} {const : α → C} {col : List α → Option C} {k : Nat} {v : Val6 α C} {cs : List C}
    (h : v.setter const col k = .ok cs) : cs.length = k := by
  unfold Val6.setter at h
  split at h
  · injection h with h; simp [← h]
  · split at h
    · injection h with h; simp [← h]
    · cases h
  · exact Val6.spread_length h

theorem writeAt_length {β γ : Type} (w : β → γ → β) (l : List β) (ps : List Nat) (vs : List γ) :
    (writeAt w l ps vs).length = l.length := by
  unfold writeAt
  generalize ps.zip vs = zs
  induction zs generalizing l with
  | nil => rfl
  | cons z zs ih => simp [ih]

/-! ## A small program logic: `x` keeps `I` (also when it raises), and its value satisfies `Q` -/

/-- from a state with `I`, the method leaves a state with `I` behind, and a value it returns satisfies `Q` -/
def Keeps {β : Type} (I : Orb α → Prop) (x : Py α β) (Q : β → Prop) : Prop :=
  ∀ s, I s → I (x s).2 ∧ ∀ b, (x s).1 = .ok b → Q b

section Keeps
variable {β γ : Type} {I : Orb α → Prop}

theorem Keeps.bind {x : Py α β} {f : β → Py α γ} {Q : β → Prop} {R : γ → Prop}
    (hx : Keeps I x Q) (hf : ∀ b, Q b → Keeps I (f b) R) : Keeps I (x >>= f) R := by
  intro s hs
  obtain ⟨h1, h2⟩ := hx s hs
  rw [bind_run]
  rcases h : x s with ⟨e | b, s'⟩
  · rw [h] at h1
    exact ⟨h1, fun b hb => by cases hb⟩
  · rw [h] at h1 h2
    exact hf b (h2 b rfl) s' h1

theorem Keeps.pure {Q : β → Prop} {b : β} (h : Q b) : Keeps I (Pure.pure b : Py α β) Q :=
  fun _ hs => ⟨hs, fun _ hb => by cases hb; exact h⟩
theorem Keeps.raise {Q : β → Prop} {e : PyErr} : Keeps I (Py.raise e : Py α β) Q :=
  fun _ hs => ⟨hs, fun _ hb => by cases hb⟩
theorem Keeps.self : Keeps I (Py.self : Py α (Orb α)) I := fun _ hs => ⟨hs, fun _ hb => by cases hb; exact hs⟩
theorem Keeps.upd {f : Orb α → Orb α} (h : ∀ s, I s → I (f s)) : Keeps I (Py.upd f) (fun _ => True) :=
  fun s hs => ⟨h s hs, fun _ _ => trivial⟩
theorem Keeps.lift {x : Except PyErr β} : Keeps I (Py.lift x : Py α β) (fun b => x = .ok b) :=
  fun _ hs => ⟨hs, fun _ hb => hb⟩
theorem Keeps.mono {x : Py α β} {Q R : β → Prop} (h : Keeps I x Q) (hQ : ∀ b, Q b → R b) : Keeps I x R :=
  fun s hs => ⟨(h s hs).1, fun b hb => hQ b ((h s hs).2 b hb)⟩
theorem Keeps.ite {c : Prop} [Decidable c] {x y : Py α β} {Q : β → Prop} (hx : c → Keeps I x Q) (hy : ¬ c → Keeps I y Q) :
    Keeps I (if c then x else y) Q := by
  by_cases h : c
  · rw [if_pos h]; exact hx h
  · rw [if_neg h]; exact hy h

end Keeps

end Orbit
end Pyorb
