import Verif.PropsOrbitShape

/-!
# Direct mode: what the recalculations do, and tools for following successful calls
-/

set_option linter.unusedSimpArgs false
set_option linter.unusedVariables false

namespace Pyorb
namespace Orbit
open Py
variable {α : Type} (K : Kern α)

theorem lazy_direct {s : Orb α} (h : s.direct = true) : lazy s = false := by simp [lazy, h]

theorem calcKep_direct {s : Orb α} (h : lazy s = false) (P : Nat → Bool) : calcKep K depth P s = recalcKep K (doKep K P s) s := by
  rw [show depth = 1 + 2 from rfl, calcKep_eq]
  apply recalcKep_congr
  intro j; simp [kepSet, h]

theorem calcCart_direct {n : Nat} {s : Orb α} (hw : WF n s) (h : lazy s = false) (P : Nat → Bool) :
    calcCart K P s = recalcCart K (doCart K P s) s :=
  calcCart_eq K P s hw (.inr fun j => by simp [checkSet, h])

theorem cartCheck_direct {s : Orb α} (h : lazy s = false) : cartCheck K s = s := by
  unfold cartCheck
  rw [if_neg (by simpa [lazy] using h)]

theorem calculate_cartesian_direct {n : Nat} {s : Orb α} (hw : WF n s) (h : lazy s = false) :
    calculate_cartesian K .all s = (.ok (), recalcCart K (kepOk K s) s) := by
  rw [calculate_cartesian_all K hw, calcCart_direct K hw h]
  congr 2
  funext j
  rw [doCart_eq]
  unfold allPos kepOk
  rw [hw.kep]
  by_cases hj : j < n <;> simp [hj]

theorem calculate_kepler_direct {n : Nat} {s : Orb α} (hw : WF n s) (h : lazy s = false) :
    calculate_kepler K .all s = (.ok (), recalcKep K (cartOk K s) s) := by
  rw [calculate_kepler_all K hw, calcKep_direct K h]
  congr 2
  funext j
  rw [doKep_eq]
  unfold allPos cartOk
  rw [hw.cart]
  by_cases hj : j < n <;> simp [hj]

/-! ## Successful calls -/

/-- if `x` returns normally from a state with `P`, then value and new state satisfy `Q` -/
def Ok {β : Type} (P : Orb α → Prop) (x : Py α β) (Q : β → Orb α → Prop) : Prop :=
  ∀ s, P s → ∀ b s', x s = (.ok b, s') → Q b s'

section Ok
variable {β γ : Type} {P : Orb α → Prop}

theorem Ok.bind {x : Py α β} {f : β → Py α γ} {Q : β → Orb α → Prop} {R : γ → Orb α → Prop}
    (hx : Ok P x Q) (hf : ∀ b, Ok (Q b) (f b) R) : Ok P (x >>= f) R := by
  intro s hs c s' h
  rw [bind_run] at h
  rcases hxs : x s with ⟨e | b, s1⟩
  · rw [hxs] at h; cases h
  · rw [hxs] at h
    exact hf b s1 (hx s hs b s1 hxs) c s' h

theorem Ok.pure {Q : β → Orb α → Prop} {b : β} (h : ∀ s, P s → Q b s) : Ok P (Pure.pure b : Py α β) Q := by
  intro s hs b' s' hb; cases hb; exact h s hs
theorem Ok.raise {Q : β → Orb α → Prop} {e : PyErr} : Ok P (Py.raise e : Py α β) Q := by
  intro s hs b' s' hb; cases hb
theorem Ok.self : Ok P (Py.self : Py α (Orb α)) (fun b s => b = s ∧ P s) := by
  intro s hs b' s' hb; cases hb; exact ⟨rfl, hs⟩
theorem Ok.upd {f : Orb α → Orb α} {Q : Unit → Orb α → Prop} (h : ∀ s, P s → Q () (f s)) : Ok P (Py.upd f) Q := by
  intro s hs b' s' hb; cases hb; exact h s hs
theorem Ok.lift {x : Except PyErr β} : Ok P (Py.lift x : Py α β) (fun b s => x = .ok b ∧ P s) := by
  intro s hs b' s' hb
  have h1 : x = .ok b' := congrArg Prod.fst hb
  have h2 : s = s' := congrArg Prod.snd hb
  subst h2
  exact ⟨h1, hs⟩
theorem Ok.mono {x : Py α β} {Q R : β → Orb α → Prop} (h : Ok P x Q) (hQ : ∀ b s, Q b s → R b s) : Ok P x R :=
  fun s hs b s' hb => hQ b s' (h s hs b s' hb)
theorem Ok.pre {P' : Orb α → Prop} {x : Py α β} {Q : β → Orb α → Prop} (h : Ok P x Q) (hP : ∀ s, P' s → P s) : Ok P' x Q :=
  fun s hs => h s (hP s hs)
theorem Ok.ite {c : Prop} [Decidable c] {x y : Py α β} {Q : β → Orb α → Prop} (hx : c → Ok P x Q) (hy : ¬ c → Ok P y Q) :
    Ok P (if c then x else y) Q := by
  by_cases h : c
  · rw [if_pos h]; exact hx h
  · rw [if_neg h]; exact hy h
/-- reading the object gives the current state -/
theorem Ok.selfBind {f : Orb α → Py α γ} {R : γ → Orb α → Prop} (h : ∀ t, P t → Ok (fun s => s = t) (f t) R) :
    Ok P (Py.self >>= f) R := by
  intro s hs c s' hc
  exact h s hs s rfl c s' hc
/-- adding an invariant -/
theorem Ok.and {x : Py α β} {Q R : β → Orb α → Prop} (h : Ok P x Q) (h' : Ok P x R) : Ok P x (fun b s => Q b s ∧ R b s) :=
  fun s hs b s' hb => ⟨h s hs b s' hb, h' s hs b s' hb⟩
theorem Keeps.ok {I : Orb α → Prop} {x : Py α β} {Q : β → Prop} (h : Keeps I x Q) : Ok I x (fun b s => Q b ∧ I s) := by
  intro s hs b s' hb
  have := h s hs
  rw [hb] at this
  exact ⟨this.2 b rfl, this.1⟩

end Ok

end Orbit
end Pyorb
