import Verif.PropsOrbitRead

/-!
# C46: lazy access terminates

The recalculations call the property getters, which call the recalculations.  Here this mutual recursion is written down as
it stands, as inductive relations without a bound on the nesting: a derivation is one (finite) execution, with its nesting
depth.  C46 says that every call has such an execution, that it is the only one, and that its depth is at most two.
-/

set_option linter.unusedSimpArgs false
set_option linter.unusedVariables false

namespace Pyorb
namespace Orbit
open Py
variable {α : Type} (K : Kern α)

/-- `KepRun P s s' d`: the call `calculate_kepler` (orbit.py 468-501) for the positions `P` on the object `s` returns and
leaves `s'`; `d` recalculations were nested in each other at most.  The call returns at once when there is nothing to do
(480); otherwise it stores elements, and for an eccentric or mean anomaly it reads `self.e` (493, 499), which in lazy mode
calls `calculate_kepler` for all stale positions (157-161). -/
inductive KepRun : (Nat → Bool) → Orb α → Orb α → Nat → Prop
  | skip {P s} : anyDo s.cart.length (doKep K P s) = false → KepRun P s s 0
  | tru {P s} : anyDo s.cart.length (doKep K P s) = true → s.type = .tru → KepRun P s (storeKep K (doKep K P s) s) 1
  | off {P s} : anyDo s.cart.length (doKep K P s) = true → s.type ≠ .tru → lazy s = false →
      KepRun P s (storeAnom K (doKep K P s) (fromTrue K s.type) (storeKep K (doKep K P s) s) (storeKep K (doKep K P s) s)) 1
  | on {P s s2 k} : anyDo s.cart.length (doKep K P s) = true → s.type ≠ .tru → lazy s = true →
      KepRun (stale (storeKep K (doKep K P s) s).kepCalc) (storeKep K (doKep K P s) s) s2 k →
      KepRun P s (storeAnom K (doKep K P s) (fromTrue K s.type) (storeKep K (doKep K P s) s) s2) (k + 1)

/-- `_kep_check` (orbit.py 157-161) -/
inductive KepCheckRun : Orb α → Orb α → Nat → Prop
  | off {s} : lazy s = false → KepCheckRun s s 0
  | on {s s' k} : lazy s = true → KepRun K (stale s.kepCalc) s s' k → KepCheckRun s s' k

/-- `calculate_cartesian` (orbit.py 439-466): for an eccentric or mean anomaly it calls `calc_true_anomaly`, which reads
`self.anom` and `self.e` (844-863). -/
inductive CartRun : (Nat → Bool) → Orb α → Orb α → Nat → Prop
  | skip {P s} : anyDo s.kep.length (doCart K P s) = false → CartRun P s s 0
  | tru {P s} : anyDo s.kep.length (doCart K P s) = true → s.type = .tru →
      CartRun P s (storeCart K (doCart K P s) (kepAt K s) (markCart (doCart K P s) s)) 1
  | conv {P s s1 s2 k1 k2} : anyDo s.kep.length (doCart K P s) = true → s.type ≠ .tru →
      KepCheckRun K (markCart (doCart K P s) s) s1 k1 → KepCheckRun K s1 s2 k2 →
      CartRun P s (storeCart K (doCart K P s)
        (fun j => { kepAt K s j with nu := (storeTrue K (doCart K P s) (toTrue K s.type s.opts s.degrees) s1 s2).tA.getD j K.nan })
        (storeTrue K (doCart K P s) (toTrue K s.type s.opts s.degrees) s1 s2)) (max k1 k2 + 1)

/-- `_cart_check` (orbit.py 151-155) -/
inductive CartCheckRun : Orb α → Orb α → Nat → Prop
  | off {s} : lazy s = false → CartCheckRun s s 0
  | on {s s' k} : lazy s = true → CartRun K (stale s.cartCalc) s s' k → CartCheckRun s s' k

theorem KepRun.det {P : Nat → Bool} {s s' s'' : Orb α} {d d' : Nat} (h : KepRun K P s s' d) (h' : KepRun K P s s'' d') :
    s' = s'' ∧ d = d' := by
  induction h generalizing s'' d' with
  | skip h1 =>
    cases h' with
    | skip => exact ⟨rfl, rfl⟩
    | tru h2 => rw [h1] at h2; cases h2
    | off h2 => rw [h1] at h2; cases h2
    | on h2 => rw [h1] at h2; cases h2
  | tru h1 ht =>
    cases h' with
    | skip h2 => rw [h1] at h2; cases h2
    | tru => exact ⟨rfl, rfl⟩
    | off h2 ht' => exact absurd ht ht'
    | on h2 ht' => exact absurd ht ht'
  | off h1 ht hl =>
    cases h' with
    | skip h2 => rw [h1] at h2; cases h2
    | tru h2 ht' => exact absurd ht' ht
    | off => exact ⟨rfl, rfl⟩
    | on h2 ht' hl' => rw [hl] at hl'; cases hl'
  | on h1 ht hl r ih =>
    cases h' with
    | skip h2 => rw [h1] at h2; cases h2
    | tru h2 ht' => exact absurd ht' ht
    | off h2 ht' hl' => rw [hl] at hl'; cases hl'
    | on h2 ht' hl' r' =>
      obtain ⟨e1, e2⟩ := ih r'
      subst e1; subst e2
      exact ⟨rfl, rfl⟩

theorem KepCheckRun.det {s s' s'' : Orb α} {d d' : Nat} (h : KepCheckRun K s s' d) (h' : KepCheckRun K s s'' d') :
    s' = s'' ∧ d = d' := by
  cases h with
  | off h1 =>
    cases h' with
    | off => exact ⟨rfl, rfl⟩
    | on h2 => rw [h1] at h2; cases h2
  | on h1 r =>
    cases h' with
    | off h2 => rw [h1] at h2; cases h2
    | on h2 r' => exact KepRun.det K r r'

theorem CartRun.det {P : Nat → Bool} {s s' s'' : Orb α} {d d' : Nat} (h : CartRun K P s s' d) (h' : CartRun K P s s'' d') :
    s' = s'' ∧ d = d' := by
  cases h with
  | skip h1 =>
    cases h' with
    | skip => exact ⟨rfl, rfl⟩
    | tru h2 => rw [h1] at h2; cases h2
    | conv h2 => rw [h1] at h2; cases h2
  | tru h1 ht =>
    cases h' with
    | skip h2 => rw [h1] at h2; cases h2
    | tru => exact ⟨rfl, rfl⟩
    | conv h2 ht' => exact absurd ht ht'
  | conv h1 ht r1 r2 =>
    cases h' with
    | skip h2 => rw [h1] at h2; cases h2
    | tru h2 ht' => exact absurd ht' ht
    | conv h2 ht' r1' r2' =>
      obtain ⟨e1, e2⟩ := KepCheckRun.det K r1 r1'
      subst e1; subst e2
      obtain ⟨e1, e2⟩ := KepCheckRun.det K r2 r2'
      subst e1; subst e2
      exact ⟨rfl, rfl⟩

theorem CartCheckRun.det {s s' s'' : Orb α} {d d' : Nat} (h : CartCheckRun K s s' d) (h' : CartCheckRun K s s'' d') :
    s' = s'' ∧ d = d' := by
  cases h with
  | off h1 =>
    cases h' with
    | off => exact ⟨rfl, rfl⟩
    | on h2 => rw [h1] at h2; cases h2
  | on h1 r =>
    cases h' with
    | off h2 => rw [h1] at h2; cases h2
    | on h2 r' => exact CartRun.det K r r'

theorem lazy_storeKep (d : Nat → Bool) (s : Orb α) : lazy (storeKep K d s) = lazy s := rfl

/-- one unfolding of `calcKep` in the terms of `KepRun` -/
theorem calcKep_unfold (f : Nat) (P : Nat → Bool) (s : Orb α) :
    calcKep K (f + 1) P s =
      if anyDo s.cart.length (doKep K P s) then
        if s.type = .tru then storeKep K (doKep K P s) s
        else storeAnom K (doKep K P s) (fromTrue K s.type) (storeKep K (doKep K P s) s)
          (if lazy s then calcKep K f (stale (storeKep K (doKep K P s) s).kepCalc) (storeKep K (doKep K P s) s)
            else storeKep K (doKep K P s) s)
      else s := by
  have hc : (storeKep K (doKep K P s) s).auto = s.auto := rfl
  have hd : (storeKep K (doKep K P s) s).direct = s.direct := rfl
  simp only [calcKep, hc, hd]
  by_cases h1 : anyDo s.cart.length (doKep K P s) = true
  · rw [if_pos h1, if_pos h1]
    cases ht : s.type with
    | tru => rfl
    | ecc => rfl
    | mean => rfl
  · rw [if_neg h1, if_neg h1]

/-- a call for all stale positions does not nest -/
theorem keprun_stale (f : Nat) (P : Nat → Bool) (s : Orb α) (hP : ∀ j, stale s.kepCalc j = true → P j = true) :
    ∃ d ≤ 1, KepRun K P s (calcKep K (f + 1) P s) d := by
  rw [calcKep_unfold]
  by_cases ha : anyDo s.cart.length (doKep K P s) = true
  · rw [if_pos ha]
    by_cases ht : s.type = .tru
    · rw [if_pos ht]; exact ⟨1, Nat.le_refl 1, .tru ha ht⟩
    · rw [if_neg ht]
      have hno : ∀ j, doKep K (stale (storeKep K (doKep K P s) s).kepCalc) (storeKep K (doKep K P s) s) j = false := by
        intro j
        rw [doKep_eq]
        show (stale (storeKep K (doKep K P s) s).kepCalc j && cartOk K s j) = false
        rw [stale_storeKep, doKep_eq]
        by_cases h1 : stale s.kepCalc j
        · rw [hP j h1, h1]; cases cartOk K s j <;> rfl
        · simp [h1]
      by_cases hl : lazy s = true
      · rw [if_pos hl, calcKep_noop K f _ _ hno]
        refine ⟨1, Nat.le_refl 1, .on ha ht hl (.skip ?_)⟩
        simp [anyDo, hno]
      · rw [if_neg hl]
        exact ⟨1, Nat.le_refl 1, .off ha ht (by simpa using hl)⟩
  · rw [if_neg ha]
    exact ⟨0, by omega, .skip (by simpa using ha)⟩

theorem keprun (P : Nat → Bool) (s : Orb α) : ∃ d ≤ 2, KepRun K P s (calcKep K depth P s) d := by
  rw [show depth = 2 + 1 from rfl, calcKep_unfold]
  by_cases ha : anyDo s.cart.length (doKep K P s) = true
  · rw [if_pos ha]
    by_cases ht : s.type = .tru
    · rw [if_pos ht]; exact ⟨1, by omega, .tru ha ht⟩
    · rw [if_neg ht]
      by_cases hl : lazy s = true
      · rw [if_pos hl]
        obtain ⟨d, hd, hr⟩ := keprun_stale K 1 (stale (storeKep K (doKep K P s) s).kepCalc) (storeKep K (doKep K P s) s)
          fun j h => h
        exact ⟨d + 1, by omega, .on ha ht hl hr⟩
      · rw [if_neg hl]
        exact ⟨1, by omega, .off ha ht (by simpa using hl)⟩
  · rw [if_neg ha]
    exact ⟨0, by omega, .skip (by simpa using ha)⟩

theorem kepcheckrun (s : Orb α) : ∃ d ≤ 1, KepCheckRun K s (kepCheck K s) d := by
  unfold kepCheck
  by_cases hl : lazy s = true
  · have hl' : (s.auto && !s.direct) = true := hl
    rw [if_pos hl']
    obtain ⟨d, hd, hr⟩ := keprun_stale K 2 (stale s.kepCalc) s fun j h => h
    exact ⟨d, hd, .on hl hr⟩
  · have hl' : ¬ (s.auto && !s.direct) = true := hl
    rw [if_neg hl']
    exact ⟨0, by omega, .off (by simpa using hl)⟩

theorem cartrun (P : Nat → Bool) (s : Orb α) : ∃ d ≤ 2, CartRun K P s (calcCart K P s) d := by
  unfold calcCart
  simp only
  by_cases ha : anyDo s.kep.length (doCart K P s) = true
  · rw [if_pos ha]
    by_cases ht : s.type = .tru
    · rw [if_pos ht]; exact ⟨1, by omega, .tru ha ht⟩
    · rw [if_neg ht]
      obtain ⟨k1, h1, r1⟩ := kepcheckrun K (markCart (doCart K P s) s)
      obtain ⟨k2, h2, r2⟩ := kepcheckrun K (kepCheck K (markCart (doCart K P s) s))
      have hc : calcTrue K false (doCart K P s) (markCart (doCart K P s) s) =
          storeTrue K (doCart K P s) (toTrue K s.type s.opts s.degrees) (kepCheck K (markCart (doCart K P s) s))
            (kepCheck K (kepCheck K (markCart (doCart K P s) s))) := by
        rw [calcTrue_eq, kepCheck_idem]
        have : trueFn K false (markCart (doCart K P s) s) = toTrue K s.type s.opts s.degrees := by
          funext x e; exact trueFn_eq K _ x e
        rw [this]
      rw [hc]
      exact ⟨max k1 k2 + 1, by omega, .conv ha ht r1 r2⟩
  · rw [if_neg ha]
    exact ⟨0, by omega, .skip (by simpa using ha)⟩

theorem cartcheckrun (s : Orb α) : ∃ d ≤ 2, CartCheckRun K s (cartCheck K s) d := by
  unfold cartCheck
  by_cases hl : lazy s = true
  · have hl' : (s.auto && !s.direct) = true := hl
    rw [if_pos hl']
    obtain ⟨d, hd, hr⟩ := cartrun K (stale s.cartCalc) s
    exact ⟨d, hd, .on hl hr⟩
  · have hl' : ¬ (s.auto && !s.direct) = true := hl
    rw [if_neg hl']
    exact ⟨0, by omega, .off (by simpa using hl)⟩

theorem KepRun.pos {P : Nat → Bool} {s s' : Orb α} {d : Nat} (h : KepRun K P s s' d)
    (ha : anyDo s.cart.length (doKep K P s) = true) : 1 ≤ d := by
  cases h with
  | skip h => rw [ha] at h; cases h
  | tru => exact Nat.le_refl 1
  | off => exact Nat.le_refl 1
  | on => omega

/-- C46: for every kernel, every object (whatever its type, mode, flags, elements and array lengths) and every selection,
`calculate_kepler` and `calculate_cartesian` return, in one possible way, with at most two recalculations nested in each
other.  The state they leave is the one used by the model. -/
theorem c46_calculate (P : Nat → Bool) (s : Orb α) :
    (∃ d ≤ 2, KepRun K P s (calcKep K depth P s) d ∧ ∀ s' d', KepRun K P s s' d' → s' = calcKep K depth P s ∧ d' = d) ∧
    (∃ d ≤ 2, CartRun K P s (calcCart K P s) d ∧ ∀ s' d', CartRun K P s s' d' → s' = calcCart K P s ∧ d' = d) := by
  constructor
  · obtain ⟨d, hd, hr⟩ := keprun K P s
    exact ⟨d, hd, hr, fun s' d' h => KepRun.det K h hr⟩
  · obtain ⟨d, hd, hr⟩ := cartrun K P s
    exact ⟨d, hd, hr, fun s' d' h => CartRun.det K h hr⟩

/-- C46, property access: every read of a property starts with `_kep_check` or `_cart_check`.  The first nests at most one
recalculation, the second at most two. -/
theorem c46_access (s : Orb α) :
    (∃ d ≤ 1, KepCheckRun K s (kepCheck K s) d ∧ ∀ s' d', KepCheckRun K s s' d' → s' = kepCheck K s ∧ d' = d) ∧
    (∃ d ≤ 2, CartCheckRun K s (cartCheck K s) d ∧ ∀ s' d', CartCheckRun K s s' d' → s' = cartCheck K s ∧ d' = d) := by
  constructor
  · obtain ⟨d, hd, hr⟩ := kepcheckrun K s
    exact ⟨d, hd, hr, fun s' d' h => KepCheckRun.det K h hr⟩
  · obtain ⟨d, hd, hr⟩ := cartcheckrun K s
    exact ⟨d, hd, hr, fun s' d' h => CartCheckRun.det K h hr⟩

/-- a non-trivial case: the bound two is reached.  In lazy mode with a mean anomaly, `calculate_kepler` for one of two orbits
with stale elements recalculates the other one on the way. -/
example (s : Orb α) (h2 : s.cart.length = 2) (hl : lazy s = true) (ht : s.type = .mean) (hc : ∀ j < 2, cartOk K s j = true)
    (hst : s.kepCalc = [false, false]) : KepRun K (fun j => j == 0) s (calcKep K depth (fun j => j == 0) s) 2 := by
  have hd : ∀ j, doKep K (fun j => j == 0) s j = (j == 0) := by
    intro j
    rw [doKep_eq]
    by_cases h : j = 0
    · subst h; simp [hc 0 (by omega)]
    · simp [h]
  have ha : anyDo s.cart.length (doKep K (fun j => j == 0) s) = true := by
    simp [anyDo, h2, hd]
  have hne : s.type ≠ .tru := by simp [ht]
  set s1 := storeKep K (doKep K (fun j => j == 0) s) s with hs1
  have hd1 : doKep K (stale s1.kepCalc) s1 1 = true := by
    rw [doKep_eq]
    show (stale s1.kepCalc 1 && cartOk K s 1) = true
    rw [hs1, stale_storeKep, hd, hc 1 (by omega), hst]
    rfl
  have ha1 : anyDo s1.cart.length (doKep K (stale s1.kepCalc) s1) = true := by
    have : s1.cart.length = 2 := h2
    rw [this]
    exact List.any_eq_true.mpr ⟨1, by simp, hd1⟩
  obtain ⟨d, hd', hr⟩ := keprun_stale K 1 (stale s1.kepCalc) s1 fun j h => h
  have h1 : d = 1 := by
    have := KepRun.pos K hr ha1
    omega
  have key : KepRun K (fun j => j == 0) s (storeAnom K (doKep K (fun j => j == 0) s) (fromTrue K s.type) s1
      (calcKep K (1 + 1) (stale s1.kepCalc) s1)) (d + 1) := .on ha hne hl hr
  have h3 := (KepRun.det K key (keprun K (fun j => j == 0) s).choose_spec.2).1
  rw [h3, h1] at key
  exact key

end Orbit
end Pyorb
