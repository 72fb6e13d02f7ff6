import Verif.OrbitCls
import Mathlib.Tactic.Set
import Mathlib.Tactic.SplitIfs
import Mathlib.Tactic.ByContra

/-!
# Effect of the recalculations of `Orbit`, orbit by orbit
-/

set_option linter.unusedSimpArgs false

namespace Pyorb
namespace Orbit
variable {α : Type} (K : Kern α)

theorem getD_mapIdx {β γ : Type} (l : List β) (f : Nat → β → γ) (j : Nat) (d : γ) (d' : β) :
    (l.mapIdx f).getD j d = if j < l.length then f j (l.getD j d') else d := by
  by_cases h : j < l.length
  · simp [List.getD_eq_getElem?_getD, h]
  · simp [List.getD_eq_getElem?_getD, h]

theorem mapIdx_congr' {β γ : Type} {l : List β} {f g : Nat → β → γ} (h : ∀ j, j < l.length → ∀ b, l[j]? = some b → f j b = g j b) :
    l.mapIdx f = l.mapIdx g := by
  apply List.ext_getElem? 
  intro j
  simp only [List.getElem?_mapIdx]
  rcases hj : l[j]? with _ | b
  · rfl
  · have : j < l.length := (List.getElem?_eq_some_iff.mp hj).1
    simp [h j this b hj]

theorem mapIdx_id' {β : Type} {l : List β} {f : Nat → β → β} (h : ∀ j, j < l.length → ∀ b, l[j]? = some b → f j b = b) :
    l.mapIdx f = l := by
  rw [mapIdx_congr' (g := fun _ b => b) h]
  simp [List.mapIdx_eq_zipIdx_map]

/-- lazy mode: `auto_update and not direct_update` -/
def lazy (s : Orb α) : Bool := s.auto && !s.direct

/-- the anomaly of type `t` belonging to a true anomaly -/
def fromTrue (t : Anom) (deg : Bool) (nu e : α) : α :=
  match t with
  | .tru => nu
  | .ecc => K.trueToEcc false deg nu e
  | .mean => K.trueToMean false deg nu e

/-- the true anomaly belonging to an anomaly of type `t` -/
def toTrue (t : Anom) (o : SolverOpts α) (deg : Bool) (x e : α) : α :=
  match t with
  | .tru => x
  | .ecc => K.eccToTrue false deg x e
  | .mean => K.meanToTrue o false deg x e

/-- Kepler elements, with an anomaly of type `t`, of a Cartesian state -/
def kepOfCart (t : Anom) (deg : Bool) (mu : α) (c : Cart α) : Kep α :=
  let k := K.cartToKep deg mu c
  { k with nu := fromTrue K t deg k.nu k.e }

/-- Cartesian state of Kepler elements with an anomaly of type `t` -/
def cartOfKep (t : Anom) (o : SolverOpts α) (deg : Bool) (mu : α) (k : Kep α) : Cart α :=
  K.kepToCart deg mu { k with nu := toTrue K t o deg k.nu k.e }

/-- orbit `j` has a Cartesian state without NaN -/
def cartOk (s : Orb α) (j : Nat) : Bool := decide (j < s.cart.length) && !(cartAt K s j).any K.isnan
/-- orbit `j` has Kepler elements without NaN -/
def kepOk (s : Orb α) (j : Nat) : Bool := decide (j < s.kep.length) && !(kepAt K s j).any K.isnan

theorem doKep_eq (P : Nat → Bool) (s : Orb α) (j : Nat) : doKep K P s j = (P j && cartOk K s j) := by
  simp [doKep, cartOk, Bool.and_assoc]
theorem doCart_eq (P : Nat → Bool) (s : Orb α) (j : Nat) : doCart K P s j = (P j && kepOk K s j) := by
  simp [doCart, kepOk, Bool.and_assoc]

/-- Kepler elements recalculated at the positions `E`, nothing else changed -/
def recalcKep (E : Nat → Bool) (s : Orb α) : Orb α :=
  { s with
    kepCalc := s.kepCalc.mapIdx fun j b => if E j then true else b
    kep := s.kep.mapIdx fun j k => if E j then kepOfCart K s.type s.degrees (muAt K s j) (cartAt K s j) else k }

/-- the flag says "not calculated" -/
def stale (l : List Bool) (j : Nat) : Bool := !l.getD j true

theorem recalcKep_none {E : Nat → Bool} {s : Orb α} (h : ∀ j, E j = false) : recalcKep K E s = s := by
  simp [recalcKep, h, List.mapIdx_eq_zipIdx_map]

theorem recalcKep_congr {E F : Nat → Bool} {s : Orb α} (h : ∀ j, E j = F j) : recalcKep K E s = recalcKep K F s := by
  rw [show E = F from funext h]

theorem anyDo_false {n : Nat} {d : Nat → Bool} (h : anyDo n d = false) {j : Nat} (hj : j < n) : d j = false := by
  simp only [anyDo, List.any_eq_false, List.mem_range] at h
  simpa using h j hj

theorem anyDo_doKep {P : Nat → Bool} {s : Orb α} (h : anyDo s.cart.length (doKep K P s) = false) (j : Nat) :
    doKep K P s j = false := by
  by_cases hj : j < s.cart.length
  · exact anyDo_false h hj
  · simp [doKep, hj]

/-- nothing to do -/
theorem calcKep_noop (fuel : Nat) (P : Nat → Bool) (s : Orb α) (h : ∀ j, doKep K P s j = false) : calcKep K fuel P s = s := by
  cases fuel with
  | zero => rfl
  | succ f =>
    have : anyDo s.cart.length (doKep K P s) = false := by simp [anyDo, h]
    simp [calcKep, this]

/-- writing the elements and then the anomaly is one write -/
theorem two_writes (d : Nat → Bool) (s : Orb α) (E : Nat → Bool) (hE : ∀ j, d j = true → E j = false)
    (conv : Bool → α → α → α) (hc : ∀ nu e, fromTrue K s.type s.degrees nu e = conv s.degrees nu e) :
    storeAnom K d conv (storeKep K d s) (recalcKep K E (storeKep K d s)) = recalcKep K (fun j => d j || E j) s := by
  simp only [recalcKep, storeKep, storeAnom, Orb.mk.injEq, true_and, and_true]
  refine ⟨?_, ?_⟩
  · rw [List.mapIdx_mapIdx, List.mapIdx_mapIdx]
    apply mapIdx_congr'
    intro j hj k hk
    have hk' : s.kep.getD j (Kep.const K.nan) = k := by simp [List.getD_eq_getElem?_getD, hk]
    by_cases hd : d j
    · have hEj := hE j hd
      simp only [Function.comp, hd, hEj, Bool.or_false, if_true, Bool.false_eq_true, if_false]
      simp only [kepAt, getD_mapIdx _ _ _ _ (Kep.const K.nan), List.length_mapIdx, hj, if_true, hd, hEj, Bool.false_eq_true,
        if_false, kepOfCart, hc, muAt, cartAt]
    · simp only [Function.comp, hd, Bool.false_or, Bool.false_eq_true, if_false, kepOfCart, muAt, cartAt, kepAt]
  · rw [List.mapIdx_mapIdx]
    apply mapIdx_congr'
    intro j hj b _
    by_cases hd : d j <;> by_cases hEj : E j <;> simp [hd, hEj]

theorem storeKep_tru (d : Nat → Bool) (s : Orb α) (ht : s.type = .tru) : storeKep K d s = recalcKep K d s := by
  simp only [storeKep, recalcKep, kepOfCart, fromTrue, ht]

theorem stale_storeKep (d : Nat → Bool) (s : Orb α) (j : Nat) :
    stale (storeKep K d s).kepCalc j = (!d j && stale s.kepCalc j) := by
  simp only [storeKep, stale, getD_mapIdx _ _ _ _ true]
  by_cases hl : j < s.kepCalc.length
  · by_cases hd : d j <;> simp [hl, hd]
  · simp [hl, List.getD_eq_getElem?_getD]

/-- `_kep_check` inside a recalculation: a call that selects all stale positions does not nest further. -/
theorem calcKep_check (fuel : Nat) (P : Nat → Bool) (s : Orb α) (hP : ∀ j, stale s.kepCalc j = true → P j = true) :
    calcKep K (fuel + 1) P s = recalcKep K (doKep K P s) s := by
  simp only [calcKep]
  by_cases ha : anyDo s.cart.length (doKep K P s)
  · rw [if_pos ha]
    have hno : ∀ j, doKep K (fun j => !(storeKep K (doKep K P s) s).kepCalc.getD j true) (storeKep K (doKep K P s) s) j
        = false := by
      intro j
      rw [doKep_eq]
      show (stale (storeKep K (doKep K P s) s).kepCalc j && cartOk K s j) = false
      rw [stale_storeKep, doKep_eq]
      by_cases h1 : stale s.kepCalc j
      · rw [hP j h1, h1]; cases cartOk K s j <;> rfl
      · simp [h1]
    have hcheck : (if (storeKep K (doKep K P s) s).auto && !(storeKep K (doKep K P s) s).direct then
          calcKep K fuel (fun j => !(storeKep K (doKep K P s) s).kepCalc.getD j true) (storeKep K (doKep K P s) s)
        else storeKep K (doKep K P s) s) = recalcKep K (fun _ => false) (storeKep K (doKep K P s) s) := by
      rw [recalcKep_none K fun _ => rfl]
      split_ifs
      · exact calcKep_noop K fuel _ _ hno
      · rfl
    rw [hcheck]
    cases ht : s.type with
    | tru => exact storeKep_tru K _ s ht
    | ecc =>
      simp only
      rw [two_writes K _ s (fun _ => false) (fun _ _ => rfl) _ (fun nu e => by rw [ht]; rfl)]
      exact recalcKep_congr K fun j => Bool.or_false _
    | mean =>
      simp only
      rw [two_writes K _ s (fun _ => false) (fun _ _ => rfl) _ (fun nu e => by rw [ht]; rfl)]
      exact recalcKep_congr K fun j => Bool.or_false _
  · rw [if_neg ha, recalcKep_none K]
    exact anyDo_doKep K (by simpa using ha)

/-- the positions whose Kepler elements `calculate_kepler` really recalculates: the selected ones, and in lazy mode with an
eccentric or mean anomaly all stale ones as well -/
def kepSet (P : Nat → Bool) (s : Orb α) (j : Nat) : Bool :=
  doKep K P s j || (anyDo s.cart.length (doKep K P s) && lazy s && decide (s.type ≠ .tru) && stale s.kepCalc j && cartOk K s j)

/-- Effect of `calculate_kepler`. -/
theorem calcKep_eq (fuel : Nat) (P : Nat → Bool) (s : Orb α) : calcKep K (fuel + 2) P s = recalcKep K (kepSet K P s) s := by
  rw [calcKep]
  by_cases ha : anyDo s.cart.length (doKep K P s)
  · simp only
    rw [if_pos ha]
    set d := doKep K P s with hd
    set E : Nat → Bool := fun j => lazy s && stale (storeKep K d s).kepCalc j && cartOk K s j with hE
    have hEd : ∀ j, d j = true → E j = false := by
      intro j hj
      simp only [hE, stale_storeKep, hj, Bool.not_true, Bool.false_and, Bool.and_false]
    have hEs : ∀ j, (d j || E j) = (d j || (lazy s && stale s.kepCalc j && cartOk K s j)) := by
      intro j
      by_cases hj : d j
      · simp [hj]
      · simp only [hE, stale_storeKep, hj, Bool.not_false, Bool.true_and]
    have hcheck : (if (storeKep K d s).auto && !(storeKep K d s).direct then
          calcKep K (fuel + 1) (fun j => !(storeKep K d s).kepCalc.getD j true) (storeKep K d s) else storeKep K d s)
        = recalcKep K E (storeKep K d s) := by
      by_cases hl : lazy s
      · have hl' : ((storeKep K d s).auto && !(storeKep K d s).direct) = true := hl
        rw [if_pos hl', calcKep_check K fuel (fun j => !(storeKep K d s).kepCalc.getD j true) _ (fun j h => h)]
        apply recalcKep_congr
        intro j
        rw [doKep_eq]
        show (stale (storeKep K d s).kepCalc j && cartOk K s j) = _
        simp only [hE, hl, Bool.true_and]
      · have hl' : ¬ ((storeKep K d s).auto && !(storeKep K d s).direct) = true := hl
        rw [if_neg hl', recalcKep_none K]
        intro j; simp [hE, hl]
    rw [hcheck]
    have hset : ∀ j, s.type ≠ .tru → (d j || E j) = kepSet K P s j := by
      intro j ht
      rw [hEs, kepSet, ← hd, ha]
      simp [ht]
    cases ht : s.type with
    | tru =>
      simp only
      rw [storeKep_tru K _ s ht]
      apply recalcKep_congr
      intro j; simp [kepSet, ht, ← hd]
    | ecc =>
      simp only
      rw [two_writes K d s E hEd _ (fun nu e => by rw [ht]; rfl)]
      exact recalcKep_congr K fun j => hset j (by simp [ht])
    | mean =>
      simp only
      rw [two_writes K d s E hEd _ (fun nu e => by rw [ht]; rfl)]
      exact recalcKep_congr K fun j => hset j (by simp [ht])
  · simp only
    rw [if_neg ha, recalcKep_none K]
    intro j
    rw [kepSet, anyDo_doKep K (by simpa using ha) j]
    simp [ha]

/-- C46: two levels of nesting are enough, whatever the state and the selection: allowing more changes nothing. -/
theorem calcKep_fuel (f : Nat) (P : Nat → Bool) (s : Orb α) : calcKep K (f + 2) P s = calcKep K depth P s := by
  rw [calcKep_eq, show depth = 1 + 2 from rfl, calcKep_eq]

/-- the positions refreshed by `_kep_check` -/
def checkSet (s : Orb α) (j : Nat) : Bool := lazy s && stale s.kepCalc j && cartOk K s j

theorem kepCheck_eq (s : Orb α) : kepCheck K s = recalcKep K (checkSet K s) s := by
  unfold kepCheck
  by_cases hl : lazy s
  · have hl' : (s.auto && !s.direct) = true := hl
    rw [if_pos hl', show depth = 2 + 1 from rfl, calcKep_check K 2 (fun j => !s.kepCalc.getD j true) s (fun j h => h)]
    apply recalcKep_congr
    intro j
    rw [doKep_eq, checkSet, hl, Bool.true_and]
    rfl
  · have hl' : ¬ (s.auto && !s.direct) = true := hl
    rw [if_neg hl', recalcKep_none K]
    intro j; simp [checkSet, hl]

theorem stale_recalcKep (E : Nat → Bool) (s : Orb α) (j : Nat) :
    stale (recalcKep K E s).kepCalc j = (!E j && stale s.kepCalc j) := by
  simp only [recalcKep, stale, getD_mapIdx _ _ _ _ true]
  by_cases hl : j < s.kepCalc.length
  · by_cases hd : E j <;> simp [hl, hd]
  · simp [hl, List.getD_eq_getElem?_getD]

theorem kepCheck_direct {s : Orb α} (h : lazy s = false) : kepCheck K s = s := by
  rw [kepCheck_eq, recalcKep_none K]
  intro j; simp [checkSet, h]

theorem kepCheck_idem (s : Orb α) : kepCheck K (kepCheck K s) = kepCheck K s := by
  rw [kepCheck_eq K (kepCheck K s)]
  apply recalcKep_none
  intro j
  rw [kepCheck_eq]
  show (lazy s && stale (recalcKep K (checkSet K s) s).kepCalc j && cartOk K s j) = false
  rw [stale_recalcKep, checkSet]
  cases lazy s <;> cases stale s.kepCalc j <;> cases cartOk K s j <;> rfl

/-- the anomaly function used by `calc_true_anomaly` -/
def trueFn (sc : Bool) (s : Orb α) : α → α → α :=
  match s.type with
  | .ecc => K.eccToTrue sc s.degrees
  | .mean => K.meanToTrue s.opts sc s.degrees
  | .tru => fun nu _ => nu
/-- the anomaly function used by `calc_mean_anomaly` -/
def meanFn (sc : Bool) (s : Orb α) : α → α → α :=
  match s.type with
  | .ecc => K.eccToMean sc s.degrees
  | .tru => K.trueToMean sc s.degrees
  | .mean => fun M _ => M

theorem trueFn_eq (s : Orb α) (x e : α) : trueFn K false s x e = toTrue K s.type s.opts s.degrees x e := by
  unfold trueFn toTrue
  cases s.type <;> rfl

theorem calcTrue_eq (sc : Bool) (P : Nat → Bool) (s : Orb α) :
    calcTrue K sc P s = storeTrue K P (trueFn K sc s) (kepCheck K s) (kepCheck K s) := by
  unfold calcTrue trueFn
  simp only [kepCheck_idem]
  cases s.type <;> rfl

theorem calcMean_eq (sc : Bool) (P : Nat → Bool) (s : Orb α) :
    calcMean K sc P s = storeMean K P (meanFn K sc s) (kepCheck K s) (kepCheck K s) := by
  unfold calcMean meanFn
  simp only [kepCheck_idem]
  cases s.type <;> rfl

theorem anyDo_doCart {P : Nat → Bool} {s : Orb α} (h : anyDo s.kep.length (doCart K P s) = false) (j : Nat) :
    doCart K P s j = false := by
  by_cases hj : j < s.kep.length
  · exact anyDo_false h hj
  · simp [doCart, hj]

/-- Cartesian elements recalculated from the Kepler elements at the positions `d`, when `_kep_check` has nothing to do. -/
def recalcCart (d : Nat → Bool) (s : Orb α) : Orb α :=
  { s with
    cartCalc := s.cartCalc.mapIdx fun j b => if d j then true else b
    tA := if s.type = .tru then s.tA else s.tA.mapIdx fun j x =>
      if d j then toTrue K s.type s.opts s.degrees (kepAt K s j).nu (kepAt K s j).e else x
    cart := s.cart.mapIdx fun j c =>
      if d j then cartOfKep K s.type s.opts s.degrees (muAt K s j) (kepAt K s j) else c }

theorem mapIdx_self {β : Type} (l : List β) : l.mapIdx (fun _ b => b) = l := by simp [List.mapIdx_eq_zipIdx_map]

theorem recalcCart_none {d : Nat → Bool} {s : Orb α} (h : ∀ j, d j = false) : recalcCart K d s = s := by
  simp only [recalcCart, h, Bool.false_eq_true, if_false, mapIdx_self, ite_self]

/-- all arrays have length `n` -/
structure WF (n : Nat) (s : Orb α) : Prop where
  m : s.m.length = n
  cart : s.cart.length = n
  kep : s.kep.length = n
  tA : s.tA.length = n
  mA : s.mA.length = n
  cartCalc : s.cartCalc.length = n
  kepCalc : s.kepCalc.length = n

theorem calcCart_eq (P : Nat → Bool) {n : Nat} (s : Orb α) (hw : WF n s)
    (hc : s.type = .tru ∨ ∀ j, checkSet K s j = false) :
    calcCart K P s = recalcCart K (doCart K P s) s := by
  unfold calcCart
  simp only
  by_cases ha : anyDo s.kep.length (doCart K P s)
  · rw [if_pos ha]
    by_cases ht : s.type = .tru
    · rw [if_pos ht]
      simp only [storeCart, markCart, recalcCart, ht, if_true, kepAt, muAt, cartOfKep, toTrue]
    · rw [if_neg ht]
      have hk : kepCheck K (markCart (doCart K P s) s) = markCart (doCart K P s) s := by
        rw [kepCheck_eq, recalcKep_none K]
        intro j
        exact hc.resolve_left ht j
      rw [calcTrue_eq, hk]
      simp only [storeCart, storeTrue, markCart, recalcCart, ht, if_false, Orb.mk.injEq, true_and, and_true]
      refine ⟨?_, ?_⟩
      · apply mapIdx_congr'
        intro j hj c _
        by_cases hd : doCart K P s j
        · have hj' : j < s.tA.length := by rw [hw.tA, ← hw.cart]; exact hj
          simp only [hd, if_true, getD_mapIdx _ _ _ _ K.nan, hj', cartOfKep, muAt, kepAt, trueFn_eq]
        · simp only [hd, Bool.false_eq_true, if_false]
      · apply mapIdx_congr'
        intro j _ x _
        simp only [kepAt, trueFn_eq]
  · rw [if_neg ha, recalcCart_none K]
    exact anyDo_doCart K (by simpa using ha)

end Orbit
end Pyorb
