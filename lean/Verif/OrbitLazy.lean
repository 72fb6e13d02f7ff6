import Verif.PropsOrbitAlloc

/-!
# Lazy mode: the invariant behind C31

In lazy mode (`auto_update`, not `direct_update`) two flags per orbit tell which element set is up to date.  `Sound` relates
flags and elements.
-/

set_option linter.unusedSimpArgs false
set_option linter.unusedVariables false

namespace Pyorb
namespace Orbit
open Py
variable {α : Type} (K : Kern α)

/-! ## Predicates that queries keep -/

/-- closed under the refresh of the Kepler elements, and independent of the cached anomalies -/
structure KepClosed (n : Nat) (J : Orb α → Prop) : Prop where
  kep : ∀ s, WFE n s → J s → J (kepCheck K s)
  core : ∀ s t, SameCore s t → J s → J t
/-- closed under the two refreshes, and independent of the cached anomalies -/
structure ReadClosed (n : Nat) (J : Orb α → Prop) : Prop extends KepClosed K n J where
  cart : ∀ s, WFE n s → J s → J (cartCheck K s)

/-- shape and `J` -/
def With (n : Nat) (J : Orb α → Prop) (s : Orb α) : Prop := WFE n s ∧ J s

section
variable {n : Nat} {J : Orb α → Prop} (hI : KepClosed K n J)
include hI

theorem rc_kepCheck : Keeps (With n J) (upd (kepCheck K)) (fun _ => True) :=
  Keeps.upd fun s h => ⟨kepCheck_wfe K s h.1, hI.kep s h.1 h.2⟩
omit hI in
theorem rc_cartCheck (hI : ReadClosed K n J) : Keeps (With n J) (upd (cartCheck K)) (fun _ => True) :=
  Keeps.upd fun s h => ⟨cartCheck_wfe K s h.1, hI.cart s h.1 h.2⟩
theorem rc_get_kep (i : Fin 6) : Keeps (With n J) (get_kep K i) (fun _ => True) :=
  (rc_kepCheck K hI).bind fun _ _ => Keeps.self.bind fun s hs => Keeps.pure trivial
theorem rc_calcTrue (sc : Bool) (P : Nat → Bool) (s : Orb α) (h : With n J s) : With n J (calcTrue K sc P s) := by
  refine ⟨calcTrue_wfe K sc P s h.1, ?_⟩
  rw [calcTrue_eq]
  exact hI.core _ _ rfl (hI.kep s h.1 h.2)
theorem rc_calcMean (sc : Bool) (P : Nat → Bool) (s : Orb α) (h : With n J s) : With n J (calcMean K sc P s) := by
  refine ⟨calcMean_wfe K sc P s h.1, ?_⟩
  rw [calcMean_eq]
  exact hI.core _ _ rfl (hI.kep s h.1 h.2)
theorem rc_calc_true (inds : Inds) : Keeps (With n J) (calc_true_anomaly K inds) (fun _ => True) := by
  refine Keeps.self.bind fun s hs => ?_
  split
  · exact Keeps.upd (rc_calcTrue K hI _ _)
  · exact (rc_kepCheck K hI).bind fun _ _ => Keeps.raise
theorem rc_calc_mean (inds : Inds) : Keeps (With n J) (calc_mean_anomaly K inds) (fun _ => True) := by
  refine Keeps.self.bind fun s hs => ?_
  split
  · exact Keeps.upd (rc_calcMean K hI _ _)
  · exact (rc_kepCheck K hI).bind fun _ _ => Keeps.raise
theorem rc_calc_ecc (inds : Inds) (hi : inds = .all) : Keeps (With n J) (calc_eccentric_anomaly K inds) (fun _ => True) := by
  refine (rc_kepCheck K hI).bind fun _ _ => Keeps.self.bind fun s1 hs1 => Keeps.lift.bind fun ps hps => ?_
  split
  · refine (rc_kepCheck K hI).bind fun _ _ => Keeps.self.bind fun s2 hs2 => Keeps.upd fun s hs => ⟨?_, hI.core _ _ rfl hs.2⟩
    subst hi
    rw [pos_all] at hps
    injection hps with hps
    refine ⟨⟨hs.1.1.m, hs.1.1.cart, hs.1.1.kep, hs.1.1.tA, hs.1.1.mA, hs.1.1.cartCalc, hs.1.1.kepCalc⟩, _, rfl, ?_⟩
    rw [← hps, List.length_map, List.length_range, hs1.1.1.kep]
  · refine (rc_kepCheck K hI).bind fun _ _ => Keeps.self.bind fun s2 hs2 => Keeps.lift.bind fun c hc =>
      Keeps.upd fun s hs => ⟨?_, hI.core _ _ rfl hs.2⟩
    obtain ⟨l, l', h1, h2, h3⟩ := writeEcc_arr hc
    subst h2
    exact setEcc_wfe hs.1 hs2.1 h1 h3
  · refine Keeps.lift.bind fun c hc => Keeps.upd fun s hs => ⟨?_, hI.core _ _ rfl hs.2⟩
    obtain ⟨l, l', h1, h2, h3⟩ := writeEcc_arr hc
    subst h2
    exact setEcc_wfe hs.1 hs1.1 h1 h3
theorem rc_get_true : Keeps (With n J) (get_true_anomaly K) (fun _ => True) :=
  Keeps.self.bind fun s _ => Keeps.ite (fun _ => rc_get_kep K hI 5) fun _ =>
    (rc_calc_true K hI _).bind fun _ _ => Keeps.self.bind fun s hs => Keeps.pure trivial
theorem rc_get_mean : Keeps (With n J) (get_mean_anomaly K) (fun _ => True) :=
  Keeps.self.bind fun s _ => Keeps.ite (fun _ => rc_get_kep K hI 5) fun _ =>
    (rc_calc_mean K hI _).bind fun _ _ => Keeps.self.bind fun s hs => Keeps.pure trivial
theorem rc_get_ecc : Keeps (With n J) (get_eccentric_anomaly K) (fun _ => True) :=
  Keeps.self.bind fun s _ => Keeps.ite (fun _ => rc_get_kep K hI 5) fun _ =>
    (rc_calc_ecc K hI _ rfl).bind fun _ _ => Keeps.self.bind fun s hs => Keeps.pure trivial
theorem rc_get_anomaly (t : Anom) : Keeps (With n J) (get_anomaly K t) (fun _ => True) := by
  cases t
  · exact rc_get_true K hI
  · exact rc_get_ecc K hI
  · exact rc_get_mean K hI
theorem rc_get_period : Keeps (With n J) (get_period K) (fun _ => True) :=
  (rc_kepCheck K hI).bind fun _ _ => (rc_get_kep K hI 0).bind fun a ha => Keeps.self.bind fun s hs => Keeps.pure trivial
theorem rc_get_mean_motion : Keeps (With n J) (get_mean_motion K) (fun _ => True) :=
  (rc_get_period K hI).bind fun P hP => Keeps.self.bind fun s _ => Keeps.pure trivial
omit hI in
theorem rc_num : Keeps (With n J) (num : Py α Nat) (fun _ => True) :=
  Keeps.self.bind fun s hs => Keeps.ite (fun _ => Keeps.pure trivial) fun _ => Keeps.raise

omit hI in
/-- every query keeps such a predicate -/
theorem rc_read (hR : ReadClosed K n J) (g : Read) : Keeps (With n J) (g.get K) (fun _ => True) := by
  have hc := rc_cartCheck K hR
  have hI := hR.toKepClosed
  cases g with
  | num => exact rc_num
  | m => exact Keeps.self.bind fun s _ => Keeps.pure trivial
  | str => exact rc_num.bind fun _ _ => Keeps.self.bind fun s hs => Keeps.pure trivial
  | r => exact hc.bind fun _ _ => Keeps.self.bind fun s hs => Keeps.pure trivial
  | v => exact hc.bind fun _ _ => Keeps.self.bind fun s hs => Keeps.pure trivial
  | cartesian => exact hc.bind fun _ _ => Keeps.self.bind fun s hs => Keeps.pure trivial
  | cart i => exact hc.bind fun _ _ => Keeps.self.bind fun s hs => Keeps.pure trivial
  | kepler => exact (rc_kepCheck K hI).bind fun _ _ => Keeps.self.bind fun s hs => Keeps.pure trivial
  | kep i => exact rc_get_kep K hI i
  | period => exact rc_get_period K hI
  | meanMotion => exact rc_get_mean_motion K hI
  | trueAnomaly => exact rc_get_true K hI
  | meanAnomaly => exact rc_get_mean K hI
  | eccentricAnomaly => exact rc_get_ecc K hI
  | apoapsis => exact (rc_get_kep K hI 1).bind fun _ _ => (rc_get_kep K hI 0).bind fun _ _ => Keeps.pure trivial
  | periapsis => exact (rc_get_kep K hI 1).bind fun _ _ => (rc_get_kep K hI 0).bind fun _ _ => Keeps.pure trivial
  | meanLongitude => exact (rc_get_mean K hI).bind fun _ _ => (rc_get_kep K hI 3).bind fun _ _ => (rc_get_kep K hI 4).bind fun _ _ => Keeps.pure trivial
  | equinoctial =>
    exact Keeps.bind (Q := fun _ => True) ((rc_kepCheck K hI).bind fun _ _ => Keeps.self.bind fun s hs => Keeps.pure trivial) fun _ _ =>
      (rc_get_mean K hI).bind fun _ _ => Keeps.self.bind fun s _ => Keeps.pure trivial
  | velocity => exact hc.bind fun _ _ => hc.bind fun _ _ => Keeps.self.bind fun s hs => Keeps.pure trivial
  | speed =>
    exact (rc_kepCheck K hI).bind fun _ _ => (rc_get_ecc K hI).bind fun _ _ => (rc_get_kep K hI 0).bind fun _ _ =>
      (rc_get_kep K hI 1).bind fun _ _ => (rc_get_kep K hI 0).bind fun _ _ => Keeps.self.bind fun s hs => Keeps.lift.mono fun _ _ => trivial

end

/-! ## Flags and elements -/

/-- the two element sets of one orbit describe the same motion: one of them is the conversion of the other -/
def AgreeAt (s : Orb α) (k : Kep α) (c : Cart α) (m : α) : Prop :=
  c = cartOfKep K s.type s.opts s.degrees (K.mu s.G s.M0 m) k ∨ k = kepOfCart K s.type s.degrees (K.mu s.G s.M0 m) c

/-- For every orbit: if both sets are marked up to date they agree; unless the anomaly is the true anomaly, two complete sets
are not both marked out of date. -/
def Sound (s : Orb α) : Prop :=
  ∀ (j : Nat) (k : Kep α) (c : Cart α) (m : α) (a b : Bool), s.kep[j]? = some k → s.cart[j]? = some c → s.m[j]? = some m →
    s.kepCalc[j]? = some a → s.cartCalc[j]? = some b → k.any K.isnan = false → c.any K.isnan = false →
    (a = true → b = true → AgreeAt K s k c m) ∧ (s.type ≠ .tru → a = true ∨ b = true)

/-- lengths of the arrays other than the caches -/
structure Len (n : Nat) (s : Orb α) : Prop where
  m : s.m.length = n
  cart : s.cart.length = n
  kep : s.kep.length = n
  cartCalc : s.cartCalc.length = n
  kepCalc : s.kepCalc.length = n

theorem WF.len {n : Nat} {s : Orb α} (h : WF n s) : Len n s := ⟨h.m, h.cart, h.kep, h.cartCalc, h.kepCalc⟩

/-- settings on which agreement depends -/
structure SameSet (s t : Orb α) : Prop where
  type : t.type = s.type
  opts : t.opts = s.opts
  degrees : t.degrees = s.degrees
  G : t.G = s.G
  M0 : t.M0 = s.M0

theorem AgreeAt.set {s t : Orb α} (h : SameSet s t) {k : Kep α} {c : Cart α} {m : α} (ha : AgreeAt K s k c m) : AgreeAt K t k c m := by
  unfold AgreeAt at *
  rw [h.type, h.opts, h.degrees, h.G, h.M0]
  exact ha

/-- entries of two objects are the same at an orbit -/
structure SameAt (s t : Orb α) (j : Nat) : Prop where
  m : t.m[j]? = s.m[j]?
  kep : t.kep[j]? = s.kep[j]?
  cart : t.cart[j]? = s.cart[j]?
  kepCalc : t.kepCalc[j]? = s.kepCalc[j]?
  cartCalc : t.cartCalc[j]? = s.cartCalc[j]?

/-- at every orbit the entries are the old ones, or exactly one set is marked up to date, or both are and agree, or a set is
incomplete -/
theorem Sound.step {s t : Orb α} (h : Sound K s) (hs : SameSet s t)
    (hj : ∀ j, SameAt s t j ∨ ∀ k c m a b, t.kep[j]? = some k → t.cart[j]? = some c → t.m[j]? = some m → t.kepCalc[j]? = some a →
      t.cartCalc[j]? = some b → k.any K.isnan = false → c.any K.isnan = false →
      (a = true → b = true → AgreeAt K t k c m) ∧ (t.type ≠ .tru → a = true ∨ b = true)) : Sound K t := by
  intro j k c m a b hk hc hm ha hb hkn hcn
  rcases hj j with h1 | h1
  · rw [h1.kep] at hk; rw [h1.cart] at hc; rw [h1.m] at hm; rw [h1.kepCalc] at ha; rw [h1.cartCalc] at hb
    obtain ⟨h2, h3⟩ := h j k c m a b hk hc hm ha hb hkn hcn
    exact ⟨fun x y => (h2 x y).set K hs, fun ht => h3 (by rw [← hs.type]; exact ht)⟩
  · exact h1 k c m a b hk hc hm ha hb hkn hcn

theorem mapIdx_some {β : Type} {l : List β} {f : Nat → β → β} {j : Nat} {y : β} (h : (l.mapIdx f)[j]? = some y) :
    ∃ x, l[j]? = some x ∧ f j x = y := by
  rw [List.getElem?_mapIdx, Option.map_eq_some_iff] at h
  exact h

theorem sound_recalcKep {s : Orb α} (h : Sound K s) (E : Nat → Bool) : Sound K (recalcKep K E s) := by
  refine h.step K ⟨rfl, rfl, rfl, rfl, rfl⟩ fun j => ?_
  by_cases hE : E j = true
  · right
    intro k c m a b hk hc hm ha hb hkn hcn
    obtain ⟨k0, hk0, rfl⟩ := mapIdx_some hk
    obtain ⟨a0, ha0, rfl⟩ := mapIdx_some ha
    simp only [hE, if_true]
    refine ⟨fun _ _ => .inr ?_, fun _ => .inl trivial⟩
    rw [cartAt_of K (show s.cart[j]? = some c from hc), muAt_of K (show s.m[j]? = some m from hm)]
    rfl
  · left
    refine ⟨rfl, ?_, rfl, ?_, rfl⟩
    · show (s.kep.mapIdx _)[j]? = _
      rw [List.getElem?_mapIdx]
      simp [hE]
    · show (s.kepCalc.mapIdx _)[j]? = _
      rw [List.getElem?_mapIdx]
      simp [hE]

theorem sound_kepCheck {s : Orb α} (h : Sound K s) : Sound K (kepCheck K s) := by
  rw [kepCheck_eq]; exact sound_recalcKep K h _
theorem sound_calcKep {s : Orb α} (h : Sound K s) (P : Nat → Bool) : Sound K (calcKep K depth P s) := by
  rw [show depth = 1 + 2 from rfl, calcKep_eq]; exact sound_recalcKep K h _

/-- recalculation of Cartesian elements from up-to-date or true-anomaly elements -/
theorem sound_recalcCart {s : Orb α} (h : Sound K s) (d : Nat → Bool) : Sound K (recalcCart K d s) := by
  refine h.step K ⟨rfl, rfl, rfl, rfl, rfl⟩ fun j => ?_
  by_cases hd : d j = true
  · right
    intro k c m a b hk hc hm ha hb hkn hcn
    obtain ⟨c0, hc0, rfl⟩ := mapIdx_some hc
    obtain ⟨b0, hb0, rfl⟩ := mapIdx_some hb
    simp only [hd, if_true]
    refine ⟨fun _ _ => .inl ?_, fun _ => .inr trivial⟩
    rw [kepAt_of K (show s.kep[j]? = some k from hk), muAt_of K (show s.m[j]? = some m from hm)]
    rfl
  · left
    refine ⟨rfl, rfl, ?_, rfl, ?_⟩
    · show (s.cart.mapIdx _)[j]? = _
      rw [List.getElem?_mapIdx]
      simp [hd]
    · show (s.cartCalc.mapIdx _)[j]? = _
      rw [List.getElem?_mapIdx]
      simp [hd]

/-- the caches do not matter -/
theorem Sound.core {s t : Orb α} (h : Sound K s) (hc : SameCore s t) : Sound K t := by
  intro j k c m a b
  rw [hc.kep, hc.cart, hc.m, show t.kepCalc = s.kepCalc by rw [hc], show t.cartCalc = s.cartCalc by rw [hc], hc.type]
  intro hk hcj hm ha hb hkn hcn
  obtain ⟨h1, h2⟩ := h j k c m a b hk hcj hm ha hb hkn hcn
  exact ⟨fun x y => (h1 x y).set K ⟨hc.type, hc.opts, hc.degrees, hc.G, hc.M0⟩, h2⟩

/-- equal fields -/
theorem Sound.congr {s t : Orb α} (h : Sound K s) (hs : SameSet s t) (hm : t.m = s.m) (hk : t.kep = s.kep) (hc : t.cart = s.cart)
    (hkc : t.kepCalc = s.kepCalc) (hcc : t.cartCalc = s.cartCalc) : Sound K t :=
  h.step K hs fun j => .inl ⟨by rw [hm], by rw [hk], by rw [hc], by rw [hkc], by rw [hcc]⟩

/-- Effect of a Cartesian recalculation that does not select orbits whose Kepler elements are about to be refreshed: first the
refresh, then the conversion. -/
theorem calcCart_refresh {P : Nat → Bool} {s : Orb α} (ht : s.type ≠ .tru) (ha : anyDo s.kep.length (doCart K P s) = true)
    (htA : s.tA.length = s.kep.length) (hd : ∀ j, doCart K P s j = true → checkSet K s j = false) :
    SameCore (recalcCart K (doCart K P s) (kepCheck K s)) (calcCart K P s) := by
  obtain ⟨d, hdd⟩ : ∃ d, d = doCart K P s := ⟨_, rfl⟩
  rw [← hdd] at hd ha ⊢
  have hkc : kepCheck K (markCart d s) = { kepCheck K s with cartCalc := (markCart d s).cartCalc } := by
    rw [kepCheck_eq, kepCheck_eq]; rfl
  have hcalc : calcCart K P s = storeCart K d (fun j => { kepAt K (markCart d s) j with
      nu := (calcTrue K false d (markCart d s)).tA.getD j K.nan }) (calcTrue K false d (markCart d s)) := by
    unfold calcCart
    simp only [← hdd]
    rw [if_pos ha, if_neg ht]
  have htr : calcTrue K false d (markCart d s) = storeTrue K d (trueFn K false s) (kepCheck K (markCart d s)) (kepCheck K (markCart d s)) := by
    rw [calcTrue_eq]; rfl
  have hcart : (calcCart K P s).cart = (recalcCart K d (kepCheck K s)).cart := by
    rw [hcalc]
    have hset := kepCheck_settings K s
    have hkcart : (kepCheck K s).cart = s.cart := by rw [kepCheck_eq]; rfl
    have hkmu : ∀ j, muAt K (kepCheck K s) j = muAt K s j := by intro j; rw [kepCheck_eq]; rfl
    have hta : (kepCheck K s).tA = s.tA := by rw [kepCheck_eq]; rfl
    have hXc : (calcTrue K false d (markCart d s)).cart = s.cart := by rw [htr, hkc]; exact hkcart
    have hXd : (calcTrue K false d (markCart d s)).degrees = s.degrees := by rw [htr, hkc]; exact hset.2.1
    have hXm : ∀ j, muAt K (calcTrue K false d (markCart d s)) j = muAt K s j := by
      intro j; rw [htr, hkc]; exact hkmu j
    have hXt : (calcTrue K false d (markCart d s)).tA = s.tA.mapIdx fun j x =>
        if d j then trueFn K false s (kepAt K (kepCheck K s) j).nu (kepAt K (kepCheck K s) j).e else x := by
      rw [htr, hkc, ← hta]; rfl
    generalize calcTrue K false d (markCart d s) = X at hXc hXd hXm hXt
    show X.cart.mapIdx _ = (kepCheck K s).cart.mapIdx _
    rw [hXc, hkcart]
    apply mapIdx_congr'
    intro j hj c hc
    by_cases hdj : d j = true
    · simp only [hdj, if_true]
      have hck := hd j hdj
      have hjk : j < s.kep.length := by
        rw [hdd, doCart_eq] at hdj
        simp only [kepOk, Bool.and_eq_true, decide_eq_true_eq] at hdj
        exact hdj.2.1
      have hkep : kepAt K (kepCheck K s) j = kepAt K s j := by
        rw [kepCheck_eq]
        show (s.kep.mapIdx _).getD j _ = s.kep.getD j _
        rw [getD_mapIdx _ _ _ _ (Kep.const K.nan), if_pos hjk, hck]
        rfl
      have hnu : X.tA.getD j K.nan = toTrue K s.type s.opts s.degrees (kepAt K s j).nu (kepAt K s j).e := by
        rw [hXt, getD_mapIdx _ _ _ _ K.nan, if_pos (by omega), if_pos hdj, trueFn_eq, hkep]
      rw [hXd, hXm, hnu, hkmu, hset.1, hset.2.1, hset.2.2.1, hkep]
      rfl
    · simp only [hdj, Bool.false_eq_true, if_false]
  have hrest : calcCart K P s = { recalcCart K d (kepCheck K s) with
      cart := (calcCart K P s).cart, tA := (calcCart K P s).tA, eA := (calcCart K P s).eA, mA := (calcCart K P s).mA } := by
    rw [hcalc, htr, hkc, kepCheck_eq]
    rfl
  unfold SameCore
  rw [hcart] at hrest
  exact hrest

theorem stale_some {l : List Bool} {j : Nat} {b : Bool} (h : l[j]? = some b) : stale l j = !b := by
  simp [stale, List.getD_eq_getElem?_getD, h]

/-- both sets complete and out of date does not happen with an eccentric or mean anomaly -/
theorem Sound.notBoth {n : Nat} {s : Orb α} (h : Sound K s) (hl : Len n s) (ht : s.type ≠ .tru) (j : Nat)
    (h1 : doCart K (fun j => !s.cartCalc.getD j true) s j = true) : checkSet K s j = false := by
  rw [doCart_eq] at h1
  simp only [Bool.and_eq_true] at h1
  obtain ⟨h1, h2⟩ := h1
  have hj : j < n := by
    simp only [kepOk, Bool.and_eq_true, decide_eq_true_eq] at h2
    rw [← hl.kep]; exact h2.1
  by_contra hc
  simp only [Bool.not_eq_false] at hc
  simp only [checkSet, Bool.and_eq_true] at hc
  obtain ⟨⟨_, h3⟩, h4⟩ := hc
  obtain ⟨k, hk⟩ : ∃ k, s.kep[j]? = some k := ⟨_, List.getElem?_eq_getElem (by rw [hl.kep]; exact hj)⟩
  obtain ⟨c, hcj⟩ : ∃ c, s.cart[j]? = some c := ⟨_, List.getElem?_eq_getElem (by rw [hl.cart]; exact hj)⟩
  obtain ⟨m, hm⟩ : ∃ m, s.m[j]? = some m := ⟨_, List.getElem?_eq_getElem (by rw [hl.m]; exact hj)⟩
  obtain ⟨a, ha⟩ : ∃ a, s.kepCalc[j]? = some a := ⟨_, List.getElem?_eq_getElem (by rw [hl.kepCalc]; exact hj)⟩
  obtain ⟨b, hb⟩ : ∃ b, s.cartCalc[j]? = some b := ⟨_, List.getElem?_eq_getElem (by rw [hl.cartCalc]; exact hj)⟩
  rw [kepOk_of K hk] at h2
  rw [cartOk_of K hcj] at h4
  have h1' : stale s.cartCalc j = true := h1
  rw [stale_some hb] at h1'
  rw [stale_some ha] at h3
  have := (h j k c m a b hk hcj hm ha hb (by simpa using h2) (by simpa using h4)).2 ht
  rcases this with h | h
  · simp [h] at h3
  · simp [h] at h1'

/-- what a lazy refresh of the Cartesian elements does to a sound object -/
theorem cartCheck_sound_eq {n : Nat} {s : Orb α} (hw : WF n s) (hl : lazy s = true) (h : Sound K s) :
    ∃ s1, (s1 = s ∧ (s.type ≠ .tru → ∀ j, doCart K (fun j => !s.cartCalc.getD j true) s j = false) ∨ s.type ≠ .tru ∧ s1 = kepCheck K s) ∧
      SameCore (recalcCart K (doCart K (fun j => !s.cartCalc.getD j true) s) s1) (cartCheck K s) := by
  unfold cartCheck
  have hl' : (s.auto && !s.direct) = true := hl
  rw [if_pos hl']
  by_cases ht : s.type = .tru
  · refine ⟨s, .inl ⟨rfl, fun h => absurd ht h⟩, ?_⟩
    rw [calcCart_eq K _ s hw (.inl ht)]
    exact SameCore.refl _
  · by_cases ha : anyDo s.kep.length (doCart K (fun j => !s.cartCalc.getD j true) s) = true
    · exact ⟨_, .inr ⟨ht, rfl⟩, calcCart_refresh K ht ha (by rw [hw.tA, hw.kep]) (h.notBoth K hw.len ht)⟩
    · have hz := anyDo_doCart K (P := fun j => !s.cartCalc.getD j true) (s := s) (by simpa using ha)
      refine ⟨s, .inl ⟨rfl, fun _ => hz⟩, ?_⟩
      rw [recalcCart_none K hz]
      unfold calcCart
      simp only
      rw [if_neg ha]
      exact SameCore.refl _

theorem sound_cartCheck {n : Nat} {s : Orb α} (hw : WF n s) (hl : lazy s = true) (h : Sound K s) : Sound K (cartCheck K s) := by
  obtain ⟨s1, hs1, hc⟩ := cartCheck_sound_eq K hw hl h
  refine Sound.core K (sound_recalcCart K ?_ _) hc
  rcases hs1 with ⟨rfl, _⟩ | ⟨_, rfl⟩
  · exact h
  · exact sound_kepCheck K h

/-! ## What two queries in a row return -/

/-- all complete orbits agree -/
theorem agree_iff (s : Orb α) : Agree K s ↔ ∀ (j : Nat) (k : Kep α) (c : Cart α) (m : α), s.kep[j]? = some k → s.cart[j]? = some c →
    s.m[j]? = some m → k.any K.isnan = false → c.any K.isnan = false → AgreeAt K s k c m := Iff.rfl

end Orbit
end Pyorb
