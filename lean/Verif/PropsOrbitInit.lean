import Verif.PropsOrbitFrame
import Verif.PropsOrbitSet
import Verif.PropsOrbitGuard
import Verif.PropsOrbitReturns
import Mathlib.Data.Fintype.Basic
import Mathlib.Tactic.FinCases

/-!
# C63: what the constructor of `Orbit` makes

`Orbit(M0, **kwargs)` has the settings, read-only flags and masses it was given, reads back the given elements, and its other
element set is the conversion of the given one.
-/

set_option linter.unusedSimpArgs false
set_option linter.unusedVariables false

namespace Pyorb
namespace Orbit
open Py
variable {α : Type} (K : Kern α)

/-- the object in the constructor before elements are stored -/
def blankWith (M0 : α) (kw : InitKw α) (ty : Anom) (ms : List α) : Orb α :=
  { empty M0 kw ty with
    m := ms
    cart := List.replicate kw.n (Cart.const K.nan)
    kep := List.replicate kw.n (Kep.const K.nan)
    tA := List.replicate kw.n K.nan
    eA := .arr (List.replicate kw.n K.nan)
    mA := List.replicate kw.n K.nan
    cartCalc := List.replicate kw.n false
    kepCalc := List.replicate kw.n false }

theorem blankWith_one (M0 : α) (kw : InitKw α) (ty : Anom) {ms : List α} (h : ms.length = kw.n) :
    OneEntryPerOrbit (blankWith K M0 kw ty ms) kw.n := by
  constructor <;> simp [blankWith, h]

/-- the masses the constructor was given -/
def GivenMasses (kw : InitKw α) (ms : List α) : Prop :=
  match kw.m with
  | none => ms = List.replicate kw.n K.zero
  | some v => v.Row kw.n ms

theorem GivenMasses.length {kw : InitKw α} {ms : List α} (h : GivenMasses K kw ms) : ms.length = kw.n := by
  unfold GivenMasses at h
  split at h
  · rw [h, List.length_replicate]
  · exact Val.spread_length (spread_of_row h)

/-- the steps of the constructor -/
theorem init_parts {M0 : α} {kw : InitKw α} {u : Upd α} {s : Orb α} (h : init K M0 kw u = .ok s) :
    ∃ ty ms t, kw.type = some ty ∧ GivenMasses K kw ms ∧ s = { t with kro := kw.kro, cro := kw.cro } ∧
      (0 < kw.n → update K .all { u with m := none } (blankWith K M0 kw ty ms) = (.ok (), t)) ∧
      (kw.n = 0 → t = blankWith K M0 kw ty ms) := by
  unfold init at h
  split at h
  · cases h
  rename_i ty hty
  obtain ⟨ms, hgm, hrun⟩ : ∃ ms, GivenMasses K kw ms ∧ initBody K kw { u with m := none } (empty M0 kw ty) =
      (do let n ← num
          when (decide (0 < n)) (update K .all { u with m := none })
          upd fun s => { s with kro := kw.kro, cro := kw.cro } : Py α Unit) (blankWith K M0 kw ty ms) := by
    unfold GivenMasses
    cases hm : kw.m with
    | none =>
      refine ⟨_, rfl, ?_⟩
      simp only [initBody, allocate, upd_bind, hm]
      rw [bind_ok (x := writeAllMass none) rfl]
      rfl
    | some v =>
      cases hv : v.spread kw.n with
      | error e =>
        simp only [initBody, allocate, upd_bind, hm] at h
        rw [bind_err (x := writeAllMass (some v)) (e := e) (by simp only [writeAllMass, self_bind, lift_bind, List.length_replicate, hv]; rfl)] at h
        cases h
      | ok ms =>
        refine ⟨ms, row_of_spread hv, ?_⟩
        simp only [initBody, allocate, upd_bind, hm]
        rw [bind_ok (x := writeAllMass (some v)) (b := ()) (by simp only [writeAllMass, self_bind, lift_bind, List.length_replicate, hv]; rfl)]
        rfl
  rw [hrun, bind_ok (num_wf (blankWith_one K M0 kw ty hgm.length).wfe.1)] at h
  by_cases hn : 0 < kw.n
  · rw [show decide (0 < kw.n) = true from decide_eq_true hn] at h
    cases hu : update K .all { u with m := none } (blankWith K M0 kw ty ms) with
    | mk r t =>
      cases r with
      | error e =>
        rw [bind_err (x := when true _) (by show update K .all _ _ = _; exact hu)] at h
        cases h
      | ok x =>
        rw [bind_ok (x := when true _) (by show update K .all _ _ = _; exact hu)] at h
        cases h
        exact ⟨ty, ms, t, hty, hgm, rfl, fun _ => hu, fun h0 => by omega⟩
  · rw [show decide (0 < kw.n) = false from decide_eq_false hn] at h
    rw [bind_ok (x := when false _) (b := ()) rfl] at h
    cases h
    exact ⟨ty, ms, _, hty, hgm, rfl, fun h0 => absurd h0 hn, fun _ => rfl⟩

/-- C63, settings: an object made by the constructor has one entry per orbit in every array, the given settings, read-only flags,
anomaly type, epoch and masses (zero if none are given). -/
theorem c63_settings {M0 : α} {kw : InitKw α} {u : Upd α} {s : Orb α} (h : init K M0 kw u = .ok s) :
    OneEntryPerOrbit s kw.n ∧ s.settings = ⟨kw.auto, kw.direct, kw.kro, kw.cro, kw.degrees, kw.G, M0, kw.opts, kw.epoch⟩ ∧
      kw.type = some s.type ∧ (kw.m = none → s.m = List.replicate kw.n K.zero) ∧ ∀ v, kw.m = some v → v.Row kw.n s.m := by
  have h1 := (init_wfe K h).one
  obtain ⟨ty, ms, t, hty, hgm, hs, hu, h0⟩ := init_parts K h
  have key : t.settings = (blankWith K M0 kw ty ms).settings ∧ t.type = ty ∧ t.m = ms := by
    by_cases hn : 0 < kw.n
    · have e : exec K (blankWith K M0 kw ty ms) [.update .all { u with m := none }] = t := by
        rw [exec_cons, exec_nil]
        show (update K .all { u with m := none } (blankWith K M0 kw ty ms)).2 = t
        rw [hu hn]
      have p1 := c59_settings K (blankWith K M0 kw ty ms) [.update .all { u with m := none }] (by simp [Op.assignsSettings])
      have p2 := c59_type K (blankWith K M0 kw ty ms) [.update .all { u with m := none }] (by simp [Op.assignsType])
      have p3 := c59_mass K (blankWith K M0 kw ty ms) [.update .all { u with m := none }] (by simp [Op.assignsMass])
      rw [e] at p1 p2 p3
      exact ⟨p1, p2, p3⟩
    · rw [h0 (by omega)]; exact ⟨rfl, rfl, rfl⟩
  obtain ⟨k1, k2, k3⟩ := key
  have hm : s.m = ms := by rw [hs]; exact k3
  refine ⟨h1, ?_, ?_, fun hn => ?_, fun v hv => ?_⟩
  · rw [hs]
    injection k1 with a b c d e f g i j
    show (⟨t.auto, t.direct, kw.kro, kw.cro, t.degrees, t.G, t.M0, t.opts, t.epoch⟩ : Settings α) = _
    rw [a, b, e, f, g, i, j]; rfl
  · rw [hty, hs]; exact congrArg some k2.symm
  · rw [hm]; unfold GivenMasses at hgm; rw [hn] at hgm; exact hgm
  · rw [hm]; unfold GivenMasses at hgm; rw [hv] at hgm; exact hgm

/-- C63: a name of an anomaly type that is not known is refused. -/
theorem c63_unknown_type (M0 : α) (kw : InitKw α) (u : Upd α) (h : kw.type = none) : init K M0 kw u = .error .valueError := by
  unfold init; rw [h]

/-! ## Elements -/

theorem stale_true (n j : Nat) : stale (List.replicate n true) j = false := by
  unfold stale
  rw [List.getD_eq_getElem?_getD, List.getElem?_replicate]
  split <;> rfl

theorem written_all {n : Nat} {β : Type} {vs old new : List β} (ho : old.length = n) (hv : vs.length = n)
    (h : Written (List.range n) vs old new) : new = vs := by
  refine List.ext_getElem? fun j => ?_
  by_cases hj : j < n
  · refine h.values j j ⟨by simp [hj], fun q hq hc => ?_⟩
    have h1 : q < n := by
      by_contra hn
      rw [List.getElem?_eq_none (by simpa using hn)] at hc
      cases hc
    rw [List.getElem?_range h1] at hc
    injection hc with hc
    omega
  · rw [List.getElem?_eq_none (by rw [h.length, ho]; omega), List.getElem?_eq_none (by rw [hv]; omega)]

theorem map_range_const {β : Type} (n : Nat) (b : β) : (List.range n).map (fun _ => b) = List.replicate n b := by
  rw [List.map_const', List.length_range]

/-- the Cartesian elements read from an object after its Kepler elements `ks` were stored: conversions of the Kepler elements, NaN
where they have a NaN; without any automatic update all NaN -/
def CartOf (s : Orb α) (ks : List (Kep α)) (cs : List (Cart α)) : Prop :=
  cs.length = ks.length ∧
  (s.auto = true ∨ s.direct = true → ∀ (j : Nat) (k : Kep α) (m : α), ks[j]? = some k → s.m[j]? = some m →
    cs[j]? = some (if k.any K.isnan then Cart.const K.nan else cartOfKep K s.type s.opts s.degrees (K.mu s.G s.M0 m) k)) ∧
  (s.auto = false → s.direct = false → ∀ c ∈ cs, c = Cart.const K.nan)

/-- the other direction -/
def KepOf (s : Orb α) (cs : List (Cart α)) (ks : List (Kep α)) : Prop :=
  ks.length = cs.length ∧
  (s.auto = true ∨ s.direct = true → ∀ (j : Nat) (c : Cart α) (m : α), cs[j]? = some c → s.m[j]? = some m →
    ks[j]? = some (if c.any K.isnan then Kep.const K.nan else kepOfCart K s.type s.degrees (K.mu s.G s.M0 m) c)) ∧
  (s.auto = false → s.direct = false → ∀ k ∈ ks, k = Kep.const K.nan)

/-- what is read after Kepler elements were stored in all orbits of a new object -/
theorem reads_cartFollows {n : Nat} {t s : Orb α} (hw : WF n t) (hws : WF n s) (hc : t.cart = List.replicate n (Cart.const K.nan))
    (hb : t.kepCalc = List.replicate n false) (hb' : t.cartCalc = List.replicate n false)
    (hf : CartFollows K (List.range n) t s) : (get_kepler K s).1 = .ok t.kep ∧ ∃ cs, (get_cartesian K s).1 = .ok cs ∧ CartOf K s t.kep cs := by
  obtain ⟨hd, hl, hrest⟩ := hf
  have hkep : s.kep = t.kep := by rw [hrest]
  have hset : s.auto = t.auto ∧ s.direct = t.direct ∧ s.type = t.type ∧ s.opts = t.opts ∧ s.degrees = t.degrees ∧ s.G = t.G ∧ s.M0 = t.M0 ∧
      s.m = t.m := by rw [hrest]; exact ⟨rfl, rfl, rfl, rfl, rfl, rfl, rfl, rfl⟩
  obtain ⟨ea, ed, et, eo, edg, eG, eM, em⟩ := hset
  have hcj : ∀ j < n, t.cart[j]? = some (Cart.const K.nan) := fun j hj => by rw [hc, List.getElem?_replicate, if_pos hj]
  have hdir : lazy s = true → t.direct = false := fun hz => by rw [← ed]; exact (lazy_iff.mp hz).2
  have hfresh : Fresh K s := by
    intro j
    unfold checkSet
    cases hz : lazy s with
    | false => rfl
    | true =>
      rw [written_all (by rw [hb]; simp) (by simp) (hl (hdir hz)).2.1, map_range_const, stale_true]; rfl
  refine ⟨?_, (cartCheck K s).cart, rfl, ?_, ?_, ?_⟩
  · show Except.ok (kepCheck K s).kep = _
    rw [hfresh.check, hkep]
  · rw [(hws.cartCheck K).cart, hw.kep]
  · intro hmode j k m hk hm
    have hj : j < n := by rw [← hw.kep]; exact (List.getElem?_eq_some_iff.mp hk).1
    cases hz : lazy s with
    | true =>
      have hl' := hl (hdir hz)
      have hcs : s.cart[j]? = some (Cart.const K.nan) := by rw [hl'.1]; exact hcj j hj
      have hst : s.cartCalc = List.replicate n false := by
        rw [written_all (by rw [hb']; simp) (by simp) hl'.2.2, map_range_const]
      have hz' : (s.auto && !s.direct) = true := hz
      unfold cartCheck
      rw [if_pos hz', calcCart_eq K _ s hws (.inr hfresh)]
      have hdo : doCart K (fun j => !s.cartCalc.getD j true) s = kepOk K s := by
        funext i
        rw [doCart_eq, hst, List.getD_eq_getElem?_getD, List.getElem?_replicate]
        by_cases hi : i < n
        · rw [if_pos hi]; rfl
        · rw [if_neg hi]
          have : kepOk K s i = false := by unfold kepOk; rw [hws.kep, decide_eq_false hi]; rfl
          rw [this]; rfl
      rw [hdo, recalcCart_getElem? K hws (by rw [hkep]; exact hk) hcs hm]
    | false =>
      have hd' : t.direct = true := by
        rw [← ed]
        rcases hmode with h | h
        · by_contra hne
          rw [lazy_iff.mpr ⟨h, by simpa using hne⟩] at hz
          cases hz
        · exact h
      rw [cartCheck_direct K hz, hd hd' j k _ m hk (hcj j hj) (by rw [← em]; exact hm), et, eo, edg, eG, eM]
  · intro h1 h2 c hcm
    have hz : lazy s = false := by
      cases hz : lazy s with
      | false => rfl
      | true => rw [(lazy_iff.mp hz).1] at h1; cases h1
    rw [cartCheck_direct K hz, (hl (by rw [← ed]; exact h2)).1, hc] at hcm
    exact (List.mem_replicate.mp hcm).2

/-- what is read after Cartesian elements were stored in all orbits of a new object -/
theorem reads_kepFollows {n : Nat} {t s : Orb α} (hw : WF n t) (hws : WF n s) (hk : t.kep = List.replicate n (Kep.const K.nan))
    (hb : t.kepCalc = List.replicate n false) (hb' : t.cartCalc = List.replicate n false)
    (hf : KepFollows K (List.range n) t s) : (get_cartesian K s).1 = .ok t.cart ∧ ∃ ks, (get_kepler K s).1 = .ok ks ∧ KepOf K s t.cart ks := by
  obtain ⟨hd, hl, hrest⟩ := hf
  have hcart : s.cart = t.cart := by rw [hrest]
  have hset : s.auto = t.auto ∧ s.direct = t.direct ∧ s.type = t.type ∧ s.opts = t.opts ∧ s.degrees = t.degrees ∧ s.G = t.G ∧ s.M0 = t.M0 ∧
      s.m = t.m := by rw [hrest]; exact ⟨rfl, rfl, rfl, rfl, rfl, rfl, rfl, rfl⟩
  obtain ⟨ea, ed, et, eo, edg, eG, eM, em⟩ := hset
  have hkj : ∀ j < n, t.kep[j]? = some (Kep.const K.nan) := fun j hj => by rw [hk, List.getElem?_replicate, if_pos hj]
  have hdir : lazy s = true → t.direct = false := fun hz => by rw [← ed]; exact (lazy_iff.mp hz).2
  have hfresh : CartFresh K s := by
    intro hz j
    rw [doCart_eq, written_all (by rw [hb']; simp) (by simp) (hl (hdir hz)).2.2, map_range_const]
    have := stale_true n j
    unfold stale at this
    rw [this]; rfl
  refine ⟨?_, (kepCheck K s).kep, rfl, ?_, ?_, ?_⟩
  · show Except.ok (cartCheck K s).cart = _
    rw [hfresh.check, hcart]
  · rw [kepCheck_eq]
    show (s.kep.mapIdx _).length = _
    rw [List.length_mapIdx, hws.kep, hw.cart]
  · intro hmode j c m hc hm
    have hj : j < n := by rw [← hw.cart]; exact (List.getElem?_eq_some_iff.mp hc).1
    cases hz : lazy s with
    | true =>
      have hl' := hl (hdir hz)
      have hks : s.kep[j]? = some (Kep.const K.nan) := by rw [hl'.1]; exact hkj j hj
      have hst : s.kepCalc = List.replicate n false := by
        rw [written_all (by rw [hb]; simp) (by simp) hl'.2.1, map_range_const]
      have hdo : checkSet K s = cartOk K s := by
        funext i
        unfold checkSet stale
        rw [hz, hst, List.getD_eq_getElem?_getD, List.getElem?_replicate]
        by_cases hi : i < n
        · rw [if_pos hi]; rfl
        · rw [if_neg hi]
          have : cartOk K s i = false := by unfold cartOk; rw [hws.cart, decide_eq_false hi]; rfl
          rw [this]; rfl
      rw [kepCheck_eq, hdo, recalcKep_getElem? K hws hks (by rw [hcart]; exact hc) hm]
    | false =>
      have hd' : t.direct = true := by
        rw [← ed]
        rcases hmode with h | h
        · by_contra hne
          rw [lazy_iff.mpr ⟨h, by simpa using hne⟩] at hz
          cases hz
        · exact h
      rw [kepCheck_direct K hz, hd hd' j _ c m (hkj j hj) hc (by rw [← em]; exact hm), et, edg, eG, eM]
  · intro h1 h2 k hkm
    have hz : lazy s = false := by
      cases hz : lazy s with
      | false => rfl
      | true => rw [(lazy_iff.mp hz).1] at h1; cases h1
    rw [kepCheck_direct K hz, (hl (by rw [← ed]; exact h2)).1, hk] at hkm
    exact (List.mem_replicate.mp hkm).2

theorem CartFollows.flags {ps : List Nat} {t s : Orb α} (h : CartFollows K ps t s) (a b : Bool) :
    CartFollows K ps { t with kro := a, cro := b } { s with kro := a, cro := b } :=
  ⟨h.direct, h.lazy, by rw [Orb.mk.injEq]; have := h.rest; rw [Orb.mk.injEq] at this; simp only [this, and_self, true_and, and_true]⟩

theorem KepFollows.flags {ps : List Nat} {t s : Orb α} (h : KepFollows K ps t s) (a b : Bool) :
    KepFollows K ps { t with kro := a, cro := b } { s with kro := a, cro := b } :=
  ⟨h.direct, h.lazy, by rw [Orb.mk.injEq]; have := h.rest; rw [Orb.mk.injEq] at this; simp only [this, and_self, true_and, and_true]⟩

theorem selects_all {n : Nat} {ps : List Nat} (h : Selects n .all ps) : ps = List.range n := by
  have := pos_selects.mpr h
  rw [pos_all] at this
  injection this with this
  exact this.symm

/-- C63, `Orbit(M0, kepler=v, ..)`: in every mode the object reads back the columns of `v` as Kepler elements, and its Cartesian
elements are their conversions. -/
theorem c63_kepler {M0 : α} {kw : InitKw α} {u : Upd α} {s : Orb α} (h : init K M0 kw u = .ok s) (hn : 0 < kw.n) (v : Val6 α (Kep α))
    (hc : u.cartesian = none) (hk : u.kepler = some v) :
    ∃ ks cs, v.Fills Kep.get (fun _ => false) kw.n ks ∧ (get_kepler K s).1 = .ok ks ∧ (get_cartesian K s).1 = .ok cs ∧ CartOf K s ks cs := by
  have hws := (init_wfe K h).1
  obtain ⟨ty, ms, t, hty, hgm, rfl, hu, -⟩ := init_parts K h
  have h1 := blankWith_one K M0 kw ty hgm.length
  obtain ⟨-, ps, cs, ks, hp, hf, hw, hfol⟩ := c38_kepler_partial K _ _ h1 .all { u with m := none } v hc hk (hu hn)
  obtain rfl := selects_all hp
  rw [List.length_range] at hf
  obtain rfl : ks = cs := written_all h1.kepler hf.1 hw
  have hwt : WF kw.n { blankWith K M0 kw ty ms with kep := ks, kro := kw.kro, cro := kw.cro } :=
    ⟨h1.masses, h1.cartesian, hf.1, h1.cachedTrue, h1.cachedMean, h1.cartesianFlags, h1.keplerFlags⟩
  obtain ⟨r1, cs, r2, r3⟩ := reads_cartFollows K hwt hws rfl rfl rfl (hfol.flags K kw.kro kw.cro)
  exact ⟨ks, cs, hf, r1, r2, r3⟩

/-- C63, `Orbit(M0, cartesian=v, ..)` -/
theorem c63_cartesian {M0 : α} {kw : InitKw α} {u : Upd α} {s : Orb α} (h : init K M0 kw u = .ok s) (hn : 0 < kw.n) (v : Val6 α (Cart α))
    (hc : u.cartesian = some v) :
    ∃ cs ks, v.Fills Cart.get (fun _ => false) kw.n cs ∧ (get_cartesian K s).1 = .ok cs ∧ (get_kepler K s).1 = .ok ks ∧ KepOf K s cs ks := by
  have hws := (init_wfe K h).1
  obtain ⟨ty, ms, t, hty, hgm, rfl, hu, -⟩ := init_parts K h
  have h1 := blankWith_one K M0 kw ty hgm.length
  obtain ⟨-, ps, cs, ks, hp, hf, hw, hfol⟩ := c38_cartesian_partial K _ _ h1 .all { u with m := none } v hc (hu hn)
  obtain rfl := selects_all hp
  rw [List.length_range] at hf
  obtain rfl : ks = cs := written_all h1.cartesian hf.1 hw
  have hwt : WF kw.n { blankWith K M0 kw ty ms with cart := ks, kro := kw.kro, cro := kw.cro } :=
    ⟨h1.masses, hf.1, h1.kepler, h1.cachedTrue, h1.cachedMean, h1.cartesianFlags, h1.keplerFlags⟩
  obtain ⟨r1, ks', r2, r3⟩ := reads_kepFollows K hwt hws rfl rfl rfl (hfol.flags K kw.kro kw.cro)
  exact ⟨ks, ks', hf, r1, r2, r3⟩

/-- the rows of `l` named in `u` hold the given values, the others NaN -/
def RowsGiven {C : Type} (get : C → Fin 6 → α) (u : Fin 6 → Option (Val α)) (n : Nat) (l : List C) : Prop :=
  l.length = n ∧ ∀ i, match u i with
  | none => ∀ c ∈ l, get c i = K.nan
  | some v => v.Row n (l.map (get · i))

theorem rowsGiven_of {C : Type} {get : C → Fin 6 → α} {u : Fin 6 → Option (Val α)} {n : Nat} {c0 : C} (h0 : ∀ i, get c0 i = K.nan) {l : List C}
    (h : NamedRows get (List.range n) u (List.replicate n c0) l) : RowsGiven K get u n l := by
  obtain ⟨vals, h1, h2, h3⟩ := h
  have hl : l.length = n := by rw [h3.length, List.length_replicate]
  refine ⟨hl, fun i => ?_⟩
  cases hi : u i with
  | none =>
    intro c hc
    obtain ⟨j, hj⟩ := List.getElem?_of_mem hc
    have := h3.rows j i (h1 i hi)
    have hjn : j < n := by rw [← hl]; exact (List.getElem?_eq_some_iff.mp hj).1
    rw [hj, List.getElem?_replicate, if_pos hjn] at this
    simp only [Option.map_some, Option.some.injEq] at this
    rw [this, h0]
  | some v =>
    obtain ⟨vs, h4, h5⟩ := h2 i v hi
    rw [List.length_range] at h4
    have hvl : vs.length = n := Val.spread_length (spread_of_row h4)
    have : l.map (get · i) = vs := by
      refine List.ext_getElem? fun j => ?_
      rw [List.getElem?_map]
      by_cases hj : j < n
      · refine h3.values i vs j j h5 ⟨by simp [hj], fun q hq hc => ?_⟩
        have h6 : q < n := by
          by_contra hn
          rw [List.getElem?_eq_none (by simpa using hn)] at hc
          cases hc
        rw [List.getElem?_range h6] at hc
        injection hc with hc
        omega
      · rw [List.getElem?_eq_none (by rw [hl]; omega), List.getElem?_eq_none (by rw [hvl]; omega)]; rfl
    show v.Row n _
    rw [this]; exact h4

/-- C63, `Orbit(M0, a=.., e=.., ..)`: in every mode the object reads back the given Kepler elements, NaN for those not given, and its
Cartesian elements are their conversions. -/
theorem c63_kepler_names {M0 : α} {kw : InitKw α} {u : Upd α} {s : Orb α} (h : init K M0 kw u = .ok s) (hn : 0 < kw.n)
    (hc : u.cartesian = none) (hk : u.kepler = none) (i : Fin 6) (hi : u.kepEl i ≠ none) :
    ∃ ks cs, RowsGiven K Kep.get u.kepEl kw.n ks ∧ (∀ i, u.cartEl i = none) ∧ (get_kepler K s).1 = .ok ks ∧ (get_cartesian K s).1 = .ok cs ∧
      CartOf K s ks cs := by
  have hws := (init_wfe K h).1
  obtain ⟨ty, ms, t, hty, hgm, rfl, hu, -⟩ := init_parts K h
  have h1 := blankWith_one K M0 kw ty hgm.length
  obtain ⟨ms', hm1, -, hcase⟩ := c38_elements_partial K _ _ h1 .all { u with m := none } hc hk (hu hn)
  obtain rfl : ms = ms' := (hm1 rfl).symm
  rcases hcase with ⟨-, h2, -⟩ | ⟨h2, -, -, ps, ks, hp, hr, hfol⟩ | ⟨h2, -⟩
  · exact absurd (h2 i) hi
  · obtain rfl := selects_all hp
    have hg := rowsGiven_of K (fun i => by fin_cases i <;> rfl) hr
    have hwt : WF kw.n { blankWith K M0 kw ty ms with kep := ks, kro := kw.kro, cro := kw.cro } :=
      ⟨h1.masses, h1.cartesian, hg.1, h1.cachedTrue, h1.cachedMean, h1.cartesianFlags, h1.keplerFlags⟩
    obtain ⟨r1, cs, r2, r3⟩ := reads_cartFollows K hwt hws rfl rfl rfl (hfol.flags K kw.kro kw.cro)
    exact ⟨ks, cs, hg, h2, r1, r2, r3⟩
  · exact absurd (h2 i) hi

/-- C63, `Orbit(M0, x=.., y=.., ..)` -/
theorem c63_cartesian_names {M0 : α} {kw : InitKw α} {u : Upd α} {s : Orb α} (h : init K M0 kw u = .ok s) (hn : 0 < kw.n)
    (hc : u.cartesian = none) (hk : u.kepler = none) (i : Fin 6) (hi : u.cartEl i ≠ none) :
    ∃ cs ks, RowsGiven K Cart.get u.cartEl kw.n cs ∧ (∀ i, u.kepEl i = none) ∧ (get_cartesian K s).1 = .ok cs ∧ (get_kepler K s).1 = .ok ks ∧
      KepOf K s cs ks := by
  have hws := (init_wfe K h).1
  obtain ⟨ty, ms, t, hty, hgm, rfl, hu, -⟩ := init_parts K h
  have h1 := blankWith_one K M0 kw ty hgm.length
  obtain ⟨ms', hm1, -, hcase⟩ := c38_elements_partial K _ _ h1 .all { u with m := none } hc hk (hu hn)
  obtain rfl : ms = ms' := (hm1 rfl).symm
  rcases hcase with ⟨h2, -⟩ | ⟨h2, -⟩ | ⟨h2, -, -, ps, cs, hp, hr, hfol⟩
  · exact absurd (h2 i) hi
  · exact absurd (h2 i) hi
  · obtain rfl := selects_all hp
    have hg := rowsGiven_of K (fun i => by fin_cases i <;> rfl) hr
    have hwt : WF kw.n { blankWith K M0 kw ty ms with cart := cs, kro := kw.kro, cro := kw.cro } :=
      ⟨h1.masses, hg.1, h1.kepler, h1.cachedTrue, h1.cachedMean, h1.cartesianFlags, h1.keplerFlags⟩
    obtain ⟨r1, ks, r2, r3⟩ := reads_kepFollows K hwt hws rfl rfl rfl (hfol.flags K kw.kro kw.cro)
    exact ⟨cs, ks, hg, h2, r1, r2, r3⟩

/-- C63, no elements given: all are NaN -/
theorem c63_blank {M0 : α} {kw : InitKw α} {u : Upd α} {s : Orb α} (h : init K M0 kw u = .ok s) 
    (hc : u.cartesian = none) (hk : u.kepler = none) (h1 : ∀ i, u.cartEl i = none) (h2 : ∀ i, u.kepEl i = none) :
    (get_kepler K s).1 = .ok (List.replicate kw.n (Kep.const K.nan)) ∧ (get_cartesian K s).1 = .ok (List.replicate kw.n (Cart.const K.nan)) := by
  obtain ⟨ty, ms, t, hty, hgm, rfl, hu, h0⟩ := init_parts K h
  have ht : t = blankWith K M0 kw ty ms := by
    by_cases hn : 0 < kw.n
    · obtain ⟨ms', hm1, -, hcase⟩ := c38_elements_partial K _ _ (blankWith_one K M0 kw ty hgm.length) .all { u with m := none } hc hk (hu hn)
      obtain rfl : ms = ms' := (hm1 rfl).symm
      rcases hcase with ⟨-, -, he⟩ | ⟨-, ⟨i, hi⟩, -⟩ | ⟨-, ⟨i, hi⟩, -⟩
      · exact he
      · exact absurd (h2 i) hi
      · exact absurd (h1 i) hi
    · exact h0 (by omega)
  subst ht
  have hnk : (Kep.const K.nan).any K.isnan = true := by simp [Kep.const, Kep.any, K.isnan_nan]
  have hnc : (Cart.const K.nan).any K.isnan = true := by simp [Cart.const, Cart.any, K.isnan_nan]
  have e1 : ∀ j, kepOk K { blankWith K M0 kw ty ms with kro := kw.kro, cro := kw.cro } j = false := fun j => by
    unfold kepOk kepAt
    have : ∀ j, (blankWith K M0 kw ty ms).kep.getD j (Kep.const K.nan) = Kep.const K.nan := fun j => by
      simp only [blankWith, List.getD_eq_getElem?_getD, List.getElem?_replicate]
      split <;> rfl
    simp only [this, hnk, Bool.not_true, Bool.and_false]
  have e2 : ∀ j, cartOk K { blankWith K M0 kw ty ms with kro := kw.kro, cro := kw.cro } j = false := fun j => by
    unfold cartOk cartAt
    have : ∀ j, (blankWith K M0 kw ty ms).cart.getD j (Cart.const K.nan) = Cart.const K.nan := fun j => by
      simp only [blankWith, List.getD_eq_getElem?_getD, List.getElem?_replicate]
      split <;> rfl
    simp only [this, hnc, Bool.not_true, Bool.and_false]
  constructor
  · show Except.ok (kepCheck K _).kep = _
    rw [kepCheck_eq, recalcKep_none K (fun j => by unfold checkSet; rw [e2, Bool.and_false])]
    rfl
  · show Except.ok (cartCheck K _).cart = _
    rw [CartFresh.check K (fun _ j => by rw [doCart_eq, e1, Bool.and_false])]
    rfl

/-- C63 and C33: an object constructed with `kepler_read_only` (`cartesian_read_only`), with or without elements, refuses the Kepler
(Cartesian) assignments of C33 and is not changed by them. -/
theorem c63_read_only {M0 : α} {kw : InitKw α} {u : Upd α} {s : Orb α} (h : init K M0 kw u = .ok s) (o : Op α) :
    (kw.kro = true → o.guardedKep = true → Refused K s o ∧ (o.run K s).2 = s) ∧
    (kw.cro = true → o.guardedCart = true → Refused K s o ∧ (o.run K s).2 = s) := by
  obtain ⟨-, hset, -⟩ := c63_settings K h
  injection hset with _ _ h3 h4
  exact ⟨fun hk => (c33_partial K s o).1 (h3.trans hk), fun hc => (c33_partial K s o).2 (h4.trans hc)⟩

/-- the constructor runs `update` on the object with its masses -/
theorem init_returns {M0 : α} {kw : InitKw α} {u : Upd α} {ty : Anom} {ms : List α} (hty : kw.type = some ty) (hm : GivenMasses K kw ms)
    (hu : 0 < kw.n → ∃ t, update K .all { u with m := none } (blankWith K M0 kw ty ms) = (.ok (), t)) : ∃ s, init K M0 kw u = .ok s := by
  unfold init
  rw [hty]
  have hrun : initBody K kw { u with m := none } (empty M0 kw ty) =
      (do let n ← num
          when (decide (0 < n)) (update K .all { u with m := none })
          upd fun s => { s with kro := kw.kro, cro := kw.cro } : Py α Unit) (blankWith K M0 kw ty ms) := by
    unfold GivenMasses at hm
    cases hv : kw.m with
    | none =>
      rw [hv] at hm
      subst hm
      simp only [initBody, allocate, upd_bind, hv]
      rw [bind_ok (x := writeAllMass none) rfl]
      rfl
    | some v =>
      rw [hv] at hm
      simp only [initBody, allocate, upd_bind, hv]
      rw [bind_ok (x := writeAllMass (some v)) (b := ()) (by
        simp only [writeAllMass, self_bind, lift_bind, List.length_replicate, spread_of_row hm]; rfl)]
      rfl
  simp only []
  rw [hrun, bind_ok (num_wf (blankWith_one K M0 kw ty hm.length).wfe.1)]
  by_cases hn : 0 < kw.n
  · obtain ⟨t, ht⟩ := hu hn
    rw [show decide (0 < kw.n) = true from decide_eq_true hn, bind_ok (x := when true _) (by show update K .all _ _ = _; exact ht)]
    exact ⟨_, rfl⟩
  · rw [show decide (0 < kw.n) = false from decide_eq_false hn, bind_ok (x := when false _) (b := ()) rfl]
    exact ⟨_, rfl⟩

/-- what the constructor accepts: a known anomaly type, masses that fit, and, if there is at least one orbit, elements that fit -/
structure InitAccepted (kw : InitKw α) (u : Upd α) : Prop where
  type : kw.type ≠ none
  mass : FitsRow kw.n kw.m
  cartesian : 0 < kw.n → ∀ v, u.cartesian = some v → ∃ cs, v.Fills Cart.get (fun _ => false) kw.n cs
  kepler : 0 < kw.n → u.cartesian = none → ∀ v, u.kepler = some v → ∃ ks, v.Fills Kep.get (fun _ => false) kw.n ks
  unmixed : 0 < kw.n → u.cartesian = none → u.kepler = none → (∀ i, u.cartEl i = none) ∨ ∀ i, u.kepEl i = none
  names : 0 < kw.n → u.cartesian = none → u.kepler = none → ∀ i, FitsRow kw.n (u.kepEl i) ∧ FitsRow kw.n (u.cartEl i)

/-- C64, the constructor: `Orbit(M0, **kwargs)` returns exactly when the anomaly type is known, the masses fit the number of orbits
and, for at least one orbit, the value of `cartesian`, else that of `kepler`, else every named element fits, Kepler and
Cartesian names not being mixed.  The read-only flags do not matter. -/
theorem c64_init (M0 : α) (kw : InitKw α) (u : Upd α) : (∃ s, init K M0 kw u = .ok s) ↔ InitAccepted kw u := by
  have sel : Selects kw.n .all (List.range kw.n) := pos_selects.mp (pos_all _)
  constructor
  · rintro ⟨s, h⟩
    obtain ⟨ty, ms, t, hty, hgm, -, hu, -⟩ := init_parts K h
    have h1 := blankWith_one K M0 kw ty hgm.length
    refine ⟨by rw [hty]; simp, fun v hv => ?_, fun hn v hv => ?_, fun hn hc v hv => ?_, fun hn hc hk => ?_, fun hn hc hk i => ?_⟩
    · unfold GivenMasses at hgm
      rw [hv] at hgm
      exact ⟨ms, hgm⟩
    · obtain ⟨-, ps, cs, hp, hf, -⟩ := (c64_cartesian K _ h1 .all { u with m := none } v hv).mp ⟨t, hu hn⟩
      obtain rfl := selects_all hp
      rw [List.length_range] at hf
      exact ⟨cs, hf⟩
    · obtain ⟨-, ps, cs, hp, hf, -⟩ := (c64_kepler K _ h1 .all { u with m := none } v hc hv).mp ⟨t, hu hn⟩
      obtain rfl := selects_all hp
      rw [List.length_range] at hf
      exact ⟨cs, hf⟩
    · exact ((c64_names K _ h1 .all { u with m := none } hc hk).mp ⟨t, hu hn⟩).unmixed
    · have hv := ((c64_names K _ h1 .all { u with m := none } hc hk).mp ⟨t, hu hn⟩).values
      constructor
      · intro x hx
        obtain ⟨ps, hp, -, hf, -⟩ := hv (.inr (.inl ⟨i, by rw [hx]; simp⟩))
        obtain rfl := selects_all hp
        rw [List.length_range] at hf
        exact hf i x hx
      · intro x hx
        obtain ⟨ps, hp, -, -, hf⟩ := hv (.inr (.inr ⟨i, by rw [hx]; simp⟩))
        obtain rfl := selects_all hp
        rw [List.length_range] at hf
        exact hf i x hx
  · rintro ⟨h1, h2, h3, h4, h5, h6⟩
    obtain ⟨ty, hty⟩ := Option.ne_none_iff_exists'.mp h1
    obtain ⟨ms, hm⟩ : ∃ ms, GivenMasses K kw ms := by
      unfold GivenMasses
      cases hv : kw.m with
      | none => exact ⟨_, rfl⟩
      | some v => exact h2 v hv
    refine init_returns K hty hm fun hn => ?_
    have hb := blankWith_one K M0 kw ty hm.length
    rcases hc : u.cartesian with _ | v
    rotate_left
    · rw [← hc]
      refine (c64_cartesian K _ hb .all { u with m := none } v hc).mpr ⟨rfl, ?_⟩
      obtain ⟨cs, hf⟩ := h3 hn v hc
      exact ⟨_, cs, sel, by rw [List.length_range]; exact hf, fun hi => by cases hi⟩
    · rw [← hc]
      rcases hk : u.kepler with _ | v
      rotate_left
      · rw [← hk]
        refine (c64_kepler K _ hb .all { u with m := none } v hc hk).mpr ⟨rfl, ?_⟩
        obtain ⟨cs, hf⟩ := h4 hn hc v hk
        exact ⟨_, cs, sel, by rw [List.length_range]; exact hf, fun hi => by cases hi⟩
      · rw [← hk]
        refine (c64_names K _ hb .all { u with m := none } hc hk).mpr ⟨h5 hn hc hk, fun _ => rfl, fun _ => rfl, fun hm => absurd rfl hm, fun _ =>
          ⟨_, sel, fun x hx => (by cases hx), fun i => ?_, fun i => ?_⟩⟩
        · rw [List.length_range]; exact (h6 hn hc hk i).1
        · rw [List.length_range]; exact (h6 hn hc hk i).2

/-! ## Cases -/

/-- two orbits, `a` given for each, `e` for both, in degrees with the mean anomaly, read-only -/
example (M0 G a1 a2 e x : α) (o : SolverOpts α) :
    ∃ s, init K M0 { G := G, opts := o, n := 2, degrees := true, type := some .mean, kro := true, m := some (.sc x) }
        { kepEl := fun i => if i = 0 then some (.vec [a1, a2]) else if i = 1 then some (.sc e) else none } = .ok s ∧
      s.m = [x, x] ∧ s.degrees = true ∧ s.type = .mean ∧ (get_kep K 0 s).1 = .ok [a1, a2] ∧ (get_kep K 1 s).1 = .ok [e, e] ∧
      (get_kep K 2 s).1 = .ok [K.nan, K.nan] ∧ (set_kep K 0 (.sc x) s).1 = .error .attributeError := by
  let kw : InitKw α := { G := G, opts := o, n := 2, degrees := true, type := some .mean, kro := true, m := some (.sc x) }
  let u : Upd α := { kepEl := fun i => if i = 0 then some (.vec [a1, a2]) else if i = 1 then some (.sc e) else none }
  have acc : InitAccepted kw u := by
    refine ⟨by simp [kw], fun v hv => ?_, fun _ v hv => (by cases hv), fun _ _ v hv => (by cases hv), fun _ _ _ => .inl fun _ => rfl,
      fun _ _ _ i => ⟨fun v hv => ?_, fun v hv => (by cases hv)⟩⟩
    · cases hv; exact ⟨[x, x], rfl⟩
    · simp only [u] at hv
      split at hv
      · cases hv; exact ⟨[a1, a2], .inl ⟨rfl, rfl⟩⟩
      · split at hv
        · cases hv; exact ⟨[e, e], rfl⟩
        · cases hv
  obtain ⟨s, hs⟩ := (c64_init K M0 kw u).mpr acc
  obtain ⟨-, hset, hty, -, hm⟩ := c63_settings K hs
  obtain ⟨ks, cs, ⟨hl, hg⟩, -, hr, -, -⟩ := c63_kepler_names K hs (by simp [kw]) rfl rfl 0 (by simp [u])
  match ks, hl with
  | [k1, k2], _ =>
    injection hset with _ _ h3 _ h5
    have hget : ∀ i, (get_kep K i s).1 = .ok [k1.get i, k2.get i] := fun i => by
      show Except.ok ((kepCheck K s).kep.map (·.get i)) = _
      have hr' : (kepCheck K s).kep = [k1, k2] := Except.ok.inj hr
      rw [hr']; rfl
    refine ⟨s, hs, hm _ rfl, h5, (Option.some.inj hty).symm, ?_, ?_, ?_, ?_⟩
    · rcases hg 0 with ⟨-, h⟩ | ⟨w, h, -⟩
      · rw [hget]; exact congrArg _ h
      · cases h
    · rw [hget]; exact congrArg _ (hg 1)
    · rw [hget, hg 2 k1 (by simp), hg 2 k2 (by simp)]
    · have h := ((c63_read_only K hs (.setKep 0 (.sc x))).1 rfl rfl).1
      exact h.1

end Orbit
end Pyorb
