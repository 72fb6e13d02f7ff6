import Verif.PropsOrbitAgree

/-!
# What the queries of an `Orbit` answer

Every query is a fixed function `Read.val` of masses, elements and settings, after the refresh that the query performs first
in lazy mode.
-/

set_option linter.unusedSimpArgs false
set_option linter.unusedVariables false

namespace Pyorb
namespace Orbit
open Py
variable {α : Type} (K : Kern α)

/-- the anomaly function used by `calc_eccentric_anomaly` -/
def eccFn (sc : Bool) (s : Orb α) : α → α → α :=
  match s.type with
  | .mean => K.meanToEcc s.opts sc s.degrees
  | .tru => K.trueToEcc sc s.degrees
  | .ecc => fun E _ => E

/-- the true, eccentric or mean anomaly of elements stored in `s` -/
def anomOf (t : Anom) (s : Orb α) (k : Kep α) : α :=
  match t with
  | .tru => trueFn K false s k.nu k.e
  | .ecc => eccFn K false s k.nu k.e
  | .mean => meanFn K false s k.nu k.e

/-- the answer of each query, from masses, elements and settings -/
def Read.val : (g : Read) → Orb α → g.Ans α
  | .num, s => s.kep.length
  | .m, s => s.m
  | .str, s => (if s.kep.length = 1 then some (kepAt K s 0, cartAt K s 0) else none, s.kep.length)
  | .r, s => s.cart.map Cart.getR
  | .v, s => s.cart.map Cart.getV
  | .cartesian, s => s.cart
  | .cart i, s => s.cart.map (·.get i)
  | .kepler, s => s.kep
  | .kep i, s => s.kep.map (·.get i)
  | .period, s => List.zipWith (fun k m => K.period k.a (K.mu s.G s.M0 m)) s.kep s.m
  | .meanMotion, s => List.zipWith (fun k m => K.motion s.degrees (K.period k.a (K.mu s.G s.M0 m))) s.kep s.m
  | .trueAnomaly, s => s.kep.map (anomOf K .tru s)
  | .meanAnomaly, s => s.kep.map (anomOf K .mean s)
  | .eccentricAnomaly, s => s.kep.map (anomOf K .ecc s)
  | .apoapsis, s => s.kep.map fun k => K.apoapsis k.e k.a
  | .periapsis, s => s.kep.map fun k => K.periapsis k.e k.a
  | .meanLongitude, s => s.kep.map fun k => K.meanLon (anomOf K .mean s k) k.om k.OM
  | .equinoctial, s => s.kep.map fun k => K.kepToEqui s.degrees { k with nu := anomOf K .mean s k }
  | .velocity, s => s.cart.map K.speedOf
  | .speed, s => List.zipWith (fun k m => K.speed s.degrees (K.mu s.G s.M0 m) (anomOf K .ecc s k) k.a k.e) s.kep s.m

theorem mapIdx_kep {n : Nat} {s : Orb α} (hk : s.kep.length = n) (l : List α) (hl : l.length = n) (f : α → α → α) :
    l.mapIdx (fun j x => if allPos n j = true then f (kepAt K s j).nu (kepAt K s j).e else x) = s.kep.map fun k => f k.nu k.e := by
  apply List.ext_getElem
  · simp [hl, hk]
  · intro j h1 h2
    have hj : j < n := by simpa [hk] using h2
    simp [allPos, hj, kepAt, List.getD_eq_getElem?_getD, hk]

theorem range_map {n : Nat} {s : Orb α} (hk : s.kep.length = n) (f : α → α → α) :
    (List.range n).map (fun j => f (kepAt K s j).nu (kepAt K s j).e) = s.kep.map fun k => f k.nu k.e := by
  apply List.ext_getElem
  · simp [hk]
  · intro j h1 h2
    have hj : j < s.kep.length := by simpa using h2
    simp [kepAt, List.getD_eq_getElem?_getD, hj]

theorem writeAt_all {β : Type} (l : List β) (vs : List β) (h : vs.length = l.length) :
    writeAt (fun _ x => x) l (List.range l.length) vs = vs := by
  have key : ∀ (b : List β) (vs : List β) (k : Nat) (a : List β), a.length = k → b.length = vs.length →
      writeAt (fun _ x => x) (a ++ b) (List.range' k b.length) vs = a ++ vs := by
    intro b
    induction b with
    | nil =>
      intro vs k a _ hb
      have : vs = [] := List.length_eq_zero_iff.mp hb.symm
      subst this; simp [writeAt]
    | cons x b ih =>
      intro vs k a ha hb
      cases vs with
      | nil => cases hb
      | cons v vs =>
        have h1 := ih vs (k + 1) (a ++ [v]) (by simp [ha]) (by simpa using hb)
        simp only [writeAt, List.length_cons, List.range'_succ, List.zip_cons_cons, List.foldl_cons] at h1 ⊢
        rw [show (a ++ x :: b).modify k (fun _ => v) = (a ++ [v]) ++ b by
          subst ha
          clear h1 hb ih
          induction a with
          | nil => rfl
          | cons y a ih => simpa using ih]
        rw [h1]; simp
  have := key l vs 0 [] rfl h.symm
  simpa [List.range_eq_range'] using this

/-- `_kep_check` has nothing to do -/
def Fresh (s : Orb α) : Prop := ∀ j, checkSet K s j = false

theorem fresh_direct {s : Orb α} (hl : lazy s = false) : Fresh K s := fun j => by simp [checkSet, hl]
theorem Fresh.core {s t : Orb α} (h : Fresh K s) (hc : SameCore s t) : Fresh K t := by
  intro j
  have : checkSet K t j = checkSet K s j := by rw [hc]; rfl
  rw [this]; exact h j
theorem Fresh.check {s : Orb α} (h : Fresh K s) : kepCheck K s = s := by rw [kepCheck_eq, recalcKep_none K h]
theorem fresh_kepCheck (s : Orb α) : Fresh K (kepCheck K s) := by
  intro j
  rw [kepCheck_eq]
  show (lazy s && stale (recalcKep K (checkSet K s) s).kepCalc j && cartOk K s j) = false
  rw [stale_recalcKep, checkSet]
  cases lazy s <;> cases stale s.kepCalc j <;> cases cartOk K s j <;> rfl

section
variable {n : Nat}

theorem anomOf_core {s t : Orb α} (h : SameCore s t) (a : Anom) : anomOf K a t = anomOf K a s := by
  funext k
  unfold anomOf trueFn eccFn meanFn
  rw [h.type, h.degrees, h.opts]

theorem setTA_wfe' {s : Orb α} (hw : WFE n s) {l : List α} (h : l.length = n) : WFE n { s with tA := l } :=
  ⟨⟨hw.1.m, hw.1.cart, hw.1.kep, h, hw.1.mA, hw.1.cartCalc, hw.1.kepCalc⟩, hw.2⟩
theorem setMA_wfe' {s : Orb α} (hw : WFE n s) {l : List α} (h : l.length = n) : WFE n { s with mA := l } :=
  ⟨⟨hw.1.m, hw.1.cart, hw.1.kep, hw.1.tA, h, hw.1.cartCalc, hw.1.kepCalc⟩, hw.2⟩
theorem setEA_wfe' {s : Orb α} (hw : WFE n s) {l : List α} (h : l.length = n) : WFE n { s with eA := .arr l } :=
  ⟨⟨hw.1.m, hw.1.cart, hw.1.kep, hw.1.tA, hw.1.mA, hw.1.cartCalc, hw.1.kepCalc⟩, l, rfl, h⟩

theorem get_true_anomaly_val {s : Orb α} (hw : WFE n s) (hf : Fresh K s) :
    ∃ t, get_true_anomaly K s = (.ok (s.kep.map (anomOf K .tru s)), t) ∧ SameCore s t ∧ WFE n t := by
  simp only [get_true_anomaly, self_bind]
  by_cases ht : s.type = .tru
  · rw [if_pos ht]
    simp only [get_kep, upd_bind, self_bind, pure_run, hf.check]
    refine ⟨s, ?_, SameCore.refl s, hw⟩
    unfold anomOf trueFn
    rw [ht]; rfl
  · rw [if_neg ht]
    simp only [calc_true_anomaly, self_bind, bind_assoc', pos_all, upd_bind, contains_range, hw.1.kep]
    simp only [bind_run, upd_run, self_run, pure_run, calcTrue_eq, hf.check, storeTrue]
    have e := mapIdx_kep K hw.1.kep s.tA hw.1.tA (trueFn K false s)
    refine ⟨{ s with tA := s.kep.map (anomOf K .tru s) }, ?_, rfl, setTA_wfe' hw (by simp [hw.1.kep])⟩
    exact Prod.ext (congrArg Except.ok e) (congrArg (fun l => { s with tA := l }) e)
theorem get_mean_anomaly_val {s : Orb α} (hw : WFE n s) (hf : Fresh K s) :
    ∃ t, get_mean_anomaly K s = (.ok (s.kep.map (anomOf K .mean s)), t) ∧ SameCore s t ∧ WFE n t := by
  simp only [get_mean_anomaly, self_bind]
  by_cases ht : s.type = .mean
  · rw [if_pos ht]
    simp only [get_kep, upd_bind, self_bind, pure_run, hf.check]
    refine ⟨s, ?_, SameCore.refl s, hw⟩
    unfold anomOf meanFn
    rw [ht]; rfl
  · rw [if_neg ht]
    simp only [calc_mean_anomaly, self_bind, bind_assoc', pos_all, upd_bind, contains_range, hw.1.kep]
    simp only [bind_run, upd_run, self_run, pure_run, calcMean_eq, hf.check, storeMean]
    have e := mapIdx_kep K hw.1.kep s.mA hw.1.mA (meanFn K false s)
    refine ⟨{ s with mA := s.kep.map (anomOf K .mean s) }, ?_, rfl, setMA_wfe' hw (by simp [hw.1.kep])⟩
    exact Prod.ext (congrArg Except.ok e) (congrArg (fun l => { s with mA := l }) e)
theorem get_eccentric_anomaly_val {s : Orb α} (hw : WFE n s) (hf : Fresh K s) :
    ∃ t, get_eccentric_anomaly K s = (.ok (s.kep.map (anomOf K .ecc s)), t) ∧ SameCore s t ∧ WFE n t := by
  obtain ⟨l, hel, hln⟩ := hw.2
  simp only [get_eccentric_anomaly, self_bind]
  by_cases ht : s.type = .ecc
  · rw [if_pos ht]
    simp only [get_kep, upd_bind, self_bind, pure_run, hf.check]
    refine ⟨s, ?_, SameCore.refl s, hw⟩
    unfold anomOf eccFn
    rw [ht]; rfl
  · rw [if_neg ht]
    obtain ⟨t, ht'⟩ : ∃ t : Orb α, t = { s with eA := .arr (s.kep.map (anomOf K .ecc s)) } := ⟨_, rfl⟩
    refine ⟨t, ?_, ht' ▸ rfl, ht' ▸ setEA_wfe' hw (by simp [hw.1.kep])⟩
    simp only [calc_eccentric_anomaly, bind_assoc', upd_bind, self_bind, hf.check, hw.1.kep, pos_all, liftOk_bind]
    cases hty : s.type with
    | ecc => exact absurd hty ht
    | mean =>
      simp only [bind_assoc', upd_bind, self_bind, hf.check, pure_run]
      have e : (List.range n).map (fun j => K.meanToEcc s.opts Inds.all.isInt s.degrees (kepAt K s j).nu (kepAt K s j).e) =
          s.kep.map (anomOf K .ecc s) := by
        rw [show (fun j => K.meanToEcc s.opts Inds.all.isInt s.degrees (kepAt K s j).nu (kepAt K s j).e) =
          fun j => (K.meanToEcc s.opts false s.degrees) (kepAt K s j).nu (kepAt K s j).e from rfl, range_map K hw.1.kep]
        unfold anomOf eccFn
        rw [hty]
      rw [ht']
      exact Prod.ext (congrArg Except.ok e) (congrArg (fun l => { s with eA := .arr l }) e)
    | tru =>
      simp only [bind_assoc', upd_bind, self_bind, hf.check, pure_run]
      have hv : (List.range n).map (fun j => K.trueToEcc Inds.all.isInt s.degrees (kepAt K s j).nu (kepAt K s j).e) =
          s.kep.map (anomOf K .ecc s) := by
        rw [show (fun j => K.trueToEcc Inds.all.isInt s.degrees (kepAt K s j).nu (kepAt K s j).e) =
          fun j => (K.trueToEcc false s.degrees) (kepAt K s j).nu (kepAt K s j).e from rfl, range_map K hw.1.kep]
        unfold anomOf eccFn
        rw [hty]
      have hwe : writeEcc s.eA .all (s.kep.map (anomOf K .ecc s)) = .ok (.arr (s.kep.map (anomOf K .ecc s))) := by
        rw [hel]
        have hsp : (Val.vec (s.kep.map (anomOf K .ecc s))).spread (List.range l.length).length = .ok (s.kep.map (anomOf K .ecc s)) := by
          rw [List.length_range, hln, ← hw.1.kep]
          rcases hk : s.kep with _ | ⟨a, _ | ⟨b, r⟩⟩
          · rfl
          · rfl
          · simp [Val.spread]
        show (do let ps ← Inds.all.pos l.length; let vs ← (Val.vec (s.kep.map (anomOf K .ecc s))).spread ps.length;
                 pure (Cache.arr (writeAt (fun _ x => x) l ps vs)) : Except PyErr (Cache α)) = _
        rw [pos_all]
        show (do let vs ← (Val.vec (s.kep.map (anomOf K .ecc s))).spread (List.range l.length).length;
                 pure (Cache.arr (writeAt (fun _ x => x) l (List.range l.length) vs)) : Except PyErr (Cache α)) = _
        rw [hsp]
        show Except.ok (Cache.arr (writeAt (fun _ x => x) l (List.range l.length) (s.kep.map (anomOf K .ecc s)))) = _
        rw [writeAt_all _ _ (by simp [hw.1.kep, hln])]
      simp only [hv, hwe, liftOk_bind, upd_bind, ht']
      rfl

end

/-- the queries that are answered from Kepler elements -/
def Read.kepSide : Read → Bool
  | .kepler | .kep _ | .period | .meanMotion | .trueAnomaly | .meanAnomaly | .eccentricAnomaly | .apoapsis | .periapsis
  | .meanLongitude | .equinoctial | .speed => true
  | _ => false

/-- a query on the Kepler side of an object whose Kepler elements are up to date -/
theorem read_val_kep {n : Nat} {s : Orb α} (hw : WFE n s) (hf : Fresh K s) (g : Read) (hg : g.kepSide = true) :
    (g.get K s).1 = .ok (g.val K s) := by
  have hkl : s.kep.length = n := hw.1.kep
  have hml : s.m.length = n := hw.1.m
  cases g <;> first | cases hg
  case kepler => simp only [Read.get, get_kepler, upd_bind, self_bind, pure_run, hf.check]; rfl
  case kep i => simp only [Read.get, get_kep, upd_bind, self_bind, pure_run, hf.check]; rfl
  case period =>
    simp only [Read.get, get_period, get_kep, bind_assoc', upd_bind, self_bind, pure_bind', pure_run, hf.check, Read.val]
    rw [List.zipWith_map_left]; rfl
  case meanMotion =>
    simp only [Read.get, get_mean_motion, get_period, get_kep, bind_assoc', upd_bind, self_bind, pure_bind', pure_run,
      hf.check, Read.val]
    rw [List.zipWith_map_left, List.map_zipWith]; rfl
  case trueAnomaly => obtain ⟨t, h, -⟩ := get_true_anomaly_val K hw hf; exact congrArg Prod.fst h
  case meanAnomaly => obtain ⟨t, h, -⟩ := get_mean_anomaly_val K hw hf; exact congrArg Prod.fst h
  case eccentricAnomaly => obtain ⟨t, h, -⟩ := get_eccentric_anomaly_val K hw hf; exact congrArg Prod.fst h
  case apoapsis =>
    simp only [Read.get, get_apoapsis, get_kep, bind_assoc', upd_bind, self_bind, pure_bind', pure_run, hf.check,
      Read.val, List.zipWith_map, List.zipWith_self]; rfl
  case periapsis =>
    simp only [Read.get, get_periapsis, get_kep, bind_assoc', upd_bind, self_bind, pure_bind', pure_run, hf.check,
      Read.val, List.zipWith_map, List.zipWith_self]; rfl
  case meanLongitude =>
    obtain ⟨t, h, hc, ht⟩ := get_mean_anomaly_val K hw hf
    have hft := hf.core K hc
    show (get_mean_longitude K s).1 = _
    unfold get_mean_longitude
    rw [bind_ok h]
    simp only [get_kep, bind_assoc', upd_bind, self_bind, pure_bind', pure_run, hft.check, Read.val, hc.kep]
    rw [List.zip_map', List.zipWith_map, List.zipWith_self]
    rfl
  case equinoctial =>
    obtain ⟨t, h, hc, ht⟩ := get_mean_anomaly_val K hw hf
    show (get_equinoctial K s).1 = _
    simp only [get_equinoctial, get_kepler, bind_assoc', upd_bind, self_bind, pure_bind', hf.check]
    rw [bind_ok h, self_bind, pure_run, hc.degrees, List.zipWith_map_right, List.zipWith_self]
    rfl
  case speed =>
    obtain ⟨t, h, hc, ht⟩ := get_eccentric_anomaly_val K hw hf
    have hft := hf.core K hc
    show (get_speed K s).1 = _
    simp only [get_speed, upd_bind, hf.check]
    rw [bind_ok h]
    simp only [get_kep, bind_assoc', upd_bind, self_bind, pure_bind', pure_run, lift_run, hft.check, Read.val, hc.kep,
      hc.m, hc.degrees, hc.G, hc.M0]
    have hlen : (s.kep.map (anomOf K .ecc s)).length =
        ((((s.kep.map (·.get 0)).zip (s.kep.map (·.get 1))).zip (s.kep.map (·.get 0))).zip s.m).length := by
      simp [hkl, hml]
    rw [if_pos hlen, List.zip_map', List.zip_map', List.zip_map_left, List.zipWith_map]
    congr 1
    apply List.ext_getElem
    · simp [hkl, hml]
    · intro j h1 h2
      simp
      rfl

theorem kepCheck_settings (s : Orb α) : (kepCheck K s).type = s.type ∧ (kepCheck K s).degrees = s.degrees ∧
    (kepCheck K s).opts = s.opts ∧ (kepCheck K s).kep.length = s.kep.length := by
  rw [kepCheck_eq]
  exact ⟨rfl, rfl, rfl, by simp [recalcKep]⟩

/-- a query on the Kepler side starts by refreshing the Kepler elements -/
theorem get_kepCheck (g : Read) (hg : g.kepSide = true) (s : Orb α) : g.get K s = g.get K (kepCheck K s) := by
  obtain ⟨ht, hd, ho, hl⟩ := kepCheck_settings K s
  have hi := kepCheck_idem K s
  have hkep : ∀ i, get_kep K i s = get_kep K i (kepCheck K s) := by
    intro i; simp only [get_kep, upd_bind, hi]
  have htf : trueFn K false (kepCheck K s) = trueFn K false s := by unfold trueFn; rw [ht, hd, ho]
  have hmf : meanFn K false (kepCheck K s) = meanFn K false s := by unfold meanFn; rw [ht, hd]
  have hM : get_mean_anomaly K s = get_mean_anomaly K (kepCheck K s) := by
    simp only [get_mean_anomaly, self_bind, ht]
    by_cases h : s.type = .mean
    · simp only [if_pos h]; exact hkep 5
    · simp only [if_neg h]
      simp only [calc_mean_anomaly, self_bind, bind_assoc', pos_all, upd_bind, hl]
      simp only [bind_run, upd_run, calcMean_eq, hi, show Inds.all.isInt = false from rfl, hmf]
  have hT : get_true_anomaly K s = get_true_anomaly K (kepCheck K s) := by
    simp only [get_true_anomaly, self_bind, ht]
    by_cases h : s.type = .tru
    · simp only [if_pos h]; exact hkep 5
    · simp only [if_neg h]
      simp only [calc_true_anomaly, self_bind, bind_assoc', pos_all, upd_bind, hl]
      simp only [bind_run, upd_run, calcTrue_eq, hi, show Inds.all.isInt = false from rfl, htf]
  have hE : get_eccentric_anomaly K s = get_eccentric_anomaly K (kepCheck K s) := by
    simp only [get_eccentric_anomaly, self_bind, ht]
    by_cases h : s.type = .ecc
    · simp only [if_pos h]; exact hkep 5
    · simp only [if_neg h]
      simp only [calc_eccentric_anomaly, bind_assoc', upd_bind, hi]
  cases g <;> first | cases hg
  case kepler => simp only [Read.get, get_kepler, upd_bind, hi] <;> rfl
  case kep i => exact hkep i
  case period => simp only [Read.get, get_period, upd_bind, hi] <;> rfl
  case meanMotion => simp only [Read.get, get_mean_motion, get_period, bind_assoc', upd_bind, hi] <;> rfl
  case trueAnomaly => exact hT
  case meanAnomaly => exact hM
  case eccentricAnomaly => exact hE
  case apoapsis => simp only [Read.get, get_apoapsis]; rw [bind_run, bind_run, hkep]
  case periapsis => simp only [Read.get, get_periapsis]; rw [bind_run, bind_run, hkep]
  case meanLongitude => simp only [Read.get, get_mean_longitude]; rw [bind_run, bind_run, hM]
  case equinoctial => simp only [Read.get, get_equinoctial, get_kepler, bind_assoc', upd_bind, hi] <;> rfl
  case speed => simp only [Read.get, get_speed, upd_bind, hi] <;> rfl

/-- the refresh performed by a query (orbit.py 151-161); `velocity` reads `v` after checking once more -/
def Read.fresh (g : Read) (s : Orb α) : Orb α :=
  if g.kepSide then kepCheck K s else
  match g with
  | .num | .m | .str => s
  | .velocity => cartCheck K (cartCheck K s)
  | _ => cartCheck K s

/-- Every query returns normally; its answer is `Read.val` of the refreshed object. -/
theorem read_fresh {n : Nat} {s : Orb α} (hw : WFE n s) (g : Read) : (g.get K s).1 = .ok (g.val K (g.fresh K s)) := by
  by_cases hg : g.kepSide = true
  · rw [get_kepCheck K g hg, read_val_kep K (kepCheck_wfe K s hw) (fresh_kepCheck K s) g hg]
    unfold Read.fresh
    rw [if_pos hg]
  · have hkl : s.kep.length = n := hw.1.kep
    unfold Read.fresh
    rw [if_neg hg]
    cases g <;> first | exact absurd rfl hg | skip
    case num => show (num s).1 = _; rw [num_wf hw.1]; show _ = Except.ok s.kep.length; rw [hkl]
    case m => rfl
    case str =>
      show (Orbit.str K s).1 = _
      simp only [Orbit.str, bind_ok (num_wf hw.1), self_bind, pure_run, Read.val, hkl]
      rfl
    case r => simp only [Read.get, get_r, upd_bind, self_bind, pure_run]; rfl
    case v => simp only [Read.get, get_v, upd_bind, self_bind, pure_run]; rfl
    case cartesian => simp only [Read.get, get_cartesian, upd_bind, self_bind, pure_run]; rfl
    case cart i => simp only [Read.get, get_cart, upd_bind, self_bind, pure_run]; rfl
    case velocity => simp only [Read.get, get_velocity, upd_bind, self_bind, pure_run]; rfl

/-- Answers without recalculation: every query returns, and its answer is `Read.val`. -/
theorem read_val {n : Nat} {s : Orb α} (hw : WFE n s) (hl : lazy s = false) (g : Read) : (g.get K s).1 = .ok (g.val K s) := by
  rw [read_fresh K hw g]
  have : g.fresh K s = s := by
    unfold Read.fresh
    rw [kepCheck_direct K hl, cartCheck_direct K hl, cartCheck_direct K hl]
    cases g <;> rfl
  rw [this]

end Orbit
end Pyorb
