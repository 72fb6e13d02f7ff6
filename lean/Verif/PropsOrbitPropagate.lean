import Verif.PropsOrbitEqui
import Verif.PropsOrbitGuard

/-!
# `Orbit.propagate` (C28)

`propagate(dt)` replaces the mean anomaly of every orbit by `mod(M + n dt, one turn)`; nothing else is assigned
(`propagate_ok`, `c28_only`).  So it composes and repeats after a period (`c28_compose_partial`, `c28_period_partial`).  As the
mean anomaly is reduced to one turn for hyperbolic orbits too, propagating by no time at all moves an inbound hyperbolic
object to another place (`c28_false`).
-/

set_option linter.unusedSimpArgs false
set_option linter.unusedVariables false

namespace Pyorb
namespace Orbit
open Py FX
variable {α : Type} (K : Kern α)

/-- `t` differs from `s` in its elements, its caches of anomalies and its flags of what is calculated only: masses, `G`, `M0`,
epoch, type, units, modes, read-only flags and solver options are the same -/
def OnlyElements (s t : Orb α) : Prop :=
  t = { s with kep := t.kep, cart := t.cart, tA := t.tA, eA := t.eA, mA := t.mA, cartCalc := t.cartCalc, kepCalc := t.kepCalc }

theorem OnlyElements.refl (s : Orb α) : OnlyElements s s := rfl
theorem OnlyElements.trans {s t r : Orb α} (h : OnlyElements s t) (h' : OnlyElements t r) : OnlyElements s r := by
  unfold OnlyElements at *
  rw [h']; rw [h]
theorem OnlyElements.core {s t : Orb α} (h : SameCore s t) : OnlyElements s t := by
  unfold OnlyElements
  rw [h]
theorem OnlyElements.kepCheck (s : Orb α) : OnlyElements s (kepCheck K s) := by
  rw [kepCheck_eq]; rfl

theorem afterKepEl_only {n : Nat} {s : Orb α} (hw : WF n s) : OnlyElements s (afterKepEl K s).2 := by
  cases hd : s.direct with
  | false => rw [afterKepEl_lazy K hd]; rfl
  | true =>
    have : afterKepEl K s = calculate_cartesian K .all s := by simp only [afterKepEl, self_bind, hd, if_true]
    rw [this, calculate_cartesian_direct K hw (lazy_direct hd)]
    rfl

theorem set_kep_only {n : Nat} {s : Orb α} (hw : WF n s) (i : Fin 6) (v : Val α) : OnlyElements s (set_kep K i v s).2 := by
  unfold set_kep
  rcases guardKep_cases s with ⟨e, he⟩ | he
  · rw [bind_err he]; rfl
  · rw [bind_ok he, self_bind, lift_bind, hw.kep]
    cases hv : v.spread n with
    | error e => rfl
    | ok vs =>
      refine OnlyElements.trans (t := { s with kep := List.zipWith (fun k x => k.set i x) s.kep vs }) rfl ?_
      exact afterKepEl_only K (n := n) (s := { s with kep := List.zipWith (fun k x => k.set i x) s.kep vs })
        ⟨hw.m, hw.cart, by simp [hw.kep, Val.spread_length hv], hw.tA, hw.mA, hw.cartCalc, hw.kepCalc⟩

theorem setConv_only {n : Nat} {s : Orb α} (hw : WF n s) (deg : Bool) (f : α → α → α) (v : Val α) :
    OnlyElements s (setConv K deg f v s).2 := by
  unfold setConv
  rw [bind_ok (get_kep_run K 1 s), lift_bind]
  cases hv : convVal deg f v ((kepCheck K s).kep.map (·.get 1)) with
  | error e => exact OnlyElements.kepCheck K s
  | ok vs => exact (OnlyElements.kepCheck K s).trans (set_kep_only K (hw.kepCheck K) 5 (.vec vs))

theorem set_anomaly_only {n : Nat} {s : Orb α} (hw : WFE n s) (t : Anom) (v : Val α) : OnlyElements s (set_anomaly K t v s).2 := by
  by_cases ht : s.type = t
  · rw [set_anomaly_own K ht]
    rcases guardKep_cases s with ⟨e, he⟩ | he
    · rw [bind_err he]; rfl
    · rw [bind_ok he]
      have h1 := set_kep_only K hw.1 5 v
      have h2 := (set_kep_sh K 5 v s hw).1
      rcases hx : set_kep K 5 v s with ⟨e | u, r⟩
      · rw [bind_err hx]; rw [hx] at h1; exact h1
      · rw [bind_ok hx]; rw [hx] at h1 h2; exact h1.trans (afterKepEl_only K h2.1)
  · rw [set_anomaly_other K ht]
    rcases guardKep_cases s with ⟨e, he⟩ | he
    · rw [bind_err he]; rfl
    · rw [bind_ok he]
      have h1 := setConv_only K hw.1 s.degrees (conv K s.opts s.degrees t s.type) v
      have h2 := (setConv_sh K s.degrees (conv K s.opts s.degrees t s.type) v s hw).1
      rcases hx : setConv K s.degrees (conv K s.opts s.degrees t s.type) v s with ⟨e | u, r⟩
      · rw [bind_err hx]; rw [hx] at h1; exact h1
      · rw [bind_ok hx]; rw [hx] at h1 h2; exact h1.trans (afterKepEl_only K h2.1)

/-! ## One step -/

/-- the mean anomaly of one orbit after the time `dt` -/
def newMean (s : Orb α) (k : Kep α) (m dt : α) : α :=
  K.wrapM s.degrees (K.advance (anomOf K .mean s k) (K.motion s.degrees (K.period k.a (K.mu s.G s.M0 m))) dt)

/-- the mean anomalies after the times `dts` -/
def newMeans (s : Orb α) (dts : List α) : List α :=
  List.zipWith (fun (p : Kep α × α) dt => newMean K s p.1 p.2 dt) (s.kep.zip s.m) dts

theorem bcast_row {β : Type} (f : α → α → β) {xs : List α} {n : Nat} (hx : xs.length = n) {v : Val α} {l : List α} (h : v.Row n l) :
    bcast f xs v = .ok (List.zipWith f xs l) := by
  have hrep : ∀ y, List.zipWith f xs (List.replicate n y) = xs.map fun x => f x y := by
    intro y
    subst hx
    clear h
    induction xs with
    | nil => rfl
    | cons x xs ih => simp [List.replicate_succ, ih]
  match v, h with
  | .sc y, h => rw [show l = _ from h, hrep]; rfl
  | .zd y, h => rw [show l = _ from h, hrep]; rfl
  | .vec ys, .inl ⟨h1, h2⟩ => rw [h2]; simp [bcast, h1, hx]
  | .vec ys, .inr ⟨y, h1, h2⟩ =>
    subst h1
    rw [h2, hrep]
    by_cases h0 : 1 = n
    · subst h0
      obtain ⟨x, rfl⟩ := List.length_eq_one_iff.mp hx
      rfl
    · simp only [bcast, List.length_singleton, hx, h0, if_false]

theorem get_mean_motion_fresh {s : Orb α} (hf : Fresh K s) :
    get_mean_motion K s = (.ok (List.zipWith (fun k m => K.motion s.degrees (K.period k.a (K.mu s.G s.M0 m))) s.kep s.m), s) := by
  simp only [get_mean_motion, get_period, get_kep, bind_assoc', upd_bind, hf.check, self_bind, pure_bind', pure_run]
  rw [List.map_zipWith, List.zipWith_map_left]
  rfl

theorem moved_get (f : Kep α → α → α) (i : Fin 6) (hi : i ≠ 5) (ks : List (Kep α)) (xs : List α) (h : xs.length = ks.length) :
    (List.zipWith (fun (k : Kep α) x => { k with nu := f k x }) ks xs).map (·.get i) = ks.map (·.get i) := by
  induction ks generalizing xs with
  | nil => simp
  | cons k ks ih =>
    match xs, h with
    | x :: xs, h =>
      simp only [List.zipWith_cons_cons, List.map_cons]
      rw [ih xs (by simpa using h)]
      refine congrArg (· :: _) ?_
      fin_cases i <;> first | rfl | exact absurd rfl hi

/-- `propagate` returns for every time step that fits the orbits, in every mode; the elements afterwards.  The Cartesian elements are
calculated in direct mode and marked out of date else. -/
theorem propagate_steps {n : Nat} {s : Orb α} (hw : WFE n s) (hr : s.kro = false) {dt : Val α} {dts : List α} (hdt : dt.Row n dts) :
    ∃ s', propagate K dt s = (.ok (), s') ∧ WFE n s' ∧ OnlyElements s s' ∧ Fresh K s' ∧
      s'.kep = List.zipWith (fun (k : Kep α) x => { k with nu := conv K s.opts s.degrees .mean s.type x k.e }) (kepCheck K s).kep
        (newMeans K (kepCheck K s) dts) ∧
      (s.direct = true → ∃ r, WF n r ∧ s' = recalcCart K (kepOk K r) r) ∧ (s.direct = false → ∀ b ∈ s'.cartCalc, b = false) := by
  obtain ⟨r, h1, h2, h3⟩ := get_mean_anomaly_val K (kepCheck_wfe K s hw) (fresh_kepCheck K s)
  have h1' : get_mean_anomaly K s = (.ok ((kepCheck K s).kep.map (anomOf K .mean (kepCheck K s))), r) := by
    rw [← h1]; exact get_kepCheck K .meanAnomaly rfl s
  have hf : Fresh K r := (fresh_kepCheck K s).core K h2
  have hkep : r.kep = (kepCheck K s).kep := h2.kep
  have hm : r.m = (kepCheck K s).m := h2.m
  have hG : r.G = (kepCheck K s).G := h2.G
  have hM0 : r.M0 = (kepCheck K s).M0 := h2.M0
  have hdeg : r.degrees = (kepCheck K s).degrees := h2.degrees
  have hlk : (kepCheck K s).kep.length = n := (hw.1.kepCheck K).kep
  have hlm : (kepCheck K s).m.length = n := (hw.1.kepCheck K).m
  have hld : dts.length = n := Val.spread_length (spread_of_row hdt)
  have hset := kepCheck_settings K s
  have e1 : r.type = s.type := h2.type.trans hset.1
  have e2 : r.degrees = s.degrees := h2.degrees.trans hset.2.1
  have e3 : r.opts = s.opts := h2.opts.trans hset.2.2.1
  have hkro : r.kro = false := by rw [h2.kro, kepCheck_eq]; exact hr
  -- the new mean anomalies
  have hMs : List.zipWith (fun M (p : α × α) => K.wrapM r.degrees (K.advance M p.1 p.2)) ((kepCheck K s).kep.map (anomOf K .mean (kepCheck K s)))
      (List.zipWith (fun n dt => (n, dt)) (List.zipWith (fun k m => K.motion r.degrees (K.period k.a (K.mu r.G r.M0 m))) r.kep r.m) dts) =
      newMeans K (kepCheck K s) dts := by
    rw [hkep, hm, hG, hM0, hdeg]
    unfold newMeans newMean
    apply List.ext_getElem?
    intro j
    simp only [List.getElem?_zipWith, List.getElem?_map, List.zip, Option.map]
    by_cases hj : j < n
    · rw [List.getElem?_eq_getElem (by omega), List.getElem?_eq_getElem (by omega), List.getElem?_eq_getElem (by omega)]
    · rw [List.getElem?_eq_none (by omega)]
  have hlN : (newMeans K (kepCheck K s) dts).length = n := by simp [newMeans, hlk, hlm, hld]
  obtain ⟨t, ht⟩ := set_anomaly_returns K h3 hkro .mean (v := .vec (newMeans K (kepCheck K s) dts)) (fun _ => ⟨_, .inl ⟨hlN, rfl⟩⟩) fun _ => hlN
  obtain ⟨xs, g1, g2, g3⟩ := set_anomaly_ok K h3 (fun _ => hf) ht
  have hxs : xs = newMeans K (kepCheck K s) dts := row_unique g1 (.inl ⟨hlN, rfl⟩)
  rw [hf.check, hxs, e1, e2, e3, hkep] at g3
  have hwt : WFE n t := by
    have := (set_mean_anomaly_sh K (.vec (newMeans K (kepCheck K s) dts)) r h3).1
    rw [show set_mean_anomaly K (.vec (newMeans K (kepCheck K s) dts)) r = _ from ht] at this
    exact this
  have hot : OnlyElements s t := by
    have := set_anomaly_only K h3 .mean (.vec (newMeans K (kepCheck K s) dts))
    rw [ht] at this
    exact ((OnlyElements.kepCheck K s).trans (.core h2)).trans this
  have hft : Fresh K t := g3.fresh fun j => hf j
  have hrun : propagate K dt s = (do let s ← self; if s.direct then calculate_cartesian K .all else pure () : Py α Unit) t := by
    unfold propagate
    rw [bind_ok h1', bind_ok (get_mean_motion_fresh K hf), self_bind,
      bcast_row _ (by simp [h3.1.kep, h3.1.m]) hdt, liftOk_bind]
    rw [if_pos (by simp [hlk, h3.1.kep, h3.1.m, hld]), hMs, liftOk_bind]
    exact bind_ok ht
  cases hd : t.direct with
  | false =>
    have hds : s.direct = false := by rw [hot] at hd; exact hd
    refine ⟨t, ?_, hwt, hot, hft, g3.kep, fun h => (by rw [hds] at h; cases h), fun _ => ?_⟩
    · rw [hrun, self_bind, hd]; rfl
    · have hdr : r.direct = false := by rw [h2.direct, kepCheck_dir]; exact hds
      rcases set_anomaly_lazy K hdr .mean (.vec (newMeans K (kepCheck K s) dts)) with ⟨e, he⟩ | ⟨e, he⟩ | ⟨ks, he⟩
      · rw [ht] at he; cases he
      · rw [ht] at he; cases he
      · rw [ht] at he
        injection he with _ he
        intro b hb
        rw [he] at hb
        obtain ⟨j, hj⟩ := List.mem_iff_getElem?.mp hb
        exact allFlags_some hj
  | true =>
    refine ⟨recalcCart K (kepOk K t) t, ?_, ?_, hot.trans rfl, fresh_direct K (show lazy t = false from lazy_direct hd), g3.kep,
      fun _ => ⟨t, hwt.1, rfl⟩, fun h => ?_⟩
    · rw [hrun, self_bind, hd, if_pos rfl, calculate_cartesian_direct K hwt.1 (lazy_direct hd)]
    · have := (calculate_cartesian_sh K .all t hwt).1
      rw [calculate_cartesian_direct K hwt.1 (lazy_direct hd)] at this
      exact this
    · rw [hot] at hd
      rw [show s.direct = true from hd] at h; cases h

theorem propagate_ok {n : Nat} {s : Orb α} (hw : WFE n s) (hr : s.kro = false) {dt : Val α} {dts : List α} (hdt : dt.Row n dts) :
    ∃ s', propagate K dt s = (.ok (), s') ∧ WFE n s' ∧ OnlyElements s s' ∧ Fresh K s' ∧
      s'.kep = List.zipWith (fun (k : Kep α) x => { k with nu := conv K s.opts s.degrees .mean s.type x k.e }) (kepCheck K s).kep
        (newMeans K (kepCheck K s) dts) := by
  obtain ⟨s', h1, h2, h3, h4, h5, -⟩ := propagate_steps K hw hr hdt
  exact ⟨s', h1, h2, h3, h4, h5⟩

/-- with the Kepler elements read-only `propagate` raises -/
theorem propagate_kro {n : Nat} {s : Orb α} (hw : WFE n s) (hr : s.kro = true) {dt : Val α} {dts : List α} (hdt : dt.Row n dts) :
    (propagate K dt s).1 = .error .attributeError := by
  obtain ⟨r, h1, h2, h3⟩ := get_mean_anomaly_val K (kepCheck_wfe K s hw) (fresh_kepCheck K s)
  have h1' : get_mean_anomaly K s = (.ok ((kepCheck K s).kep.map (anomOf K .mean (kepCheck K s))), r) := by
    rw [← h1]; exact get_kepCheck K .meanAnomaly rfl s
  have hf : Fresh K r := (fresh_kepCheck K s).core K h2
  have hkro : r.kro = true := by rw [h2.kro, kepCheck_eq]; exact hr
  have hld : dts.length = n := Val.spread_length (spread_of_row hdt)
  unfold propagate
  rw [bind_ok h1', bind_ok (get_mean_motion_fresh K hf), self_bind,
    bcast_row _ (by simp [h3.1.kep, h3.1.m]) hdt, liftOk_bind]
  rw [if_pos (by simp [(hw.1.kepCheck K).kep, h3.1.kep, h3.1.m, hld]), liftOk_bind]
  have : ∀ v, set_mean_anomaly K v r = (.error .attributeError, r) := by
    intro v
    show set_anomaly K .mean v r = _
    by_cases ht : r.type = .mean
    · rw [set_anomaly_own K ht, bind_err (guardKep_run hkro)]
    · rw [set_anomaly_other K ht, bind_err (guardKep_run hkro)]
  rw [bind_err (this _)]

/-- C28, what changes: after `propagate` the masses and all settings are as before, and `orb.a`, `e`, `i`, `omega`, `Omega` read
as before, in every mode.  (The epoch is not advanced either.) -/
theorem c28_only {n : Nat} (s s' : Orb α) (hs : OneEntryPerOrbit s n) (dt : Val α) (dts : List α) (hdt : dt.Row n dts)
    (h : propagate K dt s = (.ok (), s')) :
    OnlyElements s s' ∧ ∀ i : Fin 6, i ≠ 5 → (get_kep K i s').1 = (get_kep K i s).1 := by
  have hr : s.kro = false := by
    by_contra hc
    have := propagate_kro K hs.wfe (by simpa using hc) hdt
    rw [h] at this
    cases this
  obtain ⟨t, h1, h2, h3, h4, h5⟩ := propagate_ok K hs.wfe hr hdt
  rw [h1] at h
  injection h with _ h
  subst h
  refine ⟨h3, fun i hi => ?_⟩
  rw [get_kep_run, get_kep_run, h4.check, h5]
  exact congrArg Except.ok (moved_get (fun (k : Kep α) x => conv K s.opts s.degrees .mean s.type x k.e) i hi _ _
    (by simp [newMeans, (hs.wfe.1.kepCheck K).kep, (hs.wfe.1.kepCheck K).m, Val.spread_length (spread_of_row hdt)]))

/-- The mean anomaly read after `propagate`: the advanced and reduced one, where the conversion to the stored kind of anomaly
and back gives it again -/
theorem c28_mean {n : Nat} (s : Orb α) (hs : OneEntryPerOrbit s n) (hr : s.kro = false) (dt : Val α) (dts : List α) (hdt : dt.Row n dts)
    (hinv : s.type ≠ .mean → ∀ (j : Nat) (k : Kep α) (x : α), (kepCheck K s).kep[j]? = some k → (newMeans K (kepCheck K s) dts)[j]? = some x →
      conv K s.opts s.degrees s.type .mean (conv K s.opts s.degrees .mean s.type x k.e) k.e = x) :
    ∃ s', propagate K dt s = (.ok (), s') ∧ OneEntryPerOrbit s' n ∧ OnlyElements s s' ∧
      (∀ i : Fin 6, i ≠ 5 → (get_kep K i s').1 = (get_kep K i s).1) ∧
      readAnomaly K .mean s' = .ok (newMeans K (kepCheck K s) dts) := by
  obtain ⟨t, h1, h2, h3, h4, h5⟩ := propagate_ok K hs.wfe hr hdt
  have hl : (newMeans K (kepCheck K s) dts).length = (kepCheck K s).kep.length := by
    simp [newMeans, (hs.wfe.1.kepCheck K).kep, (hs.wfe.1.kepCheck K).m, Val.spread_length (spread_of_row hdt)]
  refine ⟨t, h1, h2.one, h3, (c28_only K s t hs dt dts hdt h1).2, ?_⟩
  obtain ⟨r, g1, -, -⟩ := get_anomaly_val K h2 .mean
  rw [readAnomaly_eq, g1, h4.check, h5]
  have e1 : t.type = s.type := by rw [h3]
  have e2 : t.degrees = s.degrees := by rw [h3]
  have e3 : t.opts = s.opts := by rw [h3]
  refine congrArg Except.ok (List.ext_getElem? fun j => ?_)
  simp only [List.getElem?_map, List.getElem?_zipWith]
  cases hk : (kepCheck K s).kep[j]? with
  | none =>
    have := List.getElem?_eq_none_iff.mp hk
    rw [List.getElem?_eq_none (by omega)]
    rfl
  | some k =>
    obtain ⟨hj, -⟩ := List.getElem?_eq_some_iff.mp hk
    have hx : (newMeans K (kepCheck K s) dts)[j]? = some ((newMeans K (kepCheck K s) dts)[j]'(by omega)) := List.getElem?_eq_getElem _
    rw [hx]
    simp only [Option.map]
    refine congrArg some ?_
    rw [anomOf_conv, e1, e2, e3]
    by_cases ht : s.type = .mean
    · rw [ht]; rfl
    · exact hinv ht j k _ hk hx

/-! ## With the functions of the package -/

theorem sqrt_flip {a mu : ℝ} (ha : 0 < a) (hmu : 0 < mu) : 1 / √(a ^ 3 / mu) = √(mu / a ^ 3) := by
  rw [← Real.sqrt_one, ← Real.sqrt_div (by norm_num)]
  congr 1
  field_simp

/-- reducing an angle in the unit of the object to one turn -/
theorem wrapM_fin (g : KGarbage) (deg : Bool) (x : ℝ) : (fxKern g).wrapM deg (fin x) = fin (angleOut deg (turn (angleOf deg x))) := by
  have hpi := Real.pi_pos
  show Np.mod (fin x) (wrapNorm deg) = _
  cases deg
  · simp only [wrapNorm, Bool.false_eq_true, if_false, pi_fin, ofNat_fin, mul_fin]
    rw [mod_fin Real.two_pi_pos.ne', floor_turn]
    rfl
  · simp only [wrapNorm, if_true, ofNat_fin]
    rw [mod_fin (by norm_num), ← floor_turn]
    simp only [angleOf, angleOut, if_true]
    rw [show x * (Real.pi / 180) / (2 * Real.pi) = x / 360 by field_simp; ring]
    congr 1
    field_simp
    ring

/-- the mean motion, as an angle in radians per unit of time -/
theorem motion_fin (g : KGarbage) (deg : Bool) {a mu : ℝ} (ha : 0 < a) (hmu : 0 < mu) :
    (fxKern g).motion deg ((fxKern g).period (fin a) (fin mu)) = fin (angleOut deg √(mu / a ^ 3)) := by
  show motionNorm deg / orbital_period (fin a) (fin mu) = _
  have hs : 0 < √(a ^ 3 / mu) := Real.sqrt_pos.mpr (by positivity)
  have hpi := Real.pi_pos
  have hne : 2 * Real.pi * √(a ^ 3 / mu) ≠ 0 := by positivity
  rw [orbital_period_fin ha hmu, ← sqrt_flip ha hmu]
  cases deg
  · simp only [motionNorm, Bool.false_eq_true, if_false, pi_fin, ofNat_fin, mul_fin, div_fin hne, angleOut]
    congr 1
    field_simp
  · simp only [motionNorm, if_true, ofNat_fin, div_fin hne, angleOut]
    congr 1
    field_simp
    norm_num

/-- the mean anomaly after the time `dt`, both in the unit `deg`: reduced to one turn -/
noncomputable def meanAfter (deg : Bool) (mu a M dt : ℝ) : ℝ := angleOut deg (turn (angleOf deg M + √(mu / a ^ 3) * dt))

theorem newMean_fin (g : KGarbage) {s : Orb FX} {k : Kep FX} {m : FX} {a mu M dt : ℝ} (ha : k.a = fin a) (h0 : 0 < a) (hmu : 0 < mu)
    (hm : (fxKern g).mu s.G s.M0 m = fin mu) (hM : anomOf (fxKern g) .mean s k = fin M) :
    newMean (fxKern g) s k m (fin dt) = fin (meanAfter s.degrees mu a M dt) := by
  unfold newMean
  rw [hM, ha, hm, motion_fin g s.degrees h0 hmu]
  show (fxKern g).wrapM s.degrees (fin M + fin (angleOut s.degrees √(mu / a ^ 3)) * fin dt) = _
  rw [mul_fin, add_fin, wrapM_fin]
  unfold meanAfter
  congr 3
  cases s.degrees <;> simp only [angleOf, angleOut, Bool.false_eq_true, if_false, if_true]
  have := Real.pi_pos
  field_simp

theorem meanAfter_add (deg : Bool) (mu a M d1 d2 : ℝ) : meanAfter deg mu a (meanAfter deg mu a M d1) d2 = meanAfter deg mu a M (d1 + d2) := by
  unfold meanAfter
  rw [angleOf_angleOut]
  obtain ⟨k, hk⟩ := turn_eq (angleOf deg M + √(mu / a ^ 3) * d1)
  refine congrArg _ (turn_congr (-k) ?_)
  rw [hk]
  push_cast
  ring

theorem meanAfter_period (deg : Bool) {mu a : ℝ} (M : ℝ) (ha : 0 < a) (hmu : 0 < mu) (z : ℤ) :
    meanAfter deg mu a M (z * (2 * Real.pi * √(a ^ 3 / mu))) = meanAfter deg mu a M 0 := by
  unfold meanAfter
  refine congrArg _ (turn_congr z ?_)
  have hs : 0 < √(a ^ 3 / mu) := Real.sqrt_pos.mpr (by positivity)
  rw [← sqrt_flip ha hmu]
  field_simp
  ring

theorem meanAfter_zero {deg : Bool} (mu a : ℝ) {M : ℝ} (h0 : 0 ≤ angleOf deg M) (h1 : angleOf deg M < 2 * Real.pi) :
    meanAfter deg mu a M 0 = M := by
  unfold meanAfter
  rw [mul_zero, add_zero, turn_of_mem h0 h1, angleOut_angleOf']

/-- one orbit, as an object with real elements shows it: gravitational parameter, semi-major axis, eccentricity, mean anomaly -/
structure Body where
  mu : ℝ
  a : ℝ
  e : ℝ
  M : ℝ

/-- the orbit after the time `dt` -/
noncomputable def Body.after (deg : Bool) (b : Body) (dt : ℝ) : Body := { b with M := meanAfter deg b.mu b.a b.M dt }

/-- `orb.a`, `orb.e`, `orb.mean_anomaly` and `G (M0 + m)` are those of `bs` -/
structure Shows (g : KGarbage) (s : Orb FX) (bs : List Body) : Prop where
  a : (get_kep (fxKern g) 0 s).1 = .ok (bs.map fun b => fin b.a)
  e : (get_kep (fxKern g) 1 s).1 = .ok (bs.map fun b => fin b.e)
  M : readAnomaly (fxKern g) .mean s = .ok (bs.map fun b => fin b.M)
  mu : (s.m.map fun m => s.G * (s.M0 + m)) = bs.map fun b => fin b.mu

/-- an object of type `t` can store the mean anomaly of `b` without loss: always with type `mean`; else on an ellipse where the
solver of Kepler's equation is exact -/
def Keeps28 (t : Anom) (o : SolverOpts FX) (deg : Bool) (b : Body) : Prop :=
  t = .mean ∨ 0 ≤ b.e ∧ b.e < 1 ∧ SolvedExactly o b.e (angleOf deg b.M)

theorem keeps_inverse (g : KGarbage) {t : Anom} {o : SolverOpts FX} {deg : Bool} {b : Body} (hk : Keeps28 t o deg b)
    (h0 : 0 ≤ angleOf deg b.M) (h1 : angleOf deg b.M < 2 * Real.pi) :
    conv (fxKern g) o deg t .mean (conv (fxKern g) o deg .mean t (fin b.M) (fin b.e)) (fin b.e) = fin b.M := by
  rcases hk with rfl | ⟨he0, he1, hsol⟩
  · rfl
  cases t with
  | mean => rfl
  | tru => exact conv_inverse g o deg .tru .mean he0 he1 h0 h1 fun _ => hsol
  | ecc =>
    obtain ⟨E, hE, hM⟩ := hsol
    simp only [conv]
    rw [fx_mte g deg hE, fx_etm g deg he1, angleOf_angleOut, hM, angleOut_angleOf']

theorem after_mem (deg : Bool) (b : Body) (dt : ℝ) : 0 ≤ angleOf deg (b.after deg dt).M ∧ angleOf deg (b.after deg dt).M < 2 * Real.pi := by
  show 0 ≤ angleOf deg (meanAfter deg b.mu b.a b.M dt) ∧ angleOf deg (meanAfter deg b.mu b.a b.M dt) < 2 * Real.pi
  unfold meanAfter
  rw [angleOf_angleOut]
  exact turn_mem _

theorem map_getElem?_eq {β γ δ : Type} {f : β → δ} {h : γ → δ} {xs : List β} {ys : List γ} (hxy : xs.map f = ys.map h) {j : Nat} {x : β} {y : γ}
    (hx : xs[j]? = some x) (hy : ys[j]? = some y) : f x = h y := by
  have := congrArg (·[j]?) hxy
  simpa [hx, hy] using this

/-- C28, one step: `propagate(dt)` returns, and the mean anomaly read afterwards is `M + n dt` reduced to one turn; `orb.a`, `orb.e`
and everything but the elements stay.  In every mode, for scalar `dt` or one per orbit, of either sign. -/
theorem c28_step_partial (g : KGarbage) {n : Nat} (s : Orb FX) (hs : OneEntryPerOrbit s n) (hr : s.kro = false) (bs : List Body)
    (hb : Shows g s bs) (hpos : ∀ b ∈ bs, 0 < b.a ∧ 0 < b.mu) (dt : Val FX) (dts : List ℝ) (hdt : dt.Row n (dts.map fin))
    (hk : ∀ b ∈ List.zipWith (Body.after s.degrees) bs dts, Keeps28 s.type s.opts s.degrees b) :
    ∃ s', propagate (fxKern g) dt s = (.ok (), s') ∧ OneEntryPerOrbit s' n ∧ OnlyElements s s' ∧
      (∀ i : Fin 6, i ≠ 5 → (get_kep (fxKern g) i s').1 = (get_kep (fxKern g) i s).1) ∧
      Shows g s' (List.zipWith (Body.after s.degrees) bs dts) := by
  have hset := kepCheck_settings (fxKern g) s
  obtain ⟨r, g1, -, -⟩ := get_anomaly_val (fxKern g) hs.wfe .mean
  have qa : (kepCheck (fxKern g) s).kep.map (·.get 0) = bs.map fun b => fin b.a := Except.ok.inj hb.a
  have qe : (kepCheck (fxKern g) s).kep.map (·.get 1) = bs.map fun b => fin b.e := Except.ok.inj hb.e
  have qM : (kepCheck (fxKern g) s).kep.map (anomOf (fxKern g) .mean (kepCheck (fxKern g) s)) = bs.map fun b => fin b.M := by
    have := hb.M
    rw [readAnomaly_eq, g1] at this
    exact Except.ok.inj this
  have qm : (kepCheck (fxKern g) s).m.map ((fxKern g).mu (kepCheck (fxKern g) s).G (kepCheck (fxKern g) s).M0) = bs.map fun b => fin b.mu := by
    rw [kepCheck_eq]; exact hb.mu
  have hlk : (kepCheck (fxKern g) s).kep.length = n := (hs.wfe.1.kepCheck (fxKern g)).kep
  have hlm : (kepCheck (fxKern g) s).m.length = n := (hs.wfe.1.kepCheck (fxKern g)).m
  have hlb : bs.length = n := by simpa [hlk] using (congrArg List.length qa).symm
  have hld : dts.length = n := by simpa using Val.spread_length (spread_of_row hdt)
  have hnew : newMeans (fxKern g) (kepCheck (fxKern g) s) (dts.map fin) =
      (List.zipWith (Body.after s.degrees) bs dts).map fun b => fin b.M := by
    unfold newMeans
    apply List.ext_getElem?
    intro j
    by_cases hj : j < n
    · have hk' := List.getElem?_eq_getElem (l := (kepCheck (fxKern g) s).kep) (i := j) (by omega)
      have hm' := List.getElem?_eq_getElem (l := (kepCheck (fxKern g) s).m) (i := j) (by omega)
      have hb' := List.getElem?_eq_getElem (l := bs) (i := j) (by omega)
      have hd' := List.getElem?_eq_getElem (l := dts) (i := j) (by omega)
      have hp := hpos _ (List.mem_of_getElem? hb')
      simp only [List.getElem?_zipWith, List.getElem?_map, List.zip, hk', hm', hb', hd', Option.map]
      refine congrArg some ?_
      rw [newMean_fin g (map_getElem?_eq qa hk' hb') hp.1 hp.2 (map_getElem?_eq qm hm' hb') (map_getElem?_eq qM hk' hb'), hset.2.1]
      rfl
    · rw [List.getElem?_eq_none (by simp [hlk, hlm, hld]; omega), List.getElem?_eq_none (by simp [hlb, hld]; omega)]
  obtain ⟨s', h1, h2, h3, h4, h5⟩ := c28_mean (fxKern g) s hs hr dt (dts.map fin) hdt (by
    intro ht j k x hkj hxj
    rw [hnew, List.getElem?_map] at hxj
    obtain ⟨b', hb', rfl⟩ := Option.map_eq_some_iff.mp hxj
    obtain ⟨b, d, hbj, -, rfl⟩ := List.getElem?_zipWith_eq_some.mp hb'
    have hke : k.e = fin b.e := map_getElem?_eq qe hkj hbj
    rw [hke]
    exact keeps_inverse g (hk _ (List.mem_of_getElem? hb')) (after_mem _ _ _).1 (after_mem _ _ _).2)
  have hproj : ∀ f : Body → FX, (∀ b d, f (b.after s.degrees d) = f b) →
      (List.zipWith (Body.after s.degrees) bs dts).map f = bs.map f := by
    intro f hf
    rw [List.map_zipWith]
    simp only [hf]
    apply List.ext_getElem?
    intro j
    by_cases hj : j < n
    · rw [List.getElem?_zipWith, List.getElem?_eq_getElem (l := bs) (by omega), List.getElem?_eq_getElem (l := dts) (by omega),
        List.getElem?_map, List.getElem?_eq_getElem (l := bs) (by omega)]
      rfl
    · rw [List.getElem?_eq_none (by simp [hlb, hld]; omega), List.getElem?_eq_none (by simp [hlb]; omega)]
  refine ⟨s', h1, h2, h3, h4, ?_, ?_, ?_, ?_⟩
  · rw [h4 0 (by decide), hb.a, hproj (fun b => fin b.a) fun _ _ => rfl]
  · rw [h4 1 (by decide), hb.e, hproj (fun b => fin b.e) fun _ _ => rfl]
  · rw [h5, hnew]
  · rw [hproj (fun b => fin b.mu) fun _ _ => rfl, ← hb.mu]
    rw [h3]

theorem zipWith_after (deg : Bool) (bs : List Body) (ds es : List ℝ) :
    List.zipWith (Body.after deg) (List.zipWith (Body.after deg) bs ds) es = List.zipWith (Body.after deg) bs (List.zipWith (· + ·) ds es) := by
  induction bs generalizing ds es with
  | nil => simp
  | cons b bs ih =>
    match ds, es with
    | [], _ => simp
    | _ :: _, [] => simp
    | d :: ds, e :: es =>
      simp only [List.zipWith_cons_cons, ih]
      refine congrArg (· :: _) ?_
      show ({ b with M := _ } : Body) = { b with M := _ }
      rw [← meanAfter_add deg b.mu b.a b.M d e]
      rfl

/-- C28, composition: `propagate(dt1); propagate(dt2)` leaves the same mean anomaly, `a` and `e` as `propagate(dt1 + dt2)`, in every
mode.  (Missing for the full claim: with type `true` or `eccentric` the anomaly is stored by way of a solution of Kepler's equation,
which has to be exact where the two ways differ; and hyperbolas.) -/
theorem c28_compose_partial (g : KGarbage) {n : Nat} (s : Orb FX) (hs : OneEntryPerOrbit s n) (hr : s.kro = false) (bs : List Body)
    (hb : Shows g s bs) (hpos : ∀ b ∈ bs, 0 < b.a ∧ 0 < b.mu) (dt1 dt2 dt12 : Val FX) (d1 d2 : List ℝ) (h1 : dt1.Row n (d1.map fin))
    (h2 : dt2.Row n (d2.map fin)) (h12 : dt12.Row n ((List.zipWith (· + ·) d1 d2).map fin))
    (hk1 : ∀ b ∈ List.zipWith (Body.after s.degrees) bs d1, Keeps28 s.type s.opts s.degrees b)
    (hk2 : ∀ b ∈ List.zipWith (Body.after s.degrees) bs (List.zipWith (· + ·) d1 d2), Keeps28 s.type s.opts s.degrees b) :
    ∃ s1 s2 s12, propagate (fxKern g) dt1 s = (.ok (), s1) ∧ propagate (fxKern g) dt2 s1 = (.ok (), s2) ∧
      propagate (fxKern g) dt12 s = (.ok (), s12) ∧ readAnomaly (fxKern g) .mean s2 = readAnomaly (fxKern g) .mean s12 ∧
      (∀ i : Fin 6, i ≠ 5 → (get_kep (fxKern g) i s2).1 = (get_kep (fxKern g) i s12).1) ∧ OnlyElements s12 s2 := by
  obtain ⟨s1, p1, o1, u1, k1, b1⟩ := c28_step_partial g s hs hr bs hb hpos dt1 d1 h1 hk1
  obtain ⟨s12, p12, o12, u12, k12, b12⟩ := c28_step_partial g s hs hr bs hb hpos dt12 _ h12 hk2
  have e1 : s1.degrees = s.degrees := by rw [u1]
  have e2 : s1.type = s.type := by rw [u1]
  have e3 : s1.opts = s.opts := by rw [u1]
  have e4 : s1.kro = false := by rw [u1]; exact hr
  obtain ⟨s2, p2, o2, u2, k2, b2⟩ := c28_step_partial g s1 o1 e4 _ b1 (by
    intro b hbm
    obtain ⟨j, hj⟩ := List.mem_iff_getElem?.mp hbm
    obtain ⟨b', d, hb', -, rfl⟩ := List.getElem?_zipWith_eq_some.mp hj
    exact hpos b' (List.mem_of_getElem? hb')) dt2 d2 h2 (by rw [e1, e2, e3, zipWith_after]; exact hk2)
  refine ⟨s1, s2, s12, p1, p2, p12, ?_, fun i hi => ?_, ?_⟩
  · rw [b2.M, b12.M, e1, zipWith_after]
  · rw [k2 i hi, k1 i hi, k12 i hi]
  · unfold OnlyElements at *
    rw [u2, u1]
    rw [u12]

/-- C58: with type `mean` composition holds for every orbit with positive `a` and `G (M0 + m)`, ellipse or hyperbola, at every mean anomaly,
for all times, in every mode -/
theorem c58 (g : KGarbage) {n : Nat} (s : Orb FX) (hs : OneEntryPerOrbit s n) (hr : s.kro = false) (ht : s.type = .mean) (bs : List Body)
    (hb : Shows g s bs) (hpos : ∀ b ∈ bs, 0 < b.a ∧ 0 < b.mu) (dt1 dt2 dt12 : Val FX) (d1 d2 : List ℝ) (h1 : dt1.Row n (d1.map fin))
    (h2 : dt2.Row n (d2.map fin)) (h12 : dt12.Row n ((List.zipWith (· + ·) d1 d2).map fin)) :
    ∃ s1 s2 s12, propagate (fxKern g) dt1 s = (.ok (), s1) ∧ propagate (fxKern g) dt2 s1 = (.ok (), s2) ∧
      propagate (fxKern g) dt12 s = (.ok (), s12) ∧ (get_kepler (fxKern g) s2).1 = (get_kepler (fxKern g) s12).1 := by
  have hk : ∀ b, Keeps28 s.type s.opts s.degrees b := fun b => .inl ht
  obtain ⟨s1, s2, s12, p1, p2, p12, hM, hrow, ho⟩ := c28_compose_partial g s hs hr bs hb hpos dt1 dt2 dt12 d1 d2 h1 h2 h12 (fun b _ => hk b) fun b _ => hk b
  refine ⟨s1, s2, s12, p1, p2, p12, ?_⟩
  obtain ⟨u12, -⟩ := c28_only (fxKern g) s s12 hs dt12 _ h12 p12
  obtain ⟨t, q, w12, -⟩ := propagate_ok (fxKern g) hs.wfe hr h12
  obtain rfl : t = s12 := by rw [p12] at q; injection q with _ q; exact q.symm
  obtain ⟨t1, q1, w1, v1, -⟩ := propagate_ok (fxKern g) hs.wfe hr h1
  obtain rfl : t1 = s1 := by rw [p1] at q1; injection q1 with _ q1; exact q1.symm
  obtain ⟨t2, q2, w2, v2, -⟩ := propagate_ok (fxKern g) w1 (show t1.kro = false by rw [v1]; exact hr) h2
  obtain rfl : t2 = s2 := by rw [p2] at q2; injection q2 with _ q2; exact q2.symm
  have e12 : t.type = .mean := by rw [u12]; exact ht
  have e2 : t2.type = .mean := by rw [ho]; exact e12
  have hown : ∀ {r : Orb FX}, WFE n r → r.type = .mean → readAnomaly (fxKern g) .mean r = .ok ((kepCheck (fxKern g) r).kep.map (·.get 5)) := by
    intro r hw hr
    obtain ⟨r', hr', -, -⟩ := get_anomaly_val (fxKern g) hw .mean
    rw [readAnomaly_eq, hr']
    refine congrArg Except.ok (List.map_congr_left fun k _ => ?_)
    rw [anomOf_conv, (kepCheck_settings (fxKern g) r).1, hr]
    rfl
  rw [hown w2 e2, hown w12 e12] at hM
  show Except.ok (kepCheck (fxKern g) t2).kep = .ok (kepCheck (fxKern g) t).kep
  have hall : ∀ i : Fin 6, (kepCheck (fxKern g) t2).kep.map (·.get i) = (kepCheck (fxKern g) t).kep.map (·.get i) := by
    intro i
    by_cases hi : i = 5
    · rw [hi]; exact Except.ok.inj hM
    · exact Except.ok.inj (hrow i hi)
  refine congrArg Except.ok (List.ext_getElem? fun j => ?_)
  have hl : (kepCheck (fxKern g) t2).kep.length = (kepCheck (fxKern g) t).kep.length := by simpa using congrArg List.length (hall 0)
  by_cases hj : j < (kepCheck (fxKern g) t).kep.length
  · have g2 := List.getElem?_eq_getElem (l := (kepCheck (fxKern g) t2).kep) (i := j) (by omega)
    have g12 := List.getElem?_eq_getElem (l := (kepCheck (fxKern g) t).kep) hj
    rw [g2, g12]
    have := fun i => map_getElem?_eq (hall i) g2 g12
    have a0 := this 0
    have a1 := this 1
    have a2 := this 2
    have a3 := this 3
    have a4 := this 4
    have a5 := this 5
    revert a0 a1 a2 a3 a4 a5
    generalize (kepCheck (fxKern g) t2).kep[j] = x
    generalize (kepCheck (fxKern g) t).kep[j] = y
    intro a0 a1 a2 a3 a4 a5
    cases x; cases y
    simp only [Kep.get] at a0 a1 a2 a3 a4 a5
    simp_all
  · rw [List.getElem?_eq_none (by omega), List.getElem?_eq_none (by omega)]

/-- what `orb.period` reads -/
theorem shows_period (g : KGarbage) {n : Nat} {s : Orb FX} (hs : OneEntryPerOrbit s n) {bs : List Body} (hb : Shows g s bs)
    (hpos : ∀ b ∈ bs, 0 < b.a ∧ 0 < b.mu) : (get_period (fxKern g) s).1 = .ok (bs.map fun b => fin (2 * Real.pi * √(b.a ^ 3 / b.mu))) := by
  have qa : (kepCheck (fxKern g) s).kep.map (·.get 0) = bs.map fun b => fin b.a := Except.ok.inj hb.a
  have qm : (kepCheck (fxKern g) s).m.map ((fxKern g).mu (kepCheck (fxKern g) s).G (kepCheck (fxKern g) s).M0) = bs.map fun b => fin b.mu := by
    rw [kepCheck_eq]; exact hb.mu
  have h0 : (get_period (fxKern g) s).1 = .ok (List.zipWith (fxKern g).period ((kepCheck (fxKern g) s).kep.map (·.get 0))
      ((kepCheck (fxKern g) s).m.map ((fxKern g).mu (kepCheck (fxKern g) s).G (kepCheck (fxKern g) s).M0))) := by
    have e1 : get_period (fxKern g) s = get_period (fxKern g) (kepCheck (fxKern g) s) := get_kepCheck (fxKern g) .period rfl s
    rw [e1, List.zipWith_map]
    simp only [get_period, get_kep, bind_assoc', upd_bind, (fresh_kepCheck (fxKern g) s).check, self_bind, pure_bind', pure_run]
    rw [List.zipWith_map_left]
  rw [h0, qa, qm, List.zipWith_map, List.zipWith_self]
  refine congrArg Except.ok (List.map_congr_left fun b hbm => ?_)
  exact orbital_period_fin (hpos b hbm).1 (hpos b hbm).2

/-- C28, periodicity: after `propagate(z * orb.period)` for an integer `z` the mean anomaly of every orbit that was within one turn reads
as before, and any other one reduced to one turn, in every mode.  (Missing for the full claim: as for `c28_compose_partial`.  A mean
anomaly outside one turn is not restored, see `c28_false`.) -/
theorem c28_period_partial (g : KGarbage) {n : Nat} (s : Orb FX) (hs : OneEntryPerOrbit s n) (hr : s.kro = false) (bs : List Body)
    (hb : Shows g s bs) (hpos : ∀ b ∈ bs, 0 < b.a ∧ 0 < b.mu) (ps : List ℝ) (hp : (get_period (fxKern g) s).1 = .ok (ps.map fin)) (z : ℤ)
    (dt : Val FX) (hdt : dt.Row n (ps.map fun P => fin (z * P)))
    (hk : ∀ b ∈ bs, Keeps28 s.type s.opts s.degrees (b.after s.degrees 0)) :
    ∃ s', propagate (fxKern g) dt s = (.ok (), s') ∧ Shows g s' (bs.map fun b => b.after s.degrees 0) ∧
      ((∀ b ∈ bs, 0 ≤ angleOf s.degrees b.M ∧ angleOf s.degrees b.M < 2 * Real.pi) →
        readAnomaly (fxKern g) .mean s' = readAnomaly (fxKern g) .mean s) := by
  have hps : ps = bs.map fun b => 2 * Real.pi * √(b.a ^ 3 / b.mu) := by
    have := Except.ok.inj (hp.symm.trans (shows_period g hs hb hpos))
    rw [← Function.comp_def fin, ← List.map_map] at this
    exact List.map_injective_iff.mpr (fun x y h => FX.fin.inj h) this
  have hzip : List.zipWith (Body.after s.degrees) bs (ps.map fun P => z * P) = bs.map fun b => b.after s.degrees 0 := by
    rw [hps, List.map_map, List.zipWith_map_right, List.zipWith_self]
    refine List.map_congr_left fun b hbm => ?_
    show ({ b with M := _ } : Body) = { b with M := _ }
    rw [← meanAfter_period s.degrees b.M (hpos b hbm).1 (hpos b hbm).2 z]
    rfl
  obtain ⟨s', h1, -, -, -, h5⟩ := c28_step_partial g s hs hr bs hb hpos dt (ps.map fun P => z * P) (by rw [List.map_map]; exact hdt)
    (by rw [hzip]; intro b hbm; obtain ⟨b', hb', rfl⟩ := List.mem_map.mp hbm; exact hk b' hb')
  rw [hzip] at h5
  refine ⟨s', h1, h5, fun hin => ?_⟩
  rw [h5.M, hb.M, List.map_map]
  refine congrArg Except.ok (List.map_congr_left fun b hbm => ?_)
  show fin (meanAfter s.degrees b.mu b.a b.M 0) = _
  rw [meanAfter_zero _ _ (hin b hbm).1 (hin b hbm).2]

/-! ## A counterexample and cases of the theorems -/

/-- an object in lazy mode made by the constructor with a type, and given Kepler elements -/
noncomputable def lazyKep (g : KGarbage) (o : SolverOpts FX) (t : Anom) (k : Kep ℝ) : Orb FX :=
  { lazyBlank (fxKern g) 1 1 o t with kep := [k.fx], cartCalc := [false], kepCalc := [true] }

theorem lazyKep_exec (g : KGarbage) (o : SolverOpts FX) (t : Anom) (k : Kep ℝ) :
    exec (fxKern g) (lazyBlank (fxKern g) 1 1 o t) [.setKepler (.mat [k.fx])] = lazyKep g o t k := rfl

theorem lazyKep_one (g : KGarbage) (o : SolverOpts FX) (t : Anom) (k : Kep ℝ) : OneEntryPerOrbit (lazyKep g o t k) 1 :=
  ⟨rfl, rfl, rfl, rfl, ⟨_, rfl, rfl⟩, rfl, rfl, rfl⟩

theorem lazyKep_shows (g : KGarbage) (o : SolverOpts FX) (k : Kep ℝ) : Shows g (lazyKep g o .mean k) [⟨1, k.a, k.e, k.nu⟩] :=
  ⟨rfl, rfl, rfl, congrArg (fun x => [x]) (fx_mu g)⟩

/-- C28 is not true in full: the mean anomaly of a hyperbolic orbit is reduced to one turn as well.  For a flyby with `e = 2` that has not
reached its periapsis, `M = -1`, `propagate(0 * period)` makes it `2 pi - 1`: far outbound. -/
theorem c28_false (g : KGarbage) : ¬ ∀ (s s' : Orb FX) (n : Nat) (ps : List ℝ) (z : ℤ), OneEntryPerOrbit s n →
    (get_period (fxKern g) s).1 = .ok (ps.map fin) → propagate (fxKern g) (.vec (ps.map fun P => fin (z * P))) s = (.ok (), s') →
    readAnomaly (fxKern g) .mean s' = readAnomaly (fxKern g) .mean s := by
  intro h
  have hpi := Real.pi_gt_three
  have hpos : ∀ b ∈ [(⟨1, 1, 2, -1⟩ : Body)], 0 < b.a ∧ 0 < b.mu := by
    intro b hb
    rw [List.mem_singleton.mp hb]
    exact ⟨one_pos, one_pos⟩
  have hp := shows_period g (lazyKep_one g .dflt .mean ⟨1, 2, 0, 0, 0, -1⟩) (lazyKep_shows g .dflt ⟨1, 2, 0, 0, 0, -1⟩) hpos
  obtain ⟨s', h1, h2, -⟩ := c28_period_partial g (lazyKep g .dflt .mean ⟨1, 2, 0, 0, 0, -1⟩) (lazyKep_one _ _ _ _) rfl _
    (lazyKep_shows _ _ _) hpos [2 * Real.pi * √(1 ^ 3 / 1)] hp 0 (.vec ([2 * Real.pi * √(1 ^ 3 / 1)].map fun P => fin (((0 : ℤ) : ℝ) * P)))
    (.inl ⟨rfl, rfl⟩) fun _ _ => .inl rfl
  have h3 := h _ s' 1 _ 0 (lazyKep_one _ _ _ _) hp h1
  rw [h2.M, (lazyKep_shows g .dflt ⟨1, 2, 0, 0, 0, -1⟩).M] at h3
  have h4 := Except.ok.inj h3
  simp only [List.map_cons, List.map_nil, List.cons.injEq, and_true] at h4
  have h5 : meanAfter false 1 1 (-1) 0 = -1 := FX.fin.inj h4
  have h6 := turn_mem (angleOf false (-1) + √(1 / 1 ^ 3) * 0)
  have h7 : turn (angleOf false (-1) + √(1 / 1 ^ 3) * 0) = -1 := h5
  linarith [h6.1]

/-- a case of `c28_compose_partial`: an object of type `mean` on an ellipse, from any point, any two times -/
example (g : KGarbage) (o : SolverOpts FX) (M d1 d2 : ℝ) : ∃ s1 s2 s12,
    propagate (fxKern g) (.sc (fin d1)) (lazyKep g o .mean ⟨2, 1 / 2, 0, 0, 0, M⟩) = (.ok (), s1) ∧
    propagate (fxKern g) (.sc (fin d2)) s1 = (.ok (), s2) ∧
    propagate (fxKern g) (.sc (fin (d1 + d2))) (lazyKep g o .mean ⟨2, 1 / 2, 0, 0, 0, M⟩) = (.ok (), s12) ∧
    readAnomaly (fxKern g) .mean s2 = readAnomaly (fxKern g) .mean s12 := by
  obtain ⟨s1, s2, s12, h1, h2, h3, h4, -⟩ := c28_compose_partial g (lazyKep g o .mean ⟨2, 1 / 2, 0, 0, 0, M⟩) (lazyKep_one _ _ _ _) rfl _
    (lazyKep_shows _ _ _) (by intro b hb; rw [List.mem_singleton.mp hb]; exact ⟨two_pos, one_pos⟩)
    (.sc (fin d1)) (.sc (fin d2)) (.sc (fin (d1 + d2))) [d1] [d2] rfl rfl rfl (fun _ _ => .inl rfl) fun _ _ => .inl rfl
  exact ⟨s1, s2, s12, h1, h2, h3, h4⟩

/-- on a circular orbit every mean anomaly is stored without loss -/
theorem circular_keeps {tol : ℝ} (ht : 0 < tol) (mi : Int) (d : ℝ) (t : Anom) (mu a M : ℝ) :
    Keeps28 t (opts tol mi d) false ⟨mu, a, 0, M⟩ := by
  refine .inr ⟨le_rfl, one_pos, ⟨M, ?_, ?_⟩⟩
  · show meanToEccentricEl (opts tol mi d) (fin M) (fin 0) = _
    rw [meanToEccentricEl_sc _ _ _ _ _ ht, meanToEccentricSc]
    simp
  · show meanOf 0 M = M
    simp [meanOf]

/-- a case of `c28_period_partial`: an object of type `eccentric` on a circle returns to where it was -/
example (g : KGarbage) {tol : ℝ} (ht : 0 < tol) (mi : Int) (d E : ℝ) (h0 : 0 ≤ E) (h1 : E < 2 * Real.pi) (z : ℤ) :
    ∃ (P : ℝ) (s' : Orb FX), (get_period (fxKern g) (lazyKep g (opts tol mi d) .ecc ⟨1, 0, 0, 0, 0, E⟩)).1 = .ok [fin P] ∧
      propagate (fxKern g) (.sc (fin (z * P))) (lazyKep g (opts tol mi d) .ecc ⟨1, 0, 0, 0, 0, E⟩) = (.ok (), s') ∧
      readAnomaly (fxKern g) .mean s' = .ok [fin E] := by
  have hsh : Shows g (lazyKep g (opts tol mi d) .ecc ⟨1, 0, 0, 0, 0, E⟩) [⟨1, 1, 0, E⟩] := by
    refine ⟨rfl, rfl, ?_, congrArg (fun x => [x]) (fx_mu g)⟩
    obtain ⟨r, hr, -, -⟩ := get_anomaly_val (fxKern g) (lazyKep_one g (opts tol mi d) .ecc ⟨1, 0, 0, 0, 0, E⟩).wfe .mean
    rw [readAnomaly_eq, hr]
    show Except.ok [anomOf (fxKern g) .mean (lazyKep g (opts tol mi d) .ecc ⟨1, 0, 0, 0, 0, E⟩) (⟨1, 0, 0, 0, 0, E⟩ : Kep ℝ).fx] = _
    rw [anomOf_conv]
    show Except.ok [(fxKern g).eccToMean false false (fin E) (fin 0)] = _
    rw [fx_etm g false one_pos]
    simp [meanOf, angleOf, angleOut]
  have hpos : ∀ b ∈ [(⟨1, 1, 0, E⟩ : Body)], 0 < b.a ∧ 0 < b.mu := by
    intro b hb
    rw [List.mem_singleton.mp hb]
    exact ⟨one_pos, one_pos⟩
  have hp := shows_period g (lazyKep_one _ _ _ _) hsh hpos
  obtain ⟨s', g1, -, g3⟩ := c28_period_partial g _ (lazyKep_one _ _ _ _) rfl _ hsh hpos [2 * Real.pi * √(1 ^ 3 / 1)] hp z
    (.sc (fin (z * (2 * Real.pi * √(1 ^ 3 / 1))))) rfl (by
      intro b hb
      rw [List.mem_singleton.mp hb]
      exact circular_keeps ht mi d .ecc 1 1 _)
  refine ⟨_, s', hp, g1, (g3 ?_).trans hsh.M⟩
  intro b hb
  rw [List.mem_singleton.mp hb]
  exact ⟨h0, h1⟩

end Orbit
end Pyorb
