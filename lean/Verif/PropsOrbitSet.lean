import Verif.PropsOrbitType
import Verif.PropsNewton

/-!
# Reading back an assigned element (C32)

What a query returns right after the assignment of that same element.  Whole sets (`kepler`, `cartesian`, `r`, `v`) are read
back in every mode.  Single rows and the anomaly of the object's own kind are read back in direct mode, in manual mode, and
in lazy mode if nothing waits to be recalculated on that side; otherwise the assigned row is overwritten by the read
(`c32_false`).  Anomalies of another kind are read back where the two conversions are inverse to each other.
-/

set_option linter.unusedSimpArgs false
set_option linter.unusedVariables false

namespace Pyorb
namespace Orbit
open Py FX
variable {α : Type} (K : Kern α)

/-! ## The assignments -/

theorem cols_of_setter {C : Type} {const : α → C} {col : List α → Option C} {n : Nat} {v : Val6 α C} {l : List C}
    (h : v.setter const col n = .ok l) : v.Cols const col id n l := by
  match v, h with
  | .vec true [x], h => cases h; exact .inl ⟨x, rfl, rfl⟩
  | .vec true [], h =>
    cases hc : col [] with
    | none => simp only [Val6.setter, hc] at h; cases h
    | some c => simp only [Val6.setter, hc] at h; cases h; exact .inr (.inl ⟨rfl, c, hc, rfl⟩)
  | .vec true (x :: y :: xs), h =>
    cases hc : col (x :: y :: xs) with
    | none => simp only [Val6.setter, hc] at h; cases h
    | some c => simp only [Val6.setter, hc] at h; cases h; exact .inr (.inl ⟨rfl, c, hc, rfl⟩)
  | .vec false xs, h => exact cols_of_spread (col := col) (v := .vec false xs) h
  | .sc x, h => exact cols_of_spread (col := col) (v := .sc x) h
  | .mat cs, h => exact cols_of_spread (col := col) (v := .mat cs) h

/-! ## After an assignment -/

/-- reading the Cartesian side changes nothing -/
def CartFresh (s : Orb α) : Prop := lazy s = true → ∀ j, doCart K (fun j => !s.cartCalc.getD j true) s j = false

theorem CartFresh.check {s : Orb α} (h : CartFresh K s) : cartCheck K s = s := by
  cases hl : lazy s with
  | false => exact cartCheck_direct K hl
  | true =>
    have hl' : (s.auto && !s.direct) = true := hl
    have ha : anyDo s.kep.length (doCart K (fun j => !s.cartCalc.getD j true) s) = false := by
      by_contra hc
      simp only [Bool.not_eq_false, anyDo, List.any_eq_true] at hc
      obtain ⟨j, _, hj⟩ := hc
      rw [h hl j] at hj; cases hj
    unfold cartCheck calcCart
    rw [if_pos hl']
    simp only [ha]
    rfl

theorem upToDate_cartFresh {s : Orb α} (h : CartUpToDate K s) : CartFresh K s := by
  intro _ j
  rw [doCart_eq]
  by_cases hj : j < s.kep.length
  · cases hf : s.cartCalc[j]? with
    | none => simp [List.getD_eq_getElem?_getD, hf]
    | some b =>
      cases b with
      | true => simp [List.getD_eq_getElem?_getD, hf]
      | false =>
        have := h j s.kep[j] (List.getElem?_eq_getElem hj) hf
        simp [kepOk, kepAt, List.getD_eq_getElem?_getD, hj, this]
  · simp [kepOk, hj]

/-- what the end of a Kepler setter leaves alone -/
structure KepKept (s t : Orb α) : Prop where
  kep : t.kep = s.kep
  type : t.type = s.type
  degrees : t.degrees = s.degrees
  opts : t.opts = s.opts
  fresh : Fresh K s → Fresh K t

theorem KepKept.trans {s t r : Orb α} (h : KepKept K s t) (h' : KepKept K t r) : KepKept K s r :=
  ⟨h'.kep.trans h.kep, h'.type.trans h.type, h'.degrees.trans h.degrees, h'.opts.trans h.opts, fun f => h'.fresh (h.fresh f)⟩

theorem afterKepEl_ok {n : Nat} {s : Orb α} (hw : WF n s) : ∃ t, afterKepEl K s = (.ok (), t) ∧ KepKept K s t := by
  cases hd : s.direct with
  | false =>
    exact ⟨_, afterKepEl_lazy K hd, rfl, rfl, rfl, rfl, fun h => h⟩
  | true =>
    have hl := lazy_direct hd
    refine ⟨recalcCart K (kepOk K s) s, ?_, rfl, rfl, rfl, rfl, fun _ => fresh_direct K hl⟩
    rw [← calculate_cartesian_direct K hw hl]
    simp only [afterKepEl, self_bind, hd, if_true]

theorem afterKep_ok {n : Nat} {s : Orb α} (hw : WF n s) : ∃ t, afterKep K s = (.ok (), t) ∧ t.kep = s.kep ∧ Fresh K t := by
  cases hd : s.direct with
  | false =>
    refine ⟨_, afterKep_lazy K hd, rfl, fun j => ?_⟩
    have : stale (allFlags s.kepCalc true) j = false := by
      by_cases hj : j < s.kepCalc.length <;> simp [stale, allFlags, List.getD_eq_getElem?_getD, hj]
    simp [checkSet, this]
  | true =>
    have hl := lazy_direct hd
    refine ⟨recalcCart K (kepOk K s) s, ?_, rfl, fresh_direct K hl⟩
    rw [← calculate_cartesian_direct K hw hl]
    simp only [afterKep, self_bind, hd, if_true]

theorem afterCartEl_ok {n : Nat} {s : Orb α} (hw : WF n s) :
    ∃ t, afterCartEl K s = (.ok (), t) ∧ t.cart = s.cart ∧ (CartFresh K s → CartFresh K t) := by
  cases hd : s.direct with
  | false => exact ⟨_, afterCartEl_lazy K hd, rfl, fun h => h⟩
  | true =>
    have hl := lazy_direct hd
    refine ⟨recalcKep K (cartOk K s) s, ?_, rfl, fun _ h => ?_⟩
    · rw [← calculate_kepler_direct K hw hl]
      simp only [afterCartEl, self_bind, hd, if_true]
    · have : lazy (recalcKep K (cartOk K s) s) = lazy s := rfl
      rw [this, hl] at h; cases h

theorem afterCart_ok {n : Nat} {s : Orb α} (hw : WF n s) : ∃ t, afterCart K s = (.ok (), t) ∧ t.cart = s.cart ∧ CartFresh K t := by
  cases hd : s.direct with
  | false =>
    refine ⟨_, afterCart_lazy K hd, rfl, fun _ j => ?_⟩
    rw [doCart_eq]
    by_cases hj : j < s.cartCalc.length <;> simp [allFlags, List.getD_eq_getElem?_getD, hj]
  | true =>
    have hl := lazy_direct hd
    refine ⟨recalcKep K (cartOk K s) s, ?_, rfl, fun h => ?_⟩
    · rw [← calculate_kepler_direct K hw hl]
      simp only [afterCart, self_bind, hd, if_true]
    · have : lazy (recalcKep K (cartOk K s) s) = lazy s := rfl
      rw [this, hl] at h; cases h

theorem guardKep_of {s : Orb α} (h : s.kro = false) : (guardKep : Py α Unit) s = (.ok (), s) := by
  simp [guardKep, h]
theorem guardCart_of {s : Orb α} (h : s.cro = false) : (guardCart : Py α Unit) s = (.ok (), s) := by
  simp [guardCart, h]

theorem set_kep_ok {n : Nat} {s s' : Orb α} (hw : WF n s) {i : Fin 6} {v : Val α} (h : set_kep K i v s = (.ok (), s')) :
    ∃ vs, v.spread n = .ok vs ∧ KepKept K ({ s with kep := List.zipWith (fun k x => k.set i x) s.kep vs } : Orb α) s' := by
  unfold set_kep at h
  rcases guardKep_cases s with ⟨e, he⟩ | he
  · rw [bind_err he] at h; cases h
  · rw [bind_ok he, self_bind, lift_bind, hw.kep] at h
    cases hv : v.spread n with
    | error e => rw [hv] at h; cases h
    | ok vs =>
      rw [hv] at h
      have hw' : WF n ({ s with kep := List.zipWith (fun k x => k.set i x) s.kep vs } : Orb α) :=
        ⟨hw.m, hw.cart, by simp [hw.kep, Val.spread_length hv], hw.tA, hw.mA, hw.cartCalc, hw.kepCalc⟩
      obtain ⟨t, h1, h2⟩ := afterKepEl_ok K hw'
      have h3 : afterKepEl K ({ s with kep := List.zipWith (fun k x => k.set i x) s.kep vs } : Orb α) = (.ok (), s') := h
      rw [h1] at h3
      injection h3 with _ h3
      subst h3
      exact ⟨vs, rfl, h2⟩

theorem get_set (k : Kep α) (i : Fin 6) (x : α) : (k.set i x).get i = x := by
  match i with | 0 | 1 | 2 | 3 | 4 | 5 => rfl
theorem get_set_cart (c : Cart α) (i : Fin 6) (x : α) : (c.set i x).get i = x := by
  match i with | 0 | 1 | 2 | 3 | 4 | 5 => rfl

theorem zipWith_right {β γ : Type} {l : List β} {r : List γ} (h : r.length ≤ l.length) : List.zipWith (fun _ x => x) l r = r := by
  induction r generalizing l with
  | nil => simp
  | cons x r ih =>
    cases l with
    | nil => simp at h
    | cons y l => simp [ih (by simpa using h)]

/-! ## Kepler rows -/

/-- C32, a single Kepler row: in direct and in manual mode always, in lazy mode if no Kepler elements wait to be recalculated.
(Without that condition the claim is false, `c32_false`.) -/
theorem c32_kep_partial {n : Nat} (s s' : Orb α) (hs : OneEntryPerOrbit s n) (i : Fin 6) (v : Val α)
    (hup : s.auto = true → s.direct = false → KepUpToDate K s) (h : set_kep K i v s = (.ok (), s')) :
    ∃ l, (get_kep K i s').1 = .ok l ∧ v.Row n l := by
  obtain ⟨vs, h1, h2⟩ := set_kep_ok K hs.wfe.1 h
  have hf : Fresh K s := by
    cases hl : lazy s with
    | false => exact fresh_direct K hl
    | true =>
      have := lazy_iff.mp hl
      exact upToDate_fresh K hs.wfe.1 (hup this.1 this.2)
  have hf' : Fresh K s' := h2.fresh fun j => hf j
  refine ⟨vs, ?_, row_of_spread h1⟩
  rw [get_kep_run, hf'.check, h2.kep]
  refine congrArg Except.ok ?_
  rw [List.map_zipWith]
  simp only [get_set]
  exact zipWith_right (by rw [Val.spread_length h1, hs.kepler])

/-- C32, the whole Kepler set, in every mode -/
theorem c32_kepler {n : Nat} (s s' : Orb α) (hs : OneEntryPerOrbit s n) (v : Val6 α (Kep α)) (h : set_kepler K v s = (.ok (), s')) :
    ∃ l, (get_kepler K s').1 = .ok l ∧ v.Fills Kep.get id n l := by
  unfold set_kepler at h
  have hw := hs.wfe.1
  rcases guardKep_cases s with ⟨e, he⟩ | he
  · rw [bind_err he] at h; cases h
  · rw [bind_ok he, self_bind, lift_bind, hw.kep] at h
    cases hv : v.setter Kep.const Kep.ofList n with
    | error e => rw [hv] at h; cases h
    | ok vs =>
      rw [hv] at h
      have hw' : WF n ({ s with kep := vs } : Orb α) := ⟨hw.m, hw.cart, Val6.setter_length hv, hw.tA, hw.mA, hw.cartCalc, hw.kepCalc⟩
      obtain ⟨t, h1, h2, h3⟩ := afterKep_ok K hw'
      have h4 : afterKep K ({ s with kep := vs } : Orb α) = (.ok (), s') := h
      rw [h1] at h4
      injection h4 with _ h4
      subst h4
      refine ⟨vs, ?_, fills_of_cols kep_columned (cols_of_setter hv)⟩
      rw [get_kepler_run, h3.check, h2]

/-! ## Cartesian rows -/

/-- C32, a single Cartesian row: in direct and in manual mode always, in lazy mode if no Cartesian elements wait to be
recalculated -/
theorem c32_cart_partial {n : Nat} (s s' : Orb α) (hs : OneEntryPerOrbit s n) (i : Fin 6) (v : Val α)
    (hup : s.auto = true → s.direct = false → CartUpToDate K s) (h : set_cart K i v s = (.ok (), s')) :
    ∃ l, (get_cart K i s').1 = .ok l ∧ v.Row n l := by
  unfold set_cart at h
  have hw := hs.wfe.1
  rcases guardCart_cases s with ⟨e, he⟩ | he
  · rw [bind_err he] at h; cases h
  · rw [bind_ok he, self_bind, lift_bind, hw.cart] at h
    cases hv : v.spread n with
    | error e => rw [hv] at h; cases h
    | ok vs =>
      rw [hv] at h
      have hw' : WF n ({ s with cart := List.zipWith (fun c x => c.set i x) s.cart vs } : Orb α) :=
        ⟨hw.m, by simp [hw.cart, Val.spread_length hv], hw.kep, hw.tA, hw.mA, hw.cartCalc, hw.kepCalc⟩
      obtain ⟨t, h1, h2, h3⟩ := afterCartEl_ok K hw'
      have h4 : afterCartEl K ({ s with cart := List.zipWith (fun c x => c.set i x) s.cart vs } : Orb α) = (.ok (), s') := h
      rw [h1] at h4
      injection h4 with _ h4
      subst h4
      have hf : CartFresh K t := h3 fun hl j => upToDate_cartFresh K (hup (lazy_iff.mp hl).1 (lazy_iff.mp hl).2) hl j
      refine ⟨vs, ?_, row_of_spread hv⟩
      show Except.ok ((cartCheck K t).cart.map (·.get i)) = _
      rw [hf.check, h2]
      refine congrArg Except.ok ?_
      rw [List.map_zipWith]
      simp only [get_set_cart]
      exact zipWith_right (by rw [Val.spread_length hv, hw.cart])

/-- C32, the whole Cartesian set, in every mode -/
theorem c32_cartesian {n : Nat} (s s' : Orb α) (hs : OneEntryPerOrbit s n) (v : Val6 α (Cart α)) (h : set_cartesian K v s = (.ok (), s')) :
    ∃ l, (get_cartesian K s').1 = .ok l ∧ v.Fills Cart.get id n l := by
  unfold set_cartesian at h
  have hw := hs.wfe.1
  rcases guardCart_cases s with ⟨e, he⟩ | he
  · rw [bind_err he] at h; cases h
  · rw [bind_ok he, self_bind, lift_bind, hw.cart] at h
    cases hv : v.setter Cart.const Cart.ofList n with
    | error e => rw [hv] at h; cases h
    | ok vs =>
      rw [hv] at h
      have hw' : WF n ({ s with cart := vs } : Orb α) := ⟨hw.m, Val6.setter_length hv, hw.kep, hw.tA, hw.mA, hw.cartCalc, hw.kepCalc⟩
      obtain ⟨t, h1, h2, h3⟩ := afterCart_ok K hw'
      have h4 : afterCart K ({ s with cart := vs } : Orb α) = (.ok (), s') := h
      rw [h1] at h4
      injection h4 with _ h4
      subst h4
      refine ⟨vs, ?_, fills_of_cols cart_columned (cols_of_setter hv)⟩
      rw [get_cartesian_run, h3.check, h2]

/-- a 1-d value assigned to `r` or `v` is a row -/
def triRow (v : Val6 α (Tri α)) (n : Nat) (l : List (Tri α)) : Prop :=
  v.Cols (fun x => ⟨x, x, x⟩) (fun _ => none) (fun _ => false) n l

/-- C32, the position, in every mode -/
theorem c32_r {n : Nat} (s s' : Orb α) (hs : OneEntryPerOrbit s n) (v : Val6 α (Tri α)) (h : set_r K v s = (.ok (), s')) :
    ∃ l, (get_r K s').1 = .ok l ∧ triRow v n l := by
  unfold set_r at h
  have hw := hs.wfe.1
  rcases guardCart_cases s with ⟨e, he⟩ | he
  · rw [bind_err he] at h; cases h
  · rw [bind_ok he, self_bind, lift_bind, hw.cart] at h
    cases hv : v.spread (fun x => (⟨x, x, x⟩ : Tri α)) n with
    | error e => rw [hv] at h; cases h
    | ok vs =>
      rw [hv] at h
      have hw' : WF n ({ s with cart := List.zipWith Cart.setR s.cart vs } : Orb α) :=
        ⟨hw.m, by simp [hw.cart, Val6.spread_length hv], hw.kep, hw.tA, hw.mA, hw.cartCalc, hw.kepCalc⟩
      obtain ⟨t, h1, h2, h3⟩ := afterCart_ok K hw'
      have h4 : afterCart K ({ s with cart := List.zipWith Cart.setR s.cart vs } : Orb α) = (.ok (), s') := h
      rw [h1] at h4
      injection h4 with _ h4
      subst h4
      refine ⟨vs, ?_, cols_of_spread (col := fun _ => none) hv⟩
      show Except.ok ((cartCheck K t).cart.map Cart.getR) = _
      rw [h3.check, h2]
      refine congrArg Except.ok ?_
      rw [List.map_zipWith]
      exact zipWith_right (l := s.cart) (by rw [Val6.spread_length hv, hw.cart])

/-- C32, the velocity vector, in every mode -/
theorem c32_v {n : Nat} (s s' : Orb α) (hs : OneEntryPerOrbit s n) (v : Val6 α (Tri α)) (h : set_v K v s = (.ok (), s')) :
    ∃ l, (get_v K s').1 = .ok l ∧ triRow v n l := by
  unfold set_v at h
  have hw := hs.wfe.1
  rcases guardCart_cases s with ⟨e, he⟩ | he
  · rw [bind_err he] at h; cases h
  · rw [bind_ok he, self_bind, lift_bind, hw.cart] at h
    cases hv : v.spread (fun x => (⟨x, x, x⟩ : Tri α)) n with
    | error e => rw [hv] at h; cases h
    | ok vs =>
      rw [hv] at h
      have hw' : WF n ({ s with cart := List.zipWith Cart.setV s.cart vs } : Orb α) :=
        ⟨hw.m, by simp [hw.cart, Val6.spread_length hv], hw.kep, hw.tA, hw.mA, hw.cartCalc, hw.kepCalc⟩
      obtain ⟨t, h1, h2, h3⟩ := afterCart_ok K hw'
      have h4 : afterCart K ({ s with cart := List.zipWith Cart.setV s.cart vs } : Orb α) = (.ok (), s') := h
      rw [h1] at h4
      injection h4 with _ h4
      subst h4
      refine ⟨vs, ?_, cols_of_spread (col := fun _ => none) hv⟩
      show Except.ok ((cartCheck K t).cart.map Cart.getV) = _
      rw [h3.check, h2]
      refine congrArg Except.ok ?_
      rw [List.map_zipWith]
      exact zipWith_right (l := s.cart) (by rw [Val6.spread_length hv, hw.cart])

/-! ## Anomalies -/

/-- the anomaly conversions of the package, by the kinds they convert from and to -/
def conv (o : SolverOpts α) (deg : Bool) : Anom → Anom → α → α → α
  | .tru, .ecc => K.trueToEcc false deg
  | .tru, .mean => K.trueToMean false deg
  | .ecc, .tru => K.eccToTrue false deg
  | .ecc, .mean => K.eccToMean false deg
  | .mean, .tru => K.meanToTrue o false deg
  | .mean, .ecc => K.meanToEcc o false deg
  | .tru, .tru | .ecc, .ecc | .mean, .mean => fun x _ => x

theorem anomOf_conv (t : Anom) (s : Orb α) (k : Kep α) : anomOf K t s k = conv K s.opts s.degrees s.type t k.nu k.e := by
  unfold anomOf trueFn meanFn eccFn
  cases t <;> cases s.type <;> rfl

theorem convVal_ok {deg : Bool} {f : α → α → α} {v : Val α} {es vs : List α} (h : convVal deg f v es = .ok vs) :
    ∃ xs, v.Row es.length xs ∧ xs.length = es.length ∧ vs = List.zipWith f xs es := by
  cases v with
  | sc x =>
    refine ⟨_, rfl, by simp, ?_⟩
    cases h
    induction es with
    | nil => rfl
    | cons e es ih => simp [List.replicate_succ, ih]
  | zd x =>
    cases deg with
    | false => cases h
    | true =>
      refine ⟨_, rfl, by simp, ?_⟩
      cases h
      induction es with
      | nil => rfl
      | cons e es ih => simp [List.replicate_succ, ih]
  | vec xs =>
    by_cases hx : xs.length = es.length
    · simp only [convVal, hx, if_true] at h
      cases h
      exact ⟨xs, .inl ⟨hx, rfl⟩, hx, rfl⟩
    · simp only [convVal, hx, if_false] at h; cases h

theorem set_anomaly_own {s : Orb α} {t : Anom} (ht : s.type = t) (v : Val α) :
    set_anomaly K t v s = (do guardKep; set_kep K 5 v; afterKepEl K : Py α Unit) s := by
  unfold set_anomaly set_true_anomaly set_eccentric_anomaly set_mean_anomaly
  rcases guardKep_cases s with ⟨e, he⟩ | he
  · cases t <;> simp only <;> rw [bind_err he, bind_err he]
  · cases t <;> simp only <;> rw [bind_ok he, bind_ok he, self_bind, ht]

theorem set_anomaly_other {s : Orb α} {t : Anom} (ht : s.type ≠ t) (v : Val α) :
    set_anomaly K t v s = (do guardKep; setConv K s.degrees (conv K s.opts s.degrees t s.type) v; afterKepEl K : Py α Unit) s := by
  unfold set_anomaly set_true_anomaly set_eccentric_anomaly set_mean_anomaly
  rcases guardKep_cases s with ⟨e, he⟩ | he
  · cases t <;> simp only <;> rw [bind_err he, bind_err he]
  · cases t <;> simp only <;> rw [bind_ok he, bind_ok he, self_bind] <;> cases h : s.type <;> first | exact absurd h ht | rfl

theorem setConv_ok {n : Nat} {s s' : Orb α} (hw : WFE n s) {deg : Bool} {f : α → α → α} {v : Val α}
    (h : setConv K deg f v s = (.ok (), s')) :
    ∃ xs, v.Row n xs ∧ xs.length = n ∧ KepKept K ({ kepCheck K s with
      kep := List.zipWith (fun (k : Kep α) x => { k with nu := f x k.e }) (kepCheck K s).kep xs } : Orb α) s' := by
  unfold setConv at h
  rw [bind_ok (get_kep_run K 1 s), lift_bind] at h
  have hw' : WFE n (kepCheck K s) := kepCheck_wfe K s hw
  have hlen : ((kepCheck K s).kep.map (·.get 1)).length = n := by simp [hw'.1.kep]
  cases hv : convVal deg f v ((kepCheck K s).kep.map (·.get 1)) with
  | error e => rw [hv] at h; cases h
  | ok vs =>
    rw [hv] at h
    obtain ⟨xs, h1, h2, h3⟩ := convVal_ok hv
    rw [hlen] at h1 h2
    obtain ⟨vs', h4, h5⟩ := set_kep_ok K hw'.1 (show set_kep K 5 (.vec vs) (kepCheck K s) = _ from h)
    have h6 : vs.length = n := by rw [h3]; simp [hw'.1.kep, h2]
    rw [spread_vec h6] at h4
    cases h4
    refine ⟨xs, h1, h2, ?_⟩
    have h7 : List.zipWith (fun k x => k.set 5 x) (kepCheck K s).kep vs =
        List.zipWith (fun (k : Kep α) x => { k with nu := f x k.e }) (kepCheck K s).kep xs := by
      rw [h3]
      have : ∀ (ks : List (Kep α)) (xs : List α), List.zipWith (fun k x => k.set 5 x) ks (List.zipWith f xs (ks.map (·.get 1))) =
          List.zipWith (fun (k : Kep α) x => { k with nu := f x k.e }) ks xs := by
        intro ks
        induction ks with
        | nil => intro xs; simp
        | cons k ks ih =>
          intro xs
          cases xs with
          | nil => simp
          | cons x xs => simp only [List.map_cons, List.zipWith_cons_cons, ih]; rfl
      exact this _ _
    rw [h7] at h5
    exact h5

/-- the elements stored by an anomaly setter -/
theorem set_anomaly_ok {n : Nat} {s s' : Orb α} (hw : WFE n s) {t : Anom} {v : Val α} (hup : s.type = t → Fresh K s)
    (h : set_anomaly K t v s = (.ok (), s')) :
    ∃ xs, v.Row n xs ∧ xs.length = n ∧ KepKept K ({ kepCheck K s with
      kep := List.zipWith (fun (k : Kep α) x => { k with nu := conv K s.opts s.degrees t s.type x k.e }) (kepCheck K s).kep xs } : Orb α) s' := by
  by_cases ht : s.type = t
  · rw [set_anomaly_own K ht] at h
    have hc := (hup ht).check
    rcases guardKep_cases s with ⟨e, he⟩ | he
    · rw [bind_err he] at h; cases h
    · rw [bind_ok he] at h
      rcases hx : set_kep K 5 v s with ⟨e | u, r⟩
      · rw [bind_err hx] at h; cases h
      · rw [bind_ok hx] at h
        have hr : WFE n r := by
          have := (set_kep_sh K 5 v s hw).1
          rw [hx] at this; exact this
        obtain ⟨vs, h1, h2⟩ := set_kep_ok K hw.1 hx
        obtain ⟨r', h3, h4⟩ := afterKepEl_ok K hr.1
        rw [h3] at h
        injection h with _ h
        subst h
        refine ⟨vs, row_of_spread h1, Val.spread_length h1, ?_⟩
        rw [hc, ht]
        have hcv : conv K s.opts s.degrees t t = fun x _ => x := by cases t <;> rfl
        rw [hcv]
        exact h2.trans K h4
  · rw [set_anomaly_other K ht] at h
    rcases guardKep_cases s with ⟨e, he⟩ | he
    · rw [bind_err he] at h; cases h
    · rw [bind_ok he] at h
      rcases hx : setConv K s.degrees (conv K s.opts s.degrees t s.type) v s with ⟨e | u, r⟩
      · rw [bind_err hx] at h; cases h
      · rw [bind_ok hx] at h
        have hr : WFE n r := by
          have := (setConv_sh K s.degrees (conv K s.opts s.degrees t s.type) v s hw).1
          rw [hx] at this; exact this
        obtain ⟨xs, h0, h1, h2⟩ := setConv_ok K hw hx
        obtain ⟨r', h3, h4⟩ := afterKepEl_ok K hr.1
        rw [h3] at h
        injection h with _ h
        subst h
        exact ⟨xs, h0, h1, h2.trans K h4⟩

/-- C32, anomalies: an anomaly of the object's own kind is read back in direct and manual mode, and in lazy mode if no Kepler
elements wait to be recalculated; an anomaly of another kind is read back, in every mode, where the conversion to the
object's kind is undone by the conversion back. -/
theorem c32_anomaly_partial {n : Nat} (s s' : Orb α) (hs : OneEntryPerOrbit s n) (t : Anom) (v : Val α) (es : List α)
    (hup : s.type = t → s.auto = true → s.direct = false → KepUpToDate K s) (hes : (get_kep K 1 s).1 = .ok es)
    (hinv : s.type ≠ t → ∀ (l : List α) (j : Nat) (x e : α), v.Row n l → l[j]? = some x → es[j]? = some e →
      conv K s.opts s.degrees s.type t (conv K s.opts s.degrees t s.type x e) e = x)
    (h : set_anomaly K t v s = (.ok (), s')) :
    ∃ l, readAnomaly K t s' = .ok l ∧ v.Row n l := by
  have hup' : s.type = t → Fresh K s := by
    intro ht
    cases hl : lazy s with
    | false => exact fresh_direct K hl
    | true => exact upToDate_fresh K hs.wfe.1 (hup ht (lazy_iff.mp hl).1 (lazy_iff.mp hl).2)
  obtain ⟨xs, h1, h2, h3⟩ := set_anomaly_ok K hs.wfe hup' h
  have hw' : WFE n s' := by
    have : WFE n (set_anomaly K t v s).2 := by
      cases t
      · exact (set_true_anomaly_sh K v s hs.wfe).1
      · exact (set_eccentric_anomaly_sh K v s hs.wfe).1
      · exact (set_mean_anomaly_sh K v s hs.wfe).1
    rw [h] at this; exact this
  have hf : Fresh K s' := h3.fresh fun j => fresh_kepCheck K s j
  refine ⟨xs, ?_, h1⟩
  obtain ⟨_, e1, _⟩ := get_anomaly_val K hw' t
  rw [readAnomaly_eq, e1, hf.check, h3.kep]
  refine congrArg Except.ok ?_
  have hset := kepCheck_settings K s
  have e2 : s'.type = s.type := h3.type.trans hset.1
  have e3 : s'.degrees = s.degrees := h3.degrees.trans hset.2.1
  have e4 : s'.opts = s.opts := h3.opts.trans hset.2.2.1
  have hes' : es = (kepCheck K s).kep.map Kep.e := (Except.ok.inj hes).symm
  refine List.ext_getElem? fun j => ?_
  rw [List.getElem?_map, List.getElem?_zipWith]
  by_cases hj : j < n
  · have hk : (kepCheck K s).kep.length = n := (hs.wfe.1.kepCheck K).kep
    rw [List.getElem?_eq_getElem (hk ▸ hj), List.getElem?_eq_getElem (h2 ▸ hj)]
    simp only [Option.map_some]
    rw [anomOf_conv, e2, e3, e4]
    refine congrArg some ?_
    by_cases ht : s.type = t
    · rw [ht]
      cases t <;> rfl
    · exact hinv ht xs j _ _ h1 (List.getElem?_eq_getElem (h2 ▸ hj)) (by rw [hes']; simp [hk, hj])
  · have hk : (kepCheck K s).kep.length = n := (hs.wfe.1.kepCheck K).kep
    rw [List.getElem?_eq_none (by omega), List.getElem?_eq_none (by omega)]
    rfl

/-! ## Direct and manual mode (C56) -/

/-- C56, Kepler rows -/
theorem c56_kep {n : Nat} (s s' : Orb α) (hs : OneEntryPerOrbit s n) (hd : s.direct = true ∨ s.auto = false) (i : Fin 6) (v : Val α)
    (h : set_kep K i v s = (.ok (), s')) : ∃ l, (get_kep K i s').1 = .ok l ∧ v.Row n l :=
  c32_kep_partial K s s' hs i v (fun h1 h2 => by rcases hd with h | h <;> simp_all) h

/-- C56, Cartesian rows -/
theorem c56_cart {n : Nat} (s s' : Orb α) (hs : OneEntryPerOrbit s n) (hd : s.direct = true ∨ s.auto = false) (i : Fin 6) (v : Val α)
    (h : set_cart K i v s = (.ok (), s')) : ∃ l, (get_cart K i s').1 = .ok l ∧ v.Row n l :=
  c32_cart_partial K s s' hs i v (fun h1 h2 => by rcases hd with h | h <;> simp_all) h

/-- C56, the anomaly of the object's own kind -/
theorem c56_anomaly {n : Nat} (s s' : Orb α) (hs : OneEntryPerOrbit s n) (hd : s.direct = true ∨ s.auto = false) (v : Val α)
    (h : set_anomaly K s.type v s = (.ok (), s')) : ∃ l, readAnomaly K s.type s' = .ok l ∧ v.Row n l :=
  c32_anomaly_partial K s s' hs s.type v _ (fun _ h1 h2 => by rcases hd with h | h <;> simp_all) rfl (fun h => absurd rfl h) h

/-! ## With the functions of the package -/

/-- the mean anomaly of the point of an ellipse given by an anomaly of kind `t` -/
noncomputable def meanFrom (t : Anom) (e x : ℝ) : ℝ :=
  match t with
  | .tru => meanOf e (eccOf e x)
  | .ecc => meanOf e x
  | .mean => x

theorem meanOf_pi {e : ℝ} (h1 : e < 1) : meanOf e Real.pi = Real.pi := by
  rw [meanOf, if_neg (not_lt.mpr h1.le), if_neg h1.ne]; simp
theorem meanOf_two_pi {e : ℝ} (h1 : e < 1) : meanOf e (2 * Real.pi) = 2 * Real.pi := by
  rw [meanOf, if_neg (not_lt.mpr h1.le), if_neg h1.ne]; simp

/-- mean and eccentric anomaly lie in the same turn -/
theorem meanOf_range {e E M : ℝ} (h0 : 0 ≤ e) (h1 : e < 1) (h : meanOf e E = M) (hr : 0 ≤ M) (hr2 : M < 2 * Real.pi) :
    0 ≤ E ∧ E < 2 * Real.pi := by
  have hm := meanOf_strictMono h0 h1
  exact ⟨hm.le_iff_le.mp (by rw [meanOf_zero, h]; exact hr), hm.lt_iff_lt.mp (by rw [meanOf_two_pi h1, h]; exact hr2)⟩

theorem fx_tte (g : KGarbage) (deg : Bool) {x e : ℝ} (h0 : 0 ≤ e) (h1 : e < 1) :
    (fxKern g).trueToEcc false deg (fin x) (fin e) = fin (angleOut deg (eccOf e (angleOf deg x))) := by
  show outR deg (trueToEccentricEl g.ecc .f64 (inR deg (fin x)) (fin e)) = _
  rw [inR_fin, trueToEccentricEl_eli g.ecc h0 h1, outR_fin]
theorem fx_ett (g : KGarbage) (deg : Bool) {x e : ℝ} (h0 : 0 ≤ e) (h1 : e < 1) :
    (fxKern g).eccToTrue false deg (fin x) (fin e) = fin (angleOut deg (trueOf e (angleOf deg x))) := by
  show outR deg (eccentricToTrueEl g.tru .f64 (inR deg (fin x)) (fin e)) = _
  rw [inR_fin, eccentricToTrueEl_eli g.tru h0 h1, outR_fin]
theorem fx_etm (g : KGarbage) (deg : Bool) {x e : ℝ} (h1 : e < 1) :
    (fxKern g).eccToMean false deg (fin x) (fin e) = fin (angleOut deg (meanOf e (angleOf deg x))) := by
  show outR deg (eccentricToMeanEl g.mean .f64 (inR deg (fin x)) (fin e)) = _
  rw [inR_fin, eccentricToMeanEl_eli g.mean h1, outR_fin]
theorem fx_ttm (g : KGarbage) (deg : Bool) {x e : ℝ} (h0 : 0 ≤ e) (h1 : e < 1) :
    (fxKern g).trueToMean false deg (fin x) (fin e) = fin (angleOut deg (meanOf e (eccOf e (angleOf deg x)))) := by
  show outR deg (eccentricToMeanEl g.mean .f64 (trueToEccentricEl g.ecc .f64 (inR deg (fin x)) (fin e)) (fin e)) = _
  rw [inR_fin, trueToEccentricEl_eli g.ecc h0 h1, eccentricToMeanEl_eli g.mean h1, outR_fin]
theorem fx_mte (g : KGarbage) {o : SolverOpts FX} (deg : Bool) {x e E : ℝ} (h : meanToEccentricEl o (fin (angleOf deg x)) (fin e) = fin E) :
    (fxKern g).meanToEcc o false deg (fin x) (fin e) = fin (angleOut deg E) := by
  show outR deg (meanToEccentricEl o (inR deg (fin x)) (fin e)) = _
  rw [inR_fin, h, outR_fin]
theorem fx_mtt (g : KGarbage) {o : SolverOpts FX} (deg : Bool) {x e E : ℝ} (h0 : 0 ≤ e) (h1 : e < 1)
    (h : meanToEccentricEl o (fin (angleOf deg x)) (fin e) = fin E) :
    (fxKern g).meanToTrue o false deg (fin x) (fin e) = fin (angleOut deg (trueOf e E)) := by
  show outR deg (eccentricToTrueEl g.tru .f64 (meanToEccentricEl o (inR deg (fin x)) (fin e)) (fin e)) = _
  rw [inR_fin, h, eccentricToTrueEl_eli g.tru h0 h1, outR_fin]

theorem angleOut_angleOf' (deg : Bool) (x : ℝ) : angleOut deg (angleOf deg x) = x := by
  cases deg
  · rfl
  · simp only [angleOut, angleOf, if_true]
    field_simp

/-- On an ellipse the conversion of an anomaly to another kind and back returns it, if it is given within one turn from
periapsis and Kepler's equation is solved exactly where it is involved. -/
theorem conv_inverse (g : KGarbage) (o : SolverOpts FX) (deg : Bool) (t0 t : Anom) {x e : ℝ} (h0 : 0 ≤ e) (h1 : e < 1)
    (hr : 0 ≤ angleOf deg x) (hr2 : angleOf deg x < 2 * Real.pi)
    (hsol : t = .mean ∨ t0 = .mean → SolvedExactly o e (meanFrom t e (angleOf deg x))) :
    conv (fxKern g) o deg t0 t (conv (fxKern g) o deg t t0 (fin x) (fin e)) (fin e) = fin x := by
  have ht := turn_of_mem hr hr2
  have hb := angleOut_angleOf' deg x
  cases t <;> cases t0 <;> simp only [conv]
  · rw [fx_tte g deg h0 h1, fx_ett g deg h0 h1, angleOf_angleOut, trueOf_eccOf h0 h1, ht, hb]
  · have h := solved_eq h0 h1 (hsol (.inr rfl))
    rw [fx_ttm g deg h0 h1, fx_mtt g deg h0 h1 (by rw [angleOf_angleOut]; exact h), trueOf_eccOf h0 h1, ht, hb]
  · rw [fx_ett g deg h0 h1, fx_tte g deg h0 h1, angleOf_angleOut, eccOf_trueOf h0 h1, ht, hb]
  · have h := solved_eq h0 h1 (hsol (.inr rfl))
    rw [fx_etm g deg h1, fx_mte g deg (by rw [angleOf_angleOut]; exact h), hb]
  · obtain ⟨E, h2, h3⟩ := hsol (.inl rfl)
    obtain ⟨a1, a2⟩ := meanOf_range h0 h1 h3 hr hr2
    rw [fx_mtt g deg h0 h1 h2, fx_ttm g deg h0 h1, angleOf_angleOut, eccOf_trueOf h0 h1, turn_of_mem a1 a2, h3]
    exact congrArg fin hb
  · obtain ⟨E, h2, h3⟩ := hsol (.inl rfl)
    rw [fx_mte g deg h2, fx_etm g deg h1, angleOf_angleOut, h3]
    exact congrArg fin hb

/-- C32, anomalies with the functions of the package: the anomaly of any kind is read back on ellipses, for values within one
turn from periapsis. -/
theorem c32_anomaly_formulas_partial (g : KGarbage) {n : Nat} (s s' : Orb FX) (hs : OneEntryPerOrbit s n) (t : Anom) (v : Val FX) (es xs : List ℝ)
    (hup : s.type = t → s.auto = true → s.direct = false → KepUpToDate (fxKern g) s)
    (hes : (get_kep (fxKern g) 1 s).1 = .ok (es.map fin)) (hell : ∀ e ∈ es, 0 ≤ e ∧ e < 1)
    (hxs : v.Row n (xs.map fin)) (hrange : ∀ x ∈ xs, 0 ≤ angleOf s.degrees x ∧ angleOf s.degrees x < 2 * Real.pi)
    (hsol : t = .mean ∨ s.type = .mean → ∀ e ∈ es, ∀ x ∈ xs, SolvedExactly s.opts e (meanFrom t e (angleOf s.degrees x)))
    (h : set_anomaly (fxKern g) t v s = (.ok (), s')) :
    readAnomaly (fxKern g) t s' = .ok (xs.map fin) := by
  have huniq : ∀ l, v.Row n l → l = xs.map fin := by
    intro l hl
    cases v with
    | sc x => exact hl.trans hxs.symm
    | zd x => exact hl.trans hxs.symm
    | vec ys =>
      rcases hl with ⟨h1, h2⟩ | ⟨y, h1, h2⟩ <;> rcases hxs with ⟨h3, h4⟩ | ⟨z, h3, h4⟩
      · rw [h2, h4]
      · rw [h2, h4, h3]; rw [h3] at h1; simp only [List.length_singleton] at h1; subst h1; rfl
      · rw [h2, h4, h1]; rw [h1] at h3; simp only [List.length_singleton] at h3; subst h3; rfl
      · rw [h1] at h3; cases h3; rw [h2, h4]
  obtain ⟨l, h1, h2⟩ := c32_anomaly_partial (fxKern g) s s' hs t v (es.map fin) hup hes (by
    intro ht l j x e hl hx he
    rw [huniq l hl, List.getElem?_map] at hx
    rw [List.getElem?_map] at he
    obtain ⟨x', hx', rfl⟩ := Option.map_eq_some_iff.mp hx
    obtain ⟨e', he', rfl⟩ := Option.map_eq_some_iff.mp he
    have hxm := List.mem_of_getElem? hx'
    have hem := List.mem_of_getElem? he'
    obtain ⟨r1, r2⟩ := hrange x' hxm
    exact conv_inverse g s.opts s.degrees s.type t (hell e' hem).1 (hell e' hem).2 r1 r2 fun ht => hsol ht e' hem x' hxm) h
  rw [h1, huniq l h2]

/-! ## Values that are not read back -/

/-- an object in lazy mode with Cartesian elements just assigned -/
noncomputable def lazyCart (g : KGarbage) : Orb FX :=
  { lazyBlank (fxKern g) 1 1 .dflt .tru with
    cart := [((⟨7000, 1 / 10, 1, 2, 3, 4⟩ : Kep ℝ).state 1).fx], kepCalc := [false], cartCalc := [true] }

theorem lazyCart_exec (g : KGarbage) : exec (fxKern g) (lazyBlank (fxKern g) 1 1 .dflt .tru)
    [.setCartesian (.mat [((⟨7000, 1 / 10, 1, 2, 3, 4⟩ : Kep ℝ).state 1).fx])] = lazyCart g := rfl

theorem lazyCart_one (g : KGarbage) : OneEntryPerOrbit (lazyCart g) 1 := ⟨rfl, rfl, rfl, rfl, ⟨_, rfl, rfl⟩, rfl, rfl, rfl⟩

/-- C32, refuted in lazy mode: after `orb.cartesian = ..`, the assignment `orb.a = 8000.` is lost; the next read of `orb.a`
recalculates the Kepler elements and returns the semi-major axis of the Cartesian state. -/
theorem c32_false (g : KGarbage) : ¬ ∀ (M0 : FX) (kw : InitKw FX) (u : Upd FX) (s0 s' : Orb FX) (ops : List (Op FX)) (i : Fin 6) (v : Val FX),
    init (fxKern g) M0 kw u = .ok s0 → set_kep (fxKern g) i v (exec (fxKern g) s0 ops) = (.ok (), s') →
    ∃ l, (get_kep (fxKern g) i s').1 = .ok l ∧ v.Row l.length l := by
  intro h
  have hm : (fxKern g).mu 1 1 0 = .fin 1 := fx_mu g
  obtain ⟨s', hs'⟩ : ∃ s', s' = ({ lazyCart g with kep := [(⟨fin 8000, .nan, .nan, .nan, .nan, .nan⟩ : Kep FX)], cartCalc := [false] } : Orb FX) :=
    ⟨_, rfl⟩
  obtain ⟨l, h1, h2⟩ := h 1 _ {} _ s' _ 0 (.sc (fin 8000)) (init_lazyBlank (fxKern g) 1 1 .dflt .tru)
    (by rw [lazyCart_exec, hs']; rfl)
  have h3 : (kepCheck (fxKern g) s').kep = [Kep.fx ⟨7000, 1 / 10, 1, 2, 3, 4⟩] := by
    rw [kepCheck_eq, hs']
    show [if true then kepOfCart (fxKern g) .tru false ((fxKern g).mu 1 1 0) ((⟨7000, 1 / 10, 1, 2, 3, 4⟩ : Kep ℝ).state 1).fx else _] = _
    rw [if_pos rfl, hm, fx_kepOfCart g example_ellipse one_pos]
  rw [get_kep_run, h3] at h1
  have h4 : [fin 7000] = l := Except.ok.inj h1
  subst h4
  have h5 : [fin 7000] = [fin 8000] := h2
  have := FX.fin.inj (List.cons.inj h5).1
  norm_num at this

/-- the state of `c32_false`: after the assignment of the Cartesian elements the Kepler elements are not up to date, while a
read of any Kepler element (`c31_read_first`) would have made them so -/
example (g : KGarbage) : ¬ KepUpToDate (fxKern g) (lazyCart g) ∧ KepUpToDate (fxKern g) ((Op.read .kepler).run (fxKern g) (lazyCart g)).2 := by
  refine ⟨fun h => ?_, c31_read_first (fxKern g) _ ⟨rfl, rfl⟩⟩
  have := h 0 _ rfl rfl
  exact absurd ((cart_fx_any _).symm.trans this) (by simp)

/-- an object of type eccentric in direct mode -/
noncomputable def eccBlank (g : KGarbage) : Orb FX :=
  { (allocate (fxKern g) 1 (empty 1 { G := 1, opts := .dflt, type := some .ecc } .ecc)).2 with kro := false, cro := false }
/-- the same with Kepler elements assigned -/
noncomputable def eccSet (g : KGarbage) : Orb FX :=
  recalcCart (fxKern g) (kepOk (fxKern g) { eccBlank g with kep := [(quarter 1).fx] }) { eccBlank g with kep := [(quarter 1).fx] }

theorem eccSet_exec (g : KGarbage) : exec (fxKern g) (eccBlank g) [.setKepler (.mat [(quarter 1).fx])] = eccSet g := by
  have hw : WF 1 ({ eccBlank g with kep := [(quarter 1).fx] } : Orb FX) := ⟨rfl, rfl, rfl, rfl, rfl, rfl, rfl⟩
  have h1 : (Op.setKepler (.mat [(quarter 1).fx])).run (fxKern g) (eccBlank g) =
    calculate_cartesian (fxKern g) .all ({ eccBlank g with kep := [(quarter 1).fx] } : Orb FX) := rfl
  rw [exec_cons, h1, calculate_cartesian_direct (fxKern g) hw rfl]
  rfl

theorem eccSet_one (g : KGarbage) : OneEntryPerOrbit (eccSet g) 1 := ⟨rfl, rfl, rfl, rfl, ⟨_, rfl, rfl⟩, rfl, rfl, rfl⟩

theorem eccSet_assign (g : KGarbage) (v : Val FX) (hv : ∃ x, v = .sc x) : ∃ s', set_anomaly (fxKern g) .tru v (eccSet g) = (.ok (), s') := by
  obtain ⟨x, rfl⟩ := hv
  have ht : (eccSet g).type ≠ .tru := nofun
  have hwf := (eccSet_one g).wfe
  have hkc : kepCheck (fxKern g) (eccSet g) = eccSet g := kepCheck_direct _ rfl
  rw [set_anomaly_other (fxKern g) ht, bind_ok (guardKep_of rfl)]
  have h1 : setConv (fxKern g) (eccSet g).degrees (conv (fxKern g) (eccSet g).opts (eccSet g).degrees .tru (eccSet g).type) (.sc x) (eccSet g) =
      set_kep (fxKern g) 5 (.vec [(fxKern g).trueToEcc false false x (fin (1 / 2))]) (eccSet g) := by
    unfold setConv
    rw [bind_ok (get_kep_run (fxKern g) 1 _), hkc]
    rfl
  obtain ⟨r, h2, h3⟩ : ∃ r, set_kep (fxKern g) 5 (.vec [(fxKern g).trueToEcc false false x (fin (1 / 2))]) (eccSet g) = (.ok (), r) ∧ WFE 1 r := by
    have h4 := (set_kep_sh (fxKern g) 5 (.vec [(fxKern g).trueToEcc false false x (fin (1 / 2))]) (eccSet g) hwf).1
    obtain ⟨r, h5, -⟩ := afterKepEl_ok (fxKern g) (s := ({ eccSet g with kep :=
      [(quarter 1).fx.set 5 ((fxKern g).trueToEcc false false x (fin (1 / 2)))] } : Orb FX)) ⟨rfl, rfl, rfl, rfl, rfl, rfl, rfl⟩
    have h6 : set_kep (fxKern g) 5 (.vec [(fxKern g).trueToEcc false false x (fin (1 / 2))]) (eccSet g) = (.ok (), r) := by
      unfold set_kep
      rw [bind_ok (guardKep_of rfl), self_bind]
      exact h5
    rw [h6] at h4
    exact ⟨r, h6, h4⟩
  obtain ⟨r', h4, -⟩ := afterKepEl_ok (fxKern g) h3.1
  refine ⟨r', ?_⟩
  rw [bind_ok (h1.trans h2), h4]

/-- C32, refuted in direct mode: an object of type `eccentric` gives back a true anomaly beyond one turn reduced to `[0, 2 pi)`. -/
theorem c32_false_wrapped (g : KGarbage) : ¬ ∀ (M0 : FX) (kw : InitKw FX) (u : Upd FX) (s0 s' : Orb FX) (ops : List (Op FX)) (v : Val FX),
    kw.direct = true → init (fxKern g) M0 kw u = .ok s0 → set_true_anomaly (fxKern g) v (exec (fxKern g) s0 ops) = (.ok (), s') →
    ∃ l, (get_true_anomaly (fxKern g) s').1 = .ok l ∧ v.Row l.length l := by
  intro h
  obtain ⟨s', hs'⟩ := eccSet_assign g (.sc (fin (Real.pi / 2 + 2 * Real.pi))) ⟨_, rfl⟩
  obtain ⟨l, h1, h2⟩ := h 1 { G := 1, opts := .dflt, type := some .ecc } {} (eccBlank g) s' [.setKepler (.mat [(quarter 1).fx])]
    (.sc (fin (Real.pi / 2 + 2 * Real.pi))) rfl (init_plain (fxKern g) 1 _ .ecc rfl rfl) (by rw [eccSet_exec]; exact hs')
  have hone := (eccSet_one g).wfe
  have hkc : kepCheck (fxKern g) (eccSet g) = eccSet g := kepCheck_direct _ rfl
  obtain ⟨xs, e1, e2, e3⟩ := set_anomaly_ok (fxKern g) (t := .tru) hone (fun _ => fresh_direct _ rfl) hs'
  have hw' : WFE 1 s' := by
    have := (set_true_anomaly_sh (fxKern g) (.sc (fin (Real.pi / 2 + 2 * Real.pi))) (eccSet g) hone).1
    rw [show set_true_anomaly (fxKern g) (.sc (fin (Real.pi / 2 + 2 * Real.pi))) (eccSet g) = (.ok (), s') from hs'] at this
    exact this
  have hf : Fresh (fxKern g) s' := e3.fresh fun j => fresh_kepCheck (fxKern g) _ j
  obtain ⟨_, e4, _⟩ := get_anomaly_val (fxKern g) hw' .tru
  have e5 : xs = [fin (Real.pi / 2 + 2 * Real.pi)] := e1
  have e6 : s'.kep = [{ (quarter 1).fx with nu := (fxKern g).trueToEcc false false (fin (Real.pi / 2 + 2 * Real.pi)) (fin (1 / 2)) }] := by
    rw [e3.kep, e5, hkc]; rfl
  have hpi := Real.pi_pos
  have e7 : anomOf (fxKern g) .tru s' { (quarter 1).fx with nu := (fxKern g).trueToEcc false false (fin (Real.pi / 2 + 2 * Real.pi)) (fin (1 / 2)) } =
      fin (Real.pi / 2) := by
    rw [anomOf_conv, e3.type, e3.degrees, e3.opts]
    show (fxKern g).eccToTrue false false ((fxKern g).trueToEcc false false (fin (Real.pi / 2 + 2 * Real.pi)) (fin (1 / 2))) (fin (1 / 2)) = _
    rw [fx_tte g false (by norm_num) (by norm_num), fx_ett g false (by norm_num) (by norm_num)]
    rw [angleOf_angleOut, show angleOf false (Real.pi / 2 + 2 * Real.pi) = Real.pi / 2 + 2 * Real.pi from rfl,
      trueOf_eccOf (by norm_num) (by norm_num)]
    refine congrArg fin ?_
    show turn (Real.pi / 2 + 2 * Real.pi) = _
    rw [show Real.pi / 2 + 2 * Real.pi = Real.pi / 2 + ((1 : ℤ) : ℝ) * (2 * Real.pi) by push_cast; ring, turn_add_int, turn_of_mem (by positivity) (by linarith)]
  have h3 : (get_true_anomaly (fxKern g) s').1 = .ok [fin (Real.pi / 2)] := by
    show (get_anomaly (fxKern g) .tru s').1 = _
    rw [e4, hf.check, e6]
    exact congrArg (fun x => Except.ok [x]) e7
  rw [h3] at h1
  have h4 : [fin (Real.pi / 2)] = l := Except.ok.inj h1
  subst h4
  have h5 : [fin (Real.pi / 2)] = [fin (Real.pi / 2 + 2 * Real.pi)] := h2
  have := FX.fin.inj (List.cons.inj h5).1
  linarith

/-- a case of `c32_anomaly_formulas_partial`: the true anomaly of a quarter turn, assigned to the same object, is read back -/
example (g : KGarbage) : ∃ s', set_true_anomaly (fxKern g) (.sc (fin (Real.pi / 2))) (eccSet g) = (.ok (), s') ∧
    (get_true_anomaly (fxKern g) s').1 = .ok [fin (Real.pi / 2)] := by
  obtain ⟨s', hs'⟩ := eccSet_assign g (.sc (fin (Real.pi / 2))) ⟨_, rfl⟩
  have hpi := Real.pi_pos
  refine ⟨s', hs', ?_⟩
  refine c32_anomaly_formulas_partial g (eccSet g) s' (eccSet_one g) .tru (.sc (fin (Real.pi / 2))) [1 / 2] [Real.pi / 2] nofun ?_
    (by intro e he; rw [List.mem_singleton.mp he]; norm_num) rfl ?_ nofun hs'
  · rw [get_kep_run, show kepCheck (fxKern g) (eccSet g) = eccSet g from kepCheck_direct _ rfl]
    rfl
  · intro x hx
    rw [List.mem_singleton.mp hx]
    show 0 ≤ Real.pi / 2 ∧ Real.pi / 2 < 2 * Real.pi
    exact ⟨by positivity, by linarith⟩

/-- a case of `c32_kep_partial` and `c32_cart_partial` in direct mode: assignments to the rows of a new object return -/
example (M0 G x : α) (o : SolverOpts α) (i : Fin 6) : (∃ s', set_kep K i (.sc x) (blank K M0 G o) = (.ok (), s')) ∧
    ∃ s', set_cart K i (.vec [x]) (blank K M0 G o) = (.ok (), s') := by
  have hw1 : WF 1 ({ blank K M0 G o with kep := [(Kep.const K.nan).set i x] } : Orb α) := ⟨rfl, rfl, rfl, rfl, rfl, rfl, rfl⟩
  have hw2 : WF 1 ({ blank K M0 G o with cart := [(Cart.const K.nan).set i x] } : Orb α) := ⟨rfl, rfl, rfl, rfl, rfl, rfl, rfl⟩
  obtain ⟨t1, h1, -⟩ := afterKepEl_ok K hw1
  obtain ⟨t2, h2, -⟩ := afterCartEl_ok K hw2
  exact ⟨⟨t1, h1⟩, ⟨t2, h2⟩⟩

/-- cases of `c32_kepler`, `c32_cartesian`, `c32_r` and `c32_v` in lazy mode, with 1-d, scalar and matrix values -/
example (M0 G a b c d e f : α) (o : SolverOpts α) : (∃ s', set_kepler K (.vec true [a, b, c, d, e, f]) (lazyBlank K M0 G o .mean) = (.ok (), s')) ∧
    (∃ s', set_cartesian K (.vec true [a, b, c, d, e, f]) (lazyBlank K M0 G o .mean) = (.ok (), s')) ∧
    (∃ s', set_r K (.mat [⟨a, b, c⟩]) (lazyBlank K M0 G o .mean) = (.ok (), s')) ∧
    ∃ s', set_v K (.sc a) (lazyBlank K M0 G o .mean) = (.ok (), s') := ⟨⟨_, rfl⟩, ⟨_, rfl⟩, ⟨_, rfl⟩, ⟨_, rfl⟩⟩

end Orbit
end Pyorb
