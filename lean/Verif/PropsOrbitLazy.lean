import Verif.OrbitLazy
import Verif.PropsEquiCart

/-!
# C31: lazy updating

With `auto_update` and without `direct_update` an assignment only marks the other element set, and queries refresh what is
marked.  `c31_partial` shows that the two sets read from an object agree after every history of a large class; `c31_false`
shows how they can contradict outside of it.
-/

set_option linter.unusedSimpArgs false
set_option linter.unusedVariables false

namespace Pyorb
namespace Orbit
open Py
variable {α : Type} (K : Kern α)

/-! ## The histories -/

/-- no Kepler elements wait to be recalculated: every orbit marked so has an incomplete Cartesian state -/
def KepUpToDate (s : Orb α) : Prop :=
  ∀ (j : Nat) (c : Cart α), s.cart[j]? = some c → s.kepCalc[j]? = some false → c.any K.isnan = true
/-- no Cartesian state waits to be recalculated -/
def CartUpToDate (s : Orb α) : Prop :=
  ∀ (j : Nat) (k : Kep α), s.kep[j]? = some k → s.cartCalc[j]? = some false → k.any K.isnan = true

/-- Operations of C31 in the situation `s`.  Excluded are: settings, masses and modes (as in C29), `calc_eccentric_anomaly`
of a selection, and, when the anomaly is not the true anomaly, assignments of single elements while that element set waits
to be recalculated. -/
def Op.lazySafe (s : Orb α) : Op α → Prop
  | .writeM _ | .setFlags .. | .setDegrees _ | .setGM .. | .setOpts _ => False
  | .calcEcc inds => inds = .all
  | .update _ u => u.m = none
  | .setKep .. | .setEquinoctial _ | .calcCartesian _ => s.type = .tru ∨ KepUpToDate K s
  | .setEcc _ => s.type ≠ .ecc ∨ KepUpToDate K s
  | .setMean _ => s.type ≠ .mean ∨ KepUpToDate K s
  | .setCart .. => s.type = .tru ∨ CartUpToDate K s
  | _ => True

/-- every operation of the history is of this kind, and those that store in several steps return normally -/
def LazyHistory (s : Orb α) : List (Op α) → Prop
  | [] => True
  | o :: h => o.lazySafe K s ∧ (o.stepwise = true → (o.run K s).1 = .ok ()) ∧ LazyHistory (o.run K s).2 h

/-! ## Setters in lazy mode -/

theorem lazy_iff {s : Orb α} : lazy s = true ↔ s.auto = true ∧ s.direct = false := by
  simp [lazy]

/-- lazy and sound -/
def LS (s : Orb α) : Prop := lazy s = true ∧ Sound K s

theorem guardKep_cases (s : Orb α) : (∃ e, (guardKep : Py α Unit) s = (.error e, s)) ∨ (guardKep : Py α Unit) s = (.ok (), s) := by
  cases h : s.kro
  · right; simp [guardKep, h]
  · left; exact ⟨.attributeError, by simp [guardKep, h]⟩
theorem guardCart_cases (s : Orb α) : (∃ e, (guardCart : Py α Unit) s = (.error e, s)) ∨ (guardCart : Py α Unit) s = (.ok (), s) := by
  cases h : s.cro
  · right; simp [guardCart, h]
  · left; exact ⟨.attributeError, by simp [guardCart, h]⟩

/-- an element was stored in `s1` and the Cartesian elements were marked, or an exception left `s` or `s1` -/
def KepStored (s s1 : Orb α) (r : Except PyErr Unit × Orb α) : Prop :=
  (∃ e, r = (.error e, s)) ∨ (∃ e, r = (.error e, s1)) ∨ ∃ ks, r = (.ok (), { s1 with kep := ks, cartCalc := allFlags s1.cartCalc false })

theorem afterKepEl_lazy {s : Orb α} (hd : s.direct = false) :
    afterKepEl K s = (.ok (), { s with cartCalc := allFlags s.cartCalc false }) := by
  simp [afterKepEl, hd]
theorem afterCartEl_lazy {s : Orb α} (hd : s.direct = false) :
    afterCartEl K s = (.ok (), { s with kepCalc := allFlags s.kepCalc false }) := by
  simp [afterCartEl, hd]
theorem afterKep_lazy {s : Orb α} (hd : s.direct = false) :
    afterKep K s = (.ok (), { s with cartCalc := allFlags s.cartCalc false, kepCalc := allFlags s.kepCalc true }) := by
  simp [afterKep, hd]
theorem afterCart_lazy {s : Orb α} (hd : s.direct = false) :
    afterCart K s = (.ok (), { s with kepCalc := allFlags s.kepCalc false, cartCalc := allFlags s.cartCalc true }) := by
  simp [afterCart, hd]

theorem set_kep_lazy {s : Orb α} (hd : s.direct = false) (i : Fin 6) (v : Val α) : KepStored s s (set_kep K i v s) := by
  unfold set_kep
  rcases guardKep_cases s with ⟨e, he⟩ | he
  · exact .inl ⟨e, bind_err he⟩
  · rw [bind_ok he, self_bind, lift_bind]
    cases hv : v.spread s.kep.length with
    | error e => exact .inl ⟨e, rfl⟩
    | ok vs =>
      right; right
      exact ⟨_, afterKepEl_lazy K hd⟩

theorem get_kep_run (i : Fin 6) (s : Orb α) : get_kep K i s = (.ok ((kepCheck K s).kep.map (·.get i)), kepCheck K s) := rfl

theorem kepCheck_dir (s : Orb α) : (kepCheck K s).direct = s.direct := by rw [kepCheck_eq]; rfl
theorem kepCheck_auto (s : Orb α) : (kepCheck K s).auto = s.auto := by rw [kepCheck_eq]; rfl

theorem setConv_lazy {s : Orb α} (hd : s.direct = false) (deg : Bool) (f : α → α → α) (v : Val α) :
    KepStored s (kepCheck K s) (setConv K deg f v s) := by
  unfold setConv
  rw [bind_ok (get_kep_run K 1 s), lift_bind]
  cases hv : convVal deg f v ((kepCheck K s).kep.map (·.get 1)) with
  | error e => exact .inr (.inl ⟨e, rfl⟩)
  | ok vs =>
    rcases set_kep_lazy K (s := kepCheck K s) (by rw [kepCheck_dir]; exact hd) 5 (.vec vs) with ⟨e, he⟩ | ⟨e, he⟩ | h
    · exact .inr (.inl ⟨e, he⟩)
    · exact .inr (.inl ⟨e, he⟩)
    · exact .inr (.inr h)

theorem allFlags_idem (l : List Bool) (b : Bool) : allFlags (allFlags l b) b = allFlags l b := by simp [allFlags]

theorem KepStored.after {s s1 : Orb α} (hd : s1.direct = false) {x : Py α Unit} (h : KepStored s s1 (x s)) :
    KepStored s s1 ((do x; afterKepEl K : Py α Unit) s) := by
  rcases h with ⟨e, he⟩ | ⟨e, he⟩ | ⟨ks, hk⟩
  · exact .inl ⟨e, bind_err he⟩
  · exact .inr (.inl ⟨e, bind_err he⟩)
  · right; right
    refine ⟨ks, ?_⟩
    rw [bind_ok hk, afterKepEl_lazy K (s := { s1 with kep := ks, cartCalc := allFlags s1.cartCalc false }) hd]
    simp only [allFlags_idem]

/-- assigning the anomaly of type `t` -/
def set_anomaly (t : Anom) (v : Val α) : Py α Unit :=
  match t with
  | .tru => set_true_anomaly K v
  | .ecc => set_eccentric_anomaly K v
  | .mean => set_mean_anomaly K v

theorem set_anomaly_lazy {s : Orb α} (hd : s.direct = false) (t : Anom) (v : Val α) :
    KepStored s (if s.type = t then s else kepCheck K s) (set_anomaly K t v s) := by
  have hd' : (if s.type = t then s else kepCheck K s).direct = false := by
    split
    · exact hd
    · rw [kepCheck_dir]; exact hd
  rcases guardKep_cases s with ⟨e, he⟩ | he
  · refine .inl ⟨e, ?_⟩
    cases t <;> exact bind_err he
  · cases t <;> simp only [set_anomaly, set_true_anomaly, set_eccentric_anomaly, set_mean_anomaly] <;> rw [bind_ok he, self_bind] <;>
      cases ht : s.type <;> rw [ht] at hd' <;> refine KepStored.after K hd' ?_ <;> simp only [reduceCtorEq, if_true, if_false] <;>
      first | exact set_kep_lazy K hd _ _ | exact setConv_lazy K hd _ _ _

/-! ## Soundness -/

theorem allFlags_some {l : List Bool} {b x : Bool} {j : Nat} (h : (allFlags l b)[j]? = some x) : x = b := by
  simp only [allFlags, List.getElem?_map, Option.map_eq_some_iff] at h
  obtain ⟨_, _, h⟩ := h
  exact h.symm

/-- after the Kepler side is stored and the Cartesian side marked -/
theorem sound_marked {s : Orb α} (h : s.type = .tru ∨ KepUpToDate K s) (ks : List (Kep α)) :
    Sound K { s with kep := ks, cartCalc := allFlags s.cartCalc false } := by
  intro j k c m a b hk hc hm ha hb hkn hcn
  have hb' : b = false := allFlags_some hb
  refine ⟨fun _ h2 => ?_, fun ht => .inl ?_⟩
  · rw [hb'] at h2; cases h2
  · rcases h with h | h
    · exact absurd h ht
    · cases a
      · rw [h j c hc ha] at hcn; cases hcn
      · rfl

theorem fresh_upToDate {s : Orb α} (hl : lazy s = true) (h : Fresh K s) : KepUpToDate K s := by
  intro j c hc ha
  have := h j
  rw [checkSet, hl, cartOk_of K hc, stale_some ha] at this
  simpa using this
theorem upToDate_fresh {n : Nat} {s : Orb α} (hw : WF n s) (h : KepUpToDate K s) : Fresh K s := by
  intro j
  by_contra hc
  simp only [Bool.not_eq_false, checkSet, Bool.and_eq_true] at hc
  obtain ⟨⟨_, h3⟩, h4⟩ := hc
  have hj : j < s.cart.length := by
    simp only [cartOk, Bool.and_eq_true, decide_eq_true_eq] at h4
    exact h4.1
  have hcj := List.getElem?_eq_getElem hj
  have hkj := List.getElem?_eq_getElem (l := s.kepCalc) (i := j) (by rw [hw.kepCalc, ← hw.cart]; exact hj)
  rw [cartOk_of K hcj] at h4
  rw [stale_some hkj] at h3
  rw [show s.kepCalc[j]? = some false by rw [hkj]; simpa using h3] at hkj
  rw [h j _ hcj (by rw [List.getElem?_eq_getElem (by rw [hw.kepCalc, ← hw.cart]; exact hj)]; simpa using h3)] at h4
  cases h4

theorem lazy_kepCheck {s : Orb α} (hl : lazy s = true) : lazy (kepCheck K s) = true := by
  unfold lazy at *
  rw [kepCheck_auto, kepCheck_dir]; exact hl
theorem upToDate_kepCheck {s : Orb α} (hl : lazy s = true) : KepUpToDate K (kepCheck K s) :=
  fresh_upToDate K (lazy_kepCheck K hl) (fresh_kepCheck K s)

theorem LS.kepCheck {s : Orb α} (h : LS K s) : LS K (Orbit.kepCheck K s) := ⟨lazy_kepCheck K h.1, sound_kepCheck K h.2⟩
theorem cartCheck_mode (s : Orb α) : (cartCheck K s).auto = s.auto ∧ (cartCheck K s).direct = s.direct := by
  unfold cartCheck
  split
  · unfold calcCart
    simp only
    split
    · split
      · exact ⟨rfl, rfl⟩
      · have ha : ∀ d t, (storeCart K d t (calcTrue K false d (markCart d s))).auto = s.auto ∧
            (storeCart K d t (calcTrue K false d (markCart d s))).direct = s.direct := by
          intro d t
          rw [calcTrue_eq, kepCheck_eq]
          exact ⟨rfl, rfl⟩
        exact ha _ _
    · exact ⟨rfl, rfl⟩
  · exact ⟨rfl, rfl⟩
theorem cartCheck_lazy {s : Orb α} (hl : lazy s = true) : lazy (cartCheck K s) = true := by
  unfold lazy at *
  have : (cartCheck K s).auto = s.auto ∧ (cartCheck K s).direct = s.direct := cartCheck_mode K s
  rw [this.1, this.2]; exact hl
theorem LS.cartCheck {n : Nat} {s : Orb α} (hw : WFE n s) (h : LS K s) : LS K (Orbit.cartCheck K s) :=
  ⟨cartCheck_lazy K h.1, sound_cartCheck K hw.1 h.1 h.2⟩

theorem KepStored.ls {s s1 : Orb α} (h0 : LS K s) (h1 : LS K s1) (hu : s1.type = .tru ∨ KepUpToDate K s1) {r : Except PyErr Unit × Orb α}
    (h : KepStored s s1 r) : LS K r.2 := by
  rcases h with ⟨e, he⟩ | ⟨e, he⟩ | ⟨ks, hk⟩
  · rw [he]; exact h0
  · rw [he]; exact h1
  · rw [hk]; exact ⟨h1.1, sound_marked K hu ks⟩

/-- nothing is out of date on the Kepler side -/
def LF (s : Orb α) : Prop := LS K s ∧ KepUpToDate K s

theorem LF.closed (n : Nat) : KepClosed K n (LF K) where
  kep s hw h := by rw [(upToDate_fresh K hw.1 h.2).check]; exact h
  core s t hc h := by
    have hl : lazy t = true := by
      have := h.1.1
      unfold lazy at *
      rw [show t.auto = s.auto by rw [hc], show t.direct = s.direct by rw [hc]]; exact this
    refine ⟨⟨hl, h.1.2.core K hc⟩, ?_⟩
    intro j c
    rw [hc.cart, show t.kepCalc = s.kepCalc by rw [hc]]
    exact h.2 j c
theorem LS.closed (n : Nat) : ReadClosed K n (LS K) where
  kep s hw h := h.kepCheck K
  core s t hc h := by
    have hl : lazy t = true := by
      have := h.1
      unfold lazy at *
      rw [show t.auto = s.auto by rw [hc], show t.direct = s.direct by rw [hc]]; exact this
    exact ⟨hl, h.2.core K hc⟩
  cart s hw h := h.cartCheck K hw
theorem LS.refreshed {s : Orb α} (h : LS K s) : LF K (Orbit.kepCheck K s) := ⟨h.kepCheck K, upToDate_kepCheck K h.1⟩

section
variable {n : Nat} {s : Orb α}

theorem set_kep_ls (h : LS K s) (hu : s.type = .tru ∨ KepUpToDate K s) (i : Fin 6) (v : Val α) : LS K (set_kep K i v s).2 :=
  (set_kep_lazy K (lazy_iff.mp h.1).2 i v).ls K h h hu
theorem set_anomaly_ls (h : LS K s) (t : Anom) (hu : t = .tru ∨ s.type ≠ t ∨ KepUpToDate K s) (v : Val α) : LS K (set_anomaly K t v s).2 := by
  have hs := set_anomaly_lazy K (lazy_iff.mp h.1).2 t v
  split at hs
  · refine hs.ls K h h ?_
    rename_i ht
    rcases hu with hu | hu | hu
    · exact .inl (ht.trans hu)
    · exact absurd ht hu
    · exact .inr hu
  · exact hs.ls K h (h.kepCheck K) (.inr (upToDate_kepCheck K h.1))

theorem set_kepler_ls (h : LS K s) (v : Val6 α (Kep α)) : LS K (set_kepler K v s).2 := by
  unfold set_kepler
  rcases guardKep_cases s with ⟨e, he⟩ | he
  · rw [bind_err he]; exact h
  · rw [bind_ok he, self_bind, lift_bind]
    cases hv : v.setter Kep.const Kep.ofList s.kep.length with
    | error e => exact h
    | ok vs =>
      simp only [upd_bind]
      rw [afterKep_lazy K (s := { s with kep := vs }) (lazy_iff.mp h.1).2]
      refine ⟨h.1, ?_⟩
      intro j k c m a b hk hc hm ha hb hkn hcn
      refine ⟨fun _ h2 => ?_, fun ht => .inl (allFlags_some ha)⟩
      rw [allFlags_some hb] at h2; cases h2

/-- after the Cartesian side is stored and both flags set -/
theorem sound_cartStored (cs : List (Cart α)) (s : Orb α) :
    Sound K { s with cart := cs, kepCalc := allFlags s.kepCalc false, cartCalc := allFlags s.cartCalc true } := by
  intro j k c m a b hk hc hm ha hb hkn hcn
  refine ⟨fun h1 _ => ?_, fun ht => .inr (allFlags_some hb)⟩
  rw [allFlags_some ha] at h1; cases h1

theorem set_cartesian_ls (h : LS K s) (v : Val6 α (Cart α)) : LS K (set_cartesian K v s).2 := by
  unfold set_cartesian
  rcases guardCart_cases s with ⟨e, he⟩ | he
  · rw [bind_err he]; exact h
  · rw [bind_ok he, self_bind, lift_bind]
    cases hv : v.setter Cart.const Cart.ofList s.cart.length with
    | error e => exact h
    | ok vs =>
      simp only [upd_bind]
      rw [afterCart_lazy K (s := { s with cart := vs }) (lazy_iff.mp h.1).2]
      exact ⟨h.1, sound_cartStored K vs s⟩
theorem set_r_ls (h : LS K s) (v : Val6 α (Tri α)) : LS K (set_r K v s).2 := by
  unfold set_r
  rcases guardCart_cases s with ⟨e, he⟩ | he
  · rw [bind_err he]; exact h
  · rw [bind_ok he, self_bind, lift_bind]
    cases hv : v.spread (fun x => (⟨x, x, x⟩ : Tri α)) s.cart.length with
    | error e => exact h
    | ok vs =>
      simp only [upd_bind]
      rw [afterCart_lazy K (s := { s with cart := List.zipWith Cart.setR s.cart vs }) (lazy_iff.mp h.1).2]
      exact ⟨h.1, sound_cartStored K _ s⟩
/-- `orb.v = ..` raises and leaves everything, or stores -/
theorem set_v_lazy (hd : s.direct = false) (v : Val6 α (Tri α)) : (∃ e, set_v K v s = (.error e, s)) ∨
    ∃ cs, set_v K v s = (.ok (), { s with cart := cs, kepCalc := allFlags s.kepCalc false, cartCalc := allFlags s.cartCalc true }) := by
  unfold set_v
  rcases guardCart_cases s with ⟨e, he⟩ | he
  · exact .inl ⟨e, bind_err he⟩
  · rw [bind_ok he, self_bind, lift_bind]
    cases hv : v.spread (fun x => (⟨x, x, x⟩ : Tri α)) s.cart.length with
    | error e => exact .inl ⟨e, rfl⟩
    | ok vs => exact .inr ⟨_, afterCart_lazy K (s := { s with cart := List.zipWith Cart.setV s.cart vs }) hd⟩
theorem set_v_ls (h : LS K s) (v : Val6 α (Tri α)) : LS K (set_v K v s).2 := by
  rcases set_v_lazy K (lazy_iff.mp h.1).2 v with ⟨e, he⟩ | ⟨cs, he⟩
  · rw [he]; exact h
  · rw [he]; exact ⟨h.1, sound_cartStored K cs s⟩

theorem set_cart_ls (h : LS K s) (hu : s.type = .tru ∨ CartUpToDate K s) (i : Fin 6) (v : Val α) : LS K (set_cart K i v s).2 := by
  unfold set_cart
  rcases guardCart_cases s with ⟨e, he⟩ | he
  · rw [bind_err he]; exact h
  · rw [bind_ok he, self_bind, lift_bind]
    cases hv : v.spread s.cart.length with
    | error e => exact h
    | ok vs =>
      simp only [upd_bind]
      rw [afterCartEl_lazy K (s := { s with cart := List.zipWith (fun c x => c.set i x) s.cart vs }) (lazy_iff.mp h.1).2]
      refine ⟨h.1, ?_⟩
      intro j k c m a b hk hc hm ha hb hkn hcn
      refine ⟨fun h1 _ => ?_, fun ht => .inr ?_⟩
      · rw [allFlags_some ha] at h1; cases h1
      · rcases hu with hu | hu
        · exact absurd hu ht
        · cases b
          · rw [hu j k hk hb] at hkn; cases hkn
          · rfl

theorem set_velocity_ls (hw : WFE n s) (h : LS K s) (v : Val α) : LS K (set_velocity K v s).2 := by
  unfold set_velocity
  rcases guardCart_cases s with ⟨e, he⟩ | he
  · rw [bind_err he]; exact h
  · rw [bind_ok he, upd_bind, upd_bind, self_bind, lift_bind]
    have h1 := h.cartCheck K hw
    have h2 := h1.cartCheck K (cartCheck_wfe K s hw)
    generalize cartCheck K (cartCheck K s) = t at h2
    cases hv : v.spread t.cart.length with
    | error e => exact h2
    | ok vs =>
      simp only
      rcases set_v_lazy K (lazy_iff.mp h2.1).2 (.mat (List.zipWith (fun c x => (K.scaleV c x).getV) t.cart vs)) with ⟨e, he⟩ | ⟨cs, he⟩
      · rw [bind_err he]; exact h2
      · rw [bind_ok he, afterCartEl_lazy K (s := { t with cart := cs, kepCalc := allFlags t.kepCalc false, cartCalc := allFlags t.cartCalc true }) (lazy_iff.mp h2.1).2]
        refine ⟨h2.1, ?_⟩
        simp only [allFlags_idem]
        exact sound_cartStored K cs t

theorem set_equinoctial_ls (hw : WFE n s) (h : LS K s) (hu : s.type = .tru ∨ KepUpToDate K s) (v : Equi α ⊕ List (Equi α))
    (hok : (set_equinoctial K v s).1 = .ok ()) : LS K (set_equinoctial K v s).2 := by
  unfold set_equinoctial at hok ⊢
  rw [self_bind, lift_bind] at hok ⊢
  generalize (Val6.mat _ : Val6 α (Kep α)).spread Kep.const s.kep.length = x at hok ⊢
  cases x with
  | error e => exact h
  | ok cs =>
    simp only [upd_bind] at hok ⊢
    obtain ⟨t, ht⟩ : ∃ t : Orb α, t = { s with kep := List.zipWith (fun old new => { new with nu := old.nu }) s.kep cs } := ⟨_, rfl⟩
    rw [← ht] at hok ⊢
    have hlt : lazy t = true := by rw [ht]; exact h.1
    have hut : t.type = .tru ∨ KepUpToDate K t := by rw [ht]; exact hu
    have key : ∀ y, (set_mean_anomaly K y t).1 = .ok () → LS K (set_mean_anomaly K y t).2 := by
      intro y hy
      have hs := set_anomaly_lazy K (lazy_iff.mp hlt).2 .mean y
      simp only [set_anomaly] at hs
      rcases hs with ⟨e, he⟩ | ⟨e, he⟩ | ⟨ks, hk⟩
      · rw [he] at hy; cases hy
      · rw [he] at hy; cases hy
      · rw [hk]
        split
        · exact ⟨hlt, sound_marked K hut ks⟩
        · exact ⟨lazy_kepCheck K hlt, sound_marked K (.inr (upToDate_kepCheck K hlt)) ks⟩
    exact key _ hok

theorem get_kepSide_lf (hw : WFE n s) (h : LS K s) (g : Read) (hg : g.kepSide = true)
    (hk : Keeps (With n (LF K)) (g.get K) (fun _ => True)) : With n (LF K) (g.get K s).2 := by
  rw [get_kepCheck K g hg s]
  exact (hk _ ⟨kepCheck_wfe K s hw, h.refreshed K⟩).1

theorem set_type_ls (hw : WFE n s) (h : LS K s) (t : Option Anom) : LS K (set_type K t s).2 := by
  cases t with
  | none => exact h
  | some val =>
    simp only [set_type, self_bind]
    by_cases ht : s.type = val
    · rw [if_pos ht]; exact h
    · rw [if_neg ht]
      have hg : With n (LF K) (get_anomaly K val s).2 := by
        cases val
        · exact get_kepSide_lf K hw h .trueAnomaly rfl (rc_get_true K (LF.closed K n))
        · exact get_kepSide_lf K hw h .eccentricAnomaly rfl (rc_get_ecc K (LF.closed K n))
        · exact get_kepSide_lf K hw h .meanAnomaly rfl (rc_get_mean K (LF.closed K n))
      rw [bind_run]
      rcases hx : get_anomaly K val s with ⟨e | x, r⟩ <;> rw [hx] at hg
      · exact hg.2.1
      · simp only
        obtain ⟨hwr, hr, hur⟩ := hg
        rcases set_kep_lazy K (lazy_iff.mp hr.1).2 5 (.vec x) with ⟨e, he⟩ | ⟨e, he⟩ | ⟨ks, hk⟩
        · rw [bind_err he]; exact hr
        · rw [bind_err he]; exact hr
        · rw [bind_ok hk]
          exact ⟨hr.1, sound_marked K (s := { r with type := val }) (.inr hur) ks⟩

theorem propagate_ls (hw : WFE n s) (h : LS K s) (dt : Val α) : LS K (propagate K dt s).2 := by
  unfold propagate
  have hg : With n (LF K) (get_mean_anomaly K s).2 := get_kepSide_lf K hw h .meanAnomaly rfl (rc_get_mean K (LF.closed K n))
  rw [bind_run]
  rcases hx : get_mean_anomaly K s with ⟨e | M, r⟩ <;> rw [hx] at hg
  · exact hg.2.1
  · simp only at hg ⊢
    have hg2 := (rc_get_mean_motion K (LF.closed K n) r hg).1
    rw [bind_run]
    rcases hy : get_mean_motion K r with ⟨e | N, q⟩ <;> rw [hy] at hg2
    · exact hg2.2.1
    · simp only at hg2 ⊢
      rw [self_bind, lift_bind]
      obtain ⟨hwq, hq, huq⟩ := hg2
      cases bcast (fun n dt => (n, dt)) N dt with
      | error e => exact hq
      | ok nd =>
        simp only
        rw [lift_bind]
        generalize (if nd.length = M.length then _ else _ : Except PyErr (List α)) = y
        cases y with
        | error e => exact hq
        | ok Ms =>
          simp only
          have hd := (lazy_iff.mp hq.1).2
          have hs := set_anomaly_lazy K hd .mean (.vec Ms)
          simp only [set_anomaly] at hs
          have hs1 : (if q.type = .mean then q else kepCheck K q) = q := by
            rw [(upToDate_fresh K hwq.1 huq).check]; split <;> rfl
          rw [hs1] at hs
          rcases hs with ⟨e, he⟩ | ⟨e, he⟩ | ⟨ks, hk⟩
          · rw [bind_err he]; exact hq
          · rw [bind_err he]; exact hq
          · rw [bind_ok hk, self_bind, if_neg (by simp [hd])]
            exact ⟨hq.1, sound_marked K (.inr huq) ks⟩

theorem calculate_cartesian_ls (hw : WFE n s) (h : LS K s) (hu : s.type = .tru ∨ KepUpToDate K s) (inds : Inds) :
    LS K (calculate_cartesian K inds s).2 := by
  rw [calculate_cartesian_run K hw.1]
  cases inds.pos n with
  | error e => exact h
  | ok ps =>
    simp only
    rw [calcCart_eq K _ s hw.1 (hu.imp_right (upToDate_fresh K hw.1))]
    exact ⟨h.1, sound_recalcCart K h.2 _⟩
theorem calculate_kepler_ls (hw : WFE n s) (h : LS K s) (inds : Inds) : LS K (calculate_kepler K inds s).2 := by
  rw [calculate_kepler_run K hw.1]
  cases inds.pos n with
  | error e => exact h
  | ok ps =>
    simp only
    refine ⟨?_, sound_calcKep K h.2 _⟩
    rw [show depth = 1 + 2 from rfl, calcKep_eq]
    exact h.1

end

/-! ## `update`, `add`, `delete`, `allocate`, the constructor -/

theorem exists_last {ps : List Nat} {j : Nat} (h : j ∈ ps) : ∃ q, LastAt ps q j := by
  induction ps with
  | nil => cases h
  | cons p ps ih =>
    by_cases hj : j ∈ ps
    · obtain ⟨q, h1, h2⟩ := ih hj
      refine ⟨q + 1, by simpa using h1, fun q' hq => ?_⟩
      obtain ⟨r, rfl⟩ : ∃ r, q' = r + 1 := ⟨q' - 1, by omega⟩
      simpa using h2 r (by omega)
    · have : j = p := by
        rcases List.mem_cons.mp h with h | h
        · exact h
        · exact absurd h hj
      subst this
      refine ⟨0, by simp, fun q' hq he => ?_⟩
      obtain ⟨r, rfl⟩ : ∃ r, q' = r + 1 := ⟨q' - 1, by omega⟩
      rw [List.getElem?_cons_succ] at he
      exact hj (List.mem_of_getElem? he)

theorem written_const {ps : List Nat} {b : Bool} {old new : List Bool} (h : Written ps (ps.map fun _ => b) old new) {j : Nat} (hj : j ∈ ps)
    {x : Bool} (hx : new[j]? = some x) : x = b := by
  obtain ⟨q, hq⟩ := exists_last hj
  have h1 := h.values q j hq
  rw [hx, List.getElem?_map, hq.1] at h1
  simpa using h1

theorem kepWritten_ls {s s' : Orb α} (h : LS K s) {ps : List Nat} {ks : List (Kep α)} (hks : ∀ j, j ∉ ps → ks[j]? = s.kep[j]?)
    (hf : CartFollows K ps { s with kep := ks } s') : LS K s' := by
  obtain ⟨hc, hk1, hk2⟩ := hf.lazy (lazy_iff.mp h.1).2
  have hr := hf.rest
  refine ⟨by rw [hr]; exact h.1, h.2.step K ⟨by rw [hr], by rw [hr], by rw [hr], by rw [hr], by rw [hr]⟩ fun j => ?_⟩
  have hkk : s'.kep = ks := by rw [hr]
  have hmm : s'.m = s.m := by rw [hr]
  by_cases hj : j ∈ ps
  · right
    intro k c m a b hk hcj hm ha hb hkn hcn
    refine ⟨fun _ h2 => ?_, fun _ => .inl (written_const hk1 hj ha)⟩
    rw [written_const hk2 hj hb] at h2; cases h2
  · exact .inl ⟨by rw [hmm], by rw [hkk]; exact hks j hj, by rw [hc], hk1.others j hj, hk2.others j hj⟩

theorem cartWritten_ls {s s' : Orb α} (h : LS K s) {ps : List Nat} {cs : List (Cart α)} (hcs : ∀ j, j ∉ ps → cs[j]? = s.cart[j]?)
    (hf : KepFollows K ps { s with cart := cs } s') : LS K s' := by
  obtain ⟨hc, hk1, hk2⟩ := hf.lazy (lazy_iff.mp h.1).2
  have hr := hf.rest
  refine ⟨by rw [hr]; exact h.1, h.2.step K ⟨by rw [hr], by rw [hr], by rw [hr], by rw [hr], by rw [hr]⟩ fun j => ?_⟩
  have hkk : s'.cart = cs := by rw [hr]
  have hmm : s'.m = s.m := by rw [hr]
  by_cases hj : j ∈ ps
  · right
    intro k c m a b hk hcj hm ha hb hkn hcn
    refine ⟨fun h1 _ => ?_, fun _ => .inr (written_const hk2 hj hb)⟩
    rw [written_const hk1 hj ha] at h1; cases h1
  · exact .inl ⟨by rw [hmm], by rw [hc], by rw [hkk]; exact hcs j hj, hk1.others j hj, hk2.others j hj⟩

theorem update_ls {n : Nat} {s s' : Orb α} (hw : WFE n s) (h : LS K s) (inds : Inds) (u : Upd α) (hu : u.m = none)
    (hr : update K inds u s = (.ok (), s')) : LS K s' := by
  cases hc : u.cartesian with
  | some v =>
    obtain ⟨_, ps, cs, ks, _, _, hwr, hf⟩ := update_cartesian_ok K s s' hw.one inds u v hc hr
    exact cartWritten_ls K h hwr.others hf
  | none =>
    cases hk : u.kepler with
    | some v =>
      obtain ⟨_, ps, cs, ks, _, _, hwr, hf⟩ := update_kepler_ok K s s' hw.one inds u v hc hk hr
      exact kepWritten_ls K h hwr.others hf
    | none =>
      obtain ⟨ms, hm, _, hcase⟩ := update_elements_ok K s s' hw.one inds u hc hk hr
      have hm := hm hu
      subst hm
      rcases hcase with ⟨_, _, he⟩ | ⟨_, _, _, ps, ks, _, hn, hf⟩ | ⟨_, _, _, ps, cs, _, hn, hf⟩
      · rw [he]; exact h
      · obtain ⟨named, _, _, hrow⟩ := hn
        exact kepWritten_ls K h hrow.others hf
      · obtain ⟨named, _, _, hrow⟩ := hn
        exact cartWritten_ls K h hrow.others hf

/-- no complete set -/
theorem sound_blank {n : Nat} {s : Orb α} (h : s.kep = List.replicate n (Kep.const K.nan)) : Sound K s := by
  intro j k c m a b hk hc hm ha hb hkn hcn
  rw [h] at hk
  have : k = Kep.const K.nan := (List.mem_replicate.mp (List.mem_of_getElem? hk)).2
  rw [this, kepConst_any] at hkn
  cases hkn

theorem add_ls {n k : Nat} {s s' : Orb α} (hw : WFE n s) (h : LS K s) (u : Upd α) (hr : add K k u s = (.ok (), s')) : LS K s' := by
  obtain ⟨l, ms, ht, hm1, hm2, hup⟩ := add_ok K hw.one hr
  refine update_ls K ht.wfe ?_ _ _ rfl hup
  refine ⟨h.1, h.2.step K ⟨rfl, rfl, rfl, rfl, rfl⟩ fun j => ?_⟩
  by_cases hj : j < n
  · left
    have hmj : ms[j]? = s.m[j]? := by
      cases hum : u.m with
      | none => rw [hm1 hum, head_get hw.1.m hj]
      | some v =>
        obtain ⟨vs, _, hwr⟩ := hm2 v hum
        rw [hwr.others j (not_tail hj), head_get hw.1.m hj]
    exact ⟨hmj, head_get hw.1.kep hj, head_get hw.1.cart hj, head_get hw.1.kepCalc hj, head_get hw.1.cartCalc hj⟩
  · right
    intro kk c m a b hk hc hm ha hb hkn hcn
    simp only [extend] at hk
    rw [List.getElem?_append_right (by rw [hw.1.kep]; omega)] at hk
    have : kk = Kep.const K.nan := (List.mem_replicate.mp (List.mem_of_getElem? hk)).2
    rw [this, kepConst_any] at hkn
    cases hkn

theorem delete_ls {n : Nat} {s : Orb α} (hw : WFE n s) (h : LS K s) (inds : Inds) : LS K (delete inds s).2 := by
  obtain ⟨l, hl, hn⟩ := hw.2
  have hr := delete_run hw.1 hl hn inds
  cases hp : inds.pos n with
  | error e => rw [hp] at hr; rw [hr]; exact h
  | ok ps =>
    rw [hp] at hr
    rw [hr]
    refine ⟨h.1, ?_⟩
    intro j k c m a b hk hc hm ha hb
    have hq : ∀ p ∈ keptPos ps n, p < n := fun p hp => keptPos_lt hp
    simp only [select] at hk hc hm ha hb
    rw [gather_getElem? _ _ (by rw [hw.1.kep]; exact hq)] at hk
    rw [gather_getElem? _ _ (by rw [hw.1.cart]; exact hq)] at hc
    rw [gather_getElem? _ _ (by rw [hw.1.m]; exact hq)] at hm
    rw [gather_getElem? _ _ (by rw [hw.1.kepCalc]; exact hq)] at ha
    rw [gather_getElem? _ _ (by rw [hw.1.cartCalc]; exact hq)] at hb
    cases hj : (keptPos ps n)[j]? with
    | none => rw [hj] at hk; cases hk
    | some p =>
      rw [hj] at hk hc hm ha hb
      exact h.2 p k c m a b hk hc hm ha hb

theorem init_ls {M0 : α} {kw : InitKw α} {u : Upd α} {s : Orb α} (ha : kw.auto = true) (hd : kw.direct = false)
    (h : init K M0 kw u = .ok s) : LS K s := by
  unfold init at h
  split at h
  · cases h
  · rename_i ty _
    split at h
    · rename_i b s' heq
      injection h with h
      subst h
      obtain ⟨P, hP⟩ : ∃ P : Orb α → Prop, P = fun s => (WFE kw.n s ∧ lazy s = true) ∧ s.kep = List.replicate kw.n (Kep.const K.nan) := ⟨_, rfl⟩
      have h1 : Ok P (writeAllMass kw.m) (fun _ s => With kw.n (LS K) s) := by
        unfold writeAllMass
        rw [hP]
        split
        · exact Ok.pure fun s hs => ⟨hs.1.1, hs.1.2, sound_blank K hs.2⟩
        · refine Ok.selfBind fun t ht => Ok.lift.bind fun ms => Ok.upd ?_
          rintro s ⟨hms, rfl⟩
          exact ⟨setM_wfe ht.1.1 (by rw [Val.spread_length hms, ht.1.1.1.m]), ht.1.2, sound_blank K (n := kw.n) ht.2⟩
      have hrest : Ok P (do
          writeAllMass kw.m
          let n ← num
          when (decide (0 < n)) (update K .all { u with m := none })
          upd fun s => { s with kro := kw.kro, cro := kw.cro } : Py α Unit) (fun _ s => LS K s) := by
        refine h1.bind fun _ => Ok.bind (Q := fun _ s => With kw.n (LS K) s) ?_ fun n =>
          Ok.bind (Q := fun _ s => LS K s) (Ok.ite (fun _ => ?_) fun _ => Ok.pure fun s hs => hs.2) fun _ => Ok.upd ?_
        · intro s hs b' s'' hb
          rw [num_wf hs.1.1] at hb
          cases hb; exact hs
        · intro s hs b' s'' hb
          exact update_ls K hs.1 hs.2 _ _ rfl hb
        · exact fun s hs => hs
      refine hrest _ ?_ b s' heq
      rw [hP]
      refine ⟨⟨allocate_wfe K, ?_⟩, rfl⟩
      show (kw.auto && !kw.direct) = true
      rw [ha, hd]; rfl
    · cases h

/-! ## Every operation -/

theorem run_ls {n : Nat} {s : Orb α} (hw : WFE n s) (h : LS K s) (o : Op α) (ho : o.lazySafe K s)
    (hok : o.stepwise = true → (o.run K s).1 = .ok ()) : LS K (o.run K s).2 := by
  have hk : ∀ {x : Py α Unit}, Keeps (With n (LS K)) x (fun _ => True) → LS K (x s).2 := fun hx => (hx s ⟨hw, h⟩).1.2
  have hu : Keeps (With n (LS K)) (pure () : Py α Unit) (fun _ => True) := Keeps.pure trivial
  cases o with
  | read g => exact hk ((rc_read K (LS.closed K n) g).bind fun _ _ => hu)
  | setKep i v => exact set_kep_ls K h ho i v
  | setCart i v => exact set_cart_ls K h ho i v
  | setKepler v => exact set_kepler_ls K h v
  | setCartesian v => exact set_cartesian_ls K h v
  | setR v => exact set_r_ls K h v
  | setV v => exact set_v_ls K h v
  | setTrue v => exact set_anomaly_ls K h .tru (.inl rfl) v
  | setEcc v => exact set_anomaly_ls K h .ecc (.inr ho) v
  | setMean v => exact set_anomaly_ls K h .mean (.inr ho) v
  | setPeriod v => exact h
  | setMeanMotion v =>
    show LS K (set_mean_motion K v s).2
    unfold set_mean_motion
    rcases guardKep_cases s with ⟨e, he⟩ | he
    · rw [bind_err he]; exact h
    · rw [bind_ok he, bind_err (x := set_period v) rfl]; exact h
  | setVelocity v => exact set_velocity_ls K hw h v
  | setEquinoctial v => exact set_equinoctial_ls K hw h ho v (hok rfl)
  | setType t => exact set_type_ls K hw h t
  | propagate dt => exact propagate_ls K hw h dt
  | update inds u => exact update_ls K hw h inds u ho (Prod.ext (hok rfl) rfl)
  | add k u => exact add_ls K hw h u (Prod.ext (hok rfl) rfl)
  | delete inds => exact delete_ls K hw h inds
  | allocate k => exact ⟨h.1, sound_blank K (n := k) rfl⟩
  | calcCartesian inds => exact calculate_cartesian_ls K hw h ho inds
  | calcKepler inds => exact calculate_kepler_ls K hw h inds
  | calcTrue inds => exact hk (rc_calc_true K (LS.closed K n).toKepClosed inds)
  | calcMean inds => exact hk (rc_calc_mean K (LS.closed K n).toKepClosed inds)
  | calcEcc inds => exact hk (rc_calc_ecc K (LS.closed K n).toKepClosed inds ho)
  | iter => exact h
  | next =>
    have hn : Keeps (With n (LS K)) (next K) (fun _ => True) := by
      refine Keeps.self.bind fun s hs => ?_
      split
      · exact Keeps.raise
      · refine rc_num.bind fun _ _ => Keeps.ite (fun _ => ?_) fun _ => Keeps.raise
        refine Keeps.bind (Keeps.upd ?_) fun _ _ => Keeps.self.bind fun _ _ => Keeps.lift.mono fun _ _ => trivial
        exact fun t ht => ⟨shape_wfe ht.1 rfl rfl rfl rfl rfl rfl rfl rfl, ht.2⟩
    exact hk (hn.bind fun _ _ => hu)
  | writeM v => exact ho.elim
  | setFlags a b c d => exact ho.elim
  | setDegrees b => exact ho.elim
  | setGM G M0 => exact ho.elim
  | setOpts o => exact ho.elim

theorem lazySafe_shapely {s : Orb α} {o : Op α} (h : o.lazySafe K s) : o.shapely := by
  cases o <;> first | exact h | trivial

theorem history_ls {M0 : α} {kw : InitKw α} {u : Upd α} {s : Orb α} (ha : kw.auto = true) (hd : kw.direct = false)
    (h : init K M0 kw u = .ok s) (ops : List (Op α)) (hops : LazyHistory K s ops) : ∃ n, With n (LS K) (exec K s ops) := by
  have key : ∀ (ops : List (Op α)) (s : Orb α), (∃ n, With n (LS K) s) → LazyHistory K s ops → ∃ n, With n (LS K) (exec K s ops) := by
    intro ops
    induction ops with
    | nil => intro s hn _; exact hn
    | cons o ops ih =>
      intro s ⟨n, hw, hn⟩ ⟨h1, h2, h3⟩
      rw [exec_cons]
      obtain ⟨k, hk⟩ := run_wfe K hw o (lazySafe_shapely K h1)
      exact ih _ ⟨k, hk, run_ls K hw hn o h1 h2⟩ h3
  exact key ops s ⟨_, init_wfe K h, init_ls K ha hd h⟩ hops

/-! ## C31 -/

/-- what two queries return: the lists have an entry for every orbit, and for every orbit without NaN one element set is the
conversion of the other (with the mass, anomaly type and settings of the object) -/
def Consistent (s : Orb α) (ks : List (Kep α)) (cs : List (Cart α)) : Prop :=
  ks.length = s.m.length ∧ cs.length = s.m.length ∧
  ∀ (j : Nat) (k : Kep α) (c : Cart α) (m : α), ks[j]? = some k → cs[j]? = some c → s.m[j]? = some m →
    k.any K.isnan = false → c.any K.isnan = false →
    c = cartOfKep K s.type s.opts s.degrees (K.mu s.G s.M0 m) k ∨ k = kepOfCart K s.type s.degrees (K.mu s.G s.M0 m) c

theorem get_cartesian_run (s : Orb α) : get_cartesian K s = (.ok (cartCheck K s).cart, cartCheck K s) := rfl
theorem get_kepler_run (s : Orb α) : get_kepler K s = (.ok (kepCheck K s).kep, kepCheck K s) := rfl

theorem kepCheck_getElem? {s : Orb α} {j : Nat} {k : Kep α} {c : Cart α} {m : α} (hl : lazy s = true)
    (hc : s.cart[j]? = some c) (hm : s.m[j]? = some m) (hk : (kepCheck K s).kep[j]? = some k) :
    (checkSet K s j = true ∧ k = kepOfCart K s.type s.degrees (K.mu s.G s.M0 m) c) ∨ (checkSet K s j = false ∧ s.kep[j]? = some k) := by
  rw [kepCheck_eq] at hk
  obtain ⟨k0, hk0, hkk⟩ := mapIdx_some hk
  by_cases hs : checkSet K s j = true
  · left
    refine ⟨hs, ?_⟩
    rw [if_pos hs] at hkk
    rw [← hkk, cartAt_of K hc, muAt_of K hm]
  · right
    rw [if_neg hs] at hkk
    exact ⟨by simpa using hs, by rw [hk0, hkk]⟩

theorem cart_then_kep {n : Nat} {t : Orb α} (hw : WFE n t) (h : LS K t) :
    Consistent K t (kepCheck K (cartCheck K t)).kep (cartCheck K t).cart := by
  have hwu := cartCheck_wfe K t hw
  have hu := h.cartCheck K hw
  refine ⟨by rw [(kepCheck_wfe K _ hwu).1.kep, hw.1.m], by rw [hwu.1.cart, hw.1.m], ?_⟩
  intro j k c m hk hc hm hkn hcn
  obtain ⟨s1, hs1, hcore⟩ := cartCheck_sound_eq K hw.1 h.1 h.2
  obtain ⟨d, hd⟩ : ∃ d, d = doCart K (fun j => !t.cartCalc.getD j true) t := ⟨_, rfl⟩
  rw [← hd] at hcore
  have hset : SameSet t (cartCheck K t) := by
    have : SameSet t s1 := by
      rcases hs1 with ⟨rfl, _⟩ | ⟨_, rfl⟩
      · exact ⟨rfl, rfl, rfl, rfl, rfl⟩
      · rw [kepCheck_eq]; exact ⟨rfl, rfl, rfl, rfl, rfl⟩
    rw [hcore]
    exact ⟨this.1, this.2, this.3, this.4, this.5⟩
  have hset' : SameSet (cartCheck K t) t := ⟨hset.1.symm, hset.2.symm, hset.3.symm, hset.4.symm, hset.5.symm⟩
  have h1m : s1.m = t.m := by
    rcases hs1 with ⟨rfl, _⟩ | ⟨_, rfl⟩
    · rfl
    · rw [kepCheck_eq]; rfl
  have h1c : s1.cart = t.cart := by
    rcases hs1 with ⟨rfl, _⟩ | ⟨_, rfl⟩
    · rfl
    · rw [kepCheck_eq]; rfl
  have h1cc : s1.cartCalc = t.cartCalc := by
    rcases hs1 with ⟨rfl, _⟩ | ⟨_, rfl⟩
    · rfl
    · rw [kepCheck_eq]; rfl
  have hum : (cartCheck K t).m = t.m := by rw [hcore.m]; exact h1m
  have huk : (cartCheck K t).kep = s1.kep := by rw [hcore.kep]; rfl
  have huc : (cartCheck K t).cart = (recalcCart K d s1).cart := hcore.cart
  have hucc : (cartCheck K t).cartCalc = (recalcCart K d s1).cartCalc := by rw [hcore]
  have hmu : (cartCheck K t).m[j]? = some m := by rw [hum]; exact hm
  show AgreeAt K t k c m
  rcases kepCheck_getElem? K hu.1 hc hmu hk with ⟨_, he⟩ | ⟨hck, hkj⟩
  · exact AgreeAt.set K hset' (.inr he)
  · have hjn : j < n := by rw [← hw.1.m]; exact lt_of_getElem? hm
    obtain ⟨a, ha⟩ : ∃ a, (cartCheck K t).kepCalc[j]? = some a := ⟨_, List.getElem?_eq_getElem (by rw [hwu.1.kepCalc]; exact hjn)⟩
    obtain ⟨b, hb⟩ : ∃ b, (cartCheck K t).cartCalc[j]? = some b := ⟨_, List.getElem?_eq_getElem (by rw [hwu.1.cartCalc]; exact hjn)⟩
    have ha' : a = true := by
      rw [checkSet, hu.1, stale_some ha, cartOk_of K hc, hcn] at hck
      simpa using hck
    cases hbt : b with
    | true => exact AgreeAt.set K hset' ((hu.2 j k c m a b hkj hc hmu ha hb hkn hcn).1 ha' hbt)
    | false =>
      rw [hbt, hucc] at hb
      obtain ⟨b0, hb0, hbb⟩ := mapIdx_some hb
      have hdj : d j = false := by
        by_contra hx
        rw [if_pos (by simpa using hx)] at hbb
        cases hbb
      rw [hdj] at hbb
      simp only [Bool.false_eq_true, if_false] at hbb
      subst hbb
      rw [huc] at hc
      obtain ⟨c0, hc0, hcc⟩ := mapIdx_some hc
      rw [hdj] at hcc
      simp only [Bool.false_eq_true, if_false] at hcc
      subst hcc
      rw [h1c] at hc0
      rw [h1cc] at hb0
      rw [huk] at hkj
      have hold : ∀ k', t.kep[j]? = some k' → k'.any K.isnan = true := by
        intro k' hk'
        rw [hd, doCart_eq] at hdj
        have hst : stale t.cartCalc j = true := by rw [stale_some hb0]; rfl
        rw [show (!t.cartCalc.getD j true) = true from hst, kepOk_of K hk'] at hdj
        simpa using hdj
      rcases hs1 with ⟨rfl, _⟩ | ⟨_, rfl⟩
      · rw [hold k hkj] at hkn; cases hkn
      · rcases kepCheck_getElem? K h.1 hc0 hm hkj with ⟨_, he⟩ | ⟨_, hkj⟩
        · exact .inr he
        · rw [hold k hkj] at hkn; cases hkn

theorem kep_then_cart {n : Nat} {t : Orb α} (hw : WFE n t) (h : LS K t) :
    Consistent K t (kepCheck K t).kep (cartCheck K (kepCheck K t)).cart := by
  have hwu := kepCheck_wfe K t hw
  have hu := h.refreshed K
  refine ⟨by rw [hwu.1.kep, hw.1.m], by rw [(cartCheck_wfe K _ hwu).1.cart, hw.1.m], ?_⟩
  intro j k c m hk hc hm hkn hcn
  have hset : SameSet (kepCheck K t) t := by rw [kepCheck_eq]; exact ⟨rfl, rfl, rfl, rfl, rfl⟩
  have hmu : (kepCheck K t).m[j]? = some m := by rw [kepCheck_eq]; exact hm
  show AgreeAt K t k c m
  refine AgreeAt.set K hset ?_
  generalize kepCheck K t = u at hwu hu hk hc hmu
  obtain ⟨⟨hl, hsnd⟩, hup⟩ := hu
  have hl' : (u.auto && !u.direct) = true := hl
  have hcc : cartCheck K u = recalcCart K (doCart K (fun j => !u.cartCalc.getD j true) u) u := by
    unfold cartCheck
    rw [if_pos hl']
    exact calcCart_eq K _ u hwu.1 (.inr (upToDate_fresh K hwu.1 hup))
  rw [hcc] at hc
  obtain ⟨c0, hc0, hce⟩ := mapIdx_some hc
  by_cases hd : doCart K (fun j => !u.cartCalc.getD j true) u j = true
  · rw [if_pos hd, kepAt_of K hk, muAt_of K hmu] at hce
    exact .inl hce.symm
  · rw [if_neg hd] at hce
    subst hce
    have hjn : j < n := by rw [← hwu.1.m]; exact lt_of_getElem? hmu
    obtain ⟨a, ha⟩ : ∃ a, u.kepCalc[j]? = some a := ⟨_, List.getElem?_eq_getElem (by rw [hwu.1.kepCalc]; exact hjn)⟩
    obtain ⟨b, hb⟩ : ∃ b, u.cartCalc[j]? = some b := ⟨_, List.getElem?_eq_getElem (by rw [hwu.1.cartCalc]; exact hjn)⟩
    have ha' : a = true := by
      cases a
      · rw [hup j c0 hc0 ha] at hcn; cases hcn
      · rfl
    have hb' : b = true := by
      rw [doCart_eq] at hd
      rw [show (!u.cartCalc.getD j true) = !b from stale_some hb, kepOk_of K hk, hkn] at hd
      simpa using hd
    exact (hsnd j k c0 m a b hk hc0 hmu ha hb hkn hcn).1 ha' hb'

/-- C31 (partial): construct an object with `auto_update` and without `direct_update`, and apply any history of operations of
the kind `Op.lazySafe`, with any values and numbers of orbits, for any kernel.  Then reading `cartesian` and `kepler`, in
either order, returns element sets that agree for every orbit without NaN.  What is missing are the assignments of single
elements to a set that waits to be recalculated while the anomaly is not the true anomaly (`c31_false`), assignments of
masses (`c31_mass_ignored`) and settings, and `update` calls that raise. -/
theorem c31_partial (M0 : α) (kw : InitKw α) (u : Upd α) (s : Orb α) (ha : kw.auto = true) (hd : kw.direct = false)
    (h : init K M0 kw u = .ok s) (ops : List (Op α)) (hops : LazyHistory K s ops) :
    (∃ ks cs t', get_cartesian K (exec K s ops) = (.ok cs, t') ∧ (get_kepler K t').1 = .ok ks ∧ Consistent K (exec K s ops) ks cs) ∧
    (∃ ks cs t', get_kepler K (exec K s ops) = (.ok ks, t') ∧ (get_cartesian K t').1 = .ok cs ∧ Consistent K (exec K s ops) ks cs) := by
  obtain ⟨n, hw, hs⟩ := history_ls K ha hd h ops hops
  exact ⟨⟨_, _, _, get_cartesian_run K _, rfl, cart_then_kep K hw hs⟩, ⟨_, _, _, get_kepler_run K _, rfl, kep_then_cart K hw hs⟩⟩

/-- In lazy mode `update(m=..)` marks nothing as out of date: both element sets and all flags stay as they were although the
gravitational parameter that connects them has changed. -/
theorem c31_mass_ignored {n : Nat} (s s' : Orb α) (hs : OneEntryPerOrbit s n) (inds : Inds) (v : Val α)
    (h : update K inds { m := some v } s = (.ok (), s')) :
    ∃ ps vs ms, Selects n inds ps ∧ v.Row ps.length vs ∧ Written ps vs s.m ms ∧ s' = { s with m := ms } := by
  obtain ⟨ms, _, hm, hcase⟩ := update_elements_ok K s s' hs inds _ rfl rfl h
  obtain ⟨_, ps, vs, h1, h2, h3⟩ := hm v rfl
  refine ⟨ps, vs, ms, pos_selects.mp h1, row_of_spread h2, h3, ?_⟩
  rcases hcase with ⟨_, _, he⟩ | ⟨_, ⟨i, hi⟩, _⟩ | ⟨_, ⟨i, hi⟩, _⟩
  · exact he
  · exact absurd rfl hi
  · exact absurd rfl hi

/-- reading `kepler` brings the Kepler elements up to date, so that single elements can be assigned -/
theorem c31_read_first (s : Orb α) (hl : s.auto = true ∧ s.direct = false) : KepUpToDate K ((Op.read .kepler).run K s).2 :=
  upToDate_kepCheck K (lazy_iff.mpr hl)

/-- a case of `c31_partial`: two orbits with mean anomalies, both sets assigned in turn, a single element changed after a read -/
example (M0 G x y : α) (o : SolverOpts α) (k : Kep α) (c : Cart α) :
    ∃ s, init K M0 { G := G, opts := o, n := 2, direct := false, type := some .mean } {} = .ok s ∧
      LazyHistory K s [.setKepler (.mat [k, k]), .update (.list [1]) { cartesian := some (.mat [c]) }, .setCartesian (.mat [c, c]),
        .read .kepler, .setKep 0 (.sc x), .read .cartesian, .setTrue (.sc y), .propagate (.sc x), .setType (some .tru), .delete (.int 0)] := by
  refine ⟨_, init_plain K M0 _ .mean rfl rfl, ?_⟩
  refine ⟨trivial, nofun, rfl, fun _ => rfl, trivial, nofun, trivial, nofun, ?_⟩
  refine ⟨.inr (c31_read_first K _ ⟨rfl, rfl⟩), nofun, ?_⟩
  exact ⟨trivial, nofun, trivial, nofun, trivial, nofun, trivial, nofun, trivial, nofun, trivial⟩

/-! ## Contradictions -/

/-- One orbit, both sets complete and both marked out of date, anomaly not the true anomaly: the refresh of the Cartesian
state takes the anomaly of the refreshed Kepler elements and the rest of the old ones. -/
theorem cartCheck_both {s : Orb α} {k : Kep α} {c : Cart α} {m x : α} (hl : lazy s = true) (ht : s.type ≠ .tru) (hk : s.kep = [k])
    (hc : s.cart = [c]) (hm : s.m = [m]) (hx : s.tA = [x]) (hkc : s.kepCalc = [false]) (hcc : s.cartCalc = [false])
    (hkn : k.any K.isnan = false) (hcn : c.any K.isnan = false) :
    (cartCheck K s).kep = [kepOfCart K s.type s.degrees (K.mu s.G s.M0 m) c] ∧ (cartCheck K s).kepCalc = [true] ∧
    (cartCheck K s).cart = [K.kepToCart s.degrees (K.mu s.G s.M0 m) { k with
      nu := toTrue K s.type s.opts s.degrees (kepOfCart K s.type s.degrees (K.mu s.G s.M0 m) c).nu
        (kepOfCart K s.type s.degrees (K.mu s.G s.M0 m) c).e }] := by
  obtain ⟨d, hd⟩ : ∃ d, d = doCart K (fun j => !s.cartCalc.getD j true) s := ⟨_, rfl⟩
  have hd0 : d 0 = true := by rw [hd]; simp [doCart, hcc, hk, kepAt, hkn]
  have hany : anyDo s.kep.length d = true := by rw [hk]; simp [anyDo, hd0]
  have hl' : (s.auto && !s.direct) = true := hl
  have hchk : checkSet K (markCart d s) 0 = true := by
    show (lazy s && stale s.kepCalc 0 && cartOk K s 0) = true
    rw [hl, hkc]
    simp [stale, cartOk, hc, cartAt, hcn]
  have he : cartCheck K s = storeCart K d (fun j => { kepAt K (markCart d s) j with
      nu := (calcTrue K false d (markCart d s)).tA.getD j K.nan }) (calcTrue K false d (markCart d s)) := by
    unfold cartCheck calcCart
    simp only [← hd]
    rw [if_pos hl', if_pos hany, if_neg ht]
  have htr : calcTrue K false d (markCart d s) = storeTrue K d (trueFn K false s) (kepCheck K (markCart d s)) (kepCheck K (markCart d s)) := by
    rw [calcTrue_eq]; rfl
  have hkep : (kepCheck K (markCart d s)).kep = [kepOfCart K s.type s.degrees (K.mu s.G s.M0 m) c] := by
    rw [kepCheck_eq]
    show s.kep.mapIdx _ = _
    rw [hk]
    simp only [List.mapIdx_cons, List.mapIdx_nil, hchk, if_true]
    rw [cartAt_of K (show (markCart d s).cart[0]? = some c by show s.cart[0]? = _; rw [hc]; rfl),
      muAt_of K (show (markCart d s).m[0]? = some m by show s.m[0]? = _; rw [hm]; rfl)]
    rfl
  have hkcc : (kepCheck K (markCart d s)).kepCalc = [true] := by
    rw [kepCheck_eq]
    show s.kepCalc.mapIdx _ = _
    rw [hkc]
    simp only [List.mapIdx_cons, List.mapIdx_nil, hchk, if_true]
  have hset := kepCheck_settings K (markCart d s)
  have hta : (kepCheck K (markCart d s)).tA = [x] := by rw [kepCheck_eq]; exact hx
  have hXc : (kepCheck K (markCart d s)).cart = [c] := by rw [kepCheck_eq]; exact hc
  have hXm : muAt K (kepCheck K (markCart d s)) 0 = K.mu s.G s.M0 m := by
    rw [kepCheck_eq]; exact muAt_of K (s := s) (by rw [hm]; rfl)
  have hXd : (kepCheck K (markCart d s)).degrees = s.degrees := hset.2.1
  rw [he, htr]
  generalize kepCheck K (markCart d s) = X at hkep hkcc hta hXc hXm hXd
  have hX0 : kepAt K X 0 = kepOfCart K s.type s.degrees (K.mu s.G s.M0 m) c := kepAt_of K (by rw [hkep]; rfl)
  refine ⟨hkep, hkcc, ?_⟩
  have h1 : (storeTrue K d (trueFn K false s) X X).tA = [toTrue K s.type s.opts s.degrees
      (kepOfCart K s.type s.degrees (K.mu s.G s.M0 m) c).nu (kepOfCart K s.type s.degrees (K.mu s.G s.M0 m) c).e] := by
    show X.tA.mapIdx _ = _
    rw [hta]
    simp only [List.mapIdx_cons, List.mapIdx_nil, hd0, if_true, hX0, trueFn_eq]
  have hk0 : kepAt K (markCart d s) 0 = k := kepAt_of K (show s.kep[0]? = some k by rw [hk]; rfl)
  show X.cart.mapIdx _ = _
  rw [hXc]
  simp only [List.mapIdx_cons, List.mapIdx_nil, hd0, if_true, h1, hk0]
  show [K.kepToCart X.degrees (muAt K X 0) _] = _
  rw [hXd, hXm]
  rfl

/-- a new object with one orbit in lazy mode, with anomaly type `ty` -/
def lazyBlank (M0 G : α) (o : SolverOpts α) (ty : Anom) : Orb α :=
  { (allocate K 1 (empty M0 { G := G, opts := o, direct := false } ty)).2 with kro := false, cro := false }

theorem init_lazyBlank (M0 G : α) (o : SolverOpts α) (ty : Anom) :
    init K M0 { G := G, opts := o, direct := false, type := some ty } {} = .ok (lazyBlank K M0 G o ty) :=
  init_plain K M0 { G := G, opts := o, direct := false, type := some ty } ty rfl rfl

/-- an ellipse of eccentricity 1/2 in the reference plane, at its periapsis on the x axis (all three anomalies are 0) -/
noncomputable def atPeri (a : ℝ) : Kep ℝ := ⟨a, 1 / 2, 0, 0, 0, 0⟩

theorem atPeri_canonical {a : ℝ} (ha : 0 < a) : Canonical (atPeri a) := by
  have h1 := iLim_pos
  have h2 := iLim_lt
  have h3 := Real.pi_pos
  have h4 : eLim < 1 / 2 := by norm_num [eLim]
  refine ⟨⟨ha, by norm_num [atPeri], le_refl _, h3.le, by norm_num [atPeri], ?_, fun _ => rfl, ?_, ?_, ?_, ?_, ?_⟩, by norm_num [atPeri]⟩ <;>
    simp only [atPeri]
  · intro h; linarith
  · intro _ _; constructor <;> linarith
  · intro _ h; linarith
  · intro _; trivial
  · intro _; constructor <;> linarith
  · intro h; linarith

theorem atPeri_x (a : ℝ) (ha : 0 < a) : ((atPeri a).state 1).x = a / 2 := by
  simp only [atPeri, Kep.state, Kep.rx, Kep.ry, Kep.rad, Kep.ux, Kep.uy, Kep.px, Kep.slr]
  norm_num
  ring

theorem turn_zero : turn 0 = 0 := turn_of_mem le_rfl Real.two_pi_pos

theorem fx_trueToEcc_zero (g : KGarbage) : (fxKern g).trueToEcc false false (.fin 0) (.fin (1 / 2)) = .fin 0 := by
  show trueToEccentricEl g.ecc .f64 (.fin 0) (.fin (1 / 2)) = _
  rw [trueToEccentricEl_eli _ (by norm_num) (by norm_num)]
  exact congrArg FX.fin (scaleHalf_zero _)
theorem fx_eccToTrue_zero (g : KGarbage) : (fxKern g).eccToTrue false false (.fin 0) (.fin (1 / 2)) = .fin 0 := by
  show eccentricToTrueEl g.tru .f64 (.fin 0) (.fin (1 / 2)) = _
  rw [eccentricToTrueEl_eli _ (by norm_num) (by norm_num)]
  exact congrArg FX.fin (scaleHalf_zero _)

theorem peri_kepOfCart (g : KGarbage) {a : ℝ} (ha : 0 < a) :
    kepOfCart (fxKern g) .ecc false (.fin 1) ((atPeri a).state 1).fx = (atPeri a).fx := by
  have h := cartToKep_state g.ctk (deg := false) (k := atPeri a) (atPeri_canonical ha) one_pos
  have h' : (fxKern g).cartToKep false (.fin 1) ((atPeri a).state 1).fx = (atPeri a).fx := h
  simp only [kepOfCart, h', fromTrue]
  show ({ (atPeri a).fx with nu := (fxKern g).trueToEcc false false (.fin 0) (.fin (1 / 2)) } : Kep FX) = _
  rw [fx_trueToEcc_zero]
  rfl
theorem peri_cartOfKep (g : KGarbage) (o : SolverOpts FX) {a : ℝ} (ha : 0 < a) :
    cartOfKep (fxKern g) .ecc o false (.fin 1) (atPeri a).fx = ((atPeri a).state 1).fx := by
  simp only [cartOfKep, toTrue]
  show (fxKern g).kepToCart false (.fin 1) { (atPeri a).fx with nu := (fxKern g).eccToTrue false false (.fin 0) (.fin (1 / 2)) } = _
  rw [fx_eccToTrue_zero]
  exact kepToCart_fst g.h (deg := false) ((atPeri_canonical ha).toCanonicalAny.adm one_pos)

/-- a program that contradicts itself: assign Kepler elements, assign the Cartesian state that belongs to them, change `a` -/
noncomputable def contraOps : List (Op FX) :=
  [.setKepler (.mat [(atPeri 1).fx]), .setCartesian (.mat [((atPeri 1).state 1).fx]), .setKep 0 (.sc (.fin 2))]

/-- C31, refuted: with `type='eccentric'` and lazy updating, after `contraOps` the object returns the Cartesian state of an
orbit with semi-major axis 2 and Kepler elements with semi-major axis 1. -/
theorem c31_false (g : KGarbage) : ¬ ∀ (M0 : FX) (kw : InitKw FX) (u : Upd FX) (s : Orb FX) (ops : List (Op FX)),
    kw.auto = true → kw.direct = false → init (fxKern g) M0 kw u = .ok s →
    ∀ ks cs t', get_cartesian (fxKern g) (exec (fxKern g) s ops) = (.ok cs, t') → (get_kepler (fxKern g) t').1 = .ok ks →
    Consistent (fxKern g) (exec (fxKern g) s ops) ks cs := by
  intro h
  have hm : (fxKern g).mu 1 1 0 = .fin 1 := fx_mu g
  obtain ⟨s3, hs3⟩ : ∃ s3 : Orb FX, s3 = { lazyBlank (fxKern g) 1 1 .dflt .ecc with
    kep := [(⟨.fin 2, (atPeri 1).fx.e, (atPeri 1).fx.i, (atPeri 1).fx.om, (atPeri 1).fx.OM, (atPeri 1).fx.nu⟩ : Kep FX)], cart := [((atPeri 1).state 1).fx],
    kepCalc := [false], cartCalc := [false] } := ⟨_, rfl⟩
  have hex : exec (fxKern g) (lazyBlank (fxKern g) 1 1 .dflt .ecc) contraOps = s3 := by rw [hs3]; rfl
  obtain ⟨h1, h2, h3⟩ := cartCheck_both (fxKern g) (s := s3) (k := (atPeri 2).fx) (c := ((atPeri 1).state 1).fx) (m := 0) (x := .nan)
    (by rw [hs3]; rfl) (by rw [hs3]; intro h; cases h) (by rw [hs3]; rfl) (by rw [hs3]) (by rw [hs3]; rfl) (by rw [hs3]; rfl)
    (by rw [hs3]) (by rw [hs3]) (kep_fx_any _) (cart_fx_any _)
  have hs : s3.type = .ecc ∧ s3.degrees = false ∧ s3.G = 1 ∧ s3.M0 = 1 ∧ s3.opts = .dflt ∧ s3.m = [0] := by rw [hs3]; exact ⟨rfl, rfl, rfl, rfl, rfl, rfl⟩
  obtain ⟨e1, e2, e3, e4, e5, e6⟩ := hs
  rw [e1, e2, e3, e4, hm, peri_kepOfCart g one_pos] at h1 h3
  rw [e5] at h3
  have h3' : (cartCheck (fxKern g) s3).cart = [((atPeri 2).state 1).fx] := by
    rw [h3]
    exact congrArg (fun c => [c]) (peri_cartOfKep g .dflt two_pos)
  have hch : kepCheck (fxKern g) (cartCheck (fxKern g) s3) = cartCheck (fxKern g) s3 := by
    refine Fresh.check _ ?_
    intro j
    simp only [checkSet, h2]
    cases j with
    | zero => simp [stale]
    | succ j => simp [stale]
  have hc := h 1 _ {} _ contraOps rfl rfl (init_lazyBlank (fxKern g) 1 1 .dflt .ecc) [(atPeri 1).fx] [((atPeri 2).state 1).fx] _
    (by rw [hex, get_cartesian_run, h3']) (by rw [get_kepler_run, hch, h1])
  rw [hex] at hc
  have := hc.2.2 0 (atPeri 1).fx ((atPeri 2).state 1).fx 0 rfl rfl (by rw [e6]; rfl) (kep_fx_any _) (cart_fx_any _)
  rw [e1, e2, e3, e4, e5, hm, peri_kepOfCart g two_pos, peri_cartOfKep g .dflt one_pos] at this
  rcases this with h | h
  · have := congrArg Cart.x (Cart.fx_inj h)
    rw [atPeri_x _ one_pos, atPeri_x _ two_pos] at this
    norm_num at this
  · have := congrArg Kep.a (Kep.fx_inj h)
    norm_num [atPeri] at this

end Orbit
end Pyorb
