import Verif.OrbitOps

/-!
# C34: the per-orbit arrays of an `Orbit` keep one common length
-/

set_option linter.unusedSimpArgs false
set_option linter.unusedVariables false

namespace Pyorb
namespace Orbit
open Py
variable {α : Type} (K : Kern α)

/-- one entry per orbit everywhere, also in the cached eccentric anomalies -/
def WFE (n : Nat) (s : Orb α) : Prop := WF n s ∧ ∃ l, s.eA = .arr l ∧ l.length = n

theorem WFE.of {n : Nat} {s t : Orb α} (h : WFE n s) (ht : WF n t) (he : t.eA = s.eA) : WFE n t := by
  obtain ⟨l, h1, h2⟩ := h.2
  exact ⟨ht, l, he.trans h1, h2⟩

theorem eA_recalcKep (E : Nat → Bool) (s : Orb α) : (recalcKep K E s).eA = s.eA := rfl
theorem eA_calcKep (P : Nat → Bool) (s : Orb α) : (calcKep K depth P s).eA = s.eA := by
  rw [show depth = 1 + 2 from rfl, calcKep_eq]; rfl
theorem eA_kepCheck (s : Orb α) : (kepCheck K s).eA = s.eA := by rw [kepCheck_eq]; rfl
theorem eA_calcTrue (sc : Bool) (P : Nat → Bool) (s : Orb α) : (calcTrue K sc P s).eA = s.eA := by
  rw [calcTrue_eq]; exact eA_kepCheck K s
theorem eA_calcMean (sc : Bool) (P : Nat → Bool) (s : Orb α) : (calcMean K sc P s).eA = s.eA := by
  rw [calcMean_eq]; exact eA_kepCheck K s
theorem eA_calcCart (P : Nat → Bool) (s : Orb α) : (calcCart K P s).eA = s.eA := by
  unfold calcCart
  simp only
  split_ifs
  · rfl
  · exact eA_calcTrue K _ _ (markCart (doCart K P s) s)
  · rfl
theorem eA_cartCheck (s : Orb α) : (cartCheck K s).eA = s.eA := by
  unfold cartCheck
  split_ifs
  · exact eA_calcCart K _ s
  · rfl

section
variable {n : Nat}

theorem kepCheck_wfe (s : Orb α) (h : WFE n s) : WFE n (kepCheck K s) := h.of (h.1.kepCheck K) (eA_kepCheck K s)
theorem cartCheck_wfe (s : Orb α) (h : WFE n s) : WFE n (cartCheck K s) := h.of (h.1.cartCheck K) (eA_cartCheck K s)
theorem calcKep_wfe (P : Nat → Bool) (s : Orb α) (h : WFE n s) : WFE n (calcKep K depth P s) :=
  h.of (h.1.calcKep K P) (eA_calcKep K P s)
theorem calcCart_wfe (P : Nat → Bool) (s : Orb α) (h : WFE n s) : WFE n (calcCart K P s) :=
  h.of (h.1.calcCart K P) (eA_calcCart K P s)
theorem calcTrue_wfe (sc : Bool) (P : Nat → Bool) (s : Orb α) (h : WFE n s) : WFE n (calcTrue K sc P s) :=
  h.of (h.1.calcTrue K sc P) (eA_calcTrue K sc P s)
theorem calcMean_wfe (sc : Bool) (P : Nat → Bool) (s : Orb α) (h : WFE n s) : WFE n (calcMean K sc P s) :=
  h.of (h.1.calcMean K sc P) (eA_calcMean K sc P s)

/-- keeps the shape -/
abbrev Sh (n : Nat) {β : Type} (x : Py α β) (Q : β → Prop) : Prop := Keeps (WFE n) x Q

theorem num_sh : Sh n (num : Py α Nat) (fun k => k = n) := by
  intro s h
  rw [num_wf h.1]
  exact ⟨h, fun b hb => by cases hb; rfl⟩

theorem calculate_cartesian_sh (inds : Inds) : Sh n (calculate_cartesian K inds) (fun _ => True) :=
  num_sh.bind fun _ _ => Keeps.lift.bind fun _ _ => Keeps.upd (calcCart_wfe K _)
theorem calculate_kepler_sh (inds : Inds) : Sh n (calculate_kepler K inds) (fun _ => True) :=
  num_sh.bind fun _ _ => Keeps.lift.bind fun _ _ => Keeps.upd (calcKep_wfe K _)
theorem calc_true_anomaly_sh (inds : Inds) : Sh n (calc_true_anomaly K inds) (fun _ => True) := by
  refine Keeps.self.bind fun s hs => ?_
  split
  · exact Keeps.upd (calcTrue_wfe K _ _)
  · exact (Keeps.upd (kepCheck_wfe K)).bind fun _ _ => Keeps.raise
theorem calc_mean_anomaly_sh (inds : Inds) : Sh n (calc_mean_anomaly K inds) (fun _ => True) := by
  refine Keeps.self.bind fun s hs => ?_
  split
  · exact Keeps.upd (calcMean_wfe K _ _)
  · exact (Keeps.upd (kepCheck_wfe K)).bind fun _ _ => Keeps.raise

theorem ebind_ok {β γ : Type} {x : Except PyErr β} {f : β → Except PyErr γ} {c : γ} (h : (x >>= f) = .ok c) :
    ∃ b, x = .ok b ∧ f b = .ok c := by
  cases x with
  | error e => cases h
  | ok b => exact ⟨b, rfl, h⟩

theorem writeEcc_arr {c c' : Cache α} {inds : Inds} {vals : List α} (h : writeEcc c inds vals = .ok c') :
    ∃ l l', c = .arr l ∧ c' = .arr l' ∧ l'.length = l.length := by
  cases c with
  | sc x => cases h
  | arr l =>
    obtain ⟨ps, _, h⟩ := ebind_ok h
    obtain ⟨vs, _, h⟩ := ebind_ok h
    injection h with h
    exact ⟨l, _, rfl, h.symm, writeAt_length _ _ _ _⟩

theorem setEcc_wfe {s s' : Orb α} {l l' : List α} (hs : WFE n s) (hs' : WFE n s') (hl : s'.eA = .arr l) (hl' : l'.length = l.length) :
    WFE n { s with eA := .arr l' } := by
  obtain ⟨l0, h0, h1⟩ := hs'.2
  rw [hl] at h0
  cases h0
  exact ⟨⟨hs.1.m, hs.1.cart, hs.1.kep, hs.1.tA, hs.1.mA, hs.1.cartCalc, hs.1.kepCalc⟩, l', rfl, hl'.trans h1⟩

/-- `calc_eccentric_anomaly(inds)` keeps the shape if all orbits are selected or the anomaly is not the mean anomaly -/
theorem calc_eccentric_anomaly_sh (inds : Inds) (hi : inds = .all) : Sh n (calc_eccentric_anomaly K inds) (fun _ => True) := by
  refine (Keeps.upd (kepCheck_wfe K)).bind fun _ _ => Keeps.self.bind fun s1 hs1 => Keeps.lift.bind fun ps hps => ?_
  split
  · refine (Keeps.upd (kepCheck_wfe K)).bind fun _ _ => Keeps.self.bind fun s2 hs2 => Keeps.upd ?_
    intro s hs
    subst hi
    rw [pos_all] at hps
    injection hps with hps
    refine ⟨⟨hs.1.m, hs.1.cart, hs.1.kep, hs.1.tA, hs.1.mA, hs.1.cartCalc, hs.1.kepCalc⟩, _, rfl, ?_⟩
    rw [← hps, List.length_map, List.length_range, hs1.1.kep]
  · refine (Keeps.upd (kepCheck_wfe K)).bind fun _ _ => Keeps.self.bind fun s2 hs2 => Keeps.lift.bind fun c hc => Keeps.upd ?_
    intro s hs
    obtain ⟨l, l', h1, h2, h3⟩ := writeEcc_arr hc
    subst h2
    exact setEcc_wfe hs hs2 h1 h3
  · refine Keeps.lift.bind fun c hc => Keeps.upd ?_
    intro s hs
    obtain ⟨l, l', h1, h2, h3⟩ := writeEcc_arr hc
    subst h2
    exact setEcc_wfe hs hs1 h1 h3

/-! ### Getters -/

theorem get_kep_sh (i : Fin 6) : Sh n (get_kep K i) (fun l => l.length = n) :=
  (Keeps.upd (kepCheck_wfe K)).bind fun _ _ => Keeps.self.bind fun s hs => Keeps.pure (by simp [hs.1.kep])
theorem get_cart_sh (i : Fin 6) : Sh n (get_cart K i) (fun l => l.length = n) :=
  (Keeps.upd (cartCheck_wfe K)).bind fun _ _ => Keeps.self.bind fun s hs => Keeps.pure (by simp [hs.1.cart])
theorem get_r_sh : Sh n (get_r K) (fun l => l.length = n) :=
  (Keeps.upd (cartCheck_wfe K)).bind fun _ _ => Keeps.self.bind fun s hs => Keeps.pure (by simp [hs.1.cart])
theorem get_v_sh : Sh n (get_v K) (fun l => l.length = n) :=
  (Keeps.upd (cartCheck_wfe K)).bind fun _ _ => Keeps.self.bind fun s hs => Keeps.pure (by simp [hs.1.cart])
theorem get_cartesian_sh : Sh n (get_cartesian K) (fun l => l.length = n) :=
  (Keeps.upd (cartCheck_wfe K)).bind fun _ _ => Keeps.self.bind fun s hs => Keeps.pure hs.1.cart
theorem get_kepler_sh : Sh n (get_kepler K) (fun l => l.length = n) :=
  (Keeps.upd (kepCheck_wfe K)).bind fun _ _ => Keeps.self.bind fun s hs => Keeps.pure hs.1.kep
theorem get_period_sh : Sh n (get_period K) (fun l => l.length = n) :=
  (Keeps.upd (kepCheck_wfe K)).bind fun _ _ => (get_kep_sh K 0).bind fun a ha => Keeps.self.bind fun s hs =>
    Keeps.pure (by simp [ha, hs.1.m])
theorem get_mean_motion_sh : Sh n (get_mean_motion K) (fun l => l.length = n) :=
  (get_period_sh K).bind fun P hP => Keeps.self.bind fun s _ => Keeps.pure (by simp [hP])
theorem get_true_anomaly_sh : Sh n (get_true_anomaly K) (fun l => l.length = n) :=
  Keeps.self.bind fun s _ => Keeps.ite (fun _ => get_kep_sh K 5) fun _ =>
    (calc_true_anomaly_sh K _).bind fun _ _ => Keeps.self.bind fun s hs => Keeps.pure hs.1.tA
theorem get_mean_anomaly_sh : Sh n (get_mean_anomaly K) (fun l => l.length = n) :=
  Keeps.self.bind fun s _ => Keeps.ite (fun _ => get_kep_sh K 5) fun _ =>
    (calc_mean_anomaly_sh K _).bind fun _ _ => Keeps.self.bind fun s hs => Keeps.pure hs.1.mA
theorem get_eccentric_anomaly_sh : Sh n (get_eccentric_anomaly K) (fun l => l.length = n) := by
  refine Keeps.self.bind fun s _ => Keeps.ite (fun _ => get_kep_sh K 5) fun _ =>
    (calc_eccentric_anomaly_sh K _ rfl).bind fun _ _ => Keeps.self.bind fun s hs => Keeps.pure ?_
  obtain ⟨l, h1, h2⟩ := hs.2
  rw [h1]; exact h2
theorem get_apoapsis_sh : Sh n (get_apoapsis K) (fun l => l.length = n) :=
  (get_kep_sh K 1).bind fun e he => (get_kep_sh K 0).bind fun a ha => Keeps.pure (by simp [he, ha])
theorem get_periapsis_sh : Sh n (get_periapsis K) (fun l => l.length = n) :=
  (get_kep_sh K 1).bind fun e he => (get_kep_sh K 0).bind fun a ha => Keeps.pure (by simp [he, ha])
theorem get_mean_longitude_sh : Sh n (get_mean_longitude K) (fun l => l.length = n) :=
  (get_mean_anomaly_sh K).bind fun M hM => (get_kep_sh K 3).bind fun o ho => (get_kep_sh K 4).bind fun p hp =>
    Keeps.pure (by simp [hM, ho, hp])
theorem get_equinoctial_sh : Sh n (get_equinoctial K) (fun l => l.length = n) :=
  (get_kepler_sh K).bind fun k hk => (get_mean_anomaly_sh K).bind fun M hM => Keeps.self.bind fun s _ =>
    Keeps.pure (by simp [hM, hk])
theorem get_velocity_sh : Sh n (get_velocity K) (fun l => l.length = n) :=
  (Keeps.upd (cartCheck_wfe K)).bind fun _ _ => (Keeps.upd (cartCheck_wfe K)).bind fun _ _ =>
    Keeps.self.bind fun s hs => Keeps.pure (by simp [hs.1.cart])
theorem get_speed_sh : Sh n (get_speed K) (fun _ => True) :=
  (Keeps.upd (kepCheck_wfe K)).bind fun _ _ => (get_eccentric_anomaly_sh K).bind fun E hE => (get_kep_sh K 0).bind fun a ha =>
    (get_kep_sh K 1).bind fun e he => (get_kep_sh K 0).bind fun a2 ha2 => Keeps.self.bind fun s hs =>
      Keeps.lift.mono fun _ _ => trivial
theorem str_sh : Sh n (Orbit.str K) (fun _ => True) :=
  num_sh.bind fun _ _ => Keeps.self.bind fun s hs => Keeps.pure trivial

theorem read_sh (g : Read) : Sh n (g.get K) (fun _ => True) := by
  cases g with
  | num => exact num_sh.mono fun _ _ => trivial
  | m => exact Keeps.self.bind fun s _ => Keeps.pure trivial
  | str => exact str_sh K
  | r => exact (get_r_sh K).mono fun _ _ => trivial
  | v => exact (get_v_sh K).mono fun _ _ => trivial
  | cartesian => exact (get_cartesian_sh K).mono fun _ _ => trivial
  | cart i => exact (get_cart_sh K i).mono fun _ _ => trivial
  | kepler => exact (get_kepler_sh K).mono fun _ _ => trivial
  | kep i => exact (get_kep_sh K i).mono fun _ _ => trivial
  | period => exact (get_period_sh K).mono fun _ _ => trivial
  | meanMotion => exact (get_mean_motion_sh K).mono fun _ _ => trivial
  | trueAnomaly => exact (get_true_anomaly_sh K).mono fun _ _ => trivial
  | meanAnomaly => exact (get_mean_anomaly_sh K).mono fun _ _ => trivial
  | eccentricAnomaly => exact (get_eccentric_anomaly_sh K).mono fun _ _ => trivial
  | apoapsis => exact (get_apoapsis_sh K).mono fun _ _ => trivial
  | periapsis => exact (get_periapsis_sh K).mono fun _ _ => trivial
  | meanLongitude => exact (get_mean_longitude_sh K).mono fun _ _ => trivial
  | equinoctial => exact (get_equinoctial_sh K).mono fun _ _ => trivial
  | velocity => exact (get_velocity_sh K).mono fun _ _ => trivial
  | speed => exact get_speed_sh K

/-! ### Setters -/

/-- closes goals about records whose arrays are unchanged up to length -/
theorem WFE.mk' {s : Orb α} {l : List α} (h1 : s.m.length = n) (h2 : s.cart.length = n) (h3 : s.kep.length = n) (h4 : s.tA.length = n)
    (h5 : s.mA.length = n) (h6 : s.cartCalc.length = n) (h7 : s.kepCalc.length = n) (h8 : s.eA = .arr l) (h9 : l.length = n) :
    WFE n s := ⟨⟨h1, h2, h3, h4, h5, h6, h7⟩, l, h8, h9⟩

theorem setKepCol_wfe {s : Orb α} (h : WFE n s) {ks : List (Kep α)} (hk : ks.length = n) : WFE n { s with kep := ks } :=
  ⟨⟨h.1.m, h.1.cart, hk, h.1.tA, h.1.mA, h.1.cartCalc, h.1.kepCalc⟩, h.2⟩
theorem setCartCol_wfe {s : Orb α} (h : WFE n s) {cs : List (Cart α)} (hc : cs.length = n) : WFE n { s with cart := cs } :=
  ⟨⟨h.1.m, hc, h.1.kep, h.1.tA, h.1.mA, h.1.cartCalc, h.1.kepCalc⟩, h.2⟩
theorem setM_wfe {s : Orb α} (h : WFE n s) {ms : List α} (hm : ms.length = n) : WFE n { s with m := ms } :=
  ⟨⟨hm, h.1.cart, h.1.kep, h.1.tA, h.1.mA, h.1.cartCalc, h.1.kepCalc⟩, h.2⟩
theorem setCC_wfe {s : Orb α} (h : WFE n s) {f : List Bool} (hf : f.length = n) : WFE n { s with cartCalc := f } :=
  ⟨⟨h.1.m, h.1.cart, h.1.kep, h.1.tA, h.1.mA, hf, h.1.kepCalc⟩, h.2⟩
theorem setKC_wfe {s : Orb α} (h : WFE n s) {f : List Bool} (hf : f.length = n) : WFE n { s with kepCalc := f } :=
  ⟨⟨h.1.m, h.1.cart, h.1.kep, h.1.tA, h.1.mA, h.1.cartCalc, hf⟩, h.2⟩

theorem allFlags_length (l : List Bool) (b : Bool) : (allFlags l b).length = l.length := by simp [allFlags]

theorem afterKepEl_sh : Sh n (afterKepEl K) (fun _ => True) :=
  Keeps.self.bind fun s _ => Keeps.ite (fun _ => calculate_cartesian_sh K _) fun _ => Keeps.upd fun s hs =>
    setCC_wfe hs (by rw [allFlags_length, hs.1.cartCalc])
theorem afterCartEl_sh : Sh n (afterCartEl K) (fun _ => True) :=
  Keeps.self.bind fun s _ => Keeps.ite (fun _ => calculate_kepler_sh K _) fun _ => Keeps.upd fun s hs =>
    setKC_wfe hs (by rw [allFlags_length, hs.1.kepCalc])
theorem afterKep_sh : Sh n (afterKep K) (fun _ => True) :=
  Keeps.self.bind fun s _ => Keeps.ite (fun _ => calculate_cartesian_sh K _) fun _ => Keeps.upd fun s hs =>
    setKC_wfe (setCC_wfe hs (f := allFlags s.cartCalc false) (by rw [allFlags_length, hs.1.cartCalc]))
      (by rw [allFlags_length, hs.1.kepCalc])
theorem afterCart_sh : Sh n (afterCart K) (fun _ => True) :=
  Keeps.self.bind fun s _ => Keeps.ite (fun _ => calculate_kepler_sh K _) fun _ => Keeps.upd fun s hs =>
    setKC_wfe (setCC_wfe hs (f := allFlags s.cartCalc true) (by rw [allFlags_length, hs.1.cartCalc]))
      (by rw [allFlags_length, hs.1.kepCalc])
theorem guardKep_sh : Sh n (guardKep : Py α Unit) (fun _ => True) :=
  Keeps.self.bind fun s _ => Keeps.ite (fun _ => Keeps.raise) fun _ => Keeps.pure trivial
theorem guardCart_sh : Sh n (guardCart : Py α Unit) (fun _ => True) :=
  Keeps.self.bind fun s _ => Keeps.ite (fun _ => Keeps.raise) fun _ => Keeps.pure trivial

theorem set_kep_sh (i : Fin 6) (v : Val α) : Sh n (set_kep K i v) (fun _ => True) :=
  guardKep_sh.bind fun _ _ => Keeps.self.bind fun s hs => Keeps.lift.bind fun vs hvs =>
    (Keeps.upd fun t ht => setKepCol_wfe ht (by simp [ht.1.kep, Val.spread_length hvs, hs.1.kep])).bind fun _ _ => afterKepEl_sh K
theorem set_cart_sh (i : Fin 6) (v : Val α) : Sh n (set_cart K i v) (fun _ => True) :=
  guardCart_sh.bind fun _ _ => Keeps.self.bind fun s hs => Keeps.lift.bind fun vs hvs =>
    (Keeps.upd fun t ht => setCartCol_wfe ht (by simp [ht.1.cart, Val.spread_length hvs, hs.1.cart])).bind fun _ _ =>
      afterCartEl_sh K
theorem set_kepler_sh (v : Val6 α (Kep α)) : Sh n (set_kepler K v) (fun _ => True) :=
  guardKep_sh.bind fun _ _ => Keeps.self.bind fun s hs => Keeps.lift.bind fun vs hvs =>
    (Keeps.upd fun t ht => setKepCol_wfe ht (by simp [Val6.setter_length hvs, hs.1.kep])).bind fun _ _ => afterKep_sh K
theorem set_cartesian_sh (v : Val6 α (Cart α)) : Sh n (set_cartesian K v) (fun _ => True) :=
  guardCart_sh.bind fun _ _ => Keeps.self.bind fun s hs => Keeps.lift.bind fun vs hvs =>
    (Keeps.upd fun t ht => setCartCol_wfe ht (by simp [Val6.setter_length hvs, hs.1.cart])).bind fun _ _ => afterCart_sh K
theorem set_r_sh (v : Val6 α (Tri α)) : Sh n (set_r K v) (fun _ => True) :=
  guardCart_sh.bind fun _ _ => Keeps.self.bind fun s hs => Keeps.lift.bind fun vs hvs =>
    (Keeps.upd fun t ht => setCartCol_wfe ht (by simp [ht.1.cart, Val6.spread_length hvs, hs.1.cart])).bind fun _ _ =>
      afterCart_sh K
theorem set_v_sh (v : Val6 α (Tri α)) : Sh n (set_v K v) (fun _ => True) :=
  guardCart_sh.bind fun _ _ => Keeps.self.bind fun s hs => Keeps.lift.bind fun vs hvs =>
    (Keeps.upd fun t ht => setCartCol_wfe ht (by simp [ht.1.cart, Val6.spread_length hvs, hs.1.cart])).bind fun _ _ =>
      afterCart_sh K

theorem setConv_sh (deg : Bool) (f : α → α → α) (v : Val α) : Sh n (setConv K deg f v) (fun _ => True) :=
  (get_kep_sh K 1).bind fun _ _ => Keeps.lift.bind fun _ _ => set_kep_sh K 5 _
theorem set_true_anomaly_sh (v : Val α) : Sh n (set_true_anomaly K v) (fun _ => True) := by
  refine guardKep_sh.bind fun _ _ => Keeps.self.bind fun s hs => ?_
  split
  · exact (set_kep_sh K 5 v).bind fun _ _ => afterKepEl_sh K
  · exact (setConv_sh K _ _ _).bind fun _ _ => afterKepEl_sh K
  · exact (setConv_sh K _ _ _).bind fun _ _ => afterKepEl_sh K
theorem set_eccentric_anomaly_sh (v : Val α) : Sh n (set_eccentric_anomaly K v) (fun _ => True) := by
  refine guardKep_sh.bind fun _ _ => Keeps.self.bind fun s hs => ?_
  split
  · exact (set_kep_sh K 5 v).bind fun _ _ => afterKepEl_sh K
  · exact (setConv_sh K _ _ _).bind fun _ _ => afterKepEl_sh K
  · exact (setConv_sh K _ _ _).bind fun _ _ => afterKepEl_sh K
theorem set_mean_anomaly_sh (v : Val α) : Sh n (set_mean_anomaly K v) (fun _ => True) := by
  refine guardKep_sh.bind fun _ _ => Keeps.self.bind fun s hs => ?_
  split
  · exact (set_kep_sh K 5 v).bind fun _ _ => afterKepEl_sh K
  · exact (setConv_sh K _ _ _).bind fun _ _ => afterKepEl_sh K
  · exact (setConv_sh K _ _ _).bind fun _ _ => afterKepEl_sh K
theorem set_mean_motion_sh (v : Val α) : Sh n (set_mean_motion K v) (fun _ => True) :=
  guardKep_sh.bind fun _ _ => (Keeps.raise (Q := fun _ => True)).bind fun _ _ => afterKepEl_sh K
theorem set_velocity_sh (v : Val α) : Sh n (set_velocity K v) (fun _ => True) :=
  guardCart_sh.bind fun _ _ => (Keeps.upd (cartCheck_wfe K)).bind fun _ _ => (Keeps.upd (cartCheck_wfe K)).bind fun _ _ =>
    Keeps.self.bind fun s hs => Keeps.lift.bind fun vs _ => (set_v_sh K _).bind fun _ _ => afterCartEl_sh K
theorem set_equinoctial_sh (v : Equi α ⊕ List (Equi α)) : Sh n (set_equinoctial K v) (fun _ => True) :=
  Keeps.self.bind fun s hs => Keeps.lift.bind fun cs hcs =>
    (Keeps.upd fun t ht => setKepCol_wfe ht (by simp [ht.1.kep, Val6.spread_length hcs, hs.1.kep])).bind fun _ _ =>
      set_mean_anomaly_sh K _
theorem get_anomaly_sh (t : Anom) : Sh n (get_anomaly K t) (fun l => l.length = n) := by
  cases t
  · exact get_true_anomaly_sh K
  · exact get_eccentric_anomaly_sh K
  · exact get_mean_anomaly_sh K
theorem set_type_sh (t : Option Anom) : Sh n (set_type K t) (fun _ => True) := by
  unfold set_type
  split
  · exact Keeps.raise
  · refine Keeps.self.bind fun s hs => Keeps.ite (fun _ => Keeps.pure trivial) fun _ => ?_
    exact (get_anomaly_sh K _).bind fun x _ => (set_kep_sh K 5 _).bind fun _ _ => Keeps.upd fun t ht =>
      ⟨⟨ht.1.m, ht.1.cart, ht.1.kep, ht.1.tA, ht.1.mA, ht.1.cartCalc, ht.1.kepCalc⟩, ht.2⟩
theorem propagate_sh (dt : Val α) : Sh n (propagate K dt) (fun _ => True) :=
  (get_mean_anomaly_sh K).bind fun M _ => (get_mean_motion_sh K).bind fun m _ => Keeps.self.bind fun s _ =>
    Keeps.lift.bind fun nd _ => Keeps.lift.bind fun Ms _ => (set_mean_anomaly_sh K _).bind fun _ _ =>
      Keeps.self.bind fun s _ => Keeps.ite (fun _ => calculate_cartesian_sh K _) fun _ => Keeps.pure trivial

/-! ### `update` -/

theorem writeCols_length {C : Type} {const : α → C} {col : List α → Option C} {l l' : List C} {inds : Inds} {v : Val6 α C}
    (h : writeCols const col l inds v = .ok l') : l'.length = l.length := by
  unfold writeCols at h
  obtain ⟨ps, _, h⟩ := ebind_ok h
  split_ifs at h
  · obtain ⟨c, _, h⟩ := ebind_ok h
    injection h with h; rw [← h, writeAt_length]
  · obtain ⟨c, _, h⟩ := ebind_ok h
    injection h with h; rw [← h, writeAt_length]
theorem writeRow_length {C : Type} {set : C → α → C} {l l' : List C} {inds : Inds} {v : Val α}
    (h : writeRow set l inds v = .ok l') : l'.length = l.length := by
  unfold writeRow at h
  obtain ⟨ps, _, h⟩ := ebind_ok h
  obtain ⟨vs, _, h⟩ := ebind_ok h
  injection h with h; rw [← h, writeAt_length]
theorem writeFlags_length {l l' : List Bool} {inds : Inds} {b : Bool}
    (h : writeFlags l inds b = .ok l') : l'.length = l.length := by
  unfold writeFlags at h
  obtain ⟨ps, _, h⟩ := ebind_ok h
  injection h with h; rw [← h, writeAt_length]

theorem unit_sh : Sh n (pure () : Py α Unit) (fun _ => True) := Keeps.pure trivial

theorem updKepRow_sh (inds : Inds) (i : Fin 6) (v : Option (Val α)) : Sh n (updKepRow inds i v) (fun _ => True) := by
  unfold updKepRow
  split
  · exact unit_sh
  · exact Keeps.self.bind fun s hs => Keeps.lift.bind fun k hk =>
      Keeps.upd fun t ht => setKepCol_wfe ht (by rw [writeRow_length hk, hs.1.kep])
theorem updCartRow_sh (inds : Inds) (i : Fin 6) (v : Option (Val α)) : Sh n (updCartRow inds i v) (fun _ => True) := by
  unfold updCartRow
  split
  · exact unit_sh
  · exact Keeps.self.bind fun s hs => Keeps.lift.bind fun k hk =>
      Keeps.upd fun t ht => setCartCol_wfe ht (by rw [writeRow_length hk, hs.1.cart])
theorem updKepRows_sh (inds : Inds) (u : Fin 6 → Option (Val α)) (is : List (Fin 6)) :
    Sh n (updKepRows inds u is) (fun _ => True) := by
  induction is with
  | nil => exact unit_sh
  | cons i is ih => exact (updKepRow_sh inds i (u i)).bind fun _ _ => ih
theorem updCartRows_sh (inds : Inds) (u : Fin 6 → Option (Val α)) (is : List (Fin 6)) :
    Sh n (updCartRows inds u is) (fun _ => True) := by
  induction is with
  | nil => exact unit_sh
  | cons i is ih => exact (updCartRow_sh inds i (u i)).bind fun _ _ => ih
theorem markFlags_sh (inds : Inds) (kc cc : Bool) : Sh n (markFlags inds kc cc : Py α Unit) (fun _ => True) :=
  Keeps.self.bind fun s hs => Keeps.lift.bind fun f hf =>
    (Keeps.upd fun t ht => setKC_wfe ht (by rw [writeFlags_length hf, hs.1.kepCalc])).bind fun _ _ =>
      Keeps.lift.bind fun f' hf' => Keeps.upd fun t ht => setCC_wfe ht (by rw [writeFlags_length hf', hs.1.cartCalc])

theorem updAfterCart_sh (inds : Inds) : Sh n (updAfterCart K inds) (fun _ => True) :=
  Keeps.self.bind fun s _ => Keeps.ite (fun _ => calculate_kepler_sh K _) fun _ => markFlags_sh _ _ _
theorem updAfterKep_sh (inds : Inds) : Sh n (updAfterKep K inds) (fun _ => True) :=
  Keeps.self.bind fun s _ => Keeps.ite (fun _ => calculate_cartesian_sh K _) fun _ => markFlags_sh _ _ _
theorem when_sh (b : Bool) {x : Py α Unit} (hx : Sh n x (fun _ => True)) : Sh n (when b x) (fun _ => True) :=
  Keeps.ite (fun _ => hx) fun _ => unit_sh
theorem updGuard_sh (b c : Bool) : Sh n (updGuard b c : Py α Unit) (fun _ => True) :=
  (when_sh _ guardCart_sh).bind fun _ _ => (when_sh _ guardKep_sh).bind fun _ _ => when_sh _ Keeps.raise
theorem updM_sh (inds : Inds) (v : Option (Val α)) : Sh n (updM inds v) (fun _ => True) := by
  unfold updM
  split
  · exact unit_sh
  · exact Keeps.self.bind fun s hs => Keeps.ite (fun _ => Keeps.raise) fun _ => Keeps.lift.bind fun k hk =>
      Keeps.upd fun t ht => setM_wfe ht (by rw [writeRow_length hk, hs.1.m])
theorem updCartEls_sh (inds : Inds) (u : Upd α) : Sh n (updCartEls K inds u) (fun _ => True) :=
  Keeps.ite (fun _ => (updCartRows_sh inds _ _).bind fun _ _ => updAfterCart_sh K inds) fun _ => unit_sh
theorem updKepEls_sh (inds : Inds) (u : Upd α) : Sh n (updKepEls K inds u) (fun _ => True) :=
  Keeps.ite (fun _ => (updKepRows_sh inds _ _).bind fun _ _ => updAfterKep_sh K inds) fun _ => unit_sh

theorem update_sh (inds : Inds) (u : Upd α) : Sh n (update K inds u) (fun _ => True) := by
  unfold update
  split
  · exact guardCart_sh.bind fun _ _ => Keeps.self.bind fun s hs => Keeps.lift.bind fun c h =>
      (Keeps.upd fun t ht => setCartCol_wfe ht (by rw [writeCols_length h, hs.1.cart])).bind fun _ _ => updAfterCart_sh K inds
  · exact guardKep_sh.bind fun _ _ => Keeps.self.bind fun s hs => Keeps.lift.bind fun c h =>
      (Keeps.upd fun t ht => setKepCol_wfe ht (by rw [writeCols_length h, hs.1.kep])).bind fun _ _ => updAfterKep_sh K inds
  · exact (updGuard_sh _ _).bind fun _ _ => (updM_sh _ _).bind fun _ _ => (updCartEls_sh K _ _).bind fun _ _ =>
      updKepEls_sh K _ _

end

/-! ### Operations that change the number of orbits -/

/-- number of entries that `np.delete` keeps -/
def keptCount (ps : List Nat) (n : Nat) : Nat := ((List.range n).filter fun j => !ps.contains j).length

theorem npDelete_run {β : Type} (l : List β) (inds : Inds) :
    (∃ e, ∀ (γ : Type) (l' : List γ), l'.length = l.length → npDelete l' inds = .error e) ∨
    ∃ ps : List Nat, ∀ (γ : Type) (l' : List γ), l'.length = l.length →
      npDelete l' inds = .ok ((l'.zipIdx.filter fun x => !ps.contains x.2).map Prod.fst) := by
  cases h : inds.pos l.length with
  | ok ps => exact .inr ⟨ps, fun γ l' hl => by simp only [npDelete, hl, h]⟩
  | error e =>
    exact .inl ⟨inds.delErr e, fun γ l' hl => by simp only [npDelete, hl, h]⟩

theorem kept_length {β : Type} (l : List β) (ps : List Nat) :
    ((l.zipIdx.filter fun x => !ps.contains x.2).map Prod.fst).length = keptCount ps l.length := by
  rw [List.length_map, keptCount]
  have : List.range l.length = l.zipIdx.map Prod.snd := by simp [List.range_eq_range']
  rw [this, List.filter_map, List.length_map]
  rfl

theorem delete_wfe {n : Nat} {s : Orb α} (h : WFE n s) (inds : Inds) : ∃ k, WFE k (delete inds s).2 := by
  obtain ⟨l, hl, hn⟩ := h.2
  rcases npDelete_run s.m inds with ⟨e, he⟩ | ⟨ps, hp⟩
  · refine ⟨n, ?_⟩
    simp only [delete, self_bind, he α s.m rfl, liftErr_bind]
    exact h
  · have hw := h.1
    refine ⟨keptCount ps n, ?_⟩
    have e1 := hp _ s.m rfl
    have e2 := hp _ s.cart (by rw [hw.cart, hw.m])
    have e3 := hp _ s.kep (by rw [hw.kep, hw.m])
    have e4 := hp _ s.tA (by rw [hw.tA, hw.m])
    have e5 := hp _ l (by rw [hn, hw.m])
    have e6 := hp _ s.mA (by rw [hw.mA, hw.m])
    have e7 := hp _ s.cartCalc (by rw [hw.cartCalc, hw.m])
    have e8 := hp _ s.kepCalc (by rw [hw.kepCalc, hw.m])
    simp only [delete, self_bind, e1, e2, e3, e4, hl, e5, e6, e7, e8, liftOk_bind, upd_bind, upd_run]
    refine ⟨⟨?_, ?_, ?_, ?_, ?_, ?_, ?_⟩, _, rfl, ?_⟩ <;> simp only [kept_length]
    · rw [hw.m]
    · rw [hw.cart]
    · rw [hw.kep]
    · rw [hw.tA]
    · rw [hw.mA]
    · rw [hw.cartCalc]
    · rw [hw.kepCalc]
    · rw [hn]

/-- the arrays extended by `add` (orbit.py 278-317) -/
def extend (n : Nat) (s : Orb α) (l : List α) : Orb α :=
  { s with
    m := s.m ++ List.replicate n K.zero
    cart := s.cart ++ List.replicate n (Cart.const K.nan)
    kep := s.kep ++ List.replicate n (Kep.const K.nan)
    tA := s.tA ++ List.replicate n K.nan
    eA := .arr (l ++ List.replicate n K.nan)
    mA := s.mA ++ List.replicate n K.nan
    cartCalc := s.cartCalc ++ List.replicate n false
    kepCalc := s.kepCalc ++ List.replicate n false }

theorem extend_wfe {n k : Nat} {s : Orb α} {l : List α} (h : WF n s) (hl : l.length = n) : WFE (n + k) (extend K k s l) :=
  ⟨⟨by simp [extend, h.m], by simp [extend, h.cart], by simp [extend, h.kep], by simp [extend, h.tA], by simp [extend, h.mA],
    by simp [extend, h.cartCalc], by simp [extend, h.kepCalc]⟩, _, rfl, by simp [hl]⟩

theorem writeMass_sh {n : Nat} (inds : Inds) (v : Option (Val α)) : Sh n (writeMass inds v) (fun _ => True) := by
  unfold writeMass
  split
  · exact unit_sh
  · exact Keeps.self.bind fun s hs => Keeps.lift.bind fun k hk =>
      Keeps.upd fun t ht => setM_wfe ht (by rw [writeRow_length hk, hs.1.m])

theorem add_run {n : Nat} {s : Orb α} {l : List α} (h : WF n s) (hl : s.eA = .arr l) (k : Nat) (u : Upd α) :
    add K k u s = (do
      writeMass (.slice (some (n : Int)) (some ((n + k : Nat) : Int)) 1) u.m
      update K (.slice (some (n : Int)) (some ((n + k : Nat) : Int)) 1) { u with m := none }) (extend K k s l) := by
  unfold add
  rw [bind_ok (num_wf h)]
  simp only [upd_bind, self_bind, hl, liftOk_bind]
  rfl

theorem add_wfe {n : Nat} {s : Orb α} (h : WFE n s) (k : Nat) (u : Upd α) : WFE (n + k) (add K k u s).2 := by
  obtain ⟨l, hl, hn⟩ := h.2
  rw [add_run K h.1 hl]
  exact (((writeMass_sh _ _).bind fun _ _ => update_sh K _ _) _ (extend_wfe K h.1 hn)).1

theorem allocate_wfe {n : Nat} {s : Orb α} : WFE n (allocate K n s).2 :=
  ⟨⟨by simp [allocate], by simp [allocate], by simp [allocate], by simp [allocate], by simp [allocate], by simp [allocate],
    by simp [allocate]⟩, _, rfl, by simp⟩

/-- operations that keep the caches in shape: all but `calc_eccentric_anomaly` with a selection other than all orbits -/
def Op.shapely : Op α → Prop
  | .calcEcc inds => inds = .all
  | _ => True

theorem shape_wfe {n : Nat} {s t : Orb α} (h : WFE n s) (h1 : t.m = s.m) (h2 : t.cart = s.cart) (h3 : t.kep = s.kep) (h4 : t.tA = s.tA)
    (h5 : t.mA = s.mA) (h6 : t.cartCalc = s.cartCalc) (h7 : t.kepCalc = s.kepCalc) (h8 : t.eA = s.eA) : WFE n t :=
  h.of ⟨by rw [h1, h.1.m], by rw [h2, h.1.cart], by rw [h3, h.1.kep], by rw [h4, h.1.tA], by rw [h5, h.1.mA],
    by rw [h6, h.1.cartCalc], by rw [h7, h.1.kepCalc]⟩ h8

theorem next_sh {n : Nat} : Sh n (next K) (fun _ => True) := by
  refine Keeps.self.bind fun s hs => ?_
  split
  · exact Keeps.raise
  · refine num_sh.bind fun _ _ => Keeps.ite (fun _ => ?_) fun _ => Keeps.raise
    refine Keeps.bind (Keeps.upd ?_) fun _ _ => Keeps.self.bind fun _ _ => Keeps.lift.mono fun _ _ => trivial
    exact fun t ht => shape_wfe ht rfl rfl rfl rfl rfl rfl rfl rfl

theorem run_wfe {n : Nat} {s : Orb α} (h : WFE n s) (o : Op α) (ho : o.shapely) : ∃ k, WFE k (o.run K s).2 := by
  have hsh : ∀ {x : Py α Unit}, Sh n x (fun _ => True) → ∃ k, WFE k (x s).2 := fun hx => ⟨n, (hx s h).1⟩
  cases o with
  | read g => exact hsh ((read_sh K g).bind fun _ _ => unit_sh)
  | setKep i v => exact hsh (set_kep_sh K i v)
  | setCart i v => exact hsh (set_cart_sh K i v)
  | setKepler v => exact hsh (set_kepler_sh K v)
  | setCartesian v => exact hsh (set_cartesian_sh K v)
  | setR v => exact hsh (set_r_sh K v)
  | setV v => exact hsh (set_v_sh K v)
  | setTrue v => exact hsh (set_true_anomaly_sh K v)
  | setEcc v => exact hsh (set_eccentric_anomaly_sh K v)
  | setMean v => exact hsh (set_mean_anomaly_sh K v)
  | setPeriod v => exact hsh Keeps.raise
  | setMeanMotion v => exact hsh (set_mean_motion_sh K v)
  | setVelocity v => exact hsh (set_velocity_sh K v)
  | setEquinoctial v => exact hsh (set_equinoctial_sh K v)
  | setType t => exact hsh (set_type_sh K t)
  | propagate dt => exact hsh (propagate_sh K dt)
  | update inds u => exact hsh (update_sh K inds u)
  | add k u => exact ⟨_, add_wfe K h k u⟩
  | delete inds => exact delete_wfe h inds
  | allocate k => exact ⟨k, allocate_wfe K⟩
  | calcCartesian inds => exact hsh (calculate_cartesian_sh K inds)
  | calcKepler inds => exact hsh (calculate_kepler_sh K inds)
  | calcTrue inds => exact hsh (calc_true_anomaly_sh K inds)
  | calcMean inds => exact hsh (calc_mean_anomaly_sh K inds)
  | calcEcc inds => exact hsh (calc_eccentric_anomaly_sh K inds ho)
  | iter => exact ⟨n, shape_wfe h rfl rfl rfl rfl rfl rfl rfl rfl⟩
  | next => exact hsh ((next_sh K).bind fun _ _ => unit_sh)
  | writeM v =>
    exact hsh (Keeps.self.bind fun s hs => Keeps.lift.bind fun m hm =>
      Keeps.upd fun t ht => setM_wfe ht (by rw [Val.spread_length hm, hs.1.m]))
  | setFlags a b c d => exact ⟨n, shape_wfe h rfl rfl rfl rfl rfl rfl rfl rfl⟩
  | setDegrees b => exact ⟨n, shape_wfe h rfl rfl rfl rfl rfl rfl rfl rfl⟩
  | setGM G M0 => exact ⟨n, shape_wfe h rfl rfl rfl rfl rfl rfl rfl rfl⟩
  | setOpts o => exact ⟨n, shape_wfe h rfl rfl rfl rfl rfl rfl rfl rfl⟩

theorem init_wfe {M0 : α} {kw : InitKw α} {u : Upd α} {s : Orb α} (h : init K M0 kw u = .ok s) : WFE kw.n s := by
  unfold init at h
  split at h
  · cases h
  · rename_i ty _
    have key : WFE kw.n (initBody K kw { u with m := none } (empty M0 kw ty)).2 := by
      have hrest : Sh kw.n (do
          writeAllMass kw.m
          let n ← num
          when (decide (0 < n)) (update K .all { u with m := none })
          upd fun s => { s with kro := kw.kro, cro := kw.cro } : Py α Unit) (fun _ => True) := by
        have h1 : Sh kw.n (writeAllMass kw.m) (fun _ => True) := by
          unfold writeAllMass
          split
          · exact unit_sh
          · exact Keeps.self.bind fun s hs => Keeps.lift.bind fun m hm =>
              Keeps.upd fun t ht => setM_wfe ht (by rw [Val.spread_length hm, hs.1.m])
        have hfl : ∀ t : Orb α, WFE kw.n t → WFE kw.n { t with kro := kw.kro, cro := kw.cro } :=
          fun t ht => shape_wfe ht rfl rfl rfl rfl rfl rfl rfl rfl
        exact h1.bind fun _ _ => num_sh.bind fun _ _ => (when_sh _ (update_sh K _ _)).bind fun _ _ =>
          Keeps.upd hfl
      exact (hrest _ (allocate_wfe K (s := empty M0 kw ty))).1
    split at h
    · rename_i s' heq
      injection h with h
      rw [heq] at key
      rw [← h]; exact key
    · cases h

theorem exec_wfe {s : Orb α} (hs : ∃ n, WFE n s) (h : List (Op α)) (ho : ∀ o ∈ h, o.shapely) : ∃ n, WFE n (exec K s h) := by
  induction h generalizing s with
  | nil => exact hs
  | cons o h ih =>
    obtain ⟨n, hn⟩ := hs
    rw [exec_cons]
    exact ih (run_wfe K hn o (ho o (by simp))) fun o' h' => ho o' (by simp [h'])

/-! ## C34 -/

/-- what "one entry per orbit" means, independently of the invariant used in the proof -/
structure OneEntryPerOrbit (s : Orb α) (n : Nat) : Prop where
  masses : s.m.length = n
  cartesian : s.cart.length = n
  kepler : s.kep.length = n
  cachedTrue : s.tA.length = n
  cachedEccentric : ∃ l, s.eA = .arr l ∧ l.length = n
  cachedMean : s.mA.length = n
  cartesianFlags : s.cartCalc.length = n
  keplerFlags : s.kepCalc.length = n

/-- C34 (partial): an object made by the constructor, after any history of public operations, including ones that raise, has
one entry per orbit in every array, and `orb.num` is that number.  Left out: calls of `calc_eccentric_anomaly` with a
selection of orbits, for which the statement is false (`c34_false`). -/
theorem c34_partial (M0 : α) (kw : InitKw α) (u : Upd α) (s : Orb α) (h : init K M0 kw u = .ok s) (ops : List (Op α))
    (hops : ∀ inds, Op.calcEcc inds ∈ ops → inds = .all) :
    ∃ n, OneEntryPerOrbit (exec K s ops) n ∧ (num (exec K s ops)).1 = .ok n := by
  obtain ⟨n, hw, he⟩ := exec_wfe K ⟨_, init_wfe K h⟩ ops (fun o ho => by
    cases o with
    | calcEcc inds => exact hops inds ho
    | _ => trivial)
  exact ⟨n, ⟨hw.m, hw.cart, hw.kep, hw.tA, he, hw.mA, hw.cartCalc, hw.kepCalc⟩, by rw [num_wf hw]⟩

/-- `Orbit(M0, G=.., type=.., num=n)` with no element values, in direct mode -/
theorem init_blank (M0 G : α) (o : SolverOpts α) (ty : Anom) (n : Nat) :
    init K M0 { G := G, opts := o, type := some ty, n := n } {} =
      .ok (allocate K n (empty M0 { G := G, opts := o, type := some ty, n := n } ty)).2 := by
  have hup : ∀ s : Orb α, update K .all {} s = (.ok (), s) := fun s => rfl
  have h0 : ∀ b (s : Orb α), when b (update K .all {}) s = (.ok (), s) := by
    intro b s; cases b
    · rfl
    · exact hup s
  simp only [init, initBody, allocate, upd_bind]
  rw [bind_ok (x := writeAllMass none) rfl, bind_ok (num_wf (n := n) ⟨by simp, by simp, by simp, by simp, by simp, by simp, by simp⟩),
    bind_ok (h0 _ _)]
  rfl

/-- C34 is false as stated, for every kernel: with the mean anomaly type, `orb.calc_eccentric_anomaly(0)` replaces the array
of cached eccentric anomalies by a number; `orb.add()` then raises half way, and the object has two masses and two sets of
elements but one cached mean anomaly and one pair of flags. -/
theorem c34_false (M0 G : α) (o : SolverOpts α) :
    ∃ s, init K M0 { G := G, opts := o, type := some .mean } {} = .ok s ∧
      (∃ x, (exec K s [.calcEcc (.int 0)]).eA = .sc x) ∧
      (add K 1 {} (exec K s [.calcEcc (.int 0)])).1 = .error .valueError ∧
      (num (exec K s [.calcEcc (.int 0), .add 1 {}])).1 = .ok 2 ∧
      (exec K s [.calcEcc (.int 0), .add 1 {}]).m.length = 2 ∧
      (exec K s [.calcEcc (.int 0), .add 1 {}]).mA.length = 1 ∧
      (exec K s [.calcEcc (.int 0), .add 1 {}]).kepCalc.length = 1 :=
  ⟨_, init_blank K M0 G o .mean 1, ⟨_, rfl⟩, rfl, rfl, rfl, rfl, rfl⟩

/-- Also without a later exception the array is wrong: `calc_eccentric_anomaly([0])` leaves one cached eccentric anomaly for
two orbits. -/
theorem c34_false_list (M0 G : α) (o : SolverOpts α) :
    ∃ s, init K M0 { G := G, opts := o, type := some .mean, n := 2 } {} = .ok s ∧
      (num (exec K s [.calcEcc (.list [0])])).1 = .ok 2 ∧
      ∃ x, (exec K s [.calcEcc (.list [0])]).eA = .arr [x] :=
  ⟨_, init_blank K M0 G o .mean 2, rfl, _, rfl⟩

/-- a history that meets the hypotheses of `c34_partial`: three orbits are added to one, one is deleted, the type is changed
and `calc_eccentric_anomaly()` is called -/
example (M0 G : α) (o : SolverOpts α) :
    ∃ s, init K M0 { G := G, opts := o } {} = .ok s ∧
      ∃ n, OneEntryPerOrbit (exec K s [.add 3 {}, .delete (.int 1), .setType (some .mean), .calcEcc .all]) n ∧
        (num (exec K s [.add 3 {}, .delete (.int 1), .setType (some .mean), .calcEcc .all])).1 = .ok n :=
  ⟨_, init_blank K M0 G o .tru 1, c34_partial K M0 _ {} _ (init_blank K M0 G o .tru 1) _ (by
    intro inds h
    simp at h
    exact h)⟩

end Orbit
end Pyorb
