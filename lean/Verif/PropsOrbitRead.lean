import Verif.OrbitDirect

/-!
# C40: reading an `Orbit` in direct mode changes nothing but the cached anomalies
-/

set_option linter.unusedSimpArgs false
set_option linter.unusedVariables false

namespace Pyorb
namespace Orbit
open Py
variable {α : Type} (K : Kern α)

/-- equal in everything except the cached anomalies -/
def SameCore (s t : Orb α) : Prop := t = { s with tA := t.tA, eA := t.eA, mA := t.mA }

theorem SameCore.refl (s : Orb α) : SameCore s s := rfl
theorem SameCore.trans {s t r : Orb α} (h : SameCore s t) (h' : SameCore t r) : SameCore s r := by
  unfold SameCore at *
  rw [h'] ; rw [h]
theorem SameCore.kep {s t : Orb α} (h : SameCore s t) : t.kep = s.kep := by rw [h]
theorem SameCore.cart {s t : Orb α} (h : SameCore s t) : t.cart = s.cart := by rw [h]
theorem SameCore.m {s t : Orb α} (h : SameCore s t) : t.m = s.m := by rw [h]
theorem SameCore.lazy {s t : Orb α} (h : SameCore s t) : lazy t = lazy s := by rw [h]; rfl
theorem SameCore.direct {s t : Orb α} (h : SameCore s t) : t.direct = s.direct := by rw [h]
theorem SameCore.type {s t : Orb α} (h : SameCore s t) : t.type = s.type := by rw [h]
theorem SameCore.kro {s t : Orb α} (h : SameCore s t) : t.kro = s.kro := by rw [h]
theorem SameCore.degrees {s t : Orb α} (h : SameCore s t) : t.degrees = s.degrees := by rw [h]
theorem SameCore.opts {s t : Orb α} (h : SameCore s t) : t.opts = s.opts := by rw [h]
theorem SameCore.G {s t : Orb α} (h : SameCore s t) : t.G = s.G := by rw [h]
theorem SameCore.M0 {s t : Orb α} (h : SameCore s t) : t.M0 = s.M0 := by rw [h]

section
variable {s0 : Orb α} (hl : lazy s0 = false)
include hl

theorem core_kepCheck (s : Orb α) (h : SameCore s0 s) : SameCore s0 (kepCheck K s) := by
  rw [kepCheck_direct K (by rw [h.lazy, hl])]; exact h
theorem core_cartCheck (s : Orb α) (h : SameCore s0 s) : SameCore s0 (cartCheck K s) := by
  rw [cartCheck_direct K (by rw [h.lazy, hl])]; exact h
theorem core_calcTrue (sc : Bool) (P : Nat → Bool) (s : Orb α) (h : SameCore s0 s) : SameCore s0 (calcTrue K sc P s) := by
  rw [calcTrue_eq, kepCheck_direct K (by rw [h.lazy, hl])]
  exact h.trans rfl
theorem core_calcMean (sc : Bool) (P : Nat → Bool) (s : Orb α) (h : SameCore s0 s) : SameCore s0 (calcMean K sc P s) := by
  rw [calcMean_eq, kepCheck_direct K (by rw [h.lazy, hl])]
  exact h.trans rfl

/-- keeps the core of `s0`, and the value satisfies `Q` -/
abbrev Co (s0 : Orb α) {β : Type} (x : Py α β) (Q : β → Prop) : Prop := Keeps (SameCore s0) x Q

theorem get_kep_co (i : Fin 6) : Co s0 (get_kep K i) (fun l => l = s0.kep.map (·.get i)) :=
  (Keeps.upd (core_kepCheck K hl)).bind fun _ _ => Keeps.self.bind fun s hs => Keeps.pure (by rw [hs.kep])
theorem get_cart_co (i : Fin 6) : Co s0 (get_cart K i) (fun l => l = s0.cart.map (·.get i)) :=
  (Keeps.upd (core_cartCheck K hl)).bind fun _ _ => Keeps.self.bind fun s hs => Keeps.pure (by rw [hs.cart])
theorem get_r_co : Co s0 (get_r K) (fun l => l = s0.cart.map Cart.getR) :=
  (Keeps.upd (core_cartCheck K hl)).bind fun _ _ => Keeps.self.bind fun s hs => Keeps.pure (by rw [hs.cart])
theorem get_v_co : Co s0 (get_v K) (fun l => l = s0.cart.map Cart.getV) :=
  (Keeps.upd (core_cartCheck K hl)).bind fun _ _ => Keeps.self.bind fun s hs => Keeps.pure (by rw [hs.cart])
theorem get_cartesian_co : Co s0 (get_cartesian K) (fun l => l = s0.cart) :=
  (Keeps.upd (core_cartCheck K hl)).bind fun _ _ => Keeps.self.bind fun s hs => Keeps.pure (by rw [hs.cart])
theorem get_kepler_co : Co s0 (get_kepler K) (fun l => l = s0.kep) :=
  (Keeps.upd (core_kepCheck K hl)).bind fun _ _ => Keeps.self.bind fun s hs => Keeps.pure (by rw [hs.kep])
theorem get_period_co : Co s0 (get_period K)
    (fun l => l = List.zipWith (fun k m => K.period k.a (K.mu s0.G s0.M0 m)) s0.kep s0.m) :=
  (Keeps.upd (core_kepCheck K hl)).bind fun _ _ => (get_kep_co K hl 0).bind fun a ha => Keeps.self.bind fun s hs =>
    Keeps.pure (by rw [ha, hs.m, hs.G, hs.M0, List.zipWith_map_left]; rfl)
theorem get_mean_motion_co : Co s0 (get_mean_motion K)
    (fun l => l = List.zipWith (fun k m => K.motion s0.degrees (K.period k.a (K.mu s0.G s0.M0 m))) s0.kep s0.m) :=
  (get_period_co K hl).bind fun P hP => Keeps.self.bind fun s hs => Keeps.pure (by rw [hP, hs.degrees, List.map_zipWith])
omit hl in
theorem calc_anomaly_err {e : PyErr} (hk : ∀ s, SameCore s0 s → SameCore s0 (kepCheck K s)) :
    Co s0 (do upd (kepCheck K); raise e : Py α Unit) (fun _ => True) :=
  (Keeps.upd hk).bind fun _ _ => Keeps.raise
theorem calc_true_anomaly_co (inds : Inds) : Co s0 (calc_true_anomaly K inds) (fun _ => True) := by
  refine Keeps.self.bind fun s hs => ?_
  split
  · exact Keeps.upd (core_calcTrue K hl _ _)
  · exact calc_anomaly_err K (core_kepCheck K hl)
theorem calc_mean_anomaly_co (inds : Inds) : Co s0 (calc_mean_anomaly K inds) (fun _ => True) := by
  refine Keeps.self.bind fun s hs => ?_
  split
  · exact Keeps.upd (core_calcMean K hl _ _)
  · exact calc_anomaly_err K (core_kepCheck K hl)
theorem calc_eccentric_anomaly_co (inds : Inds) : Co s0 (calc_eccentric_anomaly K inds) (fun _ => True) := by
  have hset : ∀ (c : Cache α) (t : Orb α), SameCore s0 t → SameCore s0 { t with eA := c } := fun c t ht => ht.trans rfl
  refine (Keeps.upd (core_kepCheck K hl)).bind fun _ _ => Keeps.self.bind fun s1 hs1 => Keeps.lift.bind fun ps hps => ?_
  split
  · exact (Keeps.upd (core_kepCheck K hl)).bind fun _ _ => Keeps.self.bind fun s2 hs2 => Keeps.upd (hset _)
  · exact (Keeps.upd (core_kepCheck K hl)).bind fun _ _ => Keeps.self.bind fun s2 hs2 => Keeps.lift.bind fun c hc =>
      Keeps.upd (hset _)
  · exact Keeps.lift.bind fun c hc => Keeps.upd (hset _)

theorem get_true_anomaly_co : Co s0 (get_true_anomaly K) (fun _ => True) :=
  Keeps.self.bind fun s _ => Keeps.ite (fun _ => (get_kep_co K hl 5).mono fun _ _ => trivial) fun _ =>
    (calc_true_anomaly_co K hl _).bind fun _ _ => Keeps.self.bind fun s hs => Keeps.pure trivial
theorem get_mean_anomaly_co : Co s0 (get_mean_anomaly K) (fun _ => True) :=
  Keeps.self.bind fun s _ => Keeps.ite (fun _ => (get_kep_co K hl 5).mono fun _ _ => trivial) fun _ =>
    (calc_mean_anomaly_co K hl _).bind fun _ _ => Keeps.self.bind fun s hs => Keeps.pure trivial
theorem get_eccentric_anomaly_co : Co s0 (get_eccentric_anomaly K) (fun _ => True) :=
  Keeps.self.bind fun s _ => Keeps.ite (fun _ => (get_kep_co K hl 5).mono fun _ _ => trivial) fun _ =>
    (calc_eccentric_anomaly_co K hl _).bind fun _ _ => Keeps.self.bind fun s hs => Keeps.pure trivial
theorem get_anomaly_co (t : Anom) : Co s0 (get_anomaly K t) (fun _ => True) := by
  cases t
  · exact get_true_anomaly_co K hl
  · exact get_eccentric_anomaly_co K hl
  · exact get_mean_anomaly_co K hl
theorem get_apoapsis_co : Co s0 (get_apoapsis K) (fun _ => True) :=
  (get_kep_co K hl 1).bind fun e he => (get_kep_co K hl 0).bind fun a ha => Keeps.pure trivial
theorem get_periapsis_co : Co s0 (get_periapsis K) (fun _ => True) :=
  (get_kep_co K hl 1).bind fun e he => (get_kep_co K hl 0).bind fun a ha => Keeps.pure trivial
theorem get_mean_longitude_co : Co s0 (get_mean_longitude K) (fun _ => True) :=
  (get_mean_anomaly_co K hl).bind fun M hM => (get_kep_co K hl 3).bind fun o ho => (get_kep_co K hl 4).bind fun p hp =>
    Keeps.pure trivial
theorem get_equinoctial_co : Co s0 (get_equinoctial K) (fun _ => True) :=
  (get_kepler_co K hl).bind fun k hk => (get_mean_anomaly_co K hl).bind fun M hM => Keeps.self.bind fun s _ =>
    Keeps.pure trivial
theorem get_velocity_co : Co s0 (get_velocity K) (fun l => l = s0.cart.map K.speedOf) :=
  (Keeps.upd (core_cartCheck K hl)).bind fun _ _ => (Keeps.upd (core_cartCheck K hl)).bind fun _ _ =>
    Keeps.self.bind fun s hs => Keeps.pure (by rw [hs.cart])
theorem get_speed_co : Co s0 (get_speed K) (fun _ => True) :=
  (Keeps.upd (core_kepCheck K hl)).bind fun _ _ => (get_eccentric_anomaly_co K hl).bind fun E hE =>
    (get_kep_co K hl 0).bind fun a ha => (get_kep_co K hl 1).bind fun e he => (get_kep_co K hl 0).bind fun a2 ha2 =>
      Keeps.self.bind fun s hs => Keeps.lift.mono fun _ _ => trivial
omit hl in
theorem num_co : Co s0 (num : Py α Nat) (fun _ => True) :=
  Keeps.self.bind fun s hs => Keeps.ite (fun _ => Keeps.pure trivial) fun _ => Keeps.raise

theorem read_co (g : Read) : Co s0 (g.get K) (fun _ => True) := by
  cases g with
  | num => exact num_co
  | m => exact Keeps.self.bind fun s _ => Keeps.pure trivial
  | str => exact num_co.bind fun _ _ => Keeps.self.bind fun s hs => Keeps.pure trivial
  | r => exact (get_r_co K hl).mono fun _ _ => trivial
  | v => exact (get_v_co K hl).mono fun _ _ => trivial
  | cartesian => exact (get_cartesian_co K hl).mono fun _ _ => trivial
  | cart i => exact (get_cart_co K hl i).mono fun _ _ => trivial
  | kepler => exact (get_kepler_co K hl).mono fun _ _ => trivial
  | kep i => exact (get_kep_co K hl i).mono fun _ _ => trivial
  | period => exact (get_period_co K hl).mono fun _ _ => trivial
  | meanMotion => exact (get_mean_motion_co K hl).mono fun _ _ => trivial
  | trueAnomaly => exact get_true_anomaly_co K hl
  | meanAnomaly => exact get_mean_anomaly_co K hl
  | eccentricAnomaly => exact get_eccentric_anomaly_co K hl
  | apoapsis => exact get_apoapsis_co K hl
  | periapsis => exact get_periapsis_co K hl
  | meanLongitude => exact get_mean_longitude_co K hl
  | equinoctial => exact get_equinoctial_co K hl
  | velocity => exact (get_velocity_co K hl).mono fun _ _ => trivial
  | speed => exact get_speed_co K hl

end

/-- C40: in direct mode (also with automatic updates switched off), reading any property leaves masses, elements, settings
and bookkeeping as they are, whether the read returns or raises, in every state of the object and for every kernel.  Only the
cached anomalies may change. -/
theorem c40 (s : Orb α) (hd : s.direct = true ∨ s.auto = false) (g : Read) :
    let t := (g.get K s).2
    t.m = s.m ∧ t.kep = s.kep ∧ t.cart = s.cart ∧ t.type = s.type ∧ t.degrees = s.degrees ∧ t.G = s.G ∧ t.M0 = s.M0 ∧
      t.direct = s.direct ∧ t.auto = s.auto ∧ t.kro = s.kro ∧ t.cro = s.cro ∧ t.cartCalc = s.cartCalc ∧ t.kepCalc = s.kepCalc := by
  have hl : lazy s = false := by rcases hd with h | h <;> simp [lazy, h]
  have h := (read_co K hl g s (SameCore.refl s)).1
  intro t
  have h' : SameCore s t := h
  rw [h']
  simp

/-- C40, reads in sequence: any program that only reads sees the same elements all along. -/
theorem c40_reads (s : Orb α) (hd : s.direct = true ∨ s.auto = false) (gs : List Read) :
    let t := exec K s (gs.map Op.read)
    t.m = s.m ∧ t.kep = s.kep ∧ t.cart = s.cart := by
  have hl : lazy s = false := by rcases hd with h | h <;> simp [lazy, h]
  have key : ∀ (gs : List Read) (t : Orb α), SameCore s t → SameCore s (exec K t (gs.map Op.read)) := by
    intro gs
    induction gs with
    | nil => intro t ht; exact ht
    | cons g gs ih =>
      intro t ht
      rw [List.map_cons, exec_cons]
      apply ih
      exact (((read_co K hl g).bind fun _ _ => Keeps.pure (b := ()) (Q := fun _ => True) trivial) t ht).1
  have h := key gs s (SameCore.refl s)
  exact ⟨h.m, h.kep, h.cart⟩

/-- a non-trivial case: an object with type mean and two orbits, reading `speed` and then `str` -/
example (M0 G : α) (o : SolverOpts α) :
    ∃ s, init K M0 { G := G, opts := o, type := some .mean, n := 2 } {} = .ok s ∧ s.direct = true ∧
      (exec K s ([.speed, .str].map Op.read)).kep = s.kep :=
  ⟨_, init_blank K M0 G o .mean 2, rfl, (c40_reads K _ (.inl rfl) [.speed, .str]).2.1⟩

/-- The restriction to direct mode is needed: in lazy mode a read may recalculate and so change stored elements (here, the
Kepler elements that are stale). -/
theorem c40_lazy_changes (s : Orb α) (hd : s.direct = false) (ha : s.auto = true) (j : Nat) (k : Kep α)
    (hk : s.kep[j]? = some k) (hst : s.kepCalc[j]? = some false) (hc : cartOk K s j = true)
    (hne : k ≠ kepOfCart K s.type s.degrees (muAt K s j) (cartAt K s j)) :
    ((Read.kepler).get K s).2.kep ≠ s.kep := by
  show (kepCheck K s).kep ≠ s.kep
  rw [kepCheck_eq]
  intro h
  have h1 : (recalcKep K (checkSet K s) s).kep[j]? = some k := by rw [h]; exact hk
  have hcs : checkSet K s j = true := by
    simp only [checkSet, hc, lazy, hd, ha, stale, Bool.and_true, List.getD_eq_getElem?_getD, hst]
    decide
  simp [recalcKep, List.getElem?_mapIdx, hk, hcs] at h1
  exact hne h1.symm

end Orbit
end Pyorb
