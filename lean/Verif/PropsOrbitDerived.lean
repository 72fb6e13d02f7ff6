import Verif.PropsOrbitSpeed
import Verif.PropsNewton

/-!
# C60 to C62: named elements and derived quantities of an `Orbit`

All of them are read from one and the same object, in any update mode; in lazy mode each query first does its own refresh.
-/

set_option linter.unusedSimpArgs false
set_option linter.unusedVariables false

namespace Pyorb
namespace Orbit
open Py FX
variable {α : Type}

/-! ## C60 -/

/-- C60: in every mode `orb.kepler` has one column per orbit, and `orb.a`, `orb.e`, `orb.i`, `orb.omega`, `orb.Omega`, `orb.anom`
(attributes 0 to 5 of the Kepler side) are its rows, in this order. -/
theorem c60_kepler (K : Kern α) {n : Nat} (s : Orb α) (hs : OneEntryPerOrbit s n) :
    ∃ ks, (get_kepler K s).1 = .ok ks ∧ ks.length = n ∧
      (get_kep K 0 s).1 = .ok (ks.map fun k => k.a) ∧ (get_kep K 1 s).1 = .ok (ks.map fun k => k.e) ∧
      (get_kep K 2 s).1 = .ok (ks.map fun k => k.i) ∧ (get_kep K 3 s).1 = .ok (ks.map fun k => k.om) ∧
      (get_kep K 4 s).1 = .ok (ks.map fun k => k.OM) ∧ (get_kep K 5 s).1 = .ok (ks.map fun k => k.nu) :=
  ⟨(kepCheck K s).kep, rfl, (kepCheck_wfe K s hs.wfe).1.kep, rfl, rfl, rfl, rfl, rfl, rfl⟩

/-- C60: in every mode `orb.cartesian` has one column per orbit, `orb.x`, .., `orb.vz` (attributes 0 to 5 of the Cartesian side) are its
rows in this order, and `orb.r`, `orb.v` its upper and lower half. -/
theorem c60_cartesian (K : Kern α) {n : Nat} (s : Orb α) (hs : OneEntryPerOrbit s n) :
    ∃ cs, (get_cartesian K s).1 = .ok cs ∧ cs.length = n ∧
      (get_cart K 0 s).1 = .ok (cs.map fun c => c.x) ∧ (get_cart K 1 s).1 = .ok (cs.map fun c => c.y) ∧
      (get_cart K 2 s).1 = .ok (cs.map fun c => c.z) ∧ (get_cart K 3 s).1 = .ok (cs.map fun c => c.vx) ∧
      (get_cart K 4 s).1 = .ok (cs.map fun c => c.vy) ∧ (get_cart K 5 s).1 = .ok (cs.map fun c => c.vz) ∧
      (get_r K s).1 = .ok (cs.map fun c => ⟨c.x, c.y, c.z⟩) ∧ (get_v K s).1 = .ok (cs.map fun c => ⟨c.vx, c.vy, c.vz⟩) :=
  ⟨(cartCheck K s).cart, rfl, (cartCheck_wfe K s hs.wfe).1.cart, rfl, rfl, rfl, rfl, rfl, rfl, rfl, rfl⟩

/-! ## C61 -/

/-- one full turn in the unit of angles of the object -/
noncomputable def turnOf (deg : Bool) : ℝ := if deg then 360 else 2 * Real.pi

theorem motionNorm_fin (deg : Bool) : (motionNorm deg : FX) = fin (turnOf deg) := by
  unfold motionNorm turnOf
  cases deg
  · simp [mul_comm]
  · simp

variable (g : KGarbage)

theorem read_kepSide {n : Nat} (s : Orb FX) (hs : OneEntryPerOrbit s n) (q : Read) (hq : q.kepSide = true) :
    (q.get (fxKern g) s).1 = .ok (q.val (fxKern g) (kepCheck (fxKern g) s)) := by
  rw [read_fresh (fxKern g) hs.wfe q]
  unfold Read.fresh
  rw [if_pos hq]

theorem kepCheck_body (K : Kern α) (s : Orb α) : (kepCheck K s).degrees = s.degrees ∧ (kepCheck K s).m = s.m ∧ (kepCheck K s).G = s.G ∧
    (kepCheck K s).M0 = s.M0 := by
  rw [kepCheck_eq]
  exact ⟨rfl, rfl, rfl, rfl⟩

/-- C61: for every orbit of an object (in any mode) with real elements as read from `orb.kepler`, positive semi-major axis and positive
`G (M0 + m)`: the period `P` is positive and obeys Kepler's third law `P² G (M0+m) = 4π² a³`, and the mean motion times the period
is one turn in the object's unit of angles. -/
theorem c61_period {n : Nat} (s : Orb FX) (hs : OneEntryPerOrbit s n) (ks : List (Kep FX)) (hks : (get_kepler (fxKern g) s).1 = .ok ks)
    (j : Nat) (k : Kep FX) (hk : ks[j]? = some k) (a mu : ℝ) (hka : k.a = fin a) (ha : 0 < a) (m : FX) (hm : s.m[j]? = some m)
    (hmu : s.G * (s.M0 + m) = fin mu) (hmu0 : 0 < mu) :
    ∃ Ps ns P nn, (get_period (fxKern g) s).1 = .ok Ps ∧ (get_mean_motion (fxKern g) s).1 = .ok ns ∧ Ps[j]? = some (fin P) ∧
      ns[j]? = some (fin nn) ∧ 0 < P ∧ P ^ 2 * mu = 4 * Real.pi ^ 2 * a ^ 3 ∧ nn * P = turnOf s.degrees := by
  have h1 := read_kepSide g s hs .period rfl
  have h2 := read_kepSide g s hs .meanMotion rfl
  obtain ⟨e2, e5, e6, e7⟩ := kepCheck_body (fxKern g) s
  obtain rfl : ks = (kepCheck (fxKern g) s).kep := (Except.ok.inj hks).symm
  obtain ⟨P, hP, hP0, hP3, -⟩ := c16_period a mu ha hmu0
  refine ⟨_, _, P, turnOf s.degrees / P, h1, h2, ?_, ?_, hP0, hP3, div_mul_cancel₀ _ hP0.ne'⟩
  · show (List.zipWith _ _ _)[j]? = _
    rw [e5, e6, e7, List.getElem?_zipWith, hk, hm]
    show some (orbital_period k.a (s.G * (s.M0 + m))) = _
    rw [hka, hmu, hP]
  · show (List.zipWith _ _ _)[j]? = _
    rw [e2, e5, e6, e7, List.getElem?_zipWith, hk, hm]
    show some (motionNorm s.degrees / orbital_period k.a (s.G * (s.M0 + m))) = _
    rw [hka, hmu, hP, motionNorm_fin, div_fin hP0.ne']

/-- C61: for every orbit with real `a` and `e`, `apoapsis + periapsis = 2a` and `apoapsis - periapsis = 2ae`. -/
theorem c61_apsides {n : Nat} (s : Orb FX) (hs : OneEntryPerOrbit s n) (ks : List (Kep FX)) (hks : (get_kepler (fxKern g) s).1 = .ok ks)
    (j : Nat) (k : Kep FX) (hk : ks[j]? = some k) (a e : ℝ) (hka : k.a = fin a) (hke : k.e = fin e) :
    ∃ Qs qs Q q, (get_apoapsis (fxKern g) s).1 = .ok Qs ∧ (get_periapsis (fxKern g) s).1 = .ok qs ∧ Qs[j]? = some (fin Q) ∧
      qs[j]? = some (fin q) ∧ Q + q = 2 * a ∧ Q - q = 2 * (a * e) := by
  have h1 := read_kepSide g s hs .apoapsis rfl
  have h2 := read_kepSide g s hs .periapsis rfl
  obtain rfl : ks = (kepCheck (fxKern g) s).kep := (Except.ok.inj hks).symm
  refine ⟨_, _, (1 + e) * a, (1 - e) * a, h1, h2, ?_, ?_, by ring, by ring⟩
  · show (List.map _ _)[j]? = _
    rw [List.getElem?_map, hk]
    show some (apoapsisOf k.e k.a) = _
    rw [hka, hke]; simp [apoapsisOf]
  · show (List.map _ _)[j]? = _
    rw [List.getElem?_map, hk]
    show some (periapsisOf k.e k.a) = _
    rw [hka, hke]; simp [periapsisOf]

/-- C61: `mean_longitude` is `mean_anomaly + omega + Omega`, orbit by orbit, for all values including NaN. -/
theorem c61_longitude {n : Nat} (s : Orb FX) (hs : OneEntryPerOrbit s n) (ks : List (Kep FX)) (hks : (get_kepler (fxKern g) s).1 = .ok ks) :
    ∃ Ms ls, (get_mean_anomaly (fxKern g) s).1 = .ok Ms ∧ (get_mean_longitude (fxKern g) s).1 = .ok ls ∧ Ms.length = n ∧ ls.length = n ∧
      ∀ (j : Nat) (M : FX) (k : Kep FX), Ms[j]? = some M → ks[j]? = some k → ls[j]? = some (M + k.om + k.OM) := by
  have h1 := read_kepSide g s hs .meanAnomaly rfl
  have h2 := read_kepSide g s hs .meanLongitude rfl
  obtain rfl : ks = (kepCheck (fxKern g) s).kep := (Except.ok.inj hks).symm
  have hl : (kepCheck (fxKern g) s).kep.length = n := (kepCheck_wfe (fxKern g) s hs.wfe).1.kep
  refine ⟨_, _, h1, h2, ?_, ?_, fun j M k hM hk => ?_⟩
  · show (List.map _ _).length = _; rw [List.length_map, hl]
  · show (List.map _ _).length = _; rw [List.length_map, hl]
  · change (List.map _ _)[j]? = _ at hM
    show (List.map _ _)[j]? = _
    rw [List.getElem?_map, hk] at hM ⊢
    obtain rfl := Option.some.inj hM
    rfl

/-! ## C62 -/

/-- true anomaly `nu` and eccentric anomaly `E` (radians) of one point of an ellipse with eccentricity `e`, textbook definition -/
structure SamePoint (e nu E : ℝ) : Prop where
  along : (1 - e * Real.cos E) * Real.cos nu = Real.cos E - e
  across : (1 - e * Real.cos E) * Real.sin nu = √(1 - e ^ 2) * Real.sin E

theorem samePoint_trueOf {e E : ℝ} (h0 : 0 ≤ e) (h1 : e < 1) : SamePoint e (trueOf e E) E := by
  obtain ⟨hc, hs⟩ := trueOf_cos_sin (E := E) h0 h1
  exact ⟨by linarith, by linarith⟩

theorem samePoint_eccOf {e nu : ℝ} (h0 : 0 ≤ e) (h1 : e < 1) : SamePoint e nu (eccOf e nu) := by
  have := samePoint_trueOf (E := eccOf e nu) h0 h1
  rw [trueOf_eccOf h0 h1] at this
  exact ⟨by rw [← cos_turn nu]; exact this.along, by rw [← sin_turn nu]; exact this.across⟩

theorem eccToMean_fx {deg : Bool} {E e : ℝ} (h1 : e < 1) :
    (fxKern g).eccToMean false deg (fin E) (fin e) = fin (angleOut deg (meanOf e (angleOf deg E))) := by
  show outR deg (eccentricToMeanEl g.mean .f64 (inR deg (fin E)) (fin e)) = _
  rw [inR_fin, eccentricToMeanEl_eli g.mean h1, outR_fin]

theorem trueToMean_fx {deg : Bool} {nu e : ℝ} (h0 : 0 ≤ e) (h1 : e < 1) :
    (fxKern g).trueToMean false deg (fin nu) (fin e) = fin (angleOut deg (meanOf e (eccOf e (angleOf deg nu)))) := by
  show outR deg (eccentricToMeanEl g.mean .f64 (trueToEccentricEl g.ecc .f64 (inR deg (fin nu)) (fin e)) (fin e)) = _
  rw [inR_fin, trueToEccentricEl_eli g.ecc h0 h1, eccentricToMeanEl_eli g.mean h1, outR_fin]

/-- C62: whatever anomaly type and angle unit an object stores, in every mode, the true, eccentric and mean anomaly it answers for an
elliptic orbit belong to one point: `nu` and `E` exactly, and Kepler's equation holds exactly, or, for an object that stores the mean
anomaly, within the solver tolerance when the iteration limit is not reached. -/
theorem c62 {n : Nat} (s : Orb FX) (hs : OneEntryPerOrbit s n) (ks : List (Kep FX)) (hks : (get_kepler (fxKern g) s).1 = .ok ks)
    (j : Nat) (k : Kep ℝ) (hk : ks[j]? = some k.fx) (h0 : 0 ≤ k.e) (h1 : k.e < 1) (tol : ℝ) (ht : 0 < tol)
    (ho : s.type = .mean → ∃ mi d, s.opts = ⟨fin tol, mi, fin d⟩ ∧ ¬ HitLimit s.opts (fin (angleOf s.degrees k.nu)) (fin k.e)) :
    ∃ nus Es Ms nu E M, (get_true_anomaly (fxKern g) s).1 = .ok nus ∧ (get_eccentric_anomaly (fxKern g) s).1 = .ok Es ∧
      (get_mean_anomaly (fxKern g) s).1 = .ok Ms ∧ nus[j]? = some (fin nu) ∧ Es[j]? = some (fin E) ∧ Ms[j]? = some (fin M) ∧
      SamePoint k.e (angleOf s.degrees nu) (angleOf s.degrees E) ∧
      |angleOf s.degrees M - (angleOf s.degrees E - k.e * Real.sin (angleOf s.degrees E))| < tol ∧
      (s.type ≠ .mean → angleOf s.degrees M = angleOf s.degrees E - k.e * Real.sin (angleOf s.degrees E)) ∧
      (k.nu = match s.type with | .tru => nu | .ecc => E | .mean => M) := by
  have r1 := read_kepSide g s hs .trueAnomaly rfl
  have r2 := read_kepSide g s hs .eccentricAnomaly rfl
  have r3 := read_kepSide g s hs .meanAnomaly rfl
  obtain ⟨e1, e2, e3, -⟩ := kepCheck_settings (fxKern g) s
  obtain rfl : ks = (kepCheck (fxKern g) s).kep := (Except.ok.inj hks).symm
  have hget : ∀ t, ((kepCheck (fxKern g) s).kep.map (anomOf (fxKern g) t (kepCheck (fxKern g) s)))[j]? =
      some (anomOf (fxKern g) t s k.fx) := by
    intro t
    rw [List.getElem?_map, hk]
    unfold anomOf trueFn eccFn meanFn
    rw [e1, e2, e3]; rfl
  have hmean : ∀ E, meanOf k.e E = E - k.e * Real.sin E := fun E => by
    unfold meanOf; rw [if_neg (not_lt.mpr h1.le), if_neg h1.ne]
  suffices h : ∃ nu E M, anomOf (fxKern g) .tru s k.fx = fin nu ∧ anomOf (fxKern g) .ecc s k.fx = fin E ∧
      anomOf (fxKern g) .mean s k.fx = fin M ∧ SamePoint k.e (angleOf s.degrees nu) (angleOf s.degrees E) ∧
      |angleOf s.degrees M - (angleOf s.degrees E - k.e * Real.sin (angleOf s.degrees E))| < tol ∧
      (s.type ≠ .mean → angleOf s.degrees M = angleOf s.degrees E - k.e * Real.sin (angleOf s.degrees E)) ∧
      (k.nu = match s.type with | .tru => nu | .ecc => E | .mean => M) by
    obtain ⟨nu, E, M, a1, a2, a3, hrest⟩ := h
    exact ⟨_, _, _, nu, E, M, r1, r2, r3, by rw [← a1]; exact hget .tru, by rw [← a2]; exact hget .ecc, by rw [← a3]; exact hget .mean, hrest⟩
  cases hty : s.type
  · refine ⟨k.nu, angleOut s.degrees (eccOf k.e (angleOf s.degrees k.nu)), angleOut s.degrees (meanOf k.e (eccOf k.e (angleOf s.degrees k.nu))),
      ?_, ?_, ?_, ?_, ?_, fun _ => ?_, rfl⟩
    · simp only [anomOf, trueFn, hty]; rfl
    · simp only [anomOf, eccFn, hty]; exact trueToEcc_fx g h0 h1
    · simp only [anomOf, meanFn, hty]; exact trueToMean_fx g h0 h1
    · rw [angleOf_angleOut]; exact samePoint_eccOf h0 h1
    · rw [angleOf_angleOut, angleOf_angleOut, hmean, sub_self, abs_zero]; exact ht
    · rw [angleOf_angleOut, angleOf_angleOut, hmean]
  · refine ⟨angleOut s.degrees (trueOf k.e (angleOf s.degrees k.nu)), k.nu, angleOut s.degrees (meanOf k.e (angleOf s.degrees k.nu)),
      ?_, ?_, ?_, ?_, ?_, fun _ => ?_, rfl⟩
    · simp only [anomOf, trueFn, hty]; exact eccToTrue_fx g h0 h1
    · simp only [anomOf, eccFn, hty]; rfl
    · simp only [anomOf, meanFn, hty]; exact eccToMean_fx g h1
    · rw [angleOf_angleOut]; exact samePoint_trueOf h0 h1
    · rw [angleOf_angleOut, hmean, sub_self, abs_zero]; exact ht
    · rw [angleOf_angleOut, hmean]
  · obtain ⟨mi, d, hop, hlim⟩ := ho hty
    obtain ⟨E, q1, -, q2⟩ := meanToEccentricEl_fin tol mi d (angleOf s.degrees k.nu) k.e h0 (.inl h1.le)
    change meanToEccentricEl (⟨fin tol, mi, fin d⟩ : SolverOpts FX) _ _ = _ at q1
    rw [← hop] at q1
    refine ⟨angleOut s.degrees (trueOf k.e E), angleOut s.degrees E, k.nu, ?_, ?_, ?_, ?_, ?_, fun h => absurd rfl h, rfl⟩
    · simp only [anomOf, trueFn, hty]
      show outR s.degrees (eccentricToTrueEl g.tru .f64 (meanToEccentricEl s.opts (inR s.degrees (fin k.nu)) (fin k.e)) (fin k.e)) = _
      rw [inR_fin, q1, eccentricToTrueEl_eli g.tru h0 h1, outR_fin]
    · simp only [anomOf, eccFn, hty]
      show outR s.degrees (meanToEccentricEl s.opts (inR s.degrees (fin k.nu)) (fin k.e)) = _
      rw [inR_fin, q1, outR_fin]
    · simp only [anomOf, meanFn, hty]; rfl
    · rw [angleOf_angleOut, angleOf_angleOut]; exact samePoint_trueOf h0 h1
    · rw [angleOf_angleOut, abs_sub_comm, ← hmean]
      refine q2 h1.ne ?_
      rw [hop] at hlim
      exact hlim

/-! Hypotheses that can be met: one orbit with `a = 4`, `e = 1/2` around unit mass, all settings at their defaults. -/

noncomputable def derivedExample : Orb FX :=
  { auto := true, direct := true, G := fin 1, M0 := fin 1, opts := SolverOpts.dflt, epoch := none, degrees := true, type := .tru, kro := false,
    cro := false, m := [fin 0], cart := [⟨fin 1, fin 2, fin 3, fin 4, fin 5, fin 6⟩], kep := [⟨fin 4, fin (1 / 2), fin 10, fin 20, fin 30, fin 40⟩],
    tA := [fin 0], eA := .arr [fin 0], mA := [fin 0], cartCalc := [true], kepCalc := [true], it := none }

theorem derivedExample_one : OneEntryPerOrbit derivedExample 1 :=
  ⟨rfl, rfl, rfl, rfl, ⟨_, rfl, rfl⟩, rfl, rfl, rfl⟩

example (g : KGarbage) : ∃ Ps ns P nn, (get_period (fxKern g) derivedExample).1 = .ok Ps ∧ (get_mean_motion (fxKern g) derivedExample).1 = .ok ns ∧
    Ps[0]? = some (fin P) ∧ ns[0]? = some (fin nn) ∧ P ^ 2 = 4 * Real.pi ^ 2 * 4 ^ 3 ∧ nn * P = 360 := by
  obtain ⟨Ps, ns, P, nn, h1, h2, h3, h4, -, h5, h6⟩ := c61_period g derivedExample derivedExample_one _ rfl 0 _ rfl 4 1 rfl (by norm_num) (fin 0) rfl
    (by show (fin 1 * (fin 1 + fin 0) : FX) = fin 1; simp) one_pos
  exact ⟨Ps, ns, P, nn, h1, h2, h3, h4, by simpa using h5, by simpa [turnOf, derivedExample] using h6⟩

example (g : KGarbage) : ∃ Qs qs, (get_apoapsis (fxKern g) derivedExample).1 = .ok Qs ∧ (get_periapsis (fxKern g) derivedExample).1 = .ok qs ∧
    Qs[0]? = some (fin 6) ∧ qs[0]? = some (fin 2) := by
  obtain ⟨Qs, qs, Q, q, h1, h2, h3, h4, h5, h6⟩ := c61_apsides g derivedExample derivedExample_one _ rfl 0 _ rfl 4 (1 / 2) rfl rfl
  obtain rfl : Q = 6 := by linarith
  obtain rfl : q = 2 := by linarith
  exact ⟨Qs, qs, h1, h2, h3, h4⟩

example (g : KGarbage) : ∃ Es Ms E M, (get_eccentric_anomaly (fxKern g) derivedExample).1 = .ok Es ∧
    (get_mean_anomaly (fxKern g) derivedExample).1 = .ok Ms ∧ Es[0]? = some (fin E) ∧ Ms[0]? = some (fin M) ∧
    SamePoint (1 / 2) (angleOf true 40) (angleOf true E) ∧ angleOf true M = angleOf true E - 1 / 2 * Real.sin (angleOf true E) := by
  obtain ⟨nus, Es, Ms, nu, E, M, h1, h2, h3, h4, h5, h6, h7, -, h8, h9⟩ := c62 g derivedExample derivedExample_one _ rfl 0
    ⟨4, 1 / 2, 10, 20, 30, 40⟩ rfl (by norm_num) (by norm_num) 1 one_pos (fun h => nomatch h)
  obtain rfl : (40 : ℝ) = nu := h9
  exact ⟨Es, Ms, E, M, h2, h3, h5, h6, h7, h8 (fun h => nomatch h)⟩

end Orbit
end Pyorb
