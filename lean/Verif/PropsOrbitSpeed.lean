import Verif.PropsOrbitSet
import Mathlib.Analysis.SpecialFunctions.Trigonometric.Bounds

/-!
# `Orbit.speed` and `Orbit.velocity` (C41, C47)

`speed` goes through the Kepler elements (eccentric anomaly, radius, vis-viva), `velocity` is the length of the stored velocity
vector.  They agree on an ellipse where the stored elements belong together (C41).  Assigning `velocity` scales the velocity
vector (C47).
-/

set_option linter.unusedSimpArgs false
set_option linter.unusedVariables false

namespace Pyorb
namespace Orbit
open Py FX

/-! ## The vis-viva speed is the length of the velocity vector -/

/-- the eccentric anomaly of a true anomaly -/
theorem cos_eccOf {e nu : ℝ} (h0 : 0 ≤ e) (h1 : e < 1) :
    Real.cos (eccOf e nu) * (1 + e * Real.cos nu) = e + Real.cos nu := by
  by_cases hc : Real.cos (nu / 2) = 0
  · rw [show eccOf e nu = Real.pi from scaleHalf_pole hc, ← cos_turn nu, turn_of_pole hc, Real.cos_pi]
    ring
  unfold eccOf
  rw [scaleHalf_of_ne hc, cos_turn, cos_two_arctan, mul_pow, eliFac_sq h0 h1, cos_of_tan_half hc]
  set t := Real.tan (nu / 2)
  have ht : 0 < 1 + t ^ 2 := by positivity
  have h2 : 0 < 1 + e := by linarith
  have h3 : 1 + (1 - e) / (1 + e) * t ^ 2 = ((1 + e) + (1 - e) * t ^ 2) / (1 + e) := by field_simp
  have h4 : 1 - (1 - e) / (1 + e) * t ^ 2 = ((1 + e) - (1 - e) * t ^ 2) / (1 + e) := by field_simp
  have h6 : 0 < (1 + e) + (1 - e) * t ^ 2 := by nlinarith [sq_nonneg t]
  rw [h3, h4]
  field_simp
  ring

theorem cos_trueOf {e E : ℝ} (h0 : 0 ≤ e) (h1 : e < 1) :
    Real.cos E * (1 + e * Real.cos (trueOf e E)) = e + Real.cos (trueOf e E) := by
  have := cos_eccOf (nu := trueOf e E) h0 h1
  rwa [eccOf_trueOf h0 h1, cos_turn] at this

theorem inRad_nu (deg : Bool) (k : Kep ℝ) : (k.inRad deg).nu = angleOf deg k.nu := by cases deg <;> rfl
theorem inRad_a (deg : Bool) (k : Kep ℝ) : (k.inRad deg).a = k.a := by cases deg <;> rfl
theorem inRad_e (deg : Bool) (k : Kep ℝ) : (k.inRad deg).e = k.e := by cases deg <;> rfl

/-- an anomaly of an ellipse -/
theorem adm_ellipse {mu : ℝ} (hmu : 0 < mu) {k : Kep ℝ} (ha : 0 < k.a) (h0 : 0 ≤ k.e) (h1 : k.e < 1) (deg : Bool) :
    (k.inRad deg).Adm mu := by
  have := Real.neg_one_le_cos (k.inRad deg).nu
  refine ⟨hmu, by rwa [inRad_a], by rwa [inRad_e], ?_⟩
  rw [inRad_e]; nlinarith

theorem velocityOf_fx (c : Cart ℝ) : velocityOf c.fx = fin (vlen c.v) := by
  have : vlen c.v = √(c.vx ^ 2 + c.vy ^ 2 + c.vz ^ 2) := by
    unfold vlen Cart.v
    congr 1
    simp [dotProduct, Fin.sum_univ_three]; ring
  rw [this]
  exact V3.norm_fin _ _ _

/-- vis-viva at the eccentric anomaly that belongs to the true anomaly -/
theorem speed_core (g : KGarbage) {mu : ℝ} (hmu : 0 < mu) {k : Kep ℝ} (ha : 0 < k.a) (h0 : 0 ≤ k.e) (h1 : k.e < 1) (deg : Bool)
    {E : ℝ} (hE : Real.cos (angleOf deg E) * (1 + k.e * Real.cos (angleOf deg k.nu)) = k.e + Real.cos (angleOf deg k.nu)) :
    (fxKern g).speed deg (fin mu) (fin E) (fin k.a) (fin k.e) = fin (vlen ((k.inRad deg).state mu).v) := by
  have hadm := adm_ellipse hmu ha h0 h1 deg
  have hc := hadm.hc
  rw [inRad_e, inRad_nu] at hc
  have hd := hadm.describes.distance
  rw [inRad_e, inRad_a, inRad_nu, if_neg h1.ne, abs_of_pos (by nlinarith : (0 : ℝ) < 1 - k.e ^ 2)] at hd
  obtain ⟨c, e1, e2⟩ := c15_orbital_speed (fun _ => g.h) mu deg k ⟨hadm.hmu, hadm.ha, hadm.he, hadm.hc⟩ h1.ne
  have hcc : c = (k.inRad deg).state mu := by
    have : (kep_to_cart (fun _ => g.h) (.sc (fin mu)) deg (.vec .f64 k.fx)).1 = .ok (.vec .f64 ((k.inRad deg).state mu).fx) := by
      simp [kep_to_cart, kepToCartMat, Mu.toList, kepToCart_fst _ hadm]
    rw [e1] at this
    injection this with this
    injection this with _ this
    exact Cart.fx_inj this
  rw [hcc, if_neg (not_lt.mpr h1.le)] at e2
  rw [← e2, hd]
  show orbital_speed (elliptic_radius (fin E) (fin k.a) (fin k.e) deg) _ _ = _
  have hr : elliptic_radius (fin E) (fin k.a) (fin k.e) deg = fin (k.a * (1 - k.e ^ 2) / (1 + k.e * Real.cos (angleOf deg k.nu))) := by
    have : elliptic_radius (fin E) (fin k.a) (fin k.e) deg = fin (k.a * (1 - k.e * Real.cos (angleOf deg E))) := by
      unfold elliptic_radius
      show fin k.a * (1 - fin k.e * Np.cos (inR deg (fin E))) = _
      rw [inR_fin]
      simp only [cos_fin, mul_fin, one_fin, sub_fin]
    rw [this]
    congr 1
    rw [eq_div_iff hc.ne']
    linear_combination (-(k.a * k.e)) * hE
  rw [hr]

/-! ## C41 -/

variable (g : KGarbage)

/-- stored Kepler elements and Cartesian state that belong together on an ellipse: the state is the one of the elements
(if the mean anomaly is stored: for solver options that are numbers) -/
structure FromKepler (t : Anom) (o : SolverOpts FX) (deg : Bool) (mu : ℝ) (k : Kep ℝ) (c : Cart FX) : Prop where
  mu_pos : 0 < mu
  a_pos : 0 < k.a
  e_nonneg : 0 ≤ k.e
  e_lt : k.e < 1
  state : c = cartOfKep (fxKern g) t o deg (fin mu) k.fx
  solver : t = .mean → ∃ (tol d : ℝ) (mi : Int), o = opts tol mi d

/-- the same, with the elements calculated from a bound state (regular as in C02) -/
structure FromCartesian (t : Anom) (deg : Bool) (mu : ℝ) (k : Kep FX) (c : Cart ℝ) : Prop where
  mu_pos : 0 < mu
  regular : Regular mu c
  bound : energy mu c < 0
  elements : k = kepOfCart (fxKern g) t deg (fin mu) c.fx

/-- Two numbers `u`, `v` (speeds) that agree on an ellipse with elements `k` except, if the mean anomaly is stored, for the error
of the Kepler solver: there their squares agree within `2 mu e tol / (a (1-e)^3)`, provided the iteration limit is not reached. -/
structure SpeedsAgree (t : Anom) (o : SolverOpts FX) (deg : Bool) (mu : ℝ) (k : Kep FX) (u v : ℝ) : Prop where
  exact : t ≠ .mean → u = v
  solved : ∀ M e : ℝ, t = .mean → k.nu = fin M → k.e = fin e → SolvedExactly o e (angleOf deg M) → u = v
  close : ∀ (M e a tol d : ℝ) (mi : Int), t = .mean → k.nu = fin M → k.e = fin e → k.a = fin a → o = opts tol mi d →
    ¬ HitLimit o (fin (angleOf deg M)) (fin e) → |u ^ 2 - v ^ 2| ≤ 2 * mu * e * tol / (a * (1 - e) ^ 3)

theorem trueToEcc_fx {deg : Bool} {nu e : ℝ} (h0 : 0 ≤ e) (h1 : e < 1) :
    (fxKern g).trueToEcc false deg (fin nu) (fin e) = fin (angleOut deg (eccOf e (angleOf deg nu))) := by
  show outR deg (trueToEccentricEl g.ecc .f64 (inR deg (fin nu)) (fin e)) = _
  rw [inR_fin, trueToEccentricEl_eli g.ecc h0 h1, outR_fin]

theorem eccToTrue_fx {deg : Bool} {E e : ℝ} (h0 : 0 ≤ e) (h1 : e < 1) :
    (fxKern g).eccToTrue false deg (fin E) (fin e) = fin (angleOut deg (trueOf e (angleOf deg E))) := by
  show outR deg (eccentricToTrueEl g.tru .f64 (inR deg (fin E)) (fin e)) = _
  rw [inR_fin, eccentricToTrueEl_eli g.tru h0 h1, outR_fin]

/-- the vis-viva speed of the stored elements is the speed of the state -/
theorem FromKepler.speed {s : Orb FX} {mu : ℝ} {k : Kep ℝ} {c : Cart FX}
    (h : FromKepler g s.type s.opts s.degrees mu k c) :
    ∃ c' : Cart ℝ, c = c'.fx ∧
      (fxKern g).speed s.degrees (fin mu) (anomOf (fxKern g) .ecc s k.fx) k.fx.a k.fx.e = fin (vlen c'.v) := by
  obtain ⟨hmu, ha, h0, h1, hst, hm⟩ := h
  have key : ∀ nu E : ℝ, toTrue (fxKern g) s.type s.opts s.degrees (fin k.nu) (fin k.e) = fin nu →
      anomOf (fxKern g) .ecc s k.fx = fin E →
      Real.cos (angleOf s.degrees E) * (1 + k.e * Real.cos (angleOf s.degrees nu)) = k.e + Real.cos (angleOf s.degrees nu) →
      ∃ c' : Cart ℝ, c = c'.fx ∧
        (fxKern g).speed s.degrees (fin mu) (anomOf (fxKern g) .ecc s k.fx) k.fx.a k.fx.e = fin (vlen c'.v) := by
    intro nu E e1 e2 e3
    refine ⟨((Kep.inRad s.degrees { k with nu := nu }).state mu), ?_, ?_⟩
    · rw [hst]
      unfold cartOfKep
      have : ({ k.fx with nu := toTrue (fxKern g) s.type s.opts s.degrees k.fx.nu k.fx.e } : Kep FX) = Kep.fx { k with nu := nu } := by
        show ({ k.fx with nu := toTrue (fxKern g) s.type s.opts s.degrees (fin k.nu) (fin k.e) } : Kep FX) = _
        rw [e1]; rfl
      rw [this]
      exact kepToCart_fst g.h (adm_ellipse hmu (k := { k with nu := nu }) ha h0 h1 s.degrees)
    · rw [e2]
      exact speed_core g hmu (k := { k with nu := nu }) ha h0 h1 s.degrees e3
  cases hty : s.type
  · refine key k.nu (angleOut s.degrees (eccOf k.e (angleOf s.degrees k.nu))) (by rw [hty]; rfl) ?_ ?_
    · simp only [anomOf, eccFn, hty]
      exact trueToEcc_fx g h0 h1
    · rw [angleOf_angleOut]; exact cos_eccOf h0 h1
  · refine key (angleOut s.degrees (trueOf k.e (angleOf s.degrees k.nu))) k.nu ?_ ?_ ?_
    · rw [hty]; exact eccToTrue_fx g h0 h1
    · simp only [anomOf, eccFn, hty]; rfl
    · rw [angleOf_angleOut]; exact cos_trueOf h0 h1
  · obtain ⟨tol, d, mi, ho⟩ := hm hty
    obtain ⟨E, e1, -, -⟩ := meanToEccentricEl_fin tol mi d (angleOf s.degrees k.nu) k.e h0 (.inl h1.le)
    rw [← ho] at e1
    refine key (angleOut s.degrees (trueOf k.e E)) (angleOut s.degrees E) ?_ ?_ ?_
    · rw [hty]
      show outR s.degrees (eccentricToTrueEl g.tru .f64 (meanToEccentricEl s.opts (inR s.degrees (fin k.nu)) (fin k.e)) (fin k.e)) = _
      rw [inR_fin, e1, eccentricToTrueEl_eli g.tru h0 h1, outR_fin]
    · simp only [anomOf, eccFn, hty]
      show outR s.degrees (meanToEccentricEl s.opts (inR s.degrees (fin k.nu)) (fin k.e)) = _
      rw [inR_fin, e1, outR_fin]
    · rw [angleOf_angleOut, angleOf_angleOut]; exact cos_trueOf h0 h1

theorem speed_fin {mu a e E : ℝ} (hmu : 0 < mu) (ha : 0 < a) (h0 : 0 ≤ e) (h1 : e < 1) (deg : Bool) :
    (fxKern g).speed deg (fin mu) (fin E) (fin a) (fin e) = fin √(mu * (2 / (a * (1 - e * Real.cos (angleOf deg E))) - 1 / a)) ∧
      0 ≤ mu * (2 / (a * (1 - e * Real.cos (angleOf deg E))) - 1 / a) := by
  have hc1 := Real.cos_le_one (angleOf deg E)
  have hc2 := Real.neg_one_le_cos (angleOf deg E)
  have hr : 0 < 1 - e * Real.cos (angleOf deg E) := by nlinarith
  have hr2 : 1 - e * Real.cos (angleOf deg E) ≤ 2 := by nlinarith
  have hnn : 0 ≤ mu * (2 / (a * (1 - e * Real.cos (angleOf deg E))) - 1 / a) := by
    refine mul_nonneg hmu.le (sub_nonneg.mpr ?_)
    rw [div_le_div_iff₀ ha (by positivity)]
    nlinarith
  refine ⟨?_, hnn⟩
  show orbital_speed (elliptic_radius (fin E) (fin a) (fin e) deg) (fin a) (fin mu) = _
  have : elliptic_radius (fin E) (fin a) (fin e) deg = fin (a * (1 - e * Real.cos (angleOf deg E))) := by
    unfold elliptic_radius
    show fin a * (1 - fin e * Np.cos (inR deg (fin E))) = _
    rw [inR_fin]
    simp only [cos_fin, mul_fin, one_fin, sub_fin]
  rw [this]
  unfold orbital_speed
  simp only [ofNat_fin, one_fin, div_fin (mul_pos ha hr).ne', div_fin ha.ne', sub_fin, mul_fin, sqrt_fin hnn]

/-- the vis-viva speeds at two eccentric anomalies -/
theorem speed_close {mu a e E F d : ℝ} (hmu : 0 < mu) (ha : 0 < a) (h0 : 0 ≤ e) (h1 : e < 1) (h : |E - F| ≤ d / (1 - e)) :
    |mu * (2 / (a * (1 - e * Real.cos E)) - 1 / a) - mu * (2 / (a * (1 - e * Real.cos F)) - 1 / a)| ≤ 2 * mu * e * d / (a * (1 - e) ^ 3) := by
  have hq : 0 < 1 - e := by linarith
  have hx : 1 - e ≤ 1 - e * Real.cos E := by nlinarith [Real.cos_le_one E]
  have hy : 1 - e ≤ 1 - e * Real.cos F := by nlinarith [Real.cos_le_one F]
  have hx0 : 0 < 1 - e * Real.cos E := by linarith
  have hy0 : 0 < 1 - e * Real.cos F := by linarith
  have hl := (Real.abs_cos_sub_cos_le E F).trans h
  have e1 : mu * (2 / (a * (1 - e * Real.cos E)) - 1 / a) - mu * (2 / (a * (1 - e * Real.cos F)) - 1 / a) =
      2 * mu * e / a * (Real.cos E - Real.cos F) / ((1 - e * Real.cos E) * (1 - e * Real.cos F)) := by
    field_simp
    ring
  have hd : 0 ≤ d / (1 - e) := (abs_nonneg _).trans h
  rw [e1, abs_div, abs_mul, abs_of_pos (mul_pos hx0 hy0), abs_of_nonneg (show 0 ≤ 2 * mu * e / a by positivity)]
  calc 2 * mu * e / a * |Real.cos E - Real.cos F| / ((1 - e * Real.cos E) * (1 - e * Real.cos F))
      ≤ 2 * mu * e / a * (d / (1 - e)) / ((1 - e) * (1 - e)) := by
        refine div_le_div₀ ?_ ?_ (mul_pos hq hq) (mul_le_mul hx hy hq.le hx0.le)
        · exact mul_nonneg (by positivity) hd
        · exact mul_le_mul_of_nonneg_left hl (by positivity)
    _ = 2 * mu * e * d / (a * (1 - e) ^ 3) := by
        field_simp

theorem FromCartesian.speed {s : Orb FX} {mu : ℝ} {k : Kep FX} {c : Cart ℝ}
    (h : FromCartesian g s.type s.degrees mu k c) (hop : s.type = .mean → ∃ (tol d : ℝ) (mi : Int), s.opts = opts tol mi d) :
    ∃ u, (fxKern g).speed s.degrees (fin mu) (anomOf (fxKern g) .ecc s k) k.a k.e = fin u ∧ 
      SpeedsAgree s.type s.opts s.degrees mu k u (vlen c.v) := by
  obtain ⟨hmu, hreg, hb, hk⟩ := h
  obtain ⟨k0, hcan, hstate⟩ := hreg.columns hmu s.degrees
  have hadm := hcan.adm hmu
  have hctk : (fxKern g).cartToKep s.degrees (fin mu) c.fx = k0.fx := by
    rw [← hstate]; exact cartToKep_state g.ctk hcan hmu
  have ha : 0 < k0.a := by rw [← inRad_a s.degrees k0]; exact hadm.ha
  have h0 : 0 ≤ k0.e := by rw [← inRad_e s.degrees k0]; exact hadm.he
  have h1 : k0.e < 1 := by
    have hd := hadm.describes
    rw [hstate] at hd
    by_contra hge
    rcases (not_lt.mp hge).eq_or_lt with h | h
    · rw [hd.energy_par (by rw [inRad_e]; exact h.symm)] at hb; exact lt_irrefl _ hb
    · rw [hd.energy_hyp (by rw [inRad_e]; exact h), inRad_a] at hb
      have : 0 < mu / (2 * k0.a) := by positivity
      linarith
  rw [kepOfCart, hctk] at hk
  have hka : k.a = fin k0.a := by rw [hk]; rfl
  have hke : k.e = fin k0.e := by rw [hk]; rfl
  set E0 := eccOf k0.e (angleOf s.degrees k0.nu) with hE0
  have hsp : (fxKern g).speed s.degrees (fin mu) (fin (angleOut s.degrees E0)) k.a k.e = fin (vlen c.v) := by
    rw [hka, hke, ← hstate]
    refine speed_core g hmu ha h0 h1 s.degrees ?_
    rw [angleOf_angleOut]
    exact cos_eccOf h0 h1
  by_cases hty : s.type = .mean
  · obtain ⟨tol, d, mi, ho⟩ := hop hty
    have e1 : k.nu = fin (angleOut s.degrees (meanOf k0.e E0)) := by
      simp only [hk, fromTrue, hty]
      show outR s.degrees (eccentricToMeanEl g.mean .f64 (trueToEccentricEl g.ecc .f64 (inR s.degrees (fin k0.nu)) (fin k0.e)) (fin k0.e)) = _
      rw [inR_fin, trueToEccentricEl_eli g.ecc h0 h1, eccentricToMeanEl_eli g.mean h1, outR_fin]
    obtain ⟨E, q1, -, q2⟩ := meanToEccentricEl_fin tol mi d (meanOf k0.e E0) k0.e h0 (.inl h1.le)
    rw [← ho] at q1 q2
    have hE : anomOf (fxKern g) .ecc s k = fin (angleOut s.degrees E) := by
      simp only [anomOf, eccFn, hty]
      rw [e1, hke]
      show outR s.degrees (meanToEccentricEl s.opts (inR s.degrees (fin _)) (fin k0.e)) = _
      rw [inR_fin, angleOf_angleOut, q1, outR_fin]
    obtain ⟨p1, p2⟩ := speed_fin g (E := angleOut s.degrees E) hmu ha h0 h1 s.degrees
    obtain ⟨p3, p4⟩ := speed_fin g (E := angleOut s.degrees E0) hmu ha h0 h1 s.degrees
    rw [hka, hke, p3] at hsp
    rw [angleOf_angleOut] at p1 p2 p3 p4 hsp
    have hv : √(mu * (2 / (k0.a * (1 - k0.e * Real.cos E0)) - 1 / k0.a)) = vlen c.v := by injection hsp
    refine ⟨_, by rw [hE, hka, hke]; exact p1, fun h => absurd hty h, fun M e _ hM he hs => ?_, fun M e a tol' d' mi' _ hM he ha' ho' hl => ?_⟩
    · obtain rfl : k0.e = e := by rw [hke] at he; injection he
      obtain rfl : angleOut s.degrees (meanOf k0.e E0) = M := by rw [e1] at hM; injection hM
      rw [angleOf_angleOut] at hs
      have := solved_eq h0 h1 hs
      rw [q1] at this
      obtain rfl : E = E0 := by injection this
      exact hv
    · obtain rfl : k0.e = e := by rw [hke] at he; injection he
      obtain rfl : k0.a = a := by rw [hka] at ha'; injection ha'
      obtain rfl : angleOut s.degrees (meanOf k0.e E0) = M := by rw [e1] at hM; injection hM
      obtain rfl : tol = tol' := by
        rw [ho] at ho'
        injection ho' with ho' _ _
        injection ho'
      rw [angleOf_angleOut] at hl
      have hq : 0 < 1 - k0.e := by linarith
      have h4 := meanOf_error h0 h1.ne E E0
      rw [abs_of_pos hq] at h4
      rw [← hv, Real.sq_sqrt p2, Real.sq_sqrt p4]
      exact speed_close hmu ha h0 h1 (h4.trans (div_le_div_of_nonneg_right (q2 h1.ne hl).le hq.le))
  · have hE : anomOf (fxKern g) .ecc s k = fin (angleOut s.degrees E0) := by
      cases hty' : s.type
      · simp only [hk, anomOf, eccFn, hty', fromTrue]
        exact trueToEcc_fx g h0 h1
      · simp only [hk, anomOf, eccFn, hty', fromTrue]
        exact trueToEcc_fx g h0 h1
      · exact absurd hty' hty
    exact ⟨_, by rw [hE]; exact hsp, fun _ => rfl, fun _ _ h => absurd h hty, fun _ _ _ _ _ _ h => absurd h hty⟩

/-- reading `speed` and `velocity` -/
theorem speed_velocity_reads {n : Nat} (s : Orb FX) (hs : OneEntryPerOrbit s n) (ks : List (Kep FX)) (cs : List (Cart FX))
    (hks : (get_kepler (fxKern g) s).1 = .ok ks)
    (hcs : (get_cartesian (fxKern g) (get_cartesian (fxKern g) s).2).1 = .ok cs) (j : Nat) (k : Kep FX) (c : Cart ℝ) (m : FX) (mu : ℝ)
    (hk : ks[j]? = some k) (hc : cs[j]? = some c.fx) (hm : s.m[j]? = some m) (hmu : s.G * (s.M0 + m) = fin mu) :
    ∃ ss vs : List FX, (get_speed (fxKern g) s).1 = .ok ss ∧ (get_velocity (fxKern g) s).1 = .ok vs ∧
      ss[j]? = some ((fxKern g).speed s.degrees (fin mu) (anomOf (fxKern g) .ecc s k) k.a k.e) ∧ vs[j]? = some (fin (vlen c.v)) := by
  replace hmu : (fxKern g).mu s.G s.M0 m = fin mu := hmu
  have h1 : (get_speed (fxKern g) s).1 = .ok (Read.val (fxKern g) .speed (kepCheck (fxKern g) s)) := by
    have e1 : get_speed (fxKern g) s = get_speed (fxKern g) (kepCheck (fxKern g) s) := get_kepCheck (fxKern g) .speed rfl s
    rw [e1]
    exact read_val_kep (fxKern g) (kepCheck_wfe (fxKern g) s hs.wfe) (fresh_kepCheck (fxKern g) s) .speed rfl
  have h2 : (get_velocity (fxKern g) s).1 = .ok (cs.map velocityOf) := by
    have : cs = (cartCheck (fxKern g) (cartCheck (fxKern g) s)).cart := (Except.ok.inj hcs).symm
    rw [this]; rfl
  have hks' : ks = (kepCheck (fxKern g) s).kep := (Except.ok.inj hks).symm
  obtain ⟨e1, e2, e3, -⟩ := kepCheck_settings (fxKern g) s
  have hanom : anomOf (fxKern g) .ecc (kepCheck (fxKern g) s) k = anomOf (fxKern g) .ecc s k := by
    unfold anomOf eccFn
    rw [e1, e2, e3]
  refine ⟨_, _, h1, h2, ?_, ?_⟩
  · show (List.zipWith _ _ _)[j]? = _
    have hm' : (kepCheck (fxKern g) s).m[j]? = some m := by rw [kepCheck_eq]; exact hm
    have hG : (kepCheck (fxKern g) s).G = s.G := by rw [kepCheck_eq]; rfl
    have hM : (kepCheck (fxKern g) s).M0 = s.M0 := by rw [kepCheck_eq]; rfl
    rw [List.getElem?_zipWith, ← hks', hk, hm']
    simp only [hanom, hG, hM, hmu, e2]
  · rw [List.getElem?_map, hc, Option.map_some, velocityOf_fx]

/-- C41: in every mode, `orb.speed` equals `orb.velocity` for every orbit whose Cartesian elements (as read from `orb.cartesian`, the
second time, as `velocity` reads it twice) are the state of its Kepler elements (as read from `orb.kepler`) on an ellipse. -/
theorem c41 {n : Nat} (s : Orb FX) (hs : OneEntryPerOrbit s n) (ks : List (Kep FX)) (cs : List (Cart FX))
    (hks : (get_kepler (fxKern g) s).1 = .ok ks)
    (hcs : (get_cartesian (fxKern g) (get_cartesian (fxKern g) s).2).1 = .ok cs) (j : Nat) (k : Kep ℝ) (c : Cart FX) (m : FX) (mu : ℝ)
    (hk : ks[j]? = some k.fx) (hc : cs[j]? = some c) (hm : s.m[j]? = some m) (hmu : s.G * (s.M0 + m) = fin mu)
    (h : FromKepler g s.type s.opts s.degrees mu k c) :
    ∃ (c' : Cart ℝ) (ss vs : List FX), c = c'.fx ∧ (get_speed (fxKern g) s).1 = .ok ss ∧ (get_velocity (fxKern g) s).1 = .ok vs ∧
      ss[j]? = some (fin (vlen c'.v)) ∧ vs[j]? = some (fin (vlen c'.v)) := by
  obtain ⟨c', rfl, hsp⟩ := h.speed
  obtain ⟨ss, vs, h1, h2, h3, h4⟩ := speed_velocity_reads g s hs ks cs hks hcs j k.fx c' m mu hk hc hm hmu
  exact ⟨c', ss, vs, rfl, h1, h2, by rw [h3, hsp], h4⟩

/-- C41 for Kepler elements that were calculated from a bound state: `orb.speed` equals `orb.velocity`, except that an object which
stores the mean anomaly has to solve Kepler's equation to answer `speed`; then they are equal if the solution is exact, and their
squares agree within `2 mu e tol / (a (1-e)^3)` if the iteration limit is not reached. -/
theorem c41_state {n : Nat} (s : Orb FX) (hs : OneEntryPerOrbit s n) (ks : List (Kep FX)) (cs : List (Cart FX))
    (hks : (get_kepler (fxKern g) s).1 = .ok ks)
    (hcs : (get_cartesian (fxKern g) (get_cartesian (fxKern g) s).2).1 = .ok cs) (j : Nat) (k : Kep FX) (c : Cart ℝ) (m : FX) (mu : ℝ)
    (hk : ks[j]? = some k) (hc : cs[j]? = some c.fx) (hm : s.m[j]? = some m) (hmu : s.G * (s.M0 + m) = fin mu)
    (h : FromCartesian g s.type s.degrees mu k c) (hop : s.type = .mean → ∃ (tol d : ℝ) (mi : Int), s.opts = opts tol mi d) :
    ∃ (u : ℝ) (ss vs : List FX), (get_speed (fxKern g) s).1 = .ok ss ∧ (get_velocity (fxKern g) s).1 = .ok vs ∧
      ss[j]? = some (fin u) ∧ vs[j]? = some (fin (vlen c.v)) ∧ SpeedsAgree s.type s.opts s.degrees mu k u (vlen c.v) := by
  obtain ⟨u, hsp, hu⟩ := h.speed g hop
  obtain ⟨ss, vs, h1, h2, h3, h4⟩ := speed_velocity_reads g s hs ks cs hks hcs j k c m mu hk hc hm hmu
  exact ⟨u, ss, vs, h1, h2, by rw [h3, hsp], h4, hu⟩

/-! ## C47 -/

theorem matSpread {α C : Type} {const : α → C} {n : Nat} {cs : List C} (h : cs.length = n) :
    (Val6.mat cs : Val6 α C).spread const n = .ok cs := by
  match cs, h with
  | [], h => simp [Val6.spread, h]
  | [x], h => subst h; rfl
  | x :: y :: l, h => simp [Val6.spread, h]

theorem cartCheck_cro {α : Type} (K : Kern α) (s : Orb α) : (cartCheck K s).cro = s.cro := by
  unfold cartCheck
  split
  · unfold calcCart
    simp only
    split
    · split
      · rfl
      · have ha : ∀ d t, (storeCart K d t (calcTrue K false d (markCart d s))).cro = s.cro := by
          intro d t
          rw [calcTrue_eq, kepCheck_eq]
          rfl
        exact ha _ _
    · rfl
  · rfl

/-- the `velocity` setter: the velocities are replaced and nothing raises -/
theorem set_velocity_run {α : Type} (K : Kern α) {n : Nat} {s : Orb α} (hw : WFE n s) (hr : s.cro = false) {v : Val α} {l : List α}
    (hv : v.Row n l) : ∃ s', set_velocity K v s = (.ok (), s') ∧ CartFresh K s' ∧
      (get_cartesian K s').1 = .ok (List.zipWith Cart.setV (cartCheck K (cartCheck K s)).cart
        (List.zipWith (fun c x => (K.scaleV c x).getV) (cartCheck K (cartCheck K s)).cart l)) := by
  have hw2 : WF n (cartCheck K (cartCheck K s)) := (hw.1.cartCheck K).cartCheck K
  have hg : (guardCart : Py α Unit) s = (.ok (), s) := by simp [guardCart, hr, self_bind, pure_run]
  set s2 := cartCheck K (cartCheck K s) with hs2
  have hg2 : (guardCart : Py α Unit) s2 = (.ok (), s2) := by
    have : s2.cro = false := by rw [hs2, cartCheck_cro, cartCheck_cro, hr]
    simp [guardCart, this, self_bind, pure_run]
  have hl : l.length = n := Val.spread_length (spread_of_row hv)
  set vs := List.zipWith (fun c x => (K.scaleV c x).getV) s2.cart l with hvs
  have hlv : vs.length = n := by simp [hvs, hw2.cart, hl]
  have hw3 : WF n { s2 with cart := List.zipWith Cart.setV s2.cart vs } :=
    ⟨hw2.m, by simp [hw2.cart, hlv], hw2.kep, hw2.tA, hw2.mA, hw2.cartCalc, hw2.kepCalc⟩
  obtain ⟨t, t1, t2, t3⟩ := afterCart_ok K hw3
  have hw2e : WFE n s2 := cartCheck_wfe K _ (cartCheck_wfe K s hw)
  have hwt : WF n t := by
    have := afterCart_sh K (n := n) { s2 with cart := List.zipWith Cart.setV s2.cart vs } (hw2e.of hw3 rfl)
    rw [t1] at this
    exact this.1.1
  obtain ⟨u, u1, u2, u3⟩ := afterCartEl_ok K hwt
  refine ⟨u, ?_, u3 t3, ?_⟩
  · unfold set_velocity
    rw [bind_ok hg, upd_bind, upd_bind, self_bind]
    simp only [← hs2]
    rw [hw2.cart, spread_of_row hv, liftOk_bind, ← hvs]
    have hset : set_v K (.mat vs) s2 = (.ok (), t) := by
      unfold set_v
      rw [bind_ok hg2, self_bind, hw2.cart, matSpread hlv, liftOk_bind, upd_bind]
      exact t1
    rw [bind_ok hset]
    exact u1
  · show Except.ok (cartCheck K u).cart = _
    rw [(u3 t3).check, u2, t2]

/-- a state with its velocity scaled to the signed length `x` -/
noncomputable def scaled (c : Cart ℝ) (x : ℝ) : Cart ℝ :=
  ⟨c.x, c.y, c.z, c.vx * (x / vlen c.v), c.vy * (x / vlen c.v), c.vz * (x / vlen c.v)⟩

theorem vlen_ne {v : Fin 3 → ℝ} (h : v ≠ 0) : vlen v ≠ 0 := by
  intro h0
  apply h
  have h1 := Real.sqrt_eq_zero'.mp h0
  simp only [dotProduct, Fin.sum_univ_three] at h1
  have h2 := mul_self_nonneg (v 0)
  have h3 := mul_self_nonneg (v 1)
  have h4 := mul_self_nonneg (v 2)
  ext i
  fin_cases i <;> refine mul_self_eq_zero.mp ?_ <;> simp only [Fin.zero_eta, Fin.mk_one, Fin.reduceFinMk] <;> linarith

theorem scaled_fx {c : Cart ℝ} (h : c.v ≠ 0) (x : ℝ) :
    (c.fx).setV ((fxKern g).scaleV c.fx (fin x)).getV = (scaled c x).fx := by
  show (⟨fin c.x, fin c.y, fin c.z, fin c.vx * (fin x / velocityOf c.fx), fin c.vy * (fin x / velocityOf c.fx),
    fin c.vz * (fin x / velocityOf c.fx)⟩ : Cart FX) = _
  rw [velocityOf_fx, div_fin (vlen_ne h)]
  rfl

theorem scaled_v (c : Cart ℝ) (x : ℝ) : (scaled c x).v = (x / vlen c.v) • c.v := by
  ext i
  fin_cases i <;> simp [scaled, Cart.v, mul_comm]

theorem vlen_smul (f : ℝ) (v : Fin 3 → ℝ) : vlen (f • v) = |f| * vlen v := by
  unfold vlen
  rw [smul_dotProduct, dotProduct_smul, smul_eq_mul, smul_eq_mul, ← mul_assoc, Real.sqrt_mul (mul_self_nonneg f), Real.sqrt_mul_self_eq_abs]

/-- C47, in every mode: assigning `orb.velocity` (a scalar for all orbits or one value per orbit) keeps every position, leaves a
velocity that is the old one times a factor, of length `|x|` (along the old one for `x > 0`), and `orb.velocity` reads `|x|`.
The old state is the one read from `orb.cartesian` the second time, as the setter reads it twice; in lazy mode with a type other
than `true` the first of two reads can differ for the other orbits (C31). -/
theorem c47 {n : Nat} (s : Orb FX) (hs : OneEntryPerOrbit s n) (hr : s.cro = false) (v : Val FX) (xs : List ℝ)
    (hv : v.Row n (xs.map fin)) (cs : List (Cart ℝ))
    (hcs : (get_cartesian (fxKern g) (get_cartesian (fxKern g) s).2).1 = .ok (cs.map Cart.fx)) (hne : ∀ c ∈ cs, c.v ≠ 0) :
    ∃ (s' : Orb FX) (cs' : List (Cart ℝ)), set_velocity (fxKern g) v s = (.ok (), s') ∧
      (get_cartesian (fxKern g) s').1 = .ok (cs'.map Cart.fx) ∧ cs'.length = n ∧
      (get_velocity (fxKern g) s').1 = .ok (xs.map fun x => fin |x|) ∧
      ∀ (j : Nat) (c : Cart ℝ) (x : ℝ), cs[j]? = some c → xs[j]? = some x →
        ∃ c' : Cart ℝ, cs'[j]? = some c' ∧ c'.r = c.r ∧ vlen c'.v = |x| ∧ c'.v = (x / vlen c.v) • c.v := by
  obtain ⟨s', h1, h2, h3⟩ := set_velocity_run (fxKern g) hs.wfe hr hv
  have e0 : (cartCheck (fxKern g) (cartCheck (fxKern g) s)).cart = cs.map Cart.fx := Except.ok.inj hcs
  have hlc : cs.length = n := by
    have := ((hs.wfe.1.cartCheck (fxKern g)).cartCheck (fxKern g)).cart
    rwa [e0, List.length_map] at this
  have hlx : xs.length = n := by
    have := Val.spread_length (spread_of_row hv)
    rwa [List.length_map] at this
  have hsv : ∀ c ∈ cs, ∀ x : ℝ, vlen (scaled c x).v = |x| := by
    intro c hc x
    rw [scaled_v, vlen_smul, abs_div, abs_of_nonneg (show 0 ≤ vlen c.v from Real.sqrt_nonneg _), div_mul_cancel₀ _ (vlen_ne (hne c hc))]
  have e1 : List.zipWith Cart.setV (cs.map Cart.fx) (List.zipWith (fun c x => ((fxKern g).scaleV c x).getV) (cs.map Cart.fx) (xs.map fin)) =
      (List.zipWith scaled cs xs).map Cart.fx := by
    apply List.ext_getElem?
    intro j
    simp only [List.getElem?_zipWith, List.getElem?_map]
    cases hj : cs[j]? with
    | none => rfl
    | some c =>
      cases hx : xs[j]? with
      | none => rfl
      | some x => exact congrArg some (scaled_fx g (hne c (List.mem_of_getElem? hj)) x)
  rw [e0, e1] at h3
  refine ⟨s', List.zipWith scaled cs xs, h1, h3, by simp [hlc, hlx], ?_, ?_⟩
  · have h4 : (get_velocity (fxKern g) s').1 = .ok ((cartCheck (fxKern g) (cartCheck (fxKern g) s')).cart.map velocityOf) := rfl
    rw [h2.check, h2.check] at h4
    rw [h4]
    have h5 : s'.cart = (List.zipWith scaled cs xs).map Cart.fx := by
      have := Except.ok.inj h3
      rw [← this, h2.check]
    rw [h5]
    refine congrArg Except.ok (List.ext_getElem? fun j => ?_)
    simp only [List.getElem?_zipWith, List.getElem?_map]
    by_cases hj : j < n
    · have hj1 : cs[j]? = some (cs[j]'(hlc ▸ hj)) := by simp [hlc, hj]
      have hj2 : xs[j]? = some (xs[j]'(hlx ▸ hj)) := by simp [hlx, hj]
      rw [hj1, hj2]
      simp only [Option.map_some, velocityOf_fx]
      rw [hsv _ (List.getElem_mem _)]
    · have hj1 : cs[j]? = none := by simp [hlc]; omega
      have hj2 : xs[j]? = none := by simp [hlx]; omega
      rw [hj1, hj2]; rfl
  · intro j c x hc hx
    refine ⟨scaled c x, by simp [List.getElem?_zipWith, hc, hx], rfl, hsv c (List.mem_of_getElem? hc) x, scaled_v c x⟩

/-! ## Cases of the theorems -/

/-- an object in direct mode with the elements `quarter`, made by the constructor and one assignment -/
noncomputable def quarterObj : Orb FX :=
  single (fxKern g) 1 1 .dflt .tru (quarter (Real.pi / 2)).fx ((quarter (Real.pi / 2)).state 1).fx true false

theorem quarterObj_made : ∃ s0, init (fxKern g) 1 { G := 1, opts := .dflt } {} = .ok s0 ∧
    exec (fxKern g) s0 [.setKepler (.mat [(quarter (Real.pi / 2)).fx])] = quarterObj g := by
  refine ⟨_, init_blank1 (fxKern g) 1 1 .dflt, ?_⟩
  have hset := blank_setKepler (fxKern g) 1 1 .dflt (quarter (Real.pi / 2)).fx (kep_fx_any _)
  rw [show (fxKern g).mu 1 1 (fxKern g).zero = .fin 1 from fx_mu g, quarter_cart] at hset
  rw [exec_cons, hset, exec_nil]
  rfl

/-- `c41` for this object -/
example : ∃ ss vs : List FX, (get_speed (fxKern g) (quarterObj g)).1 = .ok ss ∧ (get_velocity (fxKern g) (quarterObj g)).1 = .ok vs ∧
    ss[0]? = vs[0]? ∧ ss[0]?.isSome := by
  obtain ⟨c', ss, vs, -, h1, h2, h3, h4⟩ := c41 g (quarterObj g) (single_one _ _ _ _ _ _ _ _ _) _ _ rfl rfl 0
    (quarter (Real.pi / 2)) ((quarter (Real.pi / 2)).state 1).fx 0 1 rfl rfl rfl (fx_mu g)
    ⟨one_pos, one_pos, by norm_num [quarter], by norm_num [quarter], (quarter_cart g .dflt _).symm, nofun⟩
  exact ⟨ss, vs, h1, h2, h3.trans h4.symm, by rw [h3]; rfl⟩

/-- the same orbit stored with its eccentric anomaly -/
example (nu : ℝ) (o : SolverOpts FX) :
    FromKepler g .ecc o false 1 (quarter nu) (cartOfKep (fxKern g) .ecc o false (fin 1) (quarter nu).fx) :=
  ⟨one_pos, one_pos, by norm_num [quarter], by norm_num [quarter], rfl, nofun⟩

/-- an object that stores the mean anomaly and was given a bound state, case of `c41_state` -/
example : FromCartesian g .mean true 1 (kepOfCart (fxKern g) .mean true (fin 1) (⟨1, 0, 0, 0, 0, 11 / 10⟩ : Cart ℝ).fx)
    ⟨1, 0, 0, 0, 0, 11 / 10⟩ :=
  ⟨one_pos, example_state, by
    have h1 : (![0, 0, 11 / 10] : Fin 3 → ℝ) 2 = 11 / 10 := rfl
    have h2 : (![1, 0, 0] : Fin 3 → ℝ) 2 = 0 := rfl
    norm_num [energy, vlen, Cart.r, Cart.v, dotProduct, Fin.sum_univ_three, h1, h2], rfl⟩

/-- a state with a velocity -/
def moving : Cart ℝ := ⟨1, 0, 0, 0, 3, 4⟩

/-- `c47` for an object at `moving`: the velocity (0, 3, 4) becomes (0, -6, -8) when `-10` is assigned -/
example : ∃ s', set_velocity (fxKern g) (.sc (fin (-10))) (single (fxKern g) 1 1 .dflt .tru (quarter 0).fx moving.fx true false) =
      (.ok (), s') ∧ (get_cartesian (fxKern g) s').1 = .ok [(⟨1, 0, 0, 0, -6, -8⟩ : Cart ℝ).fx] := by
  have hv : vlen moving.v = 5 := by
    rw [show (5 : ℝ) = √(5 ^ 2) from (Real.sqrt_sq (by norm_num)).symm]
    unfold vlen moving Cart.v
    congr 1
    simp [dotProduct, Fin.sum_univ_three]
    norm_num
  obtain ⟨s', cs', h1, h2, h3, -, h4⟩ := c47 g (single (fxKern g) 1 1 .dflt .tru (quarter 0).fx moving.fx true false)
    (single_one _ _ _ _ _ _ _ _ _) rfl (.sc (fin (-10))) [-10] rfl [moving] rfl
    (fun c hc h0 => by
      rw [List.mem_singleton.mp hc] at h0
      rw [h0] at hv
      simp [vlen] at hv)
  obtain ⟨c', k1, k2, k3, k4⟩ := h4 0 moving (-10) rfl rfl
  refine ⟨s', h1, ?_⟩
  have : cs' = [c'] := by
    obtain ⟨x, hx⟩ := List.length_eq_one_iff.mp h3
    subst hx
    simpa using k1
  rw [h2, this, List.map_singleton]
  have hr : ∀ i, c'.r i = moving.r i := fun i => by rw [k2]
  have hw : ∀ i, c'.v i = (-10 / 5 : ℝ) * moving.v i := fun i => by rw [k4, hv]; rfl
  have r0 := hr 0; have r1 := hr 1; have r2 := hr 2
  have w0 := hw 0; have w1 := hw 1; have w2 := hw 2
  simp [Cart.r, Cart.v, moving] at r0 r1 r2 w0 w1 w2
  norm_num at w1 w2
  have : c' = ⟨1, 0, 0, 0, -6, -8⟩ := by
    cases c'
    simp only at *
    subst r0 r1 r2 w0 w1 w2
    rfl
  rw [this]

end Orbit
end Pyorb
