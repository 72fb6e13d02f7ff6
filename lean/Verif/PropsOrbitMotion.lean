import Verif.PropsOrbitPropagate
import Verif.PropsOrbitDerived
import Verif.PropsNewton
import Mathlib.Analysis.Calculus.MeanValue
import Mathlib.Analysis.Complex.Basic

/-!
# The state of an object moved by `Orbit.propagate` (C66, C67)

C28 and C58 are about the anomalies `propagate` stores.  Here: the Cartesian state that is read afterwards, by calculation in
direct mode or on demand in lazy mode, lies on the orbit of the object exactly, whatever the solver of Kepler's equation returned
(C66), and close to the solution of Newton's equations of motion, by an explicit bound (C67).
-/

set_option linter.unusedSimpArgs false
set_option linter.unusedVariables false

namespace Pyorb
namespace Orbit
open Py FX
variable {α : Type} (K : Kern α)

/-! ## What is read from `orb.cartesian` after `propagate` -/

/-- the Cartesian elements after `propagate`, in direct and lazy mode -/
theorem propagate_cart {n : Nat} {s s' : Orb α} (hw : WFE n s) (hr : s.kro = false) {dt : Val α} {dts : List α} (hdt : dt.Row n dts)
    (hmode : s.auto = true ∨ s.direct = true) (h : propagate K dt s = (.ok (), s')) {j : Nat} {k : Kep α} {m x : α}
    (hk : (kepCheck K s).kep[j]? = some k) (hm : s.m[j]? = some m) (hx : dts[j]? = some x)
    (hn : ({ k with nu := conv K s.opts s.degrees .mean s.type (newMean K (kepCheck K s) k m x) k.e } : Kep α).any K.isnan = false) :
    ∃ cs, (get_cartesian K s').1 = .ok cs ∧ cs[j]? = some (cartOfKep K s.type s.opts s.degrees (K.mu s.G s.M0 m)
      { k with nu := conv K s.opts s.degrees .mean s.type (newMean K (kepCheck K s) k m x) k.e }) := by
  obtain ⟨t, h1, h2, h3, h4, h5, h6, h7⟩ := propagate_steps K hw hr hdt
  obtain rfl : t = s' := by rw [h1] at h; injection h
  have em : t.m = s.m := by rw [h3]
  have eset : t.type = s.type ∧ t.opts = s.opts ∧ t.degrees = s.degrees ∧ t.G = s.G ∧ t.M0 = s.M0 ∧ t.auto = s.auto ∧ t.direct = s.direct := by
    rw [h3]; exact ⟨rfl, rfl, rfl, rfl, rfl, rfl, rfl⟩
  obtain ⟨et, eo, ed, eG, eM, ea, edir⟩ := eset
  have hmk : (kepCheck K s).m[j]? = some m := by rw [kepCheck_eq]; exact hm
  have hkt : t.kep[j]? = some { k with nu := conv K s.opts s.degrees .mean s.type (newMean K (kepCheck K s) k m x) k.e } := by
    rw [h5, List.getElem?_zipWith, hk]
    unfold newMeans
    rw [List.getElem?_zipWith]
    simp only [List.zip, List.getElem?_zipWith, hk, hmk, hx]
  have hj : j < n := by rw [← h2.1.kep]; exact (List.getElem?_eq_some_iff.mp hkt).1
  have hmt : t.m[j]? = some m := by rw [em]; exact hm
  refine ⟨(cartCheck K t).cart, rfl, ?_⟩
  cases hd : s.direct with
  | true =>
    have hz : lazy t = false := lazy_direct (by rw [edir]; exact hd)
    rw [cartCheck_direct K hz]
    obtain ⟨r, hwr, hr'⟩ := h6 hd
    have hsame : r.kep = t.kep ∧ r.m = t.m ∧ r.type = t.type ∧ r.opts = t.opts ∧ r.degrees = t.degrees ∧ r.G = t.G ∧ r.M0 = t.M0 := by
      rw [hr']; exact ⟨rfl, rfl, rfl, rfl, rfl, rfl, rfl⟩
    obtain ⟨q1, q2, q3, q4, q5, q6, q7⟩ := hsame
    have hcr := List.getElem?_eq_getElem (l := r.cart) (i := j) (by rw [hwr.cart]; exact hj)
    have := recalcCart_getElem? K hwr (by rw [q1]; exact hkt) hcr (by rw [q2]; exact hmt)
    rw [← hr', if_neg (by rw [hn]; simp)] at this
    rw [this, q3, q4, q5, q6, q7, et, eo, ed, eG, eM]
  | false =>
    have hz : lazy t = true := lazy_iff.mpr ⟨by rw [ea]; rcases hmode with h | h <;> [exact h; exact absurd h (by rw [hd]; simp)], by rw [edir]; exact hd⟩
    have hz' : (t.auto && !t.direct) = true := hz
    have hdo : doCart K (fun j => !t.cartCalc.getD j true) t = kepOk K t := by
      funext i
      rw [doCart_eq, List.getD_eq_getElem?_getD]
      by_cases hi : i < n
      · have hci := List.getElem?_eq_getElem (l := t.cartCalc) (i := i) (by rw [h2.1.cartCalc]; exact hi)
        rw [hci, h7 hd _ (List.mem_of_getElem? hci)]; rfl
      · have : kepOk K t i = false := by unfold kepOk; rw [h2.1.kep, decide_eq_false hi]; rfl
        rw [this]; simp
    have hct := List.getElem?_eq_getElem (l := t.cart) (i := j) (by rw [h2.1.cart]; exact hj)
    unfold cartCheck
    rw [if_pos hz', calcCart_eq K _ t h2.1 (.inr h4), hdo, recalcCart_getElem? K h2.1 hkt hct hmt, if_neg (by rw [hn]; simp), et, eo, ed, eG, eM]

/-! ## Points of an ellipse -/

theorem samePoint_cos_sin {e nu E : ℝ} (h0 : 0 ≤ e) (h1 : e < 1) (h : SamePoint e nu E) :
    Real.cos nu = Real.cos (trueOf e E) ∧ Real.sin nu = Real.sin (trueOf e E) := by
  obtain ⟨hc, hs⟩ := samePoint_trueOf (E := E) h0 h1
  have hD := denom_pos h0 h1 E
  exact ⟨mul_left_cancel₀ hD.ne' (h.along.trans hc.symm), mul_left_cancel₀ hD.ne' (h.across.trans hs.symm)⟩

theorem motion_pos {mu a : ℝ} (hmu : 0 < mu) (ha : 0 < a) : 0 < √(mu / a ^ 3) ∧ √(mu / a ^ 3) ^ 2 * a ^ 3 = mu := by
  refine ⟨Real.sqrt_pos.mpr (by positivity), ?_⟩
  rw [Real.sq_sqrt (by positivity)]
  field_simp

theorem ellipseState_inRad (deg : Bool) (k : Kep ℝ) (nu n E : ℝ) :
    ellipseState (Kep.inRad deg { k with nu := nu }) n E = ellipseState (k.inRad deg) n E := by cases deg <;> rfl

/-- the state of elements with a true anomaly is the point of the ellipse with the eccentric anomaly that belongs to it -/
theorem state_point {mu : ℝ} (hmu : 0 < mu) {k : Kep ℝ} (ha : 0 < k.a) (h0 : 0 ≤ k.e) (h1 : k.e < 1) (deg : Bool) {nu E : ℝ}
    (h : SamePoint k.e (angleOf deg nu) E) :
    (Kep.inRad deg { k with nu := nu }).state mu = ellipseState (k.inRad deg) √(mu / k.a ^ 3) E := by
  obtain ⟨hn, hn2⟩ := motion_pos hmu ha
  obtain ⟨hc, hs⟩ := samePoint_cos_sin h0 h1 h
  rw [← ellipseState_inRad deg k nu]
  exact (state_trueOf (Kep.inRad deg { k with nu := nu }) mu √(mu / k.a ^ 3) E (by rw [inRad_a]; exact ha) (by rw [inRad_e]; exact h0)
    (by rw [inRad_e]; exact h1) hn (by rw [inRad_a]; exact hn2) (by rw [inRad_nu, inRad_e]; exact hc) (by rw [inRad_nu, inRad_e]; exact hs)).1

theorem ellipse_describes {mu : ℝ} (hmu : 0 < mu) {k : Kep ℝ} (ha : 0 < k.a) (h0 : 0 ≤ k.e) (h1 : k.e < 1) (deg : Bool) {nu E : ℝ}
    (h : SamePoint k.e (angleOf deg nu) E) :
    DescribesOrbit mu (Kep.inRad deg { k with nu := nu }) (ellipseState (k.inRad deg) √(mu / k.a ^ 3) E) := by
  rw [← state_point hmu ha h0 h1 deg h]
  exact (adm_ellipse hmu (k := { k with nu := nu }) ha h0 h1 deg).describes

/-- the same orbit: angular momentum, eccentricity vector and energy are the same -/
structure SameOrbit (mu : ℝ) (c d : Cart ℝ) : Prop where
  angMom : angMom c = angMom d
  eccVec : eccVec mu c = eccVec mu d
  energy : energy mu c = energy mu d

theorem ellipse_sameOrbit {mu : ℝ} (hmu : 0 < mu) {k : Kep ℝ} (ha : 0 < k.a) (h0 : 0 ≤ k.e) (h1 : k.e < 1) (deg : Bool) (E F : ℝ) :
    SameOrbit mu (ellipseState (k.inRad deg) √(mu / k.a ^ 3) E) (ellipseState (k.inRad deg) √(mu / k.a ^ 3) F) := by
  have pt : ∀ E, SamePoint k.e (angleOf deg (angleOut deg (trueOf k.e E))) E := fun E => by
    rw [angleOf_angleOut]; exact samePoint_trueOf h0 h1
  have d1 := ellipse_describes hmu ha h0 h1 deg (pt E)
  have d2 := ellipse_describes hmu ha h0 h1 deg (pt F)
  refine ⟨d1.ang_mom.trans (Eq.trans ?_ d2.ang_mom.symm), d1.ecc.trans (Eq.trans ?_ d2.ecc.symm),
    (d1.energy_ell (by rw [inRad_e]; exact h1)).trans (Eq.trans ?_ (d2.energy_ell (by rw [inRad_e]; exact h1)).symm)⟩ <;>
  cases deg <;> rfl

theorem sq_sum_le {x y d : ℝ} (hd : 0 ≤ d) (h : x ^ 2 + y ^ 2 ≤ d ^ 2) : √(x ^ 2 + y ^ 2) ≤ d := by
  rw [← Real.sqrt_sq hd]; exact Real.sqrt_le_sqrt h

theorem vlen_plane (k : Kep ℝ) (X Y : ℝ) (u : Fin 3 → ℝ) (h0 : u 0 = k.px * X + k.qx * Y) (h1 : u 1 = k.py * X + k.qy * Y)
    (h2 : u 2 = k.pz * X + k.qz * Y) : vlen u = √(X ^ 2 + Y ^ 2) := by
  unfold vlen
  rw [← k.plane_norm X Y]
  congr 1
  simp [dotProduct, Fin.sum_univ_three, h0, h1, h2]
  ring

/-- the chord between two points of an ellipse -/
theorem position_close (k : Kep ℝ) (n : ℝ) (ha : 0 < k.a) (h0 : 0 ≤ k.e) (h1 : k.e < 1) (E F : ℝ) :
    vlen ((ellipseState k n E).r - (ellipseState k n F).r) ≤ k.a * |E - F| := by
  rw [vlen_plane k (k.a * (Real.cos E - Real.cos F)) (k.a * √(1 - k.e ^ 2) * (Real.sin E - Real.sin F)) _
    (by simp [ellipseState, Cart.r]; ring) (by simp [ellipseState, Cart.r]; ring) (by simp [ellipseState, Cart.r]; ring)]
  refine sq_sum_le (by positivity) ?_
  have hs : √(1 - k.e ^ 2) ^ 2 = 1 - k.e ^ 2 := Real.sq_sqrt (by nlinarith)
  have hch : (Real.cos E - Real.cos F) ^ 2 + (Real.sin E - Real.sin F) ^ 2 ≤ (E - F) ^ 2 := by
    have e1 : (Real.cos E - Real.cos F) ^ 2 + (Real.sin E - Real.sin F) ^ 2 = 2 - 2 * Real.cos (E - F) := by
      rw [Real.cos_sub]
      linear_combination Real.sin_sq_add_cos_sq E + Real.sin_sq_add_cos_sq F
    rw [e1]
    nlinarith [Real.one_sub_sq_div_two_le_cos (x := E - F)]
  have e2 : (k.a * √(1 - k.e ^ 2) * (Real.sin E - Real.sin F)) ^ 2 = k.a ^ 2 * (1 - k.e ^ 2) * (Real.sin E - Real.sin F) ^ 2 := by
    rw [mul_pow, mul_pow, hs]
  rw [e2, mul_pow, mul_pow, sq_abs]
  have : (1 - k.e ^ 2) * (Real.sin E - Real.sin F) ^ 2 ≤ (Real.sin E - Real.sin F) ^ 2 := by nlinarith [sq_nonneg (Real.sin E - Real.sin F)]
  nlinarith [sq_nonneg k.a]

/-- the velocity along an ellipse as a function of the eccentric anomaly, in the plane -/
theorem velocity_close (k : Kep ℝ) (n : ℝ) (hn : 0 ≤ n) (ha : 0 < k.a) (h0 : 0 ≤ k.e) (h1 : k.e < 1) (E F : ℝ) :
    vlen ((ellipseState k n E).v - (ellipseState k n F).v) ≤ k.a * n / (1 - k.e) * |E - F| := by
  set U : ℝ → ℝ := fun E => -(k.a * n * Real.sin E) / (1 - k.e * Real.cos E)
  set W : ℝ → ℝ := fun E => k.a * n * √(1 - k.e ^ 2) * Real.cos E / (1 - k.e * Real.cos E)
  rw [vlen_plane k (U E - U F) (W E - W F) _
    (by simp [ellipseState, Cart.v, U, W]; ring) (by simp [ellipseState, Cart.v, U, W]; ring) (by simp [ellipseState, Cart.v, U, W]; ring)]
  have hq : 0 < 1 - k.e := by linarith
  have hs : √(1 - k.e ^ 2) ^ 2 = 1 - k.e ^ 2 := Real.sq_sqrt (by nlinarith)
  have hD : ∀ x, 1 - k.e ≤ 1 - k.e * Real.cos x := fun x => by nlinarith [Real.cos_le_one x]
  have hD0 : ∀ x, 0 < 1 - k.e * Real.cos x := fun x => lt_of_lt_of_le hq (hD x)
  have hDd : ∀ x, HasDerivAt (fun x => 1 - k.e * Real.cos x) (k.e * Real.sin x) x := fun x => by
    simpa using ((Real.hasDerivAt_cos x).const_mul k.e).const_sub 1
  have hU : ∀ x, HasDerivAt U (-(k.a * n) * (Real.cos x - k.e) / (1 - k.e * Real.cos x) ^ 2) x := fun x => by
    have := (((Real.hasDerivAt_sin x).const_mul (k.a * n)).neg).div (hDd x) (hD0 x).ne'
    refine this.congr_deriv ?_
    congr 1
    simp only [Pi.neg_apply]
    linear_combination (k.a * n * k.e) * Real.sin_sq_add_cos_sq x
  have hW : ∀ x, HasDerivAt W (-(k.a * n * √(1 - k.e ^ 2)) * Real.sin x / (1 - k.e * Real.cos x) ^ 2) x := fun x => by
    have := ((Real.hasDerivAt_cos x).const_mul (k.a * n * √(1 - k.e ^ 2))).div (hDd x) (hD0 x).ne'
    refine this.congr_deriv ?_
    congr 1
    ring
  have hf : ∀ x, HasDerivAt (fun x => (⟨U x, W x⟩ : ℂ)) (⟨-(k.a * n) * (Real.cos x - k.e) / (1 - k.e * Real.cos x) ^ 2,
      -(k.a * n * √(1 - k.e ^ 2)) * Real.sin x / (1 - k.e * Real.cos x) ^ 2⟩ : ℂ) x := fun x => by
    have h := ((hU x).ofReal_comp).add (((hW x).ofReal_comp).mul_const Complex.I)
    have e1 : (fun x => (⟨U x, W x⟩ : ℂ)) = (fun x => (U x : ℂ)) + fun x => (W x : ℂ) * Complex.I := by
      funext x; simp [Complex.ext_iff]
    rw [e1]
    exact h.congr_deriv (Complex.mk_eq_add_mul_I _ _).symm
  have hb : ∀ x, ‖(⟨-(k.a * n) * (Real.cos x - k.e) / (1 - k.e * Real.cos x) ^ 2,
      -(k.a * n * √(1 - k.e ^ 2)) * Real.sin x / (1 - k.e * Real.cos x) ^ 2⟩ : ℂ)‖ ≤ k.a * n / (1 - k.e) := fun x => by
    have hx := hD0 x
    have e1 : ‖(⟨-(k.a * n) * (Real.cos x - k.e) / (1 - k.e * Real.cos x) ^ 2,
        -(k.a * n * √(1 - k.e ^ 2)) * Real.sin x / (1 - k.e * Real.cos x) ^ 2⟩ : ℂ)‖ = k.a * n / (1 - k.e * Real.cos x) := by
      rw [Complex.norm_def, Real.sqrt_eq_iff_mul_self_eq (Complex.normSq_nonneg _) (by positivity), Complex.normSq_apply]
      have hsin : Real.sin x ^ 2 = 1 - Real.cos x ^ 2 := by rw [Real.sin_sq]
      obtain ⟨D, hDx⟩ : ∃ D, D = 1 - k.e * Real.cos x := ⟨_, rfl⟩
      rw [← hDx] at hx ⊢
      field_simp
      rw [hs, hsin, hDx]
      ring
    rw [e1]
    exact div_le_div_of_nonneg_left (by positivity) hq (hD x)
  have := Convex.norm_image_sub_le_of_norm_hasDerivWithin_le (f := fun x => (⟨U x, W x⟩ : ℂ)) (s := Set.univ)
    (fun x _ => (hf x).hasDerivWithinAt) (fun x _ => hb x) convex_univ (Set.mem_univ F) (Set.mem_univ E)
  rw [Real.norm_eq_abs] at this
  refine le_trans (le_of_eq ?_) this
  rw [Complex.norm_def, Complex.normSq_apply]
  simp [pow_two]

/-! ## The stored anomaly and the state of it -/

variable (g : KGarbage)

/-- the true anomaly calculated for the Cartesian state from the anomaly that was stored for a mean anomaly, whatever kind is stored -/
theorem stored_true {t : Anom} {o : SolverOpts FX} {deg : Bool} {M e E : ℝ} (h0 : 0 ≤ e) (h1 : e < 1)
    (hE : meanToEccentricEl o (fin (angleOf deg M)) (fin e) = fin E) :
    ∃ x, conv (fxKern g) o deg .mean t (fin M) (fin e) = fin x ∧
      toTrue (fxKern g) t o deg (fin x) (fin e) = fin (angleOut deg (trueOf e E)) := by
  cases t
  · exact ⟨_, fx_mtt g deg h0 h1 hE, rfl⟩
  · refine ⟨_, fx_mte g deg hE, ?_⟩
    show (fxKern g).eccToTrue false deg _ _ = _
    rw [fx_ett g deg h0 h1, angleOf_angleOut]
  · exact ⟨M, rfl, fx_mtt g deg h0 h1 hE⟩

theorem cartOfKep_point {t : Anom} {o : SolverOpts FX} {deg : Bool} {mu : ℝ} (hmu : 0 < mu) {k : Kep ℝ} (ha : 0 < k.a) (h0 : 0 ≤ k.e)
    (h1 : k.e < 1) {x E : ℝ} (hx : toTrue (fxKern g) t o deg (fin x) (fin k.e) = fin (angleOut deg (trueOf k.e E))) :
    cartOfKep (fxKern g) t o deg (fin mu) { k.fx with nu := fin x } = (ellipseState (k.inRad deg) √(mu / k.a ^ 3) E).fx := by
  have hpt : SamePoint k.e (angleOf deg (angleOut deg (trueOf k.e E))) E := by
    rw [angleOf_angleOut]; exact samePoint_trueOf h0 h1
  rw [← state_point hmu ha h0 h1 deg hpt]
  have : ({ k.fx with nu := toTrue (fxKern g) t o deg (fin x) (fin k.e) } : Kep FX) =
      Kep.fx { k with nu := angleOut deg (trueOf k.e E) } := by rw [hx]; rfl
  exact (congrArg (fun q => (kepToCart g.h .f64 (fin mu) deg q).1) this).trans
    (kepToCart_fst g.h (adm_ellipse hmu (k := { k with nu := angleOut deg (trueOf k.e E) }) ha h0 h1 deg))

/-- one elliptic orbit of an object, at position `j`: `k` is read from `orb.kepler`, `mu = G (M0 + m)`; the solver options are numbers -/
structure Ellipse (s : Orb FX) (j : Nat) (k : Kep ℝ) (mu tol : ℝ) : Prop where
  read : ∃ ks, (get_kepler (fxKern g) s).1 = .ok ks ∧ ks[j]? = some k.fx
  grav : ∃ m, s.m[j]? = some m ∧ s.G * (s.M0 + m) = fin mu
  mu_pos : 0 < mu
  a_pos : 0 < k.a
  e_nonneg : 0 ≤ k.e
  e_lt : k.e < 1
  solver : ∃ (d : ℝ) (mi : Int), s.opts = opts tol mi d

/-- the mean anomaly an object answers for an ellipse -/
theorem Ellipse.mean {n : Nat} {s : Orb FX} {j : Nat} {k : Kep ℝ} {mu tol : ℝ} (hs : OneEntryPerOrbit s n) (h : Ellipse g s j k mu tol) :
    ∃ (M : ℝ) (Ms : List FX), readAnomaly (fxKern g) .mean s = .ok Ms ∧ Ms[j]? = some (fin M) ∧
      anomOf (fxKern g) .mean (kepCheck (fxKern g) s) k.fx = fin M := by
  obtain ⟨ks, hks, hk⟩ := h.read
  obtain rfl : ks = (kepCheck (fxKern g) s).kep := (Except.ok.inj hks).symm
  obtain ⟨r, hr, -⟩ := get_anomaly_val (fxKern g) hs.wfe .mean
  obtain ⟨M, hM⟩ : ∃ M, anomOf (fxKern g) .mean (kepCheck (fxKern g) s) k.fx = fin M := by
    rw [anomOf_conv]
    cases (kepCheck (fxKern g) s).type
    · exact ⟨_, fx_ttm g _ h.e_nonneg h.e_lt⟩
    · exact ⟨_, fx_etm g _ h.e_lt⟩
    · exact ⟨k.nu, rfl⟩
  refine ⟨M, (kepCheck (fxKern g) s).kep.map (anomOf (fxKern g) .mean (kepCheck (fxKern g) s)), ?_, ?_, hM⟩
  · rw [readAnomaly_eq, hr]
  · rw [List.getElem?_map, hk, Option.map_some, hM]

/-- one step of `propagate` for an ellipse: the eccentric anomaly `E` the solver finds for the mean anomaly after the time `d` -/
theorem Ellipse.step {n : Nat} {s : Orb FX} {j : Nat} {k : Kep ℝ} {mu tol : ℝ} (hs : OneEntryPerOrbit s n) (hr : s.kro = false)
    (h : Ellipse g s j k mu tol) {M : ℝ} (hM : anomOf (fxKern g) .mean (kepCheck (fxKern g) s) k.fx = fin M)
    {dt : Val FX} {dts : List FX} (hdt : dt.Row n dts) {d : ℝ} (hd : dts[j]? = some (fin d)) :
    ∃ s' x E, propagate (fxKern g) dt s = (.ok (), s') ∧ OneEntryPerOrbit s' n ∧ OnlyElements s s' ∧
      meanToEccentricEl s.opts (fin (turn (angleOf s.degrees M + √(mu / k.a ^ 3) * d))) (fin k.e) = fin E ∧
      (¬ HitLimit s.opts (fin (turn (angleOf s.degrees M + √(mu / k.a ^ 3) * d))) (fin k.e) →
        |meanOf k.e E - turn (angleOf s.degrees M + √(mu / k.a ^ 3) * d)| < tol) ∧
      (∃ ks, (get_kepler (fxKern g) s').1 = .ok ks ∧ ks[j]? = some (Kep.fx { k with nu := x })) ∧
      conv (fxKern g) s.opts s.degrees .mean s.type (fin (meanAfter s.degrees mu k.a M d)) (fin k.e) = fin x ∧
      (s.auto = true ∨ s.direct = true → ∃ cs, (get_cartesian (fxKern g) s').1 = .ok cs ∧
        cs[j]? = some (ellipseState (k.inRad s.degrees) √(mu / k.a ^ 3) E).fx) := by
  obtain ⟨ks, hks, hk⟩ := h.read
  obtain rfl : ks = (kepCheck (fxKern g) s).kep := (Except.ok.inj hks).symm
  obtain ⟨m, hm, hmu⟩ := h.grav
  have hmu : (fxKern g).mu s.G s.M0 m = fin mu := hmu
  obtain ⟨o1, mi, ho⟩ := h.solver
  obtain ⟨e1, e2, e3, -⟩ := kepCheck_settings (fxKern g) s
  obtain ⟨-, em, eG, eM0⟩ := kepCheck_body (fxKern g) s
  have hnew : newMean (fxKern g) (kepCheck (fxKern g) s) k.fx m (fin d) = fin (meanAfter s.degrees mu k.a M d) := by
    rw [newMean_fin g (k := k.fx) rfl h.a_pos h.mu_pos (by rw [eG, eM0]; exact hmu) hM, e2]
  obtain ⟨E, q1, -, q2⟩ := meanToEccentricEl_fin tol mi o1 (turn (angleOf s.degrees M + √(mu / k.a ^ 3) * d)) k.e h.e_nonneg (.inl h.e_lt.le)
  rw [← ho] at q1 q2
  have hE : meanToEccentricEl s.opts (fin (angleOf s.degrees (meanAfter s.degrees mu k.a M d))) (fin k.e) = fin E := by
    unfold meanAfter
    rw [angleOf_angleOut]; exact q1
  obtain ⟨x, x1, x2⟩ := stored_true g (t := s.type) h.e_nonneg h.e_lt hE
  have hcol : ({ k.fx with nu := conv (fxKern g) s.opts s.degrees .mean s.type (newMean (fxKern g) (kepCheck (fxKern g) s) k.fx m (fin d)) k.fx.e } : Kep FX)
      = Kep.fx { k with nu := x } := by
    rw [hnew]
    show ({ k.fx with nu := conv (fxKern g) s.opts s.degrees .mean s.type _ (fin k.e) } : Kep FX) = _
    rw [x1]; rfl
  obtain ⟨s', p1, p2, p3, p4, p5⟩ := propagate_ok (fxKern g) hs.wfe hr hdt
  refine ⟨s', x, E, p1, p2.one, p3, q1, q2 h.e_lt.ne, ⟨s'.kep, ?_, ?_⟩, x1, fun hmode => ?_⟩
  · show Except.ok (kepCheck (fxKern g) s').kep = _
    rw [p4.check]
  · have hmk : (kepCheck (fxKern g) s).m[j]? = some m := by rw [em]; exact hm
    rw [p5, List.getElem?_zipWith, hk]
    unfold newMeans
    rw [List.getElem?_zipWith]
    simp only [List.zip, List.getElem?_zipWith, hk, hmk, hd]
    rw [hcol]
  · obtain ⟨cs, c1, c2⟩ := propagate_cart (fxKern g) hs.wfe hr hdt hmode p1 hk hm hd (by rw [hcol]; exact kep_fx_any _)
    refine ⟨cs, c1, ?_⟩
    rw [c2, hcol, hmu]
    exact congrArg some (cartOfKep_point g h.mu_pos h.a_pos h.e_nonneg h.e_lt x2)

/-! ## C66 -/

/-- the object after a sequence of calls of `propagate` that return -/
inductive Propagated (g : KGarbage) (n j : Nat) : Orb FX → Orb FX → Prop where
  | one {s s' : Orb FX} (dt : Val FX) (dts : List FX) (d : ℝ) (row : dt.Row n dts) (at_j : dts[j]? = some (fin d))
      (run : propagate (fxKern g) dt s = (.ok (), s')) : Propagated g n j s s'
  | more {s s' s'' : Orb FX} (dt : Val FX) (dts : List FX) (d : ℝ) (row : dt.Row n dts) (at_j : dts[j]? = some (fin d))
      (run : propagate (fxKern g) dt s = (.ok (), s')) (rest : Propagated g n j s' s'') : Propagated g n j s s''

/-- an elliptic orbit stays the same elliptic orbit, but for its anomaly -/
theorem Ellipse.after {n : Nat} {s s' : Orb FX} {j : Nat} {k : Kep ℝ} {mu tol : ℝ} (h : Ellipse g s j k mu tol) (ho : OnlyElements s s') {x : ℝ}
    (hk : ∃ ks, (get_kepler (fxKern g) s').1 = .ok ks ∧ ks[j]? = some (Kep.fx { k with nu := x })) : Ellipse g s' j { k with nu := x } mu tol := by
  refine ⟨hk, ?_, h.mu_pos, h.a_pos, h.e_nonneg, h.e_lt, ?_⟩
  · rw [ho]; exact h.grav
  · rw [ho]; exact h.solver

/-- C66: after one or more calls of `propagate` the state read from `orb.cartesian` of an object with automatic updates is, for an elliptic
orbit, a point of exactly the orbit its elements `k` described before: angular momentum, eccentricity vector and energy are those of `k`,
for every anomaly type, unit of angles and accuracy of the solver of Kepler's equation.  (That the calls return: `c67`.) -/
theorem c66 {n : Nat} {s s' : Orb FX} {j : Nat} (hp : Propagated g n j s s') :
    ∀ (k : Kep ℝ) (mu tol : ℝ), OneEntryPerOrbit s n → s.auto = true ∨ s.direct = true → Ellipse g s j k mu tol →
    ∃ cs c nu, (get_cartesian (fxKern g) s').1 = .ok cs ∧ cs[j]? = some c.fx ∧ DescribesOrbit mu (Kep.inRad s.degrees { k with nu := nu }) c := by
  have kro : ∀ {s s' : Orb FX} {dt : Val FX} {dts : List FX}, OneEntryPerOrbit s n → dt.Row n dts → propagate (fxKern g) dt s = (.ok (), s') →
      s.kro = false := by
    intro s s' dt dts hs hrow hrun
    by_contra hc
    have := propagate_kro (fxKern g) hs.wfe (by simpa using hc) hrow
    rw [hrun] at this
    cases this
  have pt : ∀ {k : Kep ℝ} {mu tol : ℝ} {s : Orb FX} (h : Ellipse g s j k mu tol) (E : ℝ),
      DescribesOrbit mu (Kep.inRad s.degrees { k with nu := angleOut s.degrees (trueOf k.e E) })
        (ellipseState (k.inRad s.degrees) √(mu / k.a ^ 3) E) := fun h E =>
    ellipse_describes h.mu_pos h.a_pos h.e_nonneg h.e_lt _ (by rw [angleOf_angleOut]; exact samePoint_trueOf h.e_nonneg h.e_lt)
  induction hp with
  | one dt dts d row at_j run =>
    intro k mu tol hs hmode h
    obtain ⟨M, -, -, -, hM⟩ := h.mean g hs
    obtain ⟨t, x, E, p1, -, -, -, -, -, -, p3⟩ := h.step g hs (kro hs row run) hM row at_j
    rw [run] at p1
    injection p1 with _ p1
    subst p1
    obtain ⟨cs, c1, c2⟩ := p3 hmode
    exact ⟨cs, _, _, c1, c2, pt h E⟩
  | more dt dts d row at_j run rest ih =>
    intro k mu tol hs hmode h
    obtain ⟨M, -, -, -, hM⟩ := h.mean g hs
    obtain ⟨t, x, E, p1, q1, q2, -, -, q3, -, -⟩ := h.step g hs (kro hs row run) hM row at_j
    rw [run] at p1
    injection p1 with _ p1
    subst p1
    obtain ⟨cs, c, nu, c1, c2, c3⟩ := ih { k with nu := x } mu tol q1 (by rw [q2]; exact hmode) (h.after g (n := n) q2 q3)
    refine ⟨cs, c, nu, c1, c2, ?_⟩
    rw [q2] at c3
    exact c3

/-! ## C67 -/

/-- a curve of states that obeys Newton's equations of motion about a mass with gravitational parameter `mu` -/
def ObeysNewton (mu : ℝ) (c : ℝ → Cart ℝ) : Prop :=
  ∀ t, HasDerivAt (fun u => (c u).r) (c t).v t ∧ HasDerivAt (fun u => (c u).v) (-(mu / vlen (c t).r ^ 3) • (c t).r) t

/-- the solution of Newton's equations of motion along an ellipse, starting at the mean anomaly `M` (radians) -/
theorem newton_curve {mu : ℝ} (hmu : 0 < mu) {k : Kep ℝ} (ha : 0 < k.a) (h0 : 0 ≤ k.e) (h1 : k.e < 1) (deg : Bool) (M : ℝ) :
    ∃ c : ℝ → Cart ℝ, (∀ d, ∃ F, c d = ellipseState (k.inRad deg) √(mu / k.a ^ 3) F ∧ meanOf k.e F = M + √(mu / k.a ^ 3) * d) ∧ ObeysNewton mu c ∧
      ∀ nu E, SamePoint k.e (angleOf deg nu) E → E - k.e * Real.sin E = M → DescribesOrbit mu (Kep.inRad deg { k with nu := nu }) (c 0) := by
  obtain ⟨hn, hn2⟩ := motion_pos hmu ha
  have ha' : 0 < (k.inRad deg).a := by rw [inRad_a]; exact ha
  have h0' : 0 ≤ (k.inRad deg).e := by rw [inRad_e]; exact h0
  have h1' : (k.inRad deg).e < 1 := by rw [inRad_e]; exact h1
  have hinv : ∀ x, keplerInv h0' h1' x = keplerInv h0 h1 x := by
    intro x
    refine (meanOf_strictMono h0 h1).injective ?_
    rw [meanOf_keplerInv h0 h1]
    exact (congrArg (fun e => meanOf e (keplerInv h0' h1' x)) (inRad_e deg k).symm).trans (meanOf_keplerInv h0' h1' x)
  refine ⟨fun t => ellipseState (k.inRad deg) √(mu / k.a ^ 3) (keplerInv h0 h1 (M + √(mu / k.a ^ 3) * t)),
    fun d => ⟨_, rfl, meanOf_keplerInv h0 h1 _⟩, fun t => ?_, fun nu E hp hE => ?_⟩
  · have := ellipse_newton (k.inRad deg) mu √(mu / k.a ^ 3) ha' h0' h1' (by rw [inRad_a]; exact hn2) M t
    simp only [hinv] at this
    exact this
  · have : keplerInv h0 h1 (M + √(mu / k.a ^ 3) * 0) = E := by
      rw [mul_zero, add_zero, ← hE, ← meanOf_eli _ h1, keplerInv_meanOf]
    simp only [this]
    exact ellipse_describes hmu ha h0 h1 _ hp

/-- points of an ellipse whose mean anomalies differ by little, but for whole turns -/
theorem points_close {mu : ℝ} (hmu : 0 < mu) {k : Kep ℝ} (ha : 0 < k.a) (h0 : 0 ≤ k.e) (h1 : k.e < 1) (deg : Bool) {E F b : ℝ} {z : ℤ}
    (h : |meanOf k.e E - (meanOf k.e F + z * (2 * Real.pi))| ≤ b) :
    vlen ((ellipseState (k.inRad deg) √(mu / k.a ^ 3) E).r - (ellipseState (k.inRad deg) √(mu / k.a ^ 3) F).r) ≤ k.a * b / (1 - k.e) ∧
    vlen ((ellipseState (k.inRad deg) √(mu / k.a ^ 3) E).v - (ellipseState (k.inRad deg) √(mu / k.a ^ 3) F).v) ≤
      k.a * √(mu / k.a ^ 3) * b / (1 - k.e) ^ 2 := by
  obtain ⟨hn, -⟩ := motion_pos hmu ha
  have hq : 0 < 1 - k.e := by linarith
  have ha' : 0 < (k.inRad deg).a := by rw [inRad_a]; exact ha
  have h0' : 0 ≤ (k.inRad deg).e := by rw [inRad_e]; exact h0
  have h1' : (k.inRad deg).e < 1 := by rw [inRad_e]; exact h1
  have hFz : meanOf k.e (F + z * (2 * Real.pi)) = meanOf k.e F + z * (2 * Real.pi) := by
    rw [meanOf_eli _ h1, Real.sin_add_int_mul_two_pi, meanOf_eli _ h1]; ring
  have herr := meanOf_error h0 h1.ne E (F + z * (2 * Real.pi))
  rw [hFz, abs_of_pos hq] at herr
  have hEF : |E - (F + z * (2 * Real.pi))| ≤ b / (1 - k.e) := herr.trans (div_le_div_of_nonneg_right h hq.le)
  have hturn := ellipseState_turn (k.inRad deg) √(mu / k.a ^ 3) F z
  have hpos := position_close (k.inRad deg) √(mu / k.a ^ 3) ha' h0' h1' E (F + z * (2 * Real.pi))
  have hvel := velocity_close (k.inRad deg) √(mu / k.a ^ 3) hn.le ha' h0' h1' E (F + z * (2 * Real.pi))
  rw [hturn, inRad_a] at hpos hvel
  rw [inRad_e] at hvel
  constructor
  · refine hpos.trans ?_
    rw [mul_div_assoc]
    exact mul_le_mul_of_nonneg_left hEF ha.le
  · refine hvel.trans ?_
    have : k.a * √(mu / k.a ^ 3) * b / (1 - k.e) ^ 2 = k.a * √(mu / k.a ^ 3) / (1 - k.e) * (b / (1 - k.e)) := by
      field_simp
    rw [this]
    exact mul_le_mul_of_nonneg_left hEF (by positivity)

/-- C67: for an elliptic orbit of an object with automatic updates there is one solution `c` of Newton's equations of motion, which at time 0 is at the
exact point with the mean anomaly `M` the object answers, such that for every time `d`, of either sign, and any time steps for the other orbits, the
state read from `orb.cartesian` after `propagate` is on the same orbit, at most `a tol / (1 - e)` away from `c d`, with a velocity at most
`a n tol / (1 - e)^2` off, `n = sqrt(mu / a^3)`; unless the solver of Kepler's equation hits its iteration limit for the mean anomaly at that time,
reduced to one turn. -/
theorem c67 {n : Nat} (s : Orb FX) (hs : OneEntryPerOrbit s n) (hr : s.kro = false) (hmode : s.auto = true ∨ s.direct = true) (j : Nat) (k : Kep ℝ)
    (mu tol : ℝ) (h : Ellipse g s j k mu tol) :
    ∃ (M : ℝ) (Ms : List FX) (c : ℝ → Cart ℝ), (get_mean_anomaly (fxKern g) s).1 = .ok Ms ∧ Ms[j]? = some (fin M) ∧ ObeysNewton mu c ∧
      (∀ nu E, SamePoint k.e (angleOf s.degrees nu) E → E - k.e * Real.sin E = angleOf s.degrees M →
        DescribesOrbit mu (Kep.inRad s.degrees { k with nu := nu }) (c 0)) ∧
      ∀ (dt : Val FX) (dts : List FX) (d : ℝ), dt.Row n dts → dts[j]? = some (fin d) →
        ∃ s' cs c', propagate (fxKern g) dt s = (.ok (), s') ∧ (get_cartesian (fxKern g) s').1 = .ok cs ∧ cs[j]? = some c'.fx ∧
          SameOrbit mu c' (c d) ∧
          ∀ (M' : ℝ) (z : ℤ), 0 ≤ M' → M' < 2 * Real.pi → M' = angleOf s.degrees M + √(mu / k.a ^ 3) * d + z * (2 * Real.pi) →
            ¬ HitLimit s.opts (fin M') (fin k.e) →
            vlen (c'.r - (c d).r) ≤ k.a * tol / (1 - k.e) ∧ vlen (c'.v - (c d).v) ≤ k.a * √(mu / k.a ^ 3) * tol / (1 - k.e) ^ 2 := by
  obtain ⟨M, Ms, r1, r2, hM⟩ := h.mean g hs
  have hmu := h.mu_pos
  have ha := h.a_pos
  have h0 := h.e_nonneg
  have h1 := h.e_lt
  obtain ⟨c, hc, hN, hst⟩ := newton_curve hmu ha h0 h1 s.degrees (angleOf s.degrees M)
  refine ⟨M, Ms, c, r1, r2, hN, hst, fun dt dts d hdt hd => ?_⟩
  obtain ⟨s', x, E, p1, -, -, p2, p3, -, -, p4⟩ := h.step g hs hr hM hdt hd
  obtain ⟨cs, c1, c2⟩ := p4 hmode
  obtain ⟨F, hF, hFm⟩ := hc d
  refine ⟨s', cs, _, p1, c1, c2, by rw [hF]; exact ellipse_sameOrbit hmu ha h0 h1 _ _ _, fun M' z hz0 hz1 hz hl => ?_⟩
  have hM' : M' = turn (angleOf s.degrees M + √(mu / k.a ^ 3) * d) := by
    rw [← turn_of_mem hz0 hz1]; exact turn_congr z hz
  rw [← hM'] at p3
  rw [hF]
  exact points_close hmu ha h0 h1 s.degrees (z := z) (by rw [hFm, ← hz]; exact (p3 hl).le)

/-! ## Cases of the theorems -/

/-- an object of the constructor in lazy mode -/
theorem lazyKep_ellipse {tol d : ℝ} {mi : Int} (t : Anom) {k : Kep ℝ} (ha : 0 < k.a) (h0 : 0 ≤ k.e) (h1 : k.e < 1) :
    Ellipse g (lazyKep g (opts tol mi d) t k) 0 k 1 tol :=
  ⟨⟨_, rfl, rfl⟩, ⟨0, rfl, fx_mu g⟩, one_pos, ha, h0, h1, ⟨d, mi, rfl⟩⟩

/-- a case of `c66`: an eccentric orbit stored by its mean anomaly, moved twice, with a solver that does one step only -/
example (M d1 d2 : ℝ) : ∃ s1 s2 cs c nu,
    propagate (fxKern g) (.sc (fin d1)) (lazyKep g (opts 1 1 1) .mean ⟨2, 9 / 10, 1, 2, 3, M⟩) = (.ok (), s1) ∧
    propagate (fxKern g) (.sc (fin d2)) s1 = (.ok (), s2) ∧ (get_cartesian (fxKern g) s2).1 = .ok cs ∧ cs[0]? = some (Cart.fx c) ∧
    DescribesOrbit 1 ⟨2, 9 / 10, 1, 2, 3, nu⟩ c := by
  have h := lazyKep_ellipse g (tol := 1) (d := 1) (mi := 1) .mean (k := ⟨2, 9 / 10, 1, 2, 3, M⟩) (by norm_num) (by norm_num) (by norm_num)
  have hs := lazyKep_one g (opts 1 1 1) .mean ⟨2, 9 / 10, 1, 2, 3, M⟩
  obtain ⟨s1, p1, w1, o1, -⟩ := propagate_ok (fxKern g) hs.wfe rfl (dt := .sc (fin d1)) (dts := [fin d1]) rfl
  obtain ⟨s2, p2, w2, o2, -⟩ := propagate_ok (fxKern g) w1 (by rw [o1]; rfl) (dt := .sc (fin d2)) (dts := [fin d2]) rfl
  obtain ⟨cs, c, nu, c1, c2, c3⟩ := c66 g (n := 1) (j := 0) (.more (.sc (fin d1)) [fin d1] d1 rfl rfl p1 (.one (.sc (fin d2)) [fin d2] d2 rfl rfl p2)) _ _ _ hs (.inl rfl) h
  exact ⟨s1, s2, cs, c, nu, p1, p2, c1, c2, c3⟩

/-- a case of `c67`: an object that stores the true anomaly, starting in its periapsis -/
example {tol d : ℝ} {mi : Int} : ∃ c : ℝ → Cart ℝ, ObeysNewton 1 c ∧ DescribesOrbit 1 ⟨1, 1 / 2, 0, 0, 0, 0⟩ (c 0) ∧
    ∀ x : ℝ, ∃ s' cs c', propagate (fxKern g) (.sc (fin x)) (lazyKep g (opts tol mi d) .tru ⟨1, 1 / 2, 0, 0, 0, 0⟩) = (.ok (), s') ∧
      (get_cartesian (fxKern g) s').1 = .ok cs ∧ cs[0]? = some (Cart.fx c') ∧ SameOrbit 1 c' (c x) ∧
      (0 ≤ x → x < 2 * Real.pi → ¬ HitLimit (opts tol mi d) (fin x) (fin (1 / 2)) → vlen (c'.r - (c x).r) ≤ 2 * tol) := by
  have h := lazyKep_ellipse g (tol := tol) (d := d) (mi := mi) .tru (k := ⟨1, 1 / 2, 0, 0, 0, 0⟩) (by norm_num) (by norm_num) (by norm_num)
  have hs := lazyKep_one g (opts tol mi d) .tru ⟨1, 1 / 2, 0, 0, 0, 0⟩
  obtain ⟨M, Ms, c, r1, r2, hN, hst, hstep⟩ := c67 g _ hs rfl (.inl rfl) 0 _ _ _ h
  have hM : M = 0 := by
    obtain ⟨r, hr, -⟩ := get_anomaly_val (fxKern g) hs.wfe .mean
    have e1 : (get_mean_anomaly (fxKern g) (lazyKep g (opts tol mi d) .tru ⟨1, 1 / 2, 0, 0, 0, 0⟩)).1 =
        .ok [anomOf (fxKern g) .mean (lazyKep g (opts tol mi d) .tru ⟨1, 1 / 2, 0, 0, 0, 0⟩) (Kep.fx ⟨1, 1 / 2, 0, 0, 0, 0⟩)] := by
      exact (congrArg Prod.fst hr)
    rw [e1] at r1
    obtain rfl := Except.ok.inj r1
    have e2 : anomOf (fxKern g) .mean (lazyKep g (opts tol mi d) .tru ⟨1, 1 / 2, 0, 0, 0, 0⟩) (Kep.fx ⟨1, 1 / 2, 0, 0, 0, 0⟩) = fin 0 := by
      rw [anomOf_conv]
      show (fxKern g).trueToMean false false (fin 0) (fin (1 / 2)) = _
      rw [fx_ttm g false (by norm_num) (by norm_num)]
      simp only [angleOf, angleOut, eccOf, scaleHalf_zero, Bool.false_eq_true, if_false]
      rw [meanOf_eli _ (by norm_num)]
      simp
    rw [e2] at r2
    simpa using r2.symm
  subst hM
  refine ⟨c, hN, hst 0 0 ⟨by simp [angleOf], by simp [angleOf]⟩ (by simp [angleOf]), fun x => ?_⟩
  obtain ⟨s', cs, c', p1, p2, p3, p4, p5⟩ := hstep (.sc (fin x)) [fin x] x rfl rfl
  refine ⟨s', cs, c', p1, p2, p3, p4, fun hx0 hx1 hl => ?_⟩
  have := (p5 x 0 hx0 hx1 (by simp [angleOf]) hl).1
  norm_num at this
  linarith

end Orbit
end Pyorb
