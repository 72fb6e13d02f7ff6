import Verif.PropsNewtonOpen
import Verif.PropsConvergeHyp
import Verif.PropsOrbitDefault

/-!
# `Orbit.propagate` on hyperbolas and parabolas (C78, C79)

The state read from an object after `propagate`, compared with the solution of the equations of motion.  On a hyperbola it is a point of the
solution, at a time that is off by at most the tolerance of the solver divided by the mean motion; on a parabola the motion is too fast by `√2`.
-/

set_option linter.unusedSimpArgs false
set_option linter.unusedVariables false

namespace Pyorb
namespace Orbit
open Py FX
variable (g : KGarbage)

/-! ## Specification -/

/-- one hyperbolic or parabolic orbit of an object, at position `j`: `k` is read from `orb.kepler`, `mu = G (M0 + m)` -/
structure OpenOrbit (s : Orb FX) (j : Nat) (k : Kep ℝ) (mu : ℝ) : Prop where
  read : ∃ ks, (get_kepler (fxKern g) s).1 = .ok ks ∧ ks[j]? = some k.fx
  grav : ∃ m, s.m[j]? = some m ∧ s.G * (s.M0 + m) = fin mu
  mu_pos : 0 < mu
  a_pos : 0 < k.a
  e_ge : 1 ≤ k.e

/-- the object answers the mean anomaly `M` for its orbit `j` -/
def ReadsMean (s : Orb FX) (j : Nat) (M : ℝ) : Prop := ∃ Ms, (get_mean_anomaly (fxKern g) s).1 = .ok Ms ∧ Ms[j]? = some (fin M)

/-- the object answers the state `c` for its orbit `j` -/
def ReadsState (s : Orb FX) (j : Nat) (c : Cart ℝ) : Prop := ∃ cs, (get_cartesian (fxKern g) s).1 = .ok cs ∧ cs[j]? = some c.fx

theorem ReadsState.unique {g : KGarbage} {s : Orb FX} {j : Nat} {c c' : Cart ℝ} (h : ReadsState g s j c) (h' : ReadsState g s j c') : c = c' := by
  obtain ⟨cs, a1, a2⟩ := h
  obtain ⟨cs', b1, b2⟩ := h'
  rw [a1] at b1
  obtain rfl := Except.ok.inj b1
  rw [a2] at b2
  exact cart_fx_inj (Option.some.inj b2)

/-! ## The state read after `propagate` -/

/-- the true anomaly of `eccentric_to_true` for `e ≥ 1` -/
noncomputable def trueOpen (e E : ℝ) : ℝ :=
  if e = 1 then turn (2 * Real.arctan E) else turn (2 * Real.arctan ((hypFac e)⁻¹ * Real.tanh (E / 2)))

theorem ett_open {e : ℝ} (h : 1 ≤ e) (E : ℝ) : eccentricToTrueSc (fin E) (fin e) = fin (trueOpen e E) := by
  unfold trueOpen
  split_ifs with h1
  · rw [h1, eccentricToTrueSc_par]
  · rw [eccentricToTrueSc_hyp (lt_of_le_of_ne h (Ne.symm h1))]

theorem ettEl_open (u : FX) {e : ℝ} (h : 1 ≤ e) (E : ℝ) : eccentricToTrueEl u .f64 (fin E) (fin e) = fin (trueOpen e E) := by
  unfold eccentricToTrueEl
  rw [triMask_eq_triSc _ _ _ _ _ (by simp)]
  exact ett_open h E

theorem mtt_open {o : SolverOpts FX} (deg : Bool) {x e E : ℝ} (h1 : 1 ≤ e) (h : meanToEccentricEl o (fin (angleOf deg x)) (fin e) = fin E) :
    (fxKern g).meanToTrue o false deg (fin x) (fin e) = fin (angleOut deg (trueOpen e E)) := by
  show outR deg (eccentricToTrueEl g.tru .f64 (meanToEccentricEl o (inR deg (fin x)) (fin e)) (fin e)) = _
  rw [inR_fin, h, ettEl_open g.tru h1, outR_fin]

theorem stored_open {t : Anom} {o : SolverOpts FX} {deg : Bool} {M e E : ℝ} (h1 : 1 ≤ e)
    (hE : meanToEccentricEl o (fin (angleOf deg M)) (fin e) = fin E) :
    ∃ x, conv (fxKern g) o deg .mean t (fin M) (fin e) = fin x ∧
      toTrue (fxKern g) t o deg (fin x) (fin e) = fin (angleOut deg (trueOpen e E)) := by
  cases t
  · exact ⟨_, mtt_open g deg h1 hE, rfl⟩
  · refine ⟨_, fx_mte g deg hE, ?_⟩
    show outR deg (eccentricToTrueEl g.tru .f64 (inR deg (fin (angleOut deg E))) (fin e)) = _
    rw [inR_fin, angleOf_angleOut, ettEl_open g.tru h1, outR_fin]
  · exact ⟨M, rfl, mtt_open g deg h1 hE⟩

theorem OpenOrbit.mean {n : Nat} {s : Orb FX} {j : Nat} {k : Kep ℝ} {mu M : ℝ} (hs : OneEntryPerOrbit s n) (h : OpenOrbit g s j k mu)
    (hM : ReadsMean g s j M) : anomOf (fxKern g) .mean (kepCheck (fxKern g) s) k.fx = fin M := by
  obtain ⟨ks, hks, hk⟩ := h.read
  obtain rfl : ks = (kepCheck (fxKern g) s).kep := (Except.ok.inj hks).symm
  obtain ⟨r, hr, -⟩ := get_anomaly_val (fxKern g) hs.wfe .mean
  obtain ⟨Ms, m1, m2⟩ := hM
  have e1 : (get_mean_anomaly (fxKern g) s).1 = _ := congrArg Prod.fst hr
  rw [e1] at m1
  obtain rfl := Except.ok.inj m1
  rw [List.getElem?_map, hk, Option.map_some] at m2
  exact Option.some.inj m2

theorem OpenOrbit.step {n : Nat} {s : Orb FX} {j : Nat} {k : Kep ℝ} {mu M : ℝ} (hs : OneEntryPerOrbit s n) (hr : s.kro = false)
    (hmode : s.auto = true ∨ s.direct = true) (h : OpenOrbit g s j k mu) (hM : ReadsMean g s j M)
    {dt : Val FX} {dts : List FX} (hdt : dt.Row n dts) {d : ℝ} (hd : dts[j]? = some (fin d)) {E : ℝ}
    (hE : meanToEccentricEl s.opts (fin (turn (angleOf s.degrees M + √(mu / k.a ^ 3) * d))) (fin k.e) = fin E)
    (hadm : (Kep.inRad s.degrees { k with nu := angleOut s.degrees (trueOpen k.e E) }).Adm mu) :
    ∃ s', propagate (fxKern g) dt s = (.ok (), s') ∧
      ReadsState g s' j ((Kep.inRad s.degrees { k with nu := angleOut s.degrees (trueOpen k.e E) }).state mu) := by
  have hM' := h.mean g hs hM
  obtain ⟨ks, hks, hk⟩ := h.read
  obtain rfl : ks = (kepCheck (fxKern g) s).kep := (Except.ok.inj hks).symm
  obtain ⟨m, hm, hmu⟩ := h.grav
  have hmu : (fxKern g).mu s.G s.M0 m = fin mu := hmu
  obtain ⟨e1, e2, e3, -⟩ := kepCheck_settings (fxKern g) s
  obtain ⟨-, em, eG, eM0⟩ := kepCheck_body (fxKern g) s
  have hnew : newMean (fxKern g) (kepCheck (fxKern g) s) k.fx m (fin d) = fin (meanAfter s.degrees mu k.a M d) := by
    rw [newMean_fin g (k := k.fx) rfl h.a_pos h.mu_pos (by rw [eG, eM0]; exact hmu) hM', e2]
  have hE' : meanToEccentricEl s.opts (fin (angleOf s.degrees (meanAfter s.degrees mu k.a M d))) (fin k.e) = fin E := by
    unfold meanAfter
    rw [angleOf_angleOut]; exact hE
  obtain ⟨x, x1, x2⟩ := stored_open g (t := s.type) h.e_ge hE'
  have hcol : ({ k.fx with nu := conv (fxKern g) s.opts s.degrees .mean s.type (newMean (fxKern g) (kepCheck (fxKern g) s) k.fx m (fin d)) k.fx.e } : Kep FX)
      = Kep.fx { k with nu := x } := by
    rw [hnew]
    show ({ k.fx with nu := conv (fxKern g) s.opts s.degrees .mean s.type _ (fin k.e) } : Kep FX) = _
    rw [x1]; rfl
  obtain ⟨s', p1, p2, p3, p4, p5⟩ := propagate_ok (fxKern g) hs.wfe hr hdt
  obtain ⟨cs, c1, c2⟩ := propagate_cart (fxKern g) hs.wfe hr hdt hmode p1 hk hm hd (by rw [hcol]; exact kep_fx_any _)
  refine ⟨s', p1, cs, c1, ?_⟩
  rw [c2, hcol, hmu]
  have : ({ k.fx with nu := toTrue (fxKern g) s.type s.opts s.degrees (fin x) (fin k.e) } : Kep FX) =
      Kep.fx { k with nu := angleOut s.degrees (trueOpen k.e E) } := by rw [x2]; rfl
  exact congrArg some ((congrArg (fun q => (kepToCart g.h .f64 (fin mu) s.degrees q).1) this).trans (kepToCart_fst g.h hadm))

/-! ## Speed and acceleration along a curve bound the distances -/

theorem vlen_smul_dot (u w : Fin 3 → ℝ) : u ⬝ᵥ w ≤ vlen u * vlen w := by
  unfold vlen
  rw [← Real.sqrt_mul (by simp only [dotProduct, Fin.sum_univ_three]; nlinarith [sq_nonneg (u 0), sq_nonneg (u 1), sq_nonneg (u 2)])]
  refine Real.le_sqrt_of_sq_le ?_
  simp only [dotProduct, Fin.sum_univ_three]
  nlinarith [sq_nonneg (u 0 * w 1 - u 1 * w 0), sq_nonneg (u 0 * w 2 - u 2 * w 0), sq_nonneg (u 1 * w 2 - u 2 * w 1)]

theorem vlen_sq (u : Fin 3 → ℝ) : vlen u ^ 2 = u ⬝ᵥ u :=
  Real.sq_sqrt (by simp only [dotProduct, Fin.sum_univ_three]; nlinarith [sq_nonneg (u 0), sq_nonneg (u 1), sq_nonneg (u 2)])

/-- a point moves at most the maximal speed times the time -/
theorem curve_lipschitz {r v : ℝ → Fin 3 → ℝ} (hr : ∀ t, HasDerivAt r (v t) t) {B : ℝ} (hB : ∀ t, vlen (v t) ≤ B) (t u : ℝ) :
    vlen (r t - r u) ≤ B * |t - u| := by
  have hv0 : ∀ w : Fin 3 → ℝ, 0 ≤ vlen w := fun w => Real.sqrt_nonneg _
  rcases eq_or_lt_of_le (hv0 (r t - r u)) with h0 | hpos
  · rw [← h0]; exact mul_nonneg ((hv0 _).trans (hB 0)) (abs_nonneg _)
  set w := r t - r u with hw
  have hd : ∀ x, HasDerivAt (fun x => w ⬝ᵥ r x) (w ⬝ᵥ v x) x := by
    intro x
    have hx := hasDerivAt_pi.mp (hr x)
    simp only [dotProduct, Fin.sum_univ_three]
    exact (((hx 0).const_mul (w 0)).add ((hx 1).const_mul (w 1))).add ((hx 2).const_mul (w 2))
  have hb : ∀ x, ‖w ⬝ᵥ v x‖ ≤ vlen w * B := by
    intro x
    rw [Real.norm_eq_abs, abs_le]
    have h1 := vlen_smul_dot w (v x)
    have h2 := vlen_smul_dot (-w) (v x)
    have h3 : vlen (-w) = vlen w := by unfold vlen; simp
    rw [neg_dotProduct, h3] at h2
    have h4 := mul_le_mul_of_nonneg_left (hB x) (hv0 w)
    constructor <;> linarith
  have := Convex.norm_image_sub_le_of_norm_hasDerivWithin_le (f := fun x => w ⬝ᵥ r x) (s := Set.univ)
    (fun x _ => (hd x).hasDerivWithinAt) (fun x _ => hb x) convex_univ (Set.mem_univ u) (Set.mem_univ t)
  rw [Real.norm_eq_abs, Real.norm_eq_abs, ← dotProduct_sub, ← hw, ← vlen_sq, abs_of_nonneg (sq_nonneg _)] at this
  have h5 : vlen w * vlen w ≤ vlen w * (B * |t - u|) := by linarith
  exact le_of_mul_le_mul_left h5 hpos

/-! ## C79 -/

theorem trueOpen_hyp {e : ℝ} (h1 : 1 < e) (E : ℝ) : trueOpen e E = turn (2 * Real.arctan ((hypFac e)⁻¹ * Real.tanh (E / 2))) := if_neg h1.ne'

theorem planeState_vn (k : Kep ℝ) (X Y U W : ℝ) : vlen (planeState k X Y U W).v = √(U ^ 2 + W ^ 2) :=
  vlen_plane k U W _ rfl rfl rfl

/-- the greatest speed on a hyperbola is that of the periapsis -/
theorem hyperbola_speed (k : Kep ℝ) {n : ℝ} (hn : 0 ≤ n) (ha : 0 < k.a) (h1 : 1 < k.e) (E : ℝ) :
    vlen (hyperbolaState k n E).v ≤ k.a * n * √((k.e + 1) / (k.e - 1)) := by
  rw [hyperbolaState, planeState_vn]
  have hD := hyp_denom_pos h1 E
  have hc := Real.one_le_cosh E
  have he : 0 < k.e - 1 := by linarith
  have hs : √(k.e ^ 2 - 1) ^ 2 = k.e ^ 2 - 1 := Real.sq_sqrt (by nlinarith)
  refine Real.sqrt_le_iff.mpr ⟨by positivity, ?_⟩
  have h2 : (-(k.a * n * Real.sinh E) / (k.e * Real.cosh E - 1)) ^ 2 + (k.a * n * √(k.e ^ 2 - 1) * Real.cosh E / (k.e * Real.cosh E - 1)) ^ 2
      = (k.a * n) ^ 2 * ((k.e * Real.cosh E + 1) / (k.e * Real.cosh E - 1)) := by
    rw [div_pow, div_pow, neg_sq, mul_pow, mul_pow, mul_pow, mul_pow, hs, Real.sinh_sq]
    have : Real.cosh E * k.e - 1 ≠ 0 := by rw [mul_comm]; exact hD.ne'
    field_simp
    ring
  rw [h2, mul_pow _ (√_), Real.sq_sqrt (by positivity)]
  refine mul_le_mul_of_nonneg_left ?_ (sq_nonneg _)
  rw [div_le_div_iff₀ hD he]
  nlinarith

/-- the greatest acceleration on a hyperbola is that of the periapsis -/
theorem hyperbola_acc (k : Kep ℝ) {mu n : ℝ} (ha : 0 < k.a) (h1 : 1 < k.e) (hn : n ^ 2 * k.a ^ 3 = mu) (E : ℝ) :
    vlen (-(mu / vlen (hyperbolaState k n E).r ^ 3) • (hyperbolaState k n E).r) ≤ k.a * n ^ 2 / (k.e - 1) ^ 2 := by
  have hD := hyp_denom_pos h1 E
  have hc := Real.one_le_cosh E
  have he : 0 < k.e - 1 := by linarith
  have hr : vlen (hyperbolaState k n E).r = k.a * (k.e * Real.cosh E - 1) := by
    rw [hyperbolaState, planeState_rn, hyperbola_dist ha h1]
  have hsm : ∀ (x : ℝ) (u : Fin 3 → ℝ), vlen (x • u) = |x| * vlen u := by
    intro x u
    unfold vlen
    rw [smul_dotProduct, dotProduct_smul, smul_eq_mul, smul_eq_mul, ← mul_assoc, ← pow_two, Real.sqrt_mul (sq_nonneg x), Real.sqrt_sq_eq_abs]
  have hrp : 0 < k.a * (k.e * Real.cosh E - 1) := mul_pos ha hD
  rw [hsm, hr, abs_neg, abs_of_nonneg (by rw [← hn]; positivity), ← hn]
  have h2 : n ^ 2 * k.a ^ 3 / (k.a * (k.e * Real.cosh E - 1)) ^ 3 * (k.a * (k.e * Real.cosh E - 1)) = k.a * n ^ 2 / (k.e * Real.cosh E - 1) ^ 2 := by
    field_simp
  rw [h2]
  refine div_le_div_of_nonneg_left (by positivity) (by positivity) ?_
  have : k.e - 1 ≤ k.e * Real.cosh E - 1 := by nlinarith
  exact pow_le_pow_left₀ he.le this 2

/-- the state with the elements `k` and true anomaly `nu`, for the eccentric anomaly `E` of the same point -/
theorem state_at_hyp {mu : ℝ} (hmu : 0 < mu) {k : Kep ℝ} (ha : 0 < k.a) (h1 : 1 < k.e) (deg : Bool) {nu E : ℝ}
    (hc : Real.cos (angleOf deg nu) * (k.e * Real.cosh E - 1) = k.e - Real.cosh E)
    (hsn : Real.sin (angleOf deg nu) * (k.e * Real.cosh E - 1) = √(k.e ^ 2 - 1) * Real.sinh E) :
    (Kep.inRad deg { k with nu := nu }).state mu = hyperbolaState (k.inRad deg) √(mu / k.a ^ 3) E ∧ (Kep.inRad deg { k with nu := nu }).Adm mu := by
  obtain ⟨hn, hn2⟩ := motion_pos hmu ha
  obtain ⟨h2, h3⟩ := state_hyp (Kep.inRad deg { k with nu := nu }) mu √(mu / k.a ^ 3) E ha h1 hn hn2 hc hsn
  exact ⟨h2, ⟨hmu, ha, by show 0 ≤ k.e; linarith, h3⟩⟩

/-- the true anomaly `nu` and the hyperbolic eccentric anomaly `E` of one point (half-angle formula) -/
def SamePointHyp (e nu E : ℝ) : Prop := Real.cos (nu / 2) ≠ 0 ∧ Real.tan (nu / 2) = √((e + 1) / (e - 1)) * Real.tanh (E / 2)

theorem SamePointHyp.cos_sin {e nu E : ℝ} (h1 : 1 < e) (h : SamePointHyp e nu E) :
    Real.cos nu * (e * Real.cosh E - 1) = e - Real.cosh E ∧ Real.sin nu * (e * Real.cosh E - 1) = √(e ^ 2 - 1) * Real.sinh E := by
  have h2 := hyp_true_cos_sin (E := E) h1 rfl
  rw [← hypFac_inv, ← h.2, turn_arctan_tan h.1, cos_turn, sin_turn] at h2
  exact h2

/-- C79: for a hyperbolic orbit of an object with default solver options and automatic updates there is one solution `c` of Newton's equations of motion,
which at time 0 is at the exact point with the mean anomaly `M` the object answers.  For every time `d` at which the mean anomaly is in the first turn,
`propagate` returns, and the state read from `orb.cartesian` afterwards is a point of that solution, at a time that differs from `d` by at most
`1e-12 √(a³/mu)`; hence the errors of position and velocity. -/
theorem c79 {n : Nat} (s : Orb FX) (hs : OneEntryPerOrbit s n) (hr : s.kro = false) (hmode : s.auto = true ∨ s.direct = true)
    (ho : s.opts = SolverOpts.dflt) (j : Nat) (k : Kep ℝ) (mu M : ℝ) (h : OpenOrbit g s j k mu) (h1 : 1 < k.e) (hb : k.e ≤ 10 ^ 199)
    (hM : ReadsMean g s j M) :
    ∃ c : ℝ → Cart ℝ, ObeysNewton mu c ∧
      (∀ nu E, SamePointHyp k.e (angleOf s.degrees nu) E → k.e * Real.sinh E - E = angleOf s.degrees M →
        DescribesOrbit mu (Kep.inRad s.degrees { k with nu := nu }) (c 0)) ∧
      ∀ (dt : Val FX) (dts : List FX) (d : ℝ), dt.Row n dts → dts[j]? = some (fin d) →
        0 ≤ angleOf s.degrees M + √(mu / k.a ^ 3) * d → angleOf s.degrees M + √(mu / k.a ^ 3) * d < 2 * Real.pi →
        ∃ s' d', propagate (fxKern g) dt s = (.ok (), s') ∧ ReadsState g s' j (c d') ∧ |d' - d| ≤ tol0 * √(k.a ^ 3 / mu) ∧
          vlen ((c d').r - (c d).r) ≤ k.a * √((k.e + 1) / (k.e - 1)) * tol0 ∧
          vlen ((c d').v - (c d).v) ≤ k.a * √(mu / k.a ^ 3) * tol0 / (k.e - 1) ^ 2 := by
  have hmu := h.mu_pos
  have ha := h.a_pos
  obtain ⟨hn, hn2⟩ := motion_pos hmu ha
  have hflip : √(k.a ^ 3 / mu) = 1 / √(mu / k.a ^ 3) := by
    rw [← inv_div, Real.sqrt_inv, one_div]
  rw [hflip]
  set w := √(mu / k.a ^ 3) with hw
  have hN : ObeysNewton mu fun t => hyperbolaState (k.inRad s.degrees) w (hypInv h1 (angleOf s.degrees M + w * t)) :=
    hyperbola_newton (k.inRad s.degrees) mu w ha h1 hn2 _
  refine ⟨fun t => hyperbolaState (k.inRad s.degrees) w (hypInv h1 (angleOf s.degrees M + w * t)), hN, ?_, ?_⟩
  · intro nu E hp hE
    obtain ⟨h2, h3⟩ := hp.cos_sin h1
    obtain ⟨h4, h5⟩ := state_at_hyp hmu ha h1 s.degrees h2 h3
    show DescribesOrbit mu _ (hyperbolaState _ w (hypInv h1 (angleOf s.degrees M + w * 0)))
    rw [mul_zero, add_zero, ← hE, ← meanOf_hyp h1, hypInv_meanOf, hw, ← h4]
    exact h5.describes
  · intro dt dts d hdt hd hd0 hd1
    have hpi := Real.pi_lt_four
    have hturn := turn_of_mem hd0 hd1
    obtain ⟨E, q1, -, q2⟩ := meanToEccentricEl_fin (1 / 1000000000000) 5000 5 (angleOf s.degrees M + w * d) k.e (by linarith) (.inr ⟨h1, by linarith⟩)
    have hl : ¬ HitLimit (opts (1 / 1000000000000) 5000 5) (fin (angleOf s.degrees M + w * d)) (fin k.e) := by
      refine c76_limit _ _ _ _ h1 hd0 4000 (hyp_dflt_steps ?_) (by norm_num)
      have : (10 : ℝ) ^ 200 = 10 * 10 ^ 199 := by rw [← pow_succ']
      have h10 : (10 : ℝ) ≤ 10 ^ 199 := by
        calc (10 : ℝ) = 10 ^ 1 := by norm_num
          _ ≤ 10 ^ 199 := pow_le_pow_right₀ (by norm_num) (by norm_num)
      rw [this]; linarith
    have hres := q2 h1.ne' hl
    rw [← dflt_fin, ← ho] at q1
    have hcs := hyp_true_cos_sin (E := E) h1 rfl
    rw [← trueOpen_hyp h1] at hcs
    obtain ⟨h4, h5⟩ := state_at_hyp (nu := angleOut s.degrees (trueOpen k.e E)) hmu ha h1 s.degrees (by rw [angleOf_angleOut]; exact hcs.1)
      (by rw [angleOf_angleOut]; exact hcs.2)
    obtain ⟨s', p1, p2⟩ := h.step g hs hr hmode hM hdt hd (by rw [← hw, hturn]; exact q1) h5
    rw [h4, ← hw] at p2
    have hd' : hypInv h1 (angleOf s.degrees M + w * ((meanOf k.e E - angleOf s.degrees M) / w)) = E := by
      rw [mul_div_cancel₀ _ hn.ne', add_sub_cancel, hypInv_meanOf]
    have htime : |(meanOf k.e E - angleOf s.degrees M) / w - d| ≤ tol0 * (1 / w) := by
      have : (meanOf k.e E - angleOf s.degrees M) / w - d = (meanOf k.e E - (angleOf s.degrees M + w * d)) / w := by field_simp; ring
      rw [this, abs_div, abs_of_pos hn, mul_one_div]
      exact div_le_div_of_nonneg_right hres.le hn.le
    refine ⟨s', (meanOf k.e E - angleOf s.degrees M) / w, p1, ?_, htime, ?_, ?_⟩
    · show ReadsState g s' j (hyperbolaState (k.inRad s.degrees) w (hypInv h1 (angleOf s.degrees M + w * ((meanOf k.e E - angleOf s.degrees M) / w))))
      rw [hd']; exact p2
    · refine (curve_lipschitz (fun t => (hN t).1) (fun t => hyperbola_speed (k.inRad s.degrees) hn.le ha h1 _) _ _).trans ?_
      refine (mul_le_mul_of_nonneg_left htime (by show 0 ≤ k.a * w * _; positivity)).trans (le_of_eq ?_)
      show k.a * w * √((k.e + 1) / (k.e - 1)) * (tol0 * (1 / w)) = _
      field_simp
    · refine (curve_lipschitz (fun t => (hN t).2) (fun t => hyperbola_acc (k.inRad s.degrees) ha h1 hn2 _) _ _).trans ?_
      have he : 0 < k.e - 1 := by linarith
      refine (mul_le_mul_of_nonneg_left htime (by show 0 ≤ k.a * w ^ 2 / (k.e - 1) ^ 2; positivity)).trans (le_of_eq ?_)
      show k.a * w ^ 2 / (k.e - 1) ^ 2 * (tol0 * (1 / w)) = _
      field_simp

/-- C79, when an object answers a mean anomaly `M` for a hyperbola: always if it stores the mean or the eccentric anomaly; if it stores the true anomaly,
for a point of the hyperbola on the outbound leg, not too far out -/
theorem c79_mean {n : Nat} (s : Orb FX) (hs : OneEntryPerOrbit s n) (j : Nat) (k : Kep ℝ) (mu : ℝ) (h : OpenOrbit g s j k mu) (h1 : 1 < k.e) :
    match s.type with
    | .mean => ReadsMean g s j k.nu
    | .ecc => ReadsMean g s j (angleOut s.degrees (k.e * Real.sinh (angleOf s.degrees k.nu) - angleOf s.degrees k.nu))
    | .tru => ∀ E, SamePointHyp k.e (angleOf s.degrees k.nu) E → 0 ≤ E → E < 2 * Real.pi →
        ReadsMean g s j (angleOut s.degrees (k.e * Real.sinh E - E)) := by
  obtain ⟨ks, hks, hk⟩ := h.read
  obtain rfl : ks = (kepCheck (fxKern g) s).kep := (Except.ok.inj hks).symm
  obtain ⟨r, hr, -⟩ := get_anomaly_val (fxKern g) hs.wfe .mean
  obtain ⟨e1, e2, e3, -⟩ := kepCheck_settings (fxKern g) s
  have key : ∀ M, anomOf (fxKern g) .mean (kepCheck (fxKern g) s) k.fx = fin M → ReadsMean g s j M := by
    intro M hM
    refine ⟨_, congrArg Prod.fst hr, ?_⟩
    rw [List.getElem?_map, hk, Option.map_some, hM]
  rw [anomOf_conv, e1, e2] at key
  have etm : ∀ x, eccentricToMeanEl g.mean .f64 (fin x) (fin k.e) = fin (k.e * Real.sinh x - x) := by
    intro x
    unfold eccentricToMeanEl
    rw [triMask_eq_triSc _ _ _ _ _ (by simp)]
    exact eccentricToMeanSc_hyp h1
  cases ht : s.type
  · intro E hE h0 h2
    refine key _ ?_
    rw [ht]
    show outR s.degrees (eccentricToMeanEl g.mean .f64 (trueToEccentricEl g.ecc .f64 (inR s.degrees (fin k.nu)) (fin k.e)) (fin k.e)) = _
    have hth : hypFac k.e * Real.tan (angleOf s.degrees k.nu / 2) = Real.tanh (E / 2) := by
      rw [hE.2, hypFac_inv, ← mul_assoc, mul_inv_cancel₀ (hypFac_pos h1).ne', one_mul]
    have htte : trueToEccentricEl g.ecc .f64 (fin (angleOf s.degrees k.nu)) (fin k.e) = fin E := by
      unfold trueToEccentricEl
      rw [triMask_eq_triSc _ _ _ _ _ (by simp)]
      refine (trueToEccentricSc_hyp h1 hE.1 ?_).trans ?_
      · rw [hth]; exact Real.abs_tanh_lt_one _
      · rw [hth, Real.artanh_tanh, mul_div_cancel₀ _ two_ne_zero, turn_of_mem h0 h2]
    rw [inR_fin, htte, etm, outR_fin]
  · refine key _ ?_
    rw [ht]
    show outR s.degrees (eccentricToMeanEl g.mean .f64 (inR s.degrees (fin k.nu)) (fin k.e)) = _
    rw [inR_fin, etm, outR_fin]
  · refine key _ ?_
    rw [ht]; rfl

/-! ## C78 for objects -/

/-- C78 is false for objects: for a parabolic orbit, the state read after `propagate(dt)` is that of the solution `c` of the equations of motion
at the time `√2 dt`, and not at `dt` unless `dt = 0`; for every object with a parabola, every anomaly type and tolerance -/
theorem c78_orbit_false {n : Nat} (s : Orb FX) (hs : OneEntryPerOrbit s n) (hr : s.kro = false) (hmode : s.auto = true ∨ s.direct = true)
    (tol o : ℝ) (mi : Int) (ho : s.opts = opts tol mi o) (j : Nat) (k : Kep ℝ) (mu M : ℝ) (h : OpenOrbit g s j k mu) (h1 : k.e = 1)
    (hM : ReadsMean g s j M) :
    ∃ c : ℝ → Cart ℝ, ObeysNewton mu c ∧
      (∀ nu, Real.cos (angleOf s.degrees nu / 2) ≠ 0 →
        Real.tan (angleOf s.degrees nu / 2) + Real.tan (angleOf s.degrees nu / 2) ^ 3 / 3 = angleOf s.degrees M →
        DescribesOrbit mu (Kep.inRad s.degrees { k with nu := nu }) (c 0)) ∧
      ∀ (dt : Val FX) (dts : List FX) (d : ℝ), dt.Row n dts → dts[j]? = some (fin d) →
        0 ≤ angleOf s.degrees M + √(mu / k.a ^ 3) * d → angleOf s.degrees M + √(mu / k.a ^ 3) * d < 2 * Real.pi →
        ∃ s', propagate (fxKern g) dt s = (.ok (), s') ∧ ReadsState g s' j (c (√2 * d)) ∧ (d ≠ 0 → ¬ ReadsState g s' j (c d)) := by
  have hmu := h.mu_pos
  have ha := h.a_pos
  have hpos : 0 < mu / (2 * k.a ^ 3) := by positivity
  have hn : 0 < √(mu / (2 * k.a ^ 3)) := Real.sqrt_pos.mpr hpos
  have hn2 : 2 * √(mu / (2 * k.a ^ 3)) ^ 2 * k.a ^ 3 = mu := by rw [Real.sq_sqrt hpos.le]; field_simp
  have hrate : √(mu / k.a ^ 3) = √(mu / (2 * k.a ^ 3)) * √2 := by
    rw [← Real.sqrt_mul (by positivity)]
    congr 1
    field_simp
  rw [hrate]
  set w := √(mu / (2 * k.a ^ 3)) with hw
  have pt : ∀ nu E, Real.cos (angleOf s.degrees nu) * (1 + E ^ 2) = 1 - E ^ 2 → Real.sin (angleOf s.degrees nu) * (1 + E ^ 2) = 2 * E →
      (Kep.inRad s.degrees { k with nu := nu }).state mu = parabolaState (k.inRad s.degrees) w E ∧ (Kep.inRad s.degrees { k with nu := nu }).Adm mu := by
    intro nu E hc hsn
    obtain ⟨h2, h3⟩ := state_par (Kep.inRad s.degrees { k with nu := nu }) mu w E ha h1 hn hn2 hc hsn
    exact ⟨h2, ⟨hmu, ha, by show 0 ≤ k.e; linarith, h3⟩⟩
  refine ⟨fun t => parabolaState (k.inRad s.degrees) w (parInv (angleOf s.degrees M + w * t)), parabola_newton (k.inRad s.degrees) mu w ha hn2 _, ?_, ?_⟩
  · intro nu hc hE
    have h2 := par_true_cos_sin (Real.tan (angleOf s.degrees nu / 2))
    rw [turn_arctan_tan hc, cos_turn, sin_turn] at h2
    obtain ⟨h4, h5⟩ := pt nu _ h2.1 h2.2
    show DescribesOrbit mu _ (parabolaState _ w (parInv (angleOf s.degrees M + w * 0)))
    rw [mul_zero, add_zero, ← hE, parInv_barker, ← h4]
    exact h5.describes
  · intro dt dts d hdt hd hd0 hd1
    have hturn := turn_of_mem hd0 hd1
    obtain ⟨E, q1, q2, -⟩ := meanToEccentricEl_fin tol mi o (angleOf s.degrees M + w * √2 * d) k.e (by linarith) (.inl h1.le)
    have hE : E + E ^ 3 / 3 = angleOf s.degrees M + w * √2 * d := by
      have := q2 h1
      rwa [h1, meanOf_par] at this
    rw [← ho] at q1
    have hcs := par_true_cos_sin E
    rw [show turn (2 * Real.arctan E) = trueOpen k.e E from (if_pos h1).symm] at hcs
    obtain ⟨h4, h5⟩ := pt (angleOut s.degrees (trueOpen k.e E)) E (by rw [angleOf_angleOut]; exact hcs.1) (by rw [angleOf_angleOut]; exact hcs.2)
    obtain ⟨s', p1, p2⟩ := h.step g hs hr hmode hM hdt hd (by rw [hrate, hturn]; exact q1) h5
    rw [h4] at p2
    have hEd : parInv (angleOf s.degrees M + w * (√2 * d)) = E := by
      rw [← mul_assoc, ← hE, parInv_barker]
    refine ⟨s', p1, ?_, fun hd' hc => hd' ?_⟩
    · show ReadsState g s' j (parabolaState _ w (parInv (angleOf s.degrees M + w * (√2 * d))))
      rw [hEd]; exact p2
    · have h6 := parabolaState_inj (k := k.inRad s.degrees) ha (hc.unique p2)
      rw [← hEd] at h6
      have h7 := parInv.injective h6
      have h8 : w * ((√2 - 1) * d) = 0 := by linarith
      have h9 : (1 : ℝ) < √2 := by
        rw [Real.lt_sqrt (by norm_num)]; norm_num
      exact (mul_eq_zero.mp ((mul_eq_zero.mp h8).resolve_left hn.ne')).resolve_left (by linarith)

/-! ## Cases of the theorems -/

theorem lazyKep_open (o : SolverOpts FX) (t : Anom) {k : Kep ℝ} (ha : 0 < k.a) (h1 : 1 ≤ k.e) : OpenOrbit g (lazyKep g o t k) 0 k 1 :=
  ⟨⟨_, rfl, rfl⟩, ⟨0, rfl, fx_mu g⟩, one_pos, ha, h1⟩

/-- a case of `c79`: a hyperbola with eccentricity 2 that stores the eccentric anomaly, starting at periapsis, one time unit -/
example : ∃ c : ℝ → Cart ℝ, ObeysNewton 1 c ∧ DescribesOrbit 1 ⟨1, 2, 0, 0, 0, 0⟩ (c 0) ∧
    ∃ s' d', propagate (fxKern g) (.sc (fin 1)) (lazyKep g SolverOpts.dflt .ecc ⟨1, 2, 0, 0, 0, 0⟩) = (.ok (), s') ∧ ReadsState g s' 0 (c d') ∧
      |d' - 1| ≤ tol0 := by
  have h := lazyKep_open g SolverOpts.dflt .ecc (k := ⟨1, 2, 0, 0, 0, 0⟩) (by norm_num) (by norm_num)
  have hs := lazyKep_one g SolverOpts.dflt .ecc ⟨1, 2, 0, 0, 0, 0⟩
  have hM : ReadsMean g (lazyKep g SolverOpts.dflt .ecc ⟨1, 2, 0, 0, 0, 0⟩) 0 0 := by
    have : ReadsMean g _ 0 (angleOut false (2 * Real.sinh (angleOf false 0) - angleOf false 0)) := c79_mean g _ hs 0 _ _ h (by norm_num)
    simpa [angleOut, angleOf] using this
  have hpi := Real.pi_gt_three
  obtain ⟨c, hN, h0, hstep⟩ := c79 g _ hs rfl (.inl rfl) rfl 0 _ _ 0 h (by norm_num)
    (by calc (2 : ℝ) ≤ 2 ^ 199 := le_self_pow₀ (by norm_num) (by norm_num)
          _ ≤ 10 ^ 199 := pow_le_pow_left₀ (by norm_num) (by norm_num) _) hM
  obtain ⟨s', d', p1, p2, p3, -⟩ := hstep (.sc (fin 1)) [fin 1] 1 rfl rfl (by simp [angleOf]) (by simp [angleOf]; linarith)
  refine ⟨c, hN, ?_, s', d', p1, p2, by simpa using p3⟩
  have : DescribesOrbit 1 (Kep.inRad false ⟨1, 2, 0, 0, 0, 0⟩) (c 0) := h0 0 0 ⟨by simp [angleOf], by simp [angleOf]⟩ (by simp [angleOf])
  simpa [Kep.inRad, angleOf] using this

/-- a case of `c78_orbit_false`: a parabola that stores the mean anomaly, starting at periapsis -/
example (o : ℝ) : ∃ c : ℝ → Cart ℝ, ObeysNewton 1 c ∧
    ∃ s', propagate (fxKern g) (.sc (fin 1)) (lazyKep g (opts 1 1 o) .mean ⟨1, 1, 0, 0, 0, 0⟩) = (.ok (), s') ∧ ReadsState g s' 0 (c √2) ∧
      ¬ ReadsState g s' 0 (c 1) := by
  have h := lazyKep_open g (opts 1 1 o) .mean (k := ⟨1, 1, 0, 0, 0, 0⟩) (by norm_num) le_rfl
  have hs := lazyKep_one g (opts 1 1 o) .mean ⟨1, 1, 0, 0, 0, 0⟩
  have hM : ReadsMean g (lazyKep g (opts 1 1 o) .mean ⟨1, 1, 0, 0, 0, 0⟩) 0 0 := ⟨[fin 0], rfl, rfl⟩
  have hpi := Real.pi_gt_three
  obtain ⟨c, hN, -, hstep⟩ := c78_orbit_false g _ hs rfl (.inl rfl) 1 o 1 rfl 0 _ _ 0 h rfl hM
  obtain ⟨s', p1, p2, p3⟩ := hstep (.sc (fin 1)) [fin 1] 1 rfl rfl (by simp [angleOf]) (by simp [angleOf]; linarith)
  exact ⟨c, hN, s', p1, by simpa using p2, p3 one_ne_zero⟩

end Orbit
end Pyorb
