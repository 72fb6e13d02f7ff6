import Verif.PropsOrbitMotion

/-!
# Motion on hyperbolas and parabolas (C77, C78)

As in C27, but for `e > 1` and `e = 1`.  The curve of states described by Kepler's equation, `eccentric_to_true` and `kep_to_cart` solves the
two-body equation of motion when the mean anomaly grows at the right rate.  The rate that `Orbit.mean_motion` computes is right on hyperbolas;
on parabolas it is too large by the factor `√2`.
-/

set_option linter.unusedSimpArgs false

namespace Pyorb
open FX Orbit

/-! ## Specification -/

/-- `eccentric_to_true` and `kep_to_cart` turn the eccentric anomaly `E` (radians) on the orbit `k` into the state `c` -/
def CodeState (gh g : Nat → FX) (deg : Bool) (mu : FX) (k : Kep ℝ) (E : ℝ) (c : Cart ℝ) : Prop :=
  ∃ nu, eccentric_to_true g (fl (angleOut deg E)) (fl k.e) deg = .ok (fl nu) ∧
    (kep_to_cart gh (.sc mu) deg (.vec .f64 (Kep.fx { k with nu := nu }))).1 = .ok (.vec .f64 c.fx)

/-! ## The conversions at one point -/

theorem ett_fl (g : Nat → FX) (deg : Bool) (E e nu : ℝ) (h : eccentricToTrueSc (fin E) (fin e) = fin nu) :
    eccentric_to_true g (fl (angleOut deg E)) (fl e) deg = .ok (fl (angleOut deg nu)) := by
  have h2 : toRad deg (fl (angleOut deg E)) = fl E := by
    cases deg
    · rfl
    · simp [toRad, fl, Arg.map, angleOut, mul_assoc]
  have h3 : eccentric_to_true g (fl (angleOut deg E)) (fl e) deg
      = .ok (toDeg deg (.sc .f64 (eccentricToTrueSc (fin E) (fin e)))) := by
    unfold eccentric_to_true
    rw [h2]; rfl
  rw [h3, h]
  cases deg
  · rfl
  · simp [toDeg, fl, Arg.map, angleOut]

theorem kep_to_cart_one (gh : Nat → FX) (deg : Bool) {mu : ℝ} {k : Kep ℝ} (h : (k.inRad deg).Adm mu) :
    (kep_to_cart gh (.sc (fin mu)) deg (.vec .f64 k.fx)).1 = .ok (.vec .f64 ((k.inRad deg).state mu).fx) := by
  simp only [kep_to_cart, kepToCartMat, Mu.toList, List.length_singleton, List.replicate_one, List.zip_cons_cons,
    List.zip_nil_right, List.mapIdx_cons, List.mapIdx_nil, List.map_cons, List.map_nil, if_true, kepToCart_fst _ h]

theorem codeState_of (gh g : Nat → FX) (deg : Bool) {mu : ℝ} {k : Kep ℝ} {E nu : ℝ} (h : eccentricToTrueSc (fin E) (fin k.e) = fin nu)
    (ha : (Kep.inRad deg { k with nu := angleOut deg nu }).Adm mu) :
    CodeState gh g deg (fin mu) k E ((Kep.inRad deg { k with nu := angleOut deg nu }).state mu) :=
  ⟨angleOut deg nu, ett_fl g deg E k.e nu h, kep_to_cart_one gh deg ha⟩

theorem CodeState.unique {gh g : Nat → FX} {deg : Bool} {mu : FX} {k : Kep ℝ} {E : ℝ} {c c' : Cart ℝ} (h : CodeState gh g deg mu k E c)
    (h' : CodeState gh g deg mu k E c') : c.fx = c'.fx := by
  obtain ⟨nu, a1, a2⟩ := h
  obtain ⟨nu', b1, b2⟩ := h'
  rw [a1] at b1
  injection b1 with b1
  obtain rfl := fl_inj b1
  rw [a2] at b2
  injection b2 with b2
  injection b2

/-! ## Plane curves in space -/

/-- a state in the plane of the orbit `k`, from its coordinates in that plane -/
noncomputable def planeState (k : Kep ℝ) (X Y U W : ℝ) : Cart ℝ :=
  ⟨k.px * X + k.qx * Y, k.py * X + k.qy * Y, k.pz * X + k.qz * Y, k.px * U + k.qx * W, k.py * U + k.qy * W, k.pz * U + k.qz * W⟩

theorem planeState_rn (k : Kep ℝ) (X Y U W : ℝ) : vlen (planeState k X Y U W).r = √(X ^ 2 + Y ^ 2) := by
  rw [vlen_r]
  unfold Cart.rn planeState
  rw [← k.plane_norm X Y]

theorem planeState_inj {k : Kep ℝ} {X Y U W X' Y' U' W' : ℝ} (h : planeState k X Y U W = planeState k X' Y' U' W') : X = X' ∧ Y = Y' := by
  unfold planeState at h
  injection h with h1 h2 h3
  have hd := k.plane_norm (X - X') (Y - Y')
  have e1 : k.px * (X - X') + k.qx * (Y - Y') = 0 := by linarith
  have e2 : k.py * (X - X') + k.qy * (Y - Y') = 0 := by linarith
  have e3 : k.pz * (X - X') + k.qz * (Y - Y') = 0 := by linarith
  rw [e1, e2, e3] at hd
  constructor <;> nlinarith [sq_nonneg (X - X'), sq_nonneg (Y - Y')]

/-- a curve in the plane of an orbit that solves the equations of motion in plane coordinates solves them in space -/
theorem planeState_newton (k : Kep ℝ) {mu rho : ℝ} {X Y U W : ℝ → ℝ} {t : ℝ} (hX : HasDerivAt X (U t) t) (hY : HasDerivAt Y (W t) t)
    (hU : HasDerivAt U (-(mu / rho ^ 3) * X t) t) (hW : HasDerivAt W (-(mu / rho ^ 3) * Y t) t) (hr : √(X t ^ 2 + Y t ^ 2) = rho) :
    HasDerivAt (fun s => (planeState k (X s) (Y s) (U s) (W s)).r) (planeState k (X t) (Y t) (U t) (W t)).v t ∧
    HasDerivAt (fun s => (planeState k (X s) (Y s) (U s) (W s)).v)
      (-(mu / vlen (planeState k (X t) (Y t) (U t) (W t)).r ^ 3) • (planeState k (X t) (Y t) (U t) (W t)).r) t := by
  constructor
  · rw [hasDerivAt_pi]
    intro j
    fin_cases j
    · exact plane_deriv hX hY _ _
    · exact plane_deriv hX hY _ _
    · exact plane_deriv hX hY _ _
  · rw [hasDerivAt_pi, planeState_rn, hr]
    have comb : ∀ p q : ℝ, HasDerivAt (fun s => p * U s + q * W s) (-(mu / rho ^ 3) * (p * X t + q * Y t)) t := by
      intro p q
      refine (plane_deriv hU hW p q).congr_deriv ?_
      ring
    intro j
    fin_cases j
    · exact comb _ _
    · exact comb _ _
    · exact comb _ _

/-! ## Hyperbolas -/

theorem meanOf_hyp {e : ℝ} (h1 : 1 < e) (E : ℝ) : meanOf e E = e * Real.sinh E - E := by
  rw [meanOf, if_pos h1]

theorem hyp_denom_pos {e : ℝ} (h1 : 1 < e) (E : ℝ) : 0 < e * Real.cosh E - 1 := by
  have := Real.one_le_cosh E
  nlinarith

theorem meanOf_strictMono' {e : ℝ} (h0 : 0 ≤ e) (he : e ≠ 1) : StrictMono (meanOf e) := by
  intro x y h
  have := meanOf_gap h0 he h.le
  have hp : 0 < |1 - e| := abs_pos.mpr (sub_ne_zero.mpr he.symm)
  nlinarith [mul_pos hp (sub_pos.mpr h)]

/-- the eccentric anomaly as a function of the mean anomaly, on a hyperbola -/
noncomputable def hypInv {e : ℝ} (h1 : 1 < e) : ℝ ≃o ℝ :=
  ((meanOf_strictMono' (by linarith) h1.ne').orderIsoOfSurjective _ (meanOf_surj (by linarith) h1.ne')).symm

theorem meanOf_hypInv {e : ℝ} (h1 : 1 < e) (M : ℝ) : meanOf e (hypInv h1 M) = M :=
  ((meanOf_strictMono' (by linarith) h1.ne').orderIsoOfSurjective _ (meanOf_surj (by linarith) h1.ne')).apply_symm_apply M

theorem hypInv_meanOf {e : ℝ} (h1 : 1 < e) (E : ℝ) : hypInv h1 (meanOf e E) = E :=
  ((meanOf_strictMono' (by linarith) h1.ne').orderIsoOfSurjective _ (meanOf_surj (by linarith) h1.ne')).symm_apply_apply E

theorem hasDerivAt_hypInv {e : ℝ} (h1 : 1 < e) (M : ℝ) : HasDerivAt (hypInv h1) (e * Real.cosh (hypInv h1 M) - 1)⁻¹ M := by
  have hd : HasDerivAt (meanOf e) (e * Real.cosh (hypInv h1 M) - 1) (hypInv h1 M) := by
    have : meanOf e = fun E => e * Real.sinh E - E := funext (meanOf_hyp h1)
    rw [this]
    exact ((Real.hasDerivAt_sinh _).const_mul e).sub (hasDerivAt_id _)
  refine HasDerivAt.of_local_left_inverse ((hypInv h1).continuous.continuousAt) hd (hyp_denom_pos h1 _).ne' ?_
  exact Filter.Eventually.of_forall fun M => meanOf_hypInv h1 M

/-- The point of the hyperbola `k` with eccentric anomaly `E` and its velocity, textbook formulas in the orbital plane (`n`: mean motion). -/
noncomputable def hyperbolaState (k : Kep ℝ) (n E : ℝ) : Cart ℝ :=
  planeState k (k.a * (k.e - Real.cosh E)) (k.a * √(k.e ^ 2 - 1) * Real.sinh E) (-(k.a * n * Real.sinh E) / (k.e * Real.cosh E - 1))
    (k.a * n * √(k.e ^ 2 - 1) * Real.cosh E / (k.e * Real.cosh E - 1))

theorem hyperbola_dist {a e : ℝ} (ha : 0 < a) (h1 : 1 < e) (E : ℝ) :
    √((a * (e - Real.cosh E)) ^ 2 + (a * √(e ^ 2 - 1) * Real.sinh E) ^ 2) = a * (e * Real.cosh E - 1) := by
  have hs : √(e ^ 2 - 1) ^ 2 = e ^ 2 - 1 := Real.sq_sqrt (by nlinarith)
  have h2 : (a * (e - Real.cosh E)) ^ 2 + (a * √(e ^ 2 - 1) * Real.sinh E) ^ 2 = (a * (e * Real.cosh E - 1)) ^ 2 := by
    have h3 : (a * √(e ^ 2 - 1) * Real.sinh E) ^ 2 = a ^ 2 * (e ^ 2 - 1) * (Real.cosh E ^ 2 - 1) := by
      rw [mul_pow, mul_pow, hs, Real.sinh_sq]
    rw [h3]; ring
  rw [h2]
  exact Real.sqrt_sq (mul_nonneg ha.le (hyp_denom_pos h1 E).le)

theorem hyperbola_newton (k : Kep ℝ) (mu n : ℝ) (ha : 0 < k.a) (h1 : 1 < k.e) (hn : n ^ 2 * k.a ^ 3 = mu) (M : ℝ) :
    ObeysNewton mu fun s => hyperbolaState k n (hypInv h1 (M + n * s)) := by
  intro t
  have hlin : HasDerivAt (fun s => M + n * s) n t := by simpa using ((hasDerivAt_id t).const_mul n).const_add M
  have hE : HasDerivAt (fun s => hypInv h1 (M + n * s)) ((k.e * Real.cosh (hypInv h1 (M + n * t)) - 1)⁻¹ * n) t :=
    (hasDerivAt_hypInv h1 (M + n * t)).comp t hlin
  have hrn := hyperbola_dist ha h1 (hypInv h1 (M + n * t))
  have hden := hyp_denom_pos h1 (hypInv h1 (M + n * t))
  set E := fun s => hypInv h1 (M + n * s) with hEd
  have hEt : hypInv h1 (M + n * t) = E t := rfl
  rw [hEt] at hE hrn hden
  have hcos : HasDerivAt (fun s => Real.cosh (E s)) (Real.sinh (E t) * ((k.e * Real.cosh (E t) - 1)⁻¹ * n)) t := hE.cosh
  have hsin : HasDerivAt (fun s => Real.sinh (E s)) (Real.cosh (E t) * ((k.e * Real.cosh (E t) - 1)⁻¹ * n)) t := hE.sinh
  have hD : HasDerivAt (fun s => k.e * Real.cosh (E s) - 1)
      (k.e * (Real.sinh (E t) * ((k.e * Real.cosh (E t) - 1)⁻¹ * n))) t := (hcos.const_mul k.e).sub_const 1
  have hcs : Real.sinh (E t) ^ 2 = Real.cosh (E t) ^ 2 - 1 := Real.sinh_sq _
  refine planeState_newton k (X := fun s => k.a * (k.e - Real.cosh (E s))) (Y := fun s => k.a * √(k.e ^ 2 - 1) * Real.sinh (E s))
    (U := fun s => -(k.a * n * Real.sinh (E s)) / (k.e * Real.cosh (E s) - 1))
    (W := fun s => k.a * n * √(k.e ^ 2 - 1) * Real.cosh (E s) / (k.e * Real.cosh (E s) - 1)) ?_ ?_ ?_ ?_ hrn
  · refine ((hcos.const_sub k.e).const_mul k.a).congr_deriv ?_
    rw [div_eq_mul_inv]; ring
  · refine (hsin.const_mul (k.a * √(k.e ^ 2 - 1))).congr_deriv ?_
    rw [div_eq_mul_inv]; ring
  · have hN : HasDerivAt (fun s => -(k.a * n * Real.sinh (E s)))
        (-(k.a * n * (Real.cosh (E t) * ((k.e * Real.cosh (E t) - 1)⁻¹ * n)))) t := (hsin.const_mul (k.a * n)).neg
    refine (hN.div hD hden.ne').congr_deriv ?_
    rw [← hn]
    have hdne := hden.ne'
    field_simp
    linear_combination (n ^ 2 * k.e * ((k.e * Real.cosh (E t) - 1) ^ 3)⁻¹) * hcs
  · refine ((hcos.const_mul (k.a * n * √(k.e ^ 2 - 1))).div hD hden.ne').congr_deriv ?_
    rw [← hn]
    have hdne := hden.ne'
    field_simp
    ring_nf

/-- cosine and sine of the true anomaly in terms of the eccentric anomaly of a hyperbola -/
theorem hyp_true_cos_sin {e E nu : ℝ} (h1 : 1 < e) (hnu : nu = turn (2 * Real.arctan ((hypFac e)⁻¹ * Real.tanh (E / 2)))) :
    Real.cos nu * (e * Real.cosh E - 1) = e - Real.cosh E ∧ Real.sin nu * (e * Real.cosh E - 1) = √(e ^ 2 - 1) * Real.sinh E := by
  have hf := hypFac_pos h1
  have hf2 := hypFac_sq h1
  have hs : √(e ^ 2 - 1) = (e + 1) * hypFac e := by
    rw [Real.sqrt_eq_iff_mul_self_eq (by nlinarith) (mul_nonneg (by linarith) hf.le)]
    have : (e + 1) * hypFac e * ((e + 1) * hypFac e) = (e + 1) ^ 2 * hypFac e ^ 2 := by ring
    rw [this, hf2]
    have : (e + 1) ≠ 0 := by linarith
    field_simp; ring
  have h2 : E = 2 * (E / 2) := by ring
  have hS := Real.cosh_sq_sub_sinh_sq (E / 2)
  have hc0 := (Real.cosh_pos (E / 2)).ne'
  have hcE : Real.cosh E = Real.cosh (E / 2) ^ 2 + Real.sinh (E / 2) ^ 2 := by
    conv_lhs => rw [h2, Real.cosh_two_mul]
  have hsE : Real.sinh E = 2 * Real.sinh (E / 2) * Real.cosh (E / 2) := by
    conv_lhs => rw [h2, Real.sinh_two_mul]
  have h1e : (e + 1) ≠ 0 := by linarith
  have hf3 : (e + 1) * hypFac e ^ 2 = e - 1 := by rw [hf2]; field_simp
  have hD : e * Real.cosh E - 1 = (e + 1) * (hypFac e ^ 2 * Real.cosh (E / 2) ^ 2 + Real.sinh (E / 2) ^ 2) := by
    rw [hcE]
    linear_combination -Real.cosh (E / 2) ^ 2 * hf3 + hS
  have hDp : 0 < hypFac e ^ 2 * Real.cosh (E / 2) ^ 2 + Real.sinh (E / 2) ^ 2 := by
    have : 0 < hypFac e ^ 2 * Real.cosh (E / 2) ^ 2 := by positivity
    have := sq_nonneg (Real.sinh (E / 2))
    linarith
  set A := Real.arctan ((hypFac e)⁻¹ * Real.tanh (E / 2)) with hA
  have hc2 : Real.cos A ^ 2 * (hypFac e ^ 2 * Real.cosh (E / 2) ^ 2 + Real.sinh (E / 2) ^ 2) = hypFac e ^ 2 * Real.cosh (E / 2) ^ 2 := by
    rw [hA, Real.cos_sq_arctan, Real.tanh_eq_sinh_div_cosh]
    field_simp
  have hsc : Real.sin A = (hypFac e)⁻¹ * Real.tanh (E / 2) * Real.cos A := by
    have hcA : Real.cos A ≠ 0 := (Real.cos_arctan_pos _).ne'
    have := Real.tan_arctan ((hypFac e)⁻¹ * Real.tanh (E / 2))
    rw [← hA, Real.tan_eq_sin_div_cos A, div_eq_iff hcA] at this
    exact this
  have hsA : Real.sin A * Real.cos A * (hypFac e ^ 2 * Real.cosh (E / 2) ^ 2 + Real.sinh (E / 2) ^ 2)
      = hypFac e * Real.sinh (E / 2) * Real.cosh (E / 2) := by
    rw [hsc]
    have : (hypFac e)⁻¹ * Real.tanh (E / 2) * Real.cos A * Real.cos A
        * (hypFac e ^ 2 * Real.cosh (E / 2) ^ 2 + Real.sinh (E / 2) ^ 2)
        = (hypFac e)⁻¹ * Real.tanh (E / 2) * (hypFac e ^ 2 * Real.cosh (E / 2) ^ 2) := by
      linear_combination ((hypFac e)⁻¹ * Real.tanh (E / 2)) * hc2
    rw [this, Real.tanh_eq_sinh_div_cosh]
    field_simp
  rw [hnu, cos_turn, sin_turn, Real.cos_two_mul, Real.sin_two_mul, hD]
  constructor
  · rw [hcE]
    linear_combination 2 * (e + 1) * hc2 + Real.cosh (E / 2) ^ 2 * hf3 + e * hS
  · rw [hs, hsE]
    linear_combination 2 * (e + 1) * hsA

/-- the state `kep_to_cart` computes from a true anomaly is the point of the hyperbola with the eccentric anomaly `E` -/
theorem state_hyp (k : Kep ℝ) (mu n E : ℝ) (ha : 0 < k.a) (h1 : 1 < k.e) (hn0 : 0 < n) (hn : n ^ 2 * k.a ^ 3 = mu)
    (hcos : Real.cos k.nu * (k.e * Real.cosh E - 1) = k.e - Real.cosh E)
    (hsin : Real.sin k.nu * (k.e * Real.cosh E - 1) = √(k.e ^ 2 - 1) * Real.sinh E) :
    k.state mu = hyperbolaState k n E ∧ 0 < 1 + k.e * Real.cos k.nu := by
  have hD := hyp_denom_pos h1 E
  have hDne := hD.ne'
  rw [eq_comm, ← div_eq_iff hDne, eq_comm] at hcos hsin
  have he2 : 0 < k.e ^ 2 - 1 := by nlinarith
  have hs : √(k.e ^ 2 - 1) ^ 2 = k.e ^ 2 - 1 := Real.sq_sqrt he2.le
  have hspos : 0 < √(k.e ^ 2 - 1) := Real.sqrt_pos.mpr he2
  have hmu : 0 < mu := by rw [← hn]; positivity
  have hslr : k.slr = k.a * (k.e ^ 2 - 1) := by rw [Kep.slr, if_neg h1.ne', abs_of_neg (by linarith)]; ring
  have hplus : 1 + k.e * Real.cos k.nu = (k.e ^ 2 - 1) / (k.e * Real.cosh E - 1) := by
    rw [hcos]; field_simp; ring
  have hrad : k.rad = k.a * (k.e * Real.cosh E - 1) := by
    rw [Kep.rad, hslr, hplus]; field_simp
  have hrx : k.rx = k.a * (k.e - Real.cosh E) := by rw [Kep.rx, hrad, hcos]; field_simp
  have hry : k.ry = k.a * √(k.e ^ 2 - 1) * Real.sinh E := by rw [Kep.ry, hrad, hsin]; field_simp
  have hhm : k.hm mu = k.a ^ 2 * n * √(k.e ^ 2 - 1) := by
    rw [Kep.hm, hslr, Real.sqrt_eq_iff_mul_self_eq (by positivity) (by positivity)]
    rw [← hn]
    linear_combination -(k.a ^ 4 * n ^ 2) * hs
  have hmh : mu / k.hm mu = k.a * n / √(k.e ^ 2 - 1) := by
    rw [hhm, ← hn]; field_simp
  have hux : k.ux mu = -(k.a * n * Real.sinh E) / (k.e * Real.cosh E - 1) := by
    rw [Kep.ux, hmh, hsin]; field_simp
  have huy : k.uy mu = k.a * n * √(k.e ^ 2 - 1) * Real.cosh E / (k.e * Real.cosh E - 1) := by
    have h3 : k.e + Real.cos k.nu = (k.e ^ 2 - 1) * Real.cosh E / (k.e * Real.cosh E - 1) := by
      rw [hcos]; field_simp; ring
    rw [Kep.uy, hmh, h3]; field_simp; rw [hs]
  refine ⟨?_, by rw [hplus]; exact div_pos he2 hD⟩
  unfold Kep.state hyperbolaState planeState
  simp only [hrx, hry, hux, huy]

theorem codeState_hyp (gh g : Nat → FX) (deg : Bool) {mu n : ℝ} {k : Kep ℝ} (ha : 0 < k.a) (h1 : 1 < k.e) (hn0 : 0 < n)
    (hn : n ^ 2 * k.a ^ 3 = mu) (E : ℝ) : CodeState gh g deg (fin mu) k E (hyperbolaState (k.inRad deg) n E) := by
  have he := eccentricToTrueSc_hyp (E := E) h1
  obtain ⟨hc, hs⟩ := hyp_true_cos_sin (E := E) h1 rfl
  set nu := turn (2 * Real.arctan ((hypFac k.e)⁻¹ * Real.tanh (E / 2))) with hnu
  have hang : (Kep.inRad deg { k with nu := angleOut deg nu }).nu = nu := angleOf_angleOut deg nu
  obtain ⟨h2, h3⟩ := state_hyp (Kep.inRad deg { k with nu := angleOut deg nu }) mu n E ha h1 hn0 hn (by rw [hang]; exact hc) (by rw [hang]; exact hs)
  have hmu : 0 < mu := by rw [← hn]; positivity
  have h4 := codeState_of gh g deg he ⟨hmu, ha, by show 0 ≤ k.e; linarith, h3⟩
  rw [h2] at h4
  exact h4

theorem hyperbolaState_inj {k : Kep ℝ} {n E E' : ℝ} (ha : 0 < k.a) (h1 : 1 < k.e) (h : hyperbolaState k n E = hyperbolaState k n E') : E = E' := by
  obtain ⟨-, h2⟩ := planeState_inj h
  have : 0 < k.a * √(k.e ^ 2 - 1) := mul_pos ha (Real.sqrt_pos.mpr (by nlinarith))
  exact Real.sinh_injective (mul_left_cancel₀ this.ne' h2)

/-! ## Parabolas -/

theorem meanOf_par (E : ℝ) : meanOf 1 E = E + E ^ 3 / 3 := by
  rw [meanOf, if_neg (lt_irrefl _), if_pos rfl]

theorem barker_strictMono : StrictMono fun E : ℝ => E + E ^ 3 / 3 := by
  intro x y h
  show x + x ^ 3 / 3 < y + y ^ 3 / 3
  nlinarith [sq_nonneg (x + y), sq_nonneg x, sq_nonneg y, mul_pos (sub_pos.mpr h) (show (0 : ℝ) < 3 + (x ^ 2 + x * y + y ^ 2) by
    nlinarith [sq_nonneg (x + y), sq_nonneg x, sq_nonneg y])]

theorem barker_surj : Function.Surjective fun E : ℝ => E + E ^ 3 / 3 := by
  refine (by fun_prop : Continuous fun E : ℝ => E + E ^ 3 / 3).surjective ?_ ?_
  · refine Filter.tendsto_atTop_mono' Filter.atTop (f₁ := fun x : ℝ => x) ?_ Filter.tendsto_id
    filter_upwards [Filter.eventually_ge_atTop 0] with x hx
    have : 0 ≤ x ^ 3 := by positivity
    linarith
  · refine Filter.tendsto_atBot_mono' Filter.atBot (f₁ := fun x : ℝ => x) ?_ Filter.tendsto_id
    filter_upwards [Filter.eventually_le_atBot 0] with x hx
    have : x ^ 3 ≤ 0 := by nlinarith [sq_nonneg x]
    linarith

/-- the eccentric anomaly as a function of the mean anomaly, on a parabola -/
noncomputable def parInv : ℝ ≃o ℝ := (barker_strictMono.orderIsoOfSurjective _ barker_surj).symm

theorem barker_parInv (M : ℝ) : parInv M + parInv M ^ 3 / 3 = M := (barker_strictMono.orderIsoOfSurjective _ barker_surj).apply_symm_apply M

theorem parInv_barker (E : ℝ) : parInv (E + E ^ 3 / 3) = E := (barker_strictMono.orderIsoOfSurjective _ barker_surj).symm_apply_apply E

theorem hasDerivAt_parInv (M : ℝ) : HasDerivAt parInv (1 + parInv M ^ 2)⁻¹ M := by
  have hd : HasDerivAt (fun E : ℝ => E + E ^ 3 / 3) (1 + parInv M ^ 2) (parInv M) := by
    refine ((hasDerivAt_id _).add ((hasDerivAt_pow 3 (parInv M)).div_const 3)).congr_deriv ?_
    norm_num
  refine HasDerivAt.of_local_left_inverse (parInv.continuous.continuousAt) hd (by positivity) ?_
  exact Filter.Eventually.of_forall fun M => barker_parInv M

/-- The point of the parabola with periapsis distance `k.a` and eccentric anomaly `E` (tangent of half the true anomaly) and its velocity. -/
noncomputable def parabolaState (k : Kep ℝ) (n E : ℝ) : Cart ℝ :=
  planeState k (k.a * (1 - E ^ 2)) (2 * k.a * E) (-(2 * k.a * n * E) / (1 + E ^ 2)) (2 * k.a * n / (1 + E ^ 2))

theorem parabola_dist {a : ℝ} (ha : 0 < a) (E : ℝ) : √((a * (1 - E ^ 2)) ^ 2 + (2 * a * E) ^ 2) = a * (1 + E ^ 2) := by
  rw [show (a * (1 - E ^ 2)) ^ 2 + (2 * a * E) ^ 2 = (a * (1 + E ^ 2)) ^ 2 by ring]
  exact Real.sqrt_sq (by positivity)

theorem parabola_newton (k : Kep ℝ) (mu n : ℝ) (ha : 0 < k.a) (hn : 2 * n ^ 2 * k.a ^ 3 = mu) (M : ℝ) :
    ObeysNewton mu fun s => parabolaState k n (parInv (M + n * s)) := by
  intro t
  have hlin : HasDerivAt (fun s => M + n * s) n t := by simpa using ((hasDerivAt_id t).const_mul n).const_add M
  have hE : HasDerivAt (fun s => parInv (M + n * s)) ((1 + parInv (M + n * t) ^ 2)⁻¹ * n) t := (hasDerivAt_parInv (M + n * t)).comp t hlin
  have hrn := parabola_dist ha (parInv (M + n * t))
  have hden : 0 < 1 + parInv (M + n * t) ^ 2 := by positivity
  set E := fun s => parInv (M + n * s) with hEd
  have hEt : parInv (M + n * t) = E t := rfl
  rw [hEt] at hE hrn hden
  have hdne := hden.ne'
  have hsq : HasDerivAt (fun s => E s ^ 2) (2 * E t * ((1 + E t ^ 2)⁻¹ * n)) t := by
    refine (hE.pow 2).congr_deriv ?_
    norm_num
  have hD : HasDerivAt (fun s => 1 + E s ^ 2) (2 * E t * ((1 + E t ^ 2)⁻¹ * n)) t := hsq.const_add 1
  refine planeState_newton k (X := fun s => k.a * (1 - E s ^ 2)) (Y := fun s => 2 * k.a * E s)
    (U := fun s => -(2 * k.a * n * E s) / (1 + E s ^ 2)) (W := fun s => 2 * k.a * n / (1 + E s ^ 2)) ?_ ?_ ?_ ?_ hrn
  · refine ((hsq.const_sub 1).const_mul k.a).congr_deriv ?_
    rw [div_eq_mul_inv]; ring
  · refine (hE.const_mul (2 * k.a)).congr_deriv ?_
    rw [div_eq_mul_inv]; ring
  · have hN : HasDerivAt (fun s => -(2 * k.a * n * E s)) (-(2 * k.a * n * ((1 + E t ^ 2)⁻¹ * n))) t := (hE.const_mul (2 * k.a * n)).neg
    refine (hN.div hD hdne).congr_deriv ?_
    rw [← hn]
    field_simp
    ring
  · refine ((hasDerivAt_const t (2 * k.a * n)).div hD hdne).congr_deriv ?_
    rw [← hn]
    field_simp
    ring

theorem par_true_cos_sin (E : ℝ) :
    Real.cos (turn (2 * Real.arctan E)) * (1 + E ^ 2) = 1 - E ^ 2 ∧ Real.sin (turn (2 * Real.arctan E)) * (1 + E ^ 2) = 2 * E := by
  have hp : 0 < 1 + E ^ 2 := by positivity
  have hc2 : Real.cos (Real.arctan E) ^ 2 * (1 + E ^ 2) = 1 := by rw [Real.cos_sq_arctan]; field_simp
  have hsc : Real.sin (Real.arctan E) = E * Real.cos (Real.arctan E) := by
    have hcA : Real.cos (Real.arctan E) ≠ 0 := (Real.cos_arctan_pos _).ne'
    have := Real.tan_arctan E
    rwa [Real.tan_eq_sin_div_cos, div_eq_iff hcA] at this
  rw [cos_turn, sin_turn, Real.cos_two_mul, Real.sin_two_mul, hsc]
  constructor
  · linear_combination 2 * hc2
  · linear_combination 2 * E * hc2

theorem state_par (k : Kep ℝ) (mu n E : ℝ) (ha : 0 < k.a) (h1 : k.e = 1) (hn0 : 0 < n) (hn : 2 * n ^ 2 * k.a ^ 3 = mu)
    (hcos : Real.cos k.nu * (1 + E ^ 2) = 1 - E ^ 2) (hsin : Real.sin k.nu * (1 + E ^ 2) = 2 * E) :
    k.state mu = parabolaState k n E ∧ 0 < 1 + k.e * Real.cos k.nu := by
  have hD : 0 < 1 + E ^ 2 := by positivity
  have hDne := hD.ne'
  rw [eq_comm, ← div_eq_iff hDne, eq_comm] at hcos hsin
  have hslr : k.slr = 2 * k.a := by rw [Kep.slr, if_pos h1]
  have hplus : 1 + k.e * Real.cos k.nu = 2 / (1 + E ^ 2) := by rw [hcos, h1]; field_simp; ring
  have hrad : k.rad = k.a * (1 + E ^ 2) := by rw [Kep.rad, hslr, hplus]; field_simp
  have hrx : k.rx = k.a * (1 - E ^ 2) := by rw [Kep.rx, hrad, hcos]; field_simp
  have hry : k.ry = 2 * k.a * E := by rw [Kep.ry, hrad, hsin]; field_simp
  have hhm : k.hm mu = 2 * k.a ^ 2 * n := by
    rw [Kep.hm, hslr, Real.sqrt_eq_iff_mul_self_eq (by rw [← hn]; positivity) (by positivity)]
    rw [← hn]; ring
  have hmh : mu / k.hm mu = k.a * n := by rw [hhm, ← hn]; field_simp
  have hux : k.ux mu = -(2 * k.a * n * E) / (1 + E ^ 2) := by rw [Kep.ux, hmh, hsin]; field_simp
  have huy : k.uy mu = 2 * k.a * n / (1 + E ^ 2) := by rw [Kep.uy, hmh, h1, hcos]; field_simp; ring
  refine ⟨?_, by rw [hplus]; positivity⟩
  unfold Kep.state parabolaState planeState
  simp only [hrx, hry, hux, huy]

theorem codeState_par (gh g : Nat → FX) (deg : Bool) {mu n : ℝ} {k : Kep ℝ} (ha : 0 < k.a) (h1 : k.e = 1) (hn0 : 0 < n)
    (hn : 2 * n ^ 2 * k.a ^ 3 = mu) (E : ℝ) : CodeState gh g deg (fin mu) k E (parabolaState (k.inRad deg) n E) := by
  have he := eccentricToTrueSc_par E
  rw [← h1] at he
  obtain ⟨hc, hs⟩ := par_true_cos_sin E
  set nu := turn (2 * Real.arctan E) with hnu
  have hang : (Kep.inRad deg { k with nu := angleOut deg nu }).nu = nu := angleOf_angleOut deg nu
  obtain ⟨h2, h3⟩ := state_par (Kep.inRad deg { k with nu := angleOut deg nu }) mu n E ha h1 hn0 hn (by rw [hang]; exact hc) (by rw [hang]; exact hs)
  have hmu : 0 < mu := by rw [← hn]; positivity
  have h4 := codeState_of gh g deg he ⟨hmu, ha, by show 0 ≤ k.e; linarith, h3⟩
  rw [h2] at h4
  exact h4

theorem parabolaState_inj {k : Kep ℝ} {n E E' : ℝ} (ha : 0 < k.a) (h : parabolaState k n E = parabolaState k n E') : E = E' := by
  obtain ⟨-, h2⟩ := planeState_inj h
  exact mul_left_cancel₀ (by positivity : 2 * k.a ≠ 0) h2

/-! ## Propagation -/

theorem cart_fx_inj {c c' : Cart ℝ} (h : c.fx = c'.fx) : c = c' := by
  obtain ⟨x, y, z, u, v, w⟩ := c
  obtain ⟨x', y', z', u', v', w'⟩ := c'
  simp only [Cart.fx, Cart.mk.injEq, FX.fin.injEq] at h
  simpa using h

/-- the mean anomaly `propagate` computes on any orbit with positive `a`: the sum, reduced to one turn -/
theorem propagated_open (deg : Bool) (G M0 m a M dt : ℝ) (ha : 0 < a) (hmu : 0 < G * (M0 + m)) :
    ∃ M', propagatedMean deg (fin G) (fin M0) (fin m) (fin a) (fin M) (fin dt) = fin M' ∧
      angleOf deg M' = turn (angleOf deg M + √(G * (M0 + m) / a ^ 3) * dt) := by
  obtain ⟨n, hn1, hn2, hn3⟩ := meanMotion_fin deg G M0 m a ha hmu
  obtain ⟨M', hM', ⟨h1, h2⟩, z, hz⟩ := propagatedMean_fin deg G M0 m a M dt n hn1
  have hn : angleOf deg n = √(G * (M0 + m) / a ^ 3) := by
    rw [eq_comm, Real.sqrt_eq_iff_mul_self_eq (by positivity) hn2.le, ← hn3]
    field_simp
  refine ⟨M', hM', ?_⟩
  rw [← hn, ← turn_of_mem h1 h2, hz, sub_eq_add_neg, ← neg_mul, ← Int.cast_neg, turn_add_int]

theorem turn_floor (x : ℝ) : turn x = x - ⌊x / (2 * Real.pi)⌋ * (2 * Real.pi) := by rw [← floor_turn x]; ring

/-- C77: there is one curve of states through the object, defined for all times, that satisfies the two-body equation of motion and on which
`mean anomaly = M + √(mu/a³) t` (solved exactly by `E`), `eccentric_to_true` and `kep_to_cart` stay.  The mean anomaly `propagate(dt)` computes
leads to the point of that curve at `dt` less `⌊(M + √(mu/a³) dt)/2 pi⌋` times `2 pi √(a³/mu)`, hence to the right one exactly if the mean anomaly at
the end lies in the first turn. -/
theorem c77_newton (gh g : Nat → FX) (deg : Bool) (G M0 m M : ℝ) (k : Kep ℝ) (ha : 0 < k.a) (h1 : 1 < k.e) (hmu : 0 < G * (M0 + m)) :
    ∃ c : ℝ → Cart ℝ, ObeysNewton (G * (M0 + m)) c ∧ Function.Injective c ∧
      (∀ t E, k.e * Real.sinh E - E = angleOf deg M + √(G * (M0 + m) / k.a ^ 3) * t →
        CodeState gh g deg (gravParam (fin G) (fin M0) (fin m)) k E (c t)) ∧
      ∀ dt, ∃ M', propagatedMean deg (fin G) (fin M0) (fin m) (fin k.a) (fin M) (fin dt) = fin M' ∧
        ∀ E, k.e * Real.sinh E - E = angleOf deg M' →
          CodeState gh g deg (gravParam (fin G) (fin M0) (fin m)) k E
            (c (dt - ⌊(angleOf deg M + √(G * (M0 + m) / k.a ^ 3) * dt) / (2 * Real.pi)⌋ * (2 * Real.pi / √(G * (M0 + m) / k.a ^ 3)))) ∧
          (CodeState gh g deg (gravParam (fin G) (fin M0) (fin m)) k E (c dt) ↔
            0 ≤ angleOf deg M + √(G * (M0 + m) / k.a ^ 3) * dt ∧ angleOf deg M + √(G * (M0 + m) / k.a ^ 3) * dt < 2 * Real.pi) := by
  have hpos : 0 < G * (M0 + m) / k.a ^ 3 := by positivity
  have hn0 : 0 < √(G * (M0 + m) / k.a ^ 3) := Real.sqrt_pos.mpr hpos
  have hn : √(G * (M0 + m) / k.a ^ 3) ^ 2 * k.a ^ 3 = G * (M0 + m) := by rw [Real.sq_sqrt hpos.le]; field_simp
  set n := √(G * (M0 + m) / k.a ^ 3) with hnd
  have hg : gravParam (fin G) (fin M0) (fin m) = fin (G * (M0 + m)) := by rw [gravParam, add_fin, mul_fin]
  have hinj : Function.Injective fun s => hyperbolaState (k.inRad deg) n (hypInv h1 (angleOf deg M + n * s)) := by
    intro s t hst
    have h2 := (hypInv h1).injective (hyperbolaState_inj (k := k.inRad deg) ha h1 hst)
    exact mul_left_cancel₀ hn0.ne' (by linarith)
  have hcode : ∀ t E, k.e * Real.sinh E - E = angleOf deg M + n * t →
      CodeState gh g deg (gravParam (fin G) (fin M0) (fin m)) k E (hyperbolaState (k.inRad deg) n (hypInv h1 (angleOf deg M + n * t))) := by
    intro t E hE
    rw [hg, ← hE, ← meanOf_hyp h1, hypInv_meanOf]
    exact codeState_hyp gh g deg ha h1 hn0 hn E
  refine ⟨fun s => hyperbolaState (k.inRad deg) n (hypInv h1 (angleOf deg M + n * s)), hyperbola_newton (k.inRad deg) _ n ha h1 hn _, hinj,
    hcode, fun dt => ?_⟩
  obtain ⟨M', hM', hM2⟩ := propagated_open deg G M0 m k.a M dt ha hmu
  rw [← hnd] at hM2
  refine ⟨M', hM', fun E hE => ?_⟩
  have h3 := hcode (dt - ⌊(angleOf deg M + n * dt) / (2 * Real.pi)⌋ * (2 * Real.pi / n)) E (by
    rw [hE, hM2, turn_floor]; field_simp; ring)
  refine ⟨h3, fun h => ?_, fun h => ?_⟩
  · have h4 := hinj (cart_fx_inj (h.unique h3))
    have h5 : (⌊(angleOf deg M + n * dt) / (2 * Real.pi)⌋ : ℝ) = 0 := by
      have : (⌊(angleOf deg M + n * dt) / (2 * Real.pi)⌋ : ℝ) * (2 * Real.pi / n) = 0 := by linarith
      exact (mul_eq_zero.mp this).resolve_right (by have := Real.pi_pos; positivity)
    have h6 := turn_mem (angleOf deg M + n * dt)
    rw [turn_floor, h5, zero_mul, sub_zero] at h6
    exact h6
  · exact hcode dt E (by rw [hE, hM2, turn_of_mem h.1 h.2])

/-- C77, the hypothesis on `E` is met: each mean anomaly has exactly one `E`. -/
theorem c77_defined (e M : ℝ) (h1 : 1 < e) : ∃! E, e * Real.sinh E - E = M :=
  ⟨hypInv h1 M, by show _ - _ = _; rw [← meanOf_hyp h1, meanOf_hypInv], fun E hE => by rw [← hE, ← meanOf_hyp h1, hypInv_meanOf]⟩

/-- C78: on a parabola with periapsis distance `a` there is one curve of states, defined for all times, that satisfies the two-body equation of
motion and on which `mean anomaly = M + √(mu/(2 a³)) t` (solved exactly by `E`), `eccentric_to_true` and `kep_to_cart` stay.  Missing: `propagate`
uses the rate `√(mu/a³)` instead, see `c78_false`. -/
theorem c78_partial (gh g : Nat → FX) (deg : Bool) (G M0 m M : ℝ) (k : Kep ℝ) (ha : 0 < k.a) (h1 : k.e = 1) (hmu : 0 < G * (M0 + m)) :
    ∃ c : ℝ → Cart ℝ, ObeysNewton (G * (M0 + m)) c ∧ Function.Injective c ∧
      ∀ t E, E + E ^ 3 / 3 = angleOf deg M + √(G * (M0 + m) / (2 * k.a ^ 3)) * t →
        CodeState gh g deg (gravParam (fin G) (fin M0) (fin m)) k E (c t) := by
  have hpos : 0 < G * (M0 + m) / (2 * k.a ^ 3) := by positivity
  have hn0 : 0 < √(G * (M0 + m) / (2 * k.a ^ 3)) := Real.sqrt_pos.mpr hpos
  have hn : 2 * √(G * (M0 + m) / (2 * k.a ^ 3)) ^ 2 * k.a ^ 3 = G * (M0 + m) := by rw [Real.sq_sqrt hpos.le]; field_simp
  set n := √(G * (M0 + m) / (2 * k.a ^ 3)) with hnd
  have hg : gravParam (fin G) (fin M0) (fin m) = fin (G * (M0 + m)) := by rw [gravParam, add_fin, mul_fin]
  refine ⟨fun s => parabolaState (k.inRad deg) n (parInv (angleOf deg M + n * s)), parabola_newton (k.inRad deg) _ n ha hn _, ?_, ?_⟩
  · intro s t hst
    have h2 := parInv.injective (parabolaState_inj (k := k.inRad deg) ha hst)
    exact mul_left_cancel₀ hn0.ne' (by linarith)
  · intro t E hE
    rw [hg]
    show CodeState _ _ _ _ _ _ (parabolaState _ n (parInv (angleOf deg M + n * t)))
    rw [← hE, parInv_barker]
    exact codeState_par gh g deg ha h1 hn0 hn E

/-- C78 is false as stated: on every parabola `propagate` moves the object `√2` times too fast.  The mean anomaly `propagate(dt)` computes leads to
`c (√2 dt)`, as long as it stays in the first turn, and not to `c dt` unless `dt = 0`. -/
theorem c78_false (gh g : Nat → FX) (deg : Bool) (G M0 m M : ℝ) (k : Kep ℝ) (ha : 0 < k.a) (h1 : k.e = 1) (hmu : 0 < G * (M0 + m)) :
    ∃ c : ℝ → Cart ℝ, ObeysNewton (G * (M0 + m)) c ∧
      (∀ E, E + E ^ 3 / 3 = angleOf deg M → CodeState gh g deg (gravParam (fin G) (fin M0) (fin m)) k E (c 0)) ∧
      ∀ dt, 0 ≤ angleOf deg M + √(G * (M0 + m) / k.a ^ 3) * dt → angleOf deg M + √(G * (M0 + m) / k.a ^ 3) * dt < 2 * Real.pi →
        ∃ M', propagatedMean deg (fin G) (fin M0) (fin m) (fin k.a) (fin M) (fin dt) = fin M' ∧
          ∀ E, E + E ^ 3 / 3 = angleOf deg M' → CodeState gh g deg (gravParam (fin G) (fin M0) (fin m)) k E (c (√2 * dt)) ∧
            (dt ≠ 0 → ¬ CodeState gh g deg (gravParam (fin G) (fin M0) (fin m)) k E (c dt)) := by
  obtain ⟨c, hN, hinj, hc⟩ := c78_partial gh g deg G M0 m M k ha h1 hmu
  refine ⟨c, hN, fun E hE => hc 0 E (by rw [hE, mul_zero, add_zero]), fun dt h0 h2 => ?_⟩
  obtain ⟨M', hM', hM2⟩ := propagated_open deg G M0 m k.a M dt ha hmu
  rw [turn_of_mem h0 h2] at hM2
  refine ⟨M', hM', fun E hE => ?_⟩
  have hr : √(G * (M0 + m) / k.a ^ 3) = √(G * (M0 + m) / (2 * k.a ^ 3)) * √2 := by
    rw [← Real.sqrt_mul (by positivity)]
    congr 1
    field_simp
  have h3 := hc (√2 * dt) E (by rw [hE, hM2, hr]; ring)
  refine ⟨h3, fun hd h4 => hd ?_⟩
  have h5 := hinj (cart_fx_inj (h4.unique h3))
  have h6 : (1 : ℝ) < √2 := by
    rw [Real.lt_sqrt (by norm_num)]; norm_num
  have h7 : (√2 - 1) * dt = 0 := by linarith
  exact (mul_eq_zero.mp h7).resolve_left (by linarith)

/-- C77, a concrete case: `a = 1`, `e = 2`, `mu = 1`, starting at periapsis; after one time unit the propagated state is on the solution of the
equation of motion, after seven it is not. -/
example (gh g : Nat → FX) : ∃ c : ℝ → Cart ℝ, ObeysNewton 1 c ∧
    (∃ M' E, propagatedMean false (fin 1) (fin 1) (fin 0) (fin 1) (fin 0) (fin 1) = fin M' ∧ 2 * Real.sinh E - E = M' ∧
      CodeState gh g false (gravParam (fin 1) (fin 1) (fin 0)) ⟨1, 2, 0, 0, 0, 0⟩ E (c 1)) ∧
    ∃ M' E, propagatedMean false (fin 1) (fin 1) (fin 0) (fin 1) (fin 0) (fin 7) = fin M' ∧ 2 * Real.sinh E - E = M' ∧
      ¬ CodeState gh g false (gravParam (fin 1) (fin 1) (fin 0)) ⟨1, 2, 0, 0, 0, 0⟩ E (c 7) := by
  obtain ⟨c, h1, -, -, h2⟩ := c77_newton gh g false 1 1 0 0 ⟨1, 2, 0, 0, 0, 0⟩ one_pos (by norm_num) (by norm_num)
  norm_num [angleOf] at h1 h2
  have hpi := Real.pi_gt_three
  have hpi2 := Real.pi_lt_four
  have hpi3 := Real.pi_lt_d2
  refine ⟨c, h1, ?_, ?_⟩
  · obtain ⟨M', a1, a2⟩ := h2 1
    obtain ⟨E, hE, -⟩ := c77_defined 2 M' (by norm_num)
    exact ⟨M', E, a1, hE, (a2 E hE).2.mpr ⟨by norm_num, by linarith⟩⟩
  · obtain ⟨M', a1, a2⟩ := h2 7
    obtain ⟨E, hE, -⟩ := c77_defined 2 M' (by norm_num)
    refine ⟨M', E, a1, hE, fun h => ?_⟩
    have := ((a2 E hE).2.mp h).2
    linarith

/-- C78, the equation for `E` has exactly one solution -/
theorem c78_defined (M : ℝ) : ∃! E : ℝ, E + E ^ 3 / 3 = M := ⟨parInv M, barker_parInv M, fun E hE => by rw [← hE, parInv_barker]⟩

/-- C78, a concrete case: periapsis distance 1, `mu = 1`, starting at periapsis, one time unit -/
example : (0 : ℝ) ≤ angleOf false 0 + √(1 * (1 + 0) / 1 ^ 3) * 1 ∧ angleOf false 0 + √(1 * (1 + 0) / 1 ^ 3) * 1 < 2 * Real.pi := by
  have hpi := Real.pi_gt_three
  constructor <;> norm_num [angleOf]
  linarith

end Pyorb
