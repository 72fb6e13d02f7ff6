import Verif.PropsDegrees
import Verif.PropsEquiCart
import Verif.PropsFormula
import Verif.OrbitNum
import Mathlib.Analysis.SpecialFunctions.Trigonometric.Deriv
import Mathlib.Analysis.Calculus.Deriv.Inverse
import Mathlib.Topology.Order.MonotoneContinuity
import Mathlib.Analysis.Calculus.Deriv.Prod

/-!
# C27: propagation along an ellipse solves the two-body equation of motion
-/

set_option linter.unusedSimpArgs false

namespace Pyorb
open FX

section Curve
variable (e : ℝ)

theorem meanOf_eli (h1 : e < 1) (E : ℝ) : meanOf e E = E - e * Real.sin E := by
  rw [meanOf, if_neg (not_lt.mpr h1.le), if_neg h1.ne]

theorem denom_pos {e : ℝ} (h0 : 0 ≤ e) (h1 : e < 1) (E : ℝ) : 0 < 1 - e * Real.cos E := by
  have := Real.cos_le_one E
  nlinarith

theorem meanOf_strictMono {e : ℝ} (h0 : 0 ≤ e) (h1 : e < 1) : StrictMono (meanOf e) := by
  intro x y h
  have := meanOf_gap h0 h1.ne h.le
  have hp : 0 < |1 - e| := abs_pos.mpr (by linarith)
  nlinarith [mul_pos hp (sub_pos.mpr h)]

/-- the eccentric anomaly as a function of the mean anomaly, on an ellipse -/
noncomputable def keplerInv {e : ℝ} (h0 : 0 ≤ e) (h1 : e < 1) : ℝ ≃o ℝ :=
  ((meanOf_strictMono h0 h1).orderIsoOfSurjective _ (meanOf_surj h0 h1.ne)).symm

theorem meanOf_keplerInv {e : ℝ} (h0 : 0 ≤ e) (h1 : e < 1) (M : ℝ) : meanOf e (keplerInv h0 h1 M) = M :=
  ((meanOf_strictMono h0 h1).orderIsoOfSurjective _ (meanOf_surj h0 h1.ne)).apply_symm_apply M

theorem keplerInv_meanOf {e : ℝ} (h0 : 0 ≤ e) (h1 : e < 1) (E : ℝ) : keplerInv h0 h1 (meanOf e E) = E :=
  ((meanOf_strictMono h0 h1).orderIsoOfSurjective _ (meanOf_surj h0 h1.ne)).symm_apply_apply E

theorem hasDerivAt_keplerInv {e : ℝ} (h0 : 0 ≤ e) (h1 : e < 1) (M : ℝ) :
    HasDerivAt (keplerInv h0 h1) (1 - e * Real.cos (keplerInv h0 h1 M))⁻¹ M := by
  have hd : HasDerivAt (meanOf e) (1 - e * Real.cos (keplerInv h0 h1 M)) (keplerInv h0 h1 M) := by
    have : meanOf e = fun E => E - e * Real.sin E := funext (meanOf_eli e h1)
    rw [this]
    exact (hasDerivAt_id _).sub ((Real.hasDerivAt_sin _).const_mul e)
  refine HasDerivAt.of_local_left_inverse ((keplerInv h0 h1).continuous.continuousAt) hd (denom_pos h0 h1 _).ne' ?_
  exact Filter.Eventually.of_forall fun M => meanOf_keplerInv h0 h1 M

end Curve

/-- The point of the ellipse `k` with eccentric anomaly `E` and its velocity, textbook formulas in the orbital plane
(`n`: mean motion), carried to space by the basis vectors `p`, `q` of the orbital plane. -/
noncomputable def ellipseState (k : Kep ℝ) (n E : ℝ) : Cart ℝ :=
  let X := k.a * (Real.cos E - k.e)
  let Y := k.a * √(1 - k.e ^ 2) * Real.sin E
  let U := -(k.a * n * Real.sin E) / (1 - k.e * Real.cos E)
  let W := k.a * n * √(1 - k.e ^ 2) * Real.cos E / (1 - k.e * Real.cos E)
  ⟨k.px * X + k.qx * Y, k.py * X + k.qy * Y, k.pz * X + k.qz * Y, k.px * U + k.qx * W, k.py * U + k.qy * W,
    k.pz * U + k.qz * W⟩

theorem ellipseState_turn (k : Kep ℝ) (n E : ℝ) (z : ℤ) : ellipseState k n (E + z * (2 * Real.pi)) = ellipseState k n E := by
  unfold ellipseState
  rw [Real.cos_add_int_mul_two_pi, Real.sin_add_int_mul_two_pi]

/-- distance from the centre -/
theorem ellipseState_rn (k : Kep ℝ) (n E : ℝ) (ha : 0 < k.a) (h0 : 0 ≤ k.e) (h1 : k.e < 1) :
    vlen (ellipseState k n E).r = k.a * (1 - k.e * Real.cos E) := by
  have hs : √(1 - k.e ^ 2) ^ 2 = 1 - k.e ^ 2 := Real.sq_sqrt (by nlinarith)
  rw [vlen_r]
  unfold Cart.rn ellipseState
  have h := k.plane_norm (k.a * (Real.cos E - k.e)) (k.a * √(1 - k.e ^ 2) * Real.sin E)
  simp only at h ⊢
  rw [h]
  have h2 : (k.a * (Real.cos E - k.e)) ^ 2 + (k.a * √(1 - k.e ^ 2) * Real.sin E) ^ 2
      = (k.a * (1 - k.e * Real.cos E)) ^ 2 := by
    have h3 : (k.a * √(1 - k.e ^ 2) * Real.sin E) ^ 2 = k.a ^ 2 * (1 - k.e ^ 2) * (1 - Real.cos E ^ 2) := by
      rw [mul_pow, mul_pow, hs, Real.sin_sq]
    rw [h3]; ring
  rw [h2]
  exact Real.sqrt_sq (mul_nonneg ha.le (denom_pos h0 h1 E).le)

theorem plane_deriv {X Y : ℝ → ℝ} {U W t : ℝ} (hX : HasDerivAt X U t) (hY : HasDerivAt Y W t) (p q : ℝ) :
    HasDerivAt (fun s => p * X s + q * Y s) (p * U + q * W) t := (hX.const_mul p).add (hY.const_mul q)

/-- the derivative of the position is the velocity, that of the velocity is the Newtonian attraction -/
theorem ellipse_newton (k : Kep ℝ) (mu n : ℝ) (ha : 0 < k.a) (h0 : 0 ≤ k.e) (h1 : k.e < 1) (hn : n ^ 2 * k.a ^ 3 = mu)
    (M t : ℝ) :
    let c : ℝ → Cart ℝ := fun s => ellipseState k n (keplerInv h0 h1 (M + n * s))
    HasDerivAt (fun s => (c s).r) (c t).v t ∧ HasDerivAt (fun s => (c s).v) (-(mu / vlen (c t).r ^ 3) • (c t).r) t := by
  intro c
  have hlin : HasDerivAt (fun s => M + n * s) n t := by simpa using ((hasDerivAt_id t).const_mul n).const_add M
  have hE : HasDerivAt (fun s => keplerInv h0 h1 (M + n * s)) ((1 - k.e * Real.cos (keplerInv h0 h1 (M + n * t)))⁻¹ * n) t :=
    (hasDerivAt_keplerInv h0 h1 (M + n * t)).comp t hlin
  have hrn := ellipseState_rn k n (keplerInv h0 h1 (M + n * t)) ha h0 h1
  have hden := denom_pos h0 h1 (keplerInv h0 h1 (M + n * t))
  set E := fun s => keplerInv h0 h1 (M + n * s) with hEd
  have hEt : keplerInv h0 h1 (M + n * t) = E t := rfl
  rw [hEt] at hE hrn hden
  have hcos : HasDerivAt (fun s => Real.cos (E s)) (-Real.sin (E t) * ((1 - k.e * Real.cos (E t))⁻¹ * n)) t := hE.cos
  have hsin : HasDerivAt (fun s => Real.sin (E s)) (Real.cos (E t) * ((1 - k.e * Real.cos (E t))⁻¹ * n)) t := hE.sin
  have hD : HasDerivAt (fun s => 1 - k.e * Real.cos (E s))
      (-(k.e * (-Real.sin (E t) * ((1 - k.e * Real.cos (E t))⁻¹ * n)))) t := (hcos.const_mul k.e).const_sub 1
  have hX : HasDerivAt (fun s => k.a * (Real.cos (E s) - k.e)) (-(k.a * n * Real.sin (E t)) / (1 - k.e * Real.cos (E t))) t := by
    refine ((hcos.sub_const k.e).const_mul k.a).congr_deriv ?_
    rw [div_eq_mul_inv]; ring
  have hY : HasDerivAt (fun s => k.a * √(1 - k.e ^ 2) * Real.sin (E s))
      (k.a * n * √(1 - k.e ^ 2) * Real.cos (E t) / (1 - k.e * Real.cos (E t))) t := by
    refine (hsin.const_mul (k.a * √(1 - k.e ^ 2))).congr_deriv ?_
    rw [div_eq_mul_inv]; ring
  have hcs : Real.sin (E t) ^ 2 = 1 - Real.cos (E t) ^ 2 := Real.sin_sq _
  have hU : HasDerivAt (fun s => -(k.a * n * Real.sin (E s)) / (1 - k.e * Real.cos (E s)))
      (-(mu / (k.a * (1 - k.e * Real.cos (E t))) ^ 3) * (k.a * (Real.cos (E t) - k.e))) t := by
    have hN : HasDerivAt (fun s => -(k.a * n * Real.sin (E s)))
        (-(k.a * n * (Real.cos (E t) * ((1 - k.e * Real.cos (E t))⁻¹ * n)))) t := (hsin.const_mul (k.a * n)).neg
    refine (hN.div hD hden.ne').congr_deriv ?_
    rw [← hn]
    have hdne := hden.ne'
    field_simp
    linear_combination (n ^ 2 * k.e * ((1 - k.e * Real.cos (E t)) ^ 3)⁻¹) * hcs
  have hW : HasDerivAt (fun s => k.a * n * √(1 - k.e ^ 2) * Real.cos (E s) / (1 - k.e * Real.cos (E s)))
      (-(mu / (k.a * (1 - k.e * Real.cos (E t))) ^ 3) * (k.a * √(1 - k.e ^ 2) * Real.sin (E t))) t := by
    refine ((hcos.const_mul (k.a * n * √(1 - k.e ^ 2))).div hD hden.ne').congr_deriv ?_
    rw [← hn]
    field_simp
    ring_nf
  constructor
  · rw [hasDerivAt_pi]
    intro j
    fin_cases j
    · exact plane_deriv hX hY _ _
    · exact plane_deriv hX hY _ _
    · exact plane_deriv hX hY _ _
  · rw [hasDerivAt_pi]
    have hr : vlen (c t).r = k.a * (1 - k.e * Real.cos (E t)) := hrn
    rw [hr]
    have comb : ∀ p q : ℝ, HasDerivAt (fun s => p * (-(k.a * n * Real.sin (E s)) / (1 - k.e * Real.cos (E s)))
        + q * (k.a * n * √(1 - k.e ^ 2) * Real.cos (E s) / (1 - k.e * Real.cos (E s))))
        (-(mu / (k.a * (1 - k.e * Real.cos (E t))) ^ 3) * (p * (k.a * (Real.cos (E t) - k.e))
          + q * (k.a * √(1 - k.e ^ 2) * Real.sin (E t)))) t := by
      intro p q
      refine (plane_deriv hU hW p q).congr_deriv ?_
      ring
    intro j
    fin_cases j
    · exact comb _ _
    · exact comb _ _
    · exact comb _ _

/-- cosine and sine of the true anomaly in terms of the eccentric anomaly -/
theorem trueOf_cos_sin {e E : ℝ} (h0 : 0 ≤ e) (h1 : e < 1) :
    Real.cos (trueOf e E) * (1 - e * Real.cos E) = Real.cos E - e ∧
    Real.sin (trueOf e E) * (1 - e * Real.cos E) = √(1 - e ^ 2) * Real.sin E := by
  by_cases hc : Real.cos (E / 2) = 0
  · rw [show trueOf e E = Real.pi from scaleHalf_pole hc, ← cos_turn E, ← sin_turn E, turn_of_pole hc, Real.cos_pi, Real.sin_pi]
    constructor <;> ring
  have hf := eliFac_pos h0 h1
  have hf2 := eliFac_sq h0 h1
  have hs : √(1 - e ^ 2) = (1 + e) * eliFac e := by
    rw [Real.sqrt_eq_iff_mul_self_eq (by nlinarith) (mul_nonneg (by linarith) hf.le)]
    have : (1 + e) * eliFac e * ((1 + e) * eliFac e) = (1 + e) ^ 2 * eliFac e ^ 2 := by ring
    rw [this, hf2]
    have : (1 + e) ≠ 0 := by linarith
    field_simp; ring
  have h2 : E = 2 * (E / 2) := by ring
  have hS := Real.sin_sq_add_cos_sq (E / 2)
  have hcE : Real.cos E = Real.cos (E / 2) ^ 2 - Real.sin (E / 2) ^ 2 := by
    conv_lhs => rw [h2, Real.cos_two_mul]
    linarith
  have hsE : Real.sin E = 2 * Real.sin (E / 2) * Real.cos (E / 2) := by
    conv_lhs => rw [h2, Real.sin_two_mul]
  have hD : 1 - e * Real.cos E = (1 + e) * (eliFac e ^ 2 * Real.cos (E / 2) ^ 2 + Real.sin (E / 2) ^ 2) := by
    have : (1 + e) ≠ 0 := by linarith
    rw [hf2, hcE, mul_add, ← mul_assoc, mul_div_cancel₀ _ this]
    linear_combination -hS
  have hDp : 0 < eliFac e ^ 2 * Real.cos (E / 2) ^ 2 + Real.sin (E / 2) ^ 2 := by
    have : 0 < eliFac e ^ 2 * Real.cos (E / 2) ^ 2 := by positivity
    have := sq_nonneg (Real.sin (E / 2))
    linarith
  set A := Real.arctan ((eliFac e)⁻¹ * Real.tan (E / 2)) with hA
  have hc2 : Real.cos A ^ 2 * (eliFac e ^ 2 * Real.cos (E / 2) ^ 2 + Real.sin (E / 2) ^ 2)
      = eliFac e ^ 2 * Real.cos (E / 2) ^ 2 := by
    rw [hA, Real.cos_sq_arctan, Real.tan_eq_sin_div_cos]
    field_simp
  have hsc : Real.sin A = (eliFac e)⁻¹ * Real.tan (E / 2) * Real.cos A := by
    have hcA : Real.cos A ≠ 0 := (Real.cos_arctan_pos _).ne'
    have := Real.tan_arctan ((eliFac e)⁻¹ * Real.tan (E / 2))
    rw [← hA, Real.tan_eq_sin_div_cos A, div_eq_iff hcA] at this
    exact this
  have hsA : Real.sin A * Real.cos A * (eliFac e ^ 2 * Real.cos (E / 2) ^ 2 + Real.sin (E / 2) ^ 2)
      = eliFac e * Real.sin (E / 2) * Real.cos (E / 2) := by
    rw [hsc]
    have : (eliFac e)⁻¹ * Real.tan (E / 2) * Real.cos A * Real.cos A
        * (eliFac e ^ 2 * Real.cos (E / 2) ^ 2 + Real.sin (E / 2) ^ 2)
        = (eliFac e)⁻¹ * Real.tan (E / 2) * (eliFac e ^ 2 * Real.cos (E / 2) ^ 2) := by
      linear_combination ((eliFac e)⁻¹ * Real.tan (E / 2)) * hc2
    rw [this, Real.tan_eq_sin_div_cos]
    field_simp
  unfold trueOf
  rw [scaleHalf_of_ne hc, cos_turn, sin_turn, Real.cos_two_mul, Real.sin_two_mul, hD, ← hA]
  constructor
  · have h1e : (1 + e) ≠ 0 := by linarith
    have hf3 : (1 + e) * eliFac e ^ 2 = 1 - e := by rw [hf2]; field_simp
    rw [hcE]
    linear_combination 2 * (1 + e) * hc2 + Real.cos (E / 2) ^ 2 * hf3 - e * hS
  · rw [hs, hsE]
    linear_combination 2 * (1 + e) * hsA

/-- the state with true anomaly `trueOf e E` is the point with eccentric anomaly `E` -/
theorem state_trueOf (k : Kep ℝ) (mu n E : ℝ) (ha : 0 < k.a) (h0 : 0 ≤ k.e) (h1 : k.e < 1) (hn0 : 0 < n)
    (hn : n ^ 2 * k.a ^ 3 = mu) (hnu : Real.cos k.nu = Real.cos (trueOf k.e E))
    (hnu' : Real.sin k.nu = Real.sin (trueOf k.e E)) :
    k.state mu = ellipseState k n E ∧ 0 < 1 + k.e * Real.cos k.nu := by
  obtain ⟨hcos, hsin⟩ := trueOf_cos_sin h0 h1
  have hD := denom_pos h0 h1 E
  have hDne := hD.ne'
  rw [← hnu, eq_comm, ← div_eq_iff hDne, eq_comm] at hcos
  rw [← hnu', eq_comm, ← div_eq_iff hDne, eq_comm] at hsin
  have he2 : 0 < 1 - k.e ^ 2 := by nlinarith
  have hs : √(1 - k.e ^ 2) ^ 2 = 1 - k.e ^ 2 := Real.sq_sqrt he2.le
  have hspos : 0 < √(1 - k.e ^ 2) := Real.sqrt_pos.mpr he2
  have hmu : 0 < mu := by rw [← hn]; positivity
  have hslr : k.slr = k.a * (1 - k.e ^ 2) := by rw [Kep.slr, if_neg h1.ne, abs_of_pos he2]
  have hplus : 1 + k.e * Real.cos k.nu = (1 - k.e ^ 2) / (1 - k.e * Real.cos E) := by
    rw [hcos]; field_simp; ring
  have hrad : k.rad = k.a * (1 - k.e * Real.cos E) := by
    rw [Kep.rad, hslr, hplus]; field_simp
  have hrx : k.rx = k.a * (Real.cos E - k.e) := by rw [Kep.rx, hrad, hcos]; field_simp
  have hry : k.ry = k.a * √(1 - k.e ^ 2) * Real.sin E := by rw [Kep.ry, hrad, hsin]; field_simp
  have hhm : k.hm mu = k.a ^ 2 * n * √(1 - k.e ^ 2) := by
    rw [Kep.hm, hslr, Real.sqrt_eq_iff_mul_self_eq (by positivity) (by positivity)]
    rw [← hn]
    linear_combination -(k.a ^ 4 * n ^ 2) * hs
  have hmh : mu / k.hm mu = k.a * n / √(1 - k.e ^ 2) := by
    rw [hhm, ← hn]; field_simp
  have hux : k.ux mu = -(k.a * n * Real.sin E) / (1 - k.e * Real.cos E) := by
    rw [Kep.ux, hmh, hsin]; field_simp
  have huy : k.uy mu = k.a * n * √(1 - k.e ^ 2) * Real.cos E / (1 - k.e * Real.cos E) := by
    have h3 : k.e + Real.cos k.nu = (1 - k.e ^ 2) * Real.cos E / (1 - k.e * Real.cos E) := by
      rw [hcos]; field_simp; ring
    rw [Kep.uy, hmh, h3]; field_simp; rw [hs]
  refine ⟨?_, by rw [hplus]; exact div_pos he2 hD⟩
  unfold Kep.state ellipseState
  simp only [hrx, hry, hux, huy]

/-- the mean motion computed by the code, as an angle in radians -/
theorem meanMotion_fin (deg : Bool) (G M0 m a : ℝ) (ha : 0 < a) (hmu : 0 < G * (M0 + m)) :
    ∃ n, meanMotionOf deg (fin G) (fin M0) (fin m) (fin a) = fin n ∧ 0 < angleOf deg n ∧
      angleOf deg n ^ 2 * a ^ 3 = G * (M0 + m) := by
  have hs : 0 < √(a ^ 3 / (G * (M0 + m))) := Real.sqrt_pos.mpr (by positivity)
  have hsq : √(a ^ 3 / (G * (M0 + m))) ^ 2 = a ^ 3 / (G * (M0 + m)) := Real.sq_sqrt (by positivity)
  have hP : periodOf (fin G) (fin M0) (fin m) (fin a) = fin (2 * Real.pi * √(a ^ 3 / (G * (M0 + m)))) := by
    rw [periodOf, gravParam, add_fin, mul_fin, orbital_period_fin ha hmu]
  have hpi := Real.pi_pos
  have hPne : 2 * Real.pi * √(a ^ 3 / (G * (M0 + m))) ≠ 0 := by positivity
  have key : ∀ n, angleOf deg n = 1 / √(a ^ 3 / (G * (M0 + m))) → 0 < angleOf deg n ∧
      angleOf deg n ^ 2 * a ^ 3 = G * (M0 + m) := by
    intro n h
    rw [h]
    refine ⟨by positivity, ?_⟩
    rw [div_pow, hsq]
    field_simp
  cases deg
  · refine ⟨Real.pi * 2 / (2 * Real.pi * √(a ^ 3 / (G * (M0 + m)))), ?_, key _ ?_⟩
    · simp only [meanMotionOf, motionNorm, hP, Bool.false_eq_true, if_false, pi_fin, ofNat_fin, mul_fin, div_fin hPne]
    · simp only [angleOf, Bool.false_eq_true, if_false]; field_simp
  · refine ⟨360 / (2 * Real.pi * √(a ^ 3 / (G * (M0 + m)))), ?_, key _ ?_⟩
    · simp only [meanMotionOf, motionNorm, hP, if_true, pi_fin, ofNat_fin, mul_fin, div_fin hPne]
    · simp only [angleOf, if_true]; field_simp; norm_num

/-- the propagated mean anomaly computed by the code, up to whole turns -/
theorem propagatedMean_fin (deg : Bool) (G M0 m a M dt n : ℝ)
    (hn : meanMotionOf deg (fin G) (fin M0) (fin m) (fin a) = fin n) :
    ∃ M', propagatedMean deg (fin G) (fin M0) (fin m) (fin a) (fin M) (fin dt) = fin M' ∧
      (0 ≤ angleOf deg M' ∧ angleOf deg M' < 2 * Real.pi) ∧
      ∃ z : ℤ, angleOf deg M' = angleOf deg M + angleOf deg n * dt - z * (2 * Real.pi) := by
  have hpi := Real.pi_pos
  cases deg
  · refine ⟨_, by rw [propagatedMean, hn, mul_fin, add_fin, wrapNorm]; simp only [Bool.false_eq_true, if_false, pi_fin,
      ofNat_fin, mul_fin]; rw [mod_fin Real.two_pi_pos.ne', floor_turn], ?_, ?_⟩
    · simpa [angleOf] using turn_mem (M + n * dt)
    · obtain ⟨z, hz⟩ := turn_eq (M + n * dt)
      exact ⟨z, by simpa [angleOf] using hz⟩
  · have h360 : (360 : ℝ) ≠ 0 := by norm_num
    refine ⟨_, by rw [propagatedMean, hn, mul_fin, add_fin, wrapNorm]; simp only [if_true, ofNat_fin]; rw [mod_fin h360], ?_, ?_⟩
    · have h1 := Int.floor_le ((M + n * dt) / 360)
      have h2 := Int.lt_floor_add_one ((M + n * dt) / 360)
      rw [le_div_iff₀ (by norm_num)] at h1
      rw [div_lt_iff₀ (by norm_num)] at h2
      simp only [angleOf, if_true]
      constructor
      · apply mul_nonneg <;> [linarith; positivity]
      · have : (M + n * dt - 360 * (⌊(M + n * dt) / 360⌋ : ℝ)) * (Real.pi / 180) < 360 * (Real.pi / 180) :=
          mul_lt_mul_of_pos_right (by linarith) (by positivity)
        linarith
    · refine ⟨⌊(M + n * dt) / 360⌋, ?_⟩
      simp only [angleOf, if_true]; ring

/-- `eccentric_to_true` returns a number for every eccentric anomaly of an ellipse -/
theorem true_defined (g : Nat → FX) (deg : Bool) (E : ℝ) {e : ℝ} (h0 : 0 ≤ e) (h1 : e < 1) :
    ∃ nu, eccentric_to_true g (fl (angleOut deg E)) (fl e) deg = .ok (fl nu) := by
  cases deg
  · exact ⟨_, by rw [show angleOut false E = E from rfl, eccentric_to_true_fl, eccentricToTrueSc_eli h0 h1]; rfl⟩
  · rw [c21_eccentric_to_true]
    have : Arg.map radians (fl (angleOut true E)) = fl E := by simp [fl, Arg.map, angleOut, mul_assoc]
    rw [this, eccentric_to_true_fl, eccentricToTrueSc_eli h0 h1]
    exact ⟨scaleHalf (eliFac e)⁻¹ E * (180 / Real.pi), by simp [Except.map, Arg.map, fl]⟩

/-- C27: there is one curve `c` of states, defined for all times, that satisfies `r' = v` and `v' = -mu r/|r|³` everywhere,
and the code's propagation stays on it: for every time step `dt`, take the mean anomaly computed by `propagate`, an exact
solution `E` of Kepler's equation for it, the true anomaly that `eccentric_to_true` returns for `E`, and convert with
`kep_to_cart`; the result is `c dt`. -/
theorem c27_newton (gh g : Nat → FX) (deg : Bool) (G M0 m M : ℝ) (k : Kep ℝ) (ha : 0 < k.a) (h0 : 0 ≤ k.e) (h1 : k.e < 1)
    (hmu : 0 < G * (M0 + m)) :
    ∃ c : ℝ → Cart ℝ,
      (∀ t, HasDerivAt (fun s => (c s).r) (c t).v t) ∧
      (∀ t, HasDerivAt (fun s => (c s).v) (-(G * (M0 + m) / vlen (c t).r ^ 3) • (c t).r) t) ∧
      ∀ dt, ∃ M', propagatedMean deg (fin G) (fin M0) (fin m) (fin k.a) (fin M) (fin dt) = fin M' ∧
        ∀ E, E - k.e * Real.sin E = angleOf deg M' →
          ∃ nu, eccentric_to_true g (fl (angleOut deg E)) (fl k.e) deg = .ok (fl nu) ∧
          (kep_to_cart gh (.sc (gravParam (fin G) (fin M0) (fin m))) deg (.vec .f64 (Kep.fx { k with nu := nu }))).1
            = .ok (.vec .f64 (c dt).fx) := by
  obtain ⟨n, hn1, hn2, hn3⟩ := meanMotion_fin deg G M0 m k.a ha hmu
  refine ⟨fun s => ellipseState (k.inRad deg) (angleOf deg n) (keplerInv h0 h1 (angleOf deg M + angleOf deg n * s)),
    fun t => (ellipse_newton (k.inRad deg) _ _ ha h0 h1 hn3 _ t).1,
    fun t => (ellipse_newton (k.inRad deg) _ _ ha h0 h1 hn3 _ t).2, fun dt => ?_⟩
  obtain ⟨M', hM', -, z, hz⟩ := propagatedMean_fin deg G M0 m k.a M dt n hn1
  refine ⟨M', hM', fun E hE => ?_⟩
  obtain ⟨nu, hnu⟩ := true_defined g deg E h0 h1
  refine ⟨nu, hnu, ?_⟩
  have hcol : toDeg deg (.sc .f64 (eccentricToTrueSc (fin E) (fin k.e))) = fl nu := by
    have h2 : toRad deg (fl (angleOut deg E)) = fl E := by
      cases deg
      · rfl
      · simp [toRad, fl, Arg.map, angleOut, mul_assoc]
    have h3 : eccentric_to_true g (fl (angleOut deg E)) (fl k.e) deg
        = .ok (toDeg deg (.sc .f64 (eccentricToTrueSc (fin E) (fin k.e)))) := by
      unfold eccentric_to_true
      rw [h2]; rfl
    rw [h3] at hnu
    injection hnu
  rw [eccentricToTrueSc_eli h0 h1] at hcol
  have hnu2 : angleOf deg nu = trueOf k.e E := by
    cases deg
    · simp only [toDeg, Bool.false_eq_true, if_false, fl] at hcol
      injection hcol with _ h
      injection h with h
      simp only [angleOf, Bool.false_eq_true, if_false]
      exact h.symm
    · simp only [toDeg, if_true, Arg.map, fl, degrees_fin] at hcol
      injection hcol with _ h
      injection h with h
      simp only [angleOf, if_true]
      rw [← h, mul_assoc]
      have := Real.pi_pos
      have h5 : 180 / Real.pi * (Real.pi / 180) = 1 := by field_simp
      rw [h5, mul_one]; rfl
  -- E differs from the eccentric anomaly of the curve by whole turns
  have hEz : keplerInv h0 h1 (angleOf deg M + angleOf deg n * dt) = E + z * (2 * Real.pi) := by
    rw [← keplerInv_meanOf h0 h1 (E + z * (2 * Real.pi))]
    congr 1
    rw [meanOf_eli _ h1, Real.sin_add_int_mul_two_pi]
    linarith
  obtain ⟨hst, hb⟩ := state_trueOf (Kep.inRad deg { k with nu := nu }) (G * (M0 + m)) (angleOf deg n) E ha h0 h1 hn2 hn3
    (by simp only [Kep.inRad]; rw [hnu2]) (by simp only [Kep.inRad]; rw [hnu2])
  have hadm : (Kep.inRad deg { k with nu := nu }).Adm (G * (M0 + m)) := ⟨hmu, ha, h0, hb⟩
  show _ = Except.ok (Arg6.vec .f64 (ellipseState (Kep.inRad deg k) (angleOf deg n)
    (keplerInv h0 h1 (angleOf deg M + angleOf deg n * dt))).fx)
  rw [hEz, ellipseState_turn]
  rw [gravParam, add_fin, mul_fin]
  simp only [kep_to_cart, kepToCartMat, Mu.toList, List.length_singleton, List.replicate_one, List.zip_cons_cons,
    List.zip_nil_right, List.mapIdx_cons, List.mapIdx_nil, List.map_cons, List.map_nil, if_true, kepToCart_fst _ hadm]
  rw [hst]
  rfl

/-- C27, the hypothesis on `E` is met: each mean anomaly has exactly one `E`. -/
theorem c27_defined (deg : Bool) (e M' : ℝ) (h0 : 0 ≤ e) (h1 : e < 1) : ∃! E, E - e * Real.sin E = angleOf deg M' := by
  refine ⟨keplerInv h0 h1 (angleOf deg M'), ?_, fun E hE => ?_⟩
  · show _ - _ = _
    rw [← meanOf_eli e h1, meanOf_keplerInv]
  · rw [← hE, ← meanOf_eli e h1, keplerInv_meanOf]

/-- C27, a concrete case: `a = 1`, `e = 1/2`, `mu = 1`, quarter-turn eccentric anomaly `E = pi/2`. -/
example : ∃ E : ℝ, E - 1 / 2 * Real.sin E = angleOf false (Real.pi / 2 - 1 / 2) ∧
    (0 : ℝ) ≤ 1 / 2 ∧ (1 / 2 : ℝ) < 1 ∧ (0 : ℝ) < 1 * (1 + 0) := by
  refine ⟨Real.pi / 2, ?_, by norm_num, by norm_num, by norm_num⟩
  simp [angleOf]

end Pyorb
