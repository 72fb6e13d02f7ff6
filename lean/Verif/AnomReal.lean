import Mathlib.Algebra.Order.ToIntervalMod
import Mathlib.Analysis.SpecialFunctions.Trigonometric.Bounds
import Mathlib.Analysis.SpecialFunctions.Trigonometric.DerivHyp
import Mathlib.Analysis.SpecialFunctions.Trigonometric.ArctanDeriv
import Verif.FX
import Verif.KeplerArr

/-!
# The anomaly conversions over the reals

Evaluates the model of `true_to_eccentric`, `eccentric_to_true`, `eccentric_to_mean` on finite arguments.
-/

set_option linter.unusedSimpArgs false

namespace Pyorb
open FX

/-- the representative in [0, 2 pi) of an angle -/
noncomputable def turn (x : ℝ) : ℝ := toIcoMod Real.two_pi_pos 0 x

theorem turn_mem (x : ℝ) : 0 ≤ turn x ∧ turn x < 2 * Real.pi := by
  have := toIcoMod_mem_Ico Real.two_pi_pos 0 x
  simpa [turn] using this

theorem turn_eq (x : ℝ) : ∃ k : ℤ, turn x = x - k * (2 * Real.pi) := by
  refine ⟨toIcoDiv Real.two_pi_pos 0 x, ?_⟩
  rw [turn, toIcoMod, zsmul_eq_mul]

theorem turn_add_int (x : ℝ) (k : ℤ) : turn (x + k * (2 * Real.pi)) = turn x := by
  have := toIcoMod_add_zsmul Real.two_pi_pos 0 x k
  rwa [zsmul_eq_mul] at this

theorem turn_of_mem {x : ℝ} (h0 : 0 ≤ x) (h1 : x < 2 * Real.pi) : turn x = x := by
  unfold turn
  exact (toIcoMod_eq_self Real.two_pi_pos).mpr ⟨h0, by simpa using h1⟩

theorem turn_of_neg {x : ℝ} (h0 : x < 0) (h1 : -(2 * Real.pi) ≤ x) : turn x = x + 2 * Real.pi := by
  have := turn_add_int x 1
  rw [← this]
  push_cast
  rw [one_mul, turn_of_mem (by linarith) (by linarith)]

theorem floor_turn (x : ℝ) : x - 2 * Real.pi * (⌊x / (2 * Real.pi)⌋ : ℝ) = turn x := by
  have h := toIcoDiv_eq_floor Real.two_pi_pos 0 x
  unfold turn toIcoMod
  rw [h, zsmul_eq_mul, sub_zero]
  ring

/-- `np.mod(x + 2 pi, 2 pi)` -/
theorem wrap_fin (x : ℝ) : wrap (fin x) = fin (turn x) := by
  have hpi : (2 * Real.pi) ≠ 0 := Real.two_pi_pos.ne'
  rw [wrap, twoPi_fin, add_fin, mod_fin hpi, floor_turn]
  have := turn_add_int x 1
  push_cast at this
  rw [one_mul] at this
  rw [this]

theorem turn_idem (x : ℝ) : turn (turn x) = turn x := turn_of_mem (turn_mem x).1 (turn_mem x).2

theorem turn_congr {x y : ℝ} (k : ℤ) (h : x = y + k * (2 * Real.pi)) : turn x = turn y := by
  rw [h, turn_add_int]

theorem tan_half_turn (x : ℝ) : Real.tan (turn x / 2) = Real.tan (x / 2) := by
  obtain ⟨k, hk⟩ := turn_eq x
  rw [hk, show (x - k * (2 * Real.pi)) / 2 = x / 2 - k * Real.pi by ring]
  exact Real.tan_periodic.sub_int_mul_eq k

theorem cos_half_turn (x : ℝ) : Real.cos (turn x / 2) = 0 ↔ Real.cos (x / 2) = 0 := by
  obtain ⟨k, hk⟩ := turn_eq x
  rw [hk, show (x - k * (2 * Real.pi)) / 2 = x / 2 - k * Real.pi by ring, Real.cos_sub_int_mul_pi]
  simp [zpow_ne_zero k (show (-1 : ℝ) ≠ 0 by norm_num)]

theorem cos_turn (x : ℝ) : Real.cos (turn x) = Real.cos x := by
  obtain ⟨k, hk⟩ := turn_eq x
  rw [hk, Real.cos_sub_int_mul_two_pi]

theorem sin_turn (x : ℝ) : Real.sin (turn x) = Real.sin x := by
  obtain ⟨k, hk⟩ := turn_eq x
  rw [hk, Real.sin_sub_int_mul_two_pi]

/-- `2 arctan(tan(x/2))` is `x` up to whole turns -/
theorem turn_arctan_tan {x : ℝ} (h : Real.cos (x / 2) ≠ 0) : turn (2 * Real.arctan (Real.tan (x / 2))) = turn x := by
  have hy : ∃ k : ℤ, Real.arctan (Real.tan (x / 2)) = x / 2 + k * Real.pi := by
    set y := toIocMod Real.pi_pos (-(Real.pi / 2)) (x / 2) with hyd
    have hm := toIocMod_mem_Ioc Real.pi_pos (-(Real.pi / 2)) (x / 2)
    have hz : y = x / 2 - toIocDiv Real.pi_pos (-(Real.pi / 2)) (x / 2) * Real.pi := by
      rw [hyd, toIocMod, zsmul_eq_mul]
    have ht : Real.tan (x / 2) = Real.tan y := by
      rw [hz]; exact (Real.tan_periodic.sub_int_mul_eq _).symm
    have hne : y ≠ Real.pi / 2 := by
      intro he
      apply h
      have : x / 2 = Real.pi / 2 + toIocDiv Real.pi_pos (-(Real.pi / 2)) (x / 2) * Real.pi := by
        linarith [he, hz]
      rw [this, Real.cos_add_int_mul_pi]
      simp
    have hlt : y < Real.pi / 2 := lt_of_le_of_ne (by have := hm.2; simp only [← hyd] at this; linarith) hne
    refine ⟨-toIocDiv Real.pi_pos (-(Real.pi / 2)) (x / 2), ?_⟩
    rw [ht, Real.arctan_tan (by have := hm.1; simpa only [← hyd] using this) hlt, hz]
    push_cast; ring
  obtain ⟨k, hk⟩ := hy
  refine turn_congr k ?_
  rw [hk]; ring

/-! ## Evaluation of the branches -/

/-- shrinking factor of the half-angle tangent on an ellipse -/
noncomputable def eliFac (e : ℝ) : ℝ := Real.sqrt ((1 - e) / (1 + e))
/-- the same on a hyperbola -/
noncomputable def hypFac (e : ℝ) : ℝ := Real.sqrt ((e - 1) / (e + 1))

theorem eliFac_pos {e : ℝ} (h0 : 0 ≤ e) (h1 : e < 1) : 0 < eliFac e := Real.sqrt_pos.mpr (by apply div_pos <;> linarith)
theorem hypFac_pos {e : ℝ} (h1 : 1 < e) : 0 < hypFac e := Real.sqrt_pos.mpr (by apply div_pos <;> linarith)
theorem eliFac_sq {e : ℝ} (h0 : 0 ≤ e) (h1 : e < 1) : eliFac e ^ 2 = (1 - e) / (1 + e) :=
  Real.sq_sqrt (by apply div_nonneg <;> linarith)
theorem hypFac_sq {e : ℝ} (h1 : 1 < e) : hypFac e ^ 2 = (e - 1) / (e + 1) :=
  Real.sq_sqrt (by apply div_nonneg <;> linarith)
theorem eliFac_inv {e : ℝ} : Real.sqrt ((1 + e) / (1 - e)) = (eliFac e)⁻¹ := by
  rw [eliFac, ← Real.sqrt_inv, inv_div]
theorem hypFac_inv {e : ℝ} : Real.sqrt ((e + 1) / (e - 1)) = (hypFac e)⁻¹ := by
  rw [hypFac, ← Real.sqrt_inv, inv_div]

/-- the angle in `[0, 2 pi)` whose half-angle tangent is `f` times that of `x`; half a turn stays half a turn -/
noncomputable def scaleHalf (f x : ℝ) : ℝ :=
  if Real.cos (x / 2) = 0 then Real.pi else turn (2 * Real.arctan (f * Real.tan (x / 2)))

theorem tteEli_fin {nu e : ℝ} (h0 : 0 ≤ e) (h1 : e < 1) :
    wrap (tteEli (fin nu) (fin e)) = fin (scaleHalf (eliFac e) nu) := by
  have : (1 + e) ≠ 0 := by linarith
  have h2 : nu * (1 / 2) = nu / 2 := by ring
  have h3 : Real.sqrt ((1 - e) / (1 + e)) = eliFac e := rfl
  simp only [tteEli, one_fin, half_fin, ofNat_fin, sub_fin, add_fin, div_fin this, mul_fin, h2,
    sqrt_fin (show 0 ≤ (1 - e) / (1 + e) by apply div_nonneg <;> linarith), h3]
  by_cases hc : Real.cos (nu / 2) = 0
  · rw [tan_pole hc, mul_pinf (eliFac_pos h0 h1), arctan_pinf, mul_fin, wrap_fin, scaleHalf, if_pos hc,
      mul_div_cancel₀ _ two_ne_zero, turn_of_mem Real.pi_pos.le (by linarith [Real.pi_pos])]
  · rw [tan_fin hc, mul_fin, arctan_fin, mul_fin, wrap_fin, scaleHalf, if_neg hc]

theorem ettEli_fin {E e : ℝ} (h0 : 0 ≤ e) (h1 : e < 1) :
    wrap (ettEli (fin E) (fin e)) = fin (scaleHalf (eliFac e)⁻¹ E) := by
  have : (1 - e) ≠ 0 := by linarith
  have h2 : E * (1 / 2) = E / 2 := by ring
  simp only [ettEli, one_fin, half_fin, ofNat_fin, sub_fin, add_fin, div_fin this, mul_fin, h2,
    sqrt_fin (show 0 ≤ (1 + e) / (1 - e) by apply div_nonneg <;> linarith), eliFac_inv]
  by_cases hc : Real.cos (E / 2) = 0
  · rw [tan_pole hc, mul_pinf (inv_pos.mpr (eliFac_pos h0 h1)), arctan_pinf, mul_fin, wrap_fin, scaleHalf, if_pos hc,
      mul_div_cancel₀ _ two_ne_zero, turn_of_mem Real.pi_pos.le (by linarith [Real.pi_pos])]
  · rw [tan_fin hc, mul_fin, arctan_fin, mul_fin, wrap_fin, scaleHalf, if_neg hc]

theorem ttePar_fin {nu : ℝ} (hc : Real.cos (nu / 2) ≠ 0) : ttePar (fin nu) = fin (Real.tan (nu / 2)) := by
  have h2 : nu * (1 / 2) = nu / 2 := by ring
  simp only [ttePar, half_fin, mul_fin, h2, tan_fin hc]

theorem ettPar_fin (E : ℝ) : ettPar (fin E) = fin (2 * Real.arctan E) := by
  simp only [ettPar, ofNat_fin, arctan_fin, mul_fin]

theorem tteHyp_fin {nu e : ℝ} (h1 : 1 < e) (hc : Real.cos (nu / 2) ≠ 0) (hl : |hypFac e * Real.tan (nu / 2)| < 1) :
    tteHyp (fin nu) (fin e) = fin (2 * Real.artanh (hypFac e * Real.tan (nu / 2))) := by
  have : (e + 1) ≠ 0 := by linarith
  have h2 : nu * (1 / 2) = nu / 2 := by ring
  have h3 : Real.sqrt ((e - 1) / (e + 1)) = hypFac e := rfl
  simp only [tteHyp, one_fin, half_fin, ofNat_fin, sub_fin, add_fin, div_fin this, mul_fin, h2, tan_fin hc, h3,
    sqrt_fin (show 0 ≤ (e - 1) / (e + 1) by apply div_nonneg <;> linarith), arctanh_fin (abs_lt.mp hl).1 (abs_lt.mp hl).2]

theorem ettHyp_fin {E e : ℝ} (h1 : 1 < e) :
    ettHyp (fin E) (fin e) = fin (2 * Real.arctan ((hypFac e)⁻¹ * Real.tanh (E / 2))) := by
  have : (e - 1) ≠ 0 := by linarith
  have h2 : E * (1 / 2) = E / 2 := by ring
  simp only [ettHyp, one_fin, half_fin, ofNat_fin, sub_fin, add_fin, div_fin this, mul_fin, h2, tanh_fin,
    sqrt_fin (show 0 ≤ (e + 1) / (e - 1) by apply div_nonneg <;> linarith), arctan_fin, hypFac_inv]

theorem triSc_hyp {e : ℝ} (h : 1 < e) (x y z : FX) : triSc (fin e) x y z = x := by
  simp [triSc, h]
theorem triSc_par (x y z : FX) : triSc (fin 1) x y z = y := by
  simp [triSc]
theorem triSc_eli {e : ℝ} (h : e < 1) (x y z : FX) : triSc (fin e) x y z = z := by
  simp [triSc, not_lt.mpr h.le, h.ne]

theorem trueToEccentricSc_eli {nu e : ℝ} (h0 : 0 ≤ e) (h1 : e < 1) :
    trueToEccentricSc (fin nu) (fin e) = fin (scaleHalf (eliFac e) nu) := by
  rw [trueToEccentricSc, triSc_eli h1, tteEli_fin h0 h1]

theorem trueToEccentricSc_par {nu : ℝ} (hc : Real.cos (nu / 2) ≠ 0) :
    trueToEccentricSc (fin nu) (fin 1) = fin (turn (Real.tan (nu / 2))) := by
  rw [trueToEccentricSc, triSc_par, ttePar_fin hc, wrap_fin]

theorem trueToEccentricSc_hyp {nu e : ℝ} (h1 : 1 < e) (hc : Real.cos (nu / 2) ≠ 0)
    (hl : |hypFac e * Real.tan (nu / 2)| < 1) :
    trueToEccentricSc (fin nu) (fin e) = fin (turn (2 * Real.artanh (hypFac e * Real.tan (nu / 2)))) := by
  rw [trueToEccentricSc, triSc_hyp h1, tteHyp_fin h1 hc hl, wrap_fin]

theorem eccentricToTrueSc_eli {E e : ℝ} (h0 : 0 ≤ e) (h1 : e < 1) :
    eccentricToTrueSc (fin E) (fin e) = fin (scaleHalf (eliFac e)⁻¹ E) := by
  rw [eccentricToTrueSc, triSc_eli h1, ettEli_fin h0 h1]

theorem eccentricToTrueSc_par (E : ℝ) : eccentricToTrueSc (fin E) (fin 1) = fin (turn (2 * Real.arctan E)) := by
  rw [eccentricToTrueSc, triSc_par, ettPar_fin, wrap_fin]

theorem eccentricToTrueSc_hyp {E e : ℝ} (h1 : 1 < e) :
    eccentricToTrueSc (fin E) (fin e) = fin (turn (2 * Real.arctan ((hypFac e)⁻¹ * Real.tanh (E / 2)))) := by
  rw [eccentricToTrueSc, triSc_hyp h1, ettHyp_fin h1, wrap_fin]

theorem eccentricToMeanSc_eli {E e : ℝ} (h1 : e < 1) :
    eccentricToMeanSc (fin E) (fin e) = fin (E - e * Real.sin E) := by
  rw [eccentricToMeanSc, triSc_eli h1]
  simp [etmEli]

theorem eccentricToMeanSc_par (E : ℝ) : eccentricToMeanSc (fin E) (fin 1) = fin (E + E ^ 3 / 3) := by
  rw [eccentricToMeanSc, triSc_par]
  simp [etmPar]

theorem eccentricToMeanSc_hyp {E e : ℝ} (h1 : 1 < e) :
    eccentricToMeanSc (fin E) (fin e) = fin (e * Real.sinh E - E) := by
  rw [eccentricToMeanSc, triSc_hyp h1]
  simp [etmHyp]

/-! ## The public functions on two float scalars, in radians -/

/-- a python float argument or result -/
noncomputable def fl (x : ℝ) : Arg FX := .sc .f64 (fin x)

theorem fl_inj {x y : ℝ} (h : fl x = fl y) : x = y := by
  unfold fl at h
  injection h with _ h
  exact fin_inj h

theorem true_to_eccentric_fl (g : Nat → FX) (nu e : ℝ) :
    true_to_eccentric g (fl nu) (fl e) false = .ok (.sc .f64 (trueToEccentricSc (fin nu) (fin e))) := rfl
theorem eccentric_to_true_fl (g : Nat → FX) (E e : ℝ) :
    eccentric_to_true g (fl E) (fl e) false = .ok (.sc .f64 (eccentricToTrueSc (fin E) (fin e))) := rfl
theorem eccentric_to_mean_fl (g : Nat → FX) (E e : ℝ) :
    eccentric_to_mean g (fl E) (fl e) false = .ok (.sc .f64 (eccentricToMeanSc (fin E) (fin e))) := rfl

/-! ## Half-angle identities -/

theorem cos_two_arctan (u : ℝ) : Real.cos (2 * Real.arctan u) = (1 - u ^ 2) / (1 + u ^ 2) := by
  have h : 0 < 1 + u ^ 2 := by positivity
  rw [Real.cos_two_mul, Real.cos_sq_arctan]
  field_simp
  ring

theorem sin_two_arctan (u : ℝ) : Real.sin (2 * Real.arctan u) = 2 * u / (1 + u ^ 2) := by
  have h : 0 < 1 + u ^ 2 := by positivity
  rw [Real.sin_two_mul]
  have h1 := Real.cos_sq_arctan u
  have h2 : Real.sin (Real.arctan u) = u * Real.cos (Real.arctan u) := by
    rw [← Real.tan_mul_cos (Real.cos_arctan_pos u).ne', Real.tan_arctan]
  rw [h2, show 2 * (u * Real.cos (Real.arctan u)) * Real.cos (Real.arctan u)
    = 2 * u * Real.cos (Real.arctan u) ^ 2 by ring, h1]
  field_simp

theorem cos_of_tan_half {x : ℝ} (h : Real.cos (x / 2) ≠ 0) :
    Real.cos x = (1 - Real.tan (x / 2) ^ 2) / (1 + Real.tan (x / 2) ^ 2) := by
  rw [← cos_two_arctan, ← cos_turn, ← cos_turn (2 * _), turn_arctan_tan h]

theorem cos_half_arctan_turn (u : ℝ) : Real.cos (turn (2 * Real.arctan u) / 2) ≠ 0 := by
  rw [Ne, cos_half_turn, mul_div_cancel_left₀ _ two_ne_zero]
  exact (Real.cos_arctan_pos u).ne'

theorem tan_half_arctan_turn (u : ℝ) : Real.tan (turn (2 * Real.arctan u) / 2) = u := by
  rw [tan_half_turn, mul_div_cancel_left₀ _ two_ne_zero, Real.tan_arctan]

/-! ## Scaling of the half-angle tangent -/

theorem scaleHalf_pole {f x : ℝ} (h : Real.cos (x / 2) = 0) : scaleHalf f x = Real.pi := if_pos h

theorem scaleHalf_of_ne {f x : ℝ} (h : Real.cos (x / 2) ≠ 0) :
    scaleHalf f x = turn (2 * Real.arctan (f * Real.tan (x / 2))) := if_neg h

theorem scaleHalf_pi (f : ℝ) : scaleHalf f Real.pi = Real.pi := scaleHalf_pole Real.cos_pi_div_two

theorem scaleHalf_zero (f : ℝ) : scaleHalf f 0 = 0 := by
  rw [scaleHalf_of_ne (by simp)]
  simpa using turn_of_mem le_rfl Real.two_pi_pos

theorem scaleHalf_mem (f x : ℝ) : 0 ≤ scaleHalf f x ∧ scaleHalf f x < 2 * Real.pi := by
  unfold scaleHalf
  split_ifs
  · exact ⟨Real.pi_pos.le, by linarith [Real.pi_pos]⟩
  · exact turn_mem _

theorem scaleHalf_turn (f x : ℝ) : scaleHalf f (turn x) = scaleHalf f x := by
  unfold scaleHalf
  simp only [cos_half_turn, tan_half_turn]

theorem cos_half_scaleHalf (f x : ℝ) : Real.cos (scaleHalf f x / 2) = 0 ↔ Real.cos (x / 2) = 0 := by
  by_cases h : Real.cos (x / 2) = 0
  · simp [scaleHalf_pole h, h]
  · rw [scaleHalf_of_ne h]
    exact iff_of_false (cos_half_arctan_turn _) h

theorem turn_of_pole {x : ℝ} (h : Real.cos (x / 2) = 0) : turn x = Real.pi := by
  have hm := turn_mem x
  have hc := (cos_half_turn x).mpr h
  rcases lt_trichotomy (turn x) Real.pi with hl | he | hg
  · exact absurd hc (Real.cos_pos_of_mem_Ioo ⟨by linarith [Real.pi_pos], by linarith⟩).ne'
  · exact he
  · exact absurd hc (Real.cos_neg_of_pi_div_two_lt_of_lt (by linarith) (by linarith)).ne

/-- scaling back gives the angle reduced to `[0, 2 pi)` -/
theorem scaleHalf_scaleHalf {f f' : ℝ} (h : f' * f = 1) (x : ℝ) : scaleHalf f' (scaleHalf f x) = turn x := by
  by_cases hc : Real.cos (x / 2) = 0
  · rw [scaleHalf_pole hc, scaleHalf_pi, turn_of_pole hc]
  · rw [scaleHalf_of_ne hc, scaleHalf_of_ne (cos_half_arctan_turn _), tan_half_arctan_turn, ← mul_assoc, h, one_mul,
      turn_arctan_tan hc]

end Pyorb
