import Mathlib.Analysis.Real.Pi.Bounds
import Verif.AnomReal

/-!
# C08, C13, C45: true, eccentric and mean anomaly

All statements are about the public functions on python floats (`fl x`), in radians, in exact arithmetic; `c07_anomaly_partial`
carries them over to arrays element by element.  At exactly half a turn the formula evaluates `tan(pi/2)`, which the model
takes to be infinite (floats give `1.6e16`); `c13_apoapsis_limit` shows that the value found there is the limit.
-/

set_option linter.unusedSimpArgs false

namespace Pyorb
open FX

/-! ## C08 -/

theorem cos_half_ne {x : ℝ} (h0 : 0 ≤ x) (h1 : x < 2 * Real.pi) (hp : x ≠ Real.pi) : Real.cos (x / 2) ≠ 0 := by
  rcases lt_or_gt_of_ne hp with h | h
  · exact (Real.cos_pos_of_mem_Ioo ⟨by linarith [Real.pi_pos], by linarith⟩).ne'
  · exact (Real.cos_neg_of_pi_div_two_lt_of_lt (by linarith) (by linarith)).ne

/-- C08 on an ellipse, true -> eccentric -> true, for any angle: it comes back reduced to [0, 2 pi). -/
theorem c08_true_ecc_true_turn (g g' : Nat → FX) (nu e : ℝ) (h0 : 0 ≤ e) (h1 : e < 1) :
    ∃ E, true_to_eccentric g (fl nu) (fl e) false = .ok (fl E) ∧
      eccentric_to_true g' (fl E) (fl e) false = .ok (fl (turn nu)) := by
  refine ⟨_, by rw [true_to_eccentric_fl, trueToEccentricSc_eli h0 h1]; rfl, ?_⟩
  rw [eccentric_to_true_fl, eccentricToTrueSc_eli h0 h1, scaleHalf_scaleHalf (inv_mul_cancel₀ (eliFac_pos h0 h1).ne')]
  rfl

/-- C08 on an ellipse, true -> eccentric -> true is the identity on [0, 2 pi). -/
theorem c08_true_ecc_true_ellipse (g g' : Nat → FX) (nu e : ℝ) (h0 : 0 ≤ e) (h1 : e < 1) (hn0 : 0 ≤ nu)
    (hn1 : nu < 2 * Real.pi) :
    ∃ E, true_to_eccentric g (fl nu) (fl e) false = .ok (fl E) ∧
      eccentric_to_true g' (fl E) (fl e) false = .ok (fl nu) := by
  have := c08_true_ecc_true_turn g g' nu e h0 h1
  rwa [turn_of_mem hn0 hn1] at this

example : (0 : ℝ) ≤ 1 / 2 ∧ (1 / 2 : ℝ) < 1 ∧ (0 : ℝ) ≤ 4 ∧ (4 : ℝ) < 2 * Real.pi :=
  ⟨by norm_num, by norm_num, by norm_num, by linarith [Real.pi_gt_three]⟩

theorem tanh_artanh' {x : ℝ} (h : |x| < 1) : Real.tanh (Real.artanh x) = x :=
  Real.tanh_artanh (abs_lt.mp h)

theorem artanh_tanh' (x : ℝ) : Real.artanh (Real.tanh x) = x := Real.artanh_tanh x

/-- C08, eccentric -> true -> eccentric for every kind of orbit: the anomaly comes back reduced to [0, 2 pi), so it is
returned unchanged exactly when it lies in [0, 2 pi). -/
theorem c08_ecc_true_ecc_turn (g g' : Nat → FX) (E e : ℝ) (h0 : 0 ≤ e) :
    ∃ nu, eccentric_to_true g (fl E) (fl e) false = .ok (fl nu) ∧
      true_to_eccentric g' (fl nu) (fl e) false = .ok (fl (turn E)) := by
  rcases lt_trichotomy e 1 with h1 | h1 | h1
  · refine ⟨_, by rw [eccentric_to_true_fl, eccentricToTrueSc_eli h0 h1]; rfl, ?_⟩
    rw [true_to_eccentric_fl, trueToEccentricSc_eli h0 h1, scaleHalf_scaleHalf (mul_inv_cancel₀ (eliFac_pos h0 h1).ne')]
    rfl
  · subst h1
    refine ⟨_, by rw [eccentric_to_true_fl, eccentricToTrueSc_par]; rfl, ?_⟩
    rw [true_to_eccentric_fl, trueToEccentricSc_par (cos_half_arctan_turn _), tan_half_arctan_turn]
    rfl
  · refine ⟨_, by rw [eccentric_to_true_fl, eccentricToTrueSc_hyp h1]; rfl, ?_⟩
    have h2 : hypFac e * ((hypFac e)⁻¹ * Real.tanh (E / 2)) = Real.tanh (E / 2) :=
      mul_inv_cancel_left₀ (hypFac_pos h1).ne' _
    rw [true_to_eccentric_fl, trueToEccentricSc_hyp h1 (cos_half_arctan_turn _), tan_half_arctan_turn, h2, artanh_tanh',
      mul_div_cancel₀ _ two_ne_zero]
    · rfl
    · rw [tan_half_arctan_turn, h2, abs_lt]
      exact ⟨Real.neg_one_lt_tanh _, Real.tanh_lt_one _⟩

/-- C08, eccentric -> true -> eccentric is the identity for anomalies in [0, 2 pi), every kind of orbit. -/
theorem c08_ecc_true_ecc (g g' : Nat → FX) (E e : ℝ) (h0 : 0 ≤ e) (hE0 : 0 ≤ E) (hE1 : E < 2 * Real.pi) :
    ∃ nu, eccentric_to_true g (fl E) (fl e) false = .ok (fl nu) ∧
      true_to_eccentric g' (fl nu) (fl e) false = .ok (fl E) := by
  have := c08_ecc_true_ecc_turn g g' E e h0
  rwa [turn_of_mem hE0 hE1] at this

example : (0 : ℝ) ≤ 2 ∧ (0 : ℝ) ≤ 4 ∧ (4 : ℝ) < 2 * Real.pi :=
  ⟨by norm_num, by norm_num, by linarith [Real.pi_gt_three]⟩

/-- the (signed) parabolic or hyperbolic anomaly belonging to a true anomaly, textbook definition -/
noncomputable def openAnom (e nu : ℝ) : ℝ :=
  if e = 1 then Real.tan (nu / 2) else 2 * Real.artanh (Real.sqrt ((e - 1) / (e + 1)) * Real.tan (nu / 2))

theorem cos_half_of_open {e nu : ℝ} (h1 : 1 ≤ e) (h : 0 < 1 + e * Real.cos nu) : Real.cos (nu / 2) ≠ 0 := by
  intro hc
  have : Real.cos nu = -1 := by
    have := Real.cos_two_mul (nu / 2)
    rw [hc, mul_div_cancel₀ _ two_ne_zero] at this
    rw [this]; norm_num
  rw [this] at h
  linarith

/-- the branch of the hyperbola: `1 + e cos nu > 0` in terms of the half angle -/
theorem open_iff {e nu : ℝ} (h1 : 1 < e) (hc : Real.cos (nu / 2) ≠ 0) :
    0 < 1 + e * Real.cos nu ↔ |hypFac e * Real.tan (nu / 2)| < 1 := by
  rw [cos_of_tan_half hc, ← sq_lt_one_iff_abs_lt_one, mul_pow, hypFac_sq h1]
  set t := Real.tan (nu / 2)
  have ht : 0 < 1 + t ^ 2 := by positivity
  have h2 : 1 + e * ((1 - t ^ 2) / (1 + t ^ 2)) = ((e + 1) - (e - 1) * t ^ 2) / (1 + t ^ 2) := by
    field_simp; ring
  rw [h2, lt_div_iff₀ ht, zero_mul, div_mul_eq_mul_div, div_lt_one (by linarith), sub_pos]

theorem turn_arctan_inj {u v : ℝ} (h : turn (2 * Real.arctan u) = turn (2 * Real.arctan v)) : u = v := by
  rw [← tan_half_arctan_turn u, h, tan_half_arctan_turn]

theorem turn_eq_self_iff {x : ℝ} : turn x = x ↔ 0 ≤ x ∧ x < 2 * Real.pi :=
  ⟨fun h => h ▸ turn_mem x, fun h => turn_of_mem h.1 h.2⟩

theorem tanh_inj {x y : ℝ} (h : Real.tanh x = Real.tanh y) : x = y := by
  rw [← artanh_tanh' x, h, artanh_tanh']

/-- C08 on a parabola or hyperbola, exactly when the true -> eccentric -> true round trip holds: if and only if the
parabolic/hyperbolic anomaly lies in [0, 2 pi) (line 676 reduces it modulo a whole turn although it is not an angle). -/
theorem c08_true_ecc_true_open (g g' : Nat → FX) (nu e : ℝ) (h1 : 1 ≤ e) (hn0 : 0 ≤ nu) (hn1 : nu < 2 * Real.pi)
    (hb : 0 < 1 + e * Real.cos nu) :
    ∃ E nu', true_to_eccentric g (fl nu) (fl e) false = .ok (fl E) ∧
      eccentric_to_true g' (fl E) (fl e) false = .ok (fl nu') ∧
      (nu' = nu ↔ 0 ≤ openAnom e nu ∧ openAnom e nu < 2 * Real.pi) := by
  have hc := cos_half_of_open h1 hb
  have hnu : turn (2 * Real.arctan (Real.tan (nu / 2))) = nu := by rw [turn_arctan_tan hc, turn_of_mem hn0 hn1]
  rcases h1.eq_or_lt with h | h
  · subst h
    refine ⟨_, _, by rw [true_to_eccentric_fl, trueToEccentricSc_par hc]; rfl,
      by rw [eccentric_to_true_fl, eccentricToTrueSc_par]; rfl, ?_⟩
    rw [openAnom, if_pos rfl, ← turn_eq_self_iff]
    constructor
    · intro h
      rw [← hnu, tan_half_arctan_turn] at h
      exact turn_arctan_inj h
    · intro h
      rw [h, hnu]
  · have hl := (open_iff h hc).mp hb
    refine ⟨_, _, by rw [true_to_eccentric_fl, trueToEccentricSc_hyp h hc hl]; rfl,
      by rw [eccentric_to_true_fl, eccentricToTrueSc_hyp h]; rfl, ?_⟩
    rw [openAnom, if_neg h.ne', show Real.sqrt ((e - 1) / (e + 1)) = hypFac e from rfl, ← turn_eq_self_iff]
    have hF : (hypFac e)⁻¹ * Real.tanh (2 * Real.artanh (hypFac e * Real.tan (nu / 2)) / 2) = Real.tan (nu / 2) := by
      rw [mul_div_cancel_left₀ _ two_ne_zero, tanh_artanh' hl, inv_mul_cancel_left₀ (hypFac_pos h).ne']
    constructor
    · intro h'
      have h2 := turn_arctan_inj (h'.trans hnu.symm)
      have h2 := h2.trans hF.symm
      have h3 := tanh_inj (mul_left_cancel₀ (inv_ne_zero (hypFac_pos h).ne') h2)
      linarith
    · intro h'
      rw [h', hF, hnu]

theorem openAnom_neg {e nu : ℝ} (h1 : 1 ≤ e) (hn0 : Real.pi < nu) (hn1 : nu < 2 * Real.pi) (hb : 0 < 1 + e * Real.cos nu) :
    openAnom e nu < 0 := by
  have ht : Real.tan (nu / 2) < 0 := by
    have : Real.tan (nu / 2) = Real.tan (nu / 2 - Real.pi) := (Real.tan_periodic.sub_eq _).symm
    rw [this]
    exact Real.tan_neg_of_neg_of_pi_div_two_lt (by linarith) (by linarith)
  rcases h1.eq_or_lt with h | h
  · subst h; rw [openAnom, if_pos rfl]; exact ht
  · have hl := (open_iff h (cos_half_of_open h1 hb)).mp hb
    rw [openAnom, if_neg h.ne', show Real.sqrt ((e - 1) / (e + 1)) = hypFac e from rfl]
    have h2 : hypFac e * Real.tan (nu / 2) < 0 := mul_neg_of_pos_of_neg (hypFac_pos h) ht
    have h3 : Real.artanh (hypFac e * Real.tan (nu / 2)) < 0 := Real.artanh_neg ⟨(abs_lt.mp hl).1, h2⟩
    linarith

/-- C08 fails on *every* point of the inbound leg (pi < nu < 2 pi) of every parabola and hyperbola. -/
theorem c08_inbound_fails (g g' : Nat → FX) (nu e : ℝ) (h1 : 1 ≤ e) (hn0 : Real.pi < nu) (hn1 : nu < 2 * Real.pi)
    (hb : 0 < 1 + e * Real.cos nu) :
    ∃ E nu', true_to_eccentric g (fl nu) (fl e) false = .ok (fl E) ∧
      eccentric_to_true g' (fl E) (fl e) false = .ok (fl nu') ∧ nu' ≠ nu := by
  obtain ⟨E, nu', hE, hn, hi⟩ := c08_true_ecc_true_open g g' nu e h1 (by linarith [Real.pi_pos]) hn1 hb
  exact ⟨E, nu', hE, hn, fun h => by linarith [(hi.mp h).1, openAnom_neg h1 hn0 hn1 hb]⟩

/-- C08 on a parabola or hyperbola, what holds: the outbound leg up to the point where the parabolic/hyperbolic anomaly
reaches 2 pi.  Missing: the inbound leg (`c08_inbound_fails`) and the far outbound leg. -/
theorem c08_true_ecc_true_open_partial (g g' : Nat → FX) (nu e : ℝ) (h1 : 1 ≤ e) (hn0 : 0 ≤ nu) (hn1 : nu < Real.pi)
    (hb : 0 < 1 + e * Real.cos nu) (hE : openAnom e nu < 2 * Real.pi) :
    ∃ E, true_to_eccentric g (fl nu) (fl e) false = .ok (fl E) ∧
      eccentric_to_true g' (fl E) (fl e) false = .ok (fl nu) := by
  obtain ⟨E, nu', hE', hn, hi⟩ := c08_true_ecc_true_open g g' nu e h1 hn0 (by linarith [Real.pi_pos]) hb
  have ht : 0 ≤ Real.tan (nu / 2) := Real.tan_nonneg_of_nonneg_of_le_pi_div_two (by linarith) (by linarith)
  have h0 : 0 ≤ openAnom e nu := by
    rcases h1.eq_or_lt with h | h
    · subst h; rw [openAnom, if_pos rfl]; exact ht
    · have hl := (open_iff h (cos_half_of_open h1 hb)).mp hb
      rw [openAnom, if_neg h.ne', show Real.sqrt ((e - 1) / (e + 1)) = hypFac e from rfl]
      have h2 : 0 ≤ hypFac e * Real.tan (nu / 2) := mul_nonneg (hypFac_pos h).le ht
      have h3 : 0 ≤ Real.artanh (hypFac e * Real.tan (nu / 2)) := Real.artanh_nonneg h2
      linarith
  exact ⟨E, hE', by rw [hn, hi.mpr ⟨h0, hE⟩]⟩

/-- a hyperbolic inbound point and an outbound point meeting the hypotheses -/
example : 0 < 1 + 2 * Real.cos (2 * Real.pi - 1) ∧ Real.pi < 2 * Real.pi - 1 ∧ 2 * Real.pi - 1 < 2 * Real.pi ∧
    (0 < 1 + 1 * Real.cos 0 ∧ openAnom 1 0 < 2 * Real.pi) := by
  refine ⟨?_, by linarith [Real.pi_gt_three], by linarith, by simp, ?_⟩
  · rw [Real.cos_two_pi_sub]; linarith [Real.cos_one_pos]
  · simp [openAnom, Real.pi_pos]

/-! ## C13 -/

/-- the eccentric (true) anomaly on (0, 2 pi) measured from the apoapsis; continuous at pi -/
noncomputable def fromApo (s x : ℝ) : ℝ := Real.pi - 2 * Real.arctan (s⁻¹ * Real.tan ((Real.pi - x) / 2))

theorem turn_eq_fromApo {s x : ℝ} (hs : 0 < s) (h0 : 0 < x) (h1 : x < 2 * Real.pi) (hp : x ≠ Real.pi) :
    turn (2 * Real.arctan (s * Real.tan (x / 2))) = fromApo s x := by
  unfold fromApo
  set y := (Real.pi - x) / 2 with hy
  have hx : x / 2 = Real.pi / 2 - y := by rw [hy]; ring
  rw [hx, Real.tan_pi_div_two_sub, show s * (Real.tan y)⁻¹ = (s⁻¹ * Real.tan y)⁻¹ by rw [mul_inv, inv_inv]]
  rcases lt_or_gt_of_ne hp with h | h
  · have : 0 < s⁻¹ * Real.tan y :=
      mul_pos (inv_pos.mpr hs) (Real.tan_pos_of_pos_of_lt_pi_div_two (by linarith) (by linarith))
    rw [Real.arctan_inv_of_pos this, turn_of_mem]
    · ring
    · linarith [Real.arctan_lt_pi_div_two (s⁻¹ * Real.tan y)]
    · linarith [Real.arctan_pos.mpr this, Real.pi_pos]
  · have : s⁻¹ * Real.tan y < 0 :=
      mul_neg_of_pos_of_neg (inv_pos.mpr hs) (Real.tan_neg_of_neg_of_pi_div_two_lt (by linarith) (by linarith))
    rw [Real.arctan_inv_of_neg this, turn_of_neg]
    · ring
    · linarith [Real.neg_pi_div_two_lt_arctan (s⁻¹ * Real.tan y)]
    · linarith [Real.arctan_lt_pi_div_two (s⁻¹ * Real.tan y), Real.neg_pi_div_two_lt_arctan (s⁻¹ * Real.tan y), Real.pi_pos]

theorem fromApo_mem (s x : ℝ) : 0 < fromApo s x ∧ fromApo s x < 2 * Real.pi := by
  unfold fromApo
  constructor <;> linarith [Real.arctan_lt_pi_div_two (s⁻¹ * Real.tan ((Real.pi - x) / 2)),
    Real.neg_pi_div_two_lt_arctan (s⁻¹ * Real.tan ((Real.pi - x) / 2))]

theorem fromApo_lt {s x y : ℝ} (hs : 0 < s) (h0 : 0 < x) (hxy : x < y) (h1 : y < 2 * Real.pi) :
    fromApo s x < fromApo s y := by
  unfold fromApo
  have : Real.tan ((Real.pi - y) / 2) < Real.tan ((Real.pi - x) / 2) :=
    Real.tan_lt_tan_of_lt_of_lt_pi_div_two (by linarith) (by linarith) (by linarith)
  have h2 := Real.arctan_strictMono (mul_lt_mul_of_pos_left this (inv_pos.mpr hs))
  linarith

theorem fromApo_pi (s : ℝ) : fromApo s Real.pi = Real.pi := by simp [fromApo]

theorem scaleHalf_eq_fromApo {s x : ℝ} (hs : 0 < s) (h0 : 0 < x) (h1 : x < 2 * Real.pi) : scaleHalf s x = fromApo s x := by
  by_cases hp : x = Real.pi
  · rw [hp, scaleHalf_pi, fromApo_pi]
  · rw [scaleHalf_of_ne (cos_half_ne h0.le h1 hp), turn_eq_fromApo hs h0 h1 hp]

theorem fromApo_continuousAt (s : ℝ) : ContinuousAt (fromApo s) Real.pi := by
  unfold fromApo
  have ht : ContinuousAt (fun x : ℝ => Real.tan ((Real.pi - x) / 2)) Real.pi := by
    have h1 : ContinuousAt Real.tan ((Real.pi - Real.pi) / 2) := Real.continuousAt_tan.mpr (by simp)
    have h2 : ContinuousAt (fun x : ℝ => (Real.pi - x) / 2) Real.pi := by fun_prop
    exact ContinuousAt.comp (f := fun x : ℝ => (Real.pi - x) / 2) h1 h2
  exact continuousAt_const.sub (continuousAt_const.mul
    (Real.continuous_arctan.continuousAt.comp (continuousAt_const.mul ht)))

theorem kepler_strictMono {e : ℝ} (h0 : 0 ≤ e) (h1 : e < 1) {x y : ℝ} (h : x < y) :
    x - e * Real.sin x < y - e * Real.sin y := by
  have h2 := Real.abs_sin_sub_sin_le y x
  rw [abs_of_pos (sub_pos.mpr h)] at h2
  have h3 := (abs_le.mp h2).2
  nlinarith

/-- the real eccentric anomaly of an ellipse -/
theorem ecc_ellipse (g : Nat → FX) {nu e : ℝ} (h0 : 0 ≤ e) (h1 : e < 1) (hn0 : 0 < nu)
    (hn1 : nu < 2 * Real.pi) :
    true_to_eccentric g (fl nu) (fl e) false = .ok (fl (fromApo (eliFac e) nu)) := by
  rw [true_to_eccentric_fl, trueToEccentricSc_eli h0 h1, scaleHalf_eq_fromApo (eliFac_pos h0 h1) hn0 hn1]
  rfl

theorem true_ellipse (g : Nat → FX) {E e : ℝ} (h0 : 0 ≤ e) (h1 : e < 1) (hn0 : 0 < E)
    (hn1 : E < 2 * Real.pi) :
    eccentric_to_true g (fl E) (fl e) false = .ok (fl (fromApo (eliFac e)⁻¹ E)) := by
  rw [eccentric_to_true_fl, eccentricToTrueSc_eli h0 h1, scaleHalf_eq_fromApo (inv_pos.mpr (eliFac_pos h0 h1)) hn0 hn1]
  rfl

theorem mean_ellipse (g : Nat → FX) {E e : ℝ} (h1 : e < 1) :
    eccentric_to_mean g (fl E) (fl e) false = .ok (fl (E - e * Real.sin E)) := by
  rw [eccentric_to_mean_fl, eccentricToMeanSc_eli h1]
  rfl

theorem true_to_mean_ellipse (g g' : Nat → FX) {nu e : ℝ} (h0 : 0 ≤ e) (h1 : e < 1) (hn0 : 0 < nu)
    (hn1 : nu < 2 * Real.pi) :
    true_to_mean g g' (fl nu) (fl e) false
      = .ok (fl (fromApo (eliFac e) nu - e * Real.sin (fromApo (eliFac e) nu))) := by
  simp only [true_to_mean, toRad, toDeg, Bool.false_eq_true, if_false, ecc_ellipse g h0 h1 hn0 hn1, bind, Except.bind,
    mean_ellipse g' h1, pure, Except.pure]

/-- C13, apsides: all conversions map 0 to 0 and pi to pi. -/
theorem c13_apsides (g g' : Nat → FX) (e : ℝ) (h0 : 0 ≤ e) (h1 : e < 1) :
    true_to_eccentric g (fl 0) (fl e) false = .ok (fl 0) ∧ eccentric_to_true g (fl 0) (fl e) false = .ok (fl 0) ∧
    eccentric_to_mean g (fl 0) (fl e) false = .ok (fl 0) ∧ true_to_mean g g' (fl 0) (fl e) false = .ok (fl 0) ∧
    true_to_eccentric g (fl Real.pi) (fl e) false = .ok (fl Real.pi) ∧
    eccentric_to_true g (fl Real.pi) (fl e) false = .ok (fl Real.pi) ∧
    eccentric_to_mean g (fl Real.pi) (fl e) false = .ok (fl Real.pi) ∧
    true_to_mean g g' (fl Real.pi) (fl e) false = .ok (fl Real.pi) := by
  have a1 : ∀ g, true_to_eccentric g (fl 0) (fl e) false = .ok (fl 0) := by
    intro g; rw [true_to_eccentric_fl, trueToEccentricSc_eli h0 h1, scaleHalf_zero]; rfl
  have a2 : eccentric_to_true g (fl 0) (fl e) false = .ok (fl 0) := by
    rw [eccentric_to_true_fl, eccentricToTrueSc_eli h0 h1, scaleHalf_zero]; rfl
  have a3 : ∀ g, eccentric_to_mean g (fl 0) (fl e) false = .ok (fl 0) := by
    intro g; rw [mean_ellipse g h1]; simp
  have b1 : ∀ g, true_to_eccentric g (fl Real.pi) (fl e) false = .ok (fl Real.pi) := by
    intro g; rw [true_to_eccentric_fl, trueToEccentricSc_eli h0 h1, scaleHalf_pi]; rfl
  have b2 : eccentric_to_true g (fl Real.pi) (fl e) false = .ok (fl Real.pi) := by
    rw [eccentric_to_true_fl, eccentricToTrueSc_eli h0 h1, scaleHalf_pi]; rfl
  have b3 : ∀ g, eccentric_to_mean g (fl Real.pi) (fl e) false = .ok (fl Real.pi) := by
    intro g; rw [mean_ellipse g h1]; simp
  refine ⟨a1 g, a2, a3 g, ?_, b1 g, b2, b3 g, ?_⟩
  · simp only [true_to_mean, toRad, toDeg, Bool.false_eq_true, if_false, a1, a3, bind, Except.bind, pure, Except.pure]
  · simp only [true_to_mean, toRad, toDeg, Bool.false_eq_true, if_false, b1, b3, bind, Except.bind, pure, Except.pure]

/-- C13, continuity at the apoapsis: as the true anomaly tends to pi so do the eccentric and the mean anomaly. -/
theorem c13_apoapsis_limit (g g' : Nat → FX) (e : ℝ) (h0 : 0 ≤ e) (h1 : e < 1) (ε : ℝ) (hε : 0 < ε) :
    ∃ δ > 0, ∀ nu, |nu - Real.pi| < δ →
      ∃ E M, true_to_eccentric g (fl nu) (fl e) false = .ok (fl E) ∧ true_to_mean g g' (fl nu) (fl e) false = .ok (fl M) ∧
        |E - Real.pi| < ε ∧ |M - Real.pi| < ε := by
  have hc1 := fromApo_continuousAt (eliFac e)
  have hc2 : ContinuousAt (fun x => fromApo (eliFac e) x - e * Real.sin (fromApo (eliFac e) x)) Real.pi :=
    hc1.sub (continuousAt_const.mul (Real.continuous_sin.continuousAt.comp hc1))
  obtain ⟨d1, hd1, hf1⟩ := Metric.continuousAt_iff.mp hc1 ε hε
  obtain ⟨d2, hd2, hf2⟩ := Metric.continuousAt_iff.mp hc2 ε hε
  refine ⟨min Real.pi (min d1 d2), lt_min Real.pi_pos (lt_min hd1 hd2), fun nu hd => ?_⟩
  have h3 := abs_lt.mp (lt_of_lt_of_le hd (min_le_left _ _))
  have hn0 : 0 < nu := by linarith [h3.1]
  have hn1 : nu < 2 * Real.pi := by linarith [h3.2]
  refine ⟨_, _, ecc_ellipse g h0 h1 hn0 hn1, true_to_mean_ellipse g g' h0 h1 hn0 hn1, ?_, ?_⟩
  · have := hf1 (x := nu) (by rw [Real.dist_eq]; exact lt_of_lt_of_le hd ((min_le_right _ _).trans (min_le_left _ _)))
    rwa [Real.dist_eq, fromApo_pi] at this
  · have := hf2 (x := nu) (by rw [Real.dist_eq]; exact lt_of_lt_of_le hd ((min_le_right _ _).trans (min_le_right _ _)))
    rwa [Real.dist_eq, fromApo_pi, Real.sin_pi, mul_zero, sub_zero] at this

theorem fromApo_half {s x : ℝ} (hs : 0 < s) (h0 : 0 < x) (h1 : x < 2 * Real.pi) :
    (x < Real.pi → fromApo s x < Real.pi) ∧ (Real.pi < x → Real.pi < fromApo s x) := by
  constructor <;> intro h
  · have := fromApo_lt hs h0 h (by linarith [Real.pi_pos]); rwa [fromApo_pi] at this
  · have := fromApo_lt hs Real.pi_pos h h1; rwa [fromApo_pi] at this

/-- C13, same half turn: the anomalies of a point on the outbound half are all in (0,pi), those of a point on the inbound
half all in (pi, 2 pi). -/
theorem c13_half_turn (g g' : Nat → FX) (nu e : ℝ) (h0 : 0 ≤ e) (h1 : e < 1) (hn0 : 0 < nu) (hn1 : nu < 2 * Real.pi) :
    ∃ E M, true_to_eccentric g (fl nu) (fl e) false = .ok (fl E) ∧ true_to_mean g g' (fl nu) (fl e) false = .ok (fl M) ∧
      eccentric_to_mean g (fl E) (fl e) false = .ok (fl M) ∧
      (nu < Real.pi → 0 < E ∧ E < Real.pi ∧ 0 < M ∧ M ≤ E) ∧
      (Real.pi < nu → Real.pi < E ∧ E < 2 * Real.pi ∧ E ≤ M ∧ M < 2 * Real.pi) := by
  refine ⟨_, _, ecc_ellipse g h0 h1 hn0 hn1, true_to_mean_ellipse g g' h0 h1 hn0 hn1, mean_ellipse g h1, ?_, ?_⟩
  · intro h
    have hE := (fromApo_half (eliFac_pos h0 h1) hn0 hn1).1 h
    have hE0 := (fromApo_mem (eliFac e) nu).1
    have hs : 0 < Real.sin (fromApo (eliFac e) nu) := Real.sin_pos_of_pos_of_lt_pi hE0 hE
    have := kepler_strictMono h0 h1 hE0
    simp only [Real.sin_zero, mul_zero, sub_zero] at this
    refine ⟨hE0, hE, this, ?_⟩
    nlinarith
  · intro h
    have hE := (fromApo_half (eliFac_pos h0 h1) hn0 hn1).2 h
    have hE0 := (fromApo_mem (eliFac e) nu).2
    have hs : Real.sin (fromApo (eliFac e) nu) < 0 := by
      have := Real.sin_neg_of_neg_of_neg_pi_lt (x := fromApo (eliFac e) nu - 2 * Real.pi) (by linarith) (by linarith)
      rwa [Real.sin_sub_two_pi] at this
    have := kepler_strictMono h0 h1 hE0
    simp only [Real.sin_two_pi, mul_zero, sub_zero] at this
    refine ⟨hE, hE0, ?_, this⟩
    nlinarith

/-- the eccentric or true anomaly on all of `[0, 2 pi)` -/
theorem scaleHalf_lt {f x y : ℝ} (hf : 0 < f) (hx : 0 ≤ x) (hxy : x < y) (hy : y < 2 * Real.pi) : scaleHalf f x < scaleHalf f y := by
  rw [scaleHalf_eq_fromApo hf (hx.trans_lt hxy) hy]
  rcases hx.eq_or_lt with rfl | h
  · rw [scaleHalf_zero]; exact (fromApo_mem f y).1
  · rw [scaleHalf_eq_fromApo hf h (hxy.trans hy)]; exact fromApo_lt hf h hxy hy

/-- C13, order: each of the four conversions is strictly increasing on a revolution `[0, 2 pi)`. -/
theorem c13_increasing (g g' : Nat → FX) (e x y : ℝ) (h0 : 0 ≤ e) (h1 : e < 1) (hx : 0 ≤ x) (hxy : x < y)
    (hy : y < 2 * Real.pi) :
    (∃ u v, true_to_eccentric g (fl x) (fl e) false = .ok (fl u) ∧ true_to_eccentric g (fl y) (fl e) false = .ok (fl v) ∧
      u < v) ∧
    (∃ u v, eccentric_to_true g (fl x) (fl e) false = .ok (fl u) ∧ eccentric_to_true g (fl y) (fl e) false = .ok (fl v) ∧
      u < v) ∧
    (∃ u v, eccentric_to_mean g (fl x) (fl e) false = .ok (fl u) ∧ eccentric_to_mean g (fl y) (fl e) false = .ok (fl v) ∧
      u < v) ∧
    (∃ u v, true_to_mean g g' (fl x) (fl e) false = .ok (fl u) ∧ true_to_mean g g' (fl y) (fl e) false = .ok (fl v) ∧
      u < v) := by
  have a1 : ∀ g x, true_to_eccentric g (fl x) (fl e) false = .ok (fl (scaleHalf (eliFac e) x)) := fun g x => by
    rw [true_to_eccentric_fl, trueToEccentricSc_eli h0 h1]; rfl
  have a2 : ∀ x, eccentric_to_true g (fl x) (fl e) false = .ok (fl (scaleHalf (eliFac e)⁻¹ x)) := fun x => by
    rw [eccentric_to_true_fl, eccentricToTrueSc_eli h0 h1]; rfl
  have a3 : ∀ x, true_to_mean g g' (fl x) (fl e) false
      = .ok (fl (scaleHalf (eliFac e) x - e * Real.sin (scaleHalf (eliFac e) x))) := fun x => by
    simp only [true_to_mean, toRad, toDeg, Bool.false_eq_true, if_false, a1, bind, Except.bind, mean_ellipse g' h1, pure,
      Except.pure]
  have hE := scaleHalf_lt (eliFac_pos h0 h1) hx hxy hy
  exact ⟨⟨_, _, a1 g x, a1 g y, hE⟩, ⟨_, _, a2 x, a2 y, scaleHalf_lt (inv_pos.mpr (eliFac_pos h0 h1)) hx hxy hy⟩,
    ⟨_, _, mean_ellipse g h1, mean_ellipse g h1, kepler_strictMono h0 h1 hxy⟩,
    ⟨_, _, a3 x, a3 y, kepler_strictMono h0 h1 hE⟩⟩

example : (0 : ℝ) ≤ 9 / 10 ∧ (9 / 10 : ℝ) < 1 ∧ (0 : ℝ) < 1 ∧ (1 : ℝ) < 5 ∧ (5 : ℝ) < 2 * Real.pi := by
  have h3 := Real.pi_gt_three
  exact ⟨by norm_num, by norm_num, by norm_num, by norm_num, by linarith⟩

/-! ## C45 -/

theorem asymptote_val {e : ℝ} (h1 : 1 < e) : true_of_the_asymptote (fin e) false = fin (Real.arccos (-1 / e)) := by
  have he : e ≠ 0 := by linarith
  have h2 : -1 ≤ -1 / e := by rw [le_div_iff₀ (by linarith)]; linarith
  have h3 : -1 / e ≤ 1 := by rw [div_le_iff₀ (by linarith)]; linarith
  simp only [true_of_the_asymptote, one_fin, neg_fin, div_fin he, arccos_fin h2 h3, Bool.false_eq_true, if_false]

/-- C45, first half: the orbit reaches the true anomaly nu (in (-pi, pi]) exactly when |nu| is below
`true_of_the_asymptote(e)`. -/
theorem c45_asymptote (e nu : ℝ) (h1 : 1 < e) (hn : |nu| ≤ Real.pi) :
    ∃ t, true_of_the_asymptote (fin e) false = fin t ∧ Real.pi / 2 < t ∧ t < Real.pi ∧
      (0 < 1 + e * Real.cos nu ↔ |nu| < t) := by
  have he : 0 < e := by linarith
  have h2 : -1 < -1 / e := by rw [lt_div_iff₀ (by linarith)]; linarith
  have h3 : -1 / e < 0 := div_neg_of_neg_of_pos (by norm_num) he
  refine ⟨_, asymptote_val h1, ?_, ?_, ?_⟩
  · exact not_le.mp fun h => by linarith [Real.arccos_le_pi_div_two.mp h]
  · exact lt_of_le_of_ne (Real.arccos_le_pi _) (fun h => by linarith [Real.arccos_eq_pi.mp h])
  · rw [← Real.cos_abs nu]
    constructor
    · intro h
      by_contra hcon
      have hle := Real.cos_le_cos_of_nonneg_of_le_pi (Real.arccos_nonneg _) hn (not_lt.mp hcon)
      rw [Real.cos_arccos h2.le (by linarith)] at hle
      have h4 : e * Real.cos |nu| ≤ e * (-1 / e) := mul_le_mul_of_nonneg_left hle he.le
      rw [mul_div_cancel₀ _ he.ne'] at h4
      linarith
    · intro h
      have hlt := Real.cos_lt_cos_of_nonneg_of_le_pi (abs_nonneg nu) (Real.arccos_le_pi _) h
      rw [Real.cos_arccos h2.le (by linarith)] at hlt
      have h4 : e * (-1 / e) < e * Real.cos |nu| := mul_lt_mul_of_pos_left hlt he
      rw [mul_div_cancel₀ _ he.ne'] at h4
      linarith

/-- C45, second half: `eccentric_to_true` on a hyperbola always returns a reachable anomaly: below the asymptote angle on
the outbound leg, or above 2 pi minus it on the inbound leg; and every reachable anomaly is returned for some argument. -/
theorem c45_range (g : Nat → FX) (e : ℝ) (h1 : 1 < e) :
    ∃ t, true_of_the_asymptote (fin e) false = fin t ∧
      (∀ F, ∃ nu, eccentric_to_true g (fl F) (fl e) false = .ok (fl nu) ∧
        ((0 ≤ nu ∧ nu < t) ∨ (2 * Real.pi - t < nu ∧ nu < 2 * Real.pi))) ∧
      (∀ nu, ((0 ≤ nu ∧ nu < t) ∨ (2 * Real.pi - t < nu ∧ nu < 2 * Real.pi)) →
        ∃ F, eccentric_to_true g (fl F) (fl e) false = .ok (fl nu)) := by
  refine ⟨_, asymptote_val h1, fun F => ?_, fun nu hnu => ?_⟩
  · refine ⟨_, by rw [eccentric_to_true_fl, eccentricToTrueSc_hyp h1]; rfl, ?_⟩
    set nu := turn (2 * Real.arctan ((hypFac e)⁻¹ * Real.tanh (F / 2))) with hnu
    have hb : 0 < 1 + e * Real.cos nu := by
      have hc := cos_half_arctan_turn ((hypFac e)⁻¹ * Real.tanh (F / 2))
      rw [← hnu] at hc
      rw [open_iff h1 hc, hnu, tan_half_arctan_turn, mul_inv_cancel_left₀ (hypFac_pos h1).ne', abs_lt]
      exact ⟨Real.neg_one_lt_tanh _, Real.tanh_lt_one _⟩
    have hm := turn_mem (2 * Real.arctan ((hypFac e)⁻¹ * Real.tanh (F / 2)))
    rw [← hnu] at hm
    rcases le_or_gt nu Real.pi with h | h
    · left
      obtain ⟨t, ht, -, -, hi⟩ := c45_asymptote e nu h1 (by rwa [abs_of_nonneg hm.1])
      rw [asymptote_val h1] at ht
      rw [fin_inj ht]
      have := hi.mp hb
      rw [abs_of_nonneg hm.1] at this
      exact ⟨hm.1, this⟩
    · right
      obtain ⟨t, ht, -, -, hi⟩ := c45_asymptote e (nu - 2 * Real.pi) h1 (by rw [abs_of_neg (by linarith)]; linarith)
      rw [asymptote_val h1] at ht
      rw [fin_inj ht]
      rw [Real.cos_sub_two_pi] at hi
      have := hi.mp hb
      rw [abs_of_neg (by linarith)] at this
      exact ⟨by linarith, hm.2⟩
  · have hb : 0 < 1 + e * Real.cos nu ∧ 0 ≤ nu ∧ nu < 2 * Real.pi := by
      have hle := Real.arccos_le_pi (-1 / e)
      rcases hnu with ⟨h, h'⟩ | ⟨h, h'⟩
      · obtain ⟨t, ht, -, htp, hi⟩ := c45_asymptote e nu h1 (by rw [abs_of_nonneg h]; linarith)
        rw [asymptote_val h1] at ht
        rw [fin_inj ht] at h'
        exact ⟨hi.mpr (by rwa [abs_of_nonneg h]), h, by linarith [Real.pi_pos]⟩
      · obtain ⟨t, ht, -, htp, hi⟩ := c45_asymptote e (nu - 2 * Real.pi) h1 (by rw [abs_of_neg (by linarith)]; linarith)
        rw [asymptote_val h1] at ht
        rw [fin_inj ht] at h
        rw [Real.cos_sub_two_pi] at hi
        exact ⟨hi.mpr (by rw [abs_of_neg (by linarith)]; linarith), by linarith [Real.pi_pos], h'⟩
    have hc := cos_half_of_open h1.le hb.1
    refine ⟨2 * Real.artanh (hypFac e * Real.tan (nu / 2)), ?_⟩
    rw [eccentric_to_true_fl, eccentricToTrueSc_hyp h1, mul_div_cancel_left₀ _ two_ne_zero,
      tanh_artanh' ((open_iff h1 hc).mp hb.1), inv_mul_cancel_left₀ (hypFac_pos h1).ne', turn_arctan_tan hc,
      turn_of_mem hb.2.1 hb.2.2]
    rfl

example : (1 : ℝ) < 2 ∧ |(1 : ℝ)| ≤ Real.pi := ⟨by norm_num, by simp; linarith [Real.pi_gt_three]⟩

end Pyorb
