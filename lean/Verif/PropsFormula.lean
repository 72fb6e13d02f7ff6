import Verif.PropsRoundTrip
import Verif.PropsSolver
import Verif.OrbitNum

/-!
# C14, C16, C42: radius, period and apsis formulas
-/

set_option linter.unusedSimpArgs false

namespace Pyorb
open FX

/-! ## C14 -/

/-- C14 on an ellipse: with the orbit's own angular momentum `orbital_distance` equals `elliptic_radius` at the matching
eccentric anomaly (as computed by `true_to_eccentric`), for every true anomaly. -/
theorem c14_ellipse (g : Nat → FX) (mu a e nu : ℝ) (hmu : 0 < mu) (ha : 0 < a) (h0 : 0 ≤ e) (h1 : e < 1) :
    ∃ E r, true_to_eccentric g (fl nu) (fl e) false = .ok (fl E) ∧ elliptic_radius (fin E) (fin a) (fin e) false = fin r ∧
      orbital_distance (orbit_total_angular_momentum (fin a) (fin e) (fin mu)) (fin mu) (fin e) (fin nu) false = fin r := by
  refine ⟨scaleHalf (eliFac e) nu, a * (1 - e * Real.cos (scaleHalf (eliFac e) nu)), by
    rw [true_to_eccentric_fl, trueToEccentricSc_eli h0 h1]; rfl, by
    simp only [elliptic_radius, Bool.false_eq_true, if_false, cos_fin, mul_fin, one_fin, sub_fin], ?_⟩
  have hp : 0 ≤ mu * a * (1 - e ^ 2) := by
    have : 0 < 1 - e ^ 2 := by nlinarith
    positivity
  have hb : 0 < 1 + e * Real.cos nu := by nlinarith [Real.neg_one_le_cos nu]
  have hd : mu * (1 + e * Real.cos nu) ≠ 0 := (mul_pos hmu hb).ne'
  simp only [orbital_distance, orbit_total_angular_momentum, Bool.false_eq_true, if_false, cos_fin, mul_fin, one_fin, add_fin,
    sub_fin, sq_fin, sqrt_fin hp, div_fin hd, Real.sq_sqrt hp]
  congr 1
  by_cases hc : Real.cos (nu / 2) = 0
  · have hcn : Real.cos nu = -1 := by
      rw [← cos_turn, turn_of_pole hc, Real.cos_pi]
    have h2 : mu * (1 + e * -1) ≠ 0 := (mul_pos hmu (by linarith)).ne'
    rw [scaleHalf_pole hc, Real.cos_pi, hcn, div_eq_iff h2]
    ring
  rw [scaleHalf_of_ne hc, cos_turn, cos_two_arctan, mul_pow, eliFac_sq h0 h1, cos_of_tan_half hc]
  set t := Real.tan (nu / 2)
  have ht : 0 < 1 + t ^ 2 := by positivity
  have h2 : 0 < 1 + e := by linarith
  have h3 : 1 + (1 - e) / (1 + e) * t ^ 2 = ((1 + e) + (1 - e) * t ^ 2) / (1 + e) := by field_simp
  have h4 : 1 - (1 - e) / (1 + e) * t ^ 2 = ((1 + e) - (1 - e) * t ^ 2) / (1 + e) := by field_simp
  have h5 : 1 + e * ((1 - t ^ 2) / (1 + t ^ 2)) = ((1 + e) + (1 - e) * t ^ 2) / (1 + t ^ 2) := by field_simp; ring
  have h6 : 0 < (1 + e) + (1 - e) * t ^ 2 := by nlinarith [sq_nonneg t]
  rw [h3, h4, h5]
  field_simp
  ring

/-- C14 on a parabola with periapsis distance q. -/
theorem c14_parabola (mu q nu : ℝ) (hmu : 0 < mu) (hq : 0 < q) (hb : 0 < 1 + Real.cos nu) :
    ∃ r, parabolic_radius (fin nu) (fin q) false = fin r ∧
      orbital_distance (parabolic_total_angular_momentum (fin q) (fin mu)) (fin mu) (fin 1) (fin nu) false = fin r := by
  have hp : 0 ≤ mu * 2 * q := by positivity
  have hd : mu * (1 + 1 * Real.cos nu) ≠ 0 := by rw [one_mul]; exact (mul_pos hmu hb).ne'
  refine ⟨2 * q / (1 + Real.cos nu), ?_, ?_⟩
  · simp only [parabolic_radius, Bool.false_eq_true, if_false, cos_fin, ofNat_fin, mul_fin, one_fin, add_fin, div_fin hb.ne']
  · simp only [orbital_distance, parabolic_total_angular_momentum, Bool.false_eq_true, if_false, cos_fin, mul_fin, one_fin,
      add_fin, sub_fin, ofNat_fin, sq_fin, sqrt_fin hp, div_fin hd, Real.sq_sqrt hp]
    congr 1
    have := hb.ne'
    rw [one_mul]
    field_simp

/-- C14 on a hyperbola (the angular momentum function takes the negative semi-major axis, as `kep_to_cart` passes it). -/
theorem c14_hyperbola (mu a e nu : ℝ) (hmu : 0 < mu) (ha : 0 < a) (h1 : 1 < e) (hb : 0 < 1 + e * Real.cos nu) :
    ∃ r, hyperbolic_radius (fin nu) (fin a) (fin e) false = fin r ∧
      orbital_distance (orbit_total_angular_momentum (fin (-a)) (fin e) (fin mu)) (fin mu) (fin e) (fin nu) false = fin r := by
  have hp : 0 ≤ mu * -a * (1 - e ^ 2) := by
    have : 0 < e ^ 2 - 1 := by nlinarith
    have : 0 ≤ mu * a * (e ^ 2 - 1) := by positivity
    linarith
  have hd : mu * (1 + e * Real.cos nu) ≠ 0 := (mul_pos hmu hb).ne'
  refine ⟨a * (e ^ 2 - 1) / (1 + e * Real.cos nu), ?_, ?_⟩
  · simp only [hyperbolic_radius, Bool.false_eq_true, if_false, cos_fin, mul_fin, one_fin, add_fin, sub_fin, sq_fin,
      div_fin hb.ne']
  · simp only [orbital_distance, orbit_total_angular_momentum, Bool.false_eq_true, if_false, cos_fin, mul_fin, one_fin,
      add_fin, sub_fin, sq_fin, sqrt_fin hp, div_fin hd, Real.sq_sqrt hp]
    congr 1
    have := hb.ne'
    field_simp
    ring

example : 0 < 1 + Real.cos 1 ∧ 0 < 1 + 2 * Real.cos 1 := by
  constructor <;> linarith [Real.cos_one_pos]

/-! ## C16 -/

theorem orbital_period_fin {a mu : ℝ} (ha : 0 < a) (hmu : 0 < mu) :
    orbital_period (fin a) (fin mu) = fin (2 * Real.pi * √(a ^ 3 / mu)) := by
  have h : 0 ≤ a ^ 3 / mu := by positivity
  simp only [orbital_period, ofNat_fin, pi_fin, mul_fin, cube_fin, div_fin hmu.ne', sqrt_fin h]

theorem realCbrt_of_cube {x : ℝ} (h : 0 < x) : realCbrt (x ^ 3) = x := by
  have h1 := realCbrt_cube (x := x ^ 3) (by positivity)
  have h2 := realCbrt_pos (x := x ^ 3) (by positivity)
  exact (pow_left_inj₀ h2.le h.le (by norm_num)).mp h1

theorem semi_major_axis_fin (P mu : ℝ) :
    semi_major_axis (fin P) (fin mu) = fin (realCbrt ((P / (2 * Real.pi)) ^ 2 * mu)) := by
  simp only [semi_major_axis, ofNat_fin, pi_fin, mul_fin, div_fin Real.two_pi_pos.ne', sq_fin, cbrt_fin]

/-- C16: Kepler's third law, and `semi_major_axis` recovers the semi-major axis from the period. -/
theorem c16_period (a mu : ℝ) (ha : 0 < a) (hmu : 0 < mu) :
    ∃ P, orbital_period (fin a) (fin mu) = fin P ∧ 0 < P ∧ P ^ 2 * mu = 4 * Real.pi ^ 2 * a ^ 3 ∧
      semi_major_axis (fin P) (fin mu) = fin a := by
  have h : 0 < a ^ 3 / mu := by positivity
  have hp := Real.pi_pos
  refine ⟨_, orbital_period_fin ha hmu, by positivity, ?_, ?_⟩
  · rw [mul_pow, Real.sq_sqrt h.le]; field_simp; ring
  · rw [semi_major_axis_fin, mul_div_cancel_left₀ _ Real.two_pi_pos.ne', Real.sq_sqrt h.le, div_mul_cancel₀ _ hmu.ne',
      realCbrt_of_cube ha]

/-- C16, the other direction: `orbital_period` recovers the period from the semi-major axis. -/
theorem c16_axis (P mu : ℝ) (hP : 0 < P) (hmu : 0 < mu) :
    ∃ a, semi_major_axis (fin P) (fin mu) = fin a ∧ 0 < a ∧ P ^ 2 * mu = 4 * Real.pi ^ 2 * a ^ 3 ∧
      orbital_period (fin a) (fin mu) = fin P := by
  have hp := Real.pi_pos
  have hx : 0 < (P / (2 * Real.pi)) ^ 2 * mu := by positivity
  have h1 := realCbrt_cube hx.le
  have h2 := realCbrt_pos hx
  refine ⟨_, semi_major_axis_fin P mu, h2, ?_, ?_⟩
  · rw [h1]; field_simp; ring
  · rw [orbital_period_fin h2 hmu, h1, mul_div_cancel_right₀ _ hmu.ne', Real.sqrt_sq (by positivity),
      mul_div_cancel₀ _ Real.two_pi_pos.ne']

/-! ## C42 -/

/-- C42 on an ellipse: the distance of the state that `kep_to_cart` returns lies between `Orbit.periapsis` and `Orbit.apoapsis`,
with equality at true anomaly 0 and pi.  Missing: parabolas and hyperbolas, where the claim is false
(`c42_periapsis_wrong`). -/
theorem c42_ellipse_partial (g : Nat → FX) (mu : ℝ) (deg : Bool) (k : Kep ℝ) (hk : Physical mu (k.inRad deg)) (h1 : k.e < 1) :
    ∃ (c : Cart ℝ) (p q : ℝ), (kep_to_cart g (.sc (fin mu)) deg (.vec .f64 k.fx)).1 = .ok (.vec .f64 c.fx) ∧
      periapsisOf (fin k.e) (fin k.a) = fin p ∧ apoapsisOf (fin k.e) (fin k.a) = fin q ∧
      p ≤ vlen c.r ∧ vlen c.r ≤ q ∧ (Real.cos (k.inRad deg).nu = 1 → vlen c.r = p) ∧
      (Real.cos (k.inRad deg).nu = -1 → vlen c.r = q) := by
  obtain ⟨c, hc, hd⟩ := c03_kep_to_cart_vec g mu deg k hk
  have ha : 0 < k.a := hk.2.1
  have h0 : 0 ≤ k.e := hk.2.2.1
  have hb : 0 < 1 + k.e * Real.cos (k.inRad deg).nu := hk.2.2.2
  have hr : vlen c.r = k.a * (1 - k.e ^ 2) / (1 + k.e * Real.cos (k.inRad deg).nu) := by
    rw [hd.distance]
    have h3 : (k.inRad deg).e = k.e := rfl
    have h4 : (k.inRad deg).a = k.a := rfl
    rw [h3, h4, if_neg h1.ne, abs_of_pos (by nlinarith)]
  refine ⟨c, (1 - k.e) * k.a, (1 + k.e) * k.a, hc, by simp only [periapsisOf, one_fin, sub_fin, mul_fin],
    by simp only [apoapsisOf, one_fin, add_fin, mul_fin], ?_, ?_, ?_, ?_⟩
  · rw [hr, le_div_iff₀ hb]
    have : (1 - k.e) * k.a * (k.e * Real.cos (k.inRad deg).nu) ≤ (1 - k.e) * k.a * (k.e * 1) :=
      mul_le_mul_of_nonneg_left (mul_le_mul_of_nonneg_left (Real.cos_le_one _) h0) (by nlinarith)
    nlinarith
  · rw [hr, div_le_iff₀ hb]
    have : (1 + k.e) * k.a * (k.e * -1) ≤ (1 + k.e) * k.a * (k.e * Real.cos (k.inRad deg).nu) :=
      mul_le_mul_of_nonneg_left (mul_le_mul_of_nonneg_left (Real.neg_one_le_cos _) h0) (by positivity)
    nlinarith
  · intro h
    rw [hr, h]
    have : 1 + k.e * 1 ≠ 0 := by linarith
    field_simp
    ring
  · intro h
    rw [hr, h]
    have : 1 + k.e * -1 ≠ 0 := by linarith
    rw [div_eq_iff this]
    ring

/-- C42 fails on every hyperbola and parabola: `Orbit.periapsis` is negative (zero for a parabola) while the distance never
falls below the true periapsis distance `a(e-1)` (`a` for a parabola) and reaches it at anomaly 0. -/
theorem c42_periapsis_wrong (g : Nat → FX) (mu : ℝ) (deg : Bool) (k : Kep ℝ) (hk : Physical mu (k.inRad deg)) (h1 : 1 ≤ k.e) :
    ∃ (c : Cart ℝ) (p rp : ℝ), (kep_to_cart g (.sc (fin mu)) deg (.vec .f64 k.fx)).1 = .ok (.vec .f64 c.fx) ∧
      periapsisOf (fin k.e) (fin k.a) = fin p ∧ p < rp ∧ rp = (if k.e = 1 then k.a else k.a * (k.e - 1)) ∧ p ≤ 0 ∧
      rp ≤ vlen c.r ∧ (Real.cos (k.inRad deg).nu = 1 → vlen c.r = rp) := by
  obtain ⟨c, hc, hd⟩ := c03_kep_to_cart_vec g mu deg k hk
  have ha : 0 < k.a := hk.2.1
  have hb : 0 < 1 + k.e * Real.cos (k.inRad deg).nu := hk.2.2.2
  have h3 : (k.inRad deg).e = k.e := rfl
  have h4 : (k.inRad deg).a = k.a := rfl
  have hr := hd.distance
  rw [h3, h4] at hr
  refine ⟨c, (1 - k.e) * k.a, _, hc, by simp only [periapsisOf, one_fin, sub_fin, mul_fin], ?_, rfl, ?_, ?_, ?_⟩
  · split_ifs with h
    · rw [h]; linarith
    · nlinarith [lt_of_le_of_ne h1 (Ne.symm h)]
  · nlinarith
  · rw [hr, le_div_iff₀ hb]
    by_cases h : k.e = 1
    · simp only [h, if_true]
      nlinarith [Real.cos_le_one (k.inRad deg).nu]
    · simp only [if_neg h]
      have h5 : 1 < k.e := lt_of_le_of_ne h1 (Ne.symm h)
      rw [abs_of_neg (by nlinarith)]
      have : k.a * (k.e - 1) * (k.e * Real.cos (k.inRad deg).nu) ≤ k.a * (k.e - 1) * (k.e * 1) :=
        mul_le_mul_of_nonneg_left (mul_le_mul_of_nonneg_left (Real.cos_le_one _) (by linarith)) (by nlinarith)
      nlinarith
  · intro hcos
    rw [hr, hcos]
    by_cases h : k.e = 1
    · simp only [h, if_true]; ring
    · simp only [if_neg h]
      have h5 : 1 < k.e := lt_of_le_of_ne h1 (Ne.symm h)
      rw [abs_of_neg (by nlinarith)]
      have : 1 + k.e * 1 ≠ 0 := by linarith
      field_simp
      ring

/-- concrete elements for both theorems (see also `example_ellipse`, `example_hyperbola`) -/
example : Physical 1 (Kep.inRad false ⟨7000, 1 / 10, 1, 2, 3, 0⟩) ∧ Physical 1 (Kep.inRad false ⟨2, 3, 1, 1, 0, 0⟩) := by
  constructor <;> refine ⟨by norm_num, by simp [Kep.inRad], by simp [Kep.inRad], ?_⟩ <;>
    simp [Kep.inRad, angleOf] <;> norm_num

end Pyorb
