import Verif.PropsRoundKep
import Verif.PropsFormula

/-!
# Scalar formulas and rotation matrices with rounding (C71)
-/

namespace Pyorb
open FX RF
variable {R : Rounding}

theorem period_rel {a mu : ℝ} (ha : 0 < a) (hmu : 0 < mu) : Rel (11 / 2) (orbital_period (num R a) (num R mu)) (2 * Real.pi * √(a ^ 3 / mu)) := by
  have h1 := (((Rel.num (R := R) a).mul (Rel.num a)).mul (Rel.num a)).div (Rel.num mu) hmu.ne'
  rw [show a * a * a = a ^ 3 by ring] at h1
  have h2 := ((Rel.num (R := R) 2).mul Rel.pi).mul (h1.sqrt (by positivity))
  unfold orbital_period cube
  rw [two_num]
  exact h2.mono (by norm_num)

/-- C71, period: the computed period has a relative error of at most `exp (6 u) - 1` -/
theorem c71_period {a mu : ℝ} (ha : 0 < a) (hmu : 0 < mu) :
    ∃ P, orbital_period (num R a) (num R mu) = num R P ∧
      |P - 2 * Real.pi * √(a ^ 3 / mu)| ≤ (Real.exp (6 * R.u) - 1) * (2 * Real.pi * √(a ^ 3 / mu)) := by
  obtain ⟨P, hP, h3, -⟩ := ((period_rel (R := R) ha hmu).mono (k := 6) (by norm_num)).near (B := 2 * Real.pi * √(a ^ 3 / mu))
    (by rw [abs_of_nonneg (by positivity)])
  exact ⟨P, hP, h3⟩

theorem axis_rel {P mu k : ℝ} {p : RF R} (hmu : 0 < mu) (h : Rel k p P) :
    Rel (2 / 3 * k + 11 / 3) (semi_major_axis p (num R mu)) (((P / (2 * Real.pi)) ^ 2 * mu) ^ (1 / 3 : ℝ)) := by
  have h1 := h.div ((Rel.num (R := R) 2).mul Rel.pi) (by positivity)
  have h2 := ((h1.mul h1).mul (Rel.num mu)).cbrt (mul_nonneg (mul_self_nonneg _) hmu.le)
  rw [← pow_two] at h2
  unfold semi_major_axis sq
  rw [two_num]
  exact h2.mono (by linarith)

/-- C71, semi-major axis: relative error of at most `exp (4 u) - 1` -/
theorem c71_axis {P mu : ℝ} (hmu : 0 < mu) :
    ∃ a, semi_major_axis (num R P) (num R mu) = num R a ∧
      |a - ((P / (2 * Real.pi)) ^ 2 * mu) ^ (1 / 3 : ℝ)| ≤ (Real.exp (4 * R.u) - 1) * ((P / (2 * Real.pi)) ^ 2 * mu) ^ (1 / 3 : ℝ) := by
  obtain ⟨a, h1, h2, -⟩ := ((axis_rel (R := R) hmu (Rel.num P)).mono (k := 4) (by norm_num)).near
    (B := ((P / (2 * Real.pi)) ^ 2 * mu) ^ (1 / 3 : ℝ)) (by rw [abs_of_nonneg (by positivity)])
  exact ⟨a, h1, h2⟩

/-- C71, round trip: the semi-major axis computed from the computed period -/
theorem c71_period_axis {a mu : ℝ} (ha : 0 < a) (hmu : 0 < mu) :
    ∃ a', semi_major_axis (orbital_period (num R a) (num R mu)) (num R mu) = num R a' ∧ |a' - a| ≤ (Real.exp (8 * R.u) - 1) * a := by
  have h1 := axis_rel hmu (period_rel (R := R) ha hmu)
  have e : (((2 * Real.pi * √(a ^ 3 / mu)) / (2 * Real.pi)) ^ 2 * mu) ^ (1 / 3 : ℝ) = a := by
    rw [mul_div_cancel_left₀ _ (by positivity), Real.sq_sqrt (by positivity), div_mul_cancel₀ _ hmu.ne', ← Real.rpow_natCast, ← Real.rpow_mul ha.le]
    norm_num
  rw [e] at h1
  obtain ⟨a', h2, h3, -⟩ := (h1.mono (k := 8) (by norm_num)).near (B := a) (by rw [abs_of_pos ha])
  exact ⟨a', h2, h3⟩

/-- C71, radius: the error of `elliptic_radius` is at most `exp (4 u) - 1` times the apoapsis distance -/
theorem c71_radius {E a e : ℝ} (ha : 0 ≤ a) (h0 : 0 ≤ e) :
    ∃ r, elliptic_radius (num R E) (num R a) (num R e) false = num R r ∧
      |r - a * (1 - e * Real.cos E)| ≤ (Real.exp (4 * R.u) - 1) * (a * (1 + e)) := by
  have h1 := ((Rel.num (R := R) e).mul (Rel.cos E)).near (B := e) (by
    rw [abs_mul, abs_of_nonneg h0]; exact mul_le_of_le_one_right h0 (Real.abs_cos_le_one _))
  have h2 := Near.sub (((Rel.num (R := R) 1).near (B := 1) (by norm_num)).mono (k := 2) (by norm_num) (by norm_num) le_rfl)
    (h1.mono (k := 2) (by norm_num) (by norm_num) le_rfl)
  have h3 := ((Rel.num (R := R) a).near (B := a) (by rw [abs_of_nonneg ha])).mul h2
  obtain ⟨r, h4, h5, -⟩ := h3.mono (k := 4) (by norm_num) (by norm_num) le_rfl
  refine ⟨r, ?_, h5⟩
  unfold elliptic_radius
  rw [one_num]
  exact h4

/-- C71, speed: the relative error of `orbital_speed`; `c` is the condition number of `2/r - 1/a` -/
theorem c71_speed {r a mu c : ℝ} (hr : 0 < r) (ha : a ≠ 0) (hmu : 0 < mu) (hv : 0 < 2 / r - 1 / a) (hc1 : 1 ≤ c)
    (hc : 2 / r + 1 / |a| ≤ c * (2 / r - 1 / a)) (hs : 8 * c * R.u ≤ 1) :
    ∃ v, orbital_speed (num R r) (num R a) (num R mu) = num R v ∧
      |v - √(mu * (2 / r - 1 / a))| ≤ (Real.exp (4 * c * R.u) - 1) * √(mu * (2 / r - 1 / a)) := by
  have h1 := ((Rel.num (R := R) 2).div (Rel.num r) hr.ne').near (B := 2 / r) (by rw [abs_of_pos (by positivity)])
  have h2 := ((Rel.num (R := R) 1).div (Rel.num a) ha).near (B := 1 / |a|) (by rw [abs_div, abs_one])
  have h3 := (h1.sub h2).rel (c := c) (by norm_num) (by rw [abs_of_pos hv]; exact hc) hc1 (by linarith)
  have h4 := ((Rel.num (R := R) mu).mul h3).sqrt (by positivity)
  obtain ⟨v, h5, h6, -⟩ := (h4.mono (k := 4 * c) (by linarith)).near (B := √(mu * (2 / r - 1 / a))) (by rw [abs_of_nonneg (Real.sqrt_nonneg _)])
  refine ⟨v, ?_, h6⟩
  unfold orbital_speed
  rw [two_num, one_num]
  exact h5

/-- C71, rotation matrix: every entry that `kep_to_cart` uses is within `2 (exp (6 u) - 1)` of that of the rotation `Rz(Omega) Rx(i) Rz(omega)` -/
theorem c71_rotation (inc omega Omega : ℝ) (i : Fin 3) (j : Fin 3) :
    ∃ x, euler_rotation_matrix (num R inc) (num R omega) (num R Omega) false i j = num R x ∧
      |x - (RZ Omega * RX inc * RZ omega) i j| ≤ (Real.exp (6 * R.u) - 1) * 2 := by
  have c1 := near_cos (R := R) Omega
  have s1 := near_sin (R := R) Omega
  have c2 := near_cos (R := R) inc
  have s2 := near_sin (R := R) inc
  obtain ⟨p1, p2, p3, q1, q2, q3⟩ := euler_near (R := R) ⟨0, 0, inc, omega, Omega, 0⟩
  have key : ∀ {a : RF R} {x y : ℝ}, Near 6 2 a x → x = y → ∃ z, a = num R z ∧ |z - y| ≤ (Real.exp (6 * R.u) - 1) * 2 := by
    rintro a x y ⟨z, h1, h2, -⟩ rfl
    exact ⟨z, h1, h2⟩
  fin_cases i <;> fin_cases j
  · exact key p1 (by simp [RZ, RX, Matrix.mul_apply, Fin.sum_univ_three, Kep.px]; ring)
  · exact key q1 (by simp [RZ, RX, Matrix.mul_apply, Fin.sum_univ_three, Kep.qx]; ring)
  · exact key ((near_two s1 s2).mono (by norm_num) (by norm_num) (by norm_num)) (by simp [RZ, RX, Matrix.mul_apply, Fin.sum_univ_three])
  · exact key p2 (by simp [RZ, RX, Matrix.mul_apply, Fin.sum_univ_three, Kep.py]; ring)
  · exact key q2 (by simp [RZ, RX, Matrix.mul_apply, Fin.sum_univ_three, Kep.qy]; ring)
  · exact key ((near_two c1.neg s2).mono (by norm_num) (by norm_num) (by norm_num)) (by simp [RZ, RX, Matrix.mul_apply, Fin.sum_univ_three])
  · exact key p3 (by simp [RZ, RX, Matrix.mul_apply, Fin.sum_univ_three, Kep.pz])
  · exact key q3 (by simp [RZ, RX, Matrix.mul_apply, Fin.sum_univ_three, Kep.qz]; ring)
  · exact key (c2.mono (by norm_num) (by norm_num) (by norm_num)) (by simp [RZ, RX, Matrix.mul_apply, Fin.sum_univ_three])

/-- C71 in double precision: the period is computed with a relative error below `1e-15` -/
theorem c71_binary64 {a mu : ℝ} (ha : 0 < a) (hmu : 0 < mu) :
    ∃ P, orbital_period (num Binary.binary64 a) (num _ mu) = num _ P ∧
      |P - 2 * Real.pi * √(a ^ 3 / mu)| ≤ 1 / 10 ^ 15 * (2 * Real.pi * √(a ^ 3 / mu)) := by
  obtain ⟨P, h1, h2⟩ := c71_period (R := Binary.binary64) ha hmu
  refine ⟨P, h1, h2.trans (mul_le_mul_of_nonneg_right ?_ (by positivity))⟩
  have h3 : Real.exp (6 * Binary.binary64.u) - 1 ≤ 4 / 3 * (6 * (1 / 2) ^ 53) := exp_sub_one_le (t := 6 * (1 / 2) ^ 53) (by positivity) (by norm_num)
  refine h3.trans ?_
  norm_num

/-- a case of `c71_speed`: a circular orbit -/
example : 2 / (1 : ℝ) + 1 / |(1 : ℝ)| ≤ 3 * (2 / 1 - 1 / 1) := by norm_num

end Pyorb
