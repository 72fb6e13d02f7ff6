import Verif.PropsCartHyp
import Verif.PropsOrbitRoundHyp

/-!
# Points of two nearby hyperbolas at later times

The elements that `cart_to_kep` computes describe a hyperbola near that of the state.  The mean anomalies of the point, and the states of equal hyperbolic anomaly.
-/

set_option linter.unusedVariables false

namespace Pyorb
open FX RF Matrix Orbit
variable {R : Rounding}

namespace CartKep

/-- every point of a branch has a hyperbolic anomaly -/
theorem hyp_anomaly {e nu : ℝ} (h1 : 1 < e) (hD : 0 < 1 + e * Real.cos nu) : ∃ E, SamePointHyp e nu E := by
  have hq : 0 < e - 1 := by linarith
  have h2 : Real.cos nu = 2 * Real.cos (nu / 2) ^ 2 - 1 := by rw [← Real.cos_two_mul]; ring_nf
  have hsc := Real.sin_sq_add_cos_sq (nu / 2)
  have hc : Real.cos (nu / 2) ≠ 0 := by
    intro h0
    rw [h0] at h2
    rw [h2] at hD
    linarith
  obtain ⟨x, hx⟩ : ∃ x, x = √((e - 1) / (e + 1)) * Real.tan (nu / 2) := ⟨_, rfl⟩
  have hx2 : x ^ 2 < 1 := by
    have hc2 : 0 < Real.cos (nu / 2) ^ 2 := by positivity
    rw [hx, mul_pow, Real.sq_sqrt (by positivity), Real.tan_eq_sin_div_cos, div_pow, div_mul_div_comm, div_lt_one (by positivity)]
    rw [h2] at hD
    nlinarith
  have hx1 : |x| < 1 := (sq_lt_one_iff_abs_lt_one _).mp hx2
  refine ⟨2 * Real.artanh x, hc, ?_⟩
  rw [mul_div_cancel_left₀ _ (two_ne_zero), tanh_artanh' hx1, hx, ← mul_assoc, ← Real.sqrt_mul (by positivity)]
  have : (e + 1) / (e - 1) * ((e - 1) / (e + 1)) = 1 := by
    have : e + 1 ≠ 0 := by linarith
    field_simp
  rw [this, Real.sqrt_one, one_mul]

/-- the hyperbola in terms of the hyperbolic anomaly -/
theorem hyp_point_eqs {e nu E : ℝ} (h1 : 1 < e) (hp : SamePointHyp e nu E) :
    0 < e * Real.cosh E - 1 ∧ (1 + e * Real.cos nu) * (e * Real.cosh E - 1) = e ^ 2 - 1 ∧ Real.sin nu * (e * Real.cosh E - 1) = √(e ^ 2 - 1) * Real.sinh E := by
  obtain ⟨p1, p2⟩ := hp.cos_sin h1
  exact ⟨hyp_denom_pos h1 E, by linear_combination e * p1, p2⟩

theorem sinh_le_cosh_abs (E : ℝ) : |Real.sinh E| ≤ Real.cosh E := by
  rw [abs_le]
  constructor
  · have := Real.exp_pos E
    rw [Real.sinh_eq, Real.cosh_eq]; linarith
  · exact (Real.sinh_lt_cosh E).le

/-- the hyperbolic sine as a function with derivative at least 1 -/
theorem sinh_expand (x y : ℝ) : |x - y| ≤ |Real.sinh x - Real.sinh y| := by
  wlog h : y ≤ x generalizing x y
  · rw [abs_sub_comm x y, abs_sub_comm (Real.sinh x)]; exact this y x (le_of_not_ge h)
  have h1 : Real.sinh y ≤ Real.sinh x := Real.sinh_le_sinh.mpr h
  have h2 : Real.sinh y - y ≤ Real.sinh x - x := Real.sinh_sub_id_strictMono.monotone h
  rw [abs_of_nonneg (by linarith), abs_of_nonneg (by linarith)]
  linarith

theorem sinh_le_two_mul {x : ℝ} (hx : 0 ≤ x) : Real.sinh x ≤ 2 * x * Real.cosh x := by
  have h1 := Real.add_one_le_exp (-(2 * x))
  have h2 : Real.exp (-x) = Real.exp x * Real.exp (-(2 * x)) := by rw [← Real.exp_add]; ring_nf
  have h3 := Real.exp_pos x
  have h4 := Real.exp_pos (-x)
  have h5 := mul_le_mul_of_nonneg_left h1 h3.le
  rw [← h2] at h5
  rw [Real.sinh_eq, Real.cosh_eq]
  nlinarith [mul_nonneg hx h4.le]

section
variable {k k' : Kep ℝ} {u r W t D T : ℝ} (h : NearHyp k k' u r W t D T)
include h

theorem NearHyp.denom'_pos : 0 < 1 + k'.e * Real.cos k'.nu := by linarith [h.denom', h.denom]

theorem NearHyp.sl' : 0 < k'.e ^ 2 - 1 := by nlinarith [h.e1']

theorem NearHyp.W1 : 1 < W := by linarith [h.e1, h.eW]

theorem NearHyp.e_le' : k'.e ≤ 1001 / 1000 * k.e := by linarith [(abs_le.mp h.e_near).2, h.e1]

theorem NearHyp.e_ge' : 999 / 1000 * k.e ≤ k'.e := by linarith [(abs_le.mp h.e_near).1, h.e1]

theorem NearHyp.T0 : 0 ≤ T := by
  obtain ⟨z, hz⟩ := h.anom
  exact (abs_nonneg _).trans hz

theorem NearHyp.D0 : 0 ≤ D := by
  obtain ⟨z1, z2, z3, hz⟩ := h.plane
  exact le_trans (by positivity) hz

/-- the factor `sqrt (e² - 1)` -/
theorem NearHyp.droot : 0 < √(k.e ^ 2 - 1) ∧ 0 < √(k'.e ^ 2 - 1) ∧ |√(k'.e ^ 2 - 1) - √(k.e ^ 2 - 1)| ≤ 1001 * t * √(k.e ^ 2 - 1) := by
  have h1 := Real.sqrt_pos.mpr h.sl
  have h2 := Real.sqrt_pos.mpr h.sl'
  refine ⟨h1, h2, ?_⟩
  have e1 := Real.sq_sqrt h.sl.le
  have e2 := Real.sq_sqrt h.sl'.le
  have h3 := h.dsl
  rw [← e1, ← e2] at h3
  generalize √(k.e ^ 2 - 1) = w at *
  generalize √(k'.e ^ 2 - 1) = w' at *
  have h4 : |w' - w| * (w' + w) ≤ 1001 * t * w * w := by
    have : |w' - w| * (w' + w) = |w' ^ 2 - w ^ 2| := by
      rw [show w' ^ 2 - w ^ 2 = (w' - w) * (w' + w) by ring, abs_mul, abs_of_pos (show 0 < w' + w by linarith)]
    rw [this]
    linarith
  refine le_of_mul_le_mul_right (le_trans ?_ h4) h1
  exact mul_le_mul_of_nonneg_left (by linarith) (abs_nonneg _)

theorem NearHyp.root_near : 998 / 1000 * √(k.e ^ 2 - 1) ≤ √(k'.e ^ 2 - 1) ∧ √(k'.e ^ 2 - 1) ≤ 1002 / 1000 * √(k.e ^ 2 - 1) := by
  obtain ⟨h1, h2, h3⟩ := h.droot
  have h4 := mul_le_mul_of_nonneg_right h.small h1.le
  have h5 := abs_le.mp h3
  constructor <;> linarith

variable {E E' : ℝ} (hp : SamePointHyp k.e k.nu E) (hp' : SamePointHyp k'.e k'.nu E')
include hp

theorem NearHyp.W_eq : W = k.e * Real.cosh E := by
  obtain ⟨q0, q1, -⟩ := hyp_point_eqs h.e1 hp
  have hr : r = k.a * (k.e * Real.cosh E - 1) := by
    have : r * (1 + k.e * Real.cos k.nu) = k.a * (k.e * Real.cosh E - 1) * (1 + k.e * Real.cos k.nu) := by
      rw [h.dist]; linear_combination -k.a * q1
    exact mul_right_cancel₀ h.denom.ne' this
  rw [h.hW, hr, mul_div_cancel_left₀ _ h.a_pos.ne']; ring

include hp'

theorem NearHyp.dQ : |(k'.e * Real.cosh E' - 1) - (k.e * Real.cosh E - 1)| ≤ 3370 * t * (k.e * Real.cosh E - 1) := by
  obtain ⟨q0, q1, -⟩ := hyp_point_eqs h.e1 hp
  obtain ⟨q0', q1', -⟩ := hyp_point_eqs h.e1' hp'
  have hsl := h.dsl
  have hdd := h.ddenom
  have hd' := h.denom'
  have hd := h.denom
  have ht0 := h.t0
  rw [← q1, ← q1'] at hsl
  generalize k.e * Real.cosh E - 1 = Q at *
  generalize k'.e * Real.cosh E' - 1 = Q' at *
  generalize 1 + k.e * Real.cos k.nu = d at *
  generalize 1 + k'.e * Real.cos k'.nu = d' at *
  have hd'0 : 0 < d' := by linarith
  have e1 : |Q' - Q| * d' ≤ 3351 * t * (d * Q) := by
    rw [show |Q' - Q| * d' = |(Q' - Q) * d'| by rw [abs_mul, abs_of_pos hd'0], show (Q' - Q) * d' = (d' * Q' - d * Q) - Q * (d' - d) by ring]
    refine (abs_sub _ _).trans ?_
    rw [abs_mul Q, abs_of_pos q0]
    have := mul_le_mul_of_nonneg_left hdd q0.le
    linarith
  refine le_of_mul_le_mul_right (e1.trans ?_) hd'0
  have e2 := mul_le_mul_of_nonneg_left hd' (show 0 ≤ 3370 * t * Q by positivity)
  have e3 : 0 ≤ t * (d * Q) := by positivity
  linarith

/-- the hyperbolic sines of the anomalies -/
theorem NearHyp.dsinh : |Real.sinh E' - Real.sinh E| ≤ 1005 / 1000 * (W / √(k.e ^ 2 - 1)) * T + 4400 * t * (W / k.e) := by
  have hW := h.W_eq hp
  have hdQ := h.dQ hp hp'
  have he0 : 0 < k.e := by linarith [h.e1]
  have hWe : W / k.e = Real.cosh E := by rw [hW, mul_div_cancel_left₀ _ he0.ne']
  obtain ⟨q0, -, q2⟩ := hyp_point_eqs h.e1 hp
  obtain ⟨q0', -, q2'⟩ := hyp_point_eqs h.e1' hp'
  obtain ⟨w0, w0', dw⟩ := h.droot
  obtain ⟨n1, n2⟩ := h.root_near
  have ht0 := h.t0
  have hts := h.small
  have hT0 := h.T0
  have hsE := sinh_le_cosh_abs E
  obtain ⟨z, hz⟩ := h.anom
  have hsin : |Real.sin k'.nu - Real.sin k.nu| ≤ T := by
    have := (Real.abs_sin_sub_sin_le k'.nu (k.nu + z * (2 * Real.pi))).trans hz
    rwa [Real.sin_add_int_mul_two_pi] at this
  rw [hWe]
  have hQW : k.e * Real.cosh E - 1 ≤ W := by linarith
  clear hW hWe hz
  generalize k.e * Real.cosh E - 1 = Q at *
  generalize k'.e * Real.cosh E' - 1 = Q' at *
  generalize √(k.e ^ 2 - 1) = w at *
  generalize √(k'.e ^ 2 - 1) = w' at *
  generalize Real.cosh E = C at *
  generalize Real.sinh E = S at *
  generalize Real.sinh E' = S' at *
  generalize Real.sin k.nu = s at *
  generalize Real.sin k'.nu = s' at *
  have hX : |Q' / w' - Q / w| ≤ 4390 * t * (Q / w) := by
    have e1 : Q' / w' - Q / w = ((Q' - Q) * w - Q * (w' - w)) / (w' * w) := by field_simp; ring
    rw [e1, abs_div, abs_of_pos (show 0 < w' * w by positivity), div_le_iff₀ (by positivity)]
    refine (abs_sub _ _).trans ?_
    rw [abs_mul, abs_mul, abs_of_pos w0, abs_of_pos q0]
    have e2 := mul_le_mul_of_nonneg_right hdQ w0.le
    have e3 := mul_le_mul_of_nonneg_left dw q0.le
    have e4 : 4390 * t * (Q / w) * (w' * w) = 4390 * t * Q * w' := by field_simp
    rw [e4]
    have e5 := mul_le_mul_of_nonneg_left n1 (show 0 ≤ 4390 * t * Q by positivity)
    have e6 : 0 ≤ t * Q * w := by positivity
    linarith
  have hS : S = s * (Q / w) := by rw [mul_div_assoc', q2, mul_div_cancel_left₀ _ w0.ne']
  have hS' : S' = s' * (Q' / w') := by rw [mul_div_assoc', q2', mul_div_cancel_left₀ _ w0'.ne']
  have hX0 : 0 < Q / w := by positivity
  have hX0' : 0 < Q' / w' := by positivity
  have hXW : Q / w ≤ W / w := by gcongr
  generalize Q / w = X at *
  generalize Q' / w' = X' at *
  have hX1 : X' ≤ 1005 / 1000 * X := by
    have := mul_le_mul_of_nonneg_right hts hX0.le
    linarith [(abs_le.mp hX).2]
  have e1 : |s| * |X' - X| ≤ 4390 * t * |S| := by
    have := mul_le_mul_of_nonneg_left hX (abs_nonneg s)
    have e2 : |S| = |s| * X := by rw [hS, abs_mul, abs_of_pos hX0]
    rw [e2]; linarith
  have e3 : |s' - s| * X' ≤ T * (1005 / 1000 * (W / w)) := mul_le_mul hsin (by linarith) hX0'.le hT0
  have e4 := mul_le_mul_of_nonneg_left hsE ht0
  have e5 : S' - S = (s' - s) * X' + s * (X' - X) := by rw [hS, hS']; ring
  rw [e5]
  refine (abs_add_le _ _).trans ?_
  rw [abs_mul, abs_mul, abs_of_pos hX0']
  have e6 : 0 ≤ t * C := by have := (abs_nonneg _).trans hsE; positivity
  linarith

/-- the mean anomalies -/
theorem NearHyp.dmean : |(k'.e * Real.sinh E' - E') - (k.e * Real.sinh E - E)| ≤ 203 / 100 * (k.e * W / √(k.e ^ 2 - 1)) * T + 9200 * t * W := by
  have hW := h.W_eq hp
  have h1 := h.e1
  have he0 : 0 < k.e := by linarith
  have hd := h.dsinh hp hp'
  have hx := (sinh_expand E' E).trans hd
  have he := h.e_le'
  have hde := h.de
  have hec := h.scale.ecc
  have ht0 := h.t0
  have hT0 := h.T0
  have hW1 := h.W1
  obtain ⟨w0, -, -⟩ := h.droot
  have hsE : |Real.sinh E| * k.e ≤ W := by
    have := mul_le_mul_of_nonneg_right (sinh_le_cosh_abs E) he0.le
    rw [hW]; linarith
  obtain ⟨B, hB⟩ : ∃ B, B = 1005 / 1000 * (W / √(k.e ^ 2 - 1)) * T + 4400 * t * (W / k.e) := ⟨_, rfl⟩
  rw [← hB] at hd hx
  have hB0 : 0 ≤ B := (abs_nonneg _).trans hd
  have hkB : k.e * B = 1005 / 1000 * (k.e * W / √(k.e ^ 2 - 1)) * T + 4400 * t * W := by rw [hB]; field_simp
  have e1 : (k'.e * Real.sinh E' - E') - (k.e * Real.sinh E - E) = k'.e * (Real.sinh E' - Real.sinh E) + (k'.e - k.e) * Real.sinh E - (E' - E) := by ring
  have e2 : |k'.e * (Real.sinh E' - Real.sinh E)| ≤ 1001 / 1000 * (k.e * B) := by
    rw [abs_mul, abs_of_pos (by linarith [h.e1'])]
    have := mul_le_mul he hd (abs_nonneg _) (by linarith)
    linarith
  have e3 : |(k'.e - k.e) * Real.sinh E| ≤ 250 * (t * W) := by
    rw [abs_mul]
    have a1 := mul_le_mul_of_nonneg_right (hde.trans (mul_le_mul_of_nonneg_left hec (by norm_num))) (abs_nonneg (Real.sinh E))
    have a2 := mul_le_mul_of_nonneg_left hsE ht0
    linarith
  have e4 : B ≤ k.e * B := le_mul_of_one_le_left hB0 h1.le
  have e5 : 0 ≤ k.e * W / √(k.e ^ 2 - 1) * T := by positivity
  have e6 : 0 ≤ t * W := by positivity
  rw [e1]
  rw [abs_le] at e2 e3 hx ⊢
  constructor <;> linarith

theorem NearHyp.cosh_le : Real.cosh E' ≤ 1006 / 1000 * (W / k.e) := by
  have hW := h.W_eq hp
  have he0 : 0 < k.e := by linarith [h.e1]
  have hWe : W / k.e = Real.cosh E := by rw [hW, mul_div_cancel_left₀ _ he0.ne']
  obtain ⟨q0, -, -⟩ := hyp_point_eqs h.e1 hp
  have h2 := (abs_le.mp (h.dQ hp hp')).2
  have h3 := mul_le_mul_of_nonneg_right h.small q0.le
  have h4 := mul_le_mul_of_nonneg_right h.e_ge' (show 0 ≤ Real.cosh E' by linarith [Real.one_le_cosh E'])
  rw [hWe]
  refine le_of_mul_le_mul_left ?_ he0
  linarith

end

/-! ## The states of equal hyperbolic anomaly -/

/-- the same combination of the axes of two planes -/
theorem plane_close {k k' : Kep ℝ} {D : ℝ}
    (hD : ∃ z1 z2 z3 : ℤ, |k'.OM - (k.OM + z3 * (2 * Real.pi))| + |k'.i - (k.i + z1 * (2 * Real.pi))| + |k'.om - (k.om + z2 * (2 * Real.pi))| ≤ D)
    {X Y X' Y' B β γ : ℝ} (hB : |X'| + |Y'| ≤ B) (hX : |X' - X| ≤ β) (hY : |Y' - Y| ≤ γ) {w w' : Fin 3 → ℝ}
    (e0 : w 0 = k.px * X + k.qx * Y) (e1 : w 1 = k.py * X + k.qy * Y) (e2 : w 2 = k.pz * X + k.qz * Y)
    (e0' : w' 0 = k'.px * X' + k'.qx * Y') (e1' : w' 1 = k'.py * X' + k'.qy * Y') (e2' : w' 2 = k'.pz * X' + k'.qz * Y') :
    vlen (w' - w) ≤ 4 * D * B + (β + γ) := by
  obtain ⟨z1, z2, z3, hD⟩ := hD
  obtain ⟨k1, hk1⟩ : ∃ k1 : Kep ℝ, k1 = { k with i := k.i + z1 * (2 * Real.pi), om := k.om + z2 * (2 * Real.pi), OM := k.OM + z3 * (2 * Real.pi) } := ⟨_, rfl⟩
  obtain ⟨⟨p1, p2, p3⟩, q1, q2, q3⟩ := Orbit.WideDeg.plane_lip k' k1
  have up : ∀ {x : ℝ}, x ≤ 2 * (|k'.OM - k1.OM| + |k'.i - k1.i| + |k'.om - k1.om|) → x ≤ 2 * D := fun h => h.trans (by
    rw [hk1]; show 2 * (|k'.OM - (k.OM + z3 * (2 * Real.pi))| + |k'.i - (k.i + z1 * (2 * Real.pi))| + |k'.om - (k.om + z2 * (2 * Real.pi))|) ≤ _; linarith)
  have ep : k1.px = k.px ∧ k1.py = k.py ∧ k1.pz = k.pz ∧ k1.qx = k.qx ∧ k1.qy = k.qy ∧ k1.qz = k.qz := by
    rw [hk1]
    simp only [Kep.px, Kep.py, Kep.pz, Kep.qx, Kep.qy, Kep.qz, Real.cos_add_int_mul_two_pi, Real.sin_add_int_mul_two_pi, and_self]
  obtain ⟨E1, E2, E3, E4, E5, E6⟩ := ep
  rw [E1] at p1; rw [E2] at p2; rw [E3] at p3; rw [E4] at q1; rw [E5] at q2; rw [E6] at q3
  have f1 : vlen ![k'.px * X' + k'.qx * Y' - (k.px * X' + k.qx * Y'), k'.py * X' + k'.qy * Y' - (k.py * X' + k.qy * Y'), k'.pz * X' + k'.qz * Y' - (k.pz * X' + k.qz * Y')] ≤ 4 * D * B := by
    refine (vlen_le (B := 2 * D * B) ?_).trans (le_of_eq (by ring))
    intro i
    fin_cases i
    · exact Orbit.WideDeg.comb_lip (up p1) (up q1) hB
    · exact Orbit.WideDeg.comb_lip (up p2) (up q2) hB
    · exact Orbit.WideDeg.comb_lip (up p3) (up q3) hB
  have f2 := vlen_plane_le k (u := ![k.px * (X' - X) + k.qx * (Y' - Y), k.py * (X' - X) + k.qy * (Y' - Y), k.pz * (X' - X) + k.qz * (Y' - Y)]) rfl rfl rfl hX hY
  have hsum : w' - w = ![k'.px * X' + k'.qx * Y' - (k.px * X' + k.qx * Y'), k'.py * X' + k'.qy * Y' - (k.py * X' + k.qy * Y'), k'.pz * X' + k'.qz * Y' - (k.pz * X' + k.qz * Y')] +
      ![k.px * (X' - X) + k.qx * (Y' - Y), k.py * (X' - X) + k.qy * (Y' - Y), k.pz * (X' - X) + k.qz * (Y' - Y)] := by
    ext i
    fin_cases i <;> simp [e0, e1, e2, e0', e1', e2'] <;> ring
  rw [hsum]
  exact (vlen_add_le _ _).trans (add_le_add f1 f2)

section
variable {k k' : Kep ℝ} {u r W t D T : ℝ} (h : NearHyp k k' u r W t D T)
include h

/-- the mean motions -/
theorem NearHyp.dmotion {mu : ℝ} (hmu : 0 < mu) : |√(mu / k'.a ^ 3) - √(mu / k.a ^ 3)| ≤ 620 * t * √(mu / k.a ^ 3) := by
  have ha := h.a_pos
  have ha' := h.a_pos'
  have ht0 := h.t0
  have hts := h.small
  obtain ⟨n0, n1⟩ := motion_pos hmu ha
  obtain ⟨n0', n1'⟩ := motion_pos hmu ha'
  have hda := h.da
  have hL : |k'.a ^ 3 - k.a ^ 3| ≤ 600 * t * k.a ^ 3 := by
    have hle : k'.a ≤ 1002 / 1000 * k.a := by
      have := mul_le_mul_of_nonneg_right hts ha.le
      linarith [(abs_le.mp hda).2]
    have e1 : k'.a ^ 3 - k.a ^ 3 = (k'.a - k.a) * (k'.a ^ 2 + k'.a * k.a + k.a ^ 2) := by ring
    rw [e1, abs_mul, abs_of_pos (show 0 < k'.a ^ 2 + k'.a * k.a + k.a ^ 2 by positivity)]
    have e2 : k'.a ^ 2 + k'.a * k.a + k.a ^ 2 ≤ 301 / 100 * k.a ^ 2 := by nlinarith
    have e3 := mul_le_mul hda e2 (by positivity) (by positivity)
    have e4 : 0 ≤ t * k.a ^ 3 := by positivity
    linarith
  have := inv_sqrt_near n0 n0' (show 0 < k.a ^ 3 by positivity) n1 n1' hL (by linarith)
  have e4 : 0 ≤ t * √(mu / k.a ^ 3) := by positivity
  linarith

set_option maxHeartbeats 1000000 in
/-- the states of equal hyperbolic anomaly on the two hyperbolas -/
theorem NearHyp.same_anomaly {mu : ℝ} (hmu : 0 < mu) (G : ℝ) :
    vlen ((hyperbolaState k' √(mu / k'.a ^ 3) G).r - (hyperbolaState k √(mu / k.a ^ 3) G).r) ≤ k.a * (k.e * Real.cosh G) * (13 * D + 2100 * t) ∧
    vlen ((hyperbolaState k' √(mu / k'.a ^ 3) G).v - (hyperbolaState k √(mu / k.a ^ 3) G).v) ≤ k.a * √(mu / k.a ^ 3) * √((k.e + 1) / (k.e - 1)) * (9 * D + 3700 * t) := by
  have ha := h.a_pos
  have ha' := h.a_pos'
  have ht0 := h.t0
  have hts := h.small
  have h1 := h.e1
  have h1' := h.e1'
  have hD0 := h.D0
  have hq : 0 < k.e - 1 := by linarith
  obtain ⟨n0, -⟩ := motion_pos hmu ha
  obtain ⟨n0', -⟩ := motion_pos hmu ha'
  have dn := h.dmotion hmu
  have da := h.da
  have de := h.de'
  have hee := h.e_le'
  obtain ⟨w0, w0', dw⟩ := h.droot
  have hw2 := Real.sq_sqrt h.sl.le
  have hw2' := Real.sq_sqrt h.sl'.le
  obtain ⟨-, hwle⟩ := h.root_near
  have hC := Real.one_le_cosh G
  have hCS := Real.cosh_sq G
  have hS := sinh_le_cosh_abs G
  have hQ' := hyp_denom_pos h1' G
  have hQ := hyp_denom_pos h1 G
  have hale : k'.a ≤ 1001 / 1000 * k.a := by
    have := mul_le_mul_of_nonneg_right hts ha.le
    linarith [(abs_le.mp da).2]
  have hκ : √((k.e + 1) / (k.e - 1)) = (k.e + 1) / √(k.e ^ 2 - 1) := by
    rw [Real.sqrt_eq_iff_mul_self_eq_of_pos (by positivity)]
    rw [div_mul_div_comm, ← pow_two √(k.e ^ 2 - 1), hw2]
    have : k.e ^ 2 - 1 ≠ 0 := h.sl.ne'
    field_simp
    ring
  rw [hκ]
  unfold hyperbolaState
  generalize √(mu / k.a ^ 3) = n at *
  generalize √(mu / k'.a ^ 3) = n' at *
  generalize √(k.e ^ 2 - 1) = w at *
  generalize √(k'.e ^ 2 - 1) = w' at *
  generalize Real.cosh G = C at *
  generalize Real.sinh G = S at *
  generalize k.e = e at *
  generalize k'.e = e' at *
  have hwe : w ≤ e := by nlinarith
  have he0 : 0 < e := by linarith
  constructor
  · have hZ1 : e ≤ e * C := le_mul_of_one_le_right he0.le hC
    have hZ2 : C ≤ e * C := le_mul_of_one_le_left (by linarith) h1.le
    have hZ3 : w * |S| ≤ e * C := mul_le_mul hwe hS (abs_nonneg _) he0.le
    have hX : |k'.a * (e' - C) - k.a * (e - C)| ≤ 900 * t * (k.a * (e * C)) := by
      rw [show k'.a * (e' - C) - k.a * (e - C) = (k'.a - k.a) * (e' - C) + k.a * (e' - e) by ring]
      refine (abs_add_le _ _).trans ?_
      rw [abs_mul, abs_mul, abs_of_pos ha]
      have a1 : |e' - C| ≤ 2001 / 1000 * (e * C) := by rw [abs_le]; constructor <;> linarith
      have a2 := mul_le_mul da a1 (abs_nonneg _) (by positivity)
      have a3 := mul_le_mul_of_nonneg_left de ha.le
      have a4 := mul_le_mul_of_nonneg_left (show e - 1 ≤ e * C by linarith) (show 0 ≤ t * k.a by positivity)
      have a5 : 0 ≤ t * k.a * (e * C) := by positivity
      linarith
    have hY : |k'.a * w' * S - k.a * w * S| ≤ 1200 * t * (k.a * (e * C)) := by
      rw [show k'.a * w' * S - k.a * w * S = ((k'.a - k.a) * w' + k.a * (w' - w)) * S by ring, abs_mul]
      have a1 : |(k'.a - k.a) * w' + k.a * (w' - w)| ≤ 1195 * t * (k.a * w) := by
        refine (abs_add_le _ _).trans ?_
        rw [abs_mul, abs_mul, abs_of_pos ha, abs_of_pos w0']
        have b1 := mul_le_mul da hwle w0'.le (by positivity)
        have b2 := mul_le_mul_of_nonneg_left dw ha.le
        have b3 : 0 ≤ t * (k.a * w) := by positivity
        linarith
      have a2 := mul_le_mul_of_nonneg_right a1 (abs_nonneg S)
      have a3 := mul_le_mul_of_nonneg_left hZ3 (show 0 ≤ t * k.a by positivity)
      have a5 : 0 ≤ t * k.a * (e * C) := by positivity
      linarith
    have hB : |k'.a * (e' - C)| + |k'.a * w' * S| ≤ 302 / 100 * (k.a * (e * C)) := by
      rw [abs_mul, abs_mul, abs_mul, abs_of_pos ha', abs_of_pos w0']
      have a1 : |e' - C| ≤ 2001 / 1000 * (e * C) := by rw [abs_le]; constructor <;> linarith
      have a2 : w' * |S| ≤ 1002 / 1000 * (e * C) := by
        have := mul_le_mul_of_nonneg_right hwle (abs_nonneg S)
        linarith
      have a3 := mul_le_mul hale (show |e' - C| + w' * |S| ≤ 3003 / 1000 * (e * C) by linarith) (by positivity) (by positivity)
      have a5 : 0 ≤ k.a * (e * C) := by positivity
      linarith
    refine (plane_close h.plane hB hX hY (w := (planeState k _ _ _ _).r) (w' := (planeState k' _ _ _ _).r) rfl rfl rfl rfl rfl rfl).trans ?_
    have a5 : 0 ≤ k.a * (e * C) * D := by positivity
    linarith
  · have hV0 : 0 < k.a * n * ((e + 1) / w) := by positivity
    -- a n / Q
    have hCq : (e - 1) * C ≤ e * C - 1 := by linarith
    have hSw : |S| * w ≤ e * C - 1 := by
      refine abs_le_of_sq_le_sq' ?_ hQ.le |>.2
      rw [mul_pow, sq_abs]
      nlinarith [sq_nonneg (e - C)]
    have dQ : |(e' * C - 1) - (e * C - 1)| ≤ 500 * t * (e * C - 1) := by
      rw [show (e' * C - 1) - (e * C - 1) = (e' - e) * C by ring, abs_mul, abs_of_pos (show 0 < C by linarith)]
      have b1 := mul_le_mul_of_nonneg_right de (show 0 ≤ C by linarith)
      have b2 := mul_le_mul_of_nonneg_left hCq (show 0 ≤ 500 * t by linarith)
      linarith
    have dan : |k'.a * n' - k.a * n| ≤ 820 * t * (k.a * n) := by
      rw [show k'.a * n' - k.a * n = (k'.a - k.a) * n + k'.a * (n' - n) by ring]
      refine (abs_add_le _ _).trans ?_
      rw [abs_mul, abs_mul, abs_of_pos n0, abs_of_pos ha']
      have b1 := mul_le_mul_of_nonneg_right da n0.le
      have b2 := mul_le_mul hale dn (abs_nonneg _) (by positivity)
      have b3 : 0 ≤ t * (k.a * n) := by positivity
      linarith
    obtain ⟨f, hf⟩ : ∃ f, f = k.a * n / (e * C - 1) := ⟨_, rfl⟩
    obtain ⟨f', hf'⟩ : ∃ f', f' = k'.a * n' / (e' * C - 1) := ⟨_, rfl⟩
    have f0 : 0 < f := by rw [hf]; positivity
    have f0' : 0 < f' := by rw [hf']; positivity
    have ef : f * (e * C - 1) = k.a * n := by rw [hf]; field_simp
    have ef' : f' * (e' * C - 1) = k'.a * n' := by rw [hf']; field_simp
    have hU : -(k.a * n * S) / (e * C - 1) = -(f * S) := by rw [hf]; ring
    have hU' : -(k'.a * n' * S) / (e' * C - 1) = -(f' * S) := by rw [hf']; ring
    have hV : k.a * n * w * C / (e * C - 1) = f * w * C := by rw [hf]; ring
    have hV' : k'.a * n' * w' * C / (e' * C - 1) = f' * w' * C := by rw [hf']; ring
    rw [hU, hU', hV, hV']
    have hQge : 999 / 1000 * (e * C - 1) ≤ e' * C - 1 := by
      have := mul_le_mul_of_nonneg_right hts hQ.le
      linarith [(abs_le.mp dQ).1]
    have df : |f' - f| ≤ 1330 * t * f := by
      have b1 : |f' - f| * (e' * C - 1) ≤ 1320 * t * (f * (e * C - 1)) := by
        rw [show |f' - f| * (e' * C - 1) = |(f' - f) * (e' * C - 1)| by rw [abs_mul, abs_of_pos hQ'],
          show (f' - f) * (e' * C - 1) = (k'.a * n' - k.a * n) - f * ((e' * C - 1) - (e * C - 1)) by rw [← ef, ← ef']; ring]
        refine (abs_sub _ _).trans ?_
        rw [abs_mul f, abs_of_pos f0]
        have b2 := mul_le_mul_of_nonneg_left dQ f0.le
        rw [← ef] at dan
        rw [← ef]
        linarith
      refine le_of_mul_le_mul_right (b1.trans ?_) hQ'
      have b3 := mul_le_mul_of_nonneg_left hQge (show 0 ≤ 1330 * t * f by positivity)
      have b4 : 0 ≤ t * (f * (e * C - 1)) := by positivity
      linarith
    have fle : f' ≤ 1002 / 1000 * f := by
      have := mul_le_mul_of_nonneg_right hts f0.le
      linarith [(abs_le.mp df).2]
    have bS : f * |S| ≤ k.a * n * ((e + 1) / w) := by
      have b1 := mul_le_mul_of_nonneg_left hSw f0.le
      have b2 : f * |S| ≤ k.a * n / w := by rw [le_div_iff₀ w0]; linarith
      refine b2.trans ?_
      rw [mul_div_assoc', div_le_div_iff_of_pos_right w0]
      exact le_mul_of_one_le_right (by positivity) (by linarith)
    have bC : f * w * C ≤ k.a * n * ((e + 1) / w) := by
      have b1 := mul_le_mul_of_nonneg_left hCq f0.le
      rw [mul_div_assoc', le_div_iff₀ w0]
      have b2 : f * w * C * w = (e + 1) * (f * ((e - 1) * C)) := by linear_combination f * C * hw2
      rw [b2]
      have b3 := mul_le_mul_of_nonneg_left b1 (show 0 ≤ e + 1 by linarith)
      rw [ef] at b3
      linarith
    generalize k.a * n * ((e + 1) / w) = V at *
    have hX : |(-(f' * S)) - (-(f * S))| ≤ 1330 * t * V := by
      rw [show (-(f' * S)) - (-(f * S)) = -((f' - f) * S) by ring, abs_neg, abs_mul]
      have b1 := mul_le_mul_of_nonneg_right df (abs_nonneg S)
      have b2 := mul_le_mul_of_nonneg_left bS ht0
      linarith
    have hY : |f' * w' * C - f * w * C| ≤ 2340 * t * V := by
      rw [show f' * w' * C - f * w * C = ((f' - f) * w' + f * (w' - w)) * C by ring, abs_mul, abs_of_pos (show 0 < C by linarith)]
      have b0 : |(f' - f) * w' + f * (w' - w)| ≤ 2340 * t * (f * w) := by
        refine (abs_add_le _ _).trans ?_
        rw [abs_mul, abs_mul, abs_of_pos f0, abs_of_pos w0']
        have b1 := mul_le_mul df hwle w0'.le (by positivity)
        have b2 := mul_le_mul_of_nonneg_left dw f0.le
        have b3 : 0 ≤ t * (f * w) := by positivity
        linarith
      have b1 := mul_le_mul_of_nonneg_right b0 (show 0 ≤ C by linarith)
      have b2 := mul_le_mul_of_nonneg_left bC ht0
      linarith
    have hB : |-(f' * S)| + |f' * w' * C| ≤ 202 / 100 * V := by
      rw [abs_neg, abs_mul, abs_of_pos f0', abs_of_pos (show 0 < f' * w' * C by positivity)]
      have b1 := mul_le_mul_of_nonneg_right fle (abs_nonneg S)
      have b2 := mul_le_mul_of_nonneg_right (mul_le_mul fle hwle w0'.le (by positivity)) (show 0 ≤ C by linarith)
      linarith
    refine (plane_close h.plane hB hX hY (w := (planeState k _ _ _ _).v) (w' := (planeState k' _ _ _ _).v) rfl rfl rfl rfl rfl rfl).trans ?_
    have a5 : 0 ≤ V * D := by positivity
    have a6 : 0 ≤ V * t := by positivity
    linarith

end

end CartKep
end Pyorb
