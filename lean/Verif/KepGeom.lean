import Verif.KepReal
import Mathlib.Tactic.FieldSimp

/-!
# Geometry of the state built from Keplerian elements (real arithmetic)

Proof helpers: distance, speed, angular momentum, eccentricity vector and energy of `Kep.state`.
-/

namespace Pyorb
namespace Kep
variable (mu : ℝ) (k : Kep ℝ)

theorem p_norm : k.px ^ 2 + k.py ^ 2 + k.pz ^ 2 = 1 := by
  have h1 := Real.sin_sq_add_cos_sq k.om
  have h2 := Real.sin_sq_add_cos_sq k.OM
  have h3 := Real.sin_sq_add_cos_sq k.i
  unfold px py pz
  linear_combination h1 + Real.cos k.om ^ 2 * h2 + Real.sin k.om ^ 2 * Real.cos k.i ^ 2 * h2 + Real.sin k.om ^ 2 * h3

theorem q_norm : k.qx ^ 2 + k.qy ^ 2 + k.qz ^ 2 = 1 := by
  have h1 := Real.sin_sq_add_cos_sq k.om
  have h2 := Real.sin_sq_add_cos_sq k.OM
  have h3 := Real.sin_sq_add_cos_sq k.i
  unfold qx qy qz
  linear_combination h1 + Real.sin k.om ^ 2 * h2 + Real.cos k.om ^ 2 * Real.cos k.i ^ 2 * h2 + Real.cos k.om ^ 2 * h3

theorem pq_dot : k.px * k.qx + k.py * k.qy + k.pz * k.qz = 0 := by
  have h2 := Real.sin_sq_add_cos_sq k.OM
  have h3 := Real.sin_sq_add_cos_sq k.i
  unfold px py pz qx qy qz
  linear_combination (-(Real.cos k.om * Real.sin k.om) + Real.cos k.i ^ 2 * Real.cos k.om * Real.sin k.om) * h2
    + Real.cos k.om * Real.sin k.om * h3

theorem pq_cross_x : k.py * k.qz - k.pz * k.qy = k.wx := by
  have h1 := Real.sin_sq_add_cos_sq k.om
  unfold py pz qy qz wx
  linear_combination Real.sin k.OM * Real.sin k.i * h1
theorem pq_cross_y : k.pz * k.qx - k.px * k.qz = k.wy := by
  have h1 := Real.sin_sq_add_cos_sq k.om
  unfold px pz qx qz wy
  linear_combination -Real.cos k.OM * Real.sin k.i * h1
theorem pq_cross_z : k.px * k.qy - k.py * k.qx = k.wz := by
  have h1 := Real.sin_sq_add_cos_sq k.om
  have h2 := Real.sin_sq_add_cos_sq k.OM
  unfold px py qx qy wz
  linear_combination Real.cos k.i * h1 + Real.cos k.i * (Real.sin k.om ^ 2 + Real.cos k.om ^ 2) * h2

theorem w_norm : k.wx ^ 2 + k.wy ^ 2 + k.wz ^ 2 = 1 := by
  have h2 := Real.sin_sq_add_cos_sq k.OM
  have h3 := Real.sin_sq_add_cos_sq k.i
  unfold wx wy wz
  linear_combination Real.sin k.i ^ 2 * h2 + h3

/-- squared length of a vector in the orbital plane -/
theorem plane_norm (s t : ℝ) :
    (k.px * s + k.qx * t) ^ 2 + (k.py * s + k.qy * t) ^ 2 + (k.pz * s + k.qz * t) ^ 2 = s ^ 2 + t ^ 2 := by
  linear_combination s ^ 2 * k.p_norm + t ^ 2 * k.q_norm + 2 * s * t * k.pq_dot

/-- dot product of two vectors in the orbital plane -/
theorem plane_dot (s t u w : ℝ) :
    (k.px * s + k.qx * t) * (k.px * u + k.qx * w) + (k.py * s + k.qy * t) * (k.py * u + k.qy * w)
      + (k.pz * s + k.qz * t) * (k.pz * u + k.qz * w) = s * u + t * w := by
  linear_combination s * u * k.p_norm + t * w * k.q_norm + (s * w + t * u) * k.pq_dot

variable {mu k}

/-- the admissible elements: semi-major axis (or periapsis distance) positive, point on the physical branch -/
structure Adm (mu : ℝ) (k : Kep ℝ) : Prop where
  hmu : 0 < mu
  ha : 0 < k.a
  he : 0 ≤ k.e
  hc : 0 < 1 + k.e * Real.cos k.nu

theorem Adm.slr (h : Adm mu k) : 0 < k.slr := k.slr_pos h.ha h.he
theorem Adm.hm (h : Adm mu k) : 0 < k.hm mu := k.hm_pos mu h.hmu h.ha h.he
theorem Adm.hm_sq (h : Adm mu k) : k.hm mu ^ 2 = mu * k.slr := k.hm_sq mu h.hmu h.ha h.he
theorem Adm.rad (h : Adm mu k) : 0 < k.rad := div_pos h.slr h.hc

theorem Adm.state_rn (h : Adm mu k) : (k.state mu).rn = k.rad := by
  unfold Cart.rn Kep.state
  rw [k.plane_norm]
  have : k.rx ^ 2 + k.ry ^ 2 = k.rad ^ 2 := by
    unfold rx ry; linear_combination k.rad ^ 2 * Real.sin_sq_add_cos_sq k.nu
  rw [this, Real.sqrt_sq h.rad.le]

theorem Adm.state_vn_sq (h : Adm mu k) :
    (k.state mu).vn ^ 2 = mu / k.slr * (1 + 2 * k.e * Real.cos k.nu + k.e ^ 2) := by
  unfold Cart.vn Kep.state
  rw [Real.sq_sqrt (by positivity), k.plane_norm]
  have h1 : (mu / k.hm mu) ^ 2 = mu / k.slr := by
    rw [div_pow, h.hm_sq]; have := h.hmu.ne'; have := h.slr.ne'; field_simp
  unfold ux uy
  rw [← h1]
  linear_combination (mu / k.hm mu) ^ 2 * Real.sin_sq_add_cos_sq k.nu

theorem Adm.flat_h (h : Adm mu k) : k.rx * k.uy mu - k.ry * k.ux mu = k.hm mu := by
  have h1 : k.rad * (1 + k.e * Real.cos k.nu) = k.slr := div_mul_cancel₀ _ h.hc.ne'
  have h2 : k.slr * (mu / k.hm mu) = k.hm mu := by
    have := h.hm.ne'
    field_simp; rw [h.hm_sq]; ring
  unfold rx ry ux uy
  linear_combination k.rad * (mu / k.hm mu) * Real.sin_sq_add_cos_sq k.nu + (mu / k.hm mu) * h1 + h2

theorem Adm.state_hx (h : Adm mu k) : (k.state mu).hx = k.hm mu * k.wx := by
  unfold Cart.hx Kep.state
  rw [← h.flat_h, ← k.pq_cross_x]; ring
theorem Adm.state_hy (h : Adm mu k) : (k.state mu).hy = k.hm mu * k.wy := by
  unfold Cart.hy Kep.state
  rw [← h.flat_h, ← k.pq_cross_y]; ring
theorem Adm.state_hz (h : Adm mu k) : (k.state mu).hz = k.hm mu * k.wz := by
  unfold Cart.hz Kep.state
  rw [← h.flat_h, ← k.pq_cross_z]; ring

theorem Adm.state_hn (h : Adm mu k) : (k.state mu).hn = k.hm mu := by
  unfold Cart.hn
  rw [h.state_hx, h.state_hy, h.state_hz]
  have : (k.hm mu * k.wx) ^ 2 + (k.hm mu * k.wy) ^ 2 + (k.hm mu * k.wz) ^ 2 = k.hm mu ^ 2 := by
    linear_combination k.hm mu ^ 2 * k.w_norm
  rw [this, Real.sqrt_sq h.hm.le]

theorem Adm.state_rv (h : Adm mu k) : (k.state mu).rv = k.rad * (mu / k.hm mu) * (k.e * Real.sin k.nu) := by
  have _ := h
  unfold Cart.rv Kep.state
  rw [k.plane_dot]
  unfold rx ry ux uy; ring

end Kep

/-- `rn * vr = r . v` -/
theorem Cart.rn_mul_vr (c : Cart ℝ) (hr : 0 < c.rn) : c.rn * c.vr = c.rv := by
  unfold Cart.vr Cart.rv
  have := hr.ne'
  field_simp

namespace Kep
variable {mu : ℝ} {k : Kep ℝ}

theorem Adm.mu_rad (h : Adm mu k) : mu / k.rad = mu / k.slr * (1 + k.e * Real.cos k.nu) := by
  have h1 := h.hc.ne'; have := h.slr.ne'
  unfold Kep.rad; field_simp

theorem Adm.hm_div (h : Adm mu k) : (mu / k.hm mu) ^ 2 = mu / k.slr := by
  rw [div_pow, h.hm_sq]; have := h.hmu.ne'; have := h.slr.ne'; field_simp

/-- the eccentricity vector in the orbital plane -/
theorem Adm.ev_flat (h : Adm mu k) :
    ((k.state mu).vn ^ 2 - mu / k.rad) * k.rx - (k.state mu).rv * k.ux mu = mu * k.e ∧
    ((k.state mu).vn ^ 2 - mu / k.rad) * k.ry - (k.state mu).rv * k.uy mu = 0 := by
  have h1 := h.hc.ne'
  have h2 := h.slr.ne'
  have e1 : k.rad * (mu / k.hm mu) ^ 2 * (1 + k.e * Real.cos k.nu) = mu := by
    rw [h.hm_div]; unfold Kep.rad; field_simp
  rw [h.state_vn_sq, h.mu_rad, h.state_rv, ← h.hm_div]
  unfold rx ry ux uy
  have hs := Real.sin_sq_add_cos_sq k.nu
  constructor
  · linear_combination k.e * e1 + k.rad * (mu / k.hm mu) ^ 2 * k.e * hs
  · ring

theorem Adm.state_ev (h : Adm mu k) : (k.state mu).evx mu = k.e * k.px ∧ (k.state mu).evy mu = k.e * k.py ∧
    (k.state mu).evz mu = k.e * k.pz := by
  have hrn : 0 < (k.state mu).rn := by rw [h.state_rn]; exact h.rad
  obtain ⟨f1, f2⟩ := h.ev_flat
  unfold Cart.evx Cart.evy Cart.evz
  rw [Cart.rn_mul_vr _ hrn, h.state_rn]
  have hm := h.hmu.ne'
  have key : ∀ P Q X V : ℝ, X = P * k.rx + Q * k.ry → V = P * k.ux mu + Q * k.uy mu →
      1 / mu * (((k.state mu).vn ^ 2 - mu / k.rad) * X - (k.state mu).rv * V) = k.e * P := by
    intro P Q X V hX hV
    have : ((k.state mu).vn ^ 2 - mu / k.rad) * X - (k.state mu).rv * V = mu * (k.e * P) := by
      rw [hX, hV]; linear_combination P * f1 + Q * f2
    rw [this]; field_simp
  exact ⟨key _ _ _ _ rfl rfl, key _ _ _ _ rfl rfl, key _ _ _ _ rfl rfl⟩

theorem Adm.state_ecc (h : Adm mu k) : (k.state mu).ecc mu = k.e := by
  obtain ⟨e1, e2, e3⟩ := h.state_ev
  unfold Cart.ecc
  rw [e1, e2, e3]
  have : (k.e * k.px) ^ 2 + (k.e * k.py) ^ 2 + (k.e * k.pz) ^ 2 = k.e ^ 2 := by
    linear_combination k.e ^ 2 * k.p_norm
  rw [this, Real.sqrt_sq h.he]

theorem Adm.state_eps (h : Adm mu k) : (k.state mu).eps mu = mu / k.slr * ((k.e ^ 2 - 1) / 2) := by
  unfold Cart.eps
  rw [h.state_vn_sq, h.state_rn, h.mu_rad]; ring

theorem Adm.state_vr (h : Adm mu k) : (k.state mu).vr = mu / k.hm mu * (k.e * Real.sin k.nu) := by
  have hrn : 0 < (k.state mu).rn := by rw [h.state_rn]; exact h.rad
  have := Cart.rn_mul_vr _ hrn
  rw [h.state_rn, h.state_rv] at this
  have h3 := h.rad.ne'
  apply mul_left_cancel₀ h3
  rw [this]; ring

end Kep
end Pyorb
