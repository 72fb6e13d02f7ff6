import Verif.PropsRoundTrip
import Verif.KepSurj

/-!
# C74: symmetries of `kep_to_cart` and `cart_to_kep`

Turning the node turns the state, whole turns of an angle change nothing, changing the unit of length or the central mass
scales the state, and reversing the motion reverses the elements; the same for the way back.
-/

namespace Pyorb
open FX

attribute [local ext] Cart

/-! ## Spec -/

/-- both vectors turned about the z axis by `φ` -/
noncomputable def Cart.turnZ (φ : ℝ) (c : Cart ℝ) : Cart ℝ :=
  ⟨Real.cos φ * c.x - Real.sin φ * c.y, Real.sin φ * c.x + Real.cos φ * c.y, c.z,
   Real.cos φ * c.vx - Real.sin φ * c.vy, Real.sin φ * c.vx + Real.cos φ * c.vy, c.vz⟩
/-- position times `s`, velocity times `t` -/
def Cart.scaled (s t : ℝ) (c : Cart ℝ) : Cart ℝ := ⟨s * c.x, s * c.y, s * c.z, t * c.vx, t * c.vy, t * c.vz⟩
/-- the same point passed in the opposite direction -/
def Cart.reversed (c : Cart ℝ) : Cart ℝ := ⟨c.x, c.y, c.z, -c.vx, -c.vy, -c.vz⟩
/-- the mirror image in the reference plane -/
def Cart.mirrored (c : Cart ℝ) : Cart ℝ := ⟨c.x, c.y, -c.z, c.vx, c.vy, -c.vz⟩

/-! ## `kep_to_cart` -/

section KepToCart
variable {mu : ℝ} {k : Kep ℝ}

/-- `kep_to_cart` in radians on one column -/
theorem ktc (h : k.Adm mu) (gh : FX) : (kepToCart gh .f64 (fin mu) false k.fx).1 = (k.state mu).fx := by
  simp only [kepToCart, Bool.false_eq_true, if_false]
  rw [kepToCartCol_eq gh mu k h.hmu h.ha h.he h.hc.ne']

/-- Turning the ascending node by `φ` turns position and velocity by `φ` about the z axis. -/
theorem c74_node (h : k.Adm mu) (gh : FX) (φ : ℝ) :
    ∃ c : Cart ℝ, (kepToCart gh .f64 (fin mu) false k.fx).1 = c.fx ∧
      (kepToCart gh .f64 (fin mu) false ({ k with OM := k.OM + φ } : Kep ℝ).fx).1 = (c.turnZ φ).fx := by
  refine ⟨_, ktc h gh, ?_⟩
  have h' : ({ k with OM := k.OM + φ } : Kep ℝ).Adm mu := ⟨h.hmu, h.ha, h.he, h.hc⟩
  rw [ktc h' gh]
  congr 1
  simp only [Kep.state, Cart.turnZ, Kep.px, Kep.py, Kep.pz, Kep.qx, Kep.qy, Kep.qz, Kep.rx, Kep.ry, Kep.ux, Kep.uy, Kep.rad,
    Kep.hm, Kep.slr, Real.cos_add, Real.sin_add]
  ext <;> simp only [] <;> ring

/-- Whole turns added to any of the angles change nothing. -/
theorem c74_turns (h : k.Adm mu) (gh : FX) (n1 n2 n3 n4 : ℤ) :
    (kepToCart gh .f64 (fin mu) false (⟨k.a, k.e, k.i + n1 * (2 * Real.pi), k.om + n2 * (2 * Real.pi),
      k.OM + n3 * (2 * Real.pi), k.nu + n4 * (2 * Real.pi)⟩ : Kep ℝ).fx).1 =
    (kepToCart gh .f64 (fin mu) false k.fx).1 := by
  have h' : (⟨k.a, k.e, k.i + n1 * (2 * Real.pi), k.om + n2 * (2 * Real.pi), k.OM + n3 * (2 * Real.pi),
      k.nu + n4 * (2 * Real.pi)⟩ : Kep ℝ).Adm mu :=
    ⟨h.hmu, h.ha, h.he, by simp only [Real.cos_add_int_mul_two_pi]; exact h.hc⟩
  rw [ktc h' gh, ktc h gh]
  congr 1
  simp only [Kep.state, Kep.px, Kep.py, Kep.pz, Kep.qx, Kep.qy, Kep.qz, Kep.rx, Kep.ry, Kep.ux, Kep.uy, Kep.rad, Kep.hm, Kep.slr,
    Real.cos_add_int_mul_two_pi, Real.sin_add_int_mul_two_pi]

/-- A size `s` times as large around a centre of `q` times the strength: distances are multiplied by `s`, velocities by
`√(q/s)`. -/
theorem c74_scale (h : k.Adm mu) (gh : FX) {s q : ℝ} (hs : 0 < s) (hq : 0 < q) :
    ∃ c : Cart ℝ, (kepToCart gh .f64 (fin mu) false k.fx).1 = c.fx ∧
      (kepToCart gh .f64 (fin (q * mu)) false ({ k with a := s * k.a } : Kep ℝ).fx).1 = (c.scaled s (√(q / s))).fx := by
  refine ⟨_, ktc h gh, ?_⟩
  have h' : ({ k with a := s * k.a } : Kep ℝ).Adm (q * mu) := ⟨mul_pos hq h.hmu, mul_pos hs h.ha, h.he, h.hc⟩
  rw [ktc h' gh]
  congr 1
  have e1 : ({ k with a := s * k.a } : Kep ℝ).slr = s * k.slr := by
    unfold Kep.slr; dsimp only; split_ifs <;> ring
  have hp := h.slr
  have e2 : q * mu / ({ k with a := s * k.a } : Kep ℝ).hm (q * mu) = √(q / s) * (mu / k.hm mu) := by
    have t1 := h'.hm
    have t2 := h.hm
    have t3 : 0 < √(q / s) := Real.sqrt_pos.mpr (by positivity)
    rw [div_eq_iff t1.ne']
    have e3 : √(q / s) * ({ k with a := s * k.a } : Kep ℝ).hm (q * mu) = q * k.hm mu := by
      unfold Kep.hm
      rw [e1, ← Real.sqrt_mul (by positivity), show q / s * (q * mu * (s * k.slr)) = q ^ 2 * (mu * k.slr) by field_simp,
        Real.sqrt_mul (by positivity), Real.sqrt_sq hq.le]
    calc q * mu = mu / k.hm mu * (q * k.hm mu) := by field_simp
      _ = mu / k.hm mu * (√(q / s) * ({ k with a := s * k.a } : Kep ℝ).hm (q * mu)) := by rw [e3]
      _ = _ := by ring
  have e4 : ({ k with a := s * k.a } : Kep ℝ).rad = s * k.rad := by
    unfold Kep.rad; rw [e1]; ring
  simp only [Kep.state, Cart.scaled, Kep.rx, Kep.ry, Kep.ux, Kep.uy, e2, e4]
  simp only [Kep.px, Kep.py, Kep.pz, Kep.qx, Kep.qy, Kep.qz]
  ext <;> simp only [] <;> ring

/-- The same orbit in the opposite direction. -/
theorem c74_reverse (h : k.Adm mu) (gh : FX) :
    ∃ c : Cart ℝ, (kepToCart gh .f64 (fin mu) false k.fx).1 = c.fx ∧
      (kepToCart gh .f64 (fin mu) false
        (⟨k.a, k.e, Real.pi - k.i, Real.pi - k.om, k.OM + Real.pi, -k.nu⟩ : Kep ℝ).fx).1 = c.reversed.fx := by
  refine ⟨_, ktc h gh, ?_⟩
  have h' : (⟨k.a, k.e, Real.pi - k.i, Real.pi - k.om, k.OM + Real.pi, -k.nu⟩ : Kep ℝ).Adm mu :=
    ⟨h.hmu, h.ha, h.he, by simp only [Real.cos_neg]; exact h.hc⟩
  rw [ktc h' gh]
  congr 1
  simp only [Kep.state, Cart.reversed, Kep.px, Kep.py, Kep.pz, Kep.qx, Kep.qy, Kep.qz, Kep.rx, Kep.ry, Kep.ux, Kep.uy, Kep.rad,
    Kep.hm, Kep.slr, Real.cos_pi_sub, Real.sin_pi_sub, Real.cos_add_pi, Real.sin_add_pi, Real.cos_neg, Real.sin_neg]
  ext <;> simp only [] <;> ring

/-- The mirror image in the reference plane has node and periapsis half a turn further. -/
theorem c74_mirror (h : k.Adm mu) (gh : FX) :
    ∃ c : Cart ℝ, (kepToCart gh .f64 (fin mu) false k.fx).1 = c.fx ∧
      (kepToCart gh .f64 (fin mu) false
        (⟨k.a, k.e, k.i, k.om + Real.pi, k.OM + Real.pi, k.nu⟩ : Kep ℝ).fx).1 = c.mirrored.fx := by
  refine ⟨_, ktc h gh, ?_⟩
  have h' : (⟨k.a, k.e, k.i, k.om + Real.pi, k.OM + Real.pi, k.nu⟩ : Kep ℝ).Adm mu := ⟨h.hmu, h.ha, h.he, h.hc⟩
  rw [ktc h' gh]
  congr 1
  simp only [Kep.state, Cart.mirrored, Kep.px, Kep.py, Kep.pz, Kep.qx, Kep.qy, Kep.qz, Kep.rx, Kep.ry, Kep.ux, Kep.uy, Kep.rad,
    Kep.hm, Kep.slr, Real.cos_add_pi, Real.sin_add_pi]
  ext <;> simp only [] <;> ring

end KepToCart

/-! ## `cart_to_kep` -/

section CartToKep
variable {mu : ℝ} {c c' : Cart ℝ}

/-- `cart_to_kep` in radians on one column -/
theorem ctk (g : CtkGarbage FX) (hmu : 0 < mu) (hh : 0 < c.hn) : cartToKep g .f64 (fin mu) false c.fx =
    ⟨c.ctkA mu, fin (c.ecc mu), fin c.inc, fin (c.ctkOm mu), fin c.ctkOM, fin (c.ctkNu mu)⟩ := by
  simp only [cartToKep, Bool.false_eq_true, if_false]
  exact cartToKepCol_eq g mu c hmu.ne' (c.rn_pos hh) hh

/-- eccentricity from |r|, |v| and r.v -/
theorem Cart.ecc_sq_eq (hmu : 0 < mu) (hh : 0 < c.hn) :
    c.ecc mu ^ 2 = ((c.vn ^ 2 - mu / c.rn) ^ 2 * c.rn ^ 2 - 2 * (c.vn ^ 2 - mu / c.rn) * c.rv ^ 2 + c.rv ^ 2 * c.vn ^ 2) / mu ^ 2 := by
  have hr := c.rn_mul_vr (c.rn_pos hh)
  rw [Cart.ecc_sq, eq_div_iff (by positivity)]
  unfold Cart.evx Cart.evy Cart.evz
  rw [hr]
  have h1 := c.rn_sq
  have h2 := c.vn_sq
  have h3 : c.rv = c.x * c.vx + c.y * c.vy + c.z * c.vz := rfl
  set w := c.vn ^ 2 - mu / c.rn with hw
  clear_value w
  rw [h1, h2]
  field_simp
  linear_combination (2 * w * c.rv) * h3

theorem Cart.ecc_congr (hmu : 0 < mu) (hh : 0 < c.hn) (hh' : 0 < c'.hn) (hr : c.rn = c'.rn) (hv : c.vn = c'.vn)
    (hrv : c.rv ^ 2 = c'.rv ^ 2) : c.ecc mu = c'.ecc mu := by
  have h1 := c.ecc_sq_eq (mu := mu) hmu hh
  have h2 := c'.ecc_sq_eq (mu := mu) hmu hh'
  rw [hr, hv, hrv, ← h2] at h1
  exact (sq_eq_sq₀ (Real.sqrt_nonneg _) (Real.sqrt_nonneg _)).mp h1

theorem Cart.A_congr (he : c.ecc mu = c'.ecc mu) (hr : c.rn = c'.rn) (hv : c.vn = c'.vn) : c.ctkA mu = c'.ctkA mu := by
  unfold Cart.ctkA Cart.eps; rw [he, hr, hv]

/-- The cosine of the true anomaly depends on |r|, |v| and r.v only. -/
theorem Cart.nu_congr (hmu : 0 < mu) (hh : 0 < c.hn) (hh' : 0 < c'.hn) (he : c.ecc mu = c'.ecc mu) (hr : c.rn = c'.rn)
    (hn : c.hn = c'.hn) :
    (c.evx mu * c.x + c.evy mu * c.y + c.evz mu * c.z) / (c.ecc mu * c.rn) =
    (c'.evx mu * c'.x + c'.evy mu * c'.y + c'.evz mu * c'.z) / (c'.ecc mu * c'.rn) := by
  have h1 := c.ev_dot_r hmu hh
  have h2 := c'.ev_dot_r hmu hh'
  rw [hn, hr, ← h2] at h1
  rw [he, hr, mul_left_cancel₀ hmu.ne' h1]

theorem Cart.hn_congr (hr : c.rn = c'.rn) (hv : c.vn = c'.vn) (hrv : c.rv ^ 2 = c'.rv ^ 2) : c.hn = c'.hn := by
  have h1 := c.lagrange
  rw [hr, hv, hrv, ← c'.lagrange] at h1
  exact (sq_eq_sq₀ (Real.sqrt_nonneg _) (Real.sqrt_nonneg _)).mp h1

/-- Semi-major axis and eccentricity depend on |r|, |v| and r.v only, in particular not on the orientation; above the
circular limit the same holds for the true anomaly. -/
theorem c74_orientation (g : CtkGarbage FX) (hmu : 0 < mu) (hh : 0 < c.hn)
    (hr : c.x ^ 2 + c.y ^ 2 + c.z ^ 2 = c'.x ^ 2 + c'.y ^ 2 + c'.z ^ 2)
    (hv : c.vx ^ 2 + c.vy ^ 2 + c.vz ^ 2 = c'.vx ^ 2 + c'.vy ^ 2 + c'.vz ^ 2)
    (hrv : c.x * c.vx + c.y * c.vy + c.z * c.vz = c'.x * c'.vx + c'.y * c'.vy + c'.z * c'.vz) :
    (cartToKep g .f64 (fin mu) false c.fx).a = (cartToKep g .f64 (fin mu) false c'.fx).a ∧
    (cartToKep g .f64 (fin mu) false c.fx).e = (cartToKep g .f64 (fin mu) false c'.fx).e ∧
    ((e_lim <ᵇ (cartToKep g .f64 (fin mu) false c.fx).e) = true →
      (cartToKep g .f64 (fin mu) false c.fx).nu = (cartToKep g .f64 (fin mu) false c'.fx).nu) := by
  have r1 : c.rn = c'.rn := by unfold Cart.rn; rw [hr]
  have v1 : c.vn = c'.vn := by unfold Cart.vn; rw [hv]
  have d1 : c.rv = c'.rv := hrv
  have n1 : c.hn = c'.hn := Cart.hn_congr r1 v1 (by rw [d1])
  have hh' : 0 < c'.hn := by rw [← n1]; exact hh
  have e1 : c.ecc mu = c'.ecc mu := Cart.ecc_congr hmu hh hh' r1 v1 (by rw [d1])
  rw [ctk g hmu hh, ctk g hmu hh']
  refine ⟨Cart.A_congr e1 r1 v1, by simp only [e1], fun hE => ?_⟩
  simp only [e_lim_fin, lt_fin, decide_eq_true_eq] at hE
  have E1 : c.EG mu := hE
  have E2 : c'.EG mu := by rw [Cart.EG, ← e1]; exact hE
  have hvr : c.vr = c'.vr := by
    have t1 := c.rn_mul_vr (c.rn_pos hh)
    rw [d1, ← c'.rn_mul_vr (c'.rn_pos hh'), r1] at t1
    exact mul_left_cancel₀ (c'.rn_pos hh').ne' t1
  simp only [Cart.ctkNu, if_pos E1, if_pos E2]
  rw [Cart.nu_congr hmu hh hh' e1 r1 n1, hvr]

/-! ### Turning about the z axis -/

theorem Cart.vr_eq (hh : 0 < c.hn) : c.vr = c.rv / c.rn := by
  rw [eq_div_iff (c.rn_pos hh).ne', mul_comm]; exact c.rn_mul_vr (c.rn_pos hh)

section Turn
variable (φ : ℝ) (c : Cart ℝ)

theorem Cart.turnZ_rn : (c.turnZ φ).rn = c.rn := by
  unfold Cart.rn Cart.turnZ; congr 1
  linear_combination (c.x ^ 2 + c.y ^ 2) * Real.sin_sq_add_cos_sq φ
theorem Cart.turnZ_vn : (c.turnZ φ).vn = c.vn := by
  unfold Cart.vn Cart.turnZ; congr 1
  linear_combination (c.vx ^ 2 + c.vy ^ 2) * Real.sin_sq_add_cos_sq φ
theorem Cart.turnZ_rv : (c.turnZ φ).rv = c.rv := by
  unfold Cart.rv Cart.turnZ
  linear_combination (c.x * c.vx + c.y * c.vy) * Real.sin_sq_add_cos_sq φ
theorem Cart.turnZ_hx : (c.turnZ φ).hx = Real.cos φ * c.hx - Real.sin φ * c.hy := by
  unfold Cart.hx Cart.hy Cart.turnZ; ring
theorem Cart.turnZ_hy : (c.turnZ φ).hy = Real.sin φ * c.hx + Real.cos φ * c.hy := by
  unfold Cart.hx Cart.hy Cart.turnZ; ring
theorem Cart.turnZ_hz : (c.turnZ φ).hz = c.hz := by
  unfold Cart.hz Cart.turnZ
  linear_combination (c.x * c.vy - c.y * c.vx) * Real.sin_sq_add_cos_sq φ
theorem Cart.turnZ_hn : (c.turnZ φ).hn = c.hn :=
  Cart.hn_congr (c.turnZ_rn φ) (c.turnZ_vn φ) (by rw [c.turnZ_rv φ])
theorem Cart.turnZ_inc : (c.turnZ φ).inc = c.inc := by unfold Cart.inc; rw [c.turnZ_hz φ, c.turnZ_hn φ]
theorem Cart.turnZ_nn : (c.turnZ φ).nn = c.nn := by
  rw [Cart.nn_eq, Cart.nn_eq, c.turnZ_hx φ, c.turnZ_hy φ]; congr 1
  linear_combination (c.hx ^ 2 + c.hy ^ 2) * Real.sin_sq_add_cos_sq φ
theorem Cart.turnZ_IG : (c.turnZ φ).IG ↔ c.IG := by unfold Cart.IG; rw [c.turnZ_inc φ]

variable {c} (hh : 0 < c.hn)
include hh
theorem Cart.turnZ_vr : (c.turnZ φ).vr = c.vr := by
  rw [Cart.vr_eq hh, Cart.vr_eq (by rw [c.turnZ_hn φ]; exact hh), c.turnZ_rv φ, c.turnZ_rn φ]
theorem Cart.turnZ_evx : (c.turnZ φ).evx mu = Real.cos φ * c.evx mu - Real.sin φ * c.evy mu := by
  unfold Cart.evx Cart.evy; rw [c.turnZ_vn φ, c.turnZ_rn φ, Cart.turnZ_vr φ hh]; unfold Cart.turnZ; ring
theorem Cart.turnZ_evy : (c.turnZ φ).evy mu = Real.sin φ * c.evx mu + Real.cos φ * c.evy mu := by
  unfold Cart.evx Cart.evy; rw [c.turnZ_vn φ, c.turnZ_rn φ, Cart.turnZ_vr φ hh]; unfold Cart.turnZ; ring
theorem Cart.turnZ_evz : (c.turnZ φ).evz mu = c.evz mu := by
  unfold Cart.evz; rw [c.turnZ_vn φ, c.turnZ_rn φ, Cart.turnZ_vr φ hh]; unfold Cart.turnZ; ring
theorem Cart.turnZ_ecc : (c.turnZ φ).ecc mu = c.ecc mu := by
  unfold Cart.ecc; rw [Cart.turnZ_evx φ hh, Cart.turnZ_evy φ hh, Cart.turnZ_evz φ hh]; congr 1
  linear_combination (c.evx mu ^ 2 + c.evy mu ^ 2) * Real.sin_sq_add_cos_sq φ
theorem Cart.turnZ_EG : (c.turnZ φ).EG mu ↔ c.EG mu := by unfold Cart.EG; rw [Cart.turnZ_ecc φ hh]
theorem Cart.turnZ_A : (c.turnZ φ).ctkA mu = c.ctkA mu :=
  Cart.A_congr (Cart.turnZ_ecc φ hh) (c.turnZ_rn φ) (c.turnZ_vn φ)
end Turn

/-- the node angle is the direction of the node vector `(-hy, hx)` -/
theorem Cart.ctkOM_spec (hh : 0 < c.hn) (hI : c.IG) : 0 ≤ c.ctkOM ∧ c.ctkOM < 2 * Real.pi ∧
    c.nn * Real.cos c.ctkOM = -c.hy ∧ c.nn * Real.sin c.ctkOM = c.hx := by
  have hn := c.nn_pos hh hI
  have h1 : (-c.hy / c.nn) ^ 2 + (c.hx / c.nn) ^ 2 = 1 := by
    have : c.nn ^ 2 = c.hx ^ 2 + c.hy ^ 2 := by rw [Cart.nn_eq, Real.sq_sqrt (by positivity)]
    field_simp; linarith
  obtain ⟨θ, t0, t1, tc, ts⟩ := exists_angle h1
  have e : c.ctkOM = θ := by
    unfold Cart.ctkOM
    rw [if_pos hI, ← tc]
    apply refl_of_neg t0 t1
    rw [ts, div_neg_iff]
    constructor
    · intro h; exact Or.inr ⟨h, hn⟩
    · rintro (⟨_, h⟩ | ⟨h, _⟩)
      · linarith
      · exact h
  rw [e, tc, ts]
  exact ⟨t0, t1, by field_simp, by field_simp⟩

/-- equal sines and cosines: the angles differ by whole turns -/
theorem angle_turns {a b : ℝ} (hc : Real.cos a = Real.cos b) (hs : Real.sin a = Real.sin b) :
    ∃ n : ℤ, a = b + n * (2 * Real.pi) := by
  have h : (a : Real.Angle) = (b : Real.Angle) := Real.Angle.cos_sin_inj hc hs
  obtain ⟨n, hn⟩ := Real.Angle.angle_eq_iff_two_pi_dvd_sub.mp h
  exact ⟨n, by linear_combination hn⟩

/-- Turning an inclined state about the z axis turns the ascending node and changes no other element. -/
theorem c74_turn (g : CtkGarbage FX) (hmu : 0 < mu) (hh : 0 < c.hn) (hI : c.IG) (φ : ℝ) :
    ∃ (k : Kep FX) (OM OM' : ℝ) (n : ℤ), k.OM = fin OM ∧ 0 ≤ OM' ∧ OM' < 2 * Real.pi ∧
      OM' = OM + φ + n * (2 * Real.pi) ∧
      cartToKep g .f64 (fin mu) false c.fx = k ∧
      cartToKep g .f64 (fin mu) false (c.turnZ φ).fx = { k with OM := fin OM' } := by
  have hh' : 0 < (c.turnZ φ).hn := by rw [c.turnZ_hn φ]; exact hh
  have hI' : (c.turnZ φ).IG := (c.turnZ_IG φ).mpr hI
  obtain ⟨o1, o2, o3, o4⟩ := Cart.ctkOM_spec hh hI
  obtain ⟨p1, p2, p3, p4⟩ := Cart.ctkOM_spec hh' hI'
  have hn := c.nn_pos hh hI
  rw [c.turnZ_nn φ, c.turnZ_hx φ, c.turnZ_hy φ] at *
  obtain ⟨n, hn'⟩ := angle_turns (a := (c.turnZ φ).ctkOM) (b := c.ctkOM + φ)
    (mul_left_cancel₀ hn.ne' (by rw [p3, Real.cos_add]; linear_combination (-Real.cos φ) * o3 + Real.sin φ * o4))
    (mul_left_cancel₀ hn.ne' (by rw [p4, Real.sin_add]; linear_combination (-Real.sin φ) * o3 - Real.cos φ * o4))
  refine ⟨_, c.ctkOM, (c.turnZ φ).ctkOM, n, ?_, p1, p2, hn', ctk g hmu hh, ?_⟩
  · rfl
  rw [ctk g hmu hh', Cart.turnZ_A φ hh, Cart.turnZ_ecc φ hh, c.turnZ_inc φ]
  have s := Real.sin_sq_add_cos_sq φ
  have hG : (c.turnZ φ).EG mu ↔ c.EG mu := Cart.turnZ_EG φ hh
  have eom : (c.turnZ φ).ctkOm mu = c.ctkOm mu := by
    unfold Cart.ctkOm
    by_cases hE : c.EG mu
    · rw [if_pos hE, if_pos (hG.mpr hE), if_pos hI, if_pos hI', Cart.turnZ_evx φ hh, Cart.turnZ_evy φ hh, Cart.turnZ_evz φ hh,
        Cart.turnZ_ecc φ hh, c.turnZ_nn φ, c.turnZ_hx φ, c.turnZ_hy φ]
      congr 2
      linear_combination (-c.hy * c.evx mu + c.hx * c.evy mu) * s
    · rw [if_neg hE, if_neg (mt hG.mp hE)]
  have enu : (c.turnZ φ).ctkNu mu = c.ctkNu mu := by
    unfold Cart.ctkNu
    by_cases hE : c.EG mu
    · rw [if_pos hE, if_pos (hG.mpr hE), Cart.turnZ_vr φ hh,
        Cart.nu_congr hmu hh' hh (Cart.turnZ_ecc φ hh) (c.turnZ_rn φ) (c.turnZ_hn φ)]
    · rw [if_neg hE, if_neg (mt hG.mp hE), if_pos hI, if_pos hI', c.turnZ_nn φ, c.turnZ_hx φ, c.turnZ_hy φ, c.turnZ_rn φ]
      have e2 : (c.turnZ φ).z = c.z := rfl
      rw [e2]
      congr 1
      have hr := c.rn_pos hh
      unfold Cart.turnZ
      field_simp
      linear_combination (-c.hy * c.x + c.hx * c.y) * s
  rw [eom, enu]

/-! ### Planar states -/

/-- a planar state moves in the reference plane -/
theorem Cart.planar_iff (hh : 0 < c.hn) (h1 : c.hx = 0) (h2 : c.hy = 0) : c.inc = 0 ∧ 0 < c.hz ∨ c.inc = Real.pi ∧ c.hz < 0 := by
  have e : c.hn = |c.hz| := by
    unfold Cart.hn; rw [h1, h2]; rw [show (0 : ℝ) ^ 2 + 0 ^ 2 + c.hz ^ 2 = c.hz ^ 2 by ring, Real.sqrt_sq_eq_abs]
  have h0 : c.hz ≠ 0 := by intro h; rw [e, h, abs_zero] at hh; exact lt_irrefl _ hh
  unfold Cart.inc
  rcases lt_or_gt_of_ne h0 with h | h
  · right; rw [e, abs_of_neg h, div_neg, div_self h0, Real.arccos_neg_one]; exact ⟨rfl, h⟩
  · left; rw [e, abs_of_pos h, div_self h0, Real.arccos_one]; exact ⟨rfl, h⟩

theorem Cart.planar_not_IG (hh : 0 < c.hn) (h1 : c.hx = 0) (h2 : c.hy = 0) : ¬ c.IG := by
  intro h
  rcases Cart.planar_iff hh h1 h2 with ⟨e, _⟩ | ⟨e, _⟩
  · have := h.1; rw [e] at this; exact absurd this (not_lt.mpr iLim_pos.le)
  · have := h.2; rw [e] at this; linarith [iLim_pos]

/-- the direction of a plane vector as the code computes it: counted with the motion, that is against the clock if `up` -/
theorem plane_dir {x y r : ℝ} (hr : 0 < r) (h : x ^ 2 + y ^ 2 = r ^ 2) (up : Prop) [Decidable up] [Decidable (y < 0)]
    [Decidable (0 ≤ y)] :
    r * Real.cos (if up then refl (y < 0) (x / r) else refl (0 ≤ y) (x / r)) = x ∧
    r * Real.sin (if up then refl (y < 0) (x / r) else refl (0 ≤ y) (x / r)) = if up then y else -y := by
  have h1 : (x / r) ^ 2 + (y / r) ^ 2 = 1 := by field_simp; exact h
  split_ifs with hu
  · obtain ⟨θ, t0, t1, tc, ts⟩ := exists_angle h1
    have e : refl (y < 0) (x / r) = θ := by
      rw [← tc]
      apply refl_of_neg t0 t1
      rw [ts, div_neg_iff]
      constructor
      · intro h; exact Or.inr ⟨h, hr⟩
      · rintro (⟨_, h⟩ | ⟨h, _⟩)
        · linarith
        · exact h
    rw [e, tc, ts]; constructor <;> field_simp
  · obtain ⟨θ, t0, t1, tc, ts⟩ := exists_angle' (a := x / r) (b := -y / r) (by rw [← h1]; ring)
    have e : refl (0 ≤ y) (x / r) = θ := by
      rw [← tc]
      apply refl_of_nonpos t0 t1
      rw [ts, div_nonpos_iff]
      constructor
      · intro h; right; exact ⟨by linarith, hr.le⟩
      · rintro (⟨_, h⟩ | ⟨h, _⟩)
        · linarith
        · linarith
    rw [e, tc, ts]; constructor <;> field_simp

/-- the planar eccentricity vector has no z component -/
theorem Cart.planar_evz (hmu : 0 < mu) (hh : 0 < c.hn) (h1 : c.hx = 0) (h2 : c.hy = 0) : c.evz mu = 0 ∧ c.z = 0 := by
  have hz : c.hz ≠ 0 := by
    rcases Cart.planar_iff hh h1 h2 with ⟨_, h⟩ | ⟨_, h⟩
    · exact h.ne'
    · exact h.ne
  have d1 := c.ev_dot_h hmu hh
  have d2 : c.x * c.hx + c.y * c.hy + c.z * c.hz = 0 := by unfold Cart.hx Cart.hy Cart.hz; ring
  rw [h1, h2] at d1 d2
  constructor
  · have : c.hz * c.evz mu = 0 := by linarith
    exact (mul_eq_zero.mp this).resolve_left hz
  · have : c.hz * c.z = 0 := by linarith
    exact (mul_eq_zero.mp this).resolve_left hz

open Classical in
/-- Turning a planar state about the z axis turns the periapsis, or on a circle the anomaly, with the motion, and changes no
other element. -/
theorem c74_turn_planar (g : CtkGarbage FX) (hmu : 0 < mu) (hh : 0 < c.hn) (h1 : c.hx = 0) (h2 : c.hy = 0)
    (φ : ℝ) :
    ∃ (k : Kep FX) (om om' nu nu' : ℝ) (n1 n2 : ℤ), k.om = fin om ∧ k.nu = fin nu ∧
      om' = om + (if c.EG mu then (if 0 < c.hz then φ else -φ) else 0) + n1 * (2 * Real.pi) ∧
      nu' = nu + (if c.EG mu then 0 else (if 0 < c.hz then φ else -φ)) + n2 * (2 * Real.pi) ∧
      cartToKep g .f64 (fin mu) false c.fx = k ∧
      cartToKep g .f64 (fin mu) false (c.turnZ φ).fx = { k with om := fin om', nu := fin nu' } := by
  have hh' : 0 < (c.turnZ φ).hn := by rw [c.turnZ_hn φ]; exact hh
  have hI := Cart.planar_not_IG hh h1 h2
  have hI' : ¬ (c.turnZ φ).IG := fun h => hI ((c.turnZ_IG φ).mp h)
  obtain ⟨z1, z2⟩ := Cart.planar_evz hmu hh h1 h2
  have hup : (c.inc < Real.pi / 2) ↔ 0 < c.hz := by
    have := Real.pi_pos
    rcases Cart.planar_iff hh h1 h2 with ⟨e, h⟩ | ⟨e, h⟩
    · rw [e]; exact ⟨fun _ => h, fun _ => by linarith⟩
    · rw [e]; exact ⟨fun h' => by linarith, fun h' => by linarith⟩
  have eOM : (c.turnZ φ).ctkOM = c.ctkOM := by unfold Cart.ctkOM; rw [if_neg hI, if_neg hI']
  have hr := c.rn_pos hh
  have key : ∃ n1 n2 : ℤ,
      (c.turnZ φ).ctkOm mu = c.ctkOm mu + (if c.EG mu then (if 0 < c.hz then φ else -φ) else 0) + n1 * (2 * Real.pi) ∧
      (c.turnZ φ).ctkNu mu = c.ctkNu mu + (if c.EG mu then 0 else (if 0 < c.hz then φ else -φ)) + n2 * (2 * Real.pi) := by
    by_cases hG : c.EG mu
    · have hG' : (c.turnZ φ).EG mu := (Cart.turnZ_EG φ hh).mpr hG
      have he : 0 < c.ecc mu := eLim_pos.trans hG
      have hsq : c.evx mu ^ 2 + c.evy mu ^ 2 = c.ecc mu ^ 2 := by rw [Cart.ecc_sq, z1]; ring
      have enu : (c.turnZ φ).ctkNu mu = c.ctkNu mu := by
        unfold Cart.ctkNu
        rw [if_pos hG, if_pos hG', Cart.turnZ_vr φ hh,
          Cart.nu_congr hmu hh' hh (Cart.turnZ_ecc φ hh) (c.turnZ_rn φ) (c.turnZ_hn φ)]
      obtain ⟨a1, a2⟩ := plane_dir he hsq (c.inc < Real.pi / 2)
      have hsq' : (c.turnZ φ).evx mu ^ 2 + (c.turnZ φ).evy mu ^ 2 = c.ecc mu ^ 2 := by
        rw [Cart.turnZ_evx φ hh, Cart.turnZ_evy φ hh, ← hsq]
        linear_combination (c.evx mu ^ 2 + c.evy mu ^ 2) * Real.sin_sq_add_cos_sq φ
      obtain ⟨b1, b2⟩ := plane_dir he hsq' (c.inc < Real.pi / 2)
      have o1 : c.ctkOm mu = if c.inc < Real.pi / 2 then refl (c.evy mu < 0) (c.evx mu / c.ecc mu)
          else refl (0 ≤ c.evy mu) (c.evx mu / c.ecc mu) := by
        unfold Cart.ctkOm; rw [if_pos hG, if_neg hI]
      have o2 : (c.turnZ φ).ctkOm mu = if c.inc < Real.pi / 2 then refl ((c.turnZ φ).evy mu < 0) ((c.turnZ φ).evx mu / c.ecc mu)
          else refl (0 ≤ (c.turnZ φ).evy mu) ((c.turnZ φ).evx mu / c.ecc mu) := by
        unfold Cart.ctkOm; rw [if_pos hG', if_neg hI', c.turnZ_inc φ, Cart.turnZ_ecc φ hh]
      rw [← o1] at a1 a2
      rw [← o2, Cart.turnZ_evx φ hh] at b1
      rw [← o2, Cart.turnZ_evy φ hh] at b2
      simp only [hup] at a2 b2
      simp only [hG, if_true]
      have : ∃ n : ℤ, (c.turnZ φ).ctkOm mu = c.ctkOm mu + (if 0 < c.hz then φ else -φ) + n * (2 * Real.pi) := by
        by_cases hz : 0 < c.hz
        · simp only [hz, if_true] at a2 b2 ⊢
          exact angle_turns
            (mul_left_cancel₀ he.ne' (by rw [Real.cos_add]; linear_combination b1 - Real.cos φ * a1 + Real.sin φ * a2))
            (mul_left_cancel₀ he.ne' (by rw [Real.sin_add]; linear_combination b2 - Real.sin φ * a1 - Real.cos φ * a2))
        · simp only [hz, if_false] at a2 b2 ⊢
          exact angle_turns
            (mul_left_cancel₀ he.ne' (by
              rw [Real.cos_add, Real.cos_neg, Real.sin_neg]; linear_combination b1 - Real.cos φ * a1 - Real.sin φ * a2))
            (mul_left_cancel₀ he.ne' (by
              rw [Real.sin_add, Real.cos_neg, Real.sin_neg]; linear_combination b2 + Real.sin φ * a1 - Real.cos φ * a2))
      obtain ⟨n, hn⟩ := this
      exact ⟨n, 0, hn, by rw [enu]; simp⟩
    · have hG' : ¬ (c.turnZ φ).EG mu := fun h => hG ((Cart.turnZ_EG φ hh).mp h)
      have hsq : c.x ^ 2 + c.y ^ 2 = c.rn ^ 2 := by rw [Cart.rn_sq, z2]; ring
      have hsq' : (c.turnZ φ).x ^ 2 + (c.turnZ φ).y ^ 2 = c.rn ^ 2 := by
        rw [← hsq]; unfold Cart.turnZ
        linear_combination (c.x ^ 2 + c.y ^ 2) * Real.sin_sq_add_cos_sq φ
      obtain ⟨a1, a2⟩ := plane_dir hr hsq (c.inc < Real.pi / 2)
      obtain ⟨b1, b2⟩ := plane_dir hr hsq' (c.inc < Real.pi / 2)
      have o1 : c.ctkNu mu = if c.inc < Real.pi / 2 then refl (c.y < 0) (c.x / c.rn) else refl (0 ≤ c.y) (c.x / c.rn) := by
        unfold Cart.ctkNu; rw [if_neg hG, if_neg hI]
      have o2 : (c.turnZ φ).ctkNu mu = if c.inc < Real.pi / 2 then refl ((c.turnZ φ).y < 0) ((c.turnZ φ).x / c.rn)
          else refl (0 ≤ (c.turnZ φ).y) ((c.turnZ φ).x / c.rn) := by
        unfold Cart.ctkNu; rw [if_neg hG', if_neg hI', c.turnZ_inc φ, c.turnZ_rn φ]
      rw [← o1] at a1 a2
      rw [← o2] at b1 b2
      have x1 : (c.turnZ φ).x = Real.cos φ * c.x - Real.sin φ * c.y := rfl
      have y1 : (c.turnZ φ).y = Real.sin φ * c.x + Real.cos φ * c.y := rfl
      rw [x1] at b1
      rw [y1] at b2
      simp only [hup] at a2 b2
      simp only [hG, if_false]
      have : ∃ n : ℤ, (c.turnZ φ).ctkNu mu = c.ctkNu mu + (if 0 < c.hz then φ else -φ) + n * (2 * Real.pi) := by
        by_cases hz : 0 < c.hz
        · simp only [hz, if_true] at a2 b2 ⊢
          exact angle_turns
            (mul_left_cancel₀ hr.ne' (by rw [Real.cos_add]; linear_combination b1 - Real.cos φ * a1 + Real.sin φ * a2))
            (mul_left_cancel₀ hr.ne' (by rw [Real.sin_add]; linear_combination b2 - Real.sin φ * a1 - Real.cos φ * a2))
        · simp only [hz, if_false] at a2 b2 ⊢
          exact angle_turns
            (mul_left_cancel₀ hr.ne' (by
              rw [Real.cos_add, Real.cos_neg, Real.sin_neg]; linear_combination b1 - Real.cos φ * a1 - Real.sin φ * a2))
            (mul_left_cancel₀ hr.ne' (by
              rw [Real.sin_add, Real.cos_neg, Real.sin_neg]; linear_combination b2 + Real.sin φ * a1 - Real.cos φ * a2))
      obtain ⟨n, hn⟩ := this
      refine ⟨0, n, ?_, hn⟩
      unfold Cart.ctkOm; rw [if_neg hG, if_neg hG']; simp
  obtain ⟨n1, n2, k1, k2⟩ := key
  refine ⟨_, c.ctkOm mu, (c.turnZ φ).ctkOm mu, c.ctkNu mu, (c.turnZ φ).ctkNu mu, n1, n2, ?_, ?_, ?_, ?_, ctk g hmu hh, ?_⟩
  · rfl
  · rfl
  · exact k1
  · exact k2
  rw [ctk g hmu hh', Cart.turnZ_A φ hh, Cart.turnZ_ecc φ hh, c.turnZ_inc φ, eOM]

/-! ### Scaling -/

section Scale
variable {s t q : ℝ} (hs : 0 < s) (ht : 0 < t)
include hs in
theorem Cart.scaled_rn (c : Cart ℝ) : (c.scaled s t).rn = s * c.rn := by
  unfold Cart.rn Cart.scaled
  rw [← Real.sqrt_sq hs.le, ← Real.sqrt_mul (by positivity), Real.sqrt_sq hs.le]; congr 1; ring
include ht in
theorem Cart.scaled_vn (c : Cart ℝ) : (c.scaled s t).vn = t * c.vn := by
  unfold Cart.vn Cart.scaled
  rw [← Real.sqrt_sq ht.le, ← Real.sqrt_mul (by positivity), Real.sqrt_sq ht.le]; congr 1; ring
theorem Cart.scaled_hx (c : Cart ℝ) : (c.scaled s t).hx = s * t * c.hx := by unfold Cart.hx Cart.scaled; ring
theorem Cart.scaled_hy (c : Cart ℝ) : (c.scaled s t).hy = s * t * c.hy := by unfold Cart.hy Cart.scaled; ring
theorem Cart.scaled_hz (c : Cart ℝ) : (c.scaled s t).hz = s * t * c.hz := by unfold Cart.hz Cart.scaled; ring
include hs ht
theorem Cart.scaled_hn (c : Cart ℝ) : (c.scaled s t).hn = s * t * c.hn := by
  have h : 0 < s * t := mul_pos hs ht
  unfold Cart.hn
  rw [Cart.scaled_hx, Cart.scaled_hy, Cart.scaled_hz,
    show (s * t * c.hx) ^ 2 + (s * t * c.hy) ^ 2 + (s * t * c.hz) ^ 2 = (s * t) ^ 2 * (c.hx ^ 2 + c.hy ^ 2 + c.hz ^ 2) by ring,
    Real.sqrt_mul (by positivity), Real.sqrt_sq h.le]
theorem Cart.scaled_nn (c : Cart ℝ) : (c.scaled s t).nn = s * t * c.nn := by
  have h : 0 < s * t := mul_pos hs ht
  rw [Cart.nn_eq, Cart.nn_eq, Cart.scaled_hx, Cart.scaled_hy,
    show (s * t * c.hx) ^ 2 + (s * t * c.hy) ^ 2 = (s * t) ^ 2 * (c.hx ^ 2 + c.hy ^ 2) by ring,
    Real.sqrt_mul (by positivity), Real.sqrt_sq h.le]
theorem Cart.scaled_inc (c : Cart ℝ) : (c.scaled s t).inc = c.inc := by
  have h : s * t ≠ 0 := (mul_pos hs ht).ne'
  unfold Cart.inc; rw [Cart.scaled_hz, c.scaled_hn hs ht, mul_div_mul_left _ _ h]
theorem Cart.scaled_IG (c : Cart ℝ) : (c.scaled s t).IG ↔ c.IG := by unfold Cart.IG; rw [c.scaled_inc hs ht]
theorem Cart.scaled_vr (hh : 0 < c.hn) : (c.scaled s t).vr = t * c.vr := by
  have hr := c.rn_pos hh
  unfold Cart.vr
  rw [c.scaled_rn hs]
  unfold Cart.scaled
  field_simp

variable (hmu : 0 < mu) (hq : 0 < q) (htq : t ^ 2 = q / s) (hh : 0 < c.hn)
include hmu hq htq hh
theorem Cart.scaled_ev : (c.scaled s t).evx (q * mu) = c.evx mu ∧ (c.scaled s t).evy (q * mu) = c.evy mu ∧
    (c.scaled s t).evz (q * mu) = c.evz mu := by
  have hr := c.rn_pos hh
  have h1 : (t * c.vn) ^ 2 - q * mu / (s * c.rn) = q / s * (c.vn ^ 2 - mu / c.rn) := by
    rw [mul_pow, htq]; field_simp
  have h2 : s * c.rn * (t * c.vr) * t = q * (c.rn * c.vr) := by
    have : s * t ^ 2 = q := by rw [htq]; field_simp
    linear_combination (c.rn * c.vr) * this
  have key : ∀ x v : ℝ, 1 / (q * mu) * (q / s * (c.vn ^ 2 - mu / c.rn) * (s * x) - s * c.rn * (t * c.vr) * (t * v)) =
      1 / mu * ((c.vn ^ 2 - mu / c.rn) * x - c.rn * c.vr * v) := by
    intro x v
    have h3 : q / s * (c.vn ^ 2 - mu / c.rn) * (s * x) = q * ((c.vn ^ 2 - mu / c.rn) * x) := by field_simp
    have h4 : s * c.rn * (t * c.vr) * (t * v) = q * (c.rn * c.vr * v) := by linear_combination v * h2
    rw [h3, h4, ← mul_sub, ← mul_assoc]
    congr 1
    field_simp
  unfold Cart.evx Cart.evy Cart.evz
  rw [Cart.scaled_vr hs ht hh, c.scaled_rn hs, c.scaled_vn ht, h1]
  exact ⟨key _ _, key _ _, key _ _⟩

theorem Cart.scaled_ecc : (c.scaled s t).ecc (q * mu) = c.ecc mu := by
  obtain ⟨a, b, d⟩ := Cart.scaled_ev hs ht hmu hq htq hh
  unfold Cart.ecc; rw [a, b, d]

theorem Cart.scaled_A : (c.scaled s t).ctkA (q * mu) = fin s * c.ctkA mu := by
  have hr := c.rn_pos hh
  have h1 : (c.scaled s t).eps (q * mu) = q / s * c.eps mu := by
    unfold Cart.eps
    rw [c.scaled_rn hs, c.scaled_vn ht, mul_pow, htq]; field_simp
  unfold Cart.ctkA
  rw [Cart.scaled_ecc hs ht hmu hq htq hh, h1]
  have h2 : (fin (-(q * mu)) / fin (2 * (q / s * c.eps mu)) : FX) = fin s * (fin (-mu) / fin (2 * c.eps mu)) := by
    by_cases h0 : c.eps mu = 0
    · rw [h0]
      show FX.div _ _ = FX.mul _ (FX.div _ _)
      have a1 : ¬ (0 < -(q * mu)) := by have := mul_pos hq hmu; linarith
      have a2 : ¬ (0 < -mu) := by linarith
      have a3 : ¬ (q * mu < 0) := by have := mul_pos hq hmu; linarith
      have a4 : ¬ (mu < 0) := by linarith
      simp [FX.div, FX.mul, FX.infSign, hs, mul_pos hq hmu, hmu, FX.neg, a3, a4]
    · have h3 : q / s * c.eps mu ≠ 0 := mul_ne_zero (by positivity) h0
      rw [div_fin (by simpa using h3), div_fin (by simpa using h0), mul_fin]
      congr 1
      field_simp
  rw [h2]
  split_ifs
  · by_cases h0 : c.eps mu = 0
    · rw [h0]
      show FX.neg (FX.mul _ (FX.div _ _)) = FX.mul _ (FX.neg (FX.div _ _))
      have a2 : ¬ (0 < -mu) := by linarith
      have a4 : ¬ (mu < 0) := by linarith
      simp [FX.div, FX.mul, FX.infSign, hs, hmu, FX.neg, a4]
    · rw [div_fin (by simpa using h0), neg_fin, mul_fin, mul_fin, neg_fin]
      congr 1; ring
  · rfl

end Scale

/-- Distances times `s` and velocities times `√(q/s)`, around a centre of `q` times the strength: the semi-major axis is
multiplied by `s`, every other element is the same.  This holds for every state with angular momentum. -/
theorem c74_scale_back (g : CtkGarbage FX) (hmu : 0 < mu) (hh : 0 < c.hn) {s q : ℝ} (hs : 0 < s) (hq : 0 < q) :
    cartToKep g .f64 (fin (q * mu)) false (c.scaled s (√(q / s))).fx =
      { cartToKep g .f64 (fin mu) false c.fx with a := fin s * (cartToKep g .f64 (fin mu) false c.fx).a } := by
  have hr := c.rn_pos hh
  have ht : 0 < √(q / s) := Real.sqrt_pos.mpr (by positivity)
  have htq : √(q / s) ^ 2 = q / s := Real.sq_sqrt (by positivity)
  generalize √(q / s) = t at ht htq ⊢
  have hst : 0 < s * t := mul_pos hs ht
  have hh' : 0 < (c.scaled s t).hn := by rw [c.scaled_hn hs ht]; positivity
  obtain ⟨a, b, d⟩ := Cart.scaled_ev hs ht hmu hq htq hh
  have he := Cart.scaled_ecc hs ht hmu hq htq hh
  have hEG : (c.scaled s t).EG (q * mu) ↔ c.EG mu := by unfold Cart.EG; rw [he]
  have sx : (c.scaled s t).hx < 0 ↔ c.hx < 0 := by
    rw [Cart.scaled_hx]; exact ⟨fun h => by by_contra h'; have := mul_nonneg hst.le (not_lt.mp h'); linarith,
      fun h => mul_neg_of_pos_of_neg hst h⟩
  have neg_iff : ∀ {u w : ℝ}, 0 < u → (u * w < 0 ↔ w < 0) := fun {u w} hu =>
    ⟨fun h => by by_contra h'; have := mul_nonneg hu.le (not_lt.mp h'); linarith, fun h => mul_neg_of_pos_of_neg hu h⟩
  have nonneg_iff : ∀ {u w : ℝ}, 0 < u → (0 ≤ u * w ↔ 0 ≤ w) := fun {u w} hu => by
    constructor
    · intro h; by_contra h'; have := (neg_iff hu).mpr (not_le.mp h'); linarith
    · intro h; positivity
  have hIG := propext (c.scaled_IG hs ht)
  have hEG := propext hEG
  rw [ctk g (mul_pos hq hmu) hh', ctk g hmu hh]
  have eOM : (c.scaled s t).ctkOM = c.ctkOM := by
    unfold Cart.ctkOM
    simp only [sx]
    rw [hIG, Cart.scaled_hy, c.scaled_nn hs ht, ← mul_neg, mul_div_mul_left _ _ hst.ne']
  have eOm : (c.scaled s t).ctkOm (q * mu) = c.ctkOm mu := by
    unfold Cart.ctkOm
    rw [hEG, hIG]
    simp only [a, b, d, he, c.scaled_inc hs ht, Cart.scaled_hx, Cart.scaled_hy, c.scaled_nn hs ht]
    rw [show -(s * t * c.hy) * c.evx mu + s * t * c.hx * c.evy mu = s * t * (-c.hy * c.evx mu + c.hx * c.evy mu) by ring,
      mul_assoc (s * t), mul_div_mul_left _ _ hst.ne']
  have eNu : (c.scaled s t).ctkNu (q * mu) = c.ctkNu mu := by
    have x1 : (c.scaled s t).x = s * c.x := rfl
    have y1 : (c.scaled s t).y = s * c.y := rfl
    have z1 : (c.scaled s t).z = s * c.z := rfl
    unfold Cart.ctkNu
    rw [hEG, hIG]
    simp only [a, b, d, he, c.scaled_inc hs ht, Cart.scaled_hx, Cart.scaled_hy, c.scaled_nn hs ht,
      x1, y1, z1, Cart.scaled_vr hs ht hh, c.scaled_rn hs, neg_iff ht, neg_iff hs, nonneg_iff hs]
    rw [show c.evx mu * (s * c.x) + c.evy mu * (s * c.y) + c.evz mu * (s * c.z) =
        s * (c.evx mu * c.x + c.evy mu * c.y + c.evz mu * c.z) by ring,
      show c.ecc mu * (s * c.rn) = s * (c.ecc mu * c.rn) by ring, mul_div_mul_left _ _ hs.ne',
      mul_div_mul_left _ _ hs.ne', mul_div_mul_left _ _ hs.ne', ← mul_neg, mul_div_mul_left _ _ hst.ne',
      mul_div_mul_left _ _ hst.ne']
  rw [Cart.scaled_A hs ht hmu hq htq hh, he, c.scaled_inc hs ht, eOM, eOm, eNu]

/-! ### Reversing the motion -/

theorem Cart.reversed_rn (c : Cart ℝ) : c.reversed.rn = c.rn := rfl
theorem Cart.reversed_vn (c : Cart ℝ) : c.reversed.vn = c.vn := by
  unfold Cart.vn Cart.reversed; congr 1; ring
theorem Cart.reversed_rv (c : Cart ℝ) : c.reversed.rv = -c.rv := by unfold Cart.rv Cart.reversed; ring
theorem Cart.reversed_hx (c : Cart ℝ) : c.reversed.hx = -c.hx := by unfold Cart.hx Cart.reversed; ring
theorem Cart.reversed_hy (c : Cart ℝ) : c.reversed.hy = -c.hy := by unfold Cart.hy Cart.reversed; ring
theorem Cart.reversed_hz (c : Cart ℝ) : c.reversed.hz = -c.hz := by unfold Cart.hz Cart.reversed; ring
theorem Cart.reversed_hn (c : Cart ℝ) : c.reversed.hn = c.hn :=
  Cart.hn_congr c.reversed_rn c.reversed_vn (by rw [c.reversed_rv]; ring)
theorem Cart.reversed_nn (c : Cart ℝ) : c.reversed.nn = c.nn := by
  rw [Cart.nn_eq, Cart.nn_eq, c.reversed_hx, c.reversed_hy]; congr 1; ring
theorem Cart.reversed_inc (c : Cart ℝ) : c.reversed.inc = Real.pi - c.inc := by
  unfold Cart.inc; rw [c.reversed_hz, c.reversed_hn, neg_div, Real.arccos_neg]
theorem Cart.reversed_vr (c : Cart ℝ) : c.reversed.vr = -c.vr := by
  unfold Cart.vr; rw [c.reversed_rn]; unfold Cart.reversed; ring
theorem Cart.reversed_ev (c : Cart ℝ) : c.reversed.evx mu = c.evx mu ∧ c.reversed.evy mu = c.evy mu ∧ c.reversed.evz mu = c.evz mu := by
  unfold Cart.evx Cart.evy Cart.evz
  rw [c.reversed_rn, c.reversed_vn, c.reversed_vr]
  unfold Cart.reversed
  refine ⟨?_, ?_, ?_⟩ <;> ring
theorem Cart.reversed_ecc (c : Cart ℝ) : c.reversed.ecc mu = c.ecc mu := by
  obtain ⟨a, b, d⟩ := c.reversed_ev (mu := mu)
  unfold Cart.ecc; rw [a, b, d]

/-- reflecting the angle `arccos x` by a sign that stays, when `x` changes sign -/
theorem refl_neg (b : Prop) [Decidable b] (x : ℝ) : ∃ n : ℤ, refl b (-x) = Real.pi - refl b x + n * (2 * Real.pi) := by
  unfold refl
  rw [Real.arccos_neg]
  split_ifs
  · exact ⟨1, by push_cast; ring⟩
  · exact ⟨0, by push_cast; ring⟩

/-- at an apsis the position is along the apse line -/
theorem Cart.apsis (hmu : 0 < mu) (hh : 0 < c.hn) (he : 0 < c.ecc mu) (h0 : c.rv = 0) :
    ((c.evx mu * c.x + c.evy mu * c.y + c.evz mu * c.z) / (c.ecc mu * c.rn)) ^ 2 = 1 := by
  have hr := c.rn_pos hh
  have h1 := c.ev_dot_r hmu hh
  have h2 := c.lagrange
  have h3 := c.ecc_sq_eq (mu := mu) hmu hh
  rw [h0] at h2 h3
  rw [div_pow, div_eq_one_iff_eq (by positivity), mul_pow, h3]
  have h4 : c.evx mu * c.x + c.evy mu * c.y + c.evz mu * c.z = (c.rn ^ 2 * c.vn ^ 2 - mu * c.rn) / mu := by
    rw [eq_div_iff hmu.ne', mul_comm, h1, h2]; ring
  rw [h4]
  field_simp
  ring

/-- Reversing the velocity keeps size and shape and reverses the orientation: the inclination becomes its supplement, the
node moves by half a turn, the periapsis stays the same point (its angle from the new node is the supplement) and the
anomaly changes sign; on a circle, where the anomaly is counted from the node, it becomes its supplement. -/
theorem c74_reverse_back (g : CtkGarbage FX) (hmu : 0 < mu) (hh : 0 < c.hn) (hI : c.IG) :
    ∃ (A : FX) (e i om OM nu om' OM' nu' : ℝ) (n1 n2 n3 : ℤ),
      cartToKep g .f64 (fin mu) false c.fx = ⟨A, fin e, fin i, fin om, fin OM, fin nu⟩ ∧
      cartToKep g .f64 (fin mu) false c.reversed.fx = ⟨A, fin e, fin (Real.pi - i), fin om', fin OM', fin nu'⟩ ∧
      OM' = OM + Real.pi + n1 * (2 * Real.pi) ∧
      (eLim < e → om' = Real.pi - om + n2 * (2 * Real.pi) ∧ nu' = -nu + n3 * (2 * Real.pi)) ∧
      (e ≤ eLim → om' = 0 ∧ nu' = Real.pi - nu + n3 * (2 * Real.pi)) := by
  have hh' : 0 < c.reversed.hn := by rw [c.reversed_hn]; exact hh
  have hI' : c.reversed.IG := by
    unfold Cart.IG; rw [c.reversed_inc]; exact ⟨by linarith [hI.2], by linarith [hI.1]⟩
  obtain ⟨a, b, d⟩ := c.reversed_ev (mu := mu)
  obtain ⟨_, _, o3, o4⟩ := Cart.ctkOM_spec hh hI
  obtain ⟨_, _, p3, p4⟩ := Cart.ctkOM_spec hh' hI'
  have hn := c.nn_pos hh hI
  rw [c.reversed_nn, c.reversed_hx] at p4
  rw [c.reversed_nn, c.reversed_hy] at p3
  obtain ⟨n1, hn1⟩ := angle_turns (a := c.reversed.ctkOM) (b := c.ctkOM + Real.pi)
    (mul_left_cancel₀ hn.ne' (by rw [p3, Real.cos_add_pi]; linarith))
    (mul_left_cancel₀ hn.ne' (by rw [p4, Real.sin_add_pi]; linarith))
  have hA : c.reversed.ctkA mu = c.ctkA mu := Cart.A_congr c.reversed_ecc c.reversed_rn c.reversed_vn
  have hr := c.rn_pos hh
  have hEG : c.reversed.EG mu ↔ c.EG mu := by unfold Cart.EG; rw [c.reversed_ecc]
  by_cases hE : c.EG mu
  · have hE' := hEG.mpr hE
    have he : 0 < c.ecc mu := eLim_pos.trans hE
    have h2 : ∃ n2 : ℤ, c.reversed.ctkOm mu = Real.pi - c.ctkOm mu + n2 * (2 * Real.pi) := by
      unfold Cart.ctkOm
      rw [if_pos hE, if_pos hE', if_pos hI, if_pos hI', a, b, d, c.reversed_hx, c.reversed_hy, c.reversed_nn, c.reversed_ecc,
        show - -c.hy * c.evx mu + -c.hx * c.evy mu = -(-c.hy * c.evx mu + c.hx * c.evy mu) by ring, neg_div]
      exact refl_neg _ _
    have h3 : ∃ n3 : ℤ, c.reversed.ctkNu mu = -c.ctkNu mu + n3 * (2 * Real.pi) := by
      unfold Cart.ctkNu
      rw [if_pos hE, if_pos hE', Cart.nu_congr hmu hh' hh c.reversed_ecc c.reversed_rn c.reversed_hn, c.reversed_vr]
      set x := (c.evx mu * c.x + c.evy mu * c.y + c.evz mu * c.z) / (c.ecc mu * c.rn) with hx
      unfold refl
      rcases lt_trichotomy c.vr 0 with h | h | h
      · rw [if_pos h, if_neg (by linarith)]; exact ⟨1, by push_cast; ring⟩
      · rw [h, neg_zero, if_neg (lt_irrefl _)]
        have h0 : c.rv = 0 := by rw [← c.rn_mul_vr hr, h, mul_zero]
        have h1 := Cart.apsis hmu hh he h0
        rw [← hx] at h1
        have h1 : x = 1 ∨ x = -1 := by
          have h5 : (x - 1) * (x + 1) = 0 := by linear_combination h1
          rcases mul_eq_zero.mp h5 with h6 | h6
          · left; linarith
          · right; linarith
        rcases h1 with h1 | h1
        · rw [h1, Real.arccos_one]; exact ⟨0, by simp⟩
        · rw [h1, Real.arccos_neg_one]; exact ⟨1, by push_cast; ring⟩
      · rw [if_pos (by linarith), if_neg (by linarith)]; exact ⟨1, by push_cast; ring⟩
    obtain ⟨n2, hn2⟩ := h2
    obtain ⟨n3, hn3⟩ := h3
    refine ⟨_, _, _, _, _, _, _, _, _, n1, n2, n3, ctk g hmu hh, ?_, hn1, fun _ => ⟨hn2, hn3⟩, fun h => ?_⟩
    · rw [ctk g hmu hh', hA, c.reversed_ecc, c.reversed_inc]
    · exact absurd hE (not_lt.mpr h)
  · have hE' := mt hEG.mp hE
    have h3 : ∃ n3 : ℤ, c.reversed.ctkNu mu = Real.pi - c.ctkNu mu + n3 * (2 * Real.pi) := by
      unfold Cart.ctkNu
      rw [if_neg hE, if_neg hE', if_pos hI, if_pos hI', c.reversed_hx, c.reversed_hy, c.reversed_nn, c.reversed_rn,
        show - -c.hy / c.nn * (c.reversed.x / c.rn) + -c.hx / c.nn * (c.reversed.y / c.rn) =
          -(-c.hy / c.nn * (c.x / c.rn) + c.hx / c.nn * (c.y / c.rn)) by unfold Cart.reversed; ring]
      exact refl_neg _ _
    obtain ⟨n3, hn3⟩ := h3
    refine ⟨_, _, _, _, _, _, c.reversed.ctkOm mu, _, _, n1, 0, n3, ctk g hmu hh, ?_, hn1, fun h => ?_, fun h => ⟨?_, hn3⟩⟩
    · rw [ctk g hmu hh', hA, c.reversed_ecc, c.reversed_inc]
    · exact absurd h hE
    · unfold Cart.ctkOm; rw [if_neg hE']

end CartToKep

/-! ## Concrete cases -/

/-- an inclined ellipse: the hypotheses of the `kep_to_cart` theorems are met -/
example : (⟨7000, 1 / 10, 1, 2, 3, 1⟩ : Kep ℝ).Adm 398600 :=
  ⟨by norm_num, by norm_num, by norm_num, by
    have := Real.neg_one_le_cos 1
    show (0 : ℝ) < 1 + 1 / 10 * Real.cos 1
    linarith⟩

/-- a state moving through the pole, with angular momentum along x: the hypotheses of `c74_turn` and `c74_reverse_back` -/
example : 0 < (⟨0, 1, 0, 0, 0, 1⟩ : Cart ℝ).hn ∧ (⟨0, 1, 0, 0, 0, 1⟩ : Cart ℝ).IG := by
  have h1 := iLim_lt
  have e : (⟨0, 1, 0, 0, 0, 1⟩ : Cart ℝ).inc = Real.pi / 2 := by
    unfold Cart.inc Cart.hz; norm_num
  refine ⟨?_, ?_⟩
  · unfold Cart.hn Cart.hx Cart.hy Cart.hz; norm_num
  · unfold Cart.IG; rw [e]; exact ⟨h1, by linarith⟩

/-- a planar retrograde state: the hypotheses of `c74_turn_planar` -/
example : 0 < (⟨1, 0, 0, 0, -1, 0⟩ : Cart ℝ).hn ∧ (⟨1, 0, 0, 0, -1, 0⟩ : Cart ℝ).hx = 0 ∧
    (⟨1, 0, 0, 0, -1, 0⟩ : Cart ℝ).hy = 0 := by
  refine ⟨?_, ?_, ?_⟩
  · unfold Cart.hn Cart.hx Cart.hy Cart.hz; norm_num
  · unfold Cart.hx; norm_num
  · unfold Cart.hy; norm_num

end Pyorb
