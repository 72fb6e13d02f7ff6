import Verif.PropsKepCart

/-!
# Every regular Cartesian state has canonical Keplerian elements (real arithmetic)

Proof helper for C02.
-/

namespace Pyorb

theorem exists_angle {a b : ℝ} (h : a ^ 2 + b ^ 2 = 1) :
    ∃ θ, 0 ≤ θ ∧ θ < 2 * Real.pi ∧ Real.cos θ = a ∧ Real.sin θ = b := by
  have hpi := Real.pi_pos
  have h1 : -1 ≤ a := by nlinarith [sq_nonneg b]
  have h2 : a ≤ 1 := by nlinarith [sq_nonneg b]
  have hb : 1 - a ^ 2 = b ^ 2 := by linarith
  rcases le_or_gt 0 b with hb0 | hb0
  · refine ⟨Real.arccos a, Real.arccos_nonneg a, by linarith [Real.arccos_le_pi a], Real.cos_arccos h1 h2, ?_⟩
    rw [Real.sin_arccos, hb, Real.sqrt_sq hb0]
  · refine ⟨2 * Real.pi - Real.arccos a, by linarith [Real.arccos_le_pi a], ?_, ?_, ?_⟩
    · have : 0 < Real.arccos a := by
        rw [Real.arccos_pos]
        rcases lt_or_eq_of_le h2 with h3 | h3
        · exact h3
        · rw [h3] at hb; nlinarith
      linarith
    · rw [Real.cos_two_pi_sub, Real.cos_arccos h1 h2]
    · rw [Real.sin_two_pi_sub, Real.sin_arccos, hb, Real.sqrt_sq_eq_abs, abs_of_neg hb0, neg_neg]

theorem exists_angle' {a b : ℝ} (h : a ^ 2 + b ^ 2 = 1) :
    ∃ θ, 0 < θ ∧ θ ≤ 2 * Real.pi ∧ Real.cos θ = a ∧ Real.sin θ = b := by
  obtain ⟨θ, h0, h1, h2, h3⟩ := exists_angle h
  rcases lt_or_eq_of_le h0 with h4 | h4
  · exact ⟨θ, h4, h1.le, h2, h3⟩
  · refine ⟨2 * Real.pi, by linarith [Real.pi_pos], le_rfl, ?_, ?_⟩
    · rw [← h2, ← h4, Real.cos_zero, Real.cos_two_pi]
    · rw [← h3, ← h4, Real.sin_zero, Real.sin_two_pi]

namespace Kep
variable (k : Kep ℝ)

theorem row_xx : k.px * k.px + k.qx * k.qx + k.wx * k.wx = 1 := by
  have h1 := Real.sin_sq_add_cos_sq k.om
  have h2 := Real.sin_sq_add_cos_sq k.OM
  have h3 := Real.sin_sq_add_cos_sq k.i
  unfold px qx wx
  linear_combination (Real.cos k.OM ^ 2 + Real.cos k.i ^ 2 * Real.sin k.OM ^ 2) * h1 + Real.sin k.OM ^ 2 * h3 + h2
theorem row_yy : k.py * k.py + k.qy * k.qy + k.wy * k.wy = 1 := by
  have h1 := Real.sin_sq_add_cos_sq k.om
  have h2 := Real.sin_sq_add_cos_sq k.OM
  have h3 := Real.sin_sq_add_cos_sq k.i
  unfold py qy wy
  linear_combination (Real.sin k.OM ^ 2 + Real.cos k.i ^ 2 * Real.cos k.OM ^ 2) * h1 + Real.cos k.OM ^ 2 * h3 + h2
theorem row_zz : k.pz * k.pz + k.qz * k.qz + k.wz * k.wz = 1 := by
  have h1 := Real.sin_sq_add_cos_sq k.om
  have h3 := Real.sin_sq_add_cos_sq k.i
  unfold pz qz wz
  linear_combination Real.sin k.i ^ 2 * h1 + h3
theorem row_xy : k.px * k.py + k.qx * k.qy + k.wx * k.wy = 0 := by
  have h1 := Real.sin_sq_add_cos_sq k.om
  have h3 := Real.sin_sq_add_cos_sq k.i
  unfold px py qx qy wx wy
  linear_combination (Real.cos k.OM * Real.sin k.OM - Real.cos k.i ^ 2 * Real.sin k.OM * Real.cos k.OM) * h1
    - Real.sin k.OM * Real.cos k.OM * h3
theorem row_xz : k.px * k.pz + k.qx * k.qz + k.wx * k.wz = 0 := by
  have h1 := Real.sin_sq_add_cos_sq k.om
  unfold px pz qx qz wx wz
  linear_combination -Real.cos k.i * Real.sin k.OM * Real.sin k.i * h1
theorem row_yz : k.py * k.pz + k.qy * k.qz + k.wy * k.wz = 0 := by
  have h1 := Real.sin_sq_add_cos_sq k.om
  unfold py pz qy qz wy wz
  linear_combination Real.cos k.i * Real.cos k.OM * Real.sin k.i * h1

/-- component along P -/
noncomputable def onP (x y z : ℝ) : ℝ := k.px * x + k.py * y + k.pz * z
/-- component along Q -/
noncomputable def onQ (x y z : ℝ) : ℝ := k.qx * x + k.qy * y + k.qz * z

theorem decomp {x y z : ℝ} (hw : k.wx * x + k.wy * y + k.wz * z = 0) :
    x = k.px * k.onP x y z + k.qx * k.onQ x y z ∧ y = k.py * k.onP x y z + k.qy * k.onQ x y z ∧
    z = k.pz * k.onP x y z + k.qz * k.onQ x y z := by
  unfold onP onQ
  refine ⟨?_, ?_, ?_⟩
  · linear_combination -x * k.row_xx - y * k.row_xy - z * k.row_xz + k.wx * hw
  · linear_combination -x * k.row_xy - y * k.row_yy - z * k.row_yz + k.wy * hw
  · linear_combination -x * k.row_xz - y * k.row_yz - z * k.row_zz + k.wz * hw

theorem decomp_norm {x y z : ℝ} (hw : k.wx * x + k.wy * y + k.wz * z = 0) :
    k.onP x y z ^ 2 + k.onQ x y z ^ 2 = x ^ 2 + y ^ 2 + z ^ 2 := by
  obtain ⟨h1, h2, h3⟩ := k.decomp hw
  have := k.plane_norm (k.onP x y z) (k.onQ x y z)
  rw [← h1, ← h2, ← h3] at this
  exact this.symm

theorem wq_cross_x : k.wy * k.pz - k.wz * k.py = k.qx := by
  have h3 := Real.sin_sq_add_cos_sq k.i
  unfold wy pz wz py qx
  linear_combination (-Real.cos k.OM * Real.sin k.om) * h3
theorem wq_cross_y : k.wz * k.px - k.wx * k.pz = k.qy := by
  have h3 := Real.sin_sq_add_cos_sq k.i
  unfold wx pz wz px qy
  linear_combination (-Real.sin k.OM * Real.sin k.om) * h3
theorem wq_cross_z : k.wx * k.py - k.wy * k.px = k.qz := by
  have h2 := Real.sin_sq_add_cos_sq k.OM
  unfold wx py wy px qz
  linear_combination (Real.sin k.i * Real.cos k.om) * h2

end Kep

namespace Cart
variable {mu : ℝ} (c : Cart ℝ)

theorem rn_sq : c.rn ^ 2 = c.x ^ 2 + c.y ^ 2 + c.z ^ 2 := Real.sq_sqrt (by positivity)
theorem vn_sq : c.vn ^ 2 = c.vx ^ 2 + c.vy ^ 2 + c.vz ^ 2 := Real.sq_sqrt (by positivity)
theorem hn_sq : c.hn ^ 2 = c.hx ^ 2 + c.hy ^ 2 + c.hz ^ 2 := Real.sq_sqrt (by positivity)
theorem ecc_sq : c.ecc mu ^ 2 = c.evx mu ^ 2 + c.evy mu ^ 2 + c.evz mu ^ 2 := Real.sq_sqrt (by positivity)

theorem lagrange : c.hn ^ 2 = c.rn ^ 2 * c.vn ^ 2 - c.rv ^ 2 := by
  rw [hn_sq, rn_sq, vn_sq]; unfold hx hy hz rv; ring

theorem rn_pos (hh : 0 < c.hn) : 0 < c.rn := by
  rcases lt_or_eq_of_le (Real.sqrt_nonneg (c.x ^ 2 + c.y ^ 2 + c.z ^ 2)) with h | h
  · exact h
  · exfalso
    have h0 : c.rn = 0 := h.symm
    have h1 := c.lagrange
    rw [h0] at h1
    nlinarith [sq_nonneg c.rv, mul_pos hh hh]

/-- `mu ev = v x h - mu r/|r|` -/
theorem mu_ev (hmu : 0 < mu) (hh : 0 < c.hn) :
    mu * c.evx mu = c.vy * c.hz - c.vz * c.hy - mu / c.rn * c.x ∧
    mu * c.evy mu = c.vz * c.hx - c.vx * c.hz - mu / c.rn * c.y ∧
    mu * c.evz mu = c.vx * c.hy - c.vy * c.hx - mu / c.rn * c.z := by
  have hr := c.rn_pos hh
  have hm := hmu.ne'
  unfold evx evy evz
  rw [c.rn_mul_vr hr, c.vn_sq]
  have key : ∀ X : ℝ, mu * (1 / mu * X) = X := fun X => by field_simp
  rw [key, key, key]
  unfold rv hx hy hz
  refine ⟨?_, ?_, ?_⟩ <;> ring

theorem ev_dot_r (hmu : 0 < mu) (hh : 0 < c.hn) :
    mu * (c.evx mu * c.x + c.evy mu * c.y + c.evz mu * c.z) = c.hn ^ 2 - mu * c.rn := by
  obtain ⟨h1, h2, h3⟩ := c.mu_ev hmu hh
  have hr := c.rn_pos hh
  have e1 : mu / c.rn * c.rn ^ 2 = mu * c.rn := by have := hr.ne'; field_simp
  rw [c.hn_sq]
  rw [c.rn_sq] at e1
  unfold hx hy hz at *
  linear_combination c.x * h1 + c.y * h2 + c.z * h3 - e1

theorem ev_dot_h (hmu : 0 < mu) (hh : 0 < c.hn) : c.hx * c.evx mu + c.hy * c.evy mu + c.hz * c.evz mu = 0 := by
  obtain ⟨h1, h2, h3⟩ := c.mu_ev hmu hh
  apply mul_left_cancel₀ hmu.ne'
  have : c.hx * c.x + c.hy * c.y + c.hz * c.z = 0 := by unfold hx hy hz; ring
  linear_combination c.hx * h1 + c.hy * h2 + c.hz * h3 - mu / c.rn * this

/-- Elements whose orbital frame fits the state give back the state. -/
theorem state_of_frame (hmu : 0 < mu) (hh : 0 < c.hn) (k : Kep ℝ)
    (hW : c.hx = c.hn * k.wx ∧ c.hy = c.hn * k.wy ∧ c.hz = c.hn * k.wz)
    (hslr : mu * k.slr = c.hn ^ 2)
    (hP : c.evx mu = k.e * k.px ∧ c.evy mu = k.e * k.py ∧ c.evz mu = k.e * k.pz)
    (hnu : c.rn * Real.cos k.nu = k.onP c.x c.y c.z ∧ c.rn * Real.sin k.nu = k.onQ c.x c.y c.z) :
    0 < 1 + k.e * Real.cos k.nu ∧ k.state mu = c := by
  have hr := c.rn_pos hh
  obtain ⟨w1, w2, w3⟩ := hW
  obtain ⟨p1, p2, p3⟩ := hP
  obtain ⟨n1, n2⟩ := hnu
  have hhm : k.hm mu = c.hn := by unfold Kep.hm; rw [hslr, Real.sqrt_sq hh.le]
  have hwr : k.wx * c.x + k.wy * c.y + k.wz * c.z = 0 := by
    apply mul_left_cancel₀ hh.ne'
    have : c.hx * c.x + c.hy * c.y + c.hz * c.z = 0 := by unfold hx hy hz; ring
    rw [w1, w2, w3] at this; linear_combination this
  have hwv : k.wx * c.vx + k.wy * c.vy + k.wz * c.vz = 0 := by
    apply mul_left_cancel₀ hh.ne'
    have : c.hx * c.vx + c.hy * c.vy + c.hz * c.vz = 0 := by unfold hx hy hz; ring
    rw [w1, w2, w3] at this; linear_combination this
  obtain ⟨r1, r2, r3⟩ := k.decomp hwr
  obtain ⟨v1, v2, v3⟩ := k.decomp hwv
  have hpos : c.rn * (1 + k.e * Real.cos k.nu) = k.slr := by
    apply mul_left_cancel₀ hmu.ne'
    have h1 := c.ev_dot_r hmu hh
    rw [p1, p2, p3] at h1
    unfold Kep.onP at n1
    linear_combination h1 - hslr + mu * k.e * n1
  have hslr0 : 0 < k.slr := by
    by_contra h; have := not_lt.mp h; nlinarith [mul_pos hh hh]
  have hcpos : 0 < 1 + k.e * Real.cos k.nu := by
    by_contra h; have := not_lt.mp h; nlinarith
  have hrad : k.rad = c.rn := by
    unfold Kep.rad; rw [div_eq_iff hcpos.ne']; exact hpos.symm
  have hrx : k.rx = k.onP c.x c.y c.z := by unfold Kep.rx; rw [hrad, n1]
  have hry : k.ry = k.onQ c.x c.y c.z := by unfold Kep.ry; rw [hrad, n2]
  obtain ⟨m1, m2, m3⟩ := c.mu_ev hmu hh
  rw [p1, w2, w3] at m1
  rw [p2, w1, w3] at m2
  rw [p3, w1, w2] at m3
  have e0 : mu / c.rn * c.rn = mu := div_mul_cancel₀ _ hr.ne'
  have hQ : c.hn * k.onQ c.vx c.vy c.vz = mu * (k.e + Real.cos k.nu) := by
    have q1 := k.wq_cross_x; have q2 := k.wq_cross_y; have q3 := k.wq_cross_z
    unfold Kep.onP at n1
    unfold Kep.onQ
    linear_combination -k.px * m1 - k.py * m2 - k.pz * m3 + mu * k.e * k.p_norm - mu / c.rn * n1
      - Real.cos k.nu * -e0 - c.hn * c.vx * q1 - c.hn * c.vy * q2 - c.hn * c.vz * q3
  have hP' : c.hn * k.onP c.vx c.vy c.vz = -(mu * Real.sin k.nu) := by
    have a1 : k.wy * k.qz - k.wz * k.qy = -k.px := by
      rw [← k.wq_cross_z, ← k.wq_cross_y]
      have := k.w_norm
      have o : k.wx * k.px + k.wy * k.py + k.wz * k.pz = 0 := by
        have h2 := Real.sin_sq_add_cos_sq k.OM
        unfold Kep.wx Kep.wy Kep.wz Kep.px Kep.py Kep.pz
        linear_combination (-Real.sin k.i * Real.cos k.i * Real.sin k.om) * h2
      linear_combination -k.px * this + k.wx * o
    have a2 : k.wz * k.qx - k.wx * k.qz = -k.py := by
      rw [← k.wq_cross_z, ← k.wq_cross_x]
      have := k.w_norm
      have o : k.wx * k.px + k.wy * k.py + k.wz * k.pz = 0 := by
        have h2 := Real.sin_sq_add_cos_sq k.OM
        unfold Kep.wx Kep.wy Kep.wz Kep.px Kep.py Kep.pz
        linear_combination (-Real.sin k.i * Real.cos k.i * Real.sin k.om) * h2
      linear_combination -k.py * this + k.wy * o
    have a3 : k.wx * k.qy - k.wy * k.qx = -k.pz := by
      rw [← k.wq_cross_x, ← k.wq_cross_y]
      have := k.w_norm
      have o : k.wx * k.px + k.wy * k.py + k.wz * k.pz = 0 := by
        have h2 := Real.sin_sq_add_cos_sq k.OM
        unfold Kep.wx Kep.wy Kep.wz Kep.px Kep.py Kep.pz
        linear_combination (-Real.sin k.i * Real.cos k.i * Real.sin k.om) * h2
      linear_combination -k.pz * this + k.wz * o
    have hpq := k.pq_dot
    unfold Kep.onQ at n2
    unfold Kep.onP
    linear_combination k.qx * m1 + k.qy * m2 + k.qz * m3 - mu * k.e * hpq + mu / c.rn * n2
      - Real.sin k.nu * e0 + c.hn * c.vx * a1 + c.hn * c.vy * a2 + c.hn * c.vz * a3
  have hux : k.ux mu = k.onP c.vx c.vy c.vz := by
    unfold Kep.ux; rw [hhm]; have := hh.ne'; field_simp; linear_combination -hP'
  have huy : k.uy mu = k.onQ c.vx c.vy c.vz := by
    unfold Kep.uy; rw [hhm]; have := hh.ne'; field_simp; linear_combination -hQ
  refine ⟨hcpos, ?_⟩
  unfold Kep.state
  rw [hrx, hry, hux, huy, ← r1, ← r2, ← r3, ← v1, ← v2, ← v3]

/-- Every state that is inclined (or exactly planar), eccentric (or exactly circular) and not parabolic comes from
canonical elements. -/
theorem exists_canonical (hmu : 0 < mu) (hh : 0 < c.hn) (h1 : c.ecc mu ≠ 1) (hE : c.EG mu ∨ c.ecc mu = 0)
    (hI : c.IG ∨ (c.hx = 0 ∧ c.hy = 0)) : ∃ k, Canonical k ∧ k.state mu = c := by
  have hr := c.rn_pos hh
  have hpi := Real.pi_pos
  have hil := iLim_lt
  have hil0 := iLim_pos
  obtain ⟨z1, z2⟩ := c.hz_div_mem hh
  have hi0 : 0 ≤ c.inc := Real.arccos_nonneg _
  have hi1 : c.inc ≤ Real.pi := Real.arccos_le_pi _
  have hcos : Real.cos c.inc = c.hz / c.hn := Real.cos_arccos z1 z2
  have hsin0 : 0 ≤ Real.sin c.inc := Real.sin_nonneg_of_nonneg_of_le_pi hi0 hi1
  have hsin : (c.hn * Real.sin c.inc) ^ 2 = c.hx ^ 2 + c.hy ^ 2 := by
    have h2 := Real.sin_sq_add_cos_sq c.inc
    have h3 : c.hn * Real.cos c.inc = c.hz := by rw [hcos, mul_div_cancel₀ _ hh.ne']
    have h4 := c.hn_sq
    linear_combination c.hn ^ 2 * h2 + h4 - (c.hn * Real.cos c.inc + c.hz) * h3
  have he0 : 0 ≤ c.ecc mu := Real.sqrt_nonneg _
  -- node
  obtain ⟨Om, hO1, hO2, hO3, hO4⟩ : ∃ Om : ℝ, c.hx = c.hn * (Real.sin Om * Real.sin c.inc) ∧
      c.hy = c.hn * (-Real.cos Om * Real.sin c.inc) ∧
      (iLim < c.inc → c.inc < Real.pi - iLim → 0 ≤ Om ∧ Om < 2 * Real.pi) ∧
      (c.inc ≤ iLim ∨ Real.pi - iLim ≤ c.inc → Om = 0) := by
    rcases hI with hI | ⟨hx0, hy0⟩
    · have hs : 0 < Real.sin c.inc :=
        Real.sin_pos_of_pos_of_lt_pi (hil0.trans hI.1) (by linarith [hI.2])
      have hhs : 0 < c.hn * Real.sin c.inc := mul_pos hh hs
      have hone : (-c.hy / (c.hn * Real.sin c.inc)) ^ 2 + (c.hx / (c.hn * Real.sin c.inc)) ^ 2 = 1 := by
        rw [div_pow, div_pow, ← add_div, div_eq_one_iff_eq (by positivity), hsin]; ring
      obtain ⟨Om, a1, a2, a3, a4⟩ := exists_angle hone
      refine ⟨Om, ?_, ?_, fun _ _ => ⟨a1, a2⟩, fun h => ?_⟩
      · rw [a4]; field_simp
      · rw [a3]; field_simp
      · rcases h with h | h
        · exact absurd hI.1 (not_lt.mpr h)
        · exact absurd hI.2 (not_lt.mpr h)
    · refine ⟨0, ?_, ?_, fun _ _ => ⟨le_rfl, by linarith⟩, fun _ => rfl⟩
      · rw [hx0]; simp
      · rw [hx0, hy0] at hsin
        have : c.hn * Real.sin c.inc = 0 := by
          have : (c.hn * Real.sin c.inc) ^ 2 = 0 := by linarith
          exact pow_eq_zero_iff (two_ne_zero) |>.mp this
        rw [hy0, Real.cos_zero]; linear_combination this
  have hW : ∀ om nu a, c.hx = c.hn * (Kep.mk a (c.ecc mu) c.inc om Om nu).wx ∧
      c.hy = c.hn * (Kep.mk a (c.ecc mu) c.inc om Om nu).wy ∧ c.hz = c.hn * (Kep.mk a (c.ecc mu) c.inc om Om nu).wz := by
    intro om nu a
    refine ⟨hO1, hO2, ?_⟩
    show c.hz = c.hn * Real.cos c.inc
    rw [hcos, mul_div_cancel₀ _ hh.ne']
  -- semi-major axis
  have hne : 1 - c.ecc mu ^ 2 ≠ 0 := by
    intro h0
    have : (c.ecc mu - 1) * (c.ecc mu + 1) = 0 := by linarith
    rcases mul_eq_zero.mp this with h2 | h2
    · exact h1 (by linarith)
    · linarith
  set a : ℝ := c.hn ^ 2 / (mu * |1 - c.ecc mu ^ 2|) with ha
  have habs := abs_pos.mpr hne
  have ha0 : 0 < a := by positivity
  have hslr : ∀ om nu, mu * (Kep.mk a (c.ecc mu) c.inc om Om nu).slr = c.hn ^ 2 := by
    intro om nu
    unfold Kep.slr
    simp only [if_neg h1]
    rw [ha]; field_simp
  -- argument of periapsis
  obtain ⟨om, hP, hom1, hom2, hom3⟩ : ∃ om : ℝ,
      (∀ nu, c.evx mu = c.ecc mu * (Kep.mk a (c.ecc mu) c.inc om Om nu).px ∧
        c.evy mu = c.ecc mu * (Kep.mk a (c.ecc mu) c.inc om Om nu).py ∧
        c.evz mu = c.ecc mu * (Kep.mk a (c.ecc mu) c.inc om Om nu).pz) ∧
      (eLim < c.ecc mu → c.inc < Real.pi - iLim → 0 ≤ om ∧ om < 2 * Real.pi) ∧
      (eLim < c.ecc mu → Real.pi - iLim ≤ c.inc → 0 < om ∧ om ≤ 2 * Real.pi) ∧
      (c.ecc mu ≤ eLim → om = 0) := by
    rcases hE with hE | hE
    · have he : 0 < c.ecc mu := eLim_pos.trans hE
      let k0 : Kep ℝ := Kep.mk a (c.ecc mu) c.inc 0 Om 0
      have hw : k0.wx * c.evx mu + k0.wy * c.evy mu + k0.wz * c.evz mu = 0 := by
        obtain ⟨w1, w2, w3⟩ := hW 0 0 a
        have := c.ev_dot_h hmu hh
        apply mul_left_cancel₀ hh.ne'
        rw [w1, w2, w3] at this; linear_combination this
      obtain ⟨d1, d2, d3⟩ := k0.decomp hw
      have hn := k0.decomp_norm hw
      rw [← c.ecc_sq] at hn
      set s := k0.onP (c.evx mu) (c.evy mu) (c.evz mu)
      set t := k0.onQ (c.evx mu) (c.evy mu) (c.evz mu)
      have hone : (s / c.ecc mu) ^ 2 + (t / c.ecc mu) ^ 2 = 1 := by
        rw [div_pow, div_pow, ← add_div, hn, div_self (by positivity)]
      have fin : ∀ om, Real.cos om = s / c.ecc mu → Real.sin om = t / c.ecc mu → ∀ nu,
          c.evx mu = c.ecc mu * (Kep.mk a (c.ecc mu) c.inc om Om nu).px ∧
          c.evy mu = c.ecc mu * (Kep.mk a (c.ecc mu) c.inc om Om nu).py ∧
          c.evz mu = c.ecc mu * (Kep.mk a (c.ecc mu) c.inc om Om nu).pz := by
        intro om h5 h6 nu
        have s1 : c.ecc mu * Real.cos om = s := by rw [h5, mul_div_cancel₀ _ he.ne']
        have t1 : c.ecc mu * Real.sin om = t := by rw [h6, mul_div_cancel₀ _ he.ne']
        have e1 : k0.px = Real.cos Om := by simp [k0, Kep.px]
        have e2 : k0.py = Real.sin Om := by simp [k0, Kep.py]
        have e3 : k0.pz = 0 := by simp [k0, Kep.pz]
        have f1 : k0.qx = -(Real.cos c.inc * Real.sin Om) := by simp [k0, Kep.qx]
        have f2 : k0.qy = Real.cos Om * Real.cos c.inc := by simp [k0, Kep.qy]
        have f3 : k0.qz = Real.sin c.inc := by simp [k0, Kep.qz]
        rw [e1, f1] at d1
        rw [e2, f2] at d2
        rw [e3, f3] at d3
        unfold Kep.px Kep.py Kep.pz
        simp only
        refine ⟨?_, ?_, ?_⟩
        · linear_combination d1 - Real.cos Om * s1 + Real.cos c.inc * Real.sin Om * t1
        · linear_combination d2 - Real.sin Om * s1 - Real.cos Om * Real.cos c.inc * t1
        · linear_combination d3 - Real.sin c.inc * t1
      rcases lt_or_ge c.inc (Real.pi - iLim) with hlt | hge
      · obtain ⟨om, b1, b2, b3, b4⟩ := exists_angle hone
        exact ⟨om, fin om b3 b4, fun _ _ => ⟨b1, b2⟩, fun _ h => absurd hlt (not_lt.mpr h),
          fun h => absurd hE (not_lt.mpr h)⟩
      · obtain ⟨om, b1, b2, b3, b4⟩ := exists_angle' hone
        exact ⟨om, fin om b3 b4, fun _ h => absurd h (not_lt.mpr hge), fun _ _ => ⟨b1, b2⟩,
          fun h => absurd hE (not_lt.mpr h)⟩
    · have h0 := c.ecc_sq (mu := mu)
      rw [hE] at h0
      have x0 : c.evx mu = 0 := by nlinarith [sq_nonneg (c.evx mu), sq_nonneg (c.evy mu), sq_nonneg (c.evz mu)]
      have y0 : c.evy mu = 0 := by nlinarith [sq_nonneg (c.evx mu), sq_nonneg (c.evy mu), sq_nonneg (c.evz mu)]
      have z0 : c.evz mu = 0 := by nlinarith [sq_nonneg (c.evx mu), sq_nonneg (c.evy mu), sq_nonneg (c.evz mu)]
      refine ⟨0, fun nu => ?_, fun h => ?_, fun h => ?_, fun _ => rfl⟩
      · rw [hE, x0, y0, z0]; simp
      · rw [hE] at h; exact absurd h (not_lt.mpr eLim_pos.le)
      · rw [hE] at h; exact absurd h (not_lt.mpr eLim_pos.le)
  -- true anomaly
  let k1 : Kep ℝ := Kep.mk a (c.ecc mu) c.inc om Om 0
  have hw : k1.wx * c.x + k1.wy * c.y + k1.wz * c.z = 0 := by
    obtain ⟨w1, w2, w3⟩ := hW om 0 a
    have : c.hx * c.x + c.hy * c.y + c.hz * c.z = 0 := by unfold hx hy hz; ring
    apply mul_left_cancel₀ hh.ne'
    rw [w1, w2, w3] at this; linear_combination this
  have hn := k1.decomp_norm hw
  rw [← c.rn_sq] at hn
  have hone : (k1.onP c.x c.y c.z / c.rn) ^ 2 + (k1.onQ c.x c.y c.z / c.rn) ^ 2 = 1 := by
    rw [div_pow, div_pow, ← add_div, hn, div_self (by positivity)]
  have fin : ∀ nu, Real.cos nu = k1.onP c.x c.y c.z / c.rn → Real.sin nu = k1.onQ c.x c.y c.z / c.rn →
      0 < 1 + c.ecc mu * Real.cos nu ∧ (Kep.mk a (c.ecc mu) c.inc om Om nu).state mu = c := by
    intro nu h5 h6
    apply c.state_of_frame hmu hh (Kep.mk a (c.ecc mu) c.inc om Om nu) (hW om nu a) (hslr om nu) (hP nu)
    constructor
    · rw [h5, mul_div_cancel₀ _ hr.ne']; rfl
    · rw [h6, mul_div_cancel₀ _ hr.ne']; rfl
  by_cases hcase : eLim < c.ecc mu ∨ c.inc < Real.pi - iLim
  · obtain ⟨nu, b1, b2, b3, b4⟩ := exists_angle hone
    obtain ⟨g1, g2⟩ := fin nu b3 b4
    refine ⟨_, ⟨⟨ha0, he0, hi0, hi1, g1, hO3, hO4, hom1, hom2, hom3, fun _ => ⟨b1, b2⟩, fun h5 h6 => ?_⟩, h1⟩, g2⟩
    rcases hcase with h | h
    · exact absurd h (not_lt.mpr h5)
    · exact absurd h (not_lt.mpr h6)
  · obtain ⟨nu, b1, b2, b3, b4⟩ := exists_angle' hone
    obtain ⟨g1, g2⟩ := fin nu b3 b4
    exact ⟨_, ⟨⟨ha0, he0, hi0, hi1, g1, hO3, hO4, hom1, hom2, hom3, fun h => absurd h hcase,
      fun _ _ => ⟨b1, b2⟩⟩, h1⟩, g2⟩

end Cart
end Pyorb
