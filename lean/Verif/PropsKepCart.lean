import Verif.KepGeom
import Verif.KeplerArr

/-!
# C01-C04, C15: `kep_to_cart` and `cart_to_kep`
-/

namespace Pyorb
open FX

/-! ## Angle recovery -/

theorem refl_of_neg {θ : ℝ} (h0 : 0 ≤ θ) (h1 : θ < 2 * Real.pi) {b : Prop} [Decidable b] (hb : b ↔ Real.sin θ < 0) :
    refl b (Real.cos θ) = θ := by
  unfold refl
  rcases le_or_gt θ Real.pi with h | h
  · rw [if_neg (by rw [hb]; exact not_lt.mpr (Real.sin_nonneg_of_nonneg_of_le_pi h0 h)), Real.arccos_cos h0 h]
  · have hs : Real.sin θ < 0 := by
      have : Real.sin (2 * Real.pi - θ) = -Real.sin θ := by rw [Real.sin_two_pi_sub]
      have : 0 < Real.sin (2 * Real.pi - θ) := Real.sin_pos_of_pos_of_lt_pi (by linarith) (by linarith)
      linarith
    rw [if_pos (hb.mpr hs), ← Real.cos_two_pi_sub, Real.arccos_cos (by linarith) (by linarith)]
    ring

theorem refl_of_nonpos {θ : ℝ} (h0 : 0 < θ) (h1 : θ ≤ 2 * Real.pi) {b : Prop} [Decidable b]
    (hb : b ↔ Real.sin θ ≤ 0) : refl b (Real.cos θ) = θ := by
  unfold refl
  rcases lt_or_ge θ Real.pi with h | h
  · rw [if_neg (by rw [hb]; exact not_le.mpr (Real.sin_pos_of_pos_of_lt_pi h0 h)), Real.arccos_cos h0.le h.le]
  · have hs : Real.sin θ ≤ 0 := by
      have h2 : Real.sin (2 * Real.pi - θ) = -Real.sin θ := by rw [Real.sin_two_pi_sub]
      have : 0 ≤ Real.sin (2 * Real.pi - θ) := Real.sin_nonneg_of_nonneg_of_le_pi (by linarith) (by linarith)
      linarith
    rw [if_pos (hb.mpr hs), ← Real.cos_two_pi_sub, Real.arccos_cos (by linarith) (by linarith)]
    ring

/-! ## C01 -/

/-- Elements in the documented ranges (README, kepler.py 358-366): positive `a`, non-negative `e`, inclination in [0, pi], the point lies on the orbit; node and periapsis angles zero where the convention says so, and all
other angles within one turn.  Where the orbit is planar and retrograde the code's convention represents the zero angle as
2 pi, so the half-open interval is (0, 2 pi] there. -/
structure CanonicalAny (k : Kep ℝ) : Prop where
  a_pos : 0 < k.a
  e_nonneg : 0 ≤ k.e
  i_nonneg : 0 ≤ k.i
  i_le : k.i ≤ Real.pi
  on_branch : 0 < 1 + k.e * Real.cos k.nu
  inclined : iLim < k.i → k.i < Real.pi - iLim → 0 ≤ k.OM ∧ k.OM < 2 * Real.pi
  planar : k.i ≤ iLim ∨ Real.pi - iLim ≤ k.i → k.OM = 0
  ecc_om : eLim < k.e → k.i < Real.pi - iLim → 0 ≤ k.om ∧ k.om < 2 * Real.pi
  ecc_om_retro : eLim < k.e → Real.pi - iLim ≤ k.i → 0 < k.om ∧ k.om ≤ 2 * Real.pi
  circ_om : k.e ≤ eLim → k.om = 0
  nu_range : eLim < k.e ∨ k.i < Real.pi - iLim → 0 ≤ k.nu ∧ k.nu < 2 * Real.pi
  nu_range_retro : k.e ≤ eLim → Real.pi - iLim ≤ k.i → 0 < k.nu ∧ k.nu ≤ 2 * Real.pi

/-- canonical elements of an ellipse or hyperbola -/
structure Canonical (k : Kep ℝ) : Prop extends CanonicalAny k where
  e_ne_one : k.e ≠ 1

namespace CanonicalAny
variable {mu : ℝ} {k : Kep ℝ}

theorem adm (hk : CanonicalAny k) (hmu : 0 < mu) : k.Adm mu := ⟨hmu, hk.a_pos, hk.e_nonneg, hk.on_branch⟩

theorem inc_eq (hk : CanonicalAny k) (hmu : 0 < mu) : (k.state mu).inc = k.i := by
  have h := hk.adm hmu
  unfold Cart.inc
  rw [h.state_hz, h.state_hn, mul_div_cancel_left₀ _ h.hm.ne', Kep.wz, Real.arccos_cos hk.i_nonneg hk.i_le]

theorem sin_i_nonneg (hk : CanonicalAny k) : 0 ≤ Real.sin k.i :=
  Real.sin_nonneg_of_nonneg_of_le_pi hk.i_nonneg hk.i_le

theorem nn_eq (hk : CanonicalAny k) (hmu : 0 < mu) : (k.state mu).nn = k.hm mu * Real.sin k.i := by
  have h := hk.adm hmu
  rw [Cart.nn_eq, h.state_hx, h.state_hy]
  have : (k.hm mu * k.wx) ^ 2 + (k.hm mu * k.wy) ^ 2 = (k.hm mu * Real.sin k.i) ^ 2 := by
    unfold Kep.wx Kep.wy
    linear_combination k.hm mu ^ 2 * Real.sin k.i ^ 2 * Real.sin_sq_add_cos_sq k.OM
  rw [this, Real.sqrt_sq (mul_nonneg h.hm.le hk.sin_i_nonneg)]

theorem OM_eq (hk : CanonicalAny k) (hmu : 0 < mu) : (k.state mu).ctkOM = k.OM := by
  have h := hk.adm hmu
  unfold Cart.ctkOM
  split_ifs with hi
  · rw [Cart.IG, hk.inc_eq hmu] at hi
    have hs : 0 < Real.sin k.i :=
      Real.sin_pos_of_pos_of_lt_pi (iLim_pos.trans hi.1) (by linarith [hi.2, iLim_pos])
    obtain ⟨h0, h1⟩ := hk.inclined hi.1 hi.2
    have hm := h.hm
    have e1 : -(k.state mu).hy / (k.state mu).nn = Real.cos k.OM := by
      rw [h.state_hy, hk.nn_eq hmu, Kep.wy]; field_simp
    rw [e1]
    apply refl_of_neg h0 h1
    rw [h.state_hx, Kep.wx]
    constructor
    · intro h2
      by_contra h3
      have : 0 ≤ k.hm mu * (Real.sin k.OM * Real.sin k.i) := by
        have := not_lt.mp h3; positivity
      linarith
    · intro h2
      exact mul_neg_of_pos_of_neg hm (mul_neg_of_neg_of_pos h2 hs)
  · rw [Cart.IG, hk.inc_eq hmu, not_and_or, not_lt, not_lt] at hi
    exact (hk.planar hi).symm

theorem cos_i_pos_iff (hk : CanonicalAny k) : k.i < Real.pi / 2 → 0 < Real.cos k.i := fun h =>
  Real.cos_pos_of_mem_Ioo ⟨by linarith [hk.i_nonneg, Real.pi_pos], h⟩

theorem cos_i_neg (hk : CanonicalAny k) : Real.pi / 2 < k.i → Real.cos k.i < 0 := fun h =>
  Real.cos_neg_of_pi_div_two_lt_of_lt h (by linarith [hk.i_le, Real.pi_pos])

theorem om_eq (hk : CanonicalAny k) (hmu : 0 < mu) : (k.state mu).ctkOm mu = k.om := by
  have h := hk.adm hmu
  obtain ⟨ex, ey, ez⟩ := h.state_ev
  have hpl := iLim_lt
  unfold Cart.ctkOm
  by_cases hE : (k.state mu).EG mu
  · rw [if_pos hE]
    rw [Cart.EG, h.state_ecc] at hE
    have he : 0 < k.e := eLim_pos.trans hE
    by_cases hi : (k.state mu).IG
    · rw [if_pos hi]
      rw [Cart.IG, hk.inc_eq hmu] at hi
      have hs : 0 < Real.sin k.i :=
        Real.sin_pos_of_pos_of_lt_pi (iLim_pos.trans hi.1) (by linarith [hi.2, iLim_pos])
      obtain ⟨h0, h1⟩ := hk.ecc_om hE hi.2
      have hm := h.hm
      have e1 : (-(k.state mu).hy * (k.state mu).evx mu + (k.state mu).hx * (k.state mu).evy mu)
          / ((k.state mu).nn * (k.state mu).ecc mu) = Real.cos k.om := by
        rw [h.state_hy, h.state_hx, ex, ey, h.state_ecc, hk.nn_eq hmu, div_eq_iff (by positivity)]
        unfold Kep.wx Kep.wy Kep.px Kep.py
        linear_combination k.hm mu * Real.sin k.i * k.e * Real.cos k.om * Real.sin_sq_add_cos_sq k.OM
      rw [e1]
      apply refl_of_neg h0 h1
      rw [ez, Kep.pz]
      constructor
      · intro h2
        by_contra h3
        have h4 := not_lt.mp h3
        have : 0 ≤ k.e * (Real.sin k.i * Real.sin k.om) := by positivity
        linarith
      · intro h2
        exact mul_neg_of_pos_of_neg he (mul_neg_of_pos_of_neg hs h2)
    · rw [if_neg hi]
      rw [Cart.IG, hk.inc_eq hmu, not_and_or, not_lt, not_lt] at hi
      have hO := hk.planar hi
      rw [hk.inc_eq hmu, ex, ey, h.state_ecc, mul_div_cancel_left₀ _ he.ne']
      have e1 : k.px = Real.cos k.om := by unfold Kep.px; rw [hO]; simp
      have e2 : k.py = Real.cos k.i * Real.sin k.om := by unfold Kep.py; rw [hO]; simp
      rw [e1, e2]
      split_ifs with hlt
      · obtain ⟨h0, h1⟩ := hk.ecc_om hE (by linarith)
        have hc := hk.cos_i_pos_iff hlt
        apply refl_of_neg h0 h1
        constructor
        · intro h2
          by_contra h3
          have h4 := not_lt.mp h3
          have : 0 ≤ k.e * (Real.cos k.i * Real.sin k.om) := by positivity
          linarith
        · intro h2
          exact mul_neg_of_pos_of_neg he (mul_neg_of_pos_of_neg hc h2)
      · have hi' : Real.pi - iLim ≤ k.i := by
          rcases hi with hi | hi
          · exact absurd (lt_of_le_of_lt hi hpl) hlt
          · exact hi
        obtain ⟨h0, h1⟩ := hk.ecc_om_retro hE hi'
        have hc := hk.cos_i_neg (by linarith)
        apply refl_of_nonpos h0 h1
        constructor
        · intro h2
          by_contra h3
          have h4 := not_le.mp h3
          have : k.e * (Real.cos k.i * Real.sin k.om) < 0 :=
            mul_neg_of_pos_of_neg he (mul_neg_of_neg_of_pos hc h4)
          linarith
        · intro h2
          exact mul_nonneg he.le (mul_nonneg_of_nonpos_of_nonpos hc.le h2)
  · rw [if_neg hE]
    rw [Cart.EG, h.state_ecc, not_lt] at hE
    exact (hk.circ_om hE).symm

theorem nu_eq (hk : CanonicalAny k) (hmu : 0 < mu) : (k.state mu).ctkNu mu = k.nu := by
  have h := hk.adm hmu
  obtain ⟨ex, ey, ez⟩ := h.state_ev
  have hpl := iLim_lt
  have hr := h.rad
  unfold Cart.ctkNu
  by_cases hE : (k.state mu).EG mu
  · rw [if_pos hE]
    rw [Cart.EG, h.state_ecc] at hE
    have he : 0 < k.e := eLim_pos.trans hE
    obtain ⟨h0, h1⟩ := hk.nu_range (Or.inl hE)
    have e1 : ((k.state mu).evx mu * (k.state mu).x + (k.state mu).evy mu * (k.state mu).y
        + (k.state mu).evz mu * (k.state mu).z) / ((k.state mu).ecc mu * (k.state mu).rn) = Real.cos k.nu := by
      rw [ex, ey, ez, h.state_ecc, h.state_rn, div_eq_iff (by positivity)]
      have := k.plane_dot 1 0 k.rx k.ry
      unfold Kep.state
      simp only [mul_one, mul_zero, add_zero, one_mul, zero_mul] at this
      have e2 : k.rx = k.rad * Real.cos k.nu := rfl
      linear_combination k.e * this + k.e * e2
    rw [e1]
    apply refl_of_neg h0 h1
    rw [h.state_vr]
    have hq : 0 < mu / k.hm mu := div_pos hmu h.hm
    constructor
    · intro h2
      by_contra h3
      have h4 := not_lt.mp h3
      have : 0 ≤ mu / k.hm mu * (k.e * Real.sin k.nu) := by positivity
      linarith
    · intro h2
      exact mul_neg_of_pos_of_neg hq (mul_neg_of_pos_of_neg he h2)
  · rw [if_neg hE]
    rw [Cart.EG, h.state_ecc, not_lt] at hE
    have hom := hk.circ_om hE
    have p1 : k.px = Real.cos k.OM := by unfold Kep.px; rw [hom]; simp
    have p2 : k.py = Real.sin k.OM := by unfold Kep.py; rw [hom]; simp
    have p3 : k.pz = 0 := by unfold Kep.pz; rw [hom]; simp
    have q1 : k.qx = -(Real.cos k.i * Real.sin k.OM) := by unfold Kep.qx; rw [hom]; simp
    have q2 : k.qy = Real.cos k.OM * Real.cos k.i := by unfold Kep.qy; rw [hom]; simp
    have q3 : k.qz = Real.sin k.i := by unfold Kep.qz; rw [hom]; simp
    by_cases hi : (k.state mu).IG
    · rw [if_pos hi]
      rw [Cart.IG, hk.inc_eq hmu] at hi
      have hs : 0 < Real.sin k.i :=
        Real.sin_pos_of_pos_of_lt_pi (iLim_pos.trans hi.1) (by linarith [hi.2, iLim_pos])
      obtain ⟨h0, h1⟩ := hk.nu_range (Or.inr hi.2)
      have hm := h.hm
      have n1 : -(k.state mu).hy / (k.state mu).nn = Real.cos k.OM := by
        rw [h.state_hy, hk.nn_eq hmu, Kep.wy]; field_simp
      have n2 : (k.state mu).hx / (k.state mu).nn = Real.sin k.OM := by
        rw [h.state_hx, hk.nn_eq hmu, Kep.wx]; field_simp
      have e1 : -(k.state mu).hy / (k.state mu).nn * ((k.state mu).x / (k.state mu).rn)
          + (k.state mu).hx / (k.state mu).nn * ((k.state mu).y / (k.state mu).rn) = Real.cos k.nu := by
        rw [n1, n2, h.state_rn, ← mul_div_assoc, ← mul_div_assoc, ← add_div, div_eq_iff hr.ne']
        unfold Kep.state
        simp only [p1, p2, q1, q2]
        have e2 : k.rx = k.rad * Real.cos k.nu := rfl
        linear_combination k.rx * Real.sin_sq_add_cos_sq k.OM + e2
      rw [e1]
      apply refl_of_neg h0 h1
      have e3 : (k.state mu).z = Real.sin k.i * (k.rad * Real.sin k.nu) := by
        unfold Kep.state; simp only [p3, q3]; unfold Kep.ry; ring
      rw [e3]
      constructor
      · intro h2
        by_contra h3
        have h4 := not_lt.mp h3
        have : 0 ≤ Real.sin k.i * (k.rad * Real.sin k.nu) := by positivity
        linarith
      · intro h2
        exact mul_neg_of_pos_of_neg hs (mul_neg_of_pos_of_neg hr h2)
    · rw [if_neg hi]
      rw [Cart.IG, hk.inc_eq hmu, not_and_or, not_lt, not_lt] at hi
      have hO := hk.planar hi
      rw [hO] at p1 p2 q1 q2
      have e1 : (k.state mu).x / (k.state mu).rn = Real.cos k.nu := by
        rw [h.state_rn, div_eq_iff hr.ne']
        unfold Kep.state
        simp only [p1, q1, Real.cos_zero, Real.sin_zero]; unfold Kep.rx; ring
      have e2 : (k.state mu).y = Real.cos k.i * (k.rad * Real.sin k.nu) := by
        unfold Kep.state
        simp only [p2, q2, Real.cos_zero, Real.sin_zero]; unfold Kep.ry; ring
      rw [hk.inc_eq hmu, e1, e2]
      split_ifs with hlt
      · obtain ⟨h0, h1⟩ := hk.nu_range (Or.inr (by linarith))
        have hc := hk.cos_i_pos_iff hlt
        apply refl_of_neg h0 h1
        constructor
        · intro h2
          by_contra h3
          have h4 := not_lt.mp h3
          have : 0 ≤ Real.cos k.i * (k.rad * Real.sin k.nu) := by positivity
          linarith
        · intro h2
          exact mul_neg_of_pos_of_neg hc (mul_neg_of_pos_of_neg hr h2)
      · have hi' : Real.pi - iLim ≤ k.i := by
          rcases hi with hi | hi
          · exact absurd (lt_of_le_of_lt hi hpl) hlt
          · exact hi
        obtain ⟨h0, h1⟩ := hk.nu_range_retro hE hi'
        have hc := hk.cos_i_neg (by linarith)
        apply refl_of_nonpos h0 h1
        constructor
        · intro h2
          by_contra h3
          have h4 := not_le.mp h3
          have : Real.cos k.i * (k.rad * Real.sin k.nu) < 0 := mul_neg_of_neg_of_pos hc (mul_pos hr h4)
          linarith
        · intro h2
          exact mul_nonneg_of_nonpos_of_nonpos hc.le (mul_nonpos_of_nonneg_of_nonpos hr.le h2)

end CanonicalAny

namespace Canonical
variable {mu : ℝ} {k : Kep ℝ}

theorem adm (hk : Canonical k) (hmu : 0 < mu) : k.Adm mu := hk.toCanonicalAny.adm hmu

theorem A_eq (hk : Canonical k) (hmu : 0 < mu) : (k.state mu).ctkA mu = fin k.a := by
  have h := hk.adm hmu
  have hs := h.slr
  have ha := hk.a_pos
  unfold Cart.ctkA
  rw [h.state_eps, h.state_ecc]
  have he := hk.e_nonneg
  have hm := hmu.ne'
  rcases lt_or_gt_of_ne hk.e_ne_one with h1 | h1
  · have hp : k.slr = k.a * (1 - k.e ^ 2) := by
      rw [Kep.slr, if_neg hk.e_ne_one, abs_of_pos (by nlinarith)]
    have h2 : (1 - k.e ^ 2) ≠ 0 := by nlinarith
    have h3 : (k.e ^ 2 - 1) ≠ 0 := by nlinarith
    rw [if_neg (not_le.mpr h1), div_fin (by positivity), hp]
    congr 1
    field_simp
    ring
  · have hp : k.slr = k.a * (k.e ^ 2 - 1) := by
      rw [Kep.slr, if_neg hk.e_ne_one, abs_of_neg (by nlinarith)]; ring
    have h3 : (k.e ^ 2 - 1) ≠ 0 := by nlinarith
    rw [if_pos h1.le, div_fin (by positivity), hp, neg_fin]
    congr 1
    field_simp

/-- one column, radians -/
theorem roundtrip (hk : Canonical k) (hmu : 0 < mu) (gh : FX) (g : CtkGarbage FX) :
    cartToKepCol g .f64 (fin mu) (kepToCartCol gh .f64 (fin mu) k.fx).1 = k.fx := by
  have h := hk.adm hmu
  rw [kepToCartCol_eq gh mu k hmu h.ha h.he h.hc.ne']
  rw [cartToKepCol_eq g mu _ hmu.ne' (by rw [h.state_rn]; exact h.rad) (by rw [h.state_hn]; exact h.hm)]
  rw [hk.A_eq hmu, h.state_ecc, hk.toCanonicalAny.inc_eq hmu, hk.toCanonicalAny.om_eq hmu, hk.toCanonicalAny.OM_eq hmu, hk.toCanonicalAny.nu_eq hmu]
  rfl

end Canonical
end Pyorb
