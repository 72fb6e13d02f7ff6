import Verif.PropsRoundTrip

/-!
# C85, C86: which elements and states `kep_to_cart` and `cart_to_kep` turn into finite numbers
-/

namespace Pyorb
open FX

/-! ## C86: `cart_to_kep` -/

theorem Cart.radial_ev {mu : ℝ} (c : Cart ℝ) (hmu : mu ≠ 0) (hr : 0 < c.rn) (hh : angMom c = 0) :
    c.evx mu = -(c.x / c.rn) ∧ c.evy mu = -(c.y / c.rn) ∧ c.evz mu = -(c.z / c.rn) := by
  rw [angMom_eq] at hh
  have h1 : c.hx = 0 := by simpa using congrFun hh 0
  have h2 : c.hy = 0 := by simpa using congrFun hh 1
  have h3 : c.hz = 0 := by simpa using congrFun hh 2
  have hv := c.vn_sq
  have hr' := hr.ne'
  have hrv : c.rn * c.vr = c.x * c.vx + c.y * c.vy + c.z * c.vz := by unfold Cart.vr; field_simp
  unfold Cart.hx at h1
  unfold Cart.hy at h2
  unfold Cart.hz at h3
  refine ⟨?_, ?_, ?_⟩
  · unfold Cart.evx
    rw [hrv, hv]
    have : (c.vx ^ 2 + c.vy ^ 2 + c.vz ^ 2 - mu / c.rn) * c.x - (c.x * c.vx + c.y * c.vy + c.z * c.vz) * c.vx = mu * -(c.x / c.rn) := by
      linear_combination c.vy * h3 - c.vz * h2
    rw [this]; field_simp
  · unfold Cart.evy
    rw [hrv, hv]
    have : (c.vx ^ 2 + c.vy ^ 2 + c.vz ^ 2 - mu / c.rn) * c.y - (c.x * c.vx + c.y * c.vy + c.z * c.vz) * c.vy = mu * -(c.y / c.rn) := by
      linear_combination c.vz * h1 - c.vx * h3
    rw [this]; field_simp
  · unfold Cart.evz
    rw [hrv, hv]
    have : (c.vx ^ 2 + c.vy ^ 2 + c.vz ^ 2 - mu / c.rn) * c.z - (c.x * c.vx + c.y * c.vy + c.z * c.vz) * c.vz = mu * -(c.z / c.rn) := by
      linear_combination c.vx * h2 - c.vy * h1
    rw [this]; field_simp

theorem Cart.radial_ecc {mu : ℝ} (c : Cart ℝ) (hmu : mu ≠ 0) (hr : 0 < c.rn) (hh : angMom c = 0) : c.ecc mu = 1 := by
  obtain ⟨h1, h2, h3⟩ := c.radial_ev hmu hr hh
  have hrr := c.rn_sq
  have hr' := hr.ne'
  rw [Cart.ecc, h1, h2, h3, Real.sqrt_eq_one]
  field_simp
  linarith

/-- one column of `cart_to_kep` on a radial state -/
theorem cartToKepCol_radial (g : CtkGarbage FX) (mu : ℝ) (c : Cart ℝ) (hmu : mu ≠ 0) (hr : 0 < c.rn) (hh : angMom c = 0) :
    cartToKepCol g .f64 (fin mu) c.fx =
      ⟨-(fin (-mu) / fin (2 * c.eps mu)), fin 1, nan, fin (Real.arccos (-(c.x / c.rn))), fin 0, fin Real.pi⟩ := by
  obtain ⟨v1, v2, v3⟩ := c.radial_ev hmu hr hh
  have vecc := c.radial_ecc hmu hr hh
  have hrr := c.rn_sq
  rw [angMom_eq] at hh
  have h1 : c.hx = 0 := by simpa using congrFun hh 0
  have h2 : c.hy = 0 := by simpa using congrFun hh 1
  have h3 : c.hz = 0 := by simpa using congrFun hh 2
  have hr' := hr.ne'
  have e0 : c.fx = ⟨fin c.x, fin c.y, fin c.z, fin c.vx, fin c.vy, fin c.vz⟩ := rfl
  rw [e0]
  unfold cartToKepCol
  simp only [V3.norm_fin, V3.cross_fin]
  have f1 : √(c.x ^ 2 + c.y ^ 2 + c.z ^ 2) = c.rn := rfl
  have f2 : √(c.vx ^ 2 + c.vy ^ 2 + c.vz ^ 2) = c.vn := rfl
  have f3 : c.y * c.vz - c.z * c.vy = 0 := h1
  have f4 : c.z * c.vx - c.x * c.vz = 0 := h2
  have f5 : c.x * c.vy - c.y * c.vx = 0 := h3
  simp only [f1, f2, f3, f4, f5]
  have f6 : √((0 : ℝ) ^ 2 + 0 ^ 2 + 0 ^ 2) = 0 := by norm_num
  have f6' : (fin 0 / fin 0 : FX) = nan := by
    show FX.div _ _ = _
    simp [FX.div, infSign]
  simp only [f6, f6', V3.sdiv_fin _ _ _ hr', V3.dot_fin]
  have f7 : c.x / c.rn * c.vx + c.y / c.rn * c.vy + c.z / c.rn * c.vz = c.vr := rfl
  simp only [f7, sq_fin, half_fin, mul_fin, div_fin hr', sub_fin, V3.smul_fin, V3.sub_fin, one_fin, div_fin hmu, neg_fin,
    ofNat_fin, V3.norm_fin, zero_fin, pi_fin, store_f64, arccos_nan, lt_nan, nan_lt,
    e_lim_fin, i_lim_fin, lt_fin, le_fin, twoPi_fin]
  have f8 : c.vn ^ 2 * (1 / 2) - mu / c.rn = c.eps mu := rfl
  have f9 : 1 / mu * ((c.vn ^ 2 - mu / c.rn) * c.x - c.rn * c.vr * c.vx) = c.evx mu := rfl
  have f10 : 1 / mu * ((c.vn ^ 2 - mu / c.rn) * c.y - c.rn * c.vr * c.vy) = c.evy mu := rfl
  have f11 : 1 / mu * ((c.vn ^ 2 - mu / c.rn) * c.z - c.rn * c.vr * c.vz) = c.evz mu := rfl
  simp only [f8, f9, f10, f11]
  have f12 : √(c.evx mu ^ 2 + c.evy mu ^ 2 + c.evz mu ^ 2) = c.ecc mu := rfl
  have g1 : decide (eLim < (1 : ℝ)) = true := by
    have : eLim < 1 := by unfold eLim; norm_num
    simpa using this
  have g2 : (-(c.x / c.rn) * c.x + -(c.y / c.rn) * c.y + -(c.z / c.rn) * c.z) / (1 * c.rn) = -1 := by
    field_simp; linarith
  simp only [f12, vecc]
  simp only [v1, v2, v3, g1, le_refl, decide_true, Bool.false_and, Bool.and_false, Bool.not_false, Bool.not_true, Bool.and_true, if_true, if_false,
    Bool.false_eq_true, V3.dot_fin, div_fin one_ne_zero, div_fin (mul_ne_zero one_ne_zero hr'), g2, lt_fin, arccos_clamp]
  rw [div_one, Real.arccos_neg_one, sub_fin, show 2 * Real.pi - Real.pi = Real.pi by ring, ite_self]

/-- one column of `cart_to_kep` at the centre of attraction -/
theorem cartToKepCol_centre (g : CtkGarbage FX) (mu : ℝ) (c : Cart ℝ) (hmu : 0 < mu) (hr : c.r = 0) :
    cartToKepCol g .f64 (fin mu) c.fx = ⟨fin 0, nan, nan, fin 0, fin 0, nan⟩ := by
  have h1 : c.x = 0 := by simpa [Cart.r] using congrFun hr 0
  have h2 : c.y = 0 := by simpa [Cart.r] using congrFun hr 1
  have h3 : c.z = 0 := by simpa [Cart.r] using congrFun hr 2
  have e0 : c.fx = ⟨fin 0, fin 0, fin 0, fin c.vx, fin c.vy, fin c.vz⟩ := by rw [Cart.fx, h1, h2, h3]
  rw [e0]
  have f6 : √((0 : ℝ) ^ 2 + 0 ^ 2 + 0 ^ 2) = 0 := by norm_num
  have f6' : (fin 0 / fin 0 : FX) = nan := by
    show FX.div _ _ = _
    simp [FX.div, infSign]
  have f7 : (fin mu / fin 0 : FX) = pinf := by
    show FX.div _ _ = _
    simp [FX.div, infSign, hmu]
  have f8 (x : ℝ) : (fin x - pinf : FX) = ninf := rfl
  have f9 : (ninf * fin 0 : FX) = nan := by
    show FX.mul _ _ = _
    simp [FX.mul, infSign, FX.neg]
  have f10 : (fin 2 * ninf : FX) = ninf := by
    show FX.mul _ _ = _
    simp [FX.mul, infSign, FX.neg]
  have f11 (x : ℝ) : (fin x / ninf : FX) = fin 0 := rfl
  unfold cartToKepCol
  simp only [V3.norm_fin, V3.cross_fin, zero_mul, sub_self]
  simp only [f6, V3.sdiv, f6', V3.dot, nan_mul, nan_add, sq_fin, half_fin, mul_fin, f7, f8, V3.smul, V3.sub, f9, nan_sub, mul_nan]
  have f12 : sq (nan : FX) = nan := nan_mul _
  simp only [V3.norm, f12, nan_add, sqrt_nan, store_f64, le_nan, neg_fin, ofNat_fin, f10, f11, arccos_nan, nan_lt, lt_nan,
    Bool.false_and, Bool.and_false, Bool.not_false, Bool.and_true, if_true, if_false, Bool.false_eq_true, zero_fin]

theorem radial_cases {c : Cart ℝ} : c.r = 0 ∨ 0 < c.rn := by
  rcases (Real.sqrt_nonneg (c.x ^ 2 + c.y ^ 2 + c.z ^ 2)).eq_or_lt with h | h
  · left
    have h2 := (Real.sqrt_eq_zero (by positivity)).mp h.symm
    have hx : c.x = 0 := by nlinarith [sq_nonneg c.x, sq_nonneg c.y, sq_nonneg c.z]
    have hy : c.y = 0 := by nlinarith [sq_nonneg c.x, sq_nonneg c.y, sq_nonneg c.z]
    have hz : c.z = 0 := by nlinarith [sq_nonneg c.x, sq_nonneg c.y, sq_nonneg c.z]
    rw [Cart.r, hx, hy, hz]
    ext i; fin_cases i <;> rfl
  · exact .inr h

/-- a number in radians as the function returns it -/
noncomputable def inUnit (deg : Bool) (x : ℝ) : ℝ := if deg then x * (180 / Real.pi) else x

/-- C86, radial motion: the position is not zero and the velocity points along it (or is zero).  The inclination is NaN, the eccentricity 1, the node 0,
the true anomaly pi, and `a` has the sign of the energy. -/
theorem c86_radial (g : Nat → CtkGarbage FX) (mu : ℝ) (deg : Bool) (c : Cart ℝ) (hmu : 0 < mu) (hr : c.r ≠ 0) (hh : angMom c = 0) :
    (cart_to_kep g (.sc (fin mu)) deg (.vec .f64 c.fx)).1 =
      .ok (.vec .f64 ⟨if energy mu c = 0 then pinf else fin (mu / (2 * energy mu c)), fin 1, nan,
        fin (inUnit deg (Real.arccos (-(c.x / vlen c.r)))), fin 0, fin (inUnit deg Real.pi)⟩) := by
  have h1 := cartToKepCol_radial (g 0) mu c hmu.ne' (radial_cases.resolve_left hr) hh
  have h2 : -(fin (-mu) / fin (2 * c.eps mu) : FX) = if energy mu c = 0 then pinf else fin (mu / (2 * energy mu c)) := by
    rw [energy_eq]
    split_ifs with h
    · rw [h, mul_zero]
      show FX.neg (FX.div _ _) = _
      simp [FX.div, infSign, FX.neg, hmu, not_lt.mpr hmu.le]
    · rw [div_fin (by simpa using h), neg_fin, neg_div, neg_neg]
  rw [h2] at h1
  rw [vlen_r]
  cases deg
  · simp [cart_to_kep, cartToKepMat, Mu.broadcast, cartToKep, h1, inUnit]
  · simp [cart_to_kep, cartToKepMat, Mu.broadcast, cartToKep, h1, inUnit, Kep.toDegrees, degrees]

/-- C86, position zero: `a`, the node and the argument of periapsis are 0, the rest is NaN. -/
theorem c86_centre (g : Nat → CtkGarbage FX) (mu : ℝ) (deg : Bool) (c : Cart ℝ) (hmu : 0 < mu) (hr : c.r = 0) :
    (cart_to_kep g (.sc (fin mu)) deg (.vec .f64 c.fx)).1 = .ok (.vec .f64 ⟨fin 0, nan, nan, fin 0, fin 0, nan⟩) := by
  have h1 := cartToKepCol_centre (g 0) mu c hmu hr
  cases deg
  · simp [cart_to_kep, cartToKepMat, Mu.broadcast, cartToKep, h1]
  · simp [cart_to_kep, cartToKepMat, Mu.broadcast, cartToKep, h1, Kep.toDegrees, degrees]

/-- C86: `cart_to_kep` returns six finite numbers exactly when neither the angular momentum nor the energy vanishes. -/
theorem c86_finite (g : Nat → CtkGarbage FX) (mu : ℝ) (deg : Bool) (c : Cart ℝ) (hmu : 0 < mu) :
    (∃ k : Kep ℝ, (cart_to_kep g (.sc (fin mu)) deg (.vec .f64 c.fx)).1 = .ok (.vec .f64 k.fx)) ↔ angMom c ≠ 0 ∧ energy mu c ≠ 0 := by
  have hpar (hh : angMom c ≠ 0) : vlen (eccVec mu c) = 1 ↔ energy mu c = 0 := by
    have h1 := angMom_ne_zero hh
    have h2 := c.ecc_energy hmu h1
    rw [vlen_eccVec hmu h1, energy_eq]
    constructor
    · intro h
      rw [h] at h2
      have : c.eps mu * (2 * c.hn ^ 2) = 0 := by linarith
      exact (mul_eq_zero.mp this).resolve_right (by positivity)
    · intro h
      rw [h] at h2
      have h3 : c.ecc mu ^ 2 - 1 = 0 := (mul_eq_zero.mp (by linarith : mu ^ 2 * (c.ecc mu ^ 2 - 1) = 0)).resolve_left (by positivity)
      have h4 : 0 ≤ c.ecc mu := Real.sqrt_nonneg _
      nlinarith
  constructor
  · rintro ⟨k, hk⟩
    by_cases hh : angMom c = 0
    · exfalso
      by_cases hr : c.r = 0
      · rw [c86_centre g mu deg c hmu hr] at hk
        simp [Kep.fx] at hk
      · rw [c86_radial g mu deg c hmu hr hh] at hk
        simp [Kep.fx] at hk
    · refine ⟨hh, fun he => ?_⟩
      have h1 := angMom_ne_zero hh
      have h2 := cartToKepCol_eq (g 0) mu c hmu.ne' (c.rn_pos h1) h1
      have h3 : c.ctkA mu = pinf := by
        have h4 := (hpar hh).mpr he
        rw [vlen_eccVec hmu h1] at h4
        rw [energy_eq] at he
        rw [Cart.ctkA, h4, if_pos le_rfl, he, mul_zero]
        show FX.neg (FX.div _ _) = _
        simp [FX.div, infSign, FX.neg, hmu, not_lt.mpr hmu.le]
      rw [h3] at h2
      cases deg
      · simp [cart_to_kep, cartToKepMat, Mu.broadcast, cartToKep, h2, Kep.fx] at hk
      · simp [cart_to_kep, cartToKepMat, Mu.broadcast, cartToKep, h2, Kep.fx, Kep.toDegrees] at hk
  · rintro ⟨hh, he⟩
    obtain ⟨k, hk, -⟩ := c04_ranges g mu deg c hmu hh (fun h => he ((hpar hh).mp h))
    exact ⟨k, hk⟩

/-- a case: at rest at distance 1 with `mu = 1`: energy -1, so the semi-major axis is -1/2 -/
example (g : Nat → CtkGarbage FX) : (cart_to_kep g (.sc (fin 1)) false (.vec .f64 (⟨1, 0, 0, 0, 0, 0⟩ : Cart ℝ).fx)).1 =
    .ok (.vec .f64 ⟨fin (-1 / 2), fin 1, nan, fin Real.pi, fin 0, fin Real.pi⟩) := by
  have hr : (⟨1, 0, 0, 0, 0, 0⟩ : Cart ℝ).r ≠ 0 := fun h => by simpa [Cart.r] using congrFun h 0
  rw [c86_radial g 1 false _ one_pos hr (by rw [angMom_eq]; simp [Cart.hx, Cart.hy, Cart.hz])]
  have h1 : vlen (⟨1, 0, 0, 0, 0, 0⟩ : Cart ℝ).r = 1 := by rw [vlen_r]; simp [Cart.rn]
  have h2 : energy 1 (⟨1, 0, 0, 0, 0, 0⟩ : Cart ℝ) = -1 := by rw [energy, h1, v_dot]; norm_num [Cart.vn]
  rw [h1, h2]
  norm_num [inUnit]

/-! ## C85: `kep_to_cart` -/

/-- not a finite number -/
def NonFin (x : FX) : Prop := ∀ y : ℝ, x ≠ fin y

theorem nonFin_add {x : FX} (h : NonFin x) (y : FX) : NonFin (x + y) := by
  intro z hz
  change FX.add x y = _ at hz
  cases x with
  | fin a => exact h a rfl
  | _ => cases y <;> simp [FX.add] at hz

theorem nonFin_mul {x : FX} (h : NonFin x) (y : ℝ) : NonFin (fin y * x) := by
  intro z hz
  change FX.mul (fin y) x = _ at hz
  cases x with
  | fin a => exact h a rfl
  | nan => simp [FX.mul] at hz
  | _ => simp only [FX.mul, infSign] at hz; split_ifs at hz <;> simp [FX.neg] at hz

theorem nonFin_mul' {x : FX} (h : NonFin x) (y : ℝ) : NonFin (x * fin y) := by
  intro z hz
  change FX.mul x (fin y) = _ at hz
  cases x with
  | fin a => exact h a rfl
  | nan => simp [FX.mul] at hz
  | _ => simp only [FX.mul, infSign] at hz; split_ifs at hz <;> simp [FX.neg] at hz

theorem nonFin_neg {x : FX} (h : NonFin x) : NonFin (-x) := by
  intro z hz
  change FX.neg x = _ at hz
  cases x with
  | fin a => exact h a rfl
  | _ => simp [FX.neg] at hz

theorem nonFin_nan : NonFin nan := fun _ h => by cases h
theorem nonFin_pinf : NonFin pinf := fun _ h => by cases h

/-- the angular momentum of the code, squared -/
noncomputable def Kep.hsq (mu : ℝ) (k : Kep ℝ) : ℝ :=
  if k.e = 1 then mu * 2 * k.a else mu * (if 1 < k.e then k.a * -1 else k.a) * (1 - k.e ^ 2)

theorem kepToCartCol_h (gh : FX) (mu : ℝ) (k : Kep ℝ) :
    (kepToCartCol gh .f64 (fin mu) k.fx).1 =
      let h : FX := Np.sqrt (fin (k.hsq mu))
      let rn := orbital_distance h (fin mu) (fin k.e) (fin k.nu) false
      let R := euler_rotation_matrix (fin k.i) (fin k.om) (fin k.OM) false
      let rx := rn * fin (Real.cos k.nu)
      let ry := rn * fin (Real.sin k.nu)
      let vx := -(fin mu / h) * fin (Real.sin k.nu)
      let vy := fin mu / h * fin (k.e + Real.cos k.nu)
      ⟨R 0 0 * rx + R 0 1 * ry, R 1 0 * rx + R 1 1 * ry, R 2 0 * rx + R 2 1 * ry,
       R 0 0 * vx + R 0 1 * vy, R 1 0 * vx + R 1 1 * vy, R 2 0 * vx + R 2 1 * vy⟩ := by
  have e0 : k.fx = ⟨fin k.a, fin k.e, fin k.i, fin k.om, fin k.OM, fin k.nu⟩ := rfl
  unfold kepToCartCol
  rw [e0]
  by_cases h1 : k.e = 1
  · simp only [h1, one_fin, eq_fin, decide_true, Bool.not_true, if_true, if_false, Bool.false_eq_true, lt_fin, lt_irrefl, decide_false, store_f64,
      parabolic_total_angular_momentum, ofNat_fin, mul_fin, Kep.hsq, cos_fin, sin_fin, add_fin]
  · by_cases h2 : 1 < k.e
    · simp only [h1, h2, one_fin, eq_fin, decide_false, decide_true, Bool.not_false, if_true, if_false, Bool.false_eq_true, lt_fin, store_f64,
        orbit_total_angular_momentum, neg_fin, sq_fin, sub_fin, mul_fin, Kep.hsq, cos_fin, sin_fin, add_fin]
    · simp only [h1, h2, one_fin, eq_fin, decide_false, Bool.not_false, if_true, if_false, Bool.false_eq_true, lt_fin, store_f64,
        orbit_total_angular_momentum, sq_fin, sub_fin, mul_fin, Kep.hsq, cos_fin, sin_fin, add_fin]

theorem Kep.hsq_eq (mu : ℝ) (k : Kep ℝ) (he : 0 ≤ k.e) : k.hsq mu = mu * k.slr := by
  unfold Kep.hsq Kep.slr
  split_ifs with h1 h2
  · ring
  · rw [abs_of_neg (by nlinarith)]; ring
  · rw [abs_of_nonneg (by nlinarith [not_lt.mp h2])]; ring

theorem Kep.slr_sign (k : Kep ℝ) (he : 0 ≤ k.e) : (k.a < 0 → k.slr < 0) ∧ (k.a = 0 → k.slr = 0) := by
  unfold Kep.slr
  split_ifs with h
  · exact ⟨fun h => by linarith, fun h => by rw [h, mul_zero]⟩
  · have h2 : 1 - k.e ^ 2 ≠ 0 := by
      intro h0
      rcases mul_eq_zero.mp (by linarith : (k.e - 1) * (k.e + 1) = 0) with h1 | h1
      · exact h (by linarith)
      · linarith
    exact ⟨fun h3 => mul_neg_of_neg_of_pos h3 (abs_pos.mpr h2), fun h3 => by rw [h3, zero_mul]⟩

/-- elements that do not give a finite state -/
theorem kepToCartCol_nonfinite (gh : FX) (mu : ℝ) (k : Kep ℝ) (hmu : 0 < mu) (he : 0 ≤ k.e) (h : k.a ≤ 0 ∨ 1 + k.e * Real.cos k.nu = 0) (c : Cart ℝ) :
    (kepToCartCol gh .f64 (fin mu) k.fx).1 ≠ c.fx := by
  intro hc
  rw [kepToCartCol_h, k.hsq_eq mu he] at hc
  have hR : euler_rotation_matrix (fin k.i) (fin k.om) (fin k.OM) false 0 0 = fin k.px ∧ euler_rotation_matrix (fin k.i) (fin k.om) (fin k.OM) false 0 1 = fin k.qx := by
    constructor <;> simp [euler_rotation_matrix, Kep.px, Kep.qx]
  simp only [hR.1, hR.2, Cart.fx, Cart.mk.injEq] at hc
  rcases lt_trichotomy k.a 0 with ha | ha | ha
  · have h1 : mu * k.slr < 0 := mul_neg_of_pos_of_neg hmu ((k.slr_sign he).1 ha)
    rw [sqrt_neg h1] at hc
    refine nonFin_add (nonFin_mul (nonFin_mul' (nonFin_neg ?_) _) _) _ _ hc.2.2.2.1
    rw [div_nan]; exact nonFin_nan
  · rw [(k.slr_sign he).2 ha, mul_zero, sqrt_fin le_rfl, Real.sqrt_zero] at hc
    refine nonFin_add (nonFin_mul (nonFin_mul' (nonFin_neg ?_) _) _) _ _ hc.2.2.2.1
    have : (fin mu / fin 0 : FX) = pinf := by
      show FX.div _ _ = _
      simp [FX.div, infSign, hmu]
    rw [this]; exact nonFin_pinf
  · have h1 := h.resolve_left (not_le.mpr ha)
    have h2 := k.hm_pos mu hmu ha he
    rw [sqrt_fin (mul_pos hmu (k.slr_pos ha he)).le] at hc
    have h3 : orbital_distance (fin √(mu * k.slr)) (fin mu) (fin k.e) (fin k.nu) false = pinf := by
      simp only [orbital_distance, Bool.false_eq_true, if_false, sq_fin, one_fin, cos_fin, mul_fin, add_fin, h1, mul_zero]
      show FX.div _ _ = _
      have h4 : 0 < √(mu * k.slr) ^ 2 := pow_pos h2 2
      simp only [FX.div, infSign, if_true, if_pos h4]
    rw [h3] at hc
    exact nonFin_add (nonFin_mul (nonFin_mul' nonFin_pinf _) _) _ _ hc.1

theorem kepToCart_fst_col (gh : FX) (mu : ℝ) (deg : Bool) (k : Kep ℝ) :
    (kepToCart gh .f64 (fin mu) deg k.fx).1 = (kepToCartCol gh .f64 (fin mu) (k.inRad deg).fx).1 := by
  cases deg
  · simp only [kepToCart, Bool.false_eq_true, if_false]
    rfl
  · simp only [kepToCart, if_true]
    rw [Kep.toRadians_fx]

/-- C85: for `e ≥ 0`, `kep_to_cart` returns six finite numbers exactly when `a` is positive and `1 + e cos nu` is not zero. -/
theorem c85_finite (g : Nat → FX) (mu : ℝ) (deg : Bool) (k : Kep ℝ) (hmu : 0 < mu) (he : 0 ≤ k.e) :
    (∃ c : Cart ℝ, (kep_to_cart g (.sc (fin mu)) deg (.vec .f64 k.fx)).1 = .ok (.vec .f64 c.fx)) ↔
      0 < k.a ∧ 1 + k.e * Real.cos (k.inRad deg).nu ≠ 0 := by
  have e1 : (k.inRad deg).a = k.a := by cases deg <;> rfl
  have e2 : (k.inRad deg).e = k.e := by cases deg <;> rfl
  have e3 : (kep_to_cart g (.sc (fin mu)) deg (.vec .f64 k.fx)).1 = .ok (.vec .f64 (kepToCartCol (g 0) .f64 (fin mu) (k.inRad deg).fx).1) := by
    simp [kep_to_cart, kepToCartMat, Mu.toList, kepToCart_fst_col]
  rw [e3]
  constructor
  · rintro ⟨c, hc⟩
    simp only [Except.ok.injEq, Arg6.vec.injEq, true_and] at hc
    by_contra hno
    refine kepToCartCol_nonfinite (g 0) mu (k.inRad deg) hmu (by rw [e2]; exact he) ?_ c hc
    rw [e1, e2]
    by_cases ha : k.a ≤ 0
    · exact .inl ha
    · right
      by_contra h1
      exact hno ⟨not_le.mp ha, h1⟩
  · rintro ⟨ha, h1⟩
    rw [kepToCartCol_eq (g 0) mu (k.inRad deg) hmu (by rw [e1]; exact ha) (by rw [e2]; exact he) (by rw [e2]; exact h1)]
    exact ⟨_, rfl⟩

/-- C85: the finite state is the one the elements describe exactly when `1 + e cos nu` is positive. -/
theorem c85_on_orbit (g : Nat → FX) (mu : ℝ) (deg : Bool) (k : Kep ℝ) (hmu : 0 < mu) (he : 0 ≤ k.e) :
    (∃ c : Cart ℝ, (kep_to_cart g (.sc (fin mu)) deg (.vec .f64 k.fx)).1 = .ok (.vec .f64 c.fx) ∧ DescribesOrbit mu (k.inRad deg) c) ↔
      0 < k.a ∧ 0 < 1 + k.e * Real.cos (k.inRad deg).nu := by
  have e1 : (k.inRad deg).a = k.a := by cases deg <;> rfl
  have e2 : (k.inRad deg).e = k.e := by cases deg <;> rfl
  constructor
  · rintro ⟨c, hc, hd⟩
    obtain ⟨ha, h1⟩ := (c85_finite g mu deg k hmu he).mp ⟨c, hc⟩
    refine ⟨ha, ?_⟩
    have h2 := hd.distance
    have h3 : 0 < (k.inRad deg).slr := Kep.slr_pos _ (by rw [e1]; exact ha) (by rw [e2]; exact he)
    have h4 : 0 ≤ vlen c.r := Real.sqrt_nonneg _
    change _ = (k.inRad deg).slr / _ at h2
    rw [h2, e2] at h4
    by_contra hneg
    have := div_neg_of_pos_of_neg h3 (lt_of_le_of_ne (not_lt.mp hneg) h1)
    linarith
  · rintro ⟨ha, h1⟩
    have h2 : (k.inRad deg).Adm mu := ⟨hmu, by rw [e1]; exact ha, by rw [e2]; exact he, by rw [e2]; exact h1⟩
    exact ⟨_, by simp [kep_to_cart, kepToCartMat, Mu.toList, kepToCart_fst _ h2], h2.describes⟩

theorem Kep.state_rn_sq (mu : ℝ) (k : Kep ℝ) : (k.state mu).rn ^ 2 = k.rad ^ 2 := by
  rw [Cart.rn_sq]
  have h1 := Real.sin_sq_add_cos_sq k.nu
  unfold Kep.state Kep.rx Kep.ry
  linear_combination k.rad ^ 2 * Real.cos k.nu ^ 2 * k.p_norm + k.rad ^ 2 * Real.sin k.nu ^ 2 * k.q_norm
    + 2 * k.rad ^ 2 * Real.cos k.nu * Real.sin k.nu * k.pq_dot + k.rad ^ 2 * h1

theorem Kep.state_vn_sq (mu : ℝ) (k : Kep ℝ) : (k.state mu).vn ^ 2 = (mu / k.hm mu) ^ 2 * (1 + 2 * k.e * Real.cos k.nu + k.e ^ 2) := by
  rw [Cart.vn_sq]
  have h1 := Real.sin_sq_add_cos_sq k.nu
  unfold Kep.state
  simp only
  have h2 : k.ux mu ^ 2 + k.uy mu ^ 2 = (mu / k.hm mu) ^ 2 * (1 + 2 * k.e * Real.cos k.nu + k.e ^ 2) := by
    unfold Kep.ux Kep.uy
    linear_combination (mu / k.hm mu) ^ 2 * h1
  rw [← h2]
  linear_combination k.ux mu ^ 2 * k.p_norm + k.uy mu ^ 2 * k.q_norm + 2 * k.ux mu * k.uy mu * k.pq_dot

/-- C85: beyond the asymptote of a hyperbola `kep_to_cart` returns, without any sign of it, a state whose energy is below the energy of the orbit. -/
theorem c85_beyond (g : Nat → FX) (mu : ℝ) (deg : Bool) (k : Kep ℝ) (hmu : 0 < mu) (he : 0 ≤ k.e) (ha : 0 < k.a)
    (hb : 1 + k.e * Real.cos (k.inRad deg).nu < 0) :
    ∃ c : Cart ℝ, (kep_to_cart g (.sc (fin mu)) deg (.vec .f64 k.fx)).1 = .ok (.vec .f64 c.fx) ∧ ¬ DescribesOrbit mu (k.inRad deg) c ∧
      vlen c.r = k.a * (k.e ^ 2 - 1) / -(1 + k.e * Real.cos (k.inRad deg).nu) ∧
      energy mu c = mu / (2 * k.a) + 2 * mu * (1 + k.e * Real.cos (k.inRad deg).nu) / (k.a * (k.e ^ 2 - 1)) := by
  obtain ⟨q, hq⟩ : ∃ q, q = k.inRad deg := ⟨_, rfl⟩
  have e1 : q.a = k.a := by rw [hq]; cases deg <;> rfl
  have e2 : q.e = k.e := by rw [hq]; cases deg <;> rfl
  have hout : (kep_to_cart g (.sc (fin mu)) deg (.vec .f64 k.fx)).1 = .ok (.vec .f64 (q.state mu).fx) := by
    have := kepToCartCol_eq (g 0) mu q hmu (by rw [e1]; exact ha) (by rw [e2]; exact he) (by rw [e2, hq]; exact hb.ne)
    simp [kep_to_cart, kepToCartMat, Mu.toList, kepToCart_fst_col, ← hq, this]
  rw [← hq] at hb ⊢
  refine ⟨_, hout, fun hd => ?_, ?_⟩
  · have := (c85_on_orbit g mu deg k hmu he).mp ⟨_, hout, by rw [← hq]; exact hd⟩
    rw [← hq] at this
    linarith [this.2]
  rw [← e1] at ha
  rw [← e2] at he hb
  rw [← e1, ← e2]
  have h1 : 1 < q.e := by
    by_contra h
    have := Real.neg_one_le_cos q.nu
    nlinarith [not_lt.mp h]
  have hp : q.slr = q.a * (q.e ^ 2 - 1) := by
    rw [Kep.slr, if_neg h1.ne', abs_of_neg (by nlinarith)]; ring
  have hp0 : 0 < q.slr := q.slr_pos ha he
  have hrn : (q.state mu).rn = q.slr / -(1 + q.e * Real.cos q.nu) := by
    have h2 : 0 ≤ (q.state mu).rn := Real.sqrt_nonneg _
    have h3 : 0 ≤ q.slr / -(1 + q.e * Real.cos q.nu) := div_nonneg hp0.le (by linarith)
    refine (sq_eq_sq₀ h2 h3).mp ?_
    rw [q.state_rn_sq mu, Kep.rad, div_neg, neg_sq]
  refine ⟨by rw [vlen_r, hrn, hp], ?_⟩
  rw [energy_eq, Cart.eps, q.state_vn_sq mu, hrn, div_pow, q.hm_sq mu hmu ha he, ← hp]
  have h4 : q.e ^ 2 = q.slr / q.a + 1 := by rw [hp]; field_simp; ring
  rw [h4]
  have h5 := hb.ne
  have h6 := hp0.ne'
  have h7 := ha.ne'
  field_simp
  ring

theorem infSign_neg (a : ℝ) : infSign (-a) = FX.neg (infSign a) := by
  unfold infSign
  rcases lt_trichotomy a 0 with h | h | h
  · rw [if_pos (by linarith), if_neg (by linarith), if_pos h]; rfl
  · subst h; simp [FX.neg]
  · rw [if_neg (by linarith), if_pos (by linarith), if_pos h]; rfl

theorem neg_neg_FX (x : FX) : -(-x) = x := by
  cases x with
  | fin a => rw [neg_fin, neg_fin, neg_neg]
  | _ => rfl

theorem finNeg_mul (a : ℝ) (x : FX) : fin (-a) * x = -(fin a * x) := by
  cases x with
  | fin b => rw [mul_fin, mul_fin, neg_fin, neg_mul]
  | pinf => exact infSign_neg a
  | ninf => exact congrArg FX.neg (infSign_neg a)
  | nan => rfl

theorem mul_finNeg (x : FX) (a : ℝ) : x * fin (-a) = -(x * fin a) := by
  cases x with
  | fin b => rw [mul_fin, mul_fin, neg_fin, mul_neg]
  | pinf => exact infSign_neg a
  | ninf => exact congrArg FX.neg (infSign_neg a)
  | nan => rfl

theorem fin_mul_neg (a : ℝ) (x : FX) : fin a * -x = -(fin a * x) := by
  cases x with
  | fin b => rw [neg_fin, mul_fin, mul_fin, neg_fin, mul_neg]
  | pinf => rfl
  | ninf =>
    show infSign a = FX.neg (FX.neg (infSign a))
    exact (neg_neg_FX _).symm
  | nan => rfl

/-- half a turn in the units of a call -/
noncomputable def halfTurn (deg : Bool) : ℝ := if deg then 180 else Real.pi

/-- C85: a negative eccentricity above -1 is read as the positive one with the opposite periapsis. -/
theorem c85_negative (g : Nat → FX) (mu : ℝ) (deg : Bool) (k : Kep ℝ) (h0 : -1 < k.e) (h1 : k.e < 1) :
    (kep_to_cart g (.sc (fin mu)) deg (.vec .f64 k.fx)).1 =
      (kep_to_cart g (.sc (fin mu)) deg (.vec .f64 ({ k with e := -k.e, om := k.om + halfTurn deg, nu := k.nu - halfTurn deg } : Kep ℝ).fx)).1 := by
  have key (q : Kep ℝ) (h0 : -1 < q.e) (h1 : q.e < 1) (gh : FX) : (kepToCartCol gh .f64 (fin mu) q.fx).1 =
      (kepToCartCol gh .f64 (fin mu) ({ q with e := -q.e, om := q.om + Real.pi, nu := q.nu - Real.pi } : Kep ℝ).fx).1 := by
    rw [kepToCartCol_h, kepToCartCol_h]
    have hh : Kep.hsq mu { q with e := -q.e, om := q.om + Real.pi, nu := q.nu - Real.pi } = q.hsq mu := by
      simp only [Kep.hsq, neg_sq]
      rw [if_neg (by linarith), if_neg (by linarith), if_neg (by linarith), if_neg (by linarith)]
    rw [hh]
    have hd : orbital_distance (Np.sqrt (fin (q.hsq mu))) (fin mu) (fin (-q.e)) (fin (q.nu - Real.pi)) false
        = orbital_distance (Np.sqrt (fin (q.hsq mu))) (fin mu) (fin q.e) (fin q.nu) false := by
      simp only [orbital_distance, Bool.false_eq_true, if_false, one_fin, cos_fin, mul_fin, add_fin, Real.cos_sub_pi, neg_mul_neg]
    have hR : ∀ i : Fin 3, ∃ a b : ℝ, euler_rotation_matrix (fin q.i) (fin q.om) (fin q.OM) false i 0 = fin a ∧
        euler_rotation_matrix (fin q.i) (fin (q.om + Real.pi)) (fin q.OM) false i 0 = fin (-a) ∧
        euler_rotation_matrix (fin q.i) (fin q.om) (fin q.OM) false i 1 = fin b ∧
        euler_rotation_matrix (fin q.i) (fin (q.om + Real.pi)) (fin q.OM) false i 1 = fin (-b) := by
      intro i
      fin_cases i
      · refine ⟨q.px, q.qx, ?_, ?_, ?_, ?_⟩ <;> simp [euler_rotation_matrix, Kep.px, Kep.qx, Real.cos_add_pi, Real.sin_add_pi] <;> ring
      · refine ⟨q.py, q.qy, ?_, ?_, ?_, ?_⟩ <;> simp [euler_rotation_matrix, Kep.py, Kep.qy, Real.cos_add_pi, Real.sin_add_pi] <;> ring
      · refine ⟨q.pz, q.qz, ?_, ?_, ?_, ?_⟩ <;> simp [euler_rotation_matrix, Kep.pz, Kep.qz, Real.cos_add_pi, Real.sin_add_pi]
    obtain ⟨a0, b0, r1, r2, r3, r4⟩ := hR 0
    obtain ⟨a1, b1, r5, r6, r7, r8⟩ := hR 1
    obtain ⟨a2, b2, r9, r10, r11, r12⟩ := hR 2
    have hs : -q.e + -Real.cos q.nu = -(q.e + Real.cos q.nu) := by ring
    simp only [hd, r1, r2, r3, r4, r5, r6, r7, r8, r9, r10, r11, r12, Real.cos_sub_pi, Real.sin_sub_pi, hs, finNeg_mul, mul_finNeg, fin_mul_neg, neg_neg_FX]
  have e3 (k : Kep ℝ) : (kep_to_cart g (.sc (fin mu)) deg (.vec .f64 k.fx)).1 = .ok (.vec .f64 (kepToCartCol (g 0) .f64 (fin mu) (k.inRad deg).fx).1) := by
    simp [kep_to_cart, kepToCartMat, Mu.toList, kepToCart_fst_col]
  rw [e3, e3, key (k.inRad deg) (by cases deg <;> exact h0) (by cases deg <;> exact h1)]
  congr 5
  have hpi : (180 : ℝ) * (Real.pi / 180) = Real.pi := by ring
  cases deg
  · simp [Kep.inRad, angleOf, halfTurn]
  · simp [Kep.inRad, angleOf, halfTurn, add_mul, sub_mul, hpi]

/-- a case: the hyperbola a = 1, e = 2 at true anomaly pi; the state returned has negative energy -/
example (g : Nat → FX) : ∃ c : Cart ℝ, (kep_to_cart g (.sc (fin 1)) false (.vec .f64 (⟨1, 2, 0, 0, 0, Real.pi⟩ : Kep ℝ).fx)).1 = .ok (.vec .f64 c.fx) ∧
    vlen c.r = 3 ∧ energy 1 c = -1 / 6 := by
  obtain ⟨c, h1, -, h2, h3⟩ := c85_beyond g 1 false ⟨1, 2, 0, 0, 0, Real.pi⟩ one_pos (by norm_num) one_pos (by
    show 1 + 2 * Real.cos Real.pi < 0
    rw [Real.cos_pi]; norm_num)
  refine ⟨c, h1, ?_, ?_⟩
  · rw [h2]; norm_num [Kep.inRad, angleOf]
  · rw [h3]; norm_num [Kep.inRad, angleOf]

end Pyorb
