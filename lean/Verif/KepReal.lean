import Verif.Kepler
import Verif.FX
import Mathlib.Tactic.LinearCombination

/-!
# Real-number reading of `cart_to_kep` and `kep_to_cart`

Evaluation lemmas: on finite inputs away from singular points, the model functions return finite values given by the
real expressions below.  These are proof helpers; the property statements are in `Verif/PropsKepCart.lean`.
-/

set_option linter.unusedSimpArgs false

namespace Pyorb
open FX

/-- embed real elements as finite scalars -/
def Kep.fx (k : Kep ℝ) : Kep FX := ⟨fin k.a, fin k.e, fin k.i, fin k.om, fin k.OM, fin k.nu⟩
@[inherit_doc Kep.fx] def Cart.fx (c : Cart ℝ) : Cart FX := ⟨fin c.x, fin c.y, fin c.z, fin c.vx, fin c.vy, fin c.vz⟩
@[inherit_doc Kep.fx] def Equi.fx (q : Equi ℝ) : Equi FX := ⟨fin q.a, fin q.h, fin q.k, fin q.p, fin q.q, fin q.lam⟩

theorem Kep.fx_inj {k k' : Kep ℝ} (h : k.fx = k'.fx) : k = k' := by
  cases k; cases k'; simp only [Kep.fx, Kep.mk.injEq, FX.fin.injEq] at h ⊢; exact h
theorem Cart.fx_inj {k k' : Cart ℝ} (h : k.fx = k'.fx) : k = k' := by
  cases k; cases k'; simp only [Cart.fx, Cart.mk.injEq, FX.fin.injEq] at h ⊢; exact h
theorem Equi.fx_inj {k k' : Equi ℝ} (h : k.fx = k'.fx) : k = k' := by
  cases k; cases k'; simp only [Equi.fx, Equi.mk.injEq, FX.fin.injEq] at h ⊢; exact h

/-- value of `e_lim` -/
noncomputable def eLim : ℝ := 1 / 1000000000
/-- value of `i_lim` -/
noncomputable def iLim : ℝ := Real.pi * (1 / 1000000000)

@[simp] theorem e_lim_fin : (e_lim : FX) = fin eLim := by
  simp [e_lim, eLim]
@[simp] theorem i_lim_fin : (i_lim : FX) = fin iLim := by
  simp [i_lim, iLim]

theorem eLim_pos : 0 < eLim := by norm_num [eLim]
theorem iLim_pos : 0 < iLim := mul_pos Real.pi_pos (by norm_num)
theorem iLim_lt : iLim < Real.pi / 2 := by
  unfold iLim; have := Real.pi_pos; linarith

namespace V3
@[simp] theorem norm_fin (a b c : ℝ) : norm (⟨fin a, fin b, fin c⟩ : V3 FX) = fin (√(a ^ 2 + b ^ 2 + c ^ 2)) := by
  simp only [norm, sq_fin, add_fin]
  rw [sqrt_fin (by positivity)]
@[simp] theorem dot_fin (a b c x y z : ℝ) :
    dot (⟨fin a, fin b, fin c⟩ : V3 FX) ⟨fin x, fin y, fin z⟩ = fin (a * x + b * y + c * z) := by simp [dot]
@[simp] theorem cross_fin (a b c x y z : ℝ) :
    cross (⟨fin a, fin b, fin c⟩ : V3 FX) ⟨fin x, fin y, fin z⟩
      = ⟨fin (b * z - c * y), fin (c * x - a * z), fin (a * y - b * x)⟩ := by simp [cross]
@[simp] theorem smul_fin (s a b c : ℝ) :
    smul (fin s) (⟨fin a, fin b, fin c⟩ : V3 FX) = ⟨fin (s * a), fin (s * b), fin (s * c)⟩ := by simp [smul]
theorem sdiv_fin (a b c : ℝ) {s : ℝ} (h : s ≠ 0) :
    sdiv (⟨fin a, fin b, fin c⟩ : V3 FX) (fin s) = ⟨fin (a / s), fin (b / s), fin (c / s)⟩ := by simp [sdiv, h]
@[simp] theorem sub_fin (a b c x y z : ℝ) :
    sub (⟨fin a, fin b, fin c⟩ : V3 FX) ⟨fin x, fin y, fin z⟩ = ⟨fin (a - x), fin (b - y), fin (c - z)⟩ := by
  simp [sub]
@[simp] theorem store_f64 {α : Type} [Np α] (v : V3 α) : V3.store .f64 v = v := rfl
end V3

/-! ## Orbital quantities of a real Cartesian state -/

namespace Cart
variable (mu : ℝ) (c : Cart ℝ)
/-- length of the position vector -/
noncomputable def rn : ℝ := √(c.x ^ 2 + c.y ^ 2 + c.z ^ 2)
/-- length of the velocity vector -/
noncomputable def vn : ℝ := √(c.vx ^ 2 + c.vy ^ 2 + c.vz ^ 2)
/-- r . v -/
noncomputable def rv : ℝ := c.x * c.vx + c.y * c.vy + c.z * c.vz
/-- angular momentum vector -/
noncomputable def hx : ℝ := c.y * c.vz - c.z * c.vy
@[inherit_doc hx] noncomputable def hy : ℝ := c.z * c.vx - c.x * c.vz
@[inherit_doc hx] noncomputable def hz : ℝ := c.x * c.vy - c.y * c.vx
/-- length of the angular momentum vector -/
noncomputable def hn : ℝ := √(c.hx ^ 2 + c.hy ^ 2 + c.hz ^ 2)
/-- specific energy as computed by the code -/
noncomputable def eps : ℝ := c.vn ^ 2 * (1 / 2) - mu / c.rn
/-- radial velocity as computed by the code -/
noncomputable def vr : ℝ := c.x / c.rn * c.vx + c.y / c.rn * c.vy + c.z / c.rn * c.vz
/-- eccentricity vector as computed by the code -/
noncomputable def evx : ℝ := 1 / mu * ((c.vn ^ 2 - mu / c.rn) * c.x - c.rn * c.vr * c.vx)
@[inherit_doc evx] noncomputable def evy : ℝ := 1 / mu * ((c.vn ^ 2 - mu / c.rn) * c.y - c.rn * c.vr * c.vy)
@[inherit_doc evx] noncomputable def evz : ℝ := 1 / mu * ((c.vn ^ 2 - mu / c.rn) * c.z - c.rn * c.vr * c.vz)
/-- eccentricity as computed by the code -/
noncomputable def ecc : ℝ := √(c.evx mu ^ 2 + c.evy mu ^ 2 + c.evz mu ^ 2)
/-- inclination as computed by the code -/
noncomputable def inc : ℝ := Real.arccos (c.hz / c.hn)
/-- length of the node vector -/
noncomputable def nn : ℝ := √((0 * c.hz - 1 * c.hy) ^ 2 + (1 * c.hx - 0 * c.hz) ^ 2 + (0 * c.hy - 0 * c.hx) ^ 2)
/-- e > e_lim -/
def EG : Prop := eLim < c.ecc mu
/-- inclined: i_lim < i < pi - i_lim -/
def IG : Prop := iLim < c.inc ∧ c.inc < Real.pi - iLim
end Cart

/-- `arccos(x)`, reflected to `2pi - arccos(x)` when `b` holds -/
noncomputable def refl (b : Prop) [Decidable b] (x : ℝ) : ℝ :=
  if b then 2 * Real.pi - Real.arccos x else Real.arccos x

open Classical in
/-- longitude of ascending node as computed by the code -/
noncomputable def Cart.ctkOM (c : Cart ℝ) : ℝ :=
  if c.IG then refl (c.hx < 0) (-c.hy / c.nn) else 0

open Classical in
/-- argument of periapsis as computed by the code -/
noncomputable def Cart.ctkOm (mu : ℝ) (c : Cart ℝ) : ℝ :=
  if c.EG mu then
    if c.IG then refl (c.evz mu < 0) ((-c.hy * c.evx mu + c.hx * c.evy mu) / (c.nn * c.ecc mu))
    else if c.inc < Real.pi / 2 then refl (c.evy mu < 0) (c.evx mu / c.ecc mu)
    else refl (0 ≤ c.evy mu) (c.evx mu / c.ecc mu)
  else 0

open Classical in
/-- true anomaly as computed by the code -/
noncomputable def Cart.ctkNu (mu : ℝ) (c : Cart ℝ) : ℝ :=
  if c.EG mu then
    refl (c.vr < 0) ((c.evx mu * c.x + c.evy mu * c.y + c.evz mu * c.z) / (c.ecc mu * c.rn))
  else if c.IG then refl (c.z < 0) (-c.hy / c.nn * (c.x / c.rn) + c.hx / c.nn * (c.y / c.rn))
  else if c.inc < Real.pi / 2 then refl (c.y < 0) (c.x / c.rn)
  else refl (0 ≤ c.y) (c.x / c.rn)

/-- semi-major axis as computed by the code; not finite when the energy vanishes -/
noncomputable def Cart.ctkA (mu : ℝ) (c : Cart ℝ) : FX :=
  if 1 ≤ c.ecc mu then -(fin (-mu) / fin (2 * c.eps mu)) else fin (-mu) / fin (2 * c.eps mu)

/-- the clamping lines 475-476 / 514-515 followed by `arccos` -/
theorem arccos_clamp (x : ℝ) :
    (Np.arccos (if ((if decide (1 < x) = true then fin 1 else fin x) <ᵇ fin (-1)) = true then fin (-1)
      else if decide (1 < x) = true then fin 1 else fin x) : FX) = fin (Real.arccos x) := by
  by_cases h1 : 1 < x
  · simp only [lt_fin, h1, decide_true, if_true]
    norm_num
    rw [arccos_fin (by norm_num) le_rfl, Real.arccos_one, Real.arccos_of_one_le h1.le]
  · by_cases h2 : x < -1
    · simp only [lt_fin, h1, decide_false, h2, decide_true, if_true, Bool.false_eq_true, if_false]
      rw [arccos_fin le_rfl (by norm_num), Real.arccos_neg_one, Real.arccos_of_le_neg_one h2.le]
    · simp only [lt_fin, h1, decide_false, h2, Bool.false_eq_true, if_false]
      rw [arccos_fin (not_lt.mp h2) (not_lt.mp h1)]

/-- an `if` between finite values -/
theorem refl_fin (b : Prop) [Decidable b] (x : ℝ) :
    (if decide b = true then fin (2 * Real.pi - Real.arccos x) else fin (Real.arccos x)) = fin (refl b x) := by
  unfold refl; by_cases h : b <;> simp [h]

theorem Cart.hz_div_mem (c : Cart ℝ) (hh : 0 < c.hn) : -1 ≤ c.hz / c.hn ∧ c.hz / c.hn ≤ 1 := by
  have h1 : |c.hz| ≤ c.hn := by
    unfold Cart.hn
    apply Real.abs_le_sqrt
    nlinarith [sq_nonneg c.hx, sq_nonneg c.hy]
  rw [abs_le] at h1
  constructor
  · rw [le_div_iff₀ hh]; linarith
  · rw [div_le_iff₀ hh]; linarith

theorem Cart.nn_eq (c : Cart ℝ) : c.nn = √(c.hx ^ 2 + c.hy ^ 2) := by
  unfold Cart.nn; congr 1; ring

theorem Cart.nn_pos (c : Cart ℝ) (hh : 0 < c.hn) (hi : c.IG) : 0 < c.nn := by
  rw [Cart.nn_eq]
  apply Real.sqrt_pos.mpr
  by_contra hneg
  have h0 : c.hx ^ 2 + c.hy ^ 2 = 0 := le_antisymm (not_lt.mp hneg) (by positivity)
  have hz : c.hn = |c.hz| := by
    unfold Cart.hn; rw [h0, zero_add, Real.sqrt_sq_eq_abs]
  obtain ⟨h1, h2⟩ := hi
  unfold Cart.inc at h1 h2
  rcases le_or_gt 0 c.hz with hs | hs
  · rw [abs_of_nonneg hs] at hz
    rw [hz, div_self (by rw [← hz]; exact hh.ne'), Real.arccos_one] at h1
    exact absurd h1 (not_lt.mpr iLim_pos.le)
  · rw [abs_of_neg hs] at hz
    rw [hz, div_neg, div_self hs.ne, Real.arccos_neg_one] at h2
    linarith [iLim_pos]

theorem Cart.nn_le_x (c : Cart ℝ) (hn : 0 < c.nn) : -1 ≤ -c.hy / c.nn ∧ -c.hy / c.nn ≤ 1 := by
  have h1 : |c.hy| ≤ c.nn := by
    rw [Cart.nn_eq]
    apply Real.abs_le_sqrt
    nlinarith [sq_nonneg c.hx, sq_nonneg c.hy]
  rw [abs_le] at h1
  constructor
  · rw [le_div_iff₀ hn]; linarith
  · rw [div_le_iff₀ hn]; linarith

/-- Evaluation of one column of `cart_to_kep` on a finite state with `r ≠ 0` and non-zero angular momentum: whatever the
uninitialised buffers contain, every element except possibly `a` is finite and given by the real expressions above. -/
theorem cartToKepCol_eq (g : CtkGarbage FX) (mu : ℝ) (c : Cart ℝ) (hmu : mu ≠ 0) (hr : 0 < c.rn) (hh : 0 < c.hn) :
    cartToKepCol g .f64 (fin mu) c.fx =
      ⟨c.ctkA mu, fin (c.ecc mu), fin c.inc, fin (c.ctkOm mu), fin c.ctkOM, fin (c.ctkNu mu)⟩ := by
  have hpi := Real.pi_pos
  obtain ⟨hz1, hz2⟩ := c.hz_div_mem hh
  have hr' := hr.ne'
  have hh' := hh.ne'
  have e0 : c.fx = ⟨fin c.x, fin c.y, fin c.z, fin c.vx, fin c.vy, fin c.vz⟩ := rfl
  rw [e0]
  unfold cartToKepCol
  simp only [V3.norm_fin, V3.cross_fin]
  have f1 : √(c.x ^ 2 + c.y ^ 2 + c.z ^ 2) = c.rn := rfl
  have f2 : √(c.vx ^ 2 + c.vy ^ 2 + c.vz ^ 2) = c.vn := rfl
  have f3 : c.y * c.vz - c.z * c.vy = c.hx := rfl
  have f4 : c.z * c.vx - c.x * c.vz = c.hy := rfl
  have f5 : c.x * c.vy - c.y * c.vx = c.hz := rfl
  simp only [f1, f2, f3, f4, f5]
  have f6 : √(c.hx ^ 2 + c.hy ^ 2 + c.hz ^ 2) = c.hn := rfl
  simp only [f6, V3.sdiv_fin _ _ _ hr', V3.dot_fin]
  have f7 : c.x / c.rn * c.vx + c.y / c.rn * c.vy + c.z / c.rn * c.vz = c.vr := rfl
  simp only [f7, sq_fin, half_fin, mul_fin, div_fin hr', sub_fin, V3.smul_fin, V3.sub_fin, one_fin, div_fin hmu, neg_fin,
    ofNat_fin, V3.norm_fin, zero_fin, V3.cross_fin, pi_fin, store_f64, V3.store_f64, div_fin hh', arccos_fin hz1 hz2,
    e_lim_fin, i_lim_fin, lt_fin, le_fin, twoPi_fin]
  have f8 : c.vn ^ 2 * (1 / 2) - mu / c.rn = c.eps mu := rfl
  have f9 : 1 / mu * ((c.vn ^ 2 - mu / c.rn) * c.x - c.rn * c.vr * c.vx) = c.evx mu := rfl
  have f10 : 1 / mu * ((c.vn ^ 2 - mu / c.rn) * c.y - c.rn * c.vr * c.vy) = c.evy mu := rfl
  have f11 : 1 / mu * ((c.vn ^ 2 - mu / c.rn) * c.z - c.rn * c.vr * c.vz) = c.evz mu := rfl
  simp only [f8, f9, f10, f11]
  have f12 : √(c.evx mu ^ 2 + c.evy mu ^ 2 + c.evz mu ^ 2) = c.ecc mu := rfl
  have f13 : Real.arccos (c.hz / c.hn) = c.inc := rfl
  simp only [f12, f13]
  have n1 : (0 : ℝ) * c.hz - 1 * c.hy = -c.hy := by ring
  have n2 : (1 : ℝ) * c.hx - 0 * c.hz = c.hx := by ring
  have n3 : (0 : ℝ) * c.hy - 0 * c.hx = 0 := by ring
  have n4 : √((-c.hy) ^ 2 + c.hx ^ 2 + 0 ^ 2) = c.nn := by
    rw [Cart.nn_eq]; congr 1; ring
  simp only [n1, n2, n3]
  have hig (h : c.IG) : (decide (iLim < c.inc) && decide (c.inc < Real.pi - iLim)) = true := by
    simp [h.1, h.2]
  have hig' (h : ¬ c.IG) : (decide (iLim < c.inc) && decide (c.inc < Real.pi - iLim)) = false := by
    rw [Cart.IG] at h; simpa using h
  have heg (h : c.EG mu) : decide (eLim < c.ecc mu) = true := decide_eq_true h
  have heg' (h : ¬ c.EG mu) : decide (eLim < c.ecc mu) = false := decide_eq_false h
  have hplan (h : ¬ c.IG) : ¬ c.inc < Real.pi / 2 → Real.pi / 2 < c.inc := by
    intro h2
    rcases lt_or_ge iLim c.inc with h3 | h3
    · have : ¬ c.inc < Real.pi - iLim := fun h4 => h ⟨h3, h4⟩
      linarith [iLim_lt]
    · linarith [iLim_lt]
  have hhalf : Real.pi * (1 / 2) = Real.pi / 2 := by ring
  by_cases hE : c.EG mu <;> by_cases hI : c.IG
  · have hnn := (c.nn_pos hh hI).ne'
    have hec : c.ecc mu ≠ 0 := (eLim_pos.trans hE).ne'
    obtain ⟨hn1, hn2⟩ := c.nn_le_x (c.nn_pos hh hI)
    rw [hig hI, heg hE]
    simp only [Bool.not_true, Bool.and_true, Bool.and_false, Bool.false_and,
      if_true, if_false, Bool.false_eq_true, V3.norm_fin, n4, V3.dot_fin, mul_fin, div_fin (mul_ne_zero hnn hec),
      div_fin (mul_ne_zero hec hr'), lt_fin, arccos_clamp, div_fin hnn, arccos_fin hn1 hn2, sub_fin, refl_fin]
    simp [Cart.ctkA, Cart.ctkOm, Cart.ctkOM, Cart.ctkNu, hE, hI]
  · have hec : c.ecc mu ≠ 0 := (eLim_pos.trans hE).ne'
    rw [hig' hI, heg hE]
    simp only [Bool.not_true, Bool.not_false, Bool.and_true, Bool.and_false, Bool.false_and, hhalf,
      if_true, if_false, Bool.false_eq_true, V3.dot_fin, mul_fin, div_fin hec,
      div_fin (mul_ne_zero hec hr'), lt_fin, arccos_clamp, sub_fin, refl_fin]
    by_cases h : c.inc < Real.pi / 2
    · have h' : ¬ (Real.pi / 2 < c.inc) := not_lt.mpr h.le
      simp only [h, h', decide_true, decide_false, Bool.true_and, Bool.false_and, Bool.false_eq_true, if_false, refl_fin]
      simp [Cart.ctkA, Cart.ctkOm, Cart.ctkOM, Cart.ctkNu, hE, hI, h]
    · have h' := hplan hI h
      simp only [h, h', decide_true, decide_false, Bool.true_and, Bool.false_and, Bool.false_eq_true, if_false, refl_fin]
      simp [Cart.ctkA, Cart.ctkOm, Cart.ctkOM, Cart.ctkNu, hE, hI, h]
      unfold refl; split_ifs <;> rfl
  · have hnn := (c.nn_pos hh hI).ne'
    obtain ⟨hn1, hn2⟩ := c.nn_le_x (c.nn_pos hh hI)
    rw [hig hI, heg' hE]
    simp only [Bool.not_true, Bool.not_false, Bool.and_true, Bool.and_false, Bool.false_and, Bool.true_and,
      if_true, if_false, Bool.false_eq_true, V3.norm_fin, n4, V3.dot_fin, V3.sdiv_fin _ _ _ hnn, lt_fin, arccos_clamp,
      div_fin hnn, arccos_fin hn1 hn2, sub_fin, refl_fin]
    simp [Cart.ctkA, Cart.ctkOm, Cart.ctkOM, Cart.ctkNu, hE, hI]
  · rw [hig' hI, heg' hE]
    simp only [Bool.not_true, Bool.not_false, Bool.and_true, Bool.and_false, Bool.false_and, Bool.true_and, hhalf,
      if_true, if_false, Bool.false_eq_true, lt_fin, arccos_clamp, div_fin hr', sub_fin, refl_fin]
    by_cases h : c.inc < Real.pi / 2
    · have h' : ¬ (Real.pi / 2 < c.inc) := not_lt.mpr h.le
      simp only [h, h', decide_true, decide_false, Bool.true_and, Bool.false_and, Bool.false_eq_true, if_false, refl_fin]
      simp [Cart.ctkA, Cart.ctkOm, Cart.ctkOM, Cart.ctkNu, hE, hI, h]
    · have h' := hplan hI h
      simp only [h, h', decide_true, decide_false, Bool.true_and, Bool.false_and, Bool.false_eq_true, if_false, refl_fin]
      simp [Cart.ctkA, Cart.ctkOm, Cart.ctkOM, Cart.ctkNu, hE, hI, h]
      unfold refl; split_ifs <;> rfl

/-! ## Orbital quantities of real Keplerian elements -/

namespace Kep
variable (mu : ℝ) (k : Kep ℝ)
/-- semi-latus rectum (`a` is the periapsis distance of a parabola) -/
noncomputable def slr : ℝ := if k.e = 1 then 2 * k.a else k.a * |1 - k.e ^ 2|
/-- angular momentum -/
noncomputable def hm : ℝ := √(mu * k.slr)
/-- distance -/
noncomputable def rad : ℝ := k.slr / (1 + k.e * Real.cos k.nu)
/-- perifocal frame, first vector (towards periapsis) -/
noncomputable def px : ℝ := Real.cos k.OM * Real.cos k.om - Real.cos k.i * Real.sin k.OM * Real.sin k.om
@[inherit_doc px]
noncomputable def py : ℝ := Real.cos k.om * Real.sin k.OM + Real.cos k.OM * Real.cos k.i * Real.sin k.om
@[inherit_doc px] noncomputable def pz : ℝ := Real.sin k.i * Real.sin k.om
/-- perifocal frame, second vector (direction of motion at periapsis) -/
noncomputable def qx : ℝ := -Real.cos k.OM * Real.sin k.om - Real.cos k.i * Real.cos k.om * Real.sin k.OM
@[inherit_doc qx]
noncomputable def qy : ℝ := Real.cos k.OM * Real.cos k.i * Real.cos k.om - Real.sin k.OM * Real.sin k.om
@[inherit_doc qx] noncomputable def qz : ℝ := Real.cos k.om * Real.sin k.i
/-- perifocal frame, third vector (orbit normal) -/
noncomputable def wx : ℝ := Real.sin k.OM * Real.sin k.i
@[inherit_doc wx] noncomputable def wy : ℝ := -Real.cos k.OM * Real.sin k.i
@[inherit_doc wx] noncomputable def wz : ℝ := Real.cos k.i
/-- position coordinates in the orbital plane -/
noncomputable def rx : ℝ := k.rad * Real.cos k.nu
@[inherit_doc rx] noncomputable def ry : ℝ := k.rad * Real.sin k.nu
/-- velocity coordinates in the orbital plane -/
noncomputable def ux : ℝ := -(mu / k.hm mu) * Real.sin k.nu
@[inherit_doc ux] noncomputable def uy : ℝ := mu / k.hm mu * (k.e + Real.cos k.nu)
/-- Cartesian state of the elements -/
noncomputable def state : Cart ℝ :=
  ⟨k.px * k.rx + k.qx * k.ry, k.py * k.rx + k.qy * k.ry, k.pz * k.rx + k.qz * k.ry,
   k.px * k.ux mu + k.qx * k.uy mu, k.py * k.ux mu + k.qy * k.uy mu, k.pz * k.ux mu + k.qz * k.uy mu⟩
/-- the caller's column after `kep_to_cart` -/
noncomputable def afterCall : Kep ℝ := { k with a := if 1 < k.e then -k.a else k.a }
end Kep

theorem Kep.slr_pos (k : Kep ℝ) (ha : 0 < k.a) (he : 0 ≤ k.e) : 0 < k.slr := by
  unfold Kep.slr
  split_ifs with h
  · linarith
  · have : (1 - k.e ^ 2) ≠ 0 := by
      intro h0
      have : (k.e - 1) * (k.e + 1) = 0 := by linarith
      rcases mul_eq_zero.mp this with h1 | h1
      · exact h (by linarith)
      · linarith
    exact mul_pos ha (abs_pos.mpr this)

theorem Kep.hm_pos (mu : ℝ) (k : Kep ℝ) (hmu : 0 < mu) (ha : 0 < k.a) (he : 0 ≤ k.e) : 0 < k.hm mu :=
  Real.sqrt_pos.mpr (mul_pos hmu (k.slr_pos ha he))

theorem Kep.hm_sq (mu : ℝ) (k : Kep ℝ) (hmu : 0 < mu) (ha : 0 < k.a) (he : 0 ≤ k.e) : k.hm mu ^ 2 = mu * k.slr :=
  Real.sq_sqrt (mul_pos hmu (k.slr_pos ha he)).le

/-- Evaluation of one column of `kep_to_cart`. -/
theorem kepToCartCol_eq (gh : FX) (mu : ℝ) (k : Kep ℝ) (hmu : 0 < mu) (ha : 0 < k.a) (he : 0 ≤ k.e)
    (hc : 1 + k.e * Real.cos k.nu ≠ 0) :
    kepToCartCol gh .f64 (fin mu) k.fx = ((k.state mu).fx, k.afterCall.fx) := by
  have hpos := k.hm_pos mu hmu ha he
  have hsq := k.hm_sq mu hmu ha he
  have hmu' := hmu.ne'
  -- the angular momentum computed by the code
  have hh : (if (!(k.fx.e =ᵇ (1 : FX))) = true then
        store .f64 (orbit_total_angular_momentum
          (if ((1 : FX) <ᵇ k.fx.e) = true then store .f64 (k.fx.a * -1) else k.fx.a) k.fx.e (fin mu)) else gh)
      = if k.e = 1 then gh else fin (k.hm mu) := by
    by_cases h1 : k.e = 1
    · simp [Kep.fx, h1]
    · by_cases h2 : 1 < k.e
      · simp only [Kep.fx, h1, h2, one_fin, eq_fin, lt_fin, decide_false, decide_true, Bool.not_false, if_true, if_false,
          store_f64, neg_fin, mul_fin, orbit_total_angular_momentum, sq_fin, sub_fin]
        have h3 : mu * (k.a * -1) * (1 - k.e ^ 2) = mu * k.slr := by
          rw [Kep.slr, if_neg h1, abs_of_neg (by nlinarith)]; ring
        rw [h3, sqrt_fin (mul_pos hmu (k.slr_pos ha he)).le]; rfl
      · simp only [Kep.fx, h1, h2, one_fin, eq_fin, lt_fin, decide_false, Bool.not_false, if_true, if_false,
          store_f64, mul_fin, orbit_total_angular_momentum, sq_fin, sub_fin, Bool.false_eq_true]
        have h4 : k.e < 1 := lt_of_le_of_ne (not_lt.mp h2) h1
        have h3 : mu * k.a * (1 - k.e ^ 2) = mu * k.slr := by
          rw [Kep.slr, if_neg h1, abs_of_pos (by nlinarith)]; ring
        rw [h3, sqrt_fin (mul_pos hmu (k.slr_pos ha he)).le]; rfl
  have hh2 : (if (k.fx.e =ᵇ (1 : FX)) = true then
        store .f64 (parabolic_total_angular_momentum
          (if ((1 : FX) <ᵇ k.fx.e) = true then store .f64 (k.fx.a * -1) else k.fx.a) (fin mu))
        else if k.e = 1 then gh else fin (k.hm mu)) = fin (k.hm mu) := by
    by_cases h1 : k.e = 1
    · have h3 : mu * 2 * k.a = mu * k.slr := by rw [Kep.slr, if_pos h1]; ring
      simp only [Kep.fx, h1, one_fin, eq_fin, decide_true, if_true, lt_fin, lt_irrefl, decide_false, Bool.false_eq_true,
        if_false, store_f64, parabolic_total_angular_momentum, ofNat_fin, mul_fin]
      rw [h3, sqrt_fin (mul_pos hmu (k.slr_pos ha he)).le]; rfl
    · simp [Kep.fx, h1]
  unfold kepToCartCol
  simp only []
  rw [hh, hh2]
  have hrn : orbital_distance (fin (k.hm mu)) (fin mu) k.fx.e k.fx.nu false = fin k.rad := by
    simp only [orbital_distance, Kep.fx, Bool.false_eq_true, if_false, sq_fin, one_fin, cos_fin, mul_fin, add_fin]
    rw [div_fin (mul_ne_zero hmu' hc), hsq, Kep.rad, mul_div_mul_left _ _ hmu']
  rw [hrn]
  have hvn : (fin mu / fin (k.hm mu) : FX) = fin (mu / k.hm mu) := div_fin hpos.ne'
  have haft : (if ((1 : FX) <ᵇ k.fx.e) = true then store .f64 (k.fx.a * -1) else k.fx.a)
      = fin (if 1 < k.e then -k.a else k.a) := by
    by_cases h2 : 1 < k.e <;> simp [Kep.fx, h2]
  rw [hvn, haft]
  simp [euler_rotation_matrix, Kep.fx, Cart.fx, Kep.state, Kep.afterCall, Kep.px, Kep.py, Kep.pz, Kep.qx, Kep.qy, Kep.qz,
    Kep.rx, Kep.ry, Kep.ux, Kep.uy]

end Pyorb
