import Verif.Nearest
import Verif.PropsRoundKep

/-!
# `cart_to_kep` with rounding (C87)

Which results are numbers in floating-point arithmetic.  Two of the arguments of `np.arccos` in `cart_to_kep` are not clipped to [-1, 1].
-/

namespace Pyorb
open FX RF
variable {R : Rounding}

/-- the length of a vector as it is computed -/
noncomputable def flNorm (R : Rounding) (x y z : ℝ) : ℝ :=
  R.rd (Real.sqrt (R.rd (R.rd (R.rd (x * x) + R.rd (y * y)) + R.rd (z * z))))

/-- the angular momentum as it is computed: two rounded products and a rounded difference -/
noncomputable def flAngMom (R : Rounding) (c : Cart ℝ) : Fin 3 → ℝ :=
  ![R.rd (R.rd (c.y * c.vz) - R.rd (c.z * c.vy)), R.rd (R.rd (c.z * c.vx) - R.rd (c.x * c.vz)), R.rd (R.rd (c.x * c.vy) - R.rd (c.y * c.vx))]

/-- the energy as it is computed -/
noncomputable def flEnergy (R : Rounding) (mu : ℝ) (c : Cart ℝ) : ℝ :=
  R.rd (R.rd (R.rd (flNorm R c.vx c.vy c.vz * flNorm R c.vx c.vy c.vz) * (1 / 2)) - R.rd (mu / flNorm R c.x c.y c.z))

/-- the number `2.0*np.pi` of the arithmetic -/
noncomputable def flTwoPi (R : Rounding) : ℝ := R.rd (2 * R.rd Real.pi)

theorem rd_ne_zero {x : ℝ} : R.rd x ≠ 0 ↔ x ≠ 0 := by
  rw [Rounding.rd]; simp [Real.exp_ne_zero]
theorem rd_zero : R.rd 0 = 0 := by simp [Rounding.rd]

theorem flNorm_nonneg (x y z : ℝ) : 0 ≤ flNorm R x y z := rd_nonneg (Real.sqrt_nonneg _)

theorem flNorm_arg_nonneg (x y z : ℝ) : 0 ≤ R.rd (R.rd (R.rd (x * x) + R.rd (y * y)) + R.rd (z * z)) :=
  rd_nonneg (add_nonneg (rd_nonneg (add_nonneg (rd_nonneg (mul_self_nonneg x)) (rd_nonneg (mul_self_nonneg y)))) (rd_nonneg (mul_self_nonneg z)))

theorem flNorm_pos {x y z : ℝ} (h : x ≠ 0 ∨ y ≠ 0 ∨ z ≠ 0) : 0 < flNorm R x y z := by
  refine rd_pos (Real.sqrt_pos.mpr (rd_pos ?_))
  have hx := rd_nonneg (R := R) (mul_self_nonneg x)
  have hy := rd_nonneg (R := R) (mul_self_nonneg y)
  have hz := rd_nonneg (R := R) (mul_self_nonneg z)
  have hxy := rd_nonneg (R := R) (add_nonneg hx hy)
  rcases h with h | h | h
  · exact add_pos_of_pos_of_nonneg (rd_pos (add_pos_of_pos_of_nonneg (rd_pos (mul_self_pos.mpr h)) hy)) hz
  · exact add_pos_of_pos_of_nonneg (rd_pos (add_pos_of_nonneg_of_pos hx (rd_pos (mul_self_pos.mpr h)))) hz
  · exact add_pos_of_nonneg_of_pos hxy (rd_pos (mul_self_pos.mpr h))

theorem flNorm_zero : flNorm R 0 0 0 = 0 := by simp [flNorm, rd_zero]

theorem norm_num3 (x y z : ℝ) : (⟨RF.num R x, RF.num R y, RF.num R z⟩ : V3 (RF R)).norm = RF.num R (flNorm R x y z) := by
  unfold V3.norm sq
  simp only [mul_num, add_num]
  rw [sqrt_num (flNorm_arg_nonneg x y z)]
  rfl

/-! ## The computed length is not smaller than a component -/

section
variable (hR : Nearest R)
include hR

theorem flNorm_ge_z {x y z : ℝ} (hz : Digits53 z) : |z| ≤ flNorm R x y z := by
  rw [← hR.sqrt_sq hz]
  refine hR.mono (Real.sqrt_le_sqrt ?_)
  rw [← hR.idem (z * z)]
  exact hR.mono (by rw [hR.idem]; linarith [rd_nonneg (R := R) (add_nonneg (rd_nonneg (R := R) (mul_self_nonneg x)) (rd_nonneg (R := R) (mul_self_nonneg y)))])

theorem flNorm_ge_x {x y z : ℝ} (hx : Digits53 x) : |x| ≤ flNorm R x y z := by
  rw [← hR.sqrt_sq hx]
  refine hR.mono (Real.sqrt_le_sqrt ?_)
  have h1 : R.rd (x * x) ≤ R.rd (R.rd (x * x) + R.rd (y * y)) := by
    rw [← hR.idem (x * x)]
    exact hR.mono (by rw [hR.idem]; linarith [rd_nonneg (R := R) (mul_self_nonneg y)])
  refine h1.trans ?_
  rw [← hR.idem (R.rd (x * x) + R.rd (y * y))]
  exact hR.mono (by rw [hR.idem]; linarith [rd_nonneg (R := R) (mul_self_nonneg z)])

theorem flNorm_planar {z : ℝ} (hz : Digits53 z) : flNorm R 0 0 z = |z| := by
  rw [← hR.sqrt_sq hz]
  simp only [flNorm, mul_zero, rd_zero, add_zero, zero_add, hR.idem]

/-- a quotient of a number and a larger one is not rounded out of [-1, 1] -/
theorem quot_range {x n : ℝ} (hn : 0 < n) (h : |x| ≤ n) : -1 ≤ R.rd (x / n) ∧ R.rd (x / n) ≤ 1 := by
  have h1 : |x / n| ≤ 1 := by rw [abs_div, abs_of_pos hn, div_le_one hn]; exact h
  obtain ⟨a, b⟩ := abs_le.mp h1
  have h2 := hR.mono a
  have h3 := hR.mono b
  rw [hR.id Digits53.one.neg] at h2
  rw [hR.id Digits53.one] at h3
  exact ⟨h2, h3⟩

end

/-! ## Numbers and angles -/

/-- the computed value is a number -/
def IsNum (a : RF R) : Prop := ∃ x, a = RF.num R x

/-- the computed value is a number between 0 and `2.0*np.pi` -/
def IsAngle (a : RF R) : Prop := ∃ x, a = RF.num R x ∧ 0 ≤ x ∧ x ≤ flTwoPi R

theorem IsNum.add {a b : RF R} (h1 : IsNum a) (h2 : IsNum b) : IsNum (a + b) := by
  obtain ⟨x, rfl⟩ := h1; obtain ⟨y, rfl⟩ := h2; exact ⟨_, add_num _ _⟩
theorem IsNum.sub {a b : RF R} (h1 : IsNum a) (h2 : IsNum b) : IsNum (a - b) := by
  obtain ⟨x, rfl⟩ := h1; obtain ⟨y, rfl⟩ := h2; exact ⟨_, sub_num _ _⟩
theorem IsNum.mul {a b : RF R} (h1 : IsNum a) (h2 : IsNum b) : IsNum (a * b) := by
  obtain ⟨x, rfl⟩ := h1; obtain ⟨y, rfl⟩ := h2; exact ⟨_, mul_num _ _⟩
theorem IsNum.neg {a : RF R} (h1 : IsNum a) : IsNum (-a) := by
  obtain ⟨x, rfl⟩ := h1; exact ⟨_, neg_num _⟩
theorem IsNum.div {a : RF R} {y : ℝ} (h1 : IsNum a) (h : y ≠ 0) : IsNum (a / RF.num R y) := by
  obtain ⟨x, rfl⟩ := h1; exact ⟨_, div_num _ h⟩
theorem isNum_num (x : ℝ) : IsNum (RF.num R x) := ⟨x, rfl⟩

/-- a vector of numbers -/
def IsNum3 (v : V3 (RF R)) : Prop := IsNum v.x ∧ IsNum v.y ∧ IsNum v.z

theorem IsNum3.dot {u v : V3 (RF R)} (hu : IsNum3 u) (hv : IsNum3 v) : IsNum (u.dot v) :=
  ((hu.1.mul hv.1).add (hu.2.1.mul hv.2.1)).add (hu.2.2.mul hv.2.2)
theorem IsNum3.sdiv {u : V3 (RF R)} (hu : IsNum3 u) {y : ℝ} (h : y ≠ 0) : IsNum3 (u.sdiv (RF.num R y)) :=
  ⟨hu.1.div h, hu.2.1.div h, hu.2.2.div h⟩
theorem IsNum3.smul {u : V3 (RF R)} (hu : IsNum3 u) {s : RF R} (h : IsNum s) : IsNum3 (V3.smul s u) :=
  ⟨h.mul hu.1, h.mul hu.2.1, h.mul hu.2.2⟩
theorem IsNum3.sub {u v : V3 (RF R)} (hu : IsNum3 u) (hv : IsNum3 v) : IsNum3 (u.sub v) :=
  ⟨hu.1.sub hv.1, hu.2.1.sub hv.2.1, hu.2.2.sub hv.2.2⟩
theorem IsNum3.norm {u : V3 (RF R)} (hu : IsNum3 u) : ∃ x, u.norm = RF.num R x ∧ 0 ≤ x := by
  obtain ⟨x, y, z⟩ := u
  obtain ⟨⟨x, rfl⟩, ⟨y, rfl⟩, ⟨z, rfl⟩⟩ := hu
  exact ⟨_, norm_num3 x y z, flNorm_nonneg x y z⟩

theorem arccos_num {x : ℝ} (h1 : -1 ≤ x) (h2 : x ≤ 1) : Np.arccos (RF.num R x) = RF.num R (Real.arccos x * Real.exp (R.lib .arccos x)) := by
  show (⟨R.libRound .arccos (fin x) (Np.arccos (fin x))⟩ : RF R) = _
  rw [arccos_fin h1 h2]; rfl

theorem zero_div_num : (RF.num R 0 / RF.num R 0 : RF R) = ⟨nan⟩ := by
  show (⟨R.round (FX.div (fin 0) (fin 0))⟩ : RF R) = _
  simp [FX.div, Rounding.round, infSign]

theorem div_zero_num {x : ℝ} : ¬ IsNum (RF.num R x / RF.num R 0 : RF R) := by
  rintro ⟨y, h⟩
  have h2 : (R.round (FX.div (fin x) (fin 0)) : FX) = fin y := congrArg RF.val h
  revert h2
  simp only [FX.div, Rounding.round, infSign]
  split_ifs <;> simp_all

theorem twoPi_num : (twoPi : RF R) = RF.num R (flTwoPi R) := by
  unfold twoPi
  rw [two_num, pi_num, mul_num]; rfl

theorem half_num : (half : RF R) = RF.num R (1 / 2) := by
  unfold half
  rw [lit_num 2 (by norm_num) (by norm_num)]; norm_num

theorem neg_one_num : (-1 : RF R) = RF.num R (-1) := by rw [one_num, neg_num]

/-- the clipping to [-1, 1] (kepler.py 475-476, 514-515) -/
theorem clip_num {a : RF R} (h : IsNum a) :
    ∃ x, (if ((if (1 <ᵇ a) = true then 1 else a) <ᵇ -1) = true then -1 else if (1 <ᵇ a) = true then 1 else a) = RF.num R x ∧ -1 ≤ x ∧ x ≤ 1 := by
  obtain ⟨x, rfl⟩ := h
  rw [neg_one_num, one_num, lt_num]
  by_cases h1 : 1 < x
  · refine ⟨1, ?_, by norm_num, le_rfl⟩
    simp only [h1, decide_true, if_true, lt_num]
    norm_num
  · simp only [h1, decide_false, Bool.false_eq_true, if_false, lt_num]
    by_cases h2 : x < -1
    · exact ⟨-1, by simp [h2], le_rfl, by norm_num⟩
    · exact ⟨x, by simp [h2], not_lt.mp h2, not_lt.mp h1⟩

section
variable (hR : Nearest R)
include hR

theorem exp_u_le : Real.exp R.u ≤ 1 + (1 / 2) ^ 49 := by
  have h0 := R.u_nonneg
  have h1 := hR.small
  have h2 := exp_sub_one_le h0 (by norm_num at h1; linarith)
  norm_num at h1 ⊢
  linarith

theorem lib_le_exp (f : LibFn) (x : ℝ) : Real.exp (R.lib f x) ≤ 1 + (1 / 2) ^ 49 :=
  (Real.exp_le_exp.mpr ((le_abs_self _).trans (R.lib_le f x))).trans (exp_u_le hR)

theorem lib_ge_exp (f : LibFn) (x : ℝ) : 1 - (1 / 2) ^ 50 ≤ Real.exp (R.lib f x) := by
  have h1 := Real.add_one_le_exp (R.lib f x)
  have h2 := (abs_le.mp (R.lib_le f x)).1
  have h3 := hR.small
  linarith

theorem rd_le {x : ℝ} (h : 0 ≤ x) : R.rd x ≤ x * (1 + (1 / 2) ^ 53) := by
  have := (abs_le.mp (hR.error x)).2
  rw [abs_of_nonneg h] at this
  linarith
theorem rd_ge {x : ℝ} (h : 0 ≤ x) : x * (1 - (1 / 2) ^ 53) ≤ R.rd x := by
  have := (abs_le.mp (hR.error x)).1
  rw [abs_of_nonneg h] at this
  linarith

theorem flTwoPi_ge : 6 ≤ flTwoPi R := by
  have hp := Real.pi_gt_d2
  have h1 := rd_ge hR Real.pi_pos.le
  have h2 := rd_ge hR (mul_nonneg two_pos.le (rd_nonneg (R := R) Real.pi_pos.le))
  unfold flTwoPi
  norm_num at h1 h2
  linarith

theorem isAngle_zero : IsAngle (0 : RF R) := ⟨0, zero_num, le_rfl, by linarith [flTwoPi_ge hR]⟩

theorem isAngle_arccos {x : ℝ} (h1 : -1 ≤ x) (h2 : x ≤ 1) : IsAngle (Np.arccos (RF.num R x)) := by
  refine ⟨_, arccos_num h1 h2, mul_nonneg (Real.arccos_nonneg x) (Real.exp_pos _).le, ?_⟩
  have ha := Real.arccos_le_pi x
  have ha0 := Real.arccos_nonneg x
  have he := lib_le_exp hR .arccos x
  have hp := Real.pi_lt_d2
  have := flTwoPi_ge hR
  have h3 : Real.arccos x * Real.exp (R.lib .arccos x) ≤ Real.arccos x * (1 + (1 / 2) ^ 49) := mul_le_mul_of_nonneg_left he ha0
  norm_num at h3
  linarith

theorem IsAngle.flip {a : RF R} (h : IsAngle a) : IsAngle (twoPi - a) := by
  obtain ⟨x, rfl, h0, h1⟩ := h
  rw [twoPi_num, sub_num]
  refine ⟨_, rfl, rd_nonneg (by linarith), ?_⟩
  have h2 : R.rd (flTwoPi R - x) ≤ R.rd (flTwoPi R) := hR.mono (by linarith)
  rwa [show R.rd (flTwoPi R) = flTwoPi R from hR.idem _] at h2

theorem IsAngle.ite {a : RF R} (h : IsAngle a) (b : Bool) : IsAngle (if b = true then twoPi - a else a) := by
  split_ifs
  · exact h.flip hR
  · exact h

/-- when the computed angular momentum has no horizontal part, the inclination is outside the limits (kepler.py 422) -/
theorem planar_il {z : ℝ} (hz : Digits53 z) (hz0 : z ≠ 0) :
    ((i_lim <ᵇ (Np.arccos (RF.num R z / RF.num R (flNorm R 0 0 z)) : RF R)) && ((Np.arccos (RF.num R z / RF.num R (flNorm R 0 0 z)) : RF R) <ᵇ Np.pi - i_lim)) = false := by
  have hp := Real.pi_gt_d2
  have hl : R.rd ((1 / 1000000000 : ℚ) : ℝ) ≤ 2 / 1000000000 ∧ 1 / 2000000000 ≤ R.rd ((1 / 1000000000 : ℚ) : ℝ) := by
    have h1 := rd_le hR (x := ((1 / 1000000000 : ℚ) : ℝ)) (by norm_num)
    have h2 := rd_ge hR (x := ((1 / 1000000000 : ℚ) : ℝ)) (by norm_num)
    norm_num at h1 h2 ⊢
    exact ⟨by linarith, by linarith⟩
  have hpi1 := rd_le hR Real.pi_pos.le
  have hpi2 := rd_ge hR Real.pi_pos.le
  have hil : (i_lim : RF R) = RF.num R (R.rd (R.rd Real.pi * R.rd ((1 / 1000000000 : ℚ) : ℝ))) := rfl
  have hilp : 0 < R.rd (R.rd Real.pi * R.rd ((1 / 1000000000 : ℚ) : ℝ)) := rd_pos (mul_pos (rd_pos Real.pi_pos) (by linarith [hl.2]))
  have hilq : 1 / 10000000000 ≤ R.rd (R.rd Real.pi * R.rd ((1 / 1000000000 : ℚ) : ℝ)) := by
    have h1 : 2 * (1 / 2000000000) ≤ R.rd Real.pi * R.rd ((1 / 1000000000 : ℚ) : ℝ) :=
      mul_le_mul (by norm_num at hpi2; linarith) hl.2 (by norm_num) (rd_nonneg Real.pi_pos.le)
    have h2 := rd_ge hR (x := R.rd Real.pi * R.rd ((1 / 1000000000 : ℚ) : ℝ)) (by linarith)
    norm_num at h1 h2
    linarith
  rw [flNorm_planar hR hz, div_num _ (abs_ne_zero.mpr hz0), hil, pi_num, sub_num]
  rcases lt_or_gt_of_ne hz0 with h | h
  · rw [abs_of_neg h, div_neg, div_self hz0, hR.id Digits53.one.neg, arccos_num le_rfl (by norm_num), lt_num, lt_num, Real.arccos_neg_one]
    have h1 := lib_ge_exp hR .arccos (-1)
    have hq := Real.pi_lt_d2
    have h2 : Real.pi * (1 - (1 / 2) ^ 50) ≤ Real.pi * Real.exp (R.lib .arccos (-1)) := mul_le_mul_of_nonneg_left h1 Real.pi_pos.le
    have h3 : R.rd (R.rd Real.pi - R.rd (R.rd Real.pi * R.rd ((1 / 1000000000 : ℚ) : ℝ))) ≤ R.rd (Real.pi * (1 + (1 / 2) ^ 53) - 1 / 10000000000) :=
      hR.mono (by linarith)
    have h4 := rd_le hR (x := Real.pi * (1 + (1 / 2) ^ 53) - 1 / 10000000000) (by norm_num; linarith)
    rw [Bool.and_eq_false_iff]
    right
    rw [decide_eq_false_iff_not, not_lt]
    norm_num at h2 h3 h4 ⊢
    linarith
  · rw [abs_of_pos h, div_self hz0, hR.id Digits53.one, arccos_num (by norm_num) le_rfl, lt_num, Real.arccos_one, zero_mul]
    rw [Bool.and_eq_false_iff]
    left
    rw [decide_eq_false_iff_not, not_lt]
    exact hilp.le

end

/-! ## The column -/

/-- what is returned for a position that is not zero: everything is a number except `a` at zero energy and `i` at zero angular momentum -/
structure Col87 (R : Rounding) (mu : ℝ) (c : Cart ℝ) (k : Kep (RF R)) : Prop where
  e : ∃ x, k.e = RF.num R x ∧ 0 ≤ x
  om : IsAngle k.om
  OM : IsAngle k.OM
  nu : IsAngle k.nu
  i : flAngMom R c ≠ 0 → ∃ x, k.i = RF.num R x ∧ 0 ≤ x ∧ x ≤ Real.pi * Real.exp R.u
  i_nan : flAngMom R c = 0 → k.i = ⟨FX.nan⟩
  a : IsNum k.a ↔ flEnergy R mu c ≠ 0

theorem col87 (hR : Nearest R) (g : CtkGarbage (RF R)) {mu : ℝ} (hmu : mu ≠ 0) {c : Cart ℝ} (hr : c.x ≠ 0 ∨ c.y ≠ 0 ∨ c.z ≠ 0) :
    Col87 R mu c (cartToKepCol g .f64 (RF.num R mu) (c.num R)) := by
  unfold cartToKepCol
  extract_lets ez r v rn vn vr epsilon ev o1 e_hyp o0 o0' h hn o2 eg ig el il eg_ig eg_il el_ig el_il n1 nn1 n nn ny_neg o41 o42 o43 o4 o31 o32
    co1 co2 co3 co4 co5 o33 ez_neg o34 ey1 ey2 o35 ey3 ey4 o36 cn1 cn2 cn3 cn4 cn5 cn6 o51 t1 o52 t2 o53 t3 t4 o54 t5 t6 o55
  have hr3 : IsNum3 r := ⟨isNum_num _, isNum_num _, isNum_num _⟩
  have hv3 : IsNum3 v := ⟨isNum_num _, isNum_num _, isNum_num _⟩
  have hrn : rn = RF.num R (flNorm R c.x c.y c.z) := norm_num3 _ _ _
  have hvn : vn = RF.num R (flNorm R c.vx c.vy c.vz) := norm_num3 _ _ _
  have hrp : flNorm R c.x c.y c.z ≠ 0 := (flNorm_pos hr).ne'
  clear_value rn vn
  subst hrn hvn
  have hvr : IsNum vr := (hr3.sdiv hrp).dot hv3
  have heps : epsilon = RF.num R (flEnergy R mu c) := by
    show sq _ * half - _ = _
    rw [half_num, div_num _ hrp]
    rfl
  have hev : IsNum3 ev := by
    refine ((hr3.smul (((isNum_num _).mul (isNum_num _)).sub ((isNum_num _).div hrp))).sub (hv3.smul ((isNum_num _).mul hvr))).smul ?_
    rw [one_num]
    exact (isNum_num _).div hmu
  obtain ⟨e, he, he0⟩ : ∃ x, o1 = RF.num R x ∧ 0 ≤ x := hev.norm
  have hh : h = ⟨RF.num R (flAngMom R c 0), RF.num R (flAngMom R c 1), RF.num R (flAngMom R c 2)⟩ := rfl
  clear_value h
  subst hh
  have d0 : Digits53 (flAngMom R c 0) := hR.digits _
  have d1 : Digits53 (flAngMom R c 1) := hR.digits _
  have d2 : Digits53 (flAngMom R c 2) := hR.digits _
  have hhn : hn = RF.num R (flNorm R (flAngMom R c 0) (flAngMom R c 1) (flAngMom R c 2)) := norm_num3 _ _ _
  clear_value hn
  subst hhn
  have hzero : flAngMom R c = 0 ↔ flAngMom R c 0 = 0 ∧ flAngMom R c 1 = 0 ∧ flAngMom R c 2 = 0 := by
    constructor
    · intro h; rw [h]; simp
    · rintro ⟨a, b, c⟩
      funext j
      fin_cases j <;> assumption
  -- the inclination
  have hi : flAngMom R c ≠ 0 → ∃ x, o2 = RF.num R x ∧ 0 ≤ x ∧ x ≤ Real.pi * Real.exp R.u := by
    intro hne
    have hpos : 0 < flNorm R (flAngMom R c 0) (flAngMom R c 1) (flAngMom R c 2) := flNorm_pos (by
      by_contra hc
      push Not at hc
      exact hne (hzero.mpr hc))
    obtain ⟨q1, q2⟩ := quot_range hR hpos (flNorm_ge_z hR (x := flAngMom R c 0) (y := flAngMom R c 1) d2)
    refine ⟨Real.arccos (R.rd (flAngMom R c 2 / flNorm R (flAngMom R c 0) (flAngMom R c 1) (flAngMom R c 2))) *
      Real.exp (R.lib .arccos (R.rd (flAngMom R c 2 / flNorm R (flAngMom R c 0) (flAngMom R c 1) (flAngMom R c 2)))), ?_, ?_, ?_⟩
    · show Np.arccos (RF.num R _ / RF.num R _) = _
      rw [div_num _ hpos.ne', arccos_num q1 q2]
    · exact mul_nonneg (Real.arccos_nonneg _) (Real.exp_pos _).le
    · exact mul_le_mul (Real.arccos_le_pi _) (Real.exp_le_exp.mpr ((le_abs_self _).trans (R.lib_le _ _))) (Real.exp_pos _).le Real.pi_pos.le
  have hinan : flAngMom R c = 0 → o2 = ⟨FX.nan⟩ := by
    intro h0
    obtain ⟨a0, a1, a2⟩ := hzero.mp h0
    show Np.arccos (RF.num R _ / RF.num R _) = _
    rw [a0, a1, a2, flNorm_zero, zero_div_num]
    rfl
  -- inside the limits the node is defined
  have hig : ig = true → flAngMom R c 1 ≠ 0 ∨ flAngMom R c 0 ≠ 0 := by
    intro h1
    by_contra hc
    push Not at hc
    by_cases h2 : flAngMom R c 2 = 0
    · have h3 := hinan (hzero.mpr ⟨hc.2, hc.1, h2⟩)
      have h4 : (i_lim <ᵇ o2 && o2 <ᵇ Np.pi - i_lim) = true := h1
      rw [h3, Bool.and_eq_true] at h4
      have h5 : (FX.nan <ᵇ (Np.pi - i_lim : RF R).val) = true := h4.2
      simp at h5
    · have h3 := planar_il hR d2 h2
      have h4 : (i_lim <ᵇ (Np.arccos (RF.num R (flAngMom R c 2) / RF.num R (flNorm R (flAngMom R c 0) (flAngMom R c 1) (flAngMom R c 2)))) &&
        (Np.arccos (RF.num R (flAngMom R c 2) / RF.num R (flNorm R (flAngMom R c 0) (flAngMom R c 1) (flAngMom R c 2)))) <ᵇ Np.pi - i_lim) = true := h1
      rw [hc.1, hc.2, h3] at h4
      exact Bool.false_ne_true h4
  have hn3 : ig = true → n = ⟨RF.num R (-flAngMom R c 1), RF.num R (flAngMom R c 0), RF.num R 0⟩ := by
    intro h1
    show (if ig = true then V3.store DType.f64 (ez.cross ⟨RF.num R (flAngMom R c 0), RF.num R (flAngMom R c 1), RF.num R (flAngMom R c 2)⟩) else n1) = _
    rw [if_pos h1]
    show (⟨(0 : RF R) * _ - 1 * _, 1 * _ - 0 * _, 0 * _ - 0 * _⟩ : V3 (RF R)) = _
    simp only [zero_num, one_num, mul_num, sub_num, zero_mul, one_mul, rd_zero, zero_sub, sub_zero]
    rw [hR.id d0, hR.id d1, hR.id d0, hR.id d1.neg]
  have hnn : ig = true → nn = RF.num R (flNorm R (-flAngMom R c 1) (flAngMom R c 0) 0) := by
    intro h1
    show (if ig = true then n.norm else nn1) = _
    rw [if_pos h1, hn3 h1]
    exact norm_num3 _ _ _
  have hnnp : ig = true → 0 < flNorm R (-flAngMom R c 1) (flAngMom R c 0) 0 := fun h1 =>
    flNorm_pos ((hig h1).imp neg_ne_zero.mpr fun h => Or.inl h)
  have hnum3 : ig = true → IsNum3 n := fun h1 => by
    rw [hn3 h1]; exact ⟨isNum_num _, isNum_num _, isNum_num _⟩
  have hilig : il = !ig := rfl
  have helg : el = !eg := rfl
  have heg : eg = true → e ≠ 0 := by
    intro h1
    have h2 : (e_lim <ᵇ o1) = true := h1
    have h3 : (e_lim : RF R) = RF.num R (R.rd ((1 / 1000000000 : ℚ) : ℝ)) := rfl
    rw [he, h3, lt_num, decide_eq_true_eq] at h2
    have : 0 < R.rd ((1 / 1000000000 : ℚ) : ℝ) := rd_pos (by norm_num)
    exact (this.trans h2).ne'
  -- the node
  have h4 : IsAngle o4 := by
    show IsAngle (if il = true then 0 else o43)
    cases hb : ig
    · rw [hilig, hb]; exact isAngle_zero hR
    · rw [hilig, hb]
      show IsAngle (if ny_neg = true then twoPi - o42 else o42)
      refine IsAngle.ite hR ?_ _
      show IsAngle (if ig = true then Np.arccos (n.x / nn) else o41)
      rw [if_pos hb, hn3 hb, hnn hb]
      show IsAngle (Np.arccos (RF.num R (-flAngMom R c 1) / RF.num R (flNorm R (-flAngMom R c 1) (flAngMom R c 0) 0)))
      rw [div_num _ (hnnp hb).ne']
      obtain ⟨q1, q2⟩ := quot_range hR (hnnp hb) (flNorm_ge_x hR (y := flAngMom R c 0) (z := 0) d1.neg)
      exact isAngle_arccos hR q1 q2
  -- the argument of periapsis
  have h3 : IsAngle o36 := by
    refine IsAngle.ite hR (IsAngle.ite hR (IsAngle.ite hR ?_ _) _) _
    show IsAngle (if eg = true then Np.arccos co5 else if el = true then 0 else o31)
    cases hb : eg
    · rw [helg, hb]; exact isAngle_zero hR
    · have hco : IsNum co3 := by
        show IsNum (if (eg && il) = true then ev.x / o1 else if (eg && ig) = true then n.dot ev / (nn * o1) else co1)
        rw [hilig, hb, he]
        cases hc : ig
        · exact hev.1.div (heg hb)
        · show IsNum (n.dot ev / (nn * RF.num R e))
          rw [hnn hc, mul_num]
          exact ((hnum3 hc).dot hev).div (rd_ne (mul_ne_zero (hnnp hc).ne' (heg hb)))
      obtain ⟨x, hx, x1, x2⟩ := clip_num hco
      rw [if_pos rfl]
      show IsAngle (Np.arccos (if ((if (1 <ᵇ co3) = true then 1 else co3) <ᵇ -1) = true then -1 else if (1 <ᵇ co3) = true then 1 else co3))
      rw [hx]
      exact isAngle_arccos hR x1 x2
  -- the true anomaly
  have h5 : IsAngle o55 := by
    refine IsAngle.ite hR (IsAngle.ite hR (IsAngle.ite hR (IsAngle.ite hR ?_ _) _) _) _
    have hcn : IsNum cn4 := by
      show IsNum (if (el && il) = true then r.x / RF.num R (flNorm R c.x c.y c.z) else if (el && ig) = true then (n.sdiv nn).dot (r.sdiv (RF.num R (flNorm R c.x c.y c.z))) else
        if eg = true then ev.dot r / (o1 * RF.num R (flNorm R c.x c.y c.z)) else cn1)
      rw [hilig, helg]
      cases hb : eg
      · cases hc : ig
        · exact hr3.1.div hrp
        · show IsNum ((n.sdiv nn).dot (r.sdiv (RF.num R (flNorm R c.x c.y c.z))))
          rw [hnn hc]
          exact ((hnum3 hc).sdiv (hnnp hc).ne').dot (hr3.sdiv hrp)
      · show IsNum (ev.dot r / (o1 * RF.num R (flNorm R c.x c.y c.z)))
        rw [he, mul_num]
        exact (hev.dot hr3).div (rd_ne (mul_ne_zero (heg hb) hrp))
    obtain ⟨x, hx, x1, x2⟩ := clip_num hcn
    show IsAngle (Np.arccos (if ((if (1 <ᵇ cn4) = true then 1 else cn4) <ᵇ -1) = true then -1 else if (1 <ᵇ cn4) = true then 1 else cn4))
    rw [hx]
    exact isAngle_arccos hR x1 x2
  -- the semi-major axis
  have h0 : IsNum o0' ↔ flEnergy R mu c ≠ 0 := by
    have ha : IsNum o0 ↔ flEnergy R mu c ≠ 0 := by
      show IsNum (-RF.num R mu / (2 * epsilon)) ↔ _
      rw [heps, two_num, mul_num, neg_num]
      constructor
      · intro h hc
        rw [hc, mul_zero, rd_zero] at h
        exact div_zero_num h
      · intro h
        exact (isNum_num _).div (rd_ne (mul_ne_zero two_ne_zero h))
    show IsNum (if e_hyp = true then -o0 else o0) ↔ _
    split_ifs
    · rw [← ha]
      refine ⟨fun h => ?_, fun h => h.neg⟩
      obtain ⟨x, hx⟩ := h
      refine ⟨-x, ?_⟩
      have : FX.neg o0.val = fin x := congrArg RF.val hx
      rcases o0 with ⟨_ | _ | _ | _⟩ <;> simp_all [FX.neg, RF.num]
      rw [← this, neg_neg]
    · exact ha
  exact ⟨⟨e, he, he0⟩, h3, h4, h5, hi, hinan, h0⟩

/-! ## Errors of the intermediate results -/

/-- a sum of two numbers of the same sign loses nothing -/
theorem RF.Rel.add {k : ℝ} {a b : RF R} {x y : ℝ} (h1 : Rel k a x) (h2 : Rel k b y) (hx : 0 ≤ x) (hy : 0 ≤ y) : Rel (k + 1) (a + b) (x + y) := by
  obtain ⟨s, s1, rfl⟩ := h1
  obtain ⟨t, t1, rfl⟩ := h2
  rw [add_num]
  have hk : 0 ≤ k * R.u := (abs_nonneg _).trans s1
  rcases eq_or_lt_of_le (add_nonneg hx hy) with h0 | h0
  · have hx0 : x = 0 := by linarith
    have hy0 : y = 0 := by linarith
    refine rel_rd (t := 0) (by rw [abs_zero]; exact hk) ?_
    rw [hx0, hy0]; simp
  · obtain ⟨sl, su⟩ := abs_le.mp s1
    obtain ⟨tl, tu⟩ := abs_le.mp t1
    have el : (x + y) * Real.exp (-(k * R.u)) ≤ x * Real.exp s + y * Real.exp t := by
      have := mul_le_mul_of_nonneg_left (Real.exp_le_exp.mpr sl) hx
      have := mul_le_mul_of_nonneg_left (Real.exp_le_exp.mpr tl) hy
      linarith
    have eu : x * Real.exp s + y * Real.exp t ≤ (x + y) * Real.exp (k * R.u) := by
      have := mul_le_mul_of_nonneg_left (Real.exp_le_exp.mpr su) hx
      have := mul_le_mul_of_nonneg_left (Real.exp_le_exp.mpr tu) hy
      linarith
    have hp : 0 < (x * Real.exp s + y * Real.exp t) / (x + y) :=
      div_pos (lt_of_lt_of_le (mul_pos h0 (Real.exp_pos _)) el) h0
    refine rel_rd (t := Real.log ((x * Real.exp s + y * Real.exp t) / (x + y))) ?_ ?_
    · rw [abs_le]
      constructor
      · rw [Real.le_log_iff_exp_le hp, le_div_iff₀ h0]; linarith
      · rw [Real.log_le_iff_le_exp hp, div_le_iff₀ h0]; linarith
    · rw [Real.exp_log hp]; field_simp

theorem vlen_vec (x y z : ℝ) : vlen ![x, y, z] = Real.sqrt (x * x + y * y + z * z) := by
  unfold vlen; simp [dotProduct, Fin.sum_univ_three]

/-- the computed length of a vector -/
theorem flNorm_rel (x y z : ℝ) : Rel (5 / 2) (RF.num R (flNorm R x y z)) (vlen ![x, y, z]) := by
  rw [← norm_num3, vlen_vec]
  have hx := (Rel.num (R := R) x).mul (Rel.num x)
  have hy := (Rel.num (R := R) y).mul (Rel.num y)
  have hz := (Rel.num (R := R) z).mul (Rel.num z)
  have h1 := hx.add hy (mul_self_nonneg x) (mul_self_nonneg y)
  have h2 := h1.add (hz.mono (by norm_num)) (add_nonneg (mul_self_nonneg x) (mul_self_nonneg y)) (mul_self_nonneg z)
  exact (h2.sqrt (add_nonneg (add_nonneg (mul_self_nonneg x) (mul_self_nonneg y)) (mul_self_nonneg z))).mono (by norm_num)

theorem abs_le_vlen (x y z : ℝ) : |x| ≤ vlen ![x, y, z] ∧ |y| ≤ vlen ![x, y, z] ∧ |z| ≤ vlen ![x, y, z] := by
  rw [vlen_vec]
  refine ⟨?_, ?_, ?_⟩ <;> refine Real.abs_le_sqrt ?_ <;> nlinarith [mul_self_nonneg x, mul_self_nonneg y, mul_self_nonneg z]

/-- Cauchy-Schwarz for two components -/
theorem cauchy_two (a b p q A B : ℝ) (hA : 0 ≤ A) (hB : 0 ≤ B) (h1 : a * a + b * b ≤ A * A) (h2 : p * p + q * q ≤ B * B) : |a * q| + |b * p| ≤ A * B := by
  rw [abs_mul, abs_mul]
  have e1 := abs_mul_abs_self a
  have e2 := abs_mul_abs_self b
  have e3 := abs_mul_abs_self p
  have e4 := abs_mul_abs_self q
  have h3 : (|a| * |q| + |b| * |p|) * (|a| * |q| + |b| * |p|) ≤ (A * B) * (A * B) := by
    have : (|a| * |a| + |b| * |b|) * (|q| * |q| + |p| * |p|) ≤ (A * A) * (B * B) :=
      mul_le_mul (by linarith) (by linarith) (by positivity) (mul_self_nonneg A)
    nlinarith [mul_self_nonneg (|a| * |p| - |b| * |q|)]
  exact abs_le_of_sq_le_sq' (by nlinarith) (mul_nonneg hA hB) |>.2

theorem vlen_nonneg (u : Fin 3 → ℝ) : 0 ≤ vlen u := Real.sqrt_nonneg _
theorem vlen_vec_sq (x y z : ℝ) : vlen ![x, y, z] * vlen ![x, y, z] = x * x + y * y + z * z := by
  rw [vlen_vec, Real.mul_self_sqrt (add_nonneg (add_nonneg (mul_self_nonneg x) (mul_self_nonneg y)) (mul_self_nonneg z))]

theorem near_prod_sub {a b p q B : ℝ} (h : |a * q| + |b * p| ≤ B) :
    Near 2 B (RF.num R (R.rd (R.rd (a * q) - R.rd (b * p)))) (a * q - b * p) := by
  have h1 := ((Rel.num (R := R) a).mul (Rel.num q)).near (B := |a * q|) le_rfl
  have h2 := ((Rel.num (R := R) b).mul (Rel.num p)).near (B := |b * p|) le_rfl
  exact (h1.sub h2).mono (by norm_num) (by norm_num) h

/-- the computed angular momentum -/
theorem flAngMom_near (c : Cart ℝ) (j : Fin 3) : Near 2 (vlen c.r * vlen c.v) (RF.num R (flAngMom R c j)) (angMom c j) := by
  have hr : vlen c.r * vlen c.r = c.x * c.x + c.y * c.y + c.z * c.z := vlen_vec_sq _ _ _
  have hv : vlen c.v * vlen c.v = c.vx * c.vx + c.vy * c.vy + c.vz * c.vz := vlen_vec_sq _ _ _
  have x2 := mul_self_nonneg c.x
  have y2 := mul_self_nonneg c.y
  have z2 := mul_self_nonneg c.z
  have vx2 := mul_self_nonneg c.vx
  have vy2 := mul_self_nonneg c.vy
  have vz2 := mul_self_nonneg c.vz
  rw [angMom_eq]
  fin_cases j
  · exact near_prod_sub (cauchy_two _ _ _ _ _ _ (vlen_nonneg _) (vlen_nonneg _) (by linarith) (by linarith))
  · exact near_prod_sub (cauchy_two _ _ _ _ _ _ (vlen_nonneg _) (vlen_nonneg _) (by linarith) (by linarith))
  · exact near_prod_sub (cauchy_two _ _ _ _ _ _ (vlen_nonneg _) (vlen_nonneg _) (by linarith) (by linarith))

theorem pos_cases {c : Cart ℝ} (hr : c.r ≠ 0) : c.x ≠ 0 ∨ c.y ≠ 0 ∨ c.z ≠ 0 := by
  by_contra hc
  push Not at hc
  apply hr
  funext j
  fin_cases j
  · exact hc.1
  · exact hc.2.1
  · exact hc.2.2

theorem vlen_r_pos {c : Cart ℝ} (hr : c.r ≠ 0) : 0 < vlen c.r := by
  show 0 < vlen ![c.x, c.y, c.z]
  rw [vlen_vec, Real.sqrt_pos]
  have x2 := mul_self_nonneg c.x
  have y2 := mul_self_nonneg c.y
  have z2 := mul_self_nonneg c.z
  rcases pos_cases hr with h | h | h <;> linarith [mul_self_pos.mpr h]

/-- the computed energy -/
theorem flEnergy_near {mu : ℝ} {c : Cart ℝ} (hr : c.r ≠ 0) :
    Near 8 (vlen c.v ^ 2 / 2 + |mu| / vlen c.r) (RF.num R (flEnergy R mu c)) (energy mu c) := by
  have hrp := vlen_r_pos hr
  have h1 : Rel (5 / 2) (RF.num R (flNorm R c.vx c.vy c.vz)) (vlen c.v) := flNorm_rel _ _ _
  have h2 : Rel (5 / 2) (RF.num R (flNorm R c.x c.y c.z)) (vlen c.r) := flNorm_rel _ _ _
  have h3 := ((h1.mul h1).mul (Rel.num (1 / 2)))
  have h4 := (Rel.num (R := R) mu).div h2 hrp.ne'
  have h5 := (h3.near (B := vlen c.v ^ 2 / 2) (by rw [abs_of_nonneg (mul_nonneg (mul_self_nonneg _) (by norm_num))]; apply le_of_eq; ring)).mono (k := 7) (by norm_num) (by norm_num) le_rfl
  have h6 := (h4.near (B := |mu| / vlen c.r) (by rw [abs_div, abs_of_pos hrp])).mono (k := 7) (by norm_num) (by norm_num) le_rfl
  have h7 := h5.sub h6
  have hne : flNorm R c.x c.y c.z ≠ 0 := by
    obtain ⟨t, -, ht⟩ := h2
    rw [num_inj ht]
    exact mul_ne_zero hrp.ne' (Real.exp_pos _).ne'
  have e1 : energy mu c = vlen c.v * vlen c.v * (1 / 2) - mu / vlen c.r := by
    rw [energy, ← Real.mul_self_sqrt (show 0 ≤ c.v ⬝ᵥ c.v from Finset.sum_nonneg fun i _ => mul_self_nonneg _)]
    show vlen c.v * vlen c.v / 2 - _ = _
    ring
  rw [e1]
  refine (h7.cast (by norm_num) rfl rfl : Near 8 _ _ _).mono le_rfl (by norm_num) le_rfl |> fun h => ?_
  rw [div_num _ hne] at h
  exact h

/-! ## C87 -/

/-- C87: in every arithmetic that rounds to nearest with 53 digits (any rule for ties, elementary functions accurate to 2^-50), for every state with
position not zero: eccentricity, argument of periapsis, node and true anomaly are numbers, the angles between 0 and `2.0*np.pi`; the inclination
is a number between 0 and pi exactly when the computed angular momentum is not zero, and `a` exactly when the computed energy is not zero. -/
theorem c87 (hR : Nearest R) (g : Nat → CtkGarbage (RF R)) {mu : ℝ} (hmu : mu ≠ 0) {c : Cart ℝ} (hr : c.r ≠ 0) :
    ∃ k : Kep (RF R), (cart_to_kep g (.sc (RF.num R mu)) false (.vec .f64 (c.num R))).1 = .ok (.vec .f64 k) ∧ Col87 R mu c k := by
  exact ⟨_, rfl, col87 hR (g 0) hmu (pos_cases hr)⟩

/-- the computed angular momentum is not zero when the angle between position and velocity is not too small -/
theorem flAngMom_ne {c : Cart ℝ} (hu : 8 * R.u ≤ 1) (hh : 6 * R.u * (vlen c.r * vlen c.v) < vlen (angMom c)) : flAngMom R c ≠ 0 := by
  intro h0
  have h1 : vlen (angMom c) ≤ 2 * (4 / 3 * 2 * R.u * (vlen c.r * vlen c.v)) := by
    refine vlen_le fun j => ?_
    obtain ⟨y, hy, h⟩ := (flAngMom_near (R := R) c j).abs_le (by norm_num) (by linarith)
    have hy0 : y = 0 := by rw [← num_inj hy, h0]; rfl
    rw [hy0, zero_sub, abs_neg] at h
    exact h
  have := mul_nonneg R.u_nonneg (mul_nonneg (vlen_nonneg c.r) (vlen_nonneg c.v))
  linarith

theorem flEnergy_ne {mu : ℝ} {c : Cart ℝ} (hr : c.r ≠ 0) (hu : 32 * R.u ≤ 1) (hE : 11 * R.u * (vlen c.v ^ 2 / 2 + |mu| / vlen c.r) < |energy mu c|) :
    flEnergy R mu c ≠ 0 := by
  intro h0
  obtain ⟨y, hy, h⟩ := (flEnergy_near (R := R) (mu := mu) hr).abs_le (by norm_num) (by linarith)
  have hy0 : y = 0 := by rw [← num_inj hy, h0]
  rw [hy0, zero_sub, abs_neg] at h
  have : 0 ≤ R.u * (vlen c.v ^ 2 / 2 + |mu| / vlen c.r) :=
    mul_nonneg R.u_nonneg (add_nonneg (by positivity) (div_nonneg (abs_nonneg _) (vlen_nonneg _)))
  linarith

/-- C87 in terms of the state: six numbers, unless position and velocity are parallel or the orbit parabolic up to a few units of roundoff -/
theorem c87_numbers (hR : Nearest R) (g : Nat → CtkGarbage (RF R)) {mu : ℝ} (hmu : mu ≠ 0) {c : Cart ℝ} (hr : c.r ≠ 0)
    (hh : 6 * R.u * (vlen c.r * vlen c.v) < vlen (angMom c)) (hE : 11 * R.u * (vlen c.v ^ 2 / 2 + |mu| / vlen c.r) < |energy mu c|) :
    ∃ k : Kep ℝ, (cart_to_kep g (.sc (RF.num R mu)) false (.vec .f64 (c.num R))).1 = .ok (.vec .f64 (k.num R)) ∧
      0 ≤ k.e ∧ (0 ≤ k.i ∧ k.i ≤ Real.pi * Real.exp R.u) ∧ (0 ≤ k.om ∧ k.om ≤ flTwoPi R) ∧ (0 ≤ k.OM ∧ k.OM ≤ flTwoPi R) ∧ (0 ≤ k.nu ∧ k.nu ≤ flTwoPi R) := by
  obtain ⟨k, hk, h⟩ := c87 hR g hmu hr
  have hs := hR.small
  have hs' : 32 * R.u ≤ 1 := by norm_num at hs; linarith
  obtain ⟨a, ha⟩ := h.a.mpr (flEnergy_ne hr hs' hE)
  obtain ⟨e, he, e0⟩ := h.e
  obtain ⟨i, hi, i0⟩ := h.i (flAngMom_ne (by linarith [R.u_nonneg]) hh)
  obtain ⟨om, hom, om0⟩ := h.om
  obtain ⟨OM, hOM, OM0⟩ := h.OM
  obtain ⟨nu, hnu, nu0⟩ := h.nu
  refine ⟨⟨a, e, i, om, OM, nu⟩, ?_, e0, i0, om0, OM0, nu0⟩
  rw [hk, Kep.num, ← ha, ← he, ← hi, ← hom, ← hOM, ← hnu]

/-- position and velocity exactly parallel: the inclination is NaN in floating point too -/
theorem c87_radial (hR : Nearest R) (g : Nat → CtkGarbage (RF R)) {mu : ℝ} (hmu : mu ≠ 0) {c : Cart ℝ} (hr : c.r ≠ 0) (hh : angMom c = 0) :
    ∃ k : Kep (RF R), (cart_to_kep g (.sc (RF.num R mu)) false (.vec .f64 (c.num R))).1 = .ok (.vec .f64 k) ∧ k.i = ⟨FX.nan⟩ := by
  obtain ⟨k, hk, h⟩ := c87 hR g hmu hr
  refine ⟨k, hk, h.i_nan ?_⟩
  rw [angMom_eq] at hh
  have h0 : c.y * c.vz - c.z * c.vy = 0 := congrFun hh 0
  have h1 : c.z * c.vx - c.x * c.vz = 0 := congrFun hh 1
  have h2 : c.x * c.vy - c.y * c.vx = 0 := congrFun hh 2
  funext j
  fin_cases j
  · show R.rd (R.rd (c.y * c.vz) - R.rd (c.z * c.vy)) = 0
    rw [sub_eq_zero.mp h0, sub_self, rd_zero]
  · show R.rd (R.rd (c.z * c.vx) - R.rd (c.x * c.vz)) = 0
    rw [sub_eq_zero.mp h1, sub_self, rd_zero]
  · show R.rd (R.rd (c.x * c.vy) - R.rd (c.y * c.vx)) = 0
    rw [sub_eq_zero.mp h2, sub_self, rd_zero]

/-- a case of `c87_numbers`: a circular orbit in double precision -/
example : Nearest Binary.binary64 ∧ (⟨1, 0, 0, 0, 1, 0⟩ : Cart ℝ).r ≠ 0 ∧
    6 * Binary.binary64.u * (vlen (⟨1, 0, 0, 0, 1, 0⟩ : Cart ℝ).r * vlen (⟨1, 0, 0, 0, 1, 0⟩ : Cart ℝ).v) < vlen (angMom ⟨1, 0, 0, 0, 1, 0⟩) ∧
    11 * Binary.binary64.u * (vlen (⟨1, 0, 0, 0, 1, 0⟩ : Cart ℝ).v ^ 2 / 2 + |1| / vlen (⟨1, 0, 0, 0, 1, 0⟩ : Cart ℝ).r) < |energy 1 ⟨1, 0, 0, 0, 1, 0⟩| := by
  have hu : Binary.binary64.u = (1 / 2) ^ 53 := rfl
  have h1 : vlen (⟨1, 0, 0, 0, 1, 0⟩ : Cart ℝ).r = 1 := by
    show vlen ![1, 0, 0] = 1
    rw [vlen_vec]; norm_num
  have h2 : vlen (⟨1, 0, 0, 0, 1, 0⟩ : Cart ℝ).v = 1 := by
    show vlen ![0, 1, 0] = 1
    rw [vlen_vec]; norm_num
  refine ⟨Binary.nearest, fun h => ?_, ?_, ?_⟩
  · have := congrFun h 0
    simp [Cart.r] at this
  · rw [angMom_eq, vlen_vec, h1, h2, hu]; norm_num [Cart.hx, Cart.hy, Cart.hz]
  · rw [energy, h1, h2, hu]
    simp [Cart.v, dotProduct, Fin.sum_univ_three]
    norm_num [abs_of_neg]

end Pyorb
