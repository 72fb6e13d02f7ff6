import Mathlib.Tactic.Linarith
import Mathlib.Tactic.Positivity
import Mathlib.Analysis.SpecialFunctions.Exp
import Mathlib.Analysis.SpecialFunctions.Log.Basic
import Verif.FX

/-!
# Arithmetic with rounding

`RF R` is the arithmetic of `FX` in which every operation is followed by a rounding `R`: the computed result is the exact one times a
factor between `exp (-u)` and `exp u`, where `u` is the unit roundoff.  (For rounding to nearest the factor lies between `1/(1+u)` and
`1+u`, which is inside this interval.)  `+ - * /` and square roots are rounded by one function of the exact result; the elementary
functions have a factor that may depend on the function and its argument.  Comparisons, negation and absolute value are exact.
Overflow and underflow are not modelled.

The model of the code is written over any `Np α`, so it can be read over `RF R`.  `Rel` and `Near` relate what is computed to the
exact value.
-/

namespace Pyorb
open FX

/-- the elementary functions -/
inductive LibFn
  | cbrt | log | sin | cos | tan | arccos | arctan | sinh | cosh | tanh | arctanh

/-- a way of rounding -/
structure Rounding where
  /-- unit roundoff -/
  u : ℝ
  u_nonneg : 0 ≤ u
  /-- logarithm of the factor by which a result of a basic operation changes when it is rounded -/
  th : ℝ → ℝ
  th_le : ∀ x, |th x| ≤ u
  /-- quarters of small integers are not changed -/
  exact : ∀ n : ℤ, |n| ≤ 4096 → th (n / 4) = 0
  /-- logarithm of the factor by which the result of an elementary function differs from the exact one -/
  lib : LibFn → ℝ → ℝ
  lib_le : ∀ f x, |lib f x| ≤ u
  /-- the same for `arctan2` and `mod` -/
  lib2 : Bool → ℝ → ℝ → ℝ
  lib2_le : ∀ f x y, |lib2 f x y| ≤ u

namespace Rounding
variable (R : Rounding)

/-- rounding of a number -/
noncomputable def rd (x : ℝ) : ℝ := x * Real.exp (R.th x)

/-- rounding of a result of a basic operation -/
noncomputable def round : FX → FX
  | fin x => fin (R.rd x)
  | x => x

/-- what an elementary function computes at `x`, `y` being the exact result -/
noncomputable def libRound (f : LibFn) (x : FX) (y : FX) : FX :=
  match x, y with
  | fin x, fin y => fin (y * Real.exp (R.lib f x))
  | _, y => y

/-- what `arctan2` (`true`) and `mod` (`false`) compute -/
noncomputable def lib2Round (f : Bool) (x y : FX) (z : FX) : FX :=
  match x, y, z with
  | fin x, fin y, fin z => fin (z * Real.exp (R.lib2 f x y))
  | _, _, z => z

end Rounding

/-- numbers computed with the rounding `R` -/
structure RF (R : Rounding) where
  val : FX

namespace RF
variable {R : Rounding}

noncomputable instance instNp : Np (RF R) where
  lit q := ⟨R.round (Np.lit q)⟩
  nan := ⟨nan⟩
  pi := ⟨R.round Np.pi⟩
  add a b := ⟨R.round (Np.add a.val b.val)⟩
  sub a b := ⟨R.round (Np.sub a.val b.val)⟩
  mul a b := ⟨R.round (Np.mul a.val b.val)⟩
  div a b := ⟨R.round (Np.div a.val b.val)⟩
  neg a := ⟨Np.neg a.val⟩
  mod a b := ⟨R.lib2Round false a.val b.val (Np.mod a.val b.val)⟩
  arctan2 a b := ⟨R.lib2Round true a.val b.val (Np.arctan2 a.val b.val)⟩
  abs a := ⟨Np.abs a.val⟩
  sqrt a := ⟨R.round (Np.sqrt a.val)⟩
  cbrt a := ⟨R.libRound .cbrt a.val (Np.cbrt a.val)⟩
  log a := ⟨R.libRound .log a.val (Np.log a.val)⟩
  sin a := ⟨R.libRound .sin a.val (Np.sin a.val)⟩
  cos a := ⟨R.libRound .cos a.val (Np.cos a.val)⟩
  tan a := ⟨R.libRound .tan a.val (Np.tan a.val)⟩
  arccos a := ⟨R.libRound .arccos a.val (Np.arccos a.val)⟩
  arctan a := ⟨R.libRound .arctan a.val (Np.arctan a.val)⟩
  sinh a := ⟨R.libRound .sinh a.val (Np.sinh a.val)⟩
  cosh a := ⟨R.libRound .cosh a.val (Np.cosh a.val)⟩
  tanh a := ⟨R.libRound .tanh a.val (Np.tanh a.val)⟩
  arctanh a := ⟨R.libRound .arctanh a.val (Np.arctanh a.val)⟩
  trunc a := ⟨Np.trunc a.val⟩
  lt a b := Np.lt a.val b.val
  le a b := Np.le a.val b.val
  eq a b := Np.eq a.val b.val
  isnan a := Np.isnan a.val
  isfinite a := Np.isfinite a.val

/-- a number as an input of the code -/
def num (R : Rounding) (x : ℝ) : RF R := ⟨fin x⟩

theorem num_inj {x y : ℝ} (h : num R x = num R y) : x = y := by
  injection h with h; exact fin_inj h

theorem lit_num {q : ℚ} (n : ℤ) (hn : |n| ≤ 4096) (hq : q = n / 4) : (Np.lit q : RF R) = num R q := by
  show (⟨fin (R.rd q)⟩ : RF R) = ⟨fin q⟩
  have : ((q : ℚ) : ℝ) = n / 4 := by rw [hq]; push_cast; ring
  rw [Rounding.rd, this, R.exact n hn]; simp

theorem ofNat_num (n : ℕ) (hn : n ≤ 1024) : (Np.lit (n : ℚ) : RF R) = num R n := by
  rw [lit_num (4 * n) (by rw [abs_of_nonneg (by positivity)]; omega) (by push_cast; ring)]
  simp

@[simp] theorem one_num : (1 : RF R) = num R 1 := by
  show (Np.lit ((1 : ℕ) : ℚ) : RF R) = _
  rw [ofNat_num 1 (by norm_num)]; norm_num
@[simp] theorem zero_num : (0 : RF R) = num R 0 := by
  show (Np.lit ((0 : ℕ) : ℚ) : RF R) = _
  rw [ofNat_num 0 (by norm_num)]; norm_num
@[simp] theorem two_num : (2 : RF R) = num R 2 := by
  show (Np.lit ((2 : ℕ) : ℚ) : RF R) = _
  rw [ofNat_num 2 (by norm_num)]; norm_num

@[simp] theorem add_num (x y : ℝ) : (num R x + num R y : RF R) = num R (R.rd (x + y)) := rfl
@[simp] theorem sub_num (x y : ℝ) : (num R x - num R y : RF R) = num R (R.rd (x - y)) := rfl
@[simp] theorem mul_num (x y : ℝ) : (num R x * num R y : RF R) = num R (R.rd (x * y)) := rfl
@[simp] theorem neg_num (x : ℝ) : (-(num R x) : RF R) = num R (-x) := rfl
theorem div_num (x : ℝ) {y : ℝ} (h : y ≠ 0) : (num R x / num R y : RF R) = num R (R.rd (x / y)) := by
  show (⟨R.round (fin x / fin y)⟩ : RF R) = _
  rw [FX.div_fin h]; rfl
theorem sqrt_num {x : ℝ} (h : 0 ≤ x) : Np.sqrt (num R x) = num R (R.rd (Real.sqrt x)) := by
  show (⟨R.round (Np.sqrt (fin x))⟩ : RF R) = _
  rw [FX.sqrt_fin h]; rfl
@[simp] theorem abs_num (x : ℝ) : Np.abs (num R x) = num R |x| := rfl
@[simp] theorem sin_num (x : ℝ) : Np.sin (num R x) = num R (Real.sin x * Real.exp (R.lib .sin x)) := rfl
@[simp] theorem cos_num (x : ℝ) : Np.cos (num R x) = num R (Real.cos x * Real.exp (R.lib .cos x)) := rfl
@[simp] theorem sinh_num (x : ℝ) : Np.sinh (num R x) = num R (Real.sinh x * Real.exp (R.lib .sinh x)) := rfl
@[simp] theorem cbrt_num (x : ℝ) : Np.cbrt (num R x) = num R (realCbrt x * Real.exp (R.lib .cbrt x)) := rfl
@[simp] theorem pi_num : (Np.pi : RF R) = num R (R.rd Real.pi) := rfl
@[simp] theorem lt_num (x y : ℝ) : (num R x <ᵇ num R y) = decide (x < y) := FX.lt_fin x y
@[simp] theorem le_num (x y : ℝ) : (num R x ≤ᵇ num R y) = decide (x ≤ y) := FX.le_fin x y
@[simp] theorem eq_num (x y : ℝ) : (num R x =ᵇ num R y) = decide (x = y) := FX.eq_fin x y

/-! ## Relative errors -/

/-- `a` is `x` up to a factor between `exp (-k u)` and `exp (k u)` -/
def Rel (k : ℝ) (a : RF R) (x : ℝ) : Prop := ∃ t : ℝ, |t| ≤ k * R.u ∧ a = num R (x * Real.exp t)

theorem Rel.num (x : ℝ) : Rel 0 (num R x) x := ⟨0, by simp, by simp⟩

theorem Rel.mono {j k : ℝ} {a : RF R} {x : ℝ} (h : Rel j a x) (hjk : j ≤ k) : Rel k a x := by
  obtain ⟨t, h1, h2⟩ := h
  exact ⟨t, h1.trans (mul_le_mul_of_nonneg_right hjk R.u_nonneg), h2⟩

theorem rel_rd {k : ℝ} {x y t : ℝ} (ht : |t| ≤ k * R.u) (hy : y = x * Real.exp t) : Rel (k + 1) (RF.num R (R.rd y)) x := by
  refine ⟨t + R.th y, ?_, ?_⟩
  · refine (abs_add_le _ _).trans ?_
    have := R.th_le y
    linarith
  · rw [Rounding.rd, hy, Real.exp_add, mul_assoc]

theorem Rel.pi : Rel 1 (Np.pi : RF R) Real.pi := by
  have := rel_rd (R := R) (k := 0) (x := Real.pi) (y := Real.pi) (t := 0) (by simp) (by simp)
  simpa using this

theorem Rel.mul {j k : ℝ} {a b : RF R} {x y : ℝ} (h1 : Rel j a x) (h2 : Rel k b y) : Rel (j + k + 1) (a * b) (x * y) := by
  obtain ⟨s, s1, rfl⟩ := h1
  obtain ⟨t, t1, rfl⟩ := h2
  rw [mul_num]
  refine rel_rd (t := s + t) ((abs_add_le _ _).trans (by linarith)) ?_
  rw [Real.exp_add]; ring

theorem Rel.div {j k : ℝ} {a b : RF R} {x y : ℝ} (h1 : Rel j a x) (h2 : Rel k b y) (hy : y ≠ 0) : Rel (j + k + 1) (a / b) (x / y) := by
  obtain ⟨s, s1, rfl⟩ := h1
  obtain ⟨t, t1, rfl⟩ := h2
  rw [div_num _ (mul_ne_zero hy (Real.exp_pos _).ne')]
  refine rel_rd (t := s - t) ((abs_sub _ _).trans (by linarith)) ?_
  rw [Real.exp_sub]; field_simp

theorem Rel.neg {k : ℝ} {a : RF R} {x : ℝ} (h : Rel k a x) : Rel k (-a) (-x) := by
  obtain ⟨t, t1, rfl⟩ := h
  exact ⟨t, t1, by rw [neg_num, neg_mul]⟩

theorem Rel.sqrt {k : ℝ} {a : RF R} {x : ℝ} (h : Rel k a x) (hx : 0 ≤ x) : Rel (k / 2 + 1) (Np.sqrt a) (Real.sqrt x) := by
  obtain ⟨t, t1, rfl⟩ := h
  rw [sqrt_num (mul_nonneg hx (Real.exp_pos _).le)]
  refine rel_rd (t := t / 2) (by rw [abs_div, abs_two]; linarith) ?_
  rw [Real.sqrt_mul hx, ← Real.exp_half]

theorem Rel.cbrt {k : ℝ} {a : RF R} {x : ℝ} (h : Rel k a x) (hx : 0 ≤ x) : Rel (k / 3 + 1) (Np.cbrt a) (x ^ (1 / 3 : ℝ)) := by
  obtain ⟨t, t1, rfl⟩ := h
  have h0 : 0 ≤ x * Real.exp t := mul_nonneg hx (Real.exp_pos _).le
  refine ⟨t / 3 + R.lib .cbrt (x * Real.exp t), ?_, ?_⟩
  · refine (abs_add_le _ _).trans ?_
    have := R.lib_le .cbrt (x * Real.exp t)
    rw [abs_div, abs_of_pos (show (0 : ℝ) < 3 by norm_num)]
    linarith
  · rw [cbrt_num, realCbrt, if_pos h0, Real.mul_rpow hx (Real.exp_pos _).le, ← Real.exp_mul, Real.exp_add]
    rw [show t * (1 / 3) = t / 3 by ring, mul_assoc]

theorem Rel.sin (x : ℝ) : Rel 1 (Np.sin (RF.num R x)) (Real.sin x) :=
  ⟨R.lib .sin x, by simpa using R.lib_le .sin x, rfl⟩
theorem Rel.cos (x : ℝ) : Rel 1 (Np.cos (RF.num R x)) (Real.cos x) :=
  ⟨R.lib .cos x, by simpa using R.lib_le .cos x, rfl⟩
theorem Rel.sinh (x : ℝ) : Rel 1 (Np.sinh (RF.num R x)) (Real.sinh x) :=
  ⟨R.lib .sinh x, by simpa using R.lib_le .sinh x, rfl⟩

/-! ## Absolute errors -/

/-- `a` differs from `x` by at most `(exp (k u) - 1) B`, where `B` bounds the size of `x` -/
def Near (k B : ℝ) (a : RF R) (x : ℝ) : Prop := ∃ y : ℝ, a = num R y ∧ |y - x| ≤ (Real.exp (k * R.u) - 1) * B ∧ |x| ≤ B

theorem exp_diff {t s : ℝ} (h : |t| ≤ s) : |Real.exp t - 1| ≤ Real.exp s - 1 := by
  have h1 := (abs_le.mp h)
  rw [abs_le]
  constructor
  · have h2 : Real.exp (-s) ≤ Real.exp t := Real.exp_le_exp.mpr h1.1
    have h3 : 2 ≤ Real.exp s + Real.exp (-s) := by
      have h4 : Real.exp s * Real.exp (-s) = 1 := by rw [← Real.exp_add]; simp
      nlinarith [sq_nonneg (Real.exp s - Real.exp (-s)), Real.exp_pos s, Real.exp_pos (-s)]
    linarith
  · have h2 : Real.exp t ≤ Real.exp s := Real.exp_le_exp.mpr h1.2
    linarith

theorem Rel.near {k B : ℝ} {a : RF R} {x : ℝ} (h : Rel k a x) (hB : |x| ≤ B) : Near k B a x := by
  obtain ⟨t, t1, rfl⟩ := h
  refine ⟨_, rfl, ?_, hB⟩
  rw [show x * Real.exp t - x = x * (Real.exp t - 1) by ring, abs_mul, mul_comm]
  exact mul_le_mul (exp_diff t1) hB (abs_nonneg _) ((abs_nonneg _).trans (exp_diff t1))

theorem exp_u_nonneg {k : ℝ} (hk : 0 ≤ k) : 0 ≤ Real.exp (k * R.u) - 1 := by
  have := Real.add_one_le_exp (k * R.u)
  have h2 := mul_nonneg hk R.u_nonneg
  linarith

theorem Near.mono {j k B C : ℝ} {a : RF R} {x : ℝ} (h : Near j B a x) (hjk : j ≤ k) (hk : 0 ≤ k) (hBC : B ≤ C) : Near k C a x := by
  obtain ⟨y, rfl, h1, h2⟩ := h
  refine ⟨y, rfl, h1.trans ?_, h2.trans hBC⟩
  have hB : 0 ≤ B := (abs_nonneg _).trans h2
  have : Real.exp (j * R.u) ≤ Real.exp (k * R.u) := Real.exp_le_exp.mpr (mul_le_mul_of_nonneg_right hjk R.u_nonneg)
  calc (Real.exp (j * R.u) - 1) * B ≤ (Real.exp (k * R.u) - 1) * B := mul_le_mul_of_nonneg_right (by linarith) hB
    _ ≤ (Real.exp (k * R.u) - 1) * C := mul_le_mul_of_nonneg_left hBC (exp_u_nonneg hk)

theorem near_rd {k B x y : ℝ} (h1 : |y - x| ≤ (Real.exp (k * R.u) - 1) * B) (h2 : |x| ≤ B) : Near (k + 1) B (num R (R.rd y)) x := by
  refine ⟨_, rfl, ?_, h2⟩
  have hy : |y| ≤ Real.exp (k * R.u) * B := by
    have := abs_add_le (y - x) x
    rw [sub_add_cancel] at this
    linarith
  have hr : |R.rd y - y| ≤ (Real.exp R.u - 1) * (Real.exp (k * R.u) * B) := by
    rw [Rounding.rd, show y * Real.exp (R.th y) - y = (Real.exp (R.th y) - 1) * y by ring, abs_mul]
    exact mul_le_mul (exp_diff (R.th_le y)) hy (abs_nonneg _) ((abs_nonneg _).trans (exp_diff (R.th_le y)))
  have h3 := abs_add_le (R.rd y - y) (y - x)
  rw [sub_add_sub_cancel] at h3
  have h4 : Real.exp ((k + 1) * R.u) = Real.exp (k * R.u) * Real.exp R.u := by rw [← Real.exp_add]; ring_nf
  rw [h4]
  linarith

theorem Near.add {k B C : ℝ} {a b : RF R} {x y : ℝ} (h1 : Near k B a x) (h2 : Near k C b y) : Near (k + 1) (B + C) (a + b) (x + y) := by
  obtain ⟨p, rfl, p1, p2⟩ := h1
  obtain ⟨q, rfl, q1, q2⟩ := h2
  rw [add_num]
  refine near_rd ?_ ((abs_add_le _ _).trans (add_le_add p2 q2))
  rw [show p + q - (x + y) = (p - x) + (q - y) by ring]
  refine (abs_add_le _ _).trans ?_
  linarith

theorem Near.sub {k B C : ℝ} {a b : RF R} {x y : ℝ} (h1 : Near k B a x) (h2 : Near k C b y) : Near (k + 1) (B + C) (a - b) (x - y) := by
  obtain ⟨p, rfl, p1, p2⟩ := h1
  obtain ⟨q, rfl, q1, q2⟩ := h2
  rw [sub_num]
  refine near_rd ?_ ((abs_sub _ _).trans (add_le_add p2 q2))
  rw [show p - q - (x - y) = (p - x) - (q - y) by ring]
  refine (abs_sub _ _).trans ?_
  linarith

theorem Near.mul {j k B C : ℝ} {a b : RF R} {x y : ℝ} (h1 : Near j B a x) (h2 : Near k C b y) :
    Near (j + k + 1) (B * C) (a * b) (x * y) := by
  obtain ⟨p, rfl, p1, p2⟩ := h1
  obtain ⟨q, rfl, q1, q2⟩ := h2
  have hB : 0 ≤ B := (abs_nonneg _).trans p2
  have hC : 0 ≤ C := (abs_nonneg _).trans q2
  rw [mul_num]
  refine near_rd ?_ (by rw [abs_mul]; exact mul_le_mul p2 q2 (abs_nonneg _) hB)
  have hp : |p| ≤ Real.exp (j * R.u) * B := by
    have := abs_add_le (p - x) x
    rw [sub_add_cancel] at this
    linarith
  rw [show p * q - x * y = p * (q - y) + (p - x) * y by ring]
  refine (abs_add_le _ _).trans ?_
  rw [abs_mul, abs_mul]
  have e1 : |p| * |q - y| ≤ Real.exp (j * R.u) * B * ((Real.exp (k * R.u) - 1) * C) :=
    mul_le_mul hp q1 (abs_nonneg _) (mul_nonneg (Real.exp_pos _).le hB)
  have e2 : |p - x| * |y| ≤ (Real.exp (j * R.u) - 1) * B * C := mul_le_mul p1 q2 (abs_nonneg _) ((abs_nonneg _).trans p1)
  have e3 : Real.exp ((j + k) * R.u) = Real.exp (j * R.u) * Real.exp (k * R.u) := by rw [← Real.exp_add]; ring_nf
  rw [e3]
  nlinarith

theorem Near.neg {k B : ℝ} {a : RF R} {x : ℝ} (h : Near k B a x) : Near k B (-a) (-x) := by
  obtain ⟨y, rfl, h1, h2⟩ := h
  exact ⟨-y, neg_num y, by rw [show -y - -x = -(y - x) by ring, abs_neg]; exact h1, by rwa [abs_neg]⟩

/-- `exp t - 1` is about `t` for small `t` -/
theorem exp_sub_one_le {t : ℝ} (h0 : 0 ≤ t) (h1 : t ≤ 1 / 4) : Real.exp t - 1 ≤ 4 / 3 * t := by
  have h2 := Real.add_one_le_exp (-t)
  have h3 : Real.exp t * Real.exp (-t) = 1 := by rw [← Real.exp_add]; simp
  have h4 := Real.exp_pos t
  nlinarith

/-- an absolute error is a relative error in the size of the condition number `c` of the expression -/
theorem Near.rel {k B c : ℝ} {a : RF R} {x : ℝ} (h : Near k B a x) (hk : 0 ≤ k) (hc : B ≤ c * |x|) (hc1 : 1 ≤ c) (hs : 4 * k * c * R.u ≤ 1) :
    Rel (2 * k * c) a x := by
  obtain ⟨y, rfl, h1, h2⟩ := h
  have hu := R.u_nonneg
  by_cases hx : x = 0
  · subst hx
    have hB : B = 0 := le_antisymm (by simpa using hc) ((abs_nonneg _).trans h2)
    have : y = 0 := by
      rw [hB, mul_zero] at h1
      have := abs_nonpos_iff.mp h1
      linarith
    exact ⟨0, by rw [abs_zero]; positivity, by rw [this]; simp⟩
  · have hx' : 0 < |x| := abs_pos.mpr hx
    have hku : 0 ≤ k * R.u := mul_nonneg hk hu
    have hcku : k * R.u ≤ c * (k * R.u) := le_mul_of_one_le_left hku hc1
    have hs' : c * (k * R.u) ≤ 1 / 4 := by nlinarith
    have he := exp_sub_one_le hku (hcku.trans hs')
    have hE := exp_u_nonneg (R := R) hk
    -- the factor
    have hf : |y / x - 1| ≤ 4 / 3 * (c * (k * R.u)) := by
      rw [show y / x - 1 = (y - x) / x by field_simp, abs_div, div_le_iff₀ hx']
      calc |y - x| ≤ (Real.exp (k * R.u) - 1) * B := h1
        _ ≤ (Real.exp (k * R.u) - 1) * (c * |x|) := mul_le_mul_of_nonneg_left hc hE
        _ ≤ (4 / 3 * (k * R.u)) * (c * |x|) := mul_le_mul_of_nonneg_right he (by positivity)
        _ = _ := by ring
    obtain ⟨f1, f2⟩ := abs_le.mp hf
    have hfp : 0 < y / x := by linarith
    refine ⟨Real.log (y / x), ?_, by rw [Real.exp_log hfp]; congr 1; field_simp⟩
    rw [abs_le]
    constructor
    · have h5 := Real.one_sub_inv_le_log_of_pos hfp
      have h6 : (y / x)⁻¹ ≤ 1 + 2 * (c * (k * R.u)) := by
        rw [inv_le_comm₀ hfp (by positivity), inv_le_iff_one_le_mul₀ (by positivity)]
        nlinarith
      linarith
    · have h5 := Real.log_le_sub_one_of_pos hfp
      linarith

/-- what an error bound says when it is small -/
theorem Near.abs_le {k B : ℝ} {a : RF R} {x : ℝ} (h : Near k B a x) (hk : 0 ≤ k) (hs : 4 * k * R.u ≤ 1) :
    ∃ y, a = RF.num R y ∧ |y - x| ≤ 4 / 3 * k * R.u * B := by
  obtain ⟨y, hy, h1, h2⟩ := h
  refine ⟨y, hy, h1.trans ?_⟩
  have := exp_sub_one_le (mul_nonneg hk R.u_nonneg) (by linarith)
  calc (Real.exp (k * R.u) - 1) * B ≤ 4 / 3 * (k * R.u) * B := mul_le_mul_of_nonneg_right this ((abs_nonneg _).trans h2)
    _ = _ := by ring

end RF
end Pyorb
