import Mathlib.Analysis.SpecialFunctions.Trigonometric.Arctan
import Mathlib.Analysis.SpecialFunctions.Trigonometric.Inverse
import Mathlib.Analysis.SpecialFunctions.Complex.Arg
import Mathlib.Analysis.SpecialFunctions.Pow.Real
import Mathlib.Analysis.SpecialFunctions.Artanh
import Mathlib.Analysis.SpecialFunctions.Log.Basic
import Verif.Np

/-!
# Ideal scalars: exact reals with the IEEE special values

`FX` is IEEE arithmetic without rounding, overflow and signed zero.  A result `fin x` means that the code computes a
finite number; NaN and infinity arise exactly where numpy produces them (square root or logarithm of a negative number,
arccos outside [-1,1], 0/0, inf-inf, ...), with two simplifications stated below.
-/

namespace Pyorb

/-- exact reals, the two infinities, NaN -/
inductive FX
  | fin (x : ℝ)
  | pinf
  | ninf
  | nan

namespace FX

/-- infinity with the sign of `x`; NaN for 0 (used for `inf*x`). -/
noncomputable def infSign (x : ℝ) : FX := if 0 < x then pinf else if x < 0 then ninf else nan

noncomputable def add : FX → FX → FX
  | fin a, fin b => fin (a + b)
  | nan, _ => nan
  | _, nan => nan
  | pinf, ninf => nan
  | ninf, pinf => nan
  | pinf, _ => pinf
  | _, pinf => pinf
  | ninf, _ => ninf
  | _, ninf => ninf

noncomputable def neg : FX → FX
  | fin a => fin (-a)
  | pinf => ninf
  | ninf => pinf
  | nan => nan

noncomputable def sub (a b : FX) : FX :=
  match a, b with
  | fin a, fin b => fin (a - b)
  | a, b => add a (neg b)

noncomputable def mul : FX → FX → FX
  | fin a, fin b => fin (a * b)
  | nan, _ => nan
  | _, nan => nan
  | pinf, fin b => infSign b
  | fin a, pinf => infSign a
  | ninf, fin b => neg (infSign b)
  | fin a, ninf => neg (infSign a)
  | pinf, pinf => pinf
  | ninf, ninf => pinf
  | pinf, ninf => ninf
  | ninf, pinf => ninf

/-- Division.  Simplification: zero is unsigned, so `x/0` takes the sign of `x` and `±inf/0 = ±inf`. -/
noncomputable def div : FX → FX → FX
  | fin a, fin b => if b = 0 then infSign a else fin (a / b)
  | nan, _ => nan
  | _, nan => nan
  | fin _, _ => fin 0
  | pinf, fin b => if b < 0 then ninf else pinf
  | ninf, fin b => if b < 0 then pinf else ninf
  | _, _ => nan

/-- lift a real function that is total; `lo`/`hi` are its values at -inf/+inf -/
def lift1 (f : ℝ → ℝ) (lo hi : FX) : FX → FX
  | fin a => fin (f a)
  | pinf => hi
  | ninf => lo
  | nan => nan

/-- `np.mod(a,b)` for finite arguments is `a - b*floor(a/b)`; NaN for `b = 0` or a non-finite argument
(simplification: numpy returns `a` for `np.mod(a, inf)`, a call pyorb never makes). -/
noncomputable def mod : FX → FX → FX
  | fin a, fin b => if b = 0 then nan else fin (a - b * (⌊a / b⌋ : ℝ))
  | _, _ => nan

/-- `np.arctan2(y,x)`, the argument of `x+iy` in (-pi,pi], 0 at the origin.
Simplification: NaN for infinite arguments (never reached from finite elements). -/
noncomputable def arctan2 : FX → FX → FX
  | fin y, fin x => fin (Complex.arg ⟨x, y⟩)
  | _, _ => nan

noncomputable def sqrt : FX → FX
  | fin a => if 0 ≤ a then fin (Real.sqrt a) else nan
  | pinf => pinf
  | _ => nan

/-- real cube root -/
noncomputable def realCbrt (x : ℝ) : ℝ := if 0 ≤ x then x ^ (1/3 : ℝ) else -((-x) ^ (1/3 : ℝ))

noncomputable def log : FX → FX
  | fin a => if 0 < a then fin (Real.log a) else if a = 0 then ninf else nan
  | pinf => pinf
  | _ => nan

/-- `np.tan`; at an exact pole (which no float hits: `np.tan(np.pi/2)` is `1.6e16`) the value is taken to be `+inf`. -/
noncomputable def tan : FX → FX
  | fin a => if Real.cos a = 0 then pinf else fin (Real.tan a)
  | _ => nan

noncomputable def arccos : FX → FX
  | fin a => if -1 ≤ a ∧ a ≤ 1 then fin (Real.arccos a) else nan
  | _ => nan

noncomputable def arctanh : FX → FX
  | fin a => if -1 < a ∧ a < 1 then fin (Real.artanh a) else if a = 1 then pinf else if a = -1 then ninf else nan
  | _ => nan

/-- truncation towards zero (integer dtype conversion) -/
noncomputable def realTrunc (x : ℝ) : ℝ := if 0 ≤ x then (⌊x⌋ : ℝ) else (⌈x⌉ : ℝ)

open Classical in
noncomputable def lt : FX → FX → Bool
  | fin a, fin b => decide (a < b)
  | nan, _ => false
  | _, nan => false
  | ninf, ninf => false
  | ninf, _ => true
  | _, ninf => false
  | pinf, _ => false
  | _, pinf => true

open Classical in
noncomputable def eqb : FX → FX → Bool
  | fin a, fin b => decide (a = b)
  | pinf, pinf => true
  | ninf, ninf => true
  | _, _ => false

def isnan : FX → Bool
  | nan => true
  | _ => false

def isfinite : FX → Bool
  | fin _ => true
  | _ => false

noncomputable instance instNp : Np FX where
  lit q := fin (q : ℝ)
  nan := nan
  pi := fin Real.pi
  add := add
  sub := sub
  mul := mul
  div := div
  neg := neg
  mod := mod
  arctan2 := arctan2
  abs := lift1 (fun x => |x|) pinf pinf
  sqrt := sqrt
  cbrt := lift1 realCbrt ninf pinf
  log := log
  sin := lift1 Real.sin nan nan
  cos := lift1 Real.cos nan nan
  tan := tan
  arccos := arccos
  arctan := lift1 Real.arctan (fin (-(Real.pi / 2))) (fin (Real.pi / 2))
  sinh := lift1 Real.sinh ninf pinf
  cosh := lift1 Real.cosh pinf pinf
  tanh := lift1 Real.tanh (fin (-1)) (fin 1)
  arctanh := arctanh
  trunc := lift1 realTrunc ninf pinf
  lt := lt
  le a b := lt a b || eqb a b
  eq := eqb
  isnan := isnan
  isfinite := isfinite

/-! ## Rewriting rules on finite values -/

theorem fin_inj {a b : ℝ} (h : fin a = fin b) : a = b := by injection h

@[simp] theorem lit_fin (q : ℚ) : (Np.lit q : FX) = fin (q : ℝ) := rfl
@[simp] theorem pi_fin : (Np.pi : FX) = fin Real.pi := rfl
@[simp] theorem nan_def : (Np.nan : FX) = nan := rfl
@[simp] theorem ofNat_fin (n : ℕ) [n.AtLeastTwo] : (OfNat.ofNat n : FX) = fin (OfNat.ofNat n) := by
  show fin (((OfNat.ofNat n : ℕ) : ℚ) : ℝ) = _
  simp
@[simp] theorem zero_fin : (0 : FX) = fin 0 := by
  show fin (((0 : ℕ) : ℚ) : ℝ) = _
  congr 1
  simp
@[simp] theorem one_fin : (1 : FX) = fin 1 := by
  show fin (((1 : ℕ) : ℚ) : ℝ) = _
  congr 1
  simp
@[simp] theorem half_fin : (half : FX) = fin (1/2) := by
  show fin (((1/2 : ℚ)) : ℝ) = _
  congr 1
  norm_num
@[simp] theorem add_fin (a b : ℝ) : (fin a + fin b : FX) = fin (a + b) := rfl
@[simp] theorem sub_fin (a b : ℝ) : (fin a - fin b : FX) = fin (a - b) := rfl
@[simp] theorem mul_fin (a b : ℝ) : (fin a * fin b : FX) = fin (a * b) := rfl
@[simp] theorem neg_fin (a : ℝ) : (-(fin a) : FX) = fin (-a) := rfl
@[simp] theorem div_fin {a b : ℝ} (h : b ≠ 0) : (fin a / fin b : FX) = fin (a / b) := by
  show div (fin a) (fin b) = _
  simp [div, h]
@[simp] theorem sq_fin (a : ℝ) : sq (fin a) = fin (a ^ 2) := by simp [sq, pow_two]
@[simp] theorem cube_fin (a : ℝ) : cube (fin a) = fin (a ^ 3) := by
  simp only [cube, mul_fin]; congr 1; ring
@[simp] theorem twoPi_fin : (twoPi : FX) = fin (2 * Real.pi) := by simp [twoPi]
@[simp] theorem radians_fin (a : ℝ) : radians (fin a) = fin (a * (Real.pi / 180)) := by simp [radians]
@[simp] theorem degrees_fin (a : ℝ) : degrees (fin a) = fin (a * (180 / Real.pi)) := by
  simp [degrees, Real.pi_ne_zero]
@[simp] theorem abs_fin (a : ℝ) : Np.abs (fin a) = fin |a| := rfl
@[simp] theorem sin_fin (a : ℝ) : Np.sin (fin a) = fin (Real.sin a) := rfl
@[simp] theorem cos_fin (a : ℝ) : Np.cos (fin a) = fin (Real.cos a) := rfl
@[simp] theorem sinh_fin (a : ℝ) : Np.sinh (fin a) = fin (Real.sinh a) := rfl
@[simp] theorem cosh_fin (a : ℝ) : Np.cosh (fin a) = fin (Real.cosh a) := rfl
@[simp] theorem tanh_fin (a : ℝ) : Np.tanh (fin a) = fin (Real.tanh a) := rfl
@[simp] theorem arctan_fin (a : ℝ) : Np.arctan (fin a) = fin (Real.arctan a) := rfl
@[simp] theorem cbrt_fin (a : ℝ) : Np.cbrt (fin a) = fin (realCbrt a) := rfl
@[simp] theorem trunc_fin (a : ℝ) : Np.trunc (fin a) = fin (realTrunc a) := rfl
@[simp] theorem arctan2_fin (y x : ℝ) : Np.arctan2 (fin y) (fin x) = fin (Complex.arg ⟨x, y⟩) := rfl
theorem sqrt_fin {a : ℝ} (h : 0 ≤ a) : Np.sqrt (fin a) = fin (Real.sqrt a) := by
  show sqrt (fin a) = _
  simp [sqrt, h]
theorem sqrt_neg {a : ℝ} (h : a < 0) : Np.sqrt (fin a) = nan := by
  show sqrt (fin a) = _
  simp [sqrt, not_le.mpr h]
theorem tan_fin {a : ℝ} (h : Real.cos a ≠ 0) : Np.tan (fin a) = fin (Real.tan a) := by
  show tan (fin a) = _
  simp [tan, h]
theorem tan_pole {a : ℝ} (h : Real.cos a = 0) : Np.tan (fin a) = pinf := by
  show tan (fin a) = _
  simp [tan, h]
theorem mul_pinf {a : ℝ} (h : 0 < a) : (fin a : FX) * pinf = pinf := by
  show mul (fin a) pinf = _
  simp [mul, infSign, h]
theorem arctan_pinf : Np.arctan (pinf : FX) = fin (Real.pi / 2) := rfl
theorem arccos_fin {a : ℝ} (h1 : -1 ≤ a) (h2 : a ≤ 1) : Np.arccos (fin a) = fin (Real.arccos a) := by
  show arccos (fin a) = _
  simp [arccos, h1, h2]
theorem arctanh_fin {a : ℝ} (h1 : -1 < a) (h2 : a < 1) : Np.arctanh (fin a) = fin (Real.artanh a) := by
  show arctanh (fin a) = _
  simp [arctanh, h1, h2]
theorem log_fin {a : ℝ} (h : 0 < a) : Np.log (fin a) = fin (Real.log a) := by
  show log (fin a) = _
  simp [log, h]
theorem log_neg {a : ℝ} (h : a < 0) : Np.log (fin a) = nan := by
  show log (fin a) = _
  simp [log, not_lt.mpr h.le, h.ne]
theorem mod_fin {a b : ℝ} (h : b ≠ 0) : Np.mod (fin a) (fin b) = fin (a - b * (⌊a / b⌋ : ℝ)) := by
  show mod (fin a) (fin b) = _
  simp [mod, h]
@[simp] theorem lt_fin (a b : ℝ) : (fin a <ᵇ fin b) = decide (a < b) := by
  show lt (fin a) (fin b) = _
  simp [lt]
@[simp] theorem eq_fin (a b : ℝ) : (fin a =ᵇ fin b) = decide (a = b) := by
  show eqb (fin a) (fin b) = _
  simp [eqb]
@[simp] theorem le_fin (a b : ℝ) : (fin a ≤ᵇ fin b) = decide (a ≤ b) := by
  show (lt (fin a) (fin b) || eqb (fin a) (fin b)) = _
  simp [lt, eqb, le_iff_lt_or_eq]
@[simp] theorem isnan_fin (a : ℝ) : Np.isnan (fin a) = false := rfl
@[simp] theorem isnan_nan : Np.isnan (nan : FX) = true := rfl
@[simp] theorem isfinite_fin (a : ℝ) : Np.isfinite (fin a) = true := rfl
@[simp] theorem nan_lt (a : FX) : (nan <ᵇ a) = false := by cases a <;> rfl
@[simp] theorem lt_nan (a : FX) : (a <ᵇ nan) = false := by cases a <;> rfl
@[simp] theorem nan_le (a : FX) : (nan ≤ᵇ a) = false := by cases a <;> rfl
@[simp] theorem le_nan (a : FX) : (a ≤ᵇ nan) = false := by cases a <;> rfl
@[simp] theorem nan_eq (a : FX) : (nan =ᵇ a) = false := by cases a <;> rfl
@[simp] theorem eq_nan (a : FX) : (a =ᵇ nan) = false := by cases a <;> rfl
@[simp] theorem nan_add (a : FX) : (nan + a : FX) = nan := by cases a <;> rfl
@[simp] theorem add_nan (a : FX) : (a + nan : FX) = nan := by cases a <;> rfl
@[simp] theorem nan_sub (a : FX) : (nan - a : FX) = nan := by cases a <;> rfl
@[simp] theorem sub_nan (a : FX) : (a - nan : FX) = nan := by cases a <;> rfl
@[simp] theorem nan_mul (a : FX) : (nan * a : FX) = nan := by cases a <;> rfl
@[simp] theorem mul_nan (a : FX) : (a * nan : FX) = nan := by cases a <;> rfl
@[simp] theorem nan_div (a : FX) : (nan / a : FX) = nan := by cases a <;> rfl
@[simp] theorem div_nan (a : FX) : (a / nan : FX) = nan := by cases a <;> rfl
@[simp] theorem neg_nan : (-(nan) : FX) = nan := rfl
@[simp] theorem sin_nan : Np.sin (nan : FX) = nan := rfl
@[simp] theorem cos_nan : Np.cos (nan : FX) = nan := rfl
@[simp] theorem tan_nan : Np.tan (nan : FX) = nan := rfl
@[simp] theorem sinh_nan : Np.sinh (nan : FX) = nan := rfl
@[simp] theorem cosh_nan : Np.cosh (nan : FX) = nan := rfl
@[simp] theorem tanh_nan : Np.tanh (nan : FX) = nan := rfl
@[simp] theorem abs_nan : Np.abs (nan : FX) = nan := rfl
@[simp] theorem arctan_nan : Np.arctan (nan : FX) = nan := rfl
@[simp] theorem arccos_nan : Np.arccos (nan : FX) = nan := rfl
@[simp] theorem sqrt_nan : Np.sqrt (nan : FX) = nan := rfl
@[simp] theorem mod_nan (a : FX) : Np.mod nan a = nan := by cases a <;> rfl

end FX
end Pyorb
