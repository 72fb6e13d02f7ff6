/-!
# Scalar interface

`Np α` lists the scalar operations of numpy (and python floats) that `/repo/pyorb` uses.  The numerical model is
written once, over any `Np α`; it is *reasoned about* with `α = FX` (exact reals with NaN/inf, `Verif/FX.lean`) and can be
*run* with `α = Float` (`Verif/FloatNp.lean`).
-/

namespace Pyorb

/-- The numpy scalar operations used by `/repo/pyorb/kepler.py`, `orbit.py`, `unit.py`. -/
class Np (α : Type) where
  /-- a numeric literal of the source text -/
  lit : Rat → α
  /-- `np.nan` -/
  nan : α
  /-- `np.pi` -/
  pi : α
  add : α → α → α
  sub : α → α → α
  mul : α → α → α
  div : α → α → α
  neg : α → α
  /-- `np.mod` -/
  mod : α → α → α
  /-- `np.arctan2` -/
  arctan2 : α → α → α
  abs : α → α
  sqrt : α → α
  cbrt : α → α
  log : α → α
  sin : α → α
  cos : α → α
  tan : α → α
  arccos : α → α
  arctan : α → α
  sinh : α → α
  cosh : α → α
  tanh : α → α
  arctanh : α → α
  /-- conversion to an integer dtype and back (rounding towards zero) -/
  trunc : α → α
  /-- `a < b`; `False` when either side is NaN -/
  lt : α → α → Bool
  /-- `a <= b`; `False` when either side is NaN -/
  le : α → α → Bool
  /-- `a == b`; `False` when either side is NaN -/
  eq : α → α → Bool
  isnan : α → Bool
  isfinite : α → Bool

section
variable {α : Type} [Np α]
instance (priority := low) : Add α := ⟨Np.add⟩
instance (priority := low) : Sub α := ⟨Np.sub⟩
instance (priority := low) : Mul α := ⟨Np.mul⟩
instance (priority := low) : Div α := ⟨Np.div⟩
instance (priority := low) : Neg α := ⟨Np.neg⟩
instance (priority := low) (n : Nat) : OfNat α n := ⟨Np.lit n⟩
end

@[inherit_doc Np.lt] infix:50 " <ᵇ " => Np.lt
@[inherit_doc Np.le] infix:50 " ≤ᵇ " => Np.le
@[inherit_doc Np.eq] infix:50 " =ᵇ " => Np.eq

variable {α : Type} [Np α]

/-- `x**2` -/
def sq (x : α) : α := x * x
/-- `x**3` -/
def cube (x : α) : α := x * x * x
/-- the literal `0.5` -/
def half : α := Np.lit (1/2)
/-- `2.0*np.pi` -/
def twoPi : α := 2 * Np.pi

/-- `np.radians(x)` : multiplication by `pi/180` -/
def radians (x : α) : α := x * (Np.pi / 180)
/-- `np.degrees(x)` : multiplication by `180/pi` -/
def degrees (x : α) : α := x * (180 / Np.pi)

/-- Python exceptions raised by the code. -/
inductive PyErr
  | typeError | valueError | indexError | attributeError | nameError | constError | stopIteration
  | recursionError | assertionError | zeroDivisionError
  deriving DecidableEq, Repr, Inhabited

/-- numpy dtype of an array or scalar: floating point (float64) or integer (int64). -/
inductive DType
  | f64 | i64
  deriving DecidableEq, Repr, Inhabited

/-- dtype of the result of an arithmetic operation on operands of these dtypes (numpy promotion). -/
def DType.promote : DType → DType → DType
  | .i64, .i64 => .i64
  | _, _ => .f64

/-- Storing a computed (floating) value into an array of dtype `dt`: `arr[...] = x`. -/
def store (dt : DType) (x : α) : α :=
  match dt with
  | .f64 => x
  | .i64 => Np.trunc x

@[simp] theorem store_f64 (x : α) : store .f64 x = x := rfl

end Pyorb
