import Verif.Np

/-!
# Executable scalars

`Float` instance of the scalar interface.  It is used only to run the model (sanity tests); no theorem mentions it.
-/

namespace Pyorb

/-- IEEE double arithmetic.  `mod` follows numpy's definition up to rounding. -/
instance instNpFloat : Np Float where
  lit q := Float.ofInt q.num / Float.ofNat q.den
  nan := 0.0 / 0.0
  pi := 3.141592653589793
  add := Float.add
  sub := Float.sub
  mul := Float.mul
  div := Float.div
  neg := Float.neg
  mod a b := a - b * Float.floor (a / b)
  arctan2 := Float.atan2
  abs := Float.abs
  sqrt := Float.sqrt
  cbrt := Float.cbrt
  log := Float.log
  sin := Float.sin
  cos := Float.cos
  tan := Float.tan
  arccos := Float.acos
  arctan := Float.atan
  sinh := Float.sinh
  cosh := Float.cosh
  tanh := Float.tanh
  arctanh := Float.atanh
  trunc x := if x < 0 then Float.ceil x else Float.floor x
  lt a b := a < b
  le a b := a <= b
  eq a b := a == b
  isnan := Float.isNaN
  isfinite := Float.isFinite

end Pyorb
