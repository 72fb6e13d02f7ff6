import Verif.OrbitCls
import Verif.Unit

/-!
# The names of the anomaly types

`Verif/OrbitCls.lean` takes an anomaly type as a value.  Here it is the string that the caller passes: the `type` setter applies
`lower()` and `strip()` before it looks the name up, the constructor looks it up as it is.
-/

namespace Pyorb
namespace Orbit
variable {α : Type} (K : Kern α)

/-- the strings in `Orbit.ANOMALY` (orbit.py 98) -/
def anomalyNames : List (List Char × Anom) :=
  [(['t', 'r', 'u', 'e'], .tru), (['e', 'c', 'c', 'e', 'n', 't', 'r', 'i', 'c'], .ecc), (['m', 'e', 'a', 'n'], .mean)]

/-- `val in Orbit.ANOMALY`, and which one (orbit.py 119, 222) -/
def anomalyOf (s : List Char) : Option Anom := anomalyNames.lookup s

/-- the characters that `str.strip()` removes: the ASCII ones of the python documentation; `sp` tells which other characters count as
white space -/
def isSpace (sp : Char → Bool) (c : Char) : Bool :=
  if c.toNat < 128 then decide (9 ≤ c.toNat ∧ c.toNat ≤ 13 ∨ 28 ≤ c.toNat ∧ c.toNat ≤ 32) else sp c

/-- `str.strip()` -/
def strip (sp : Char → Bool) (s : List Char) : List Char :=
  (((s.dropWhile (isSpace sp)).reverse).dropWhile (isSpace sp)).reverse

/-- `type` setter with a string (orbit.py 219-231); `ext` is the action of `str.lower()` on characters outside ASCII -/
def set_type_name (ext : Char → List Char) (sp : Char → Bool) (val : List Char) : Py α Unit :=
  set_type K (anomalyOf (strip sp (lower ext val)))

/-- `Orbit(M0, type=..., **kwargs)` with a string (orbit.py 118-120): no `lower()` and no `strip()` here -/
def init_name (M0 : α) (val : List Char) (kw : InitKw α) (u : Upd α) : Except PyErr (Orb α) :=
  init K M0 { kw with type := anomalyOf val } u

end Orbit
end Pyorb
