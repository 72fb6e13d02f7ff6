import Verif.Np

/-!
# Model of `/repo/pyorb/const.py` and `/repo/pyorb/unit.py`
-/

namespace Pyorb

/-! ## `const.py` -/

section Const
variable {V : Type}

/-- The instance dictionary of a `_const` object. -/
abbrev ConstDict (V : Type) := String → Option V

/-- What a failing statement raises.  `self.ConstError` is looked up on the instance, so once a user has bound an attribute
of that name the object raised is whatever calling the bound value produces. -/
inductive ConstExc (V : Type)
  | constError
  | nameError
  | fromUser (bound : V)

/-- `self.ConstError(...)` (const.py 29, 34): the class attribute unless the instance dictionary shadows it. -/
def constExc (d : ConstDict V) : ConstExc V :=
  match d "ConstError" with
  | none => .constError
  | some v => .fromUser v

/-- `_const.__setattr__` (const.py 25-30); `eq` is python's `==`. -/
def constSet (eq : V → V → Bool) (d : ConstDict V) (name : String) (v : V) : Except (ConstExc V) Unit × ConstDict V :=
  match d name with
  | some old => if eq old v then (.ok (), d) else (.error (constExc d), d)
  | none => (.ok (), fun n => if n = name then some v else d n)

/-- `_const.__delattr__` (const.py 32-35). -/
def constDel (d : ConstDict V) (name : String) : Except (ConstExc V) Unit × ConstDict V :=
  match d name with
  | some _ => (.error (constExc d), d)
  | none => (.error .nameError, d)

/-- Attribute read: data descriptors of the type (`__dict__`, `__class__`, ...), then the instance dictionary, then the
class; `none` is AttributeError. -/
def constGet (desc cls : String → Option V) (d : ConstDict V) (name : String) : Option V :=
  (desc name).orElse fun _ => (d name).orElse fun _ => cls name

/-- `_const.__init__` (const.py 22-23): `self.__dict__ = self._shared_state` goes through the overridden `__setattr__`,
whose test `name in self.__dict__` looks at the real (empty) instance dictionary, so it stores the shared dictionary
under the key `"__dict__"` of that dictionary. -/
def constInit (eq : V → V → Bool) (shared : V) : ConstDict V :=
  (constSet eq (fun _ => none) "__dict__" shared).2

variable {α : Type} [Np α]

/-- `G` (const.py 48) -/
def constG : α := Np.lit (66743 / 1000000000000000)
/-- `AU` (const.py 61) -/
def constAU : α := Np.lit 149597870700
/-- `M_sol` (const.py 63) -/
def constMsol : α := Np.lit 1988470000000000000000000000000
/-- `GM_sol` (const.py 64) -/
def constGMsol : α := Np.lit 132712440018000000000

/-- The assignments made by the module body, in order (const.py 41-69). `eNum` is `numpy.e`. -/
def constModule (eNum : α) : List (String × α) :=
  [("pi", Np.pi), ("e", eNum), ("_2pi", 2 * Np.pi), ("_4pi", 4 * Np.pi),
   ("c", 299792458), ("G", constG),
   ("wgs84_a", 6378137), ("wgs84_invf", Np.lit (298257223563 / 1000000000)),
   ("wgs84_f", 1 / Np.lit (298257223563 / 1000000000)), ("wgs84_omega", Np.lit (7292115 / 100000000000)),
   ("wgs84_GM", Np.lit 398600441800000), ("wgs84_M_earth", Np.lit 398600441800000 / constG),
   ("AU", constAU), ("M_sol", constMsol), ("GM_sol", constGMsol),
   ("K_a", 0), ("K_e", 1), ("K_i", 2), ("K_om", 3), ("K_OM", 4), ("K_nu", 5),
   ("E_a", 0), ("E_h", 1), ("E_k", 2), ("E_p", 3), ("E_q", 4), ("E_lam", 5)]

/-- run a list of assignments; stops at the first exception, like a module body -/
def constRunSets (eq : V → V → Bool) : List (String × V) → ConstDict V → Except (ConstExc V) Unit × ConstDict V
  | [], d => (.ok (), d)
  | (n, v) :: t, d =>
    match constSet eq d n v with
    | (.ok _, d') => constRunSets eq t d'
    | (.error e, d') => (.error e, d')

end Const

/-! ## `get_G` -/

/-- An argument of `get_G`.  `isinstance(x, float)` accepts python floats and numpy float64 scalars, which differ in
division by zero. -/
inductive UnitArg (α : Type)
  | str (s : List Char)
  | pyFloat (x : α)
  | npFloat (x : α)
  | other

/-- `str.lower()` on one character: ASCII letters as usual; `ext` is its (unmodelled) action on other characters -/
def lowerChar (ext : Char → List Char) (c : Char) : List Char := if c.toNat < 128 then [c.toLower] else ext c
/-- `str.lower()` -/
def lower (ext : Char → List Char) (s : List Char) : List Char := s.flatMap (lowerChar ext)
/-- `.replace('_', '').replace(' ', '').replace('-', '')` (unit.py 16) -/
def dropSeps (s : List Char) : List Char := ((s.filter (· ≠ '_')).filter (· ≠ ' ')).filter (· ≠ '-')

variable {α : Type} [Np α]

/-- value of a recognised (normalised) mass unit (unit.py 17-24) -/
def massUnit (s : List Char) : Option α :=
  if s = ['k', 'g'] then some 1
  else if s = ['g'] then some (Np.lit (1 / 1000))
  else if s = ['m', 's', 'u', 'n'] ∨ s = ['m', 's', 'o', 'l'] then some constMsol
  else none

/-- value of a recognised time unit (unit.py 32-41) -/
def timeUnit (s : List Char) : Option α :=
  if s = ['s'] then some 1
  else if s = ['h'] then some 3600
  else if s = ['d'] then some (3600 * 24)
  else if s = ['y'] then some (3600 * 24 * Np.lit (36525 / 100))
  else none

/-- value of a recognised length unit (unit.py 49-60) -/
def lengthUnit (s : List Char) : Option α :=
  if s = ['m'] then some 1
  else if s = ['c', 'm'] then some (Np.lit (1 / 100))
  else if s = ['k', 'm'] then some 1000
  else if s = ['a', 'u'] then some constAU
  else if s = ['p', 'c'] then some (Np.lit 30856775814913700)
  else none

/-- one of the three `isinstance` cascades: the value and whether it is a numpy scalar -/
def unitValue (norm : List Char → List Char) (table : List Char → Option α) : UnitArg α → Except PyErr (α × Bool)
  | .str s => match table (norm s) with
    | some x => .ok (x, false)
    | none => .error .typeError
  | .pyFloat x => .ok (x, false)
  | .npFloat x => .ok (x, true)
  | .other => .error .typeError

/-- `get_G` (unit.py 13-66).  Python floats raise ZeroDivisionError on division by zero; if any operand is a numpy scalar
the quotient is computed by numpy. -/
def get_G (ext : Char → List Char) (length mass time : UnitArg α) : Except PyErr α := do
  let (m, mn) ← unitValue (fun s => dropSeps (lower ext s)) massUnit mass
  let (t, tn) ← unitValue (lower ext) timeUnit time
  let (l, ln) ← unitValue (lower ext) lengthUnit length
  if (cube l =ᵇ 0) && !(mn || tn || ln) then .error .zeroDivisionError
  else pure (constG * (m * sq t / cube l))

/-! ## `angle_units` -/

/-- The python operations that `angle_units` performs on the values passed through it. -/
structure PyOps (V : Type) where
  /-- `np.radians` -/
  radians : V → Except PyErr V
  /-- `np.degrees` -/
  degrees : V → Except PyErr V
  /-- truth value -/
  truthy : V → Except PyErr Bool
  /-- `list(ret)` -/
  toList : V → Except PyErr (List V)
  /-- `tuple(ret)` of a list -/
  tuple : List V → V
  /-- `ret is None` -/
  isNone : V → Bool

/-- position denoted by a python index, `none` is IndexError -/
def pyIndex (n : Nat) (i : Int) : Option Nat :=
  if 0 ≤ i then (if i.toNat < n then some i.toNat else none)
  else if 0 ≤ i + n then some (i + n).toNat else none

section AngleUnits
variable {V : Type}

/-- `for ind in inds: xs[ind] = f(xs[ind])` (unit.py 82-83, 96-97) -/
def convertAt (f : V → Except PyErr V) : List Int → List V → Except PyErr (List V)
  | [], xs => .ok xs
  | i :: t, xs =>
    match pyIndex xs.length i with
    | none => .error .indexError
    | some j =>
      match xs[j]? with
      | none => .error .indexError
      | some x => do
        let y ← f x
        convertAt f t (xs.set j y)

/-- `for key in keys: if key in kwargs: kwargs[key] = f(kwargs[key])` (unit.py 85-87) -/
def convertKeys (f : V → Except PyErr V) : List String → List (String × V) → Except PyErr (List (String × V))
  | [], kw => .ok kw
  | k :: t, kw =>
    match kw.find? (fun p => p.1 = k) with
    | none => convertKeys f t kw
    | some p => do
      let y ← f p.2
      convertKeys f t (kw.map fun q => if q.1 = k then (k, y) else q)

/-- the `out_arg_inds` argument: `None`, a bool, or a list of indices -/
inductive OutSel
  | none
  | bool (b : Bool)
  | inds (is : List Int)

/-- conversion of the positional arguments (unit.py 80-83) -/
def convertArgs (w : PyOps V) (inInds : Option (List Int)) (args : List V) : Except PyErr (List V) :=
  match inInds with
  | some is => convertAt w.radians is args
  | none => .ok args

/-- conversion of the keyword arguments (unit.py 84-87) -/
def convertKwargs (w : PyOps V) (inKeys : Option (List String)) (kwargs : List (String × V)) :
    Except PyErr (List (String × V)) :=
  match inKeys with
  | some ks => convertKeys w.radians ks kwargs
  | none => .ok kwargs

/-- conversion of the return value (unit.py 91-98); the value of a bool `out_arg_inds` is not looked at -/
def convertRet (w : PyOps V) (out : OutSel) (ret : V) : Except PyErr V :=
  if w.isNone ret then .ok ret
  else match out with
    | .none => .ok ret
    | .bool _ => w.degrees ret
    | .inds is => do
      let xs ← w.toList ret
      let xs ← convertAt w.degrees is xs
      pure (w.tuple xs)

/-- `kwargs.pop('degrees', degrees)` as a condition (unit.py 77) -/
def degreesFlag (w : PyOps V) (dflt : Bool) (kwargs : List (String × V)) : Except PyErr Bool :=
  match kwargs.find? (fun p => p.1 = "degrees") with
  | some p => w.truthy p.2
  | none => .ok dflt

/-- `wrapped_func` (unit.py 76-100) made by `angle_units(inInds, inKeys, out, degrees=dflt)` from `func`. -/
def wrapped (w : PyOps V) (func : List V → List (String × V) → Except PyErr V) (inInds : Option (List Int))
    (inKeys : Option (List String)) (out : OutSel) (dflt : Bool) (args : List V) (kwargs : List (String × V)) :
    Except PyErr V := do
  let deg ← degreesFlag w dflt kwargs
  let kwargs := kwargs.filter fun p => p.1 ≠ "degrees"
  if !deg then func args kwargs                                          -- 77-78
  else
    let args ← convertArgs w inInds args
    let kwargs ← convertKwargs w inKeys kwargs
    let ret ← func args kwargs
    convertRet w out ret

end AngleUnits

end Pyorb
