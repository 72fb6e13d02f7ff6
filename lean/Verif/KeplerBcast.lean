import Verif.Kepler

/-!
# Model of the scalar formulas of `/repo/pyorb/kepler.py` on arrays

Radius, speed, period, angular momentum and asymptote take floats or arrays of any shape.  Their bodies are chains of arithmetic operators and numpy functions;
here each operator is rendered with numpy's broadcasting, and with python's own arithmetic when both operands are python scalars.
-/

namespace Pyorb
variable {α : Type} [Np α]

/-! ## Values -/

/-- A numpy array (or numpy scalar, with no axes): its shape with the last axis first, and its elements by index, last axis first. -/
structure BArr (α : Type) where
  rshape : List Nat
  get : List Nat → α

/-- A `numpy.ndarray or float` argument: a python number or a numpy value. -/
inductive BArg (α : Type)
  | py (x : α)
  | np (A : BArr α)

/-- shape, last axis first; a number has no axes -/
def BArg.rshape : BArg α → List Nat
  | .py _ => []
  | .np A => A.rshape

/-- the index at which a broadcast array reads an array of shape `s`: axes that it does not have are dropped, along axes of length 1 it reads position 0 -/
def clip : List Nat → List Nat → List Nat
  | [], _ => []
  | n :: s, i => (if n = 1 then 0 else i.headD 0) :: clip s i.tail

/-- element of an operand at an index of the result -/
def BArg.at (x : BArg α) (i : List Nat) : α :=
  match x with
  | .py x => x
  | .np A => A.get (clip A.rshape i)

/-- numpy's rule for the shape of the result of a binary operator (shapes with the last axis first) -/
def bshape : List Nat → List Nat → Option (List Nat)
  | [], t => some t
  | s, [] => some s
  | m :: s, n :: t =>
    if m = n ∨ n = 1 then (bshape s t).map (m :: ·)
    else if m = 1 then (bshape s t).map (n :: ·)
    else none

/-! ## Operators -/

/-- a numpy function of one argument: `np.sqrt(x)`, `np.cos(x)`, ...; the result is a numpy value also for python numbers -/
def ufunc1 (f : α → α) (x : BArg α) : BArg α := .np ⟨x.rshape, fun i => f (x.at i)⟩

/-- `x**2`, `x**3.0`, `-x`: python's for a python number -/
def pyop1 (f : α → α) : BArg α → BArg α
  | .py x => .py (f x)
  | .np A => ufunc1 f (.np A)

/-- `x + y`, `x - y`, `x*y` -/
def pyop2 (f : α → α → α) (x y : BArg α) : Except PyErr (BArg α) :=
  match x, y with
  | .py a, .py b => .ok (.py (f a b))
  | x, y =>
    match bshape x.rshape y.rshape with
    | some s => .ok (.np ⟨s, fun i => f (x.at i) (y.at i)⟩)
    | none => .error .valueError

/-- `x/y`: python numbers raise when the divisor is zero -/
def pydiv (x y : BArg α) : Except PyErr (BArg α) :=
  match x, y with
  | .py a, .py b => if b =ᵇ 0 then .error .zeroDivisionError else .ok (.py (a / b))
  | x, y => pyop2 (· / ·) x y

/-- `if degrees: _x = np.radians(x) else: _x = x` -/
def inRad (deg : Bool) (x : BArg α) : BArg α := if deg then ufunc1 radians x else x

/-! ## The functions -/

/-- `orbit_total_angular_momentum` (kepler.py 585-603): `np.sqrt(mu*a*(1 - e**2))` -/
def orbit_total_angular_momentumB (a e mu : BArg α) : Except PyErr (BArg α) := do
  let p ← pyop2 (· * ·) mu a
  let q ← pyop2 (· - ·) (.py 1) (pyop1 sq e)
  let r ← pyop2 (· * ·) p q
  return ufunc1 Np.sqrt r

/-- `parabolic_total_angular_momentum` (kepler.py 606-622): `np.sqrt(mu*2*q)` -/
def parabolic_total_angular_momentumB (q mu : BArg α) : Except PyErr (BArg α) := do
  let p ← pyop2 (· * ·) mu (.py 2)
  let r ← pyop2 (· * ·) p q
  return ufunc1 Np.sqrt r

/-- `orbital_distance` (kepler.py 826-855): `h**2/(mu*(1 + e*np.cos(_nu)))` -/
def orbital_distanceB (h mu e nu : BArg α) (deg : Bool) : Except PyErr (BArg α) := do
  let c ← pyop2 (· * ·) e (ufunc1 Np.cos (inRad deg nu))
  let d ← pyop2 (· + ·) (.py 1) c
  let m ← pyop2 (· * ·) mu d
  pydiv (pyop1 sq h) m

/-- `elliptic_radius` (kepler.py 858-884): `a*(1.0 - e*np.cos(_E))` -/
def elliptic_radiusB (E a e : BArg α) (deg : Bool) : Except PyErr (BArg α) := do
  let c ← pyop2 (· * ·) e (ufunc1 Np.cos (inRad deg E))
  let d ← pyop2 (· - ·) (.py 1) c
  pyop2 (· * ·) a d

/-- `parabolic_radius` (kepler.py 887-911): `2.0*q/(1.0 + np.cos(_nu))` -/
def parabolic_radiusB (nu q : BArg α) (deg : Bool) : Except PyErr (BArg α) := do
  let p ← pyop2 (· * ·) (.py 2) q
  let d ← pyop2 (· + ·) (.py 1) (ufunc1 Np.cos (inRad deg nu))
  pydiv p d

/-- `hyperbolic_radius` (kepler.py 914-940): `a*(e**2 - 1.0)/(1.0 + e*np.cos(_nu))` -/
def hyperbolic_radiusB (nu a e : BArg α) (deg : Bool) : Except PyErr (BArg α) := do
  let p ← pyop2 (· - ·) (pyop1 sq e) (.py 1)
  let q ← pyop2 (· * ·) a p
  let c ← pyop2 (· * ·) e (ufunc1 Np.cos (inRad deg nu))
  let d ← pyop2 (· + ·) (.py 1) c
  pydiv q d

/-- `orbital_speed` (kepler.py 1382-1401): `np.sqrt(mu*(2.0/r - 1.0/a))` -/
def orbital_speedB (r a mu : BArg α) : Except PyErr (BArg α) := do
  let p ← pydiv (.py 2) r
  let q ← pydiv (.py 1) a
  let d ← pyop2 (· - ·) p q
  let m ← pyop2 (· * ·) mu d
  return ufunc1 Np.sqrt m

/-- `orbital_period` (kepler.py 1404-1421): `2.0*np.pi*np.sqrt(a**3.0/mu)` -/
def orbital_periodB (a mu : BArg α) : Except PyErr (BArg α) := do
  let p ← pyop2 (· * ·) (.py 2) (.py Np.pi)
  let q ← pydiv (pyop1 cube a) mu
  pyop2 (· * ·) p (ufunc1 Np.sqrt q)

/-- `semi_major_axis` (kepler.py 1424-1443): `np.cbrt((P/(2.0*np.pi))**2*mu)` -/
def semi_major_axisB (P mu : BArg α) : Except PyErr (BArg α) := do
  let p ← pyop2 (· * ·) (.py 2) (.py Np.pi)
  let q ← pydiv P p
  let r ← pyop2 (· * ·) (pyop1 sq q) mu
  return ufunc1 Np.cbrt r

/-- `true_of_the_asymptote` (kepler.py 1446-1467): `np.arccos(-1.0/e)` -/
def true_of_the_asymptoteB (e : BArg α) (deg : Bool) : Except PyErr (BArg α) := do
  let q ← pydiv (.py (-1)) e
  return if deg then ufunc1 degrees (ufunc1 Np.arccos q) else ufunc1 Np.arccos q

/-! ## `kep_equivalent` on vectors -/

/-- An argument of `kep_equivalent`: something without `shape` (a list, a float), an array without axes, a vector, an array of two or more axes. -/
inductive EqArg (α : Type)
  | noShape
  | scalar (x : α)
  | vec (v : List α)
  | more

/-- `len(kep.shape) > 1` (kepler.py 555) -/
def EqArg.tooMany : EqArg α → Except PyErr Bool
  | .noShape => .error .attributeError
  | .more => .ok true
  | _ => .ok false

/-- `kep[k]` -/
def EqArg.get (x : EqArg α) (k : Nat) : Except PyErr α :=
  match x with
  | .vec v => match v[k]? with
    | some x => .ok x
    | none => .error .indexError
  | _ => .error .indexError

/-- `np.allclose` on vectors: equal lengths, or one of them has a single element -/
def allcloseV (v w : List α) : Except PyErr Bool :=
  match v, w with
  | [x], w => .ok (w.all fun y => isclose x y)
  | v, [y] => .ok (v.all fun x => isclose x y)
  | v, w => if v.length = w.length then .ok ((v.zip w).all fun p => isclose p.1 p.2) else .error .valueError

/-- `np.allclose(kep1, kep2)` -/
def EqArg.allclose : EqArg α → EqArg α → Except PyErr Bool
  | .scalar x, .scalar y => .ok (isclose x y)
  | .scalar x, .vec w => .ok (w.all fun y => isclose x y)
  | .vec v, .scalar y => .ok (v.all fun x => isclose x y)
  | .vec v, .vec w => allcloseV v w
  | _, _ => .error .typeError

/-- `kep_equivalent` on any two arguments (kepler.py 550-582). -/
def kep_equivalentV (k1 k2 : EqArg α) : Except PyErr Bool := do
  if ← k1.tooMany then throw .valueError                                  -- 555
  if ← k2.tooMany then throw .valueError
  if ← k1.allclose k2 then return true                                    -- 557
  if !isclose (← k1.get 0) (← k2.get 0) then return false                 -- 560
  let e1 ← k1.get 1                                                       -- 564
  let near ← if e1 <ᵇ e_lim then (do return (← k2.get 1) <ᵇ e_lim) else pure false
  if near then
    if !isclose ((← k1.get 3) + (← k1.get 5)) ((← k2.get 3) + (← k2.get 5)) then return false
  else
    if !isclose (← k1.get 3) (← k2.get 3) then return false               -- 569
    if !isclose (← k1.get 5) (← k2.get 5) then return false               -- 570
  let i1 ← k1.get 2                                                       -- 575
  let inclined ← if i_lim <ᵇ i1 then pure true else (do return i_lim <ᵇ (← k2.get 2))
  if inclined then
    if !isclose (← k1.get 2) (← k2.get 2) then return false
    if !isclose (← k1.get 4) (← k2.get 4) then return false
  return true                                                             -- 582

end Pyorb
