import Verif.Kepler
import Verif.OrbitNum
import Verif.Unit

/-!
# Model of the class `Orbit` of `/repo/pyorb/orbit.py`

The object is a record of parallel arrays; every method is a function from the object to a result or an exception and the
object left behind (also when an exception is raised half way).  The numerical functions the class calls are fields of an
arbitrary `Kern α`, so that theorems about the bookkeeping hold for every arithmetic; `Verif/OrbitReal.lean` gives the
kernel made of the functions modelled in `Verif/Kepler.lean`.

Simplifications: dtype is float64; one-row values (`orb.a = ..`) are scalars, 0-d arrays or 1-d numpy arrays; `num` in
`allocate`/`add` is not negative; unknown attributes set by the user and subclassing are left out; the uninitialised memory
that leaks out of the anomaly functions for a NaN eccentricity (C07) is one unknown but fixed value of the kernel.
-/

namespace Pyorb

/-- `Orbit.ANOMALY` (orbit.py 98) -/
inductive Anom
  | tru | ecc | mean
  deriving DecidableEq, Repr, Inhabited

/-- The numerical functions used by `Orbit`, one orbit at a time.  The first `Bool` of the anomaly conversions says whether
the scalar path is used (an integer index selects a numpy scalar), the other one is `degrees`. -/
structure Kern (α : Type) where
  zero : α
  nan : α
  isnan : α → Bool
  isnan_nan : isnan nan = true
  /-- `G*(M0 + m)` -/
  mu : α → α → α → α
  kepToCart : Bool → α → Kep α → Cart α
  cartToKep : Bool → α → Cart α → Kep α
  trueToEcc : Bool → Bool → α → α → α
  trueToMean : Bool → Bool → α → α → α
  eccToTrue : Bool → Bool → α → α → α
  eccToMean : Bool → Bool → α → α → α
  meanToTrue : SolverOpts α → Bool → Bool → α → α → α
  meanToEcc : SolverOpts α → Bool → Bool → α → α → α
  kepToEqui : Bool → Kep α → Equi α
  equiToKep : Bool → Equi α → Kep α
  /-- `orbital_period(a, mu)` -/
  period : α → α → α
  /-- `norm_/period` -/
  motion : Bool → α → α
  /-- `M + n*dt` -/
  advance : α → α → α → α
  /-- `np.mod(.., wrap_)` -/
  wrapM : Bool → α → α
  apoapsis : α → α → α
  periapsis : α → α → α
  /-- `M + omega + Omega` -/
  meanLon : α → α → α → α
  /-- `np.linalg.norm(v)` -/
  speedOf : Cart α → α
  /-- the state with its velocity multiplied by `value/np.linalg.norm(v)` -/
  scaleV : Cart α → α → Cart α
  /-- `orbital_speed(elliptic_radius(E, a, e), a, mu)` -/
  speed : Bool → α → α → α → α → α

/-- `Orbit._eccentric_anomaly`: an array, or a numpy scalar after `calc_eccentric_anomaly` with an integer index -/
inductive Cache (α : Type)
  | arr (l : List α)
  | sc (x : α)

/-- The attributes of an `Orbit` (orbit.py 102-135, 325-341).  `_cart` and `_kep` are stored by columns. -/
structure Orb (α : Type) where
  auto : Bool
  direct : Bool
  G : α
  M0 : α
  opts : SolverOpts α
  epoch : Option α
  degrees : Bool
  type : Anom
  kro : Bool
  cro : Bool
  m : List α
  cart : List (Cart α)
  kep : List (Kep α)
  tA : List α
  eA : Cache α
  mA : List α
  cartCalc : List Bool
  kepCalc : List Bool
  it : Option Nat

section Data
variable {α : Type}

/-- some element of the column satisfies `p` -/
def Kep.any (p : α → Bool) (k : Kep α) : Bool := p k.a || p k.e || p k.i || p k.om || p k.OM || p k.nu
/-- some element of the column satisfies `p` -/
def Cart.any (p : α → Bool) (c : Cart α) : Bool := p c.x || p c.y || p c.z || p c.vx || p c.vy || p c.vz

/-- column with entry `i` replaced; `i` follows `Orbit.KEPLER` (orbit.py 96) -/
def Kep.set (k : Kep α) (i : Fin 6) (x : α) : Kep α :=
  match i with
  | 0 => { k with a := x } | 1 => { k with e := x } | 2 => { k with i := x } | 3 => { k with om := x }
  | 4 => { k with OM := x } | 5 => { k with nu := x }
/-- entry `i` of a column -/
def Kep.get (k : Kep α) (i : Fin 6) : α :=
  match i with
  | 0 => k.a | 1 => k.e | 2 => k.i | 3 => k.om | 4 => k.OM | 5 => k.nu
/-- column with entry `i` replaced; `i` follows `Orbit.CARTESIAN` (orbit.py 95) -/
def Cart.set (c : Cart α) (i : Fin 6) (x : α) : Cart α :=
  match i with
  | 0 => { c with x := x } | 1 => { c with y := x } | 2 => { c with z := x } | 3 => { c with vx := x }
  | 4 => { c with vy := x } | 5 => { c with vz := x }
/-- entry `i` of a column -/
def Cart.get (c : Cart α) (i : Fin 6) : α :=
  match i with
  | 0 => c.x | 1 => c.y | 2 => c.z | 3 => c.vx | 4 => c.vy | 5 => c.vz

/-- column of six equal entries -/
def Kep.const (x : α) : Kep α := ⟨x, x, x, x, x, x⟩
/-- column of six equal entries -/
def Cart.const (x : α) : Cart α := ⟨x, x, x, x, x, x⟩

/-- A value assigned to one row: python/numpy scalar, 0-d array, 1-d array. -/
inductive Val (α : Type)
  | sc (x : α)
  | zd (x : α)
  | vec (xs : List α)

/-- numpy broadcasting of an assigned value to `k` places -/
def Val.spread (k : Nat) : Val α → Except PyErr (List α)
  | .sc x => .ok (List.replicate k x)
  | .zd x => .ok (List.replicate k x)
  | .vec [x] => .ok (List.replicate k x)
  | .vec xs => if xs.length = k then .ok xs else .error .valueError

/-- A value assigned to six rows: scalar, 1-d (a numpy array if `nd`, else a list or tuple), or 6 x L given by columns. -/
inductive Val6 (α C : Type)
  | sc (x : α)
  | vec (nd : Bool) (xs : List α)
  | mat (cs : List C)

/-- Columns obtained by broadcasting a six-row value to `k` columns by the rules of `A[:, inds] = value`: a 1-d value is a
row, its entry `j` goes to all six rows of column `j`. -/
def Val6.spread {C : Type} (const : α → C) (k : Nat) : Val6 α C → Except PyErr (List C)
  | .sc x => .ok (List.replicate k (const x))
  | .vec _ [x] => .ok (List.replicate k (const x))
  | .vec _ xs => if xs.length = k then .ok (xs.map const) else .error .valueError
  | .mat [c] => .ok (List.replicate k c)
  | .mat cs => if cs.length = k then .ok cs else .error .valueError

/-- A value assigned to one column (integer index): a 1-d value is the column. -/
def Val6.one {C : Type} (const : α → C) (col : List α → Option C) : Val6 α C → Except PyErr C
  | .sc x => .ok (const x)
  | .vec _ [x] => .ok (const x)
  | .vec _ xs => match col xs with | some c => .ok c | none => .error .valueError
  | .mat _ => .error .valueError

/-- The preparation done by the setters `cartesian` and `kepler` (orbit.py 557-563, 696-702): a 1-d numpy array becomes one
column `value[:, None]`. -/
def Val6.setter {C : Type} (const : α → C) (col : List α → Option C) (k : Nat) (v : Val6 α C) : Except PyErr (List C) :=
  match v with
  | .vec true [x] => .ok (List.replicate k (const x))
  | .vec true xs => match col xs with | some c => .ok (List.replicate k c) | none => .error .valueError
  | v => v.spread const k

/-- six numbers as a column -/
def Kep.ofList : List α → Option (Kep α)
  | [a, b, c, d, e, f] => some ⟨a, b, c, d, e, f⟩
  | _ => none
/-- six numbers as a column -/
def Cart.ofList : List α → Option (Cart α)
  | [a, b, c, d, e, f] => some ⟨a, b, c, d, e, f⟩
  | _ => none

/-- three numbers -/
structure Tri (α : Type) where
  x : α
  y : α
  z : α

/-- replace the position -/
def Cart.setR (c : Cart α) (t : Tri α) : Cart α := ⟨t.x, t.y, t.z, c.vx, c.vy, c.vz⟩
/-- replace the velocity -/
def Cart.setV (c : Cart α) (t : Tri α) : Cart α := ⟨c.x, c.y, c.z, t.x, t.y, t.z⟩
/-- the position rows -/
def Cart.getR (c : Cart α) : Tri α := ⟨c.x, c.y, c.z⟩
/-- the velocity rows -/
def Cart.getV (c : Cart α) : Tri α := ⟨c.vx, c.vy, c.vz⟩

/-! ## Index selections -/

/-- `inds`: a slice, an integer, a list/array of integers, or a boolean mask. -/
inductive Inds
  | slice (start stop : Option Int) (step : Int)
  | int (i : Int)
  | list (is : List Int)
  | mask (bs : List Bool)

/-- `slice(None, None, None)` -/
def Inds.all : Inds := .slice none none 1

/-- the python function `slice.indices` (start, stop) for length `n` and a positive step -/
def sliceUp (n : Nat) (start stop : Option Int) : Int × Int :=
  let cl := fun (x : Int) => if x < 0 then max (x + n) 0 else min x n
  (match start with | some x => cl x | none => 0, match stop with | some x => cl x | none => n)

/-- the python function `slice.indices` (start, stop) for length `n` and a negative step -/
def sliceDown (n : Nat) (start stop : Option Int) : Int × Int :=
  let cl := fun (x : Int) => if x < 0 then max (x + n) (-1) else min x (n - 1)
  (match start with | some x => cl x | none => n - 1, match stop with | some x => cl x | none => -1)

/-- positions selected by a slice -/
def slicePos (n : Nat) (start stop : Option Int) (step : Int) : List Nat :=
  if 0 < step then
    let (a, b) := sliceUp n start stop
    (List.range ((b - a + step - 1) / step).toNat).map fun k : Nat => (a + (k : Int) * step).toNat
  else
    let (a, b) := sliceDown n start stop
    (List.range ((a - b - step - 1) / -step).toNat).map fun k : Nat => (a + (k : Int) * step).toNat

/-- positions of the `true` entries -/
def maskPos (bs : List Bool) : List Nat := (List.range bs.length).filter fun j => bs.getD j false

/-- positions selected in an axis of length `n`, in order; errors as numpy indexing raises them -/
def Inds.pos (n : Nat) : Inds → Except PyErr (List Nat)
  | .slice a b s => if s = 0 then .error .valueError else .ok (slicePos n a b s)
  | .int i => match pyIndex n i with | some j => .ok [j] | none => .error .indexError
  | .list is => is.mapM fun i => match pyIndex n i with | some j => .ok j | none => .error .indexError
  | .mask bs => if bs.length = n then .ok (maskPos bs) else .error .indexError

/-- the index is an integer, so a selection drops the axis -/
def Inds.isInt : Inds → Bool
  | .int _ => true
  | _ => false

/-- `l[ps] = vs`, entry by entry (a repeated position keeps the last value) -/
def writeAt {β γ : Type} (w : β → γ → β) (l : List β) (ps : List Nat) (vs : List γ) : List β :=
  (ps.zip vs).foldl (fun l p => l.modify p.1 (fun b => w b p.2)) l

/-- `l[ps]` -/
def gather {β : Type} (l : List β) (ps : List Nat) : List β := ps.filterMap fun p => l[p]?

/-- the exception of `np.delete` for indices that indexing rejects with `e` -/
def Inds.delErr (inds : Inds) (e : PyErr) : PyErr := match inds with | .mask _ => .valueError | _ => e

/-- `np.delete(l, inds)`; a mask of the wrong length is a ValueError here -/
def npDelete {β : Type} (l : List β) (inds : Inds) : Except PyErr (List β) :=
  match inds.pos l.length with
  | .ok ps => .ok ((l.zipIdx.filter fun x => !ps.contains x.2).map Prod.fst)
  | .error e => .error (inds.delErr e)

/-- numpy broadcasting of a binary operation on 1-d `xs` and a value -/
def bcast {β : Type} (f : α → α → β) (xs : List α) : Val α → Except PyErr (List β)
  | .sc y => .ok (xs.map fun x => f x y)
  | .zd y => .ok (xs.map fun x => f x y)
  | .vec ys =>
    if ys.length = xs.length then .ok (List.zipWith f xs ys)
    else match xs, ys with
      | xs, [y] => .ok (xs.map fun x => f x y)
      | [x], ys => .ok (ys.map (f x))
      | _, _ => .error .valueError

/-- An anomaly function called with a user value and the array `self.e` (shape check of kepler.py, see `unify`): a scalar is
expanded, a 0-d array has the wrong shape unless `np.radians` turned it into a scalar. -/
def convVal (deg : Bool) (f : α → α → α) (v : Val α) (es : List α) : Except PyErr (List α) :=
  match v with
  | .sc x => .ok (es.map (f x))
  | .zd x => if deg then .ok (es.map (f x)) else .error .typeError
  | .vec xs => if xs.length = es.length then .ok (List.zipWith f xs es) else .error .typeError

end Data

/-! ## The monad: state and exceptions -/

/-- A method body: it reads and changes the object, and returns or raises.  An exception keeps the object as it is. -/
def Py (α β : Type) : Type := Orb α → Except PyErr β × Orb α

namespace Py
variable {α β γ : Type}

/-- sequencing; an exception skips the rest -/
def bind (x : Py α β) (f : β → Py α γ) : Py α γ := fun s =>
  match x s with
  | (.ok b, s') => f b s'
  | (.error e, s') => (.error e, s')

instance : Monad (Py α) where
  pure b := fun s => (.ok b, s)
  bind := Py.bind

/-- `raise` -/
def raise (e : PyErr) : Py α β := fun s => (.error e, s)
/-- the object -/
def self : Py α (Orb α) := fun s => (.ok s, s)
/-- change the object -/
def upd (f : Orb α → Orb α) : Py α Unit := fun s => (.ok (), f s)
/-- a computation that may raise -/
def lift (x : Except PyErr β) : Py α β := fun s => (x, s)

end Py

namespace Orbit
open Py
variable {α : Type} (K : Kern α)

/-! ## Recalculation -/

/-- element access with a default, for the vectorised formulas -/
def kepAt (s : Orb α) (j : Nat) : Kep α := s.kep.getD j (Kep.const K.nan)
/-- see `kepAt` -/
def cartAt (s : Orb α) (j : Nat) : Cart α := s.cart.getD j (Cart.const K.nan)
/-- `self.G*(self.M0 + self.m)` at orbit `j` -/
def muAt (s : Orb α) (j : Nat) : α := K.mu s.G s.M0 (s.m.getD j K.zero)

/-- `do_inds` of `calculate_kepler`: selected, and no NaN in the Cartesian column (orbit.py 475-478) -/
def doKep (P : Nat → Bool) (s : Orb α) (j : Nat) : Bool :=
  P j && decide (j < s.cart.length) && !(cartAt K s j).any K.isnan
/-- `do_inds` of `calculate_cartesian` (orbit.py 446-449) -/
def doCart (P : Nat → Bool) (s : Orb α) (j : Nat) : Bool :=
  P j && decide (j < s.kep.length) && !(kepAt K s j).any K.isnan

/-- `np.sum(do_inds) != 0` -/
def anyDo (n : Nat) (d : Nat → Bool) : Bool := (List.range n).any d

/-- first half of `calculate_kepler` (orbit.py 483-488): mark and convert the columns `d` -/
def storeKep (d : Nat → Bool) (s : Orb α) : Orb α :=
  { s with
    kepCalc := s.kepCalc.mapIdx fun j b => if d j then true else b
    kep := s.kep.mapIdx fun j k => if d j then K.cartToKep s.degrees (muAt K s j) (cartAt K s j) else k }

/-- second half of `calculate_kepler` (orbit.py 490-501): convert the anomaly in the columns `d`; `s1` is the object when
`self._kep[5, do_inds]` is read, `s2` the object after `self.e` is read -/
def storeAnom (d : Nat → Bool) (conv : Bool → α → α → α) (s1 s2 : Orb α) : Orb α :=
  { s2 with
    kep := s2.kep.mapIdx fun j k =>
      if d j then { k with nu := conv s2.degrees (kepAt K s1 j).nu (kepAt K s2 j).e } else k }

/-- `calculate_kepler` (orbit.py 468-501) for the positions `P`.  The read of `self.e` in 488-499 goes through `_kep_check`
and can start a nested recalculation; `fuel` bounds the nesting (`Verif/OrbitCalc.lean`: more than two is never needed). -/
def calcKep : Nat → (Nat → Bool) → Orb α → Orb α
  | 0, _, s => s
  | fuel + 1, P, s =>
    let d := doKep K P s                                                                       -- 475-478
    if anyDo s.cart.length d then
      let s1 := storeKep K d s                                                                 -- 483-488
      let check := fun s : Orb α =>
        if s.auto && !s.direct then calcKep fuel (fun j => !s.kepCalc.getD j true) s else s    -- `_kep_check` of `self.e`
      match s.type with
      | .tru => s1
      | .ecc => storeAnom K d (K.trueToEcc false) s1 (check s1)                                -- 491
      | .mean => storeAnom K d (K.trueToMean false) s1 (check s1)                              -- 497
    else s                                                                                     -- 480-481

/-- nesting depth used in the model -/
def depth : Nat := 3

/-- `_kep_check` (orbit.py 157-161) -/
def kepCheck (s : Orb α) : Orb α :=
  if s.auto && !s.direct then calcKep K depth (fun j => !s.kepCalc.getD j true) s else s

/-- `self._true_anomaly[P] = f(anom, e)` with `anom` read in `s1` and `e` read in `s2` -/
def storeTrue (P : Nat → Bool) (f : α → α → α) (s1 s2 : Orb α) : Orb α :=
  { s2 with tA := s2.tA.mapIdx fun j x => if P j then f (kepAt K s1 j).nu (kepAt K s2 j).e else x }
/-- `self._mean_anomaly[P] = f(anom, e)` with `anom` read in `s1` and `e` read in `s2` -/
def storeMean (P : Nat → Bool) (f : α → α → α) (s1 s2 : Orb α) : Orb α :=
  { s2 with mA := s2.mA.mapIdx fun j x => if P j then f (kepAt K s1 j).nu (kepAt K s2 j).e else x }

/-- `calc_true_anomaly` for the positions `P` (orbit.py 844-863); `sc`: called with an integer index.  `self.anom` and
`self.e` both go through `_kep_check`. -/
def calcTrue (sc : Bool) (P : Nat → Bool) (s : Orb α) : Orb α :=
  let s1 := kepCheck K s                                                                       -- self.anom
  let s2 := kepCheck K s1                                                                      -- self.e
  match s.type with
  | .ecc => storeTrue K P (K.eccToTrue sc s.degrees) s1 s2
  | .mean => storeTrue K P (K.meanToTrue s.opts sc s.degrees) s1 s2
  | .tru => storeTrue K P (fun nu _ => nu) s1 s1

/-- `calc_mean_anomaly` for the positions `P` (orbit.py 865-881) -/
def calcMean (sc : Bool) (P : Nat → Bool) (s : Orb α) : Orb α :=
  let s1 := kepCheck K s
  let s2 := kepCheck K s1
  match s.type with
  | .ecc => storeMean K P (K.eccToMean sc s.degrees) s1 s2
  | .tru => storeMean K P (K.trueToMean sc s.degrees) s1 s2
  | .mean => storeMean K P (fun M _ => M) s1 s1

/-- `self.__cart_calculated[do_inds] = True` (orbit.py 454) -/
def markCart (d : Nat → Bool) (s : Orb α) : Orb α :=
  { s with cartCalc := s.cartCalc.mapIdx fun j b => if d j then true else b }
/-- `self._cart[:, do_inds] = kep_to_cart(tmp, ..)` (orbit.py 462-466) -/
def storeCart (d : Nat → Bool) (tmp : Nat → Kep α) (s : Orb α) : Orb α :=
  { s with cart := s.cart.mapIdx fun j c => if d j then K.kepToCart s.degrees (muAt K s j) (tmp j) else c }

/-- `calculate_cartesian` (orbit.py 439-466) for the positions `P`.  `kep_tmp` is a copy made before the true anomaly is
calculated; the function `kep_to_cart` changes only that copy. -/
def calcCart (P : Nat → Bool) (s : Orb α) : Orb α :=
  let d := doCart K P s                                                                        -- 446-449
  if anyDo s.kep.length d then
    let s1 := markCart d s                                                                     -- 454
    if s.type = .tru then storeCart K d (kepAt K s1) s1                                        -- 455-456
    else
      let s2 := calcTrue K false d s1                                                          -- 459
      storeCart K d (fun j => { kepAt K s1 j with nu := s2.tA.getD j K.nan }) s2               -- 458, 460, 462
  else s                                                                                       -- 451-452

/-- `_cart_check` (orbit.py 151-155) -/
def cartCheck (s : Orb α) : Orb α :=
  if s.auto && !s.direct then calcCart K (fun j => !s.cartCalc.getD j true) s else s

/-- `num` (orbit.py 503-511) -/
def num : Py α Nat := do
  let s ← self
  if s.kep.length = s.cart.length then pure s.kep.length else raise .assertionError

/-- `calculate_cartesian(inds)` (orbit.py 439-466) -/
def calculate_cartesian (inds : Inds) : Py α Unit := do
  let n ← num
  let ps ← lift (inds.pos n)
  upd (calcCart K fun j => ps.contains j)

/-- `calculate_kepler(inds)` (orbit.py 468-501) -/
def calculate_kepler (inds : Inds) : Py α Unit := do
  let n ← num
  let ps ← lift (inds.pos n)
  upd (calcKep K depth fun j => ps.contains j)

/-- `calc_true_anomaly(inds)` (orbit.py 844-863) -/
def calc_true_anomaly (inds : Inds) : Py α Unit := do
  let s ← self
  match inds.pos s.kep.length with
  | .ok ps => upd (calcTrue K inds.isInt fun j => ps.contains j)
  | .error e => do upd (kepCheck K); raise e

/-- `calc_mean_anomaly(inds)` (orbit.py 865-881) -/
def calc_mean_anomaly (inds : Inds) : Py α Unit := do
  let s ← self
  match inds.pos s.kep.length with
  | .ok ps => upd (calcMean K inds.isInt fun j => ps.contains j)
  | .error e => do upd (kepCheck K); raise e

/-- `self._eccentric_anomaly[inds] = vals` -/
def writeEcc (c : Cache α) (inds : Inds) (vals : List α) : Except PyErr (Cache α) :=
  match c with
  | .sc _ => .error .typeError
  | .arr l => do
    let ps ← inds.pos l.length
    let vs ← (Val.vec vals).spread ps.length
    pure (.arr (writeAt (fun _ x => x) l ps vs))

/-- `calc_eccentric_anomaly(inds)` (orbit.py 883-901).  For type mean the attribute itself is replaced (889). -/
def calc_eccentric_anomaly (inds : Inds) : Py α Unit := do
  upd (kepCheck K)                                                                             -- self.anom
  let s1 ← self
  let ps ← lift (inds.pos s1.kep.length)
  match s1.type with
  | .mean => do
    upd (kepCheck K)                                                                           -- self.e
    let s2 ← self
    let vals := ps.map fun j => K.meanToEcc s2.opts inds.isInt s2.degrees (kepAt K s1 j).nu (kepAt K s2 j).e
    upd fun s => { s with eA := if inds.isInt then .sc (vals.getD 0 K.nan) else .arr vals }
  | .tru => do
    upd (kepCheck K)
    let s2 ← self
    let vals := ps.map fun j => K.trueToEcc inds.isInt s2.degrees (kepAt K s1 j).nu (kepAt K s2 j).e
    let c ← lift (writeEcc s2.eA inds vals)
    upd fun s => { s with eA := c }
  | .ecc => do
    let c ← lift (writeEcc s1.eA inds (ps.map fun j => (kepAt K s1 j).nu))
    upd fun s => { s with eA := c }

/-! ## Getters -/

/-- the getters `r` and `v` (orbit.py 513-518, 530-535), one row triple per orbit -/
def get_r : Py α (List (Tri α)) := do upd (cartCheck K); let s ← self; pure (s.cart.map Cart.getR)
/-- see `get_r` -/
def get_v : Py α (List (Tri α)) := do upd (cartCheck K); let s ← self; pure (s.cart.map Cart.getV)
/-- `cartesian` getter (orbit.py 547-552) -/
def get_cartesian : Py α (List (Cart α)) := do upd (cartCheck K); let s ← self; pure s.cart
/-- `x .. vz` getters (orbit.py 571-682) -/
def get_cart (i : Fin 6) : Py α (List α) := do upd (cartCheck K); let s ← self; pure (s.cart.map (·.get i))
/-- `kepler` getter (orbit.py 684-689) -/
def get_kepler : Py α (List (Kep α)) := do upd (kepCheck K); let s ← self; pure s.kep
/-- `a, e, i, omega, Omega, anom` getters (orbit.py 709-816) -/
def get_kep (i : Fin 6) : Py α (List α) := do upd (kepCheck K); let s ← self; pure (s.kep.map (·.get i))
/-- `period` getter (orbit.py 1042-1047) -/
def get_period : Py α (List α) := do
  upd (kepCheck K)
  let a ← get_kep K 0
  let s ← self
  pure (List.zipWith (fun a m => K.period a (K.mu s.G s.M0 m)) a s.m)
/-- `mean_motion` getter (orbit.py 818-827) -/
def get_mean_motion : Py α (List α) := do
  let P ← get_period K
  let s ← self
  pure (P.map (K.motion s.degrees))
/-- `true_anomaly` getter (orbit.py 940-947) -/
def get_true_anomaly : Py α (List α) := do
  let s ← self
  if s.type = .tru then get_kep K 5 else do
    calc_true_anomaly K .all
    let s ← self
    pure s.tA
/-- `mean_anomaly` getter (orbit.py 974-981) -/
def get_mean_anomaly : Py α (List α) := do
  let s ← self
  if s.type = .mean then get_kep K 5 else do
    calc_mean_anomaly K .all
    let s ← self
    pure s.mA
/-- the array read by `eccentric_anomaly`; a scalar cache has one entry -/
def Cache.toList : Cache α → List α
  | .arr l => l
  | .sc x => [x]
/-- `eccentric_anomaly` getter (orbit.py 903-915) -/
def get_eccentric_anomaly : Py α (List α) := do
  let s ← self
  if s.type = .ecc then get_kep K 5 else do
    calc_eccentric_anomaly K .all
    let s ← self
    pure (Cache.toList s.eA)
/-- `apoapsis` (orbit.py 1012-1014) -/
def get_apoapsis : Py α (List α) := do
  let e ← get_kep K 1
  let a ← get_kep K 0
  pure (List.zipWith K.apoapsis e a)
/-- `periapsis` (orbit.py 1016-1018) -/
def get_periapsis : Py α (List α) := do
  let e ← get_kep K 1
  let a ← get_kep K 0
  pure (List.zipWith K.periapsis e a)
/-- `mean_longitude` (orbit.py 1020-1022) -/
def get_mean_longitude : Py α (List α) := do
  let M ← get_mean_anomaly K
  let om ← get_kep K 3
  let OM ← get_kep K 4
  pure (List.zipWith (fun x z => K.meanLon x.1 x.2 z) (M.zip om) OM)
/-- `equinoctial` getter (orbit.py 1024-1031), by columns; for one orbit the code drops the second axis -/
def get_equinoctial : Py α (List (Equi α)) := do
  let kep ← get_kepler K
  let M ← get_mean_anomaly K
  let s ← self
  pure (List.zipWith (fun k M => K.kepToEqui s.degrees { k with nu := M }) kep M)
/-- `velocity` getter (orbit.py 1062-1067) -/
def get_velocity : Py α (List α) := do
  upd (cartCheck K)
  upd (cartCheck K)
  let s ← self
  pure (s.cart.map K.speedOf)
/-- `speed` (orbit.py 1080-1094) -/
def get_speed : Py α (List α) := do
  upd (kepCheck K)
  let E ← get_eccentric_anomaly K
  let a ← get_kep K 0
  let e ← get_kep K 1
  let a2 ← get_kep K 0
  let s ← self
  let rows := ((a.zip e).zip a2).zip s.m
  lift (match rows, E with
    | rows, E =>
      if E.length = rows.length then
        .ok (List.zipWith (fun E r => K.speed s.degrees (K.mu s.G s.M0 r.2) E r.1.2 r.1.1.2) E rows)
      else match rows, E with
        | [r], E => .ok (E.map fun E => K.speed s.degrees (K.mu s.G s.M0 r.2) E r.1.2 r.1.1.2)
        | rows, [E] => .ok (rows.map fun r => K.speed s.degrees (K.mu s.G s.M0 r.2) E r.1.2 r.1.1.2)
        | _, _ => .error .valueError)
/-- `__str__` (orbit.py 137-149): the stored columns of a single orbit, or the number of orbits -/
def str : Py α (Option (Kep α × Cart α) × Nat) := do
  let n ← num
  let s ← self
  pure (if n = 1 then some (kepAt K s 0, cartAt K s 0) else none, n)

/-! ## Setters -/

/-- all flags set to `b` -/
def allFlags (l : List Bool) (b : Bool) : List Bool := l.map fun _ => b

/-- end of the setters of single Kepler rows (orbit.py 722-725): recalculate, or mark the Cartesian elements stale -/
def afterKepEl : Py α Unit := do
  let s ← self
  if s.direct then calculate_cartesian K .all
  else upd fun s => { s with cartCalc := allFlags s.cartCalc false }
/-- end of the `kepler` setter (orbit.py 703-707) -/
def afterKep : Py α Unit := do
  let s ← self
  if s.direct then calculate_cartesian K .all
  else upd fun s => { s with cartCalc := allFlags s.cartCalc false, kepCalc := allFlags s.kepCalc true }
/-- end of the setters of single Cartesian rows (orbit.py 588-591) -/
def afterCartEl : Py α Unit := do
  let s ← self
  if s.direct then calculate_kepler K .all
  else upd fun s => { s with kepCalc := allFlags s.kepCalc false }
/-- end of the `r`, `v` and `cartesian` setters (orbit.py 524-528, 541-545, 564-569) -/
def afterCart : Py α Unit := do
  let s ← self
  if s.direct then calculate_kepler K .all
  else upd fun s => { s with kepCalc := allFlags s.kepCalc false, cartCalc := allFlags s.cartCalc true }

/-- `if self.kepler_read_only: raise AttributeError` -/
def guardKep : Py α Unit := do
  let s ← self
  if s.kro then raise .attributeError else pure ()
/-- `if self.cartesian_read_only: raise AttributeError` -/
def guardCart : Py α Unit := do
  let s ← self
  if s.cro then raise .attributeError else pure ()

/-- setters `a, e, i, omega, Omega, anom` (orbit.py 716-816) -/
def set_kep (i : Fin 6) (v : Val α) : Py α Unit := do
  guardKep
  let s ← self
  let vs ← lift (v.spread s.kep.length)
  upd fun s => { s with kep := List.zipWith (fun k x => k.set i x) s.kep vs }
  afterKepEl K
/-- setters `x .. vz` (orbit.py 584-682) -/
def set_cart (i : Fin 6) (v : Val α) : Py α Unit := do
  guardCart
  let s ← self
  let vs ← lift (v.spread s.cart.length)
  upd fun s => { s with cart := List.zipWith (fun c x => c.set i x) s.cart vs }
  afterCartEl K
/-- `kepler` setter (orbit.py 691-707) -/
def set_kepler (v : Val6 α (Kep α)) : Py α Unit := do
  guardKep
  let s ← self
  let vs ← lift (v.setter Kep.const Kep.ofList s.kep.length)
  upd fun s => { s with kep := vs }
  afterKep K
/-- `cartesian` setter (orbit.py 553-569) -/
def set_cartesian (v : Val6 α (Cart α)) : Py α Unit := do
  guardCart
  let s ← self
  let vs ← lift (v.setter Cart.const Cart.ofList s.cart.length)
  upd fun s => { s with cart := vs }
  afterCart K
/-- `r` setter (orbit.py 520-528) -/
def set_r (v : Val6 α (Tri α)) : Py α Unit := do
  guardCart
  let s ← self
  let vs ← lift (v.spread (fun x => ⟨x, x, x⟩) s.cart.length)
  upd fun s => { s with cart := List.zipWith Cart.setR s.cart vs }
  afterCart K
/-- `v` setter (orbit.py 537-545) -/
def set_v (v : Val6 α (Tri α)) : Py α Unit := do
  guardCart
  let s ← self
  let vs ← lift (v.spread (fun x => ⟨x, x, x⟩) s.cart.length)
  upd fun s => { s with cart := List.zipWith Cart.setV s.cart vs }
  afterCart K

/-- `self.anom = f(value, self.e)` -/
def setConv (deg : Bool) (f : α → α → α) (v : Val α) : Py α Unit := do
  let e ← get_kep K 1
  let vs ← lift (convVal deg f v e)
  set_kep K 5 (.vec vs)

/-- `true_anomaly` setter (orbit.py 949-972) -/
def set_true_anomaly (v : Val α) : Py α Unit := do
  guardKep
  let s ← self
  match s.type with
  | .tru => set_kep K 5 v
  | .ecc => setConv K s.degrees (K.trueToEcc false s.degrees) v
  | .mean => setConv K s.degrees (K.trueToMean false s.degrees) v
  afterKepEl K
/-- `eccentric_anomaly` setter (orbit.py 917-938) -/
def set_eccentric_anomaly (v : Val α) : Py α Unit := do
  guardKep
  let s ← self
  match s.type with
  | .ecc => set_kep K 5 v
  | .tru => setConv K s.degrees (K.eccToTrue false s.degrees) v
  | .mean => setConv K s.degrees (K.eccToMean false s.degrees) v
  afterKepEl K
/-- `mean_anomaly` setter (orbit.py 983-1010) -/
def set_mean_anomaly (v : Val α) : Py α Unit := do
  guardKep
  let s ← self
  match s.type with
  | .mean => set_kep K 5 v
  | .tru => setConv K s.degrees (K.meanToTrue s.opts false s.degrees) v
  | .ecc => setConv K s.degrees (K.meanToEcc s.opts false s.degrees) v
  afterKepEl K

/-- `period` setter (orbit.py 1049-1060): it is declared without a value parameter, so python raises before its body runs -/
def set_period (_P : Val α) : Py α Unit := raise .typeError
/-- `mean_motion` setter (orbit.py 829-842): it assigns to `self.period`.  (A python zero raises ZeroDivisionError in 836
instead.) -/
def set_mean_motion (v : Val α) : Py α Unit := do
  guardKep
  set_period v
  afterKepEl K

/-- `velocity` setter (orbit.py 1069-1078); `self.v *= ..` reads `v` twice and assigns it once -/
def set_velocity (v : Val α) : Py α Unit := do
  guardCart
  upd (cartCheck K)
  upd (cartCheck K)
  let s ← self
  let vs ← lift (v.spread s.cart.length)
  set_v K (.mat (List.zipWith (fun c x => (K.scaleV c x).getV) s.cart vs))
  afterCartEl K

/-- `equinoctial` setter (orbit.py 1033-1040): `one` is a 6-vector, whose last element `elems[5, ...]` is a 0-d array.  The
first five rows are stored before the read-only check of the `mean_anomaly` setter. -/
def set_equinoctial (v : Equi α ⊕ List (Equi α)) : Py α Unit := do
  let s ← self
  let ks := match v with | .inl q => [K.equiToKep s.degrees q] | .inr qs => qs.map (K.equiToKep s.degrees)
  let cs ← lift ((Val6.mat ks : Val6 α (Kep α)).spread Kep.const s.kep.length)
  upd fun s => { s with kep := List.zipWith (fun old new => { new with nu := old.nu }) s.kep cs }
  set_mean_anomaly K (match v with
    | .inl q => .zd (K.equiToKep s.degrees q).nu
    | .inr _ => .vec (ks.map Kep.nu))

/-- the anomaly getter called by the `type` setter -/
def get_anomaly (t : Anom) : Py α (List α) :=
  match t with
  | .tru => get_true_anomaly K
  | .ecc => get_eccentric_anomaly K
  | .mean => get_mean_anomaly K

/-- `type` setter (orbit.py 219-231); `none` is a name that is not recognised after `lower().strip()` -/
def set_type (val : Option Anom) : Py α Unit := do
  match val with
  | none => raise .valueError
  | some val => do
    let s ← self
    if s.type = val then pure () else do
      let x ← get_anomaly K val
      set_kep K 5 (.vec x)
      upd fun s => { s with type := val }

/-- `propagate(dt)` (orbit.py 233-244) -/
def propagate (dt : Val α) : Py α Unit := do
  let M ← get_mean_anomaly K
  let n ← get_mean_motion K
  let s ← self
  let nd ← lift (bcast (fun n dt => (n, dt)) n dt)
  let Ms ← lift (if nd.length = M.length then .ok (List.zipWith (fun M p => K.wrapM s.degrees (K.advance M p.1 p.2)) M nd)
    else match M with
      | [M] => .ok (nd.map fun p => K.wrapM s.degrees (K.advance M p.1 p.2))
      | _ => .error .valueError)
  set_mean_anomaly K (.vec Ms)
  let s ← self
  if s.direct then calculate_cartesian K .all else pure ()

/-! ## Allocation -/

/-- `allocate(num)` (orbit.py 325-341) -/
def allocate (n : Nat) : Py α Unit := upd fun s => { s with
  m := List.replicate n K.zero
  cart := List.replicate n (Cart.const K.nan)
  kep := List.replicate n (Kep.const K.nan)
  tA := List.replicate n K.nan
  eA := .arr (List.replicate n K.nan)
  mA := List.replicate n K.nan
  cartCalc := List.replicate n false
  kepCalc := List.replicate n false }

/-- `delete(inds)` (orbit.py 246-261), one array after the other -/
def delete (inds : Inds) : Py α Unit := do
  let s ← self
  let m ← lift (npDelete s.m inds)
  upd fun s => { s with m := m }
  let c ← lift (npDelete s.cart inds)
  upd fun s => { s with cart := c }
  let k ← lift (npDelete s.kep inds)
  upd fun s => { s with kep := k }
  let t ← lift (npDelete s.tA inds)
  upd fun s => { s with tA := t }
  let e ← lift (match s.eA with | .arr l => npDelete l inds | .sc _ => .error .valueError)
  upd fun s => { s with eA := .arr e }
  let a ← lift (npDelete s.mA inds)
  upd fun s => { s with mA := a }
  let f ← lift (npDelete s.cartCalc inds)
  upd fun s => { s with cartCalc := f }
  let f ← lift (npDelete s.kepCalc inds)
  upd fun s => { s with kepCalc := f }

/-- Keyword arguments of `update` (orbit.py 100, 343-437); other keywords are accepted and ignored. -/
structure Upd (α : Type) where
  cartesian : Option (Val6 α (Cart α)) := none
  kepler : Option (Val6 α (Kep α)) := none
  m : Option (Val α) := none
  cartEl : Fin 6 → Option (Val α) := fun _ => none
  kepEl : Fin 6 → Option (Val α) := fun _ => none
  unknown : List String := []

/-- `A[:, inds] = value` -/
def writeCols {C : Type} (const : α → C) (col : List α → Option C) (l : List C) (inds : Inds) (v : Val6 α C) :
    Except PyErr (List C) := do
  let ps ← inds.pos l.length
  if inds.isInt then do
    let c ← v.one const col
    pure (writeAt (fun _ c => c) l ps [c])
  else do
    let cs ← v.spread const ps.length
    pure (writeAt (fun _ c => c) l ps cs)

/-- `A[ind, inds] = value` -/
def writeRow {C : Type} (set : C → α → C) (l : List C) (inds : Inds) (v : Val α) : Except PyErr (List C) := do
  let ps ← inds.pos l.length
  let vs ← v.spread ps.length
  pure (writeAt set l ps vs)

/-- `flags[inds] = b` -/
def writeFlags (l : List Bool) (inds : Inds) (b : Bool) : Except PyErr (List Bool) := do
  let ps ← inds.pos l.length
  pure (writeAt (fun _ b => b) l ps (ps.map fun _ => b))

/-- `if key in kwargs: self._kep[ind, inds] = kwargs[key]` -/
def updKepRow (inds : Inds) (i : Fin 6) (v : Option (Val α)) : Py α Unit :=
  match v with
  | none => pure ()
  | some v => do
    let s ← self
    let k ← lift (writeRow (fun k x => k.set i x) s.kep inds v)
    upd fun s => { s with kep := k }
/-- `if key in kwargs: self._cart[ind, inds] = kwargs[key]` -/
def updCartRow (inds : Inds) (i : Fin 6) (v : Option (Val α)) : Py α Unit :=
  match v with
  | none => pure ()
  | some v => do
    let s ← self
    let c ← lift (writeRow (fun c x => c.set i x) s.cart inds v)
    upd fun s => { s with cart := c }
/-- the loop over `Orbit.KEPLER` writing rows (orbit.py 427-429) -/
def updKepRows (inds : Inds) (u : Fin 6 → Option (Val α)) : List (Fin 6) → Py α Unit
  | [] => pure ()
  | i :: is => do updKepRow inds i (u i); updKepRows inds u is
/-- the loop over `Orbit.CARTESIAN` writing rows (orbit.py 416-418) -/
def updCartRows (inds : Inds) (u : Fin 6 → Option (Val α)) : List (Fin 6) → Py α Unit
  | [] => pure ()
  | i :: is => do updCartRow inds i (u i); updCartRows inds u is

/-- `__kep_calculated[inds] = kc; __cart_calculated[inds] = cc` -/
def markFlags (inds : Inds) (kc cc : Bool) : Py α Unit := do
  let s ← self
  let f ← lift (writeFlags s.kepCalc inds kc)
  upd fun s => { s with kepCalc := f }
  let f ← lift (writeFlags s.cartCalc inds cc)
  upd fun s => { s with cartCalc := f }

/-- a Cartesian element is named -/
def Upd.cartUp (u : Upd α) : Bool := (List.finRange 6).any fun i => (u.cartEl i).isSome
/-- a Kepler element is named -/
def Upd.kepUp (u : Upd α) : Bool := (List.finRange 6).any fun i => (u.kepEl i).isSome

/-- recalculate or mark after Cartesian values are stored (orbit.py 374-378, 419-423) -/
def updAfterCart (inds : Inds) : Py α Unit := do
  let s ← self
  if s.direct then calculate_kepler K .all else markFlags inds false true
/-- recalculate or mark after Kepler values are stored (orbit.py 386-390, 430-434) -/
def updAfterKep (inds : Inds) : Py α Unit := do
  let s ← self
  if s.direct then calculate_cartesian K .all else markFlags inds true false

/-- `if c: body` -/
def when (c : Bool) (x : Py α Unit) : Py α Unit := if c then x else pure ()

/-- checks made before elements are stored (orbit.py 392-407) -/
def updGuard (cartUp kepUp : Bool) : Py α Unit := do
  when cartUp guardCart
  when kepUp guardKep
  when (kepUp && cartUp) (raise .valueError)

/-- the keyword `m` (orbit.py 409-413) -/
def updM (inds : Inds) (v : Option (Val α)) : Py α Unit :=
  match v with
  | none => pure ()
  | some v => do
    let s ← self
    if s.direct then raise .valueError else do
      let m ← lift (writeRow (fun _ x => x) s.m inds v)
      upd fun s => { s with m := m }

/-- store the named Cartesian elements (orbit.py 415-424) -/
def updCartEls (inds : Inds) (u : Upd α) : Py α Unit :=
  if u.cartUp then do
    updCartRows inds u.cartEl (List.finRange 6)
    updAfterCart K inds
  else pure ()
/-- store the named Kepler elements (orbit.py 425-437) -/
def updKepEls (inds : Inds) (u : Upd α) : Py α Unit :=
  if u.kepUp then do
    updKepRows inds u.kepEl (List.finRange 6)
    updAfterKep K inds
  else pure ()

/-- `update(inds, **kwargs)` (orbit.py 343-437) -/
def update (inds : Inds) (u : Upd α) : Py α Unit :=
  match u.cartesian, u.kepler with
  | some v, _ => do                                                                            -- 369-379
    guardCart
    let s ← self
    let c ← lift (writeCols Cart.const Cart.ofList s.cart inds v)
    upd fun s => { s with cart := c }
    updAfterCart K inds
  | none, some v => do                                                                         -- 381-390
    guardKep
    let s ← self
    let k ← lift (writeCols Kep.const Kep.ofList s.kep inds v)
    upd fun s => { s with kep := k }
    updAfterKep K inds
  | none, none => do
    updGuard u.cartUp u.kepUp                                                                  -- 392-407
    updM inds u.m                                                                              -- 409-413
    updCartEls K inds u                                                                        -- 415-424
    updKepEls K inds u                                                                         -- 425-437

/-- `self.m[inds] = kwargs.pop('m')` -/
def writeMass (inds : Inds) (v : Option (Val α)) : Py α Unit :=
  match v with
  | none => pure ()
  | some v => do
    let s ← self
    let m ← lift (writeRow (fun _ x => x) s.m inds v)
    upd fun s => { s with m := m }

/-- `add(num, **kwargs)` (orbit.py 263-323) -/
def add (n : Nat) (u : Upd α) : Py α Unit := do
  let n0 ← num
  let inds : Inds := .slice (some (n0 : Int)) (some ((n0 + n : Nat) : Int)) 1                  -- 276
  upd fun s => { s with m := s.m ++ List.replicate n K.zero }
  upd fun s => { s with cart := s.cart ++ List.replicate n (Cart.const K.nan) }
  upd fun s => { s with kep := s.kep ++ List.replicate n (Kep.const K.nan) }
  upd fun s => { s with tA := s.tA ++ List.replicate n K.nan }
  let s ← self
  let e ← lift (match s.eA with | .arr l => .ok (l ++ List.replicate n K.nan) | .sc _ => .error .valueError)
  upd fun s => { s with eA := .arr e }
  upd fun s => { s with mA := s.mA ++ List.replicate n K.nan }
  upd fun s => { s with cartCalc := s.cartCalc ++ List.replicate n false }
  upd fun s => { s with kepCalc := s.kepCalc ++ List.replicate n false }
  writeMass inds u.m                                                                           -- 319-321
  update K inds { u with m := none }

/-! ## Construction, copies, iteration -/

/-- Keyword arguments of the constructor other than element values. -/
structure InitKw (α : Type) where
  auto : Bool := true
  direct : Bool := true
  G : α
  opts : SolverOpts α
  epoch : Option α := none
  degrees : Bool := false
  /-- `none`: a name not in `Orbit.ANOMALY` -/
  type : Option Anom := some .tru
  n : Nat := 1
  m : Option (Val α) := none
  kro : Bool := false
  cro : Bool := false

/-- an object with no orbits -/
def empty (M0 : α) (kw : InitKw α) (ty : Anom) : Orb α :=
  { auto := kw.auto, direct := kw.direct, G := kw.G, M0 := M0, opts := kw.opts, epoch := kw.epoch, degrees := kw.degrees,
    type := ty, kro := false, cro := false, m := [], cart := [], kep := [], tA := [], eA := .arr [], mA := [],
    cartCalc := [], kepCalc := [], it := none }

/-- `if 'm' in kwargs: self.m[:] = kwargs.pop('m')` -/
def writeAllMass (v : Option (Val α)) : Py α Unit :=
  match v with
  | none => pure ()
  | some v => do
    let s ← self
    let m ← lift (v.spread s.m.length)
    upd fun s => { s with m := m }

/-- the rest of the constructor, after the anomaly type is checked (orbit.py 123-135) -/
def initBody (kw : InitKw α) (u : Upd α) : Py α Unit := do
  allocate K kw.n
  writeAllMass kw.m
  let n ← num
  when (decide (0 < n)) (update K .all u)
  upd fun s => { s with kro := kw.kro, cro := kw.cro }

/-- `Orbit(M0, **kwargs)` (orbit.py 102-135): the element keywords are those of `update`. -/
def init (M0 : α) (kw : InitKw α) (u : Upd α) : Except PyErr (Orb α) :=
  match kw.type with
  | none => .error .valueError
  | some ty =>
    match initBody K kw { u with m := none } (empty M0 kw ty) with
    | (.ok _, s) => .ok s
    | (.error e, _) => .error e

/-- `__getitem__(inds)` (orbit.py 169-199): a new object is constructed with NaN elements, then elements are copied.  The
bookkeeping flags and cached anomalies are those of a new object. -/
def getitem (inds : Inds) (s : Orb α) : Except PyErr (Orb α) := do
  let pm ← inds.pos s.m.length
  let m := gather s.m pm
  let t ← init K s.M0 { G := s.G, n := m.length, m := some (.vec m), degrees := s.degrees, opts := s.opts, epoch := s.epoch,
                        type := some s.type } {}
  let pc ← inds.pos s.cart.length
  let pk ← inds.pos s.kep.length
  pure { t with auto := s.auto, direct := s.direct, kro := s.kro, cro := s.cro,
                cart := gather s.cart pc, kep := gather s.kep pk }

/-- `copy()` and `__copy__` (orbit.py 163-167) -/
def copy (s : Orb α) : Except PyErr (Orb α) := getitem K .all s

/-- `__iter__` (orbit.py 204-206); the object is its own iterator -/
def iter : Py α Unit := upd fun s => { s with it := some 0 }

/-- `__next__` (orbit.py 208-213); without a previous `__iter__` the attribute is missing -/
def next : Py α (Orb α) := do
  let s ← self
  match s.it with
  | none => raise .attributeError
  | some k => do
    let n ← num
    if k < n then do
      upd fun s => { s with it := some (k + 1) }
      let s ← self
      lift (getitem K (.int k) s)
    else raise .stopIteration

end Orbit
end Pyorb
