import Verif.OrbitOps

/-!
# Arrays shared between `Orbit` objects and their callers

`OrbitCls` describes the value of one object.  Here the arrays live in a heap, an object is a record of references
(orbit.py 102-135, 325-341), and the caller holds references of its own.  A step of a program creates or changes an array of the
caller, or applies an operation to one of the objects; what the operation computes is taken from `OrbitCls`, and this file adds
where the result is stored:

* `_cart`, `_kep`, the cached anomalies and the bookkeeping flags are written in place or replaced by new arrays; which of the
  two is an arbitrary choice `fr` of every step, so that the theorems hold for both;
* `m` is replaced by a new array in `add`, `delete` and `allocate` (orbit.py 252, 280-284, 334), otherwise written in place;
* property getters return new arrays (`.copy()` or results of arithmetic, orbit.py 506-1090); `m`, `solver_options` and `epoch`
  are plain attributes: reading gives the stored reference, assigning stores the reference of the caller;
* `__getitem__` and `copy` make a new object with arrays of its own; `solver_options` is copied (`deepcopy`, 181, and
  `dict.update`, 115); the reference in `epoch` is handed on (183, 118).

Values assigned to elements are copied into the arrays of the object by numpy, so no reference to them is kept.
-/

namespace Pyorb
namespace Orbit
variable {α : Type} (K : Kern α)

/-- content of one mutable python object -/
inductive Cell (α : Type)
  | row (l : List α)
  | opts (o : SolverOpts α)
  | epoch (e : Option α)
  | cart (l : List (Cart α))
  | kep (l : List (Kep α))
  | ecc (c : Cache α)
  | flags (l : List Bool)
  | tri (l : List (Tri α))
  | equi (l : List (Equi α))

/-- one-row arrays, dictionaries of options, epochs, and arrays of other shapes and types: what is changed in place keeps its
class -/
def Cell.kind : Cell α → Nat
  | .row _ => 0 | .opts _ => 1 | .epoch _ => 2 | _ => 3

/-- the heap: `cell a` is meaningful for `a < size` -/
structure Heap (α : Type) where
  cell : Nat → Cell α
  size : Nat

def Cell.toRow : Cell α → List α | .row l => l | _ => []
def Cell.toOpts (d : SolverOpts α) : Cell α → SolverOpts α | .opts o => o | _ => d
def Cell.toEpoch : Cell α → Option α | .epoch e => e | _ => none
def Cell.toCart : Cell α → List (Cart α) | .cart l => l | _ => []
def Cell.toKep : Cell α → List (Kep α) | .kep l => l | _ => []
def Cell.toEcc : Cell α → Cache α | .ecc c => c | _ => .arr []
def Cell.toFlags : Cell α → List Bool | .flags l => l | _ => []

/-- An `Orbit` as python stores it: numbers and booleans, and references.  `slot` numbers the references: 0 `m`, 1 `_cart`,
2 `_kep`, 3 `_true_anomaly`, 4 `_eccentric_anomaly`, 5 `_mean_anomaly`, 6 `__cart_calculated`, 7 `__kep_calculated`,
8 `solver_options`. -/
structure Obj (α : Type) where
  auto : Bool
  direct : Bool
  G : α
  M0 : α
  degrees : Bool
  type : Anom
  kro : Bool
  cro : Bool
  it : Option Nat
  slot : Fin 9 → Nat
  epoch : Nat

/-- what the arrays of an object with the value `s` contain -/
def cells (s : Orb α) (f : Fin 9) : Cell α :=
  match f with
  | 0 => .row s.m | 1 => .cart s.cart | 2 => .kep s.kep | 3 => .row s.tA | 4 => .ecc s.eA | 5 => .row s.mA
  | 6 => .flags s.cartCalc | 7 => .flags s.kepCalc | 8 => .opts s.opts

/-- default options, never used in a program (every dictionary of options is a cell of its own) -/
def noOpts : SolverOpts α := { tol := K.nan, max_iter := 0, degree := K.nan }

/-- the value of an object -/
def look (h : Heap α) (o : Obj α) : Orb α :=
  { auto := o.auto, direct := o.direct, G := o.G, M0 := o.M0, opts := (h.cell (o.slot 8)).toOpts (noOpts K)
    epoch := (h.cell o.epoch).toEpoch, degrees := o.degrees, type := o.type, kro := o.kro, cro := o.cro
    m := (h.cell (o.slot 0)).toRow, cart := (h.cell (o.slot 1)).toCart, kep := (h.cell (o.slot 2)).toKep
    tA := (h.cell (o.slot 3)).toRow, eA := (h.cell (o.slot 4)).toEcc, mA := (h.cell (o.slot 5)).toRow
    cartCalc := (h.cell (o.slot 6)).toFlags, kepCalc := (h.cell (o.slot 7)).toFlags, it := o.it }

/-- a new cell -/
def Heap.alloc (h : Heap α) (c : Cell α) : Heap α :=
  { cell := fun a => if a = h.size then c else h.cell a, size := h.size + 1 }

/-- a cell changed in place -/
def Heap.put (h : Heap α) (a : Nat) (c : Cell α) : Heap α :=
  { h with cell := fun b => if b = a then c else h.cell b }

/-- where slot `f` is after an operation: a new array (`fr f`) or the old one -/
def target (h : Heap α) (fr : Fin 9 → Bool) (o : Obj α) (f : Fin 9) : Nat :=
  if fr f then h.size + f else o.slot f

/-- the heap after an operation that leaves an object of value `s` -/
def Heap.store (h : Heap α) (fr : Fin 9 → Bool) (o : Obj α) (s : Orb α) : Heap α :=
  { cell := fun a =>
      match (List.finRange 9).find? (fun f => target h fr o f == a) with
      | some f => cells s f
      | none => h.cell a
    size := h.size + 9 }

/-- the record after an operation that leaves an object of value `s` -/
def Obj.store (h : Heap α) (fr : Fin 9 → Bool) (o : Obj α) (s : Orb α) : Obj α :=
  { auto := s.auto, direct := s.direct, G := s.G, M0 := s.M0, degrees := s.degrees, type := s.type, kro := s.kro, cro := s.cro
    it := s.it, slot := target h fr o, epoch := o.epoch }

/-- Which slots an operation replaces by new arrays.  `m`: `add` and `allocate` always (orbit.py 280, 334), `delete` when
`np.delete(self.m, inds)` does not raise (252).  `solver_options`: by assigning a new dictionary.  Other slots: `fr`. -/
def Op.rebinds (x : Op α) (s : Orb α) (fr : Fin 9 → Bool) (f : Fin 9) : Bool :=
  if f = 0 then
    match x with
    | .add _ _ => true
    | .allocate _ => true
    | .delete inds => (npDelete s.m inds).isOk
    | _ => false
  else if f = 8 then
    match x with
    | .setOpts _ => true
    | _ => false
  else fr f

/-- A program's state: the heap, the objects in the order of their creation, the references the caller has got. -/
structure World (α : Type) where
  heap : Heap α
  objs : List (Obj α)
  held : List Nat

/-- the steps of a program -/
inductive Act (α : Type)
  /-- the caller makes an array, a dictionary of options or an epoch -/
  | make (c : Cell α)
  /-- the caller changes something it holds in place -/
  | write (a : Nat) (c : Cell α)
  /-- `Orbit(M0, epoch=.., ..)` -/
  | new (M0 : α) (kw : InitKw α) (u : Upd α) (epoch : Option Nat)
  /-- an operation on object `i`; the answer of a query is dropped -/
  | op (i : Nat) (x : Op α) (fr : Fin 9 → Bool)
  /-- `x = orb.<g>` -/
  | get (i : Nat) (g : Read) (fr : Fin 9 → Bool)
  /-- `d = orb.solver_options` -/
  | getOpts (i : Nat)
  /-- `t = orb.epoch` -/
  | getEpoch (i : Nat)
  /-- `orb.m = arr` -/
  | setM (i : Nat) (a : Nat)
  /-- `orb.solver_options = d` -/
  | setOpts (i : Nat) (a : Nat)
  /-- `orb.epoch = t` -/
  | setEpoch (i : Nat) (a : Nat)
  /-- `orb[inds]`, `orb.copy()` -/
  | getitem (i : Nat) (inds : Inds)
  /-- `next(orb)` -/
  | next (i : Nat) (fr : Fin 9 → Bool)

/-- the world with a new object of value `s` and the given epoch -/
def World.create (w : World α) (s : Orb α) (epoch : Nat) : World α :=
  let o : Obj α := { auto := s.auto, direct := s.direct, G := s.G, M0 := s.M0, degrees := s.degrees, type := s.type, kro := s.kro
                     cro := s.cro, it := s.it, slot := fun _ => 0, epoch := epoch }
  { heap := w.heap.store (fun _ => true) o s, objs := w.objs ++ [o.store w.heap (fun _ => true) s], held := w.held }

/-- the world after object `i` (record `o`) took the value `s` -/
def World.after (w : World α) (i : Nat) (o : Obj α) (fr : Fin 9 → Bool) (s : Orb α) : World α :=
  { heap := w.heap.store fr o s, objs := w.objs.set i (o.store w.heap fr s), held := w.held }

/-- the array a property getter returns; `num` and `str(orb)` are immutable, `m` is not a property -/
def Read.array : (g : Read) → g.Ans α → Option (Cell α)
  | .num, _ | .str, _ | .m, _ => none
  | .r, x | .v, x => some (.tri x)
  | .cartesian, x => some (.cart x)
  | .kepler, x => some (.kep x)
  | .equinoctial, x => some (.equi x)
  | .cart _, x | .kep _, x | .period, x | .meanMotion, x | .trueAnomaly, x | .meanAnomaly, x | .eccentricAnomaly, x
  | .apoapsis, x | .periapsis, x | .meanLongitude, x | .velocity, x | .speed, x => some (.row x)

/-- the query of the plain attribute `m` -/
def Read.isM : Read → Bool | .m => true | _ => false

/-- the caller gets a new array, if there is one -/
def World.hand (w : World α) : Option (Cell α) → World α
  | some c => { w with heap := w.heap.alloc c, held := w.held ++ [w.heap.size] }
  | none => w

/-- the reference the caller gets from a getter: the stored one for `m`, a new one for the properties -/
def World.give (w : World α) (i : Nat) (g : Read) (x : g.Ans α) : World α :=
  if g.isM then
    match w.objs[i]? with
    | some o => { w with held := w.held ++ [o.slot 0] }
    | none => w
  else w.hand (g.array x)

open Classical in
/-- one step; a step that names an object or a reference that does not exist, or assigns something of a wrong class, does nothing -/
noncomputable def step (w : World α) : Act α → World α
  | .make c => { w with heap := w.heap.alloc c, held := w.held ++ [w.heap.size] }
  | .write a c => if a ∈ w.held ∧ (w.heap.cell a).kind = c.kind then { w with heap := w.heap.put a c } else w
  | .new M0 kw u epoch =>
    match epoch with
    | none => match init K M0 { kw with epoch := none } u with
      | .ok s => { w with heap := w.heap.alloc (.epoch none) }.create s w.heap.size
      | .error _ => w
    | some a => if a ∈ w.held ∧ (w.heap.cell a).kind = 2 then
        match init K M0 { kw with epoch := (w.heap.cell a).toEpoch } u with
        | .ok s => w.create s a
        | .error _ => w
      else w
  | .op i x fr => match w.objs[i]? with
    | some o => w.after i o (x.rebinds (look K w.heap o) fr) (x.run K (look K w.heap o)).2
    | none => w
  | .get i g fr => match w.objs[i]? with
    | some o =>
      let w' := w.after i o ((Op.read g).rebinds (look K w.heap o) fr) (g.get K (look K w.heap o)).2
      match (g.get K (look K w.heap o)).1 with
      | .ok x => w'.give i g x
      | .error _ => w'
    | none => w
  | .getOpts i => match w.objs[i]? with
    | some o => { w with held := w.held ++ [o.slot 8] }
    | none => w
  | .getEpoch i => match w.objs[i]? with
    | some o => { w with held := w.held ++ [o.epoch] }
    | none => w
  | .setM i a => match w.objs[i]? with
    | some o => if a ∈ w.held ∧ (w.heap.cell a).kind = 0 then
        { w with objs := w.objs.set i { o with slot := Function.update o.slot 0 a } } else w
    | none => w
  | .setOpts i a => match w.objs[i]? with
    | some o => if a ∈ w.held ∧ (w.heap.cell a).kind = 1 then
        { w with objs := w.objs.set i { o with slot := Function.update o.slot 8 a } } else w
    | none => w
  | .setEpoch i a => match w.objs[i]? with
    | some o => if a ∈ w.held ∧ (w.heap.cell a).kind = 2 then
        { w with objs := w.objs.set i { o with epoch := a } } else w
    | none => w
  | .getitem i inds => match w.objs[i]? with
    | some o => match Orbit.getitem K inds (look K w.heap o) with
      | .ok s => w.create s o.epoch
      | .error _ => w
    | none => w
  | .next i fr => match w.objs[i]? with
    | some o =>
      let w' := w.after i o ((Op.next).rebinds (look K w.heap o) fr) (Orbit.next K (look K w.heap o)).2
      match (Orbit.next K (look K w.heap o)).1 with
      | .ok s => w'.create s o.epoch
      | .error _ => w'
    | none => w

/-- a program run -/
noncomputable def runActs (w : World α) (l : List (Act α)) : World α := l.foldl (step K) w

/-- nothing has happened yet -/
def World.start : World α := { heap := { cell := fun _ => .row [], size := 0 }, objs := [], held := [] }

/-- the value of object `i` -/
def World.val (w : World α) (i : Nat) : Option (Orb α) := (w.objs[i]?).map (look K w.heap)

/-- the object a step is about -/
def Act.about : Act α → Option Nat
  | .op i _ _ | .get i _ _ | .getOpts i | .getEpoch i | .setM i _ | .setOpts i _ | .setEpoch i _ | .getitem i _ | .next i _ => some i
  | _ => none

end Orbit
end Pyorb
