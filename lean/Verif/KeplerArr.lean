import Verif.Kepler

/-!
# Model of `/repo/pyorb/kepler.py`, array level

Argument types, shapes, dtypes, exceptions and in-place effects of the public functions.
-/

namespace Pyorb
variable {α : Type} [Np α]

/-! ## Arguments of the anomaly functions -/

/-- A numpy array argument.  `data` lists the elements in index (C) order.  `mem` lists the positions in the order in which
`np.nditer` (default order 'K', i.e. memory order) visits them: `List.range n` for a C-contiguous array, another
permutation for Fortran-ordered arrays or reversed views. -/
structure NdArr (α : Type) where
  dt : DType
  shape : List Nat
  data : List α
  mem : List Nat

/-- number of elements, `arr.size` -/
def NdArr.size (A : NdArr α) : Nat := A.shape.foldr (· * ·) 1

/-- The invariant every numpy array satisfies. -/
structure NdArr.WF (A : NdArr α) : Prop where
  len : A.data.length = A.size
  perm : A.mem.Perm (List.range A.size)

/-- a C-contiguous array (also every freshly allocated one) -/
def NdArr.CContig (A : NdArr α) : Prop := A.mem = List.range A.size

/-- `np.ones(shape, dtype=dt)*x` for a scalar `x` -/
def NdArr.full (shape : List Nat) (dt : DType) (x : α) : NdArr α :=
  let n := shape.foldr (· * ·) 1
  ⟨dt, shape, List.replicate n x, List.range n⟩

/-- the values in the order in which `np.nditer(A)` yields them -/
def NdArr.nditer (A : NdArr α) : List α := A.mem.map fun i => A.data.getD i Np.nan

/-- A `float or numpy.ndarray` argument; `dt` of a scalar says whether it is a float or an int (python's or numpy's: the
anomaly functions treat a numpy scalar like a python one). -/
inductive Arg (α : Type)
  | sc (dt : DType) (x : α)
  | arr (A : NdArr α)

/-- What a numpy ufunc hands back for an array result: for a 0-dimensional one a numpy scalar, which is not an
`np.ndarray`, otherwise the array. -/
def ufuncOut (A : NdArr α) : Arg α :=
  match A.shape with
  | [] => .sc A.dt (A.data.headD Np.nan)
  | _ :: _ => .arr A

/-- elementwise ufunc returning floats, e.g. `np.radians(x)`; ufuncs keep the memory layout of their argument -/
def Arg.map (f : α → α) : Arg α → Arg α
  | .sc _ x => .sc .f64 (f x)
  | .arr A => ufuncOut ⟨.f64, A.shape, A.data.map f, A.mem⟩

/-- outcome of the argument unification at the head of the anomaly functions -/
inductive Pair (α : Type)
  | scalars (x e : α)
  | arrays (X Y : NdArr α)

/-- `isinstance(..., np.ndarray)` tests and the expansion of a scalar to the shape of the other argument, followed by the
shape check (kepler.py 648-654, 707-713, 766-772, 1213-1219, 1289-1296). -/
def unify (x e : Arg α) : Except PyErr (Pair α) :=
  match x, e with
  | .sc _ x, .sc _ e => .ok (.scalars x e)
  | .sc d x, .arr Y => .ok (.arrays (NdArr.full Y.shape (DType.promote Y.dt d) x) Y)
  | .arr X, .sc d e => .ok (.arrays X (NdArr.full X.shape (DType.promote X.dt d) e))
  | .arr X, .arr Y => if X.shape = Y.shape then .ok (.arrays X Y) else .error .typeError

/-- `if degrees: _x = np.radians(x) else: _x = x` -/
def toRad (deg : Bool) (x : Arg α) : Arg α := if deg then x.map radians else x
/-- `if degrees: x = np.degrees(x)` -/
def toDeg (deg : Bool) (x : Arg α) : Arg α := if deg then x.map degrees else x

/-- The array path with index arrays: position `k` of the output depends on position `k` of both inputs and on the
uninitialised value `g k`.  (Reading and writing through the same boolean mask is elementwise: `Verif/Mask.lean`.) -/
def elementwise (g : Nat → α) (el : α → DType → α → α → α) (outDt : DType → DType) (X Y : NdArr α) : NdArr α :=
  let data := (X.data.zip Y.data).mapIdx fun k p => el (g k) X.dt p.1 p.2
  ⟨outDt X.dt, X.shape, data, List.range data.length⟩

/-- `true_to_eccentric` (kepler.py 625-681); the final `np.mod` makes the result a float array (or a numpy scalar when it is
0-dimensional). -/
def true_to_eccentric (g : Nat → α) (nu e : Arg α) (deg : Bool) : Except PyErr (Arg α) := do
  match ← unify (toRad deg nu) e with
  | .scalars x e => pure (toDeg deg (.sc .f64 (trueToEccentricSc x e)))
  | .arrays X Y => pure (toDeg deg (ufuncOut (elementwise g trueToEccentricEl (fun _ => .f64) X Y)))

/-- `eccentric_to_true` (kepler.py 684-739). -/
def eccentric_to_true (g : Nat → α) (E e : Arg α) (deg : Bool) : Except PyErr (Arg α) := do
  match ← unify (toRad deg E) e with
  | .scalars x e => pure (toDeg deg (.sc .f64 (eccentricToTrueSc x e)))
  | .arrays X Y => pure (toDeg deg (ufuncOut (elementwise g eccentricToTrueEl (fun _ => .f64) X Y)))

/-- `eccentric_to_mean` (kepler.py 742-792); here the output keeps the dtype of `E`. -/
def eccentric_to_mean (g : Nat → α) (E e : Arg α) (deg : Bool) : Except PyErr (Arg α) := do
  match ← unify (toRad deg E) e with
  | .scalars x e => pure (toDeg deg (.sc .f64 (eccentricToMeanSc x e)))
  | .arrays X Y => pure (toDeg deg (.arr (elementwise g eccentricToMeanEl id X Y)))

/-- `true_to_mean` (kepler.py 795-823). -/
def true_to_mean (g1 g2 : Nat → α) (nu e : Arg α) (deg : Bool) : Except PyErr (Arg α) := do
  let E ← true_to_eccentric g1 (toRad deg nu) e false
  let M ← eccentric_to_mean g2 E e false
  pure (toDeg deg M)

/-- The nditer loop of `mean_to_eccentric` / `kepler_guess` (kepler.py 1223-1238, 1301-1324): the k-th visited elements of
the two inputs are combined and stored in the k-th element of the freshly allocated (C-contiguous) output. -/
def nditerLoop (f : α → α → α) (X Y : NdArr α) : NdArr α :=
  let data := List.zipWith (fun m e => store X.dt (f m e)) X.nditer Y.nditer
  ⟨X.dt, X.shape, data, List.range data.length⟩

/-- `kepler_guess` (kepler.py 1189-1246).  There is no early return for empty arrays here, and `np.nditer` (1224) refuses
them with a ValueError ("Iteration of zero-sized operands is not enabled"). -/
def kepler_guess (M e : Arg α) : Except PyErr (Arg α) := do
  match ← unify M e with
  | .scalars x e => pure (.sc .f64 (keplerGuess x e))
  | .arrays X Y => if X.size = 0 then .error .valueError else pure (.arr (nditerLoop keplerGuess X Y))

/-- `mean_to_eccentric` (kepler.py 1249-1344).  The early return for an empty array (1298) gives the same (empty) result
as the loop; the early return for a scalar `e == 0` (1327) returns the unconverted argument. -/
def mean_to_eccentric (o : SolverOpts α) (M e : Arg α) (deg : Bool) : Except PyErr (Arg α) := do
  match ← unify (toRad deg M) e with
  | .scalars x ec => if ec =ᵇ 0 then pure M else pure (toDeg deg (.sc .f64 (meanToEccentricEl o x ec)))
  | .arrays X Y => pure (toDeg deg (.arr (nditerLoop (meanToEccentricEl o) X Y)))

/-- `mean_to_true` (kepler.py 1347-1379). -/
def mean_to_true (g : Nat → α) (o : SolverOpts α) (M e : Arg α) (deg : Bool) : Except PyErr (Arg α) := do
  let E ← mean_to_eccentric o (toRad deg M) e false
  let nu ← eccentric_to_true g E e false
  pure (toDeg deg nu)

/-- `stumpff0 .. stumpff3` on a general argument (kepler.py 1470-1581): a python scalar fails at `x[inds]`
(`'float' object is not subscriptable`), an array is processed elementwise.  Here `.sc` stands for python scalars only:
a numpy scalar can be indexed by a boolean and behaves like a 0-dimensional array. -/
def stumpffArr (c : α → DType → α → α) (g : Nat → α) (x : Arg α) : Except PyErr (Arg α) :=
  match x with
  | .sc _ _ => .error .typeError
  | .arr A => .ok (.arr ⟨A.dt, A.shape, A.data.mapIdx fun k v => c (g k) A.dt v, A.mem⟩)

/-! ## The 6-row conversions -/

/-- An argument or result of the 6-row conversions; `C` is the column type.  Arrays of rank 0 or of rank 3 and more
are not modelled. -/
inductive Arg6 (C : Type)
  /-- anything that is not a numpy array, e.g. a list -/
  | notArray
  /-- a numpy array with `shape[0] != 6` -/
  | wrongRows
  /-- shape `(6,)` -/
  | vec (dt : DType) (c : C)
  /-- shape `(6, N)` -/
  | mat (dt : DType) (cs : List C)

/-- The `mu` argument: a number or a 1-d float array. -/
inductive Mu (α : Type)
  | sc (x : α)
  | arr (xs : List α)

/-- one gravitational parameter per column, `np.full((n,), mu)` for a number (kepler.py 1731-1732) -/
def Mu.toList (n : Nat) : Mu α → List α
  | .sc x => List.replicate n x
  | .arr xs => xs

/-- The body of `kep_to_cart` on a (6,N) array (kepler.py 1731-1779, 1785-1786).  If `mu` is an array whose length is not N,
`mu[nper]` (1753) raises IndexError; at that point the angles have been converted and `a` negated in place. -/
def kepToCartMat (g : Nat → α) (dt : DType) (mu : Mu α) (deg : Bool) (ks : List (Kep α)) :
    Except PyErr (List (Cart α)) × List (Kep α) :=
  let mus := mu.toList ks.length
  if mus.length = ks.length then
    let out := (mus.zip ks).mapIdx fun j p => kepToCart (g j) dt p.1 deg p.2
    (.ok (out.map Prod.fst), out.map Prod.snd)
  else
    (.error .indexError,
      ks.map fun k =>
        let k := if deg then k.toRadians dt else k
        { k with a := if 1 <ᵇ k.e then store dt (k.a * -1) else k.a })

/-- `kep_to_cart` (kepler.py 1687-1788): the result (or exception) and the caller's array after the call.  A vector is
reshaped in place to (6,1) (1723) and reshaped back at the end (1783), but not when an exception passes through. -/
def kep_to_cart (g : Nat → α) (mu : Mu α) (deg : Bool) (kep : Arg6 (Kep α)) :
    Except PyErr (Arg6 (Cart α)) × Arg6 (Kep α) :=
  match kep with
  | .notArray => (.error .typeError, kep)                              -- 1713
  | .wrongRows => (.error .valueError, kep)                            -- 1716
  | .vec dt k =>
    match kepToCartMat g dt mu deg [k] with
    | (.ok [x], [k']) => (.ok (.vec dt x), .vec dt k')
    | (.ok xs, ks') => (.ok (.mat dt xs), .mat dt ks')
    | (.error e, ks') => (.error e, .mat dt ks')
  | .mat dt ks =>
    match kepToCartMat g dt mu deg ks with
    | (.ok xs, ks') => (.ok (.mat dt xs), .mat dt ks')
    | (.error e, ks') => (.error e, .mat dt ks')

/-- gravitational parameters per column under numpy broadcasting of `mu/rn` (kepler.py 399): `none` when the shapes do not
fit, in which case a ValueError is raised at line 399 or 403. -/
def Mu.broadcast (n : Nat) : Mu α → Option (List α)
  | .sc x => some (List.replicate n x)
  | .arr [x] => some (List.replicate n x)
  | .arr xs => if xs.length = n then some xs else none

/-- The body of `cart_to_kep` on a (6,N) array. -/
def cartToKepMat (g : Nat → CtkGarbage α) (dt : DType) (mu : Mu α) (deg : Bool) (cs : List (Cart α)) :
    Except PyErr (List (Kep α)) :=
  match mu.broadcast cs.length with
  | none => .error .valueError
  | some mus => .ok ((mus.zip cs).mapIdx fun j p => cartToKep (g j) dt p.1 deg p.2)

/-- `cart_to_kep` (kepler.py 337-547): the result (or exception) and the caller's array after the call. -/
def cart_to_kep (g : Nat → CtkGarbage α) (mu : Mu α) (deg : Bool) (cart : Arg6 (Cart α)) :
    Except PyErr (Arg6 (Kep α)) × Arg6 (Cart α) :=
  match cart with
  | .notArray => (.error .typeError, cart)                             -- 369
  | .wrongRows => (.error .valueError, cart)                           -- 372
  | .vec dt c =>
    match cartToKepMat g dt mu deg [c] with
    | .ok [k] => (.ok (.vec dt k), .vec dt c)
    | .ok ks => (.ok (.mat dt ks), .mat dt [c])
    | .error e => (.error e, .mat dt [c])
  | .mat dt cs =>
    match cartToKepMat g dt mu deg cs with
    | .ok ks => (.ok (.mat dt ks), .mat dt cs)
    | .error e => (.error e, .mat dt cs)

/-- apply a column function to every column; the functions without argument checks fail on the first indexing
operation when the argument is not an array with 6 rows (arrays with more than 6 rows are not modelled) -/
def Arg6.mapCols {C D : Type} (f : Nat → DType → C → D) : Arg6 C → Except PyErr (Arg6 D)
  | .notArray => .error .typeError
  | .wrongRows => .error .indexError
  | .vec dt c => .ok (.vec dt (f 0 dt c))
  | .mat dt cs => .ok (.mat dt (cs.mapIdx fun j c => f j dt c))

/-- `kep_to_equi` (kepler.py 234-278). -/
def kep_to_equi (deg : Bool) (kep : Arg6 (Kep α)) : Except PyErr (Arg6 (Equi α)) :=
  kep.mapCols fun _ dt k => kepToEqui dt deg k

/-- `equi_to_kep` (kepler.py 281-334). -/
def equi_to_kep (g : Nat → Kep α) (deg : Bool) (equi : Arg6 (Equi α)) : Except PyErr (Arg6 (Kep α)) :=
  equi.mapCols fun j dt q => equiToKep (g j) dt deg q

/-- `kep[K_nu, eg] = true_to_mean(kep[K_nu, eg], kep[K_e, eg], degrees=degrees)` on one column (kepler.py 185-186); the
indexed operands are arrays, so the array path of the anomaly functions is taken. -/
def nuToMean (g1 g2 : α) (dt : DType) (deg : Bool) (k : Kep α) : Kep α :=
  if e_lim <ᵇ k.e then
    let nu := if deg then radians k.nu else k.nu
    let dt' := if deg then .f64 else dt
    let M := eccentricToMeanEl g2 .f64 (trueToEccentricEl g1 dt' nu k.e) k.e
    { k with nu := store dt (if deg then degrees M else M) }
  else k

/-- `cart_to_equi` (kepler.py 150-187). -/
def cart_to_equi (g : Nat → CtkGarbage α) (g1 g2 : Nat → α) (mu : Mu α) (deg : Bool) (cart : Arg6 (Cart α)) :
    Except PyErr (Arg6 (Equi α)) × Arg6 (Cart α) :=
  match cart_to_kep g mu deg cart with
  | (.error e, c') => (.error e, c')
  | (.ok kep, c') =>
    (do let kep ← kep.mapCols fun j dt k => nuToMean (g1 j) (g2 j) dt deg k
        kep_to_equi deg kep, c')

/-- `kep[K_nu, eg] = mean_to_true(kep[K_nu, eg], kep[K_e, eg], ...)` on one column (kepler.py 224-230). -/
def meanToNu (g : α) (o : SolverOpts α) (dt : DType) (deg : Bool) (k : Kep α) : Kep α :=
  if e_lim <ᵇ k.e then
    let M := if deg then radians k.nu else k.nu
    let dt' := if deg then .f64 else dt
    let nu := eccentricToTrueEl g dt' (store dt' (meanToEccentricEl o M k.e)) k.e
    { k with nu := store dt (if deg then degrees nu else nu) }
  else k

/-- `equi_to_cart` (kepler.py 190-231); the array passed to `kep_to_cart` is a temporary. -/
def equi_to_cart (ge : Nat → Kep α) (gt gh : Nat → α) (o : SolverOpts α) (mu : Mu α) (deg : Bool)
    (equi : Arg6 (Equi α)) : Except PyErr (Arg6 (Cart α)) := do
  let kep ← equi_to_kep ge deg equi
  let kep ← kep.mapCols fun j dt k => meanToNu (gt j) o dt deg k
  (kep_to_cart gh mu deg kep).1

end Pyorb
