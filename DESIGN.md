# Formal model of pyorb in Lean 4: design

The source is `/repo/pyorb/{kepler,orbit,unit,const}.py`, read as text and never run.  Each definition of the model cites the
file and lines it renders.  The properties are in `properties.jsonl`, their status in `MANIFEST.json`, the attempts with wrong
programs in `seeded/LOG.jsonl`.

## 1. Layers

| Layer | Modules (`lean/Verif/`) | Content |
|---|---|---|
| scalars | `Np`, `FX`, `Round`, `Binary`, `Nearest`, `FloatNp` | the numpy operations the code uses (`class Np`); `FX` = exact reals with `+inf`, `-inf`, `nan`; `RF R` = `FX` with every result rounded by `R`; `Nearest R` = `R` rounds to the nearest number with 53 digits, `binary64` is an instance; `Float`, for running the model only |
| `kepler.py` | `Kepler`, `KeplerArr`, `KeplerBcast`, `Mask` | one column or element at a time; then arguments, shapes, dtypes, exceptions, in-place effects; masked array code equals the elementwise rendering |
| `unit.py`, `const.py` | `Unit` | `get_G`, `angle_units`, the class of constants |
| `orbit.py` | `OrbitNum`, `OrbitCls`, `OrbitReal`, `OrbitOps`, `OrbitNames`, `OrbitKern`, `OrbitHeap` | scalar formulas; the class as a state machine over an arbitrary kernel of numerical functions; the kernel made of the functions of `Kepler`; the public operations as data; arrays as cells of a heap shared by several objects and the caller |
| specifications | `OrbitSpec`, `OrbitIndex`, the "Specification" sections of the `Props*` modules | textbook two-body quantities on vectors; python and numpy rules for indices and assigned values; relations such as `Written`, `Consists`, `Selects`, `Val.Row`, `Val6.Fills` |
| proof helpers | `KepReal`, `KepGeom`, `LagReal`, `LagConverge`, `LagContract`, `LagRound`, `LagRoundStart`, `LagHyperRound`, `LagHyperReal`, `LagHyper`, `LagHyperIn`, `KepSurj`, `AnomReal`, `OrbitCalc`, `OrbitRun`, `OrbitDirect`, `OrbitVals`, `OrbitLazy` | evaluation of the model on finite reals; what each method does, written without the monad |
| theorems | `Props*` | one theorem group per property, each with a concrete case that meets its hypotheses |

The numerical model is generic in the scalar type, so the same text is run on `Float` and reasoned about on `FX` and `RF R`.  In `FX`
arithmetic is exact, but NaN and infinity arise and spread as in numpy: `sqrt(-1)` and `log(-1)` are `nan`, comparisons with
`nan` are false, `x/0` is not finite.  A conclusion `= fin x` therefore says that the code does not run into a NaN.

`RF R` is the standard model of floating point arithmetic: the result of each operation is the exact one times a factor in
`[exp(-u), exp u]`; `R` gives `u` and the factors, which may depend on operation and operands in any way.  C69-C71 hold for every
`R`.  `Binary.binary64` is the `R` of IEEE double precision without bounds on the exponent and with correctly rounded elementary
functions; for a library with larger errors the general theorems apply with a larger `u`.

`Orbit` is a state and exception monad `Py`: an exception keeps the object as it is at the raise point.  It is written over a
structure `Kern` of arbitrary conversion functions.  Theorems stated for every `Kern` hold for every arithmetic, floating point
included.  Theorems that say something about numbers use `fxKern`.

Where the code leaves a buffer uninitialised (`np.empty`) the content is an explicit parameter, so that "no uninitialised memory
is returned" is the statement that the result does not depend on it.

## 2. What is modelled

All functions of the four modules:

| Source | Model |
|---|---|
| kepler.py `cart_to_kep`, `kep_to_cart`, `kep_to_equi`, `equi_to_kep`, `cart_to_equi`, `equi_to_cart` | `cartToKep`, `kepToCart`, `kepToEqui`, `equiToKep` per column; array level in `KeplerArr` |
| kepler.py anomaly functions `true_to_eccentric` ... `mean_to_true`, `kepler_guess` | per element in `Kepler`, array level with shapes and iteration order in `KeplerArr` |
| kepler.py `laguerre_solve_kepler`, `_get_kepler_guess`, `_get_hyperbolic_kepler_guess` | `lagLoop`, `get_kepler_guess`, `get_hyperbolic_kepler_guess` |
| kepler.py radius, speed, period, angular momentum, asymptote | same names in `Kepler`; on arrays of any shape in `KeplerBcast` |
| kepler.py `stumpff0` ... `stumpff`, `rot_mat_*`, `euler_rotation_matrix`, `kep_equivalent` | same names in `Kepler`; `stumpffArr` in `KeplerArr`; `kep_equivalentV` in `KeplerBcast` |
| unit.py `get_G`, `angle_units` | `get_G`, `wrapped` in `Unit` |
| const.py class `_const` and the module's constants | `constSet`, `constDel`, `constGet`, `constInit`, `constModule` in `Unit` |
| orbit.py class `Orbit`, every method, getter and setter | `Orbit.*` in `OrbitCls` |
| orbit.py 118-120, 219-223, anomaly types as strings | `Orbit.set_type_name`, `Orbit.init_name` in `OrbitNames` |

Modelled aspects: control flow, masks and branch boundaries, in-place changes of arguments, exceptions and what they leave behind,
uninitialised buffers, NaN and infinity, truncation by integer dtypes, the memory order of `np.nditer`, the bookkeeping flags of
lazy updating, the mutual recursion of getters and recalculations (`PropsOrbitDepth` writes it down as an inductive relation
without a bound), index selections (integers, slices, lists, masks), broadcasting on assignment, read-only flags.

## 3. What is not modelled

- Overflow, underflow and signed zero.  `x/0` has the sign of `x`.
- Rounding, except in C69-C71 and C87-C90, C93, C94 and C96-C102 and C104-C127; the other numerical theorems are about exact arithmetic.  In these `x**2` and `x**3` are rounded
  products, and inputs are any real numbers, not only representable ones.
- `tan` at an exact odd multiple of pi/2 is `+inf`.  In floats `np.tan(np.pi/2)` is `1.6e16`, and `arctan` of both, doubled and
  reduced to one turn, is pi up to rounding.  `c13_apoapsis_limit` shows that this value is the limit of the formula.
- `arctanh` outside (-1,1) is `nan` (at the ends infinite), as in numpy; `np.mod` follows the sign of the divisor.
- float32; dtypes other than float64 and 64-bit integers; arrays of more than two dimensions in the 6-row conversions.
- Aliasing, except in C103: `OrbitCls` describes values; `OrbitHeap` adds references and shows that the values of the objects of
  a program follow `OrbitCls`.  Access to private attributes (`orb._kep`) by the caller is left out there too.
- One-row values assigned to an `Orbit` are python or numpy scalars, 0-d arrays, or C-contiguous 1-d arrays.  Six-row values are
  scalars, 1-d values or 6 x L arrays.
- `num` in `allocate` and `add` is not negative.  Attributes set by the user under new names, subclassing, pickling, printing and
  warnings are left out.  `__str__` is modelled up to the formatting of its numbers.
- The uninitialised value that the anomaly functions return for a NaN eccentricity (C07) is, inside `Orbit`, one unknown but fixed
  value of the kernel.
- A numpy scalar is treated like a python scalar, except in the Stumpff functions, where `.sc` means a python scalar.  Results of
  ufuncs on 0-d arrays are numpy scalars (`ufuncOut`).
- In `KeplerBcast` arrays have no dtype: overflow of 64-bit integers and of python's `**` is left out.
- `str.lower` on characters outside ASCII is an arbitrary function of the character.
- The objects stored in the class of constants are arbitrary; their `==` is an arbitrary function.
- `examples/`, `docs/`, `tests/`, `_const_docs.py`, `version.py`.

## 4. Trusted base

- The Lean 4.33 kernel and the Mathlib sources at `/app/mathlib4-4.33.0` (definitions of the real functions).
- The reading of `/repo` recorded in the citation comments, with the simplifications of section 3.
- Axioms: only Lean's standard three.  No axiom is added, no proof is left open, `native_decide` and `bv_decide` are not used.
  Axioms of the theorems named in `MANIFEST.json`, as printed by `#print axioms`: the theorems listed here use fewer, all the
  others use `propext, Classical.choice, Quot.sound`.

- `propext, Quot.sound`: `c11_start_accepted`, `c11_at_least_one`, `c23_passthrough`, `c24_other`, `c25_not_shared`, `Orbit.c33_partial`, `Orbit.c33_false_add`, `Orbit.c36_loop_partial`, `Orbit.c36_nested`, `Orbit.c36_false`, `c52_index`, `c54_eccentric_to_mean`
- `propext`: `c23_repeated`, `c24_rebind`, `c24_shadowed`, `Orbit.c33_false_equinoctial`, `Orbit.c34_false`, `Orbit.c34_false_list`, `Orbit.c36_next_first`, `Orbit.c38_false_unknown`, `Orbit.c38_false_mass`, `Orbit.c39_partial`, `Orbit.c39_false`, `c51_independent`, `c51_keeps`, `Orbit.c63_unknown_type`
- `none`: `c24_history`

## 5. How to read the theorems

- `cNN...` belongs to property CNN.  A theorem whose name ends in `_partial` proves less than the property says; the comment
  above it and the note in `MANIFEST.json` say what is missing.  A theorem named `..._false...` (or `..._wrong`, `..._fails`,
  `..._leaks`, `..._corrupts`) proves that the property as written does not hold of the code.
- Hypotheses such as `OneEntryPerOrbit s n`, `WF n s`, `WFE n s` (all per-orbit arrays have `n` entries) hold for every object
  reached by public operations other than the exceptions proved in C34.
- "direct" is `direct_update=True` (the default), "lazy" is `auto_update=True, direct_update=False`, "manual" is neither.

## 6. Properties the code does not have

The unchanged code violates the following; each is proved, and the partial theorems say what remains true.

| Property | What happens | Where in /repo/pyorb |
|---|---|---|
| C05 | `kep_to_cart` negates the caller's semi-major axis for e > 1; the second call on the same array gives NaN | kepler.py 1750 |
| C06 | a `mu` array of the wrong length raises after the caller's array was changed | kepler.py 1687-1788 |
| C07 | anomaly functions return uninitialised memory where e is NaN | kepler.py 625-792 |
| C08 | true -> eccentric -> true fails on the inbound leg of every parabola and hyperbola (reduction to [0, 2 pi)) | kepler.py 625-739 |
| C12 | the starting guess is NaN for hyperbolic M <= -0.9 e | kepler.py 1127-1149 |
| C23 | a position named twice is converted twice; `out_arg_inds=False` converts the result | unit.py 69-102 |
| C25 | instances of `_const` do not share their state | const.py 16-36 |
| C26 | `kep_equivalent` is neither symmetric nor transitive and ignores the eccentricity in some branches | kepler.py 550-583 |
| C28 | `propagate` reduces the mean anomaly to one turn for hyperbolas too, so propagating by zero moves an inbound object | orbit.py 233-244 |
| C29, C38 | an `update` that raises half way keeps what was written; unknown keywords are ignored; `m=` always raises in direct mode | orbit.py 343-437 |
| C30 | in direct mode assigning `type` moves the object: the state is recalculated before the new type is stored | orbit.py 219-231 |
| C31, C32 | lazy mode: a single element assigned to a set waiting for recalculation is lost, or the two sets contradict | orbit.py 151-161, 716-816 |
| C33 | assigning `equinoctial` on a read-only object overwrites five rows before raising; `add` grows it | orbit.py 263-323, 1033-1040 |
| C34 | `calc_eccentric_anomaly(inds)` replaces the cached array by a shorter one | orbit.py 883-901 |
| C35 | a copy of a lazy object forgets which set is current | orbit.py 169-199 |
| C36 | nested loops over one object share the position | orbit.py 204-213 |
| C37 | `add` in direct mode recalculates old orbits as well | orbit.py 263-323 |
| C39 | assigning `period` or `mean_motion` always raises: the setter has no value parameter | orbit.py 829-842, 1049-1060 |
| C42 | `periapsis` is zero on parabolas and negative on hyperbolas | orbit.py 1016-1018 |
| C43 | integer arrays truncate the results | kepler.py 337-548, 625-792 |
| C44 | for Fortran-ordered arrays `mean_to_eccentric` pairs and stores elements in memory order | kepler.py 1249-1344 |
| C48 | assigning a 6-vector to `equinoctial` raises TypeError in radians unless the type is `mean` | orbit.py 1033-1040 |
| C50 | a parabola comes back from `cart_to_kep` with a = +inf | kepler.py 337-548 |
| C78 | on a parabola `propagate` moves the object `sqrt(2)` times too fast: `mean_motion` is `sqrt(mu/a^3)`, Barker's equation with periapsis distance `a` needs `sqrt(mu/(2 a^3))` | orbit.py 233-244, 818-827 |
| C54 | `kepler_guess` raises ValueError on empty arrays (no early return as in `mean_to_eccentric`); a 0-d angle array beside a longer `e` is refused in radians and accepted in degrees, because `np.radians` turns it into a numpy scalar | kepler.py 1213-1226, 643-654 |
| C112 | `cart_to_kep` computes angles as arccosines of rounded cosines, so no angle strictly between 0 and 1.49e-8 rad is returned and anomalies near the apses are off by up to that, not by rounding errors | kepler.py 417, 447, 478, 517 |
| C80 | near `e = 1` and `M = -0.4 e` the solver starts at 0, where the slope is `e - 1`; the first step has length `0.4 e/(e-1)` and 5000 iterations do not lead back (in floating point `sinh` overflows) | kepler.py 1127-1148, 1018-1124 |
| C85 | beyond the asymptote of a hyperbola `kep_to_cart` silently returns a state with the wrong energy | kepler.py 1750-1776, 852-855 |

Other findings: the constructor rejects `type='True'` while the setter accepts it; a constructor with `num=0` ignores element
keywords; `update(inds=bad)` without keywords does nothing; `propagate` does not change `epoch`; in lazy mode `orb.r = ..` right after `orb.kepler = ..` keeps the stale velocity; `copy()` and indexing hand on the
reference in `epoch`, so a mutable epoch changed in place changes in both (`c103_epoch_is_shared`), and `orb.m = arr` keeps the
caller's array.

## 7. Proof methods

C01, C02: orthonormal frames, arccos with the quadrant tests, and every regular state is the image of canonical elements.
C03, C14-C16, C41, C42: algebraic identities.  C08, C13, C45: half-angle identities, monotonicity.  C09-C12, C49: the loop by
induction on its fuel, monotonicity of Kepler's function, mean value theorem.  C17, C18: matrix algebra, power series.  C19, C20:
`atan2` as an argument of a complex number.  C21, C52, C54: case analysis of each function.  C22-C25, C51: decision logic and
invariants over histories of statements.  C27: implicit differentiation of Kepler's equation.  C28-C40, C46-C48, C55-C65:
invariants of the state machine over histories of operations, by induction; for lazy mode the invariant `Sound` relates flags
and elements.  C66-C68: C27 applied to what `propagate` stores, with the solver's tolerance carried through by monotonicity.
C69-C71: forward error analysis with the relations `Rel` and `Near` of `Round`.
C72: convexity of Kepler's function on `[0, pi]` gives two-sided bounds for a Laguerre step (`LagReal`, `LagConverge`), an invariant
region and a contraction by 5/6 in a weighted distance; the starting values of the code lie in that region.  C73: C68 with C72.
C74: the closed forms of both conversions (C01, C17) evaluated at the transformed arguments.
C75: a simulation between the object and the selected part, operation by operation.
C76: as C72, with hyperbolic functions (`LagHyperReal`, `LagHyper`); overshoots are bounded by polynomials in `s/x` and `(e-1)/(e(cosh x-1))`.
C77, C78: plane curves with the derivatives of the inverse of Kepler's (Barker's) function.  C79: C77 and C76; mean value theorem along the curve.
C80: the same mirrored at the origin (`LagHyperIn`), with one more region below the root for `e >= 2`; the counterexample needs only that a step down is at most 5.
C81: the true anomaly as a smooth function of the eccentric one (`nuLift`), mean value theorem, C72 and C76.  C82: C81 through the setters and getters.
C83: `Ellipse.steps` of C68; a state is determined by position, angular momentum and eccentricity vector.
C84: Smith's starting value is compared with the root by the tangent of the sine (first half of a turn) and by concavity (second half), then `LagConverge`.
C85, C86: evaluation of the columns with NaN and the infinities.
C87: monotonicity of rounding to nearest and the square root of a rounded square (`Nearest`).  C88: as C70.  C89: signs of rounded sums (`Nearest`).  C90: C70, C88 and a perturbation bound for the elements of a state.
C91: broadcasting is a join of shapes (`Joint`, `joint_bshape`), and reading through intermediate arrays (`clip_clip`).  C92: case analysis.
C93: error propagation through cross products and quotients by lengths (`flNode_err`, `quot_diff`), then `angleErr_of` for arccos and the reflection.  C94: perturbation of the exact vectors by the errors of C89 (`Computed`) followed by C93.  C95: what `strip` and `lower` do to a list of characters.
C96: one Laguerre step halves the distance to the root when it starts within 0.71 of it (`LagContract`), rounding adds at most
70 u to that (`PropsRoundSolve`), and the starting value is that close.
C97: the angle of the eccentric anomaly as a function of the true one is Lipschitz with constant kappa (`samePoint_lipschitz`); the rounding
errors of tan, of the factor and of arctan are errors of the half angle.
C98: one step adds at most `tol` and 661 u + 20 u |x| + 18 u |n d| to the error of the mean anomaly; after the first step |x| <= 8; the
last conversion to a state is `kepToCartCol_close`.
C99-C102, C104, C106: propagation of relative errors through each expression in the order in which the code evaluates it (`Rel`, `Near`).
C103: an operation of the heap model changes only the cells that the object owns.
C105: conditioning of one Laguerre step on hyperbolas (`LagHyperRound`) and a contraction of the distance to the root by 0.95.
C112: a number with 53 digits below 1 is at most 1 - 2^-53, and `arccos (1 - y) >= sqrt (2 y)`.
C111: for any e > 1 the iteration stays in the region of C76's proof when the corrections have relative errors of 1/10, or 1/200 far above the root (`LagHyperStep`); the rounding errors are that small while the residual is at least the tolerance (`LagHyperFit`).
C107: a Laguerre step whose correction has a relative error of at most 1/200 keeps the region of `LagConverge`, slightly enlarged, and contracts by 0.85
(`LagRound`: `pnext`, `At`); while the residual is at least the tolerance, the computed correction is that accurate (`step_ell`), because the denominator
of the step is at least 8.9 times the tolerance (`Fit`); the computed starting value lies in the region or is a solution (`LagRoundStart`).
