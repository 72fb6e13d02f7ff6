import Verif.Np

/-!
# Model of `/repo/pyorb/kepler.py`, element by element

Every definition is written over an arbitrary scalar type `α` with the numpy operations `Np α`.  Array operations of the
code act column by column; the definitions here describe one column (one object) or one array element.  Buffers created by
`np.empty` start with an arbitrary value, passed in as an explicit `g…` parameter ("garbage"), and masked assignments
`x[mask] = y` are rendered as `let x := if mask then y else x` in program order.  Writes into an array of the caller's
dtype go through `store dt` (truncation for an integer dtype).  The array-level wrappers (shapes, argument types,
in-place effects, exceptions) are in `Verif/KeplerArr.lean`.
-/

namespace Pyorb
variable {α : Type} [Np α]

/-- A column of Keplerian elements, rows `K_a .. K_nu` (const.py 68). -/
structure Kep (α : Type) where
  a : α
  e : α
  i : α
  om : α
  OM : α
  nu : α

/-- A column of Cartesian state, rows x y z vx vy vz (kepler.py 345). -/
structure Cart (α : Type) where
  x : α
  y : α
  z : α
  vx : α
  vy : α
  vz : α

/-- A column of equinoctial elements, rows `E_a .. E_lam` (const.py 69). -/
structure Equi (α : Type) where
  a : α
  h : α
  k : α
  p : α
  q : α
  lam : α

/-- `e_lim = 1e-9` (kepler.py 140). -/
def e_lim : α := Np.lit (1 / 1000000000)

/-- `i_lim = np.pi*1e-9` (kepler.py 144). -/
def i_lim : α := Np.pi * Np.lit (1 / 1000000000)

/-! ## Vector helpers used by `cart_to_kep` -/

/-- three components of a column of a (3,N) array -/
structure V3 (α : Type) where
  x : α
  y : α
  z : α

namespace V3
/-- `np.linalg.norm(v, axis=0)`: square root of the sum of squares -/
def norm (v : V3 α) : α := Np.sqrt (sq v.x + sq v.y + sq v.z)
/-- `np.sum(u*v, axis=0)` -/
def dot (u v : V3 α) : α := u.x * v.x + u.y * v.y + u.z * v.z
/-- `np.cross(u, v, axisa=0, axisb=0, axisc=0)` -/
def cross (u v : V3 α) : V3 α :=
  ⟨u.y * v.z - u.z * v.y, u.z * v.x - u.x * v.z, u.x * v.y - u.y * v.x⟩
/-- `v*s` / `s*v` with a scalar per column -/
def smul (s : α) (v : V3 α) : V3 α := ⟨s * v.x, s * v.y, s * v.z⟩
/-- `v/s` with a scalar per column -/
def sdiv (v : V3 α) (s : α) : V3 α := ⟨v.x / s, v.y / s, v.z / s⟩
/-- `u - v` -/
def sub (u v : V3 α) : V3 α := ⟨u.x - v.x, u.y - v.y, u.z - v.z⟩
/-- componentwise conversion on storing into an array of dtype `dt` -/
def store (dt : DType) (v : V3 α) : V3 α := ⟨Pyorb.store dt v.x, Pyorb.store dt v.y, Pyorb.store dt v.z⟩
end V3

/-! ## `cart_to_kep` -/

/-- Uninitialised memory reachable in one column of `cart_to_kep`: the buffers created by `np.empty` at lines 390
(`o`), 440 (`n`), 441 (`nn`), 459 (`cos_om`) and 496 (`cos_nu`). -/
structure CtkGarbage (α : Type) where
  o : Kep α
  n : V3 α
  nn : α
  cos_om : α
  cos_nu : α

/-- One column of `cart_to_kep` with radians output (kepler.py 388-537).  `dt` is `cart.dtype`. -/
def cartToKepCol (g : CtkGarbage α) (dt : DType) (mu : α) (c : Cart α) : Kep α :=
  let ez : V3 α := ⟨0, 0, 1⟩                                             -- 388
  let r : V3 α := ⟨c.x, c.y, c.z⟩                                        -- 392
  let v : V3 α := ⟨c.vx, c.vy, c.vz⟩                                     -- 393
  let rn := r.norm                                                       -- 394
  let vn := v.norm                                                       -- 395
  let vr := (r.sdiv rn).dot v                                            -- 397
  let epsilon := sq vn * half - mu / rn                                  -- 399
  -- ECCENTRICITY
  let ev : V3 α := ((r.smul (sq vn - mu / rn)).sub (v.smul (rn * vr))).smul (1 / mu)   -- 402
  let o1 := store dt ev.norm                                             -- 403
  -- SEMI MAJOR AXIS
  let e_hyp := (1 : α) ≤ᵇ o1                                             -- 410
  let o0 := store dt (-mu / (2 * epsilon))                               -- 411
  let o0 := if e_hyp then store dt (-o0) else o0                         -- 412
  -- ANGULAR MOMENTUM
  let h := r.cross v                                                     -- 415
  let hn := h.norm                                                       -- 416
  let o2 := store dt (Np.arccos (h.z / hn))                              -- 417
  let eg := e_lim <ᵇ o1                                                  -- 420
  let ig := (i_lim <ᵇ o2) && (o2 <ᵇ Np.pi - i_lim)                       -- 422
  let el := !eg                                                          -- 423
  let il := !ig                                                          -- 424
  let eg_ig := eg && ig                                                  -- 427
  let eg_il := eg && il                                                  -- 430
  let el_ig := el && ig                                                  -- 433
  let el_il := el && il                                                  -- 436
  -- ASCENDING NODE
  let n := g.n                                                           -- 440
  let nn := g.nn                                                         -- 441
  let n := if ig then V3.store dt (ez.cross h) else n                    -- 442
  let nn := if ig then n.norm else nn                                    -- 443
  let ny_neg := (n.y <ᵇ 0) && ig                                         -- 446
  let o4 := g.o.OM
  let o4 := if ig then store dt (Np.arccos (n.x / nn)) else o4           -- 447
  let o4 := if ny_neg then store dt (twoPi - o4) else o4                 -- 448
  let o4 := if il then 0 else o4                                         -- 451
  -- ARGUMENT OF PERIAPSIS
  let o3 := g.o.om
  let o3 := if el then 0 else o3                                         -- 455
  let cos_om := g.cos_om                                                 -- 459
  let cos_om := if eg_ig then n.dot ev / (nn * o1) else cos_om           -- 462
  let cos_om := if eg_il then ev.x / o1 else cos_om                      -- 469
  -- 472: `cos_om = cos_om[eg]`, only columns with `eg` are used below
  let cos_om := if 1 <ᵇ cos_om then 1 else cos_om                        -- 475
  let cos_om := if cos_om <ᵇ -1 then -1 else cos_om                      -- 476
  let o3 := if eg then store dt (Np.arccos cos_om) else o3               -- 478
  let ez_neg := (ev.z <ᵇ 0) && eg_ig                                     -- 481
  let o3 := if ez_neg then store dt (twoPi - o3) else o3                 -- 482
  let ey_neg := (o2 <ᵇ Np.pi * half) && eg_il                            -- 486
  let ey_neg2 := ey_neg && (ev.y <ᵇ 0)                                   -- 487
  let o3 := if ey_neg2 then store dt (twoPi - o3) else o3                -- 488
  let ey_neg := (Np.pi * half <ᵇ o2) && eg_il                            -- 491
  let ey_neg2 := ey_neg && (0 ≤ᵇ ev.y)                                   -- 492
  let o3 := if ey_neg2 then store dt (twoPi - o3) else o3                -- 493
  -- TRUE ANOMALY
  let cos_nu := g.cos_nu                                                 -- 496
  let cos_nu := if eg then ev.dot r / (o1 * rn) else cos_nu              -- 500
  let cos_nu := if el_ig then (n.sdiv nn).dot (r.sdiv rn) else cos_nu    -- 505
  let cos_nu := if el_il then r.x / rn else cos_nu                       -- 511
  let cos_nu := if 1 <ᵇ cos_nu then 1 else cos_nu                        -- 514
  let cos_nu := if cos_nu <ᵇ -1 then -1 else cos_nu                      -- 515
  let o5 := store dt (Np.arccos cos_nu)                                  -- 517
  let t := (vr <ᵇ 0) && eg                                               -- 521
  let o5 := if t then store dt (twoPi - o5) else o5                      -- 522
  let t := (r.z <ᵇ 0) && el_ig                                           -- 525
  let o5 := if t then store dt (twoPi - o5) else o5                      -- 526
  let t := (o2 <ᵇ Np.pi * half) && el_il                                 -- 530
  let t2 := t && (r.y <ᵇ 0)                                              -- 531
  let o5 := if t2 then store dt (twoPi - o5) else o5                     -- 532
  let t := (Np.pi * half <ᵇ o2) && el_il                                 -- 535
  let t2 := t && (0 ≤ᵇ r.y)                                              -- 536
  let o5 := if t2 then store dt (twoPi - o5) else o5                     -- 537
  ⟨o0, o1, o2, o3, o4, o5⟩

/-- `kep[2:, :] = np.degrees(kep[2:, :])` on one column (kepler.py 541, 1786). -/
def Kep.toDegrees (dt : DType) (k : Kep α) : Kep α :=
  ⟨k.a, k.e, store dt (degrees k.i), store dt (degrees k.om), store dt (degrees k.OM), store dt (degrees k.nu)⟩

/-- `kep[2:, :] = np.radians(kep[2:, :])` on one column (kepler.py 1737). -/
def Kep.toRadians (dt : DType) (k : Kep α) : Kep α :=
  ⟨k.a, k.e, store dt (radians k.i), store dt (radians k.om), store dt (radians k.OM), store dt (radians k.nu)⟩

/-- One column of `cart_to_kep` including the final unit conversion (kepler.py 540-541). -/
def cartToKep (g : CtkGarbage α) (dt : DType) (mu : α) (deg : Bool) (c : Cart α) : Kep α :=
  let o := cartToKepCol g dt mu c
  if deg then o.toDegrees dt else o

/-! ## Angular momentum and rotation matrices -/

/-- `orbit_total_angular_momentum` (kepler.py 585-603). -/
def orbit_total_angular_momentum (a e mu : α) : α := Np.sqrt (mu * a * (1 - sq e))

/-- `parabolic_total_angular_momentum` (kepler.py 606-622). -/
def parabolic_total_angular_momentum (q mu : α) : α := Np.sqrt (mu * 2 * q)

/-- a 3x3 numpy matrix -/
abbrev Mat3 (α : Type) := Fin 3 → Fin 3 → α

/-- `rot_mat_x` (kepler.py 943-964); entries not assigned are zero (`np.zeros`). -/
def rot_mat_x (theta : α) : Mat3 α := fun i j =>
  match i, j with
  | 1, 1 => Np.cos theta
  | 1, 2 => -Np.sin theta
  | 2, 1 => Np.sin theta
  | 2, 2 => Np.cos theta
  | 0, 0 => 1
  | _, _ => 0

/-- `rot_mat_y` (kepler.py 967-988). -/
def rot_mat_y (theta : α) : Mat3 α := fun i j =>
  match i, j with
  | 0, 0 => Np.cos theta
  | 0, 2 => Np.sin theta
  | 2, 0 => -Np.sin theta
  | 2, 2 => Np.cos theta
  | 1, 1 => 1
  | _, _ => 0

/-- `rot_mat_z` (kepler.py 991-1012). -/
def rot_mat_z (theta : α) : Mat3 α := fun i j =>
  match i, j with
  | 0, 0 => Np.cos theta
  | 0, 1 => -Np.sin theta
  | 1, 0 => Np.sin theta
  | 1, 1 => Np.cos theta
  | 2, 2 => 1
  | _, _ => 0

/-- `euler_rotation_matrix` for scalar angles, or one slice of the (3,3,N) array (kepler.py 1614-1684). -/
def euler_rotation_matrix (inc omega Omega : α) (deg : Bool) : Mat3 α :=
  let _omega := if deg then radians omega else omega
  let _inc := if deg then radians inc else inc
  let _Omega := if deg then radians Omega else Omega
  let c1 := Np.cos _Omega
  let s1 := Np.sin _Omega
  let c2 := Np.cos _inc
  let s2 := Np.sin _inc
  let c3 := Np.cos _omega
  let s3 := Np.sin _omega
  fun i j =>
    match i, j with
    | 0, 0 => c1 * c3 - c2 * s1 * s3
    | 1, 0 => c3 * s1 + c1 * c2 * s3
    | 2, 0 => s2 * s3
    | 0, 1 => -c1 * s3 - c2 * c3 * s1
    | 1, 1 => c1 * c2 * c3 - s1 * s3
    | 2, 1 => c3 * s2
    | 0, 2 => s1 * s2
    | 1, 2 => -c1 * s2
    | 2, 2 => c2

/-! ## Anomalies -/

/-- `np.mod(x + 2.*np.pi, 2.*np.pi)` (kepler.py 676, 735). -/
def wrap (x : α) : α := Np.mod (x + twoPi) twoPi

/-- The three masked assignments `out[hyp] = ..; out[per] = ..; out[eli] = ..` of the array paths
(kepler.py 656-667, 715-726, 774-781), where `out = np.empty(..)` starts with garbage `g`. -/
def triMask (g : α) (dt : DType) (e hyp per eli : α) : α :=
  let out := g
  let out := if 1 <ᵇ e then store dt hyp else out
  let out := if e =ᵇ 1 then store dt per else out
  let out := if e <ᵇ 1 then store dt eli else out
  out

/-- The `if e > 1: .. elif e == 1: .. else: ..` of the scalar paths (kepler.py 669-674, 728-733, 783-788). -/
def triSc (e hyp per eli : α) : α :=
  if 1 <ᵇ e then hyp else if e =ᵇ 1 then per else eli

/-- hyperbolic branch of `true_to_eccentric` (kepler.py 661, 670) -/
def tteHyp (nu e : α) : α := 2 * Np.arctanh (Np.sqrt ((e - 1) / (e + 1)) * Np.tan (nu * half))
/-- parabolic branch of `true_to_eccentric` (kepler.py 664, 672) -/
def ttePar (nu : α) : α := Np.tan (nu * half)
/-- elliptic branch of `true_to_eccentric` (kepler.py 665, 674) -/
def tteEli (nu e : α) : α := 2 * Np.arctan (Np.sqrt ((1 - e) / (1 + e)) * Np.tan (nu * half))

/-- `true_to_eccentric`, scalar arguments, radians (kepler.py 669-676). -/
def trueToEccentricSc (nu e : α) : α := wrap (triSc e (tteHyp nu e) (ttePar nu) (tteEli nu e))

/-- `true_to_eccentric`, one element of the array path, radians (kepler.py 656-667, 676). -/
def trueToEccentricEl (g : α) (dt : DType) (nu e : α) : α :=
  wrap (triMask g dt e (tteHyp nu e) (ttePar nu) (tteEli nu e))

/-- hyperbolic branch of `eccentric_to_true` (kepler.py 720, 729) -/
def ettHyp (E e : α) : α := 2 * Np.arctan (Np.sqrt ((e + 1) / (e - 1)) * Np.tanh (E * half))
/-- parabolic branch of `eccentric_to_true` (kepler.py 723, 731) -/
def ettPar (E : α) : α := 2 * Np.arctan E
/-- elliptic branch of `eccentric_to_true` (kepler.py 724, 733) -/
def ettEli (E e : α) : α := 2 * Np.arctan (Np.sqrt ((1 + e) / (1 - e)) * Np.tan (E * half))

/-- `eccentric_to_true`, scalar arguments, radians (kepler.py 728-735). -/
def eccentricToTrueSc (E e : α) : α := wrap (triSc e (ettHyp E e) (ettPar E) (ettEli E e))

/-- `eccentric_to_true`, one element of the array path, radians (kepler.py 715-726, 735). -/
def eccentricToTrueEl (g : α) (dt : DType) (E e : α) : α :=
  wrap (triMask g dt e (ettHyp E e) (ettPar E) (ettEli E e))

/-- hyperbolic branch of `eccentric_to_mean` (kepler.py 779, 784) -/
def etmHyp (E e : α) : α := e * Np.sinh E - E
/-- parabolic branch of `eccentric_to_mean` (kepler.py 780, 786) -/
def etmPar (E : α) : α := E + cube E / 3
/-- elliptic branch of `eccentric_to_mean` (kepler.py 781, 788) -/
def etmEli (E e : α) : α := E - e * Np.sin E

/-- `eccentric_to_mean`, scalar arguments, radians (kepler.py 783-788). -/
def eccentricToMeanSc (E e : α) : α := triSc e (etmHyp E e) (etmPar E) (etmEli E e)

/-- `eccentric_to_mean`, one element of the array path, radians (kepler.py 774-781). -/
def eccentricToMeanEl (g : α) (dt : DType) (E e : α) : α :=
  triMask g dt e (etmHyp E e) (etmPar E) (etmEli E e)

/-! ## Kepler's equation -/

/-- `_f` of `laguerre_solve_kepler` (kepler.py 1077, 1086). -/
def lagF (M e E : α) : α :=
  if 1 <ᵇ e then M + E - e * Np.sinh E else M - E + e * Np.sin E

/-- `_fp` (kepler.py 1080, 1089). -/
def lagFp (e E : α) : α :=
  if 1 <ᵇ e then 1 - e * Np.cosh E else e * Np.cos E - 1

/-- `_fpp` (kepler.py 1083, 1092). -/
def lagFpp (e E : α) : α :=
  if 1 <ᵇ e then -e * Np.sinh E else -e * Np.sin E

/-- Options of `laguerre_solve_kepler`, with their defaults (kepler.py 1018): `tol=1e-12, max_iter=5000, degree=5`. -/
structure SolverOpts (α : Type) where
  tol : α
  max_iter : Int
  degree : α

/-- the default solver options (kepler.py 1018) -/
def SolverOpts.dflt : SolverOpts α := ⟨Np.lit (1 / 1000000000000), 5000, 5⟩

/-- The update `E - delta` of one iteration (kepler.py 1103-1117); `f` is `f_eval`. -/
def lagStep (degree e E f : α) : α :=
  let fp := lagFp e E                                                                      -- 1103
  let sqrt_term := Np.sqrt (Np.abs
    (sq (degree - 1) * sq fp - degree * (degree - 1) * f * lagFpp e E))                    -- 1105
  let denom_p := fp + sqrt_term                                                            -- 1109
  let denom_m := fp - sqrt_term                                                            -- 1110
  let delta :=
    if Np.abs denom_m <ᵇ Np.abs denom_p then degree * f / denom_p                          -- 1112
    else degree * f / denom_m                                                              -- 1115
  E - delta                                                                                -- 1117

/-- The `while np.abs(f_eval) >= tol` loop (kepler.py 1100-1122), entered with the current `E`, `f_eval = _f(E)` and
`it_num`.  The iteration limit makes it terminate; Lean checks this with the measure `max_iter - it_num`. -/
def lagLoop (o : SolverOpts α) (M e : α) (E f : α) (it : Int) : α × Int :=
  if o.tol ≤ᵇ Np.abs f then
    let it' := it + 1
    let E' := lagStep o.degree e E f
    let f' := lagF M e E'
    if o.max_iter ≤ it' then (E', it') else lagLoop o M e E' f' it'
  else (E, it)
termination_by (o.max_iter - it).toNat
decreasing_by omega

/-- `laguerre_solve_kepler` (kepler.py 1018-1124): returns the eccentric anomaly and the iteration count. -/
def laguerre_solve_kepler (E0 M e : α) (o : SolverOpts α) : α × Int :=
  lagLoop o M e E0 (lagF M e E0) 0

/-- `_get_hyperbolic_kepler_guess` (kepler.py 1127-1148). -/
def get_hyperbolic_kepler_guess (M e : α) : α := Np.log (2 * M / e + Np.lit (18 / 10))

/-- `_get_kepler_guess` (kepler.py 1151-1186). -/
def get_kepler_guess (M e : α) : α :=
  let _M := if Np.pi <ᵇ M then twoPi - M else M
  let E0 :=
    if _M <ᵇ Np.lit (1 / 4) then _M + e * Np.sin _M / (1 - Np.sin (_M + e) + Np.sin _M)
    else if _M <ᵇ 2 then _M + e
    else _M + (e * (Np.pi - _M)) / (1 + e)
  if Np.pi <ᵇ M then twoPi - E0 else E0

/-- `kepler_guess` for scalars, or one element of its array loop (kepler.py 1233-1244). -/
def keplerGuess (M e : α) : α :=
  if 1 <ᵇ e then get_hyperbolic_kepler_guess M e else get_kepler_guess M e

/-- The closed-form solution of the parabolic (Barker) equation (kepler.py 1316-1318, 1334-1336). -/
def barker (M : α) : α :=
  let A := 3 / 2 * M
  let B := Np.cbrt (A + Np.sqrt (sq A + 1))
  B - 1 / B

/-- Loop body of the array path of `mean_to_eccentric` on one element (kepler.py 1311-1322), before storing. -/
def meanToEccentricEl (o : SolverOpts α) (M e : α) : α :=
  if 1 <ᵇ e then (laguerre_solve_kepler (get_hyperbolic_kepler_guess M e) M e o).1
  else if e =ᵇ 1 then barker M
  else (laguerre_solve_kepler (get_kepler_guess M e) M e o).1

/-- `mean_to_eccentric`, scalar arguments, radians (kepler.py 1327-1339); `e == 0` returns `M` unchanged. -/
def meanToEccentricSc (o : SolverOpts α) (M e : α) : α :=
  if e =ᵇ 0 then M else meanToEccentricEl o M e

/-! ## Small scalar formulas -/

/-- `orbital_distance` (kepler.py 826-855). -/
def orbital_distance (h mu e nu : α) (deg : Bool) : α :=
  let _nu := if deg then radians nu else nu
  sq h / (mu * (1 + e * Np.cos _nu))

/-- `elliptic_radius` (kepler.py 858-884). -/
def elliptic_radius (E a e : α) (deg : Bool) : α :=
  let _E := if deg then radians E else E
  a * (1 - e * Np.cos _E)

/-- `parabolic_radius` (kepler.py 887-911). -/
def parabolic_radius (nu q : α) (deg : Bool) : α :=
  let _nu := if deg then radians nu else nu
  2 * q / (1 + Np.cos _nu)

/-- `hyperbolic_radius` (kepler.py 914-940). -/
def hyperbolic_radius (nu a e : α) (deg : Bool) : α :=
  let _nu := if deg then radians nu else nu
  a * (sq e - 1) / (1 + e * Np.cos _nu)

/-- `orbital_speed` (kepler.py 1382-1401). -/
def orbital_speed (r a mu : α) : α := Np.sqrt (mu * (2 / r - 1 / a))

/-- `orbital_period` (kepler.py 1404-1421). -/
def orbital_period (a mu : α) : α := 2 * Np.pi * Np.sqrt (cube a / mu)

/-- `semi_major_axis` (kepler.py 1424-1443). -/
def semi_major_axis (P mu : α) : α := Np.cbrt (sq (P / (2 * Np.pi)) * mu)

/-- `true_of_the_asymptote` (kepler.py 1446-1467). -/
def true_of_the_asymptote (e : α) (deg : Bool) : α :=
  let theta_inf := Np.arccos (-1 / e)
  if deg then degrees theta_inf else theta_inf

/-- one element of `stumpff0` (kepler.py 1470-1495); `g` is the content of `np.empty_like(x)`. -/
def stumpff0 (g : α) (dt : DType) (x : α) : α :=
  let c := g
  let c := if 0 <ᵇ x then store dt (Np.cos (Np.sqrt x)) else c
  let c := if x =ᵇ 0 then 1 else c
  let c := if x <ᵇ 0 then store dt (Np.cosh (Np.sqrt (-x))) else c
  c

/-- one element of `stumpff1` (kepler.py 1498-1523). -/
def stumpff1 (g : α) (dt : DType) (x : α) : α :=
  let c := g
  let c := if 0 <ᵇ x then store dt (Np.sin (Np.sqrt x) / Np.sqrt x) else c
  let c := if x =ᵇ 0 then 1 else c
  let c := if x <ᵇ 0 then store dt (Np.sinh (Np.sqrt (-x)) / Np.sqrt (-x)) else c
  c

/-- one element of `stumpff2` (kepler.py 1526-1551). -/
def stumpff2 (g : α) (dt : DType) (x : α) : α :=
  let c := g
  let c := if 0 <ᵇ x then store dt ((1 - Np.cos (Np.sqrt x)) / x) else c
  let c := if x =ᵇ 0 then store dt half else c
  let c := if x <ᵇ 0 then store dt ((1 - Np.cosh (Np.sqrt (-x))) / x) else c
  c

/-- one element of `stumpff3` (kepler.py 1554-1581). -/
def stumpff3 (g : α) (dt : DType) (x : α) : α :=
  let c := g
  let c := if 0 <ᵇ x then store dt ((Np.sqrt x - Np.sin (Np.sqrt x)) / (Np.sqrt x * x)) else c
  let c := if x =ᵇ 0 then store dt (1 / 6) else c
  let c := if x <ᵇ 0 then store dt ((Np.sqrt (-x) - Np.sinh (Np.sqrt (-x))) / (Np.sqrt (-x) * x)) else c
  c

/-! ## `kep_to_cart` -/

/-- One column of `kep_to_cart` with angles in radians (kepler.py 1739-1779).  The second component is the column of the
argument after the call: line 1750 `a[e > 1] *= -1` acts on a view of the caller's array.  `dt` is `kep.dtype`;
`gh` is the uninitialised entry of `h = np.empty_like(a)`; `x = np.empty(..)` is assigned in full. -/
def kepToCartCol (gh : α) (dt : DType) (mu : α) (k : Kep α) : Cart α × Kep α :=
  let nu := k.nu
  let omega := k.om
  let asc_node := k.OM
  let inc := k.i
  let e := k.e
  let a := k.a
  let per := e =ᵇ 1                                                      -- 1746
  let nper := !per                                                       -- 1747
  let a := if 1 <ᵇ e then store dt (a * -1) else a                       -- 1750
  let h := gh                                                            -- 1752
  let h := if nper then store dt (orbit_total_angular_momentum a e mu) else h        -- 1753
  let h := if per then store dt (parabolic_total_angular_momentum a mu) else h       -- 1754
  let rn := orbital_distance h mu e nu false                             -- 1756
  let R := euler_rotation_matrix inc omega asc_node false                -- 1758
  let rx := rn * Np.cos nu                                               -- 1762
  let ry := rn * Np.sin nu                                               -- 1763
  let r0 := store dt (R 0 0 * rx + R 0 1 * ry)                           -- 1765
  let r1 := store dt (R 1 0 * rx + R 1 1 * ry)                           -- 1766
  let r2 := store dt (R 2 0 * rx + R 2 1 * ry)                           -- 1767
  let vn := mu / h                                                       -- 1769
  let vx := -vn * Np.sin nu                                              -- 1770
  let vy := vn * (e + Np.cos nu)                                         -- 1771
  let v0 := store dt (R 0 0 * vx + R 0 1 * vy)                           -- 1774
  let v1 := store dt (R 1 0 * vx + R 1 1 * vy)                           -- 1775
  let v2 := store dt (R 2 0 * vx + R 2 1 * vy)                           -- 1776
  (⟨r0, r1, r2, v0, v1, v2⟩, { k with a := a })

/-- One column of `kep_to_cart` with the unit conversions (kepler.py 1736-1737, 1785-1786): the result column and the
column of the argument after the call. -/
def kepToCart (gh : α) (dt : DType) (mu : α) (deg : Bool) (k : Kep α) : Cart α × Kep α :=
  let k := if deg then k.toRadians dt else k
  let (x, k) := kepToCartCol gh dt mu k
  let k := if deg then k.toDegrees dt else k
  (x, k)

/-! ## Equinoctial elements -/

/-- `_circ` (kepler.py 257, 306) -/
def circ (deg : Bool) : α := if deg then 360 else twoPi

/-- One column of `kep_to_equi` (kepler.py 257-278). -/
def kepToEqui (dt : DType) (deg : Bool) (k : Kep α) : Equi α :=
  let om_bar := k.om + k.OM                                              -- 258
  let OM := k.OM                                                         -- 259
  let hi := half * k.i                                                   -- 260
  let lambda0 := om_bar + k.nu                                           -- 261
  let om_bar := if deg then radians om_bar else om_bar                   -- 263
  let OM := if deg then radians OM else OM                               -- 264
  let hi := if deg then radians hi else hi                               -- 265
  ⟨k.a, store dt (k.e * Np.sin om_bar), store dt (k.e * Np.cos om_bar),
    store dt (Np.tan hi * Np.sin OM), store dt (Np.tan hi * Np.cos OM),
    store dt (Np.mod (lambda0 + circ deg) (circ deg))⟩                   -- 269-277

/-- One column of `equi_to_kep` (kepler.py 306-334).  `g` is the content of `kep = np.empty(..)`. -/
def equiToKep (g : Kep α) (dt : DType) (deg : Bool) (q : Equi α) : Kep α :=
  let a := q.a                                                           -- 309
  let e := store dt (Np.sqrt (sq q.h + sq q.k))                          -- 310
  let om_bar := Np.arctan2 q.h q.k                                       -- 312
  let hi := Np.arctan (Np.sqrt (sq q.p + sq q.q))                        -- 314
  let i := store dt (2 * hi)                                             -- 315
  let OM := store dt (Np.arctan2 q.p q.q)                                -- 316
  let om_bar := if deg then degrees om_bar else om_bar                   -- 319
  let OM := if deg then store dt (degrees OM) else OM                    -- 320
  let i := if deg then store dt (degrees i) else i                       -- 321
  let eg := e_lim <ᵇ e                                                   -- 324
  let el := !eg                                                          -- 325
  let om := g.om
  let om := if eg then store dt (om_bar - OM) else om                    -- 327
  let om := if el then 0 else om                                         -- 328
  let nu := g.nu
  let nu := if eg then store dt (q.lam - om_bar) else nu                 -- 330
  let nu := if el then store dt (q.lam - OM) else nu                     -- 331
  ⟨a, e, i,
    store dt (Np.mod (om + circ deg) (circ deg)),
    store dt (Np.mod (OM + circ deg) (circ deg)),
    store dt (Np.mod (nu + circ deg) (circ deg))⟩                        -- 333

/-! ## `kep_equivalent` -/

/-- `np.isclose(a, b)` for finite values: `|a-b| <= atol + rtol*|b|` with `rtol=1e-5, atol=1e-8`; for the non-finite cases
numpy requires equality. -/
def isclose (a b : α) : Bool :=
  if Np.isfinite a && Np.isfinite b then
    Np.abs (a - b) ≤ᵇ Np.lit (1 / 100000000) + Np.lit (1 / 100000) * Np.abs b
  else a =ᵇ b

/-- `np.allclose(kep1, kep2)` on two 6-vectors -/
def allclose (k1 k2 : Kep α) : Bool :=
  isclose k1.a k2.a && isclose k1.e k2.e && isclose k1.i k2.i && isclose k1.om k2.om && isclose k1.OM k2.OM
    && isclose k1.nu k2.nu

/-- `kep_equivalent` on two 6-vectors (kepler.py 550-582). -/
def kep_equivalent (k1 k2 : Kep α) : Bool :=
  if allclose k1 k2 then true                                            -- 557
  else if !isclose k1.a k2.a then false                                  -- 560
  else if (k1.e <ᵇ e_lim) && (k2.e <ᵇ e_lim) && !isclose (k1.om + k1.nu) (k2.om + k2.nu) then false    -- 564
  else if !((k1.e <ᵇ e_lim) && (k2.e <ᵇ e_lim)) && (!isclose k1.om k2.om || !isclose k1.nu k2.nu) then false -- 567
  else if ((i_lim <ᵇ k1.i) || (i_lim <ᵇ k2.i)) && (!isclose k1.i k2.i || !isclose k1.OM k2.OM) then false    -- 575
  else true                                                              -- 582

end Pyorb
