import Verif.OrbitReal
import Verif.Round

/-!
# The kernel of `Orbit` over any arithmetic

`npKern` is made of the functions of `Verif/Kepler.lean` for any `Np α`.  Over exact reals it is the `fxKern` of `Verif/OrbitReal.lean`
(`fxKern_np`), over `RF R` it is the class computed with the rounding `R`.
-/

namespace Pyorb

/-- The uninitialised memory the functions can see, one unknown value for each buffer. -/
structure Garb (α : Type) where
  h : α
  ctk : CtkGarbage α
  equi : Kep α
  ecc : α
  tru : α
  mean : α

section
variable {α : Type} [Np α] (g : Garb α)

/-- `if degrees: x = np.radians(x)` -/
def inA (deg : Bool) (x : α) : α := if deg then radians x else x
/-- `if degrees: x = np.degrees(x)` -/
def outA (deg : Bool) (x : α) : α := if deg then degrees x else x

/-- `true_to_eccentric` in radians, scalar path or one element of the array path (kepler.py 625-681) -/
def tteA (sc : Bool) (nu e : α) : α := if sc then trueToEccentricSc nu e else trueToEccentricEl g.ecc .f64 nu e
/-- `eccentric_to_true` in radians (kepler.py 684-739) -/
def ettA (sc : Bool) (E e : α) : α := if sc then eccentricToTrueSc E e else eccentricToTrueEl g.tru .f64 E e
/-- `eccentric_to_mean` in radians (kepler.py 742-792) -/
def etmA (sc : Bool) (E e : α) : α := if sc then eccentricToMeanSc E e else eccentricToMeanEl g.mean .f64 E e
/-- `mean_to_eccentric` in radians (kepler.py 1249-1344) -/
def mteA (o : SolverOpts α) (sc : Bool) (M e : α) : α := if sc then meanToEccentricSc o M e else meanToEccentricEl o M e

/-- The kernel of `Orbit` (orbit.py 439-501, 818-901, 1012-1094). -/
def npKern (hn : Np.isnan (Np.nan : α) = true) : Kern α where
  zero := 0
  nan := Np.nan
  isnan := Np.isnan
  isnan_nan := hn
  mu G M0 m := gravParam G M0 m
  kepToCart deg mu k := (kepToCart g.h .f64 mu deg k).1
  cartToKep deg mu c := cartToKep g.ctk .f64 mu deg c
  trueToEcc sc deg nu e := outA deg (tteA g sc (inA deg nu) e)
  trueToMean sc deg nu e := outA deg (etmA g sc (tteA g sc (inA deg nu) e) e)
  eccToTrue sc deg E e := outA deg (ettA g sc (inA deg E) e)
  eccToMean sc deg E e := outA deg (etmA g sc (inA deg E) e)
  meanToTrue o sc deg M e := outA deg (ettA g sc (mteA o sc (inA deg M) e) e)
  -- the scalar path returns the argument itself when `e == 0` (kepler.py 1327-1328), in degrees without the two conversions
  meanToEcc o sc deg M e := if sc && (e =ᵇ 0) then M else outA deg (mteA o sc (inA deg M) e)
  kepToEqui deg k := kepToEqui .f64 deg k
  equiToKep deg q := equiToKep g.equi .f64 deg q
  period a mu := orbital_period a mu
  motion deg P := motionNorm deg / P
  advance M n dt := M + n * dt
  wrapM deg x := Np.mod x (wrapNorm deg)
  apoapsis e a := apoapsisOf e a
  periapsis e a := periapsisOf e a
  meanLon M om OM := meanLongitudeOf M om OM
  speedOf c := velocityOf c
  scaleV c x :=
    let f := x / velocityOf c
    ⟨c.x, c.y, c.z, c.vx * f, c.vy * f, c.vz * f⟩
  speed deg mu E a e := orbital_speed (elliptic_radius E a e deg) a mu

end

/-- over exact reals this is the kernel of the theorems on exact arithmetic -/
theorem fxKern_np (g : KGarbage) : fxKern g = npKern (α := FX) ⟨g.h, g.ctk, g.equi, g.ecc, g.tru, g.mean⟩ rfl := rfl

/-- the kernel computed with the rounding `R` -/
noncomputable def rfKern {R : Rounding} (g : Garb (RF R)) : Kern (RF R) := npKern g rfl

end Pyorb
