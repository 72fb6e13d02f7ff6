import Verif.OrbitCls
import Verif.KeplerArr
import Verif.FX

/-!
# The numerical functions behind the class `Orbit`

`fxKern` is the kernel made of the functions modelled in `Verif/Kepler.lean`, over exact reals with NaN and infinity.  The
class calls them with float64 arrays that have one entry per orbit, so the array path acts on each orbit separately
(`Verif/Mask.lean`); with an integer index the anomaly functions see numpy scalars and take the scalar path.
-/

namespace Pyorb

/-- The uninitialised memory the functions can see, one unknown value for each buffer. -/
structure KGarbage where
  h : FX
  ctk : CtkGarbage FX
  equi : Kep FX
  ecc : FX
  tru : FX
  mean : FX

section
variable (g : KGarbage)

/-- `if degrees: x = np.radians(x)` -/
noncomputable def inR (deg : Bool) (x : FX) : FX := if deg then radians x else x
/-- `if degrees: x = np.degrees(x)` -/
noncomputable def outR (deg : Bool) (x : FX) : FX := if deg then degrees x else x

/-- `true_to_eccentric` in radians, scalar path or one element of the array path (kepler.py 625-681) -/
noncomputable def tteK (sc : Bool) (nu e : FX) : FX := if sc then trueToEccentricSc nu e else trueToEccentricEl g.ecc .f64 nu e
/-- `eccentric_to_true` in radians (kepler.py 684-739) -/
noncomputable def ettK (sc : Bool) (E e : FX) : FX := if sc then eccentricToTrueSc E e else eccentricToTrueEl g.tru .f64 E e
/-- `eccentric_to_mean` in radians (kepler.py 742-792) -/
noncomputable def etmK (sc : Bool) (E e : FX) : FX := if sc then eccentricToMeanSc E e else eccentricToMeanEl g.mean .f64 E e
/-- `mean_to_eccentric` in radians (kepler.py 1249-1344) -/
noncomputable def mteK (o : SolverOpts FX) (sc : Bool) (M e : FX) : FX := if sc then meanToEccentricSc o M e else meanToEccentricEl o M e

/-- The kernel of `Orbit` (orbit.py 439-501, 818-901, 1012-1094). -/
noncomputable def fxKern : Kern FX where
  zero := 0
  nan := .nan
  isnan := Np.isnan
  isnan_nan := rfl
  mu G M0 m := gravParam G M0 m
  kepToCart deg mu k := (kepToCart g.h .f64 mu deg k).1
  cartToKep deg mu c := cartToKep g.ctk .f64 mu deg c
  trueToEcc sc deg nu e := outR deg (tteK g sc (inR deg nu) e)
  trueToMean sc deg nu e := outR deg (etmK g sc (tteK g sc (inR deg nu) e) e)
  eccToTrue sc deg E e := outR deg (ettK g sc (inR deg E) e)
  eccToMean sc deg E e := outR deg (etmK g sc (inR deg E) e)
  meanToTrue o sc deg M e := outR deg (ettK g sc (mteK o sc (inR deg M) e) e)
  -- the scalar path returns the argument itself when `e == 0` (kepler.py 1327-1328), in degrees without the two conversions
  meanToEcc o sc deg M e := if sc && (e =ᵇ 0) then M else outR deg (mteK o sc (inR deg M) e)
  kepToEqui deg k := kepToEqui .f64 deg k
  equiToKep deg q := equiToKep g.equi .f64 deg q
  period a mu := orbital_period a mu
  motion deg P := motionNorm deg / P
  advance M n dt := M + n * dt
  wrapM deg x := Np.mod x (wrapNorm deg)
  apoapsis e a := apoapsisOf e a
  periapsis e a := periapsisOf e a
  meanLon M om OM := meanLongitudeOf M om OM
  speedOf c := velocityOf c
  scaleV c x :=
    let f := x / velocityOf c
    ⟨c.x, c.y, c.z, c.vx * f, c.vy * f, c.vz * f⟩
  speed deg mu E a e := orbital_speed (elliptic_radius E a e deg) a mu

end

end Pyorb
