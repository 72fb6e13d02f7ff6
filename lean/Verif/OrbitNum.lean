import Verif.Kepler

/-!
# The scalar formulas of `/repo/pyorb/orbit.py`

Values of the derived properties of `Orbit` for one orbit, as functions of the stored elements.
-/

namespace Pyorb
variable {α : Type} [Np α]

/-- `Orbit.apoapsis` (orbit.py 1012-1014) -/
def apoapsisOf (e a : α) : α := (1 + e) * a

/-- `Orbit.periapsis` (orbit.py 1016-1018) -/
def periapsisOf (e a : α) : α := (1 - e) * a

/-- `norm_` of `Orbit.mean_motion` (orbit.py 822-825): a full turn; written `np.pi*2.0` there. -/
def motionNorm (deg : Bool) : α := if deg then 360 else Np.pi * 2

/-- `wrap_` of `Orbit.propagate` (orbit.py 237-240) -/
def wrapNorm (deg : Bool) : α := if deg then 360 else 2 * Np.pi

/-- gravitational parameter `self.G*(self.M0 + self.m)` (orbit.py 464, 487, 1047, 1093) -/
def gravParam (G M0 m : α) : α := G * (M0 + m)

/-- `Orbit.period` getter (orbit.py 1042-1047) -/
def periodOf (G M0 m a : α) : α := orbital_period a (gravParam G M0 m)

/-- `Orbit.mean_motion` getter (orbit.py 818-827) -/
def meanMotionOf (deg : Bool) (G M0 m a : α) : α := motionNorm deg / periodOf G M0 m a

/-- the new mean anomaly computed by `Orbit.propagate` (orbit.py 241-242) -/
def propagatedMean (deg : Bool) (G M0 m a M dt : α) : α :=
  Np.mod (M + meanMotionOf deg G M0 m a * dt) (wrapNorm deg)

/-- `Orbit.velocity` getter, `np.linalg.norm(self.v, axis=0)` (orbit.py 1062-1067) -/
def velocityOf (c : Cart α) : α := V3.norm ⟨c.vx, c.vy, c.vz⟩

/-- `Orbit.speed` (orbit.py 1080-1094) for one orbit with eccentric anomaly `E` -/
def speedOf (deg : Bool) (G M0 m E a e : α) : α :=
  orbital_speed (elliptic_radius E a e deg) a (gravParam G M0 m)

/-- `Orbit.mean_longitude` (orbit.py 1020-1022) -/
def meanLongitudeOf (M om OM : α) : α := M + om + OM

end Pyorb
