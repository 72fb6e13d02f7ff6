import Verif.OrbitRun

/-!
# The public operations of `Orbit` as data

`Read` lists the queries and `Op` the operations a program can apply to an object; `exec` runs a history.  Assigning the plain
attributes (`orb.degrees = ..` etc.) has no code of its own; it is a constructor of `Op`, so that histories can contain it.
-/

namespace Pyorb
namespace Orbit
open Py
variable {α : Type} (K : Kern α)

/-- the queries: all property getters, `num`, `m`, `str(orb)` -/
inductive Read
  | num | m | str | r | v | cartesian | cart (i : Fin 6) | kepler | kep (i : Fin 6) | period | meanMotion
  | trueAnomaly | meanAnomaly | eccentricAnomaly | apoapsis | periapsis | meanLongitude | equinoctial | velocity | speed

/-- type of the answer, by orbits -/
def Read.Ans (α : Type) : Read → Type
  | .num => Nat
  | .str => Option (Kep α × Cart α) × Nat
  | .r | .v => List (Tri α)
  | .cartesian => List (Cart α)
  | .kepler => List (Kep α)
  | .equinoctial => List (Equi α)
  | _ => List α

/-- the getter -/
def Read.get : (g : Read) → Py α (g.Ans α)
  | .num => Orbit.num
  | .m => do let s ← self; pure s.m
  | .str => Orbit.str K
  | .r => get_r K
  | .v => get_v K
  | .cartesian => get_cartesian K
  | .cart i => get_cart K i
  | .kepler => get_kepler K
  | .kep i => get_kep K i
  | .period => get_period K
  | .meanMotion => get_mean_motion K
  | .trueAnomaly => get_true_anomaly K
  | .meanAnomaly => get_mean_anomaly K
  | .eccentricAnomaly => get_eccentric_anomaly K
  | .apoapsis => get_apoapsis K
  | .periapsis => get_periapsis K
  | .meanLongitude => get_mean_longitude K
  | .equinoctial => get_equinoctial K
  | .velocity => get_velocity K
  | .speed => get_speed K

/-- the operations -/
inductive Op (α : Type)
  | read (g : Read)
  | setKep (i : Fin 6) (v : Val α)
  | setCart (i : Fin 6) (v : Val α)
  | setKepler (v : Val6 α (Kep α))
  | setCartesian (v : Val6 α (Cart α))
  | setR (v : Val6 α (Tri α))
  | setV (v : Val6 α (Tri α))
  | setTrue (v : Val α)
  | setEcc (v : Val α)
  | setMean (v : Val α)
  | setPeriod (v : Val α)
  | setMeanMotion (v : Val α)
  | setVelocity (v : Val α)
  | setEquinoctial (v : Equi α ⊕ List (Equi α))
  | setType (t : Option Anom)
  | propagate (dt : Val α)
  | update (inds : Inds) (u : Upd α)
  | add (n : Nat) (u : Upd α)
  | delete (inds : Inds)
  | allocate (n : Nat)
  | calcCartesian (inds : Inds)
  | calcKepler (inds : Inds)
  | calcTrue (inds : Inds)
  | calcMean (inds : Inds)
  | calcEcc (inds : Inds)
  | iter
  | next
  | writeM (v : Val α)
  | setFlags (auto direct kro cro : Bool)
  | setDegrees (b : Bool)
  | setGM (G M0 : α)
  | setOpts (o : SolverOpts α)

/-- what an operation does -/
def Op.run : Op α → Py α Unit
  | .read g => do let _ ← g.get K; pure ()
  | .setKep i v => set_kep K i v
  | .setCart i v => set_cart K i v
  | .setKepler v => set_kepler K v
  | .setCartesian v => set_cartesian K v
  | .setR v => set_r K v
  | .setV v => set_v K v
  | .setTrue v => set_true_anomaly K v
  | .setEcc v => set_eccentric_anomaly K v
  | .setMean v => set_mean_anomaly K v
  | .setPeriod v => set_period v
  | .setMeanMotion v => set_mean_motion K v
  | .setVelocity v => set_velocity K v
  | .setEquinoctial v => set_equinoctial K v
  | .setType t => set_type K t
  | .propagate dt => Orbit.propagate K dt
  | .update inds u => Orbit.update K inds u
  | .add n u => Orbit.add K n u
  | .delete inds => Orbit.delete inds
  | .allocate n => Orbit.allocate K n
  | .calcCartesian inds => calculate_cartesian K inds
  | .calcKepler inds => calculate_kepler K inds
  | .calcTrue inds => calc_true_anomaly K inds
  | .calcMean inds => calc_mean_anomaly K inds
  | .calcEcc inds => calc_eccentric_anomaly K inds
  | .iter => Orbit.iter
  | .next => do let _ ← Orbit.next K; pure ()
  | .writeM v => do                                                                             -- orb.m[:] = v
    let s ← self
    let m ← lift (v.spread s.m.length)
    upd fun s => { s with m := m }
  | .setFlags auto direct kro cro => upd fun s => { s with auto := auto, direct := direct, kro := kro, cro := cro }
  | .setDegrees b => upd fun s => { s with degrees := b }
  | .setGM G M0 => upd fun s => { s with G := G, M0 := M0 }
  | .setOpts o => upd fun s => { s with opts := o }

/-- the object after a history; the caller catches every exception and goes on -/
def exec (s : Orb α) (h : List (Op α)) : Orb α := h.foldl (fun s o => (o.run K s).2) s

theorem exec_nil (s : Orb α) : exec K s [] = s := rfl
theorem exec_cons (s : Orb α) (o : Op α) (h : List (Op α)) : exec K s (o :: h) = exec K (o.run K s).2 h := rfl

end Orbit
end Pyorb
