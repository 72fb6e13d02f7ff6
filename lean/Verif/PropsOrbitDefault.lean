import Verif.PropsConverge
import Verif.PropsOrbitDrift

/-!
# Propagation with the default solver options (C73)

The solver converges on every ellipse (C72), so that for an object with the default solver options the bounds of C67 and C68 hold without
a condition on the iteration.
-/

set_option linter.unusedVariables false

namespace Pyorb
namespace Orbit
open Py FX
variable (g : KGarbage)

/-- the tolerance of the default solver options (orbit.py 111) -/
noncomputable def tol0 : ℝ := 1 / 1000000000000

theorem default_converges {s : Orb FX} (ho : s.opts = SolverOpts.dflt) {e : ℝ} (h0 : 0 ≤ e) (h1 : e < 1) (x : ℝ) (hx0 : 0 ≤ x) (hx1 : x < 2 * Real.pi) :
    ¬ HitLimit s.opts (fin x) (fin e) := by
  rw [ho, dflt_fin]
  exact c72_limit _ _ x e h0 h1 hx0 hx1.le 163 dflt_steps (by norm_num)

/-- C73: any sequence of time steps can be run -/
theorem c73_runs {n : Nat} {j : Nat} (steps : List (Val FX × List FX × ℝ)) : ∀ (s : Orb FX), OneEntryPerOrbit s n → s.kro = false →
    (∀ p ∈ steps, p.1.Row n p.2.1 ∧ p.2.1[j]? = some (fin p.2.2)) →
    ∃ s', Steps g n j (steps.map fun p => p.2.2) s s' := by
  induction steps with
  | nil => exact fun s _ _ _ => ⟨s, .nil s⟩
  | cons p ps ih =>
    intro s hs hr hp
    obtain ⟨h1, h2⟩ := hp p (by simp)
    obtain ⟨s1, q1, q2, q3, q4, -⟩ := propagate_ok (fxKern g) hs.wfe hr h1
    have hs1 : OneEntryPerOrbit s1 n := q2.one
    obtain ⟨s', h3⟩ := ih s1 hs1 (by rw [q3]; exact hr) fun q hq => hp q (by simp [hq])
    exact ⟨s', .cons p.1 p.2.1 p.2.2 _ h1 h2 q1 h3⟩

/-- C73, anomaly: after any sequence of time steps the mean anomaly read is the one before plus mean motion times the total time, up to whole turns
and 1e-12 per step; exactly, if the object stores the mean anomaly -/
theorem c73_mean {n : Nat} {s s' : Orb FX} {j : Nat} {ds : List ℝ} (hp : Steps g n j ds s s') (k : Kep ℝ) (mu : ℝ) (hs : OneEntryPerOrbit s n)
    (ho : s.opts = SolverOpts.dflt) (h : Ellipse g s j k mu tol0) :
    ∃ (Ms Ms' : List FX) (M M' : ℝ) (z : ℤ), (get_mean_anomaly (fxKern g) s).1 = .ok Ms ∧ Ms[j]? = some (fin M) ∧
      (get_mean_anomaly (fxKern g) s').1 = .ok Ms' ∧ Ms'[j]? = some (fin M') ∧
      |angleOf s.degrees M' - (angleOf s.degrees M + √(mu / k.a ^ 3) * ds.sum + z * (2 * Real.pi))| ≤
        if s.type = .mean then 0 else ds.length * tol0 :=
  c68_mean g hp k mu tol0 hs h (default_converges ho h.e_nonneg h.e_lt)

/-- C73, state: the states read stay on one solution of Newton's equations of motion up to a 1e-12/(1-e) per step -/
theorem c73_state {n : Nat} (s : Orb FX) (hs : OneEntryPerOrbit s n) (hmode : s.auto = true ∨ s.direct = true) (j : Nat) (k : Kep ℝ)
    (mu : ℝ) (ho : s.opts = SolverOpts.dflt) (h : Ellipse g s j k mu tol0) :
    ∃ (M : ℝ) (Ms : List FX) (c : ℝ → Cart ℝ), (get_mean_anomaly (fxKern g) s).1 = .ok Ms ∧ Ms[j]? = some (fin M) ∧ ObeysNewton mu c ∧
      (∀ nu E, SamePoint k.e (angleOf s.degrees nu) E → E - k.e * Real.sin E = angleOf s.degrees M →
        DescribesOrbit mu (Kep.inRad s.degrees { k with nu := nu }) (c 0)) ∧
      ∀ (ds : List ℝ) (s' : Orb FX), ds ≠ [] → Steps g n j ds s s' →
        ∃ cs c', (get_cartesian (fxKern g) s').1 = .ok cs ∧ cs[j]? = some c'.fx ∧ SameOrbit mu c' (c ds.sum) ∧
          vlen (c'.r - (c ds.sum).r) ≤ k.a * (ds.length * tol0) / (1 - k.e) ∧
          vlen (c'.v - (c ds.sum).v) ≤ k.a * √(mu / k.a ^ 3) * (ds.length * tol0) / (1 - k.e) ^ 2 :=
  c68_state g s hs hmode j k mu tol0 (by norm_num [tol0]) h (default_converges ho h.e_nonneg h.e_lt)

/-- a case: an orbit with eccentricity 9/10 stored by its true anomaly, default options, propagated twice -/
example (nu d1 d2 : ℝ) : ∃ s', Steps g 1 0 [d1, d2] (lazyKep g SolverOpts.dflt .tru ⟨2, 9 / 10, 1, 2, 3, nu⟩) s' ∧
    ∃ c : ℝ → Cart ℝ, ObeysNewton 1 c ∧ ∃ cs c', (get_cartesian (fxKern g) s').1 = .ok cs ∧ cs[0]? = some (Cart.fx c') ∧
      vlen (c'.r - (c (d1 + d2)).r) ≤ 1 / 10000000000 := by
  have h : Ellipse g (lazyKep g SolverOpts.dflt .tru ⟨2, 9 / 10, 1, 2, 3, nu⟩) 0 ⟨2, 9 / 10, 1, 2, 3, nu⟩ 1 tol0 := by
    rw [dflt_fin]
    exact lazyKep_ellipse g (tol := tol0) (d := 5) (mi := 5000) .tru (k := ⟨2, 9 / 10, 1, 2, 3, nu⟩) (by norm_num) (by norm_num) (by norm_num)
  have hs := lazyKep_one g SolverOpts.dflt .tru ⟨2, 9 / 10, 1, 2, 3, nu⟩
  obtain ⟨s', hp⟩ := c73_runs g (j := 0) [(.sc (fin d1), [fin d1], d1), (.sc (fin d2), [fin d2], d2)] _ hs rfl (by
    intro p hp
    simp only [List.mem_cons, List.not_mem_nil, or_false] at hp
    rcases hp with rfl | rfl <;> exact ⟨rfl, rfl⟩)
  refine ⟨s', hp, ?_⟩
  obtain ⟨M, Ms, c, -, -, hN, -, hstep⟩ := c73_state g _ hs (.inl rfl) 0 _ _ rfl h
  obtain ⟨cs, c', c1, c2, -, c3, -⟩ := hstep [d1, d2] s' (by simp) hp
  refine ⟨c, hN, cs, c', c1, c2, ?_⟩
  simp only [List.sum_cons, List.sum_nil, add_zero, List.length_cons, List.length_nil, tol0] at c3
  norm_num at c3
  linarith

end Orbit
end Pyorb
