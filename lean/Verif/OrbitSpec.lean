import Verif.KepSurj
import Mathlib.LinearAlgebra.CrossProduct

/-!
# Two-body quantities, stated on vectors of `ℝ³`

This is specification: textbook definitions on `Fin 3 → ℝ`, independent of the code model.  The lemmas at the end connect
them with the real expressions used in the proofs.
-/

namespace Pyorb
open Matrix

/-- Euclidean length -/
noncomputable def vlen (u : Fin 3 → ℝ) : ℝ := √(u ⬝ᵥ u)

/-- position vector of a state -/
def Cart.r (c : Cart ℝ) : Fin 3 → ℝ := ![c.x, c.y, c.z]
/-- velocity vector of a state -/
def Cart.v (c : Cart ℝ) : Fin 3 → ℝ := ![c.vx, c.vy, c.vz]

/-- specific angular momentum `r × v` -/
noncomputable def angMom (c : Cart ℝ) : Fin 3 → ℝ := c.r ⨯₃ c.v
/-- eccentricity vector `(v × h)/mu - r/|r|` -/
noncomputable def eccVec (mu : ℝ) (c : Cart ℝ) : Fin 3 → ℝ := (1 / mu) • (c.v ⨯₃ angMom c) - (1 / vlen c.r) • c.r
/-- specific orbital energy `v²/2 - mu/|r|` -/
noncomputable def energy (mu : ℝ) (c : Cart ℝ) : ℝ := c.v ⬝ᵥ c.v / 2 - mu / vlen c.r
/-- inclination: angle between the angular momentum and the z axis -/
noncomputable def inclination (c : Cart ℝ) : ℝ := Real.arccos (angMom c 2 / vlen (angMom c))

/-! ## Connection with the proof helpers -/

theorem vlen_r (c : Cart ℝ) : vlen c.r = c.rn := by
  unfold vlen Cart.r Cart.rn
  congr 1
  simp [dotProduct, Fin.sum_univ_three]; ring

theorem v_dot (c : Cart ℝ) : c.v ⬝ᵥ c.v = c.vn ^ 2 := by
  rw [c.vn_sq]; unfold Cart.v
  simp [dotProduct, Fin.sum_univ_three]; ring

theorem angMom_eq (c : Cart ℝ) : angMom c = ![c.hx, c.hy, c.hz] := by
  unfold angMom Cart.r Cart.v
  rw [cross_apply]; rfl

theorem vlen_angMom (c : Cart ℝ) : vlen (angMom c) = c.hn := by
  rw [angMom_eq]; unfold vlen Cart.hn
  congr 1
  simp [dotProduct, Fin.sum_univ_three]; ring

theorem angMom_ne_zero {c : Cart ℝ} (h : angMom c ≠ 0) : 0 < c.hn := by
  rcases lt_or_eq_of_le (Real.sqrt_nonneg (c.hx ^ 2 + c.hy ^ 2 + c.hz ^ 2)) with h1 | h1
  · exact h1
  · exfalso
    have h2 := c.hn_sq
    have h3 : c.hn = 0 := h1.symm
    rw [h3] at h2
    have x0 : c.hx = 0 := by nlinarith [sq_nonneg c.hx, sq_nonneg c.hy, sq_nonneg c.hz]
    have y0 : c.hy = 0 := by nlinarith [sq_nonneg c.hx, sq_nonneg c.hy, sq_nonneg c.hz]
    have z0 : c.hz = 0 := by nlinarith [sq_nonneg c.hx, sq_nonneg c.hy, sq_nonneg c.hz]
    apply h
    rw [angMom_eq, x0, y0, z0]
    ext i; fin_cases i <;> rfl

theorem inclination_eq (c : Cart ℝ) : inclination c = c.inc := by
  unfold inclination Cart.inc
  rw [vlen_angMom, angMom_eq]; rfl

theorem energy_eq (mu : ℝ) (c : Cart ℝ) : energy mu c = c.eps mu := by
  unfold energy Cart.eps
  rw [v_dot, vlen_r]; ring

theorem eccVec_eq {mu : ℝ} {c : Cart ℝ} (hmu : 0 < mu) (hh : 0 < c.hn) :
    eccVec mu c = ![c.evx mu, c.evy mu, c.evz mu] := by
  obtain ⟨h1, h2, h3⟩ := c.mu_ev hmu hh
  have hm := hmu.ne'
  have hr := (c.rn_pos hh).ne'
  have key : ∀ A B X : ℝ, mu * A = B - mu / c.rn * X → 1 / mu * B - 1 / c.rn * X = A := by
    intro A B X h
    have : B = mu * A + mu / c.rn * X := by linarith
    rw [this]; field_simp; ring
  unfold eccVec
  rw [vlen_r, angMom_eq]
  unfold Cart.v Cart.r
  rw [cross_apply]
  ext i
  fin_cases i
  · exact key _ _ _ h1
  · exact key _ _ _ h2
  · exact key _ _ _ h3

theorem vlen_eccVec {mu : ℝ} {c : Cart ℝ} (hmu : 0 < mu) (hh : 0 < c.hn) : vlen (eccVec mu c) = c.ecc mu := by
  rw [eccVec_eq hmu hh]; unfold vlen Cart.ecc
  congr 1
  simp [dotProduct, Fin.sum_univ_three]; ring

end Pyorb
