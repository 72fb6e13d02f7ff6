import Mathlib.LinearAlgebra.Matrix.Determinant.Basic
import Mathlib.LinearAlgebra.Matrix.Notation
import Verif.Kepler
import Verif.FX

/-!
# C17: rotation matrices
-/

namespace Pyorb
open FX Matrix

/-- `m` holds finite numbers only, namely the real matrix `R` -/
def IsMat (m : Mat3 FX) (R : Matrix (Fin 3) (Fin 3) ℝ) : Prop := ∀ i j, m i j = fin (R i j)

/-- a proper rotation of space -/
def IsRotation (R : Matrix (Fin 3) (Fin 3) ℝ) : Prop := Rᵀ * R = 1 ∧ R.det = 1

/-- `R` is the right-handed rotation by `θ` about the unit vector `u`, in the plane spanned by `p`, `q` with
`p × q = u`: it fixes `u` and turns `p` towards `q`. -/
def RotatesAbout (R : Matrix (Fin 3) (Fin 3) ℝ) (u p q : Fin 3 → ℝ) (θ : ℝ) : Prop :=
  R *ᵥ u = u ∧ R *ᵥ p = Real.cos θ • p + Real.sin θ • q ∧ R *ᵥ q = -Real.sin θ • p + Real.cos θ • q

/-- the coordinate axes -/
def ex : Fin 3 → ℝ := ![1, 0, 0]
@[inherit_doc ex] def ey : Fin 3 → ℝ := ![0, 1, 0]
@[inherit_doc ex] def ez : Fin 3 → ℝ := ![0, 0, 1]

/-- values of `rot_mat_x` -/
noncomputable def RX (t : ℝ) : Matrix (Fin 3) (Fin 3) ℝ :=
  !![1, 0, 0; 0, Real.cos t, -Real.sin t; 0, Real.sin t, Real.cos t]
/-- values of `rot_mat_y` -/
noncomputable def RY (t : ℝ) : Matrix (Fin 3) (Fin 3) ℝ :=
  !![Real.cos t, 0, Real.sin t; 0, 1, 0; -Real.sin t, 0, Real.cos t]
/-- values of `rot_mat_z` -/
noncomputable def RZ (t : ℝ) : Matrix (Fin 3) (Fin 3) ℝ :=
  !![Real.cos t, -Real.sin t, 0; Real.sin t, Real.cos t, 0; 0, 0, 1]

theorem isMat_RX (t : ℝ) : IsMat (rot_mat_x (fin t)) (RX t) := by
  intro i j; fin_cases i <;> fin_cases j <;> simp [rot_mat_x, RX]
theorem isMat_RY (t : ℝ) : IsMat (rot_mat_y (fin t)) (RY t) := by
  intro i j; fin_cases i <;> fin_cases j <;> simp [rot_mat_y, RY]
theorem isMat_RZ (t : ℝ) : IsMat (rot_mat_z (fin t)) (RZ t) := by
  intro i j; fin_cases i <;> fin_cases j <;> simp [rot_mat_z, RZ]

theorem isMat_unique {m : Mat3 FX} {R S : Matrix (Fin 3) (Fin 3) ℝ} (h : IsMat m R) (h' : IsMat m S) : R = S := by
  ext i j
  exact fin_inj ((h i j).symm.trans (h' i j))

/-- C17 (rot_mat_x): for every angle a finite proper rotation about the x axis, turning y towards z. -/
theorem c17_rot_mat_x (t : ℝ) :
    ∃ R, IsMat (rot_mat_x (fin t)) R ∧ IsRotation R ∧ RotatesAbout R ex ey ez t := by
  refine ⟨RX t, isMat_RX t, ⟨?_, ?_⟩, ?_, ?_, ?_⟩
  · ext i j
    have h := Real.sin_sq_add_cos_sq t
    fin_cases i <;> fin_cases j <;> simp [RX, Matrix.mul_apply, Fin.sum_univ_three] <;> nlinarith
  · have h := Real.sin_sq_add_cos_sq t
    simp [RX, Matrix.det_fin_three]; nlinarith
  all_goals
    ext i; fin_cases i <;> simp [RX, ex, ey, ez, Matrix.mulVec, dotProduct, Fin.sum_univ_three]

/-- C17 (rot_mat_y): rotation about the y axis, turning z towards x. -/
theorem c17_rot_mat_y (t : ℝ) :
    ∃ R, IsMat (rot_mat_y (fin t)) R ∧ IsRotation R ∧ RotatesAbout R ey ez ex t := by
  refine ⟨RY t, isMat_RY t, ⟨?_, ?_⟩, ?_, ?_, ?_⟩
  · ext i j
    have h := Real.sin_sq_add_cos_sq t
    fin_cases i <;> fin_cases j <;> simp [RY, Matrix.mul_apply, Fin.sum_univ_three] <;> nlinarith
  · have h := Real.sin_sq_add_cos_sq t
    simp [RY, Matrix.det_fin_three]; nlinarith
  all_goals
    ext i; fin_cases i <;> simp [RY, ex, ey, ez, Matrix.mulVec, dotProduct, Fin.sum_univ_three]

/-- C17 (rot_mat_z): rotation about the z axis, turning x towards y. -/
theorem c17_rot_mat_z (t : ℝ) :
    ∃ R, IsMat (rot_mat_z (fin t)) R ∧ IsRotation R ∧ RotatesAbout R ez ex ey t := by
  refine ⟨RZ t, isMat_RZ t, ⟨?_, ?_⟩, ?_, ?_, ?_⟩
  · ext i j
    have h := Real.sin_sq_add_cos_sq t
    fin_cases i <;> fin_cases j <;> simp [RZ, Matrix.mul_apply, Fin.sum_univ_three] <;> nlinarith
  · have h := Real.sin_sq_add_cos_sq t
    simp [RZ, Matrix.det_fin_three]; nlinarith
  all_goals
    ext i; fin_cases i <;> simp [RZ, ex, ey, ez, Matrix.mulVec, dotProduct, Fin.sum_univ_three]

/-- C17 (composition): angles add under matrix multiplication, for each of the three axes. -/
theorem c17_rot_mat_add (s t : ℝ) (A B C : Matrix (Fin 3) (Fin 3) ℝ) :
    (IsMat (rot_mat_x (fin s)) A → IsMat (rot_mat_x (fin t)) B → IsMat (rot_mat_x (fin (s + t))) C → A * B = C) ∧
    (IsMat (rot_mat_y (fin s)) A → IsMat (rot_mat_y (fin t)) B → IsMat (rot_mat_y (fin (s + t))) C → A * B = C) ∧
    (IsMat (rot_mat_z (fin s)) A → IsMat (rot_mat_z (fin t)) B → IsMat (rot_mat_z (fin (s + t))) C → A * B = C) := by
  refine ⟨?_, ?_, ?_⟩ <;> intro hA hB hC
  · rw [isMat_unique hA (isMat_RX s), isMat_unique hB (isMat_RX t), isMat_unique hC (isMat_RX (s + t))]
    ext i j
    fin_cases i <;> fin_cases j <;>
      simp [RX, Matrix.mul_apply, Fin.sum_univ_three, Real.cos_add, Real.sin_add] <;> ring
  · rw [isMat_unique hA (isMat_RY s), isMat_unique hB (isMat_RY t), isMat_unique hC (isMat_RY (s + t))]
    ext i j
    fin_cases i <;> fin_cases j <;>
      simp [RY, Matrix.mul_apply, Fin.sum_univ_three, Real.cos_add, Real.sin_add] <;> ring
  · rw [isMat_unique hA (isMat_RZ s), isMat_unique hB (isMat_RZ t), isMat_unique hC (isMat_RZ (s + t))]
    ext i j
    fin_cases i <;> fin_cases j <;>
      simp [RZ, Matrix.mul_apply, Fin.sum_univ_three, Real.cos_add, Real.sin_add] <;> ring

/-- the angle in radians denoted by an argument -/
noncomputable def angleOf (deg : Bool) (x : ℝ) : ℝ := if deg then x * (Real.pi / 180) else x

theorem isMat_euler (inc om OM : ℝ) (deg : Bool) :
    IsMat (euler_rotation_matrix (fin inc) (fin om) (fin OM) deg)
      (RZ (angleOf deg OM) * RX (angleOf deg inc) * RZ (angleOf deg om)) := by
  intro i j
  cases deg <;> fin_cases i <;> fin_cases j <;>
    simp [euler_rotation_matrix, RZ, RX, angleOf, Matrix.mul_apply, Fin.sum_univ_three] <;> ring

/-- C17 (euler_rotation_matrix): for all angles, in radians or degrees, the matrix is finite and equals the intrinsic
Z-X-Z product of the three elementary rotation matrices `rot_mat_z(Omega) rot_mat_x(inc) rot_mat_z(omega)`. -/
theorem c17_euler (inc om OM : ℝ) (deg : Bool) (A B C R : Matrix (Fin 3) (Fin 3) ℝ)
    (hA : IsMat (rot_mat_z (fin (angleOf deg OM))) A) (hB : IsMat (rot_mat_x (fin (angleOf deg inc))) B)
    (hC : IsMat (rot_mat_z (fin (angleOf deg om))) C) :
    IsMat (euler_rotation_matrix (fin inc) (fin om) (fin OM) deg) R ↔ R = A * B * C := by
  have h := isMat_euler inc om OM deg
  rw [isMat_unique hA (isMat_RZ _), isMat_unique hB (isMat_RX _), isMat_unique hC (isMat_RZ _)]
  constructor
  · intro hR; exact isMat_unique hR h
  · rintro rfl; exact h

theorem IsRotation.mul {R S : Matrix (Fin 3) (Fin 3) ℝ} (hR : IsRotation R) (hS : IsRotation S) :
    IsRotation (R * S) := by
  refine ⟨?_, by rw [Matrix.det_mul, hR.2, hS.2, mul_one]⟩
  rw [Matrix.transpose_mul, Matrix.mul_assoc, ← Matrix.mul_assoc Rᵀ, hR.1, Matrix.one_mul, hS.1]

/-- C17 (euler_rotation_matrix is a proper rotation) -/
theorem c17_euler_rotation (inc om OM : ℝ) (deg : Bool) :
    ∃ R, IsMat (euler_rotation_matrix (fin inc) (fin om) (fin OM) deg) R ∧ IsRotation R := by
  refine ⟨_, isMat_euler inc om OM deg, IsRotation.mul (IsRotation.mul ?_ ?_) ?_⟩
  · obtain ⟨R, h, h', _⟩ := c17_rot_mat_z (angleOf deg OM)
    rwa [isMat_unique (isMat_RZ _) h]
  · obtain ⟨R, h, h', _⟩ := c17_rot_mat_x (angleOf deg inc)
    rwa [isMat_unique (isMat_RX _) h]
  · obtain ⟨R, h, h', _⟩ := c17_rot_mat_z (angleOf deg om)
    rwa [isMat_unique (isMat_RZ _) h]

/-- non-vacuity of `c17_euler`: the hypotheses are met by a concrete non-trivial orientation -/
example : ∃ A B C R, IsMat (rot_mat_z (fin (angleOf true 90))) A ∧ IsMat (rot_mat_x (fin (angleOf true 30))) B ∧
    IsMat (rot_mat_z (fin (angleOf true 45))) C ∧
    IsMat (euler_rotation_matrix (fin 30) (fin 45) (fin 90) true) R :=
  ⟨_, _, _, _, isMat_RZ _, isMat_RX _, isMat_RZ _, isMat_euler _ _ _ _⟩

end Pyorb
