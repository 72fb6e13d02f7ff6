import Verif.PropsRot
import Verif.PropsRoundFinite
import Verif.PropsRoundStumpff

/-!
# Rotation matrices computed with rounding (C100)
-/

set_option linter.unusedSimpArgs false
set_option linter.unusedVariables false

namespace Pyorb
open FX RF Matrix
variable {R : Rounding}

/-- the entries of `m` are finite and within `ε` of those of the real matrix `A` -/
def MatNear (ε : ℝ) (m : Mat3 (RF R)) (A : Matrix (Fin 3) (Fin 3) ℝ) : Prop := ∀ i j, ∃ y, m i j = num R y ∧ |y - A i j| ≤ ε

namespace RRot
open RStumpff

theorem near_small (hu : R.u ≤ 1 / 10 ^ 6) {k B : ℝ} {a : RF R} {x : ℝ} (h : Near k B a x) (hk0 : 0 ≤ k) (hk : k ≤ 8) :
    ∃ y, a = num R y ∧ |y - x| ≤ 101 / 100 * (k * R.u) * B := by
  obtain ⟨y, h1, h2, h3⟩ := h
  refine ⟨y, h1, h2.trans (mul_le_mul_of_nonneg_right ?_ ((abs_nonneg _).trans h3))⟩
  have := exp_err hu hk0 hk (t := k * R.u) (by rw [abs_of_nonneg (mul_nonneg hk0 R.u_nonneg)])
  exact (le_abs_self _).trans this

theorem cosN (x : ℝ) : Near 1 1 (Np.cos (num R x)) (Real.cos x) := (Rel.cos x).near (Real.abs_cos_le_one x)
theorem sinN (x : ℝ) : Near 1 1 (Np.sin (num R x)) (Real.sin x) := (Rel.sin x).near (Real.abs_sin_le_one x)

/-- the matrix computed from the radian angles -/
theorem euler_rad (hu : R.u ≤ 1 / 10 ^ 6) (inc om OM : ℝ) :
    MatNear (13 * R.u) (euler_rotation_matrix (num R inc) (num R om) (num R OM) false) (RZ OM * RX inc * RZ om) := by
  have hu0 := R.u_nonneg
  have key : ∀ i j, Near 6 2 (euler_rotation_matrix (num R inc) (num R om) (num R OM) false i j) ((RZ OM * RX inc * RZ om) i j) := by
    have c1 := cosN (R := R) OM
    have s1 := sinN (R := R) OM
    have c2 := cosN (R := R) inc
    have s2 := sinN (R := R) inc
    have c3 := cosN (R := R) om
    have s3 := sinN (R := R) om
    have up : ∀ {k B : ℝ} {a : RF R} {x : ℝ}, Near k B a x → k ≤ 5 → B ≤ 1 → Near 5 1 a x := fun h hk hB => h.mono hk (by norm_num) hB
    have fin2 : ∀ {k B : ℝ} {a : RF R} {x y : ℝ}, Near k B a x → k ≤ 6 → B ≤ 2 → x = y → Near 6 2 a y :=
      fun h hk hB hxy => hxy ▸ h.mono hk (by norm_num) hB
    intro i j
    fin_cases i <;> fin_cases j
    · refine fin2 ((up (c1.mul c3) ?_ ?_).sub (up ((c2.mul s1).mul s3) ?_ ?_)) ?_ ?_ ?_ <;>
        first | norm_num; done | skip
      simp [RZ, RX, Matrix.mul_apply, Fin.sum_univ_three]; ring
    · refine fin2 ((up (c1.neg.mul s3) ?_ ?_).sub (up ((c2.mul c3).mul s1) ?_ ?_)) ?_ ?_ ?_ <;>
        first | norm_num; done | skip
      simp [RZ, RX, Matrix.mul_apply, Fin.sum_univ_three]; ring
    · refine fin2 (s1.mul s2) ?_ ?_ ?_ <;> first | norm_num; done | skip
      simp [RZ, RX, Matrix.mul_apply, Fin.sum_univ_three]
    · refine fin2 ((up (c3.mul s1) ?_ ?_).add (up ((c1.mul c2).mul s3) ?_ ?_)) ?_ ?_ ?_ <;>
        first | norm_num; done | skip
      simp [RZ, RX, Matrix.mul_apply, Fin.sum_univ_three]; ring
    · refine fin2 ((up ((c1.mul c2).mul c3) ?_ ?_).sub (up (s1.mul s3) ?_ ?_)) ?_ ?_ ?_ <;>
        first | norm_num; done | skip
      simp [RZ, RX, Matrix.mul_apply, Fin.sum_univ_three]; ring
    · refine fin2 (c1.neg.mul s2) ?_ ?_ ?_ <;> first | norm_num; done | skip
      simp [RZ, RX, Matrix.mul_apply, Fin.sum_univ_three]
    · refine fin2 (s2.mul s3) ?_ ?_ ?_ <;> first | norm_num; done | skip
      simp [RZ, RX, Matrix.mul_apply, Fin.sum_univ_three]
    · refine fin2 (c3.mul s2) ?_ ?_ ?_ <;> first | norm_num; done | skip
      simp [RZ, RX, Matrix.mul_apply, Fin.sum_univ_three]; ring
    · refine fin2 c2 ?_ ?_ ?_ <;> first | norm_num; done | skip
      simp [RZ, RX, Matrix.mul_apply, Fin.sum_univ_three]
  intro i j
  obtain ⟨y, h1, h2⟩ := near_small hu (key i j) (by norm_num) (by norm_num)
  exact ⟨y, h1, h2.trans (by linarith)⟩

/-- a product of two numbers of size at most 1 -/
theorem mul_lip {a b a' b' s t : ℝ} (hb : |b| ≤ 1) (ha' : |a'| ≤ 1) (h1 : |a - a'| ≤ s) (h2 : |b - b'| ≤ t) : |a * b - a' * b'| ≤ s + t := by
  rw [show a * b - a' * b' = (a - a') * b + a' * (b - b') by ring]
  refine (abs_add_le _ _).trans ?_
  rw [abs_mul, abs_mul]
  have e1 := mul_le_mul h1 hb (abs_nonneg _) ((abs_nonneg _).trans h1)
  have e2 := mul_le_mul ha' h2 (abs_nonneg _) (by norm_num)
  linarith

theorem abs_mul1 {a b : ℝ} (ha : |a| ≤ 1) (hb : |b| ≤ 1) : |a * b| ≤ 1 := by
  rw [abs_mul]; exact mul_le_one₀ ha (abs_nonneg _) hb

/-- how the rotation matrix changes with the angles -/
theorem euler_lip (i o O i' o' O' : ℝ) (p q : Fin 3) :
    |(RZ O * RX i * RZ o) p q - (RZ O' * RX i' * RZ o') p q| ≤ 2 * (|O - O'| + |i - i'| + |o - o'|) := by
  have c1 := Real.abs_cos_sub_cos_le O O'
  have s1 := Real.abs_sin_sub_sin_le O O'
  have c2 := Real.abs_cos_sub_cos_le i i'
  have s2 := Real.abs_sin_sub_sin_le i i'
  have c3 := Real.abs_cos_sub_cos_le o o'
  have s3 := Real.abs_sin_sub_sin_le o o'
  have nc := Real.abs_cos_le_one
  have ns := Real.abs_sin_le_one
  have p0 := abs_nonneg (O - O')
  have p1 := abs_nonneg (i - i')
  have p2 := abs_nonneg (o - o')
  have two : ∀ {a b a' b' s t : ℝ}, |a - a'| ≤ s → |b - b'| ≤ t → |a - b - (a' - b')| ≤ s + t := by
    intro a b a' b' s t h1 h2
    rw [show a - b - (a' - b') = (a - a') - (b - b') by ring]
    exact (abs_sub _ _).trans (add_le_add h1 h2)
  have two' : ∀ {a b a' b' s t : ℝ}, |a - a'| ≤ s → |b - b'| ≤ t → |a + b - (a' + b')| ≤ s + t := by
    intro a b a' b' s t h1 h2
    rw [show a + b - (a' + b') = (a - a') + (b - b') by ring]
    exact (abs_add_le _ _).trans (add_le_add h1 h2)
  have ng : ∀ {a a' s : ℝ}, |a - a'| ≤ s → |-a - -a'| ≤ s := by
    intro a a' s h
    rwa [show -a - -a' = -(a - a') by ring, abs_neg]
  have h00 := two (mul_lip (nc o) (nc O') c1 c3) (mul_lip (ns o) (abs_mul1 (nc i') (ns O')) (mul_lip (ns O) (nc i') c2 s1) s3)
  have h01 := two (ng (mul_lip (ns o) (nc O') c1 s3)) (mul_lip (ns O) (abs_mul1 (nc i') (nc o')) (mul_lip (nc o) (nc i') c2 c3) s1)
  have h02 := mul_lip (ns i) (ns O') s1 s2
  have h10 := two' (mul_lip (ns O) (nc o') c3 s1) (mul_lip (ns o) (abs_mul1 (nc O') (nc i')) (mul_lip (nc i) (nc O') c1 c2) s3)
  have h11 := two (mul_lip (nc o) (abs_mul1 (nc O') (nc i')) (mul_lip (nc i) (nc O') c1 c2) c3) (mul_lip (ns o) (ns O') s1 s3)
  have h12 := ng (mul_lip (ns i) (nc O') c1 s2)
  have h20 := mul_lip (ns o) (ns i') s2 s3
  have h21 := mul_lip (ns i) (nc o') c3 s2
  fin_cases p <;> fin_cases q
  · refine le_trans (le_of_eq ?_) (h00.trans (by linarith)); congr 1; simp [RZ, RX, Matrix.mul_apply, Fin.sum_univ_three]; ring
  · refine le_trans (le_of_eq ?_) (h01.trans (by linarith)); congr 1; simp [RZ, RX, Matrix.mul_apply, Fin.sum_univ_three]; ring
  · refine le_trans (le_of_eq ?_) (h02.trans (by linarith)); congr 1; simp [RZ, RX, Matrix.mul_apply, Fin.sum_univ_three]
  · refine le_trans (le_of_eq ?_) (h10.trans (by linarith)); congr 1; simp [RZ, RX, Matrix.mul_apply, Fin.sum_univ_three]; ring
  · refine le_trans (le_of_eq ?_) (h11.trans (by linarith)); congr 1; simp [RZ, RX, Matrix.mul_apply, Fin.sum_univ_three]; ring
  · refine le_trans (le_of_eq ?_) (h12.trans (by linarith)); congr 1; simp [RZ, RX, Matrix.mul_apply, Fin.sum_univ_three]
  · refine le_trans (le_of_eq ?_) (h20.trans (by linarith)); congr 1; simp [RZ, RX, Matrix.mul_apply, Fin.sum_univ_three]
  · refine le_trans (le_of_eq ?_) (h21.trans (by linarith)); congr 1; simp [RZ, RX, Matrix.mul_apply, Fin.sum_univ_three]; ring
  · refine le_trans (le_of_eq ?_) (c2.trans (by linarith)); congr 1; simp [RZ, RX, Matrix.mul_apply, Fin.sum_univ_three]

/-- the rounding error of an angle -/
theorem flRad_err (hu : R.u ≤ 1 / 10 ^ 6) (deg : Bool) (x : ℝ) :
    |flRad R deg x - angleOf deg x| ≤ (if deg then (304 / 100 : ℝ) else 0) * R.u * |angleOf deg x| := by
  cases deg
  · simp [flRad, angleOf]
  · have h : flRad R true x = angleOf true x * Real.exp (R.th Real.pi + (R.th (R.rd Real.pi / 180) + R.th (x * R.rd (R.rd Real.pi / 180)))) := by
      simp only [flRad, angleOf, if_true]
      rw [show R.rd (x * R.rd (R.rd Real.pi / 180)) = x * (Real.pi * Real.exp (R.th Real.pi) / 180 * Real.exp (R.th (R.rd Real.pi / 180))) *
        Real.exp (R.th (x * R.rd (R.rd Real.pi / 180))) from rfl, Real.exp_add, Real.exp_add]
      ring
    rw [h]
    have := factor_err (y := angleOf true x) hu (by norm_num) (by norm_num)
      (add_le2 (th1 (R := R) Real.pi) (add_le2 (th1 (R := R) (R.rd Real.pi / 180)) (th1 (R := R) (x * R.rd (R.rd Real.pi / 180)))))
    refine this.trans (mul_le_mul_of_nonneg_right ?_ (abs_nonneg _))
    simp only [if_true]
    linarith [R.u_nonneg]

theorem euler_flRad (inc om OM : ℝ) (deg : Bool) :
    euler_rotation_matrix (num R inc) (num R om) (num R OM) deg =
      euler_rotation_matrix (num R (flRad R deg inc)) (num R (flRad R deg om)) (num R (flRad R deg OM)) false := by
  cases deg
  · rfl
  · unfold euler_rotation_matrix
    simp only [if_true, radians_num, Bool.false_eq_true, if_false]

/-- a rotation is determined by its effect on the axes -/
theorem unique_z {A : Matrix (Fin 3) (Fin 3) ℝ} {t : ℝ} (h : RotatesAbout A ez ex ey t) : A = RZ t := by
  obtain ⟨h1, h2, h3⟩ := h
  ext i j
  have a1 := congrFun h1 i
  have a2 := congrFun h2 i
  have a3 := congrFun h3 i
  fin_cases i <;> fin_cases j <;>
    simp [RZ, ex, ey, ez, Matrix.mulVec, dotProduct, Fin.sum_univ_three] at a1 a2 a3 ⊢ <;> linarith

theorem unique_x {A : Matrix (Fin 3) (Fin 3) ℝ} {t : ℝ} (h : RotatesAbout A ex ey ez t) : A = RX t := by
  obtain ⟨h1, h2, h3⟩ := h
  ext i j
  have a1 := congrFun h1 i
  have a2 := congrFun h2 i
  have a3 := congrFun h3 i
  fin_cases i <;> fin_cases j <;>
    simp [RX, ex, ey, ez, Matrix.mulVec, dotProduct, Fin.sum_univ_three] at a1 a2 a3 ⊢ <;> linarith

theorem unique_y {A : Matrix (Fin 3) (Fin 3) ℝ} {t : ℝ} (h : RotatesAbout A ey ez ex t) : A = RY t := by
  obtain ⟨h1, h2, h3⟩ := h
  ext i j
  have a1 := congrFun h1 i
  have a2 := congrFun h2 i
  have a3 := congrFun h3 i
  fin_cases i <;> fin_cases j <;>
    simp [RY, ex, ey, ez, Matrix.mulVec, dotProduct, Fin.sum_univ_three] at a1 a2 a3 ⊢ <;> linarith

theorem z_isRot (t : ℝ) : IsRotation (RZ t) := by
  obtain ⟨A, h, h', _⟩ := c17_rot_mat_z t
  rwa [isMat_unique (isMat_RZ _) h]
theorem x_isRot (t : ℝ) : IsRotation (RX t) := by
  obtain ⟨A, h, h', _⟩ := c17_rot_mat_x t
  rwa [isMat_unique (isMat_RX _) h]

/-- the entries of an exact rotation are at most 1 -/
theorem entry_le {A : Matrix (Fin 3) (Fin 3) ℝ} (h : IsRotation A) (i j : Fin 3) : |A i j| ≤ 1 := by
  have h1 := congrFun (congrFun h.1 j) j
  simp only [Matrix.mul_apply, Matrix.transpose_apply, Fin.sum_univ_three, Matrix.one_apply_eq] at h1
  rw [abs_le_one_iff_mul_self_le_one]
  have q0 := mul_self_nonneg (A 0 j)
  have q1 := mul_self_nonneg (A 1 j)
  have q2 := mul_self_nonneg (A 2 j)
  fin_cases i <;> simp only [Fin.zero_eta, Fin.mk_one, Fin.reduceFinMk] <;> linarith

/-- a matrix near a rotation is nearly orthogonal -/
theorem near_orth {A M : Matrix (Fin 3) (Fin 3) ℝ} {ε : ℝ} (hA : IsRotation A) (h : ∀ i j, |M i j - A i j| ≤ ε) (he : ε ≤ 1 / 10) (i j : Fin 3) :
    |(Mᵀ * M) i j - (1 : Matrix (Fin 3) (Fin 3) ℝ) i j| ≤ 7 * ε := by
  have he0 : 0 ≤ ε := (abs_nonneg _).trans (h 0 0)
  have t : ∀ k, |M k i * M k j - A k i * A k j| ≤ 21 / 10 * ε := by
    intro k
    have a1 := h k i
    have a2 := h k j
    have b1 := entry_le hA k i
    have b2 := entry_le hA k j
    rw [show M k i * M k j - A k i * A k j = (M k i - A k i) * A k j + A k i * (M k j - A k j) + (M k i - A k i) * (M k j - A k j) by ring]
    refine (abs_add_le _ _).trans ?_
    have := abs_add_le ((M k i - A k i) * A k j) (A k i * (M k j - A k j))
    rw [abs_mul, abs_mul] at this
    rw [abs_mul (M k i - A k i) (M k j - A k j)]
    have e1 := mul_le_mul a1 b2 (abs_nonneg _) he0
    have e2 := mul_le_mul b1 a2 (abs_nonneg _) (by norm_num)
    have e3 := mul_le_mul a1 a2 (abs_nonneg _) he0
    have e4 := mul_le_mul_of_nonneg_left he he0
    linarith
  rw [← hA.1]
  simp only [Matrix.mul_apply, Matrix.transpose_apply, Fin.sum_univ_three]
  rw [show M 0 i * M 0 j + M 1 i * M 1 j + M 2 i * M 2 j - (A 0 i * A 0 j + A 1 i * A 1 j + A 2 i * A 2 j) =
    (M 0 i * M 0 j - A 0 i * A 0 j) + (M 1 i * M 1 j - A 1 i * A 1 j) + (M 2 i * M 2 j - A 2 i * A 2 j) by ring]
  have q1 := abs_add_le ((M 0 i * M 0 j - A 0 i * A 0 j) + (M 1 i * M 1 j - A 1 i * A 1 j)) (M 2 i * M 2 j - A 2 i * A 2 j)
  have q2 := abs_add_le (M 0 i * M 0 j - A 0 i * A 0 j) (M 1 i * M 1 j - A 1 i * A 1 j)
  linarith [t 0, t 1, t 2]

theorem elem_err (hu : R.u ≤ 1 / 10 ^ 6) {a : RF R} {x : ℝ} (h : Near 1 1 a x) : ∃ y, a = num R y ∧ |y - x| ≤ 2 * R.u := by
  obtain ⟨y, h1, h2⟩ := near_small hu h (by norm_num) (by norm_num)
  exact ⟨y, h1, h2.trans (by linarith [R.u_nonneg])⟩

theorem elem_const (x : ℝ) : ∃ y, num R x = num R y ∧ |y - x| ≤ 2 * R.u :=
  ⟨x, rfl, by rw [sub_self, abs_zero]; linarith [R.u_nonneg]⟩

end RRot

open RRot in
/-- C100 (rot_mat_x, rot_mat_y, rot_mat_z): the entries are within 2 units of rounding of those of the rotation by exactly that angle. -/
theorem c100_rot (hu : R.u ≤ 1 / 10 ^ 6) (t : ℝ) (A : Matrix (Fin 3) (Fin 3) ℝ) :
    (RotatesAbout A ex ey ez t → MatNear (2 * R.u) (rot_mat_x (num R t)) A) ∧
    (RotatesAbout A ey ez ex t → MatNear (2 * R.u) (rot_mat_y (num R t)) A) ∧
    (RotatesAbout A ez ex ey t → MatNear (2 * R.u) (rot_mat_z (num R t)) A) := by
  have c := elem_err hu (cosN (R := R) t)
  have s := elem_err hu (sinN (R := R) t)
  have n := elem_err hu (sinN (R := R) t).neg
  have z := elem_const (R := R) 0
  have o := elem_const (R := R) 1
  simp only [sub_zero] at z
  simp only [sub_neg_eq_add] at n
  refine ⟨fun h => ?_, fun h => ?_, fun h => ?_⟩
  · rw [unique_x h]
    intro i j
    fin_cases i <;> fin_cases j <;> simp only [rot_mat_x, RX, zero_num, one_num] <;> simp [-cos_num, -sin_num] <;> assumption
  · rw [unique_y h]
    intro i j
    fin_cases i <;> fin_cases j <;> simp only [rot_mat_y, RY, zero_num, one_num] <;> simp [-cos_num, -sin_num] <;> assumption
  · rw [unique_z h]
    intro i j
    fin_cases i <;> fin_cases j <;> simp only [rot_mat_z, RZ, zero_num, one_num] <;> simp [-cos_num, -sin_num] <;> assumption

open RRot in
/-- C100 (euler_rotation_matrix): the entries are within 13 units of rounding of those of the product of the rotations by Omega about z, by inc
about x and by omega about z; for angles in degrees the conversion adds 7 units times the size of the angles in radians. -/
theorem c100_euler (hu : R.u ≤ 1 / 10 ^ 6) (inc om OM : ℝ) (deg : Bool) (A B C : Matrix (Fin 3) (Fin 3) ℝ)
    (hA : RotatesAbout A ez ex ey (angleOf deg OM)) (hB : RotatesAbout B ex ey ez (angleOf deg inc)) (hC : RotatesAbout C ez ex ey (angleOf deg om)) :
    MatNear ((13 + if deg then 7 * (|angleOf deg OM| + |angleOf deg inc| + |angleOf deg om|) else 0) * R.u)
      (euler_rotation_matrix (num R inc) (num R om) (num R OM) deg) (A * B * C) := by
  have hu0 := R.u_nonneg
  rw [unique_z hA, unique_x hB, unique_z hC, euler_flRad]
  intro i j
  obtain ⟨y, h1, h2⟩ := euler_rad hu (flRad R deg inc) (flRad R deg om) (flRad R deg OM) i j
  refine ⟨y, h1, ?_⟩
  have h3 := euler_lip (flRad R deg inc) (flRad R deg om) (flRad R deg OM) (angleOf deg inc) (angleOf deg om) (angleOf deg OM) i j
  have e1 := flRad_err hu deg inc
  have e2 := flRad_err hu deg om
  have e3 := flRad_err hu deg OM
  refine (abs_sub_le _ _ _).trans ((add_le_add h2 h3).trans ?_)
  cases deg
  · simp only [Bool.false_eq_true, if_false, zero_mul] at e1 e2 e3 ⊢
    linarith
  · simp only [if_true] at e1 e2 e3 ⊢
    have p1 := mul_nonneg hu0 (abs_nonneg (angleOf true inc))
    have p2 := mul_nonneg hu0 (abs_nonneg (angleOf true om))
    have p3 := mul_nonneg hu0 (abs_nonneg (angleOf true OM))
    linarith

open RRot in
/-- C100 (orthogonality): the computed matrix is orthogonal up to 7 times its error. -/
theorem c100_orthogonal (hu : R.u ≤ 1 / 10 ^ 6) (inc om OM : ℝ) (deg : Bool)
    (hs : (13 + if deg then 7 * (|angleOf deg OM| + |angleOf deg inc| + |angleOf deg om|) else 0) * R.u ≤ 1 / 10) :
    ∃ M : Matrix (Fin 3) (Fin 3) ℝ, (∀ i j, euler_rotation_matrix (num R inc) (num R om) (num R OM) deg i j = num R (M i j)) ∧
      ∀ i j, |(Mᵀ * M) i j - (1 : Matrix (Fin 3) (Fin 3) ℝ) i j| ≤
        7 * ((13 + if deg then 7 * (|angleOf deg OM| + |angleOf deg inc| + |angleOf deg om|) else 0) * R.u) := by
  obtain ⟨A, -, -, hA⟩ := c17_rot_mat_z (angleOf deg OM)
  obtain ⟨B, -, -, hB⟩ := c17_rot_mat_x (angleOf deg inc)
  obtain ⟨C, -, -, hC⟩ := c17_rot_mat_z (angleOf deg om)
  choose M hM using c100_euler hu inc om OM deg A B C hA hB hC
  refine ⟨M, fun i j => (hM i j).1, fun i j => near_orth (A := A * B * C) ?_ (fun i j => (hM i j).2) hs i j⟩
  rw [unique_z hA, unique_x hB, unique_z hC]
  exact ((z_isRot _).mul (x_isRot _)).mul (z_isRot _)

/-- a case of `c100_euler` and `c100_orthogonal`: in double precision, 30, 45 and 90 degrees -/
example : ∃ M : Matrix (Fin 3) (Fin 3) ℝ,
    (∀ i j, euler_rotation_matrix (num Binary.binary64 30) (num _ 45) (num _ 90) true i j = num _ (M i j)) ∧
      ∀ i j, |(Mᵀ * M) i j - (1 : Matrix (Fin 3) (Fin 3) ℝ) i j| ≤ 1 / 10 ^ 13 := by
  have hp := Real.pi_pos
  have hp4 := Real.pi_le_four
  have hb : (13 + 7 * (|angleOf true 90| + |angleOf true 30| + |angleOf true 45|)) * Binary.binary64.u ≤ 1 / 10 ^ 14 := by
    simp only [angleOf, if_true]
    rw [abs_of_pos (by positivity), abs_of_pos (by positivity), abs_of_pos (by positivity)]
    show _ * (1 / 2 : ℝ) ^ 53 ≤ _
    have : (13 + 7 * (90 * (Real.pi / 180) + 30 * (Real.pi / 180) + 45 * (Real.pi / 180))) ≤ 80 := by linarith
    refine (mul_le_mul_of_nonneg_right this (by positivity)).trans (by norm_num)
  obtain ⟨M, h1, h2⟩ := c100_orthogonal (R := Binary.binary64) (show (1 / 2 : ℝ) ^ 53 ≤ 1 / 10 ^ 6 by norm_num) 30 45 90 true
    (by simp only [if_true]; refine hb.trans (by norm_num))
  refine ⟨M, h1, fun i j => (h2 i j).trans ?_⟩
  simp only [if_true]
  norm_num at hb ⊢
  linarith

end Pyorb
