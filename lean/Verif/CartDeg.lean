import Verif.PropsCartMotionSpecial

/-!
# Elements in degrees computed from a Cartesian state with rounding
-/

set_option linter.unusedVariables false

namespace Pyorb
open FX RF Matrix
variable {R : Rounding}

namespace CartKep

/-! ## The range of the computed angles -/

/-- if `x` is a number then it lies in `[-δ, 2 pi + δ]` -/
def InTurn (R : Rounding) (δ : ℝ) (x : RF R) : Prop := ∀ θ : ℝ, x = RF.num R θ → -δ ≤ θ ∧ θ ≤ 2 * Real.pi + δ

theorem InTurn.zero (hR : R.u ≤ 1 / 10 ^ 5) : InTurn R 0 0 := by
  intro θ h
  rw [zero_num] at h
  rw [← num_inj h]
  have := Real.pi_pos
  constructor <;> linarith

theorem InTurn.arccos (hu : R.u ≤ 1 / 10 ^ 5) (x : RF R) : InTurn R 0 (Np.arccos x) := by
  intro θ h
  have hpi := Real.pi_pos
  obtain ⟨v⟩ := x
  cases v with
  | fin y =>
    by_cases hy : -1 ≤ y ∧ y ≤ 1
    · have h' : Np.arccos (RF.num R y) = RF.num R θ := h
      rw [arccos_num hy.1 hy.2] at h'
      rw [← num_inj h']
      have h1 := Real.arccos_nonneg y
      have h2 := Real.arccos_le_pi y
      have h3 : |Real.exp (R.lib .arccos y) - 1| ≤ 4 / 3 * R.u := (exp_diff (R.lib_le _ _)).trans (exp_sub_one_le R.u_nonneg (by linarith))
      have h4 := (abs_le.mp h3).2
      have h5 := mul_le_mul h2 (show Real.exp (R.lib .arccos y) ≤ 2 by linarith) (Real.exp_pos _).le hpi.le
      have h6 := mul_nonneg h1 (Real.exp_pos (R.lib .arccos y)).le
      constructor <;> linarith
    · exfalso
      have h' : (⟨R.libRound .arccos (fin y) (FX.arccos (fin y))⟩ : RF R) = RF.num R θ := h
      rw [FX.arccos, if_neg hy] at h'
      injection h' with h'
      exact FX.noConfusion h'
  | pinf => injection h with h; exact FX.noConfusion h
  | ninf => injection h with h; exact FX.noConfusion h
  | nan => injection h with h; exact FX.noConfusion h

theorem InTurn.flip (hu : R.u ≤ 1 / 10 ^ 5) {δ : ℝ} (hδ : 0 ≤ δ) (hδ1 : δ ≤ 1) {x : RF R} (b : Bool) (h : InTurn R δ x) : InTurn R (δ + 1 / 100) (if b = true then twoPi - x else x) := by
  cases b
  · intro θ hθ
    obtain ⟨h1, h2⟩ := h θ hθ
    constructor <;> linarith
  · intro θ hθ
    rw [if_pos rfl, twoPi_num] at hθ
    obtain ⟨v⟩ := x
    cases v with
    | fin y =>
      have hθ' : (RF.num R (flTwoPi R) - RF.num R y : RF R) = RF.num R θ := hθ
      rw [sub_num] at hθ'
      rw [← num_inj hθ']
      obtain ⟨h1, h2⟩ := h y rfl
      obtain ⟨d1, d2⟩ := abs_le.mp (flTwoPi_near (R := R) (by linarith))
      have hpi := Real.pi_lt_d2
      have hpi0 := Real.pi_pos
      have hu0 := R.u_nonneg
      have s4 := rd_diff (R := R) (x := flTwoPi R - y) (by linarith)
      have s5 : |flTwoPi R - y| ≤ 8 := by rw [abs_le]; constructor <;> linarith
      have s6 : R.u * |flTwoPi R - y| ≤ R.u * 8 := mul_le_mul_of_nonneg_left s5 hu0
      have s7 : |R.rd (flTwoPi R - y) - (flTwoPi R - y)| ≤ 11 * R.u := by linarith
      obtain ⟨f1, f2⟩ := abs_le.mp s7
      constructor <;> linarith
    | pinf => injection hθ with h; exact FX.noConfusion h
    | ninf => injection hθ with h; exact FX.noConfusion h
    | nan => injection hθ with h; exact FX.noConfusion h

theorem InTurn.start (hu : R.u ≤ 1 / 10 ^ 5) (b : Bool) (x z : RF R) : InTurn R 0 (if b = true then Np.arccos x else if (!b) = true then 0 else z) := by
  cases b
  · exact .zero hu
  · exact .arccos hu x

theorem InTurn.node (hu : R.u ≤ 1 / 10 ^ 5) (b c : Bool) (x z : RF R) :
    InTurn R (0 + 1 / 100) (if (!b) = true then 0 else if (c && b) = true then twoPi - (if b = true then Np.arccos x else z) else (if b = true then Np.arccos x else z)) := by
  cases b
  · intro θ h
    obtain ⟨h1, h2⟩ := InTurn.zero hu θ h
    constructor <;> linarith
  · have := InTurn.flip hu le_rfl (by norm_num) (c && true) (.arccos hu x)
    exact this

/-- every angle `cart_to_kep` computes lies in one turn, if it is a number -/
theorem angles_in_turn (hu : R.u ≤ 1 / 10 ^ 5) (g : CtkGarbage (RF R)) (mu : RF R) (c : Cart (RF R)) : let k := cartToKepCol g .f64 mu c
    InTurn R 0 k.i ∧ InTurn R (0 + 1 / 100 + 1 / 100 + 1 / 100) k.om ∧ InTurn R (0 + 1 / 100) k.OM ∧ InTurn R (0 + 1 / 100 + 1 / 100 + 1 / 100 + 1 / 100) k.nu := by
  refine ⟨.arccos hu _, ?_, ?_, ?_⟩
  · exact .flip hu (by norm_num) (by norm_num) _ (.flip hu (by norm_num) (by norm_num) _ (.flip hu le_rfl (by norm_num) _ (.start hu _ _ _)))
  · exact .node hu _ _ _ _
  · exact .flip hu (by norm_num) (by norm_num) _ (.flip hu (by norm_num) (by norm_num) _ (.flip hu (by norm_num) (by norm_num) _ (.flip hu le_rfl (by norm_num) _ (.arccos hu _))))

theorem angles_le {g : CtkGarbage (RF R)} {mu : RF R} {c : Cart (RF R)} {k : Kep ℝ} (hu : R.u ≤ 1 / 10 ^ 5) (h : cartToKepCol g .f64 mu c = k.num R) :
    |k.i| ≤ 13 / 2 ∧ |k.om| ≤ 13 / 2 ∧ |k.OM| ≤ 13 / 2 ∧ |k.nu| ≤ 13 / 2 := by
  obtain ⟨h1, h2, h3, h4⟩ := angles_in_turn hu g mu c
  rw [h] at h1 h2 h3 h4
  have hpi := Real.pi_lt_d2
  obtain ⟨a1, b1⟩ := h1 _ rfl
  obtain ⟨a2, b2⟩ := h2 _ rfl
  obtain ⟨a3, b3⟩ := h3 _ rfl
  obtain ⟨a4, b4⟩ := h4 _ rfl
  refine ⟨abs_le.mpr ⟨?_, ?_⟩, abs_le.mpr ⟨?_, ?_⟩, abs_le.mpr ⟨?_, ?_⟩, abs_le.mpr ⟨?_, ?_⟩⟩ <;> linarith

/-! ## Degrees -/

/-- what `np.degrees` of the computed elements gives -/
structure InDegrees (R : Rounding) (k' kd : Kep ℝ) : Prop where
  out : (k'.num R).toDegrees .f64 = kd.num R
  a : kd.a = k'.a
  e : kd.e = k'.e
  i : |angleOf true kd.i - k'.i| ≤ 20 * R.u
  om : |angleOf true kd.om - k'.om| ≤ 20 * R.u
  OM : |angleOf true kd.OM - k'.OM| ≤ 20 * R.u
  nu : |angleOf true kd.nu - k'.nu| ≤ 20 * R.u

theorem in_degrees (hu : R.u ≤ 1 / 10 ^ 6) {k' : Kep ℝ} (hi : |k'.i| ≤ 13 / 2) (ho : |k'.om| ≤ 13 / 2) (hO : |k'.OM| ≤ 13 / 2) (hn : |k'.nu| ≤ 13 / 2) : ∃ kd, InDegrees R k' kd := by
  have hu0 := R.u_nonneg
  have key : ∀ x : ℝ, |x| ≤ 13 / 2 → ∃ y, degrees (RF.num R x) = RF.num R y ∧ |angleOf true y - x| ≤ 20 * R.u := by
    intro x hx
    obtain ⟨y, h1, h2⟩ := Orbit.WideDeg.out_err (R := R) hu x
    refine ⟨y, h1, h2.trans ?_⟩
    have := mul_le_mul_of_nonneg_left hx hu0
    linarith
  obtain ⟨i, i1, i2⟩ := key _ hi
  obtain ⟨o, o1, o2⟩ := key _ ho
  obtain ⟨O, O1, O2⟩ := key _ hO
  obtain ⟨n, n1, n2⟩ := key _ hn
  refine ⟨⟨k'.a, k'.e, i, o, O, n⟩, ?_, rfl, rfl, i2, o2, O2, n2⟩
  simp only [Kep.toDegrees, Kep.num, i1, o1, O1, n1]
  rfl

/-- what becomes of the angles when they are converted to radians again -/
theorem flRad_near (hu : R.u ≤ 1 / 10 ^ 6) {x y : ℝ} (hy : |y| ≤ 13 / 2) (h : |angleOf true x - y| ≤ 20 * R.u) : |flRad R true x - y| ≤ 41 * R.u := by
  have hu0 := R.u_nonneg
  have h1 := Orbit.WideDeg.in_err (R := R) hu x
  have h2 : |angleOf true x| ≤ 66 / 10 := by
    have := abs_add_le (angleOf true x - y) y
    rw [sub_add_cancel] at this
    linarith
  have h3 := mul_le_mul_of_nonneg_left h2 hu0
  have h4 := abs_sub_le (flRad R true x) (angleOf true x) y
  linarith

/-- elements whose angles differ a little from those that were computed -/
theorem Aligned.turn {k kr k' kf : Kep ℝ} {φ F0 α β γ D b D1 δ : ℝ} (A : Aligned k kr k' φ F0 α β γ D b) (ha : kf.a = k'.a) (he : kf.e = k'.e)
    (hD : |kf.OM - k'.OM| + |kf.i - k'.i| + |kf.om - k'.om| ≤ D1) (hn : |kf.nu - k'.nu| ≤ δ) (hr : |kf.nu| ≤ 7) :
    Aligned k kr kf φ F0 α β γ (D + D1) (b + 3 * (√((1 + k.e) / (1 - k.e)) * δ)) := by
  have S := A.near.shape
  obtain ⟨hak, hek, hq', -, -⟩ := A.shapes
  have hq : 0 < 1 - k.e := by linarith [A.e1]
  obtain ⟨F1, f1, f2⟩ := A.point
  have hcond : anomCond k'.e ≤ 3 / 2 * √((1 + k.e) / (1 - k.e)) := by
    have he'2 := S.e0'
    rw [anomCond, abs_of_nonneg S.e0', Real.sqrt_le_left (by positivity), mul_pow, Real.sq_sqrt (by positivity), mul_div_assoc', div_le_div_iff₀ (by linarith [S.e1']) hq]
    have h1 : 1 + k'.e ≤ 201 / 200 * (1 + k.e) := by
      have h1 := (abs_le.mp S.de).2
      have h2 := S.hβ
      have h3 := A.e_le
      have h4 := S.e0
      linarith
    have h2 := mul_le_mul_of_nonneg_right h1 hq.le
    have h3 := mul_le_mul_of_nonneg_left hq' (show 0 ≤ (3 / 2) ^ 2 * (1 + k.e) by positivity)
    have h4 : 0 ≤ (1 + k.e) * (1 - k.e) := by positivity
    linarith
  obtain ⟨M', ⟨F', e1, e2⟩, e3⟩ := Orbit.WideDeg.hasMean_lip .tru S.e0' S.e1' (x := k'.nu) (M := F1 - k'.e * Real.sin F1) ⟨F1, f1, rfl⟩ kf.nu
  refine ⟨A.a, A.e_le, A.e_gap, A.small, A.e1, ⟨by rw [ha, he]; exact S, ?_⟩, A.same, ⟨F', by rw [he]; exact e1, ?_⟩, hr⟩
  · obtain ⟨z1, z2, z3, hz⟩ := A.near.plane
    refine ⟨z1, z2, z3, ?_⟩
    have a1 := abs_sub_le kf.OM k'.OM (kr.OM + z3 * (2 * Real.pi))
    have a2 := abs_sub_le kf.i k'.i (kr.i + z1 * (2 * Real.pi))
    have a3 := abs_sub_le kf.om k'.om (kr.om + z2 * (2 * Real.pi))
    linarith
  · rw [he]
    have h1 := abs_sub_le (meanOf k'.e F') (meanOf k'.e F1) (meanOf k'.e (F0 + φ))
    have h2 := mul_le_mul hcond hn (abs_nonneg _) (by positivity)
    have h3 : |meanOf k'.e F' - meanOf k'.e F1| ≤ 2 * (anomCond k'.e * |kf.nu - k'.nu|) := by
      rw [meanOf_eli _ S.e1', meanOf_eli _ S.e1', e2]; exact e3
    linarith

/-- the elements in degrees, converted to radians again, are aligned with those of the state -/
theorem Aligned.flRad {k kr k' kd : Kep ℝ} {φ F0 α β γ D b : ℝ} (A : Aligned k kr k' φ F0 α β γ D b) (hu : R.u ≤ 1 / 10 ^ 6) (hi : |k'.i| ≤ 13 / 2) (ho : |k'.om| ≤ 13 / 2)
    (hO : |k'.OM| ≤ 13 / 2) (hn : |k'.nu| ≤ 13 / 2) (h : InDegrees R k' kd) :
    Aligned k kr (kd.flRad R true) φ F0 α β γ (D + 123 * R.u) (b + 123 * (√((1 + k.e) / (1 - k.e)) * R.u)) := by
  have h1 := flRad_near hu hi h.i
  have h2 := flRad_near hu ho h.om
  have h3 := flRad_near hu hO h.OM
  have h4 := flRad_near hu hn h.nu
  have := A.turn (kf := kd.flRad R true) (D1 := 123 * R.u) (δ := 41 * R.u) h.a h.e ?_ h4 ?_
  · rw [show b + 123 * (√((1 + k.e) / (1 - k.e)) * R.u) = b + 3 * (√((1 + k.e) / (1 - k.e)) * (41 * R.u)) by ring]
    exact this
  · show |Pyorb.flRad R true kd.OM - k'.OM| + |Pyorb.flRad R true kd.i - k'.i| + |Pyorb.flRad R true kd.om - k'.om| ≤ _
    linarith
  · show |Pyorb.flRad R true kd.nu| ≤ 7
    have := abs_add_le (Pyorb.flRad R true kd.nu - k'.nu) k'.nu
    rw [sub_add_cancel] at this
    linarith

end CartKep
end Pyorb
