import Verif.PropsRoundBoth

/-!
# Accuracy of the angles of `cart_to_kep` with rounding (C93)

Forward errors of the node, the argument of periapsis and the true anomaly on orbits that are neither nearly circular nor nearly planar.
-/

namespace Pyorb
open FX RF Matrix
variable {R : Rounding}

/-! ## Specification -/

/-- the cosine of the angle between two vectors -/
noncomputable def cosAngle (a b : Fin 3 → ℝ) : ℝ := a ⬝ᵥ b / (vlen a * vlen b)

/-- the vector to the ascending node: the z axis times the angular momentum -/
noncomputable def nodeVec (c : Cart ℝ) : Fin 3 → ℝ := ![0, 0, 1] ⨯₃ angMom c

/-! ## Quotients -/

theorem abs_dot_le (a b : Fin 3 → ℝ) : |a ⬝ᵥ b| ≤ vlen a * vlen b := by
  rw [abs_le]
  have h1 := vlen_dot_le (-a) b
  rw [vlen_neg, neg_dotProduct] at h1
  exact ⟨by linarith, vlen_dot_le a b⟩

theorem abs_cosAngle_le (a b : Fin 3 → ℝ) : |cosAngle a b| ≤ 1 := by
  rw [cosAngle, abs_div, abs_of_nonneg (mul_nonneg (vlen_nonneg a) (vlen_nonneg b))]
  exact div_le_one_of_le₀ (abs_dot_le a b) (mul_nonneg (vlen_nonneg a) (vlen_nonneg b))

/-- a quotient of perturbed numbers -/
theorem quot_diff {D D' P P' : ℝ} (hP : 0 < P) (h1 : P / 2 ≤ P') (hD : |D| ≤ P) : |D' / P' - D / P| ≤ 2 * (|D' - D| + |P' - P|) / P := by
  have hP' : 0 < P' := by linarith
  have e : D' / P' - D / P = ((D' - D) + D / P * (P - P')) / P' := by field_simp; ring
  have h2 : |D / P| ≤ 1 := by rw [abs_div, abs_of_pos hP, div_le_one hP]; exact hD
  have h3 : |(D' - D) + D / P * (P - P')| ≤ |D' - D| + |P' - P| := by
    refine (abs_add_le _ _).trans (add_le_add le_rfl ?_)
    rw [abs_mul, abs_sub_comm P]
    exact mul_le_of_le_one_left (abs_nonneg _) h2
  rw [e, abs_div, abs_of_pos hP', div_le_div_iff₀ hP' hP]
  have h4 : 0 ≤ |D' - D| + |P' - P| := add_nonneg (abs_nonneg _) (abs_nonneg _)
  nlinarith [mul_le_mul_of_nonneg_right h3 hP.le, mul_le_mul_of_nonneg_left h1 h4]

theorem rd_diff {x : ℝ} (hu : 4 * R.u ≤ 1) : |R.rd x - x| ≤ 4 / 3 * R.u * |x| := by
  rw [Rounding.rd, show x * Real.exp (R.th x) - x = (Real.exp (R.th x) - 1) * x by ring, abs_mul]
  exact mul_le_mul_of_nonneg_right ((exp_diff (R.th_le x)).trans (exp_sub_one_le R.u_nonneg (by linarith))) (abs_nonneg _)

/-! ## From the cosine to the angle -/

theorem flTwoPi_near (hu : 100 * R.u ≤ 1) : |flTwoPi R - 2 * Real.pi| ≤ 17 * R.u := by
  have h0 := R.u_nonneg
  have hp := Real.pi_lt_d2
  have hp0 := Real.pi_pos
  have h1 := rd_diff (R := R) (x := Real.pi) (by linarith)
  have h2 := rd_diff (R := R) (x := 2 * R.rd Real.pi) (by linarith)
  have hq : 0 < R.rd Real.pi := rd_pos hp0
  rw [abs_of_pos hp0] at h1
  rw [abs_of_pos (show 0 < 2 * R.rd Real.pi by linarith)] at h2
  have h3 : R.u * Real.pi ≤ R.u * 3.15 := mul_le_mul_of_nonneg_left hp.le h0
  obtain ⟨a1, a2⟩ := abs_le.mp h1
  have hq2 : R.rd Real.pi ≤ 3.2 := by linarith
  have h4 : R.u * R.rd Real.pi ≤ R.u * 3.2 := mul_le_mul_of_nonneg_left hq2 h0
  obtain ⟨b1, b2⟩ := abs_le.mp h2
  rw [abs_le]
  unfold flTwoPi
  constructor <;> linarith

/-- the angle that is returned for a cosine: its cosine, and the half plane that was chosen -/
theorem angle_out (hu : 100 * R.u ≤ 1) {y : ℝ} (h1 : -1 ≤ y) (h2 : y ≤ 1) (b : Bool) :
    ∃ θ, (if b = true then twoPi - Np.arccos (RF.num R y) else Np.arccos (RF.num R y)) = RF.num R θ ∧ |Real.cos θ - y| ≤ 31 * R.u ∧
      (b = false → 0 ≤ θ ∧ θ ≤ Real.pi + 31 * R.u) ∧ (b = true → Real.pi - 31 * R.u ≤ θ ∧ θ ≤ 2 * Real.pi + 31 * R.u) := by
  have h0 := R.u_nonneg
  have hp := Real.pi_lt_d2
  have hp0 := Real.pi_pos
  have ha0 := Real.arccos_nonneg y
  have ha1 := Real.arccos_le_pi y
  have hlib : |Real.exp (R.lib .arccos y) - 1| ≤ 4 / 3 * R.u := (exp_diff (R.lib_le _ _)).trans (exp_sub_one_le h0 (by linarith))
  have s1 := cos_mul_exp ha0 ha1 hlib
  rw [Real.cos_arccos h1 h2] at s1
  have hpu : Real.pi * (4 / 3 * R.u) ≤ 3.15 * (4 / 3 * R.u) := mul_le_mul_of_nonneg_right hp.le (by linarith)
  have s2 : |Real.arccos y * Real.exp (R.lib .arccos y) - Real.arccos y| ≤ 4.2 * R.u := by
    rw [show Real.arccos y * Real.exp (R.lib .arccos y) - Real.arccos y = Real.arccos y * (Real.exp (R.lib .arccos y) - 1) by ring, abs_mul, abs_of_nonneg ha0]
    refine (mul_le_mul ha1 hlib (abs_nonneg _) hp0.le).trans ?_
    linarith
  have s3 : 0 ≤ Real.arccos y * Real.exp (R.lib .arccos y) := mul_nonneg ha0 (Real.exp_pos _).le
  obtain ⟨c1, c2⟩ := abs_le.mp s2
  rw [arccos_num h1 h2]
  cases b
  · refine ⟨_, rfl, s1.trans (by linarith), fun _ => ⟨s3, by linarith⟩, fun h => absurd h Bool.false_ne_true⟩
  · set θ := Real.arccos y * Real.exp (R.lib .arccos y) with hθ
    obtain ⟨d1, d2⟩ := abs_le.mp (flTwoPi_near (R := R) hu)
    have hpl := Real.pi_gt_d2
    have s4 := rd_diff (R := R) (x := flTwoPi R - θ) (by linarith)
    have s5 : |flTwoPi R - θ| ≤ 6.5 := by rw [abs_le]; constructor <;> linarith
    have s6 : R.u * |flTwoPi R - θ| ≤ R.u * 6.5 := mul_le_mul_of_nonneg_left s5 h0
    have s7 : |R.rd (flTwoPi R - θ) - (flTwoPi R - θ)| ≤ 8.7 * R.u := by linarith
    obtain ⟨f1, f2⟩ := abs_le.mp s7
    refine ⟨R.rd (flTwoPi R - θ), ?_, ?_, fun h => absurd h.symm Bool.false_ne_true, fun _ => ⟨by linarith, by linarith⟩⟩
    · rw [if_pos rfl, twoPi_num, sub_num]
    · have s8 : |Real.cos (R.rd (flTwoPi R - θ)) - Real.cos (2 * Real.pi - θ)| ≤ 26 * R.u := by
        refine (Real.abs_cos_sub_cos_le _ _).trans ?_
        rw [abs_le]
        constructor <;> linarith
      rw [Real.cos_two_pi_sub] at s8
      have s9 := abs_add_le (Real.cos (R.rd (flTwoPi R - θ)) - Real.cos θ) (Real.cos θ - y)
      rw [sub_add_sub_cancel] at s9
      linarith

/-- the clipping to [-1, 1] does not increase the error -/
theorem clip_near {x X δ : ℝ} (hX : |X| ≤ 1) (h : |x - X| ≤ δ) :
    ∃ y, (if ((if (1 <ᵇ RF.num R x) = true then 1 else RF.num R x) <ᵇ -1) = true then -1 else if (1 <ᵇ RF.num R x) = true then 1 else RF.num R x) = RF.num R y ∧
      -1 ≤ y ∧ y ≤ 1 ∧ |y - X| ≤ δ := by
  obtain ⟨a1, a2⟩ := abs_le.mp hX
  obtain ⟨b1, b2⟩ := abs_le.mp h
  rw [neg_one_num, one_num, lt_num]
  by_cases h1 : 1 < x
  · refine ⟨1, ?_, by norm_num, le_rfl, by rw [abs_le]; constructor <;> linarith⟩
    simp only [h1, decide_true, if_true, lt_num]
    norm_num
  · simp only [h1, decide_false, Bool.false_eq_true, if_false, lt_num]
    by_cases h2 : x < -1
    · exact ⟨-1, by simp [h2], le_rfl, by norm_num, by rw [abs_le]; constructor <;> linarith⟩
    · exact ⟨x, by simp [h2], not_lt.mp h2, not_lt.mp h1, h⟩

/-! ## The computed vectors -/

theorem nodeVec_eq (c : Cart ℝ) : nodeVec c = ![-angMom c 1, angMom c 0, 0] := by
  funext j
  fin_cases j <;> simp [nodeVec, crossProduct]

theorem vlen_nodeVec_sq (c : Cart ℝ) : vlen (nodeVec c) ^ 2 = angMom c 0 ^ 2 + angMom c 1 ^ 2 := by
  rw [nodeVec_eq, pow_two, vlen_vec_sq]; ring

theorem vlen_nodeVec_le (c : Cart ℝ) : vlen (nodeVec c) ≤ vlen (angMom c) := by
  refine (abs_le_of_sq_le_sq' ?_ (vlen_nonneg _)).2
  rw [vlen_nodeVec_sq, vlen_sq']
  simp only [dotProduct, Fin.sum_univ_three]
  nlinarith [mul_self_nonneg (angMom c 2)]

theorem vlen_angMom_le (c : Cart ℝ) : vlen (angMom c) ≤ vlen c.r * vlen c.v := vlen_cross_le _ _

/-- errors of the computed angular momentum -/
theorem flAngMom_err (hu : 100 * R.u ≤ 1) (c : Cart ℝ) (j : Fin 3) : |flAngMom R c j - angMom c j| ≤ 8 / 3 * R.u * (vlen c.r * vlen c.v) := by
  obtain ⟨y, hy, h⟩ := (flAngMom_near (R := R) c j).abs_le (by norm_num) (by linarith [R.u_nonneg])
  rw [num_inj hy]
  linarith

/-- the computed length of the vector to the node -/
theorem flNode_err (hu : 100 * R.u ≤ 1) (c : Cart ℝ) :
    |flNorm R (-flAngMom R c 1) (flAngMom R c 0) 0 - vlen (nodeVec c)| ≤ 9 * R.u * (vlen c.r * vlen c.v) := by
  have h0 := R.u_nonneg
  have hRV : 0 ≤ vlen c.r * vlen c.v := mul_nonneg (vlen_nonneg _) (vlen_nonneg _)
  have h := flNorm_near (R := R) (p0 := -flAngMom R c 1) (p1 := flAngMom R c 0) (p2 := 0) (x := nodeVec c) (D := 8 / 3 * R.u * (vlen c.r * vlen c.v))
    (by rw [nodeVec_eq]; show |(-flAngMom R c 1) - (-angMom c 1)| ≤ _; rw [neg_sub_neg, abs_sub_comm]; exact flAngMom_err hu c 1)
    (by rw [nodeVec_eq]; exact flAngMom_err hu c 0)
    (by rw [nodeVec_eq]; show |(0 : ℝ) - 0| ≤ _; rw [sub_zero, abs_zero]; positivity) (by linarith)
  refine h.trans ?_
  have hle := (vlen_nodeVec_le c).trans (vlen_angMom_le c)
  have huRV : 0 ≤ R.u * (vlen c.r * vlen c.v) := mul_nonneg h0 hRV
  have h2 : R.u * (R.u * (vlen c.r * vlen c.v)) ≤ 1 / 100 * (R.u * (vlen c.r * vlen c.v)) := mul_le_mul_of_nonneg_right (by linarith) huRV
  have h3 : R.u * vlen (nodeVec c) ≤ R.u * (vlen c.r * vlen c.v) := mul_le_mul_of_nonneg_left hle h0
  nlinarith

/-- the inclination is computed inside the limits -/
theorem incl_inside (hR : Nearest R) {i C : ℝ} (h0 : 0 ≤ i) (h1 : i ≤ Real.pi * Real.exp R.u) (hC : |Real.cos i| ≤ 1 - C) (hC1 : 4 / 10 ^ 17 ≤ C) :
    ((i_lim <ᵇ RF.num R i) && (RF.num R i <ᵇ Np.pi - i_lim)) = true := by
  have hu0 := R.u_nonneg
  have hus := hR.small
  have hp := Real.pi_gt_d2
  have hp2 := Real.pi_lt_d2
  have hl : R.rd ((1 / 1000000000 : ℚ) : ℝ) ≤ 1.001 / 1000000000 := by
    have h1 := rd_le hR (x := ((1 / 1000000000 : ℚ) : ℝ)) (by norm_num)
    norm_num at h1 ⊢
    linarith
  have hl0 : 0 ≤ R.rd ((1 / 1000000000 : ℚ) : ℝ) := rd_nonneg (by norm_num)
  have hpi1 := rd_le hR Real.pi_pos.le
  have hpi2 := rd_ge hR Real.pi_pos.le
  have hil : (i_lim : RF R) = RF.num R (R.rd (R.rd Real.pi * R.rd ((1 / 1000000000 : ℚ) : ℝ))) := rfl
  have hilq : R.rd (R.rd Real.pi * R.rd ((1 / 1000000000 : ℚ) : ℝ)) ≤ 3.2 / 1000000000 := by
    have h1 : R.rd Real.pi * R.rd ((1 / 1000000000 : ℚ) : ℝ) ≤ 3.16 * (1.001 / 1000000000) :=
      mul_le_mul (by norm_num at hpi1 ⊢; linarith) hl hl0 (by norm_num)
    have h2 := rd_le hR (x := R.rd Real.pi * R.rd ((1 / 1000000000 : ℚ) : ℝ)) (mul_nonneg (rd_nonneg Real.pi_pos.le) hl0)
    norm_num at h1 h2 ⊢
    linarith
  have hilp : 0 ≤ R.rd (R.rd Real.pi * R.rd ((1 / 1000000000 : ℚ) : ℝ)) := rd_nonneg (mul_nonneg (rd_nonneg Real.pi_pos.le) hl0)
  set L := R.rd (R.rd Real.pi * R.rd ((1 / 1000000000 : ℚ) : ℝ)) with hL
  obtain ⟨c1, c2⟩ := abs_le.mp hC
  rw [hil, pi_num, sub_num, lt_num, lt_num, Bool.and_eq_true, decide_eq_true_eq, decide_eq_true_eq]
  constructor
  · by_contra hc
    push Not at hc
    have h2 := Real.one_sub_sq_div_two_le_cos (x := i)
    have h3 : i ^ 2 ≤ (3.2 / 1000000000) ^ 2 := pow_le_pow_left₀ h0 (hc.trans hilq) 2
    norm_num at h2 h3 hC1
    linarith
  · by_contra hc
    push Not at hc
    have h2 : Real.pi - 4 / 1000000000 ≤ i := by
      refine le_trans ?_ hc
      have h3 : Real.pi * (1 - (1 / 2) ^ 53) - L ≤ R.rd Real.pi - L := by linarith
      have h4 := rd_ge hR (x := R.rd Real.pi - L) (by norm_num at hpi2 hilq; linarith)
      norm_num at h3 h4 hilq hpi1 ⊢
      linarith
    have h5 : i ≤ Real.pi + 4 / 1000000000 := by
      refine h1.trans ?_
      have := mul_le_mul_of_nonneg_left (exp_u_le hR) Real.pi_pos.le
      norm_num at this ⊢
      linarith
    have h6 := Real.one_sub_sq_div_two_le_cos (x := i - Real.pi)
    rw [Real.cos_sub_pi] at h6
    have h7 : (i - Real.pi) ^ 2 ≤ (4 / 1000000000) ^ 2 := sq_le_sq' (by linarith) (by linarith)
    norm_num at h6 h7 hC1
    linarith

/-! ## The column -/

/-- `θ` is an angle whose cosine differs from `X` by at most `δ`; it lies in the upper half plane when `s` is above `τ`, in the lower one when `s` is below `-τ`,
and always in one turn -/
structure AngleErr (R : Rounding) (θ X δ s τ : ℝ) : Prop where
  cos : |Real.cos θ - X| ≤ δ
  upper : τ < s → 0 ≤ θ ∧ θ ≤ Real.pi + 31 * R.u
  lower : s < -τ → Real.pi - 31 * R.u ≤ θ ∧ θ ≤ 2 * Real.pi + 31 * R.u
  range : 0 ≤ θ ∧ θ ≤ 2 * Real.pi + 31 * R.u

/-- from a computed cosine and a computed sign -/
theorem angleErr_of (hu : 100 * R.u ≤ 1) {y X δ s s' τ : ℝ} (h1 : -1 ≤ y) (h2 : y ≤ 1) (hy : |y - X| ≤ δ) (hs : |s' - s| ≤ τ) :
    ∃ θ, (if decide (s' < 0) = true then twoPi - Np.arccos (RF.num R y) else Np.arccos (RF.num R y)) = RF.num R θ ∧ AngleErr R θ X (δ + 31 * R.u) s τ := by
  obtain ⟨θ, e, c, u, l⟩ := angle_out (R := R) hu h1 h2 (decide (s' < 0))
  obtain ⟨a, b⟩ := abs_le.mp hs
  refine ⟨θ, e, ?_, fun h => u (decide_eq_false (by linarith)), fun h => l (decide_eq_true (by linarith)), ?_⟩
  · have := abs_add_le (Real.cos θ - y) (y - X)
    rw [sub_add_sub_cancel] at this
    linarith
  · have hp := Real.pi_gt_three
    have hu0 := R.u_nonneg
    cases hb : decide (s' < 0)
    · obtain ⟨v1, v2⟩ := u hb
      exact ⟨v1, by linarith⟩
    · obtain ⟨v1, v2⟩ := l hb
      exact ⟨by linarith, v2⟩

/-- the node (kepler.py 442-448) -/
theorem node_out (hR : Nearest R) (hu : 100 * R.u ≤ 1) {c : Cart ℝ} (hN : 100 * R.u * (vlen c.r * vlen c.v) ≤ vlen (nodeVec c)) (hN0 : 0 < vlen (nodeVec c)) :
    ∃ θ, (if decide (flAngMom R c 0 < 0) = true then twoPi - Np.arccos (RF.num R (-flAngMom R c 1) / RF.num R (flNorm R (-flAngMom R c 1) (flAngMom R c 0) 0))
        else Np.arccos (RF.num R (-flAngMom R c 1) / RF.num R (flNorm R (-flAngMom R c 1) (flAngMom R c 0) 0))) = RF.num R θ ∧
      AngleErr R θ (cosAngle ![1, 0, 0] (nodeVec c)) (60 * R.u * (vlen c.r * vlen c.v) / vlen (nodeVec c)) (angMom c 0) (3 * R.u * (vlen c.r * vlen c.v)) := by
  have h0 := R.u_nonneg
  have hRV : 0 ≤ vlen c.r * vlen c.v := mul_nonneg (vlen_nonneg _) (vlen_nonneg _)
  have hle := (vlen_nodeVec_le c).trans (vlen_angMom_le c)
  have hnn := flNode_err (R := R) hu c
  obtain ⟨a1, a2⟩ := abs_le.mp hnn
  set nn := flNorm R (-flAngMom R c 1) (flAngMom R c 0) 0 with hnndef
  set N := vlen (nodeVec c) with hNdef
  set rv := vlen c.r * vlen c.v with hrv
  have hnnp : 0 < nn := by linarith
  have hx := flNorm_ge_x hR (x := -flAngMom R c 1) (y := flAngMom R c 0) (z := 0) (hR.digits _ : Digits53 (flAngMom R c 1)).neg
  rw [← hnndef] at hx
  obtain ⟨q1, q2⟩ := quot_range hR hnnp hx
  have d1 := flAngMom_err (R := R) hu c 1
  have d0 := flAngMom_err (R := R) hu c 0
  rw [← hrv] at d1 d0
  have hX : cosAngle ![1, 0, 0] (nodeVec c) = -angMom c 1 / N := by
    have h1 : vlen ![1, 0, 0] = 1 := by rw [vlen_vec]; norm_num
    rw [cosAngle, h1, one_mul, ← hNdef, nodeVec_eq]
    simp [dotProduct, Fin.sum_univ_three]
  have hD : |-angMom c 1| ≤ N := by
    have := (abs_le_vlen (-angMom c 1) (angMom c 0) 0).1
    rwa [← nodeVec_eq] at this
  have t1 := quot_diff (D := -angMom c 1) (D' := -flAngMom R c 1) hN0 (by linarith : N / 2 ≤ nn) hD
  have t2 : |-flAngMom R c 1 - -angMom c 1| ≤ 8 / 3 * R.u * rv := by rw [neg_sub_neg, abs_sub_comm]; exact d1
  have t3 : |-flAngMom R c 1 / nn - -angMom c 1 / N| ≤ 24 * R.u * rv / N := by
    refine t1.trans (div_le_div_of_nonneg_right ?_ hN0.le)
    nlinarith [mul_nonneg h0 hRV]
  have hq : |-flAngMom R c 1 / nn| ≤ 1 := by rw [abs_div, abs_of_pos hnnp, div_le_one hnnp]; exact hx
  have t4 := rd_diff (R := R) (x := -flAngMom R c 1 / nn) (by linarith)
  have t5 := abs_add_le (R.rd (-flAngMom R c 1 / nn) - -flAngMom R c 1 / nn) (-flAngMom R c 1 / nn - -angMom c 1 / N)
  rw [sub_add_sub_cancel] at t5
  have t6 : 4 / 3 * R.u * |-flAngMom R c 1 / nn| ≤ 4 / 3 * R.u := mul_le_of_le_one_right (by linarith) hq
  have t7 : R.u ≤ R.u * rv / N := by rw [le_div_iff₀ hN0]; exact mul_le_mul_of_nonneg_left hle h0
  rw [div_num _ hnnp.ne']
  obtain ⟨θ, e, c1, c2, c3, c4⟩ := angleErr_of (R := R) hu q1 q2 (hX ▸ t5.trans (add_le_add (t4.trans t6) t3)) d0
  have hpos := mul_nonneg h0 hRV
  refine ⟨θ, e, c1.trans ?_, fun h => c2 (by linarith), fun h => c3 (by linarith), c4⟩
  have e1 : 24 * R.u * rv / N = 24 * (R.u * rv / N) := by ring
  have e2 : 60 * R.u * rv / N = 60 * (R.u * rv / N) := by ring
  rw [e1, e2]
  linarith

/-- a clipped quotient of a scalar product and the product of the lengths -/
theorem quot_out (hu : 100 * R.u ≤ 1) {D D' P P' K : ℝ} (hP : 0 < P) (hP' : P / 2 ≤ P') (hD : |D| ≤ P) (hPK : P ≤ 2 * K) (h : |D' - D| + |P' - P| ≤ 160 * R.u * K) :
    ∃ y, (if ((if (1 <ᵇ (RF.num R D' / RF.num R P')) = true then 1 else RF.num R D' / RF.num R P') <ᵇ -1) = true then -1 else
        if (1 <ᵇ (RF.num R D' / RF.num R P')) = true then 1 else RF.num R D' / RF.num R P') = RF.num R y ∧ -1 ≤ y ∧ y ≤ 1 ∧ |y - D / P| ≤ 338 * R.u * K / P := by
  have h0 := R.u_nonneg
  have hX : |D / P| ≤ 1 := by rw [abs_div, abs_of_pos hP, div_le_one hP]; exact hD
  rw [div_num _ (by linarith : (0 : ℝ) < P').ne']
  have t1 : |D' / P' - D / P| ≤ 320 * (R.u * (K / P)) := by
    refine (quot_diff hP hP' hD).trans ?_
    rw [div_le_iff₀ hP]
    have : 320 * (R.u * (K / P)) * P = 320 * R.u * K := by field_simp
    linarith
  have hK : 1 / 2 ≤ K / P := by rw [le_div_iff₀ hP]; linarith
  have hKu : R.u * (1 / 2) ≤ R.u * (K / P) := mul_le_mul_of_nonneg_left hK h0
  have t2 : |D' / P'| ≤ 1 + 320 * (R.u * (K / P)) := by
    have := abs_add_le (D' / P' - D / P) (D / P)
    rw [sub_add_cancel] at this
    linarith
  have t3 := rd_diff (R := R) (x := D' / P') (by linarith)
  have t4 : R.u * |D' / P'| ≤ R.u * (1 + 320 * (R.u * (K / P))) := mul_le_mul_of_nonneg_left t2 h0
  have t5 : R.u * (R.u * (K / P)) ≤ 1 / 100 * (R.u * (K / P)) := mul_le_mul_of_nonneg_right (by linarith) (by linarith)
  have t6 := abs_add_le (R.rd (D' / P') - D' / P') (D' / P' - D / P)
  rw [sub_add_sub_cancel] at t6
  have e1 : 338 * R.u * K / P = 338 * (R.u * (K / P)) := by ring
  exact clip_near hX (by rw [e1]; linarith)

/-- the argument of periapsis (kepler.py 462, 475-482) -/
theorem peri_out (hu : 100 * R.u ≤ 1) {c : Cart ℝ} {E : Fin 3 → ℝ} {κ e' : ℝ} {a0 a1 a2 : RF R} (n0 : Near 14 κ a0 (E 0)) (n1 : Near 14 κ a1 (E 1)) (n2 : Near 14 κ a2 (E 2))
    (he : |e' - vlen E| ≤ 50 * R.u * κ) (hE : 200 * R.u * κ ≤ vlen E) (hE0 : 0 < vlen E)
    (hN : 100 * R.u * (vlen c.r * vlen c.v) ≤ vlen (nodeVec c)) (hN0 : 0 < vlen (nodeVec c)) {co : RF R}
    (hco : co = (V3.dot ⟨RF.num R (-flAngMom R c 1), RF.num R (flAngMom R c 0), RF.num R 0⟩ ⟨a0, a1, a2⟩) / (RF.num R (flNorm R (-flAngMom R c 1) (flAngMom R c 0) 0) * RF.num R e')) :
    ∃ θ, (if (a2 <ᵇ 0) = true then twoPi - Np.arccos (if ((if (1 <ᵇ co) = true then 1 else co) <ᵇ -1) = true then -1 else if (1 <ᵇ co) = true then 1 else co)
        else Np.arccos (if ((if (1 <ᵇ co) = true then 1 else co) <ᵇ -1) = true then -1 else if (1 <ᵇ co) = true then 1 else co)) = RF.num R θ ∧
      AngleErr R θ (cosAngle (nodeVec c) E) (400 * R.u * (κ * (vlen c.r * vlen c.v)) / (vlen (nodeVec c) * vlen E)) (E 2) (19 * R.u * κ) := by
  have h0 := R.u_nonneg
  have hRV : 0 ≤ vlen c.r * vlen c.v := mul_nonneg (vlen_nonneg _) (vlen_nonneg _)
  have hle := (vlen_nodeVec_le c).trans (vlen_angMom_le c)
  have hnn := flNode_err (R := R) hu c
  have b0 : |E 0| ≤ κ := by obtain ⟨_, _, _, h⟩ := n0; exact h
  have b1 : |E 1| ≤ κ := by obtain ⟨_, _, _, h⟩ := n1; exact h
  have b2 : |E 2| ≤ κ := by obtain ⟨_, _, _, h⟩ := n2; exact h
  have hκ : 0 ≤ κ := (abs_nonneg _).trans b0
  have hEκ : vlen E ≤ 2 * κ := vlen_le fun j => by fin_cases j <;> assumption
  set nn := flNorm R (-flAngMom R c 1) (flAngMom R c 0) 0 with hnndef
  set N := vlen (nodeVec c) with hNdef
  have m1 := (flAngMom_near (R := R) c 1).neg
  have m0 := flAngMom_near (R := R) c 0
  have mz : Near 2 (vlen c.r * vlen c.v) (RF.num R 0) 0 := ((Rel.num (R := R) 0).near (B := vlen c.r * vlen c.v) (by rw [abs_zero]; exact hRV)).mono (by norm_num) (by norm_num) le_rfl
  rw [neg_num] at m1
  set rv := vlen c.r * vlen c.v with hrv
  have s1 := ((m1.mul n0).add (m0.mul n1)).add ((mz.mul n2).mono (k := 2 + 14 + 1 + 1) (by norm_num) (by norm_num) le_rfl)
  obtain ⟨D', hD', hD⟩ := s1.abs_le (by norm_num) (by linarith)
  have hDot : nodeVec c ⬝ᵥ E = -angMom c 1 * E 0 + angMom c 0 * E 1 + 0 * E 2 := by
    rw [nodeVec_eq]; simp [dotProduct, Fin.sum_univ_three]
  rw [← hDot] at hD
  obtain ⟨a1', a2'⟩ := abs_le.mp hnn
  obtain ⟨c1', c2'⟩ := abs_le.mp he
  have huκ : 0 ≤ R.u * κ := mul_nonneg h0 hκ
  have hurv : 0 ≤ R.u * rv := mul_nonneg h0 hRV
  have hnn1 : 91 / 100 * N ≤ nn := by linarith
  have hnn2 : nn ≤ 109 / 100 * N := by linarith
  have he1 : 75 / 100 * vlen E ≤ e' := by linarith
  have he2 : e' ≤ 5 / 4 * vlen E := by linarith
  have hnn0 : 0 < nn := by linarith
  have he0 : 0 < e' := by linarith
  have hp1 : 91 / 100 * N * (75 / 100 * vlen E) ≤ nn * e' := mul_le_mul hnn1 he1 (by positivity) hnn0.le
  have hPP : 0 < N * vlen E := mul_pos hN0 hE0
  have hrdP := rd_diff (R := R) (x := nn * e') (by linarith)
  have hne0 : 0 < nn * e' := mul_pos hnn0 he0
  rw [abs_of_pos hne0] at hrdP
  obtain ⟨r1, r2⟩ := abs_le.mp hrdP
  have hP' : N * vlen E / 2 ≤ R.rd (nn * e') := by
    have : R.u * (nn * e') ≤ 1 / 100 * (nn * e') := mul_le_mul_of_nonneg_right (by linarith) hne0.le
    linarith
  have hκrv : 0 ≤ R.u * (κ * rv) := mul_nonneg h0 (mul_nonneg hκ hRV)
  have u1 : nn * e' ≤ 109 / 100 * rv * (5 / 2 * κ) := mul_le_mul (by linarith) (by linarith) he0.le (by positivity)
  have u2 : R.u * (nn * e') ≤ R.u * (109 / 100 * rv * (5 / 2 * κ)) := mul_le_mul_of_nonneg_left u1 h0
  have u3 : |nn * e' - N * vlen E| ≤ 73 * (R.u * (κ * rv)) := by
    rw [show nn * e' - N * vlen E = (nn - N) * e' + N * (e' - vlen E) by ring]
    refine (abs_add_le _ _).trans ?_
    rw [abs_mul, abs_mul, abs_of_pos he0, abs_of_pos hN0]
    have v1 : |nn - N| * e' ≤ 9 * R.u * rv * (5 / 2 * κ) := mul_le_mul hnn (by linarith) he0.le (by positivity)
    have v2 : N * |e' - vlen E| ≤ rv * (50 * R.u * κ) := mul_le_mul hle he (abs_nonneg _) hRV
    linarith
  have u4 : |R.rd (nn * e') - N * vlen E| ≤ 77 * (R.u * (κ * rv)) := by
    have := abs_add_le (R.rd (nn * e') - nn * e') (nn * e' - N * vlen E)
    rw [sub_add_sub_cancel] at this
    linarith
  obtain ⟨y, hy, y1, y2, y3⟩ := quot_out (R := R) (D' := D') (K := κ * rv) hu hPP hP' (abs_dot_le (nodeVec c) E)
    (by linarith [mul_le_mul hle hEκ hE0.le hRV]) (by linarith)
  have hco' : co = RF.num R D' / RF.num R (R.rd (nn * e')) := by
    rw [hco, mul_num, ← hD']
    simp only [V3.dot]
  rw [hco', hy]
  obtain ⟨s', hs', hs⟩ := n2.abs_le (by norm_num) (by linarith)
  rw [hs', zero_num, lt_num]
  obtain ⟨θ, t1, t2, t3, t4, t5⟩ := angleErr_of (R := R) hu y1 y2 y3 hs
  refine ⟨θ, t1, t2.trans ?_, fun h => t3 (by linarith), fun h => t4 (by linarith), t5⟩
  have hK : 1 / 2 ≤ κ * rv / (N * vlen E) := by rw [le_div_iff₀ hPP]; linarith [mul_le_mul hle hEκ hE0.le hRV]
  have hKu := mul_le_mul_of_nonneg_left hK h0
  have e1 : 338 * R.u * (κ * rv) / (N * vlen E) = 338 * (R.u * (κ * rv / (N * vlen E))) := by ring
  have e2 : 400 * R.u * (κ * rv) / (N * vlen E) = 400 * (R.u * (κ * rv / (N * vlen E))) := by ring
  rw [e1, e2]
  linarith

/-- the true anomaly (kepler.py 500, 514-522) -/
theorem anom_out (hu : 100 * R.u ≤ 1) {c : Cart ℝ} (hr : c.r ≠ 0) {E : Fin 3 → ℝ} {κ e' : ℝ} {a0 a1 a2 vr : RF R} (n0 : Near 14 κ a0 (E 0)) (n1 : Near 14 κ a1 (E 1))
    (n2 : Near 14 κ a2 (E 2)) (hvr : Near (13 / 2) (vlen c.v) vr c.vr)
    (he : |e' - vlen E| ≤ 50 * R.u * κ) (hE : 200 * R.u * κ ≤ vlen E) (hE0 : 0 < vlen E) {co : RF R}
    (hco : co = (V3.dot ⟨a0, a1, a2⟩ ⟨RF.num R c.x, RF.num R c.y, RF.num R c.z⟩) / (RF.num R e' * RF.num R (flNorm R c.x c.y c.z))) :
    ∃ θ, (if (vr <ᵇ 0) = true then twoPi - Np.arccos (if ((if (1 <ᵇ co) = true then 1 else co) <ᵇ -1) = true then -1 else if (1 <ᵇ co) = true then 1 else co)
        else Np.arccos (if ((if (1 <ᵇ co) = true then 1 else co) <ᵇ -1) = true then -1 else if (1 <ᵇ co) = true then 1 else co)) = RF.num R θ ∧
      AngleErr R θ (cosAngle E c.r) (400 * R.u * κ / vlen E) c.vr (9 * R.u * vlen c.v) := by
  have h0 := R.u_nonneg
  have b0 : |E 0| ≤ κ := by obtain ⟨_, _, _, h⟩ := n0; exact h
  have b1 : |E 1| ≤ κ := by obtain ⟨_, _, _, h⟩ := n1; exact h
  have b2 : |E 2| ≤ κ := by obtain ⟨_, _, _, h⟩ := n2; exact h
  have hκ : 0 ≤ κ := (abs_nonneg _).trans b0
  have hEκ : vlen E ≤ 2 * κ := vlen_le fun j => by fin_cases j <;> assumption
  have hrp := vlen_r_pos hr
  have hx := abs_le_vlen c.x c.y c.z
  obtain ⟨t, ht, hN⟩ := (flNorm_rel c.x c.y c.z : Rel (5 / 2) (RF.num R (flNorm R c.x c.y c.z)) (vlen c.r))
  have hN : flNorm R c.x c.y c.z = vlen c.r * Real.exp t := num_inj hN
  have hexp : |Real.exp t - 1| ≤ 10 / 3 * R.u := (exp_diff ht).trans ((exp_sub_one_le (by linarith) (by linarith)).trans (by linarith))
  set nn := flNorm R c.x c.y c.z with hnndef
  have hnn : |nn - vlen c.r| ≤ 10 / 3 * R.u * vlen c.r := by
    rw [hN, show vlen c.r * Real.exp t - vlen c.r = (Real.exp t - 1) * vlen c.r by ring, abs_mul, abs_of_pos hrp]
    exact mul_le_mul_of_nonneg_right hexp hrp.le
  have s1 := ((n0.mul ((Rel.num (R := R) c.x).near hx.1)).add (n1.mul ((Rel.num (R := R) c.y).near hx.2.1))).add
    ((n2.mul ((Rel.num (R := R) c.z).near hx.2.2)).mono (k := 14 + 0 + 1 + 1) (by norm_num) (by norm_num) le_rfl)
  obtain ⟨D', hD', hD⟩ := s1.abs_le (by norm_num) (by linarith)
  have hr' : vlen ![c.x, c.y, c.z] = vlen c.r := rfl
  have hDot : E ⬝ᵥ c.r = E 0 * c.x + E 1 * c.y + E 2 * c.z := by
    show E ⬝ᵥ ![c.x, c.y, c.z] = _
    simp [dotProduct, Fin.sum_univ_three]
  rw [← hDot, hr'] at hD
  obtain ⟨a1', a2'⟩ := abs_le.mp hnn
  obtain ⟨c1', c2'⟩ := abs_le.mp he
  have huκ : 0 ≤ R.u * κ := mul_nonneg h0 hκ
  have hur : R.u * vlen c.r ≤ 1 / 100 * vlen c.r := mul_le_mul_of_nonneg_right (by linarith) hrp.le
  have hnn1 : 96 / 100 * vlen c.r ≤ nn := by linarith
  have hnn2 : nn ≤ 104 / 100 * vlen c.r := by linarith
  have he1 : 75 / 100 * vlen E ≤ e' := by linarith
  have he2 : e' ≤ 5 / 4 * vlen E := by linarith
  have hnn0 : 0 < nn := by linarith
  have he0 : 0 < e' := by linarith
  have hp1 : 75 / 100 * vlen E * (96 / 100 * vlen c.r) ≤ e' * nn := mul_le_mul he1 hnn1 (by positivity) he0.le
  have hPP : 0 < vlen E * vlen c.r := mul_pos hE0 hrp
  have hrdP := rd_diff (R := R) (x := e' * nn) (by linarith)
  have hne0 : 0 < e' * nn := mul_pos he0 hnn0
  rw [abs_of_pos hne0] at hrdP
  obtain ⟨r1, r2⟩ := abs_le.mp hrdP
  have hP' : vlen E * vlen c.r / 2 ≤ R.rd (e' * nn) := by
    have : R.u * (e' * nn) ≤ 1 / 100 * (e' * nn) := mul_le_mul_of_nonneg_right (by linarith) hne0.le
    linarith
  have hκr : 0 ≤ R.u * (κ * vlen c.r) := mul_nonneg h0 (mul_nonneg hκ hrp.le)
  have u1 : e' * nn ≤ 5 / 2 * κ * (104 / 100 * vlen c.r) := mul_le_mul (by linarith) hnn2 hnn0.le (by positivity)
  have u2 : R.u * (e' * nn) ≤ R.u * (5 / 2 * κ * (104 / 100 * vlen c.r)) := mul_le_mul_of_nonneg_left u1 h0
  have u3 : |e' * nn - vlen E * vlen c.r| ≤ 60 * (R.u * (κ * vlen c.r)) := by
    rw [show e' * nn - vlen E * vlen c.r = (e' - vlen E) * nn + vlen E * (nn - vlen c.r) by ring]
    refine (abs_add_le _ _).trans ?_
    rw [abs_mul, abs_mul, abs_of_pos hnn0, abs_of_pos hE0]
    have v1 : |e' - vlen E| * nn ≤ 50 * R.u * κ * (104 / 100 * vlen c.r) := mul_le_mul he hnn2 hnn0.le (by positivity)
    have v2 : vlen E * |nn - vlen c.r| ≤ 2 * κ * (10 / 3 * R.u * vlen c.r) := mul_le_mul hEκ hnn (abs_nonneg _) (by linarith)
    linarith
  have u4 : |R.rd (e' * nn) - vlen E * vlen c.r| ≤ 64 * (R.u * (κ * vlen c.r)) := by
    have := abs_add_le (R.rd (e' * nn) - e' * nn) (e' * nn - vlen E * vlen c.r)
    rw [sub_add_sub_cancel] at this
    linarith
  obtain ⟨y, hy, y1, y2, y3⟩ := quot_out (R := R) (D' := D') (K := κ * vlen c.r) hu hPP hP' (abs_dot_le E c.r)
    (by linarith [mul_le_mul_of_nonneg_right hEκ hrp.le]) (by linarith)
  have hco' : co = RF.num R D' / RF.num R (R.rd (e' * nn)) := by
    rw [hco, mul_num, ← hD']
    simp only [V3.dot]
  rw [hco', hy]
  obtain ⟨s', hs', hs⟩ := hvr.abs_le (by norm_num) (by linarith)
  rw [hs', zero_num, lt_num]
  obtain ⟨θ, t1, t2, t3, t4, t5⟩ := angleErr_of (R := R) hu y1 y2 y3 hs
  have huv : 0 ≤ R.u * vlen c.v := mul_nonneg h0 (vlen_nonneg _)
  refine ⟨θ, t1, t2.trans ?_, fun h => t3 (by linarith), fun h => t4 (by linarith), t5⟩
  have hK : 1 / 2 ≤ κ / vlen E := by rw [le_div_iff₀ hE0]; linarith
  have hKu := mul_le_mul_of_nonneg_left hK h0
  have e1 : 338 * R.u * (κ * vlen c.r) / (vlen E * vlen c.r) = 338 * (R.u * (κ / vlen E)) := by field_simp
  have e2 : 400 * R.u * κ / vlen E = 400 * (R.u * (κ / vlen E)) := by ring
  rw [e1, e2]
  linarith

theorem col93 (hR : Nearest R) (g : CtkGarbage (RF R)) {mu : ℝ} (hmu : 0 < mu) {c : Cart ℝ} (hh : angMom c ≠ 0)
    (he : 3 / 10 ^ 9 ≤ vlen (eccVec mu c)) (heu : 200 * R.u * eccCond mu c ≤ vlen (eccVec mu c))
    (hi : 100 * R.u * (vlen c.r * vlen c.v) * vlen (angMom c) + 1 / 10 ^ 16 * vlen (angMom c) ^ 2 ≤ vlen (nodeVec c) ^ 2) :
    ∃ om OM nu, (cartToKepCol g .f64 (RF.num R mu) (c.num R)).om = RF.num R om ∧ (cartToKepCol g .f64 (RF.num R mu) (c.num R)).OM = RF.num R OM ∧
      (cartToKepCol g .f64 (RF.num R mu) (c.num R)).nu = RF.num R nu ∧
      AngleErr R OM (cosAngle ![1, 0, 0] (nodeVec c)) (60 * R.u * (vlen c.r * vlen c.v) / vlen (nodeVec c)) (angMom c 0) (3 * R.u * (vlen c.r * vlen c.v)) ∧
      AngleErr R om (cosAngle (nodeVec c) (eccVec mu c)) (400 * R.u * (eccCond mu c * (vlen c.r * vlen c.v)) / (vlen (nodeVec c) * vlen (eccVec mu c)))
        (eccVec mu c 2) (19 * R.u * eccCond mu c) ∧
      AngleErr R nu (cosAngle (eccVec mu c) c.r) (400 * R.u * eccCond mu c / vlen (eccVec mu c)) c.vr (9 * R.u * vlen c.v) := by
  have hu0 := R.u_nonneg
  have hus : 100 * R.u ≤ 1 := by have := hR.small; norm_num at this; linarith
  have hr := r_ne_of_angMom hh
  have hhn : 0 < vlen (angMom c) := by rw [vlen_angMom]; exact angMom_ne_zero hh
  have hRV : 0 ≤ vlen c.r * vlen c.v := mul_nonneg (vlen_nonneg _) (vlen_nonneg _)
  have hE0 : 0 < vlen (eccVec mu c) := lt_of_lt_of_le (by norm_num) he
  have hNh := vlen_nodeVec_le c
  have hN0 : 0 < vlen (nodeVec c) := by
    refine lt_of_le_of_ne (vlen_nonneg _) fun h0 => ?_
    rw [← h0] at hi
    have : 0 < vlen (angMom c) ^ 2 := by positivity
    have : 0 ≤ 100 * R.u * (vlen c.r * vlen c.v) * vlen (angMom c) := by positivity
    norm_num at hi
    linarith
  have hN : 100 * R.u * (vlen c.r * vlen c.v) ≤ vlen (nodeVec c) := by
    have h1 : vlen (nodeVec c) ^ 2 ≤ vlen (nodeVec c) * vlen (angMom c) := by rw [pow_two]; exact mul_le_mul_of_nonneg_left hNh hN0.le
    have h2 : 0 ≤ 1 / 10 ^ 16 * vlen (angMom c) ^ 2 := by positivity
    exact le_of_mul_le_mul_right (by linarith) hhn
  -- eccentricity and inclination
  obtain ⟨e', he1, he2⟩ := col88_e (R := R) hmu hr hus g
  rw [← vlen_eccVec hmu (angMom_ne_zero hh)] at he2
  obtain ⟨i, hi1, hi2⟩ := col88_i hR (mu := mu) (hN.trans hNh) hh g
  obtain ⟨i', hi3, hi4, hi5⟩ := (col87 hR g hmu.ne' (pos_cases hr)).i (flAngMom_ne (by linarith) (by
    have := hN.trans hNh
    linarith))
  rw [hi1] at hi3
  have hi3 := num_inj hi3
  subst hi3
  have hcosi : |Real.cos i| ≤ 1 - 5 / 10 ^ 17 := by
    have h1 : Real.cos (inclination c) = angMom c 2 / vlen (angMom c) := by
      have h1 : |angMom c 2| ≤ vlen (angMom c) := by
        rw [angMom_eq]
        exact (abs_le_vlen _ _ _).2.2
      obtain ⟨a, b⟩ := abs_le.mp h1
      rw [inclination, Real.cos_arccos]
      · rw [le_div_iff₀ hhn]; linarith
      · rw [div_le_iff₀ hhn]; linarith
    have h2 : vlen (angMom c) ^ 2 = vlen (nodeVec c) ^ 2 + angMom c 2 ^ 2 := by
      rw [vlen_nodeVec_sq, vlen_sq']
      simp only [dotProduct, Fin.sum_univ_three]
      ring
    set X := Real.cos (inclination c) with hX
    have h3 : X ^ 2 = 1 - (vlen (nodeVec c) / vlen (angMom c)) ^ 2 := by
      rw [h1, div_pow, div_pow]
      field_simp
      linarith
    have h4 : 100 * (R.u * (vlen c.r * vlen c.v / vlen (angMom c))) + 1 / 10 ^ 16 ≤ (vlen (nodeVec c) / vlen (angMom c)) ^ 2 := by
      rw [div_pow, le_div_iff₀ (by positivity)]
      have : (100 * (R.u * (vlen c.r * vlen c.v / vlen (angMom c))) + 1 / 10 ^ 16) * vlen (angMom c) ^ 2 =
        100 * R.u * (vlen c.r * vlen c.v) * vlen (angMom c) + 1 / 10 ^ 16 * vlen (angMom c) ^ 2 := by field_simp
      linarith
    have h5 : |X| ≤ 1 - (50 * (R.u * (vlen c.r * vlen c.v / vlen (angMom c))) + 5 / 10 ^ 17) := by
      have h6 := sq_abs X
      norm_num at h4 ⊢
      nlinarith [sq_nonneg (1 - |X|)]
    have h7 : 0 ≤ R.u * (vlen c.r * vlen c.v / vlen (angMom c)) := by positivity
    have h8 := abs_add_le (Real.cos i - X) X
    rw [sub_add_cancel] at h8
    linarith
  have hinside := incl_inside hR hi4 hi5 hcosi (by norm_num)
  -- the vectors
  have hvr := vr_near (R := R) hr
  have hx := abs_le_vlen c.x c.y c.z
  have hv := abs_le_vlen c.vx c.vy c.vz
  have n0 := ev_near (R := R) hmu hr hvr hx.1 hv.1
  have n1 := ev_near (R := R) hmu hr hvr hx.2.1 hv.2.1
  have n2 := ev_near (R := R) hmu hr hvr hx.2.2 hv.2.2
  have hEE := eccVec_eq hmu (angMom_ne_zero hh)
  have hpo := peri_out (R := R) (c := c) (E := eccVec mu c) (e' := e') hus (by rw [hEE]; exact n0) (by rw [hEE]; exact n1) (by rw [hEE]; exact n2) he2 heu hE0 hN hN0 rfl
  have hao := anom_out (R := R) (c := c) (E := eccVec mu c) (e' := e') hus hr (by rw [hEE]; exact n0) (by rw [hEE]; exact n1) (by rw [hEE]; exact n2) hvr he2 heu hE0 rfl
  have hno := node_out hR hus hN hN0
  clear n0 n1 n2 hvr
  revert he1 hi1
  unfold cartToKepCol
  extract_lets ez r v rn vn vr epsilon ev o1 e_hyp o0 o0' h hn o2 eg ig el il eg_ig eg_il el_ig el_il n1 nn1 n nn ny_neg o41 o42 o43 o4 o31 o32
    co1 co2 co3 co4 co5 o33 ez_neg o34 ey1 ey2 o35 ey3 ey4 o36 cn1 cn2 cn3 cn4 cn5 cn6 o51 t1 o52 t2 o53 t3 t4 o54 t5 t6 o55
  intro he1 hi1
  replace he1 : o1 = RF.num R e' := he1
  replace hi1 : o2 = RF.num R i := hi1
  have hrn : rn = RF.num R (flNorm R c.x c.y c.z) := norm_num3 _ _ _
  have hvn : vn = RF.num R (flNorm R c.vx c.vy c.vz) := norm_num3 _ _ _
  clear_value rn vn
  subst hrn hvn
  have hh3 : h = ⟨RF.num R (flAngMom R c 0), RF.num R (flAngMom R c 1), RF.num R (flAngMom R c 2)⟩ := rfl
  clear_value h
  subst hh3
  have d0 : Digits53 (flAngMom R c 0) := hR.digits _
  have d1 : Digits53 (flAngMom R c 1) := hR.digits _
  have hig : ig = true := by
    show ((i_lim <ᵇ o2) && (o2 <ᵇ Np.pi - i_lim)) = true
    rw [hi1]; exact hinside
  have heg : eg = true := by
    show (e_lim <ᵇ o1) = true
    have h3 : (e_lim : RF R) = RF.num R (R.rd ((1 / 1000000000 : ℚ) : ℝ)) := rfl
    rw [he1, h3, lt_num, decide_eq_true_eq]
    have h1 := rd_le hR (x := ((1 / 1000000000 : ℚ) : ℝ)) (by norm_num)
    have h2 := (abs_le.mp he2).1
    norm_num at h1 he
    linarith
  clear_value o1 o2 ig eg
  subst hig heg he1
  have hn3 : n = ⟨RF.num R (-flAngMom R c 1), RF.num R (flAngMom R c 0), RF.num R 0⟩ := by
    show (if true = true then V3.store DType.f64 (ez.cross ⟨RF.num R (flAngMom R c 0), RF.num R (flAngMom R c 1), RF.num R (flAngMom R c 2)⟩) else n1) = _
    rw [if_pos rfl]
    show (⟨(0 : RF R) * _ - 1 * _, 1 * _ - 0 * _, 0 * _ - 0 * _⟩ : V3 (RF R)) = _
    simp only [zero_num, one_num, mul_num, sub_num, zero_mul, one_mul, rd_zero, zero_sub, sub_zero]
    rw [hR.id d0, hR.id d1, hR.id d0, hR.id d1.neg]
  have hnn : nn = RF.num R (flNorm R (-flAngMom R c 1) (flAngMom R c 0) 0) := by
    show n.norm = _
    rw [hn3]
    exact norm_num3 _ _ _
  clear_value n nn
  subst hn3 hnn
  have z1 : ey2 = false := by show (((_ <ᵇ _) && false) && _) = false; simp
  have z2 : ey4 = false := by show (((_ <ᵇ _) && false) && _) = false; simp
  have z3 : t2 = false := by show ((_ <ᵇ _) && false) = false; simp
  have z4 : t4 = false := by show (((_ <ᵇ _) && false) && _) = false; simp
  have z5 : t6 = false := by show (((_ <ᵇ _) && false) && _) = false; simp
  obtain ⟨OM, hOM, hOM'⟩ := hno
  obtain ⟨om, hom, hom'⟩ := hpo
  obtain ⟨nu, hnu, hnu'⟩ := hao
  refine ⟨om, OM, nu, ?_, ?_, ?_, hOM', hom', hnu'⟩
  · show (if ey4 = true then _ else if ey2 = true then _ else o34) = _
    rw [z1, z2, if_neg Bool.false_ne_true, if_neg Bool.false_ne_true, ← hom]
    have z6 : ez_neg = (ev.z <ᵇ 0) := by show ((_ <ᵇ _) && true) = _; rw [Bool.and_true]
    show (if ez_neg = true then _ else _) = _
    rw [z6]
    rfl
  · show o43 = _
    rw [← hOM]
    have z6 : ny_neg = decide (flAngMom R c 0 < 0) := by
      show ((RF.num R (flAngMom R c 0) <ᵇ 0) && true) = _
      rw [Bool.and_true, zero_num, lt_num]
    show (if ny_neg = true then _ else _) = _
    rw [z6]
    rfl
  · show (if t6 = true then _ else if t4 = true then _ else if t2 = true then _ else o52) = _
    rw [z3, z4, z5, if_neg Bool.false_ne_true, if_neg Bool.false_ne_true, if_neg Bool.false_ne_true, ← hnu]
    have z6 : t1 = (vr <ᵇ 0) := by show ((_ <ᵇ _) && true) = _; rw [Bool.and_true]
    show (if t1 = true then _ else _) = _
    rw [z6]
    rfl

/-! ## C93 -/

theorem sin_near_pi {θ ε : ℝ} (h0 : -ε ≤ θ) (h1 : θ ≤ Real.pi + ε) (he : 0 ≤ ε) : -ε ≤ Real.sin θ := by
  rcases le_or_gt θ Real.pi with h | h
  · rcases le_or_gt 0 θ with h2 | h2
    · linarith [Real.sin_nonneg_of_nonneg_of_le_pi h2 h]
    · have h3 := Real.sin_le (x := -θ) (by linarith)
      rw [Real.sin_neg] at h3
      linarith
  · have h2 := Real.sin_le (x := θ - Real.pi) (by linarith)
    rw [Real.sin_sub_pi] at h2
    linarith

/-- with the sign known, the sine of the returned angle is known too: the direction is right, not only its cosine -/
theorem AngleErr.sin {θ X δ s τ S : ℝ} (h : AngleErr R θ X δ s τ) (hXS : X ^ 2 + S ^ 2 = 1) (hs : (0 < S ∧ τ < s) ∨ (S < 0 ∧ s < -τ)) :
    |Real.sin θ - S| ≤ (2 * δ + (31 * R.u) ^ 2) / |S| + 31 * R.u := by
  have hu := R.u_nonneg
  have hX : |X| ≤ 1 := by rw [← sq_le_one_iff_abs_le_one]; nlinarith [sq_nonneg S]
  have hd : |Real.cos θ ^ 2 - X ^ 2| ≤ 2 * δ := by
    rw [sq_sub_sq, abs_mul, mul_comm]
    have h1 : |Real.cos θ + X| ≤ 2 := (abs_add_le _ _).trans (by linarith [Real.abs_cos_le_one θ])
    calc |Real.cos θ - X| * |Real.cos θ + X| ≤ δ * 2 := mul_le_mul h.cos h1 (abs_nonneg _) ((abs_nonneg _).trans h.cos)
      _ = 2 * δ := by ring
  have hsc := Real.sin_sq_add_cos_sq θ
  obtain ⟨d1, d2⟩ := abs_le.mp hd
  -- the case of the upper half plane
  have key (σ T : ℝ) (hT : 0 < T) (hσ : -(31 * R.u) ≤ σ) (h1 : σ ^ 2 - T ^ 2 ≤ 2 * δ) (h2 : -(2 * δ) ≤ σ ^ 2 - T ^ 2) : |σ - T| ≤ (2 * δ + (31 * R.u) ^ 2) / T + 31 * R.u := by
    have hq : 0 ≤ (31 * R.u) ^ 2 := sq_nonneg _
    have hδ : 0 ≤ 2 * δ := by linarith
    have e1 : ((2 * δ + (31 * R.u) ^ 2) / T + 31 * R.u) * T = 2 * δ + (31 * R.u) ^ 2 + 31 * R.u * T := by field_simp
    refine le_of_mul_le_mul_right ?_ hT
    rw [e1]
    have hUT : 0 ≤ 31 * R.u * T := by positivity
    rcases le_or_gt 0 σ with h0 | h0
    · have h3 : |σ - T| * T ≤ |σ - T| * (σ + T) := mul_le_mul_of_nonneg_left (by linarith) (abs_nonneg _)
      have h4 : |σ - T| * (σ + T) = |σ ^ 2 - T ^ 2| := by rw [sq_sub_sq, abs_mul, abs_of_pos (by linarith : 0 < σ + T)]; ring
      have h5 : |σ ^ 2 - T ^ 2| ≤ 2 * δ := abs_le.mpr ⟨h2, h1⟩
      linarith
    · have h3 : σ ^ 2 ≤ (31 * R.u) ^ 2 := sq_le_sq' hσ (by linarith)
      rw [abs_of_neg (by linarith), neg_sub]
      have h4 : (T - σ) * T ≤ T ^ 2 + 31 * R.u * T := by nlinarith
      linarith
  rcases hs with ⟨hS, hs⟩ | ⟨hS, hs⟩
  · obtain ⟨a, b⟩ := h.upper hs
    rw [abs_of_pos hS]
    exact key _ _ hS (sin_near_pi (by linarith) b (by linarith)) (by linarith) (by linarith)
  · obtain ⟨a, b⟩ := h.lower hs
    have h1 := sin_near_pi (θ := 2 * Real.pi - θ) (ε := 31 * R.u) (by linarith) (by linarith) (by linarith)
    rw [Real.sin_two_pi_sub] at h1
    have h2 := key (-Real.sin θ) (-S) (by linarith) h1 (by rw [neg_sq, neg_sq]; linarith) (by rw [neg_sq, neg_sq]; linarith)
    rw [abs_of_neg hS, abs_sub_comm]
    rwa [neg_sub_neg] at h2

theorem AngleErr.mono {θ X δ δ' s s' τ τ' : ℝ} (h : AngleErr R θ X δ s τ) (h1 : δ ≤ δ') (h2 : τ' < s' → τ < s) (h3 : s' < -τ' → s < -τ) : AngleErr R θ X δ' s' τ' :=
  ⟨h.cos.trans h1, fun t => h.upper (h2 t), fun t => h.lower (h3 t), h.range⟩

theorem vr_dot {c : Cart ℝ} (hr : c.r ≠ 0) : c.vr * vlen c.r = c.r ⬝ᵥ c.v := by
  have hrp := vlen_r_pos hr
  show (c.x / c.rn * c.vx + c.y / c.rn * c.vy + c.z / c.rn * c.vz) * vlen c.r = ![c.x, c.y, c.z] ⬝ᵥ ![c.vx, c.vy, c.vz]
  rw [← vlen_r]
  simp only [dotProduct, Fin.sum_univ_three]
  field_simp
  simp
  try ring

/-- C93: with rounding to nearest, on orbits whose eccentricity is at least 3e-9 and above 200 times its rounding error, and whose inclination satisfies
`sin² i ≥ 1e-16 + 100 u / sin (r, v)`: the cosines of the node, the argument of periapsis and the true anomaly have errors of at most
`60 u |r||v| / |n|`, `400 u κ |r||v| / (|n| e)` and `400 u κ / e`, `κ = 1 + 2 r v² / mu`, and each angle is put into the right half plane as soon as the quantity that decides
it (`h_x`, `e_z`, `r · v`) exceeds its rounding error. -/
theorem c93 (hR : Nearest R) (g : Nat → CtkGarbage (RF R)) {mu : ℝ} (hmu : 0 < mu) {c : Cart ℝ} (hh : angMom c ≠ 0)
    (he : 3 / 10 ^ 9 ≤ vlen (eccVec mu c)) (heu : 200 * R.u * (1 + 2 * vlen c.r * vlen c.v ^ 2 / mu) ≤ vlen (eccVec mu c))
    (hi : 100 * R.u * (vlen c.r * vlen c.v) * vlen (angMom c) + 1 / 10 ^ 16 * vlen (angMom c) ^ 2 ≤ vlen (nodeVec c) ^ 2) :
    ∃ (k : Kep (RF R)) (om OM nu : ℝ), (cart_to_kep g (.sc (RF.num R mu)) false (.vec .f64 (c.num R))).1 = .ok (.vec .f64 k) ∧
      k.om = RF.num R om ∧ k.OM = RF.num R OM ∧ k.nu = RF.num R nu ∧
      AngleErr R OM (cosAngle ![1, 0, 0] (nodeVec c)) (60 * R.u * (vlen c.r * vlen c.v) / vlen (nodeVec c)) (angMom c 0) (3 * R.u * (vlen c.r * vlen c.v)) ∧
      AngleErr R om (cosAngle (nodeVec c) (eccVec mu c))
        (400 * R.u * ((1 + 2 * vlen c.r * vlen c.v ^ 2 / mu) * (vlen c.r * vlen c.v)) / (vlen (nodeVec c) * vlen (eccVec mu c)))
        (eccVec mu c 2) (19 * R.u * (1 + 2 * vlen c.r * vlen c.v ^ 2 / mu)) ∧
      AngleErr R nu (cosAngle (eccVec mu c) c.r) (400 * R.u * (1 + 2 * vlen c.r * vlen c.v ^ 2 / mu) / vlen (eccVec mu c)) (c.r ⬝ᵥ c.v) (9 * R.u * (vlen c.r * vlen c.v)) := by
  obtain ⟨om, OM, nu, h1, h2, h3, h4, h5, h6⟩ := col93 hR (g 0) hmu hh he heu hi
  have hr := r_ne_of_angMom hh
  have hrp := vlen_r_pos hr
  refine ⟨_, om, OM, nu, rfl, h1, h2, h3, h4, h5, h6.mono le_rfl (fun h => ?_) fun h => ?_⟩
  · rw [← vr_dot hr] at h
    exact lt_of_mul_lt_mul_right (by linarith) hrp.le
  · rw [← vr_dot hr] at h
    exact lt_of_mul_lt_mul_right (by linarith) hrp.le

/-- C93 for bound states in double precision: with an eccentricity of at least 3e-9 and `sin² i ≥ 1e-16 + 1.2e-14 / sin (r, v)`, the errors of the three cosines are at most
7e-15 |r||v| / |n|, 2.3e-13 |r||v| / (|n| e) and 2.3e-13 / e. -/
theorem c93_binary64 (g : Nat → CtkGarbage (RF Binary.binary64)) {mu : ℝ} (hmu : 0 < mu) {c : Cart ℝ} (hh : angMom c ≠ 0) (hE : energy mu c < 0)
    (he : 3 / 10 ^ 9 ≤ vlen (eccVec mu c)) (hi : 1.2 / 10 ^ 14 * (vlen c.r * vlen c.v) * vlen (angMom c) + 1 / 10 ^ 16 * vlen (angMom c) ^ 2 ≤ vlen (nodeVec c) ^ 2) :
    ∃ (k : Kep (RF Binary.binary64)) (om OM nu : ℝ), (cart_to_kep g (.sc (RF.num _ mu)) false (.vec .f64 (c.num _))).1 = .ok (.vec .f64 k) ∧
      k.om = RF.num _ om ∧ k.OM = RF.num _ OM ∧ k.nu = RF.num _ nu ∧
      AngleErr Binary.binary64 OM (cosAngle ![1, 0, 0] (nodeVec c)) (7 / 10 ^ 15 * (vlen c.r * vlen c.v) / vlen (nodeVec c)) (angMom c 0) (4 / 10 ^ 16 * (vlen c.r * vlen c.v)) ∧
      AngleErr Binary.binary64 om (cosAngle (nodeVec c) (eccVec mu c)) (2.3 / 10 ^ 13 * (vlen c.r * vlen c.v) / (vlen (nodeVec c) * vlen (eccVec mu c))) (eccVec mu c 2) (1.1 / 10 ^ 14) ∧
      AngleErr Binary.binary64 nu (cosAngle (eccVec mu c) c.r) (2.3 / 10 ^ 13 / vlen (eccVec mu c)) (c.r ⬝ᵥ c.v) (1.1 / 10 ^ 15 * (vlen c.r * vlen c.v)) := by
  have hu : Binary.binary64.u = (1 / 2) ^ 53 := rfl
  have hu0 := Binary.binary64.u_nonneg
  have hu1 : Binary.binary64.u ≤ 1.112 / 10 ^ 16 := by rw [hu]; norm_num
  have hrp := vlen_r_pos (r_ne_of_angMom hh)
  have hrv0 : 0 ≤ vlen c.r * vlen c.v := mul_nonneg (vlen_nonneg _) (vlen_nonneg _)
  have hrv : vlen c.r * vlen c.v ^ 2 < 2 * mu := by
    rw [energy, ← vlen_sq'] at hE
    have : vlen c.v ^ 2 / 2 < mu / vlen c.r := by linarith
    rw [lt_div_iff₀ hrp] at this
    linarith
  have hk : 1 + 2 * vlen c.r * vlen c.v ^ 2 / mu ≤ 5 := by
    have : 2 * vlen c.r * vlen c.v ^ 2 / mu ≤ 4 := by rw [div_le_iff₀ hmu]; linarith
    linarith
  have hk0 : 0 ≤ 1 + 2 * vlen c.r * vlen c.v ^ 2 / mu := by positivity
  have hku : Binary.binary64.u * (1 + 2 * vlen c.r * vlen c.v ^ 2 / mu) ≤ 1.112 / 10 ^ 16 * 5 := mul_le_mul hu1 hk hk0 (by norm_num)
  have hrvu : Binary.binary64.u * (vlen c.r * vlen c.v) ≤ 1.112 / 10 ^ 16 * (vlen c.r * vlen c.v) := mul_le_mul_of_nonneg_right hu1 hrv0
  have hN := vlen_nonneg (nodeVec c)
  have hE0 := vlen_nonneg (eccVec mu c)
  obtain ⟨k, om, OM, nu, h1, h2, h3, h4, h5, h6, h7⟩ := c93 Binary.nearest g hmu hh he (by norm_num at hku he ⊢; linarith) (by
    refine le_trans (add_le_add ?_ le_rfl) hi
    refine mul_le_mul_of_nonneg_right ?_ (vlen_nonneg _)
    norm_num at hrvu ⊢
    linarith)
  refine ⟨k, om, OM, nu, h1, h2, h3, h4, h5.mono (div_le_div_of_nonneg_right ?_ hN) (fun h => lt_of_le_of_lt ?_ h) (fun h => lt_of_lt_of_le h ?_),
    h6.mono (div_le_div_of_nonneg_right ?_ (mul_nonneg hN hE0)) (fun h => lt_of_le_of_lt ?_ h) (fun h => lt_of_lt_of_le h ?_),
    h7.mono (div_le_div_of_nonneg_right ?_ hE0) (fun h => lt_of_le_of_lt ?_ h) (fun h => lt_of_lt_of_le h ?_)⟩
  · norm_num at hrvu ⊢; linarith
  · norm_num at hrvu ⊢; linarith
  · norm_num at hrvu ⊢; linarith
  · have := mul_le_mul_of_nonneg_right hku hrv0
    norm_num at this ⊢; linarith
  · norm_num at hku ⊢; linarith
  · norm_num at hku ⊢; linarith
  · norm_num at hku ⊢; linarith
  · norm_num at hrvu ⊢; linarith
  · norm_num at hrvu ⊢; linarith

/-- a case of `c93_binary64`: a bound state with `|r × v| = 3`, `|n|² = 5` and `e² = 5/9` around a centre with mu = 9 -/
example : angMom ⟨2, 1, 2, 0, 1, 1⟩ = ![-1, -2, 2] ∧ energy 9 ⟨2, 1, 2, 0, 1, 1⟩ = -2 ∧ eccVec 9 ⟨2, 1, 2, 0, 1, 1⟩ = ![-2 / 9, -4 / 9, -5 / 9] ∧
    (3 / 10 ^ 9 : ℝ) ≤ vlen (eccVec 9 ⟨2, 1, 2, 0, 1, 1⟩) ∧
    1.2 / 10 ^ 14 * (vlen (⟨2, 1, 2, 0, 1, 1⟩ : Cart ℝ).r * vlen (⟨2, 1, 2, 0, 1, 1⟩ : Cart ℝ).v) * vlen (angMom ⟨2, 1, 2, 0, 1, 1⟩) +
      1 / 10 ^ 16 * vlen (angMom ⟨2, 1, 2, 0, 1, 1⟩) ^ 2 ≤ vlen (nodeVec ⟨2, 1, 2, 0, 1, 1⟩) ^ 2 := by
  have h1 : angMom ⟨2, 1, 2, 0, 1, 1⟩ = ![-1, -2, 2] := by
    rw [angMom_eq]; funext j; fin_cases j <;> simp [Cart.hx, Cart.hy, Cart.hz] <;> norm_num
  have hr : vlen (⟨2, 1, 2, 0, 1, 1⟩ : Cart ℝ).r = 3 := by
    show vlen ![2, 1, 2] = 3
    rw [vlen_vec, show (2 : ℝ) * 2 + 1 * 1 + 2 * 2 = 3 ^ 2 by norm_num, Real.sqrt_sq (by norm_num)]
  have hv : vlen (⟨2, 1, 2, 0, 1, 1⟩ : Cart ℝ).v ^ 2 = 2 := by
    rw [vlen_sq']
    show ![(0 : ℝ), 1, 1] ⬝ᵥ ![0, 1, 1] = 2
    simp [dotProduct, Fin.sum_univ_three]; norm_num
  have hv2 : vlen (⟨2, 1, 2, 0, 1, 1⟩ : Cart ℝ).v ≤ 2 := by nlinarith [vlen_nonneg (⟨2, 1, 2, 0, 1, 1⟩ : Cart ℝ).v]
  have hh : vlen (angMom ⟨2, 1, 2, 0, 1, 1⟩) = 3 := by
    rw [h1, vlen_vec, show (-1 : ℝ) * -1 + -2 * -2 + 2 * 2 = 3 ^ 2 by norm_num, Real.sqrt_sq (by norm_num)]
  have he : eccVec 9 ⟨2, 1, 2, 0, 1, 1⟩ = ![-2 / 9, -4 / 9, -5 / 9] := by
    unfold eccVec
    rw [h1, hr]
    show (1 / 9 : ℝ) • (![0, 1, 1] ⨯₃ ![-1, -2, 2]) - (1 / 3 : ℝ) • ![2, 1, 2] = _
    rw [cross_apply]
    funext j; fin_cases j <;> simp <;> norm_num
  refine ⟨h1, ?_, he, ?_, ?_⟩
  · unfold energy
    rw [← vlen_sq', hv, hr]; norm_num
  · rw [he]
    refine le_trans ?_ (comp_le_vlen _ 0)
    simp; norm_num
  · rw [hr, hh, vlen_nodeVec_sq, h1]
    simp
    norm_num
    linarith

end Pyorb
