import Verif.PropsRoundAngle

/-!
# What `cart_to_kep` computes with rounding on nearly circular and on equatorial orbits

The branches of `cart_to_kep` that C93 leaves out: `e <= e_lim` (kepler.py 433-436, 455, 505, 511, 525-537) and `i <= i_lim` (kepler.py 430, 436, 451, 469, 486-493).
-/

set_option linter.unusedVariables false

namespace Pyorb
open FX RF Matrix
variable {R : Rounding}

/-- from a computed cosine and a decision for one half plane -/
theorem angleErr_flip (hu : 100 * R.u ≤ 1) {y X δ s τ : ℝ} (h1 : -1 ≤ y) (h2 : y ≤ 1) (hy : |y - X| ≤ δ) (b : Bool) (hb : τ < s → b = false) (hb' : s < -τ → b = true) :
    ∃ θ, (if b = true then twoPi - Np.arccos (RF.num R y) else Np.arccos (RF.num R y)) = RF.num R θ ∧ AngleErr R θ X (δ + 31 * R.u) s τ := by
  obtain ⟨θ, e, c, u, l⟩ := angle_out (R := R) hu h1 h2 b
  refine ⟨θ, e, ?_, fun h => u (hb h), fun h => l (hb' h), ?_⟩
  · have := abs_add_le (Real.cos θ - y) (y - X)
    rw [sub_add_sub_cancel] at this
    linarith
  · have hp := Real.pi_gt_three
    have hu0 := R.u_nonneg
    cases b
    · obtain ⟨v1, v2⟩ := u rfl
      exact ⟨v1, by linarith⟩
    · obtain ⟨v1, v2⟩ := l rfl
      exact ⟨by linarith, v2⟩

/-- the clipped cosine of an angle and the choice of the half plane -/
theorem clip_flip (hu : 100 * R.u ≤ 1) {x X δ s τ : ℝ} (hX : |X| ≤ 1) (hx : |x - X| ≤ δ) (b : Bool) (hb : τ < s → b = false) (hb' : s < -τ → b = true) {co : RF R} (hco : co = RF.num R x) :
    ∃ θ, (if b = true then twoPi - Np.arccos (if ((if (1 <ᵇ co) = true then 1 else co) <ᵇ -1) = true then -1 else if (1 <ᵇ co) = true then 1 else co)
        else Np.arccos (if ((if (1 <ᵇ co) = true then 1 else co) <ᵇ -1) = true then -1 else if (1 <ᵇ co) = true then 1 else co)) = RF.num R θ ∧
      AngleErr R θ X (δ + 31 * R.u) s τ := by
  obtain ⟨y, hy, y1, y2, y3⟩ := clip_near (R := R) hX hx
  rw [hco, hy]
  exact angleErr_flip hu y1 y2 y3 b hb hb'

/-- a quotient by a computed length -/
theorem near_quot (hu : 100 * R.u ≤ 1) {D D' P P' K : ℝ} (hP : 0 < P) (hP' : P / 2 ≤ P') (hD : |D| ≤ P) (hPK : P ≤ K) (h : |D' - D| + |P' - P| ≤ 12 * R.u * K) :
    Near (26 * (K / P)) 1 (RF.num R D' / RF.num R P') (D / P) := by
  have h0 := R.u_nonneg
  have hK1 : 1 ≤ K / P := by rw [le_div_iff₀ hP]; linarith
  have hX : |D / P| ≤ 1 := by rw [abs_div, abs_of_pos hP, div_le_one hP]; exact hD
  rw [div_num _ (by linarith : (0 : ℝ) < P').ne']
  refine ⟨_, rfl, ?_, hX⟩
  have t1 : |D' / P' - D / P| ≤ 24 * (R.u * (K / P)) := by
    refine (quot_diff hP hP' hD).trans ?_
    rw [div_le_iff₀ hP]
    have : 24 * (R.u * (K / P)) * P = 24 * R.u * K := by field_simp
    linarith
  have hKu : R.u * 1 ≤ R.u * (K / P) := mul_le_mul_of_nonneg_left hK1 h0
  have t2 : |D' / P'| ≤ 1 + 24 * (R.u * (K / P)) := by
    have := abs_add_le (D' / P' - D / P) (D / P)
    rw [sub_add_cancel] at this
    linarith
  have t3 := rd_diff (R := R) (x := D' / P') (by linarith)
  have t4 : R.u * |D' / P'| ≤ R.u * (1 + 24 * (R.u * (K / P))) := mul_le_mul_of_nonneg_left t2 h0
  have t5 : R.u * (R.u * (K / P)) ≤ 1 / 100 * (R.u * (K / P)) := mul_le_mul_of_nonneg_right (by linarith) (by linarith)
  have t6 := abs_add_le (R.rd (D' / P') - D' / P') (D' / P' - D / P)
  rw [sub_add_sub_cancel] at t6
  have e1 := Real.add_one_le_exp (26 * (K / P) * R.u)
  linarith

/-- the computed length of the position -/
theorem flPos_err (hu : 100 * R.u ≤ 1) (c : Cart ℝ) : |flNorm R c.x c.y c.z - vlen c.r| ≤ 10 / 3 * R.u * vlen c.r := by
  have h0 := R.u_nonneg
  obtain ⟨t, ht, hN⟩ := (flNorm_rel c.x c.y c.z : Rel (5 / 2) (RF.num R (flNorm R c.x c.y c.z)) (vlen c.r))
  have hN : flNorm R c.x c.y c.z = vlen c.r * Real.exp t := num_inj hN
  have hexp : |Real.exp t - 1| ≤ 10 / 3 * R.u := (exp_diff ht).trans ((exp_sub_one_le (by linarith) (by linarith)).trans (by linarith))
  rw [hN, show vlen c.r * Real.exp t - vlen c.r = (Real.exp t - 1) * vlen c.r by ring, abs_mul, abs_of_nonneg (vlen_nonneg _)]
  exact mul_le_mul_of_nonneg_right hexp (vlen_nonneg _)

/-- the components of the direction of the position -/
theorem dir_near (hu : 100 * R.u ≤ 1) {c : Cart ℝ} (hr : c.r ≠ 0) {x : ℝ} (hx : |x| ≤ vlen c.r) :
    Near 26 1 (RF.num R x / RF.num R (flNorm R c.x c.y c.z)) (x / vlen c.r) := by
  have h0 := R.u_nonneg
  have hrp := vlen_r_pos hr
  have hn := flPos_err (R := R) hu c
  have hur : R.u * vlen c.r ≤ 1 / 100 * vlen c.r := mul_le_mul_of_nonneg_right (by linarith) hrp.le
  have hur0 : 0 ≤ R.u * vlen c.r := mul_nonneg h0 hrp.le
  have := near_quot (R := R) (D := x) (D' := x) (P' := flNorm R c.x c.y c.z) (K := vlen c.r) hu hrp (by linarith [(abs_le.mp hn).1]) hx le_rfl
    (by rw [sub_self, abs_zero]; linarith)
  rwa [div_self hrp.ne', mul_one] at this

/-- the argument of latitude on a circular orbit (kepler.py 505, 514-517, 525-526) -/
theorem lat_out (hu : 100 * R.u ≤ 1) {c : Cart ℝ} (hr : c.r ≠ 0) (hN : 300 * R.u * (vlen c.r * vlen c.v) ≤ vlen (nodeVec c)) (hN0 : 0 < vlen (nodeVec c)) {co : RF R}
    (hco : co = V3.dot (V3.sdiv ⟨RF.num R (-flAngMom R c 1), RF.num R (flAngMom R c 0), RF.num R 0⟩ (RF.num R (flNorm R (-flAngMom R c 1) (flAngMom R c 0) 0)))
      (V3.sdiv ⟨RF.num R c.x, RF.num R c.y, RF.num R c.z⟩ (RF.num R (flNorm R c.x c.y c.z)))) :
    ∃ θ, (if decide (c.z < 0) = true then twoPi - Np.arccos (if ((if (1 <ᵇ co) = true then 1 else co) <ᵇ -1) = true then -1 else if (1 <ᵇ co) = true then 1 else co)
        else Np.arccos (if ((if (1 <ᵇ co) = true then 1 else co) <ᵇ -1) = true then -1 else if (1 <ᵇ co) = true then 1 else co)) = RF.num R θ ∧
      AngleErr R θ (cosAngle (nodeVec c) c.r) (300 * R.u * (vlen c.r * vlen c.v) / vlen (nodeVec c)) c.z 0 := by
  have h0 := R.u_nonneg
  have hRV : 0 ≤ vlen c.r * vlen c.v := mul_nonneg (vlen_nonneg _) (vlen_nonneg _)
  have hle := (vlen_nodeVec_le c).trans (vlen_angMom_le c)
  have hnn := flNode_err (R := R) hu c
  have hrp := vlen_r_pos hr
  set nn := flNorm R (-flAngMom R c 1) (flAngMom R c 0) 0 with hnndef
  obtain ⟨a1, a2⟩ := abs_le.mp hnn
  have hcmp := abs_le_vlen (-angMom c 1) (angMom c 0) 0
  rw [← nodeVec_eq] at hcmp
  have e1 := flAngMom_err (R := R) hu c 1
  have e0 := flAngMom_err (R := R) hu c 0
  have huRV := mul_nonneg h0 hRV
  have p0 := near_quot (R := R) (D := -angMom c 1) (D' := -flAngMom R c 1) (P' := nn) (K := vlen c.r * vlen c.v) hu hN0 (by linarith) hcmp.1 hle
    (by rw [neg_sub_neg, abs_sub_comm]; linarith)
  have p1 := near_quot (R := R) (D := angMom c 0) (D' := flAngMom R c 0) (P' := nn) (K := vlen c.r * vlen c.v) hu hN0 (by linarith) hcmp.2.1 hle (by linarith)
  have p2 := near_quot (R := R) (D := 0) (D' := 0) (P' := nn) (K := vlen c.r * vlen c.v) hu hN0 (by linarith) (by rw [abs_zero]; exact hN0.le) hle (by rw [sub_self, abs_zero]; linarith)
  have hx := abs_le_vlen c.x c.y c.z
  have q0 := dir_near (R := R) hu hr hx.1
  have q1 := dir_near (R := R) hu hr hx.2.1
  have q2 := dir_near (R := R) hu hr hx.2.2
  obtain ⟨ρ, hρ⟩ : ∃ ρ, ρ = vlen c.r * vlen c.v / vlen (nodeVec c) := ⟨_, rfl⟩
  have hρ1 : 1 ≤ ρ := by rw [hρ, le_div_iff₀ hN0]; linarith
  have hρu : 300 * (R.u * ρ) ≤ 1 := by
    rw [hρ, show 300 * (R.u * (vlen c.r * vlen c.v / vlen (nodeVec c))) = 300 * R.u * (vlen c.r * vlen c.v) / vlen (nodeVec c) by ring, div_le_one hN0]; exact hN
  rw [← hρ] at p0 p1 p2
  have s1 := ((p0.mul q0).add (p1.mul q1)).add ((p2.mul q2).mono (k := 26 * ρ + 26 + 1 + 1) (by linarith) (by linarith) le_rfl)
  have hu1 : R.u * 1 ≤ R.u * ρ := mul_le_mul_of_nonneg_left hρ1 h0
  obtain ⟨x, hx1, hx2⟩ := s1.abs_le (by linarith) (by nlinarith)
  have hDot : -angMom c 1 / vlen (nodeVec c) * (c.x / vlen c.r) + angMom c 0 / vlen (nodeVec c) * (c.y / vlen c.r) + 0 / vlen (nodeVec c) * (c.z / vlen c.r) = cosAngle (nodeVec c) c.r := by
    have hd : nodeVec c ⬝ᵥ c.r = -angMom c 1 * c.x + angMom c 0 * c.y + 0 * c.z := by
      show nodeVec c ⬝ᵥ ![c.x, c.y, c.z] = _
      rw [nodeVec_eq]; simp [dotProduct, Fin.sum_univ_three]
    rw [cosAngle, hd]
    field_simp
  rw [hDot] at hx2
  obtain ⟨θ, t1, t2, t3, t4, t5⟩ := clip_flip (R := R) (s := c.z) (τ := 0) hu (abs_cosAngle_le _ _) hx2 (decide (c.z < 0)) (fun h => decide_eq_false (by linarith))
    (fun h => decide_eq_true (by linarith)) (co := co) (by rw [hco, ← hx1]; rfl)
  refine ⟨θ, t1, t2.trans ?_, t3, t4, t5⟩
  rw [show 300 * R.u * (vlen c.r * vlen c.v) / vlen (nodeVec c) = 300 * (R.u * ρ) by rw [hρ]; ring]
  nlinarith

/-- the inclination is computed inside the limits (kepler.py 417, 422) -/
theorem incl_test (hR : Nearest R) (g : CtkGarbage (RF R)) {mu : ℝ} (hmu : 0 < mu) {c : Cart ℝ} (hh : angMom c ≠ 0)
    (hi : 100 * R.u * (vlen c.r * vlen c.v) * vlen (angMom c) + 1 / 10 ^ 16 * vlen (angMom c) ^ 2 ≤ vlen (nodeVec c) ^ 2) :
    0 < vlen (nodeVec c) ∧ 100 * R.u * (vlen c.r * vlen c.v) ≤ vlen (nodeVec c) ∧ ∃ i, (cartToKepCol g .f64 (RF.num R mu) (c.num R)).i = RF.num R i ∧
      ((i_lim <ᵇ RF.num R i) && (RF.num R i <ᵇ Np.pi - i_lim)) = true := by
  have hu0 := R.u_nonneg
  have hus : 100 * R.u ≤ 1 := by have := hR.small; norm_num at this; linarith
  have hr := r_ne_of_angMom hh
  have hhn : 0 < vlen (angMom c) := by rw [vlen_angMom]; exact angMom_ne_zero hh
  have hRV : 0 ≤ vlen c.r * vlen c.v := mul_nonneg (vlen_nonneg _) (vlen_nonneg _)
  have hNh := vlen_nodeVec_le c
  have hN0 : 0 < vlen (nodeVec c) := by
    refine lt_of_le_of_ne (vlen_nonneg _) fun h0 => ?_
    rw [← h0] at hi
    have : 0 < vlen (angMom c) ^ 2 := by positivity
    have : 0 ≤ 100 * R.u * (vlen c.r * vlen c.v) * vlen (angMom c) := by positivity
    norm_num at hi
    linarith
  have hN : 100 * R.u * (vlen c.r * vlen c.v) ≤ vlen (nodeVec c) := by
    have h1 : vlen (nodeVec c) ^ 2 ≤ vlen (nodeVec c) * vlen (angMom c) := by rw [pow_two]; exact mul_le_mul_of_nonneg_left hNh hN0.le
    have h2 : 0 ≤ 1 / 10 ^ 16 * vlen (angMom c) ^ 2 := by positivity
    exact le_of_mul_le_mul_right (by linarith) hhn
  obtain ⟨i, hi1, hi2⟩ := col88_i hR (mu := mu) (hN.trans hNh) hh g
  obtain ⟨i', hi3, hi4, hi5⟩ := (col87 hR g hmu.ne' (pos_cases hr)).i (flAngMom_ne (by linarith) (by
    have := hN.trans hNh
    linarith))
  rw [hi1] at hi3
  have hi3 := num_inj hi3
  subst hi3
  have hcosi : |Real.cos i| ≤ 1 - 5 / 10 ^ 17 := by
    have h1 : Real.cos (inclination c) = angMom c 2 / vlen (angMom c) := by
      have h1 : |angMom c 2| ≤ vlen (angMom c) := by
        rw [angMom_eq]
        exact (abs_le_vlen _ _ _).2.2
      obtain ⟨a, b⟩ := abs_le.mp h1
      rw [inclination, Real.cos_arccos]
      · rw [le_div_iff₀ hhn]; linarith
      · rw [div_le_iff₀ hhn]; linarith
    have h2 : vlen (angMom c) ^ 2 = vlen (nodeVec c) ^ 2 + angMom c 2 ^ 2 := by
      rw [vlen_nodeVec_sq, vlen_sq']
      simp only [dotProduct, Fin.sum_univ_three]
      ring
    set X := Real.cos (inclination c) with hX
    have h3 : X ^ 2 = 1 - (vlen (nodeVec c) / vlen (angMom c)) ^ 2 := by
      rw [h1, div_pow, div_pow]
      field_simp
      linarith
    have h4 : 100 * (R.u * (vlen c.r * vlen c.v / vlen (angMom c))) + 1 / 10 ^ 16 ≤ (vlen (nodeVec c) / vlen (angMom c)) ^ 2 := by
      rw [div_pow, le_div_iff₀ (by positivity)]
      have : (100 * (R.u * (vlen c.r * vlen c.v / vlen (angMom c))) + 1 / 10 ^ 16) * vlen (angMom c) ^ 2 =
        100 * R.u * (vlen c.r * vlen c.v) * vlen (angMom c) + 1 / 10 ^ 16 * vlen (angMom c) ^ 2 := by field_simp
      linarith
    have h5 : |X| ≤ 1 - (50 * (R.u * (vlen c.r * vlen c.v / vlen (angMom c))) + 5 / 10 ^ 17) := by
      have h6 := sq_abs X
      norm_num at h4 ⊢
      nlinarith [sq_nonneg (1 - |X|)]
    have h7 : 0 ≤ R.u * (vlen c.r * vlen c.v / vlen (angMom c)) := by positivity
    have h8 := abs_add_le (Real.cos i - X) X
    rw [sub_add_cancel] at h8
    linarith
  exact ⟨hN0, hN, i, hi1, incl_inside hR hi4 hi5 hcosi (by norm_num)⟩

/-- the computed eccentricity is not above the limit (kepler.py 403, 420) -/
theorem ecc_test (hR : Nearest R) {e e' δ : ℝ} (h : |e' - e| ≤ δ) (he : e + δ ≤ 99 / 10 ^ 11) : ((e_lim : RF R) <ᵇ RF.num R e') = false := by
  have h3 : (e_lim : RF R) = RF.num R (R.rd ((1 / 1000000000 : ℚ) : ℝ)) := rfl
  rw [h3, lt_num, decide_eq_false_iff_not, not_lt]
  have h1 := rd_ge hR (x := ((1 / 1000000000 : ℚ) : ℝ)) (by norm_num)
  have h2 := (abs_le.mp h).2
  norm_num at h1 he
  linarith

/-- nearly circular and inclined -/
theorem col_circ (hR : Nearest R) (g : CtkGarbage (RF R)) {mu : ℝ} (hmu : 0 < mu) {c : Cart ℝ} (hh : angMom c ≠ 0)
    (he : vlen (eccVec mu c) + 50 * R.u * eccCond mu c ≤ 99 / 10 ^ 11)
    (hi : 100 * R.u * (vlen c.r * vlen c.v) * vlen (angMom c) + 1 / 10 ^ 16 * vlen (angMom c) ^ 2 ≤ vlen (nodeVec c) ^ 2)
    (hN3 : 300 * R.u * (vlen c.r * vlen c.v) ≤ vlen (nodeVec c)) :
    ∃ OM nu, (cartToKepCol g .f64 (RF.num R mu) (c.num R)).om = RF.num R 0 ∧ (cartToKepCol g .f64 (RF.num R mu) (c.num R)).OM = RF.num R OM ∧
      (cartToKepCol g .f64 (RF.num R mu) (c.num R)).nu = RF.num R nu ∧
      AngleErr R OM (cosAngle ![1, 0, 0] (nodeVec c)) (60 * R.u * (vlen c.r * vlen c.v) / vlen (nodeVec c)) (angMom c 0) (3 * R.u * (vlen c.r * vlen c.v)) ∧
      AngleErr R nu (cosAngle (nodeVec c) c.r) (300 * R.u * (vlen c.r * vlen c.v) / vlen (nodeVec c)) c.z 0 := by
  have hu0 := R.u_nonneg
  have hus : 100 * R.u ≤ 1 := by have := hR.small; norm_num at this; linarith
  have hr := r_ne_of_angMom hh
  obtain ⟨hN0, hN, i, hi1, hinside⟩ := incl_test hR g hmu hh hi
  obtain ⟨e', he1, he2⟩ := col88_e (R := R) hmu hr hus g
  rw [← vlen_eccVec hmu (angMom_ne_zero hh)] at he2
  have hetest := ecc_test hR he2 he
  have hlo := fun co => lat_out (R := R) (c := c) (co := co) hus hr hN3 hN0
  have hno := node_out hR hus hN hN0
  revert he1 hi1
  unfold cartToKepCol
  extract_lets ez r v rn vn vr epsilon ev o1 e_hyp o0 o0' h hn o2 eg ig el il eg_ig eg_il el_ig el_il n1 nn1 n nn ny_neg o41 o42 o43 o4 o31 o32
    co1 co2 co3 co4 co5 o33 ez_neg o34 ey1 ey2 o35 ey3 ey4 o36 cn1 cn2 cn3 cn4 cn5 cn6 o51 t1 o52 t2 o53 t3 t4 o54 t5 t6 o55
  intro hi1 he1
  replace he1 : o1 = RF.num R e' := he1
  replace hi1 : o2 = RF.num R i := hi1
  have hrn : rn = RF.num R (flNorm R c.x c.y c.z) := norm_num3 _ _ _
  have hvn : vn = RF.num R (flNorm R c.vx c.vy c.vz) := norm_num3 _ _ _
  clear_value rn vn
  subst hrn hvn
  have hh3 : h = ⟨RF.num R (flAngMom R c 0), RF.num R (flAngMom R c 1), RF.num R (flAngMom R c 2)⟩ := rfl
  clear_value h
  subst hh3
  have d0 : Digits53 (flAngMom R c 0) := hR.digits _
  have d1 : Digits53 (flAngMom R c 1) := hR.digits _
  have hig : ig = true := by
    show ((i_lim <ᵇ o2) && (o2 <ᵇ Np.pi - i_lim)) = true
    rw [hi1]; exact hinside
  have heg : eg = false := by
    show (e_lim <ᵇ o1) = false
    rw [he1]; exact hetest
  clear_value o1 o2 ig eg
  subst hig heg he1
  have hn3 : n = ⟨RF.num R (-flAngMom R c 1), RF.num R (flAngMom R c 0), RF.num R 0⟩ := by
    show (if true = true then V3.store DType.f64 (ez.cross ⟨RF.num R (flAngMom R c 0), RF.num R (flAngMom R c 1), RF.num R (flAngMom R c 2)⟩) else n1) = _
    rw [if_pos rfl]
    show (⟨(0 : RF R) * _ - 1 * _, 1 * _ - 0 * _, 0 * _ - 0 * _⟩ : V3 (RF R)) = _
    simp only [zero_num, one_num, mul_num, sub_num, zero_mul, one_mul, rd_zero, zero_sub, sub_zero]
    rw [hR.id d0, hR.id d1, hR.id d0, hR.id d1.neg]
  have hnn : nn = RF.num R (flNorm R (-flAngMom R c 1) (flAngMom R c 0) 0) := by
    show n.norm = _
    rw [hn3]
    exact norm_num3 _ _ _
  clear_value n nn
  subst hn3 hnn
  have z1 : ey2 = false := by show (((_ <ᵇ _) && false) && _) = false; simp
  have z2 : ey4 = false := by show (((_ <ᵇ _) && false) && _) = false; simp
  have z0 : ez_neg = false := by show ((_ <ᵇ _) && false) = false; simp
  have z3 : t1 = false := by show ((_ <ᵇ _) && false) = false; simp
  have z4 : t4 = false := by show (((_ <ᵇ _) && false) && _) = false; simp
  have z5 : t6 = false := by show (((_ <ᵇ _) && false) && _) = false; simp
  obtain ⟨OM, hOM, hOM'⟩ := hno
  obtain ⟨nu, hnu, hnu'⟩ := hlo cn4 rfl
  refine ⟨OM, nu, ?_, ?_, ?_, hOM', hnu'⟩
  · show (if ey4 = true then _ else if ey2 = true then _ else if ez_neg = true then _ else (0 : RF R)) = _
    rw [z0, z1, z2, if_neg Bool.false_ne_true, if_neg Bool.false_ne_true, if_neg Bool.false_ne_true]
    exact zero_num
  · show o43 = _
    rw [← hOM]
    have z6 : ny_neg = decide (flAngMom R c 0 < 0) := by
      show ((RF.num R (flAngMom R c 0) <ᵇ 0) && true) = _
      rw [Bool.and_true, zero_num, lt_num]
    show (if ny_neg = true then _ else _) = _
    rw [z6]
    rfl
  · show (if t6 = true then _ else if t4 = true then _ else o53) = _
    rw [z4, z5, if_neg Bool.false_ne_true, if_neg Bool.false_ne_true, ← hnu]
    have z6 : t2 = decide (c.z < 0) := by
      show ((RF.num R c.z <ᵇ 0) && true) = _
      rw [Bool.and_true, zero_num, lt_num]
    show (if t2 = true then _ else _) = _
    rw [z6]
    have z7 : o52 = o51 := by
      show (if t1 = true then _ else _) = _
      rw [z3, if_neg Bool.false_ne_true]
    rw [z7]
    rfl

/-! ## Equatorial orbits -/

/-- in the plane of the equator the angular momentum is computed on the axis -/
theorem flAngMom_plane {c : Cart ℝ} (hz : c.z = 0) (hvz : c.vz = 0) : flAngMom R c 0 = 0 ∧ flAngMom R c 1 = 0 := by
  constructor <;> · simp [flAngMom, hz, hvz, rd_zero]

/-- the inclination is computed outside the limits, on the right side of a right angle (kepler.py 417, 422, 486, 491) -/
theorem plane_test (hR : Nearest R) {x : ℝ} (hx : x = 0 ∨ x = Real.pi * Real.exp (R.lib .arccos (-1))) :
    ((i_lim <ᵇ RF.num R x) && (RF.num R x <ᵇ Np.pi - i_lim)) = false ∧
      ((RF.num R x <ᵇ Np.pi * half) = decide (x = 0)) ∧ ((Np.pi * half <ᵇ RF.num R x) = !decide (x = 0)) := by
  have hu0 := R.u_nonneg
  have hus := hR.small
  have hp := Real.pi_gt_d2
  have hp2 := Real.pi_lt_d2
  have hl : 0.999 / 1000000000 ≤ R.rd ((1 / 1000000000 : ℚ) : ℝ) := by
    have h1 := rd_ge hR (x := ((1 / 1000000000 : ℚ) : ℝ)) (by norm_num)
    norm_num at h1 ⊢
    linarith
  have hpi1 := rd_le hR Real.pi_pos.le
  have hpi2 := rd_ge hR Real.pi_pos.le
  have hil : (i_lim : RF R) = RF.num R (R.rd (R.rd Real.pi * R.rd ((1 / 1000000000 : ℚ) : ℝ))) := rfl
  have hilq : 3 / 1000000000 ≤ R.rd (R.rd Real.pi * R.rd ((1 / 1000000000 : ℚ) : ℝ)) := by
    have h1 : 3.1 * (0.999 / 1000000000) ≤ R.rd Real.pi * R.rd ((1 / 1000000000 : ℚ) : ℝ) :=
      mul_le_mul (by norm_num at hpi2 ⊢; linarith) hl (by norm_num) (by norm_num at hpi2 ⊢; linarith)
    have h2 := rd_ge hR (x := R.rd Real.pi * R.rd ((1 / 1000000000 : ℚ) : ℝ)) (by norm_num at h1 ⊢; linarith)
    norm_num at h1 h2 ⊢
    linarith
  generalize R.rd (R.rd Real.pi * R.rd ((1 / 1000000000 : ℚ) : ℝ)) = L at *
  have hhalf : (Np.pi * half : RF R) = RF.num R (R.rd (R.rd Real.pi * (1 / 2))) := by rw [pi_num, half_num, mul_num]
  have hh0 : 0 ≤ R.rd Real.pi * (1 / 2) := by have := rd_nonneg (R := R) Real.pi_pos.le; linarith
  have hh1 := rd_ge hR hh0
  have hh2 := rd_le hR hh0
  generalize R.rd (R.rd Real.pi * (1 / 2)) = H at *
  have hexp : |Real.exp (R.lib .arccos (-1)) - 1| ≤ 4 / 3 * R.u := (exp_diff (R.lib_le _ _)).trans (exp_sub_one_le hu0 (by norm_num at hus; linarith))
  have hexp' := (abs_le.mp hexp).1
  generalize Real.exp (R.lib .arccos (-1)) = X at *
  rw [hil, hhalf, pi_num, sub_num, lt_num, lt_num, lt_num, lt_num]
  rcases hx with rfl | rfl
  · have a1 : ¬ (L < 0) := by norm_num at hilq ⊢; linarith
    have a2 : 0 < H := by norm_num at hpi2 hh1 ⊢; linarith
    simp [a1, a2, a2.le]
  · have hX : Real.pi * (1 - 2 / 10 ^ 15) ≤ Real.pi * X := mul_le_mul_of_nonneg_left (by norm_num at hus ⊢; linarith) Real.pi_pos.le
    have a1 : ¬ (Real.pi * X < R.rd (R.rd Real.pi - L)) := by
      rw [not_lt]
      have h1 : R.rd (R.rd Real.pi - L) ≤ R.rd (Real.pi - 2 / 1000000000) := hR.mono (by norm_num at hpi1 hilq ⊢; linarith)
      have h2 := rd_le hR (x := Real.pi - 2 / 1000000000) (by linarith)
      norm_num at h2 hX ⊢
      linarith
    have a2 : H < Real.pi * X := by norm_num at hpi1 hh2 hX ⊢; linarith
    have a3 : ¬ (Real.pi * X = 0) := by intro h0; rw [h0] at hX; norm_num at hX; linarith
    have a4 : ¬ (Real.pi * X < H) := by linarith
    rw [decide_eq_false a1, decide_eq_true a2, decide_eq_false a3, decide_eq_false a4]
    simp

/-- the sense of rotation of an equatorial orbit -/
noncomputable def sense (c : Cart ℝ) : ℝ := if 0 < angMom c 2 then 1 else -1

/-- the computed inclination of an equatorial orbit -/
noncomputable def planeInc (R : Rounding) (c : Cart ℝ) : ℝ := if 0 < angMom c 2 then 0 else Real.pi * Real.exp (R.lib .arccos (-1))

theorem plane_incl (hR : Nearest R) (g : CtkGarbage (RF R)) {mu : ℝ} {c : Cart ℝ} (hz : c.z = 0) (hvz : c.vz = 0) (hh : angMom c ≠ 0)
    (hc : 100 * R.u * (vlen c.r * vlen c.v) ≤ vlen (angMom c)) :
    Np.arccos (RF.num R (flAngMom R c 2) / RF.num R (flNorm R (flAngMom R c 0) (flAngMom R c 1) (flAngMom R c 2))) = RF.num R (planeInc R c) := by
  have hu0 := R.u_nonneg
  have hus : 100 * R.u ≤ 1 := by have := hR.small; norm_num at this; linarith
  have hhn : 0 < vlen (angMom c) := by rw [vlen_angMom]; exact angMom_ne_zero hh
  have hRV : 0 ≤ vlen c.r * vlen c.v := mul_nonneg (vlen_nonneg _) (vlen_nonneg _)
  obtain ⟨f0, f1⟩ := flAngMom_plane (R := R) hz hvz
  have hax : vlen (angMom c) = |angMom c 2| := by
    have h1 : angMom c = ![0, 0, angMom c 2] := by
      funext j
      fin_cases j
      · simp [angMom_eq, Cart.hx, hz, hvz]
      · simp [angMom_eq, Cart.hy, hz, hvz]
      · rfl
    have h2 : vlen ![0, 0, angMom c 2] = |angMom c 2| := by
      rw [vlen_vec, show (0 : ℝ) * 0 + 0 * 0 + angMom c 2 * angMom c 2 = angMom c 2 ^ 2 by ring, Real.sqrt_sq_eq_abs]
    rw [← h2, ← h1]
  have he := abs_le.mp (flAngMom_err (R := R) hus c 2)
  rw [hax] at hc hhn
  have huRV := mul_nonneg hu0 hRV
  have hd2 : Digits53 (flAngMom R c 2) := hR.digits _
  rw [f0, f1, flNorm_planar hR hd2, planeInc]
  rcases lt_or_ge 0 (angMom c 2) with h | h
  · rw [abs_of_pos h] at hc hhn
    have hp : 0 < flAngMom R c 2 := by linarith
    rw [if_pos h, abs_of_pos hp, div_num _ hp.ne', div_self hp.ne', hR.id Digits53.one, arccos_num (by norm_num) le_rfl, Real.arccos_one, zero_mul]
  · have h' : angMom c 2 < 0 := lt_of_le_of_ne h fun h0 => by rw [h0, abs_zero] at hhn; exact lt_irrefl _ hhn
    rw [abs_of_neg h'] at hc hhn
    have hp : flAngMom R c 2 < 0 := by linarith
    rw [if_neg (by linarith), abs_of_neg hp, div_num _ (by linarith), div_neg, div_self hp.ne, hR.id Digits53.one.neg, arccos_num le_rfl (by norm_num), Real.arccos_neg_one]

theorem planeInc_cases (c : Cart ℝ) : planeInc R c = 0 ∨ planeInc R c = Real.pi * Real.exp (R.lib .arccos (-1)) := by
  unfold planeInc; split_ifs <;> simp

theorem planeInc_zero (c : Cart ℝ) : planeInc R c = 0 ↔ 0 < angMom c 2 := by
  unfold planeInc
  split_ifs with h
  · simp [h]
  · simp only [h, iff_false]
    exact (mul_pos Real.pi_pos (Real.exp_pos _)).ne'

/-- the argument of periapsis of an equatorial orbit, measured from the x axis in the sense of the motion (kepler.py 469, 475-478, 486-493) -/
theorem peri_plane_out (hu : 100 * R.u ≤ 1) {E : Fin 3 → ℝ} {κ e' : ℝ} {a0 a1 a2 : RF R} (n0 : Near 14 κ a0 (E 0)) (n1 : Near 14 κ a1 (E 1)) (n2 : Near 14 κ a2 (E 2))
    (he : |e' - vlen E| ≤ 50 * R.u * κ) (hE : 200 * R.u * κ ≤ vlen E) (hE0 : 0 < vlen E) {p : Bool} {co : RF R} (hco : co = a0 / RF.num R e') :
    ∃ θ, (if (if p = true then (a1 <ᵇ 0) else (0 ≤ᵇ a1)) = true then
          twoPi - Np.arccos (if ((if (1 <ᵇ co) = true then 1 else co) <ᵇ -1) = true then -1 else if (1 <ᵇ co) = true then 1 else co)
        else Np.arccos (if ((if (1 <ᵇ co) = true then 1 else co) <ᵇ -1) = true then -1 else if (1 <ᵇ co) = true then 1 else co)) = RF.num R θ ∧
      AngleErr R θ (E 0 / vlen E) (400 * R.u * κ / vlen E) ((if p = true then 1 else -1) * E 1) (19 * R.u * κ) := by
  have h0 := R.u_nonneg
  have b0 : |E 0| ≤ κ := by obtain ⟨_, _, _, h⟩ := n0; exact h
  have b1 : |E 1| ≤ κ := by obtain ⟨_, _, _, h⟩ := n1; exact h
  have b2 : |E 2| ≤ κ := by obtain ⟨_, _, _, h⟩ := n2; exact h
  have hκ : 0 ≤ κ := (abs_nonneg _).trans b0
  have huκ := mul_nonneg h0 hκ
  have hEκ : vlen E ≤ 2 * κ := vlen_le fun j => by fin_cases j <;> assumption
  obtain ⟨D', hD', hD⟩ := n0.abs_le (by norm_num) (by linarith)
  obtain ⟨s', hs', hs⟩ := n1.abs_le (by norm_num) (by linarith)
  have he' := abs_le.mp he
  obtain ⟨y, hy, y1, y2, y3⟩ := quot_out (R := R) (D' := D') (P' := e') (K := κ) hu hE0 (by linarith) (comp_le_vlen E 0) hEκ (by linarith)
  rw [hco, hD', hy, hs', zero_num, lt_num, le_num]
  obtain ⟨c1, c2⟩ := abs_le.mp hs
  obtain ⟨θ, t1, t2, t3, t4, t5⟩ := angleErr_flip (R := R) (s := (if p = true then 1 else -1) * E 1) (τ := 19 * R.u * κ) hu y1 y2 y3 (if p = true then decide (s' < 0) else decide (0 ≤ s'))
    (fun h => by cases p <;> simp at h ⊢ <;> linarith) (fun h => by cases p <;> simp at h ⊢ <;> linarith)
  refine ⟨θ, t1, t2.trans ?_, t3, t4, t5⟩
  have hK : 1 / 2 ≤ κ / vlen E := by rw [le_div_iff₀ hE0]; linarith
  have hKu := mul_le_mul_of_nonneg_left hK h0
  have e1 : 338 * R.u * κ / vlen E = 338 * (R.u * (κ / vlen E)) := by ring
  have e2 : 400 * R.u * κ / vlen E = 400 * (R.u * (κ / vlen E)) := by ring
  rw [e1, e2]
  linarith

/-- equatorial and not nearly circular -/
theorem col_plane (hR : Nearest R) (g : CtkGarbage (RF R)) {mu : ℝ} (hmu : 0 < mu) {c : Cart ℝ} (hz : c.z = 0) (hvz : c.vz = 0) (hh : angMom c ≠ 0)
    (hc : 100 * R.u * (vlen c.r * vlen c.v) ≤ vlen (angMom c)) (he : 3 / 10 ^ 9 ≤ vlen (eccVec mu c)) (heu : 200 * R.u * eccCond mu c ≤ vlen (eccVec mu c)) :
    ∃ om nu, (cartToKepCol g .f64 (RF.num R mu) (c.num R)).i = RF.num R (planeInc R c) ∧ (cartToKepCol g .f64 (RF.num R mu) (c.num R)).om = RF.num R om ∧
      (cartToKepCol g .f64 (RF.num R mu) (c.num R)).OM = RF.num R 0 ∧ (cartToKepCol g .f64 (RF.num R mu) (c.num R)).nu = RF.num R nu ∧
      AngleErr R om (eccVec mu c 0 / vlen (eccVec mu c)) (400 * R.u * eccCond mu c / vlen (eccVec mu c)) (sense c * eccVec mu c 1) (19 * R.u * eccCond mu c) ∧
      AngleErr R nu (cosAngle (eccVec mu c) c.r) (400 * R.u * eccCond mu c / vlen (eccVec mu c)) c.vr (9 * R.u * vlen c.v) := by
  have hu0 := R.u_nonneg
  have hus : 100 * R.u ≤ 1 := by have := hR.small; norm_num at this; linarith
  have hr := r_ne_of_angMom hh
  have hE0 : 0 < vlen (eccVec mu c) := lt_of_lt_of_le (by norm_num) he
  obtain ⟨e', he1, he2⟩ := col88_e (R := R) hmu hr hus g
  rw [← vlen_eccVec hmu (angMom_ne_zero hh)] at he2
  have hvr := vr_near (R := R) hr
  have hx := abs_le_vlen c.x c.y c.z
  have hv := abs_le_vlen c.vx c.vy c.vz
  have n0 := ev_near (R := R) hmu hr hvr hx.1 hv.1
  have n1 := ev_near (R := R) hmu hr hvr hx.2.1 hv.2.1
  have n2 := ev_near (R := R) hmu hr hvr hx.2.2 hv.2.2
  have hEE := eccVec_eq hmu (angMom_ne_zero hh)
  have hao := anom_out (R := R) (c := c) (E := eccVec mu c) (e' := e') hus hr (by rw [hEE]; exact n0) (by rw [hEE]; exact n1) (by rw [hEE]; exact n2) hvr he2 heu hE0 rfl
  have hpo := peri_plane_out (R := R) (E := eccVec mu c) (e' := e') (p := decide (0 < angMom c 2)) hus (by rw [hEE]; exact n0) (by rw [hEE]; exact n1) (by rw [hEE]; exact n2) he2 heu hE0 rfl
  clear n0 n1 n2 hvr
  revert he1
  unfold cartToKepCol
  extract_lets ez r v rn vn vr epsilon ev o1 e_hyp o0 o0' h hn o2 eg ig el il eg_ig eg_il el_ig el_il n1 nn1 n nn ny_neg o41 o42 o43 o4 o31 o32
    co1 co2 co3 co4 co5 o33 ez_neg o34 ey1 ey2 o35 ey3 ey4 o36 cn1 cn2 cn3 cn4 cn5 cn6 o51 t1 o52 t2 o53 t3 t4 o54 t5 t6 o55
  intro he1
  replace he1 : o1 = RF.num R e' := he1
  have hrn : rn = RF.num R (flNorm R c.x c.y c.z) := norm_num3 _ _ _
  have hvn : vn = RF.num R (flNorm R c.vx c.vy c.vz) := norm_num3 _ _ _
  clear_value rn vn
  subst hrn hvn
  have hh3 : h = ⟨RF.num R (flAngMom R c 0), RF.num R (flAngMom R c 1), RF.num R (flAngMom R c 2)⟩ := rfl
  clear_value h
  subst hh3
  have hhn : hn = RF.num R (flNorm R (flAngMom R c 0) (flAngMom R c 1) (flAngMom R c 2)) := norm_num3 _ _ _
  have hi1 : o2 = RF.num R (planeInc R c) := by
    rw [← plane_incl hR g (mu := mu) hz hvz hh hc, ← hhn]; rfl
  obtain ⟨T1, T2, T3⟩ := plane_test hR (planeInc_cases (R := R) c)
  have hdec : decide (planeInc R c = 0) = decide (0 < angMom c 2) := decide_eq_decide.mpr (planeInc_zero c)
  rw [hdec] at T2 T3
  have hig : ig = false := by
    show ((i_lim <ᵇ o2) && (o2 <ᵇ Np.pi - i_lim)) = false
    rw [hi1]; exact T1
  have hT2 : (o2 <ᵇ Np.pi * half) = decide (0 < angMom c 2) := by rw [hi1]; exact T2
  have hT3 : (Np.pi * half <ᵇ o2) = !decide (0 < angMom c 2) := by rw [hi1]; exact T3
  have heg : eg = true := by
    show (e_lim <ᵇ o1) = true
    have h3 : (e_lim : RF R) = RF.num R (R.rd ((1 / 1000000000 : ℚ) : ℝ)) := rfl
    rw [he1, h3, lt_num, decide_eq_true_eq]
    have h1 := rd_le hR (x := ((1 / 1000000000 : ℚ) : ℝ)) (by norm_num)
    have h2 := (abs_le.mp he2).1
    norm_num at h1 he
    linarith
  clear_value o1 o2 ig eg
  subst hig heg he1
  have z3 : t2 = false := by show ((_ <ᵇ _) && false) = false; simp
  have z4 : t4 = false := by show (((_ <ᵇ _) && false) && _) = false; simp
  have z5 : t6 = false := by show (((_ <ᵇ _) && false) && _) = false; simp
  have z0 : ez_neg = false := by show ((_ <ᵇ _) && false) = false; simp
  have y2 : ey2 = (decide (0 < angMom c 2) && (ev.y <ᵇ 0)) := by show (((o2 <ᵇ Np.pi * half) && true) && _) = _; rw [hT2, Bool.and_true]
  have y4 : ey4 = (!decide (0 < angMom c 2) && (0 ≤ᵇ ev.y)) := by show (((Np.pi * half <ᵇ o2) && true) && _) = _; rw [hT3, Bool.and_true]
  obtain ⟨om, hom, hom'⟩ := hpo
  obtain ⟨nu, hnu, hnu'⟩ := hao
  refine ⟨om, nu, hi1, ?_, ?_, ?_, ?_, hnu'⟩
  · show (if ey4 = true then twoPi - (if ey2 = true then twoPi - o34 else o34) else (if ey2 = true then twoPi - o34 else o34)) = _
    have z7 : o34 = o33 := by
      show (if ez_neg = true then _ else _) = _
      rw [z0, if_neg Bool.false_ne_true]
    rw [z7, y2, y4, ← hom]
    cases decide (0 < angMom c 2)
    · rfl
    · rfl
  · show (0 : RF R) = _
    exact zero_num
  · show (if t6 = true then _ else if t4 = true then _ else if t2 = true then _ else o52) = _
    rw [z3, z4, z5, if_neg Bool.false_ne_true, if_neg Bool.false_ne_true, if_neg Bool.false_ne_true, ← hnu]
    have z6 : t1 = (vr <ᵇ 0) := by show ((_ <ᵇ _) && true) = _; rw [Bool.and_true]
    show (if t1 = true then _ else _) = _
    rw [z6]
    rfl
  · have : sense c = if decide (0 < angMom c 2) = true then 1 else -1 := by unfold sense; simp
    rw [this]; exact hom'

/-- equatorial and nearly circular -/
theorem col_plane_circ (hR : Nearest R) (g : CtkGarbage (RF R)) {mu : ℝ} (hmu : 0 < mu) {c : Cart ℝ} (hz : c.z = 0) (hvz : c.vz = 0) (hh : angMom c ≠ 0)
    (hc : 100 * R.u * (vlen c.r * vlen c.v) ≤ vlen (angMom c)) (he : vlen (eccVec mu c) + 50 * R.u * eccCond mu c ≤ 99 / 10 ^ 11) :
    ∃ nu, (cartToKepCol g .f64 (RF.num R mu) (c.num R)).i = RF.num R (planeInc R c) ∧ (cartToKepCol g .f64 (RF.num R mu) (c.num R)).om = RF.num R 0 ∧
      (cartToKepCol g .f64 (RF.num R mu) (c.num R)).OM = RF.num R 0 ∧ (cartToKepCol g .f64 (RF.num R mu) (c.num R)).nu = RF.num R nu ∧
      AngleErr R nu (c.x / vlen c.r) (66 * R.u) (sense c * c.y) 0 := by
  have hu0 := R.u_nonneg
  have hus : 100 * R.u ≤ 1 := by have := hR.small; norm_num at this; linarith
  have hr := r_ne_of_angMom hh
  have hrp := vlen_r_pos hr
  have hx := abs_le_vlen c.x c.y c.z
  obtain ⟨e', he1, he2⟩ := col88_e (R := R) hmu hr hus g
  rw [← vlen_eccVec hmu (angMom_ne_zero hh)] at he2
  have hetest := ecc_test hR he2 he
  obtain ⟨q, hq1, hq2⟩ := (dir_near (R := R) hus hr hx.1).abs_le (by norm_num) (by have := hR.small; norm_num at this; linarith)
  have hX : |c.x / vlen c.r| ≤ 1 := by rw [abs_div, abs_of_pos hrp, div_le_one hrp]; exact hx.1
  have hb := fun p : Bool => clip_flip (R := R) (s := (if p = true then 1 else -1) * c.y) (τ := 0) hus hX hq2 (if p = true then decide (c.y < 0) else decide (0 ≤ c.y))
    (fun h => by cases p <;> simp at h ⊢ <;> linarith) (fun h => by cases p <;> simp at h ⊢ <;> linarith) hq1
  revert he1
  unfold cartToKepCol
  extract_lets ez r v rn vn vr epsilon ev o1 e_hyp o0 o0' h hn o2 eg ig el il eg_ig eg_il el_ig el_il n1 nn1 n nn ny_neg o41 o42 o43 o4 o31 o32
    co1 co2 co3 co4 co5 o33 ez_neg o34 ey1 ey2 o35 ey3 ey4 o36 cn1 cn2 cn3 cn4 cn5 cn6 o51 t1 o52 t2 o53 t3 t4 o54 t5 t6 o55
  intro he1
  replace he1 : o1 = RF.num R e' := he1
  have hrn : rn = RF.num R (flNorm R c.x c.y c.z) := norm_num3 _ _ _
  have hvn : vn = RF.num R (flNorm R c.vx c.vy c.vz) := norm_num3 _ _ _
  clear_value rn vn
  subst hrn hvn
  have hh3 : h = ⟨RF.num R (flAngMom R c 0), RF.num R (flAngMom R c 1), RF.num R (flAngMom R c 2)⟩ := rfl
  clear_value h
  subst hh3
  have hhn : hn = RF.num R (flNorm R (flAngMom R c 0) (flAngMom R c 1) (flAngMom R c 2)) := norm_num3 _ _ _
  have hi1 : o2 = RF.num R (planeInc R c) := by
    rw [← plane_incl hR g (mu := mu) hz hvz hh hc, ← hhn]; rfl
  obtain ⟨T1, T2, T3⟩ := plane_test hR (planeInc_cases (R := R) c)
  have hdec : decide (planeInc R c = 0) = decide (0 < angMom c 2) := decide_eq_decide.mpr (planeInc_zero c)
  rw [hdec] at T2 T3
  have hig : ig = false := by
    show ((i_lim <ᵇ o2) && (o2 <ᵇ Np.pi - i_lim)) = false
    rw [hi1]; exact T1
  have hT2 : (o2 <ᵇ Np.pi * half) = decide (0 < angMom c 2) := by rw [hi1]; exact T2
  have hT3 : (Np.pi * half <ᵇ o2) = !decide (0 < angMom c 2) := by rw [hi1]; exact T3
  have heg : eg = false := by
    show (e_lim <ᵇ o1) = false
    rw [he1]; exact hetest
  clear_value o1 o2 ig eg
  subst hig heg he1
  have z1 : ey2 = false := by show (((_ <ᵇ _) && false) && _) = false; simp
  have z2 : ey4 = false := by show (((_ <ᵇ _) && false) && _) = false; simp
  have z0 : ez_neg = false := by show ((_ <ᵇ _) && false) = false; simp
  have z3 : t1 = false := by show ((_ <ᵇ _) && false) = false; simp
  have z4 : t2 = false := by show ((_ <ᵇ _) && false) = false; simp
  have y2 : t4 = (decide (0 < angMom c 2) && decide (c.y < 0)) := by
    show (((o2 <ᵇ Np.pi * half) && true) && (RF.num R c.y <ᵇ 0)) = _; rw [hT2, Bool.and_true, zero_num, lt_num]
  have y4 : t6 = (!decide (0 < angMom c 2) && decide (0 ≤ c.y)) := by
    show (((Np.pi * half <ᵇ o2) && true) && (0 ≤ᵇ RF.num R c.y)) = _; rw [hT3, Bool.and_true, zero_num, le_num]
  obtain ⟨nu, hnu, hnu'⟩ := hb (decide (0 < angMom c 2))
  refine ⟨nu, hi1, ?_, ?_, ?_, ?_⟩
  · show (if ey4 = true then _ else if ey2 = true then _ else if ez_neg = true then _ else (0 : RF R)) = _
    rw [z0, z1, z2, if_neg Bool.false_ne_true, if_neg Bool.false_ne_true, if_neg Bool.false_ne_true]
    exact zero_num
  · show (0 : RF R) = _
    exact zero_num
  · show (if t6 = true then twoPi - (if t4 = true then twoPi - o53 else o53) else (if t4 = true then twoPi - o53 else o53)) = _
    have z7 : o53 = o51 := by
      show (if t2 = true then _ else if t1 = true then _ else o51) = _
      rw [z3, z4, if_neg Bool.false_ne_true, if_neg Bool.false_ne_true]
    rw [z7, y2, y4, ← hnu]
    cases decide (0 < angMom c 2)
    · rfl
    · rfl
  · have : sense c = if decide (0 < angMom c 2) = true then 1 else -1 := by unfold sense; simp
    rw [this]
    refine ⟨hnu'.cos.trans (by linarith), hnu'.upper, hnu'.lower, hnu'.range⟩

end Pyorb
