import Verif.PropsRoundHyper
import Verif.PropsNewtonOpen
import Verif.PropsRoundCart

/-!
# The anomaly conversions on parabolas with rounding (C106)

`eccentric_to_true`, `eccentric_to_mean`, `true_to_eccentric` and the closed solution of Barker's equation in `mean_to_eccentric`.
-/

set_option linter.unusedSimpArgs false
set_option linter.unusedVariables false

namespace Pyorb
open RF FX Orbit
namespace RPar
variable {R : Rounding}

theorem par_sc (a b c : RF R) : triSc (num R 1) a b c = b := by
  simp only [triSc, one_num, lt_num, eq_num, lt_irrefl, decide_false, decide_true, Bool.false_eq_true, if_false, if_true]

theorem three_num : (3 : RF R) = num R 3 := by
  show (Np.lit ((3 : ℕ) : ℚ) : RF R) = _
  rw [ofNat_num 3 (by norm_num)]; norm_num

/-! ## From the anomaly `E = tan (nu / 2)` to the angle -/

theorem ett_par (hu : R.u ≤ 1 / 10 ^ 6) (E : ℝ) :
    ∃ (nu : ℝ) (z : ℤ), wrap (ettPar (num R E)) = num R nu ∧ 0 ≤ nu ∧ nu ≤ 629 / 100 ∧
      |nu - (2 * Real.arctan E + z * (2 * Real.pi))| ≤ 80 * R.u := by
  have hu0 := R.u_nonneg
  have hpi := Real.pi_lt_d4
  obtain ⟨x, x1, x2⟩ := RHyper.twoArctan_err hu E
  have hb : |2 * Real.arctan E| ≤ Real.pi := by
    rw [abs_le]
    constructor <;> linarith [Real.neg_pi_div_two_lt_arctan E, Real.arctan_lt_pi_div_two E]
  have hx : |x| ≤ 315 / 100 := by
    have := abs_add_le (x - 2 * Real.arctan E) (2 * Real.arctan E)
    rw [sub_add_cancel] at this
    linarith
  obtain ⟨nu, z, w1, w2, w3, w4⟩ := wrap_err hu hx
  refine ⟨nu, -z, by rw [ettPar, x1, w1], w2, w3, ?_⟩
  rw [abs_le] at w4 x2 ⊢
  push_cast
  constructor <;> linarith

/-- an angle of the point with the anomaly `E` -/
theorem par_point (E : ℝ) (z : ℤ) :
    Real.cos ((2 * Real.arctan E + z * (2 * Real.pi)) / 2) ≠ 0 ∧ Real.tan ((2 * Real.arctan E + z * (2 * Real.pi)) / 2) = E := by
  have h : (2 * Real.arctan E + z * (2 * Real.pi)) / 2 = Real.arctan E + z * Real.pi := by ring
  rw [h]
  refine ⟨?_, by rw [Real.tan_add_int_mul_pi, Real.tan_arctan]⟩
  rw [Real.cos_add_int_mul_pi]
  exact mul_ne_zero (zpow_ne_zero _ (by norm_num)) (Real.cos_arctan_pos _).ne'

/-! ## The mean anomaly -/

theorem etm_par (hu : R.u ≤ 1 / 10 ^ 6) (E : ℝ) :
    ∃ M : ℝ, etmPar (num R E) = num R M ∧ |M - (E + E ^ 3 / 3)| ≤ 6 * R.u * |E + E ^ 3 / 3| := by
  have hu0 := R.u_nonneg
  have h1 : Rel 3 (cube (num R E) / 3) (E * E * E / 3) := by
    rw [cube, three_num]
    exact ((((Rel.num E).mul (Rel.num E)).mul (Rel.num E)).div (Rel.num 3) (by norm_num)).mono (by norm_num)
  have hB : |E| + |E * E * E / 3| = |E + E ^ 3 / 3| := by
    rcases le_total 0 E with h | h
    · rw [abs_of_nonneg h, abs_of_nonneg (by positivity), abs_of_nonneg (by positivity)]; ring
    · have : E ^ 3 ≤ 0 := by
        have := mul_nonneg (sq_nonneg E) (neg_nonneg.mpr h)
        linarith
      rw [abs_of_nonpos h, abs_of_nonpos (by linarith), abs_of_nonpos (by linarith)]; ring
  have n1 : Near 3 |E| (num R E) E := ((Rel.num E).near le_rfl).mono (by norm_num) (by norm_num) le_rfl
  obtain ⟨M, m1, m2⟩ := (n1.add (h1.near le_rfl)).abs_le (by norm_num) (by linarith)
  refine ⟨M, m1, ?_⟩
  rw [hB, show E + E * E * E / 3 = E + E ^ 3 / 3 by ring] at m2
  refine m2.trans (mul_le_mul_of_nonneg_right (by linarith) (abs_nonneg _))

/-! ## From the angle to the anomaly -/

/-- the parabolic branch of `true_to_eccentric`, as computed: almost the tangent `x` of an angle within `3 u` of half the given one -/
theorem tte_par (hu : R.u ≤ 1 / 10 ^ 6) {nu E0 : ℝ} (hn0 : 0 ≤ nu) (hn1 : nu < Real.pi) (hp : Real.tan (nu / 2) = E0)
    (hE0 : 20 * R.u ≤ E0) (hE1 : E0 ≤ 6) :
    ∃ E x : ℝ, wrap (ttePar (num R nu)) = num R E ∧ 0 ≤ E ∧ |Real.arctan x - nu / 2| ≤ 3 * R.u ∧ |x - E0| ≤ 3 * (1 + E0 ^ 2) * R.u ∧ |E - x| ≤ 20 * R.u := by
  have hu0 := R.u_nonneg
  have hpi := Real.pi_lt_d4
  have hpi2 := Real.pi_gt_d4
  have hE : 0 ≤ E0 := by linarith
  obtain ⟨w, hw⟩ : ∃ w, w = nu / 2 := ⟨_, rfl⟩
  rw [← hw] at hp ⊢
  have hw0 : 0 ≤ w := by linarith
  have hw1 : w < Real.pi / 2 := by linarith
  have hcw : 0 < Real.cos w := Real.cos_pos_of_mem_Ioo ⟨by linarith, hw1⟩
  have hsin : Real.sin w = E0 * Real.cos w := by rw [← hp, Real.tan_mul_cos hcw.ne']
  have hone : Real.cos w ^ 2 * (1 + E0 ^ 2) = 1 := by
    have := Real.sin_sq_add_cos_sq w
    rw [hsin] at this; linarith
  have hE2 : E0 ^ 2 ≤ 36 := (pow_le_pow_left₀ hE hE1 2).trans (by norm_num)
  have hc16 : 16 / 100 ≤ Real.cos w := by
    by_contra hn
    push Not at hn
    have : Real.cos w ^ 2 ≤ (16 / 100) ^ 2 := pow_le_pow_left₀ hcw.le hn.le 2
    have := mul_le_mul this (show 1 + E0 ^ 2 ≤ 37 by linarith) (by positivity) (by norm_num)
    norm_num at this
    linarith
  have hnu : num R nu * half = num R (R.rd w) := by
    rw [half_num, mul_num, show nu * (1 / 2) = w by rw [hw]; ring]
  have dy := rd_err (R := R) (x := w) (B := 1571 / 1000) hu (by rw [abs_of_nonneg hw0]; linarith)
  obtain ⟨y, hy⟩ : ∃ y, y = R.rd w := ⟨_, rfl⟩
  have hy0 : 0 ≤ y := by rw [hy]; exact rd_nonneg hw0
  rw [← hy] at dy
  have dy' : |y - w| ≤ 16 / 10 * R.u := dy.trans (by linarith)
  have hcy : (1 - 1 / 1000) * Real.cos w ≤ Real.cos y := by
    have h1 := Real.abs_cos_sub_cos_le y w
    have := (abs_le.mp (h1.trans dy')).1
    linarith
  have hcy0 : 0 < Real.cos y := by linarith
  have hy1 : y < Real.pi / 2 := by
    by_contra hn
    push Not at hn
    have := Real.cos_nonpos_of_pi_div_two_le_of_le hn (by linarith [(abs_le.mp dy').2])
    linarith
  have htd : |Real.tan y - E0| ≤ 161 / 100 * (1 + E0 ^ 2) * R.u := by
    have e1 : Real.tan y - E0 = Real.sin (y - w) / (Real.cos y * Real.cos w) := by
      rw [Real.sin_sub, hsin, Real.tan_eq_sin_div_cos]
      field_simp
    have h1 : |Real.sin (y - w)| ≤ |y - w| := by
      have := Real.abs_sin_sub_sin_le (y - w) 0
      simpa using this
    rw [e1, abs_div, abs_of_pos (mul_pos hcy0 hcw), div_le_iff₀ (mul_pos hcy0 hcw)]
    refine (h1.trans dy').trans ?_
    have h2 := mul_le_mul_of_nonneg_right hcy hcw.le
    have h3 := mul_le_mul_of_nonneg_left h2 (show 0 ≤ 161 / 100 * (1 + E0 ^ 2) * R.u by positivity)
    refine le_trans ?_ h3
    rw [show 161 / 100 * (1 + E0 ^ 2) * R.u * ((1 - 1 / 1000) * Real.cos w * Real.cos w) = 161 / 100 * (1 - 1 / 1000) * R.u * (Real.cos w ^ 2 * (1 + E0 ^ 2)) by ring, hone]
    linarith
  have htan0 : 0 ≤ Real.tan y := by rw [Real.tan_eq_sin_div_cos]; exact div_nonneg (Real.sin_nonneg_of_nonneg_of_le_pi hy0 (by linarith)) hcy0.le
  have htan : Np.tan (num R y) = num R (Real.tan y * Real.exp (R.lib .tan y)) := by
    show (⟨R.libRound .tan (fin y) (Np.tan (fin y))⟩ : RF R) = _
    rw [FX.tan_fin hcy0.ne']; rfl
  obtain ⟨x, hx⟩ : ∃ x, x = Real.tan y * Real.exp (R.lib .tan y) := ⟨_, rfl⟩
  have hsq := sq_nonneg (E0 - 1)
  have hEq : E0 ≤ (1 + E0 ^ 2) / 2 := by linarith
  have hU : (1 + E0 ^ 2) * R.u ≤ 37 * R.u := mul_le_mul_of_nonneg_right (by linarith) hu0
  have htd' := abs_le.mp htd
  have d2 := lib_err (R := R) (f := .tan) (x := y) (y := Real.tan y) (B := E0 + 1 / 1000) hu (by rw [abs_of_nonneg htan0]; linarith)
  rw [← hx] at d2
  have d3 : |x - E0| ≤ 3 * (1 + E0 ^ 2) * R.u := by
    have h4 : 101 / 100 * R.u * (E0 + 1 / 1000) ≤ 101 / 100 * R.u * ((1 + E0 ^ 2) / 2 + 1 / 1000 * (1 + E0 ^ 2)) :=
      mul_le_mul_of_nonneg_left (by linarith [sq_nonneg E0]) (by positivity)
    have h5 : 0 ≤ (1 + E0 ^ 2) * R.u := by positivity
    rw [abs_le] at d2 ⊢
    constructor <;> linarith
  have d3' := abs_le.mp d3
  have d4 := arctan_rel (Real.tan y) (R.lib .tan y)
  rw [← hx, Real.arctan_tan (by linarith) hy1] at d4
  have d5 := R.lib_le .tan y
  have hxlo : 13 * R.u ≤ x := by
    have h6 := mul_nonneg (mul_nonneg hE (sub_nonneg.mpr hE1)) hu0
    have h7 := mul_nonneg hE (sub_nonneg.mpr hu)
    linarith
  obtain ⟨E, w1, w2, w3⟩ := RHyper.wrap_pos hu (x := x) hxlo (by linarith)
  refine ⟨E, x, ?_, w2, ?_, d3, w3⟩
  · rw [ttePar, hnu, ← hy, htan, ← hx, w1]
  · rw [abs_le] at d4 dy' d5 ⊢
    have : |R.lib .tan y| ≤ R.u := R.lib_le .tan y
    constructor <;> linarith

/-! ## Barker's equation -/

/-- the exact solution -/
theorem barker_exact {M E0 : ℝ} (hM : E0 + E0 ^ 3 / 3 = M) :
    ∃ B : ℝ, 0 < B ∧ B = (3 / 2 * M + √((3 / 2 * M) ^ 2 + 1)) ^ (1 / 3 : ℝ) ∧ B - 1 / B = E0 ∧ B + 1 / B ≤ |E0| + 2 ∧ (2 ≤ |E0| → B + 1 / B ≤ 3 / 2 * |E0|) := by
  have hs := Real.sqrt_nonneg (E0 ^ 2 + 4)
  have hs2 := Real.sq_sqrt (show 0 ≤ E0 ^ 2 + 4 by positivity)
  obtain ⟨r, hr⟩ : ∃ r, r = √(E0 ^ 2 + 4) := ⟨_, rfl⟩
  rw [← hr] at hs hs2
  have hgt : |E0| < r := abs_lt_of_sq_lt_sq (by rw [hs2]; linarith) hs
  obtain ⟨a1, a2⟩ := abs_lt.mp hgt
  have hB : 0 < (E0 + r) / 2 := by linarith
  have hinv : 1 / ((E0 + r) / 2) = (r - E0) / 2 := by
    rw [div_eq_iff hB.ne']; linarith
  have hcube : ((E0 + r) / 2) ^ 3 = 3 / 2 * M + r * (E0 ^ 2 + 1) / 2 := by
    rw [← hM]
    have : r ^ 3 = r * (E0 ^ 2 + 4) := by rw [← hs2]; ring
    linear_combination (1 / 8) * this + (3 / 8) * E0 * hs2
  have hroot : √((3 / 2 * M) ^ 2 + 1) = r * (E0 ^ 2 + 1) / 2 := by
    rw [Real.sqrt_eq_iff_mul_self_eq (by positivity) (by positivity), ← hM]
    linear_combination -((E0 ^ 2 + 1) ^ 2 / 4) * hs2
  refine ⟨(E0 + r) / 2, hB, ?_, by rw [hinv]; ring, ?_, ?_⟩
  · rw [hroot, ← hcube, ← Real.rpow_natCast, ← Real.rpow_mul hB.le]
    norm_num
  · rw [hinv, show (E0 + r) / 2 + (r - E0) / 2 = r by ring]
    refine abs_le_of_sq_le_sq' ?_ (by positivity) |>.2
    rw [hs2]
    linarith [abs_nonneg E0, sq_abs E0]
  · intro h2
    rw [hinv, show (E0 + r) / 2 + (r - E0) / 2 = r by ring]
    refine abs_le_of_sq_le_sq' ?_ (by positivity) |>.2
    rw [hs2]
    linarith [mul_le_mul h2 h2 (by norm_num) (abs_nonneg E0), sq_abs E0]

theorem threeHalves (M : ℝ) : Rel 1 ((3 / 2 : RF R) * num R M) (3 / 2 * M) := by
  have h : (3 / 2 : RF R) = num R (3 / 2) := by
    rw [three_num, two_num, div_num _ (by norm_num)]
    have h2 := R.exact 6 (by norm_num)
    rw [show (((6 : ℤ) : ℝ) / 4) = 3 / 2 by norm_num] at h2
    rw [Rounding.rd, h2]; simp
  rw [h]
  exact ((Rel.num (3 / 2)).mul (Rel.num M)).mono (by norm_num)

theorem root_rel (M : ℝ) : Rel 3 (Np.sqrt (sq ((3 / 2 : RF R) * num R M) + 1)) √((3 / 2 * M) ^ 2 + 1) := by
  have h1 := (threeHalves (R := R) M).mul (threeHalves M)
  have h2 := ((h1.mono (show (1 : ℝ) + 1 + 1 ≤ 3 by norm_num)).add ((Rel.num (R := R) 1).mono (show (0 : ℝ) ≤ 3 by norm_num)) (mul_self_nonneg _) (by norm_num)).sqrt (add_nonneg (mul_self_nonneg _) zero_le_one)
  rw [Pyorb.sq, one_num, show (3 / 2 * M) ^ 2 + 1 = 3 / 2 * M * (3 / 2 * M) + 1 by ring]
  exact h2.mono (by norm_num)

/-- from a relative error of the argument of the cube root -/
theorem barker_of {M E0 k : ℝ} (hk : 0 ≤ k) (hM : E0 + E0 ^ 3 / 3 = M)
    (h : Rel (3 * k) ((3 / 2 : RF R) * num R M + Np.sqrt (sq ((3 / 2 : RF R) * num R M) + 1)) (3 / 2 * M + √((3 / 2 * M) ^ 2 + 1))) :
    ∃ B : ℝ, Near (k + 3) B (barker (num R M)) E0 ∧ 0 < B ∧ B ≤ |E0| + 2 ∧ (2 ≤ |E0| → B ≤ 3 / 2 * |E0|) := by
  obtain ⟨B, b1, b2, b3, b4, b5⟩ := barker_exact hM
  have hpos : 0 ≤ 3 / 2 * M + √((3 / 2 * M) ^ 2 + 1) := by
    have := Real.abs_le_sqrt (show (3 / 2 * M) ^ 2 ≤ (3 / 2 * M) ^ 2 + 1 by linarith)
    linarith [(abs_le.mp this).1]
  have hB := (h.cbrt hpos).mono (show 3 * k / 3 + 1 ≤ k + 1 by linarith)
  rw [← b2] at hB
  have hB' := (Rel.num (R := R) 1).div hB b1.ne'
  have n1 : Near (k + 2) B _ B := (hB.near (by rw [abs_of_pos b1])).mono (by linarith) (by linarith) le_rfl
  have n2 := (hB'.mono (show 0 + (k + 1) + 1 ≤ k + 2 by linarith)).near (B := 1 / B) (by rw [abs_of_pos (by positivity)])
  have n3 := n1.sub n2
  rw [b3, ← one_num] at n3
  exact ⟨B + 1 / B, n3.mono (by linarith) (by linarith) le_rfl, by positivity, b4, b5⟩

/-- the outbound leg -/
theorem barker_pos {M E0 : ℝ} (h0 : 0 ≤ M) (hM : E0 + E0 ^ 3 / 3 = M) :
    ∃ B : ℝ, Near (13 / 3) B (barker (num R M)) E0 ∧ 0 < B ∧ B ≤ |E0| + 2 ∧ (2 ≤ |E0| → B ≤ 3 / 2 * |E0|) := by
  have h := ((threeHalves (R := R) M).mono (show (1 : ℝ) ≤ 3 by norm_num)).add (root_rel M) (by positivity) (Real.sqrt_nonneg _)
  obtain ⟨B, b1, b2⟩ := barker_of (k := 4 / 3) (by norm_num) hM (h.mono (by norm_num))
  exact ⟨B, by rw [show (13 / 3 : ℝ) = 4 / 3 + 3 by norm_num]; exact b1, b2⟩

/-- both legs: cancellation costs a factor of `1 + M^2` -/
theorem barker_all {M E0 : ℝ} (hu : 200 * (1 + M ^ 2) * R.u ≤ 1) (hM : E0 + E0 ^ 3 / 3 = M) :
    ∃ B : ℝ, Near (27 * (1 + M ^ 2)) B (barker (num R M)) E0 ∧ 0 < B ∧ B ≤ |E0| + 2 ∧ (2 ≤ |E0| → B ≤ 3 / 2 * |E0|) := by
  have hM2 := sq_nonneg M
  obtain ⟨A, hA⟩ : ∃ A, A = 3 / 2 * M := ⟨_, rfl⟩
  have hr := root_rel (R := R) M
  have hS0 := Real.sqrt_nonneg (A ^ 2 + 1)
  have hS2 := Real.sq_sqrt (show 0 ≤ A ^ 2 + 1 by positivity)
  rw [← hA] at hr
  obtain ⟨S, hS⟩ : ∃ S, S = √(A ^ 2 + 1) := ⟨_, rfl⟩
  rw [← hS] at hr hS0 hS2
  have hlt : |A| < S := abs_lt_of_sq_lt_sq (by rw [hS2]; linarith) hS0
  have hlt' := abs_lt.mp hlt
  have n1 : Near 3 |A| ((3 / 2 : RF R) * num R M) A := by
    rw [hA]
    exact ((threeHalves (R := R) M).near le_rfl).mono (by norm_num) (by norm_num) le_rfl
  have n2 := n1.add (hr.near (B := S) (by rw [abs_of_nonneg hS0]))
  have hA2 : A ^ 2 ≤ 9 / 4 * M ^ 2 := by rw [hA]; exact le_of_eq (by ring)
  have hcond : |A| + S ≤ 9 * (1 + M ^ 2) * |A + S| := by
    have hp : 0 < A + S := by linarith
    rw [abs_of_pos hp]
    have h1 : 1 ≤ (A + S) * (|A| + S) := by
      rcases le_total 0 A with h | h
      · rw [abs_of_nonneg h]; linarith [mul_nonneg h hS0, sq_nonneg A]
      · rw [abs_of_nonpos h]; linarith
    have h2 : (|A| + S) ^ 2 ≤ 9 * (1 + M ^ 2) := by
      have h3 : (|A| + S) ^ 2 ≤ (S + S) ^ 2 := pow_le_pow_left₀ (by positivity) (by linarith) 2
      have h4 : (S + S) ^ 2 = 4 * S ^ 2 := by ring
      rw [h4, hS2] at h3
      linarith
    have h5 : 0 ≤ |A| + S := by positivity
    calc |A| + S ≤ (|A| + S) * ((A + S) * (|A| + S)) := le_mul_of_one_le_right h5 h1
      _ = (|A| + S) ^ 2 * (A + S) := by ring
      _ ≤ _ := mul_le_mul_of_nonneg_right h2 hp.le
  have h := n2.rel (c := 9 * (1 + M ^ 2)) (by norm_num) hcond (by linarith) (by linarith)
  have h' := h.mono (show 2 * (3 + 1) * (9 * (1 + M ^ 2)) ≤ 3 * (24 * (1 + M ^ 2)) by linarith)
  rw [hS, hA] at h'
  obtain ⟨B, b1, b2⟩ := barker_of (by positivity) hM h'
  exact ⟨B, b1.mono (by linarith) (by positivity) le_rfl, b2⟩

theorem arctan_lipschitz (x y : ℝ) : |Real.arctan x - Real.arctan y| ≤ |x - y| := by
  have hb : ∀ x : ℝ, ‖1 / (1 + x ^ 2)‖ ≤ 1 := fun x => by
    rw [Real.norm_eq_abs, abs_of_pos (by positivity), div_le_one (by positivity)]
    nlinarith [sq_nonneg x]
  have := Convex.norm_image_sub_le_of_norm_hasDerivWithin_le (f := Real.arctan) (s := Set.univ)
    (fun x _ => (Real.hasDerivAt_arctan x).hasDerivWithinAt) (fun x _ => hb x) convex_univ (Set.mem_univ y) (Set.mem_univ x)
  simpa only [Real.norm_eq_abs, one_mul] using this

/-- what the error of the anomaly means for the angle -/
theorem angle_of {k B x E0 : ℝ} {a : RF R} (hk : 1 ≤ k) (hku : 6 * k * R.u ≤ 1) (ha : a = num R x) (h : Near k B a E0) (hB : B ≤ |E0| + 2) (hB2 : 2 ≤ |E0| → B ≤ 3 / 2 * |E0|) :
    |Real.arctan x - Real.arctan E0| ≤ 16 / 3 * k * R.u := by
  have hu0 := R.u_nonneg
  rcases le_total 2 |E0| with h2 | h2
  · obtain ⟨t, t1, t2⟩ := h.rel (c := 3 / 2) (by linarith) (hB2 h2) (by norm_num) (by linarith)
    have hx : x = E0 * Real.exp t := num_inj (ha.symm.trans t2)
    rw [hx]
    have h3 := arctan_rel E0 t
    have : 0 ≤ k * R.u := by positivity
    linarith
  · obtain ⟨y, y1, y2⟩ := h.abs_le (by linarith) (by linarith [mul_nonneg (show 0 ≤ k by linarith) hu0])
    have hx : x = y := num_inj (ha.symm.trans y1)
    have hl : |Real.arctan x - Real.arctan E0| ≤ |x - E0| := by
      exact arctan_lipschitz x E0
    rw [hx] at hl ⊢
    have h4 : 4 / 3 * k * R.u * B ≤ 4 / 3 * k * R.u * 4 := mul_le_mul_of_nonneg_left (by linarith) (by positivity)
    linarith

end RPar

open RPar
variable {R : Rounding}

/-! ## C106 -/

/-- C106: in every arithmetic with unit roundoff `u ≤ 1e-6`, for a parabola and every anomaly `E`, `eccentric_to_true` returns a number in `[0, 6.29]`
which differs by at most `80 u` from an exact true anomaly `nu0`, `tan (nu0 / 2) = E` -/
theorem c106_true (g : Nat → RF R) (hu : R.u ≤ 1 / 10 ^ 6) (E : ℝ) :
    ∃ nu nu0 : ℝ, eccentric_to_true g (rfl64 R E) (rfl64 R 1) false = .ok (rfl64 R nu) ∧ 0 ≤ nu ∧ nu ≤ 629 / 100 ∧ Real.cos (nu0 / 2) ≠ 0 ∧ Real.tan (nu0 / 2) = E ∧
      |nu - nu0| ≤ 80 * R.u := by
  obtain ⟨nu, z, k1, k2, k3, k4⟩ := ett_par (R := R) hu E
  obtain ⟨l1, l2⟩ := par_point E z
  refine ⟨nu, _, ?_, k2, k3, l1, l2, k4⟩
  show Except.ok (Arg.sc .f64 (eccentricToTrueSc (num R E) (num R 1))) = _
  rw [eccentricToTrueSc, par_sc, k1]; rfl

/-- C106: `eccentric_to_mean` on a parabola has a relative error of at most `6 u` -/
theorem c106_mean (g : Nat → RF R) (hu : R.u ≤ 1 / 10 ^ 6) (E : ℝ) :
    ∃ M : ℝ, eccentric_to_mean g (rfl64 R E) (rfl64 R 1) false = .ok (rfl64 R M) ∧ |M - (E + E ^ 3 / 3)| ≤ 6 * R.u * |E + E ^ 3 / 3| := by
  obtain ⟨M, k1, k2⟩ := etm_par (R := R) hu E
  refine ⟨M, ?_, k2⟩
  show Except.ok (Arg.sc .f64 (eccentricToMeanSc (num R E) (num R 1))) = _
  rw [eccentricToMeanSc, par_sc, k1]; rfl

/-- C106: `true_to_eccentric` on the outbound leg of a parabola, for `20 u ≤ tan (nu / 2) ≤ 6` -/
theorem c106_eccentric (g : Nat → RF R) (hu : R.u ≤ 1 / 10 ^ 6) {nu E0 : ℝ} (hn0 : 0 ≤ nu) (hn1 : nu < Real.pi) (hp : Real.tan (nu / 2) = E0)
    (hE0 : 20 * R.u ≤ E0) (hE1 : E0 ≤ 6) :
    ∃ E : ℝ, true_to_eccentric g (rfl64 R nu) (rfl64 R 1) false = .ok (rfl64 R E) ∧ 0 ≤ E ∧ |E - E0| ≤ (3 * (1 + E0 ^ 2) + 20) * R.u := by
  obtain ⟨E, x, k1, k2, k3, k4, k5⟩ := tte_par (R := R) hu hn0 hn1 hp hE0 hE1
  refine ⟨E, ?_, k2, ?_⟩
  · show Except.ok (Arg.sc .f64 (trueToEccentricSc (num R nu) (num R 1))) = _
    rw [trueToEccentricSc, par_sc, k1]; rfl
  · rw [abs_le] at k4 k5 ⊢
    constructor <;> linarith

/-- C106: `true_to_mean` there -/
theorem c106_true_to_mean (g g' : Nat → RF R) (hu : R.u ≤ 1 / 10 ^ 6) {nu E0 : ℝ} (hn0 : 0 ≤ nu) (hn1 : nu < Real.pi) (hp : Real.tan (nu / 2) = E0)
    (hE0 : 20 * R.u ≤ E0) (hE1 : E0 ≤ 6) :
    ∃ M : ℝ, true_to_mean g g' (rfl64 R nu) (rfl64 R 1) false = .ok (rfl64 R M) ∧ |M - (E0 + E0 ^ 3 / 3)| ≤ 40 * (1 + E0 ^ 2) ^ 2 * R.u := by
  have hu0 := R.u_nonneg
  obtain ⟨E, x, k1, k2, k3, k4, k5⟩ := tte_par (R := R) hu hn0 hn1 hp hE0 hE1
  obtain ⟨M, m1, m2⟩ := etm_par (R := R) hu E
  refine ⟨M, ?_, ?_⟩
  · show Except.ok (Arg.sc .f64 (eccentricToMeanSc (trueToEccentricSc (num R nu) (num R 1)) (num R 1))) = _
    rw [trueToEccentricSc, par_sc, k1, eccentricToMeanSc, par_sc, m1]; rfl
  · obtain ⟨c, hc⟩ : ∃ c, c = 1 + E0 ^ 2 := ⟨_, rfl⟩
    have hE : 0 ≤ E0 := by linarith
    have hc1 : 1 ≤ c := by rw [hc]; linarith [sq_nonneg E0]
    have hc37 : c ≤ 37 := by rw [hc]; linarith [pow_le_pow_left₀ hE hE1 2]
    rw [← hc] at k4 ⊢
    have hcu : c * R.u ≤ 37 * R.u := mul_le_mul_of_nonneg_right hc37 hu0
    have hd : |E - E0| ≤ 23 * c * R.u := by
      have : R.u ≤ c * R.u := le_mul_of_one_le_left hu0 hc1
      rw [abs_le] at k4 k5 ⊢
      constructor <;> linarith
    have hd3 : |E - E0| ≤ 1 / 1000 := hd.trans (by linarith)
    have hd' := abs_le.mp hd3
    -- the exact functions
    have hq : 1 + (E ^ 2 + E * E0 + E0 ^ 2) / 3 ≤ 101 / 100 * c := by
      have h1 : E ≤ E0 + 1 / 1000 := by linarith
      have h2 : E ^ 2 ≤ (E0 + 1 / 1000) ^ 2 := pow_le_pow_left₀ k2 h1 2
      have h3 : E * E0 ≤ (E0 + 1 / 1000) * E0 := mul_le_mul_of_nonneg_right h1 hE
      rw [hc]
      linarith [sq_nonneg (E0 - 1), sq_nonneg E0]
    have hq0 : 0 ≤ 1 + (E ^ 2 + E * E0 + E0 ^ 2) / 3 := by positivity
    have hm : |(E + E ^ 3 / 3) - (E0 + E0 ^ 3 / 3)| ≤ 101 / 100 * c * (23 * c * R.u) := by
      rw [show (E + E ^ 3 / 3) - (E0 + E0 ^ 3 / 3) = (1 + (E ^ 2 + E * E0 + E0 ^ 2) / 3) * (E - E0) by ring, abs_mul, abs_of_nonneg hq0]
      exact mul_le_mul hq hd (abs_nonneg _) (by positivity)
    have hb : |E + E ^ 3 / 3| ≤ 2 * c ^ 2 := by
      rw [abs_of_nonneg (by positivity)]
      have h1 : E + E ^ 3 / 3 = E * (1 + E ^ 2 / 3) := by ring
      have h2 : E ≤ c := by rw [hc]; linarith [sq_nonneg (E0 - 1 / 2)]
      have h3 : 1 + E ^ 2 / 3 ≤ 2 * c := by
        have : E ^ 2 ≤ (E0 + 1 / 1000) ^ 2 := pow_le_pow_left₀ k2 (by linarith) 2
        rw [hc]; linarith [sq_nonneg (E0 - 1), sq_nonneg E0]
      rw [h1]
      calc E * (1 + E ^ 2 / 3) ≤ c * (2 * c) := mul_le_mul h2 h3 (by positivity) (by linarith)
        _ = _ := by ring
    have hb2 := mul_le_mul_of_nonneg_left hb (show 0 ≤ 6 * R.u by linarith)
    have hcc : 0 ≤ c ^ 2 * R.u := by positivity
    have e1 : 101 / 100 * c * (23 * c * R.u) = 2323 / 100 * (c ^ 2 * R.u) := by ring
    have e2 : 6 * R.u * (2 * c ^ 2) = 12 * (c ^ 2 * R.u) := by ring
    rw [e1] at hm
    rw [e2] at hb2
    have m3 := m2.trans hb2
    rw [abs_le] at hm m3 ⊢
    constructor <;> linarith

/-- C106: from the true anomaly to `E` and back gives the same angle, up to turns and `130 u` -/
theorem c106_round_trip (g g' : Nat → RF R) (hu : R.u ≤ 1 / 10 ^ 6) {nu E0 : ℝ} (hn0 : 0 ≤ nu) (hn1 : nu < Real.pi) (hp : Real.tan (nu / 2) = E0)
    (hE0 : 20 * R.u ≤ E0) (hE1 : E0 ≤ 6) :
    ∃ (E nu' : ℝ) (z : ℤ), true_to_eccentric g (rfl64 R nu) (rfl64 R 1) false = .ok (rfl64 R E) ∧
      eccentric_to_true g' (rfl64 R E) (rfl64 R 1) false = .ok (rfl64 R nu') ∧ |nu' - (nu + z * (2 * Real.pi))| ≤ 130 * R.u := by
  obtain ⟨E, x, k1, k2, k3, k4, k5⟩ := tte_par (R := R) hu hn0 hn1 hp hE0 hE1
  obtain ⟨nu', z, l1, l2, l3, l4⟩ := ett_par (R := R) hu E
  refine ⟨E, nu', z, ?_, ?_, ?_⟩
  · show Except.ok (Arg.sc .f64 (trueToEccentricSc (num R nu) (num R 1))) = _
    rw [trueToEccentricSc, par_sc, k1]; rfl
  · show Except.ok (Arg.sc .f64 (eccentricToTrueSc (num R E) (num R 1))) = _
    rw [eccentricToTrueSc, par_sc, l1]; rfl
  · have d := (arctan_lipschitz E x).trans k5
    rw [abs_le] at d k3 l4 ⊢
    constructor <;> linarith

/-- `mean_to_eccentric` of a parabola is the closed formula -/
theorem mte_par (o : SolverOpts (RF R)) (M : ℝ) : mean_to_eccentric o (rfl64 R M) (rfl64 R 1) false = .ok (.sc .f64 (barker (num R M))) := by
  rw [mean_to_eccentric_num, meanToEccentricSc]
  simp only [zero_num, eq_num, one_ne_zero, decide_false, Bool.false_eq_true, if_false, meanToEccentricEl, one_num, lt_num, lt_irrefl, decide_true, if_true]

theorem mtt_par (g : Nat → RF R) (o : SolverOpts (RF R)) (hu : R.u ≤ 1 / 10 ^ 6) {M E : ℝ} (h : barker (num R M) = num R E) :
    ∃ (nu : ℝ) (z : ℤ), mean_to_true g o (rfl64 R M) (rfl64 R 1) false = .ok (rfl64 R nu) ∧ 0 ≤ nu ∧ nu ≤ 629 / 100 ∧
      |nu - (2 * Real.arctan E + z * (2 * Real.pi))| ≤ 80 * R.u := by
  obtain ⟨nu, z, l1, l2, l3, l4⟩ := ett_par (R := R) hu E
  refine ⟨nu, z, ?_, l2, l3, l4⟩
  have k4 : eccentric_to_true g (rfl64 R E) (rfl64 R 1) false = .ok (rfl64 R nu) := by
    show Except.ok (Arg.sc .f64 (eccentricToTrueSc (num R E) (num R 1))) = _
    rw [eccentricToTrueSc, par_sc, l1]; rfl
  show (mean_to_eccentric o (rfl64 R M) (rfl64 R 1) false >>= fun E => eccentric_to_true g E (rfl64 R 1) false >>= fun nu => pure nu) = _
  rw [mte_par, h]
  show (eccentric_to_true g (rfl64 R E) (rfl64 R 1) false >>= fun nu => pure nu) = _
  rw [k4]; rfl

/-- C106: Barker's equation on the outbound leg: `mean_to_eccentric` has an error of at most `6 u (E0 + 2)`, `mean_to_true` of at most `130 u` -/
theorem c106_outbound (g : Nat → RF R) (o : SolverOpts (RF R)) (hu : R.u ≤ 1 / 10 ^ 6) {M E0 : ℝ} (h0 : 0 ≤ M) (hM : E0 + E0 ^ 3 / 3 = M) :
    ∃ E nu nu0 : ℝ, mean_to_eccentric o (rfl64 R M) (rfl64 R 1) false = .ok (rfl64 R E) ∧ |E - E0| ≤ 6 * R.u * (|E0| + 2) ∧
      mean_to_true g o (rfl64 R M) (rfl64 R 1) false = .ok (rfl64 R nu) ∧ 0 ≤ nu ∧ nu ≤ 629 / 100 ∧
      Real.cos (nu0 / 2) ≠ 0 ∧ Real.tan (nu0 / 2) = E0 ∧ |nu - nu0| ≤ 130 * R.u := by
  have hu0 := R.u_nonneg
  obtain ⟨B, b1, b2, b3, b4⟩ := barker_pos (R := R) h0 hM
  obtain ⟨E, e1, e2⟩ := b1.abs_le (by norm_num) (by linarith)
  obtain ⟨nu, z, n1, n2, n3, n4⟩ := mtt_par g o hu e1
  obtain ⟨l1, l2⟩ := par_point E0 z
  refine ⟨E, nu, _, by rw [mte_par, e1]; rfl, ?_, n1, n2, n3, l1, l2, ?_⟩
  · refine e2.trans ?_
    have := mul_le_mul_of_nonneg_left b3 (show 0 ≤ 4 / 3 * (13 / 3) * R.u by positivity)
    have : 0 ≤ R.u * (|E0| + 2) := by positivity
    linarith
  · have d := angle_of (by norm_num) (by linarith) e1 b1 b3 b4
    rw [abs_le] at d n4 ⊢
    constructor <;> linarith

/-- C106: on both legs the errors are at most `36 u (1 + M^2) (E0 + 2)` and `(80 + 288 (1 + M^2)) u` -/
theorem c106_both (g : Nat → RF R) (o : SolverOpts (RF R)) (hu : R.u ≤ 1 / 10 ^ 6) {M E0 : ℝ} (hMu : 200 * (1 + M ^ 2) * R.u ≤ 1) (hM : E0 + E0 ^ 3 / 3 = M) :
    ∃ E nu nu0 : ℝ, mean_to_eccentric o (rfl64 R M) (rfl64 R 1) false = .ok (rfl64 R E) ∧ |E - E0| ≤ 36 * (1 + M ^ 2) * R.u * (|E0| + 2) ∧
      mean_to_true g o (rfl64 R M) (rfl64 R 1) false = .ok (rfl64 R nu) ∧ 0 ≤ nu ∧ nu ≤ 629 / 100 ∧
      Real.cos (nu0 / 2) ≠ 0 ∧ Real.tan (nu0 / 2) = E0 ∧ |nu - nu0| ≤ (80 + 288 * (1 + M ^ 2)) * R.u := by
  have hu0 := R.u_nonneg
  have hM2 := sq_nonneg M
  obtain ⟨B, b1, b2, b3, b4⟩ := barker_all (R := R) hMu hM
  obtain ⟨E, e1, e2⟩ := b1.abs_le (by positivity) (by linarith)
  obtain ⟨nu, z, n1, n2, n3, n4⟩ := mtt_par g o hu e1
  obtain ⟨l1, l2⟩ := par_point E0 z
  refine ⟨E, nu, _, by rw [mte_par, e1]; rfl, ?_, n1, n2, n3, l1, l2, ?_⟩
  · refine e2.trans ?_
    have := mul_le_mul_of_nonneg_left b3 (show 0 ≤ 4 / 3 * (27 * (1 + M ^ 2)) * R.u by positivity)
    linarith
  · have d := angle_of (by linarith) (by linarith) e1 b1 b3 b4
    rw [abs_le] at d n4 ⊢
    constructor <;> linarith

/-- C106: the factor `1 + M^2` is not an artefact: with rounding to nearest, on the inbound leg `mean_to_eccentric` returns `-inf` for `M = -2^k`, `k ≥ 27`,
(about `-1.3e8`), where the anomaly is a number -/
theorem c106_inbound_overflow (hR : Nearest R) (o : SolverOpts (RF R)) (k : Nat) (hk : 27 ≤ k) :
    mean_to_eccentric o (rfl64 R (-2 ^ k)) (rfl64 R 1) false = .ok (.sc .f64 ⟨ninf⟩) ∧ ∃ E0 : ℝ, E0 + E0 ^ 3 / 3 = -2 ^ k := by
  refine ⟨?_, parInv (-2 ^ k), barker_parInv _⟩
  obtain ⟨j, rfl⟩ : ∃ j, k = j + 27 := ⟨k - 27, by omega⟩
  obtain ⟨x, hx⟩ : ∃ x : ℝ, x = 3 * 2 ^ (j + 26) := ⟨_, rfl⟩
  have hx0 : 0 < x := by rw [hx]; positivity
  have dx : Digits53 x := ⟨3, ((j + 26 : ℕ) : ℤ), by norm_num, by rw [hx, zpow_natCast, Int.cast_ofNat]⟩
  have dx2 : Digits53 (x * x) := ⟨9, ((2 * (j + 26) : ℕ) : ℤ), by norm_num, by
    rw [hx, zpow_natCast, Int.cast_ofNat, mul_comm 2 (j + 26), pow_mul]
    ring⟩
  have fix : ∀ y, Digits53 y → R.rd y = y := fun y hy => hR.id hy
  have h32 : (3 / 2 : RF R) = num R (3 / 2) := by
    rw [three_num, two_num, div_num _ (by norm_num), fix (3 / 2) ⟨3, -1, by norm_num, by norm_num⟩]
  have hA : (3 / 2 : RF R) * num R (-2 ^ (j + 27)) = num R (-x) := by
    rw [h32, mul_num, show (3 / 2 : ℝ) * -2 ^ (j + 27) = -x by rw [hx]; ring, fix _ dx.neg]
  have hrd : R.rd (x * x + 1) = x * x := by
    have hp : (2 : ℝ) ^ (2 * j : ℕ) = (2 ^ j) ^ 2 := by rw [mul_comm, pow_mul]
    have hj : (1 : ℝ) ≤ (2 ^ j) ^ 2 := one_le_pow₀ (one_le_pow₀ (by norm_num))
    have hxx : x * x = 9 * 2 ^ 52 * (2 ^ j) ^ 2 := by rw [hx]; ring
    have hn := hR.nearest (x * x + 1) (x * x) dx2
    rw [show x * x - (x * x + 1) = -1 by ring, abs_neg, abs_one] at hn
    obtain ⟨n1, n2⟩ := abs_le.mp hn
    have hz : (2 : ℝ) ^ ((2 * j + 3 : ℕ) : ℤ) = 8 * (2 ^ j) ^ 2 := by rw [zpow_natCast, pow_add, hp]; ring
    obtain ⟨m, hm⟩ := (hR.digits (x * x + 1)).units (k := ((2 * j + 3 : ℕ) : ℤ)) (by
      rw [zpow_add₀ two_ne_zero, hz, abs_of_nonneg (by linarith [mul_self_nonneg x])]
      norm_num
      linarith)
    rw [hz] at hm
    have h8 : (8 : ℝ) ≤ 8 * (2 ^ j) ^ 2 := by linarith
    have hmm : (m : ℝ) = 9 * 2 ^ 49 := by
      have e : x * x = (9 * 2 ^ 49) * (8 * (2 ^ j) ^ 2) := by rw [hxx]; ring
      have h1 : |((m - 9 * 2 ^ 49 : ℤ) : ℝ)| * (8 * (2 ^ j) ^ 2) ≤ 2 := by
        rw [← abs_of_pos (show (0 : ℝ) < 8 * (2 ^ j) ^ 2 by linarith), ← abs_mul]
        push_cast
        rw [show ((m : ℝ) - 5066549580791808) * (8 * (2 ^ j) ^ 2) = m * (8 * (2 ^ j) ^ 2) - x * x by rw [e]; ring, ← hm, abs_le]
        constructor <;> linarith
      have h2 : |((m - 9 * 2 ^ 49 : ℤ) : ℝ)| < 1 := by
        by_contra hc
        push Not at hc
        have := mul_le_mul_of_nonneg_right hc (show (0 : ℝ) ≤ 8 * (2 ^ j) ^ 2 by linarith)
        linarith
      have h3 : |m - 9 * 2 ^ 49| < 1 := by exact_mod_cast h2
      have h4 : m - 9 * 2 ^ 49 = 0 := Int.abs_lt_one_iff.mp h3
      have h5 : m = 9 * 2 ^ 49 := by linarith
      rw [h5]; norm_num
    rw [hm, hmm, hxx]; ring
  have hroot : Np.sqrt (sq (num R (-x)) + 1) = num R x := by
    rw [Pyorb.sq, mul_num, show -x * -x = x * x by ring, fix _ dx2, one_num, add_num, hrd, sqrt_num (mul_self_nonneg x), Real.sqrt_mul_self hx0.le, fix _ dx]
  rw [mte_par, barker, hA, hroot, add_num, show -x + x = 0 by ring, fix 0 Digits53.zero, cbrt_num]
  have h0 : realCbrt 0 = 0 := by rw [realCbrt, if_pos le_rfl, Real.zero_rpow (by norm_num)]
  rw [h0, zero_mul, one_num]
  have hdiv : (num R 1 / num R 0 : RF R) = ⟨pinf⟩ := by
    show (⟨R.round (FX.div (fin 1) (fin 0))⟩ : RF R) = _
    simp [FX.div, FX.infSign, Rounding.round]
  rw [hdiv]
  rfl

/-- a case: double precision, Barker's equation for `M = 4/3`, whose solution is 1 (true anomaly 90 degrees) -/
example (g : Nat → RF Binary.binary64) : ∃ E nu nu0 : ℝ, mean_to_eccentric .dflt (rfl64 Binary.binary64 (4 / 3)) (rfl64 _ 1) false = .ok (rfl64 _ E) ∧
    |E - 1| ≤ 6 * (1 / 2 : ℝ) ^ 53 * (|1| + 2) ∧ mean_to_true g .dflt (rfl64 Binary.binary64 (4 / 3)) (rfl64 _ 1) false = .ok (rfl64 _ nu) ∧ 0 ≤ nu ∧ nu ≤ 629 / 100 ∧
    Real.cos (nu0 / 2) ≠ 0 ∧ Real.tan (nu0 / 2) = 1 ∧ |nu - nu0| ≤ 130 * (1 / 2 : ℝ) ^ 53 :=
  c106_outbound (R := Binary.binary64) g .dflt (show (1 / 2 : ℝ) ^ 53 ≤ 1 / 10 ^ 6 by norm_num) (by norm_num) (by norm_num)

/-- a case of the overflow: double precision, `mean_to_eccentric(-2.0**27, 1.0)` -/
example : mean_to_eccentric .dflt (rfl64 Binary.binary64 (-2 ^ 27)) (rfl64 _ 1) false = .ok (.sc .f64 ⟨ninf⟩) :=
  (c106_inbound_overflow Binary.nearest .dflt 27 le_rfl).1

/-- a case of the conversion of angles: a right angle -/
example (g g' : Nat → RF Binary.binary64) : ∃ (E nu' : ℝ) (z : ℤ), true_to_eccentric g (rfl64 Binary.binary64 (Real.pi / 2)) (rfl64 _ 1) false = .ok (rfl64 _ E) ∧
    eccentric_to_true g' (rfl64 Binary.binary64 E) (rfl64 _ 1) false = .ok (rfl64 _ nu') ∧ |nu' - (Real.pi / 2 + z * (2 * Real.pi))| ≤ 130 * (1 / 2 : ℝ) ^ 53 :=
  c106_round_trip (R := Binary.binary64) g g' (show (1 / 2 : ℝ) ^ 53 ≤ 1 / 10 ^ 6 by norm_num) (E0 := 1) (by positivity) (by linarith [Real.pi_pos])
    (by rw [show Real.pi / 2 / 2 = Real.pi / 4 by ring, Real.tan_pi_div_four]) (show 20 * (1 / 2 : ℝ) ^ 53 ≤ 1 by norm_num) (by norm_num)

end Pyorb
