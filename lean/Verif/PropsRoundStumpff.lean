import Verif.PropsStumpff
import Verif.Nearest
import Mathlib.Analysis.SpecialFunctions.Trigonometric.Bounds
import Mathlib.Analysis.SpecialFunctions.Trigonometric.DerivHyp

/-!
# The Stumpff functions computed with rounding (C99)

`c2(x) = (1 - cos(sqrt x))/x` and `c3(x) = (sqrt x - sin(sqrt x))/(x sqrt x)` subtract numbers that are nearly equal for small `x`.  The error is at most
a few units of rounding, divided by `x`; and that is what happens: for `|x| <= 2^-54` the two functions return 0 in double precision, where the
series are near 1/2 and 1/6.
-/

set_option linter.unusedSimpArgs false
set_option linter.unusedVariables false

namespace Pyorb
open FX RF
variable {R : Rounding}

namespace RStumpff

theorem exp_err (hu : R.u ≤ 1 / 10 ^ 6) {k t : ℝ} (hk0 : 0 ≤ k) (hk : k ≤ 8) (ht : |t| ≤ k * R.u) : |Real.exp t - 1| ≤ 101 / 100 * (k * R.u) := by
  have hu0 := R.u_nonneg
  refine (exp_diff ht).trans ?_
  obtain ⟨s, hs⟩ : ∃ s, s = k * R.u := ⟨_, rfl⟩
  have h0 : 0 ≤ s := by rw [hs]; positivity
  have h8 : s ≤ 8 * (1 / 10 ^ 6) := by rw [hs]; exact mul_le_mul hk hu hu0 (by norm_num)
  rw [← hs]
  have h2 := Real.add_one_le_exp (-s)
  have h3 : Real.exp s * Real.exp (-s) = 1 := by rw [← Real.exp_add]; simp
  have h4 := Real.exp_pos s
  have h5 : Real.exp s * (1 - s) ≤ 1 := by nlinarith
  have h6 : Real.exp s ≤ 1.001 := by
    by_contra hc
    rw [not_le] at hc
    norm_num at h8 hc
    nlinarith
  norm_num at h6 h8
  nlinarith

theorem factor_err (hu : R.u ≤ 1 / 10 ^ 6) {k t y : ℝ} (hk0 : 0 ≤ k) (hk : k ≤ 8) (ht : |t| ≤ k * R.u) : |y * Real.exp t - y| ≤ 101 / 100 * (k * R.u) * |y| := by
  have h := exp_err hu hk0 hk ht
  rw [show y * Real.exp t - y = (Real.exp t - 1) * y by ring, abs_mul]
  exact mul_le_mul_of_nonneg_right h (abs_nonneg y)

/-- a sum of two factors -/
theorem add_le2 {a b j k : ℝ} (ha : |a| ≤ j * R.u) (hb : |b| ≤ k * R.u) : |a + b| ≤ (j + k) * R.u := by
  have := abs_add_le a b
  linarith

theorem th1 (x : ℝ) : |R.th x| ≤ 1 * R.u := by rw [one_mul]; exact R.th_le x
theorem lib1 (f : LibFn) (x : ℝ) : |R.lib f x| ≤ 1 * R.u := by rw [one_mul]; exact R.lib_le f x

theorem store_num (x : RF R) : store .f64 x = x := rfl

/-! ## Positive arguments -/

theorem abs_sin_le' {s : ℝ} (hs : 0 ≤ s) : |Real.sin s| ≤ s := by
  have := Real.abs_sin_sub_sin_le s 0
  rwa [Real.sin_zero, sub_zero, sub_zero, abs_of_nonneg hs] at this

/-- `sin(s e^t)/(s e^t)` -/
theorem sinc_err (hu : R.u ≤ 1 / 10 ^ 6) {s t : ℝ} (hs : 0 < s) (ht : |t| ≤ 1 * R.u) :
    |Real.sin (s * Real.exp t) / (s * Real.exp t) - Real.sin s / s| ≤ 203 / 100 * R.u := by
  have he := Real.exp_pos t
  have h1 := exp_err hu (by norm_num) (by norm_num) (show |-t| ≤ 1 * R.u by rwa [abs_neg])
  have h2 : Real.exp t * Real.exp (-t) = 1 := by rw [← Real.exp_add]; simp
  have e1 : Real.sin (s * Real.exp t) / (s * Real.exp t) - Real.sin s / s =
      (Real.sin (s * Real.exp t) - Real.sin s) / (s * Real.exp t) + Real.sin s / s * (Real.exp (-t) - 1) := by
    have : Real.exp (-t) = (Real.exp t)⁻¹ := Real.exp_neg t
    rw [this]; field_simp; ring
  rw [e1]
  refine (abs_add_le _ _).trans ?_
  have b1 : |(Real.sin (s * Real.exp t) - Real.sin s) / (s * Real.exp t)| ≤ 101 / 100 * (1 * R.u) := by
    rw [abs_div, abs_of_pos (mul_pos hs he), div_le_iff₀ (mul_pos hs he)]
    refine (Real.abs_sin_sub_sin_le _ _).trans ?_
    have : |s * Real.exp t - s| = |Real.exp (-t) - 1| * (s * Real.exp t) := by
      rw [← abs_of_pos (mul_pos hs he), ← abs_mul, abs_of_pos (mul_pos hs he), ← abs_neg]
      congr 1
      linear_combination (-s) * h2
    rw [this]
    exact mul_le_mul_of_nonneg_right h1 (mul_pos hs he).le
  have b2 : |Real.sin s / s * (Real.exp (-t) - 1)| ≤ 101 / 100 * (1 * R.u) := by
    rw [abs_mul]
    refine (mul_le_mul_of_nonneg_right ?_ (abs_nonneg _)).trans (by rw [one_mul]; exact h1)
    rw [abs_div, abs_of_pos hs, div_le_one hs]
    exact abs_sin_le' hs.le
  linarith [R.u_nonneg]

/-- `sin s / s` is at most 1 in absolute value -/
theorem sinc_le {s : ℝ} (hs : 0 < s) : |Real.sin s / s| ≤ 1 := by
  rw [abs_div, abs_of_pos hs, div_le_one hs]
  exact abs_sin_le' hs.le

theorem val0 (g : RF R) {x : ℝ} (hx : 0 < x) : stumpff0 g .f64 (num R x) = num R (Real.cos (R.rd √x) * Real.exp (R.lib .cos (R.rd √x))) := by
  simp only [stumpff0, zero_num, one_num, lt_num, eq_num, hx, hx.ne', not_lt.mpr hx.le, decide_true, decide_false, Bool.false_eq_true, if_true, if_false,
    store_num, sqrt_num hx.le, cos_num]

theorem val1 (g : RF R) {x : ℝ} (hx : 0 < x) : stumpff1 g .f64 (num R x) = num R (R.rd (Real.sin (R.rd √x) * Real.exp (R.lib .sin (R.rd √x)) / R.rd √x)) := by
  have hr : 0 < R.rd √x := mul_pos (Real.sqrt_pos.mpr hx) (Real.exp_pos _)
  simp only [stumpff1, zero_num, one_num, lt_num, eq_num, hx, hx.ne', not_lt.mpr hx.le, decide_true, decide_false, Bool.false_eq_true, if_true, if_false,
    store_num, sqrt_num hx.le, sin_num, div_num _ hr.ne']

theorem val2 (g : RF R) {x : ℝ} (hx : 0 < x) : stumpff2 g .f64 (num R x) = num R (R.rd (R.rd (1 - Real.cos (R.rd √x) * Real.exp (R.lib .cos (R.rd √x))) / x)) := by
  simp only [stumpff2, zero_num, one_num, lt_num, eq_num, hx, hx.ne', not_lt.mpr hx.le, decide_true, decide_false, Bool.false_eq_true, if_true, if_false,
    store_num, sqrt_num hx.le, cos_num, sub_num, div_num _ hx.ne']

theorem val3 (g : RF R) {x : ℝ} (hx : 0 < x) : stumpff3 g .f64 (num R x) = num R (R.rd (R.rd (R.rd √x - Real.sin (R.rd √x) * Real.exp (R.lib .sin (R.rd √x))) / R.rd (R.rd √x * x))) := by
  have hr : 0 < R.rd √x := mul_pos (Real.sqrt_pos.mpr hx) (Real.exp_pos _)
  have hd : R.rd (R.rd √x * x) ≠ 0 := mul_ne_zero (mul_pos hr hx).ne' (Real.exp_pos _).ne'
  simp only [stumpff3, zero_num, one_num, lt_num, eq_num, hx, hx.ne', not_lt.mpr hx.le, decide_true, decide_false, Bool.false_eq_true, if_true, if_false,
    store_num, sqrt_num hx.le, sin_num, sub_num, mul_num, div_num _ hd]

section
variable (hu : R.u ≤ 1 / 10 ^ 6)
include hu

theorem pos0 (g : RF R) {x : ℝ} (hx : 0 < x) :
    ∃ c, stumpff0 g .f64 (num R x) = num R c ∧ |c - Real.cos √x| ≤ 2 * (1 + √x) * R.u := by
  have hu0 := R.u_nonneg
  have hs : 0 < √x := Real.sqrt_pos.mpr hx
  refine ⟨_, val0 g hx, ?_⟩
  have h1 := factor_err (y := √x) hu (by norm_num) (by norm_num) (th1 (R := R) √x)
  have h2 := factor_err (y := Real.cos (R.rd √x)) hu (by norm_num) (by norm_num) (lib1 (R := R) .cos (R.rd √x))
  have h3 := Real.abs_cos_sub_cos_le (R.rd √x) √x
  have h4 := Real.abs_cos_le_one (R.rd √x)
  have h5 := abs_sub_le (Real.cos (R.rd √x) * Real.exp (R.lib .cos (R.rd √x))) (Real.cos (R.rd √x)) (Real.cos √x)
  rw [abs_of_pos hs] at h1
  change |R.rd √x - √x| ≤ _ at h1
  have h6 := mul_le_mul_of_nonneg_left h4 (show 0 ≤ 101 / 100 * (1 * R.u) by positivity)
  have h7 := mul_nonneg hs.le hu0
  linarith

theorem pos1 (g : RF R) {x : ℝ} (hx : 0 < x) :
    ∃ c, stumpff1 g .f64 (num R x) = num R c ∧ |c - Real.sin √x / √x| ≤ 5 * R.u := by
  have hu0 := R.u_nonneg
  have hs : 0 < √x := Real.sqrt_pos.mpr hx
  have hr : 0 < R.rd √x := mul_pos hs (Real.exp_pos _)
  refine ⟨_, val1 g hx, ?_⟩
  have h1 := sinc_err hu hs (th1 (R := R) √x)
  change |Real.sin (R.rd √x) / R.rd √x - _| ≤ _ at h1
  have h2 := sinc_le hr
  obtain ⟨q, hq⟩ : ∃ q, q = Real.sin (R.rd √x) / R.rd √x := ⟨_, rfl⟩
  have e1 : Real.sin (R.rd √x) * Real.exp (R.lib .sin (R.rd √x)) / R.rd √x = q * Real.exp (R.lib .sin (R.rd √x)) := by rw [hq]; ring
  rw [← hq] at h1 h2
  rw [e1, Rounding.rd, mul_assoc, ← Real.exp_add]
  have h3 := factor_err (y := q) hu (by norm_num) (by norm_num)
    (add_le2 (lib1 (R := R) .sin (R.rd √x)) (th1 (R := R) (q * Real.exp (R.lib .sin (R.rd √x)))))
  have h5 := abs_sub_le (q * Real.exp (R.lib .sin (R.rd √x) + R.th (q * Real.exp (R.lib .sin (R.rd √x))))) q (Real.sin √x / √x)
  have h6 := mul_le_mul_of_nonneg_left h2 (show 0 ≤ 101 / 100 * ((1 + 1) * R.u) by positivity)
  linarith

/-- the rounded quotient of a rounded difference -/
theorem diff_err {A B D x k E t : ℝ} (hx : x ≠ 0) (hk0 : 0 ≤ k) (hk : k ≤ 8) (ht : |t| ≤ k * R.u) (h1 : |A - B| ≤ E) (h2 : |A| ≤ D) :
    |A / x * Real.exp t - B / x| ≤ (E + 101 / 100 * (k * R.u) * D) / |x| := by
  have h3 := exp_err hu hk0 hk ht
  rw [show A / x * Real.exp t - B / x = ((A - B) + (Real.exp t - 1) * A) / x by ring, abs_div]
  refine div_le_div_of_nonneg_right ?_ (abs_nonneg x)
  refine (abs_add_le _ _).trans ?_
  rw [abs_mul]
  exact add_le_add h1 (mul_le_mul h3 h2 (abs_nonneg _) ((abs_nonneg _).trans h3))

theorem pos2 (g : RF R) {x : ℝ} (hx : 0 < x) :
    ∃ c, stumpff2 g .f64 (num R x) = num R c ∧ |c - (1 - Real.cos √x) / x| ≤ 7 * (1 + √x) * R.u / x := by
  have hu0 := R.u_nonneg
  have hs : 0 < √x := Real.sqrt_pos.mpr hx
  refine ⟨_, val2 g hx, ?_⟩
  obtain ⟨C, hC, hC2⟩ := pos0 hu g hx
  have hC' : C = Real.cos (R.rd √x) * Real.exp (R.lib .cos (R.rd √x)) := num_inj (hC.symm.trans (val0 g hx))
  rw [← hC']
  have hC1 : |1 - C| ≤ 201 / 100 := by
    have h1 : |C| ≤ 1 + 1 / 100 := by
      have h2 := factor_err (y := Real.cos (R.rd √x)) hu (by norm_num) (by norm_num) (lib1 (R := R) .cos (R.rd √x))
      rw [← hC'] at h2
      have h4 := Real.abs_cos_le_one (R.rd √x)
      have h6 := mul_le_mul_of_nonneg_left h4 (show 0 ≤ 101 / 100 * (1 * R.u) by positivity)
      have h7 := abs_sub_abs_le_abs_sub C (Real.cos (R.rd √x))
      norm_num at hu
      linarith
    have := abs_sub (1 : ℝ) C
    rw [abs_one] at this
    linarith
  have e1 : R.rd (R.rd (1 - C) / x) = (1 - C) / x * Real.exp (R.th (1 - C) + R.th (R.rd (1 - C) / x)) := by
    rw [Rounding.rd, Real.exp_add]
    conv_lhs => rw [Rounding.rd]
    simp only [Rounding.rd]
    ring
  rw [e1]
  have h1 := diff_err hu (A := 1 - C) (B := 1 - Real.cos √x) (D := 201 / 100) (E := 2 * (1 + √x) * R.u) hx.ne' (by norm_num) (by norm_num)
    (add_le2 (th1 (R := R) (1 - C)) (th1 (R := R) (R.rd (1 - C) / x))) (by rw [sub_sub_sub_cancel_left, abs_sub_comm]; linarith) hC1
  refine h1.trans ?_
  rw [abs_of_pos hx]
  refine div_le_div_of_nonneg_right ?_ hx.le
  have h7 := mul_nonneg hs.le hu0
  linarith

theorem pos3 (g : RF R) {x : ℝ} (hx : 0 < x) :
    ∃ c, stumpff3 g .f64 (num R x) = num R c ∧ |c - (1 - Real.sin √x / √x) / x| ≤ 10 * R.u / x := by
  have hu0 := R.u_nonneg
  have hs : 0 < √x := Real.sqrt_pos.mpr hx
  have hr : 0 < R.rd √x := mul_pos hs (Real.exp_pos _)
  have hd : R.rd (R.rd √x * x) ≠ 0 := mul_ne_zero (mul_pos hr hx).ne' (Real.exp_pos _).ne'
  refine ⟨_, val3 g hx, ?_⟩
  have h1 := sinc_err hu hs (th1 (R := R) √x)
  change |Real.sin (R.rd √x) / R.rd √x - _| ≤ _ at h1
  have h2 := sinc_le hr
  obtain ⟨q, hq⟩ : ∃ q, q = Real.sin (R.rd √x) / R.rd √x := ⟨_, rfl⟩
  rw [← hq] at h1 h2
  obtain ⟨r, hr'⟩ : ∃ r, r = R.rd √x := ⟨_, rfl⟩
  rw [← hr'] at hr hq ⊢
  have hsin : Real.sin r = q * r := by rw [hq]; field_simp
  rw [hsin]
  obtain ⟨τ, hτ⟩ : ∃ τ, τ = R.lib .sin r := ⟨_, rfl⟩
  have hτ1 : |τ| ≤ 1 * R.u := hτ ▸ lib1 .sin r
  rw [← hτ]
  have hm : ∀ a b : ℝ, ∃ t, |t| ≤ (1 + 1 + 1) * R.u ∧ R.rd (R.rd a / R.rd b) = a / b * Real.exp t := by
    intro a b
    refine ⟨R.th a + -R.th b + R.th (R.rd a / R.rd b), add_le2 (add_le2 (th1 a) (by rw [abs_neg]; exact th1 b)) (th1 _), ?_⟩
    simp only [Rounding.rd, Real.exp_add, Real.exp_neg]
    rw [mul_div_mul_comm]
    ring
  obtain ⟨t, ht, e1⟩ := hm (r - q * r * Real.exp τ) (r * x)
  rw [e1]
  have e2 : (r - q * r * Real.exp τ) / (r * x) = (1 - q * Real.exp τ) / x := by field_simp
  rw [e2]
  have h3 := factor_err (y := q) hu (by norm_num) (by norm_num) hτ1
  have h4 := mul_le_mul_of_nonneg_left h2 (show 0 ≤ 101 / 100 * (1 * R.u) by positivity)
  have h5 := abs_sub_le (q * Real.exp τ) q (Real.sin √x / √x)
  have h6 : |1 - q * Real.exp τ| ≤ 201 / 100 := by
    have := abs_sub (1 : ℝ) (q * Real.exp τ)
    have h7 := abs_sub_abs_le_abs_sub (q * Real.exp τ) q
    rw [abs_one] at this
    norm_num at hu
    linarith
  have h8 := diff_err hu (A := 1 - q * Real.exp τ) (B := 1 - Real.sin √x / √x) (D := 201 / 100) (E := 304 / 100 * R.u) hx.ne' (by norm_num) (by norm_num)
    ht (by rw [sub_sub_sub_cancel_left, abs_sub_comm]; linarith) h6
  refine h8.trans ?_
  rw [abs_of_pos hx]
  refine div_le_div_of_nonneg_right ?_ hx.le
  linarith

end

/-! ## Negative arguments -/

theorem cosh_num (x : ℝ) : Np.cosh (num R x) = num R (Real.cosh x * Real.exp (R.lib .cosh x)) := rfl

theorem nval0 (g : RF R) {x : ℝ} (hx : x < 0) : stumpff0 g .f64 (num R x) = num R (Real.cosh (R.rd √(-x)) * Real.exp (R.lib .cosh (R.rd √(-x)))) := by
  have hx' : 0 < -x := by linarith
  simp only [stumpff0, zero_num, one_num, lt_num, eq_num, hx, hx.ne, not_lt.mpr hx.le, decide_true, decide_false, Bool.false_eq_true, if_true, if_false,
    store_num, neg_num, sqrt_num hx'.le, cosh_num]

theorem nval1 (g : RF R) {x : ℝ} (hx : x < 0) : stumpff1 g .f64 (num R x) = num R (R.rd (Real.sinh (R.rd √(-x)) * Real.exp (R.lib .sinh (R.rd √(-x))) / R.rd √(-x))) := by
  have hx' : 0 < -x := by linarith
  have hr : 0 < R.rd √(-x) := mul_pos (Real.sqrt_pos.mpr hx') (Real.exp_pos _)
  simp only [stumpff1, zero_num, one_num, lt_num, eq_num, hx, hx.ne, not_lt.mpr hx.le, decide_true, decide_false, Bool.false_eq_true, if_true, if_false,
    store_num, neg_num, sqrt_num hx'.le, sinh_num, div_num _ hr.ne']

theorem nval2 (g : RF R) {x : ℝ} (hx : x < 0) : stumpff2 g .f64 (num R x) = num R (R.rd (R.rd (1 - Real.cosh (R.rd √(-x)) * Real.exp (R.lib .cosh (R.rd √(-x)))) / x)) := by
  have hx' : 0 < -x := by linarith
  simp only [stumpff2, zero_num, one_num, lt_num, eq_num, hx, hx.ne, not_lt.mpr hx.le, decide_true, decide_false, Bool.false_eq_true, if_true, if_false,
    store_num, neg_num, sqrt_num hx'.le, cosh_num, sub_num, div_num _ hx.ne]

theorem nval3 (g : RF R) {x : ℝ} (hx : x < 0) : stumpff3 g .f64 (num R x) = num R (R.rd (R.rd (R.rd √(-x) - Real.sinh (R.rd √(-x)) * Real.exp (R.lib .sinh (R.rd √(-x)))) / R.rd (R.rd √(-x) * x))) := by
  have hx' : 0 < -x := by linarith
  have hr : 0 < R.rd √(-x) := mul_pos (Real.sqrt_pos.mpr hx') (Real.exp_pos _)
  have hd : R.rd (R.rd √(-x) * x) ≠ 0 := mul_ne_zero (mul_neg_of_pos_of_neg hr hx).ne (Real.exp_pos _).ne'
  simp only [stumpff3, zero_num, one_num, lt_num, eq_num, hx, hx.ne, not_lt.mpr hx.le, decide_true, decide_false, Bool.false_eq_true, if_true, if_false,
    store_num, neg_num, sqrt_num hx'.le, sinh_num, sub_num, mul_num, div_num _ hd]

theorem cosh_err {y z d : ℝ} (h : |z - y| ≤ d) : |Real.cosh z - Real.cosh y| ≤ (Real.exp d - 1) * Real.cosh y ∧ Real.cosh z ≤ Real.exp d * Real.cosh y := by
  rw [abs_le] at h
  have a1 : Real.exp z ≤ Real.exp d * Real.exp y := by rw [← Real.exp_add]; exact Real.exp_le_exp.mpr (by linarith)
  have a2 : Real.exp (-z) ≤ Real.exp d * Real.exp (-y) := by rw [← Real.exp_add]; exact Real.exp_le_exp.mpr (by linarith)
  have a3 : Real.exp y ≤ Real.exp d * Real.exp z := by rw [← Real.exp_add]; exact Real.exp_le_exp.mpr (by linarith)
  have a4 : Real.exp (-y) ≤ Real.exp d * Real.exp (-z) := by rw [← Real.exp_add]; exact Real.exp_le_exp.mpr (by linarith)
  have h1 : Real.cosh z ≤ Real.exp d * Real.cosh y := by rw [Real.cosh_eq, Real.cosh_eq]; linarith
  have h2 : Real.cosh y ≤ Real.exp d * Real.cosh z := by rw [Real.cosh_eq, Real.cosh_eq]; linarith
  have hd : 1 ≤ Real.exp d := Real.one_le_exp (by linarith)
  have hz := Real.cosh_pos z
  have hy := Real.cosh_pos y
  refine ⟨?_, h1⟩
  rw [abs_le]
  constructor
  · by_contra hc
    rw [not_le] at hc
    have h3 : Real.cosh z < Real.cosh y := by nlinarith
    nlinarith
  · linarith

theorem sinh_err {y z d : ℝ} (hy : 0 < y) (h : |z - y| ≤ d) : |Real.sinh z - Real.sinh y| ≤ d * (Real.exp d * Real.cosh y) := by
  have h1 : ∀ w ∈ Set.uIcc y z, ‖Real.cosh w‖ ≤ Real.exp d * Real.cosh y := by
    intro w hw
    rw [Real.norm_eq_abs, abs_of_pos (Real.cosh_pos w)]
    exact (cosh_err ((Set.abs_sub_left_of_mem_uIcc hw).trans h)).2
  have := Convex.norm_image_sub_le_of_norm_hasDerivWithin_le (f := Real.sinh) (f' := Real.cosh) (s := Set.uIcc y z)
    (fun w _ => (Real.hasDerivAt_sinh w).hasDerivWithinAt) h1 (convex_uIcc y z) Set.left_mem_uIcc Set.right_mem_uIcc
  rw [Real.norm_eq_abs, Real.norm_eq_abs] at this
  refine this.trans ?_
  rw [mul_comm d]
  exact mul_le_mul_of_nonneg_left h (mul_pos (Real.exp_pos _) (Real.cosh_pos _)).le

/-- `y cosh y ≤ (1 + y) sinh y` -/
theorem y_cosh_le {y : ℝ} (hy : 0 < y) : y * Real.cosh y ≤ (1 + y) * Real.sinh y := by
  have h1 := Real.add_one_le_exp (2 * y)
  have h2 : Real.exp (2 * y) * Real.exp (-y) = Real.exp y := by rw [← Real.exp_add]; ring_nf
  have h3 := Real.exp_pos (-y)
  have h4 := mul_le_mul_of_nonneg_right h1 h3.le
  rw [h2] at h4
  rw [Real.cosh_eq, Real.sinh_eq]
  linarith

variable (hu : R.u ≤ 1 / 10 ^ 6)
include hu

/-- the rounded root -/
theorem root_err {y t : ℝ} (hy : 0 < y) (hyu : y * R.u ≤ 1 / 8) (ht : |t| ≤ 1 * R.u) :
    |y * Real.exp t - y| ≤ 101 / 100 * (y * R.u) ∧ Real.exp (101 / 100 * (y * R.u)) - 1 ≤ 4 / 3 * (101 / 100 * (y * R.u)) ∧ Real.exp (101 / 100 * (y * R.u)) ≤ 118 / 100 := by
  have h1 := factor_err (y := y) hu (by norm_num) (by norm_num) ht
  have hu0 := R.u_nonneg
  have h0 := mul_nonneg hy.le hu0
  rw [abs_of_pos hy] at h1
  have h2 := exp_sub_one_le (t := 101 / 100 * (y * R.u)) (by positivity) (by linarith)
  refine ⟨by linarith, h2, by linarith⟩

theorem ncosh (x : ℝ) (hx : x < 0) (hyu : √(-x) * R.u ≤ 1 / 8) :
    |Real.cosh (R.rd √(-x)) * Real.exp (R.lib .cosh (R.rd √(-x))) - Real.cosh √(-x)| ≤ 2 * (1 + √(-x)) * R.u * Real.cosh √(-x) := by
  have hu0 := R.u_nonneg
  have hy : 0 < √(-x) := Real.sqrt_pos.mpr (by linarith)
  obtain ⟨r1, r2, r3⟩ := root_err hu hy hyu (th1 (R := R) √(-x))
  change |R.rd √(-x) - √(-x)| ≤ _ at r1
  generalize √(-x) = y at *
  generalize R.rd y = z at *
  obtain ⟨c1, c2⟩ := cosh_err r1
  have hc := Real.cosh_pos y
  have h2 := factor_err (y := Real.cosh z) hu (by norm_num) (by norm_num) (lib1 (R := R) .cosh z)
  rw [abs_of_pos (Real.cosh_pos z)] at h2
  have h3 := abs_sub_le (Real.cosh z * Real.exp (R.lib .cosh z)) (Real.cosh z) (Real.cosh y)
  have h4 : Real.cosh z ≤ 118 / 100 * Real.cosh y := c2.trans (mul_le_mul_of_nonneg_right r3 hc.le)
  have h5 := mul_le_mul_of_nonneg_left h4 (show 0 ≤ 101 / 100 * (1 * R.u) by positivity)
  have h6 := mul_le_mul_of_nonneg_right r2 hc.le
  have h7 := mul_nonneg (mul_nonneg hy.le hu0) hc.le
  have h8 := mul_nonneg hu0 hc.le
  linarith

/-- `sinh(y e^t)/(y e^t)` -/
theorem sinhc_err {y t : ℝ} (hy : 0 < y) (hyu : y * R.u ≤ 1 / 8) (ht : |t| ≤ 1 * R.u) :
    |Real.sinh (y * Real.exp t) / (y * Real.exp t) - Real.sinh y / y| ≤ 23 / 10 * (1 + y) * R.u * (Real.sinh y / y) := by
  have hu0 := R.u_nonneg
  obtain ⟨r1, r2, r3⟩ := root_err hu hy hyu ht
  have hz : 0 < y * Real.exp t := mul_pos hy (Real.exp_pos t)
  have hzt : (y * Real.exp t) * Real.exp (-t) = y := by rw [mul_assoc, ← Real.exp_add]; simp
  have h1 := exp_err hu (by norm_num) (by norm_num) (show |-t| ≤ 1 * R.u by rwa [abs_neg])
  generalize y * Real.exp t = z at *
  have hS : 0 < Real.sinh y := Real.sinh_pos_iff.mpr hy
  have hP : 0 < Real.sinh y / y := div_pos hS hy
  have h2 := sinh_err hy r1
  have h3 := y_cosh_le hy
  have he : Real.exp (-t) ≤ 101 / 100 := by
    have := (abs_le.mp h1).2
    norm_num at hu
    linarith
  have he0 := Real.exp_pos (-t)
  have e1 : Real.sinh z / z - Real.sinh y / y = (Real.sinh z - Real.sinh y) / y * Real.exp (-t) + Real.sinh y / y * (Real.exp (-t) - 1) := by
    have : Real.exp (-t) = y / z := by rw [eq_div_iff hz.ne', mul_comm]; exact hzt
    rw [this]; field_simp; ring
  rw [e1]
  refine (abs_add_le _ _).trans ?_
  have b1 : |(Real.sinh z - Real.sinh y) / y * Real.exp (-t)| ≤ 122 / 100 * (1 + y) * R.u * (Real.sinh y / y) := by
    rw [abs_mul, abs_of_pos he0, abs_div, abs_of_pos hy]
    have k1 : 101 / 100 * (y * R.u) * (Real.exp (101 / 100 * (y * R.u)) * Real.cosh y) ≤ 12 / 10 * R.u * ((1 + y) * Real.sinh y) := by
      have k2 : Real.exp (101 / 100 * (y * R.u)) * Real.cosh y ≤ 118 / 100 * Real.cosh y := mul_le_mul_of_nonneg_right r3 (Real.cosh_pos y).le
      have k3 := mul_le_mul_of_nonneg_left k2 (show 0 ≤ 101 / 100 * (y * R.u) by positivity)
      have k4 := mul_le_mul_of_nonneg_left h3 (show 0 ≤ 12 / 10 * R.u by positivity)
      have k5 := mul_nonneg (mul_nonneg hy.le hu0) (Real.cosh_pos y).le
      linarith
    have k6 := div_le_div_of_nonneg_right (h2.trans k1) hy.le
    have k7 := mul_le_mul k6 he he0.le (by positivity)
    refine k7.trans (le_of_eq_of_le (b := 1212 / 1000 * (1 + y) * R.u * (Real.sinh y / y)) (by ring) ?_)
    refine mul_le_mul_of_nonneg_right (mul_le_mul_of_nonneg_right (mul_le_mul_of_nonneg_right (by norm_num) (by linarith)) hu0) hP.le
  have b2 : |Real.sinh y / y * (Real.exp (-t) - 1)| ≤ 101 / 100 * R.u * (Real.sinh y / y) := by
    rw [abs_mul, abs_of_pos hP, mul_comm]
    exact mul_le_mul_of_nonneg_right (by linarith) hP.le
  have k8 := mul_nonneg (mul_nonneg hy.le hu0) hP.le
  have k9 := mul_nonneg hu0 hP.le
  linarith

/-- `sinh y / y` with the error of the elementary function -/
theorem nsinhc {y t τ : ℝ} (hy : 0 < y) (hyu : y * R.u ≤ 1 / 8) (ht : |t| ≤ 1 * R.u) {k : ℝ} (hk0 : 0 ≤ k) (hk : k ≤ 2) (hτ : |τ| ≤ k * R.u) :
    |Real.sinh (y * Real.exp t) / (y * Real.exp t) * Real.exp τ - Real.sinh y / y| ≤ 5 * (1 + y) * R.u * (Real.sinh y / y) ∧
    |Real.sinh (y * Real.exp t) / (y * Real.exp t)| ≤ 13 / 10 * (Real.sinh y / y) := by
  have hu0 := R.u_nonneg
  have h1 := sinhc_err hu hy hyu ht
  have hP : 0 < Real.sinh y / y := div_pos (Real.sinh_pos_iff.mpr hy) hy
  generalize Real.sinh (y * Real.exp t) / (y * Real.exp t) = Q at *
  generalize Real.sinh y / y = P at *
  have k8 := mul_nonneg (mul_nonneg hy.le hu0) hP.le
  have k9 := mul_nonneg hu0 hP.le
  have hQ : |Q| ≤ 13 / 10 * P := by
    have h2 := abs_sub_abs_le_abs_sub Q P
    rw [abs_of_pos hP] at h2
    have h3 : 23 / 10 * (1 + y) * R.u * P ≤ 3 / 10 * P := by
      refine mul_le_mul_of_nonneg_right ?_ hP.le
      norm_num at hu
      linarith
    linarith
  refine ⟨?_, hQ⟩
  have h4 := factor_err (y := Q) hu hk0 (by linarith) hτ
  have h5 := abs_sub_le (Q * Real.exp τ) Q P
  have h6 := mul_le_mul_of_nonneg_left hQ (show 0 ≤ 101 / 100 * (k * R.u) by positivity)
  have h7 : 101 / 100 * (k * R.u) * (13 / 10 * P) ≤ 2627 / 1000 * (R.u * P) := by
    have := mul_le_mul_of_nonneg_right hk k9
    linarith
  linarith

theorem neg0 (g : RF R) {x : ℝ} (hx : x < 0) (hyu : √(-x) * R.u ≤ 1 / 8) :
    ∃ c, stumpff0 g .f64 (num R x) = num R c ∧ |c - Real.cosh √(-x)| ≤ 2 * (1 + √(-x)) * R.u * Real.cosh √(-x) :=
  ⟨_, nval0 g hx, ncosh hu x hx hyu⟩

theorem neg1 (g : RF R) {x : ℝ} (hx : x < 0) (hyu : √(-x) * R.u ≤ 1 / 8) :
    ∃ c, stumpff1 g .f64 (num R x) = num R c ∧ |c - Real.sinh √(-x) / √(-x)| ≤ 5 * (1 + √(-x)) * R.u * (Real.sinh √(-x) / √(-x)) := by
  have hy : 0 < √(-x) := Real.sqrt_pos.mpr (by linarith)
  refine ⟨_, nval1 g hx, ?_⟩
  have h := (nsinhc hu hy hyu (th1 (R := R) √(-x)) (k := 1 + 1) (by norm_num) (by norm_num)
    (add_le2 (lib1 (R := R) .sinh (R.rd √(-x))) (th1 (R := R) (Real.sinh (R.rd √(-x)) * Real.exp (R.lib .sinh (R.rd √(-x))) / R.rd √(-x))))).1
  rw [Real.exp_add, ← mul_assoc] at h
  have e1 : Real.sinh (R.rd √(-x)) / R.rd √(-x) * Real.exp (R.lib .sinh (R.rd √(-x))) = Real.sinh (R.rd √(-x)) * Real.exp (R.lib .sinh (R.rd √(-x))) / R.rd √(-x) := by ring
  change |Real.sinh (R.rd √(-x)) / R.rd √(-x) * Real.exp (R.lib .sinh (R.rd √(-x))) * _ - _| ≤ _ at h
  rw [e1] at h
  exact h

theorem neg2 (g : RF R) {x : ℝ} (hx : x < 0) (hyu : √(-x) * R.u ≤ 1 / 8) :
    ∃ c, stumpff2 g .f64 (num R x) = num R c ∧ |c - (1 - Real.cosh √(-x)) / x| ≤ 7 * (1 + √(-x)) * R.u * Real.cosh √(-x) / |x| := by
  have hu0 := R.u_nonneg
  have hy : 0 < √(-x) := Real.sqrt_pos.mpr (by linarith)
  refine ⟨_, nval2 g hx, ?_⟩
  have h0 := ncosh hu x hx hyu
  have hc1 := Real.one_le_cosh √(-x)
  have hc := Real.cosh_pos √(-x)
  generalize Real.cosh (R.rd √(-x)) * Real.exp (R.lib .cosh (R.rd √(-x))) = C at *
  have e1 : R.rd (R.rd (1 - C) / x) = (1 - C) / x * Real.exp (R.th (1 - C) + R.th (R.rd (1 - C) / x)) := by
    rw [Rounding.rd, Real.exp_add]
    conv_lhs => rw [Rounding.rd]
    simp only [Rounding.rd]
    ring
  rw [e1]
  have k8 := mul_nonneg (mul_nonneg hy.le hu0) hc.le
  have k9 := mul_nonneg hu0 hc.le
  have hC : |1 - C| ≤ 226 / 100 * Real.cosh √(-x) := by
    have h2 := abs_sub_abs_le_abs_sub C (Real.cosh √(-x))
    rw [abs_of_pos hc] at h2
    have h3 : 2 * (1 + √(-x)) * R.u * Real.cosh √(-x) ≤ 251 / 1000 * Real.cosh √(-x) := by
      refine mul_le_mul_of_nonneg_right ?_ hc.le
      norm_num at hu
      linarith
    have := abs_sub (1 : ℝ) C
    rw [abs_one] at this
    linarith
  have h1 := diff_err hu (A := 1 - C) (B := 1 - Real.cosh √(-x)) (D := 226 / 100 * Real.cosh √(-x)) (E := 2 * (1 + √(-x)) * R.u * Real.cosh √(-x)) hx.ne (by norm_num) (by norm_num)
    (add_le2 (th1 (R := R) (1 - C)) (th1 (R := R) (R.rd (1 - C) / x))) (by rw [sub_sub_sub_cancel_left, abs_sub_comm]; exact h0) hC
  refine h1.trans (div_le_div_of_nonneg_right ?_ (abs_nonneg x))
  linarith

theorem neg3 (g : RF R) {x : ℝ} (hx : x < 0) (hyu : √(-x) * R.u ≤ 1 / 8) :
    ∃ c, stumpff3 g .f64 (num R x) = num R c ∧
      |c - (1 - Real.sinh √(-x) / √(-x)) / x| ≤ 13 * (1 + √(-x)) * R.u * (Real.sinh √(-x) / √(-x)) / |x| := by
  have hu0 := R.u_nonneg
  have hy : 0 < √(-x) := Real.sqrt_pos.mpr (by linarith)
  refine ⟨_, nval3 g hx, ?_⟩
  obtain ⟨h0, hQ⟩ := nsinhc hu hy hyu (th1 (R := R) √(-x)) (k := 1) (by norm_num) (by norm_num) (lib1 (R := R) .sinh (R.rd √(-x)))
  have hr : 0 < R.rd √(-x) := mul_pos hy (Real.exp_pos _)
  have hP1 : 1 ≤ Real.sinh √(-x) / √(-x) := by rw [le_div_iff₀ hy, one_mul]; exact (Real.self_le_sinh_iff.mpr hy.le)
  change |Real.sinh (R.rd √(-x)) / R.rd √(-x) * _ - _| ≤ _ at h0
  change |Real.sinh (R.rd √(-x)) / R.rd √(-x)| ≤ _ at hQ
  generalize Real.sinh √(-x) / √(-x) = P at *
  obtain ⟨q, hq⟩ : ∃ q, q = Real.sinh (R.rd √(-x)) / R.rd √(-x) := ⟨_, rfl⟩
  rw [← hq] at h0 hQ
  obtain ⟨r, hr'⟩ : ∃ r, r = R.rd √(-x) := ⟨_, rfl⟩
  rw [← hr'] at hr hq h0 ⊢
  have hsin : Real.sinh r = q * r := by rw [hq]; field_simp
  rw [hsin]
  generalize R.lib .sinh r = τ at *
  have hm : ∀ a b : ℝ, ∃ t, |t| ≤ (1 + 1 + 1) * R.u ∧ R.rd (R.rd a / R.rd b) = a / b * Real.exp t := by
    intro a b
    refine ⟨R.th a + -R.th b + R.th (R.rd a / R.rd b), add_le2 (add_le2 (th1 a) (by rw [abs_neg]; exact th1 b)) (th1 _), ?_⟩
    simp only [Rounding.rd, Real.exp_add, Real.exp_neg]
    rw [mul_div_mul_comm]
    ring
  obtain ⟨t, ht, e1⟩ := hm (r - q * r * Real.exp τ) (r * x)
  rw [e1]
  have hx0 := hx.ne
  have e2 : (r - q * r * Real.exp τ) / (r * x) = (1 - q * Real.exp τ) / x := by field_simp
  rw [e2]
  have k8 := mul_nonneg (mul_nonneg hy.le hu0) (zero_le_one.trans hP1)
  have k9 := mul_nonneg hu0 (zero_le_one.trans hP1)
  have h6 : |1 - q * Real.exp τ| ≤ 263 / 100 * P := by
    have := abs_sub (1 : ℝ) (q * Real.exp τ)
    rw [abs_one] at this
    have h7 := abs_sub_abs_le_abs_sub (q * Real.exp τ) P
    rw [abs_of_pos (zero_lt_one.trans_le hP1)] at h7
    have h3 : 5 * (1 + √(-x)) * R.u * P ≤ 626 / 1000 * P := by
      refine mul_le_mul_of_nonneg_right ?_ (zero_le_one.trans hP1)
      norm_num at hu
      linarith
    linarith
  have h8 := diff_err hu (A := 1 - q * Real.exp τ) (B := 1 - P) (D := 263 / 100 * P) (E := 5 * (1 + √(-x)) * R.u * P) hx.ne (by norm_num) (by norm_num)
    ht (by rw [sub_sub_sub_cancel_left, abs_sub_comm]; exact h0) h6
  refine h8.trans (div_le_div_of_nonneg_right ?_ (abs_nonneg x))
  linarith

omit hu in
/-- a number within half a unit in the last place of a number with 53 digits is rounded to it -/
theorem rd_to (hR : Nearest R) {y z : ℝ} (hy : Digits53 y) (h0 : 0 < y) (h : |z - y| < (1 / 2) ^ 54 * y) : R.rd z = y := by
  have hw := hR.digits z
  have hn := hR.nearest z y hy
  generalize R.rd z = w at *
  have h1 : |w - y| < (1 / 2) ^ 53 * y := by
    have h2 := abs_sub_le w z y
    rw [abs_sub_comm y z] at hn
    have h3 : (1 / 2 : ℝ) ^ 53 * y = (1 / 2) ^ 54 * y + (1 / 2) ^ 54 * y := by norm_num; ring
    linarith
  obtain ⟨k, k1, k2⟩ := Digits53.normal h0
  obtain ⟨m, hm⟩ := hy.units (k := k) (by rwa [abs_of_pos h0])
  have hp : (0 : ℝ) < 2 ^ k := zpow_pos two_pos k
  have hk1 : (2 : ℝ) ^ (k - 1) = 2 ^ k / 2 := by rw [zpow_sub_one₀ two_ne_zero]; rfl
  have e52 : (2 : ℝ) ^ (k + 52) = 2 ^ 52 * 2 ^ k := by rw [zpow_add₀ two_ne_zero, mul_comm]; norm_num
  have e53 : (2 : ℝ) ^ (k + 53) = 2 ^ 53 * 2 ^ k := by rw [zpow_add₀ two_ne_zero, mul_comm]; norm_num
  have e51 : (2 : ℝ) ^ (k - 1 + 52) = 2 ^ 51 * 2 ^ k := by rw [show k - 1 + 52 = k + 51 by ring, zpow_add₀ two_ne_zero, mul_comm]; norm_num
  rw [e52] at k1
  rw [e53] at k2
  generalize hpk : (2 : ℝ) ^ k = p at *
  have h3 := abs_lt.mp h1
  have hyp : (1 / 2 : ℝ) ^ 53 * y < p := by
    have := mul_lt_mul_of_pos_left k2 (show (0 : ℝ) < (1 / 2) ^ 53 by positivity)
    refine this.trans_le (le_of_eq ?_)
    rw [← mul_assoc]; norm_num
  have hw0 : 0 < w := by
    norm_num at h3 k1
    nlinarith
  -- `w` is a multiple of half a unit
  obtain ⟨m', hm'⟩ := hw.units (k := k - 1) (by
    rw [abs_of_pos hw0, e51]
    norm_num at h3 k1 ⊢
    linarith)
  rw [hk1] at hm'
  have d1 : (2 * m - m' : ℝ) * (p / 2) < p := by
    have : y - w = (2 * m - m' : ℝ) * (p / 2) := by rw [hm, hm']; ring
    linarith
  have d2 : -p < (2 * m - m' : ℝ) * (p / 2) := by
    have : y - w = (2 * m - m' : ℝ) * (p / 2) := by rw [hm, hm']; ring
    linarith
  have d3 : (2 * m - m' : ℝ) < 2 := by nlinarith
  have d4 : (-2 : ℝ) < 2 * m - m' := by nlinarith
  have d3' : 2 * m - m' < 2 := by exact_mod_cast d3
  have d4' : -2 < 2 * m - m' := by exact_mod_cast d4
  by_cases hcase : 2 * m - m' = 0
  · have : m' = 2 * m := by omega
    rw [hm', hm, this]; push_cast; ring
  exfalso
  have hm52 : (2 : ℝ) ^ 52 ≤ m := by
    rw [hm] at k1
    exact le_of_mul_le_mul_right k1 hp
  have hm52' : (2 : ℤ) ^ 52 ≤ m := by exact_mod_cast hm52
  -- an odd number of half units has 53 digits only below the power of two
  have big : 2 ^ 52 * p ≤ w → False := by
    intro hb
    obtain ⟨m2, hm2⟩ := hw.units (k := k) (by rw [abs_of_pos hw0, e52]; exact hb)
    rw [hpk] at hm2
    have h5 : (m' : ℝ) = 2 * m2 := by
      have : (m' : ℝ) * (p / 2) = 2 * m2 * (p / 2) := by rw [← hm', hm2]; ring
      exact mul_right_cancel₀ (half_pos hp).ne' this
    have h6 : m' = 2 * m2 := by exact_mod_cast h5
    omega
  rcases lt_or_ge w y with hwy | hwy
  · have h7 : 0 < 2 * m - m' := by
      have : (0 : ℝ) < 2 * m - m' := by
        have : y - w = (2 * m - m' : ℝ) * (p / 2) := by rw [hm, hm']; ring
        nlinarith
      exact_mod_cast this
    have h8 : m' = 2 * m - 1 := by omega
    have h9 : w = (m - 1 / 2) * p := by rw [hm', h8]; push_cast; ring
    rcases hm52'.lt_or_eq with hlt | heq
    · refine big ?_
      rw [h9]
      refine mul_le_mul_of_nonneg_right ?_ hp.le
      have : (2 : ℤ) ^ 52 + 1 ≤ m := hlt
      have : ((2 : ℤ) ^ 52 + 1 : ℝ) ≤ m := by exact_mod_cast this
      push_cast at this
      linarith
    · have hmr : (m : ℝ) = 2 ^ 52 := by rw [← heq]; norm_num
      rw [h9, hm, hmr] at h3
      have := h3.1
      norm_num at this
      linarith
  · exact big (k1.trans hwy)

omit hu in
/-- near 0 the series are near their first terms -/
theorem near_zero {n : ℕ} {x d : ℝ} (hx : |x| ≤ 1) (h : IsStumpff n x d) : |d - 1 / (n.factorial : ℝ)| ≤ |x| := by
  have h1 := (hasSum_nat_add_iff' 1).mpr h
  simp only [Finset.sum_range_one, pow_zero, mul_one, mul_zero, add_zero, one_mul] at h1
  have h2 : HasSum (fun j : ℕ => |x| * (1 / 2 * (1 / 2 : ℝ) ^ j)) (|x| * (1 / 2 * 2)) := (hasSum_geometric_two.mul_left (1 / 2)).mul_left _
  have h3 : |d - 1 / (n.factorial : ℝ)| ≤ |x| * (1 / 2 * 2) := by
    rw [← Real.norm_eq_abs, ← h1.tsum_eq]
    refine tsum_of_norm_bounded h2 fun j => ?_
    rw [Real.norm_eq_abs, abs_div, abs_mul, abs_pow, abs_neg, abs_one, one_pow, one_mul, abs_pow, Nat.abs_cast]
    have hf : (2 : ℝ) ^ (j + 1) ≤ ((n + 2 * (j + 1)).factorial : ℝ) := by
      have h4 : 2 ^ (j + 1) ≤ (j + 1 + 1).factorial := by
        have : ∀ m : ℕ, 2 ^ m ≤ (m + 1).factorial := by
          intro m
          induction m with
          | zero => simp
          | succ m ih =>
            rw [pow_succ, Nat.factorial_succ (m + 1), mul_comm]
            exact Nat.mul_le_mul (by omega) ih
        exact this (j + 1)
      exact_mod_cast h4.trans (Nat.factorial_le (by omega))
    have hp : |x| ^ (j + 1) ≤ |x| := by
      rw [pow_succ]
      exact mul_le_of_le_one_left (abs_nonneg x) (pow_le_one₀ (abs_nonneg x) hx)
    have e : |x| * (1 / 2 * (1 / 2 : ℝ) ^ j) = |x| / 2 ^ (j + 1) := by rw [pow_succ, one_div_pow]; field_simp
    rw [e]
    exact div_le_div₀ (abs_nonneg x) hp (by positivity) hf
  linarith

omit hu in
/-- the square of the rounded root of a small number -/
theorem small_root {y : ℝ} (hy : 0 < y) (h : y ^ 2 ≤ (1 / 2) ^ 54) :
    0 < Binary.binary64.rd y ∧ Binary.binary64.rd y ^ 2 ≤ 11 / 10 * (1 / 2) ^ 54 ∧ Binary.binary64.rd y ≤ 1 := by
  have h1 := factor_err (R := Binary.binary64) (y := y) (show (1 / 2 : ℝ) ^ 53 ≤ 1 / 10 ^ 6 by norm_num) (by norm_num) (by norm_num) (th1 (R := Binary.binary64) y)
  change |Binary.binary64.rd y - y| ≤ _ at h1
  have h0 : 0 < Binary.binary64.rd y := mul_pos hy (Real.exp_pos _)
  rw [abs_of_pos hy, show Binary.binary64.u = (1 / 2) ^ 53 from rfl] at h1
  generalize Binary.binary64.rd y = z at *
  have h2 : z ≤ 101 / 100 * y := by
    have := (abs_le.mp h1).2
    norm_num at this
    linarith
  have h3 : z ^ 2 ≤ 11 / 10 * (1 / 2) ^ 54 := by
    have := pow_le_pow_left₀ h0.le h2 2
    rw [mul_pow] at this
    norm_num at this h ⊢
    linarith
  refine ⟨h0, h3, ?_⟩
  norm_num at h3
  nlinarith

omit hu in
theorem cos_rounds {z : ℝ} (h : z ^ 2 ≤ 11 / 10 * (1 / 2) ^ 54) : Real.cos z * Real.exp (Binary.binary64.lib .cos z) = 1 := by
  refine rd_to (R := Binary.binary64) Binary.nearest (z := Real.cos z) Digits53.one one_pos ?_
  have h1 := Real.one_sub_sq_div_two_le_cos (x := z)
  have h2 := Real.cos_le_one z
  rw [abs_lt]
  norm_num at h ⊢
  constructor <;> linarith

omit hu in
theorem cosh_sub_one {z : ℝ} (h : z ^ 2 ≤ 11 / 10 * (1 / 2) ^ 54) : Real.cosh z - 1 ≤ 9 / 10 * (1 / 2) ^ 54 := by
  have h1 := Real.cosh_le_exp_half_sq z
  have h2 := exp_sub_one_le (t := z ^ 2 / 2) (by positivity) (by norm_num at h; linarith)
  norm_num at h ⊢
  linarith

omit hu in
theorem cosh_rounds {z : ℝ} (h : z ^ 2 ≤ 11 / 10 * (1 / 2) ^ 54) : Real.cosh z * Real.exp (Binary.binary64.lib .cosh z) = 1 := by
  refine rd_to (R := Binary.binary64) Binary.nearest (z := Real.cosh z) Digits53.one one_pos ?_
  have h1 := cosh_sub_one h
  have h2 := Real.one_le_cosh z
  rw [abs_lt]
  norm_num at h1 ⊢
  constructor <;> linarith

omit hu in
theorem sin_rounds {z : ℝ} (hz : Digits53 z) (h0 : 0 < z) (h1 : z ≤ 1) (h : z ^ 2 ≤ 11 / 10 * (1 / 2) ^ 54) :
    Real.sin z * Real.exp (Binary.binary64.lib .sin z) = z := by
  refine rd_to (R := Binary.binary64) Binary.nearest (z := Real.sin z) hz h0 ?_
  have h2 := Real.sin_gt_sub_cube h0
  have h3 := Real.sin_lt h0
  have h4 := mul_le_mul_of_nonneg_left h h0.le
  have e : z * z ^ 2 = z ^ 3 := by ring
  rw [e] at h4
  rw [abs_lt]
  norm_num at h4 ⊢
  constructor <;> linarith

omit hu in
theorem sinh_rounds {z : ℝ} (hz : Digits53 z) (h0 : 0 < z) (h : z ^ 2 ≤ 11 / 10 * (1 / 2) ^ 54) :
    Real.sinh z * Real.exp (Binary.binary64.lib .sinh z) = z := by
  refine rd_to (R := Binary.binary64) Binary.nearest (z := Real.sinh z) hz h0 ?_
  have h2 : Real.sinh z ≤ z * Real.cosh z := by
    have h1 : ∀ w ∈ Set.Icc (0 : ℝ) z, ‖Real.cosh w‖ ≤ Real.cosh z := by
      intro w hw
      rw [Real.norm_eq_abs, abs_of_pos (Real.cosh_pos w), Real.cosh_le_cosh, abs_of_nonneg hw.1, abs_of_pos h0]
      exact hw.2
    have := Convex.norm_image_sub_le_of_norm_hasDerivWithin_le (f := Real.sinh) (f' := Real.cosh) (s := Set.Icc 0 z)
      (fun w _ => (Real.hasDerivAt_sinh w).hasDerivWithinAt) h1 (convex_Icc 0 z) (Set.left_mem_Icc.mpr h0.le) (Set.right_mem_Icc.mpr h0.le)
    rw [Real.norm_eq_abs, Real.norm_eq_abs, Real.sinh_zero, sub_zero, sub_zero, abs_of_pos (Real.sinh_pos_iff.mpr h0), abs_of_pos h0] at this
    linarith
  have h3 : z ≤ Real.sinh z := Real.self_le_sinh_iff.mpr h0.le
  have h4 := mul_le_mul_of_nonneg_left (cosh_sub_one h) h0.le
  rw [abs_lt]
  norm_num at h4 ⊢
  constructor <;> linarith

end RStumpff

open RStumpff

/-- C99, positive arguments: with rounding, c0 and c1 have errors of a few units; those of c2 and c3 are a few units divided by `x`. -/
theorem c99_pos (hu : R.u ≤ 1 / 10 ^ 6) (g : RF R) (x : ℝ) (hx : 0 < x) :
    (∀ d, IsStumpff 0 x d → ∃ c, stumpff0 g .f64 (num R x) = num R c ∧ |c - d| ≤ 2 * (1 + √x) * R.u) ∧
    (∀ d, IsStumpff 1 x d → ∃ c, stumpff1 g .f64 (num R x) = num R c ∧ |c - d| ≤ 5 * R.u) ∧
    (∀ d, IsStumpff 2 x d → ∃ c, stumpff2 g .f64 (num R x) = num R c ∧ |c - d| ≤ 7 * (1 + √x) * R.u / x) ∧
    (∀ d, IsStumpff 3 x d → ∃ c, stumpff3 g .f64 (num R x) = num R c ∧ |c - d| ≤ 10 * R.u / x) := by
  obtain ⟨h0, h1⟩ := isStumpff_pos hx
  have h2 := isStumpff_shift hx.ne' h0
  have h3 := isStumpff_shift hx.ne' h1
  norm_num at h2 h3
  refine ⟨fun d hd => ?_, fun d hd => ?_, fun d hd => ?_, fun d hd => ?_⟩
  · rw [isStumpff_unique hd h0]; exact pos0 hu g hx
  · rw [isStumpff_unique hd h1]; exact pos1 hu g hx
  · rw [isStumpff_unique hd h2]; exact pos2 hu g hx
  · rw [isStumpff_unique hd h3]; exact pos3 hu g hx

/-- C99, negative arguments that are not larger than `(1/(8 u))^2`: with rounding, c0 and c1 have relative errors of a few units times `1 + sqrt(-x)`;
those of c2 and c3 are relative to the numbers that are subtracted. -/
theorem c99_neg (hu : R.u ≤ 1 / 10 ^ 6) (g : RF R) (x : ℝ) (hx : x < 0) (hyu : √(-x) * R.u ≤ 1 / 8) :
    (∀ d, IsStumpff 0 x d → ∃ c, stumpff0 g .f64 (num R x) = num R c ∧ |c - d| ≤ 2 * (1 + √(-x)) * R.u * d) ∧
    (∀ d, IsStumpff 1 x d → ∃ c, stumpff1 g .f64 (num R x) = num R c ∧ |c - d| ≤ 5 * (1 + √(-x)) * R.u * d) ∧
    (∀ d0 d, IsStumpff 0 x d0 → IsStumpff 2 x d → ∃ c, stumpff2 g .f64 (num R x) = num R c ∧ |c - d| ≤ 7 * (1 + √(-x)) * R.u * d0 / |x|) ∧
    (∀ d1 d, IsStumpff 1 x d1 → IsStumpff 3 x d → ∃ c, stumpff3 g .f64 (num R x) = num R c ∧ |c - d| ≤ 13 * (1 + √(-x)) * R.u * d1 / |x|) := by
  obtain ⟨h0, h1⟩ := isStumpff_neg hx
  have h2 := isStumpff_shift hx.ne h0
  have h3 := isStumpff_shift hx.ne h1
  norm_num at h2 h3
  refine ⟨fun d hd => ?_, fun d hd => ?_, fun d0 d hd0 hd => ?_, fun d1 d hd1 hd => ?_⟩
  · rw [isStumpff_unique hd h0]; exact neg0 hu g hx hyu
  · rw [isStumpff_unique hd h1]; exact neg1 hu g hx hyu
  · rw [isStumpff_unique hd0 h0, isStumpff_unique hd h2]; exact neg2 hu g hx hyu
  · rw [isStumpff_unique hd1 h1, isStumpff_unique hd h3]; exact neg3 hu g hx hyu

/-- C99, argument 0: exact, but for the rounding of 1/6 -/
theorem c99_zero (g : RF R) :
    stumpff0 g .f64 (num R 0) = num R 1 ∧ stumpff1 g .f64 (num R 0) = num R 1 ∧ stumpff2 g .f64 (num R 0) = num R (1 / 2) ∧
    stumpff3 g .f64 (num R 0) = num R (R.rd (1 / 6)) := by
  have h6 : (6 : RF R) = num R 6 := ofNat_num 6 (by norm_num)
  have hh : (half : RF R) = num R (1 / 2) := by
    show (Np.lit (1 / 2) : RF R) = _
    rw [lit_num 2 (by norm_num) (by norm_num)]
    norm_num
  refine ⟨?_, ?_, ?_, ?_⟩
  · simp [stumpff0]
  · simp [stumpff1]
  · simp [stumpff2, store_num, hh]
  · simp [stumpff3, store_num, h6, div_num]

/-- C99, the cancellation: in double precision c2 and c3 return 0 for all arguments with `0 < |x| <= 2^-54`, where the series are near 1/2 and 1/6. -/
theorem c99_cancel (g : RF Binary.binary64) (x : ℝ) (hx0 : x ≠ 0) (hx : |x| ≤ (1 / 2) ^ 54) :
    stumpff2 g .f64 (num _ x) = num _ 0 ∧ stumpff3 g .f64 (num _ x) = num _ 0 ∧
    (∀ d, IsStumpff 2 x d → 49 / 100 ≤ d) ∧ (∀ d, IsStumpff 3 x d → 16 / 100 ≤ d) := by
  have rd0 : Binary.binary64.rd 0 = 0 := by simp [Rounding.rd]
  have hx1 : |x| ≤ 1 / 1000 := hx.trans (by norm_num)
  refine ⟨?_, ?_, fun d hd => ?_, fun d hd => ?_⟩
  · rcases lt_or_gt_of_ne hx0 with h | h
    · have hs : 0 < √(-x) := Real.sqrt_pos.mpr (by linarith)
      obtain ⟨s1, s2, s3⟩ := small_root hs (by rw [Real.sq_sqrt (by linarith), ← abs_of_neg h]; exact hx)
      rw [nval2 g h, cosh_rounds s2]
      simp [rd0]
    · have hs : 0 < √x := Real.sqrt_pos.mpr h
      obtain ⟨s1, s2, s3⟩ := small_root hs (by rw [Real.sq_sqrt h.le, ← abs_of_pos h]; exact hx)
      rw [val2 g h, cos_rounds s2]
      simp [rd0]
  · rcases lt_or_gt_of_ne hx0 with h | h
    · have hs : 0 < √(-x) := Real.sqrt_pos.mpr (by linarith)
      obtain ⟨s1, s2, s3⟩ := small_root hs (by rw [Real.sq_sqrt (by linarith), ← abs_of_neg h]; exact hx)
      rw [nval3 g h, sinh_rounds (Binary.nearest.digits _) s1 s2]
      simp [rd0]
    · have hs : 0 < √x := Real.sqrt_pos.mpr h
      obtain ⟨s1, s2, s3⟩ := small_root hs (by rw [Real.sq_sqrt h.le, ← abs_of_pos h]; exact hx)
      rw [val3 g h, sin_rounds (Binary.nearest.digits _) s1 s3 s2]
      simp [rd0]
  · have h := abs_le.mp (near_zero (hx1.trans (by norm_num)) hd)
    norm_num [Nat.factorial] at h
    linarith
  · have h := abs_le.mp (near_zero (hx1.trans (by norm_num)) hd)
    norm_num [Nat.factorial] at h
    linarith

/-- a case of `c99_pos`: c2 at 1/4 in double precision has 13 correct digits -/
example (g : RF Binary.binary64) : ∃ c d, stumpff2 g .f64 (num _ (1 / 4)) = num _ c ∧ IsStumpff 2 (1 / 4) d ∧ |c - d| ≤ 1 / 10 ^ 13 := by
  obtain ⟨h0, -⟩ := isStumpff_pos (show (0 : ℝ) < 1 / 4 by norm_num)
  have h2 := isStumpff_shift (show (1 / 4 : ℝ) ≠ 0 by norm_num) h0
  obtain ⟨c, c1, c2⟩ := (c99_pos (show (1 / 2 : ℝ) ^ 53 ≤ 1 / 10 ^ 6 by norm_num) g (1 / 4) (by norm_num)).2.2.1 _ h2
  refine ⟨c, _, c1, h2, c2.trans ?_⟩
  rw [show (1 / 4 : ℝ) = (1 / 2) ^ 2 by norm_num, Real.sqrt_sq (by norm_num)]
  show 7 * (1 + 1 / 2) * (1 / 2 : ℝ) ^ 53 / (1 / 2) ^ 2 ≤ _
  norm_num

/-- a case of `c99_neg` -/
example (g : RF Binary.binary64) : ∃ c d, stumpff1 g .f64 (num _ (-1)) = num _ c ∧ IsStumpff 1 (-1) d ∧ |c - d| ≤ d / 10 ^ 14 := by
  obtain ⟨-, h1⟩ := isStumpff_neg (show (-1 : ℝ) < 0 by norm_num)
  obtain ⟨c, c1, c2⟩ := (c99_neg (show (1 / 2 : ℝ) ^ 53 ≤ 1 / 10 ^ 6 by norm_num) g (-1) (by norm_num)
    (by rw [neg_neg, Real.sqrt_one]; show 1 * (1 / 2 : ℝ) ^ 53 ≤ _; norm_num)).2.1 _ h1
  refine ⟨c, _, c1, h1, c2.trans ?_⟩
  rw [neg_neg, Real.sqrt_one]
  have hd : 0 < Real.sinh 1 := Real.sinh_pos_iff.mpr one_pos
  show 5 * (1 + 1) * (1 / 2 : ℝ) ^ 53 * _ ≤ _
  norm_num
  linarith

/-- a case of `c99_cancel`: the argument `2^-60` -/
example (g : RF Binary.binary64) : stumpff2 g .f64 (num _ ((1 / 2) ^ 60)) = num _ 0 ∧ stumpff3 g .f64 (num _ ((1 / 2) ^ 60)) = num _ 0 :=
  have h := c99_cancel g ((1 / 2) ^ 60) (by norm_num) (by rw [abs_of_pos (by norm_num)]; norm_num)
  ⟨h.1, h.2.1⟩

end Pyorb
