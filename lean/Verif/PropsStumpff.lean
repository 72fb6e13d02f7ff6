import Mathlib.Analysis.SpecialFunctions.Trigonometric.Series
import Verif.KeplerArr
import Verif.FX

/-!
# C18: the Stumpff functions are the documented power series
-/

set_option linter.unusedSimpArgs false

namespace Pyorb
open FX Nat

/-- Specification (docstring of `stumpff`, kepler.py 1591-1593): the value of the n-th Stumpff function at `x` is the sum
of the series with terms `(-1)^j x^j/(n+2j)!`. -/
def IsStumpff (n : ℕ) (x c : ℝ) : Prop :=
  HasSum (fun j : ℕ => (-1) ^ j * x ^ j / ((n + 2 * j)! : ℝ)) c

theorem _root_.HasSum.congr_fun' {f g : ℕ → ℝ} {c : ℝ} (h : HasSum f c) (e : ∀ j, g j = f j) : HasSum g c := by
  have : g = f := funext e
  rw [this]; exact h

/-- At `x = 0` the sum of the series is `1/n!`. -/
theorem isStumpff_zero (n : ℕ) : IsStumpff n 0 (1 / (n ! : ℝ)) := by
  unfold IsStumpff
  have := hasSum_single (f := fun j : ℕ => (-1 : ℝ) ^ j * 0 ^ j / ((n + 2 * j)! : ℝ)) 0
    (by intro j hj; simp [hj])
  simpa using this

theorem isStumpff_shift {n : ℕ} {x c : ℝ} (hx : x ≠ 0) (h : IsStumpff n x c) :
    IsStumpff (n + 2) x ((1 / (n ! : ℝ) - c) / x) := by
  unfold IsStumpff at *
  have h1 := (hasSum_nat_add_iff' 1).mpr h
  simp only [Finset.sum_range_one, pow_zero, mul_one, mul_zero, add_zero, one_mul] at h1
  have h2 := h1.mul_left (-1 / x)
  have e2 : -1 / x * (c - 1 / (n ! : ℝ)) = (1 / (n ! : ℝ) - c) / x := by
    field_simp
    ring
  rw [e2] at h2
  refine h2.congr_fun' ?_
  · intro j
    have : n + 2 * (j + 1) = n + 2 + 2 * j := by ring
    rw [this]
    field_simp
    ring

theorem isStumpff_pos {x : ℝ} (hx : 0 < x) :
    IsStumpff 0 x (Real.cos (√x)) ∧ IsStumpff 1 x (Real.sin (√x) / √x) := by
  have hs : √x ≠ 0 := (Real.sqrt_pos.mpr hx).ne'
  have hsq : (√x) ^ 2 = x := Real.sq_sqrt hx.le
  constructor
  · have := Real.hasSum_cos (√x)
    unfold IsStumpff
    convert this using 2 with j
    rw [pow_mul, hsq, zero_add]
  · have := (Real.hasSum_sin (√x)).mul_right (1 / √x)
    unfold IsStumpff
    rw [mul_one_div] at this
    refine this.congr_fun' ?_
    intro j
    rw [pow_succ, pow_mul, hsq, add_comm 1 (2 * j)]
    field_simp

theorem isStumpff_neg {x : ℝ} (hx : x < 0) :
    IsStumpff 0 x (Real.cosh (√(-x))) ∧ IsStumpff 1 x (Real.sinh (√(-x)) / √(-x)) := by
  have hx' : 0 < -x := by linarith
  have hs : √(-x) ≠ 0 := (Real.sqrt_pos.mpr hx').ne'
  have hsq : (√(-x)) ^ 2 = -x := Real.sq_sqrt hx'.le
  constructor
  · have := Real.hasSum_cosh (√(-x))
    unfold IsStumpff
    convert this using 2 with j
    rw [pow_mul, hsq, zero_add, neg_pow x]
  · have := (Real.hasSum_sinh (√(-x))).mul_right (1 / √(-x))
    unfold IsStumpff
    rw [mul_one_div] at this
    refine this.congr_fun' ?_
    intro j
    rw [pow_succ, pow_mul, hsq, add_comm 1 (2 * j), neg_pow x]
    field_simp

/-- C18: for every real `x`, every buffer content `g`, the four functions return the documented series (float arrays). -/
theorem c18_stumpff (g : FX) (x : ℝ) :
    (∃ c, stumpff0 g .f64 (fin x) = fin c ∧ IsStumpff 0 x c) ∧
    (∃ c, stumpff1 g .f64 (fin x) = fin c ∧ IsStumpff 1 x c) ∧
    (∃ c, stumpff2 g .f64 (fin x) = fin c ∧ IsStumpff 2 x c) ∧
    (∃ c, stumpff3 g .f64 (fin x) = fin c ∧ IsStumpff 3 x c) := by
  rcases lt_trichotomy x 0 with hx | hx | hx
  · have hx' : 0 < -x := by linarith
    have hs : √(-x) ≠ 0 := (Real.sqrt_pos.mpr hx').ne'
    have hsq : √(-x) * √(-x) = -x := Real.mul_self_sqrt hx'.le
    have hx0 : x ≠ 0 := hx.ne
    obtain ⟨h0, h1⟩ := isStumpff_neg hx
    have h2 := isStumpff_shift hx0 h0
    have h3 := isStumpff_shift hx0 h1
    refine ⟨⟨_, ?_, h0⟩, ⟨_, ?_, h1⟩, ⟨_, ?_, h2⟩, ⟨_, ?_, h3⟩⟩
    · simp [stumpff0, sqrt_fin hx'.le, hx, hx0, not_lt.mpr hx.le]
    · simp [stumpff1, sqrt_fin hx'.le, hx, hx0, not_lt.mpr hx.le, hs]
    · simp [stumpff2, sqrt_fin hx'.le, hx, hx0, not_lt.mpr hx.le]
    · simp only [stumpff3, zero_fin, lt_fin, not_lt.mpr hx.le, decide_false, Bool.false_eq_true, if_false, eq_fin, hx0,
        hx, decide_true, if_true, neg_fin, sqrt_fin hx'.le, sinh_fin, sub_fin, mul_fin, store_f64]
      rw [div_fin (mul_ne_zero hs hx0)]
      congr 1
      norm_num
      field_simp
  · subst hx
    refine ⟨⟨_, ?_, isStumpff_zero 0⟩, ⟨_, ?_, isStumpff_zero 1⟩, ⟨_, ?_, isStumpff_zero 2⟩, ⟨_, ?_, isStumpff_zero 3⟩⟩
    · simp [stumpff0]
    · simp [stumpff1]
    · simp [stumpff2]
    · simp only [stumpff3, zero_fin, lt_fin, lt_irrefl, decide_false, Bool.false_eq_true, if_false, eq_fin, decide_true,
        if_true, store_f64, one_fin, ofNat_fin]
      rw [div_fin (by norm_num)]
      norm_num [Nat.factorial]
  · have hs : √x ≠ 0 := (Real.sqrt_pos.mpr hx).ne'
    have hx0 : x ≠ 0 := hx.ne'
    obtain ⟨h0, h1⟩ := isStumpff_pos hx
    have h2 := isStumpff_shift hx0 h0
    have h3 := isStumpff_shift hx0 h1
    refine ⟨⟨_, ?_, h0⟩, ⟨_, ?_, h1⟩, ⟨_, ?_, h2⟩, ⟨_, ?_, h3⟩⟩
    · simp [stumpff0, sqrt_fin hx.le, hx, hx0, not_lt.mpr hx.le]
    · simp [stumpff1, sqrt_fin hx.le, hx, hx0, not_lt.mpr hx.le, hs]
    · simp [stumpff2, sqrt_fin hx.le, hx, hx0, not_lt.mpr hx.le]
    · simp only [stumpff3, zero_fin, lt_fin, not_lt.mpr hx.le, decide_false, Bool.false_eq_true, if_false, eq_fin, hx0,
        hx, decide_true, if_true, sqrt_fin hx.le, sin_fin, sub_fin, mul_fin, store_f64]
      rw [div_fin (mul_ne_zero hs hx0)]
      congr 1
      norm_num
      field_simp

/-- The specification determines the value: two numbers with the same series coincide, so `c18_stumpff` pins down the
output. -/
theorem isStumpff_unique {n : ℕ} {x c d : ℝ} (h : IsStumpff n x c) (h' : IsStumpff n x d) : c = d :=
  HasSum.unique h h'

/-- C18, documented argument type "float" (docstrings at kepler.py 1475, 1503, ...): with a python scalar the functions
raise TypeError instead of returning a value. -/
theorem c18_scalar_raises (c : FX → DType → FX → FX) (g : Nat → FX) (dt : DType) (x : FX) :
    stumpffArr c g (.sc dt x) = .error .typeError := rfl

end Pyorb
