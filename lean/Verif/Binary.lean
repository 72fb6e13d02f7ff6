import Mathlib.Data.Int.Log
import Mathlib.Algebra.Order.Round
import Mathlib.Analysis.SpecialFunctions.Log.Basic
import Mathlib.Tactic.FieldSimp
import Verif.Round

/-!
# Rounding to nearest with 53 binary digits

The rounding of IEEE double precision, without a bound on the exponent, is a `Rounding` with `u = 2^-53`.
-/

namespace Pyorb
namespace Binary

/-- distance of the numbers with 53 digits around `x` -/
noncomputable def ulp (x : ℝ) : ℝ := (2 : ℝ) ^ (Int.log 2 |x| - 52)

/-- the nearest number with 53 binary digits -/
noncomputable def near (x : ℝ) : ℝ := round (x / ulp x) * ulp x

theorem ulp_pos (x : ℝ) : 0 < ulp x := zpow_pos two_pos _

theorem le_abs {x : ℝ} (hx : x ≠ 0) : 2 ^ 52 * ulp x ≤ |x| := by
  have h := Int.zpow_log_le_self (b := 2) (R := ℝ) (by norm_num) (abs_pos.mpr hx)
  have e : (2 : ℝ) ^ 52 * ulp x = (2 : ℝ) ^ Int.log 2 |x| := by
    rw [ulp, zpow_sub₀ two_ne_zero]
    norm_num
    ring
  rw [e]
  exact_mod_cast h

/-- the error is at most half a unit in the last place -/
theorem near_error (x : ℝ) : |near x - x| ≤ ulp x / 2 := by
  have h := abs_sub_round (x / ulp x)
  have hu := ulp_pos x
  have e : near x - x = -((x / ulp x - round (x / ulp x)) * ulp x) := by
    rw [near]; field_simp; ring
  rw [e, abs_neg, abs_mul, abs_of_pos hu]
  nlinarith

theorem near_rel {x : ℝ} (hx : x ≠ 0) : |near x - x| ≤ (1 / 2) ^ 53 * |x| := by
  have h1 := near_error x
  have h2 := le_abs hx
  norm_num at h2 ⊢
  linarith

theorem round_mono {x y : ℝ} (h : x ≤ y) : round x ≤ round y := by
  rw [round_eq, round_eq]
  exact Int.floor_mono (by linarith)

/-- the rounded number is not smaller than the power of two below `x` -/
theorem le_abs_near {x : ℝ} (hx : x ≠ 0) : 2 ^ 52 * ulp x ≤ |near x| := by
  have hu := ulp_pos x
  have h2 := le_abs hx
  rw [near, abs_mul, abs_of_pos hu]
  refine mul_le_mul_of_nonneg_right ?_ hu.le
  have h3 : (2 : ℝ) ^ 52 ≤ |x / ulp x| := by
    rw [abs_div, abs_of_pos hu, le_div_iff₀ hu]; exact h2
  have key : (2 : ℤ) ^ 52 ≤ |round (x / ulp x)| := by
    rcases le_total 0 (x / ulp x) with hp | hn
    · rw [abs_of_nonneg hp] at h3
      have : (2 : ℤ) ^ 52 ≤ round (x / ulp x) := by
        have := round_mono h3
        have e : round ((2 : ℝ) ^ 52) = 2 ^ 52 := by
          rw [show ((2 : ℝ) ^ 52) = ((2 ^ 52 : ℤ) : ℝ) by norm_num, round_intCast]
        rwa [e] at this
      exact this.trans (le_abs_self _)
    · rw [abs_of_nonpos hn] at h3
      have : round (x / ulp x) ≤ -(2 : ℤ) ^ 52 := by
        have := round_mono (show x / ulp x ≤ -(2 : ℝ) ^ 52 by linarith)
        have e : round (-(2 : ℝ) ^ 52) = -2 ^ 52 := by
          rw [show (-(2 : ℝ) ^ 52) = ((-2 ^ 52 : ℤ) : ℝ) by norm_num, round_intCast]
        rwa [e] at this
      have h4 := neg_le_abs (round (x / ulp x))
      linarith
  exact_mod_cast key

theorem near_rel' {x : ℝ} (hx : x ≠ 0) : |near x - x| ≤ (1 / 2) ^ 53 * |near x| := by
  have h1 := near_error x
  have h2 := le_abs_near hx
  norm_num at h2 ⊢
  linarith

theorem near_pos {x : ℝ} (hx : x ≠ 0) : 0 < near x / x := by
  have h := near_rel hx
  have hx' := abs_pos.mpr hx
  have : |near x / x - 1| ≤ (1 / 2) ^ 53 := by
    rw [show near x / x - 1 = (near x - x) / x by field_simp, abs_div, div_le_iff₀ hx']
    exact h
  have := (abs_le.mp this).1
  norm_num at this
  linarith

theorem near_factor {x : ℝ} (hx : x ≠ 0) : |Real.log (near x / x)| ≤ (1 / 2) ^ 53 := by
  have hp := near_pos hx
  have hx' := abs_pos.mpr hx
  have hn : near x ≠ 0 := by
    intro h
    rw [h, zero_div] at hp
    exact lt_irrefl _ hp
  have hn' := abs_pos.mpr hn
  rw [abs_le]
  constructor
  · have h1 := Real.one_sub_inv_le_log_of_pos hp
    have h2 : |(near x / x)⁻¹ - 1| ≤ (1 / 2) ^ 53 := by
      rw [inv_div, show x / near x - 1 = -((near x - x) / near x) by field_simp; ring, abs_neg, abs_div, div_le_iff₀ hn']
      exact near_rel' hx
    have := (abs_le.mp h2).2
    linarith
  · have h1 := Real.log_le_sub_one_of_pos hp
    have h2 : |near x / x - 1| ≤ (1 / 2) ^ 53 := by
      rw [show near x / x - 1 = (near x - x) / x by field_simp, abs_div, div_le_iff₀ hx']
      exact near_rel hx
    have := (abs_le.mp h2).2
    linarith

/-- logarithm of the rounding factor -/
noncomputable def th (x : ℝ) : ℝ := Real.log (near x / x)

theorem th_le (x : ℝ) : |th x| ≤ (1 / 2) ^ 53 := by
  by_cases hx : x = 0
  · subst hx; simp [th]
  · exact near_factor hx

theorem near_exact {n : ℤ} (hn : |n| ≤ 4096) (h0 : n ≠ 0) : near (n / 4) = n / 4 := by
  have hx : ((n : ℝ) / 4) ≠ 0 := div_ne_zero (by exact_mod_cast h0) (by norm_num)
  have hl : Int.log 2 |(n : ℝ) / 4| ≤ 10 := by
    have h1 := Int.zpow_log_le_self (b := 2) (R := ℝ) (by norm_num) (abs_pos.mpr hx)
    have h2 : |(n : ℝ) / 4| ≤ 1024 := by
      rw [abs_div, abs_of_pos (show (0 : ℝ) < 4 by norm_num), div_le_iff₀ (by norm_num)]
      have : (|n| : ℝ) ≤ 4096 := by exact_mod_cast hn
      linarith
    have h3 : ((2 : ℕ) : ℝ) ^ Int.log 2 |(n : ℝ) / 4| ≤ ((2 : ℕ) : ℝ) ^ (10 : ℤ) := by
      refine h1.trans (h2.trans ?_)
      norm_num
    exact (zpow_le_zpow_iff_right₀ (by norm_num)).mp h3
  -- n / 4 is a whole number of units
  obtain ⟨m, hm⟩ : ∃ m : ℤ, (n : ℝ) / 4 / ulp (n / 4) = m := by
    refine ⟨n * 2 ^ (50 - Int.log 2 |(n : ℝ) / 4|).toNat, ?_⟩
    have e : (((2 : ℤ) ^ (50 - Int.log 2 |(n : ℝ) / 4|).toNat : ℤ) : ℝ) = (2 : ℝ) ^ (50 - Int.log 2 |(n : ℝ) / 4|) := by
      push_cast
      rw [← zpow_natCast, Int.toNat_of_nonneg (by omega)]
    rw [Int.cast_mul, e, ulp]
    rw [show Int.log 2 |(n : ℝ) / 4| - 52 = -(50 - Int.log 2 |(n : ℝ) / 4|) - 2 by ring, zpow_sub₀ two_ne_zero, zpow_neg]
    have : (2 : ℝ) ^ (50 - Int.log 2 |(n : ℝ) / 4|) ≠ 0 := (zpow_pos two_pos _).ne'
    field_simp
    norm_num
  have hu := (ulp_pos ((n : ℝ) / 4)).ne'
  rw [near, hm, round_intCast, ← hm]
  field_simp

theorem th_exact (n : ℤ) (hn : |n| ≤ 4096) : th (n / 4) = 0 := by
  by_cases h0 : n = 0
  · subst h0; simp [th]
  · have hx : ((n : ℝ) / 4) ≠ 0 := div_ne_zero (by exact_mod_cast h0) (by norm_num)
    rw [th, near_exact hn h0, div_self hx, Real.log_one]

/-- double precision with elementary functions that are the exact ones, rounded; no bound on the exponent -/
noncomputable def binary64 : Rounding where
  u := (1 / 2) ^ 53
  u_nonneg := by positivity
  th := th
  th_le := th_le
  exact := th_exact
  lib f x := match f with
    | .cbrt => th (FX.realCbrt x)
    | .log => th (Real.log x)
    | .sin => th (Real.sin x)
    | .cos => th (Real.cos x)
    | .tan => th (Real.tan x)
    | .arccos => th (Real.arccos x)
    | .arctan => th (Real.arctan x)
    | .sinh => th (Real.sinh x)
    | .cosh => th (Real.cosh x)
    | .tanh => th (Real.tanh x)
    | .arctanh => th (Real.artanh x)
  lib_le f x := by cases f <;> exact th_le _
  lib2 f x y := if f then th (Complex.arg ⟨y, x⟩) else th (x - y * (⌊x / y⌋ : ℝ))
  lib2_le f x y := by cases f <;> exact th_le _

/-- rounding in `binary64` is rounding to the nearest number with 53 digits -/
theorem binary64_rd (x : ℝ) : binary64.rd x = near x := by
  by_cases hx : x = 0
  · subst hx; simp [Rounding.rd, near]
  · show x * Real.exp (Real.log (near x / x)) = near x
    rw [Real.exp_log (near_pos hx)]
    field_simp

end Binary
end Pyorb
