import Mathlib.Tactic.Set
import Verif.Binary

/-!
# Rounding to nearest

`Nearest R` says that `R` rounds the basic operations to the nearest number with 53 binary digits, with any rule for ties, as IEEE double
precision does away from overflow and underflow.  The elementary functions are allowed errors of several units.  What is proved here does
not follow from an error bound alone: rounding is monotone, and the square root of a rounded square is the number itself.
-/

namespace Pyorb
open FX RF

/-- numbers with 53 binary digits, no bound on the exponent -/
def Digits53 (x : ℝ) : Prop := ∃ m k : ℤ, |m| < 2 ^ 53 ∧ x = m * (2 : ℝ) ^ k

/-- rounding to the nearest number with 53 binary digits; the elementary functions are accurate to 2^-50 -/
structure Nearest (R : Rounding) : Prop where
  digits : ∀ x, Digits53 (R.rd x)
  nearest : ∀ x y, Digits53 y → |R.rd x - x| ≤ |y - x|
  small : R.u ≤ (1 / 2) ^ 50

namespace Digits53

theorem int {n : ℤ} (h : |n| < 2 ^ 53) : Digits53 n := ⟨n, 0, h, by simp⟩
theorem zero : Digits53 0 := ⟨0, 0, by norm_num, by simp⟩
theorem one : Digits53 1 := ⟨1, 0, by norm_num, by simp⟩
theorem zpow (k : ℤ) : Digits53 ((2 : ℝ) ^ k) := ⟨1, k, by norm_num, by simp⟩

theorem neg {x : ℝ} (h : Digits53 x) : Digits53 (-x) := by
  obtain ⟨m, k, h1, rfl⟩ := h
  exact ⟨-m, k, by rwa [abs_neg], by push_cast; ring⟩

theorem abs {x : ℝ} (h : Digits53 x) : Digits53 |x| := by
  rcases abs_choice x with e | e <;> rw [e]
  · exact h
  · exact h.neg

/-- a number with 53 digits is a whole number of units of any power of two that is small enough -/
theorem units {x : ℝ} (h : Digits53 x) {k : ℤ} (hx : (2 : ℝ) ^ (k + 52) ≤ |x|) : ∃ m : ℤ, x = m * (2 : ℝ) ^ k := by
  obtain ⟨m, j, h1, rfl⟩ := h
  have h2 : (2 : ℝ) ^ (k + 52) < (2 : ℝ) ^ (j + 53) := by
    refine hx.trans_lt ?_
    rw [abs_mul, abs_of_pos (zpow_pos two_pos j : (0 : ℝ) < 2 ^ j), zpow_add₀ two_ne_zero, mul_comm]
    refine mul_lt_mul_of_pos_left ?_ (zpow_pos two_pos j)
    exact_mod_cast h1
  have h3 : k ≤ j := by
    have := (zpow_lt_zpow_iff_right₀ (by norm_num : (1 : ℝ) < 2)).mp h2
    omega
  refine ⟨m * 2 ^ (j - k).toNat, ?_⟩
  have e : (((2 : ℤ) ^ (j - k).toNat : ℤ) : ℝ) = (2 : ℝ) ^ (j - k) := by
    push_cast
    rw [← zpow_natCast, Int.toNat_of_nonneg (by omega)]
  rw [Int.cast_mul, e, mul_assoc, ← zpow_add₀ two_ne_zero, sub_add_cancel]

/-- the units of a number and those above it -/
theorem normal {x : ℝ} (hx : 0 < x) : ∃ k : ℤ, (2 : ℝ) ^ (k + 52) ≤ x ∧ x < (2 : ℝ) ^ (k + 53) := by
  refine ⟨Int.log 2 x - 52, ?_, ?_⟩
  · have := Int.zpow_log_le_self (b := 2) (R := ℝ) (by norm_num) hx
    rw [sub_add_cancel]; exact_mod_cast this
  · have := Int.lt_zpow_succ_log_self (b := 2) (R := ℝ) (by norm_num) x
    rw [show Int.log 2 x - 52 + 53 = Int.log 2 x + 1 by ring]; exact_mod_cast this

end Digits53

namespace Binary

theorem digits_near (x : ℝ) : Digits53 (near x) := by
  by_cases hx : x = 0
  · subst hx; rw [near]; simpa using Digits53.zero
  have hu := ulp_pos x
  have h1 : |x| < (2 : ℝ) ^ 53 * ulp x := by
    have := Int.lt_zpow_succ_log_self (b := 2) (R := ℝ) (by norm_num) |x|
    have e : (2 : ℝ) ^ 53 * ulp x = (2 : ℝ) ^ (Int.log 2 |x| + 1) := by
      rw [ulp, show Int.log 2 |x| + 1 = (Int.log 2 |x| - 52) + 53 by ring, zpow_add₀ two_ne_zero (Int.log 2 |x| - 52), mul_comm]
      norm_num
    rw [e]; exact_mod_cast this
  have h2 : |x / ulp x| < (2 : ℝ) ^ 53 := by rw [abs_div, abs_of_pos hu, div_lt_iff₀ hu]; exact h1
  have h3 : |round (x / ulp x)| ≤ 2 ^ 53 := by
    obtain ⟨a, b⟩ := abs_lt.mp h2
    rw [abs_le]
    constructor
    · have := round_mono a.le
      rwa [show (-(2 : ℝ) ^ 53) = ((-2 ^ 53 : ℤ) : ℝ) by norm_num, round_intCast] at this
    · have := round_mono b.le
      rwa [show ((2 : ℝ) ^ 53) = ((2 ^ 53 : ℤ) : ℝ) by norm_num, round_intCast] at this
  rcases lt_or_eq_of_le h3 with h | h
  · exact ⟨round (x / ulp x), Int.log 2 |x| - 52, h, rfl⟩
  · rcases abs_choice (round (x / ulp x)) with e | e
    · refine ⟨1, Int.log 2 |x| + 1, by norm_num, ?_⟩
      rw [near, ← e, h, ulp, show Int.log 2 |x| + 1 = (Int.log 2 |x| - 52) + 53 by ring, zpow_add₀ two_ne_zero (Int.log 2 |x| - 52)]
      norm_num; ring
    · refine ⟨-1, Int.log 2 |x| + 1, by norm_num, ?_⟩
      have : round (x / ulp x) = -2 ^ 53 := by omega
      rw [near, this, ulp, show Int.log 2 |x| + 1 = (Int.log 2 |x| - 52) + 53 by ring, zpow_add₀ two_ne_zero (Int.log 2 |x| - 52)]
      norm_num; ring

theorem near_units (x : ℝ) (m : ℤ) : |near x - x| ≤ |m * ulp x - x| := by
  have hu := ulp_pos x
  have h := round_le (x / ulp x) m
  have e1 : near x - x = -((x / ulp x - round (x / ulp x)) * ulp x) := by rw [near]; field_simp; ring
  have e2 : m * ulp x - x = -((x / ulp x - m) * ulp x) := by field_simp; ring
  rw [e1, e2, abs_neg, abs_neg, abs_mul, abs_mul]
  exact mul_le_mul_of_nonneg_right h (abs_nonneg _)

theorem near_nearest (x y : ℝ) (hy : Digits53 y) : |near x - x| ≤ |y - x| := by
  by_cases hx : x = 0
  · subst hx; simp [near]
  have e52 : (2 : ℝ) ^ (Int.log 2 |x| - 52 + 52) = 2 ^ 52 * ulp x := by
    rw [zpow_add₀ two_ne_zero, ulp, mul_comm]; norm_num
  rcases le_or_gt ((2 : ℝ) ^ (Int.log 2 |x| - 52 + 52)) |y| with h | h
  · obtain ⟨m, hm⟩ := hy.units h
    rw [hm]
    exact near_units x m
  · rw [e52] at h
    have h1 := le_abs hx
    rcases le_total 0 x with hp | hn
    · have h2 := near_units x (2 ^ 52)
      rw [abs_of_nonneg hp] at h1
      refine h2.trans ?_
      push_cast
      rw [abs_of_nonpos (by linarith), abs_of_nonpos (by linarith [le_abs_self y])]
      linarith [le_abs_self y]
    · have h2 := near_units x (-2 ^ 52)
      rw [abs_of_nonpos hn] at h1
      refine h2.trans ?_
      push_cast
      rw [abs_of_nonneg (by linarith), abs_of_nonneg (by linarith [neg_abs_le y])]
      linarith [neg_abs_le y]

theorem nearest : Nearest binary64 where
  digits x := by rw [binary64_rd]; exact digits_near x
  nearest x y hy := by rw [binary64_rd]; exact near_nearest x y hy
  small := by show ((1 : ℝ) / 2) ^ 53 ≤ (1 / 2) ^ 50; norm_num

end Binary

namespace Nearest
variable {R : Rounding} (hR : Nearest R)
include hR

/-- numbers with 53 digits are not changed -/
theorem id {x : ℝ} (h : Digits53 x) : R.rd x = x := by
  have := hR.nearest x x h
  rw [sub_self, abs_zero] at this
  have := abs_nonpos_iff.mp this
  linarith

theorem mono {x y : ℝ} (h : x ≤ y) : R.rd x ≤ R.rd y := by
  rcases eq_or_lt_of_le h with rfl | h
  · exact le_rfl
  by_contra hn
  have h3 : R.rd y < R.rd x := not_le.mp hn
  have h1 := hR.nearest x (R.rd y) (hR.digits y)
  have h2 := hR.nearest y (R.rd x) (hR.digits x)
  rw [← sq_le_sq] at h1 h2
  nlinarith

theorem error (x : ℝ) : |R.rd x - x| ≤ (1 / 2) ^ 53 * |x| := by
  by_cases hx : x = 0
  · subst hx; simp [Rounding.rd]
  exact (hR.nearest x _ (Binary.digits_near x)).trans (Binary.near_rel hx)

theorem nonneg {x : ℝ} (h : 0 ≤ x) : 0 ≤ R.rd x := by
  have := hR.mono h
  rwa [hR.id Digits53.zero] at this

theorem idem (x : ℝ) : R.rd (R.rd x) = R.rd x := hR.id (hR.digits x)

/-- the square root of a rounded square is the number itself -/
theorem sqrt_sq {x : ℝ} (h : Digits53 x) : R.rd (Real.sqrt (R.rd (x * x))) = |x| := by
  by_cases hx0 : x = 0
  · subst hx0; simp [Rounding.rd]
  rw [← abs_mul_abs_self x]
  have hd := h.abs
  have hx : 0 < |x| := abs_pos.mpr hx0
  generalize |x| = x at hd hx
  obtain ⟨k, k1, k2⟩ := Digits53.normal hx
  have hU : (0 : ℝ) < (2 : ℝ) ^ k := zpow_pos two_pos k
  obtain ⟨m, hm⟩ := hd.units (k := k) (by rwa [abs_of_pos hx])
  have e52 : (2 : ℝ) ^ (k + 52) = 2 ^ 52 * 2 ^ k := by rw [zpow_add₀ two_ne_zero, mul_comm]; norm_num
  have e53 : (2 : ℝ) ^ (k + 53) = 2 ^ 53 * 2 ^ k := by rw [zpow_add₀ two_ne_zero, mul_comm]; norm_num
  have hbin := Digits53.zpow (k + 52)
  have hbin2 : Digits53 ((2 : ℝ) ^ (k + 52) * 2 ^ (k + 52)) := by rw [← zpow_add₀ two_ne_zero]; exact Digits53.zpow _
  set U := (2 : ℝ) ^ k
  -- x is at most one unit below the next power of two
  have hmx : x ≤ (2 ^ 53 - 1) * U := by
    rw [hm]
    refine mul_le_mul_of_nonneg_right ?_ hU.le
    rw [hm, e53] at k2
    have h1 : (m : ℝ) < 2 ^ 53 := lt_of_mul_lt_mul_right k2 hU.le
    have h2 : m < 2 ^ 53 := by exact_mod_cast h1
    have h3 : m ≤ 2 ^ 53 - 1 := by omega
    exact_mod_cast h3
  have hy0 : 0 ≤ R.rd (x * x) := hR.nonneg (mul_self_nonneg x)
  have herr := hR.error (x * x)
  rw [abs_of_nonneg (mul_self_nonneg x)] at herr
  have hylow : (2 : ℝ) ^ (k + 52) * 2 ^ (k + 52) ≤ R.rd (x * x) := by
    rw [← hR.id hbin2]
    exact hR.mono (mul_self_le_mul_self (zpow_pos two_pos _).le k1)
  set y := R.rd (x * x)
  have hz0 := Real.sqrt_nonneg y
  have hzz := Real.mul_self_sqrt hy0
  have hzlow : (2 : ℝ) ^ (k + 52) ≤ Real.sqrt y := by
    rw [Real.le_sqrt' (zpow_pos two_pos _), pow_two]; exact hylow
  have hwlow : (2 : ℝ) ^ (k + 52) ≤ R.rd (Real.sqrt y) := by
    have := hR.mono hzlow
    rwa [hR.id hbin] at this
  set z := Real.sqrt y
  have hclose : |x - z| < U / 2 := by
    rw [← hzz] at herr
    obtain ⟨a, b⟩ := abs_le.mp herr
    rw [abs_lt]
    have hU' : 2 ^ 52 * U ≤ x := by rw [← e52]; exact k1
    have hUz : 2 ^ 52 * U ≤ z := by rw [← e52]; exact hzlow
    constructor
    · -- z not too large
      by_contra hc
      have hc : x + U / 2 ≤ z := by linarith
      have h1 : (x + U / 2) * (x + U / 2) ≤ z * z := mul_self_le_mul_self (by linarith) hc
      norm_num at *
      nlinarith
    · by_contra hc
      have hc : z ≤ x - U / 2 := by linarith
      have h1 : z * z ≤ (x - U / 2) * (x - U / 2) := mul_self_le_mul_self hz0 hc
      norm_num at *
      nlinarith
  obtain ⟨n, hn⟩ := (hR.digits z).units (k := k) (by
    rw [abs_of_nonneg ((zpow_pos two_pos _).le.trans hwlow)]; exact hwlow)
  have hnear := hR.nearest z x hd
  have h5 : |R.rd z - x| < U := by
    have := abs_add_le (R.rd z - z) (z - x)
    rw [sub_add_sub_cancel] at this
    have h6 : |z - x| = |x - z| := abs_sub_comm _ _
    linarith
  rw [hn, hm, ← sub_mul, abs_mul, abs_of_pos hU] at h5
  have h7 : |((n : ℝ) - m)| < 1 := by
    by_contra hc
    nlinarith
  have h8 : n = m := by
    have : |n - m| < 1 := by exact_mod_cast h7
    have := Int.abs_lt_one_iff.mp this
    omega
  rw [hn, hm, h8]

end Nearest
end Pyorb
