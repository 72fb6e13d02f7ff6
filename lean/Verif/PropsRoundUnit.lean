import Verif.PropsUnit
import Verif.PropsRoundStumpff

/-!
# `get_G` computed with rounding (C101)
-/

set_option linter.unusedSimpArgs false
set_option linter.unusedVariables false

namespace Pyorb
open FX RF
variable {R : Rounding}

/-- the argument stands for a unit of SI size `x`: a float of that value, or a name from the table in any letter case (for masses with
separators anywhere); as `StandsFor`, for rounded numbers -/
def StandsForR (table : List (String × ℝ)) (dropSep : Bool) (a : UnitArg (RF R)) (x : ℝ) : Prop :=
  a = .pyFloat (num R x) ∨ a = .npFloat (num R x) ∨
  ∃ s n, a = .str s ∧ (n, x) ∈ table ∧ SameUpToCase (if dropSep then s.filter (fun c => !isSep c) else s) n.toList

namespace RUnit

theorem rel_lit (q : ℚ) : Rel 1 (Np.lit q : RF R) q := by
  have := rel_rd (R := R) (k := 0) (x := (q : ℝ)) (y := q) (t := 0) (by simp) (by simp)
  rw [zero_add] at this
  exact this

theorem rel_one : Rel 1 (1 : RF R) 1 := by rw [one_num]; exact (Rel.num 1).mono (by norm_num)

theorem mass_rel (ext : Char → List Char) {a : UnitArg (RF R)} {x : ℝ} (h : StandsForR massTable true a x) :
    ∃ v b, unitValue (fun s => dropSeps (lower ext s)) massUnit a = .ok (v, b) ∧ Rel 1 v x := by
  rcases h with rfl | rfl | ⟨s, n, rfl, hm, hs⟩
  · exact ⟨_, _, rfl, (Rel.num x).mono (by norm_num)⟩
  · exact ⟨_, _, rfl, (Rel.num x).mono (by norm_num)⟩
  · simp only [massTable, List.mem_cons, Prod.mk.injEq, List.not_mem_nil, or_false] at hm
    simp only [if_true] at hs
    rcases hm with ⟨rfl, rfl⟩ | ⟨rfl, rfl⟩ | ⟨rfl, rfl⟩ | ⟨rfl, rfl⟩
    · refine ⟨1, false, ?_, rel_one⟩
      simp only [unitValue, dropSeps_lower ext s _ hs (by decide)]; rfl
    · refine ⟨Np.lit (1 / 1000), false, ?_, ?_⟩
      · simp only [unitValue, dropSeps_lower ext s _ hs (by decide)]; rfl
      · have := rel_lit (R := R) (1 / 1000); push_cast at this; exact this
    · refine ⟨constMsol, false, ?_, ?_⟩
      · simp only [unitValue, dropSeps_lower ext s _ hs (by decide)]; rfl
      · have := rel_lit (R := R) 1988470000000000000000000000000; push_cast at this; norm_num at this ⊢; exact this
    · refine ⟨constMsol, false, ?_, ?_⟩
      · simp only [unitValue, dropSeps_lower ext s _ hs (by decide)]; rfl
      · have := rel_lit (R := R) 1988470000000000000000000000000; push_cast at this; norm_num at this ⊢; exact this

theorem time_rel (ext : Char → List Char) {a : UnitArg (RF R)} {x : ℝ} (h : StandsForR timeTable false a x) :
    ∃ v b, unitValue (lower ext) timeUnit a = .ok (v, b) ∧ Rel 3 v x := by
  have r1 : Rel 1 (3600 : RF R) 3600 := by have := rel_lit (R := R) ((3600 : ℕ) : ℚ); push_cast at this; exact this
  have r2 : Rel 0 (24 : RF R) 24 := by
    have : (24 : RF R) = num R 24 := by
      show (Np.lit ((24 : ℕ) : ℚ) : RF R) = _
      rw [ofNat_num 24 (by norm_num)]; norm_num
    rw [this]; exact Rel.num 24
  have r3 : Rel 0 (Np.lit (36525 / 100) : RF R) (36525 / 100) := by
    have : (Np.lit (36525 / 100) : RF R) = num R (36525 / 100) := by
      rw [lit_num 1461 (by norm_num) (by norm_num)]; norm_num
    rw [this]; exact Rel.num _
  rcases h with rfl | rfl | ⟨s, n, rfl, hm, hs⟩
  · exact ⟨_, _, rfl, (Rel.num x).mono (by norm_num)⟩
  · exact ⟨_, _, rfl, (Rel.num x).mono (by norm_num)⟩
  · simp only [timeTable, List.mem_cons, Prod.mk.injEq, List.not_mem_nil, or_false] at hm
    simp only [Bool.false_eq_true, if_false] at hs
    rcases hm with ⟨rfl, rfl⟩ | ⟨rfl, rfl⟩ | ⟨rfl, rfl⟩ | ⟨rfl, rfl⟩
    · refine ⟨1, false, ?_, rel_one.mono (by norm_num)⟩
      simp only [unitValue, lower_of_same ext hs (by decide)]; rfl
    · refine ⟨3600, false, ?_, r1.mono (by norm_num)⟩
      simp only [unitValue, lower_of_same ext hs (by decide)]; rfl
    · refine ⟨3600 * 24, false, ?_, ?_⟩
      · simp only [unitValue, lower_of_same ext hs (by decide)]; rfl
      · have := (r1.mul r2).mono (show (1 + 0 + 1 : ℝ) ≤ 3 by norm_num)
        norm_num at this; exact this
    · refine ⟨3600 * 24 * Np.lit (36525 / 100), false, ?_, ?_⟩
      · simp only [unitValue, lower_of_same ext hs (by decide)]; rfl
      · have := ((r1.mul r2).mul r3).mono (show (1 + 0 + 1 + 0 + 1 : ℝ) ≤ 3 by norm_num)
        norm_num at this ⊢; exact this

theorem length_rel (ext : Char → List Char) {a : UnitArg (RF R)} {x : ℝ} (h : StandsForR lengthTable false a x) :
    ∃ v b, unitValue (lower ext) lengthUnit a = .ok (v, b) ∧ Rel 1 v x := by
  rcases h with rfl | rfl | ⟨s, n, rfl, hm, hs⟩
  · exact ⟨_, _, rfl, (Rel.num x).mono (by norm_num)⟩
  · exact ⟨_, _, rfl, (Rel.num x).mono (by norm_num)⟩
  · simp only [lengthTable, List.mem_cons, Prod.mk.injEq, List.not_mem_nil, or_false] at hm
    simp only [Bool.false_eq_true, if_false] at hs
    rcases hm with ⟨rfl, rfl⟩ | ⟨rfl, rfl⟩ | ⟨rfl, rfl⟩ | ⟨rfl, rfl⟩ | ⟨rfl, rfl⟩
    · refine ⟨1, false, ?_, rel_one⟩
      simp only [unitValue, lower_of_same ext hs (by decide)]; rfl
    · refine ⟨Np.lit (1 / 100), false, ?_, ?_⟩
      · simp only [unitValue, lower_of_same ext hs (by decide)]; rfl
      · have := rel_lit (R := R) (1 / 100); push_cast at this; exact this
    · refine ⟨1000, false, ?_, ?_⟩
      · simp only [unitValue, lower_of_same ext hs (by decide)]; rfl
      · have := rel_lit (R := R) ((1000 : ℕ) : ℚ); push_cast at this; exact this
    · refine ⟨constAU, false, ?_, ?_⟩
      · simp only [unitValue, lower_of_same ext hs (by decide)]; rfl
      · have := rel_lit (R := R) 149597870700; push_cast at this; norm_num at this ⊢; exact this
    · refine ⟨Np.lit 30856775814913700, false, ?_, ?_⟩
      · simp only [unitValue, lower_of_same ext hs (by decide)]; rfl
      · have := rel_lit (R := R) 30856775814913700; push_cast at this; norm_num at this ⊢; exact this

end RUnit

open RUnit RStumpff in
/-- C101: with rounding, for all units given by name or as floats and a non-zero length unit, `get_G` returns the value of the gravitational
constant in these units with a relative error of at most 18 units of rounding. -/
theorem c101 (hu : R.u ≤ 1 / 10 ^ 6) (ext : Char → List Char) (length mass time : UnitArg (RF R)) (l m t : ℝ)
    (hl : StandsForR lengthTable false length l) (hm : StandsForR massTable true mass m)
    (ht : StandsForR timeTable false time t) (h0 : l ≠ 0) :
    ∃ G, get_G ext length mass time = .ok (num R G) ∧ |G - 6.6743e-11 * m * t ^ 2 / l ^ 3| ≤ 18 * R.u * |6.6743e-11 * m * t ^ 2 / l ^ 3| := by
  obtain ⟨vm, b1, h1, r1⟩ := mass_rel ext hm
  obtain ⟨vt, b2, h2, r2⟩ := time_rel ext ht
  obtain ⟨vl, b3, h3, r3⟩ := length_rel ext hl
  have hl3 : l * l * l ≠ 0 := mul_ne_zero (mul_ne_zero h0 h0) h0
  have rc : Rel (1 + 1 + 1 + 1 + 1) (cube vl) (l * l * l) := (r3.mul r3).mul r3
  have rs : Rel (3 + 3 + 1) (Pyorb.sq vt) (t * t) := r2.mul r2
  have rg : Rel 1 (constG : RF R) 6.6743e-11 := by
    have := rel_lit (R := R) (66743 / 1000000000000000); push_cast at this; norm_num at this ⊢; exact this
  have hne : (cube vl =ᵇ (0 : RF R)) = false := by
    obtain ⟨s, -, e⟩ := rc
    rw [e, zero_num, eq_num]
    exact decide_eq_false (mul_ne_zero hl3 (Real.exp_pos s).ne')
  have key := rg.mul ((r1.mul rs).div rc hl3)
  obtain ⟨s, s1, s2⟩ := key
  refine ⟨6.6743e-11 * (m * (t * t) / (l * l * l)) * Real.exp s, ?_, ?_⟩
  · simp only [get_G, h1, h2, h3, bind, Except.bind, hne, Bool.false_and, Bool.false_eq_true, if_false, pure, Except.pure, s2]
  · have e : (6.6743e-11 : ℝ) * (m * (t * t) / (l * l * l)) = 6.6743e-11 * m * t ^ 2 / l ^ 3 := by field_simp
    rw [e, show (6.6743e-11 : ℝ) * m * t ^ 2 / l ^ 3 * Real.exp s - 6.6743e-11 * m * t ^ 2 / l ^ 3 =
      (Real.exp s - 1) * (6.6743e-11 * m * t ^ 2 / l ^ 3) by ring, abs_mul]
    refine mul_le_mul_of_nonneg_right ?_ (abs_nonneg _)
    have hs : |s| ≤ 17 * R.u := s1.trans (by linarith [R.u_nonneg])
    refine (exp_diff hs).trans ?_
    obtain ⟨w, hw⟩ : ∃ w, w = 17 * R.u := ⟨_, rfl⟩
    have hw0 : 0 ≤ w := by rw [hw]; linarith [R.u_nonneg]
    have hw1 : w ≤ 17 * (1 / 10 ^ 6) := by rw [hw]; linarith
    rw [← hw]
    have := exp_sub_one_le hw0 (hw1.trans (by norm_num))
    have h5 := Real.add_one_le_exp (-w)
    have h6 : Real.exp w * Real.exp (-w) = 1 := by rw [← Real.exp_add]; simp
    have h7 := Real.exp_pos w
    have h8 : Real.exp w * (1 - w) ≤ 1 := by nlinarith
    norm_num at hw1
    nlinarith

/-- a case: `get_G('AU', 'M_sun', 'D')` in double precision has a relative error of at most `2e-15` -/
example (ext : Char → List Char) : ∃ G, get_G ext (.str ['A', 'U']) (.str ['M', '_', 's', 'u', 'n']) (.str ['D']) = .ok (num Binary.binary64 G) ∧
    |G - 6.6743e-11 * 1.98847e30 * 86400 ^ 2 / 1.495978707e11 ^ 3| ≤ 2 / 10 ^ 15 * |(6.6743e-11 * 1.98847e30 * 86400 ^ 2 / 1.495978707e11 ^ 3 : ℝ)| := by
  obtain ⟨G, g1, g2⟩ := c101 (R := Binary.binary64) (show (1 / 2 : ℝ) ^ 53 ≤ 1 / 10 ^ 6 by norm_num) ext (.str ['A', 'U'])
    (.str ['M', '_', 's', 'u', 'n']) (.str ['D']) 1.495978707e11 1.98847e30 86400
    (.inr (.inr ⟨_, "au", rfl, by simp [lengthTable], .cons (.inr rfl) (.cons (.inr rfl) .nil)⟩))
    (.inr (.inr ⟨_, "msun", rfl, by simp [massTable], .cons (.inr rfl) (.cons (.inl rfl) (.cons (.inl rfl) (.cons (.inl rfl) .nil)))⟩))
    (.inr (.inr ⟨_, "d", rfl, by simp [timeTable], .cons (.inr rfl) .nil⟩)) (by norm_num)
  refine ⟨G, g1, g2.trans (mul_le_mul_of_nonneg_right ?_ (abs_nonneg _))⟩
  show 18 * (1 / 2 : ℝ) ^ 53 ≤ _
  norm_num

end Pyorb
