import Verif.OrbitSpec

/-!
# C26, C53: `kep_equivalent`
-/

set_option linter.unusedSimpArgs false

namespace Pyorb
open FX

/-- numpy's closeness test on finite numbers; not symmetric in its arguments -/
def Near (x y : ℝ) : Prop := |x - y| ≤ 1 / 10 ^ 8 + 1 / 10 ^ 5 * |y|

theorem isclose_iff (x y : ℝ) : isclose (fin x) (fin y) = true ↔ Near x y := by
  simp only [isclose, isfinite_fin, Bool.and_self, if_true, FX.sub_fin, abs_fin, lit_fin, mul_fin, add_fin, le_fin,
    decide_eq_true_eq, Near]
  norm_num

theorem Near.refl (x : ℝ) : Near x x := by
  unfold Near
  rw [sub_self, abs_zero]
  positivity

/-- C53: exactly which pairs of finite element sets `kep_equivalent` accepts.  `eLim`, `iLim` are the module thresholds. -/
theorem c53_accepts (k1 k2 : Kep ℝ) : kep_equivalent k1.fx k2.fx = true ↔
    (Near k1.a k2.a ∧ Near k1.e k2.e ∧ Near k1.i k2.i ∧ Near k1.om k2.om ∧ Near k1.OM k2.OM ∧ Near k1.nu k2.nu) ∨
    (Near k1.a k2.a ∧
      (if k1.e < eLim ∧ k2.e < eLim then Near (k1.om + k1.nu) (k2.om + k2.nu) else Near k1.om k2.om ∧ Near k1.nu k2.nu) ∧
      (iLim < k1.i ∨ iLim < k2.i → Near k1.i k2.i ∧ Near k1.OM k2.OM)) := by
  simp only [kep_equivalent, allclose, Kep.fx, ← isclose_iff, e_lim_fin, i_lim_fin, lt_fin, add_fin]
  generalize isclose (fin k1.a) (fin k2.a) = b1
  generalize isclose (fin k1.e) (fin k2.e) = b2
  generalize isclose (fin k1.i) (fin k2.i) = b3
  generalize isclose (fin k1.om) (fin k2.om) = b4
  generalize isclose (fin k1.OM) (fin k2.OM) = b5
  generalize isclose (fin k1.nu) (fin k2.nu) = b6
  generalize isclose (fin (k1.om + k1.nu)) (fin (k2.om + k2.nu)) = b7
  by_cases h1 : k1.e < eLim <;> by_cases h2 : k2.e < eLim <;> by_cases h3 : iLim < k1.i <;> by_cases h4 : iLim < k2.i <;>
    simp only [h1, h2, h3, h4, decide_true, decide_false, and_self, and_true, true_and, and_false, false_and, or_self,
      or_true, true_or, or_false, if_true, if_false, true_implies, false_implies, true_imp_iff] <;>
    cases b1 <;> simp only [Bool.false_and, Bool.true_and, Bool.not_false, Bool.not_true, Bool.false_eq_true, false_and, true_and,
      or_self, if_true, if_false] <;>
    cases b3 <;> cases b4 <;> cases b5 <;> cases b6 <;> cases b7 <;> simp

/-- C26, reflexivity: every finite element set is equivalent to itself. -/
theorem c26_refl (k : Kep ℝ) : kep_equivalent k.fx k.fx = true :=
  (c53_accepts k k).mpr (.inl ⟨.refl _, .refl _, .refl _, .refl _, .refl _, .refl _⟩)

/-- C53: a set with a NaN element is not equivalent to itself (here the semi-major axis). -/
theorem c53_nan (k : Kep FX) : kep_equivalent { k with a := nan } { k with a := nan } = false := by
  have : isclose (nan : FX) nan = false := rfl
  simp [kep_equivalent, allclose, this]

/-- C26 is false: the relation is not symmetric (semi-major axes 1 and 1 + 1.001005e-5, all else equal). -/
theorem c26_not_symmetric : ∃ k1 k2 : Kep ℝ, kep_equivalent k1.fx k2.fx = true ∧ kep_equivalent k2.fx k1.fx = false := by
  refine ⟨⟨1, 0, 0, 0, 0, 0⟩, ⟨1 + 1001005 / 10 ^ 11, 0, 0, 0, 0, 0⟩, ?_, ?_⟩
  · rw [c53_accepts]
    left
    refine ⟨?_, .refl _, .refl _, .refl _, .refl _, .refl _⟩
    norm_num [Near, abs_le]
  · rw [← Bool.not_eq_true, c53_accepts]
    have : ¬ Near (1 + 1001005 / 10 ^ 11) 1 := by
      norm_num [Near]
    rintro (h | h)
    · exact this h.1
    · exact this h.1

/-- C26 is false: True does not imply the same orbit.  The two sets differ only in eccentricity (0 and 1/2); the orbits have
states at distances 1 and 1/2 from the central body. -/
theorem c26_not_same_orbit (mu : ℝ) (hmu : 0 < mu) (gh : FX) : ∃ k1 k2 : Kep ℝ, ∃ c1 c2 : Cart ℝ,
    kep_equivalent k1.fx k2.fx = true ∧ (kepToCartCol gh .f64 (fin mu) k1.fx).1 = c1.fx ∧
    (kepToCartCol gh .f64 (fin mu) k2.fx).1 = c2.fx ∧ vlen c1.r = 1 ∧ vlen c2.r = 1 / 2 := by
  have h0 : ∀ k : Kep ℝ, 0 < k.a → 0 ≤ k.e → k.nu = 0 → (kepToCartCol gh .f64 (fin mu) k.fx).1 = (k.state mu).fx ∧
      vlen (k.state mu).r = k.slr / (1 + k.e) := by
    intro k ha he hnu
    have hc : 0 < 1 + k.e * Real.cos k.nu := by rw [hnu, Real.cos_zero]; linarith
    refine ⟨by rw [kepToCartCol_eq gh mu k hmu ha he hc.ne'], ?_⟩
    rw [vlen_r, Kep.Adm.state_rn ⟨hmu, ha, he, hc⟩, Kep.rad, hnu, Real.cos_zero, mul_one]
  refine ⟨⟨1, 0, 0, 0, 0, 0⟩, ⟨1, 1 / 2, 0, 0, 0, 0⟩, _, _, ?_, (h0 _ ?_ ?_ rfl).1, (h0 _ ?_ ?_ rfl).1, ?_, ?_⟩
  · rw [c53_accepts]
    right
    have : ¬ ((0 : ℝ) < eLim ∧ (1 / 2 : ℝ) < eLim) := by norm_num [eLim]
    have h2 : ¬ iLim < 0 := by have := iLim_pos; linarith
    rw [if_neg this]
    exact ⟨.refl _, ⟨.refl _, .refl _⟩, fun h => absurd h (by simp [h2])⟩
  all_goals try norm_num
  · rw [(h0 _ (by norm_num) (by norm_num) rfl).2]; norm_num [Kep.slr]
  · rw [(h0 _ (by norm_num) (by norm_num) rfl).2]; norm_num [Kep.slr, abs_of_pos]

/-- C26 is false in a second way: for two planar orbits the node is ignored although the argument of periapsis is measured
from it: apsidal lines pointing in opposite directions are accepted. -/
theorem c26_planar_node (mu : ℝ) (hmu : 0 < mu) (gh : FX) : ∃ k1 k2 : Kep ℝ, ∃ c1 c2 : Cart ℝ,
    kep_equivalent k1.fx k2.fx = true ∧ (kepToCartCol gh .f64 (fin mu) k1.fx).1 = c1.fx ∧
    (kepToCartCol gh .f64 (fin mu) k2.fx).1 = c2.fx ∧ c1.r 0 = 1 / 2 ∧ c2.r 0 = - (1 / 2) := by
  refine ⟨⟨1, 1 / 2, 0, 0, 0, 0⟩, ⟨1, 1 / 2, 0, 0, Real.pi, 0⟩, _, _, ?_,
    by rw [kepToCartCol_eq gh mu _ hmu (by norm_num) (by norm_num) (by norm_num)],
    by rw [kepToCartCol_eq gh mu _ hmu (by norm_num) (by norm_num) (by norm_num)], ?_, ?_⟩
  · rw [c53_accepts]
    right
    have : ¬ ((1 / 2 : ℝ) < eLim ∧ (1 / 2 : ℝ) < eLim) := by norm_num [eLim]
    have h2 : ¬ iLim < 0 := by have := iLim_pos; linarith
    rw [if_neg this]
    exact ⟨.refl _, ⟨.refl _, .refl _⟩, fun h => absurd h (by simp [h2])⟩
  · norm_num [Cart.r, Kep.state, Kep.rx, Kep.ry, Kep.rad, Kep.slr, Kep.px, Kep.qx]
  · norm_num [Cart.r, Kep.state, Kep.rx, Kep.ry, Kep.rad, Kep.slr, Kep.px, Kep.qx]

/-- C26 is false in a third way: it is not an equivalence, because not transitive. -/
theorem c26_not_transitive : ∃ k1 k2 k3 : Kep ℝ, kep_equivalent k1.fx k2.fx = true ∧ kep_equivalent k2.fx k3.fx = true ∧
    kep_equivalent k1.fx k3.fx = false := by
  refine ⟨⟨0, 0, 0, 0, 0, 0⟩, ⟨1 / 10 ^ 8, 0, 0, 0, 0, 0⟩, ⟨2 / 10 ^ 8, 0, 0, 0, 0, 0⟩, ?_, ?_, ?_⟩
  · rw [c53_accepts]
    exact .inl ⟨by norm_num [Near, abs_le], .refl _, .refl _, .refl _, .refl _, .refl _⟩
  · rw [c53_accepts]
    exact .inl ⟨by norm_num [Near, abs_le], .refl _, .refl _, .refl _, .refl _, .refl _⟩
  · rw [← Bool.not_eq_true, c53_accepts]
    have : ¬ Near 0 (2 / 10 ^ 8) := by norm_num [Near]
    rintro (h | h)
    · exact this h.1
    · exact this h.1

/-- C26, the sound part: what acceptance does guarantee when at least one orbit is eccentric and one is inclined: everything
except the eccentricities is close.  (Missing: the eccentricities, and any guarantee on the node for planar orbits.) -/
theorem c26_sound_partial (k1 k2 : Kep ℝ) (h : kep_equivalent k1.fx k2.fx = true) (he : eLim ≤ k1.e ∨ eLim ≤ k2.e)
    (hi : iLim < k1.i ∨ iLim < k2.i) :
    Near k1.a k2.a ∧ Near k1.i k2.i ∧ Near k1.om k2.om ∧ Near k1.OM k2.OM ∧ Near k1.nu k2.nu := by
  rcases (c53_accepts k1 k2).mp h with h | ⟨ha, hb, hc⟩
  · exact ⟨h.1, h.2.2.1, h.2.2.2.1, h.2.2.2.2.1, h.2.2.2.2.2⟩
  · rw [if_neg (by rintro ⟨h1, h2⟩; rcases he with he | he <;> linarith)] at hb
    exact ⟨ha, (hc hi).1, hb.1, (hc hi).2, hb.2⟩

/-- C26, the sound part for circular orbits: the angle from the node is close. -/
theorem c26_circular_partial (k1 k2 : Kep ℝ) (h : kep_equivalent k1.fx k2.fx = true) (he : k1.e < eLim ∧ k2.e < eLim)
    (hi : iLim < k1.i ∨ iLim < k2.i) : Near k1.a k2.a ∧ Near k1.i k2.i ∧ Near k1.OM k2.OM ∧
      (Near (k1.om + k1.nu) (k2.om + k2.nu) ∨ Near k1.om k2.om ∧ Near k1.nu k2.nu) := by
  rcases (c53_accepts k1 k2).mp h with h | ⟨ha, hb, hc⟩
  · exact ⟨h.1, h.2.2.1, h.2.2.2.2.1, .inr ⟨h.2.2.2.1, h.2.2.2.2.2⟩⟩
  · rw [if_pos he] at hb
    exact ⟨ha, (hc hi).1, (hc hi).2, .inl hb⟩

/-- concrete cases of the two partial statements -/
example : ∃ k1 k2 : Kep ℝ, k1 ≠ k2 ∧ kep_equivalent k1.fx k2.fx = true ∧ (eLim ≤ k1.e ∨ eLim ≤ k2.e) ∧
    (iLim < k1.i ∨ iLim < k2.i) := by
  have h1 : iLim < 1 := by have := Real.pi_le_four; unfold iLim; linarith
  refine ⟨⟨1, 1 / 2, 1, 0, 0, 0⟩, ⟨1, 1 / 4, 1, 0, 0, 0⟩, by simp, ?_, .inl (by norm_num [eLim]), .inl h1⟩
  rw [c53_accepts]
  right
  have : ¬ ((1 / 2 : ℝ) < eLim ∧ (1 / 4 : ℝ) < eLim) := by norm_num [eLim]
  rw [if_neg this]
  exact ⟨.refl _, ⟨.refl _, .refl _⟩, fun _ => ⟨.refl _, .refl _⟩⟩

end Pyorb
