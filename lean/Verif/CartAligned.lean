import Verif.RoundSpecial
import Verif.PropsCartMotion

/-!
# Elements that describe an orbit up to a shift between the angles

`cart_to_kep` sets the argument of periapsis of a nearly circular orbit and the node of an equatorial orbit to zero and counts the other angles from there.
-/

set_option linter.unusedVariables false

namespace Pyorb
open FX RF Matrix
variable {R : Rounding}

namespace CartKep

/-- the computed elements `k'` are close to elements `kr` that describe, up to the difference `γ` of the eccentricities, the same curve as `k`, the anomaly being counted from another place -/
structure Aligned (k kr k' : Kep ℝ) (φ F0 α β γ D b : ℝ) : Prop where
  a : kr.a = k.a
  e_le : kr.e ≤ k.e
  e_gap : k.e - kr.e ≤ γ
  small : γ ≤ 1 / 200 * (1 - k.e)
  e1 : k.e < 1
  near : NearEllipse kr k' α β D
  same : ∀ n F, ellipseState kr n (F + φ) = ellipseState { k with e := kr.e } n F
  point : ∃ F1, Orbit.SamePoint k'.e k'.nu F1 ∧ |meanOf k'.e F1 - meanOf k'.e (F0 + φ)| ≤ b
  range : |k'.nu| ≤ 7

section
variable {k kr k' : Kep ℝ} {φ F0 α β γ D b : ℝ} (A : Aligned k kr k' φ F0 α β γ D b)
include A

theorem Aligned.γ0 : 0 ≤ γ := by linarith [A.e_le, A.e_gap]

theorem Aligned.close {mu : ℝ} (hmu : 0 < mu) {F G b' : ℝ} {z : ℤ} (hb : |meanOf k'.e F - (meanOf k'.e (G + φ) + z * (2 * Real.pi))| ≤ b') :
    vlen ((ellipseState k' √(mu / k'.a ^ 3) F).r - (ellipseState k √(mu / k.a ^ 3) G).r) ≤ k.a / (1 - k.e) * (102 / 100 * b' + 13 * D + 3 * α + 4 * β + 4 * γ) ∧
    vlen ((ellipseState k' √(mu / k'.a ^ 3) F).v - (ellipseState k √(mu / k.a ^ 3) G).v) ≤
      k.a * √(mu / k.a ^ 3) / (1 - k.e) ^ 2 * (104 / 100 * b' + 13 * D + 3 * α + 5 * β + 5 * γ) := by
  have hq : 0 < 1 - k.e := by linarith [A.e1]
  have S := A.near.shape
  have hak := S.a_pos
  rw [A.a] at hak
  have he0 := S.e0
  have hγ0 := A.γ0
  have hle := A.e_le
  have hgap := A.e_gap
  obtain ⟨r1, r2⟩ := near_ellipse hmu A.near hb
  have hN1 : NearEllipse k { k with e := kr.e } 0 γ 0 := by
    refine ⟨⟨hak, by linarith, A.e1, S.e0, by simp, ?_, by norm_num, A.small⟩, 0, 0, 0, by simp⟩
    rw [abs_le]
    constructor <;> (show _ ≤ _; first | (show -γ ≤ kr.e - k.e; linarith) | (show kr.e - k.e ≤ γ; linarith))
  obtain ⟨w1, w2⟩ := near_ellipse (F := G) (F' := G) (b := 0) (z := 0) hmu hN1 (by simp)
  change vlen ((ellipseState { k with e := kr.e } √(mu / k.a ^ 3) G).r - _) ≤ _ at w1
  change vlen ((ellipseState { k with e := kr.e } √(mu / k.a ^ 3) G).v - _) ≤ _ at w2
  rw [A.a] at r1 r2
  rw [A.same] at r1 r2
  have hb0 : 0 ≤ b' := (abs_nonneg _).trans hb
  have hD0 : 0 ≤ D := by obtain ⟨z1, z2, z3, h⟩ := A.near.plane; exact le_trans (by positivity) h
  have hα0 := S.α0
  have hβ0 := S.β0
  have hn := Real.sqrt_nonneg (mu / k.a ^ 3)
  constructor
  · refine (Orbit.vlen_via _ _ _).trans ((add_le_add r1 w1).trans ?_)
    have h1 : k.a / (1 - kr.e) ≤ k.a / (1 - k.e) := div_le_div_of_nonneg_left hak.le hq (by linarith)
    have h2 := mul_le_mul_of_nonneg_right h1 (show 0 ≤ 102 / 100 * b' + 13 * D + 3 * α + 4 * β by linarith)
    refine (add_le_add_left h2 _).trans (le_of_eq ?_)
    ring
  · refine (Orbit.vlen_via _ _ _).trans ((add_le_add r2 w2).trans ?_)
    have h1 : k.a * √(mu / k.a ^ 3) / (1 - kr.e) ^ 2 ≤ k.a * √(mu / k.a ^ 3) / (1 - k.e) ^ 2 :=
      div_le_div_of_nonneg_left (by positivity) (by positivity) (pow_le_pow_left₀ hq.le (by linarith) 2)
    have h2 := mul_le_mul_of_nonneg_right h1 (show 0 ≤ 104 / 100 * b' + 13 * D + 3 * α + 5 * β by linarith)
    refine (add_le_add_left h2 _).trans (le_of_eq ?_)
    ring

theorem Aligned.shapes : 0 < k.a ∧ 0 ≤ k.e ∧ 199 / 200 * (1 - k.e) ≤ 1 - k'.e ∧ k'.a / (1 - k'.e) ≤ 102 / 100 * (k.a / (1 - k.e)) ∧
    ∀ {mu : ℝ}, 0 < mu → k'.a * √(mu / k'.a ^ 3) / (1 - k'.e) ^ 2 ≤ 104 / 100 * (k.a * √(mu / k.a ^ 3) / (1 - k.e) ^ 2) := by
  have hq : 0 < 1 - k.e := by linarith [A.e1]
  have S := A.near.shape
  have hak := S.a_pos
  have hle := A.e_le
  have h1 := S.q_ge
  have h2 := S.quot
  have h3 := fun {mu : ℝ} (hmu : 0 < mu) => S.quot2 hmu
  have h0 := S.e0
  rw [A.a] at hak h2
  refine ⟨hak, by linarith, by linarith, ?_, fun {mu} hmu => ?_⟩
  · have h4 : k.a / (1 - kr.e) ≤ k.a / (1 - k.e) := div_le_div_of_nonneg_left hak.le hq (by linarith)
    linarith
  · have h5 := h3 hmu
    rw [A.a] at h5
    have hn := Real.sqrt_nonneg (mu / k.a ^ 3)
    have h4 : k.a * √(mu / k.a ^ 3) / (1 - kr.e) ^ 2 ≤ k.a * √(mu / k.a ^ 3) / (1 - k.e) ^ 2 :=
      div_le_div_of_nonneg_left (by positivity) (by positivity) (pow_le_pow_left₀ hq.le (by linarith) 2)
    linarith

/-- what `kep_to_cart` returns for the computed elements -/
theorem Aligned.back {mu : ℝ} (hmu : 0 < mu) (g' : Nat → RF R) {c : Cart ℝ} (hc : c = ellipseState k √(mu / k.a ^ 3) F0) (hu : 10 ^ 5 * R.u ≤ 1 - k.e) :
    ∃ c' : Cart ℝ, (kep_to_cart g' (.sc (RF.num R mu)) false (.vec .f64 (k'.num R))).1 = .ok (.vec .f64 (c'.num R)) ∧
      vlen (c'.r - c.r) ≤ k.a / (1 - k.e) * (104 / 100 * b + 13 * D + 3 * α + 5 * β + 5 * γ + 1230 * R.u) ∧
      vlen (c'.v - c.v) ≤ k.a * √(mu / k.a ^ 3) / (1 - k.e) ^ 2 * (104 / 100 * b + 13 * D + 3 * α + 5 * β + 5 * γ + 1230 * R.u) := by
  have hu0 := R.u_nonneg
  have S := A.near.shape
  obtain ⟨F1, hF1, hb⟩ := A.point
  rw [show meanOf k'.e F1 - meanOf k'.e (F0 + φ) = meanOf k'.e F1 - (meanOf k'.e (F0 + φ) + (0 : ℤ) * (2 * Real.pi)) by rw [Int.cast_zero, zero_mul, add_zero]] at hb
  have hb0 : 0 ≤ b := (abs_nonneg _).trans hb
  obtain ⟨q1, q2⟩ := A.close hmu hb
  obtain ⟨hak, he0, hq', hquot, hquot2⟩ := A.shapes
  have hq : 0 < 1 - k.e := by linarith [A.e1]
  obtain ⟨c', w1, w2, w3⟩ := Orbit.cart_err_wide (R := R) ⟨g' 0, ⟨k'.num R, ⟨0, 0, 0⟩, 0, 0, 0⟩, k'.num R, g' 0, g' 0, g' 0⟩ hmu S.a_pos' S.e0' S.e1' (by norm_num at hu; linarith) hF1
  have hβ0 := S.β0
  have hγ0 := A.γ0
  have hn := Real.sqrt_nonneg (mu / k.a ^ 3)
  refine ⟨c', by rw [← w1]; rfl, ?_, ?_⟩
  · rw [hc]
    refine (Orbit.vlen_via _ _ _).trans ((add_le_add w2 q1).trans ?_)
    have e1 := mul_le_mul hquot (show 600 * (1 + k'.e) * R.u ≤ 1200 * R.u by have := mul_le_mul_of_nonneg_right (show 1 + k'.e ≤ 2 by linarith [S.e1']) hu0; linarith)
      (by have := S.e0'; positivity) (by positivity)
    refine (add_le_add_left e1 _).trans ?_
    rw [show 102 / 100 * (k.a / (1 - k.e)) * (1200 * R.u) = k.a / (1 - k.e) * (1224 * R.u) by ring, ← mul_add]
    refine mul_le_mul_of_nonneg_left ?_ (by positivity)
    linarith
  · rw [hc]
    refine (Orbit.vlen_via _ _ _).trans ((add_le_add w3 q2).trans ?_)
    have e1 := mul_le_mul_of_nonneg_right (hquot2 hmu) (show 0 ≤ 400 * R.u by linarith)
    refine (add_le_add_left e1 _).trans ?_
    rw [show 104 / 100 * (k.a * √(mu / k.a ^ 3) / (1 - k.e) ^ 2) * (400 * R.u) = k.a * √(mu / k.a ^ 3) / (1 - k.e) ^ 2 * (416 * R.u) by ring, ← mul_add]
    refine mul_le_mul_of_nonneg_left ?_ (by positivity)
    linarith
end

end CartKep
end Pyorb
