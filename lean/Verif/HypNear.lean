import Verif.PropsOrbitRound
import Verif.PropsOrbitOpen

/-!
# The state of a disturbed true anomaly on a hyperbola, for C110
-/

set_option linter.unusedSimpArgs false
set_option linter.unusedVariables false

namespace Pyorb
namespace Orbit
namespace RHypProp
open Py FX RF

set_option maxHeartbeats 1000000 in
/-- two true anomalies that differ by little lead to states that differ by little: `Q = e cosh E - 1` of the first -/
theorem near_state {mu : ℝ} (hmu : 0 < mu) {k : Kep ℝ} (ha : 0 < k.a) (h1 : 1 < k.e) {nu nu0 E Q δ : ℝ} (hp : SamePointHyp k.e nu0 E) (hQ : Q = k.e * Real.cosh E - 1)
    (hd : |nu - nu0| ≤ δ) (hs : 10 * (k.e * δ * Q) ≤ k.e ^ 2 - 1) :
    0 < Q ∧ 9 / 10 * ((k.e ^ 2 - 1) / Q) ≤ 1 + k.e * Real.cos nu ∧
    vlen ((({ k with nu := nu } : Kep ℝ).state mu).r - (hyperbolaState k √(mu / k.a ^ 3) E).r) ≤ 10 / 9 * (k.a * Q * (δ * (1 + Q / (k.e - 1)))) ∧
    vlen ((({ k with nu := nu } : Kep ℝ).state mu).v - (hyperbolaState k √(mu / k.a ^ 3) E).v) ≤ k.a * √(mu / k.a ^ 3) / √(k.e ^ 2 - 1) * δ := by
  obtain ⟨hn, hn2⟩ := motion_pos hmu ha
  obtain ⟨e, he⟩ : ∃ e, e = k.e := ⟨_, rfl⟩
  obtain ⟨hcos, hsin⟩ := hp.cos_sin h1
  have hQ0 : 0 < Q := by rw [hQ]; exact hyp_denom_pos h1 E
  obtain ⟨hst, hD0⟩ := state_hyp { k with nu := nu0 } mu √(mu / k.a ^ 3) E ha h1 hn hn2 hcos hsin
  have hst' : ({ k with nu := nu0 } : Kep ℝ).state mu = hyperbolaState k √(mu / k.a ^ 3) E := hst
  have hD0 : 0 < 1 + k.e * Real.cos nu0 := hD0
  have he1 : 0 < k.e ^ 2 - 1 := by nlinarith
  have hδ := (abs_nonneg _).trans hd
  have hD0Q : (1 + k.e * Real.cos nu0) * Q = k.e ^ 2 - 1 := by
    rw [hQ]
    linear_combination k.e * hcos
  have hD0v : 1 + k.e * Real.cos nu0 = (k.e ^ 2 - 1) / Q := by rw [eq_div_iff hQ0.ne', hD0Q]
  have hdc : |Real.cos nu - Real.cos nu0| ≤ δ := (Real.abs_cos_sub_cos_le nu nu0).trans hd
  have hdD : |(1 + k.e * Real.cos nu) - (1 + k.e * Real.cos nu0)| ≤ k.e * δ := by
    rw [show (1 + k.e * Real.cos nu) - (1 + k.e * Real.cos nu0) = k.e * (Real.cos nu - Real.cos nu0) by ring, abs_mul, abs_of_pos (by linarith : 0 < k.e)]
    exact mul_le_mul_of_nonneg_left hdc (by linarith)
  have hε : k.e * δ ≤ 1 / 10 * (1 + k.e * Real.cos nu0) := by
    rw [hD0v, ← mul_div_assoc, le_div_iff₀ hQ0]; linarith
  have hDlow : 9 / 10 * (1 + k.e * Real.cos nu0) ≤ 1 + k.e * Real.cos nu := by linarith [(abs_le.mp hdD).1]
  obtain ⟨D, hD⟩ : ∃ D, D = 1 + k.e * Real.cos nu := ⟨_, rfl⟩
  obtain ⟨D₀, hD₀⟩ : ∃ D₀, D₀ = 1 + k.e * Real.cos nu0 := ⟨_, rfl⟩
  rw [← hD₀] at hD0 hD0Q hD0v hdD hε hDlow
  rw [← hD] at hdD hDlow ⊢
  have hDp : 0 < D := by linarith
  have hslr : ∀ x, Kep.slr { k with nu := x } = k.a * (k.e ^ 2 - 1) := fun x => by
    rw [Kep.slr, if_neg (show k.e ≠ 1 from h1.ne')]
    show k.a * |1 - k.e ^ 2| = _
    rw [abs_of_neg (by linarith)]; ring
  refine ⟨hQ0, by rw [← hD0v]; exact hDlow, ?_, ?_⟩
  · rw [← hst']
    have hdist : (Real.cos nu - Real.cos nu0) ^ 2 + (Real.sin nu - Real.sin nu0) ^ 2 ≤ δ ^ 2 := by
      have h2 : (Real.cos nu - Real.cos nu0) ^ 2 + (Real.sin nu - Real.sin nu0) ^ 2 = 2 * (1 - Real.cos (nu - nu0)) := by
        rw [Real.cos_sub]
        linear_combination Real.sin_sq_add_cos_sq nu + Real.sin_sq_add_cos_sq nu0
      have h3 := Real.one_sub_sq_div_two_le_cos (x := nu - nu0)
      have h4 : (nu - nu0) ^ 2 ≤ δ ^ 2 := by rw [← sq_abs (nu - nu0)]; exact pow_le_pow_left₀ (abs_nonneg _) hd 2
      rw [h2]; linarith
    rw [vlen_plane k (k.a * (k.e ^ 2 - 1) * (Real.cos nu / D - Real.cos nu0 / D₀)) (k.a * (k.e ^ 2 - 1) * (Real.sin nu / D - Real.sin nu0 / D₀)) _
      (by simp [Kep.state, Cart.r, Kep.rx, Kep.ry, Kep.rad, hslr, hD, hD₀, Kep.px, Kep.qx]; ring)
      (by simp [Kep.state, Cart.r, Kep.rx, Kep.ry, Kep.rad, hslr, hD, hD₀, Kep.py, Kep.qy]; ring)
      (by simp [Kep.state, Cart.r, Kep.rx, Kep.ry, Kep.rad, hslr, hD, hD₀, Kep.pz, Kep.qz]; ring)]
    have hA : 0 < k.a * (k.e ^ 2 - 1) := by positivity
    have hb : √((Real.cos nu / D - Real.cos nu0 / D₀) ^ 2 + (Real.sin nu / D - Real.sin nu0 / D₀) ^ 2) ≤ δ / D + k.e * δ / (D * D₀) := by
      have e1 : Real.cos nu / D - Real.cos nu0 / D₀ = (Real.cos nu - Real.cos nu0) / D + Real.cos nu0 * ((D₀ - D) / (D * D₀)) := by field_simp; ring
      have e2 : Real.sin nu / D - Real.sin nu0 / D₀ = (Real.sin nu - Real.sin nu0) / D + Real.sin nu0 * ((D₀ - D) / (D * D₀)) := by field_simp; ring
      rw [e1, e2]
      obtain ⟨b, hb⟩ : ∃ b, b = (D₀ - D) / (D * D₀) := ⟨_, rfl⟩
      have hbb : |b| ≤ k.e * δ / (D * D₀) := by
        rw [hb, abs_div, abs_of_pos (show 0 < D * D₀ by positivity), abs_sub_comm]
        exact div_le_div_of_nonneg_right hdD (by positivity)
      rw [← hb]
      obtain ⟨x, hx⟩ : ∃ x, x = (Real.cos nu - Real.cos nu0) / D := ⟨_, rfl⟩
      obtain ⟨y, hy⟩ : ∃ y, y = (Real.sin nu - Real.sin nu0) / D := ⟨_, rfl⟩
      have hxy : x ^ 2 + y ^ 2 ≤ (δ / D) ^ 2 := by
        rw [hx, hy, div_pow, div_pow, div_pow, ← add_div]
        exact div_le_div_of_nonneg_right hdist (by positivity)
      rw [← hx, ← hy]
      have hδD : 0 ≤ δ / D := by positivity
      have hcs := Real.sin_sq_add_cos_sq nu0
      have hxc : |x * Real.cos nu0 + y * Real.sin nu0| ≤ δ / D := by
        refine abs_le_of_sq_le_sq ?_ hδD
        nlinarith [sq_nonneg (x * Real.sin nu0 - y * Real.cos nu0)]
      refine (sq_sum_le (d := δ / D + |b|) (by positivity) ?_).trans (by linarith)
      have h5 : (x * Real.cos nu0 + y * Real.sin nu0) * b ≤ δ / D * |b| := by
        refine (le_abs_self _).trans ?_
        rw [abs_mul]
        exact mul_le_mul_of_nonneg_right hxc (abs_nonneg _)
      have h6 : b ^ 2 = |b| ^ 2 := (sq_abs b).symm
      have h7 : (x + Real.cos nu0 * b) ^ 2 + (y + Real.sin nu0 * b) ^ 2 = x ^ 2 + y ^ 2 + 2 * ((x * Real.cos nu0 + y * Real.sin nu0) * b) + b ^ 2 := by
        linear_combination b ^ 2 * hcs
      rw [h7, h6]
      linarith
    have e3 : (k.a * (k.e ^ 2 - 1) * (Real.cos nu / D - Real.cos nu0 / D₀)) ^ 2 + (k.a * (k.e ^ 2 - 1) * (Real.sin nu / D - Real.sin nu0 / D₀)) ^ 2 =
        (k.a * (k.e ^ 2 - 1)) ^ 2 * ((Real.cos nu / D - Real.cos nu0 / D₀) ^ 2 + (Real.sin nu / D - Real.sin nu0 / D₀) ^ 2) := by ring
    rw [e3, Real.sqrt_mul (sq_nonneg _), Real.sqrt_sq hA.le]
    refine (mul_le_mul_of_nonneg_left hb hA.le).trans ?_
    have hinv : 1 / D ≤ 10 / 9 * (1 / D₀) := by
      rw [div_le_iff₀ hDp]
      have : 10 / 9 * (1 / D₀) * (9 / 10 * D₀) ≤ 10 / 9 * (1 / D₀) * D := mul_le_mul_of_nonneg_left hDlow (by positivity)
      have h8 : 10 / 9 * (1 / D₀) * (9 / 10 * D₀) = 1 := by field_simp
      linarith
    have h9 : δ / D + k.e * δ / (D * D₀) = (δ + k.e * δ / D₀) * (1 / D) := by field_simp
    have h10 : k.a * (k.e ^ 2 - 1) * (10 / 9 * (1 / D₀)) = 10 / 9 * (k.a * Q) := by
      rw [hD0v]; field_simp
    have h11 : k.e / D₀ ≤ Q / (k.e - 1) := by
      rw [hD0v, div_div_eq_mul_div, div_le_div_iff₀ he1 (by linarith)]
      nlinarith [mul_pos hQ0 (show 0 < k.e - 1 by linarith)]
    have h12 : δ + k.e * δ / D₀ ≤ δ * (1 + Q / (k.e - 1)) := by
      have := mul_le_mul_of_nonneg_left h11 hδ
      have h13 : k.e * δ / D₀ = δ * (k.e / D₀) := by ring
      rw [h13]; linarith
    rw [h9]
    calc k.a * (k.e ^ 2 - 1) * ((δ + k.e * δ / D₀) * (1 / D)) ≤ k.a * (k.e ^ 2 - 1) * (δ * (1 + Q / (k.e - 1)) * (10 / 9 * (1 / D₀))) := by
          refine mul_le_mul_of_nonneg_left ?_ hA.le
          have : 0 ≤ δ + k.e * δ / D₀ := by
            have : 0 ≤ k.e * δ / D₀ := div_nonneg (mul_nonneg (by linarith) hδ) hD0.le
            linarith
          exact mul_le_mul h12 hinv (by positivity) (this.trans h12)
      _ = k.a * (k.e ^ 2 - 1) * (10 / 9 * (1 / D₀)) * (δ * (1 + Q / (k.e - 1))) := by ring
      _ = _ := by rw [h10]; ring
  · rw [← hst']
    have hw0 : 0 < √(k.e ^ 2 - 1) := Real.sqrt_pos.mpr he1
    have hw2 : √(k.e ^ 2 - 1) ^ 2 = k.e ^ 2 - 1 := Real.sq_sqrt he1.le
    have hmh : ∀ x, mu / Kep.hm mu { k with nu := x } = k.a * √(mu / k.a ^ 3) / √(k.e ^ 2 - 1) := fun x => by
      rw [Kep.hm, hslr]
      have hh : √(mu * (k.a * (k.e ^ 2 - 1))) = √(mu / k.a ^ 3) * k.a ^ 2 * √(k.e ^ 2 - 1) := by
        rw [Real.sqrt_eq_iff_mul_self_eq_of_pos (by positivity)]
        obtain ⟨N, hN⟩ : ∃ N, N = √(mu / k.a ^ 3) := ⟨_, rfl⟩
        rw [← hN] at hn2 ⊢
        rw [← hn2]
        linear_combination N ^ 2 * k.a ^ 4 * hw2
      rw [hh, div_eq_div_iff (by positivity) hw0.ne']
      obtain ⟨N, hN⟩ : ∃ N, N = √(mu / k.a ^ 3) := ⟨_, rfl⟩
      rw [← hN] at hn2 ⊢
      rw [← hn2]; ring
    obtain ⟨B, hB⟩ : ∃ B, B = k.a * √(mu / k.a ^ 3) / √(k.e ^ 2 - 1) := ⟨_, rfl⟩
    have hB0 : 0 ≤ B := by rw [hB]; positivity
    rw [← hB] at hmh ⊢
    rw [vlen_plane k (B * -(Real.sin nu - Real.sin nu0)) (B * (Real.cos nu - Real.cos nu0)) _
      (by simp [Kep.state, Cart.v, Kep.ux, Kep.uy, hmh, Kep.px, Kep.qx]; ring)
      (by simp [Kep.state, Cart.v, Kep.ux, Kep.uy, hmh, Kep.py, Kep.qy]; ring)
      (by simp [Kep.state, Cart.v, Kep.ux, Kep.uy, hmh, Kep.pz, Kep.qz]; ring)]
    refine sq_sum_le (by positivity) ?_
    have h2 : (Real.cos nu - Real.cos nu0) ^ 2 + (Real.sin nu - Real.sin nu0) ^ 2 = 2 * (1 - Real.cos (nu - nu0)) := by
      rw [Real.cos_sub]
      linear_combination Real.sin_sq_add_cos_sq nu + Real.sin_sq_add_cos_sq nu0
    have h3 := Real.one_sub_sq_div_two_le_cos (x := nu - nu0)
    have h4 : (nu - nu0) ^ 2 ≤ δ ^ 2 := by rw [← sq_abs (nu - nu0)]; exact pow_le_pow_left₀ (abs_nonneg _) hd 2
    have h5 : (B * -(Real.sin nu - Real.sin nu0)) ^ 2 + (B * (Real.cos nu - Real.cos nu0)) ^ 2 = B ^ 2 * (2 * (1 - Real.cos (nu - nu0))) := by rw [← h2]; ring
    rw [h5, mul_pow]
    exact mul_le_mul_of_nonneg_left (by linarith) (sq_nonneg _)

end RHypProp
end Orbit
end Pyorb
