import Verif.CartDeg

/-!
# Cartesian coordinates to elements in degrees and back with rounding (C119)
-/

set_option linter.unusedVariables false

namespace Pyorb
open FX RF Matrix
variable {R : Rounding}

/-- with `degrees=True` in both calls, the state that comes back lies within `S a / (1 - e)` and `S a n / (1 - e)²` of the given one -/
structure BackWithinDeg (R : Rounding) (g : Nat → CtkGarbage (RF R)) (g' : Nat → RF R) (mu : ℝ) (k : Kep ℝ) (c : Cart ℝ) (S : ℝ) : Prop where
  back : ∃ (kep : Kep (RF R)) (c' : Cart ℝ), (cart_to_kep g (.sc (RF.num R mu)) true (.vec .f64 (c.num R))).1 = .ok (.vec .f64 kep) ∧
      (kep_to_cart g' (.sc (RF.num R mu)) true (.vec .f64 kep)).1 = .ok (.vec .f64 (c'.num R)) ∧
      vlen (c'.r - c.r) ≤ k.a / (1 - k.e) * S ∧ vlen (c'.v - c.v) ≤ k.a * √(mu / k.a ^ 3) / (1 - k.e) ^ 2 * S

theorem BackWithinDeg.mono {g : Nat → CtkGarbage (RF R)} {g' : Nat → RF R} {mu : ℝ} {k : Kep ℝ} {c : Cart ℝ} {S S' : ℝ} (h : BackWithinDeg R g g' mu k c S) (ha : 0 < k.a) (he : k.e < 1)
    (hS : S ≤ S') : BackWithinDeg R g g' mu k c S' := by
  obtain ⟨kep, c', h1, h2, h3, h4⟩ := h.back
  have hq : 0 < 1 - k.e := by linarith
  have hn := Real.sqrt_nonneg (mu / k.a ^ 3)
  exact ⟨kep, c', h1, h2, h3.trans (mul_le_mul_of_nonneg_left hS (by positivity)), h4.trans (mul_le_mul_of_nonneg_left hS (by positivity))⟩

namespace CartKep

theorem cond_le {e u : ℝ} (he0 : 0 ≤ e) (he1 : e < 1) (hu : 0 ≤ u) : √((1 + e) / (1 - e)) * u ≤ 3 / 2 * (u / (1 - e)) := by
  have hq : 0 < 1 - e := by linarith
  have h : √((1 + e) / (1 - e)) ≤ 3 / 2 / (1 - e) := by
    rw [Real.sqrt_le_left (by positivity), div_pow, div_le_div_iff₀ hq (by positivity)]
    have h1 : 0 ≤ e * e * (1 - e) := by positivity
    nlinarith
  have := mul_le_mul_of_nonneg_right h hu
  rw [show 3 / 2 * (u / (1 - e)) = 3 / 2 / (1 - e) * u by ring]
  exact this

theorem Aligned.within_deg {g : Nat → CtkGarbage (RF R)} (g' : Nat → RF R) {mu : ℝ} (hmu : 0 < mu) {k kr k' : Kep ℝ} {c : Cart ℝ} {φ F0 α β γ D b : ℝ}
    (A : Aligned k kr k' φ F0 α β γ D b) (hd : DescribesOrbit mu k c) (hu6 : R.u ≤ 1 / 10 ^ 6) (hu : 10 ^ 5 * R.u ≤ 1 - k.e)
    (hk : cartToKepCol (g 0) .f64 (RF.num R mu) (c.num R) = k'.num R) (hF : Orbit.SamePoint k.e k.nu F0) :
    BackWithinDeg R g g' mu k c (104 / 100 * b + 13 * D + 3 * α + 5 * β + 5 * γ + 1230 * R.u + 2000 * (R.u / (1 - k.e))) := by
  have hu0 := R.u_nonneg
  obtain ⟨hak, he0, -, -, -⟩ := A.shapes
  have he1 := A.e1
  have hq : 0 < 1 - k.e := by linarith
  have hphys : Physical mu k := ⟨hmu, hak, he0, by nlinarith [Real.neg_one_le_cos k.nu, A.e1]⟩
  have hc : c = ellipseState k √(mu / k.a ^ 3) F0 := by
    rw [Orbit.describes_unique hphys.adm hd]
    exact Orbit.state_point hmu hak he0 A.e1 false (k := k) (nu := k.nu) hF
  obtain ⟨r1, r2, r3, r4⟩ := angles_le (show R.u ≤ 1 / 10 ^ 5 by linarith) hk
  obtain ⟨kd, hkd⟩ := in_degrees hu6 r1 r2 r3 r4
  obtain ⟨c', h1, h2, h3⟩ := (A.flRad hu6 r1 r2 r3 r4 hkd).back hmu g' hc hu
  have htu : R.u ≤ R.u / (1 - k.e) := by rw [le_div_iff₀ hq]; nlinarith
  have hcu := cond_le he0 he1 hu0
  have hS : 104 / 100 * (b + 123 * (√((1 + k.e) / (1 - k.e)) * R.u)) + 13 * (D + 123 * R.u) + 3 * α + 5 * β + 5 * γ + 1230 * R.u ≤
      104 / 100 * b + 13 * D + 3 * α + 5 * β + 5 * γ + 1230 * R.u + 2000 * (R.u / (1 - k.e)) := by linarith
  refine BackWithinDeg.mono ⟨kd.num R, c', ?_, ?_, h2, h3⟩ hak he1 hS
  · rw [← hkd.out, ← hk]
    rfl
  · rw [← h1]
    have e1 : (kep_to_cart g' (.sc (RF.num R mu)) true (.vec .f64 (kd.num R))).1 = .ok (.vec .f64 (kepToCart (g' 0) .f64 (RF.num R mu) true (kd.num R)).1) := rfl
    rw [e1, kepToCart_flRad]
    rfl

/-- elements that are neither circular nor equatorial -/
theorem gen_aligned (hR : Nearest R) (g : CtkGarbage (RF R)) {mu : ℝ} {k : Kep ℝ} {c : Cart ℝ} (hmu : 0 < mu) (hd : DescribesOrbit mu k c) (ha : 0 < k.a)
    (he0 : 3 / 10 ^ 9 ≤ k.e) (he1 : k.e < 1) (hi0 : 0 < Real.sin k.i) (hs : 10 ^ 6 * (R.u / (1 - k.e)) ≤ k.e * Real.sin k.i)
    (hi : 200 * (R.u / (1 - k.e)) + 1 / 10 ^ 16 ≤ Real.sin k.i ^ 2) :
    ∃ k' F0, cartToKepCol g .f64 (RF.num R mu) (c.num R) = k'.num R ∧ Orbit.SamePoint k.e k.nu F0 ∧ |k'.e - k.e| ≤ 250 * R.u ∧
      Aligned k k k' 0 F0 (96 * (R.u / (1 - k.e))) (250 * R.u) 0
        (angTol (120 * (R.u / (1 - k.e)) / Real.sin k.i) k.OM + angTol (140 * (R.u / (1 - k.e))) k.i + angTol (4000 * (R.u / (1 - k.e)) / (k.e * Real.sin k.i)) k.om)
        (2000 * (R.u / (1 - k.e)) + 3 * √((1 + k.e) / (1 - k.e)) * angTol (2000 * R.u / k.e) k.nu) := by
  have hep : 0 < k.e := lt_of_lt_of_le (by norm_num) he0
  obtain ⟨k', hk', E⟩ := elements hR (fun _ => g) hmu hd ha he0 he1 hi0 hs hi
  obtain ⟨F, hF⟩ : ∃ F, Orbit.SamePoint k.e k.nu F := ⟨_, Orbit.samePoint_eccOf hep.le he1⟩
  obtain ⟨F1, hF1, hb1⟩ := E.anom hep he1 hs hF
  refine ⟨k', F, ?_, hF, E.e, rfl, le_rfl, by simp, by linarith, he1, E.near ha hep he1 hi0 hs, fun n F => by rw [add_zero], ⟨F1, hF1, by rw [add_zero]; exact hb1⟩, ?_⟩
  · have h1 : (cart_to_kep (fun _ => g) (.sc (RF.num R mu)) false (.vec .f64 (c.num R))).1 = .ok (.vec .f64 (cartToKep g .f64 (RF.num R mu) false (c.num R))) := rfl
    rw [hk'] at h1
    injection h1 with h1
    injection h1 with _ h1
    exact h1.symm
  · obtain ⟨r1, r2⟩ := E.nu.range
    have := Real.pi_lt_d2
    have hus := hR.small
    norm_num at hus
    rw [abs_of_nonneg r1]
    linarith

end CartKep

/-! ## C119 -/

open CartKep in
/-- C119: `cart_to_kep` followed by `kep_to_cart`, both with `degrees=True`, return the state up to the bound of C114 with `7000 t` in place of `5000 t`. -/
theorem c119 (hR : Nearest R) (g : Nat → CtkGarbage (RF R)) (g' : Nat → RF R) {mu : ℝ} {k : Kep ℝ} {c : Cart ℝ} (hmu : 0 < mu) (hd : DescribesOrbit mu k c) (ha : 0 < k.a)
    (he0 : 3 / 10 ^ 9 ≤ k.e) (he1 : k.e < 1) (hi0 : 0 < Real.sin k.i) (hs : 10 ^ 6 * (R.u / (1 - k.e)) ≤ k.e * Real.sin k.i)
    (hi : 200 * (R.u / (1 - k.e)) + 1 / 10 ^ 16 ≤ Real.sin k.i ^ 2) :
    BackWithinDeg R g g' mu k c
      (13 * (angTol (120 * (R.u / (1 - k.e)) / Real.sin k.i) k.OM + angTol (140 * (R.u / (1 - k.e))) k.i + angTol (4000 * (R.u / (1 - k.e)) / (k.e * Real.sin k.i)) k.om) +
        4 * √((1 + k.e) / (1 - k.e)) * angTol (2000 * R.u / k.e) k.nu + 7000 * (R.u / (1 - k.e))) := by
  have hu0 := R.u_nonneg
  have hep : 0 < k.e := lt_of_lt_of_le (by norm_num) he0
  have hq : 0 < 1 - k.e := by linarith
  have hei : k.e * Real.sin k.i ≤ k.e := mul_le_of_le_one_right hep.le (Real.sin_le_one _)
  have htu : R.u ≤ R.u / (1 - k.e) := by rw [le_div_iff₀ hq]; nlinarith
  obtain ⟨k', F0, h1, h2, -, A⟩ := gen_aligned hR (g 0) hmu hd ha he0 he1 hi0 hs hi
  refine (A.within_deg g' hmu hd (by norm_num at hs ⊢; linarith) ?_ h1 h2).mono ha he1 ?_
  · have hs' := hs.trans hei
    rw [mul_div_assoc', div_le_iff₀ hq] at hs'
    have := mul_le_of_le_one_left hq.le he1.le
    norm_num at hs' ⊢
    linarith
  · have hT : 0 ≤ √((1 + k.e) / (1 - k.e)) * angTol (2000 * R.u / k.e) k.nu := mul_nonneg (Real.sqrt_nonneg _) (AngleDist.tol_nonneg (by positivity) _)
    linarith

open CartKep in
/-- C119 on nearly circular orbits that are not equatorial, as in C116 -/
theorem c119_circular (hR : Nearest R) (g : Nat → CtkGarbage (RF R)) (g' : Nat → RF R) {mu : ℝ} {k : Kep ℝ} {c : Cart ℝ} (hmu : 0 < mu) (hd : DescribesOrbit mu k c) (ha : 0 < k.a)
    (he0 : 0 ≤ k.e) (he : k.e + 250 * R.u ≤ 99 / 10 ^ 11) (hi0 : 0 < Real.sin k.i) (hs : 10 ^ 6 * (R.u / (1 - k.e)) ≤ Real.sin k.i)
    (hi : 200 * (R.u / (1 - k.e)) + 1 / 10 ^ 16 ≤ Real.sin k.i ^ 2) :
    BackWithinDeg R g g' mu k c
      (13 * (angTol (120 * (R.u / (1 - k.e)) / Real.sin k.i) k.OM + angTol (140 * (R.u / (1 - k.e))) k.i) +
        2 * angTol (600 * (R.u / (1 - k.e)) / Real.sin k.i) (k.om + k.nu) + 25 * k.e + 7000 * (R.u / (1 - k.e))) := by
  have hu0 := R.u_nonneg
  have he' := he
  norm_num at he'
  have he1 : k.e < 1 := by linarith
  have hq : 0 < 1 - k.e := by linarith
  obtain ⟨k', F0, h1, h2, A⟩ := circ_aligned hR (g 0) hmu hd ha he0 he hi0 hs hi
  refine (A.within_deg g' hmu hd (by linarith) (by norm_num; linarith) h1 h2).mono ha he1 ?_
  have htu : R.u ≤ R.u / (1 - k.e) := by rw [le_div_iff₀ hq]; nlinarith
  have hT := AngleDist.tol_nonneg (ε := 600 * (R.u / (1 - k.e)) / Real.sin k.i) (by positivity) (k.om + k.nu)
  linarith

open CartKep in
/-- C119 on equatorial ellipses that are not nearly circular, as in C117 -/
theorem c119_plane (hR : Nearest R) (g : Nat → CtkGarbage (RF R)) (g' : Nat → RF R) {mu : ℝ} {k : Kep ℝ} {c : Cart ℝ} (hmu : 0 < mu) (hd : DescribesOrbit mu k c) (ha : 0 < k.a)
    (he0 : 3 / 10 ^ 9 ≤ k.e) (he1 : k.e < 1) (hi : Real.sin k.i = 0) (hs : 10 ^ 6 * (R.u / (1 - k.e)) ≤ k.e) :
    BackWithinDeg R g g' mu k c
      (13 * angTol (2000 * R.u / k.e) (k.om + Real.cos k.i * k.OM) + 4 * √((1 + k.e) / (1 - k.e)) * angTol (2000 * R.u / k.e) k.nu + 7000 * (R.u / (1 - k.e))) := by
  have hu0 := R.u_nonneg
  have hep : 0 < k.e := lt_of_lt_of_le (by norm_num) he0
  have hq : 0 < 1 - k.e := by linarith
  have htu : R.u ≤ R.u / (1 - k.e) := by rw [le_div_iff₀ hq]; nlinarith
  obtain ⟨k', F0, h1, h2, A⟩ := plane_aligned hR (g 0) hmu hd ha he0 he1 hi hs
  refine (A.within_deg g' hmu hd (by norm_num at hs ⊢; linarith) ?_ h1 h2).mono ha he1 ?_
  · rw [mul_div_assoc', div_le_iff₀ hq] at hs
    have := mul_le_of_le_one_left hq.le he1.le
    norm_num at hs ⊢
    linarith
  · have hT : 0 ≤ √((1 + k.e) / (1 - k.e)) * angTol (2000 * R.u / k.e) k.nu := mul_nonneg (Real.sqrt_nonneg _) (AngleDist.tol_nonneg (by positivity) _)
    linarith

open CartKep in
/-- C119 on nearly circular equatorial orbits, as in C117 -/
theorem c119_plane_circular (hR : Nearest R) (g : Nat → CtkGarbage (RF R)) (g' : Nat → RF R) {mu : ℝ} {k : Kep ℝ} {c : Cart ℝ} (hmu : 0 < mu) (hd : DescribesOrbit mu k c) (ha : 0 < k.a)
    (he0 : 0 ≤ k.e) (he : k.e + 250 * R.u ≤ 99 / 10 ^ 11) (hi : Real.sin k.i = 0) :
    BackWithinDeg R g g' mu k c (2 * angTol (100 * R.u) (k.nu + (k.om + Real.cos k.i * k.OM)) + 25 * k.e + 7000 * (R.u / (1 - k.e))) := by
  have hu0 := R.u_nonneg
  have he' := he
  norm_num at he'
  have he1 : k.e < 1 := by linarith
  have hq : 0 < 1 - k.e := by linarith
  obtain ⟨k', F0, h1, h2, A⟩ := plane_circ_aligned hR (g 0) hmu hd ha he0 he hi
  refine (A.within_deg g' hmu hd (by linarith) (by norm_num; linarith) h1 h2).mono ha he1 ?_
  have htu : R.u ≤ R.u / (1 - k.e) := by rw [le_div_iff₀ hq]; nlinarith
  have hT := AngleDist.tol_nonneg (ε := 100 * R.u) (by positivity) (k.nu + (k.om + Real.cos k.i * k.OM))
  linarith

open CartKep in
/-- C119 in double precision, for eccentricities between 0.1 and 0.9, `sin i ≥ 0.1` and sines of node, argument of periapsis and true anomaly of at least 0.1 in absolute value: the
position comes back with an error of at most `5e-7 a / (1 - e)`, the velocity with one of at most `5e-7 a n / (1 - e)²`. -/
theorem c119_binary64 (g : Nat → CtkGarbage (RF Binary.binary64)) (g' : Nat → RF Binary.binary64) {mu : ℝ} {k : Kep ℝ} {c : Cart ℝ} (hmu : 0 < mu) (hd : DescribesOrbit mu k c)
    (ha : 0 < k.a) (he0 : 1 / 10 ≤ k.e) (he1 : k.e ≤ 9 / 10) (hi : 1 / 10 ≤ Real.sin k.i) (hOM : 1 / 10 ≤ |Real.sin k.OM|) (hom : 1 / 10 ≤ |Real.sin k.om|)
    (hnu : 1 / 10 ≤ |Real.sin k.nu|) : BackWithinDeg Binary.binary64 g g' mu k c (5 / 10 ^ 7) := by
  have hu : Binary.binary64.u = (1 / 2) ^ 53 := rfl
  have hu0 := Binary.binary64.u_nonneg
  have hu1 : Binary.binary64.u ≤ 1112 / 10 ^ 19 := by rw [hu]; norm_num
  obtain ⟨h1, h2, -⟩ := Orbit.cartTol_binary64 he0 he1 hi hOM hom hnu hu0 hu1
  have hei : (1 / 100 : ℝ) ≤ k.e * Real.sin k.i := by have := mul_le_mul he0 hi (by norm_num) (by linarith); linarith
  have hi2 : (1 / 100 : ℝ) ≤ Real.sin k.i ^ 2 := by have := pow_le_pow_left₀ (by norm_num) hi 2; norm_num at this ⊢; exact this
  clear hu
  refine (c119 Binary.nearest g g' hmu hd ha (by norm_num at he0 ⊢; linarith) (by linarith) (by linarith) (by norm_num at h2 hei ⊢; linarith)
    (by norm_num at h2 hi2 ⊢; linarith)).mono ha (by linarith) ?_
  rw [Orbit.cartTol] at h1
  norm_num at h1 h2 ⊢
  linarith

/-- a case of C119: an orbit with all angles 30 degrees -/
example (g : Nat → CtkGarbage (RF Binary.binary64)) (g' : Nat → RF Binary.binary64) : ∃ c : Cart ℝ, DescribesOrbit 1 ⟨2, 1 / 2, Real.pi / 6, Real.pi / 6, Real.pi / 6, Real.pi / 6⟩ c ∧
    BackWithinDeg Binary.binary64 g g' 1 ⟨2, 1 / 2, Real.pi / 6, Real.pi / 6, Real.pi / 6, Real.pi / 6⟩ c (5 / 10 ^ 7) := by
  have hp : Physical 1 (⟨2, 1 / 2, Real.pi / 6, Real.pi / 6, Real.pi / 6, Real.pi / 6⟩ : Kep ℝ) := by
    refine ⟨by norm_num, by norm_num, by norm_num, ?_⟩
    show 0 < 1 + 1 / 2 * Real.cos (Real.pi / 6)
    have := Real.neg_one_le_cos (Real.pi / 6)
    linarith
  have hsin : 1 / 10 ≤ |Real.sin (Real.pi / 6)| := by rw [Real.sin_pi_div_six]; norm_num
  exact ⟨_, hp.adm.describes, c119_binary64 g g' one_pos hp.adm.describes (by norm_num) (by norm_num) (by norm_num)
    (by show 1 / 10 ≤ Real.sin (Real.pi / 6); rw [Real.sin_pi_div_six]; norm_num) hsin hsin hsin⟩

end Pyorb
