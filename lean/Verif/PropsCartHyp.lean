import Verif.CartHyp
import Verif.CartDeg

/-!
# Cartesian coordinates on a hyperbola to elements and back with rounding (C121)
-/

set_option linter.unusedVariables false

namespace Pyorb
open FX RF Matrix
variable {R : Rounding}

namespace CartKep

/-! ## Nearby hyperbolas -/

/-- `g = sqrt (m / L)` for nearby `L` -/
theorem inv_sqrt_near {m g g' L L' lam : ℝ} (hg : 0 < g) (hg' : 0 < g') (hL : 0 < L) (e1 : g ^ 2 * L = m) (e2 : g' ^ 2 * L' = m) (h : |L' - L| ≤ lam * L) (hlam : lam ≤ 1 / 200) :
    |g' - g| ≤ 102 / 100 * lam * g := by
  have hl0 : 0 ≤ lam := by
    by_contra hc
    have := mul_neg_of_neg_of_pos (not_le.mp hc) hL
    linarith [abs_nonneg (L' - L)]
  have hLge : 199 / 200 * L ≤ L' := by
    have := (abs_le.mp h).1
    have := mul_le_mul_of_nonneg_right hlam hL.le
    linarith
  have hL' : 0 < L' := by linarith
  have key : (g' - g) * ((g' + g) * L') = g ^ 2 * (L - L') := by linear_combination e2 - e1
  have hb : |g' - g| * ((g' + g) * L') ≤ g ^ 2 * (lam * L) := by
    have : |g' - g| * ((g' + g) * L') = |(g' - g) * ((g' + g) * L')| := by rw [abs_mul, abs_of_pos (show 0 < (g' + g) * L' by positivity)]
    rw [this, key, abs_mul, abs_of_pos (show 0 < g ^ 2 by positivity), abs_sub_comm]
    exact mul_le_mul_of_nonneg_left h (by positivity)
  have h1 : |g' - g| * (g * (199 / 200 * L)) ≤ |g' - g| * ((g' + g) * L') :=
    mul_le_mul_of_nonneg_left (mul_le_mul (by linarith) hLge (by linarith) (by linarith)) (abs_nonneg _)
  have h2 : |g' - g| * (g * L) ≤ 102 / 100 * lam * g * (g * L) := by
    have : 0 ≤ g ^ 2 * (lam * L) := by positivity
    nlinarith
  exact le_of_mul_le_mul_right h2 (by positivity)

theorem slr_of {k : Kep ℝ} (h1 : 1 < k.e) : k.slr = k.a * (k.e ^ 2 - 1) := by
  rw [Kep.slr, if_neg h1.ne', abs_of_neg (by nlinarith)]; ring

/-- what is assumed of two nearby hyperbolas and points on them; `r` is the distance on the first, `D` bounds the sum of the differences of the three angles of
the planes, `T` that of the true anomalies -/
structure NearHyp (k k' : Kep ℝ) (u r W t D T : ℝ) : Prop where
  a_pos : 0 < k.a
  e1 : 1 < k.e
  denom : 0 < 1 + k.e * Real.cos k.nu
  dist : r * (1 + k.e * Real.cos k.nu) = k.a * (k.e ^ 2 - 1)
  hW : W = 1 + r / k.a
  eW : k.e ≤ W
  scale : HypScale u k.e W t
  ht : t = u * (W ^ 2 / (k.e ^ 2 - 1))
  small : t ≤ 1 / 1000000
  de : |k'.e - k.e| ≤ 250 * (u * W)
  da : |k'.a - k.a| ≤ 192 * t * k.a
  dc : |Real.cos k'.nu - Real.cos k.nu| ≤ 2100 * (u * W) / k.e
  plane : ∃ z1 z2 z3 : ℤ, |k'.OM - (k.OM + z3 * (2 * Real.pi))| + |k'.i - (k.i + z1 * (2 * Real.pi))| + |k'.om - (k.om + z2 * (2 * Real.pi))| ≤ D
  anom : ∃ z : ℤ, |k'.nu - (k.nu + z * (2 * Real.pi))| ≤ T

section
variable {k k' : Kep ℝ} {u r W t D T : ℝ} (h : NearHyp k k' u r W t D T)
include h

theorem NearHyp.t0 : 0 ≤ t := h.scale.u0.trans h.scale.one
theorem NearHyp.sl : 0 < k.e ^ 2 - 1 := by nlinarith [h.e1]
theorem NearHyp.r_pos : 0 < r := by
  have := h.a_pos; have := h.sl
  have h2 : 0 < r * (1 + k.e * Real.cos k.nu) := by rw [h.dist]; positivity
  exact pos_of_mul_pos_left h2 h.denom.le
theorem NearHyp.de' : |k'.e - k.e| ≤ 500 * t * (k.e - 1) := by linarith [h.de, h.scale.rel]
theorem NearHyp.e_near : |k'.e - k.e| ≤ 1 / 2000 * (k.e - 1) := by
  have := mul_le_mul_of_nonneg_right h.small (show 0 ≤ k.e - 1 by linarith [h.e1])
  linarith [h.de']
theorem NearHyp.e1' : 1 < k'.e := by linarith [(abs_le.mp h.e_near).1, h.e1]
theorem NearHyp.a_pos' : 0 < k'.a := by
  have := mul_le_mul_of_nonneg_right h.small h.a_pos.le
  have := (abs_le.mp h.da).1
  linarith [h.a_pos]

/-- the difference of `e² - 1` -/
theorem NearHyp.dsl : |(k'.e ^ 2 - 1) - (k.e ^ 2 - 1)| ≤ 1001 * t * (k.e ^ 2 - 1) := by
  have h1 := h.e1
  rw [show (k'.e ^ 2 - 1) - (k.e ^ 2 - 1) = (k'.e - k.e) * (k'.e + k.e) by ring, abs_mul, abs_of_pos (show 0 < k'.e + k.e by linarith [h.e1'])]
  have e2 : k'.e + k.e ≤ 2002 / 1000 * (k.e + 1) := by linarith [(abs_le.mp h.e_near).2]
  refine (mul_le_mul h.de' e2 (by linarith [h.e1']) (by have := h.t0; nlinarith)).trans (le_of_eq ?_)
  ring

theorem NearHyp.dslr : |k'.a * (k'.e ^ 2 - 1) - k.a * (k.e ^ 2 - 1)| ≤ 1200 * t * (k.a * (k.e ^ 2 - 1)) := by
  have hsl := h.sl; have ha := h.a_pos; have ht0 := h.t0
  have h1 := h.dsl
  have h2 : |k'.e ^ 2 - 1| ≤ 1002 / 1000 * (k.e ^ 2 - 1) := by
    have e1 := mul_le_mul_of_nonneg_right h.small hsl.le
    have := abs_sub_abs_le_abs_sub (k'.e ^ 2 - 1) (k.e ^ 2 - 1)
    rw [abs_of_pos hsl] at this
    linarith
  rw [show k'.a * (k'.e ^ 2 - 1) - k.a * (k.e ^ 2 - 1) = (k'.a - k.a) * (k'.e ^ 2 - 1) + k.a * ((k'.e ^ 2 - 1) - (k.e ^ 2 - 1)) by ring]
  refine (abs_add_le _ _).trans ?_
  rw [abs_mul, abs_mul, abs_of_pos ha]
  have e3 := mul_le_mul h.da h2 (abs_nonneg _) (by positivity)
  have e4 := mul_le_mul_of_nonneg_left h1 ha.le
  have : 0 ≤ t * (k.a * (k.e ^ 2 - 1)) := by positivity
  linarith

/-- the difference of `1 + e cos nu` -/
theorem NearHyp.ddenom : |(1 + k'.e * Real.cos k'.nu) - (1 + k.e * Real.cos k.nu)| ≤ 2350 * t * (1 + k.e * Real.cos k.nu) := by
  have he : 0 < k.e := by linarith [h.e1]
  have hsl := h.sl; have ha := h.a_pos; have hr := h.r_pos
  have h1 : |(1 + k'.e * Real.cos k'.nu) - (1 + k.e * Real.cos k.nu)| ≤ 2350 * (u * W) := by
    rw [show (1 + k'.e * Real.cos k'.nu) - (1 + k.e * Real.cos k.nu) = (k'.e - k.e) * Real.cos k'.nu + k.e * (Real.cos k'.nu - Real.cos k.nu) by ring]
    refine (abs_add_le _ _).trans ?_
    rw [abs_mul, abs_mul, abs_of_pos he]
    have e1 := mul_le_mul h.de (Real.abs_cos_le_one k'.nu) (abs_nonneg _) ((abs_nonneg _).trans h.de)
    have e2 := mul_le_mul_of_nonneg_left h.dc he.le
    rw [mul_div_cancel₀ _ he.ne'] at e2
    linarith
  have h2 : u * W ≤ t * (1 + k.e * Real.cos k.nu) := by
    refine le_of_mul_le_mul_right ?_ hr
    rw [show t * (1 + k.e * Real.cos k.nu) * r = t * (r * (1 + k.e * Real.cos k.nu)) by ring, h.dist, h.ht,
      show u * (W ^ 2 / (k.e ^ 2 - 1)) * (k.a * (k.e ^ 2 - 1)) = u * W * (W * k.a) by field_simp]
    refine mul_le_mul_of_nonneg_left ?_ (mul_nonneg h.scale.u0 (by linarith [h.eW]))
    rw [h.hW, add_mul, div_mul_cancel₀ _ ha.ne']
    linarith
  linarith

theorem NearHyp.denom' : 997 / 1000 * (1 + k.e * Real.cos k.nu) ≤ 1 + k'.e * Real.cos k'.nu := by
  have h1 := mul_le_mul_of_nonneg_right h.small h.denom.le
  linarith [(abs_le.mp h.ddenom).1, h.denom]

theorem NearHyp.physical {mu : ℝ} (hmu : 0 < mu) : Physical mu k' :=
  ⟨hmu, h.a_pos', by linarith [h.e1'], by linarith [h.denom', h.denom]⟩

theorem NearHyp.rad_eq : k.rad = r := by
  rw [Kep.rad, slr_of h.e1, div_eq_iff h.denom.ne', h.dist]

/-- the difference of the distances -/
theorem NearHyp.drad : |k'.rad - r| ≤ 3600 * t * r := by
  have hD := h.denom; have hD' := h.denom'; have hr := h.r_pos; have ht0 := h.t0
  have hDp : 0 < 1 + k'.e * Real.cos k'.nu := by linarith
  have e1 : k'.rad * (1 + k'.e * Real.cos k'.nu) = k'.a * (k'.e ^ 2 - 1) := by rw [Kep.rad, slr_of h.e1', div_mul_cancel₀ _ hDp.ne']
  have e2 := h.dslr
  have e3 := h.ddenom
  have e4 := h.dist
  rw [← e1, ← e4] at e2
  generalize 1 + k'.e * Real.cos k'.nu = d' at *
  generalize 1 + k.e * Real.cos k.nu = d at *
  have e5 : |k'.rad - r| * d' ≤ 3550 * t * (r * d) := by
    rw [← abs_of_pos hDp, ← abs_mul, show (k'.rad - r) * d' = (k'.rad * d' - r * d) - r * (d' - d) by ring]
    refine (abs_sub _ _).trans ?_
    rw [abs_mul, abs_of_pos hr]
    have := mul_le_mul_of_nonneg_left e3 hr.le
    linarith
  have e6 := mul_le_mul_of_nonneg_left hD' (abs_nonneg (k'.rad - r))
  refine le_of_mul_le_mul_right (a := d) ?_ hD
  have : 0 ≤ t * (r * d) := by positivity
  linarith

theorem NearHyp.rad_le : k'.rad ≤ 101 / 100 * r := by
  have := mul_le_mul_of_nonneg_right h.small h.r_pos.le
  linarith [(abs_le.mp h.drad).2, h.r_pos]

theorem NearHyp.rad_pos : 0 < k'.rad := by
  have := mul_le_mul_of_nonneg_right h.small h.r_pos.le
  linarith [(abs_le.mp h.drad).1, h.r_pos]

/-- the difference of `mu / h` -/
theorem NearHyp.dspeed {mu : ℝ} (hmu : 0 < mu) : 0 < mu / k.hm mu ∧ 0 < mu / k'.hm mu ∧ |mu / k'.hm mu - mu / k.hm mu| ≤ 1224 * t * (mu / k.hm mu) := by
  have key : ∀ {k : Kep ℝ}, 0 < k.a → 1 < k.e → 0 < mu / k.hm mu ∧ (mu / k.hm mu) ^ 2 * (k.a * (k.e ^ 2 - 1)) = mu := fun {k} ha h1 => by
    have hsl : 0 < k.e ^ 2 - 1 := by nlinarith
    have hh := k.hm_pos mu hmu ha (by linarith)
    have hh2 := k.hm_sq mu hmu ha (by linarith)
    rw [slr_of h1] at hh2
    refine ⟨by positivity, ?_⟩
    rw [div_pow, hh2]; field_simp
  obtain ⟨a1, a2⟩ := key h.a_pos h.e1
  obtain ⟨b1, b2⟩ := key h.a_pos' h.e1'
  have hsl := h.sl; have ha := h.a_pos
  refine ⟨a1, b1, (inv_sqrt_near a1 b1 (by positivity) a2 b2 h.dslr (by linarith [h.small])).trans (le_of_eq ?_)⟩
  ring

/-- the condition number of `kep_to_cart` at the second point -/
theorem NearHyp.condition : Condition k' (3 * W / (k.e - 1)) := by
  have h1 := h.e1; have hq : 0 < k.e - 1 := by linarith
  have ha := h.a_pos; have hr := h.r_pos; have hD := h.denom; have heW := h.eW
  have hW0 : 0 < W := by linarith
  refine ⟨?_, ?_, fun _ => ?_⟩
  · rw [le_div_iff₀ hq]; linarith
  · have e1 : (k.e + 1) * (k.e - 1) ≤ W * (1 + k.e * Real.cos k.nu) := by
      have : (k.e + 1) * (k.e - 1) = r / k.a * (1 + k.e * Real.cos k.nu) := by
        rw [div_mul_eq_mul_div, h.dist]; field_simp; ring
      rw [this, h.hW]
      exact mul_le_mul_of_nonneg_right (by linarith) hD.le
    have e2 : k.e + 1 ≤ W / (k.e - 1) * (1 + k.e * Real.cos k.nu) := by
      rw [div_mul_eq_mul_div, le_div_iff₀ hq]; exact e1
    have e3 := mul_le_mul_of_nonneg_left h.denom' (show 0 ≤ W / (k.e - 1) by positivity)
    have e4 := (abs_le.mp h.e_near).2
    rw [mul_div_assoc]
    linarith
  · have e0 := h.e1'
    rw [abs_of_neg (by nlinarith)]
    have e1 := (abs_le.mp h.dsl).1
    have e2 := mul_le_mul_of_nonneg_right h.small h.sl.le
    have e3 : 99 / 100 * (k.e ^ 2 - 1) ≤ -(1 - k'.e ^ 2) := by linarith [h.sl]
    refine le_trans ?_ (mul_le_mul_of_nonneg_left e3 (by positivity))
    have e4 : 3 * W / (k.e - 1) * (99 / 100 * (k.e ^ 2 - 1)) = 297 / 100 * (W * (k.e + 1)) := by field_simp; ring
    rw [e4]
    have e5 : k.e * (k.e + 1) ≤ W * (k.e + 1) := mul_le_mul_of_nonneg_right heW (by linarith)
    have e6 := (abs_le.mp h.dsl).2
    nlinarith

set_option maxHeartbeats 1000000 in
/-- the states at two nearby points of nearby hyperbolas -/
theorem NearHyp.states {mu : ℝ} (hmu : 0 < mu) :
    vlen ((k'.state mu).r - (k.state mu).r) ≤ r * (9 * D + 3 * T + 7200 * t) ∧
    vlen ((k'.state mu).v - (k.state mu).v) ≤ (1 + k.e) * (mu / k.hm mu) * (9 * D + 3 * T + 7200 * t) := by
  obtain ⟨z1, z2, z3, hD⟩ := h.plane
  obtain ⟨z, hT⟩ := h.anom
  have hD0 : 0 ≤ D := le_trans (by positivity) hD
  have hT0 : 0 ≤ T := (abs_nonneg _).trans hT
  have ht0 := h.t0
  have hr := h.r_pos
  have h1 := h.e1
  have hsin : |Real.sin k'.nu - Real.sin k.nu| ≤ T := by
    have := (Real.abs_sin_sub_sin_le k'.nu (k.nu + z * (2 * Real.pi))).trans hT
    rwa [Real.sin_add_int_mul_two_pi] at this
  have hcos : |Real.cos k'.nu - Real.cos k.nu| ≤ T := by
    have := (Real.abs_cos_sub_cos_le k'.nu (k.nu + z * (2 * Real.pi))).trans hT
    rwa [Real.cos_add_int_mul_two_pi] at this
  -- into the old plane
  obtain ⟨k1, hk1⟩ : ∃ k1 : Kep ℝ, k1 = { k with i := k.i + z1 * (2 * Real.pi), om := k.om + z2 * (2 * Real.pi), OM := k.OM + z3 * (2 * Real.pi) } := ⟨_, rfl⟩
  obtain ⟨⟨p1, p2, p3⟩, q1, q2, q3⟩ := Orbit.WideDeg.plane_lip k' k1
  have up : ∀ {x : ℝ}, x ≤ 2 * (|k'.OM - k1.OM| + |k'.i - k1.i| + |k'.om - k1.om|) → x ≤ 2 * D := fun h => h.trans (by
    rw [hk1]; show 2 * (|k'.OM - (k.OM + z3 * (2 * Real.pi))| + |k'.i - (k.i + z1 * (2 * Real.pi))| + |k'.om - (k.om + z2 * (2 * Real.pi))|) ≤ _; linarith)
  have ep : k1.px = k.px ∧ k1.py = k.py ∧ k1.pz = k.pz ∧ k1.qx = k.qx ∧ k1.qy = k.qy ∧ k1.qz = k.qz := by
    rw [hk1]
    simp only [Kep.px, Kep.py, Kep.pz, Kep.qx, Kep.qy, Kep.qz, Real.cos_add_int_mul_two_pi, Real.sin_add_int_mul_two_pi, and_self]
  obtain ⟨E1, E2, E3, E4, E5, E6⟩ := ep
  rw [E1] at p1; rw [E2] at p2; rw [E3] at p3; rw [E4] at q1; rw [E5] at q2; rw [E6] at q3
  have frame : ∀ {X Y B : ℝ} {w : Fin 3 → ℝ}, |X| + |Y| ≤ B → w 0 = k'.px * X + k'.qx * Y - (k.px * X + k.qx * Y) → w 1 = k'.py * X + k'.qy * Y - (k.py * X + k.qy * Y) →
      w 2 = k'.pz * X + k'.qz * Y - (k.pz * X + k.qz * Y) → vlen w ≤ 4 * D * B := fun {X Y B w} hB w0 w1 w2 => by
    refine (vlen_le (B := 2 * D * B) ?_).trans (le_of_eq (by ring))
    intro i
    fin_cases i
    · show |w 0| ≤ _; rw [w0]; exact Orbit.WideDeg.comb_lip (up p1) (up q1) hB
    · show |w 1| ≤ _; rw [w1]; exact Orbit.WideDeg.comb_lip (up p2) (up q2) hB
    · show |w 2| ≤ _; rw [w2]; exact Orbit.WideDeg.comb_lip (up p3) (up q3) hB
  have hs1 := Real.abs_sin_le_one k'.nu
  have hc1 := Real.abs_cos_le_one k'.nu
  constructor
  · obtain ⟨X', hX'⟩ : ∃ X', X' = k'.rad * Real.cos k'.nu := ⟨_, rfl⟩
    obtain ⟨Y', hY'⟩ : ∃ Y', Y' = k'.rad * Real.sin k'.nu := ⟨_, rfl⟩
    obtain ⟨X, hX⟩ : ∃ X, X = r * Real.cos k.nu := ⟨_, rfl⟩
    obtain ⟨Y, hY⟩ : ∃ Y, Y = r * Real.sin k.nu := ⟨_, rfl⟩
    have hXd : |X' - X| ≤ 3600 * t * r + r * T := by
      rw [hX, hX', show k'.rad * Real.cos k'.nu - r * Real.cos k.nu = (k'.rad - r) * Real.cos k'.nu + r * (Real.cos k'.nu - Real.cos k.nu) by ring]
      refine (abs_add_le _ _).trans ?_
      rw [abs_mul, abs_mul, abs_of_pos hr]
      have e1 := mul_le_mul h.drad hc1 (abs_nonneg _) ((abs_nonneg _).trans h.drad)
      have e2 := mul_le_mul_of_nonneg_left hcos hr.le
      linarith
    have hYd : |Y' - Y| ≤ 3600 * t * r + r * T := by
      rw [hY, hY', show k'.rad * Real.sin k'.nu - r * Real.sin k.nu = (k'.rad - r) * Real.sin k'.nu + r * (Real.sin k'.nu - Real.sin k.nu) by ring]
      refine (abs_add_le _ _).trans ?_
      rw [abs_mul, abs_mul, abs_of_pos hr]
      have e1 := mul_le_mul h.drad hs1 (abs_nonneg _) ((abs_nonneg _).trans h.drad)
      have e2 := mul_le_mul_of_nonneg_left hsin hr.le
      linarith
    have hB : |X'| + |Y'| ≤ 202 / 100 * r := by
      rw [hX', hY', abs_mul, abs_mul, abs_of_pos h.rad_pos]
      have e1 := mul_le_mul_of_nonneg_left hc1 h.rad_pos.le
      have e2 := mul_le_mul_of_nonneg_left hs1 h.rad_pos.le
      linarith [h.rad_le]
    have f1 := frame (w := ![k'.px * X' + k'.qx * Y' - (k.px * X' + k.qx * Y'), k'.py * X' + k'.qy * Y' - (k.py * X' + k.qy * Y'), k'.pz * X' + k'.qz * Y' - (k.pz * X' + k.qz * Y')])
      hB rfl rfl rfl
    have f2 := vlen_plane_le k (u := ![k.px * (X' - X) + k.qx * (Y' - Y), k.py * (X' - X) + k.qy * (Y' - Y), k.pz * (X' - X) + k.qz * (Y' - Y)]) rfl rfl rfl hXd hYd
    have hsum : (k'.state mu).r - (k.state mu).r = ![k'.px * X' + k'.qx * Y' - (k.px * X' + k.qx * Y'), k'.py * X' + k'.qy * Y' - (k.py * X' + k.qy * Y'), k'.pz * X' + k'.qz * Y' - (k.pz * X' + k.qz * Y')] +
        ![k.px * (X' - X) + k.qx * (Y' - Y), k.py * (X' - X) + k.qy * (Y' - Y), k.pz * (X' - X) + k.qz * (Y' - Y)] := by
      ext i
      fin_cases i <;> simp [Kep.state, Cart.r, Kep.rx, Kep.ry, h.rad_eq, hX, hX', hY, hY'] <;> ring
    rw [hsum]
    refine (vlen_add_le _ _).trans ((add_le_add f1 f2).trans ?_)
    have e3 := mul_nonneg hr.le hD0
    have e4 := mul_nonneg hr.le hT0
    linarith
  · obtain ⟨g0, g0', dg⟩ := h.dspeed hmu
    obtain ⟨G, hG⟩ : ∃ G, G = mu / k.hm mu := ⟨_, rfl⟩
    obtain ⟨G', hG'⟩ : ∃ G', G' = mu / k'.hm mu := ⟨_, rfl⟩
    rw [← hG] at g0
    rw [← hG'] at g0'
    rw [← hG, ← hG'] at dg
    rw [← hG]
    have hGle : G' ≤ 101 / 100 * G := by
      have := mul_le_mul_of_nonneg_right h.small g0.le
      linarith [(abs_le.mp dg).2]
    obtain ⟨X', hX'⟩ : ∃ X', X' = -G' * Real.sin k'.nu := ⟨_, rfl⟩
    obtain ⟨Y', hY'⟩ : ∃ Y', Y' = G' * (k'.e + Real.cos k'.nu) := ⟨_, rfl⟩
    obtain ⟨X, hX⟩ : ∃ X, X = -G * Real.sin k.nu := ⟨_, rfl⟩
    obtain ⟨Y, hY⟩ : ∃ Y, Y = G * (k.e + Real.cos k.nu) := ⟨_, rfl⟩
    have hee := (abs_le.mp h.e_near).2
    have he1' := h.e1'
    have hec : |k'.e + Real.cos k'.nu| ≤ 101 / 100 * (1 + k.e) := by
      refine (abs_add_le _ _).trans ?_
      rw [abs_of_pos (by linarith)]
      linarith
    have hG1 : G ≤ (1 + k.e) * G * (1 / 2) := by nlinarith
    have hXd : |X' - X| ≤ 1224 * t * G + G * T := by
      rw [hX, hX', show -G' * Real.sin k'.nu - -G * Real.sin k.nu = -((G' - G) * Real.sin k'.nu + G * (Real.sin k'.nu - Real.sin k.nu)) by ring, abs_neg]
      refine (abs_add_le _ _).trans ?_
      rw [abs_mul, abs_mul, abs_of_pos g0]
      have e1 := mul_le_mul dg hs1 (abs_nonneg _) ((abs_nonneg _).trans dg)
      have e2 := mul_le_mul_of_nonneg_left hsin g0.le
      linarith
    have hYd : |Y' - Y| ≤ 1224 * t * G * (101 / 100 * (1 + k.e)) + G * (500 * t * (k.e - 1) + T) := by
      rw [hY, hY', show G' * (k'.e + Real.cos k'.nu) - G * (k.e + Real.cos k.nu) = (G' - G) * (k'.e + Real.cos k'.nu) + G * ((k'.e - k.e) + (Real.cos k'.nu - Real.cos k.nu)) by ring]
      refine (abs_add_le _ _).trans ?_
      rw [abs_mul, abs_mul, abs_of_pos g0]
      exact add_le_add (mul_le_mul dg hec (abs_nonneg _) ((abs_nonneg _).trans dg)) (mul_le_mul_of_nonneg_left ((abs_add_le _ _).trans (add_le_add h.de' hcos)) g0.le)
    have hB : |X'| + |Y'| ≤ 202 / 100 * ((1 + k.e) * G) := by
      rw [hX', hY', abs_mul, abs_mul, abs_neg, abs_of_pos g0']
      have e1 := mul_le_mul hGle hs1 (abs_nonneg _) (by linarith)
      have e2 := mul_le_mul hGle hec (abs_nonneg _) (by linarith)
      have e3 : 0 < (1 + k.e) * G := by positivity
      linarith
    have f1 := frame (w := ![k'.px * X' + k'.qx * Y' - (k.px * X' + k.qx * Y'), k'.py * X' + k'.qy * Y' - (k.py * X' + k.qy * Y'), k'.pz * X' + k'.qz * Y' - (k.pz * X' + k.qz * Y')])
      hB rfl rfl rfl
    have f2 := vlen_plane_le k (u := ![k.px * (X' - X) + k.qx * (Y' - Y), k.py * (X' - X) + k.qy * (Y' - Y), k.pz * (X' - X) + k.qz * (Y' - Y)]) rfl rfl rfl hXd hYd
    have hsum : (k'.state mu).v - (k.state mu).v = ![k'.px * X' + k'.qx * Y' - (k.px * X' + k.qx * Y'), k'.py * X' + k'.qy * Y' - (k.py * X' + k.qy * Y'), k'.pz * X' + k'.qz * Y' - (k.pz * X' + k.qz * Y')] +
        ![k.px * (X' - X) + k.qx * (Y' - Y), k.py * (X' - X) + k.qy * (Y' - Y), k.pz * (X' - X) + k.qz * (Y' - Y)] := by
      ext i
      fin_cases i <;> simp [Kep.state, Cart.v, Kep.ux, Kep.uy, ← hG, ← hG', hX, hX', hY, hY'] <;> ring
    rw [hsum]
    refine (vlen_add_le _ _).trans ((add_le_add f1 f2).trans ?_)
    have hK0 : 0 < (1 + k.e) * G := by positivity
    have e3 := mul_nonneg hK0.le hD0
    have e4 := mul_le_mul_of_nonneg_right hG1 hT0
    have e5 := mul_le_mul_of_nonneg_right hG1 ht0
    have e6 := mul_nonneg hK0.le hT0
    have e7 := mul_nonneg hK0.le ht0
    have e8 := mul_nonneg g0.le ht0
    linarith
end

/-! ## C121 -/

set_option maxHeartbeats 1000000 in
/-- the computed elements are close to those of the state -/
theorem HypElements.near {k k' : Kep ℝ} {c : Cart ℝ} {mu W t : ℝ} (h : HypElements R k k' W t) (hmu : 0 < mu) (hd : DescribesOrbit mu k c) (ha : 0 < k.a) (h1 : 1 < k.e)
    (hi0 : 0 < Real.sin k.i) (hW : W = 1 + vlen c.r / k.a) (ht : t = R.u * (W ^ 2 / (k.e ^ 2 - 1))) (hs : 10 ^ 6 * t ≤ Real.sin k.i) :
    NearHyp k k' R.u (vlen c.r) W t (angTol (100 * t / Real.sin k.i) k.OM + angTol (100 * t) k.i + angTol (2000 * t / Real.sin k.i) k.om)
      (angTol (2000 * (R.u * W) / k.e) k.nu) := by
  have hu0 := R.u_nonneg
  have E := hd.hyp hmu ha h1
  rw [← hW] at E
  have S := hypScale hu0 h1 E.e_le ht
  have ht0 : 0 ≤ t := hu0.trans S.one
  have hsi1 := Real.sin_le_one k.i
  norm_num at hs
  have htq : t ≤ 1 / 1000000 := by linarith
  have hσ : t / Real.sin k.i ≤ 1 / 1000000 := by rw [div_le_iff₀ hi0]; linarith
  have hσ0 : 0 ≤ t / Real.sin k.i := by positivity
  have htσ : t ≤ t / Real.sin k.i := by rw [le_div_iff₀ hi0]; exact mul_le_of_le_one_right ht0 hsi1
  have hut := S.one
  obtain ⟨z1, c1⟩ := AngleDist.close (R := R) le_rfl (by norm_num; linarith) (by linarith) (by linarith) h.i
  have hO := h.OM
  rw [mul_div_assoc, mul_div_assoc] at hO
  obtain ⟨z3, c3⟩ := AngleDist.close (R := R) (by positivity) (by nlinarith) (by linarith) (by linarith) hO
  have ho := h.om
  rw [mul_div_assoc, mul_div_assoc] at ho
  obtain ⟨z2, c2⟩ := AngleDist.close (R := R) (by positivity) (by nlinarith) (by linarith) (by linarith) ho
  rw [← mul_div_assoc] at c2 c3
  have he0 : 0 < k.e := by linarith
  have hn := h.nu
  rw [mul_div_assoc] at hn
  have hν1 : R.u ≤ R.u * W / k.e := by rw [le_div_iff₀ he0]; exact mul_le_mul_of_nonneg_left E.e_le hu0
  have hν2 : R.u * W / k.e ≤ t := by rw [div_le_iff₀ he0]; exact S.ecc
  obtain ⟨z, c4⟩ := AngleDist.close (R := R) (by positivity) (by nlinarith) (by linarith) (by linarith) hn
  rw [← mul_div_assoc] at c4
  exact ⟨ha, h1, E.denom, E.dist, hW, E.e_le, S, ht, htq, h.e, h.a, h.nu.cos.trans (div_le_div_of_nonneg_right (by linarith [mul_nonneg hu0 (show 0 ≤ W by linarith [E.e_le])]) he0.le), ⟨z1, z2, z3, by linarith⟩, ⟨z, c4⟩⟩

/-- what `kep_to_cart` returns for elements close to those of the state -/
theorem NearHyp.back {k k' : Kep ℝ} {c : Cart ℝ} {mu W t D T : ℝ} (N : NearHyp k k' R.u (vlen c.r) W t D T) (hmu : 0 < mu) (hd : DescribesOrbit mu k c) (gh : RF R) :
    ∃ c' : Cart ℝ, (kepToCartCol gh .f64 (RF.num R mu) (k'.num R)).1 = c'.num R ∧ vlen (c'.r - c.r) ≤ vlen c.r * (9 * D + 3 * T + 10 ^ 4 * t) ∧
      vlen (c'.v - c.v) ≤ (1 + k.e) * mu / vlen (angMom c) * (9 * D + 3 * T + 10 ^ 4 * t) := by
  have hu0 := R.u_nonneg
  have h1 := N.e1
  have hph : Physical mu k := ⟨hmu, N.a_pos, by linarith, N.denom⟩
  have hc : c = k.state mu := Orbit.describes_unique hph.adm hd
  have hph' := N.physical hmu
  have hq : 0 < k.e - 1 := by linarith
  have hCu : 3 * W / (k.e - 1) * R.u ≤ 6 * t := by
    rw [div_mul_eq_mul_div, div_le_iff₀ hq]
    linarith [N.scale.rel]
  have ht0 := N.t0
  have hsm := N.small
  obtain ⟨c', w1, w2, w3⟩ := kepToCartCol_close (R := R) gh hph' N.condition (by linarith)
  have hhm : vlen (angMom c) = k.hm mu := by rw [hc, vlen_angMom, hph.adm.state_hn]
  have hhm' : vlen (angMom (k'.state mu)) = k'.hm mu := by rw [vlen_angMom, hph'.adm.state_hn]
  have hrad' : vlen (k'.state mu).r = k'.rad := by rw [vlen_r, hph'.adm.state_rn]
  obtain ⟨q1, q2⟩ := N.states hmu
  obtain ⟨g0, g0', dg⟩ := N.dspeed hmu
  have hr := N.r_pos
  refine ⟨c', w1, ?_, ?_⟩
  · rw [← hc] at q1
    refine (Orbit.vlen_via _ _ _).trans ((add_le_add w2 q1).trans ?_)
    rw [hrad']
    have e1 := mul_le_mul (show 300 * (3 * W / (k.e - 1)) * R.u ≤ 1800 * t by linarith) N.rad_le N.rad_pos.le (by linarith)
    have : 0 ≤ t * vlen c.r := by positivity
    linarith
  · rw [← hc] at q2
    refine (Orbit.vlen_via _ _ _).trans ((add_le_add w3 q2).trans ?_)
    rw [hhm', hhm, mul_div_assoc (1 + k'.e), mul_div_assoc (1 + k.e)]
    generalize mu / k.hm mu = G at *
    generalize mu / k'.hm mu = G' at *
    have hGle : G' ≤ 101 / 100 * G := by
      have := mul_le_mul_of_nonneg_right hsm g0.le
      linarith [(abs_le.mp dg).2]
    have hee := (abs_le.mp N.e_near).2
    have he1' := N.e1'
    have e0 := mul_le_mul (show 1 + k'.e ≤ 101 / 100 * (1 + k.e) by linarith) hGle g0'.le (by linarith)
    have e1 := mul_le_mul (show 200 * (3 * W / (k.e - 1)) * R.u ≤ 1200 * t by linarith) e0 (by positivity) (by linarith)
    have : 0 ≤ t * ((1 + k.e) * G) := by positivity
    linarith

end CartKep

open CartKep in
/-- C121: let the state `c` move on a hyperbola, with elements `k`, that is not equatorial: with `W = 1 + r / a` and `t = u W² / (e² - 1)`, `10^6 t ≤ sin i` and
`200 t + 1e-16 ≤ sin² i`.  In every arithmetic that rounds to nearest, `cart_to_kep` followed by `kep_to_cart` returns a state whose position and velocity differ from the given ones by at most
the distance `r` and the speed at periapsis `(1 + e) mu / h` times `9 (T_Ω + T_i + T_ω) + 3 T_ν + 10^4 t`, where each `T` is `8 ε / (|sin θ| + sqrt ε)` for the errors
`ε = 100 t / sin i`, `100 t`, `2000 t / sin i`, `2000 u W / e` of the four cosines.  Both legs of the hyperbola are included. -/
theorem c121 (hR : Nearest R) (g : Nat → CtkGarbage (RF R)) (g' : Nat → RF R) {mu : ℝ} {k : Kep ℝ} {c : Cart ℝ} (hmu : 0 < mu) (hd : DescribesOrbit mu k c) (ha : 0 < k.a)
    (h1 : 1 < k.e) (hi0 : 0 < Real.sin k.i) {W t : ℝ} (hW : W = 1 + vlen c.r / k.a) (ht : t = R.u * (W ^ 2 / (k.e ^ 2 - 1))) (hs : 10 ^ 6 * t ≤ Real.sin k.i)
    (hi : 200 * t + 1 / 10 ^ 16 ≤ Real.sin k.i ^ 2) :
    ∃ (kep : Kep (RF R)) (c' : Cart ℝ), (cart_to_kep g (.sc (RF.num R mu)) false (.vec .f64 (c.num R))).1 = .ok (.vec .f64 kep) ∧
      (kep_to_cart g' (.sc (RF.num R mu)) false (.vec .f64 kep)).1 = .ok (.vec .f64 (c'.num R)) ∧
      vlen (c'.r - c.r) ≤ vlen c.r *
        (9 * (angTol (100 * t / Real.sin k.i) k.OM + angTol (100 * t) k.i + angTol (2000 * t / Real.sin k.i) k.om) + 3 * angTol (2000 * (R.u * W) / k.e) k.nu + 10 ^ 4 * t) ∧
      vlen (c'.v - c.v) ≤ (1 + k.e) * mu / vlen (angMom c) *
        (9 * (angTol (100 * t / Real.sin k.i) k.OM + angTol (100 * t) k.i + angTol (2000 * t / Real.sin k.i) k.om) + 3 * angTol (2000 * (R.u * W) / k.e) k.nu + 10 ^ 4 * t) := by
  obtain ⟨k', hk', E⟩ := elements_hyp hR g hmu hd ha h1 hi0 hW ht hs hi
  obtain ⟨c', w1, w2, w3⟩ := (E.near hmu hd ha h1 hi0 hW ht hs).back hmu hd (g' 0)
  refine ⟨k'.num R, c', hk', ?_, w2, w3⟩
  rw [← w1]; rfl

open CartKep in
/-- C121 with `degrees=True` in both functions: the conversions of the angles add at most `2000 t`. -/
theorem c121_degrees (hR : Nearest R) (g : Nat → CtkGarbage (RF R)) (g' : Nat → RF R) {mu : ℝ} {k : Kep ℝ} {c : Cart ℝ} (hmu : 0 < mu) (hd : DescribesOrbit mu k c) (ha : 0 < k.a)
    (h1 : 1 < k.e) (hi0 : 0 < Real.sin k.i) {W t : ℝ} (hW : W = 1 + vlen c.r / k.a) (ht : t = R.u * (W ^ 2 / (k.e ^ 2 - 1))) (hs : 10 ^ 6 * t ≤ Real.sin k.i)
    (hi : 200 * t + 1 / 10 ^ 16 ≤ Real.sin k.i ^ 2) :
    ∃ (kep : Kep (RF R)) (c' : Cart ℝ), (cart_to_kep g (.sc (RF.num R mu)) true (.vec .f64 (c.num R))).1 = .ok (.vec .f64 kep) ∧
      (kep_to_cart g' (.sc (RF.num R mu)) true (.vec .f64 kep)).1 = .ok (.vec .f64 (c'.num R)) ∧
      vlen (c'.r - c.r) ≤ vlen c.r *
        (9 * (angTol (100 * t / Real.sin k.i) k.OM + angTol (100 * t) k.i + angTol (2000 * t / Real.sin k.i) k.om) + 3 * angTol (2000 * (R.u * W) / k.e) k.nu + 12000 * t) ∧
      vlen (c'.v - c.v) ≤ (1 + k.e) * mu / vlen (angMom c) *
        (9 * (angTol (100 * t / Real.sin k.i) k.OM + angTol (100 * t) k.i + angTol (2000 * t / Real.sin k.i) k.om) + 3 * angTol (2000 * (R.u * W) / k.e) k.nu + 12000 * t) := by
  have hu0 := R.u_nonneg
  obtain ⟨k', hk', E⟩ := elements_hyp hR g hmu hd ha h1 hi0 hW ht hs hi
  have N := E.near hmu hd ha h1 hi0 hW ht hs
  have hsm := N.small
  have hut := N.scale.one
  have hu6 : R.u ≤ 1 / 10 ^ 6 := by norm_num; linarith
  have hk : cartToKepCol (g 0) .f64 (RF.num R mu) (c.num R) = k'.num R := by
    have e1 : (cart_to_kep g (.sc (RF.num R mu)) false (.vec .f64 (c.num R))).1 = .ok (.vec .f64 (cartToKep (g 0) .f64 (RF.num R mu) false (c.num R))) := rfl
    rw [hk'] at e1
    injection e1 with e1
    injection e1 with _ e1
    exact e1.symm
  obtain ⟨r1, r2, r3, r4⟩ := angles_le (show R.u ≤ 1 / 10 ^ 5 by norm_num at hu6 ⊢; linarith) hk
  obtain ⟨kd, hkd⟩ := in_degrees hu6 r1 r2 r3 r4
  have q1 := flRad_near hu6 r1 hkd.i
  have q2 := flRad_near hu6 r2 hkd.om
  have q3 := flRad_near hu6 r3 hkd.OM
  have q4 := flRad_near hu6 r4 hkd.nu
  have he0 : 0 < k.e := by linarith
  have hν1 : R.u ≤ R.u * W / k.e := by rw [le_div_iff₀ he0]; exact mul_le_mul_of_nonneg_left N.eW hu0
  have N' : NearHyp k (kd.flRad R true) R.u (vlen c.r) W t
      (angTol (100 * t / Real.sin k.i) k.OM + angTol (100 * t) k.i + angTol (2000 * t / Real.sin k.i) k.om + 123 * R.u) (angTol (2000 * (R.u * W) / k.e) k.nu + 41 * R.u) := by
    obtain ⟨z1, z2, z3, hz⟩ := N.plane
    obtain ⟨z, hz'⟩ := N.anom
    refine ⟨N.a_pos, N.e1, N.denom, N.dist, N.hW, N.eW, N.scale, N.ht, N.small, ?_, ?_, ?_, ⟨z1, z2, z3, ?_⟩, ⟨z, ?_⟩⟩
    · show |kd.e - k.e| ≤ _
      rw [hkd.e]; exact N.de
    · show |kd.a - k.a| ≤ _
      rw [hkd.a]; exact N.da
    · show |Real.cos (flRad R true kd.nu) - Real.cos k.nu| ≤ _
      have b1 := abs_sub_le (Real.cos (flRad R true kd.nu)) (Real.cos k'.nu) (Real.cos k.nu)
      have b2 := (Real.abs_cos_sub_cos_le (flRad R true kd.nu) k'.nu).trans q4
      have b3 := E.nu.cos
      rw [mul_div_assoc] at b3 ⊢
      linarith
    · show |flRad R true kd.OM - _| + |flRad R true kd.i - _| + |flRad R true kd.om - _| ≤ _
      have a1 := abs_sub_le (flRad R true kd.OM) k'.OM (k.OM + z3 * (2 * Real.pi))
      have a2 := abs_sub_le (flRad R true kd.i) k'.i (k.i + z1 * (2 * Real.pi))
      have a3 := abs_sub_le (flRad R true kd.om) k'.om (k.om + z2 * (2 * Real.pi))
      linarith
    · show |flRad R true kd.nu - _| ≤ _
      have a1 := abs_sub_le (flRad R true kd.nu) k'.nu (k.nu + z * (2 * Real.pi))
      linarith
  obtain ⟨c', w1, w2, w3⟩ := N'.back hmu hd (g' 0)
  have hh := (hd.hyp hmu ha h1).h_pos
  refine ⟨kd.num R, c', ?_, ?_, w2.trans (mul_le_mul_of_nonneg_left ?_ N.r_pos.le), w3.trans (mul_le_mul_of_nonneg_left ?_ (by positivity))⟩
  · rw [← hkd.out, ← hk]
    rfl
  · rw [← w1]
    have e1 : (kep_to_cart g' (.sc (RF.num R mu)) true (.vec .f64 (kd.num R))).1 = .ok (.vec .f64 (kepToCart (g' 0) .f64 (RF.num R mu) true (kd.num R)).1) := rfl
    rw [e1, kepToCart_flRad]
  · linarith
  · linarith

open CartKep in
/-- C121, with one bound for all directions: the errors of the round trip are at most `r` and `(1 + e) mu / h` times `6000 sqrt (t / sin i)`. -/
theorem c121_sqrt (hR : Nearest R) (g : Nat → CtkGarbage (RF R)) (g' : Nat → RF R) {mu : ℝ} {k : Kep ℝ} {c : Cart ℝ} (hmu : 0 < mu) (hd : DescribesOrbit mu k c) (ha : 0 < k.a)
    (h1 : 1 < k.e) (hi0 : 0 < Real.sin k.i) {W t : ℝ} (hW : W = 1 + vlen c.r / k.a) (ht : t = R.u * (W ^ 2 / (k.e ^ 2 - 1))) (hs : 10 ^ 6 * t ≤ Real.sin k.i)
    (hi : 200 * t + 1 / 10 ^ 16 ≤ Real.sin k.i ^ 2) :
    ∃ (kep : Kep (RF R)) (c' : Cart ℝ), (cart_to_kep g (.sc (RF.num R mu)) false (.vec .f64 (c.num R))).1 = .ok (.vec .f64 kep) ∧
      (kep_to_cart g' (.sc (RF.num R mu)) false (.vec .f64 kep)).1 = .ok (.vec .f64 (c'.num R)) ∧
      vlen (c'.r - c.r) ≤ vlen c.r * (6000 * √(t / Real.sin k.i)) ∧ vlen (c'.v - c.v) ≤ (1 + k.e) * mu / vlen (angMom c) * (6000 * √(t / Real.sin k.i)) := by
  obtain ⟨kep, c', a1, a2, a3, a4⟩ := c121 hR g g' hmu hd ha h1 hi0 hW ht hs hi
  have hu0 := R.u_nonneg
  have E := hd.hyp hmu ha h1
  rw [← hW] at E
  have S := hypScale hu0 h1 E.e_le ht
  have ht0 : 0 ≤ t := hu0.trans S.one
  have he0 : 0 < k.e := by linarith
  have hν2 : R.u * W / k.e ≤ t := by rw [div_le_iff₀ he0]; exact S.ecc
  have hν0 : 0 ≤ R.u * W := mul_nonneg hu0 (by linarith [E.e_le])
  have htσ : t ≤ t / Real.sin k.i := by rw [le_div_iff₀ hi0]; exact mul_le_of_le_one_right ht0 (Real.sin_le_one _)
  have hσ : t / Real.sin k.i ≤ 1 / 1000000 := by rw [div_le_iff₀ hi0]; norm_num at hs; linarith
  have hσ0 : 0 ≤ t / Real.sin k.i := by positivity
  have key : 9 * (angTol (100 * t / Real.sin k.i) k.OM + angTol (100 * t) k.i + angTol (2000 * t / Real.sin k.i) k.om) + 3 * angTol (2000 * (R.u * W) / k.e) k.nu + 10 ^ 4 * t ≤
      6000 * √(t / Real.sin k.i) := by
    obtain ⟨σ, hσe⟩ : ∃ σ, σ = t / Real.sin k.i := ⟨_, rfl⟩
    have b1 := AngleDist.tol_le_sqrt (ε := 100 * t / Real.sin k.i) (by positivity) k.OM
    have b2 := AngleDist.tol_le_sqrt (ε := 100 * t) (by positivity) k.i
    have b3 := AngleDist.tol_le_sqrt (ε := 2000 * t / Real.sin k.i) (by positivity) k.om
    have b4 := AngleDist.tol_le_sqrt (ε := 2000 * (R.u * W) / k.e) (by positivity) k.nu
    rw [← hσe] at hσ hσ0 htσ ⊢
    have sq1 : ∀ {x m : ℝ}, 0 ≤ m → x ≤ m ^ 2 * σ → √x ≤ m * √σ := fun {x m} hm hx => by
      have := Real.sqrt_le_sqrt hx
      rwa [Real.sqrt_mul (by positivity), Real.sqrt_sq hm] at this
    have d1 := sq1 (x := 100 * t / Real.sin k.i) (m := 10) (by norm_num) (by rw [mul_div_assoc, ← hσe]; norm_num)
    have d2 := sq1 (x := 100 * t) (m := 10) (by norm_num) (by linarith)
    have d3 := sq1 (x := 2000 * t / Real.sin k.i) (m := 45) (by norm_num) (by rw [mul_div_assoc, ← hσe]; linarith)
    have d4 := sq1 (x := 2000 * (R.u * W) / k.e) (m := 45) (by norm_num) (by rw [mul_div_assoc]; linarith)
    have d5 : t ≤ 1 / 1000 * √σ := by
      refine htσ.trans ?_
      have h2 : √σ ≤ 1 / 1000 := by rw [Real.sqrt_le_left (by norm_num)]; linarith
      have h3 := mul_le_mul_of_nonneg_right h2 (Real.sqrt_nonneg σ)
      rwa [Real.mul_self_sqrt hσ0] at h3
    have := Real.sqrt_nonneg σ
    linarith
  have hh := E.h_pos
  exact ⟨kep, c', a1, a2, a3.trans (mul_le_mul_of_nonneg_left key E.r_pos.le), a4.trans (mul_le_mul_of_nonneg_left key (by positivity))⟩

open CartKep in
/-- C121 in double precision, where `(1 + r / a)² ≤ 10 (e² - 1)` and the sines of the four angles are at least 0.1 in absolute value: the
position comes back with a relative error of at most 3e-8, the velocity with an error of at most 3e-8 times the speed at periapsis. -/
theorem c121_binary64 (g : Nat → CtkGarbage (RF Binary.binary64)) (g' : Nat → RF Binary.binary64) {mu : ℝ} {k : Kep ℝ} {c : Cart ℝ} (hmu : 0 < mu) (hd : DescribesOrbit mu k c)
    (ha : 0 < k.a) (h1 : 1 < k.e) (hr : (1 + vlen c.r / k.a) ^ 2 ≤ 10 * (k.e ^ 2 - 1)) (hi : 1 / 10 ≤ Real.sin k.i) (hOM : 1 / 10 ≤ |Real.sin k.OM|) (hom : 1 / 10 ≤ |Real.sin k.om|)
    (hnu : 1 / 10 ≤ |Real.sin k.nu|) :
    ∃ (kep : Kep (RF Binary.binary64)) (c' : Cart ℝ), (cart_to_kep g (.sc (RF.num _ mu)) false (.vec .f64 (c.num _))).1 = .ok (.vec .f64 kep) ∧
      (kep_to_cart g' (.sc (RF.num _ mu)) false (.vec .f64 kep)).1 = .ok (.vec .f64 (c'.num _)) ∧
      vlen (c'.r - c.r) ≤ vlen c.r * (3 / 10 ^ 8) ∧ vlen (c'.v - c.v) ≤ (1 + k.e) * mu / vlen (angMom c) * (3 / 10 ^ 8) := by
  have hu : Binary.binary64.u = (1 / 2) ^ 53 := rfl
  have hu0 := Binary.binary64.u_nonneg
  have hu1 : Binary.binary64.u ≤ 1112 / 10 ^ 19 := by rw [hu]; norm_num
  have hsl : 0 < k.e ^ 2 - 1 := by nlinarith
  obtain ⟨W, hW⟩ : ∃ W, W = 1 + vlen c.r / k.a := ⟨_, rfl⟩
  obtain ⟨t, ht⟩ : ∃ t, t = Binary.binary64.u * (W ^ 2 / (k.e ^ 2 - 1)) := ⟨_, rfl⟩
  rw [← hW] at hr
  have E := hd.hyp hmu ha h1
  rw [← hW] at E
  have S := hypScale hu0 h1 E.e_le ht
  have ht0 : 0 ≤ t := hu0.trans S.one
  have ht1 : t ≤ 1112 / 10 ^ 18 := by
    have h2 : W ^ 2 / (k.e ^ 2 - 1) ≤ 10 := by rw [div_le_iff₀ hsl]; exact hr
    rw [ht]
    have := mul_le_mul hu1 h2 (by positivity) (by norm_num)
    norm_num at this ⊢
    linarith
  have hi0 : 0 < Real.sin k.i := by linarith
  have hi2 := pow_le_pow_left₀ (by norm_num) hi 2
  obtain ⟨kep, c', a1, a2, a3, a4⟩ := c121 Binary.nearest g g' hmu hd ha h1 hi0 hW ht (by norm_num at ht1 ⊢; linarith) (by norm_num at ht1 hi2 ⊢; linarith)
  have he0 : 0 < k.e := by linarith
  have hν2 : Binary.binary64.u * W / k.e ≤ t := by rw [div_le_iff₀ he0]; exact S.ecc
  have hν0 : 0 ≤ Binary.binary64.u * W / k.e := div_nonneg (mul_nonneg hu0 (by linarith [E.e_le])) he0.le
  have key : 9 * (angTol (100 * t / Real.sin k.i) k.OM + angTol (100 * t) k.i + angTol (2000 * t / Real.sin k.i) k.om) + 3 * angTol (2000 * (Binary.binary64.u * W) / k.e) k.nu +
      10 ^ 4 * t ≤ 3 / 10 ^ 8 := by
    clear a3 a4 hu
    rw [mul_div_assoc 2000 (Binary.binary64.u * W)]
    generalize Binary.binary64.u * W / k.e = x at *
    have gen : ∀ {ε θ B : ℝ}, 0 ≤ ε → ε ≤ B → 1 / 10 ≤ |Real.sin θ| → angTol ε θ ≤ 80 * B := by
      intro ε θ B a b d
      refine (AngleDist.tol_le_sin a (by norm_num) d).trans ?_
      linarith
    have b1 := gen (ε := 100 * t / Real.sin k.i) (θ := k.OM) (B := 1000 * t) (by positivity) (by
      rw [div_le_iff₀ hi0]; have := mul_le_mul_of_nonneg_left hi (show 0 ≤ 1000 * t by linarith); linarith) hOM
    have b2 := gen (ε := 100 * t) (θ := k.i) (B := 100 * t) (by positivity) le_rfl (hi.trans (le_abs_self _))
    have b3 := gen (ε := 2000 * t / Real.sin k.i) (θ := k.om) (B := 20000 * t) (by positivity) (by
      rw [div_le_iff₀ hi0]; have := mul_le_mul_of_nonneg_left hi (show 0 ≤ 20000 * t by linarith); linarith) hom
    have b4 := gen (ε := 2000 * x) (θ := k.nu) (B := 2000 * t) (by positivity) (by linarith) hnu
    norm_num at ht1 ⊢
    linarith
  have hh := E.h_pos
  exact ⟨kep, c', a1, a2, a3.trans (mul_le_mul_of_nonneg_left key E.r_pos.le), a4.trans (mul_le_mul_of_nonneg_left key (by positivity))⟩

/-- a case of `c121_binary64`, on the inbound leg: the state on the hyperbola with a = 1 and e = 2 at the true anomaly -π/2, at the distance 3 -/
example : ∃ c : Cart ℝ, DescribesOrbit 1 ⟨1, 2, Real.pi / 6, Real.pi / 6, Real.pi / 6, -(Real.pi / 2)⟩ c ∧ (1 + vlen c.r / 1) ^ 2 ≤ 10 * ((2 : ℝ) ^ 2 - 1) ∧
    1 / 10 ≤ |Real.sin (Real.pi / 6)| ∧ 1 / 10 ≤ |Real.sin (-(Real.pi / 2))| := by
  have hp : Physical 1 (⟨1, 2, Real.pi / 6, Real.pi / 6, Real.pi / 6, -(Real.pi / 2)⟩ : Kep ℝ) := by
    refine ⟨by norm_num, by norm_num, by norm_num, ?_⟩
    show 0 < 1 + 2 * Real.cos (-(Real.pi / 2))
    rw [Real.cos_neg, Real.cos_pi_div_two]; norm_num
  refine ⟨_, hp.adm.describes, ?_, ?_, ?_⟩
  · have := hp.adm.describes.distance
    rw [this, if_neg (by norm_num)]
    show (1 + 1 * |1 - (2 : ℝ) ^ 2| / (1 + 2 * Real.cos (-(Real.pi / 2))) / 1) ^ 2 ≤ _
    rw [Real.cos_neg, Real.cos_pi_div_two]; norm_num
  · rw [Real.sin_pi_div_six]; norm_num
  · rw [Real.sin_neg, Real.sin_pi_div_two]; norm_num

end Pyorb
