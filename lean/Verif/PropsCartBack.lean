import Verif.RoundAngleDist
import Verif.PropsRoundSix
import Verif.PropsOrbitReturn
import Verif.PropsOrbitRoundDeg

/-!
# Cartesian coordinates to elements and back with rounding (C114)
-/

set_option linter.unusedVariables false

namespace Pyorb
open FX RF Matrix
variable {R : Rounding}

namespace CartKep

/-- the computed inclination lies in the range of the arcus cosine -/
theorem inc_range (hR : Nearest R) {mu : ℝ} {c : Cart ℝ} (hh : 100 * R.u * (vlen c.r * vlen c.v) ≤ vlen (angMom c)) (hne : angMom c ≠ 0) (g : CtkGarbage (RF R)) {i : ℝ}
    (hi : (cartToKepCol g .f64 (RF.num R mu) (c.num R)).i = RF.num R i) : 0 ≤ i ∧ i ≤ Real.pi + 31 * R.u := by
  have hu0 := R.u_nonneg
  have hus : 100 * R.u ≤ 1 := by have := hR.small; norm_num at this; linarith
  have hhn : 0 < vlen (angMom c) := by rw [vlen_angMom]; exact angMom_ne_zero hne
  have hRV : 0 ≤ vlen c.r * vlen c.v := mul_nonneg (vlen_nonneg _) (vlen_nonneg _)
  have hd (j : Fin 3) : |flAngMom R c j - angMom c j| ≤ 8 / 3 * R.u * (vlen c.r * vlen c.v) := by
    obtain ⟨y, hy, h⟩ := (flAngMom_near (R := R) c j).abs_le (by norm_num) (by linarith)
    rw [num_inj hy]
    linarith
  have hN := flNorm_near (R := R) (x := angMom c) (hd 0) (hd 1) (hd 2) (by linarith)
  set N := flNorm R (flAngMom R c 0) (flAngMom R c 1) (flAngMom R c 2) with hNdef
  have huRV : 0 ≤ R.u * (vlen c.r * vlen c.v) := mul_nonneg hu0 hRV
  have hNp : 0 < N := by
    have h2 : R.u * (R.u * (vlen c.r * vlen c.v)) ≤ 1 / 100 * (R.u * (vlen c.r * vlen c.v)) := mul_le_mul_of_nonneg_right (by linarith) huRV
    have h3 : R.u * vlen (angMom c) ≤ 1 / 100 * vlen (angMom c) := mul_le_mul_of_nonneg_right (by linarith) hhn.le
    have := (abs_le.mp hN).1
    nlinarith
  have hz := flNorm_ge_z hR (x := flAngMom R c 0) (y := flAngMom R c 1) (z := flAngMom R c 2) (hR.digits _)
  rw [← hNdef] at hz
  obtain ⟨q1, q2⟩ := quot_range hR hNp hz
  have hval : (cartToKepCol g .f64 (RF.num R mu) (c.num R)).i = Np.arccos (RF.num R (R.rd (flAngMom R c 2 / N))) := by
    rw [← div_num _ hNp.ne', hNdef, ← norm_num3]
    rfl
  obtain ⟨θ, e, -, r, -⟩ := angle_out (R := R) hus q1 q2 false
  rw [if_neg (by simp), ← hval, hi] at e
  rw [num_inj e]
  exact r rfl

/-- what `cart_to_kep` computes for a state on an ellipse, `t = u / (1 - e)` -/
structure Elements (R : Rounding) (k k' : Kep ℝ) (t : ℝ) : Prop where
  e : |k'.e - k.e| ≤ 250 * R.u
  a : |k'.a - k.a| ≤ 96 * t * k.a
  i : AngleErr R k'.i (Real.cos k.i) (140 * t) (Real.sin k.i) 0
  OM : AngleErr R k'.OM (Real.cos k.OM) (120 * t / Real.sin k.i) (Real.sin k.OM) (6 * t / Real.sin k.i)
  om : AngleErr R k'.om (Real.cos k.om) (4000 * t / (k.e * Real.sin k.i)) (Real.sin k.om) (95 * R.u / (k.e * Real.sin k.i))
  nu : AngleErr R k'.nu (Real.cos k.nu) (2000 * R.u / k.e) (Real.sin k.nu) (18 * R.u / k.e)

theorem elements (hR : Nearest R) (g : Nat → CtkGarbage (RF R)) {mu : ℝ} {k : Kep ℝ} {c : Cart ℝ} (hmu : 0 < mu) (hd : DescribesOrbit mu k c) (ha : 0 < k.a)
    (he0 : 3 / 10 ^ 9 ≤ k.e) (he1 : k.e < 1) (hi0 : 0 < Real.sin k.i) (hs : 10 ^ 6 * (R.u / (1 - k.e)) ≤ k.e * Real.sin k.i)
    (hi : 200 * (R.u / (1 - k.e)) + 1 / 10 ^ 16 ≤ Real.sin k.i ^ 2) :
    ∃ k' : Kep ℝ, (cart_to_kep g (.sc (RF.num R mu)) false (.vec .f64 (c.num R))).1 = .ok (.vec .f64 (k'.num R)) ∧ Elements R k k' (R.u / (1 - k.e)) := by
  have hu0 := R.u_nonneg
  have hep : 0 < k.e := lt_of_lt_of_le (by norm_num) he0
  have hq : 0 < 1 - k.e := by linarith
  obtain ⟨t, ht⟩ : ∃ t, t = R.u / (1 - k.e) := ⟨_, rfl⟩
  have hut : R.u = t * (1 - k.e) := by rw [ht, div_mul_cancel₀ _ hq.ne']
  rw [← ht] at hs hi ⊢
  have ht0 : 0 ≤ t := by rw [ht]; positivity
  have hule : R.u ≤ t := by rw [hut]; nlinarith
  have hsi1 := Real.sin_le_one k.i
  have hei : k.e * Real.sin k.i ≤ k.e := mul_le_of_le_one_right hep.le hsi1
  have hei' : k.e * Real.sin k.i ≤ Real.sin k.i := mul_le_of_le_one_left hi0.le he1.le
  have htq : t ≤ 1 / 10 ^ 5 := by norm_num at hs ⊢; linarith
  have E := hd.ell hmu ha hep.le he1
  have hh := E.h_pos
  have hrp : 0 < vlen c.r := lt_of_lt_of_le (by positivity) E.r_ge
  have hne : angMom c ≠ 0 := by
    intro h0
    rw [h0] at hh
    simp [vlen] at hh
  have hen := E.energy
  have hEneg : energy mu c < 0 := by rw [hen, neg_div]; exact neg_neg_of_pos (by positivity)
  have hE' : energy mu c = vlen c.v ^ 2 / 2 - mu / vlen c.r := by rw [energy, ← vlen_sq']
  have hrv2 : vlen c.r * vlen c.v ^ 2 < 2 * mu := by
    have : vlen c.v ^ 2 / 2 < mu / vlen c.r := by linarith
    rw [lt_div_iff₀ hrp] at this
    linarith
  have hk : 1 + 2 * vlen c.r * vlen c.v ^ 2 / mu ≤ 5 := by
    have : 2 * vlen c.r * vlen c.v ^ 2 / mu ≤ 4 := by rw [div_le_iff₀ hmu]; linarith
    linarith
  have hk0 : 0 ≤ 1 + 2 * vlen c.r * vlen c.v ^ 2 / mu := by positivity
  obtain ⟨κ, hκ⟩ : ∃ κ, κ = 1 + 2 * vlen c.r * vlen c.v ^ 2 / mu := ⟨_, rfl⟩
  have hrv0 : 0 ≤ vlen c.r * vlen c.v := mul_nonneg (vlen_nonneg _) (vlen_nonneg _)
  have hrw1 : vlen c.r * vlen c.v ≤ vlen c.r * ((1 + k.e) * mu / vlen (angMom c)) := mul_le_mul_of_nonneg_left E.speed hrp.le
  have hrvh : R.u * (vlen c.r * vlen c.v) ≤ 2 * t * vlen (angMom c) := by
    have := mul_le_mul_of_nonneg_left (hrw1.trans E.rw) hu0
    rw [ht]
    refine this.trans (le_of_eq ?_)
    ring
  have hrvZ : vlen c.r * vlen c.v ≤ 2 * (vlen c.r * mu / vlen (angMom c)) := by
    refine hrw1.trans ?_
    rw [show vlen c.r * ((1 + k.e) * mu / vlen (angMom c)) = (1 + k.e) * (vlen c.r * mu / vlen (angMom c)) by ring]
    exact mul_le_mul_of_nonneg_right (by linarith) (by positivity)
  have hecc := E.ecc
  have hth : 0 ≤ t * vlen (angMom c) := mul_nonneg ht0 hh.le
  have hu100 : 100 * R.u ≤ 1 := by linarith
  have hhi : 100 * R.u * (vlen c.r * vlen c.v) ≤ vlen (angMom c) := by
    have := mul_le_mul_of_nonneg_right htq hh.le
    linarith
  -- eccentricity
  obtain ⟨k1, e, a1, a2, a3⟩ := c88_e g hmu hne hu100
  -- semi-major axis
  have hau : 50 * R.u * (1 + 2 * vlen c.r * vlen c.v ^ 2 / mu) < |1 - vlen (eccVec mu c)| := by
    rw [hecc, abs_of_pos hq]
    have := mul_le_mul_of_nonneg_left hk (show 0 ≤ 50 * R.u by linarith)
    have h2 : R.u ≤ 1 / 10 ^ 5 * (1 - k.e) := by rw [hut]; exact mul_le_mul_of_nonneg_right htq hq.le
    linarith
  have hAbs : |energy mu c| = mu / (2 * k.a) := by rw [abs_of_neg hEneg, hen, neg_div, neg_neg]
  have hAA : mu / (2 * |energy mu c|) = k.a := by rw [hAbs]; field_simp
  obtain ⟨k2, a, b1, b2, b3⟩ := c88_a (C := 4 / (1 - k.e)) g hmu hne hu100 (by rw [show 100 * (4 / (1 - k.e)) * R.u = 400 * t by rw [ht]; ring]; linarith) (by
    rw [hAbs]
    have h1 : mu / vlen c.r ≤ mu / (k.a * (1 - k.e)) := div_le_div_of_nonneg_left hmu.le (by positivity) E.r_ge
    have h2 : vlen c.v ^ 2 / 2 ≤ mu / vlen c.r := by linarith
    have h3 : 4 / (1 - k.e) * (mu / (2 * k.a)) = 2 * (mu / (k.a * (1 - k.e))) := by field_simp; norm_num
    linarith) hau
  rw [hAA, show 24 * (4 / (1 - k.e)) * R.u = 96 * t by rw [ht]; ring] at b3
  -- inclination
  obtain ⟨k3, i, d1, d2, d3⟩ := c88_i hR g (mu := mu) hne hhi
  have hir := inc_range hR (mu := mu) hhi hne (g 0) (i := i) (by
    have : k3 = cartToKepCol (g 0) .f64 (RF.num R mu) (c.num R) := by
      have h1 : (cart_to_kep g (.sc (RF.num R mu)) false (.vec .f64 (c.num R))).1 = .ok (.vec .f64 (cartToKepCol (g 0) .f64 (RF.num R mu) (c.num R))) := rfl
      rw [d1] at h1
      injection h1 with h1
      injection h1
    rw [← this]; exact d2)
  have hci : Real.cos (inclination c) = Real.cos k.i := by rw [cos_inclination hh, E.hz]; field_simp
  rw [hci] at d3
  have d4 : 20 * R.u * (vlen c.r * vlen c.v / vlen (angMom c)) ≤ 40 * t := by
    rw [mul_div_assoc', div_le_iff₀ hh]; linarith
  -- the other angles
  have hnl := hd.node_len hi0
  have hn0 : 0 < vlen (nodeVec c) := by rw [hnl]; positivity
  obtain ⟨k4, om, OM, nu, f1, f2, f3, f4, f5, f6, f7⟩ := c93 hR g hmu hne (by rw [hecc]; exact he0)
    (by rw [hecc]; have := mul_le_mul_of_nonneg_left hk (show 0 ≤ 200 * R.u by linarith); linarith) (by
    rw [hnl, mul_pow]
    have h1 := mul_le_mul_of_nonneg_left hi (sq_nonneg (vlen (angMom c)))
    have h2 := mul_le_mul_of_nonneg_right hrvh hh.le
    refine le_trans (le_of_eq ?_) (le_trans (add_le_add_left (a := 1 / 10 ^ 16 * vlen (angMom c) ^ 2) (mul_le_mul_of_nonneg_left h2 (show (0 : ℝ) ≤ 100 by norm_num))) (le_trans (le_of_eq ?_) h1)) <;> ring)
  have e12 : k1 = k2 := by rw [a1] at b1; injection b1 with b1; injection b1
  have e13 : k1 = k3 := by rw [a1] at d1; injection d1 with d1; injection d1
  have e14 : k1 = k4 := by rw [a1] at f1; injection f1 with f1; injection f1
  subst e12 e13 e14
  refine ⟨⟨a, e, i, om, OM, nu⟩, ?_, ⟨?_, b3, ⟨?_, fun _ => hir, fun h => ?_, hir.1, by linarith [Real.pi_pos]⟩, ?_, ?_, ?_⟩⟩
  · rw [a1]
    congr 2
    cases k1
    simp only [Kep.num] at *
    simp only [Kep.mk.injEq]
    exact ⟨b2, a2, d2, f2, f3, f4⟩
  · rw [hecc] at a3
    have := mul_le_mul_of_nonneg_left hk (show 0 ≤ 50 * R.u by linarith)
    linarith
  · exact d3.trans (by linarith)
  · linarith
  · rw [hd.cos_node hi0 hh] at f5
    have hx0 : angMom c 0 = vlen (angMom c) * (Real.sin k.OM * Real.sin k.i) := by
      have := congrFun hd.angMom_len 0
      simpa using this
    rw [hx0, hnl] at f5
    refine f5.mono ?_ (fun h => ?_) fun h => ?_
    · rw [div_le_div_iff₀ (by positivity) hi0]
      have := mul_le_mul_of_nonneg_right hrvh hi0.le
      linarith
    · rw [div_lt_iff₀ hi0] at h
      have := mul_lt_mul_of_pos_left h hh
      linarith
    · rw [← neg_div, lt_div_iff₀ hi0] at h
      have := mul_lt_mul_of_pos_left h hh
      linarith
  · rw [hd.cos_peri hi0 hh hep] at f6
    have hx0 : eccVec mu c 2 = k.e * (Real.sin k.om * Real.sin k.i) := by
      have := congrFun hd.ecc 2
      rw [Kep.frame_ex] at this
      simpa [Kep.pz, mul_comm (Real.sin k.om)] using this
    have heip : 0 < k.e * Real.sin k.i := mul_pos hep hi0
    rw [hx0, hnl, hecc] at f6
    have h5 := mul_le_mul_of_nonneg_left hk (show 0 ≤ 19 * R.u by linarith)
    refine f6.mono ?_ (fun h => ?_) fun h => ?_
    · rw [div_le_div_iff₀ (by positivity) heip]
      have h1 := mul_le_mul_of_nonneg_right hk (mul_nonneg hu0 hrv0)
      have h2 := mul_le_mul_of_nonneg_right (show R.u * ((1 + 2 * vlen c.r * vlen c.v ^ 2 / mu) * (vlen c.r * vlen c.v)) ≤ 10 * (t * vlen (angMom c)) by linarith) heip.le
      linarith
    · rw [div_lt_iff₀ heip] at h
      linarith
    · rw [← neg_div, lt_div_iff₀ heip] at h
      linarith
  · rw [hd.cos_anom hrp hep, hecc] at f7
    have h5 := mul_le_mul_of_nonneg_left hk (show 0 ≤ 400 * R.u by linarith)
    obtain ⟨Z, hZ⟩ : ∃ Z, Z = vlen c.r * mu / vlen (angMom c) := ⟨_, rfl⟩
    have hZ0 : 0 < Z := by rw [hZ]; positivity
    have hx0 : c.r ⬝ᵥ c.v = Z * (k.e * Real.sin k.nu) := by
      have h1 := hd.r_dot_v hmu hh
      rw [hZ, div_mul_eq_mul_div, eq_div_iff hh.ne', h1]
    rw [hx0] at f7
    rw [← hZ] at hrvZ
    have h6 := mul_le_mul_of_nonneg_left hrvZ (show 0 ≤ 9 * R.u by linarith)
    refine f7.mono (div_le_div_of_nonneg_right (by linarith) hep.le) (fun h => ?_) fun h => ?_
    · rw [div_lt_iff₀ hep] at h
      have := mul_lt_mul_of_pos_left h hZ0
      linarith
    · rw [← neg_div, lt_div_iff₀ hep] at h
      have := mul_lt_mul_of_pos_left h hZ0
      linarith

/-! ## Nearby ellipses -/

theorem vlen_plane_le (k : Kep ℝ) {X Y B C : ℝ} {u : Fin 3 → ℝ} (h0 : u 0 = k.px * X + k.qx * Y) (h1 : u 1 = k.py * X + k.qy * Y) (h2 : u 2 = k.pz * X + k.qz * Y)
    (hX : |X| ≤ B) (hY : |Y| ≤ C) : vlen u ≤ B + C := by
  rw [Orbit.vlen_plane k X Y u h0 h1 h2]
  have hB := (abs_nonneg _).trans hX
  have hC := (abs_nonneg _).trans hY
  rw [Real.sqrt_le_left (by positivity), ← sq_abs X, ← sq_abs Y]
  have := pow_le_pow_left₀ (abs_nonneg _) hX 2
  have := pow_le_pow_left₀ (abs_nonneg _) hY 2
  nlinarith [mul_nonneg hB hC]

/-- what is assumed of two ellipses of nearly the same shape -/
structure NearShape (a e a' e' α β : ℝ) : Prop where
  a_pos : 0 < a
  e0 : 0 ≤ e
  e1 : e < 1
  e0' : 0 ≤ e'
  da : |a' - a| ≤ α * a
  de : |e' - e| ≤ β
  hα : α ≤ 1 / 200
  hβ : β ≤ 1 / 200 * (1 - e)

section
variable {a e a' e' α β : ℝ} (h : NearShape a e a' e' α β)
include h

theorem NearShape.q : 0 < 1 - e := by linarith [h.e1]
theorem NearShape.α0 : 0 ≤ α := by
  by_contra hc
  have := mul_neg_of_neg_of_pos (not_le.mp hc) h.a_pos
  linarith [(abs_nonneg _).trans h.da]
theorem NearShape.β0 : 0 ≤ β := (abs_nonneg _).trans h.de
theorem NearShape.a_le : a' ≤ 201 / 200 * a := by
  have := (abs_le.mp h.da).2
  have := mul_le_mul_of_nonneg_right h.hα h.a_pos.le
  linarith
theorem NearShape.a_ge : 199 / 200 * a ≤ a' := by
  have := (abs_le.mp h.da).1
  have := mul_le_mul_of_nonneg_right h.hα h.a_pos.le
  linarith
theorem NearShape.a_pos' : 0 < a' := by linarith [h.a_ge, h.a_pos]
theorem NearShape.q_ge : 199 / 200 * (1 - e) ≤ 1 - e' := by linarith [(abs_le.mp h.de).2, h.hβ]
theorem NearShape.e1' : e' < 1 := by linarith [h.q_ge, h.q]

theorem NearShape.quot : a' / (1 - e') ≤ 102 / 100 * (a / (1 - e)) := by
  have := h.q; have := h.q_ge; have := h.a_le; have := h.a_pos
  rw [mul_div_assoc', div_le_div_iff₀ (by linarith) (by linarith)]
  have e1 := mul_le_mul_of_nonneg_right h.a_le h.q.le
  have e2 := mul_le_mul_of_nonneg_left h.q_ge (show 0 ≤ 102 / 100 * a by linarith)
  have := mul_pos h.a_pos h.q
  linarith

/-- the speeds on the circles -/
theorem NearShape.speed {mu : ℝ} (hmu : 0 < mu) : |a' * √(mu / a' ^ 3) - a * √(mu / a ^ 3)| ≤ 102 / 100 * α * (a * √(mu / a ^ 3)) ∧
    a' * √(mu / a' ^ 3) ≤ 102 / 100 * (a * √(mu / a ^ 3)) := by
  have ha := h.a_pos
  have ha' := h.a_pos'
  have hα0 := h.α0
  obtain ⟨n1, n2⟩ := Orbit.motion_pos hmu ha
  obtain ⟨n1', n2'⟩ := Orbit.motion_pos hmu ha'
  obtain ⟨g, hg⟩ : ∃ g, g = a * √(mu / a ^ 3) := ⟨_, rfl⟩
  obtain ⟨g', hg'⟩ : ∃ g', g' = a' * √(mu / a' ^ 3) := ⟨_, rfl⟩
  have hgp : 0 < g := by rw [hg]; positivity
  have hgp' : 0 < g' := by rw [hg']; positivity
  have e1 : g ^ 2 * a = mu := by rw [hg, mul_pow]; linear_combination n2
  have e2 : g' ^ 2 * a' = mu := by rw [hg', mul_pow]; linear_combination n2'
  rw [← hg, ← hg']
  have key : (g' - g) * ((g' + g) * a') = g ^ 2 * (a - a') := by linear_combination e2 - e1
  have hb : |g' - g| * ((g' + g) * a') ≤ g ^ 2 * (α * a) := by
    have : |g' - g| * ((g' + g) * a') = |(g' - g) * ((g' + g) * a')| := by rw [abs_mul, abs_of_pos (show 0 < (g' + g) * a' by positivity)]
    rw [this, key, abs_mul, abs_of_pos (show 0 < g ^ 2 by positivity), abs_sub_comm]
    exact mul_le_mul_of_nonneg_left h.da (by positivity)
  have hmain : |g' - g| ≤ 102 / 100 * α * g := by
    have h1 : |g' - g| * (g * (199 / 200 * a)) ≤ |g' - g| * ((g' + g) * a') :=
      mul_le_mul_of_nonneg_left (mul_le_mul (by linarith) h.a_ge (by linarith) (by linarith)) (abs_nonneg _)
    have h2 : |g' - g| * (g * a) ≤ 102 / 100 * α * g * (g * a) := by
      have : 0 ≤ g ^ 2 * (α * a) := by positivity
      nlinarith
    exact le_of_mul_le_mul_right h2 (by positivity)
  refine ⟨hmain, ?_⟩
  have := (abs_le.mp hmain).2
  have := mul_le_mul_of_nonneg_right h.hα hgp.le
  linarith

theorem NearShape.quot2 {mu : ℝ} (hmu : 0 < mu) : a' * √(mu / a' ^ 3) / (1 - e') ^ 2 ≤ 104 / 100 * (a * √(mu / a ^ 3) / (1 - e) ^ 2) := by
  have hq := h.q; have ha := h.a_pos; have hq' : 0 < 1 - e' := by linarith [h.e1']
  obtain ⟨-, sp⟩ := h.speed hmu
  rw [mul_div_assoc', div_le_div_iff₀ (by positivity) (by positivity)]
  have e1 := mul_le_mul_of_nonneg_right sp (sq_nonneg (1 - e))
  have e2 := mul_le_mul_of_nonneg_left (pow_le_pow_left₀ (by positivity) h.q_ge 2) (show 0 ≤ 104 / 100 * (a * √(mu / a ^ 3)) by positivity)
  have e3 : 0 ≤ a * √(mu / a ^ 3) * (1 - e) ^ 2 := by positivity
  nlinarith

theorem NearShape.minor : |√(1 - e' ^ 2) - √(1 - e ^ 2)| ≤ 2 * β / (1 - e) := by
  have hq := h.q; have he0 := h.e0; have he1 := h.e1; have he0' := h.e0'; have he1' := h.e1'; have hβ0 := h.β0
  have w2 : √(1 - e ^ 2) ^ 2 = 1 - e ^ 2 := Real.sq_sqrt (by nlinarith)
  have w2' : √(1 - e' ^ 2) ^ 2 = 1 - e' ^ 2 := Real.sq_sqrt (by nlinarith)
  have w0' := Real.sqrt_nonneg (1 - e' ^ 2)
  have w0 : 0 < √(1 - e ^ 2) := Real.sqrt_pos.mpr (by nlinarith)
  generalize √(1 - e ^ 2) = w at *
  generalize √(1 - e' ^ 2) = w' at *
  have hwq : 1 - e ≤ w := by
    refine (abs_le_of_sq_le_sq' ?_ w0.le).2
    rw [w2]; nlinarith
  have key : |w' - w| * (w' + w) ≤ 2 * β := by
    have : |w' - w| * (w' + w) = |(e - e') * (e + e')| := by
      rw [← abs_of_pos (show 0 < w' + w by linarith), ← abs_mul]
      congr 1
      linear_combination w2' - w2
    rw [this, abs_mul, abs_sub_comm, abs_of_nonneg (show 0 ≤ e + e' by linarith)]
    have := mul_le_mul h.de (show e + e' ≤ 2 by linarith) (by linarith) hβ0
    linarith
  rw [le_div_iff₀ hq]
  have := mul_le_mul_of_nonneg_left (show 1 - e ≤ w' + w by linarith) (abs_nonneg (w' - w))
  linarith

end

set_option maxHeartbeats 1000000 in
/-- the states at the same eccentric anomaly on two ellipses of nearly the same shape in one plane -/
theorem reshaped {mu : ℝ} (hmu : 0 < mu) {k k' : Kep ℝ} {α β : ℝ} (h : NearShape k.a k.e k'.a k'.e α β) (hO : k'.OM = k.OM) (hi : k'.i = k.i) (ho : k'.om = k.om) (F : ℝ) :
    vlen ((ellipseState k' √(mu / k'.a ^ 3) F).r - (ellipseState k √(mu / k.a ^ 3) F).r) ≤ k.a / (1 - k.e) * (3 * α + 4 * β) ∧
    vlen ((ellipseState k' √(mu / k'.a ^ 3) F).v - (ellipseState k √(mu / k.a ^ 3) F).v) ≤ k.a * √(mu / k.a ^ 3) / (1 - k.e) ^ 2 * (3 * α + 5 * β) := by
  have hq := h.q; have hα0 := h.α0; have hβ0 := h.β0; have ha := h.a_pos; have ha' := h.a_pos'
  have he0 := h.e0; have he1 := h.e1; have he0' := h.e0'; have he1' := h.e1'
  have hc := Real.abs_cos_le_one F
  have hsn := Real.abs_sin_le_one F
  have hm := h.minor
  have w1 : √(1 - k.e ^ 2) ≤ 1 := by rw [Real.sqrt_le_left (by norm_num)]; nlinarith [sq_nonneg k.e]
  have w0 : 0 ≤ √(1 - k.e ^ 2) := Real.sqrt_nonneg _
  have w1' : √(1 - k'.e ^ 2) ≤ 1 := by rw [Real.sqrt_le_left (by norm_num)]; nlinarith [sq_nonneg k'.e]
  have w0' : 0 ≤ √(1 - k'.e ^ 2) := Real.sqrt_nonneg _
  have fr : k'.px = k.px ∧ k'.py = k.py ∧ k'.pz = k.pz ∧ k'.qx = k.qx ∧ k'.qy = k.qy ∧ k'.qz = k.qz := by
    simp only [Kep.px, Kep.py, Kep.pz, Kep.qx, Kep.qy, Kep.qz, hO, hi, ho, and_self]
  obtain ⟨f1, f2, f3, f4, f5, f6⟩ := fr
  obtain ⟨sp, sp'⟩ := h.speed hmu
  obtain ⟨n1, -⟩ := Orbit.motion_pos hmu ha
  obtain ⟨n1', -⟩ := Orbit.motion_pos hmu ha'
  have hqq : 1 ≤ 1 / (1 - k.e) := by rw [le_div_iff₀ hq]; linarith
  constructor
  · have hX : |k'.a * (Real.cos F - k'.e) - k.a * (Real.cos F - k.e)| ≤ k.a * (2 * α + 201 / 200 * β) := by
      rw [show k'.a * (Real.cos F - k'.e) - k.a * (Real.cos F - k.e) = (k'.a - k.a) * (Real.cos F - k.e) + k'.a * (k.e - k'.e) by ring]
      refine (abs_add_le _ _).trans ?_
      rw [abs_mul, abs_mul, abs_of_pos ha', abs_sub_comm k.e]
      have e1 : |Real.cos F - k.e| ≤ 2 := by
        refine (abs_sub _ _).trans ?_
        rw [abs_of_nonneg he0]; linarith
      have e2 := mul_le_mul h.da e1 (abs_nonneg _) (by positivity)
      have e3 := mul_le_mul h.a_le h.de (abs_nonneg _) (by linarith)
      linarith
    have hY : |k'.a * √(1 - k'.e ^ 2) * Real.sin F - k.a * √(1 - k.e ^ 2) * Real.sin F| ≤ k.a * (α + 201 / 200 * (2 * β / (1 - k.e))) := by
      rw [show k'.a * √(1 - k'.e ^ 2) * Real.sin F - k.a * √(1 - k.e ^ 2) * Real.sin F =
        ((k'.a - k.a) * √(1 - k.e ^ 2) + k'.a * (√(1 - k'.e ^ 2) - √(1 - k.e ^ 2))) * Real.sin F by ring, abs_mul]
      have e0 : |(k'.a - k.a) * √(1 - k.e ^ 2) + k'.a * (√(1 - k'.e ^ 2) - √(1 - k.e ^ 2))| ≤ k.a * (α + 201 / 200 * (2 * β / (1 - k.e))) := by
        refine (abs_add_le _ _).trans ?_
        rw [abs_mul, abs_mul, abs_of_pos ha', abs_of_nonneg w0]
        have e2 := mul_le_mul h.da w1 w0 (by positivity)
        have e3 := mul_le_mul h.a_le hm (abs_nonneg _) (by linarith)
        linarith
      have := mul_le_mul e0 hsn (abs_nonneg _) (by positivity)
      linarith
    refine (vlen_plane_le k (X := k'.a * (Real.cos F - k'.e) - k.a * (Real.cos F - k.e)) (Y := k'.a * √(1 - k'.e ^ 2) * Real.sin F - k.a * √(1 - k.e ^ 2) * Real.sin F)
      ?_ ?_ ?_ hX hY).trans ?_
    · simp [ellipseState, Cart.r, f1, f4]; ring
    · simp [ellipseState, Cart.r, f2, f5]; ring
    · simp [ellipseState, Cart.r, f3, f6]; ring
    · rw [show k.a / (1 - k.e) * (3 * α + 4 * β) = k.a * ((3 * α + 4 * β) / (1 - k.e)) by ring, ← mul_add]
      refine mul_le_mul_of_nonneg_left ?_ ha.le
      have e1 := mul_le_mul_of_nonneg_left hqq hα0
      have e2 := mul_le_mul_of_nonneg_left hqq hβ0
      rw [show 2 * β / (1 - k.e) = 2 * (β * (1 / (1 - k.e))) by ring, show (3 * α + 4 * β) / (1 - k.e) = 3 * (α * (1 / (1 - k.e))) + 4 * (β * (1 / (1 - k.e))) by ring]
      linarith
  · obtain ⟨G, hG⟩ : ∃ G, G = k.a * √(mu / k.a ^ 3) := ⟨_, rfl⟩
    obtain ⟨G', hG'⟩ : ∃ G', G' = k'.a * √(mu / k'.a ^ 3) := ⟨_, rfl⟩
    have hGp : 0 < G := by rw [hG]; positivity
    have hGp' : 0 < G' := by rw [hG']; positivity
    obtain ⟨r, hr⟩ : ∃ r, r = 1 / (1 - k.e) := ⟨_, rfl⟩
    have hr0 : 0 < r := by rw [hr]; positivity
    rw [← hr] at hqq
    rw [← hG, ← hG'] at sp sp'
    obtain ⟨D, hD⟩ : ∃ D, D = 1 - k.e * Real.cos F := ⟨_, rfl⟩
    obtain ⟨D', hD'⟩ : ∃ D', D' = 1 - k'.e * Real.cos F := ⟨_, rfl⟩
    have hDq : 1 - k.e ≤ D := by rw [hD]; nlinarith [Real.cos_le_one F]
    have hDq' : 199 / 200 * (1 - k.e) ≤ D' := by rw [hD']; nlinarith [Real.cos_le_one F, h.q_ge]
    have hDp : 0 < D := by linarith
    have hDp' : 0 < D' := lt_of_lt_of_le (by linarith) hDq'
    have hDD : |D' - D| ≤ β := by
      rw [hD, hD', show 1 - k'.e * Real.cos F - (1 - k.e * Real.cos F) = (k.e - k'.e) * Real.cos F by ring, abs_mul, abs_sub_comm]
      have := mul_le_mul h.de hc (abs_nonneg _) hβ0
      linarith
    have i1 : 1 / D ≤ r := by rw [hr]; exact one_div_le_one_div_of_le hq hDq
    have i2 : 1 / D' ≤ 201 / 199 * r := by
      rw [hr, mul_one_div, div_le_div_iff₀ hDp' hq]; linarith
    have i1' : 0 < 1 / D := by positivity
    have i2' : 0 < 1 / D' := by positivity
    have hquot : |G' / D' - G / D| ≤ G * (11 / 10 * α * r + 102 / 100 * β * r ^ 2) := by
      rw [show G' / D' - G / D = (G' - G) * (1 / D') + G * (D - D') * (1 / D' * (1 / D)) by field_simp; ring]
      refine (abs_add_le _ _).trans ?_
      rw [abs_mul, abs_mul, abs_mul, abs_of_pos i2', abs_of_pos hGp, abs_of_pos (mul_pos i2' i1'), abs_sub_comm D]
      have e1 := mul_le_mul sp i2 i2'.le (by positivity)
      have e2 := mul_le_mul (mul_le_mul_of_nonneg_left hDD hGp.le) (mul_le_mul i2 i1 i1'.le (by positivity)) (mul_pos i2' i1').le (by positivity)
      have e3 : 0 ≤ G * (α * r) := by positivity
      have e4 : 0 ≤ G * (β * r ^ 2) := by positivity
      linarith
    have hU : |-(k'.a * √(mu / k'.a ^ 3) * Real.sin F) / (1 - k'.e * Real.cos F) - -(k.a * √(mu / k.a ^ 3) * Real.sin F) / (1 - k.e * Real.cos F)| ≤
        G * (11 / 10 * α * r + 102 / 100 * β * r ^ 2) := by
      rw [← hG, ← hG', ← hD, ← hD', show -(G' * Real.sin F) / D' - -(G * Real.sin F) / D = -((G' / D' - G / D) * Real.sin F) by ring, abs_neg, abs_mul]
      have := mul_le_mul hquot hsn (abs_nonneg _) (by positivity)
      linarith
    have hW : |k'.a * √(mu / k'.a ^ 3) * √(1 - k'.e ^ 2) * Real.cos F / (1 - k'.e * Real.cos F) - k.a * √(mu / k.a ^ 3) * √(1 - k.e ^ 2) * Real.cos F / (1 - k.e * Real.cos F)| ≤
        G * (11 / 10 * α * r + 102 / 100 * β * r ^ 2 + 2 * β * r ^ 2) := by
      rw [← hG, ← hG', ← hD, ← hD', show G' * √(1 - k'.e ^ 2) * Real.cos F / D' - G * √(1 - k.e ^ 2) * Real.cos F / D =
        ((G' / D' - G / D) * √(1 - k'.e ^ 2) + G * (1 / D) * (√(1 - k'.e ^ 2) - √(1 - k.e ^ 2))) * Real.cos F by ring, abs_mul]
      have e0 : |(G' / D' - G / D) * √(1 - k'.e ^ 2) + G * (1 / D) * (√(1 - k'.e ^ 2) - √(1 - k.e ^ 2))| ≤ G * (11 / 10 * α * r + 102 / 100 * β * r ^ 2 + 2 * β * r ^ 2) := by
        refine (abs_add_le _ _).trans ?_
        rw [abs_mul, abs_mul, abs_of_nonneg w0', abs_of_pos (show 0 < G * (1 / D) by positivity)]
        have e1 := mul_le_mul hquot w1' w0' (by positivity)
        rw [show 2 * β / (1 - k.e) = 2 * β * r by rw [hr]; ring] at hm
        have e2 := mul_le_mul (mul_le_mul_of_nonneg_left i1 hGp.le) hm (abs_nonneg _) (by positivity)
        linarith
      have := mul_le_mul e0 hc (abs_nonneg _) (by positivity)
      linarith
    refine (vlen_plane_le k ?_ ?_ ?_ hU hW).trans ?_
    · simp [ellipseState, Cart.v, f1, f4]; ring
    · simp [ellipseState, Cart.v, f2, f5]; ring
    · simp [ellipseState, Cart.v, f3, f6]; ring
    · rw [← hG, show G / (1 - k.e) ^ 2 * (3 * α + 5 * β) = G * (3 * (α * r ^ 2) + 5 * (β * r ^ 2)) by rw [hr]; field_simp, ← mul_add]
      refine mul_le_mul_of_nonneg_left ?_ hGp.le
      have e1 : α * r ≤ α * r ^ 2 := mul_le_mul_of_nonneg_left (by nlinarith) hα0
      have e2 : 0 ≤ α * r ^ 2 := by positivity
      have e3 : 0 ≤ β * r ^ 2 := by positivity
      linarith

/-! ## The same true anomaly on another ellipse -/

set_option maxHeartbeats 1000000 in
/-- the point with the same true anomaly on an ellipse of nearly the same eccentricity -/
theorem same_true {e e' nu F : ℝ} (he0 : 0 ≤ e) (he1 : e < 1) (he0' : 0 ≤ e') (he1' : e' < 1) (hde : |e' - e| ≤ 1 / 200 * (1 - e)) (h : Orbit.SamePoint e nu F) :
    ∃ G, Orbit.SamePoint e' nu G ∧ |G - F| ≤ 4 * |e' - e| / (1 - e) := by
  have hq : 0 < 1 - e := by linarith
  have hq' : 0 < 1 - e' := by linarith
  have hb0 : 0 ≤ 4 * |e' - e| / (1 - e) := by positivity
  by_cases hF : Real.cos (F / 2) = 0
  · refine ⟨F, ?_, by rw [sub_self, abs_zero]; exact hb0⟩
    have hc : Real.cos F = -1 := by
      rw [show F = 2 * (F / 2) by ring, Real.cos_two_mul, hF]; norm_num
    have hs : Real.sin F = 0 := by rw [show F = 2 * (F / 2) by ring, Real.sin_two_mul, hF]; ring
    have h1 := h.along
    have h2 := h.across
    rw [hc] at h1 h2
    rw [hs, mul_zero] at h2
    have hc' : Real.cos nu = -1 := by
      have : (1 + e) * (Real.cos nu + 1) = 0 := by linarith
      rcases mul_eq_zero.mp this with c | c <;> linarith
    have hs' : Real.sin nu = 0 := by
      rcases mul_eq_zero.mp h2 with c | c
      · linarith
      · exact c
    exact ⟨by rw [hc, hc']; ring, by rw [hc, hs, hs']; ring⟩
  -- half-angle tangents
  obtain ⟨T, hT⟩ : ∃ T, T = Real.tan (F / 2) := ⟨_, rfl⟩
  obtain ⟨p, hp⟩ : ∃ p, p = √((1 + e) / (1 - e)) := ⟨_, rfl⟩
  obtain ⟨p', hp'⟩ : ∃ p', p' = √((1 + e') / (1 - e')) := ⟨_, rfl⟩
  have hp0 : 0 < p := by rw [hp]; exact Real.sqrt_pos.mpr (by positivity)
  have hp0' : 0 < p' := by rw [hp']; exact Real.sqrt_pos.mpr (by positivity)
  have hp2 : p ^ 2 * (1 - e) = 1 + e := by rw [hp, Real.sq_sqrt (by positivity)]; field_simp
  have hp2' : p' ^ 2 * (1 - e') = 1 + e' := by rw [hp', Real.sq_sqrt (by positivity)]; field_simp
  have hw : ∀ {e p : ℝ}, 0 ≤ e → e < 1 → 0 < p → p ^ 2 * (1 - e) = 1 + e → √(1 - e ^ 2) = p * (1 - e) := by
    intro e p a b c d
    have : 0 < p * (1 - e) := mul_pos c (by linarith)
    rw [Real.sqrt_eq_iff_mul_self_eq_of_pos this]
    linear_combination (1 - e) * d
  have hw1 := hw he0 he1 hp0 hp2
  have hw1' := hw he0' he1' hp0' hp2'
  have hcF : Real.cos F = (1 - T ^ 2) / (1 + T ^ 2) := by
    rw [← cos_two_arctan, hT, ← cos_turn, ← cos_turn (2 * _), turn_arctan_tan hF]
  have hsF : Real.sin F = 2 * T / (1 + T ^ 2) := by
    rw [← sin_two_arctan, hT, ← sin_turn, ← sin_turn (2 * _), turn_arctan_tan hF]
  have hT2 : 0 < 1 + T ^ 2 := by positivity
  -- the true anomaly
  have hden : 0 < 1 + (p * T) ^ 2 := by positivity
  have hcn : Real.cos nu = (1 - (p * T) ^ 2) / (1 + (p * T) ^ 2) := by
    have h1 := h.along
    rw [hcF] at h1
    field_simp at h1 ⊢
    have e1 : (1 - e) * (Real.cos nu * (1 + (p * T) ^ 2) - (1 - (p * T) ^ 2)) = 0 := by
      linear_combination h1 + (Real.cos nu * T ^ 2 + T ^ 2) * hp2
    rcases mul_eq_zero.mp e1 with c | c
    · linarith
    · linarith
  have hsn : Real.sin nu = 2 * (p * T) / (1 + (p * T) ^ 2) := by
    have h1 := h.across
    rw [hcF, hsF, hw1] at h1
    field_simp at h1 ⊢
    have e1 : (1 - e) * (Real.sin nu * (1 + (p * T) ^ 2) - 2 * (p * T)) = 0 := by
      linear_combination h1 + (Real.sin nu * T ^ 2) * hp2
    rcases mul_eq_zero.mp e1 with c | c
    · linarith
    · linarith
  -- the new half-angle
  obtain ⟨x, hx⟩ : ∃ x, x = p / p' := ⟨_, rfl⟩
  have hx0 : 0 < x := by rw [hx]; positivity
  have hxp : x * p' = p := by rw [hx]; field_simp
  obtain ⟨z, hz⟩ : ∃ z : ℤ, F = 2 * Real.arctan T + z * (2 * Real.pi) := by
    obtain ⟨z, hz⟩ := Real.Angle.angle_eq_iff_two_pi_dvd_sub.mp (Real.Angle.cos_sin_inj (θ := F) (ψ := 2 * Real.arctan T) (by rw [hcF, cos_two_arctan]) (by rw [hsF, sin_two_arctan]))
    exact ⟨z, by linarith⟩
  refine ⟨2 * Real.arctan (x * T) + z * (2 * Real.pi), ?_, ?_⟩
  · have hX2 : 0 < 1 + (x * T) ^ 2 := by positivity
    constructor
    · rw [Real.cos_add_int_mul_two_pi, cos_two_arctan, hcn]
      field_simp
      rw [← hxp]
      linear_combination (-2 * x ^ 2 * T ^ 2) * hp2'
    · rw [Real.cos_add_int_mul_two_pi, Real.sin_add_int_mul_two_pi, cos_two_arctan, sin_two_arctan, hsn, hw1']
      field_simp
      rw [← hxp]
      linear_combination (-x ^ 3 * T ^ 3 * p') * hp2'
  · have e1 : |Real.arctan (T * Real.exp (Real.log x)) - Real.arctan T| ≤ |Real.log x| / 2 := arctan_rel T (Real.log x)
    rw [Real.exp_log hx0, mul_comm T x] at e1
    have hx2 : x ^ 2 * ((1 + e') * (1 - e)) = (1 + e) * (1 - e') := by
      rw [hx, div_pow, div_mul_eq_mul_div, div_eq_iff (by positivity)]
      linear_combination (1 + e') * hp2 - (1 + e) * hp2'
    have hdx : |x - 1| ≤ 2 * |e' - e| / (1 - e) := by
      rw [le_div_iff₀ hq]
      have h1 : (x - 1) * ((x + 1) * ((1 + e') * (1 - e))) = 2 * (e - e') := by linear_combination hx2
      have h2 : |x - 1| * ((x + 1) * ((1 + e') * (1 - e))) = 2 * |e' - e| := by
        rw [← abs_of_pos (show 0 < (x + 1) * ((1 + e') * (1 - e)) by positivity), ← abs_mul, h1, abs_mul, abs_two, abs_sub_comm]
      rw [← h2]
      refine mul_le_mul_of_nonneg_left ?_ (abs_nonneg _)
      have h3 : 1 ≤ (x + 1) * (1 + e') := by nlinarith [mul_nonneg hx0.le he0']
      have := mul_le_mul_of_nonneg_right h3 hq.le
      linarith
    have hsmall : 2 * |e' - e| / (1 - e) ≤ 1 / 100 := by rw [div_le_iff₀ hq]; linarith
    have hx1 := abs_le.mp (hdx.trans hsmall)
    have hlog : |Real.log x| ≤ 2 * |x - 1| := by
      have l1 := Real.log_le_sub_one_of_pos hx0
      have l2 := Real.log_le_sub_one_of_pos (inv_pos.mpr hx0)
      rw [Real.log_inv] at l2
      have l3 : x⁻¹ - 1 ≤ 2 * |x - 1| := by
        have : x⁻¹ - 1 = (1 - x) / x := by field_simp
        rw [this, div_le_iff₀ hx0]
        have m1 := neg_abs_le (x - 1)
        have m2 := mul_le_mul_of_nonneg_left (show 1 ≤ 2 * x by linarith) (abs_nonneg (x - 1))
        linarith
      have := le_abs_self (x - 1)
      have := abs_nonneg (x - 1)
      rw [abs_le]
      constructor <;> linarith
    rw [show 2 * Real.arctan (x * T) + z * (2 * Real.pi) - F = 2 * (Real.arctan (x * T) - Real.arctan T) by rw [hz]; ring, abs_mul, abs_two]
    rw [show 4 * |e' - e| / (1 - e) = 2 * (2 * |e' - e| / (1 - e)) by ring]
    linarith

/-! ## Two nearby ellipses -/

/-- a plane does not change when its angles change by whole turns -/
theorem ellipseState_turns (k : Kep ℝ) (z1 z2 z3 : ℤ) (N F : ℝ) :
    ellipseState { k with i := k.i + z1 * (2 * Real.pi), om := k.om + z2 * (2 * Real.pi), OM := k.OM + z3 * (2 * Real.pi) } N F = ellipseState k N F := by
  simp only [ellipseState, Kep.px, Kep.py, Kep.pz, Kep.qx, Kep.qy, Kep.qz, Real.cos_add_int_mul_two_pi, Real.sin_add_int_mul_two_pi]

/-- what is assumed of two nearby ellipses: `D` bounds the sum of the differences of the three angles of the planes -/
structure NearEllipse (k k' : Kep ℝ) (α β D : ℝ) : Prop where
  shape : NearShape k.a k.e k'.a k'.e α β
  plane : ∃ z1 z2 z3 : ℤ, |k'.OM - (k.OM + z3 * (2 * Real.pi))| + |k'.i - (k.i + z1 * (2 * Real.pi))| + |k'.om - (k.om + z2 * (2 * Real.pi))| ≤ D

/-- the states on two nearby ellipses -/
theorem near_ellipse {mu : ℝ} (hmu : 0 < mu) {k k' : Kep ℝ} {α β D : ℝ} (h : NearEllipse k k' α β D) {F F' b : ℝ} {z : ℤ}
    (hb : |meanOf k'.e F' - (meanOf k'.e F + z * (2 * Real.pi))| ≤ b) :
    vlen ((ellipseState k' √(mu / k'.a ^ 3) F').r - (ellipseState k √(mu / k.a ^ 3) F).r) ≤ k.a / (1 - k.e) * (102 / 100 * b + 13 * D + 3 * α + 4 * β) ∧
    vlen ((ellipseState k' √(mu / k'.a ^ 3) F').v - (ellipseState k √(mu / k.a ^ 3) F).v) ≤
      k.a * √(mu / k.a ^ 3) / (1 - k.e) ^ 2 * (104 / 100 * b + 13 * D + 3 * α + 5 * β) := by
  obtain ⟨S, z1, z2, z3, hD⟩ := h
  have hb0 : 0 ≤ b := (abs_nonneg _).trans hb
  have hD0 : 0 ≤ D := le_trans (by positivity) hD
  have hq := S.q; have ha := S.a_pos; have ha' := S.a_pos'; have hq' : 0 < 1 - k'.e := by linarith [S.e1']
  obtain ⟨n1, -⟩ := Orbit.motion_pos hmu ha
  obtain ⟨n1', -⟩ := Orbit.motion_pos hmu ha'
  -- along the new ellipse
  obtain ⟨p1, p2⟩ := Orbit.points_close hmu ha' S.e0' S.e1' false hb
  change vlen ((ellipseState k' _ F').r - (ellipseState k' _ F).r) ≤ _ at p1
  change vlen ((ellipseState k' _ F').v - (ellipseState k' _ F).v) ≤ _ at p2
  -- into the old plane
  obtain ⟨k1, hk1⟩ : ∃ k1 : Kep ℝ, k1 = { k' with i := k.i + z1 * (2 * Real.pi), om := k.om + z2 * (2 * Real.pi), OM := k.OM + z3 * (2 * Real.pi) } := ⟨_, rfl⟩
  obtain ⟨t1, t2⟩ := Orbit.WideDeg.turned k' k1 n1' F ha' S.e0' S.e1' (by rw [hk1]) (by rw [hk1]) (D := D) (by rw [hk1]; exact hD)
  have hk1s : ∀ N, ellipseState k1 N F = ellipseState { k' with i := k.i, om := k.om, OM := k.OM } N F := fun N => by
    rw [hk1, ← ellipseState_turns { k' with i := k.i, om := k.om, OM := k.OM } z1 z2 z3]
  rw [hk1s] at t1 t2
  -- to the old shape
  obtain ⟨r1, r2⟩ := reshaped hmu (k := k) (k' := { k' with i := k.i, om := k.om, OM := k.OM }) S rfl rfl rfl F
  obtain ⟨-, sp⟩ := S.speed hmu
  have hquot := S.quot
  obtain ⟨Q, hQ⟩ : ∃ Q, Q = k.a / (1 - k.e) := ⟨_, rfl⟩
  have hQ0 : 0 < Q := by rw [hQ]; positivity
  have hV := S.quot2 hmu
  constructor
  · refine (Orbit.vlen_via _ _ _).trans ((add_le_add p1 ((Orbit.vlen_via _ _ _).trans (add_le_add t1 r1))).trans ?_)
    have e1 := mul_le_mul_of_nonneg_right hquot hb0
    have e2 := mul_le_mul_of_nonneg_right hquot (show 0 ≤ 12 * D by linarith)
    rw [← hQ] at e1 e2 ⊢
    rw [show k'.a * b / (1 - k'.e) = k'.a / (1 - k'.e) * b by ring]
    have := mul_nonneg hQ0.le hD0
    linarith
  · refine (Orbit.vlen_via _ _ _).trans ((add_le_add p2 ((Orbit.vlen_via _ _ _).trans (add_le_add t2 r2))).trans ?_)
    have e1 := mul_le_mul_of_nonneg_right hV hb0
    have e2 := mul_le_mul_of_nonneg_right hV (show 0 ≤ 12 * D by linarith)
    have e3 : 0 ≤ k.a * √(mu / k.a ^ 3) / (1 - k.e) ^ 2 * D := by positivity
    rw [show k'.a * √(mu / k'.a ^ 3) * b / (1 - k'.e) ^ 2 = k'.a * √(mu / k'.a ^ 3) / (1 - k'.e) ^ 2 * b by ring]
    linarith

/-! ## C114 -/

section
variable {k k' : Kep ℝ} (ha : 0 < k.a) (he0 : 0 < k.e) (he1 : k.e < 1) (hi0 : 0 < Real.sin k.i) (hs : 10 ^ 6 * (R.u / (1 - k.e)) ≤ k.e * Real.sin k.i)
  (h : Elements R k k' (R.u / (1 - k.e)))
include he0 he1 hi0 hs h

include ha in
/-- the ellipse of the computed elements is close to that of the state -/
theorem Elements.near : NearEllipse k k' (96 * (R.u / (1 - k.e))) (250 * R.u)
    (angTol (120 * (R.u / (1 - k.e)) / Real.sin k.i) k.OM + angTol (140 * (R.u / (1 - k.e))) k.i + angTol (4000 * (R.u / (1 - k.e)) / (k.e * Real.sin k.i)) k.om) := by
  have hu0 := R.u_nonneg
  have hq : 0 < 1 - k.e := by linarith
  have hei : 0 < k.e * Real.sin k.i := mul_pos he0 hi0
  have hsi1 := Real.sin_le_one k.i
  have hei1 : k.e * Real.sin k.i ≤ k.e := mul_le_of_le_one_right he0.le hsi1
  have hei2 : k.e * Real.sin k.i ≤ Real.sin k.i := mul_le_of_le_one_left hi0.le he1.le
  have htu : R.u ≤ R.u / (1 - k.e) := by rw [le_div_iff₀ hq]; nlinarith
  obtain ⟨t, ht⟩ : ∃ t, t = R.u / (1 - k.e) := ⟨_, rfl⟩
  have hut : R.u = t * (1 - k.e) := by rw [ht, div_mul_cancel₀ _ hq.ne']
  rw [← ht] at hs h htu ⊢
  have ht0 : 0 ≤ t := by linarith
  norm_num at hs
  have hue : R.u ≤ 1 / 1000000 * (1 - k.e) := by
    rw [hut]; exact mul_le_mul_of_nonneg_right (by linarith) hq.le
  have hτ : t / (k.e * Real.sin k.i) ≤ 1 / 1000000 := by rw [div_le_iff₀ hei]; linarith
  have hτ0 : 0 ≤ t / (k.e * Real.sin k.i) := by positivity
  have hσ : t / Real.sin k.i ≤ 1 / 1000000 := by rw [div_le_iff₀ hi0]; linarith
  have hσ0 : 0 ≤ t / Real.sin k.i := by positivity
  have htσ : t ≤ t / Real.sin k.i := by rw [le_div_iff₀ hi0]; exact mul_le_of_le_one_right ht0 hsi1
  have htτ : t ≤ t / (k.e * Real.sin k.i) := by rw [le_div_iff₀ hei]; exact mul_le_of_le_one_right ht0 (by linarith)
  obtain ⟨z1, c1⟩ := AngleDist.close (R := R) le_rfl (by norm_num; linarith) (by linarith) (by linarith) h.i
  have hO := h.OM
  rw [mul_div_assoc, mul_div_assoc] at hO
  obtain ⟨z3, c3⟩ := AngleDist.close (R := R) (by positivity) (by nlinarith) (by linarith) (by linarith) hO
  have ho := h.om
  have huu : 95 * R.u / (k.e * Real.sin k.i) ≤ 95 * (t / (k.e * Real.sin k.i)) := by rw [mul_div_assoc]; exact mul_le_mul_of_nonneg_left (div_le_div_of_nonneg_right htu hei.le) (by norm_num)
  have huu0 : 0 ≤ 95 * R.u / (k.e * Real.sin k.i) := by positivity
  rw [mul_div_assoc 4000] at ho
  obtain ⟨z2, c2⟩ := AngleDist.close (R := R) huu0 (by
    have := pow_le_pow_left₀ huu0 huu 2
    nlinarith) (by linarith) (by linarith) ho
  rw [← mul_div_assoc] at c2 c3
  refine ⟨⟨ha, he0.le, he1, ?_, h.a, h.e, by linarith, by linarith⟩, z1, z2, z3, by linarith⟩
  have := (abs_le.mp h.e).1
  linarith

omit hi0 in
/-- so is the point on it -/
theorem Elements.anom {F : ℝ} (hF : Orbit.SamePoint k.e k.nu F) : ∃ F', Orbit.SamePoint k'.e k'.nu F' ∧
    |meanOf k'.e F' - meanOf k'.e F| ≤ 2000 * (R.u / (1 - k.e)) + 3 * √((1 + k.e) / (1 - k.e)) * angTol (2000 * R.u / k.e) k.nu := by
  have hu0 := R.u_nonneg
  have hq : 0 < 1 - k.e := by linarith
  have hsi1 := Real.sin_le_one k.i
  have hei1 : k.e * Real.sin k.i ≤ k.e := mul_le_of_le_one_right he0.le hsi1
  have htu : R.u ≤ R.u / (1 - k.e) := by rw [le_div_iff₀ hq]; nlinarith
  have hde := h.e
  have hnu := h.nu
  obtain ⟨t, ht⟩ : ∃ t, t = R.u / (1 - k.e) := ⟨_, rfl⟩
  have hut : R.u = t * (1 - k.e) := by rw [ht, div_mul_cancel₀ _ hq.ne']
  rw [← ht] at hs htu ⊢
  have ht0 : 0 ≤ t := by linarith
  norm_num at hs
  have hue : R.u ≤ 1 / 1000000 * (1 - k.e) := by
    rw [hut]; exact mul_le_mul_of_nonneg_right (by linarith) hq.le
  have hde' := abs_le.mp hde
  have he0' : 0 ≤ k'.e := by linarith
  have he1' : k'.e < 1 := by linarith
  obtain ⟨G, hG, hGF⟩ := same_true he0.le he1 he0' he1' (by linarith) hF
  have hGF' : |G - F| ≤ 1000 * t := by
    refine hGF.trans ?_
    rw [ht, mul_div_assoc', div_le_div_iff_of_pos_right hq]
    linarith
  have hσ : R.u / k.e ≤ 1 / 1000000 := by rw [div_le_iff₀ he0]; linarith
  have hσ0 : 0 ≤ R.u / k.e := by positivity
  have huσ : R.u ≤ R.u / k.e := by rw [le_div_iff₀ he0]; exact mul_le_of_le_one_right hu0 he1.le
  rw [mul_div_assoc, mul_div_assoc] at hnu
  obtain ⟨z, hz⟩ := AngleDist.close (R := R) (by positivity) (by nlinarith) (by linarith) (by linarith) hnu
  rw [← mul_div_assoc] at hz
  obtain ⟨M', ⟨F', e1, e2⟩, e3⟩ := Orbit.WideDeg.hasMean_lip .tru he0' he1' (x := k.nu) (M := G - k'.e * Real.sin G) ⟨G, hG, rfl⟩ (k'.nu - z * (2 * Real.pi))
  have e1' := samePoint_turn z e1
  rw [sub_add_cancel] at e1'
  refine ⟨F', e1', ?_⟩
  have hT0 := AngleDist.tol_nonneg (ε := 2000 * R.u / k.e) (by positivity) k.nu
  rw [show k'.nu - z * (2 * Real.pi) - k.nu = k'.nu - (k.nu + z * (2 * Real.pi)) by ring] at e3
  have hcond : anomCond k'.e ≤ 3 / 2 * √((1 + k.e) / (1 - k.e)) := by
    rw [anomCond, abs_of_nonneg he0', Real.sqrt_le_left (by positivity), mul_pow, Real.sq_sqrt (by positivity), mul_div_assoc', div_le_div_iff₀ (by linarith) hq]
    nlinarith
  have e4 := mul_le_mul hcond hz (abs_nonneg _) (by positivity)
  rw [meanOf_eli _ he1', meanOf_eli _ he1', e2]
  have e5 : |G - k'.e * Real.sin G - (F - k'.e * Real.sin F)| ≤ 2000 * t := by
    rw [show G - k'.e * Real.sin G - (F - k'.e * Real.sin F) = (G - F) - k'.e * (Real.sin G - Real.sin F) by ring]
    refine (abs_sub _ _).trans ?_
    rw [abs_mul, abs_of_nonneg he0']
    have := mul_le_mul he1'.le (Real.abs_sin_sub_sin_le G F) (abs_nonneg _) (by norm_num)
    linarith
  have e6 := abs_sub_le M' (G - k'.e * Real.sin G) (F - k'.e * Real.sin F)
  linarith
end

end CartKep

open CartKep in
/-- C114: let the state `c` move on an ellipse, with elements `k`, that is neither circular nor equatorial: `3e-9 ≤ e`, `t = u / (1 - e)`, `10^6 t ≤ e sin i` and
`200 t + 1e-16 ≤ sin² i`.  In every arithmetic that rounds to nearest, `cart_to_kep` followed by `kep_to_cart` returns a state whose position and velocity differ from the given ones by at most
`a / (1 - e)` and `a n / (1 - e)²` times `13 (T_Ω + T_i + T_ω) + 4 sqrt ((1 + e) / (1 - e)) T_ν + 5000 t`, where each `T` is `8 ε / (|sin θ| + sqrt ε)` for the errors
`ε = 120 t / sin i`, `140 t`, `4000 t / (e sin i)`, `2000 u / e` of the four cosines: proportional to the rounding error away from the nodes and apses, to its square
root there. -/
theorem c114 (hR : Nearest R) (g : Nat → CtkGarbage (RF R)) (g' : Nat → RF R) {mu : ℝ} {k : Kep ℝ} {c : Cart ℝ} (hmu : 0 < mu) (hd : DescribesOrbit mu k c) (ha : 0 < k.a)
    (he0 : 3 / 10 ^ 9 ≤ k.e) (he1 : k.e < 1) (hi0 : 0 < Real.sin k.i) (hs : 10 ^ 6 * (R.u / (1 - k.e)) ≤ k.e * Real.sin k.i)
    (hi : 200 * (R.u / (1 - k.e)) + 1 / 10 ^ 16 ≤ Real.sin k.i ^ 2) :
    ∃ (kep : Kep (RF R)) (c' : Cart ℝ), (cart_to_kep g (.sc (RF.num R mu)) false (.vec .f64 (c.num R))).1 = .ok (.vec .f64 kep) ∧
      (kep_to_cart g' (.sc (RF.num R mu)) false (.vec .f64 kep)).1 = .ok (.vec .f64 (c'.num R)) ∧
      vlen (c'.r - c.r) ≤ k.a / (1 - k.e) *
        (13 * (angTol (120 * (R.u / (1 - k.e)) / Real.sin k.i) k.OM + angTol (140 * (R.u / (1 - k.e))) k.i + angTol (4000 * (R.u / (1 - k.e)) / (k.e * Real.sin k.i)) k.om) +
          4 * √((1 + k.e) / (1 - k.e)) * angTol (2000 * R.u / k.e) k.nu + 5000 * (R.u / (1 - k.e))) ∧
      vlen (c'.v - c.v) ≤ k.a * √(mu / k.a ^ 3) / (1 - k.e) ^ 2 *
        (13 * (angTol (120 * (R.u / (1 - k.e)) / Real.sin k.i) k.OM + angTol (140 * (R.u / (1 - k.e))) k.i + angTol (4000 * (R.u / (1 - k.e)) / (k.e * Real.sin k.i)) k.om) +
          4 * √((1 + k.e) / (1 - k.e)) * angTol (2000 * R.u / k.e) k.nu + 5000 * (R.u / (1 - k.e))) := by
  have hu0 := R.u_nonneg
  have hep : 0 < k.e := lt_of_lt_of_le (by norm_num) he0
  have hq : 0 < 1 - k.e := by linarith
  obtain ⟨k', hk', E⟩ := elements hR g hmu hd ha he0 he1 hi0 hs hi
  have hN := E.near ha hep he1 hi0 hs
  obtain ⟨F, hF⟩ : ∃ F, Orbit.SamePoint k.e k.nu F := ⟨_, Orbit.samePoint_eccOf hep.le he1⟩
  obtain ⟨F', hF', hb⟩ := E.anom hep he1 hs hF
  have hcos := Real.neg_one_le_cos k.nu
  have hphys : Physical mu k := ⟨hmu, ha, hep.le, by nlinarith⟩
  have hc : c = ellipseState k √(mu / k.a ^ 3) F := by
    rw [Orbit.describes_unique hphys.adm hd]
    exact Orbit.state_point hmu ha hep.le he1 false (k := k) (nu := k.nu) hF
  rw [show meanOf k'.e F' - meanOf k'.e F = meanOf k'.e F' - (meanOf k'.e F + (0 : ℤ) * (2 * Real.pi)) by rw [Int.cast_zero, zero_mul, add_zero]] at hb
  obtain ⟨q1, q2⟩ := near_ellipse hmu hN hb
  obtain ⟨S, -⟩ := hN
  have htu : R.u ≤ R.u / (1 - k.e) := by rw [le_div_iff₀ hq]; nlinarith
  obtain ⟨t, ht⟩ : ∃ t, t = R.u / (1 - k.e) := ⟨_, rfl⟩
  have hut : R.u = t * (1 - k.e) := by rw [ht, div_mul_cancel₀ _ hq.ne']
  rw [← ht] at q1 q2 htu hs ⊢
  have hei : k.e * Real.sin k.i ≤ 1 := mul_le_one₀ he1.le hi0.le (Real.sin_le_one _)
  have ht0 : 0 ≤ t := by linarith
  have hwide : 300 * R.u ≤ 1 - k'.e := by
    have h1 := S.q_ge
    have h2 : R.u ≤ 1 / 10 ^ 6 * (1 - k.e) := by
      rw [hut]; exact mul_le_mul_of_nonneg_right (by norm_num at hs ⊢; linarith) hq.le
    norm_num at h2
    linarith
  obtain ⟨c', w1, w2, w3⟩ := Orbit.cart_err_wide (R := R) ⟨g' 0, (g 0), k'.num R, g' 0, g' 0, g' 0⟩ hmu S.a_pos' S.e0' S.e1' hwide hF'
  refine ⟨k'.num R, c', hk', ?_, ?_, ?_⟩
  · rw [← w1]; rfl
  · rw [hc]
    refine (Orbit.vlen_via _ _ _).trans ((add_le_add w2 q1).trans ?_)
    have e1 := mul_le_mul S.quot (show 600 * (1 + k'.e) * R.u ≤ 1200 * t by have := mul_le_mul_of_nonneg_right (show 1 + k'.e ≤ 2 by linarith [S.e1']) hu0; linarith)
      (by have := S.e0'; positivity) (by positivity)
    have e2 : 0 ≤ √((1 + k.e) / (1 - k.e)) * angTol (2000 * R.u / k.e) k.nu := mul_nonneg (Real.sqrt_nonneg _) (AngleDist.tol_nonneg (by positivity) _)
    refine (add_le_add_left e1 _).trans ?_
    rw [show 102 / 100 * (k.a / (1 - k.e)) * (1200 * t) = k.a / (1 - k.e) * (1224 * t) by ring, ← mul_add]
    refine mul_le_mul_of_nonneg_left ?_ (by positivity)
    linarith
  · rw [hc]
    refine (Orbit.vlen_via _ _ _).trans ((add_le_add w3 q2).trans ?_)
    have e1 := mul_le_mul_of_nonneg_right (S.quot2 hmu) (show 0 ≤ 400 * R.u by linarith)
    have e2 : 0 ≤ √((1 + k.e) / (1 - k.e)) * angTol (2000 * R.u / k.e) k.nu := mul_nonneg (Real.sqrt_nonneg _) (AngleDist.tol_nonneg (by positivity) _)
    refine (add_le_add_left e1 _).trans ?_
    rw [show 104 / 100 * (k.a * √(mu / k.a ^ 3) / (1 - k.e) ^ 2) * (400 * R.u) = k.a * √(mu / k.a ^ 3) / (1 - k.e) ^ 2 * (416 * R.u) by ring, ← mul_add]
    refine mul_le_mul_of_nonneg_left ?_ (by positivity)
    linarith

open CartKep in
/-- C114, with one bound for all directions: the errors of the round trip are at most `a / (1 - e)` and `a n / (1 - e)²` times
`11000 sqrt ((1 + e) / (1 - e)) sqrt (u / ((1 - e) e sin i))`. -/
theorem c114_sqrt (hR : Nearest R) (g : Nat → CtkGarbage (RF R)) (g' : Nat → RF R) {mu : ℝ} {k : Kep ℝ} {c : Cart ℝ} (hmu : 0 < mu) (hd : DescribesOrbit mu k c) (ha : 0 < k.a)
    (he0 : 3 / 10 ^ 9 ≤ k.e) (he1 : k.e < 1) (hi0 : 0 < Real.sin k.i) (hs : 10 ^ 6 * (R.u / (1 - k.e)) ≤ k.e * Real.sin k.i)
    (hi : 200 * (R.u / (1 - k.e)) + 1 / 10 ^ 16 ≤ Real.sin k.i ^ 2) :
    ∃ (kep : Kep (RF R)) (c' : Cart ℝ), (cart_to_kep g (.sc (RF.num R mu)) false (.vec .f64 (c.num R))).1 = .ok (.vec .f64 kep) ∧
      (kep_to_cart g' (.sc (RF.num R mu)) false (.vec .f64 kep)).1 = .ok (.vec .f64 (c'.num R)) ∧
      vlen (c'.r - c.r) ≤ k.a / (1 - k.e) * (11000 * √((1 + k.e) / (1 - k.e)) * √(R.u / (1 - k.e) / (k.e * Real.sin k.i))) ∧
      vlen (c'.v - c.v) ≤ k.a * √(mu / k.a ^ 3) / (1 - k.e) ^ 2 * (11000 * √((1 + k.e) / (1 - k.e)) * √(R.u / (1 - k.e) / (k.e * Real.sin k.i))) := by
  obtain ⟨kep, c', h1, h2, h3, h4⟩ := c114 hR g g' hmu hd ha he0 he1 hi0 hs hi
  have hu0 := R.u_nonneg
  have hep : 0 < k.e := lt_of_lt_of_le (by norm_num) he0
  have hq : 0 < 1 - k.e := by linarith
  have hei : 0 < k.e * Real.sin k.i := mul_pos hep hi0
  have hsi1 := Real.sin_le_one k.i
  have htu : R.u ≤ R.u / (1 - k.e) := by rw [le_div_iff₀ hq]; nlinarith
  have key : 13 * (angTol (120 * (R.u / (1 - k.e)) / Real.sin k.i) k.OM + angTol (140 * (R.u / (1 - k.e))) k.i + angTol (4000 * (R.u / (1 - k.e)) / (k.e * Real.sin k.i)) k.om) +
      4 * √((1 + k.e) / (1 - k.e)) * angTol (2000 * R.u / k.e) k.nu + 5000 * (R.u / (1 - k.e)) ≤ 11000 * √((1 + k.e) / (1 - k.e)) * √(R.u / (1 - k.e) / (k.e * Real.sin k.i)) := by
    obtain ⟨t, ht⟩ : ∃ t, t = R.u / (1 - k.e) := ⟨_, rfl⟩
    rw [← ht] at hs htu ⊢
    have ht0 : 0 ≤ t := by linarith
    obtain ⟨τ, hτ⟩ : ∃ τ, τ = t / (k.e * Real.sin k.i) := ⟨_, rfl⟩
    have hτ0 : 0 ≤ τ := by rw [hτ]; positivity
    have hτ1 : τ ≤ 1 / 10 ^ 6 := by rw [hτ, div_le_iff₀ hei]; linarith
    have htτ : t ≤ τ := by rw [hτ, le_div_iff₀ hei]; exact mul_le_of_le_one_right ht0 (mul_le_one₀ he1.le hi0.le hsi1)
    have hσ : t / Real.sin k.i ≤ τ := by rw [hτ]; exact div_le_div_of_nonneg_left ht0 hei (mul_le_of_le_one_left hi0.le he1.le)
    have hν : R.u / k.e ≤ τ := by
      rw [hτ]; exact (div_le_div_of_nonneg_right htu hep.le).trans (div_le_div_of_nonneg_left ht0 hei (mul_le_of_le_one_right hep.le hsi1))
    rw [← hτ]
    have hr0 := Real.sqrt_nonneg τ
    have sq : ∀ {ε θ C c : ℝ}, 0 ≤ ε → ε ≤ C * τ → 0 ≤ c → C ≤ c ^ 2 → angTol ε θ ≤ 8 * (c * √τ) := by
      intro ε θ C c a b d f
      refine (AngleDist.tol_le_sqrt a θ).trans ?_
      refine mul_le_mul_of_nonneg_left ?_ (by norm_num)
      rw [Real.sqrt_le_left (by positivity), mul_pow, Real.sq_sqrt hτ0]
      exact b.trans (mul_le_mul_of_nonneg_right f hτ0)
    have a1 := sq (ε := 120 * t / Real.sin k.i) (θ := k.OM) (C := 120) (c := 11) (by positivity) (by rw [mul_div_assoc]; linarith) (by norm_num) (by norm_num)
    have a2 := sq (ε := 140 * t) (θ := k.i) (C := 140) (c := 12) (by positivity) (by linarith) (by norm_num) (by norm_num)
    have a3 := sq (ε := 4000 * t / (k.e * Real.sin k.i)) (θ := k.om) (C := 4000) (c := 64) (by positivity) (by rw [mul_div_assoc, ← hτ]) (by norm_num) (by norm_num)
    have a4 := sq (ε := 2000 * R.u / k.e) (θ := k.nu) (C := 2000) (c := 45) (by positivity) (by rw [mul_div_assoc]; linarith) (by norm_num) (by norm_num)
    have hc1 : 1 ≤ √((1 + k.e) / (1 - k.e)) := by
      rw [Real.one_le_sqrt, le_div_iff₀ hq]; linarith
    have a5 := mul_le_mul_of_nonneg_left a4 (show 0 ≤ √((1 + k.e) / (1 - k.e)) by linarith)
    have a6 := mul_le_mul_of_nonneg_right hc1 hr0
    have a7 : t ≤ 1 / 1000 * √τ := by
      have e1 := Real.mul_self_sqrt hτ0
      have e2 : √τ ≤ 1 / 1000 := by rw [Real.sqrt_le_left (by norm_num)]; norm_num at hτ1 ⊢; exact hτ1
      have := mul_le_mul_of_nonneg_right e2 hr0
      linarith
    linarith
  have hn := Real.sqrt_nonneg (mu / k.a ^ 3)
  exact ⟨kep, c', h1, h2, h3.trans (mul_le_mul_of_nonneg_left key (by positivity)), h4.trans (mul_le_mul_of_nonneg_left key (by positivity))⟩

open CartKep in
/-- C114 in double precision, for eccentricities between 0.1 and 0.9, `sin i ≥ 0.1` and sines of node, argument of periapsis and true anomaly of at least 0.1 in absolute value: the
position comes back with an error of at most `5e-7 a / (1 - e)`, the velocity with one of at most `5e-7 a n / (1 - e)²`. -/
theorem c114_binary64 (g : Nat → CtkGarbage (RF Binary.binary64)) (g' : Nat → RF Binary.binary64) {mu : ℝ} {k : Kep ℝ} {c : Cart ℝ} (hmu : 0 < mu) (hd : DescribesOrbit mu k c)
    (ha : 0 < k.a) (he0 : 1 / 10 ≤ k.e) (he1 : k.e ≤ 9 / 10) (hi : 1 / 10 ≤ Real.sin k.i) (hOM : 1 / 10 ≤ |Real.sin k.OM|) (hom : 1 / 10 ≤ |Real.sin k.om|)
    (hnu : 1 / 10 ≤ |Real.sin k.nu|) :
    ∃ (kep : Kep (RF Binary.binary64)) (c' : Cart ℝ), (cart_to_kep g (.sc (RF.num _ mu)) false (.vec .f64 (c.num _))).1 = .ok (.vec .f64 kep) ∧
      (kep_to_cart g' (.sc (RF.num _ mu)) false (.vec .f64 kep)).1 = .ok (.vec .f64 (c'.num _)) ∧
      vlen (c'.r - c.r) ≤ k.a / (1 - k.e) * (5 / 10 ^ 7) ∧ vlen (c'.v - c.v) ≤ k.a * √(mu / k.a ^ 3) / (1 - k.e) ^ 2 * (5 / 10 ^ 7) := by
  have hu : Binary.binary64.u = (1 / 2) ^ 53 := rfl
  have hu0 := Binary.binary64.u_nonneg
  have hu1 : Binary.binary64.u ≤ 1112 / 10 ^ 19 := by rw [hu]; norm_num
  have hq : (1 / 10 : ℝ) ≤ 1 - k.e := by linarith
  have hq0 : 0 < 1 - k.e := by linarith
  have hei : (1 / 100 : ℝ) ≤ k.e * Real.sin k.i := by have := mul_le_mul he0 hi (by norm_num) (by linarith); linarith
  have ht1 : Binary.binary64.u / (1 - k.e) ≤ 1112 / 10 ^ 18 := by
    rw [div_le_iff₀ hq0]
    have := mul_le_mul_of_nonneg_left hq (show (0 : ℝ) ≤ 1112 / 10 ^ 18 by norm_num)
    norm_num at hu1 this ⊢
    linarith
  have ht0 : 0 ≤ Binary.binary64.u / (1 - k.e) := div_nonneg hu0 hq0.le
  have hi2 := pow_le_pow_left₀ (by norm_num) hi 2
  obtain ⟨kep, c', h1, h2, h3, h4⟩ := c114 Binary.nearest g g' hmu hd ha (by norm_num at he0 ⊢; linarith) (by linarith) (by linarith)
    (by norm_num at ht1 ⊢; linarith) (by norm_num at ht1 hi2 ⊢; linarith)
  have key : 13 * (angTol (120 * (Binary.binary64.u / (1 - k.e)) / Real.sin k.i) k.OM + angTol (140 * (Binary.binary64.u / (1 - k.e))) k.i +
      angTol (4000 * (Binary.binary64.u / (1 - k.e)) / (k.e * Real.sin k.i)) k.om) +
      4 * √((1 + k.e) / (1 - k.e)) * angTol (2000 * Binary.binary64.u / k.e) k.nu + 5000 * (Binary.binary64.u / (1 - k.e)) ≤ 5 / 10 ^ 7 := by
    clear h3 h4 hu
    generalize Binary.binary64.u / (1 - k.e) = t at *
    generalize Binary.binary64.u = u at *
    have gen : ∀ {ε θ B : ℝ}, 0 ≤ ε → ε ≤ B → 1 / 10 ≤ |Real.sin θ| → angTol ε θ ≤ 80 * B := by
      intro ε θ B a b d
      refine (AngleDist.tol_le_sin a (by norm_num) d).trans ?_
      linarith
    have hi0 : 0 < Real.sin k.i := by linarith
    have hep : 0 < k.e := by linarith
    have a1 := gen (ε := 120 * t / Real.sin k.i) (θ := k.OM) (B := 1200 * t) (by positivity) (by
      rw [div_le_iff₀ hi0]; have := mul_le_mul_of_nonneg_left hi (show 0 ≤ 1200 * t by linarith); linarith) hOM
    have a2 := gen (ε := 140 * t) (θ := k.i) (B := 140 * t) (by positivity) le_rfl (hi.trans (le_abs_self _))
    have a3 := gen (ε := 4000 * t / (k.e * Real.sin k.i)) (θ := k.om) (B := 400000 * t) (by positivity) (by
      rw [div_le_iff₀ (by positivity)]; have := mul_le_mul_of_nonneg_left hei (show 0 ≤ 400000 * t by linarith); linarith) hom
    have a4 := gen (ε := 2000 * u / k.e) (θ := k.nu) (B := 20000 * u) (by positivity) (by
      rw [div_le_iff₀ hep]; have := mul_le_mul_of_nonneg_left he0 (show 0 ≤ 20000 * u by linarith); linarith) hnu
    have hc : √((1 + k.e) / (1 - k.e)) ≤ 5 := by
      rw [Real.sqrt_le_left (by norm_num), div_le_iff₀ hq0]; linarith
    have a5 := mul_le_mul hc a4 (AngleDist.tol_nonneg (by positivity) _) (by norm_num)
    norm_num at ht1 hu1 ⊢
    linarith
  have hn := Real.sqrt_nonneg (mu / k.a ^ 3)
  exact ⟨kep, c', h1, h2, h3.trans (mul_le_mul_of_nonneg_left key (by positivity)), h4.trans (mul_le_mul_of_nonneg_left key (by positivity))⟩

/-- a case of `c114_binary64`: the state on an ellipse with e = 1/2 whose four angles are 30 degrees -/
example : ∃ c : Cart ℝ, DescribesOrbit 1 ⟨2, 1 / 2, Real.pi / 6, Real.pi / 6, Real.pi / 6, Real.pi / 6⟩ c ∧ 1 / 10 ≤ |Real.sin (Real.pi / 6)| := by
  have hp : Physical 1 (⟨2, 1 / 2, Real.pi / 6, Real.pi / 6, Real.pi / 6, Real.pi / 6⟩ : Kep ℝ) := by
    refine ⟨by norm_num, by norm_num, by norm_num, ?_⟩
    show 0 < 1 + 1 / 2 * Real.cos (Real.pi / 6)
    have := Real.neg_one_le_cos (Real.pi / 6)
    linarith
  refine ⟨_, hp.adm.describes, ?_⟩
  rw [Real.sin_pi_div_six]
  norm_num

end Pyorb
