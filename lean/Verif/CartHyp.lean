import Verif.PropsCartBack

/-!
# What `cart_to_kep` computes with rounding for states on hyperbolas, for C121
-/

set_option linter.unusedVariables false

namespace Pyorb
open FX RF Matrix
variable {R : Rounding}

namespace CartKep

section
variable {mu : ℝ} {k : Kep ℝ} {c : Cart ℝ}

/-- sizes of the state of a hyperbola, with `W = 1 + r / a` -/
structure HypState (mu : ℝ) (k : Kep ℝ) (c : Cart ℝ) (W : ℝ) : Prop where
  denom : 0 < 1 + k.e * Real.cos k.nu
  r_pos : 0 < vlen c.r
  r_ge : k.a * (k.e - 1) ≤ vlen c.r
  e_le : k.e ≤ W
  dist : vlen c.r * (1 + k.e * Real.cos k.nu) = k.a * (k.e ^ 2 - 1)
  h_pos : 0 < vlen (angMom c)
  h_sq : vlen (angMom c) ^ 2 = mu * (k.a * (k.e ^ 2 - 1))
  hz : angMom c 2 = vlen (angMom c) * Real.cos k.i
  ecc : vlen (eccVec mu c) = k.e
  energy : energy mu c = mu / (2 * k.a)
  v_sq : vlen c.v ^ 2 / 2 = mu / vlen c.r + mu / (2 * k.a)
  kap : 1 + 2 * vlen c.r * vlen c.v ^ 2 / mu ≤ 5 * W
  speed : vlen c.v ≤ (1 + k.e) * mu / vlen (angMom c)
  rv : vlen c.r * vlen c.v ≤ W ^ 2 / (k.e ^ 2 - 1) * vlen (angMom c)
  rvW : W * (vlen c.r * vlen c.v) ≤ k.e * (W ^ 2 / (k.e ^ 2 - 1) * vlen (angMom c))

theorem _root_.Pyorb.DescribesOrbit.hyp (hd : DescribesOrbit mu k c) (hmu : 0 < mu) (ha : 0 < k.a) (h1 : 1 < k.e) : HypState mu k c (1 + vlen c.r / k.a) := by
  have hsl : 0 < k.e ^ 2 - 1 := by nlinarith
  have hp : (if k.e = 1 then 2 * k.a else k.a * |1 - k.e ^ 2|) = k.a * (k.e ^ 2 - 1) := by
    rw [if_neg h1.ne', abs_of_neg (by linarith)]; ring
  have hmp : 0 < mu * (k.a * (k.e ^ 2 - 1)) := by positivity
  have hh : vlen (angMom c) = √(mu * (k.a * (k.e ^ 2 - 1))) := by
    rw [hd.ang_mom, hp, vlen_scale, frame_ez_len, mul_one, abs_of_nonneg (Real.sqrt_nonneg _)]
  have hh0 : 0 < vlen (angMom c) := by rw [hh]; exact Real.sqrt_pos.mpr hmp
  have hh2 : vlen (angMom c) ^ 2 = mu * (k.a * (k.e ^ 2 - 1)) := by rw [hh, Real.sq_sqrt hmp.le]
  have hne : angMom c ≠ 0 := by
    intro h0
    rw [h0] at hh0
    simp [vlen] at hh0
  have hrp := vlen_r_pos (r_ne_of_angMom hne)
  have hdist := hd.distance
  rw [hp] at hdist
  have hD : 0 < 1 + k.e * Real.cos k.nu := by
    by_contra h
    have : k.a * (k.e ^ 2 - 1) / (1 + k.e * Real.cos k.nu) ≤ 0 := div_nonpos_of_nonneg_of_nonpos (by positivity) (not_lt.mp h)
    linarith
  have hdist' : vlen c.r * (1 + k.e * Real.cos k.nu) = k.a * (k.e ^ 2 - 1) := by rw [hdist, div_mul_cancel₀ _ hD.ne']
  have hD2 : 1 + k.e * Real.cos k.nu ≤ 1 + k.e := by nlinarith [Real.cos_le_one k.nu]
  have hr1 : k.a * (k.e - 1) ≤ vlen c.r := by
    rw [hdist, le_div_iff₀ hD]
    calc k.a * (k.e - 1) * (1 + k.e * Real.cos k.nu) ≤ k.a * (k.e - 1) * (1 + k.e) :=
          mul_le_mul_of_nonneg_left hD2 (mul_nonneg ha.le (by linarith))
      _ = _ := by ring
  obtain ⟨ρ, hρ⟩ : ∃ ρ, ρ = vlen c.r / k.a := ⟨_, rfl⟩
  have hρr : vlen c.r = ρ * k.a := by rw [hρ, div_mul_cancel₀ _ ha.ne']
  have hρ1 : k.e - 1 ≤ ρ := by rw [hρ, le_div_iff₀ ha]; linarith
  have hρ0 : 0 < ρ := by linarith
  rw [← hρ]
  obtain ⟨W, hW⟩ : ∃ W, W = 1 + ρ := ⟨_, rfl⟩
  rw [← hW]
  have heW : k.e ≤ W := by linarith
  have hen := hd.energy_hyp h1
  have hv2 : vlen c.v ^ 2 / 2 = mu / vlen c.r + mu / (2 * k.a) := by
    rw [Pyorb.energy, ← vlen_sq'] at hen
    linarith
  have hv2' : vlen c.v ^ 2 = mu * (2 + ρ) / (ρ * k.a) := by
    have : vlen c.v ^ 2 = 2 * (mu / vlen c.r + mu / (2 * k.a)) := by linarith
    rw [this, hρr]; field_simp
  have hrv2 : (vlen c.r * vlen c.v) ^ 2 = mu * k.a * (ρ * (2 + ρ)) := by
    rw [mul_pow, hv2', hρr]; field_simp
  have hWe : k.e ^ 2 ≤ W ^ 2 := pow_le_pow_left₀ (by linarith) heW 2
  have hWρ : ρ * (2 + ρ) ≤ W ^ 2 := by rw [hW]; nlinarith
  have hW0 : 0 < W := by linarith
  have hhv : ∀ x, (x * (W ^ 2 / (k.e ^ 2 - 1) * vlen (angMom c))) ^ 2 = x ^ 2 * (mu * k.a * (W ^ 2 * (W ^ 2 / (k.e ^ 2 - 1)))) := fun x => by
    rw [mul_pow, mul_pow, hh2]; field_simp
  have hq1 : 1 ≤ W ^ 2 / (k.e ^ 2 - 1) := by rw [le_div_iff₀ hsl]; linarith
  refine ⟨hD, hrp, hr1, heW, hdist', hh0, hh2, ?_, ?_, hen, hv2, ?_, ?_, ?_, ?_⟩
  · rw [hh, hd.ang_mom, hp, hd.normal]
    simp
  · rw [hd.ecc, vlen_scale, frame_ex_len, mul_one, abs_of_nonneg (by linarith)]
  · have : 2 * vlen c.r * vlen c.v ^ 2 / mu = 2 * (2 + ρ) := by rw [hv2', hρr]; field_simp
    rw [this]; linarith
  · refine (abs_le_of_sq_le_sq' ?_ (by have : 0 < k.e := by linarith
                                       positivity)).2
    have hq : 0 < k.e - 1 := by linarith
    have hw2 : ((1 + k.e) * mu / vlen (angMom c)) ^ 2 = (1 + k.e) * mu / (k.a * (k.e - 1)) := by
      rw [div_pow, hh2, show k.e ^ 2 - 1 = (k.e - 1) * (1 + k.e) by ring]
      have : 0 < 1 + k.e := by linarith
      field_simp
    rw [hw2]
    have h2 : mu / vlen c.r ≤ mu / (k.a * (k.e - 1)) := div_le_div_of_nonneg_left hmu.le (by positivity) hr1
    have h3 : (1 + k.e) * mu / (k.a * (k.e - 1)) = 2 * (mu / (k.a * (k.e - 1))) + 2 * (mu / (2 * k.a)) := by field_simp; ring
    linarith
  · refine (abs_le_of_sq_le_sq' ?_ (by positivity)).2
    have := hhv 1
    rw [one_mul] at this
    rw [this, hrv2, one_pow, one_mul]
    refine mul_le_mul_of_nonneg_left (hWρ.trans ?_) (by positivity)
    exact le_mul_of_one_le_right (by positivity) hq1
  · refine (abs_le_of_sq_le_sq' ?_ (by have : 0 < k.e := by linarith
                                       positivity)).2
    rw [hhv, mul_pow, hrv2]
    have h2 : W ^ 2 * (ρ * (2 + ρ)) ≤ W ^ 2 * W ^ 2 := mul_le_mul_of_nonneg_left hWρ (by positivity)
    have h3 : W ^ 2 * W ^ 2 ≤ k.e ^ 2 * (W ^ 2 * (W ^ 2 / (k.e ^ 2 - 1))) := by
      rw [show k.e ^ 2 * (W ^ 2 * (W ^ 2 / (k.e ^ 2 - 1))) = W ^ 2 * W ^ 2 * (k.e ^ 2 / (k.e ^ 2 - 1)) by ring]
      refine le_mul_of_one_le_right (by positivity) ?_
      rw [le_div_iff₀ hsl]; linarith
    calc W ^ 2 * (mu * k.a * (ρ * (2 + ρ))) = mu * k.a * (W ^ 2 * (ρ * (2 + ρ))) := by ring
      _ ≤ mu * k.a * (k.e ^ 2 * (W ^ 2 * (W ^ 2 / (k.e ^ 2 - 1)))) := mul_le_mul_of_nonneg_left (h2.trans h3) (by positivity)
      _ = _ := by ring
end

/-- how the rounding error enters: `t = u W² / (e² - 1)`, `W = 1 + r / a` -/
structure HypScale (u e W t : ℝ) : Prop where
  u0 : 0 ≤ u
  one : u ≤ t
  rel : u * W ≤ 2 * t * (e - 1)
  ecc : u * W ≤ t * e

theorem hypScale {u e W t : ℝ} (hu : 0 ≤ u) (h1 : 1 < e) (hW : e ≤ W) (ht : t = u * (W ^ 2 / (e ^ 2 - 1))) : HypScale u e W t := by
  have hsl : 0 < e ^ 2 - 1 := by nlinarith
  have hk : ∀ x, x * (e ^ 2 - 1) ≤ W ^ 2 → u * x ≤ t := fun x hx => by
    rw [ht]
    refine mul_le_mul_of_nonneg_left ?_ hu
    rw [le_div_iff₀ hsl]; exact hx
  have hq : 0 < e - 1 := by linarith
  have e0 : 0 < e := by linarith
  have hWW : W * e ≤ W * W := mul_le_mul_of_nonneg_left hW (by linarith)
  have a1 := hk 1 (by nlinarith)
  have a2 := hk (W / (2 * (e - 1))) (by
    rw [div_mul_eq_mul_div, div_le_iff₀ (by positivity)]
    nlinarith [mul_nonneg (mul_nonneg (show (0 : ℝ) ≤ W by linarith) hq.le) (show 0 ≤ 2 * W - (e + 1) by linarith)])
  have a3 := hk (W / e) (by
    rw [div_mul_eq_mul_div, div_le_iff₀ e0]
    nlinarith [mul_nonneg (show (0 : ℝ) ≤ W by linarith) (show 0 ≤ W * e - (e ^ 2 - 1) by nlinarith)])
  refine ⟨hu, by linarith, ?_, ?_⟩
  · rw [mul_div_assoc', div_le_iff₀ (by positivity)] at a2
    linarith
  · rw [mul_div_assoc', div_le_iff₀ e0] at a3
    exact a3

/-- what `cart_to_kep` computes for a state on a hyperbola -/
structure HypElements (R : Rounding) (k k' : Kep ℝ) (W t : ℝ) : Prop where
  e : |k'.e - k.e| ≤ 250 * (R.u * W)
  a : |k'.a - k.a| ≤ 192 * t * k.a
  i : AngleErr R k'.i (Real.cos k.i) (100 * t) (Real.sin k.i) 0
  OM : AngleErr R k'.OM (Real.cos k.OM) (100 * t / Real.sin k.i) (Real.sin k.OM) (3 * t / Real.sin k.i)
  om : AngleErr R k'.om (Real.cos k.om) (2000 * t / Real.sin k.i) (Real.sin k.om) (95 * t / Real.sin k.i)
  nu : AngleErr R k'.nu (Real.cos k.nu) (2000 * (R.u * W) / k.e) (Real.sin k.nu) (18 * R.u)

set_option maxHeartbeats 1000000 in
theorem elements_hyp (hR : Nearest R) (g : Nat → CtkGarbage (RF R)) {mu : ℝ} {k : Kep ℝ} {c : Cart ℝ} (hmu : 0 < mu) (hd : DescribesOrbit mu k c) (ha : 0 < k.a)
    (h1 : 1 < k.e) (hi0 : 0 < Real.sin k.i) {W t : ℝ} (hW : W = 1 + vlen c.r / k.a) (ht : t = R.u * (W ^ 2 / (k.e ^ 2 - 1))) (hs : 10 ^ 6 * t ≤ Real.sin k.i)
    (hi : 200 * t + 1 / 10 ^ 16 ≤ Real.sin k.i ^ 2) :
    ∃ k' : Kep ℝ, (cart_to_kep g (.sc (RF.num R mu)) false (.vec .f64 (c.num R))).1 = .ok (.vec .f64 (k'.num R)) ∧ HypElements R k k' W t := by
  have hu0 := R.u_nonneg
  have hep : 0 < k.e := by linarith
  have hq : 0 < k.e - 1 := by linarith
  have E := hd.hyp hmu ha h1
  rw [← hW] at E
  have S := hypScale hu0 h1 E.e_le ht
  have ht0 : 0 ≤ t := hu0.trans S.one
  have hsi1 := Real.sin_le_one k.i
  have htq : t ≤ 1 / 10 ^ 6 := by norm_num at hs ⊢; linarith
  have hh := E.h_pos
  have hrp := E.r_pos
  have hne : angMom c ≠ 0 := by
    intro h0
    rw [h0] at hh
    simp [vlen] at hh
  have hEpos : 0 < energy mu c := by rw [E.energy]; positivity
  have hk := E.kap
  have hk0 : 0 ≤ 1 + 2 * vlen c.r * vlen c.v ^ 2 / mu := by positivity
  have huk : R.u * (1 + 2 * vlen c.r * vlen c.v ^ 2 / mu) ≤ 5 * (R.u * W) := by
    have := mul_le_mul_of_nonneg_left hk hu0
    linarith
  have huW0 : 0 ≤ R.u * W := mul_nonneg hu0 (by linarith [E.e_le])
  have hrv0 : 0 ≤ vlen c.r * vlen c.v := mul_nonneg (vlen_nonneg _) (vlen_nonneg _)
  have hrvh : R.u * (vlen c.r * vlen c.v) ≤ t * vlen (angMom c) := by
    have := mul_le_mul_of_nonneg_left E.rv hu0
    rw [ht]
    refine this.trans (le_of_eq ?_)
    ring
  have hrvWh : R.u * (W * (vlen c.r * vlen c.v)) ≤ t * k.e * vlen (angMom c) := by
    have := mul_le_mul_of_nonneg_left E.rvW hu0
    rw [ht]
    refine this.trans (le_of_eq ?_)
    ring
  have hrvZ : vlen c.r * vlen c.v ≤ (1 + k.e) * (vlen c.r * mu / vlen (angMom c)) := by
    refine (mul_le_mul_of_nonneg_left E.speed hrp.le).trans (le_of_eq ?_)
    ring
  have hecc := E.ecc
  have hth : 0 ≤ t * vlen (angMom c) := mul_nonneg ht0 hh.le
  have hu100 : 100 * R.u ≤ 1 := by linarith [S.one]
  have hhi : 100 * R.u * (vlen c.r * vlen c.v) ≤ vlen (angMom c) := by
    have := mul_le_mul_of_nonneg_right htq hh.le
    linarith
  have hrel : R.u * W ≤ 2 / 10 ^ 6 * (k.e - 1) := by
    refine S.rel.trans (mul_le_mul_of_nonneg_right (by linarith) hq.le)
  -- eccentricity
  obtain ⟨k1, e, a1, a2, a3⟩ := c88_e g hmu hne hu100
  -- semi-major axis
  have hau : 50 * R.u * (1 + 2 * vlen c.r * vlen c.v ^ 2 / mu) < |1 - vlen (eccVec mu c)| := by
    rw [hecc, abs_of_neg (by linarith)]
    norm_num at hrel
    linarith
  have hAbs : |energy mu c| = mu / (2 * k.a) := by rw [abs_of_pos hEpos, E.energy]
  have hAA : mu / (2 * |energy mu c|) = k.a := by rw [hAbs]; field_simp
  have hCu : 4 * W / (k.e - 1) * R.u ≤ 8 * t := by
    rw [div_mul_eq_mul_div, div_le_iff₀ hq]
    linarith [S.rel]
  obtain ⟨k2, a, b1, b2, b3⟩ := c88_a (C := 4 * W / (k.e - 1)) g hmu hne hu100 (by linarith) (by
    rw [hAbs]
    have h1' : mu / vlen c.r ≤ mu / (k.a * (k.e - 1)) := div_le_div_of_nonneg_left hmu.le (by positivity) E.r_ge
    have h2 := E.v_sq
    have h3 : 4 * W / (k.e - 1) * (mu / (2 * k.a)) = (4 * W) * (mu / (2 * k.a) / (k.e - 1)) := by ring
    have h4 : mu / (k.a * (k.e - 1)) = 2 * (mu / (2 * k.a) / (k.e - 1)) := by field_simp
    have h5 : mu / (2 * k.a) = (k.e - 1) * (mu / (2 * k.a) / (k.e - 1)) := by field_simp
    have h6 : 0 < mu / (2 * k.a) / (k.e - 1) := by positivity
    have h7 := mul_le_mul_of_nonneg_right (show k.e + 3 ≤ 4 * W by linarith [E.e_le]) h6.le
    rw [h3]
    linarith) hau
  rw [hAA] at b3
  have b3' : |a - k.a| ≤ 192 * t * k.a := by
    refine b3.trans (mul_le_mul_of_nonneg_right ?_ ha.le)
    linarith
  -- inclination
  obtain ⟨k3, i, d1, d2, d3⟩ := c88_i hR g (mu := mu) hne hhi
  have hir := inc_range hR (mu := mu) hhi hne (g 0) (i := i) (by
    have : k3 = cartToKepCol (g 0) .f64 (RF.num R mu) (c.num R) := by
      have h1 : (cart_to_kep g (.sc (RF.num R mu)) false (.vec .f64 (c.num R))).1 = .ok (.vec .f64 (cartToKepCol (g 0) .f64 (RF.num R mu) (c.num R))) := rfl
      rw [d1] at h1
      injection h1 with h1
      injection h1
    rw [← this]; exact d2)
  have hci : Real.cos (inclination c) = Real.cos k.i := by rw [cos_inclination hh, E.hz]; field_simp
  rw [hci] at d3
  have d4 : 20 * R.u * (vlen c.r * vlen c.v / vlen (angMom c)) ≤ 20 * t := by
    rw [mul_div_assoc', div_le_iff₀ hh]; linarith
  -- the other angles
  have hnl := hd.node_len hi0
  have hn0 : 0 < vlen (nodeVec c) := by rw [hnl]; positivity
  obtain ⟨k4, om, OM, nu, f1, f2, f3, f4, f5, f6, f7⟩ := c93 hR g hmu hne (by rw [hecc]; norm_num; linarith)
    (by rw [hecc]; norm_num at hrel; linarith) (by
    rw [hnl, mul_pow]
    have h1 := mul_le_mul_of_nonneg_left hi (sq_nonneg (vlen (angMom c)))
    have h2 := mul_le_mul_of_nonneg_right hrvh hh.le
    have h3 : 0 ≤ t * vlen (angMom c) * vlen (angMom c) := mul_nonneg hth hh.le
    norm_num at h1 ⊢
    nlinarith)
  have e12 : k1 = k2 := by rw [a1] at b1; injection b1 with b1; injection b1
  have e13 : k1 = k3 := by rw [a1] at d1; injection d1 with d1; injection d1
  have e14 : k1 = k4 := by rw [a1] at f1; injection f1 with f1; injection f1
  subst e12 e13 e14
  refine ⟨⟨a, e, i, om, OM, nu⟩, ?_, ⟨?_, b3', ⟨?_, fun _ => hir, fun h => ?_, hir.1, by linarith [Real.pi_pos]⟩, ?_, ?_, ?_⟩⟩
  · rw [a1]
    congr 2
    cases k1
    simp only [Kep.num] at *
    simp only [Kep.mk.injEq]
    exact ⟨b2, a2, d2, f2, f3, f4⟩
  · rw [hecc] at a3
    linarith
  · exact d3.trans (by linarith)
  · linarith
  · rw [hd.cos_node hi0 hh] at f5
    have hx0 : angMom c 0 = vlen (angMom c) * (Real.sin k.OM * Real.sin k.i) := by
      have := congrFun hd.angMom_len 0
      simpa using this
    rw [hx0, hnl] at f5
    refine f5.mono ?_ (fun h => ?_) fun h => ?_
    · rw [div_le_div_iff₀ (by positivity) hi0]
      have := mul_le_mul_of_nonneg_right hrvh hi0.le
      have : 0 ≤ t * vlen (angMom c) * Real.sin k.i := mul_nonneg hth hi0.le
      linarith
    · rw [div_lt_iff₀ hi0] at h
      have := mul_lt_mul_of_pos_left h hh
      linarith
    · rw [← neg_div, lt_div_iff₀ hi0] at h
      have := mul_lt_mul_of_pos_left h hh
      linarith
  · rw [hd.cos_peri hi0 hh hep] at f6
    have hx0 : eccVec mu c 2 = k.e * (Real.sin k.om * Real.sin k.i) := by
      have := congrFun hd.ecc 2
      rw [Kep.frame_ex] at this
      simpa [Kep.pz, mul_comm (Real.sin k.om)] using this
    rw [hx0, hnl, hecc] at f6
    have h6 := S.ecc
    refine f6.mono ?_ (fun h => ?_) fun h => ?_
    · rw [div_le_div_iff₀ (by positivity) hi0]
      have h1 := mul_le_mul_of_nonneg_right hk (mul_nonneg hu0 hrv0)
      have h2 := mul_le_mul_of_nonneg_right (show R.u * ((1 + 2 * vlen c.r * vlen c.v ^ 2 / mu) * (vlen c.r * vlen c.v)) ≤ 5 * (t * k.e * vlen (angMom c)) by linarith) hi0.le
      linarith
    · rw [div_lt_iff₀ hi0] at h
      have := mul_lt_mul_of_pos_left h hep
      linarith
    · rw [← neg_div, lt_div_iff₀ hi0] at h
      have := mul_lt_mul_of_pos_left h hep
      linarith
  · rw [hd.cos_anom hrp hep, hecc] at f7
    obtain ⟨Z, hZ⟩ : ∃ Z, Z = vlen c.r * mu / vlen (angMom c) := ⟨_, rfl⟩
    have hZ0 : 0 < Z := by rw [hZ]; positivity
    have hx0 : c.r ⬝ᵥ c.v = Z * (k.e * Real.sin k.nu) := by
      have h1 := hd.r_dot_v hmu hh
      rw [hZ, div_mul_eq_mul_div, eq_div_iff hh.ne', h1]
    rw [hx0] at f7
    rw [← hZ] at hrvZ
    have h6 := mul_le_mul_of_nonneg_left hrvZ (show 0 ≤ 9 * R.u by linarith)
    have h7 : 9 * R.u * ((1 + k.e) * Z) ≤ 18 * R.u * (Z * k.e) := by
      have := mul_le_mul_of_nonneg_left h1.le (mul_nonneg hu0 hZ0.le)
      linarith
    refine f7.mono (div_le_div_of_nonneg_right (by linarith) hep.le) (fun h => ?_) fun h => ?_
    · have := mul_lt_mul_of_pos_left h (mul_pos hZ0 hep)
      linarith
    · have := mul_lt_mul_of_pos_left h (mul_pos hZ0 hep)
      linarith

end CartKep
end Pyorb
