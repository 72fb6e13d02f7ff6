import Verif.CartAligned

/-!
# The elements that `cart_to_kep` computes with rounding on nearly circular and on equatorial ellipses
-/

set_option linter.unusedVariables false

namespace Pyorb
open FX RF Matrix
variable {R : Rounding}

namespace CartKep

/-- what holds for every ellipse: the state and the computed semi-major axis and eccentricity, `t = u / (1 - e)` -/
structure ShapeOut (R : Rounding) (mu : ℝ) (k : Kep ℝ) (c : Cart ℝ) (kep : Kep (RF R)) (t : ℝ) : Prop where
  ell : EllState mu k c
  ne : angMom c ≠ 0
  r_pos : 0 < vlen c.r
  cond : eccCond mu c ≤ 5
  cond0 : 0 ≤ eccCond mu c
  rv : R.u * (vlen c.r * vlen c.v) ≤ 2 * t * vlen (angMom c)
  rvZ : vlen c.r * vlen c.v ≤ 2 * (vlen c.r * mu / vlen (angMom c))
  far : 100 * R.u * (vlen c.r * vlen c.v) ≤ vlen (angMom c)
  ule : R.u ≤ t
  e : ∃ e, kep.e = RF.num R e ∧ 0 ≤ e ∧ |e - k.e| ≤ 250 * R.u
  a : ∃ a, kep.a = RF.num R a ∧ |a - k.a| ≤ 96 * t * k.a

theorem shape_out (hR : Nearest R) (g : CtkGarbage (RF R)) {mu : ℝ} {k : Kep ℝ} {c : Cart ℝ} (hmu : 0 < mu) (hd : DescribesOrbit mu k c) (ha : 0 < k.a)
    (he0 : 0 ≤ k.e) (he1 : k.e < 1) (htq : R.u / (1 - k.e) ≤ 1 / 10 ^ 5) :
    ShapeOut R mu k c (cartToKepCol g .f64 (RF.num R mu) (c.num R)) (R.u / (1 - k.e)) := by
  have hu0 := R.u_nonneg
  have hq : 0 < 1 - k.e := by linarith
  obtain ⟨t, ht⟩ : ∃ t, t = R.u / (1 - k.e) := ⟨_, rfl⟩
  have hut : R.u = t * (1 - k.e) := by rw [ht, div_mul_cancel₀ _ hq.ne']
  rw [← ht] at htq ⊢
  have ht0 : 0 ≤ t := by rw [ht]; positivity
  have hule : R.u ≤ t := by rw [hut]; nlinarith
  norm_num at htq
  have E := hd.ell hmu ha he0 he1
  have hh := E.h_pos
  have hrp : 0 < vlen c.r := lt_of_lt_of_le (by positivity) E.r_ge
  have hne : angMom c ≠ 0 := by
    intro h0
    rw [h0] at hh
    simp [vlen] at hh
  have hen := E.energy
  have hEneg : energy mu c < 0 := by rw [hen, neg_div]; exact neg_neg_of_pos (by positivity)
  have hE' : energy mu c = vlen c.v ^ 2 / 2 - mu / vlen c.r := by rw [energy, ← vlen_sq']
  have hrv2 : vlen c.r * vlen c.v ^ 2 < 2 * mu := by
    have : vlen c.v ^ 2 / 2 < mu / vlen c.r := by linarith
    rw [lt_div_iff₀ hrp] at this
    linarith
  have hk : eccCond mu c ≤ 5 := by
    have : 2 * vlen c.r * vlen c.v ^ 2 / mu ≤ 4 := by rw [div_le_iff₀ hmu]; linarith
    rw [eccCond]
    linarith
  have hk0 : 0 ≤ eccCond mu c := by rw [eccCond]; positivity
  have hrw1 : vlen c.r * vlen c.v ≤ vlen c.r * ((1 + k.e) * mu / vlen (angMom c)) := mul_le_mul_of_nonneg_left E.speed hrp.le
  have hrvh : R.u * (vlen c.r * vlen c.v) ≤ 2 * t * vlen (angMom c) := by
    have := mul_le_mul_of_nonneg_left (hrw1.trans E.rw) hu0
    rw [ht]
    refine this.trans (le_of_eq ?_)
    ring
  have hrvZ : vlen c.r * vlen c.v ≤ 2 * (vlen c.r * mu / vlen (angMom c)) := by
    refine hrw1.trans ?_
    rw [show vlen c.r * ((1 + k.e) * mu / vlen (angMom c)) = (1 + k.e) * (vlen c.r * mu / vlen (angMom c)) by ring]
    exact mul_le_mul_of_nonneg_right (by linarith) (by positivity)
  have hecc := E.ecc
  have hu100 : 100 * R.u ≤ 1 := by linarith
  have hhi : 100 * R.u * (vlen c.r * vlen c.v) ≤ vlen (angMom c) := by
    have := mul_le_mul_of_nonneg_right htq hh.le
    linarith
  have hcc : c.ecc mu = k.e := by rw [← vlen_eccVec hmu (angMom_ne_zero hne), hecc]
  refine ⟨E, hne, hrp, hk, hk0, hrvh, hrvZ, hhi, hule, ?_, ?_⟩
  · obtain ⟨e, a2, a3⟩ := col88_e (R := R) hmu (r_ne_of_angMom hne) hu100 g
    obtain ⟨x, b1, b2⟩ := (col87 hR g hmu.ne' (pos_cases (r_ne_of_angMom hne))).e
    rw [a2] at b1
    rw [hcc] at a3
    refine ⟨e, a2, by rw [num_inj b1]; exact b2, a3.trans ?_⟩
    have := mul_le_mul_of_nonneg_left hk (show 0 ≤ 50 * R.u by linarith)
    linarith
  · have hau : 50 * R.u * eccCond mu c < |1 - c.ecc mu| := by
      rw [hcc, abs_of_pos hq]
      have := mul_le_mul_of_nonneg_left hk (show 0 ≤ 50 * R.u by linarith)
      have h2 : R.u ≤ 1 / 100000 * (1 - k.e) := by rw [hut]; exact mul_le_mul_of_nonneg_right htq hq.le
      linarith
    have hAbs : |energy mu c| = mu / (2 * k.a) := by rw [abs_of_neg hEneg, hen, neg_div, neg_neg]
    have hAA : mu / (2 * |energy mu c|) = k.a := by rw [hAbs]; field_simp
    obtain ⟨a, b2, b3⟩ := col88_a (R := R) (C := 4 / (1 - k.e)) hmu hne (by
      rw [hAbs]
      have h1 : mu / vlen c.r ≤ mu / (k.a * (1 - k.e)) := div_le_div_of_nonneg_left hmu.le (by positivity) E.r_ge
      have h2 : vlen c.v ^ 2 / 2 ≤ mu / vlen c.r := by linarith
      have h3 : 4 / (1 - k.e) * (mu / (2 * k.a)) = 2 * (mu / (k.a * (1 - k.e))) := by field_simp; norm_num
      linarith) (by rw [show 100 * (4 / (1 - k.e)) * R.u = 400 * t by rw [ht]; ring]; linarith) hu100 hau g
    rw [hAA, show 24 * (4 / (1 - k.e)) * R.u = 96 * t by rw [ht]; ring] at b3
    exact ⟨a, b2, b3⟩

/-- the computed inclination -/
theorem ShapeOut.incl (hR : Nearest R) {g : CtkGarbage (RF R)} {mu : ℝ} {k : Kep ℝ} {c : Cart ℝ} {t : ℝ} (S : ShapeOut R mu k c (cartToKepCol g .f64 (RF.num R mu) (c.num R)) t)
    (hi0 : 0 ≤ Real.sin k.i) :
    ∃ i, (cartToKepCol g .f64 (RF.num R mu) (c.num R)).i = RF.num R i ∧ AngleErr R i (Real.cos k.i) (140 * t) (Real.sin k.i) 0 := by
  have hu0 := R.u_nonneg
  have hh := S.ell.h_pos
  obtain ⟨i, d2, d3⟩ := col88_i hR (mu := mu) S.far S.ne g
  have hir := inc_range hR (mu := mu) S.far S.ne g d2
  have hci : Real.cos (inclination c) = Real.cos k.i := by rw [cos_inclination hh, S.ell.hz]; field_simp
  rw [hci] at d3
  have hule := S.ule
  have d4 : 20 * R.u * (vlen c.r * vlen c.v / vlen (angMom c)) ≤ 40 * t := by
    rw [mul_div_assoc', div_le_iff₀ hh]; linarith [S.rv]
  exact ⟨i, d2, ⟨d3.trans (by linarith), fun _ => hir, fun h => by linarith, hir.1, by linarith [Real.pi_pos]⟩⟩

theorem kep_num_eq {k : Kep (RF R)} {a e i om OM nu : ℝ} (h1 : k.a = RF.num R a) (h2 : k.e = RF.num R e) (h3 : k.i = RF.num R i) (h4 : k.om = RF.num R om) (h5 : k.OM = RF.num R OM)
    (h6 : k.nu = RF.num R nu) : k = (⟨a, e, i, om, OM, nu⟩ : Kep ℝ).num R := by
  cases k
  simp only [Kep.num, Kep.mk.injEq] at *
  exact ⟨h1, h2, h3, h4, h5, h6⟩

/-! ## The planes -/

theorem ellipseState_circle (k : Kep ℝ) (n F φ : ℝ) (he : k.e = 0) : ellipseState k n (F + φ) = ellipseState { k with om := k.om + φ } n F := by
  have h1 : √(1 - (0 : ℝ) ^ 2) = 1 := by norm_num
  simp only [ellipseState, Kep.px, Kep.py, Kep.pz, Kep.qx, Kep.qy, Kep.qz, he, h1, Real.cos_add, Real.sin_add, zero_mul, sub_zero, div_one]
  simp only [Cart.mk.injEq]
  refine ⟨?_, ?_, ?_, ?_, ?_, ?_⟩ <;> ring

theorem cos_sq_plane {i : ℝ} (hi : Real.sin i = 0) : Real.cos i = 1 ∨ Real.cos i = -1 := by
  have h := Real.sin_sq_add_cos_sq i
  rw [hi] at h
  have h2 : (Real.cos i - 1) * (Real.cos i + 1) = 0 := by linear_combination h
  rcases mul_eq_zero.mp h2 with c | c
  · left; linarith
  · right; linarith

theorem plane_frame (k : Kep ℝ) (hi : Real.sin k.i = 0) :
    k.px = Real.cos (k.om + Real.cos k.i * k.OM) ∧ k.py = Real.cos k.i * Real.sin (k.om + Real.cos k.i * k.OM) ∧ k.pz = 0 ∧
    k.qx = -Real.sin (k.om + Real.cos k.i * k.OM) ∧ k.qy = Real.cos k.i * Real.cos (k.om + Real.cos k.i * k.OM) ∧ k.qz = 0 := by
  rcases cos_sq_plane hi with h | h
  all_goals
    simp only [Kep.px, Kep.py, Kep.pz, Kep.qx, Kep.qy, Kep.qz, h, hi, one_mul, neg_mul, Real.cos_add, Real.sin_add, Real.cos_neg, Real.sin_neg, zero_mul, mul_zero]
    refine ⟨by ring, by ring, trivial, by ring, by ring, trivial⟩

theorem ellipseState_plane (k : Kep ℝ) (n F : ℝ) (hi : Real.sin k.i = 0) : ellipseState { k with om := k.om + Real.cos k.i * k.OM, OM := 0 } n F = ellipseState k n F := by
  obtain ⟨a1, a2, a3, a4, a5, a6⟩ := plane_frame k hi
  obtain ⟨b1, b2, b3, b4, b5, b6⟩ := plane_frame { k with om := k.om + Real.cos k.i * k.OM, OM := 0 } hi
  simp only [mul_zero, add_zero] at b1 b2 b3 b4 b5 b6
  simp only [ellipseState, a1, a2, a3, a4, a5, a6, b1, b2, b3, b4, b5, b6]

/-! ## The anomalies -/

/-- on a nearly circular ellipse all anomalies agree -/
theorem circle_anom {e e' nu nu' φ δ : ℝ} {z : ℤ} (he0 : 0 ≤ e) (he : e ≤ 1 / 1000) (he0' : 0 ≤ e') (he' : e' ≤ 1 / 1000) (h : |nu' - (nu + φ + z * (2 * Real.pi))| ≤ δ) :
    ∃ F0, Orbit.SamePoint e nu F0 ∧ ∃ F1, Orbit.SamePoint e' nu' F1 ∧ |meanOf e' F1 - meanOf e' (F0 + φ)| ≤ 11 / 10 * δ + 5 * e + 5 * e' := by
  have triv : ∀ x : ℝ, Orbit.SamePoint 0 x x := fun x => ⟨by ring, by norm_num⟩
  obtain ⟨F0, p1, p2⟩ := same_true (e := 0) (e' := e) le_rfl (by norm_num) he0 (by linarith) (by rw [abs_of_nonneg (by linarith)]; linarith) (triv nu)
  obtain ⟨F1, q1, q2⟩ := same_true (e := 0) (e' := e') le_rfl (by norm_num) he0' (by linarith) (by rw [abs_of_nonneg (by linarith)]; linarith) (triv nu')
  rw [sub_zero, sub_zero, div_one, abs_of_nonneg he0] at p2
  rw [sub_zero, sub_zero, div_one, abs_of_nonneg he0'] at q2
  refine ⟨F0, p1, F1 + (-z : ℤ) * (2 * Real.pi), ⟨?_, ?_⟩, ?_⟩
  · rw [Real.cos_add_int_mul_two_pi]; exact q1.along
  · rw [Real.cos_add_int_mul_two_pi, Real.sin_add_int_mul_two_pi]; exact q1.across
  · have h1 : e' < 1 := by linarith
    rw [meanOf_eli _ h1, meanOf_eli _ h1]
    obtain ⟨A, hA⟩ : ∃ A, A = F1 + (-z : ℤ) * (2 * Real.pi) := ⟨_, rfl⟩
    obtain ⟨B, hB⟩ : ∃ B, B = F0 + φ := ⟨_, rfl⟩
    have hAB : |A - B| ≤ δ + 4 * e + 4 * e' := by
      rw [hA, hB, show F1 + ((-z : ℤ) : ℝ) * (2 * Real.pi) - (F0 + φ) = (F1 - nu') + (nu' - (nu + φ + z * (2 * Real.pi))) - (F0 - nu) by push_cast; ring]
      have e1 := abs_sub ((F1 - nu') + (nu' - (nu + φ + z * (2 * Real.pi)))) (F0 - nu)
      have e2 := abs_add_le (F1 - nu') (nu' - (nu + φ + z * (2 * Real.pi)))
      linarith
    rw [← hA, ← hB, show A - e' * Real.sin A - (B - e' * Real.sin B) = (A - B) - e' * (Real.sin A - Real.sin B) by ring]
    refine (abs_sub _ _).trans ?_
    rw [abs_mul, abs_of_nonneg he0']
    have := mul_le_mul he' (Real.abs_sin_sub_sin_le A B) (abs_nonneg _) (by norm_num)
    have := (abs_nonneg _).trans h
    linarith

/-- the anomaly on the ellipse with the computed eccentricity -/
theorem ecc_anom {k k' : Kep ℝ} (he0 : 0 < k.e) (he1 : k.e < 1) (hs : 10 ^ 6 * (R.u / (1 - k.e)) ≤ k.e) (hde : |k'.e - k.e| ≤ 250 * R.u)
    (hnu : AngleErr R k'.nu (Real.cos k.nu) (2000 * R.u / k.e) (Real.sin k.nu) (18 * R.u / k.e)) {F : ℝ} (hF : Orbit.SamePoint k.e k.nu F) : ∃ F', Orbit.SamePoint k'.e k'.nu F' ∧
    |meanOf k'.e F' - meanOf k'.e F| ≤ 2000 * (R.u / (1 - k.e)) + 3 * √((1 + k.e) / (1 - k.e)) * angTol (2000 * R.u / k.e) k.nu := by
  have hu0 := R.u_nonneg
  have hq : 0 < 1 - k.e := by linarith
  have htu : R.u ≤ R.u / (1 - k.e) := by rw [le_div_iff₀ hq]; nlinarith
  obtain ⟨t, ht⟩ : ∃ t, t = R.u / (1 - k.e) := ⟨_, rfl⟩
  have hut : R.u = t * (1 - k.e) := by rw [ht, div_mul_cancel₀ _ hq.ne']
  rw [← ht] at hs htu ⊢
  have ht0 : 0 ≤ t := by linarith
  norm_num at hs
  have hue : R.u ≤ 1 / 1000000 * (1 - k.e) := by
    rw [hut]; exact mul_le_mul_of_nonneg_right (by linarith) hq.le
  have hde' := abs_le.mp hde
  have he0' : 0 ≤ k'.e := by linarith
  have he1' : k'.e < 1 := by linarith
  obtain ⟨G, hG, hGF⟩ := same_true he0.le he1 he0' he1' (by linarith) hF
  have hGF' : |G - F| ≤ 1000 * t := by
    refine hGF.trans ?_
    rw [ht, mul_div_assoc', div_le_div_iff_of_pos_right hq]
    linarith
  have hσ : R.u / k.e ≤ 1 / 1000000 := by rw [div_le_iff₀ he0]; linarith
  have hσ0 : 0 ≤ R.u / k.e := by positivity
  have huσ : R.u ≤ R.u / k.e := by rw [le_div_iff₀ he0]; exact mul_le_of_le_one_right hu0 he1.le
  rw [mul_div_assoc, mul_div_assoc] at hnu
  obtain ⟨z, hz⟩ := AngleDist.close (R := R) (by positivity) (by nlinarith) (by linarith) (by linarith) hnu
  rw [← mul_div_assoc] at hz
  obtain ⟨M', ⟨F', e1, e2⟩, e3⟩ := Orbit.WideDeg.hasMean_lip .tru he0' he1' (x := k.nu) (M := G - k'.e * Real.sin G) ⟨G, hG, rfl⟩ (k'.nu - z * (2 * Real.pi))
  have e1' := samePoint_turn z e1
  rw [sub_add_cancel] at e1'
  refine ⟨F', e1', ?_⟩
  have hT0 := AngleDist.tol_nonneg (ε := 2000 * R.u / k.e) (by positivity) k.nu
  rw [show k'.nu - z * (2 * Real.pi) - k.nu = k'.nu - (k.nu + z * (2 * Real.pi)) by ring] at e3
  have hcond : anomCond k'.e ≤ 3 / 2 * √((1 + k.e) / (1 - k.e)) := by
    rw [anomCond, abs_of_nonneg he0', Real.sqrt_le_left (by positivity), mul_pow, Real.sq_sqrt (by positivity), mul_div_assoc', div_le_div_iff₀ (by linarith) hq]
    nlinarith
  have e4 := mul_le_mul hcond hz (abs_nonneg _) (by positivity)
  rw [meanOf_eli _ he1', meanOf_eli _ he1', e2]
  have e5 : |G - k'.e * Real.sin G - (F - k'.e * Real.sin F)| ≤ 2000 * t := by
    rw [show G - k'.e * Real.sin G - (F - k'.e * Real.sin F) = (G - F) - k'.e * (Real.sin G - Real.sin F) by ring]
    refine (abs_sub _ _).trans ?_
    rw [abs_mul, abs_of_nonneg he0']
    have := mul_le_mul he1'.le (Real.abs_sin_sub_sin_le G F) (abs_nonneg _) (by norm_num)
    linarith
  have e6 := abs_sub_le M' (G - k'.e * Real.sin G) (F - k'.e * Real.sin F)
  linarith

/-! ## Nearly circular orbits -/

theorem cos_lat {mu : ℝ} {k : Kep ℝ} {c : Cart ℝ} (hd : DescribesOrbit mu k c) (hi : 0 < Real.sin k.i) (hh : 0 < vlen (angMom c)) (hr : 0 < vlen c.r) :
    cosAngle (nodeVec c) c.r = Real.cos (k.om + k.nu) ∧ c.z = vlen c.r * (Real.sin k.i * Real.sin (k.om + k.nu)) := by
  have h1 := Real.sin_sq_add_cos_sq k.OM
  have hp := hd.position
  rw [Kep.frame_ex, Kep.frame_ey] at hp
  constructor
  · rw [cosAngle, hd.node_len hi, hd.node, div_eq_iff (by positivity)]
    conv_lhs => rw [hp]
    simp only [dotProduct, Fin.sum_univ_three]
    simp [Kep.px, Kep.py, Kep.qx, Kep.qy, Real.cos_add]
    linear_combination (vlen (angMom c) * Real.sin k.i * vlen c.r * (Real.cos k.om * Real.cos k.nu - Real.sin k.om * Real.sin k.nu)) * h1
  · have h2 := congrFun hp 2
    simp [Kep.pz, Kep.qz] at h2
    rw [Real.sin_add]
    have h3 : c.r 2 = c.z := rfl
    rw [← h3, h2]
    ring

/-- C116, the elements: a nearly circular orbit that is not equatorial -/
theorem circ_aligned (hR : Nearest R) (g : CtkGarbage (RF R)) {mu : ℝ} {k : Kep ℝ} {c : Cart ℝ} (hmu : 0 < mu) (hd : DescribesOrbit mu k c) (ha : 0 < k.a)
    (he0 : 0 ≤ k.e) (he : k.e + 250 * R.u ≤ 99 / 10 ^ 11) (hi0 : 0 < Real.sin k.i) (hs : 10 ^ 6 * (R.u / (1 - k.e)) ≤ Real.sin k.i)
    (hi : 200 * (R.u / (1 - k.e)) + 1 / 10 ^ 16 ≤ Real.sin k.i ^ 2) :
    ∃ (k' : Kep ℝ) (F0 : ℝ), cartToKepCol g .f64 (RF.num R mu) (c.num R) = k'.num R ∧ Orbit.SamePoint k.e k.nu F0 ∧
      Aligned k { k with e := 0, om := 0 } k' k.om F0 (96 * (R.u / (1 - k.e))) (k.e + 250 * R.u) k.e
        (angTol (120 * (R.u / (1 - k.e)) / Real.sin k.i) k.OM + angTol (140 * (R.u / (1 - k.e))) k.i)
        (11 / 10 * angTol (600 * (R.u / (1 - k.e)) / Real.sin k.i) (k.om + k.nu) + 10 * k.e + 1250 * R.u) := by
  have hu0 := R.u_nonneg
  norm_num at he
  have he1 : k.e < 1 := by linarith
  have hq : 0 < 1 - k.e := by linarith
  have hsi1 := Real.sin_le_one k.i
  have S := shape_out hR g hmu hd ha he0 he1 (by norm_num at hs ⊢; linarith)
  obtain ⟨i, i1, i2⟩ := S.incl hR hi0.le
  obtain ⟨t, ht⟩ : ∃ t, t = R.u / (1 - k.e) := ⟨_, rfl⟩
  rw [← ht] at hs hi S i2 ⊢
  have hule := S.ule
  have ht0 : 0 ≤ t := by linarith
  norm_num at hs
  have hh := S.ell.h_pos
  have hth : 0 ≤ t * vlen (angMom c) := mul_nonneg ht0 hh.le
  have hrv := S.rv
  have hnl := hd.node_len hi0
  have hecc := S.ell.ecc
  have hn0 : 0 < vlen (nodeVec c) := by rw [hnl]; positivity
  obtain ⟨OM, nu, f1, f2, f3, f4, f5⟩ := col_circ hR g hmu S.ne (by
      rw [hecc]
      have := mul_le_mul_of_nonneg_left S.cond (show 0 ≤ 50 * R.u by linarith)
      norm_num
      linarith) (by
    rw [hnl, mul_pow]
    have h1 := mul_le_mul_of_nonneg_left hi (sq_nonneg (vlen (angMom c)))
    have h2 := mul_le_mul_of_nonneg_right hrv hh.le
    refine le_trans (le_of_eq ?_) (le_trans (add_le_add_left (a := 1 / 10 ^ 16 * vlen (angMom c) ^ 2) (mul_le_mul_of_nonneg_left h2 (show (0 : ℝ) ≤ 100 by norm_num))) (le_trans (le_of_eq ?_) h1)) <;> ring) (by
    rw [hnl]
    have := mul_le_mul_of_nonneg_left hs hh.le
    linarith)
  obtain ⟨e, e1, e2, e3⟩ := S.e
  obtain ⟨a, a1, a2⟩ := S.a
  obtain ⟨l1, l2⟩ := cos_lat hd hi0 hh S.r_pos
  rw [hd.cos_node hi0 hh] at f4
  have hx0 : angMom c 0 = vlen (angMom c) * (Real.sin k.OM * Real.sin k.i) := by
    have := congrFun hd.angMom_len 0
    simpa using this
  rw [hx0, hnl] at f4
  rw [l1, l2, hnl] at f5
  have hσ : t / Real.sin k.i ≤ 1 / 1000000 := by rw [div_le_iff₀ hi0]; linarith
  have hσ0 : 0 ≤ t / Real.sin k.i := by positivity
  have htσ : t ≤ t / Real.sin k.i := by rw [le_div_iff₀ hi0]; exact mul_le_of_le_one_right ht0 hsi1
  have g4 : AngleErr R OM (Real.cos k.OM) (120 * (t / Real.sin k.i)) (Real.sin k.OM) (6 * (t / Real.sin k.i)) := by
    refine f4.mono ?_ (fun h => ?_) fun h => ?_
    · rw [mul_div_assoc', div_le_div_iff₀ (by positivity) hi0]
      have := mul_le_mul_of_nonneg_right hrv hi0.le
      linarith
    · rw [mul_div_assoc', div_lt_iff₀ hi0] at h
      have := mul_lt_mul_of_pos_left h hh
      linarith
    · rw [mul_div_assoc', ← neg_div, lt_div_iff₀ hi0] at h
      have := mul_lt_mul_of_pos_left h hh
      linarith
  have g5 : AngleErr R nu (Real.cos (k.om + k.nu)) (600 * (t / Real.sin k.i)) (Real.sin (k.om + k.nu)) 0 := by
    have hrs := mul_pos S.r_pos hi0
    refine f5.mono ?_ (fun h => ?_) fun h => ?_
    · rw [mul_div_assoc', div_le_div_iff₀ (by positivity) hi0]
      have := mul_le_mul_of_nonneg_right hrv hi0.le
      linarith
    · rw [← mul_assoc]; exact mul_pos hrs h
    · rw [neg_zero] at h ⊢; rw [← mul_assoc]; exact mul_neg_of_pos_of_neg hrs h
  obtain ⟨z1, c1⟩ := AngleDist.close (R := R) le_rfl (by norm_num; linarith) (by linarith) (by linarith) i2
  obtain ⟨z3, c3⟩ := AngleDist.close (R := R) (by positivity) (by nlinarith) (by linarith) (by linarith) g4
  obtain ⟨z, c2⟩ := AngleDist.close (R := R) le_rfl (by norm_num; linarith) (by linarith) (by linarith) g5
  rw [← mul_div_assoc] at c2 c3
  have e3' := abs_le.mp e3
  rw [add_comm k.om k.nu] at c2
  obtain ⟨F0, p1, F1, p2, p3⟩ := circle_anom (e := k.e) (e' := e) he0 (by linarith) e2 (by linarith) c2
  rw [add_comm k.nu k.om] at p3
  refine ⟨⟨a, e, i, 0, OM, nu⟩, F0, ?_, p1, rfl, he0, by simp, by linarith, he1, ⟨⟨ha, le_rfl, zero_lt_one, e2, a2, ?_, by linarith, ?_⟩, z1, 0, z3, ?_⟩, fun n F => ?_, ⟨F1, p2, p3.trans ?_⟩, ?_⟩
  · exact kep_num_eq a1 e1 i1 f1 f2 f3
  · show |e - 0| ≤ _
    rw [sub_zero, abs_of_nonneg e2]
    linarith
  · show k.e + 250 * R.u ≤ 1 / 200 * (1 - 0)
    linarith
  · show |OM - (k.OM + z3 * (2 * Real.pi))| + |i - (k.i + z1 * (2 * Real.pi))| + |0 - (0 + ((0 : ℤ) : ℝ) * (2 * Real.pi))| ≤ _
    rw [Int.cast_zero, zero_mul, add_zero, sub_zero, abs_zero]
    linarith
  · rw [ellipseState_circle _ _ _ _ rfl, zero_add]
  · linarith
  · show |nu| ≤ 7
    have := Real.pi_lt_d2
    rw [abs_of_nonneg f5.range.1]
    have := f5.range.2
    norm_num at *
    linarith

/-! ## Equatorial orbits -/

section
variable {mu : ℝ} {k : Kep ℝ} {c : Cart ℝ} (hd : DescribesOrbit mu k c) (hi : Real.sin k.i = 0)
include hd hi

theorem plane_pos : c.x = vlen c.r * Real.cos (k.nu + (k.om + Real.cos k.i * k.OM)) ∧ Real.cos k.i * c.y = vlen c.r * Real.sin (k.nu + (k.om + Real.cos k.i * k.OM)) ∧ c.z = 0 := by
  obtain ⟨a1, a2, a3, a4, a5, a6⟩ := plane_frame k hi
  have hp := hd.position
  rw [Kep.frame_ex, Kep.frame_ey] at hp
  have h0 : c.r 0 = c.x := rfl
  have h1 : c.r 1 = c.y := rfl
  have h2 : c.r 2 = c.z := rfl
  have hcc : Real.cos k.i * Real.cos k.i = 1 := by rcases cos_sq_plane hi with h | h <;> rw [h] <;> norm_num
  refine ⟨?_, ?_, ?_⟩
  · have := congrFun hp 0
    simp [a1, a4] at this
    rw [← h0, this, Real.cos_add k.nu]
    ring
  · have := congrFun hp 1
    simp [a2, a5] at this
    rw [← h1, this, Real.sin_add k.nu]
    linear_combination (vlen c.r * (Real.cos k.nu * Real.sin (k.om + Real.cos k.i * k.OM) + Real.sin k.nu * Real.cos (k.om + Real.cos k.i * k.OM))) * hcc
  · have := congrFun hp 2
    simp [a3, a6] at this
    rw [← h2, this]

theorem plane_ecc : eccVec mu c 0 = k.e * Real.cos (k.om + Real.cos k.i * k.OM) ∧ Real.cos k.i * eccVec mu c 1 = k.e * Real.sin (k.om + Real.cos k.i * k.OM) := by
  obtain ⟨a1, a2, a3, a4, a5, a6⟩ := plane_frame k hi
  have hp := hd.ecc
  rw [Kep.frame_ex] at hp
  have hcc : Real.cos k.i * Real.cos k.i = 1 := by rcases cos_sq_plane hi with h | h <;> rw [h] <;> norm_num
  constructor
  · have := congrFun hp 0
    simp [a1] at this
    exact this
  · have := congrFun hp 1
    simp [a2] at this
    rw [this]
    linear_combination (k.e * Real.sin (k.om + Real.cos k.i * k.OM)) * hcc

theorem plane_vz (hmu : 0 < mu) (ha : 0 < k.a) (he0 : 0 ≤ k.e) (he1 : k.e < 1) : c.vz = 0 := by
  obtain ⟨a1, a2, a3, a4, a5, a6⟩ := plane_frame k hi
  have hphys : Physical mu k := ⟨hmu, ha, he0, by nlinarith [Real.neg_one_le_cos k.nu]⟩
  have h1 : c = ellipseState k √(mu / k.a ^ 3) (eccOf k.e k.nu) := by
    rw [Orbit.describes_unique hphys.adm hd]
    exact Orbit.state_point hmu ha he0 he1 false (k := k) (nu := k.nu) (Orbit.samePoint_eccOf he0 he1)
  rw [h1]
  simp [ellipseState, a3, a6]

omit hd in
theorem plane_sense (hh : 0 < vlen (angMom c)) (E : EllState mu k c) : sense c = Real.cos k.i := by
  have h := E.hz
  rw [sense]
  rcases cos_sq_plane hi with g | g
  · rw [g, mul_one] at h
    rw [if_pos (by rw [h]; exact hh), g]
  · rw [g] at h
    rw [if_neg (by rw [h]; linarith), g]

omit hd in
/-- the computed inclination of an equatorial orbit -/
theorem plane_inc (hu : 100 * R.u ≤ 1) (hh : 0 < vlen (angMom c)) (E : EllState mu k c) : ∃ z : ℤ, |planeInc R c - (k.i + z * (2 * Real.pi))| ≤ 5 * R.u := by
  have hu0 := R.u_nonneg
  have h := E.hz
  have hpi := Real.pi_pos
  have hp2 := Real.pi_lt_d2
  rw [planeInc]
  rcases cos_sq_plane hi with g | g
  · rw [g, mul_one] at h
    rw [if_pos (by rw [h]; exact hh)]
    obtain ⟨z, hz⟩ := (Real.cos_eq_one_iff _).mp g
    refine ⟨-z, ?_⟩
    rw [show (0 : ℝ) - (k.i + ((-z : ℤ) : ℝ) * (2 * Real.pi)) = 0 by push_cast; rw [← hz]; ring, abs_zero]
    linarith
  · rw [g] at h
    rw [if_neg (by rw [h]; linarith)]
    obtain ⟨z, hz⟩ := (Real.cos_eq_one_iff (k.i - Real.pi)).mp (by rw [Real.cos_sub_pi, g, neg_neg])
    refine ⟨-z, ?_⟩
    rw [show k.i + ((-z : ℤ) : ℝ) * (2 * Real.pi) = Real.pi by push_cast; linarith]
    have hexp : |Real.exp (R.lib .arccos (-1)) - 1| ≤ 4 / 3 * R.u := (exp_diff (R.lib_le _ _)).trans (exp_sub_one_le hu0 (by linarith))
    rw [show Real.pi * Real.exp (R.lib .arccos (-1)) - Real.pi = Real.pi * (Real.exp (R.lib .arccos (-1)) - 1) by ring, abs_mul, abs_of_pos hpi]
    have h1 := mul_le_mul hp2.le hexp (abs_nonneg _) (by norm_num)
    norm_num at h1
    linarith

end

/-- C117, the elements: an equatorial ellipse that is not nearly circular -/
theorem plane_aligned (hR : Nearest R) (g : CtkGarbage (RF R)) {mu : ℝ} {k : Kep ℝ} {c : Cart ℝ} (hmu : 0 < mu) (hd : DescribesOrbit mu k c) (ha : 0 < k.a)
    (he0 : 3 / 10 ^ 9 ≤ k.e) (he1 : k.e < 1) (hi : Real.sin k.i = 0) (hs : 10 ^ 6 * (R.u / (1 - k.e)) ≤ k.e) :
    ∃ (k' : Kep ℝ) (F0 : ℝ), cartToKepCol g .f64 (RF.num R mu) (c.num R) = k'.num R ∧ Orbit.SamePoint k.e k.nu F0 ∧
      Aligned k { k with om := k.om + Real.cos k.i * k.OM, OM := 0 } k' 0 F0 (96 * (R.u / (1 - k.e))) (250 * R.u) 0
        (5 * R.u + angTol (2000 * R.u / k.e) (k.om + Real.cos k.i * k.OM))
        (2000 * (R.u / (1 - k.e)) + 3 * √((1 + k.e) / (1 - k.e)) * angTol (2000 * R.u / k.e) k.nu) := by
  have hu0 := R.u_nonneg
  have hep : 0 < k.e := lt_of_lt_of_le (by norm_num) he0
  have hq : 0 < 1 - k.e := by linarith
  have S := shape_out hR g hmu hd ha hep.le he1 (by norm_num at hs ⊢; linarith)
  have hanom := fun {k' : Kep ℝ} h1 h2 {F : ℝ} hF => ecc_anom (R := R) (k := k) (k' := k') (F := F) hep he1 hs h1 h2 hF
  obtain ⟨t, ht⟩ : ∃ t, t = R.u / (1 - k.e) := ⟨_, rfl⟩
  have hut : R.u = t * (1 - k.e) := by rw [ht, div_mul_cancel₀ _ hq.ne']
  rw [← ht] at hs S hanom ⊢
  have hule := S.ule
  have ht0 : 0 ≤ t := by linarith
  norm_num at hs
  have hue : R.u ≤ 1 / 1000000 * (1 - k.e) := by
    rw [hut]; exact mul_le_mul_of_nonneg_right (by linarith) hq.le
  have hh := S.ell.h_pos
  have hecc := S.ell.ecc
  obtain ⟨hx, hy, hz⟩ := plane_pos hd hi
  obtain ⟨hE0, hE1⟩ := plane_ecc hd hi
  have hvz := plane_vz hd hi hmu ha hep.le he1
  have hsg := plane_sense hi hh S.ell
  obtain ⟨z1, c1⟩ := plane_inc (R := R) hi (by linarith) hh S.ell
  have hk5 := mul_le_mul_of_nonneg_left S.cond hu0
  obtain ⟨om, nu, f1, f2, f3, f4, f5, f6⟩ := col_plane hR g hmu hz hvz S.ne S.far (by rw [hecc]; exact he0) (by rw [hecc]; linarith)
  rw [hsg, hE1, hE0, hecc, mul_div_cancel_left₀ _ hep.ne'] at f5
  obtain ⟨e, e1, e2, e3⟩ := S.e
  obtain ⟨a, a1, a2⟩ := S.a
  have hσ : R.u / k.e ≤ 1 / 1000000 := by rw [div_le_iff₀ hep]; linarith
  have hσ0 : 0 ≤ R.u / k.e := by positivity
  have huσ : R.u ≤ R.u / k.e := by rw [le_div_iff₀ hep]; exact mul_le_of_le_one_right hu0 he1.le
  have g5 : AngleErr R om (Real.cos (k.om + Real.cos k.i * k.OM)) (2000 * (R.u / k.e)) (Real.sin (k.om + Real.cos k.i * k.OM)) (95 * (R.u / k.e)) := by
    refine f5.mono ?_ (fun h => ?_) fun h => ?_
    · rw [mul_div_assoc']; exact div_le_div_of_nonneg_right (by linarith) hep.le
    · rw [mul_div_assoc', div_lt_iff₀ hep] at h
      linarith
    · rw [mul_div_assoc', ← neg_div, lt_div_iff₀ hep] at h
      linarith
  obtain ⟨z2, c2⟩ := AngleDist.close (R := R) (by positivity) (by nlinarith) (by linarith) (by linarith) g5
  rw [← mul_div_assoc] at c2
  have g6 : AngleErr R nu (Real.cos k.nu) (2000 * R.u / k.e) (Real.sin k.nu) (18 * R.u / k.e) := by
    rw [hd.cos_anom S.r_pos hep, hecc] at f6
    obtain ⟨Y, hY⟩ : ∃ Y, Y = mu / vlen (angMom c) := ⟨_, rfl⟩
    have hY0 : 0 < Y := by rw [hY]; positivity
    have hx0 : c.vr = Y * (k.e * Real.sin k.nu) := by
      have h1 := hd.r_dot_v hmu hh
      rw [← vr_dot (r_ne_of_angMom S.ne)] at h1
      rw [hY, div_mul_eq_mul_div, eq_div_iff hh.ne']
      exact mul_left_cancel₀ S.r_pos.ne' (by linear_combination h1)
    have hvY : vlen c.v ≤ 2 * Y := by
      have := S.rvZ
      rw [mul_div_assoc, ← hY] at this
      exact le_of_mul_le_mul_left (by linarith) S.r_pos
    rw [hx0] at f6
    have h6 := mul_le_mul_of_nonneg_left hvY (show 0 ≤ 9 * R.u by linarith)
    refine f6.mono (div_le_div_of_nonneg_right (by linarith) hep.le) (fun h => ?_) fun h => ?_
    · rw [div_lt_iff₀ hep] at h
      have := mul_lt_mul_of_pos_left h hY0
      linarith
    · rw [← neg_div, lt_div_iff₀ hep] at h
      have := mul_lt_mul_of_pos_left h hY0
      linarith
  have p1 := Orbit.samePoint_eccOf (nu := k.nu) hep.le he1
  obtain ⟨F1, p2, p3⟩ := hanom (k' := ⟨a, e, planeInc R c, om, 0, nu⟩) e3 g6 p1
  refine ⟨⟨a, e, planeInc R c, om, 0, nu⟩, _, kep_num_eq a1 e1 f1 f2 f3 f4, p1, rfl, le_rfl, by simp, by linarith, he1,
    ⟨⟨ha, hep.le, he1, e2, a2, e3, by linarith, by linarith⟩, z1, z2, 0, ?_⟩, fun n F => ?_, ⟨F1, p2, by rw [add_zero]; exact p3⟩, ?_⟩
  · show |0 - (0 + ((0 : ℤ) : ℝ) * (2 * Real.pi))| + |planeInc R c - (k.i + z1 * (2 * Real.pi))| + |om - (k.om + Real.cos k.i * k.OM + z2 * (2 * Real.pi))| ≤ _
    rw [Int.cast_zero, zero_mul, add_zero, sub_zero, abs_zero]
    linarith
  · rw [add_zero]; exact ellipseState_plane k n F hi
  · show |nu| ≤ 7
    have := Real.pi_lt_d2
    rw [abs_of_nonneg g6.range.1]
    have := g6.range.2
    norm_num at *
    linarith

/-- C117, the elements: a nearly circular equatorial orbit -/
theorem plane_circ_aligned (hR : Nearest R) (g : CtkGarbage (RF R)) {mu : ℝ} {k : Kep ℝ} {c : Cart ℝ} (hmu : 0 < mu) (hd : DescribesOrbit mu k c) (ha : 0 < k.a)
    (he0 : 0 ≤ k.e) (he : k.e + 250 * R.u ≤ 99 / 10 ^ 11) (hi : Real.sin k.i = 0) :
    ∃ (k' : Kep ℝ) (F0 : ℝ), cartToKepCol g .f64 (RF.num R mu) (c.num R) = k'.num R ∧ Orbit.SamePoint k.e k.nu F0 ∧
      Aligned k { k with e := 0, om := 0, OM := 0 } k' (k.om + Real.cos k.i * k.OM) F0 (96 * (R.u / (1 - k.e))) (k.e + 250 * R.u) k.e (5 * R.u)
        (11 / 10 * angTol (100 * R.u) (k.nu + (k.om + Real.cos k.i * k.OM)) + 10 * k.e + 1250 * R.u) := by
  have hu0 := R.u_nonneg
  norm_num at he
  have he1 : k.e < 1 := by linarith
  have hq : 0 < 1 - k.e := by linarith
  have ht1 : R.u / (1 - k.e) ≤ 1 / 10 ^ 6 := by rw [div_le_iff₀ hq]; norm_num; linarith
  have S := shape_out hR g hmu hd ha he0 he1 (by norm_num at ht1 ⊢; linarith)
  have hh := S.ell.h_pos
  have hecc := S.ell.ecc
  obtain ⟨hx, hy, hz⟩ := plane_pos hd hi
  have hvz := plane_vz hd hi hmu ha he0 he1
  have hsg := plane_sense hi hh S.ell
  obtain ⟨z1, c1⟩ := plane_inc (R := R) hi (by linarith) hh S.ell
  have hk5 := mul_le_mul_of_nonneg_left S.cond hu0
  obtain ⟨nu, f1, f2, f3, f4, f5⟩ := col_plane_circ hR g hmu hz hvz S.ne S.far (by rw [hecc]; norm_num; linarith)
  rw [hsg, hy, hx, mul_div_cancel_left₀ _ S.r_pos.ne'] at f5
  obtain ⟨e, e1, e2, e3⟩ := S.e
  obtain ⟨a, a1, a2⟩ := S.a
  have g5 : AngleErr R nu (Real.cos (k.nu + (k.om + Real.cos k.i * k.OM))) (100 * R.u) (Real.sin (k.nu + (k.om + Real.cos k.i * k.OM))) 0 := by
    refine f5.mono (by linarith) (fun h => mul_pos S.r_pos h) fun h => ?_
    rw [neg_zero] at h ⊢; exact mul_neg_of_pos_of_neg S.r_pos h
  obtain ⟨z, c2⟩ := AngleDist.close (R := R) le_rfl (by norm_num; linarith) le_rfl (by linarith) g5
  have e3' := abs_le.mp e3
  obtain ⟨F0, p1, F1, p2, p3⟩ := circle_anom (e := k.e) (e' := e) he0 (by linarith) e2 (by linarith) c2
  norm_num at ht1
  refine ⟨⟨a, e, planeInc R c, 0, 0, nu⟩, F0, kep_num_eq a1 e1 f1 f2 f3 f4, p1, rfl, he0, by simp, by linarith, he1,
    ⟨⟨ha, le_rfl, zero_lt_one, e2, a2, ?_, by linarith, ?_⟩, z1, 0, 0, ?_⟩, fun n F => ?_, ⟨F1, p2, p3.trans (by linarith)⟩, ?_⟩
  · show |e - 0| ≤ _
    rw [sub_zero, abs_of_nonneg e2]
    linarith
  · show k.e + 250 * R.u ≤ 1 / 200 * (1 - 0)
    linarith
  · show |0 - (0 + ((0 : ℤ) : ℝ) * (2 * Real.pi))| + |planeInc R c - (k.i + z1 * (2 * Real.pi))| + |0 - (0 + ((0 : ℤ) : ℝ) * (2 * Real.pi))| ≤ _
    rw [Int.cast_zero, zero_mul, add_zero, sub_zero, abs_zero]
    linarith
  · rw [ellipseState_circle _ _ _ _ rfl, zero_add]
    exact ellipseState_plane { k with e := 0 } n F hi
  · show |nu| ≤ 7
    have := Real.pi_lt_d2
    rw [abs_of_nonneg g5.range.1]
    have := g5.range.2
    norm_num at *
    linarith

end CartKep
end Pyorb
