import Verif.PropsRoundAngle

/-!
# The round trip of all six elements with rounding (C94)
-/

namespace Pyorb
open FX RF Matrix
variable {R : Rounding}

theorem frame_normal_cross (k : Kep ℝ) : ((RZ k.OM * RX k.i * RZ k.om) *ᵥ ez) ⨯₃ ((RZ k.OM * RX k.i * RZ k.om) *ᵥ ex) = (RZ k.OM * RX k.i * RZ k.om) *ᵥ ey := by
  rw [Kep.frame_ex, Kep.frame_ey, Kep.frame_ez, cross_apply]
  have h1 := Real.sin_sq_add_cos_sq k.OM
  have h2 := Real.sin_sq_add_cos_sq k.om
  have h3 := Real.sin_sq_add_cos_sq k.i
  funext j
  fin_cases j <;> simp [Kep.px, Kep.py, Kep.pz, Kep.qx, Kep.qy, Kep.qz, Kep.wx, Kep.wy, Kep.wz]
  · linear_combination (-Real.cos k.OM * Real.sin k.om) * h3
  · linear_combination (-Real.sin k.OM * Real.sin k.om) * h3
  · linear_combination (Real.cos k.om * Real.sin k.i) * h1

theorem r_dot_v_sq (s : Cart ℝ) : (s.r ⬝ᵥ s.v) * (angMom s ⬝ᵥ angMom s) = s.r ⬝ᵥ (angMom s ⨯₃ (s.v ⨯₃ angMom s)) := by
  unfold angMom
  simp only [cross_apply, dotProduct, Fin.sum_univ_three]
  simp
  ring

/-- position times velocity on the orbit -/
theorem DescribesOrbit.r_dot_v {mu : ℝ} {k : Kep ℝ} {s : Cart ℝ} (hd : DescribesOrbit mu k s) (hmu : 0 < mu) (hh : 0 < vlen (angMom s)) :
    (s.r ⬝ᵥ s.v) * vlen (angMom s) = vlen s.r * mu * (k.e * Real.sin k.nu) := by
  set M := RZ k.OM * RX k.i * RZ k.om with hM
  set H := √(mu * if k.e = 1 then 2 * k.a else k.a * |1 - k.e ^ 2|) with hH
  have hHl : vlen (angMom s) = H := by rw [hd.ang_mom, vlen_scale, frame_ez_len, mul_one, abs_of_nonneg (Real.sqrt_nonneg _)]
  have hQQ : (M *ᵥ ey) ⬝ᵥ (M *ᵥ ey) = 1 := by
    rw [Kep.frame_ey]
    have := k.q_norm
    simp only [dotProduct, Fin.sum_univ_three]
    simp
    linarith
  have hPQ : (M *ᵥ ex) ⬝ᵥ (M *ᵥ ey) = 0 := by
    rw [Kep.frame_ey, Kep.frame_ex]
    have := k.pq_dot
    simp only [dotProduct, Fin.sum_univ_three]
    simp
    linarith
  have hv : s.v ⨯₃ angMom s = mu • (eccVec mu s) + (mu / vlen s.r) • s.r := by
    unfold eccVec
    rw [smul_sub, smul_smul, smul_smul, mul_one_div, mul_one_div, div_self hmu.ne', one_smul, sub_add_cancel]
  have h1 := r_dot_v_sq s
  rw [← vlen_sq', hv, map_add, map_smul, map_smul, dotProduct_add, dotProduct_smul, dotProduct_smul] at h1
  have h2 : s.r ⬝ᵥ (angMom s ⨯₃ s.r) = 0 := by
    simp only [cross_apply, dotProduct, Fin.sum_univ_three]
    simp
    ring
  rw [h2, smul_zero, add_zero, hd.ecc, map_smul, hd.ang_mom, LinearMap.map_smul₂, ← hH, frame_normal_cross, ← hM, smul_smul, dotProduct_smul] at h1
  have h3 : s.r ⬝ᵥ (M *ᵥ ey) = vlen s.r * Real.sin k.nu := by
    conv_lhs => rw [hd.position]
    rw [smul_dotProduct, add_dotProduct, smul_dotProduct, smul_dotProduct, hPQ, hQQ]
    simp
  rw [h3, ← hd.ang_mom, hHl] at h1
  have hH0 : 0 < H := by rw [← hHl]; exact hh
  rw [hHl]
  simp only [smul_eq_mul] at h1
  have h4 : (s.r ⬝ᵥ s.v * H - vlen s.r * mu * (k.e * Real.sin k.nu)) * H = 0 := by linear_combination h1
  rcases mul_eq_zero.mp h4 with h | h
  · linarith
  · exact absurd h hH0.ne'

/-! ## Angles between perturbed vectors -/

theorem cosAngle_diff {a b a' b' : Fin 3 → ℝ} {α β : ℝ} (ha : 0 < vlen a) (hb : 0 < vlen b) (hα : vlen (a' - a) ≤ α * vlen a) (hβ : vlen (b' - b) ≤ β * vlen b)
    (hα1 : α ≤ 1 / 4) (hβ1 : β ≤ 1 / 4) : |cosAngle a' b' - cosAngle a b| ≤ 5 * (α + β) := by
  have hα0 : 0 ≤ α := by by_contra hc; nlinarith [vlen_nonneg (a' - a)]
  have hβ0 : 0 ≤ β := by by_contra hc; nlinarith [vlen_nonneg (b' - b)]
  have ta := abs_le.mp ((vlen_tri a' a).trans hα)
  have tb := abs_le.mp ((vlen_tri b' b).trans hβ)
  have a1 : 3 / 4 * vlen a ≤ vlen a' := by nlinarith
  have a2 : vlen a' ≤ 5 / 4 * vlen a := by nlinarith
  have b1 : 3 / 4 * vlen b ≤ vlen b' := by nlinarith
  have b2 : vlen b' ≤ 5 / 4 * vlen b := by nlinarith
  have hP : 0 < vlen a * vlen b := mul_pos ha hb
  have hP' : vlen a * vlen b / 2 ≤ vlen a' * vlen b' := by nlinarith [mul_le_mul a1 b1 (by positivity) (vlen_nonneg a')]
  have hD : |a' ⬝ᵥ b' - a ⬝ᵥ b| ≤ (5 / 4 * α + β) * (vlen a * vlen b) := by
    rw [show a' ⬝ᵥ b' - a ⬝ᵥ b = (a' - a) ⬝ᵥ b' + a ⬝ᵥ (b' - b) by rw [sub_dotProduct, dotProduct_sub]; ring]
    refine (abs_add_le _ _).trans ?_
    have h1 := (abs_dot_le (a' - a) b').trans (mul_le_mul hα b2 (vlen_nonneg _) (by positivity))
    have h2 := (abs_dot_le a (b' - b)).trans (mul_le_mul_of_nonneg_left hβ ha.le)
    linarith
  have hQ : |vlen a' * vlen b' - vlen a * vlen b| ≤ (5 / 4 * α + β) * (vlen a * vlen b) := by
    rw [show vlen a' * vlen b' - vlen a * vlen b = (vlen a' - vlen a) * vlen b' + vlen a * (vlen b' - vlen b) by ring]
    refine (abs_add_le _ _).trans ?_
    rw [abs_mul, abs_mul, abs_of_nonneg (vlen_nonneg b'), abs_of_pos ha]
    have h1 := mul_le_mul ((vlen_tri a' a).trans hα) b2 (vlen_nonneg _) (by positivity)
    have h2 := mul_le_mul_of_nonneg_left ((vlen_tri b' b).trans hβ) ha.le
    linarith
  refine (quot_diff hP hP' (abs_dot_le a b)).trans ?_
  rw [div_le_iff₀ hP]
  have : 0 ≤ β * (vlen a * vlen b) := by positivity
  linarith

theorem nodeVec_diff (c c' : Cart ℝ) : vlen (nodeVec c' - nodeVec c) ≤ vlen (angMom c' - angMom c) := by
  rw [show nodeVec c' - nodeVec c = ![0, 0, 1] ⨯₃ (angMom c' - angMom c) by unfold nodeVec; rw [map_sub]]
  refine (vlen_cross_le _ _).trans ?_
  rw [vlen_vec]
  norm_num

/-! ## The exact angles -/

section
variable {mu : ℝ} {k : Kep ℝ} {s : Cart ℝ}

theorem DescribesOrbit.angMom_len (hd : DescribesOrbit mu k s) : angMom s = vlen (angMom s) • ![Real.sin k.OM * Real.sin k.i, -Real.cos k.OM * Real.sin k.i, Real.cos k.i] := by
  have : vlen (angMom s) = √(mu * if k.e = 1 then 2 * k.a else k.a * |1 - k.e ^ 2|) := by
    rw [hd.ang_mom, vlen_scale, frame_ez_len, mul_one, abs_of_nonneg (Real.sqrt_nonneg _)]
  rw [this, ← hd.normal]
  exact hd.ang_mom

theorem DescribesOrbit.node (hd : DescribesOrbit mu k s) : nodeVec s = (vlen (angMom s) * Real.sin k.i) • ![Real.cos k.OM, Real.sin k.OM, 0] := by
  rw [nodeVec_eq, hd.angMom_len]
  have : vlen (vlen (angMom s) • ![Real.sin k.OM * Real.sin k.i, -Real.cos k.OM * Real.sin k.i, Real.cos k.i]) = vlen (angMom s) := by rw [← hd.angMom_len]
  rw [this]
  funext j; fin_cases j <;> simp <;> ring

theorem vlen_cs (x : ℝ) : vlen ![Real.cos x, Real.sin x, 0] = 1 := by
  rw [vlen_vec, show Real.cos x * Real.cos x + Real.sin x * Real.sin x + 0 * 0 = 1 by nlinarith [Real.sin_sq_add_cos_sq x], Real.sqrt_one]

theorem DescribesOrbit.node_len (hd : DescribesOrbit mu k s) (hi : 0 < Real.sin k.i) : vlen (nodeVec s) = vlen (angMom s) * Real.sin k.i := by
  rw [hd.node, vlen_scale, vlen_cs, mul_one, abs_of_nonneg (mul_nonneg (vlen_nonneg _) hi.le)]

theorem DescribesOrbit.cos_node (hd : DescribesOrbit mu k s) (hi : 0 < Real.sin k.i) (hh : 0 < vlen (angMom s)) : cosAngle ![1, 0, 0] (nodeVec s) = Real.cos k.OM := by
  have h1 : vlen ![1, 0, 0] = 1 := by rw [vlen_vec]; norm_num
  rw [cosAngle, h1, one_mul, hd.node_len hi, hd.node, dotProduct_smul]
  simp [dotProduct, Fin.sum_univ_three]
  field_simp

theorem DescribesOrbit.ecc_len (hd : DescribesOrbit mu k s) (he : 0 < k.e) : vlen (eccVec mu s) = k.e := by
  rw [hd.ecc, vlen_scale, frame_ex_len, mul_one, abs_of_pos he]

theorem DescribesOrbit.cos_peri (hd : DescribesOrbit mu k s) (hi : 0 < Real.sin k.i) (hh : 0 < vlen (angMom s)) (he : 0 < k.e) :
    cosAngle (nodeVec s) (eccVec mu s) = Real.cos k.om := by
  have h1 := Real.sin_sq_add_cos_sq k.OM
  rw [cosAngle, hd.node_len hi, hd.ecc_len he, hd.node, hd.ecc, dotProduct_smul, smul_dotProduct, Kep.frame_ex]
  simp only [dotProduct, Fin.sum_univ_three, smul_eq_mul]
  simp [Kep.px, Kep.py]
  rw [div_eq_iff (by positivity)]
  linear_combination (k.e * vlen (angMom s) * Real.sin k.i * Real.cos k.om) * h1

theorem DescribesOrbit.cos_anom (hd : DescribesOrbit mu k s) (hr : 0 < vlen s.r) (he : 0 < k.e) : cosAngle (eccVec mu s) s.r = Real.cos k.nu := by
  have hPP : ((RZ k.OM * RX k.i * RZ k.om) *ᵥ ex) ⬝ᵥ ((RZ k.OM * RX k.i * RZ k.om) *ᵥ ex) = 1 := by rw [← vlen_sq', frame_ex_len, one_pow]
  have hPQ : ((RZ k.OM * RX k.i * RZ k.om) *ᵥ ex) ⬝ᵥ ((RZ k.OM * RX k.i * RZ k.om) *ᵥ ey) = 0 := by
    rw [Kep.frame_ey, Kep.frame_ex]
    have := k.pq_dot
    simp only [dotProduct, Fin.sum_univ_three]
    simp
    linarith
  have h1 : eccVec mu s ⬝ᵥ s.r = k.e * vlen s.r * Real.cos k.nu := by
    rw [hd.ecc]
    conv_lhs => rw [hd.position]
    rw [smul_dotProduct, dotProduct_smul, dotProduct_add, dotProduct_smul, dotProduct_smul, hPP, hPQ]
    simp
    ring
  rw [cosAngle, h1, hd.ecc_len he]
  field_simp

end

/-! ## C94 -/

/-- what is known about the state `s'` computed for the elements `k` with state `s`; `t = u / (1 - e)^2` -/
structure Computed (u mu : ℝ) (k : Kep ℝ) (s s' : Cart ℝ) (t : ℝ) : Prop where
  orbit : DescribesOrbit mu k s
  r_pos : 0 < vlen s.r
  h_pos : 0 < vlen (angMom s)
  ecc : vlen (eccVec mu s) = k.e
  e1 : k.e < 1
  t0 : 0 ≤ t
  t1 : 10 ^ 5 * t ≤ 1
  ut : u ≤ t
  H : vlen (angMom s' - angMom s) ≤ 2012 * t * vlen (angMom s)
  V : vlen (eccVec mu s' - eccVec mu s) ≤ 6900 * t
  P : vlen (s'.r - s.r) ≤ 600 * t * vlen s.r
  D : |s'.r ⬝ᵥ s'.v - s.r ⬝ᵥ s.v| ≤ 2012 * t * (vlen s.r * mu / vlen (angMom s))
  rv : u * (vlen s'.r * vlen s'.v) ≤ 205 / 100 * (t * vlen (angMom s))
  rv' : u * (vlen s'.r * vlen s'.v) ≤ 205 / 100 * t * (vlen s.r * mu / vlen (angMom s))
  cond : u * (1 + 2 * vlen s'.r * vlen s'.v ^ 2 / mu) ≤ 10 * t
  condrv : u * ((1 + 2 * vlen s'.r * vlen s'.v ^ 2 / mu) * (vlen s'.r * vlen s'.v)) ≤ 205 / 10 * (t * vlen (angMom s))

theorem computed (g : Nat → RF R) {mu : ℝ} {k : Kep ℝ} (hmu : 0 < mu) (ha : 0 < k.a) (he0 : 0 ≤ k.e) (he1 : k.e < 1) (hs : 10 ^ 5 * R.u ≤ (1 - k.e) ^ 3) :
    ∃ s s' : Cart ℝ, (kep_to_cart g (.sc (RF.num R mu)) false (.vec .f64 (k.num R))).1 = .ok (.vec .f64 (s'.num R)) ∧ Computed R.u mu k s s' (R.u / (1 - k.e) ^ 2) := by
  have hu0 := R.u_nonneg
  have hq : 0 < 1 - k.e := by linarith
  have hphys : Physical mu k := ⟨hmu, ha, he0, by nlinarith [Real.neg_one_le_cos k.nu]⟩
  set q := 1 - k.e with hqd
  have hq1 : q ≤ 1 := by linarith
  set t := R.u / q ^ 2 with ht
  have ht0 : 0 ≤ t := by positivity
  have htq : 10 ^ 5 * t ≤ q := by
    rw [ht, mul_div_assoc', div_le_iff₀ (by positivity)]
    linarith [show q * q ^ 2 = q ^ 3 by ring]
  have huq : R.u / q ≤ t := by
    rw [ht]
    exact div_le_div_of_nonneg_left hu0 (by positivity) (by nlinarith)
  have huq0 : 0 ≤ R.u / q := by positivity
  have huu : R.u ≤ R.u / q := by rw [le_div_iff₀ hq]; nlinarith
  have htt : R.u / q * (1 / q) = t := by rw [ht]; field_simp
  obtain ⟨s, s', hd, hres, hr, hv⟩ := c70 (R := R) g hphys (condition_ellipse he0 he1) (by
    rw [← hqd, show 150 * (2 / q) * R.u = 300 * (R.u / q) by ring]
    linarith)
  have E := hd.ell hmu ha he0 he1
  rw [← hqd, show 300 * (2 / q) * R.u = 600 * (R.u / q) by ring] at hr
  rw [← hqd, show 200 * (2 / q) * R.u = 400 * (R.u / q) by ring] at hv
  have hrp : 0 < vlen s.r := lt_of_lt_of_le (by positivity) E.r_ge
  have hh := E.h_pos
  have hrw := E.rw
  have hrw2 := E.rw_sq
  have C : Close s s' ((1 + k.e) * mu / vlen (angMom s)) (600 * (R.u / q)) (400 * (R.u / q)) :=
    ⟨hr, hv, E.speed, by linarith, by linarith, by linarith, by linarith, hrp⟩
  rw [← hqd] at hrw hrw2
  have hw2 : vlen s.r * ((1 + k.e) * mu / vlen (angMom s)) ≤ 2 * (vlen s.r * mu / vlen (angMom s)) := by
    rw [show vlen s.r * ((1 + k.e) * mu / vlen (angMom s)) = (1 + k.e) * (vlen s.r * mu / vlen (angMom s)) by ring]
    exact mul_le_mul_of_nonneg_right (by linarith) (by positivity)
  have CH := C.angMom_le
  have CV := C.eccVec_le hmu
  have hw0 := C.w0
  have hr1 := C.r_le
  have hv1 := C.v_le
  generalize (1 + k.e) * mu / vlen (angMom s) = w at *
  have hhd : 0 ≤ vlen s.r * mu / vlen (angMom s) := by positivity
  generalize hhh : vlen (angMom s) = h at *
  have hrw0 : 0 ≤ vlen s.r * w := mul_nonneg hrp.le hw0
  have hrv1 : vlen s'.r * vlen s'.v ≤ 1021 / 1000 * (vlen s.r * w) := by
    have := mul_le_mul hr1 hv1 (vlen_nonneg _) (by linarith)
    linarith
  have hqh : 0 ≤ 1 / q * h := by positivity
  have hrvh : vlen s'.r * vlen s'.v ≤ 205 / 100 * (1 / q * h) := by
    rw [show 2 / q * h = 2 * (1 / q * h) by ring] at hrw
    linarith
  have hrv0 : 0 ≤ vlen s'.r * vlen s'.v := mul_nonneg (vlen_nonneg _) (vlen_nonneg _)
  have huqh : R.u / q * h ≤ t * h := mul_le_mul_of_nonneg_right huq hh.le
  have hcond : 1 + 2 * vlen s'.r * vlen s'.v ^ 2 / mu ≤ 10 * (1 / q) := by
    have h1 : vlen s'.r * vlen s'.v ^ 2 ≤ 104 / 100 * (vlen s.r * w ^ 2) := by
      have := mul_le_mul hrv1 hv1 (vlen_nonneg _) (by linarith)
      have h2 : 0 ≤ vlen s.r * w ^ 2 := by positivity
      linarith [show vlen s'.r * vlen s'.v * vlen s'.v = vlen s'.r * vlen s'.v ^ 2 by ring, show vlen s.r * w * w = vlen s.r * w ^ 2 by ring]
    have h3 : 2 * vlen s'.r * vlen s'.v ^ 2 / mu ≤ 208 / 100 * (vlen s.r * w ^ 2 / mu) := by
      rw [mul_div_assoc', div_le_div_iff_of_pos_right hmu]; linarith
    rw [show 4 / q = 4 * (1 / q) by ring] at hrw2
    have h4 : 1 ≤ 1 / q := by rw [le_div_iff₀ hq]; linarith
    linarith
  refine ⟨s, s', hres, ⟨hd, hrp, hhh ▸ hh, E.ecc, he1, ht0, by linarith, by linarith, ?_, ?_, hr.trans ?_, ?_, ?_, ?_, ?_, ?_⟩⟩
  · rw [hhh]
    refine CH.trans ?_
    calc (101 / 100 * (600 * (R.u / q)) + 400 * (R.u / q)) * (vlen s.r * w) ≤ (101 / 100 * (600 * (R.u / q)) + 400 * (R.u / q)) * (2 / q * h) :=
          mul_le_mul_of_nonneg_left hrw (by linarith)
      _ = 2012 * (R.u / q * (1 / q)) * h := by ring
      _ = _ := by rw [htt]
  · refine CV.trans ?_
    calc 2 * (600 * (R.u / q)) + (203 / 100 * (400 * (R.u / q)) + 102 / 100 * (600 * (R.u / q))) * (vlen s.r * w ^ 2 / mu)
        ≤ 1200 * t + (203 / 100 * (400 * (R.u / q)) + 102 / 100 * (600 * (R.u / q))) * (4 / q) :=
          add_le_add (by linarith) (mul_le_mul_of_nonneg_left hrw2 (by linarith))
      _ = 1200 * t + 5696 * (R.u / q * (1 / q)) := by ring
      _ ≤ _ := by rw [htt]; linarith
  · exact mul_le_mul_of_nonneg_right (by linarith) hrp.le
  · rw [hhh, show s'.r ⬝ᵥ s'.v - s.r ⬝ᵥ s.v = (s'.r - s.r) ⬝ᵥ s'.v + s.r ⬝ᵥ (s'.v - s.v) by rw [sub_dotProduct, dotProduct_sub]; ring]
    refine (abs_add_le _ _).trans ?_
    have b1 := (abs_dot_le (s'.r - s.r) s'.v).trans (mul_le_mul hr hv1 (vlen_nonneg _) (by positivity))
    have b2 := (abs_dot_le s.r (s'.v - s.v)).trans (mul_le_mul_of_nonneg_left hv hrp.le)
    have b3 := mul_le_mul_of_nonneg_left hw2 huq0
    have b4 := mul_le_mul_of_nonneg_right huq hhd
    linarith
  · rw [hhh]
    have := mul_le_mul_of_nonneg_left hrvh hu0
    rw [show R.u * (205 / 100 * (1 / q * h)) = 205 / 100 * (R.u / q * h) by ring] at this
    linarith
  · rw [hhh]
    have b1 := mul_le_mul_of_nonneg_left hrv1 hu0
    have b2 := mul_le_mul_of_nonneg_left hw2 hu0
    have b3 := mul_le_mul_of_nonneg_right (huu.trans huq) hhd
    have b4 := mul_nonneg ht0 hhd
    linarith
  · have := mul_le_mul_of_nonneg_left hcond hu0
    rw [show R.u * (10 * (1 / q)) = 10 * (R.u / q) by ring] at this
    linarith
  · rw [hhh]
    have := mul_le_mul_of_nonneg_left (mul_le_mul hcond hrvh hrv0 (by positivity)) hu0
    rw [show R.u * (10 * (1 / q) * (205 / 100 * (1 / q * h))) = 205 / 10 * (R.u / q * (1 / q) * h) by ring, htt] at this
    exact this

section
variable {mu t : ℝ} {k : Kep ℝ} {s s' : Cart ℝ} (h : Computed R.u mu k s s' t) (hmu : 0 < mu) (he : 4 / 10 ^ 9 ≤ k.e) (het : 10 ^ 5 * t ≤ k.e) (hi0 : 0 < Real.sin k.i)
  (hi1 : 10 ^ 5 * t ≤ Real.sin k.i)
include h hi0 hi1

omit hi1 in
theorem Computed.node_diff : vlen (nodeVec s' - nodeVec s) ≤ 2012 * t / Real.sin k.i * vlen (nodeVec s) := by
  refine (nodeVec_diff s s').trans (h.H.trans ?_)
  rw [h.orbit.node_len hi0]
  apply le_of_eq
  field_simp

theorem Computed.node_small : 2012 * t / Real.sin k.i ≤ 3 / 100 := by
  rw [div_le_iff₀ hi0]; have := h.t0; linarith

theorem Computed.node_ge : 97 / 100 * (vlen (angMom s) * Real.sin k.i) ≤ vlen (nodeVec s') := by
  have h1 := (abs_le.mp ((vlen_tri (nodeVec s') (nodeVec s)).trans (h.node_diff hi0))).1
  have h2 := h.orbit.node_len hi0
  have h3 : 2012 * t / Real.sin k.i * vlen (nodeVec s) ≤ 3 / 100 * vlen (nodeVec s) := mul_le_mul_of_nonneg_right (h.node_small hi0 hi1) (vlen_nonneg _)
  linarith

theorem Computed.OM {θ : ℝ}
    (hθ : AngleErr R θ (cosAngle ![1, 0, 0] (nodeVec s')) (60 * R.u * (vlen s'.r * vlen s'.v) / vlen (nodeVec s')) (angMom s' 0) (3 * R.u * (vlen s'.r * vlen s'.v))) :
    AngleErr R θ (Real.cos k.OM) (11000 * t / Real.sin k.i) (Real.sin k.OM) (2100 * t / Real.sin k.i) := by
  have hh := h.h_pos
  have hp : 0 < vlen (angMom s) * Real.sin k.i := mul_pos hh hi0
  have hN' := h.node_ge hi0 hi1
  have hrv := h.rv
  have hx : |angMom s' 0 - angMom s 0| ≤ 2012 * t * vlen (angMom s) := (comp_le_vlen (angMom s' - angMom s) 0).trans h.H
  have hx0 : angMom s 0 = vlen (angMom s) * (Real.sin k.OM * Real.sin k.i) := by
    have := congrFun h.orbit.angMom_len 0
    simpa using this
  rw [hx0] at hx
  obtain ⟨x1, x2⟩ := abs_le.mp hx
  have hth : 0 ≤ t * vlen (angMom s) := mul_nonneg h.t0 hh.le
  refine ⟨?_, fun hs => hθ.upper ?_, fun hs => hθ.lower ?_, hθ.range⟩
  · have h1 := cosAngle_diff (a := ![1, 0, 0]) (a' := ![1, 0, 0]) (α := 0) (by rw [vlen_vec]; norm_num) (by rw [h.orbit.node_len hi0]; exact hp)
      (by rw [sub_self]; simp [vlen]) (h.node_diff hi0) (by norm_num) ((h.node_small hi0 hi1).trans (by norm_num))
    rw [h.orbit.cos_node hi0 hh] at h1
    have h2 : 60 * R.u * (vlen s'.r * vlen s'.v) / vlen (nodeVec s') ≤ 130 * (t / Real.sin k.i) := by
      have e : 130 * (t / Real.sin k.i) * (97 / 100 * (vlen (angMom s) * Real.sin k.i)) = 1261 / 10 * (t * vlen (angMom s)) := by field_simp; ring
      have h3 : 0 ≤ 130 * (t / Real.sin k.i) := by have := h.t0; positivity
      have h4 := mul_le_mul_of_nonneg_left hN' h3
      rw [div_le_iff₀ (by linarith)]
      linarith
    have h5 := abs_add_le (Real.cos θ - cosAngle ![1, 0, 0] (nodeVec s')) (cosAngle ![1, 0, 0] (nodeVec s') - Real.cos k.OM)
    rw [sub_add_sub_cancel] at h5
    have h6 := hθ.cos
    have h7 : 0 ≤ t / Real.sin k.i := div_nonneg h.t0 hi0.le
    rw [mul_div_assoc] at h1 ⊢
    linarith
  · rw [div_lt_iff₀ hi0] at hs
    have := mul_lt_mul_of_pos_left hs hh
    linarith
  · rw [← neg_div, lt_div_iff₀ hi0] at hs
    have := mul_lt_mul_of_pos_left hs hh
    linarith

include he het

theorem Computed.om {θ : ℝ}
    (hθ : AngleErr R θ (cosAngle (nodeVec s') (eccVec mu s')) (400 * R.u * ((1 + 2 * vlen s'.r * vlen s'.v ^ 2 / mu) * (vlen s'.r * vlen s'.v)) / (vlen (nodeVec s') * vlen (eccVec mu s')))
      (eccVec mu s' 2) (19 * R.u * (1 + 2 * vlen s'.r * vlen s'.v ^ 2 / mu))) :
    AngleErr R θ (Real.cos k.om) (60000 * t / (k.e * Real.sin k.i)) (Real.sin k.om) (7100 * t / (k.e * Real.sin k.i)) := by
  have hh := h.h_pos
  have ht0 := h.t0
  have he0 : 0 < k.e := lt_of_lt_of_le (by norm_num) he
  have hp : 0 < vlen (angMom s) * Real.sin k.i := mul_pos hh hi0
  have hei : 0 < k.e * Real.sin k.i := mul_pos he0 hi0
  have hN' := h.node_ge hi0 hi1
  have hV := h.V
  have hrv := h.condrv
  have hc := h.cond
  have hsi1 := Real.sin_le_one k.i
  have hE' : 93 / 100 * k.e ≤ vlen (eccVec mu s') := by
    have := (abs_le.mp ((vlen_tri (eccVec mu s') (eccVec mu s)).trans hV)).1
    rw [h.ecc] at this
    linarith
  have hx : |eccVec mu s' 2 - eccVec mu s 2| ≤ 6900 * t := (comp_le_vlen (eccVec mu s' - eccVec mu s) 2).trans hV
  have hx0 : eccVec mu s 2 = k.e * (Real.sin k.om * Real.sin k.i) := by
    have := congrFun h.orbit.ecc 2
    rw [Kep.frame_ex] at this
    simpa [Kep.pz, mul_comm (Real.sin k.om)] using this
  rw [hx0] at hx
  obtain ⟨x1, x2⟩ := abs_le.mp hx
  have hth : 0 ≤ t * vlen (angMom s) := mul_nonneg h.t0 hh.le
  refine ⟨?_, fun hs => hθ.upper ?_, fun hs => hθ.lower ?_, hθ.range⟩
  · have h1 := cosAngle_diff (a := nodeVec s) (a' := nodeVec s') (b := eccVec mu s) (b' := eccVec mu s') (β := 6900 * t / k.e) (by rw [h.orbit.node_len hi0]; exact hp)
      (by rw [h.ecc]; exact he0) (h.node_diff hi0) (by rw [h.ecc, div_mul_cancel₀ _ he0.ne']; exact hV)
      ((h.node_small hi0 hi1).trans (by norm_num)) (by rw [div_le_iff₀ he0]; linarith)
    rw [h.orbit.cos_peri hi0 hh he0] at h1
    have h2 : 400 * R.u * ((1 + 2 * vlen s'.r * vlen s'.v ^ 2 / mu) * (vlen s'.r * vlen s'.v)) / (vlen (nodeVec s') * vlen (eccVec mu s')) ≤ 9200 * (t / (k.e * Real.sin k.i)) := by
      have hm := mul_le_mul hN' hE' (by linarith) (vlen_nonneg _)
      have e : 9200 * (t / (k.e * Real.sin k.i)) * (97 / 100 * (vlen (angMom s) * Real.sin k.i) * (93 / 100 * k.e)) = 9200 * (9021 / 10000) * (t * vlen (angMom s)) := by field_simp; ring
      have h3 : 0 ≤ 9200 * (t / (k.e * Real.sin k.i)) := by positivity
      have h4 := mul_le_mul_of_nonneg_left hm h3
      rw [div_le_iff₀ (lt_of_lt_of_le (by positivity) hm)]
      linarith
    have h3 : t / Real.sin k.i ≤ t / (k.e * Real.sin k.i) := div_le_div_of_nonneg_left ht0 hei (mul_le_of_le_one_left hi0.le h.e1.le)
    have h4 : t / k.e ≤ t / (k.e * Real.sin k.i) := div_le_div_of_nonneg_left ht0 hei (mul_le_of_le_one_right he0.le hsi1)
    have h5 := abs_add_le (Real.cos θ - cosAngle (nodeVec s') (eccVec mu s')) (cosAngle (nodeVec s') (eccVec mu s') - Real.cos k.om)
    rw [sub_add_sub_cancel] at h5
    have h6 := hθ.cos
    have h7 : 0 ≤ t / (k.e * Real.sin k.i) := by positivity
    rw [mul_div_assoc, mul_div_assoc] at h1
    rw [mul_div_assoc]
    linarith
  · rw [div_lt_iff₀ hei] at hs
    linarith
  · rw [← neg_div, lt_div_iff₀ hei] at hs
    linarith

omit hi0 hi1
include hmu

theorem Computed.nu {θ : ℝ}
    (hθ : AngleErr R θ (cosAngle (eccVec mu s') s'.r) (400 * R.u * (1 + 2 * vlen s'.r * vlen s'.v ^ 2 / mu) / vlen (eccVec mu s')) (s'.r ⬝ᵥ s'.v) (9 * R.u * (vlen s'.r * vlen s'.v))) :
    AngleErr R θ (Real.cos k.nu) (45000 * t / k.e) (Real.sin k.nu) (2100 * t / k.e) := by
  have ht0 := h.t0
  have he0 : 0 < k.e := lt_of_lt_of_le (by norm_num) he
  have hV := h.V
  have hc := h.cond
  have hrv := h.rv'
  have hE' : 93 / 100 * k.e ≤ vlen (eccVec mu s') := by
    have := (abs_le.mp ((vlen_tri (eccVec mu s') (eccVec mu s)).trans hV)).1
    rw [h.ecc] at this
    linarith
  obtain ⟨x1, x2⟩ := abs_le.mp h.D
  set Z := vlen s.r * mu / vlen (angMom s) with hZ
  have hZ0 : 0 < Z := by have := h.r_pos; have := h.h_pos; positivity
  have hx0 : s.r ⬝ᵥ s.v = Z * (k.e * Real.sin k.nu) := by
    have h1 := h.orbit.r_dot_v hmu h.h_pos
    rw [hZ, div_mul_eq_mul_div, eq_div_iff h.h_pos.ne', h1]
  rw [hx0] at x1 x2
  have htZ : 0 ≤ t * Z := mul_nonneg ht0 hZ0.le
  refine ⟨?_, fun hs => hθ.upper ?_, fun hs => hθ.lower ?_, hθ.range⟩
  · have h1 := cosAngle_diff (a := eccVec mu s) (a' := eccVec mu s') (b := s.r) (b' := s'.r) (α := 6900 * t / k.e) (by rw [h.ecc]; exact he0) h.r_pos
      (by rw [h.ecc, div_mul_cancel₀ _ he0.ne']; exact hV) h.P (by rw [div_le_iff₀ he0]; linarith) (by linarith [h.t1])
    rw [h.orbit.cos_anom h.r_pos he0] at h1
    have h2 : 400 * R.u * (1 + 2 * vlen s'.r * vlen s'.v ^ 2 / mu) / vlen (eccVec mu s') ≤ 4400 * (t / k.e) := by
      have e : 4400 * (t / k.e) * (93 / 100 * k.e) = 4092 * t := by field_simp; ring
      have h3 : 0 ≤ 4400 * (t / k.e) := by positivity
      have h4 := mul_le_mul_of_nonneg_left hE' h3
      rw [div_le_iff₀ (by linarith)]
      linarith
    have h3 : t ≤ t / k.e := by rw [le_div_iff₀ he0]; exact mul_le_of_le_one_right ht0 h.e1.le
    have h5 := abs_add_le (Real.cos θ - cosAngle (eccVec mu s') s'.r) (cosAngle (eccVec mu s') s'.r - Real.cos k.nu)
    rw [sub_add_sub_cancel] at h5
    have h6 := hθ.cos
    rw [mul_div_assoc] at h1 ⊢
    linarith
  · rw [div_lt_iff₀ he0] at hs
    have := mul_lt_mul_of_pos_left hs hZ0
    linarith
  · rw [← neg_div, lt_div_iff₀ he0] at hs
    have := mul_lt_mul_of_pos_left hs hZ0
    linarith
end

/-- C94: for every ellipse with `t = u / (1 - e)^2`, `10^5 t ≤ 1 - e`, `10^5 t ≤ e`, `4e-9 ≤ e`, `10^5 t ≤ sin i` and `300 t + 2e-16 ≤ sin² i`, in any arithmetic that
rounds to nearest: converting elements to Cartesian coordinates and these back returns six numbers; besides the bounds of C90, the cosines of node, argument of periapsis and true
anomaly differ from the given ones by at most `11000 t / sin i`, `60000 t / (e sin i)` and `45000 t / e`, and each angle is put into the right half plane as soon as the
sine of the given angle exceeds `2100 t / sin i`, `7100 t / (e sin i)`, `2100 t / e`. -/
theorem c94 (hR : Nearest R) (g : Nat → RF R) (g' : Nat → CtkGarbage (RF R)) {mu : ℝ} {k : Kep ℝ} (hmu : 0 < mu) (ha : 0 < k.a) (he1 : k.e < 1)
    (hs : 10 ^ 5 * R.u ≤ (1 - k.e) ^ 3) (hee : 4 / 10 ^ 9 ≤ k.e) (het : 10 ^ 5 * (R.u / (1 - k.e) ^ 2) ≤ k.e) (hi0 : 0 < Real.sin k.i)
    (hi1 : 10 ^ 5 * (R.u / (1 - k.e) ^ 2) ≤ Real.sin k.i) (hi2 : 300 * (R.u / (1 - k.e) ^ 2) + 2 / 10 ^ 16 ≤ Real.sin k.i ^ 2) :
    ∃ (c : Cart (RF R)) (k' : Kep ℝ), (kep_to_cart g (.sc (RF.num R mu)) false (.vec .f64 (k.num R))).1 = .ok (.vec .f64 c) ∧
      (cart_to_kep g' (.sc (RF.num R mu)) false (.vec .f64 c)).1 = .ok (.vec .f64 (k'.num R)) ∧
      |k'.e - k.e| ≤ 8000 * R.u / (1 - k.e) ^ 2 ∧ |k'.a - k.a| ≤ 4000 * R.u / (1 - k.e) ^ 2 * k.a ∧ |Real.cos k'.i - Real.cos k.i| ≤ 5000 * R.u / (1 - k.e) ^ 2 ∧
      AngleErr R k'.OM (Real.cos k.OM) (11000 * (R.u / (1 - k.e) ^ 2) / Real.sin k.i) (Real.sin k.OM) (2100 * (R.u / (1 - k.e) ^ 2) / Real.sin k.i) ∧
      AngleErr R k'.om (Real.cos k.om) (60000 * (R.u / (1 - k.e) ^ 2) / (k.e * Real.sin k.i)) (Real.sin k.om) (7100 * (R.u / (1 - k.e) ^ 2) / (k.e * Real.sin k.i)) ∧
      AngleErr R k'.nu (Real.cos k.nu) (45000 * (R.u / (1 - k.e) ^ 2) / k.e) (Real.sin k.nu) (2100 * (R.u / (1 - k.e) ^ 2) / k.e) := by
  have he0 : 0 < k.e := lt_of_lt_of_le (by norm_num) hee
  obtain ⟨c, k', a, e, i, c1, c2, c3, c4, c5, c6, c7, c8⟩ := c90 hR g g' hmu ha he0.le he1 hs
  obtain ⟨s, s', hres, h⟩ := computed (R := R) g hmu ha he0.le he1 hs
  have hc : c = s'.num R := by
    have := c1.symm.trans hres
    injection this with this
    injection this
  subst hc
  have hh := h.h_pos
  have htri := abs_le.mp ((vlen_tri (angMom s') (angMom s)).trans h.H)
  have h2012 : 2012 * (R.u / (1 - k.e) ^ 2) * vlen (angMom s) ≤ 3 / 100 * vlen (angMom s) := mul_le_mul_of_nonneg_right (by linarith [h.t1, h.t0]) hh.le
  have hh' : 97 / 100 * vlen (angMom s) ≤ vlen (angMom s') := by linarith [htri.1]
  have hh'' : vlen (angMom s') ≤ 103 / 100 * vlen (angMom s) := by linarith [htri.2]
  have hne' : angMom s' ≠ 0 := by
    intro h0
    rw [h0] at hh'
    simp [vlen] at hh'
    change 0 < vlen (angMom s) at hh
    unfold vlen at hh
    linarith
  have hN' := h.node_ge hi0 hi1
  have hV := (abs_le.mp ((vlen_tri (eccVec mu s') (eccVec mu s)).trans h.V)).1
  rw [h.ecc] at hV
  generalize hT : R.u / (1 - k.e) ^ 2 = t at *
  have ht0 := h.t0
  obtain ⟨k'', om, OM, nu, d1, d2, d3, d4, d5, d6, d7⟩ := c93 hR g' hmu hne' (by norm_num at hee ⊢; linarith) (by linarith [h.cond]) (by
    have h1 : (97 / 100 * (vlen (angMom s) * Real.sin k.i)) ^ 2 ≤ vlen (nodeVec s') ^ 2 := pow_le_pow_left₀ (by positivity) hN' 2
    refine le_trans ?_ h1
    have h2 : vlen (angMom s) ^ 2 * (300 * t + 2 / 10 ^ 16) ≤ vlen (angMom s) ^ 2 * Real.sin k.i ^ 2 := mul_le_mul_of_nonneg_left hi2 (sq_nonneg _)
    have h3 : vlen (angMom s') ^ 2 ≤ (103 / 100 * vlen (angMom s)) ^ 2 := pow_le_pow_left₀ (vlen_nonneg _) hh'' 2
    have h4 : R.u * (vlen s'.r * vlen s'.v) * vlen (angMom s') ≤ 205 / 100 * (t * vlen (angMom s)) * (103 / 100 * vlen (angMom s)) :=
      mul_le_mul h.rv hh'' (vlen_nonneg _) (by positivity)
    have h5 : 0 ≤ t * vlen (angMom s) ^ 2 := by positivity
    have h6 : 0 ≤ vlen (angMom s) ^ 2 := sq_nonneg _
    norm_num at h2 ⊢
    nlinarith)
  have hk : k' = k'' := by
    have := c2.symm.trans d1
    injection this with this
    injection this
  subst hk
  refine ⟨_, ⟨a, e, i, om, OM, nu⟩, hres, ?_, c6, c7, c8, h.OM hi0 hi1 d5, h.om hee het hi0 hi1 d6, h.nu hmu hee het d7⟩
  rw [c2]
  congr 2
  cases k'
  simp only [Kep.num] at *
  simp only [Kep.mk.injEq]
  exact ⟨c3, c4, c5, d2, d3, d4⟩

/-- C94 in double precision, for eccentricities between 1e-6 and 0.99 and `sin i ≥ 1e-4`: the cosines of node, argument of periapsis and true anomaly change by at most
1.3e-12 / ((1 - e)² sin i), 6.7e-12 / ((1 - e)² e sin i) and 5.1e-12 / ((1 - e)² e). -/
theorem c94_binary64 (g : Nat → RF Binary.binary64) (g' : Nat → CtkGarbage (RF Binary.binary64)) {mu : ℝ} {k : Kep ℝ} (hmu : 0 < mu) (ha : 0 < k.a)
    (he0 : 1 / 10 ^ 6 ≤ k.e) (he1 : k.e ≤ 0.99) (hi : 1 / 10 ^ 4 ≤ Real.sin k.i) :
    ∃ (c : Cart (RF Binary.binary64)) (k' : Kep ℝ), (kep_to_cart g (.sc (RF.num _ mu)) false (.vec .f64 (k.num _))).1 = .ok (.vec .f64 c) ∧
      (cart_to_kep g' (.sc (RF.num _ mu)) false (.vec .f64 c)).1 = .ok (.vec .f64 (k'.num _)) ∧
      |k'.e - k.e| ≤ 9 / 10 ^ 13 / (1 - k.e) ^ 2 ∧ |k'.a - k.a| ≤ 4.5 / 10 ^ 13 / (1 - k.e) ^ 2 * k.a ∧ |Real.cos k'.i - Real.cos k.i| ≤ 5.6 / 10 ^ 13 / (1 - k.e) ^ 2 ∧
      AngleErr Binary.binary64 k'.OM (Real.cos k.OM) (1.3 / 10 ^ 12 / ((1 - k.e) ^ 2 * Real.sin k.i)) (Real.sin k.OM) (2.4 / 10 ^ 13 / ((1 - k.e) ^ 2 * Real.sin k.i)) ∧
      AngleErr Binary.binary64 k'.om (Real.cos k.om) (6.7 / 10 ^ 12 / ((1 - k.e) ^ 2 * (k.e * Real.sin k.i))) (Real.sin k.om)
        (8 / 10 ^ 13 / ((1 - k.e) ^ 2 * (k.e * Real.sin k.i))) ∧
      AngleErr Binary.binary64 k'.nu (Real.cos k.nu) (5.1 / 10 ^ 12 / ((1 - k.e) ^ 2 * k.e)) (Real.sin k.nu) (2.4 / 10 ^ 13 / ((1 - k.e) ^ 2 * k.e)) := by
  have hu : Binary.binary64.u = (1 / 2) ^ 53 := rfl
  have hu1 : Binary.binary64.u ≤ 1.112 / 10 ^ 16 := by rw [hu]; norm_num
  have hq : (1 / 100 : ℝ) ≤ 1 - k.e := by norm_num at he1 ⊢; linarith
  have hq3 := pow_le_pow_left₀ (by norm_num) hq 3
  have hq2 := pow_le_pow_left₀ (by norm_num) hq 2
  have hq2' : 0 < (1 - k.e) ^ 2 := lt_of_lt_of_le (by norm_num) hq2
  have ht : Binary.binary64.u / (1 - k.e) ^ 2 ≤ 1.112 / 10 ^ 12 := by
    rw [div_le_iff₀ hq2']
    calc Binary.binary64.u ≤ 1.112 / 10 ^ 12 * (1 / 100) ^ 2 := by rw [hu]; norm_num
      _ ≤ _ := mul_le_mul_of_nonneg_left hq2 (by norm_num)
  have he : 0 < k.e := lt_of_lt_of_le (by norm_num) he0
  have hi0 : 0 < Real.sin k.i := lt_of_lt_of_le (by norm_num) hi
  have hi2 := pow_le_pow_left₀ (by norm_num) hi 2
  obtain ⟨c, k', h1, h2, h3, h4, h5, h6, h7, h8⟩ := c94 Binary.nearest g g' hmu ha (by norm_num at he1; linarith) (by
      refine le_trans ?_ hq3
      rw [hu]; norm_num) (le_trans (by norm_num) he0) (by norm_num at ht he0 ⊢; linarith) hi0 (by norm_num at ht hi ⊢; linarith) (by norm_num at ht hi2 ⊢; linarith)
  have key : ∀ {C D x : ℝ}, 0 < x → C * Binary.binary64.u ≤ D → C * (Binary.binary64.u / (1 - k.e) ^ 2) / x ≤ D / ((1 - k.e) ^ 2 * x) := by
    intro C D x hx h
    rw [mul_div_assoc', div_div]
    exact div_le_div_of_nonneg_right h (by positivity)
  have hei : 0 < k.e * Real.sin k.i := mul_pos he hi0
  refine ⟨c, k', h1, h2, h3.trans (div_le_div_of_nonneg_right ?_ hq2'.le), h4.trans (mul_le_mul_of_nonneg_right (div_le_div_of_nonneg_right ?_ hq2'.le) ha.le),
    h5.trans (div_le_div_of_nonneg_right ?_ hq2'.le), h6.mono (key hi0 ?_) (fun h => lt_of_le_of_lt (key hi0 ?_) h) (fun h => lt_of_lt_of_le h (neg_le_neg (key hi0 ?_))),
    h7.mono (key hei ?_) (fun h => lt_of_le_of_lt (key hei ?_) h) (fun h => lt_of_lt_of_le h (neg_le_neg (key hei ?_))),
    h8.mono (key he ?_) (fun h => lt_of_le_of_lt (key he ?_) h) (fun h => lt_of_lt_of_le h (neg_le_neg (key he ?_)))⟩ <;>
  · norm_num at hu1 ⊢
    linarith

/-- a case of `c94_binary64`: an ellipse with e = 1/2, inclined by 30 degrees -/
example : 0 < (⟨2, 1 / 2, Real.pi / 6, 1, 1, 1⟩ : Kep ℝ).a ∧ 1 / 10 ^ 6 ≤ (⟨2, 1 / 2, Real.pi / 6, 1, 1, 1⟩ : Kep ℝ).e ∧ (⟨2, 1 / 2, Real.pi / 6, 1, 1, 1⟩ : Kep ℝ).e ≤ 0.99 ∧
    1 / 10 ^ 4 ≤ Real.sin (⟨2, 1 / 2, Real.pi / 6, 1, 1, 1⟩ : Kep ℝ).i := by
  refine ⟨by norm_num, by norm_num, by norm_num, ?_⟩
  show 1 / 10 ^ 4 ≤ Real.sin (Real.pi / 6)
  rw [Real.sin_pi_div_six]
  norm_num

end Pyorb
