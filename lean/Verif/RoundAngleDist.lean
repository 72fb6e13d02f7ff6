import Verif.PropsRoundAngle

/-!
# From the cosine and the half plane of an angle to the angle itself

An angle known by its cosine, up to an error `ε`, and by the sign of its sine is known up to `8 ε / (|sin θ| + sqrt ε)`: an error of the size of `ε` away from
multiples of a half turn, of the size of `sqrt ε` there.
-/

namespace Pyorb
open FX RF
variable {R : Rounding}

/-- the error of an angle whose cosine has an error `ε` -/
noncomputable def angTol (ε θ : ℝ) : ℝ := 8 * ε / (|Real.sin θ| + √ε)

namespace AngleDist

/-- two angles in the upper half plane whose cosines are close -/
theorem cos_gap {x y ε : ℝ} (hx0 : 0 ≤ x) (hx1 : x ≤ Real.pi) (hy0 : 0 ≤ y) (hy1 : y ≤ Real.pi) (h : |Real.cos y - Real.cos x| ≤ ε) :
    |y - x| ^ 2 ≤ 5 * ε ∧ |y - x| * Real.sin x ≤ 63 / 20 * ε := by
  have hpi := Real.pi_pos
  have hp2 := Real.pi_lt_d2
  obtain ⟨d, hd⟩ : ∃ d, d = |y - x| := ⟨_, rfl⟩
  have hd0 : 0 ≤ d := hd ▸ abs_nonneg _
  have hd1 : d ≤ Real.pi := by rw [hd, abs_le]; constructor <;> linarith
  obtain ⟨S, hS⟩ : ∃ S, S = Real.sin ((y + x) / 2) := ⟨_, rfl⟩
  have hS0 : 0 ≤ S := by rw [hS]; exact Real.sin_nonneg_of_nonneg_of_le_pi (by linarith) (by linarith)
  have hsd : Real.sin (d / 2) = |Real.sin ((y - x) / 2)| := by
    rcases abs_cases (y - x) with ⟨c, c'⟩ | ⟨c, c'⟩
    · rw [hd, c, abs_of_nonneg (Real.sin_nonneg_of_nonneg_of_le_pi (by linarith) (by linarith))]
    · rw [hd, c, show -(y - x) / 2 = -((y - x) / 2) by ring, Real.sin_neg, abs_of_nonpos (Real.sin_nonpos_of_nonpos_of_neg_pi_le (by linarith) (by linarith))]
  have hprod : 2 * S * Real.sin (d / 2) ≤ ε := by
    rw [Real.cos_sub_cos, abs_mul, abs_mul, abs_neg, abs_two, ← hS, abs_of_nonneg hS0, ← hsd] at h
    exact h
  have hlow : d ≤ Real.pi * Real.sin (d / 2) := by
    have := Real.mul_le_sin (x := d / 2) (by linarith) (by linarith)
    have h2 := mul_le_mul_of_nonneg_left this hpi.le
    rw [show Real.pi * (2 / Real.pi * (d / 2)) = d by field_simp] at h2
    exact h2
  have hs0 : 0 ≤ Real.sin (d / 2) := by rw [hsd]; exact abs_nonneg _
  have hSd : Real.sin (d / 2) ≤ S := by
    rw [hsd, hS, abs_le]
    have hx2 : 0 ≤ Real.sin (x / 2) := Real.sin_nonneg_of_nonneg_of_le_pi (by linarith) (by linarith)
    have hy2 : 0 ≤ Real.sin (y / 2) := Real.sin_nonneg_of_nonneg_of_le_pi (by linarith) (by linarith)
    have hx3 : 0 ≤ Real.cos (x / 2) := Real.cos_nonneg_of_neg_pi_div_two_le_of_le (by linarith) (by linarith)
    have hy3 : 0 ≤ Real.cos (y / 2) := Real.cos_nonneg_of_neg_pi_div_two_le_of_le (by linarith) (by linarith)
    rw [show (y - x) / 2 = y / 2 - x / 2 by ring, show (y + x) / 2 = y / 2 + x / 2 by ring, Real.sin_sub, Real.sin_add]
    have := mul_nonneg hy2 hx3
    have := mul_nonneg hy3 hx2
    constructor <;> linarith
  have hSx : Real.sin x ≤ 2 * S := by
    have hy : 0 ≤ Real.sin y := Real.sin_nonneg_of_nonneg_of_le_pi hy0 hy1
    have e : Real.sin y + Real.sin x = 2 * S * Real.cos ((y - x) / 2) := by
      rw [hS, show y = (y + x) / 2 + (y - x) / 2 by ring, show x = (y + x) / 2 - (y - x) / 2 by ring, Real.sin_add, Real.sin_sub]
      ring_nf
    have := mul_le_mul_of_nonneg_left (Real.cos_le_one ((y - x) / 2)) (show 0 ≤ 2 * S by linarith)
    linarith
  rw [← hd]
  have hε : 0 ≤ ε := (abs_nonneg _).trans h
  constructor
  · have h1 : d ^ 2 ≤ (Real.pi * Real.sin (d / 2)) ^ 2 := pow_le_pow_left₀ hd0 hlow 2
    have h2 := mul_le_mul_of_nonneg_right hSd hs0
    have h3 : Real.pi ^ 2 ≤ 10 := by nlinarith
    have h4 : Real.sin (d / 2) ^ 2 ≤ ε / 2 := by nlinarith
    have h5 := mul_le_mul h3 h4 (sq_nonneg _) (by norm_num)
    nlinarith
  · have h1 := mul_le_mul hlow hSx (Real.sin_nonneg_of_nonneg_of_le_pi hx0 hx1) (mul_nonneg hpi.le hs0)
    have h2 := mul_le_mul_of_nonneg_left hprod hpi.le
    have h3 := mul_le_mul_of_nonneg_right hp2.le hε
    have e : Real.pi * Real.sin (d / 2) * (2 * S) = Real.pi * (2 * S * Real.sin (d / 2)) := by ring
    rw [e] at h1
    norm_num at h3 ⊢
    linarith

theorem reduce (θ : ℝ) : ∃ z : ℤ, -Real.pi < θ + z * (2 * Real.pi) ∧ θ + z * (2 * Real.pi) ≤ Real.pi := by
  have h := toIocMod_mem_Ioc Real.two_pi_pos (-Real.pi) θ
  refine ⟨-toIocDiv Real.two_pi_pos (-Real.pi) θ, ?_⟩
  have e : θ + ((-toIocDiv Real.two_pi_pos (-Real.pi) θ : ℤ) : ℝ) * (2 * Real.pi) = toIocMod Real.two_pi_pos (-Real.pi) θ := by
    rw [toIocMod, zsmul_eq_mul]; push_cast; ring
  rw [e]
  exact ⟨h.1, by have := h.2; linarith⟩

theorem le_sqrt5 {d ε : ℝ} {K c : ℝ} (hc : 0 ≤ c) (hK : K ≤ c ^ 2) (hε : 0 ≤ ε) (h : d ^ 2 ≤ K * ε) : d ≤ c * √ε := by
  have h1 := Real.sq_sqrt hε
  refine (abs_le_of_sq_le_sq' ?_ (by positivity)).2
  rw [mul_pow, h1]
  exact h.trans (mul_le_mul_of_nonneg_right hK hε)

/-- the half plane is right -/
theorem upper {θ' θ ε τ : ℝ} (hτ0 : 0 ≤ τ) (hτ : 100 * τ ≤ 31 * ε) (hε : ε ≤ 1 / 100) (hs : 0 < Real.sin θ) (h0 : -τ ≤ θ') (h1 : θ' ≤ Real.pi + τ)
    (h : |Real.cos θ' - Real.cos θ| ≤ ε) : ∃ z : ℤ, |θ' - (θ + z * (2 * Real.pi))| * (|Real.sin θ| + √ε) ≤ 8 * ε := by
  have hpi := Real.pi_pos
  have hε0 : 0 ≤ ε := (abs_nonneg _).trans h
  obtain ⟨z, z1, z2⟩ := reduce θ
  refine ⟨z, ?_⟩
  have hsz : Real.sin (θ + z * (2 * Real.pi)) = Real.sin θ := Real.sin_add_int_mul_two_pi θ z
  have hcz : Real.cos (θ + z * (2 * Real.pi)) = Real.cos θ := Real.cos_add_int_mul_two_pi θ z
  rw [← hsz] at hs ⊢
  rw [← hcz] at h
  generalize θ + z * (2 * Real.pi) = x at *
  have hx0 : 0 ≤ x := by
    by_contra hc
    have := Real.sin_nonpos_of_nonpos_of_neg_pi_le (x := x) (by linarith) (by linarith)
    linarith
  obtain ⟨y, hy⟩ : ∃ y, y = max 0 (min θ' Real.pi) := ⟨_, rfl⟩
  have hy0 : 0 ≤ y := hy ▸ le_max_left _ _
  have hy1 : y ≤ Real.pi := by rw [hy]; exact max_le hpi.le (min_le_right _ _)
  have hyd : |θ' - y| ≤ τ := by
    rw [abs_le]
    rcases le_total θ' 0 with c | c
    · have : y = 0 := by rw [hy, min_eq_left (by linarith), max_eq_left c]
      constructor <;> linarith
    · rcases le_total θ' Real.pi with c' | c'
      · have : y = θ' := by rw [hy, min_eq_left c', max_eq_right c]
        constructor <;> linarith
      · have : y = Real.pi := by rw [hy, min_eq_right c', max_eq_right hpi.le]
        constructor <;> linarith
  have hcy : |Real.cos y - Real.cos θ'| ≤ τ := by
    have := Real.abs_cos_sub_cos_le y θ'
    rw [abs_sub_comm y θ'] at this
    linarith
  have hc : |Real.cos y - Real.cos x| ≤ 131 / 100 * ε := by
    have := abs_sub_le (Real.cos y) (Real.cos θ') (Real.cos x)
    linarith
  obtain ⟨g1, g2⟩ := cos_gap hx0 z2 hy0 hy1 hc
  have hd0 := abs_nonneg (y - x)
  have g3 := le_sqrt5 (c := 257 / 100) (K := 655 / 100) (d := |y - x|) (by norm_num) (by norm_num) hε0 (by linarith)
  have hq := Real.sqrt_nonneg ε
  have hqq := Real.mul_self_sqrt hε0
  have g4 := mul_le_mul_of_nonneg_right g3 hq
  have g5 := abs_sub_le θ' y x
  rw [abs_of_pos hs]
  have hs1 := Real.sin_le_one x
  have hq1 : √ε ≤ 1 / 10 := by rw [Real.sqrt_le_left (by norm_num)]; linarith
  have g6 : τ * (Real.sin x + √ε) ≤ 31 / 100 * ε * (11 / 10) := mul_le_mul (by linarith) (by linarith) (by linarith) (by linarith)
  have g7 : |θ' - x| * (Real.sin x + √ε) ≤ (τ + |y - x|) * (Real.sin x + √ε) := mul_le_mul_of_nonneg_right (by linarith) (by linarith)
  linarith

/-- both angles are close to whole turns -/
theorem whole {θ' θ ε δ : ℝ} (hδ : 10 ^ 4 * δ ^ 2 ≤ ε) (hs : |Real.sin θ| ≤ δ) (hc : 0 ≤ Real.cos θ)
    (h : |Real.cos θ' - Real.cos θ| ≤ ε) : ∃ z : ℤ, |θ' - (θ + z * (2 * Real.pi))| * (|Real.sin θ| + √ε) ≤ 8 * ε := by
  have hpi := Real.pi_pos
  have hε0 : 0 ≤ ε := (abs_nonneg _).trans h
  obtain ⟨z, z1, z2⟩ := reduce θ
  obtain ⟨z', z1', z2'⟩ := reduce θ'
  have hcos1 : 1 - δ ^ 2 ≤ Real.cos θ := by
    have h1 := Real.sin_sq_add_cos_sq θ
    have h2 : Real.sin θ ^ 2 ≤ δ ^ 2 := by rw [← sq_abs]; exact pow_le_pow_left₀ (abs_nonneg _) hs 2
    have h3 := mul_le_mul_of_nonneg_left (Real.cos_le_one θ) hc
    nlinarith
  have gap : ∀ {x η : ℝ}, -Real.pi < x → x ≤ Real.pi → 1 - η ≤ Real.cos x → |x| ^ 2 ≤ 5 * η := by
    intro x η a b c
    have h1 := (cos_gap (x := 0) (y := |x|) (ε := η) le_rfl hpi.le (abs_nonneg _) (abs_le.mpr ⟨by linarith, b⟩) (by
      rw [Real.cos_abs, Real.cos_zero, abs_le]
      have := Real.cos_le_one x
      constructor <;> linarith)).1
    rw [sub_zero, abs_abs] at h1
    exact h1
  have a1 := gap z1 z2 (η := δ ^ 2) (by rw [Real.cos_add_int_mul_two_pi]; exact hcos1)
  have a2 := gap z1' z2' (η := 10001 / 10000 * ε) (by rw [Real.cos_add_int_mul_two_pi]; have := (abs_le.mp h).1; linarith)
  refine ⟨z - z', ?_⟩
  push_cast
  have e : θ' - (θ + ((z : ℝ) - z') * (2 * Real.pi)) = (θ' + z' * (2 * Real.pi)) - (θ + z * (2 * Real.pi)) := by ring
  rw [e]
  have hq := Real.sqrt_nonneg ε
  have hqq := Real.mul_self_sqrt hε0
  have b1 := le_sqrt5 (c := 1 / 10) (K := 5 / 10000) (d := |θ + z * (2 * Real.pi)|) (by norm_num) (by norm_num) hε0 (by linarith)
  have b2 := le_sqrt5 (c := 9 / 4) (K := 506 / 100) (d := |θ' + z' * (2 * Real.pi)|) (by norm_num) (by norm_num) hε0 (by linarith)
  have b3 := abs_sub (θ' + z' * (2 * Real.pi)) (θ + z * (2 * Real.pi))
  have b4 : δ ≤ 1 / 100 * √ε := le_sqrt5 (K := 1 / 10000) (d := δ) (by norm_num) (by norm_num) hε0 (by linarith)
  have b5 : |Real.sin θ| + √ε ≤ 101 / 100 * √ε := by linarith
  have b6 := mul_le_mul (show |(θ' + z' * (2 * Real.pi)) - (θ + z * (2 * Real.pi))| ≤ 47 / 20 * √ε by linarith) b5 (by positivity) (by positivity)
  linarith

theorem close {θ' θ ε δ : ℝ} (hδ0 : 0 ≤ δ) (hδ : 10 ^ 4 * δ ^ 2 ≤ ε) (hu : 100 * R.u ≤ ε) (hε : ε ≤ 1 / 100) (h : AngleErr R θ' (Real.cos θ) ε (Real.sin θ) δ) :
    ∃ z : ℤ, |θ' - (θ + z * (2 * Real.pi))| ≤ angTol ε θ := by
  have hu0 := R.u_nonneg
  have hpi := Real.pi_pos
  rcases eq_or_lt_of_le (show 0 ≤ ε by linarith) with hz | hεp
  · -- no error at all
    have hu1 : R.u = 0 := by linarith
    have hd1 : δ = 0 := by nlinarith
    have hcc : Real.cos θ' = Real.cos θ := by have := abs_nonpos_iff.mp (h.cos.trans hz.ge); linarith
    have hss : Real.sin θ' = Real.sin θ := by
      have e1 := Real.sin_sq_add_cos_sq θ
      have e2 := Real.sin_sq_add_cos_sq θ'
      have e3 : (Real.sin θ' - Real.sin θ) * (Real.sin θ' + Real.sin θ) = 0 := by rw [hcc] at e2; linear_combination e2 - e1
      rcases lt_trichotomy (Real.sin θ) 0 with c | c | c
      · have := h.lower (by rw [hd1]; linarith)
        rw [hu1] at this
        have s := Real.sin_nonneg_of_nonneg_of_le_pi (x := θ' - Real.pi) (by linarith) (by linarith)
        rw [Real.sin_sub_pi] at s
        rcases mul_eq_zero.mp e3 with e | e <;> nlinarith
      · rw [c] at e3 ⊢; nlinarith
      · have := h.upper (by rw [hd1]; linarith)
        rw [hu1] at this
        have s := Real.sin_nonneg_of_nonneg_of_le_pi (x := θ') (by linarith) (by linarith)
        rcases mul_eq_zero.mp e3 with e | e <;> nlinarith
    obtain ⟨z, hz'⟩ := Real.Angle.angle_eq_iff_two_pi_dvd_sub.mp (Real.Angle.cos_sin_inj hcc hss)
    refine ⟨z, ?_⟩
    rw [show θ' - (θ + z * (2 * Real.pi)) = 0 by linarith, abs_zero, angTol, ← hz]
    simp
  have hq : 0 < √ε := Real.sqrt_pos.mpr hεp
  suffices H : ∃ z : ℤ, |θ' - (θ + z * (2 * Real.pi))| * (|Real.sin θ| + √ε) ≤ 8 * ε by
    obtain ⟨z, hz⟩ := H
    exact ⟨z, by rw [angTol, le_div_iff₀ (by positivity)]; exact hz⟩
  rcases lt_or_ge δ (Real.sin θ) with c | c
  · have := h.upper c
    exact upper (τ := 31 * R.u) (by linarith) (by linarith) hε (by linarith) (by linarith) this.2 h.cos
  rcases lt_or_ge (Real.sin θ) (-δ) with c' | c'
  · have := h.lower c'
    obtain ⟨z, hz⟩ := upper (θ := -θ) (θ' := 2 * Real.pi - θ') (ε := ε) (τ := 31 * R.u) (by linarith) (by linarith) hε (by rw [Real.sin_neg]; linarith) (by linarith) (by linarith)
      (by rw [Real.cos_two_pi_sub, Real.cos_neg]; exact h.cos)
    refine ⟨1 - z, ?_⟩
    rw [Real.sin_neg, abs_neg] at hz
    push_cast
    rw [abs_sub_comm, show θ + (1 - (z : ℝ)) * (2 * Real.pi) - θ' = 2 * Real.pi - θ' - (-θ + z * (2 * Real.pi)) by ring]
    exact hz
  have hs : |Real.sin θ| ≤ δ := abs_le.mpr ⟨by linarith, c⟩
  rcases le_total 0 (Real.cos θ) with hc | hc
  · exact whole hδ hs hc h.cos
  · obtain ⟨z, hz⟩ := whole (θ := θ - Real.pi) (θ' := θ' - Real.pi) hδ (by rw [Real.sin_sub_pi, abs_neg]; exact hs) (by rw [Real.cos_sub_pi]; linarith)
      (by rw [Real.cos_sub_pi, Real.cos_sub_pi, neg_sub_neg, abs_sub_comm]; exact h.cos)
    refine ⟨z, ?_⟩
    rw [Real.sin_sub_pi, abs_neg] at hz
    rw [show θ' - (θ + (z : ℝ) * (2 * Real.pi)) = θ' - Real.pi - (θ - Real.pi + z * (2 * Real.pi)) by ring]
    exact hz

theorem tol_nonneg {ε : ℝ} (hε : 0 ≤ ε) (θ : ℝ) : 0 ≤ angTol ε θ := by unfold angTol; positivity

/-- never more than the square root -/
theorem tol_le_sqrt {ε : ℝ} (hε : 0 ≤ ε) (θ : ℝ) : angTol ε θ ≤ 8 * √ε := by
  rcases eq_or_lt_of_le hε with rfl | h
  · simp [angTol]
  have hq : 0 < √ε := Real.sqrt_pos.mpr h
  rw [angTol, div_le_iff₀ (by positivity)]
  have := Real.mul_self_sqrt hε
  have := mul_nonneg hq.le (abs_nonneg (Real.sin θ))
  linarith

/-- proportional to the error of the cosine away from half turns -/
theorem tol_le_sin {ε s : ℝ} (hε : 0 ≤ ε) (hs : 0 < s) {θ : ℝ} (h : s ≤ |Real.sin θ|) : angTol ε θ ≤ 8 * ε / s := by
  refine div_le_div_of_nonneg_left (by positivity) hs ?_
  have := Real.sqrt_nonneg ε
  linarith

end AngleDist
end Pyorb
