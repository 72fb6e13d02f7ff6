import Verif.PropsRoundAnom
import Verif.PropsRoundStumpff
import Verif.PropsOrbitOpen

/-!
# The anomaly conversions on hyperbolas with rounding (C104)
-/

set_option linter.unusedSimpArgs false
set_option linter.unusedVariables false

namespace Pyorb
open RF FX Orbit
namespace RHyper
variable {R : Rounding}

/-! ## How the true anomaly depends on the hyperbolic one -/

theorem tanh_deriv (x : ℝ) : HasDerivAt Real.tanh (1 / Real.cosh x ^ 2) x := by
  have h := (Real.hasDerivAt_sinh x).div (Real.hasDerivAt_cosh x) (Real.cosh_pos x).ne'
  have e : Real.tanh = Real.sinh / Real.cosh := by funext y; exact Real.tanh_eq_sinh_div_cosh y
  rw [e]
  refine h.congr_deriv ?_
  congr 1
  have := Real.cosh_sq_sub_sinh_sq x
  nlinarith

/-- half the true anomaly of the point with hyperbolic anomaly `E`, `k = sqrt ((e + 1) / (e - 1))` -/
noncomputable def halfNu (k E : ℝ) : ℝ := Real.arctan (k * Real.tanh (E / 2))

theorem halfNu_deriv (k E : ℝ) : HasDerivAt (halfNu k) (k / (2 * (Real.cosh (E / 2) ^ 2 + k ^ 2 * Real.sinh (E / 2) ^ 2))) E := by
  have h1 : HasDerivAt (fun E : ℝ => E / 2) (1 / 2) E := (hasDerivAt_id E).div_const 2
  have h2 := (((tanh_deriv (E / 2)).comp E h1).const_mul k).arctan
  refine h2.congr_deriv ?_
  have hc := Real.cosh_pos (E / 2)
  simp only [Function.comp]
  rw [Real.tanh_eq_sinh_div_cosh]
  have : 0 < Real.cosh (E / 2) ^ 2 + k ^ 2 * Real.sinh (E / 2) ^ 2 := by positivity
  field_simp

theorem cosh_half (E : ℝ) : Real.cosh E = Real.cosh (E / 2) ^ 2 + Real.sinh (E / 2) ^ 2 := by
  rw [← Real.cosh_two_mul]; congr 1; ring

/-- the true anomaly grows at least as fast as `1 / (k cosh F)` up to `F` -/
theorem halfNu_growth {k F a b : ℝ} (hk : 1 ≤ k) (ha : -F ≤ a) (hab : a ≤ b) (hb : b ≤ F) :
    1 / (2 * k * Real.cosh F) * (b - a) ≤ halfNu k b - halfNu k a := by
  refine Convex.mul_sub_le_image_sub_of_le_deriv (convex_Icc (-F) F) (fun x _ => (halfNu_deriv k x).continuousAt.continuousWithinAt)
    (fun x _ => (halfNu_deriv k x).differentiableAt.differentiableWithinAt) ?_ a ⟨ha, by linarith⟩ b ⟨by linarith, hb⟩ hab
  intro x hx
  rw [interior_Icc] at hx
  rw [(halfNu_deriv k x).deriv]
  have hc : Real.cosh x ≤ Real.cosh F := by
    rw [Real.cosh_le_cosh, abs_of_nonneg (show 0 ≤ F by linarith [hx.1, hx.2])]
    exact abs_le.mpr ⟨hx.1.le, hx.2.le⟩
  have hc0 := Real.cosh_pos (x / 2)
  have hF := Real.cosh_pos F
  have hk2 : 1 ≤ k ^ 2 := one_le_pow₀ hk
  rw [div_le_div_iff₀ (by positivity) (by positivity)]
  have h1 := cosh_half x
  have h2 := sq_nonneg (Real.cosh (x / 2))
  have h3 : k ^ 2 * Real.cosh x ≤ k ^ 2 * Real.cosh F := mul_le_mul_of_nonneg_left hc (by positivity)
  have h4 : Real.cosh (x / 2) ^ 2 + k ^ 2 * Real.sinh (x / 2) ^ 2 ≤ k ^ 2 * Real.cosh x := by
    rw [h1]; nlinarith
  nlinarith

/-- and at most as fast as `k` -/
theorem halfNu_lipschitz {k : ℝ} (hk : 0 < k) (E F : ℝ) : |halfNu k E - halfNu k F| ≤ k / 2 * |E - F| := by
  have hb : ∀ x, ‖k / (2 * (Real.cosh (x / 2) ^ 2 + k ^ 2 * Real.sinh (x / 2) ^ 2))‖ ≤ k / 2 := fun x => by
    have h1 := Real.one_le_cosh (x / 2)
    have h2 : 1 ≤ Real.cosh (x / 2) ^ 2 := one_le_pow₀ h1
    have h3 : 0 ≤ k ^ 2 * Real.sinh (x / 2) ^ 2 := by positivity
    rw [Real.norm_eq_abs, abs_of_nonneg (by positivity)]
    exact div_le_div_of_nonneg_left hk.le (by norm_num) (by linarith)
  have := Convex.norm_image_sub_le_of_norm_hasDerivWithin_le (f := halfNu k) (s := Set.univ)
    (fun x _ => (halfNu_deriv k x).hasDerivWithinAt) (fun x _ => hb x) convex_univ (Set.mem_univ F) (Set.mem_univ E)
  simpa only [Real.norm_eq_abs] using this

theorem self_le_sinh_cosh {y : ℝ} : |y| ≤ |Real.sinh y * Real.cosh y| := by
  have h1 := Real.one_le_cosh y
  rw [abs_mul, abs_of_pos (Real.cosh_pos y)]
  have h2 : |y| ≤ |Real.sinh y| := by
    rcases le_total 0 y with h | h
    · rw [abs_of_nonneg h]
      exact (Real.self_le_sinh_iff.mpr h).trans (le_abs_self _)
    · have := Real.self_le_sinh_iff.mpr (neg_nonneg.mpr h)
      rw [Real.sinh_neg] at this
      rw [abs_of_nonpos h]
      exact this.trans (neg_le_abs _)
  exact h2.trans (le_mul_of_one_le_right (abs_nonneg _) h1)

/-- a relative error of the hyperbolic anomaly -/
theorem halfNu_rel {k : ℝ} (hk : 0 < k) (x s : ℝ) : |Real.arctan (k * Real.tanh (x * Real.exp s)) - Real.arctan (k * Real.tanh x)| ≤ |s| / 2 := by
  have hd : ∀ s, HasDerivAt (fun s => Real.arctan (k * Real.tanh (x * Real.exp s)))
      (1 / (1 + (k * Real.tanh (x * Real.exp s)) ^ 2) * (k * (1 / Real.cosh (x * Real.exp s) ^ 2 * (x * Real.exp s)))) s := fun s =>
    ((HasDerivAt.comp (h₂ := Real.tanh) (h := fun s => x * Real.exp s) s (tanh_deriv (x * Real.exp s)) ((Real.hasDerivAt_exp s).const_mul x)).const_mul k).arctan
  have hb : ∀ s, ‖1 / (1 + (k * Real.tanh (x * Real.exp s)) ^ 2) * (k * (1 / Real.cosh (x * Real.exp s) ^ 2 * (x * Real.exp s)))‖ ≤ 1 / 2 := fun s => by
    obtain ⟨y, hy⟩ : ∃ y, y = x * Real.exp s := ⟨_, rfl⟩
    rw [← hy, Real.norm_eq_abs]
    have hc := Real.cosh_pos y
    have h1 : |1 / Real.cosh y ^ 2 * y| ≤ |Real.tanh y| := by
      rw [Real.tanh_eq_sinh_div_cosh, abs_mul, abs_div, abs_div, abs_of_pos hc, abs_of_pos (show 0 < Real.cosh y ^ 2 by positivity), abs_one, one_div, inv_mul_eq_div,
        div_le_div_iff₀ (by positivity) hc]
      have := self_le_sinh_cosh (y := y)
      rw [abs_mul, abs_of_pos hc] at this
      have h2 := mul_le_mul_of_nonneg_right this hc.le
      nlinarith
    obtain ⟨w, hw⟩ : ∃ w, w = k * Real.tanh y := ⟨_, rfl⟩
    have h2 : |k * (1 / Real.cosh y ^ 2 * y)| ≤ |w| := by
      rw [hw, abs_mul, abs_mul k]
      exact mul_le_mul_of_nonneg_left h1 (abs_nonneg _)
    rw [← hw, one_div_mul_eq_div, abs_div, abs_of_pos (show 0 < 1 + w ^ 2 by positivity), div_le_div_iff₀ (by positivity) (by norm_num)]
    nlinarith [sq_nonneg (|w| - 1), sq_abs w]
  have := Convex.norm_image_sub_le_of_norm_hasDerivWithin_le (s := Set.univ)
    (fun s _ => (hd s).hasDerivWithinAt) (fun s _ => hb s) convex_univ (Set.mem_univ 0) (Set.mem_univ s)
  simp only [Real.norm_eq_abs, Real.exp_zero, mul_one, sub_zero] at this
  linarith

theorem tanh_le_of {x y : ℝ} (h : x ≤ y) : Real.tanh x ≤ Real.tanh y := by
  by_contra hc
  have h2 := Real.artanh_lt_artanh (Real.neg_one_lt_tanh y) (Real.tanh_lt_one x) (lt_of_not_ge hc)
  rw [Real.artanh_tanh, Real.artanh_tanh] at h2
  linarith

theorem le_of_tanh {x y : ℝ} (h : Real.tanh x ≤ Real.tanh y) : x ≤ y := by
  have h2 := Real.artanh_le_artanh (Real.neg_one_lt_tanh x) (Real.tanh_lt_one y) h
  rwa [Real.artanh_tanh, Real.artanh_tanh] at h2

theorem arctan_le_of {x y : ℝ} (h : Real.arctan x ≤ Real.arctan y) : x ≤ y := Real.arctan_strictMono.le_iff_le.mp h

theorem cosh_add_le {x d : ℝ} (hd : 0 ≤ d) : Real.cosh (x + d) ≤ Real.exp d * Real.cosh x := by
  rw [Real.cosh_eq, Real.cosh_eq, Real.exp_add, neg_add, Real.exp_add]
  have h1 : Real.exp (-d) ≤ Real.exp d := Real.exp_le_exp.mpr (by linarith)
  have h2 := mul_le_mul_of_nonneg_left h1 (Real.exp_pos (-x)).le
  linarith

theorem exp_half_le : Real.exp (1 / 2) ≤ 2 := by
  have h := Real.exp_one_lt_d9
  have h2 : Real.exp (1 / 2) * Real.exp (1 / 2) = Real.exp 1 := by rw [← Real.exp_add]; norm_num
  nlinarith [Real.exp_pos (1 / 2)]

/-! ## The computed anomalies -/

theorem hyp_sc {e : ℝ} (h1 : 1 < e) (a b c : RF R) : triSc (num R e) a b c = a := by
  simp only [triSc, one_num, lt_num, h1, decide_true, if_true]

theorem add_one_rel {e : ℝ} : Rel 1 (num R e + 1) (e + 1) := by
  rw [one_num, add_num]
  have := rel_rd (R := R) (k := 0) (x := e + 1) (y := e + 1) (t := 0) (by simp) (by simp)
  simpa using this

theorem sub_one_rel {e : ℝ} : Rel 1 (num R e - 1) (e - 1) := by
  rw [one_num, sub_num]
  have := rel_rd (R := R) (k := 0) (x := e - 1) (y := e - 1) (t := 0) (by simp) (by simp)
  simpa using this

/-- twice an arcus tangent, as computed -/
theorem twoArctan_err (hu : R.u ≤ 1 / 10 ^ 6) (v : ℝ) :
    ∃ x : ℝ, 2 * Np.arctan (num R v) = num R x ∧ |x - 2 * Real.arctan v| ≤ 7 * R.u := by
  have hu0 := R.u_nonneg
  have hpi := Real.pi_lt_d4
  have hx : |Real.arctan v| ≤ Real.pi / 2 :=
    abs_le.mpr ⟨(Real.neg_pi_div_two_lt_arctan _).le, (Real.arctan_lt_pi_div_two _).le⟩
  obtain ⟨w, hw⟩ : ∃ w, w = Real.arctan v * Real.exp (R.lib .arctan v) := ⟨_, rfl⟩
  have e2 : Np.arctan (num R v) = num R w := by rw [hw]; rfl
  have d2 := lib_err (R := R) (f := .arctan) (x := v) (B := 158 / 100) hu (hx.trans (by linarith))
  rw [← hw] at d2
  have hw1 : |w| ≤ 159 / 100 := by
    have := abs_add_le (w - Real.arctan v) (Real.arctan v)
    rw [sub_add_cancel] at this
    linarith
  have d3 := rd_err (R := R) (x := 2 * w) (B := 318 / 100) hu (by rw [abs_mul, abs_two]; linarith)
  rw [e2, two_num, mul_num]
  refine ⟨_, rfl, ?_⟩
  rw [show R.rd (2 * w) - 2 * Real.arctan v = (R.rd (2 * w) - 2 * w) + 2 * (w - Real.arctan v) by ring]
  refine (abs_add_le _ _).trans ?_
  rw [abs_mul, abs_two]
  linarith

/-- the hyperbolic branch of `eccentric_to_true`, as computed -/
theorem ett_err (hu : R.u ≤ 1 / 10 ^ 6) {e : ℝ} (h1 : 1 < e) (E : ℝ) :
    ∃ (nu : ℝ) (z : ℤ), wrap (ettHyp (num R E) (num R e)) = num R nu ∧ 0 ≤ nu ∧ nu ≤ 629 / 100 ∧
      |nu - (2 * halfNu √((e + 1) / (e - 1)) E + z * (2 * Real.pi))| ≤ 90 * R.u := by
  have hu0 := R.u_nonneg
  have hpi := Real.pi_lt_d4
  have hq : 0 < (e + 1) / (e - 1) := div_pos (by linarith) (by linarith)
  have hk := (add_one_rel (R := R) (e := e)).div sub_one_rel (show e - 1 ≠ 0 by linarith) |>.sqrt hq.le
  obtain ⟨k, hkd⟩ : ∃ k, k = √((e + 1) / (e - 1)) := ⟨_, rfl⟩
  have hk0 : 0 < k := by rw [hkd]; exact Real.sqrt_pos.mpr hq
  rw [← hkd] at hk ⊢
  have hE : num R E * half = num R (E / 2 * Real.exp (R.th (E / 2))) := by
    rw [half_num, mul_num, show E * (1 / 2) = E / 2 by ring]; rfl
  obtain ⟨y, hy⟩ : ∃ y, y = E / 2 * Real.exp (R.th (E / 2)) := ⟨_, rfl⟩
  have ht : Rel 1 (Np.tanh (num R y)) (Real.tanh y) := ⟨R.lib .tanh y, by simpa using R.lib_le .tanh y, rfl⟩
  obtain ⟨t, t1, t2⟩ := hk.mul ht
  have t1' : |t| ≤ 45 / 10 * R.u := by refine t1.trans (le_of_eq ?_); ring
  obtain ⟨x, x1, x2⟩ := twoArctan_err hu (k * Real.tanh y * Real.exp t)
  have d1 := arctan_rel (k * Real.tanh y) t
  have d2 := halfNu_rel hk0 (E / 2) (R.th (E / 2))
  rw [← hy] at d2
  have d3 := R.th_le (E / 2)
  have dx : |x - 2 * halfNu k E| ≤ 125 / 10 * R.u := by
    unfold halfNu
    rw [abs_le] at x2 d1 d2 ⊢
    constructor <;> linarith
  have hb : |2 * halfNu k E| ≤ Real.pi := by
    unfold halfNu
    rw [abs_le]
    constructor <;> linarith [Real.neg_pi_div_two_lt_arctan (k * Real.tanh (E / 2)), Real.arctan_lt_pi_div_two (k * Real.tanh (E / 2))]
  have hx : |x| ≤ 315 / 100 := by
    have := abs_add_le (x - 2 * halfNu k E) (2 * halfNu k E)
    rw [sub_add_cancel] at this
    linarith
  obtain ⟨nu, z, w1, w2, w3, w4⟩ := wrap_err hu hx
  refine ⟨nu, -z, ?_, w2, w3, ?_⟩
  · rw [ettHyp, hE, ← hy, t2, x1, w1]
  · rw [abs_le] at w4 dx ⊢
    push_cast
    constructor <;> linarith

/-- `np.mod(x + 2.*np.pi, 2.*np.pi)` of a number in one turn, as computed -/
theorem wrap_pos (hu : R.u ≤ 1 / 10 ^ 6) {x : ℝ} (h0 : 13 * R.u ≤ x) (h1 : x ≤ 62 / 10) :
    ∃ y : ℝ, wrap (num R x) = num R y ∧ 0 ≤ y ∧ |y - x| ≤ 20 * R.u := by
  have hu0 := R.u_nonneg
  have hpi := Real.pi_lt_d4
  have hpi2 := Real.pi_gt_d4
  obtain ⟨tp, g1, g2⟩ := twoPi_err (R := R) hu
  have g2' := abs_le.mp g2
  have htp : 628 / 100 < tp := by linarith
  have htp' : tp < 6285 / 1000 := by linarith
  have d1 := rd_err (R := R) (x := x + tp) (B := 125 / 10) hu (by rw [abs_le]; constructor <;> linarith)
  obtain ⟨w, hw⟩ : ∃ w, w = R.rd (x + tp) := ⟨_, rfl⟩
  rw [← hw] at d1
  have d1' := abs_le.mp d1
  have hf : ⌊w / tp⌋ = 1 := by
    rw [Int.floor_eq_iff]
    push_cast
    constructor
    · rw [le_div_iff₀ (by linarith)]; linarith
    · rw [div_lt_iff₀ (by linarith)]; linarith
  have hm : wrap (num R x) = num R ((w - tp) * Real.exp (R.lib2 false w tp)) := by
    rw [wrap, g1, add_num, ← hw]
    show (⟨R.lib2Round false (fin w) (fin tp) (Np.mod (fin w) (fin tp))⟩ : RF R) = _
    rw [FX.mod_fin (by linarith), hf, Int.cast_one, mul_one]; rfl
  have hl := RStumpff.factor_err (y := w - tp) hu (by norm_num) (by norm_num) (show |R.lib2 false w tp| ≤ 1 * R.u by rw [one_mul]; exact R.lib2_le false w tp)
  have hwt : 0 ≤ w - tp := by linarith
  refine ⟨_, hm, mul_nonneg hwt (Real.exp_pos _).le, ?_⟩
  rw [abs_of_nonneg hwt] at hl
  have h3 : 101 / 100 * (1 * R.u) * (w - tp) ≤ 101 / 100 * (1 * R.u) * (63 / 10) := mul_le_mul_of_nonneg_left (by linarith) (by positivity)
  rw [abs_le] at hl ⊢
  constructor <;> linarith

/-- the hyperbolic branch of `true_to_eccentric`, as computed: almost the anomaly `E1` of a true anomaly within `8 u` of the given one -/
theorem tte_err (hu : R.u ≤ 1 / 10 ^ 6) {e k nu E0 : ℝ} (h1 : 1 < e) (hkd : k = √((e + 1) / (e - 1))) (hn0 : 0 ≤ nu) (hn : nu = 2 * halfNu k E0) (hE : 0 ≤ E0)
    (hc : 16 * (k * Real.cosh E0) * R.u ≤ 1 / 2) :
    ∃ x E1 : ℝ, tteHyp (num R nu) (num R e) = num R x ∧ |2 * halfNu k E1 - nu| ≤ 8 * R.u ∧ |E1 - E0| ≤ 16 * (k * Real.cosh E0) * R.u ∧
      |x - E1| ≤ 202 / 100 * R.u * |E1| := by
  have hu0 := R.u_nonneg
  have hpi := Real.pi_lt_d4
  have hq : 0 < (e + 1) / (e - 1) := div_pos (by linarith) (by linarith)
  have hk1 : 1 ≤ k := by rw [hkd, Real.one_le_sqrt, le_div_iff₀ (by linarith)]; linarith
  have hk0 : 0 < k := by linarith
  have hC := Real.cosh_pos E0
  obtain ⟨η, hη⟩ : ∃ η, η = 16 * (k * Real.cosh E0) * R.u := ⟨_, rfl⟩
  have hη0 : 0 ≤ η := by rw [hη]; positivity
  have hη1 : η ≤ 1 / 2 := by rw [hη]; exact hc
  have hF : Real.cosh (E0 + η) ≤ 2 * Real.cosh E0 :=
    (cosh_add_le hη0).trans (mul_le_mul_of_nonneg_right ((Real.exp_le_exp.mpr hη1).trans exp_half_le) hC.le)
  have hgrow : 4 * R.u ≤ 1 / (2 * k * Real.cosh (E0 + η)) * η := by
    have hF0 := Real.cosh_pos (E0 + η)
    rw [one_div_mul_eq_div, le_div_iff₀ (by positivity)]
    have := mul_le_mul_of_nonneg_left hF (show 0 ≤ 8 * k * R.u by positivity)
    linarith
  have hup := halfNu_growth (F := E0 + η) (a := E0) (b := E0 + η) hk1 (by linarith) (by linarith) le_rfl
  have hlo := halfNu_growth (F := E0 + η) (a := E0 - η) (b := E0) hk1 (by linarith) (by linarith) (by linarith)
  rw [show E0 + η - E0 = η by ring] at hup
  rw [show E0 - (E0 - η) = η by ring] at hlo
  -- the tangent
  have hnu2 : halfNu k E0 = nu / 2 := by linarith
  have hnub : nu / 2 ≤ 1571 / 1000 := by
    rw [← hnu2, halfNu]
    linarith [Real.arctan_lt_pi_div_two (k * Real.tanh (E0 / 2))]
  have hnu : num R nu * half = num R (R.rd (nu / 2)) := by
    rw [half_num, mul_num, show nu * (1 / 2) = nu / 2 by ring]
  have dy := rd_err (R := R) (x := nu / 2) (B := 1571 / 1000) hu (by rw [abs_of_nonneg (by linarith)]; exact hnub)
  obtain ⟨y, hy⟩ : ∃ y, y = R.rd (nu / 2) := ⟨_, rfl⟩
  have hy0 : 0 ≤ y := by rw [hy]; exact rd_nonneg (by linarith)
  rw [← hy] at dy
  have dy' := abs_le.mp dy
  have hy1 : y < Real.pi / 2 := by
    have : y ≤ halfNu k (E0 + η) := by linarith
    exact this.trans_lt (Real.arctan_lt_pi_div_two _)
  have hcy : Real.cos y ≠ 0 := (Real.cos_pos_of_mem_Ioo ⟨by linarith [Real.pi_pos], hy1⟩).ne'
  have htan : Rel 1 (Np.tan (num R y)) (Real.tan y) := by
    refine ⟨R.lib .tan y, by simpa using R.lib_le .tan y, ?_⟩
    show (⟨R.libRound .tan (fin y) (Np.tan (fin y))⟩ : RF R) = _
    rw [FX.tan_fin hcy]; rfl
  have hs := (sub_one_rel (R := R) (e := e)).div add_one_rel (show e + 1 ≠ 0 by linarith) |>.sqrt (div_pos (by linarith) (by linarith)).le
  have hkinv : √((e - 1) / (e + 1)) = k⁻¹ := by rw [hkd, ← Real.sqrt_inv, inv_div]
  rw [hkinv] at hs
  obtain ⟨t, t1, t2⟩ := hs.mul htan
  have t1' : |t| ≤ 45 / 10 * R.u := by refine t1.trans (le_of_eq ?_); ring
  obtain ⟨x, hx⟩ : ∃ x, x = k⁻¹ * Real.tan y * Real.exp t := ⟨_, rfl⟩
  rw [← hx] at t2
  have hkx : k * x = Real.tan y * Real.exp t := by rw [hx]; field_simp
  have d1 := arctan_rel (Real.tan y) t
  rw [Real.arctan_tan (by linarith [Real.pi_pos]) hy1, ← hkx] at d1
  have dA : |Real.arctan (k * x) - nu / 2| ≤ 4 * R.u := by
    rw [abs_le] at d1 ⊢
    constructor <;> linarith
  have dA' := abs_le.mp dA
  have hxu : x ≤ Real.tanh ((E0 + η) / 2) := by
    have : Real.arctan (k * x) ≤ halfNu k (E0 + η) := by linarith
    exact le_of_mul_le_mul_left (arctan_le_of this) hk0
  have hxl : Real.tanh ((E0 - η) / 2) ≤ x := by
    have : halfNu k (E0 - η) ≤ Real.arctan (k * x) := by linarith
    exact le_of_mul_le_mul_left (arctan_le_of this) hk0
  have hx1 : x < 1 := hxu.trans_lt (Real.tanh_lt_one _)
  have hx2 : -1 < x := (Real.neg_one_lt_tanh _).trans_le hxl
  have hT : Real.tanh (Real.artanh x) = x := Real.tanh_artanh ⟨hx2, hx1⟩
  refine ⟨2 * Real.artanh x * Real.exp (R.lib .arctanh x + R.th (2 * (Real.artanh x * Real.exp (R.lib .arctanh x)))), 2 * Real.artanh x, ?_, ?_, ?_, ?_⟩
  · rw [tteHyp, hnu, ← hy, t2]
    have : Np.arctanh (num R x) = num R (Real.artanh x * Real.exp (R.lib .arctanh x)) := by
      show (⟨R.libRound .arctanh (fin x) (Np.arctanh (fin x))⟩ : RF R) = _
      rw [FX.arctanh_fin hx2 hx1]; rfl
    rw [this, two_num, mul_num, Rounding.rd, Real.exp_add]
    congr 1
    ring_nf
  · rw [halfNu, mul_div_cancel_left₀ _ two_ne_zero, hT, show 2 * Real.arctan (k * x) - nu = 2 * (Real.arctan (k * x) - nu / 2) by ring, abs_mul, abs_two]
    linarith
  · rw [← hη]
    rw [← hT] at hxu hxl
    have l1 := le_of_tanh hxu
    have l2 := le_of_tanh hxl
    rw [abs_le]
    constructor <;> linarith
  · have hl := RStumpff.factor_err (y := 2 * Real.artanh x) hu (by norm_num) (by norm_num)
      (show |R.lib .arctanh x + R.th (2 * (Real.artanh x * Real.exp (R.lib .arctanh x)))| ≤ 2 * R.u by
        refine (abs_add_le _ _).trans ?_
        linarith [R.lib_le .arctanh x, R.th_le (2 * (Real.artanh x * Real.exp (R.lib .arctanh x)))])
    refine hl.trans (le_of_eq ?_)
    ring

/-- the hyperbolic branch of `eccentric_to_mean`, as computed -/
theorem etm_err (hu : R.u ≤ 1 / 10 ^ 6) {e : ℝ} (h1 : 1 < e) (E : ℝ) :
    ∃ M : ℝ, etmHyp (num R E) (num R e) = num R M ∧ |M - (e * Real.sinh E - E)| ≤ 4 * R.u * (e * |Real.sinh E| + |E|) := by
  have hu0 := R.u_nonneg
  have n1 : Near 2 (e * |Real.sinh E|) (num R e * Np.sinh (num R E)) (e * Real.sinh E) := by
    refine ((Rel.num e).mul (Rel.sinh E)).near ?_ |>.mono (by norm_num) (by norm_num) le_rfl
    rw [abs_mul, abs_of_pos (by linarith)]
  have n2 : Near 2 |E| (num R E) E := ((Rel.num E).near le_rfl).mono (by norm_num) (by norm_num) le_rfl
  obtain ⟨M, m1, m2, -⟩ := n1.sub n2
  refine ⟨M, m1, m2.trans ?_⟩
  have he : 0 < e := by linarith
  refine mul_le_mul_of_nonneg_right ?_ (by positivity)
  have := exp_sub_one_le (t := (2 + 1) * R.u) (by positivity) (by linarith)
  exact this.trans (le_of_eq (by ring))

theorem hyp_point {e : ℝ} (E : ℝ) (z : ℤ) : SamePointHyp e (2 * halfNu √((e + 1) / (e - 1)) E + z * (2 * Real.pi)) E := by
  have h : (2 * halfNu √((e + 1) / (e - 1)) E + z * (2 * Real.pi)) / 2 = halfNu √((e + 1) / (e - 1)) E + z * Real.pi := by ring
  refine ⟨?_, ?_⟩
  · rw [h, Real.cos_add_int_mul_pi]
    exact mul_ne_zero (zpow_ne_zero _ (by norm_num)) (Real.cos_arctan_pos _).ne'
  · rw [h, Real.tan_add_int_mul_pi, halfNu, Real.tan_arctan]

/-- both conversions together: `E` is within `34 u` of the anomaly `E1` of a true anomaly within `8 u` of the given one -/
theorem tte_forward (hu : R.u ≤ 1 / 10 ^ 6) {e nu E0 : ℝ} (h1 : 1 < e) (hn0 : 0 ≤ nu) (hn1 : nu < Real.pi) (hp : SamePointHyp e nu E0)
    (hE : E0 ≤ 6) (hc : 800 * (√((e + 1) / (e - 1)) * Real.cosh E0) * R.u ≤ E0) :
    ∃ E E1 : ℝ, wrap (tteHyp (num R nu) (num R e)) = num R E ∧ 0 ≤ E ∧ |2 * halfNu √((e + 1) / (e - 1)) E1 - nu| ≤ 8 * R.u ∧
      |E1 - E0| ≤ 16 * (√((e + 1) / (e - 1)) * Real.cosh E0) * R.u ∧ |E - E1| ≤ 34 * R.u := by
  have hu0 := R.u_nonneg
  obtain ⟨k, hkd⟩ : ∃ k, k = √((e + 1) / (e - 1)) := ⟨_, rfl⟩
  have hk1 : 1 ≤ k := by rw [hkd, Real.one_le_sqrt, le_div_iff₀ (by linarith)]; linarith
  have hC := Real.one_le_cosh E0
  have hkC : 1 ≤ k * Real.cosh E0 := one_le_mul_of_one_le_of_one_le hk1 hC
  have hn : nu = 2 * halfNu k E0 := by
    rw [halfNu, hkd, ← hp.2, Real.arctan_tan (by linarith [Real.pi_pos]) (by linarith)]; ring
  rw [← hkd] at hc ⊢
  obtain ⟨c, hcd⟩ : ∃ c, c = k * Real.cosh E0 := ⟨_, rfl⟩
  have hcu : R.u ≤ c * R.u := by rw [hcd]; exact le_mul_of_one_le_left hu0 hkC
  obtain ⟨x, E1, k1, k2, k3, k4⟩ := RHyper.tte_err hu h1 hkd hn0 hn (by rw [← hcd] at hc; nlinarith) (by linarith)
  rw [← hcd] at hc k3 ⊢
  have k3' := abs_le.mp k3
  have hE1 : 0 ≤ E1 := by linarith
  rw [abs_of_nonneg hE1] at k4
  have h5 : 202 / 100 * R.u * E1 ≤ 202 / 100 * R.u * (65 / 10) := mul_le_mul_of_nonneg_left (by linarith) (by positivity)
  have k4' := abs_le.mp k4
  -- the bound for the wrap
  by_cases hb : x ≤ 62 / 10
  · obtain ⟨E, w1, w2, w3⟩ := wrap_pos hu (x := x) (by linarith) hb
    refine ⟨E, E1, by rw [k1, w1], w2, k2, k3, ?_⟩
    rw [abs_le] at w3 ⊢
    constructor <;> linarith
  · exfalso
    linarith

theorem sinh_sub_le {F x y : ℝ} (hx : |x| ≤ F) (hy : |y| ≤ F) : |Real.sinh x - Real.sinh y| ≤ Real.cosh F * |x - y| := by
  have := Convex.norm_image_sub_le_of_norm_hasDerivWithin_le (f := Real.sinh) (s := Set.Icc (-F) F) (C := Real.cosh F)
    (fun x _ => (Real.hasDerivAt_sinh x).hasDerivWithinAt) (fun z hz => by
      rw [Real.norm_eq_abs, abs_of_pos (Real.cosh_pos z), Real.cosh_le_cosh]
      exact (abs_le.mpr hz).trans (le_abs_self F)) (convex_Icc _ _) (abs_le.mp hy) (abs_le.mp hx)
  simpa only [Real.norm_eq_abs] using this

/-- the error of the mean anomaly -/
theorem mean_forward {e E0 E E1 M : ℝ} (h1 : 1 < e) (hu : R.u ≤ 1 / 10 ^ 6) (hE : E0 ≤ 6)
    (hc : 800 * (√((e + 1) / (e - 1)) * Real.cosh E0) * R.u ≤ E0) (k2 : 0 ≤ E) (k4 : |E1 - E0| ≤ 16 * (√((e + 1) / (e - 1)) * Real.cosh E0) * R.u)
    (k5 : |E - E1| ≤ 34 * R.u) (m2 : |M - (e * Real.sinh E - E)| ≤ 4 * R.u * (e * |Real.sinh E| + |E|)) :
    |M - (e * Real.sinh E0 - E0)| ≤ 170 * (e * √((e + 1) / (e - 1)) * Real.cosh E0 ^ 2) * R.u := by
  have hu0 := R.u_nonneg
  obtain ⟨k, hkd⟩ : ∃ k, k = √((e + 1) / (e - 1)) := ⟨_, rfl⟩
  have hk1 : 1 ≤ k := by rw [hkd, Real.one_le_sqrt, le_div_iff₀ (by linarith)]; linarith
  obtain ⟨C, hCd⟩ : ∃ C, C = Real.cosh E0 := ⟨_, rfl⟩
  have hC : 1 ≤ C := by rw [hCd]; exact Real.one_le_cosh E0
  rw [← hkd, ← hCd] at hc k4 ⊢
  obtain ⟨c, hcd⟩ : ∃ c, c = k * C := ⟨_, rfl⟩
  have hkC : 1 ≤ c := by rw [hcd]; exact one_le_mul_of_one_le_of_one_le hk1 hC
  have hcu : R.u ≤ c * R.u := le_mul_of_one_le_left hu0 hkC
  rw [← hcd] at hc k4
  rw [show e * k * C ^ 2 = e * C * c by rw [hcd]; ring]
  have hE0 : 0 ≤ E0 := by nlinarith
  have hD : |E - E0| ≤ 50 * (c * R.u) := by
    rw [abs_le] at k4 k5 ⊢
    constructor <;> linarith
  have hD' := abs_le.mp hD
  have hF : Real.cosh (E0 + 1 / 2) ≤ 2 * C :=
    hCd ▸ (cosh_add_le (by norm_num)).trans (mul_le_mul_of_nonneg_right exp_half_le (Real.cosh_pos _).le)
  have hs := sinh_sub_le (F := E0 + 1 / 2) (x := E) (y := E0) (by rw [abs_of_nonneg k2]; linarith) (by rw [abs_of_nonneg hE0]; linarith)
  have hs2 : |Real.sinh E - Real.sinh E0| ≤ 2 * C * (50 * (c * R.u)) := hs.trans (mul_le_mul hF hD (abs_nonneg _) (by linarith))
  have hsE : Real.sinh E ≤ 2 * C := (Real.sinh_lt_cosh E).le.trans ((Real.cosh_le_cosh.mpr (by rw [abs_of_nonneg k2, abs_of_nonneg (by linarith)]; linarith)).trans hF)
  have hE2 : E ≤ 2 * C := (Real.self_le_sinh_iff.mpr k2).trans hsE
  rw [abs_of_nonneg k2, abs_of_nonneg (Real.sinh_nonneg_iff.mpr k2)] at m2
  have he := mul_le_mul_of_nonneg_left hsE (show 0 ≤ e by linarith)
  have heC : 2 * C ≤ 2 * (e * C) := by nlinarith
  have m3 : |M - (e * Real.sinh E - E)| ≤ 16 * (e * C) * R.u := by
    refine m2.trans ?_
    have := mul_le_mul_of_nonneg_left (show e * Real.sinh E + E ≤ 4 * (e * C) by linarith) (show 0 ≤ 4 * R.u by linarith)
    linarith
  have q1 : 16 * (e * C) * R.u ≤ 16 * (e * C) * (c * R.u) := mul_le_mul_of_nonneg_left hcu (by nlinarith)
  have q2 : c * R.u ≤ (e * C) * (c * R.u) := le_mul_of_one_le_left (by linarith) (by nlinarith)
  have q3 : |e * (Real.sinh E - Real.sinh E0)| ≤ e * (2 * C * (50 * (c * R.u))) := by
    rw [abs_mul, abs_of_pos (show 0 < e by linarith)]
    exact mul_le_mul_of_nonneg_left hs2 (by linarith)
  rw [abs_le] at m3 q3 ⊢
  constructor <;> linarith

end RHyper

open RHyper
variable {R : Rounding}

/-! ## C104 -/

/-- C104: in every arithmetic with unit roundoff `u ≤ 1e-6`, on every hyperbola and for every hyperbolic anomaly, `eccentric_to_true` returns a number in
`[0, 6.29]` which differs by at most `90 u` from an exact true anomaly of the point -/
theorem c104_true (g : Nat → RF R) (hu : R.u ≤ 1 / 10 ^ 6) {e : ℝ} (h1 : 1 < e) (E : ℝ) :
    ∃ nu nu0 : ℝ, eccentric_to_true g (rfl64 R E) (rfl64 R e) false = .ok (rfl64 R nu) ∧ 0 ≤ nu ∧ nu ≤ 629 / 100 ∧ SamePointHyp e nu0 E ∧
      |nu - nu0| ≤ 90 * R.u := by
  obtain ⟨nu, z, k1, k2, k3, k4⟩ := RHyper.ett_err (R := R) hu h1 E
  refine ⟨nu, 2 * halfNu √((e + 1) / (e - 1)) E + z * (2 * Real.pi), ?_, k2, k3, ?_, k4⟩
  · show Except.ok (Arg.sc .f64 (eccentricToTrueSc (num R E) (num R e))) = _
    rw [eccentricToTrueSc, hyp_sc h1, k1]; rfl
  · exact hyp_point E z

/-- C104: `eccentric_to_mean` on a hyperbola -/
theorem c104_mean (g : Nat → RF R) (hu : R.u ≤ 1 / 10 ^ 6) {e : ℝ} (h1 : 1 < e) (E : ℝ) :
    ∃ M : ℝ, eccentric_to_mean g (rfl64 R E) (rfl64 R e) false = .ok (rfl64 R M) ∧ |M - (e * Real.sinh E - E)| ≤ 4 * R.u * (e * |Real.sinh E| + |E|) := by
  obtain ⟨M, k1, k2⟩ := RHyper.etm_err (R := R) hu h1 E
  refine ⟨M, ?_, k2⟩
  show Except.ok (Arg.sc .f64 (eccentricToMeanSc (num R E) (num R e))) = _
  rw [eccentricToMeanSc, hyp_sc h1, k1]; rfl

/-- C104: `true_to_eccentric` on the outbound leg of a hyperbola, up to a hyperbolic anomaly of 6 and not within `800 k cosh E u` of the periapsis,
`k = sqrt ((e + 1) / (e - 1))`: the computed hyperbolic anomaly differs from the exact one by at most `(16 k cosh E + 34) u` -/
theorem c104_eccentric (g : Nat → RF R) (hu : R.u ≤ 1 / 10 ^ 6) {e nu E0 : ℝ} (h1 : 1 < e) (hn0 : 0 ≤ nu) (hn1 : nu < Real.pi) (hp : SamePointHyp e nu E0)
    (hE : E0 ≤ 6) (hc : 800 * (√((e + 1) / (e - 1)) * Real.cosh E0) * R.u ≤ E0) :
    ∃ E : ℝ, true_to_eccentric g (rfl64 R nu) (rfl64 R e) false = .ok (rfl64 R E) ∧ 0 ≤ E ∧
      |E - E0| ≤ (16 * (√((e + 1) / (e - 1)) * Real.cosh E0) + 34) * R.u := by
  obtain ⟨E, E1, k1, k2, k3, k4, k5⟩ := RHyper.tte_forward (R := R) hu h1 hn0 hn1 hp hE hc
  refine ⟨E, ?_, k2, ?_⟩
  · show Except.ok (Arg.sc .f64 (trueToEccentricSc (num R nu) (num R e))) = _
    rw [trueToEccentricSc, hyp_sc h1, k1]; rfl
  · rw [abs_le] at k4 k5 ⊢
    constructor <;> linarith

/-- C104: `true_to_mean` there: an error of at most `170 e k cosh^2 E u` -/
theorem c104_true_to_mean (g g' : Nat → RF R) (hu : R.u ≤ 1 / 10 ^ 6) {e nu E0 : ℝ} (h1 : 1 < e) (hn0 : 0 ≤ nu) (hn1 : nu < Real.pi) (hp : SamePointHyp e nu E0)
    (hE : E0 ≤ 6) (hc : 800 * (√((e + 1) / (e - 1)) * Real.cosh E0) * R.u ≤ E0) :
    ∃ M : ℝ, true_to_mean g g' (rfl64 R nu) (rfl64 R e) false = .ok (rfl64 R M) ∧
      |M - (e * Real.sinh E0 - E0)| ≤ 170 * (e * √((e + 1) / (e - 1)) * Real.cosh E0 ^ 2) * R.u := by
  obtain ⟨E, E1, k1, k2, k3, k4, k5⟩ := RHyper.tte_forward (R := R) hu h1 hn0 hn1 hp hE hc
  obtain ⟨M, m1, m2⟩ := RHyper.etm_err (R := R) hu h1 E
  refine ⟨M, ?_, ?_⟩
  · show Except.ok (Arg.sc .f64 (eccentricToMeanSc (trueToEccentricSc (num R nu) (num R e)) (num R e))) = _
    rw [trueToEccentricSc, hyp_sc h1, k1, eccentricToMeanSc, hyp_sc h1, m1]; rfl
  · exact mean_forward h1 hu hE hc k2 k4 k5 m2

/-- C104: from the true to the hyperbolic anomaly and back gives the same angle, up to turns and `(98 + 34 k) u` -/
theorem c104_round_trip (g g' : Nat → RF R) (hu : R.u ≤ 1 / 10 ^ 6) {e nu E0 : ℝ} (h1 : 1 < e) (hn0 : 0 ≤ nu) (hn1 : nu < Real.pi) (hp : SamePointHyp e nu E0)
    (hE : E0 ≤ 6) (hc : 800 * (√((e + 1) / (e - 1)) * Real.cosh E0) * R.u ≤ E0) :
    ∃ (E nu' : ℝ) (z : ℤ), true_to_eccentric g (rfl64 R nu) (rfl64 R e) false = .ok (rfl64 R E) ∧
      eccentric_to_true g' (rfl64 R E) (rfl64 R e) false = .ok (rfl64 R nu') ∧
      |nu' - (nu + z * (2 * Real.pi))| ≤ (98 + 34 * √((e + 1) / (e - 1))) * R.u := by
  obtain ⟨E, E1, k1, k2, k3, k4, k5⟩ := RHyper.tte_forward (R := R) hu h1 hn0 hn1 hp hE hc
  obtain ⟨nu', z, l1, l2, l3, l4⟩ := RHyper.ett_err (R := R) hu h1 E
  refine ⟨E, nu', z, ?_, ?_, ?_⟩
  · show Except.ok (Arg.sc .f64 (trueToEccentricSc (num R nu) (num R e))) = _
    rw [trueToEccentricSc, hyp_sc h1, k1]; rfl
  · show Except.ok (Arg.sc .f64 (eccentricToTrueSc (num R E) (num R e))) = _
    rw [eccentricToTrueSc, hyp_sc h1, l1]; rfl
  · obtain ⟨k, hkd⟩ : ∃ k, k = √((e + 1) / (e - 1)) := ⟨_, rfl⟩
    have hk0 : 0 < k := by rw [hkd]; exact Real.sqrt_pos.mpr (div_pos (by linarith) (by linarith))
    rw [← hkd] at k3 l4 ⊢
    have d1 := halfNu_lipschitz hk0 E E1
    have d2 := mul_le_mul_of_nonneg_left k5 (show 0 ≤ k / 2 by linarith)
    have d3 := d1.trans d2
    rw [abs_le] at k3 l4 d3 ⊢
    constructor <;> linarith

/-- a case: double precision, `e = 5/3`, the true anomaly of the point with hyperbolic anomaly 1 -/
example (g g' : Nat → RF Binary.binary64) : ∃ (E nu' : ℝ) (z : ℤ),
    true_to_eccentric g (rfl64 Binary.binary64 (2 * Real.arctan (2 * Real.tanh (1 / 2)))) (rfl64 _ (5 / 3)) false = .ok (rfl64 _ E) ∧
    eccentric_to_true g' (rfl64 Binary.binary64 E) (rfl64 _ (5 / 3)) false = .ok (rfl64 _ nu') ∧
    |nu' - (2 * Real.arctan (2 * Real.tanh (1 / 2)) + z * (2 * Real.pi))| ≤ 2 / 10 ^ 14 := by
  have hk : √((5 / 3 + 1 : ℝ) / (5 / 3 - 1)) = 2 := by
    rw [show (5 / 3 + 1 : ℝ) / (5 / 3 - 1) = 2 ^ 2 by norm_num, Real.sqrt_sq (by norm_num)]
  have ht : 0 ≤ Real.tanh (1 / 2) := by
    have := tanh_le_of (show (0 : ℝ) ≤ 1 / 2 by norm_num)
    rwa [Real.tanh_zero] at this
  have hp : SamePointHyp (5 / 3) (2 * Real.arctan (2 * Real.tanh (1 / 2))) 1 := by
    have := hyp_point (e := 5 / 3) 1 0
    rw [halfNu, hk] at this
    simpa using this
  have hc : Real.cosh 1 ≤ 2 := by
    rw [Real.cosh_eq]
    have h1 := Real.exp_one_lt_d9
    have h2 : Real.exp (-1) ≤ 1 := Real.exp_le_one_iff.mpr (by norm_num)
    linarith
  have h0 : 0 ≤ Real.arctan (2 * Real.tanh (1 / 2)) := Real.arctan_nonneg.mpr (by linarith)
  have h1 := Real.arctan_lt_pi_div_two (2 * Real.tanh (1 / 2))
  obtain ⟨E, nu', z, k1, k2, k3⟩ := c104_round_trip g g' (show (1 / 2 : ℝ) ^ 53 ≤ 1 / 10 ^ 6 by norm_num) (e := 5 / 3) (by norm_num) (by linarith) (by linarith) hp
    (by norm_num) (by
      rw [hk]
      show 800 * (2 * Real.cosh 1) * (1 / 2 : ℝ) ^ 53 ≤ 1
      have := mul_le_mul_of_nonneg_right hc (show (0 : ℝ) ≤ 1600 * (1 / 2) ^ 53 by positivity)
      norm_num at this ⊢
      linarith)
  refine ⟨E, nu', z, k1, k2, k3.trans ?_⟩
  rw [hk]
  show (98 + 34 * 2) * (1 / 2 : ℝ) ^ 53 ≤ _
  norm_num

end Pyorb
