import Verif.PropsRoundElem

/-!
# The round trip Kepler - Cartesian - Kepler with rounding (C90)

First how much the elements of a state change when the state changes a little, then the combination of C70 and C88.
-/

namespace Pyorb
open FX RF Matrix
variable {R : Rounding}

/-! ## Vectors -/

theorem vlen_sq' (u : Fin 3 → ℝ) : vlen u ^ 2 = u ⬝ᵥ u := Real.sq_sqrt (Finset.sum_nonneg fun _ _ => mul_self_nonneg _)

theorem vlen_dot_le (a b : Fin 3 → ℝ) : a ⬝ᵥ b ≤ vlen a * vlen b := by
  refine (abs_le_of_sq_le_sq' ?_ (mul_nonneg (vlen_nonneg a) (vlen_nonneg b))).2
  rw [mul_pow, vlen_sq', vlen_sq']
  simp only [dotProduct, Fin.sum_univ_three]
  nlinarith [sq_nonneg (a 0 * b 1 - a 1 * b 0), sq_nonneg (a 0 * b 2 - a 2 * b 0), sq_nonneg (a 1 * b 2 - a 2 * b 1)]

theorem vlen_add_le (a b : Fin 3 → ℝ) : vlen (a + b) ≤ vlen a + vlen b := by
  refine (abs_le_of_sq_le_sq' ?_ (add_nonneg (vlen_nonneg a) (vlen_nonneg b))).2
  rw [add_sq, vlen_sq', vlen_sq', vlen_sq']
  have := vlen_dot_le a b
  have e : (a + b) ⬝ᵥ (a + b) = a ⬝ᵥ a + 2 * (a ⬝ᵥ b) + b ⬝ᵥ b := by
    simp only [dotProduct, Fin.sum_univ_three, Pi.add_apply]; ring
  linarith

theorem vlen_scale (f : ℝ) (a : Fin 3 → ℝ) : vlen (f • a) = |f| * vlen a := by
  rw [vlen, vlen, ← Real.sqrt_sq_eq_abs, ← Real.sqrt_mul (sq_nonneg f)]
  congr 1
  simp only [dotProduct, Fin.sum_univ_three, Pi.smul_apply, smul_eq_mul]; ring

theorem vlen_neg (a : Fin 3 → ℝ) : vlen (-a) = vlen a := by
  have := vlen_scale (-1) a
  rwa [neg_one_smul, abs_neg, abs_one, one_mul] at this

theorem vlen_tri (a b : Fin 3 → ℝ) : |vlen a - vlen b| ≤ vlen (a - b) := by
  have h1 := vlen_add_le (a - b) b
  have h2 := vlen_add_le (b - a) a
  rw [sub_add_cancel] at h1 h2
  rw [← neg_sub, vlen_neg] at h2
  rw [abs_le]
  constructor <;> linarith

theorem vlen_cross_le (a b : Fin 3 → ℝ) : vlen (a ⨯₃ b) ≤ vlen a * vlen b := by
  refine (abs_le_of_sq_le_sq' ?_ (mul_nonneg (vlen_nonneg a) (vlen_nonneg b))).2
  rw [mul_pow, vlen_sq', vlen_sq', vlen_sq', cross_apply]
  simp only [dotProduct, Fin.sum_univ_three, Matrix.cons_val_zero, Matrix.cons_val_one, Matrix.cons_val]
  nlinarith [sq_nonneg (a 0 * b 0 + a 1 * b 1 + a 2 * b 2)]

/-! ## Perturbed states -/

/-- a state near another one: relative change `ρ` of the position, change `σ w` of the velocity, where `w` is at least the speed -/
structure Close (s s' : Cart ℝ) (w ρ σ : ℝ) : Prop where
  r : vlen (s'.r - s.r) ≤ ρ * vlen s.r
  v : vlen (s'.v - s.v) ≤ σ * w
  speed : vlen s.v ≤ w
  rho0 : 0 ≤ ρ
  rho : ρ ≤ 1 / 100
  sig0 : 0 ≤ σ
  sig : σ ≤ 1 / 100
  pos : 0 < vlen s.r

namespace Close
variable {s s' : Cart ℝ} {w ρ σ : ℝ} (h : Close s s' w ρ σ)
include h

theorem w0 : 0 ≤ w := (vlen_nonneg _).trans h.speed
theorem r_le : vlen s'.r ≤ 101 / 100 * vlen s.r := by
  have := (abs_le.mp (vlen_tri s'.r s.r)).2
  have h1 := mul_le_mul_of_nonneg_right h.rho h.pos.le
  linarith [h.r]
theorem r_ge : 99 / 100 * vlen s.r ≤ vlen s'.r := by
  have := (abs_le.mp (vlen_tri s'.r s.r)).1
  have h1 := mul_le_mul_of_nonneg_right h.rho h.pos.le
  linarith [h.r]
theorem v_le : vlen s'.v ≤ 101 / 100 * w := by
  have := (abs_le.mp (vlen_tri s'.v s.v)).2
  have h1 := mul_le_mul_of_nonneg_right h.sig h.w0
  linarith [h.v, h.speed]

theorem angMom_le : vlen (angMom s' - angMom s) ≤ (101 / 100 * ρ + σ) * (vlen s.r * w) := by
  have e : angMom s' - angMom s = (s'.r - s.r) ⨯₃ s'.v + s.r ⨯₃ (s'.v - s.v) := by
    unfold angMom
    simp only [cross_apply]
    funext j
    fin_cases j <;> simp <;> ring
  rw [e]
  refine (vlen_add_le _ _).trans ?_
  have h1 := (vlen_cross_le (s'.r - s.r) s'.v).trans (mul_le_mul h.r h.v_le (vlen_nonneg _) (mul_nonneg h.rho0 h.pos.le))
  have h2 := (vlen_cross_le s.r (s'.v - s.v)).trans (mul_le_mul_of_nonneg_left h.v (vlen_nonneg _))
  linarith

theorem eccVec_le {mu : ℝ} (hmu : 0 < mu) : vlen (eccVec mu s' - eccVec mu s) ≤ 2 * ρ + (203 / 100 * σ + 102 / 100 * ρ) * (vlen s.r * w ^ 2 / mu) := by
  have hr' : 0 < vlen s'.r := by linarith [h.r_ge, h.pos]
  have e : eccVec mu s' - eccVec mu s = (1 / mu) • ((s'.v - s.v) ⨯₃ angMom s' + s.v ⨯₃ (angMom s' - angMom s)) +
      ((1 / vlen s.r - 1 / vlen s'.r) • s'.r + (-(1 / vlen s.r)) • (s'.r - s.r)) := by
    unfold eccVec
    simp only [cross_apply]
    funext j
    fin_cases j <;> simp [vecHead, vecTail] <;> ring
  rw [e]
  have hw := h.w0
  have hrw : 0 ≤ vlen s.r * w := mul_nonneg h.pos.le hw
  have hh' : vlen (angMom s') ≤ 1021 / 1000 * (vlen s.r * w) := by
    refine (vlen_cross_le _ _).trans ((mul_le_mul h.r_le h.v_le (vlen_nonneg _) (by linarith [h.pos])).trans ?_)
    linarith
  have h1 : vlen ((1 / mu) • ((s'.v - s.v) ⨯₃ angMom s' + s.v ⨯₃ (angMom s' - angMom s))) ≤ (203 / 100 * σ + 102 / 100 * ρ) * (vlen s.r * w ^ 2 / mu) := by
    rw [vlen_scale, abs_of_pos (by positivity)]
    have a1 := (vlen_cross_le (s'.v - s.v) (angMom s')).trans (mul_le_mul h.v hh' (vlen_nonneg _) (mul_nonneg h.sig0 hw))
    have a2 := (vlen_cross_le s.v (angMom s' - angMom s)).trans (mul_le_mul h.speed h.angMom_le (vlen_nonneg _) hw)
    have a3 : vlen ((s'.v - s.v) ⨯₃ angMom s' + s.v ⨯₃ (angMom s' - angMom s)) ≤ (203 / 100 * σ + 102 / 100 * ρ) * (vlen s.r * w ^ 2) := by
      refine (vlen_add_le _ _).trans ((add_le_add a1 a2).trans ?_)
      have b1 : 0 ≤ σ * (vlen s.r * w ^ 2) := mul_nonneg h.sig0 (mul_nonneg h.pos.le (sq_nonneg _))
      have b2 : 0 ≤ ρ * (vlen s.r * w ^ 2) := mul_nonneg h.rho0 (mul_nonneg h.pos.le (sq_nonneg _))
      nlinarith
    calc _ ≤ 1 / mu * ((203 / 100 * σ + 102 / 100 * ρ) * (vlen s.r * w ^ 2)) := mul_le_mul_of_nonneg_left a3 (by positivity)
      _ = _ := by ring
  have h2 : vlen ((1 / vlen s.r - 1 / vlen s'.r) • s'.r + (-(1 / vlen s.r)) • (s'.r - s.r)) ≤ 2 * ρ := by
    refine (vlen_add_le _ _).trans ?_
    rw [vlen_scale, vlen_scale, abs_neg, abs_of_pos (by have := h.pos; positivity : 0 < 1 / vlen s.r)]
    have b1 : |1 / vlen s.r - 1 / vlen s'.r| * vlen s'.r ≤ ρ := by
      rw [show 1 / vlen s.r - 1 / vlen s'.r = (vlen s'.r - vlen s.r) / (vlen s.r * vlen s'.r) by have := h.pos.ne'; field_simp, abs_div,
        abs_of_pos (mul_pos h.pos hr'), div_mul_eq_mul_div, div_le_iff₀ (mul_pos h.pos hr')]
      have := mul_le_mul_of_nonneg_right ((vlen_tri s'.r s.r).trans h.r) hr'.le
      linarith
    have b2 : 1 / vlen s.r * vlen (s'.r - s.r) ≤ ρ := by
      rw [div_mul_eq_mul_div, one_mul, div_le_iff₀ h.pos]; exact h.r
    linarith
  linarith [vlen_add_le ((1 / mu) • ((s'.v - s.v) ⨯₃ angMom s' + s.v ⨯₃ (angMom s' - angMom s)))
    ((1 / vlen s.r - 1 / vlen s'.r) • s'.r + (-(1 / vlen s.r)) • (s'.r - s.r))]

theorem energy_le {mu : ℝ} (hmu : 0 < mu) : |energy mu s' - energy mu s| ≤ 101 / 100 * σ * w ^ 2 + 102 / 100 * ρ * (mu / vlen s.r) := by
  have hr' : 0 < vlen s'.r := by linarith [h.r_ge, h.pos]
  have hw := h.w0
  have e : energy mu s' - energy mu s = (vlen s'.v - vlen s.v) * (vlen s'.v + vlen s.v) / 2 + mu * (vlen s'.r - vlen s.r) / (vlen s.r * vlen s'.r) := by
    unfold energy
    rw [← vlen_sq', ← vlen_sq']
    have := h.pos.ne'
    field_simp
    ring
  rw [e]
  refine (abs_add_le _ _).trans (add_le_add ?_ ?_)
  · rw [abs_div, abs_mul, abs_two, abs_of_nonneg (add_nonneg (vlen_nonneg s'.v) (vlen_nonneg s.v))]
    have := mul_le_mul ((vlen_tri s'.v s.v).trans h.v) (add_le_add h.v_le h.speed) (add_nonneg (vlen_nonneg _) (vlen_nonneg _)) (mul_nonneg h.sig0 hw)
    have b1 : 0 ≤ σ * w ^ 2 := mul_nonneg h.sig0 (sq_nonneg _)
    nlinarith
  · rw [abs_div, abs_of_pos (mul_pos h.pos hr'), abs_mul, abs_of_pos hmu, div_le_iff₀ (mul_pos h.pos hr')]
    have b1 : |vlen s'.r - vlen s.r| ≤ ρ * vlen s.r := (vlen_tri s'.r s.r).trans h.r
    have b2 : 102 / 100 * ρ * (mu / vlen s.r) * (vlen s.r * vlen s'.r) = 102 / 100 * ρ * mu * vlen s'.r := by
      have := h.pos.ne'
      field_simp
    rw [b2]
    have b3 := mul_le_mul_of_nonneg_left b1 hmu.le
    have b4 := mul_le_mul_of_nonneg_left h.r_ge (mul_nonneg h.rho0 hmu.le)
    have b5 : 0 ≤ ρ * mu * vlen s.r := mul_nonneg (mul_nonneg h.rho0 hmu.le) h.pos.le
    nlinarith

end Close

/-! ## The exact state of an ellipse -/

section
variable {mu : ℝ} {k : Kep ℝ} {s : Cart ℝ}

/-- sizes of the state of an ellipse, with `q = 1 - e` -/
structure EllState (mu : ℝ) (k : Kep ℝ) (s : Cart ℝ) : Prop where
  r_ge : k.a * (1 - k.e) ≤ vlen s.r
  r_le : vlen s.r ≤ k.a * (1 + k.e)
  h_pos : 0 < vlen (angMom s)
  h_sq : vlen (angMom s) ^ 2 = mu * (k.a * (1 - k.e ^ 2))
  hz : angMom s 2 = vlen (angMom s) * Real.cos k.i
  ecc : vlen (eccVec mu s) = k.e
  energy : energy mu s = -mu / (2 * k.a)
  speed : vlen s.v ≤ (1 + k.e) * mu / vlen (angMom s)
  w_sq : ((1 + k.e) * mu / vlen (angMom s)) ^ 2 * (k.a * (1 - k.e)) ≤ 2 * mu
  rw_sq : vlen s.r * ((1 + k.e) * mu / vlen (angMom s)) ^ 2 / mu ≤ 4 / (1 - k.e)
  rw : vlen s.r * ((1 + k.e) * mu / vlen (angMom s)) ≤ 2 / (1 - k.e) * vlen (angMom s)

theorem frame_ex_len (k : Kep ℝ) : vlen ((RZ k.OM * RX k.i * RZ k.om) *ᵥ ex) = 1 := by
  have h : ((RZ k.OM * RX k.i * RZ k.om) *ᵥ ex) ⬝ᵥ ((RZ k.OM * RX k.i * RZ k.om) *ᵥ ex) = 1 := by
    rw [Kep.frame_ex]
    simp only [dotProduct, Fin.sum_univ_three, Matrix.cons_val_zero, Matrix.cons_val_one, Matrix.cons_val, Kep.px, Kep.py, Kep.pz]
    have h1 := Real.sin_sq_add_cos_sq k.OM
    have h2 := Real.sin_sq_add_cos_sq k.om
    have h3 := Real.sin_sq_add_cos_sq k.i
    linear_combination (Real.cos k.om ^ 2 + Real.cos k.i ^ 2 * Real.sin k.om ^ 2) * h1 + h2 + Real.sin k.om ^ 2 * h3
  rw [vlen, h, Real.sqrt_one]

theorem frame_ez_len (k : Kep ℝ) : vlen ((RZ k.OM * RX k.i * RZ k.om) *ᵥ ez) = 1 := by
  have h : ((RZ k.OM * RX k.i * RZ k.om) *ᵥ ez) ⬝ᵥ ((RZ k.OM * RX k.i * RZ k.om) *ᵥ ez) = 1 := by
    rw [Kep.frame_ez]
    simp only [dotProduct, Fin.sum_univ_three, Matrix.cons_val_zero, Matrix.cons_val_one, Matrix.cons_val, Kep.wx, Kep.wy, Kep.wz]
    have h1 := Real.sin_sq_add_cos_sq k.OM
    have h3 := Real.sin_sq_add_cos_sq k.i
    linear_combination (Real.sin k.i ^ 2) * h1 + h3
  rw [vlen, h, Real.sqrt_one]

theorem DescribesOrbit.ell (hd : DescribesOrbit mu k s) (hmu : 0 < mu) (ha : 0 < k.a) (he0 : 0 ≤ k.e) (he1 : k.e < 1) : EllState mu k s := by
  have hq : 0 < 1 - k.e := by linarith
  have hsl : 0 < 1 - k.e ^ 2 := by nlinarith
  have hp : (if k.e = 1 then 2 * k.a else k.a * |1 - k.e ^ 2|) = k.a * (1 - k.e ^ 2) := by rw [if_neg he1.ne, abs_of_pos hsl]
  have hmp : 0 < mu * (k.a * (1 - k.e ^ 2)) := by positivity
  have hh : vlen (angMom s) = √(mu * (k.a * (1 - k.e ^ 2))) := by
    rw [hd.ang_mom, hp, vlen_scale, frame_ez_len, mul_one, abs_of_nonneg (Real.sqrt_nonneg _)]
  have hh0 : 0 < vlen (angMom s) := by rw [hh]; exact Real.sqrt_pos.mpr hmp
  have hh2 : vlen (angMom s) ^ 2 = mu * (k.a * (1 - k.e ^ 2)) := by rw [hh, Real.sq_sqrt hmp.le]
  have hc1 := Real.neg_one_le_cos k.nu
  have hc2 := Real.cos_le_one k.nu
  have hD1 : 1 - k.e ≤ 1 + k.e * Real.cos k.nu := by nlinarith
  have hD2 : 1 + k.e * Real.cos k.nu ≤ 1 + k.e := by nlinarith
  have hD : 0 < 1 + k.e * Real.cos k.nu := by linarith
  have hr1 : k.a * (1 - k.e) ≤ vlen s.r := by
    rw [hd.distance, hp, le_div_iff₀ hD]
    calc k.a * (1 - k.e) * (1 + k.e * Real.cos k.nu) ≤ k.a * (1 - k.e) * (1 + k.e) := mul_le_mul_of_nonneg_left hD2 (by positivity)
      _ = _ := by ring
  have hr2 : vlen s.r ≤ k.a * (1 + k.e) := by
    rw [hd.distance, hp, div_le_iff₀ hD]
    calc k.a * (1 - k.e ^ 2) = k.a * (1 + k.e) * (1 - k.e) := by ring
      _ ≤ _ := mul_le_mul_of_nonneg_left hD1 (by positivity)
  have hrp : 0 < vlen s.r := lt_of_lt_of_le (by positivity) hr1
  have hw2 : ((1 + k.e) * mu / vlen (angMom s)) ^ 2 = (1 + k.e) * mu / (k.a * (1 - k.e)) := by
    rw [div_pow, hh2, show 1 - k.e ^ 2 = (1 - k.e) * (1 + k.e) by ring]
    field_simp
  have hen := hd.energy_ell he1
  refine ⟨hr1, hr2, hh0, hh2, ?_, ?_, hen, ?_, ?_, ?_, ?_⟩
  · rw [hh, hd.ang_mom, hp, hd.normal]
    simp
  · rw [hd.ecc, vlen_scale, frame_ex_len, mul_one, abs_of_nonneg he0]
  · refine (abs_le_of_sq_le_sq' ?_ (by positivity)).2
    rw [hw2]
    have h1 : vlen s.v ^ 2 = 2 * (mu / vlen s.r) - mu / k.a := by
      rw [energy, ← vlen_sq'] at hen
      have : -mu / (2 * k.a) = -(mu / k.a) / 2 := by field_simp
      rw [this] at hen
      linarith
    rw [h1]
    have h2 : mu / vlen s.r ≤ mu / (k.a * (1 - k.e)) := div_le_div_of_nonneg_left hmu.le (by positivity) hr1
    have h3 : (1 + k.e) * mu / (k.a * (1 - k.e)) = 2 * (mu / (k.a * (1 - k.e))) - mu / k.a := by field_simp; ring
    linarith
  · rw [hw2, div_mul_cancel₀ _ (by positivity)]
    nlinarith
  · rw [hw2, show vlen s.r * ((1 + k.e) * mu / (k.a * (1 - k.e))) / mu = vlen s.r * (1 + k.e) / k.a / (1 - k.e) by field_simp]
    refine div_le_div_of_nonneg_right ?_ hq.le
    rw [div_le_iff₀ ha]
    calc vlen s.r * (1 + k.e) ≤ k.a * (1 + k.e) * (1 + k.e) := mul_le_mul_of_nonneg_right hr2 (by linarith)
      _ ≤ _ := by nlinarith [mul_le_mul he1.le he1.le he0 (by norm_num : (0 : ℝ) ≤ 1)]
  · rw [mul_div_assoc', div_le_iff₀ hh0, mul_assoc, ← pow_two, hh2]
    calc vlen s.r * ((1 + k.e) * mu) ≤ k.a * (1 + k.e) * ((1 + k.e) * mu) := mul_le_mul_of_nonneg_right hr2 (by positivity)
      _ ≤ k.a * 2 * ((1 + k.e) * mu) := by
        refine mul_le_mul_of_nonneg_right (mul_le_mul_of_nonneg_left (by linarith) ha.le) (by positivity)
      _ = _ := by field_simp; ring
end

/-! ## C90 -/

theorem cos_inclination {c : Cart ℝ} (hh : 0 < vlen (angMom c)) : Real.cos (inclination c) = angMom c 2 / vlen (angMom c) := by
  have h1 : |angMom c 2| ≤ vlen (angMom c) := by
    rw [angMom_eq]
    exact (abs_le_vlen _ _ _).2.2
  obtain ⟨a, b⟩ := abs_le.mp h1
  rw [inclination, Real.cos_arccos]
  · rw [le_div_iff₀ hh]; linarith
  · rw [div_le_iff₀ hh]; linarith

theorem comp_le_vlen (p : Fin 3 → ℝ) (j : Fin 3) : |p j| ≤ vlen p := by
  have := abs_le_vlen (p 0) (p 1) (p 2)
  have e : ![p 0, p 1, p 2] = p := by funext i; fin_cases i <;> rfl
  rw [e] at this
  fin_cases j
  · exact this.1
  · exact this.2.1
  · exact this.2.2

/-- C90: for every ellipse with `10^5 u ≤ (1 - e)^3`, in any arithmetic that rounds to nearest, converting elements to Cartesian coordinates and these back to
elements returns six numbers whose eccentricity differs by at most `8000 u / (1 - e)^2`, whose semi-major axis differs by at most `4000 u / (1 - e)^2` times its
value, and whose inclination has a cosine that differs by at most `5000 u / (1 - e)^2`. -/
theorem c90 (hR : Nearest R) (g : Nat → RF R) (g' : Nat → CtkGarbage (RF R)) {mu : ℝ} {k : Kep ℝ} (hmu : 0 < mu) (ha : 0 < k.a) (he0 : 0 ≤ k.e) (he1 : k.e < 1)
    (hs : 10 ^ 5 * R.u ≤ (1 - k.e) ^ 3) :
    ∃ (c : Cart (RF R)) (k' : Kep (RF R)) (a e i : ℝ), (kep_to_cart g (.sc (RF.num R mu)) false (.vec .f64 (k.num R))).1 = .ok (.vec .f64 c) ∧
      (cart_to_kep g' (.sc (RF.num R mu)) false (.vec .f64 c)).1 = .ok (.vec .f64 k') ∧ k'.a = RF.num R a ∧ k'.e = RF.num R e ∧ k'.i = RF.num R i ∧
      |e - k.e| ≤ 8000 * R.u / (1 - k.e) ^ 2 ∧ |a - k.a| ≤ 4000 * R.u / (1 - k.e) ^ 2 * k.a ∧ |Real.cos i - Real.cos k.i| ≤ 5000 * R.u / (1 - k.e) ^ 2 := by
  have hu0 := R.u_nonneg
  have hq : 0 < 1 - k.e := by linarith
  have hphys : Physical mu k := ⟨hmu, ha, he0, by nlinarith [Real.neg_one_le_cos k.nu]⟩
  set q := 1 - k.e with hqd
  have hq1 : q ≤ 1 := by linarith
  -- `t` is the small quantity
  set t := R.u / q ^ 2 with ht
  have ht0 : 0 ≤ t := by positivity
  have htq : 10 ^ 5 * t ≤ q := by
    rw [ht, mul_div_assoc', div_le_iff₀ (by positivity)]
    linarith [show q * q ^ 2 = q ^ 3 by ring]
  have huq : R.u / q ≤ t := by
    rw [ht]
    exact div_le_div_of_nonneg_left hu0 (by positivity) (by nlinarith)
  have huq0 : 0 ≤ R.u / q := by positivity
  have huu : R.u ≤ R.u / q := by rw [le_div_iff₀ hq]; nlinarith
  have htt : R.u / q * (1 / q) = t := by rw [ht]; field_simp
  obtain ⟨s, s', hd, hres, hr, hv⟩ := c70 (R := R) g hphys (condition_ellipse he0 he1) (by
    rw [← hqd, show 150 * (2 / q) * R.u = 300 * (R.u / q) by ring]
    linarith)
  have E := hd.ell hmu ha he0 he1
  rw [← hqd, show 300 * (2 / q) * R.u = 600 * (R.u / q) by ring] at hr
  rw [← hqd, show 200 * (2 / q) * R.u = 400 * (R.u / q) by ring] at hv
  have hrp : 0 < vlen s.r := lt_of_lt_of_le (by positivity) E.r_ge
  have C : Close s s' ((1 + k.e) * mu / vlen (angMom s)) (600 * (R.u / q)) (400 * (R.u / q)) :=
    ⟨hr, hv, E.speed, by linarith, by linarith, by linarith, by linarith, hrp⟩
  set w := (1 + k.e) * mu / vlen (angMom s) with hw
  have hw0 := C.w0
  have hrp' : 0 < vlen s'.r := by linarith [C.r_ge]
  -- angular momentum
  have H : vlen (angMom s' - angMom s) ≤ 2012 * t * vlen (angMom s) := by
    refine C.angMom_le.trans ?_
    calc (101 / 100 * (600 * (R.u / q)) + 400 * (R.u / q)) * (vlen s.r * w) ≤ (101 / 100 * (600 * (R.u / q)) + 400 * (R.u / q)) * (2 / q * vlen (angMom s)) :=
          mul_le_mul_of_nonneg_left E.rw (by linarith)
      _ = 2012 * (R.u / q * (1 / q)) * vlen (angMom s) := by ring
      _ = _ := by rw [htt]
  have hh := E.h_pos
  have htri := abs_le.mp ((vlen_tri (angMom s') (angMom s)).trans H)
  have h2012 : 2012 * t * vlen (angMom s) ≤ 3 / 100 * vlen (angMom s) := mul_le_mul_of_nonneg_right (by linarith) hh.le
  have hh' : 97 / 100 * vlen (angMom s) ≤ vlen (angMom s') := by linarith [htri.1]
  have hhp' : 0 < vlen (angMom s') := by linarith
  have hne' : angMom s' ≠ 0 := by
    intro h0
    rw [h0] at hhp'
    simp [vlen] at hhp'
  -- eccentricity vector
  have V : vlen (eccVec mu s' - eccVec mu s) ≤ 6900 * t := by
    refine (C.eccVec_le hmu).trans ?_
    calc 2 * (600 * (R.u / q)) + (203 / 100 * (400 * (R.u / q)) + 102 / 100 * (600 * (R.u / q))) * (vlen s.r * w ^ 2 / mu)
        ≤ 1200 * t + (203 / 100 * (400 * (R.u / q)) + 102 / 100 * (600 * (R.u / q))) * (4 / q) :=
          add_le_add (by linarith) (mul_le_mul_of_nonneg_left E.rw_sq (by linarith))
      _ = 1200 * t + 5696 * (R.u / q * (1 / q)) := by ring
      _ ≤ _ := by rw [htt]; linarith
  have hecc := (vlen_tri (eccVec mu s') (eccVec mu s)).trans V
  rw [E.ecc] at hecc
  -- energy
  have haq : 0 < k.a * q := by positivity
  have hmr : mu / vlen s.r ≤ mu / (k.a * q) := div_le_div_of_nonneg_left hmu.le haq E.r_ge
  have hw2 : w ^ 2 ≤ 2 * (mu / (k.a * q)) := by
    rw [mul_div_assoc', le_div_iff₀ haq]; exact E.w_sq
  have hm : mu / (k.a * q) = mu / (2 * k.a) * (2 * (1 / q)) := by field_simp
  have hEp : 0 < mu / (2 * k.a) := by positivity
  have N : |energy mu s' - energy mu s| ≤ 2840 * t * (mu / (2 * k.a)) := by
    refine (C.energy_le hmu).trans ?_
    calc 101 / 100 * (400 * (R.u / q)) * w ^ 2 + 102 / 100 * (600 * (R.u / q)) * (mu / vlen s.r)
        ≤ 101 / 100 * (400 * (R.u / q)) * (2 * (mu / (k.a * q))) + 102 / 100 * (600 * (R.u / q)) * (mu / (k.a * q)) :=
          add_le_add (mul_le_mul_of_nonneg_left hw2 (by linarith)) (mul_le_mul_of_nonneg_left hmr (by linarith))
      _ = 2840 * (R.u / q * (1 / q)) * (mu / (2 * k.a)) := by rw [hm]; ring
      _ = _ := by rw [htt]
  rw [E.energy, neg_div] at N
  have hN := abs_le.mp N
  have hEt : 2840 * t * (mu / (2 * k.a)) ≤ 3 / 100 * (mu / (2 * k.a)) := mul_le_mul_of_nonneg_right (by linarith) hEp.le
  have hEneg : energy mu s' < 0 := by linarith [hN.2]
  have habs : |energy mu s'| = -energy mu s' := abs_of_neg hEneg
  have hE' : energy mu s' = vlen s'.v ^ 2 / 2 - mu / vlen s'.r := by rw [energy, ← vlen_sq']
  have hrv : vlen s'.r * vlen s'.v ^ 2 < 2 * mu := by
    have : vlen s'.v ^ 2 / 2 < mu / vlen s'.r := by linarith
    rw [lt_div_iff₀ hrp'] at this
    linarith
  have hk : 1 + 2 * vlen s'.r * vlen s'.v ^ 2 / mu ≤ 5 := by
    have : 2 * vlen s'.r * vlen s'.v ^ 2 / mu ≤ 4 := by rw [div_le_iff₀ hmu]; linarith
    linarith
  have hk' : 50 * R.u * eccCond mu s' ≤ 250 * t := by
    have := mul_le_mul_of_nonneg_left hk (by linarith : 0 ≤ 50 * R.u)
    rw [eccCond]
    linarith
  have hu100 : 100 * R.u ≤ 1 := by linarith
  have hpos' := vlen_eccVec hmu (angMom_ne_zero hne')
  obtain ⟨e, e1, e2⟩ := col88_e (R := R) hmu (r_ne_of_angMom hne') hu100 (g' 0)
  have hr0 := C.r_ge
  have hmr' : mu / vlen s'.r ≤ 100 / 99 * (mu / (k.a * q)) := by
    rw [div_le_iff₀ hrp']
    have h1 : 99 / 100 * (k.a * q) ≤ vlen s'.r := by linarith [E.r_ge]
    calc mu = 100 / 99 * (mu / (k.a * q)) * (99 / 100 * (k.a * q)) := by field_simp
      _ ≤ _ := mul_le_mul_of_nonneg_left h1 (by positivity)
  have hE97 : 97 / 100 * (mu / (2 * k.a)) ≤ |energy mu s'| := by rw [habs]; linarith [hN.2]
  obtain ⟨a, a1, a2⟩ := col88_a (R := R) (C := 5 / q) hmu hne' (by
    have h1 : vlen s'.v ^ 2 / 2 + mu / vlen s'.r ≤ 2 * (mu / vlen s'.r) := by linarith
    have h2 : 5 / q * (97 / 100 * (mu / (2 * k.a))) ≤ 5 / q * |energy mu s'| := mul_le_mul_of_nonneg_left hE97 (by positivity)
    have h3 : 5 / q * (97 / 100 * (mu / (2 * k.a))) = 485 / 200 * (mu / (k.a * q)) := by rw [hm]; ring
    have h4 : 0 < mu / (k.a * q) := by positivity
    linarith) (by rw [show 100 * (5 / q) * R.u = 500 * (R.u / q) by ring]; linarith) hu100 (by
    rw [← hpos']
    have := (abs_le.mp hecc).2
    rw [abs_of_pos (by linarith)]
    linarith) (g' 0)
  have hrv' : vlen s'.r * vlen s'.v ≤ 22 / 10 * (1 / q) * vlen (angMom s') := by
    have h1 := mul_le_mul C.r_le C.v_le (vlen_nonneg _) (by linarith)
    have h2 := E.rw
    have h3 : 1 / q * (97 / 100 * vlen (angMom s)) ≤ 1 / q * vlen (angMom s') := mul_le_mul_of_nonneg_left hh' (by positivity)
    have h4 : 0 ≤ 1 / q * vlen (angMom s) := by positivity
    rw [show 2 / q * vlen (angMom s) = 2 * (1 / q * vlen (angMom s)) by ring] at h2
    linarith
  obtain ⟨i, i1, i2⟩ := col88_i hR (mu := mu) (c := s') (by
    calc 100 * R.u * (vlen s'.r * vlen s'.v) ≤ 100 * R.u * (22 / 10 * (1 / q) * vlen (angMom s')) := mul_le_mul_of_nonneg_left hrv' (by linarith)
      _ = 220 * (R.u / q) * vlen (angMom s') := by ring
      _ ≤ 1 * vlen (angMom s') := mul_le_mul_of_nonneg_right (by linarith) hhp'.le
      _ = _ := one_mul _) hne' (g' 0)
  refine ⟨s'.num R, _, a, e, i, hres, rfl, a1, e1, i1, ?_, ?_, ?_⟩
  · rw [← hpos'] at e2
    have := abs_add_le (e - vlen (eccVec mu s')) (vlen (eccVec mu s') - k.e)
    rw [sub_add_sub_cancel] at this
    rw [mul_div_assoc, ← ht]
    linarith
  · rw [mul_div_assoc, ← ht]
    set A := mu / (2 * |energy mu s'|) with hA
    have hEa : 0 < |energy mu s'| := by linarith
    have hAa : A * |energy mu s'| = k.a * (mu / (2 * k.a)) := by rw [hA]; field_simp
    have hA0 : 0 < A := by rw [hA]; positivity
    have hA1 : A ≤ 100 / 97 * k.a := by
      have h1 := mul_le_mul_of_nonneg_left hE97 hA0.le
      rw [hAa] at h1
      have h2 : A * (97 / 100) * (mu / (2 * k.a)) ≤ k.a * (mu / (2 * k.a)) := by linarith
      have := le_of_mul_le_mul_right h2 hEp
      linarith
    have hAd : |A - k.a| ≤ 2840 * t * A := by
      have h1 : (A - k.a) * (mu / (2 * k.a)) = A * (mu / (2 * k.a) - (|energy mu s'|)) := by rw [mul_sub, hAa]; ring
      have h2 : |mu / (2 * k.a) - (|energy mu s'|)| ≤ 2840 * t * (mu / (2 * k.a)) := by
        rw [habs]
        rw [show mu / (2 * k.a) - -energy mu s' = energy mu s' - -(mu / (2 * k.a)) by ring]
        exact N
      have h3 : |A - k.a| * (mu / (2 * k.a)) ≤ 2840 * t * A * (mu / (2 * k.a)) := by
        have := congrArg abs h1
        rw [abs_mul, abs_mul, abs_of_pos hEp, abs_of_pos hA0] at this
        rw [this]
        have := mul_le_mul_of_nonneg_left h2 hA0.le
        linarith
      exact le_of_mul_le_mul_right h3 hEp
    have h5 := abs_add_le (a - A) (A - k.a)
    rw [sub_add_sub_cancel] at h5
    rw [show 24 * (5 / q) * R.u * A = 120 * (R.u / q) * A by ring] at a2
    have h6 : 120 * (R.u / q) * A ≤ 120 * t * A := mul_le_mul_of_nonneg_right (by linarith) hA0.le
    have h7 : t * A ≤ t * (100 / 97 * k.a) := mul_le_mul_of_nonneg_left hA1 ht0
    have h8 : 0 ≤ t * k.a := by positivity
    linarith
  · rw [mul_div_assoc, ← ht]
    have h1 : |Real.cos (inclination s') - Real.cos k.i| ≤ 4024 * t := by
      rw [cos_inclination hhp', show Real.cos k.i = angMom s 2 / vlen (angMom s) by rw [E.hz]; field_simp]
      rw [show angMom s' 2 / vlen (angMom s') - angMom s 2 / vlen (angMom s) =
        ((angMom s' 2 - angMom s 2) + angMom s' 2 / vlen (angMom s') * (vlen (angMom s) - vlen (angMom s'))) / vlen (angMom s) by field_simp; ring, abs_div, abs_of_pos hh,
        div_le_iff₀ hh]
      refine (abs_add_le _ _).trans ?_
      rw [abs_mul, abs_sub_comm (vlen (angMom s))]
      have b1 : |angMom s' 2 - angMom s 2| ≤ 2012 * t * vlen (angMom s) := (comp_le_vlen (angMom s' - angMom s) 2).trans H
      have b2 : |angMom s' 2 / vlen (angMom s')| ≤ 1 := by rw [abs_div, abs_of_pos hhp', div_le_one hhp']; exact comp_le_vlen _ 2
      have b3 := mul_le_mul b2 ((vlen_tri (angMom s') (angMom s)).trans H) (abs_nonneg _) (by norm_num)
      linarith
    have h2 : 20 * R.u * (vlen s'.r * vlen s'.v / vlen (angMom s')) ≤ 44 * t := by
      have : vlen s'.r * vlen s'.v / vlen (angMom s') ≤ 22 / 10 * (1 / q) := by rw [div_le_iff₀ hhp']; exact hrv'
      calc _ ≤ 20 * R.u * (22 / 10 * (1 / q)) := mul_le_mul_of_nonneg_left this (by linarith)
        _ = 44 * (R.u / q) := by ring
        _ ≤ _ := by linarith
    have h3 := abs_add_le (Real.cos i - Real.cos (inclination s')) (Real.cos (inclination s') - Real.cos k.i)
    rw [sub_add_sub_cancel] at h3
    linarith

/-- C90 in double precision, for eccentricities up to 0.999: the round trip changes the eccentricity by at most 9e-13 / (1 - e)^2, the semi-major axis by at most the
fraction 4.5e-13 / (1 - e)^2, and the cosine of the inclination by at most 5.6e-13 / (1 - e)^2. -/
theorem c90_binary64 (g : Nat → RF Binary.binary64) (g' : Nat → CtkGarbage (RF Binary.binary64)) {mu : ℝ} {k : Kep ℝ} (hmu : 0 < mu) (ha : 0 < k.a) (he0 : 0 ≤ k.e)
    (he1 : k.e ≤ 0.999) :
    ∃ (c : Cart (RF Binary.binary64)) (k' : Kep (RF Binary.binary64)) (a e i : ℝ), (kep_to_cart g (.sc (RF.num _ mu)) false (.vec .f64 (k.num _))).1 = .ok (.vec .f64 c) ∧
      (cart_to_kep g' (.sc (RF.num _ mu)) false (.vec .f64 c)).1 = .ok (.vec .f64 k') ∧ k'.a = RF.num _ a ∧ k'.e = RF.num _ e ∧ k'.i = RF.num _ i ∧
      |e - k.e| ≤ 9 / 10 ^ 13 / (1 - k.e) ^ 2 ∧ |a - k.a| ≤ 4.5 / 10 ^ 13 / (1 - k.e) ^ 2 * k.a ∧ |Real.cos i - Real.cos k.i| ≤ 5.6 / 10 ^ 13 / (1 - k.e) ^ 2 := by
  have hu : Binary.binary64.u = (1 / 2) ^ 53 := rfl
  have hq : (1 / 1000 : ℝ) ≤ 1 - k.e := by norm_num at he1 ⊢; linarith
  have hq3 := pow_le_pow_left₀ (by norm_num) hq 3
  have hq2 : 0 < (1 - k.e) ^ 2 := by have : 0 < 1 - k.e := by linarith
                                     positivity
  obtain ⟨c, k', a, e, i, h1, h2, h3, h4, h5, h6, h7, h8⟩ := c90 Binary.nearest g g' hmu ha he0 (by norm_num at he1; linarith) (by
    refine le_trans ?_ hq3
    rw [hu]; norm_num)
  refine ⟨c, k', a, e, i, h1, h2, h3, h4, h5, h6.trans ?_, h7.trans (mul_le_mul_of_nonneg_right ?_ ha.le), h8.trans ?_⟩ <;>
  · refine div_le_div_of_nonneg_right ?_ hq2.le
    rw [hu]; norm_num

/-- a case of `c90`: an ellipse with e = 1/2 -/
example : 0 < (⟨2, 1 / 2, 1, 1, 1, 1⟩ : Kep ℝ).a ∧ (⟨2, 1 / 2, 1, 1, 1, 1⟩ : Kep ℝ).e ≤ 0.999 ∧
    10 ^ 5 * Binary.binary64.u ≤ (1 - (⟨2, 1 / 2, 1, 1, 1, 1⟩ : Kep ℝ).e) ^ 3 := by
  have hu : Binary.binary64.u = (1 / 2) ^ 53 := rfl
  rw [hu]
  norm_num

end Pyorb
