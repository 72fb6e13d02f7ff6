import Verif.PropsRoundCart

/-!
# Accuracy of `cart_to_kep` with rounding (C88)

Forward errors of the eccentricity, the semi-major axis and the inclination.
-/

namespace Pyorb
open FX RF Matrix
variable {R : Rounding}

/-! ## Lengths of computed vectors -/

theorem vlen_near {p x : Fin 3 → ℝ} {D : ℝ} (h : ∀ j, |p j - x j| ≤ D) : |vlen p - vlen x| ≤ 2 * D := by
  have key (a b : Fin 3 → ℝ) : vlen a ≤ vlen b + vlen (a - b) := by
    have h1 : b ⬝ᵥ (a - b) ≤ vlen b * vlen (a - b) := by
      have hb : vlen b ^ 2 = b ⬝ᵥ b := Real.sq_sqrt (Finset.sum_nonneg fun i _ => mul_self_nonneg _)
      have hd : vlen (a - b) ^ 2 = (a - b) ⬝ᵥ (a - b) := Real.sq_sqrt (Finset.sum_nonneg fun i _ => mul_self_nonneg _)
      refine (abs_le_of_sq_le_sq' ?_ (mul_nonneg (vlen_nonneg b) (vlen_nonneg (a - b)))).2
      rw [mul_pow, hb, hd]
      simp only [dotProduct, Fin.sum_univ_three, Pi.sub_apply]
      nlinarith [sq_nonneg (b 0 * (a 1 - b 1) - b 1 * (a 0 - b 0)), sq_nonneg (b 0 * (a 2 - b 2) - b 2 * (a 0 - b 0)), sq_nonneg (b 1 * (a 2 - b 2) - b 2 * (a 1 - b 1))]
    have hb : vlen b ^ 2 = b ⬝ᵥ b := Real.sq_sqrt (Finset.sum_nonneg fun i _ => mul_self_nonneg _)
    have hd : vlen (a - b) ^ 2 = (a - b) ⬝ᵥ (a - b) := Real.sq_sqrt (Finset.sum_nonneg fun i _ => mul_self_nonneg _)
    have ha : vlen a ^ 2 = a ⬝ᵥ a := Real.sq_sqrt (Finset.sum_nonneg fun i _ => mul_self_nonneg _)
    refine (abs_le_of_sq_le_sq' ?_ (add_nonneg (vlen_nonneg b) (vlen_nonneg (a - b)))).2
    rw [add_sq, ha, hb, hd]
    have : a ⬝ᵥ a = b ⬝ᵥ b + 2 * (b ⬝ᵥ (a - b)) + (a - b) ⬝ᵥ (a - b) := by
      simp only [dotProduct, Fin.sum_univ_three, Pi.sub_apply]; ring
    linarith
  have h1 := key p x
  have h2 := key x p
  have h3 : vlen (p - x) ≤ 2 * D := vlen_le h
  have h4 : vlen (x - p) ≤ 2 * D := vlen_le fun j => by rw [Pi.sub_apply, abs_sub_comm]; exact h j
  rw [abs_le]
  constructor <;> linarith

/-- length of a computed vector -/
theorem flNorm_near {p0 p1 p2 D : ℝ} {x : Fin 3 → ℝ} (h0 : |p0 - x 0| ≤ D) (h1 : |p1 - x 1| ≤ D) (h2 : |p2 - x 2| ≤ D) (hu : 10 * R.u ≤ 1) :
    |flNorm R p0 p1 p2 - vlen x| ≤ 2 * D + 10 / 3 * R.u * (vlen x + 2 * D) := by
  obtain ⟨t, ht, he⟩ := flNorm_rel (R := R) p0 p1 p2
  have he := num_inj he
  have h3 : |vlen ![p0, p1, p2] - vlen x| ≤ 2 * D := vlen_near fun j => by fin_cases j <;> assumption
  have h4 : |Real.exp t - 1| ≤ 10 / 3 * R.u := (exp_diff ht).trans ((exp_sub_one_le (by linarith [R.u_nonneg]) (by linarith)).trans (by linarith))
  have h5 : vlen ![p0, p1, p2] ≤ vlen x + 2 * D := by linarith [(abs_le.mp h3).2]
  rw [he, show vlen ![p0, p1, p2] * Real.exp t - vlen x = (vlen ![p0, p1, p2] - vlen x) + vlen ![p0, p1, p2] * (Real.exp t - 1) by ring]
  refine (abs_add_le _ _).trans (add_le_add h3 ?_)
  rw [abs_mul, abs_of_nonneg (vlen_nonneg _), mul_comm]
  exact mul_le_mul h4 h5 (vlen_nonneg _) (by linarith [R.u_nonneg])

/-! ## Eccentricity -/

theorem cauchy_three (c : Cart ℝ) : |c.x * c.vx| + |c.y * c.vy| + |c.z * c.vz| ≤ vlen c.r * vlen c.v := by
  have hr : vlen c.r * vlen c.r = c.x * c.x + c.y * c.y + c.z * c.z := vlen_vec_sq _ _ _
  have hv : vlen c.v * vlen c.v = c.vx * c.vx + c.vy * c.vy + c.vz * c.vz := vlen_vec_sq _ _ _
  rw [abs_mul, abs_mul, abs_mul]
  rw [← abs_mul_abs_self c.x, ← abs_mul_abs_self c.y, ← abs_mul_abs_self c.z] at hr
  rw [← abs_mul_abs_self c.vx, ← abs_mul_abs_self c.vy, ← abs_mul_abs_self c.vz] at hv
  refine (abs_le_of_sq_le_sq' ?_ (mul_nonneg (vlen_nonneg c.r) (vlen_nonneg c.v))).2
  have e : (vlen c.r * vlen c.v) ^ 2 = (vlen c.r * vlen c.r) * (vlen c.v * vlen c.v) := by ring
  rw [e, hr, hv]
  nlinarith [sq_nonneg (|c.x| * |c.vy| - |c.y| * |c.vx|), sq_nonneg (|c.x| * |c.vz| - |c.z| * |c.vx|), sq_nonneg (|c.y| * |c.vz| - |c.z| * |c.vy|)]

/-- the computed radial velocity -/
theorem vr_near {c : Cart ℝ} (hr : c.r ≠ 0) :
    Near (13 / 2) (vlen c.v) ((V3.sdiv (⟨RF.num R c.x, RF.num R c.y, RF.num R c.z⟩ : V3 (RF R)) (RF.num R (flNorm R c.x c.y c.z))).dot ⟨RF.num R c.vx, RF.num R c.vy, RF.num R c.vz⟩) c.vr := by
  have hrp := vlen_r_pos hr
  have hN : Rel (5 / 2) (RF.num R (flNorm R c.x c.y c.z)) (vlen c.r) := flNorm_rel _ _ _
  have q (a b : ℝ) : Near (9 / 2) (|a * b| / vlen c.r) (RF.num R a / RF.num R (flNorm R c.x c.y c.z) * RF.num R b) (a / vlen c.r * b) := by
    have h := ((Rel.num (R := R) a).div hN hrp.ne').mul (Rel.num b)
    refine (h.mono (by norm_num)).near ?_
    rw [abs_mul, abs_div, abs_of_pos hrp, abs_mul]
    apply le_of_eq
    ring
  have h1 := (q c.x c.vx).add (q c.y c.vy)
  have h2 := h1.add ((q c.z c.vz).mono (k := 9 / 2 + 1) (by norm_num) (by norm_num) le_rfl)
  refine (h2.mono (k := 13 / 2) (by norm_num) (by norm_num) ?_).cast rfl rfl ?_
  · rw [← add_div, ← add_div, div_le_iff₀ hrp]
    linarith [cauchy_three c]
  · rw [vlen_r]; rfl

/-- how well the eccentricity vector is determined by the state: `1 + 2 r v² / mu` -/
noncomputable def eccCond (mu : ℝ) (c : Cart ℝ) : ℝ := 1 + 2 * vlen c.r * vlen c.v ^ 2 / mu

/-- one component of the computed eccentricity vector -/
theorem ev_near {mu : ℝ} (hmu : 0 < mu) {c : Cart ℝ} (hr : c.r ≠ 0) {vr : RF R} (hvr : Near (13 / 2) (vlen c.v) vr c.vr) {a b : ℝ} (ha : |a| ≤ vlen c.r) (hb : |b| ≤ vlen c.v) :
    Near 14 (eccCond mu c)
      (1 / RF.num R mu * ((sq (RF.num R (flNorm R c.vx c.vy c.vz)) - RF.num R mu / RF.num R (flNorm R c.x c.y c.z)) * RF.num R a -
        RF.num R (flNorm R c.x c.y c.z) * vr * RF.num R b))
      (1 / mu * ((c.vn ^ 2 - mu / c.rn) * a - c.rn * c.vr * b)) := by
  have hrp := vlen_r_pos hr
  have hN : Rel (5 / 2) (RF.num R (flNorm R c.x c.y c.z)) (vlen c.r) := flNorm_rel _ _ _
  have hV : Rel (5 / 2) (RF.num R (flNorm R c.vx c.vy c.vz)) (vlen c.v) := flNorm_rel _ _ _
  have hv0 := vlen_nonneg c.v
  have h1 := ((hV.mul hV).mono (k := 6) (by norm_num)).near (B := vlen c.v ^ 2) (by rw [abs_of_nonneg (mul_self_nonneg _)]; apply le_of_eq; ring)
  have h2 := (((Rel.num (R := R) mu).div hN hrp.ne').mono (k := 6) (by norm_num)).near (B := mu / vlen c.r) (by rw [abs_of_pos (div_pos hmu hrp)])
  have h3 := (h1.sub h2).mul ((Rel.num (R := R) a).near (B := vlen c.r) ha)
  have h4 := ((hN.near (B := vlen c.r) (by rw [abs_of_pos hrp])).mul hvr).mul ((Rel.num (R := R) b).near (B := vlen c.v) hb)
  have h5 := (h3.mono (k := 11) (by norm_num) (by norm_num) le_rfl).sub (h4.mono (k := 11) (by norm_num) (by norm_num) le_rfl)
  have h6 := (((Rel.num (R := R) 1).div (Rel.num (R := R) mu) hmu.ne').near (B := 1 / mu) (by rw [abs_of_pos (by positivity)])).mul h5
  rw [one_num]
  refine (h6.mono (k := 14) (by norm_num) (by norm_num) ?_).cast rfl rfl ?_
  · apply le_of_eq
    rw [eccCond]
    field_simp
    ring
  · have e1 : vlen c.v = c.vn := by
      show vlen ![c.vx, c.vy, c.vz] = _
      rw [vlen_vec, Cart.vn]; congr 1; ring
    rw [vlen_r, e1, ← pow_two]

/-! ## The column -/

theorem cos_mul_exp {x t B : ℝ} (h0 : 0 ≤ x) (h1 : x ≤ Real.pi) (ht : |Real.exp t - 1| ≤ B) : |Real.cos (x * Real.exp t) - Real.cos x| ≤ Real.pi * B := by
  refine (Real.abs_cos_sub_cos_le _ _).trans ?_
  rw [show x * Real.exp t - x = x * (Real.exp t - 1) by ring, abs_mul, abs_of_nonneg h0]
  exact mul_le_mul h1 ht (abs_nonneg _) Real.pi_pos.le

theorem col88_e {mu : ℝ} (hmu : 0 < mu) {c : Cart ℝ} (hr : c.r ≠ 0) (hu : 100 * R.u ≤ 1) (g : CtkGarbage (RF R)) :
    ∃ e, (cartToKepCol g .f64 (RF.num R mu) (c.num R)).e = RF.num R e ∧ |e - c.ecc mu| ≤ 50 * R.u * eccCond mu c := by
  have hu0 := R.u_nonneg
  have hvr := vr_near (R := R) hr
  have hx := abs_le_vlen c.x c.y c.z
  have hv := abs_le_vlen c.vx c.vy c.vz
  have n0 := ev_near (R := R) hmu hr hvr hx.1 hv.1
  have n1 := ev_near (R := R) hmu hr hvr hx.2.1 hv.2.1
  have n2 := ev_near (R := R) hmu hr hvr hx.2.2 hv.2.2
  have b0 : |c.evx mu| ≤ eccCond mu c := by obtain ⟨_, _, _, h⟩ := n0; exact h
  have b1 : |c.evy mu| ≤ eccCond mu c := by obtain ⟨_, _, _, h⟩ := n1; exact h
  have b2 : |c.evz mu| ≤ eccCond mu c := by obtain ⟨_, _, _, h⟩ := n2; exact h
  obtain ⟨p, hp, hp'⟩ := n0.abs_le (by norm_num) (by linarith)
  obtain ⟨q, hq, hq'⟩ := n1.abs_le (by norm_num) (by linarith)
  obtain ⟨s, hs, hs'⟩ := n2.abs_le (by norm_num) (by linarith)
  have hecc : c.ecc mu = vlen ![c.evx mu, c.evy mu, c.evz mu] := by
    rw [vlen_vec, Cart.ecc]; congr 1; ring
  have hle : vlen ![c.evx mu, c.evy mu, c.evz mu] ≤ 2 * eccCond mu c := vlen_le fun j => by fin_cases j <;> assumption
  have hk0 : 0 ≤ eccCond mu c := (abs_nonneg _).trans b0
  refine ⟨flNorm R p q s, ?_, ?_⟩
  · rw [← norm_num3, ← hp, ← hq, ← hs, ← norm_num3, ← norm_num3]
    rfl
  · rw [hecc]
    refine (flNorm_near (R := R) (x := ![c.evx mu, c.evy mu, c.evz mu]) hp' hq' hs' (by linarith)).trans ?_
    have h1 : 0 ≤ R.u * eccCond mu c := mul_nonneg hu0 hk0
    have h2 : R.u * (R.u * eccCond mu c) ≤ 1 / 100 * (R.u * eccCond mu c) := mul_le_mul_of_nonneg_right (by linarith) h1
    have h3 : R.u * vlen ![c.evx mu, c.evy mu, c.evz mu] ≤ R.u * (2 * eccCond mu c) := mul_le_mul_of_nonneg_left hle hu0
    nlinarith

/-- the semi-major axis before its sign is chosen (kepler.py 411) -/
theorem a_rel {mu C : ℝ} (hmu : 0 < mu) {c : Cart ℝ} (hr : c.r ≠ 0) (hE : energy mu c ≠ 0) (hC : vlen c.v ^ 2 / 2 + mu / vlen c.r ≤ C * |energy mu c|) (hs : 100 * C * R.u ≤ 1) :
    Rel (18 * C) (-RF.num R mu / (2 * RF.num R (flEnergy R mu c))) (-mu / (2 * energy mu c)) := by
  have hu0 := R.u_nonneg
  have hn := flEnergy_near (R := R) (mu := mu) hr
  rw [abs_of_pos hmu] at hn
  have hC1 : 1 ≤ C := by
    have h1 : |energy mu c| ≤ vlen c.v ^ 2 / 2 + mu / vlen c.r := by obtain ⟨_, _, _, h⟩ := hn; exact h
    have h2 : 0 < |energy mu c| := abs_pos.mpr hE
    by_contra hc
    nlinarith
  have h1 := hn.rel (c := C) (by norm_num) hC hC1 (by nlinarith [mul_nonneg (by linarith : (0 : ℝ) ≤ C) hu0])
  have h2 := (Rel.num (R := R) 2).mul h1
  rw [two_num]
  exact ((Rel.num (R := R) mu).neg.div h2 (mul_ne_zero two_ne_zero hE)).mono (by linarith)

theorem col88_a {mu C : ℝ} (hmu : 0 < mu) {c : Cart ℝ} (hh : angMom c ≠ 0) (hC : vlen c.v ^ 2 / 2 + mu / vlen c.r ≤ C * |energy mu c|) (hs : 100 * C * R.u ≤ 1)
    (hu : 100 * R.u ≤ 1) (he : 50 * R.u * eccCond mu c < |1 - c.ecc mu|) (g : CtkGarbage (RF R)) :
    ∃ a, (cartToKepCol g .f64 (RF.num R mu) (c.num R)).a = RF.num R a ∧ |a - mu / (2 * |energy mu c|)| ≤ 24 * C * R.u * (mu / (2 * |energy mu c|)) := by
  have hu0 := R.u_nonneg
  have hr : c.r ≠ 0 := by
    intro h0
    apply hh
    have hx : c.x = 0 := congrFun h0 0
    have hy : c.y = 0 := congrFun h0 1
    have hz : c.z = 0 := congrFun h0 2
    rw [angMom_eq]
    simp [Cart.hx, Cart.hy, Cart.hz, hx, hy, hz]
  have hn := angMom_ne_zero hh
  have hee := c.ecc_energy hmu hn
  have he0 : 0 ≤ c.ecc mu := Real.sqrt_nonneg _
  have hk0 : 0 ≤ eccCond mu c := by
    have := vlen_nonneg c.r
    unfold eccCond
    positivity
  have hne1 : 0 < |1 - c.ecc mu| := lt_of_le_of_lt (by positivity) he
  obtain ⟨e', h1, h2⟩ := col88_e (R := R) hmu hr hu g
  have hE : energy mu c ≠ 0 := by
    intro h0
    rw [energy_eq] at h0
    rw [h0] at hee
    have h3 : c.ecc mu ^ 2 - 1 = 0 := (mul_eq_zero.mp (by linarith : mu ^ 2 * (c.ecc mu ^ 2 - 1) = 0)).resolve_left (by positivity)
    have h4 : c.ecc mu = 1 := by nlinarith
    rw [h4, sub_self, abs_zero] at hne1
    exact lt_irrefl _ hne1
  have hEp := abs_pos.mpr hE
  have hC1 : 1 ≤ C := by
    have hnr := flEnergy_near (R := R) (mu := mu) hr
    rw [abs_of_pos hmu] at hnr
    have h1 : |energy mu c| ≤ vlen c.v ^ 2 / 2 + mu / vlen c.r := by obtain ⟨_, _, _, h⟩ := hnr; exact h
    by_contra hc
    nlinarith
  obtain ⟨t, ht, ha⟩ := a_rel (R := R) hmu hr hE hC hs
  have hexp : |Real.exp t - 1| ≤ 24 * C * R.u := by
    refine (exp_diff ht).trans ((exp_sub_one_le ?_ ?_).trans (by linarith))
    · positivity
    · linarith
  -- the value and the sign
  have hK : (cartToKepCol g .f64 (RF.num R mu) (c.num R)).a =
      if (1 ≤ᵇ (cartToKepCol g .f64 (RF.num R mu) (c.num R)).e) = true then -(-RF.num R mu / (2 * RF.num R (flEnergy R mu c))) else -RF.num R mu / (2 * RF.num R (flEnergy R mu c)) := by
    have hrn : flNorm R c.x c.y c.z ≠ 0 := (flNorm_pos (pos_cases hr)).ne'
    have heps : (RF.num R (flEnergy R mu c) : RF R) = sq (V3.norm (⟨RF.num R c.vx, RF.num R c.vy, RF.num R c.vz⟩ : V3 (RF R))) * half -
        RF.num R mu / V3.norm (⟨RF.num R c.x, RF.num R c.y, RF.num R c.z⟩ : V3 (RF R)) := by
      rw [norm_num3, norm_num3, half_num, div_num _ hrn]
      rfl
    rw [heps]
    rfl
  rw [h1, ha, one_num, le_num] at hK
  have hfin (A : ℝ) (hA : A = mu / (2 * |energy mu c|)) : |A * Real.exp t - mu / (2 * |energy mu c|)| ≤ 24 * C * R.u * (mu / (2 * |energy mu c|)) := by
    have hAp : 0 < mu / (2 * |energy mu c|) := by positivity
    rw [hA, show mu / (2 * |energy mu c|) * Real.exp t - mu / (2 * |energy mu c|) = (Real.exp t - 1) * (mu / (2 * |energy mu c|)) by ring, abs_mul, abs_of_pos hAp]
    exact mul_le_mul_of_nonneg_right hexp hAp.le
  obtain ⟨d1, d2⟩ := abs_le.mp h2
  rcases lt_or_ge (c.ecc mu) 1 with hlt | hge
  · rw [abs_of_pos (by linarith)] at he
    have hEn : energy mu c < 0 := by
      rw [energy_eq]
      by_contra hc
      have : 0 ≤ c.eps mu * (2 * c.hn ^ 2) := mul_nonneg (not_lt.mp hc) (by positivity)
      nlinarith [mul_pos (mul_pos hmu hmu) (by nlinarith : 0 < 1 - c.ecc mu ^ 2)]
    rw [if_neg (by rw [decide_eq_true_eq, not_le]; linarith)] at hK
    exact ⟨_, hK, hfin _ (by rw [abs_of_neg hEn, mul_neg, neg_div, div_neg])⟩
  · rw [abs_of_nonpos (by linarith)] at he
    have hEn : 0 < energy mu c := by
      refine lt_of_le_of_ne ?_ (Ne.symm hE)
      rw [energy_eq]
      by_contra hc
      have : c.eps mu * (2 * c.hn ^ 2) < 0 := mul_neg_of_neg_of_pos (not_le.mp hc) (by positivity)
      nlinarith [mul_nonneg (mul_pos hmu hmu).le (by nlinarith : 0 ≤ c.ecc mu ^ 2 - 1)]
    rw [if_pos (by rw [decide_eq_true_eq]; linarith), neg_num] at hK
    refine ⟨_, hK, ?_⟩
    rw [← neg_mul]
    exact hfin _ (by rw [abs_of_pos hEn, neg_div, neg_neg])

theorem col88_i (hR : Nearest R) {mu : ℝ} {c : Cart ℝ} (hh : 100 * R.u * (vlen c.r * vlen c.v) ≤ vlen (angMom c)) (hne : angMom c ≠ 0) (g : CtkGarbage (RF R)) :
    ∃ i, (cartToKepCol g .f64 (RF.num R mu) (c.num R)).i = RF.num R i ∧
      |Real.cos i - Real.cos (inclination c)| ≤ 20 * R.u * (vlen c.r * vlen c.v / vlen (angMom c)) := by
  have hu0 := R.u_nonneg
  have hus : 100 * R.u ≤ 1 := by have := hR.small; norm_num at this; linarith
  have hhn : 0 < vlen (angMom c) := by rw [vlen_angMom]; exact angMom_ne_zero hne
  have hRV : 0 ≤ vlen c.r * vlen c.v := mul_nonneg (vlen_nonneg _) (vlen_nonneg _)
  have hd (j : Fin 3) : |flAngMom R c j - angMom c j| ≤ 8 / 3 * R.u * (vlen c.r * vlen c.v) := by
    obtain ⟨y, hy, h⟩ := (flAngMom_near (R := R) c j).abs_le (by norm_num) (by linarith)
    rw [num_inj hy]
    linarith
  have hcs : vlen (angMom c) ≤ vlen c.r * vlen c.v := by
    have h1 : vlen (angMom c) ^ 2 = c.hx ^ 2 + c.hy ^ 2 + c.hz ^ 2 := by rw [vlen_angMom, c.hn_sq]
    have hr : vlen c.r * vlen c.r = c.x * c.x + c.y * c.y + c.z * c.z := vlen_vec_sq _ _ _
    have hv : vlen c.v * vlen c.v = c.vx * c.vx + c.vy * c.vy + c.vz * c.vz := vlen_vec_sq _ _ _
    refine (abs_le_of_sq_le_sq' ?_ hRV).2
    have e : (vlen c.r * vlen c.v) ^ 2 = (vlen c.r * vlen c.r) * (vlen c.v * vlen c.v) := by ring
    rw [h1, e, hr, hv]
    unfold Cart.hx Cart.hy Cart.hz
    nlinarith [sq_nonneg (c.x * c.vx + c.y * c.vy + c.z * c.vz)]
  have hN := flNorm_near (R := R) (x := angMom c) (hd 0) (hd 1) (hd 2) (by linarith)
  set N := flNorm R (flAngMom R c 0) (flAngMom R c 1) (flAngMom R c 2) with hNdef
  have huRV : 0 ≤ R.u * (vlen c.r * vlen c.v) := mul_nonneg hu0 hRV
  have hN' : |N - vlen (angMom c)| ≤ 9 * (R.u * (vlen c.r * vlen c.v)) := by
    refine hN.trans ?_
    have h2 : R.u * (R.u * (vlen c.r * vlen c.v)) ≤ 1 / 100 * (R.u * (vlen c.r * vlen c.v)) := mul_le_mul_of_nonneg_right (by linarith) huRV
    have h3 : R.u * vlen (angMom c) ≤ R.u * (vlen c.r * vlen c.v) := mul_le_mul_of_nonneg_left hcs hu0
    nlinarith
  have hNp : 0 < N := by linarith [(abs_le.mp hN').1]
  have hz := flNorm_ge_z hR (x := flAngMom R c 0) (y := flAngMom R c 1) (z := flAngMom R c 2) (hR.digits _)
  rw [← hNdef] at hz
  obtain ⟨q1, q2⟩ := quot_range hR hNp hz
  have hval : (cartToKepCol g .f64 (RF.num R mu) (c.num R)).i = RF.num R (Real.arccos (R.rd (flAngMom R c 2 / N)) * Real.exp (R.lib .arccos (R.rd (flAngMom R c 2 / N)))) := by
    rw [← arccos_num q1 q2, ← div_num _ hNp.ne', hNdef, ← norm_num3]
    rfl
  refine ⟨_, hval, ?_⟩
  set w := R.rd (flAngMom R c 2 / N) with hw
  -- the cosine of the exact inclination
  have hinc : Real.cos (inclination c) = angMom c 2 / vlen (angMom c) := by
    have h1 : |angMom c 2| ≤ vlen (angMom c) := by
      rw [angMom_eq]
      exact (abs_le_vlen _ _ _).2.2
    obtain ⟨a, b⟩ := abs_le.mp h1
    rw [inclination, Real.cos_arccos]
    · rw [le_div_iff₀ hhn]; linarith
    · rw [div_le_iff₀ hhn]; linarith
  have hlib : |Real.exp (R.lib .arccos w) - 1| ≤ 4 / 3 * R.u :=
    (exp_diff (R.lib_le _ _)).trans (exp_sub_one_le hu0 (by linarith))
  have s1 := cos_mul_exp (Real.arccos_nonneg w) (Real.arccos_le_pi w) hlib
  rw [Real.cos_arccos q1 q2] at s1
  -- the quotient
  have hq : |flAngMom R c 2 / N| ≤ 1 := by rw [abs_div, abs_of_pos hNp, div_le_one hNp]; exact hz
  have s2 : |w - flAngMom R c 2 / N| ≤ 4 / 3 * R.u := by
    rw [hw, Rounding.rd, show ∀ a b : ℝ, a * b - a = a * (b - 1) by intro a b; ring, abs_mul]
    have := (exp_diff (R.th_le (flAngMom R c 2 / N))).trans (exp_sub_one_le hu0 (by linarith))
    calc _ ≤ 1 * (4 / 3 * R.u) := mul_le_mul hq this (abs_nonneg _) (by norm_num)
      _ = _ := one_mul _
  have s3 : |flAngMom R c 2 / N - angMom c 2 / vlen (angMom c)| ≤ (8 / 3 + 9) * (R.u * (vlen c.r * vlen c.v)) / vlen (angMom c) := by
    rw [show flAngMom R c 2 / N - angMom c 2 / vlen (angMom c) =
      ((flAngMom R c 2 - angMom c 2) + flAngMom R c 2 / N * (vlen (angMom c) - N)) / vlen (angMom c) by field_simp; ring, abs_div, abs_of_pos hhn]
    refine div_le_div_of_nonneg_right ?_ hhn.le
    refine (abs_add_le _ _).trans ?_
    rw [abs_mul, abs_sub_comm (vlen (angMom c))]
    have h1 := hd 2
    have h2 : |flAngMom R c 2 / N| * |N - vlen (angMom c)| ≤ 1 * (9 * (R.u * (vlen c.r * vlen c.v))) := mul_le_mul hq hN' (abs_nonneg _) (by norm_num)
    linarith
  rw [hinc]
  have hc1 : R.u ≤ R.u * (vlen c.r * vlen c.v / vlen (angMom c)) := le_mul_of_one_le_right hu0 (by rw [le_div_iff₀ hhn]; linarith)
  have hpi := Real.pi_lt_d2
  have s4 := abs_add_le (Real.cos (Real.arccos w * Real.exp (R.lib .arccos w)) - w) (w - angMom c 2 / vlen (angMom c))
  have s5 := abs_add_le (w - flAngMom R c 2 / N) (flAngMom R c 2 / N - angMom c 2 / vlen (angMom c))
  rw [sub_add_sub_cancel] at s4 s5
  have s6 : Real.pi * (4 / 3 * R.u) ≤ 3.15 * (4 / 3 * R.u) := mul_le_mul_of_nonneg_right hpi.le (by linarith)
  rw [mul_div_assoc, mul_div_assoc] at s3
  linarith

/-! ## C88 -/

theorem r_ne_of_angMom {c : Cart ℝ} (hh : angMom c ≠ 0) : c.r ≠ 0 := by
  intro h0
  apply hh
  have hx : c.x = 0 := congrFun h0 0
  have hy : c.y = 0 := congrFun h0 1
  have hz : c.z = 0 := congrFun h0 2
  rw [angMom_eq]
  simp [Cart.hx, Cart.hy, Cart.hz, hx, hy, hz]

/-- C88, eccentricity: for every state that is not at the centre and not radial, in every arithmetic with unit roundoff `u`, `100 u ≤ 1`, the error is at most
`50 u (1 + 2 r v² / mu)`. -/
theorem c88_e (g : Nat → CtkGarbage (RF R)) {mu : ℝ} (hmu : 0 < mu) {c : Cart ℝ} (hh : angMom c ≠ 0) (hu : 100 * R.u ≤ 1) :
    ∃ (k : Kep (RF R)) (e : ℝ), (cart_to_kep g (.sc (RF.num R mu)) false (.vec .f64 (c.num R))).1 = .ok (.vec .f64 k) ∧ k.e = RF.num R e ∧
      |e - vlen (eccVec mu c)| ≤ 50 * R.u * (1 + 2 * vlen c.r * vlen c.v ^ 2 / mu) := by
  obtain ⟨e, h1, h2⟩ := col88_e (R := R) hmu (r_ne_of_angMom hh) hu (g 0)
  exact ⟨_, e, rfl, h1, by rw [vlen_eccVec hmu (angMom_ne_zero hh)]; exact h2⟩

/-- C88, semi-major axis: when the kinetic and the potential energy are at most `C` times the energy and the eccentricity differs from 1 by more than its
error, the relative error is at most `24 C u`, and the sign is right. -/
theorem c88_a (g : Nat → CtkGarbage (RF R)) {mu C : ℝ} (hmu : 0 < mu) {c : Cart ℝ} (hh : angMom c ≠ 0) (hu : 100 * R.u ≤ 1) (hs : 100 * C * R.u ≤ 1)
    (hC : vlen c.v ^ 2 / 2 + mu / vlen c.r ≤ C * |energy mu c|) (he : 50 * R.u * (1 + 2 * vlen c.r * vlen c.v ^ 2 / mu) < |1 - vlen (eccVec mu c)|) :
    ∃ (k : Kep (RF R)) (a : ℝ), (cart_to_kep g (.sc (RF.num R mu)) false (.vec .f64 (c.num R))).1 = .ok (.vec .f64 k) ∧ k.a = RF.num R a ∧
      |a - mu / (2 * |energy mu c|)| ≤ 24 * C * R.u * (mu / (2 * |energy mu c|)) := by
  rw [vlen_eccVec hmu (angMom_ne_zero hh)] at he
  obtain ⟨a, h1, h2⟩ := col88_a (R := R) hmu hh hC hs hu he (g 0)
  exact ⟨_, a, rfl, h1, h2⟩

/-- C88, inclination: with rounding to nearest, the error of its cosine is at most `20 u` divided by the sine of the angle between position and velocity. -/
theorem c88_i (hR : Nearest R) (g : Nat → CtkGarbage (RF R)) {mu : ℝ} {c : Cart ℝ} (hne : angMom c ≠ 0) (hh : 100 * R.u * (vlen c.r * vlen c.v) ≤ vlen (angMom c)) :
    ∃ (k : Kep (RF R)) (i : ℝ), (cart_to_kep g (.sc (RF.num R mu)) false (.vec .f64 (c.num R))).1 = .ok (.vec .f64 k) ∧ k.i = RF.num R i ∧
      |Real.cos i - Real.cos (inclination c)| ≤ 20 * R.u * (vlen c.r * vlen c.v / vlen (angMom c)) := by
  obtain ⟨i, h1, h2⟩ := col88_i hR (mu := mu) hh hne (g 0)
  exact ⟨_, i, rfl, h1, h2⟩

/-- C88 for bound states in double precision, `A` being the exact semi-major axis: the eccentricity has an error below 3e-14, the semi-major axis a relative error
below 1.1e-14 A / r, and the cosine of the inclination an error below 2.3e-15 / sin (r, v). -/
theorem c88_binary64 (g : Nat → CtkGarbage (RF Binary.binary64)) {mu A : ℝ} (hmu : 0 < mu) {c : Cart ℝ} (hh : angMom c ≠ 0) (hE : energy mu c = -mu / (2 * A)) (hA : 0 < A)
    (h1 : A ≤ 10 ^ 13 * vlen c.r) (h2 : vlen (eccVec mu c) ≤ 1 - 3 / 10 ^ 14) (h3 : vlen c.r * vlen c.v ≤ 10 ^ 13 * vlen (angMom c)) :
    ∃ (k : Kep (RF Binary.binary64)) (e a i : ℝ), (cart_to_kep g (.sc (RF.num _ mu)) false (.vec .f64 (c.num _))).1 = .ok (.vec .f64 k) ∧
      (k.e = RF.num _ e ∧ |e - vlen (eccVec mu c)| ≤ 3 / 10 ^ 14) ∧
      (k.a = RF.num _ a ∧ |a - A| ≤ 11 / 10 ^ 15 * (A / vlen c.r) * A) ∧
      (k.i = RF.num _ i ∧ |Real.cos i - Real.cos (inclination c)| ≤ 23 / 10 ^ 16 * (vlen c.r * vlen c.v / vlen (angMom c))) := by
  have hu : Binary.binary64.u = (1 / 2) ^ 53 := rfl
  have hu0 := Binary.binary64.u_nonneg
  have hu1 : Binary.binary64.u ≤ 1.112 / 10 ^ 16 := by rw [hu]; norm_num
  have hrp := vlen_r_pos (r_ne_of_angMom hh)
  have hE' : energy mu c = vlen c.v ^ 2 / 2 - mu / vlen c.r := by
    rw [energy, show vlen c.v ^ 2 = c.v ⬝ᵥ c.v from Real.sq_sqrt (Finset.sum_nonneg fun i _ => mul_self_nonneg _)]
  have hEneg : energy mu c < 0 := by rw [hE, neg_div]; exact neg_neg_of_pos (by positivity)
  have habs : |energy mu c| = mu / (2 * A) := by rw [abs_of_neg hEneg, hE, neg_div, neg_neg]
  have hAA : mu / (2 * |energy mu c|) = A := by rw [habs]; field_simp
  have hrv : vlen c.r * vlen c.v ^ 2 < 2 * mu := by
    have : vlen c.v ^ 2 / 2 < mu / vlen c.r := by linarith
    rw [lt_div_iff₀ hrp] at this
    linarith
  have hk : 1 + 2 * vlen c.r * vlen c.v ^ 2 / mu ≤ 5 := by
    have : 2 * vlen c.r * vlen c.v ^ 2 / mu ≤ 4 := by rw [div_le_iff₀ hmu]; linarith
    linarith
  have hk' : 50 * Binary.binary64.u * (1 + 2 * vlen c.r * vlen c.v ^ 2 / mu) ≤ 28 / 10 ^ 15 :=
    (mul_le_mul_of_nonneg_left hk (by linarith)).trans (by norm_num at hu1 ⊢; linarith)
  have hu100 : 100 * Binary.binary64.u ≤ 1 := by norm_num at hu1 ⊢; linarith
  have hAr : A / vlen c.r ≤ 10 ^ 13 := by rw [div_le_iff₀ hrp]; exact h1
  have hAr0 : 0 < A / vlen c.r := div_pos hA hrp
  have hCu : 100 * (4 * (A / vlen c.r)) * Binary.binary64.u ≤ 1 := by
    calc 100 * (4 * (A / vlen c.r)) * Binary.binary64.u ≤ 100 * (4 * 10 ^ 13) * (1.112 / 10 ^ 16) :=
          mul_le_mul (by linarith) hu1 hu0 (by norm_num)
      _ ≤ 1 := by norm_num
  obtain ⟨e, e1, e2⟩ := col88_e (R := Binary.binary64) hmu (r_ne_of_angMom hh) hu100 (g 0)
  obtain ⟨a, a1, a2⟩ := col88_a (R := Binary.binary64) (C := 4 * (A / vlen c.r)) hmu hh (by
    rw [show vlen c.v ^ 2 / 2 + mu / vlen c.r = energy mu c + 2 * (mu / vlen c.r) by rw [hE']; ring, habs]
    have : 4 * (A / vlen c.r) * (mu / (2 * A)) = 2 * (mu / vlen c.r) := by field_simp; ring
    linarith) hCu hu100 (by
    rw [← vlen_eccVec hmu (angMom_ne_zero hh), abs_of_pos (by norm_num at h2 ⊢; linarith)]
    refine lt_of_le_of_lt hk' ?_
    norm_num at h2 ⊢
    linarith) (g 0)
  obtain ⟨i, i1, i2⟩ := col88_i Binary.nearest (mu := mu) (by
    calc 100 * Binary.binary64.u * (vlen c.r * vlen c.v) ≤ 100 * (1.112 / 10 ^ 16) * (10 ^ 13 * vlen (angMom c)) :=
          mul_le_mul (by linarith) h3 (mul_nonneg (vlen_nonneg _) (vlen_nonneg _)) (by norm_num)
      _ ≤ vlen (angMom c) := by have := vlen_nonneg (angMom c); norm_num; linarith) hh (g 0)
  refine ⟨_, e, a, i, rfl, ⟨e1, ?_⟩, ⟨a1, ?_⟩, ⟨i1, i2.trans ?_⟩⟩
  · rw [vlen_eccVec hmu (angMom_ne_zero hh)]
    refine e2.trans (hk'.trans (by norm_num))
  · rw [hAA] at a2
    refine a2.trans (mul_le_mul_of_nonneg_right ?_ hA.le)
    have h5 := mul_le_mul_of_nonneg_left hu1 (by linarith : 0 ≤ 96 * (A / vlen c.r))
    norm_num at h5 ⊢
    linarith
  · refine mul_le_mul_of_nonneg_right ?_ (div_nonneg (mul_nonneg (vlen_nonneg _) (vlen_nonneg _)) (vlen_nonneg _))
    norm_num at hu1 ⊢
    linarith

/-- a case of `c88_binary64`: an ellipse with a = 4/3 and e = 1/2 seen at the distance 1 -/
example : angMom ⟨1, 0, 0, 1 / 2, 1, 0⟩ ≠ 0 ∧ energy 1 ⟨1, 0, 0, 1 / 2, 1, 0⟩ = -1 / (2 * (4 / 3)) ∧ (4 / 3 : ℝ) ≤ 10 ^ 13 * vlen (⟨1, 0, 0, 1 / 2, 1, 0⟩ : Cart ℝ).r ∧
    vlen (eccVec 1 ⟨1, 0, 0, 1 / 2, 1, 0⟩) = 1 / 2 ∧ vlen (⟨1, 0, 0, 1 / 2, 1, 0⟩ : Cart ℝ).r * vlen (⟨1, 0, 0, 1 / 2, 1, 0⟩ : Cart ℝ).v ≤ 10 ^ 13 * vlen (angMom ⟨1, 0, 0, 1 / 2, 1, 0⟩) := by
  have h1 : vlen (⟨1, 0, 0, 1 / 2, 1, 0⟩ : Cart ℝ).r = 1 := by
    show vlen ![1, 0, 0] = 1
    rw [vlen_vec]; norm_num
  have h2 : vlen (⟨1, 0, 0, 1 / 2, 1, 0⟩ : Cart ℝ).v ≤ 2 := by
    show vlen ![1 / 2, 1, 0] ≤ 2
    rw [vlen_vec, Real.sqrt_le_left (by norm_num)]; norm_num
  have h3 : angMom ⟨1, 0, 0, 1 / 2, 1, 0⟩ = ![0, 0, 1] := by
    rw [angMom_eq]; norm_num [Cart.hx, Cart.hy, Cart.hz]
  have h4 : vlen ![(0 : ℝ), 0, 1] = 1 := by rw [vlen_vec]; norm_num
  refine ⟨?_, ?_, ?_, ?_, ?_⟩
  · rw [h3]
    intro h
    have := congrFun h 2
    simp at this
  · rw [energy, h1]
    simp [Cart.v, dotProduct, Fin.sum_univ_three]
    norm_num
  · rw [h1]; norm_num
  · rw [eccVec, h3, h1]
    have : (1 / 1 : ℝ) • ((⟨1, 0, 0, 1 / 2, 1, 0⟩ : Cart ℝ).v ⨯₃ ![0, 0, 1]) - (1 / 1 : ℝ) • (⟨1, 0, 0, 1 / 2, 1, 0⟩ : Cart ℝ).r = ![0, -(1 / 2), 0] := by
      simp only [Cart.v, Cart.r, cross_apply]
      funext j
      fin_cases j <;> simp
    rw [this, vlen_vec]
    rw [show (0 : ℝ) * 0 + -(1 / 2) * -(1 / 2) + 0 * 0 = (1 / 2) ^ 2 by norm_num, Real.sqrt_sq (by norm_num)]
  · rw [h3, h1, h4]; linarith

end Pyorb
