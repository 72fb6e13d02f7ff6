import Verif.PropsRoundSix
import Verif.PropsRoundSolve
import Verif.PropsRoundFinite

/-!
# Angles that `cart_to_kep` cannot return with rounding (C112)

The angles are arccosines of computed cosines.  A computed cosine below 1 is at most 1 - 2^-53, so that no angle strictly between 0 and 2^-26 is returned.
-/

set_option linter.unusedSimpArgs false

namespace Pyorb
open FX RF
variable {R : Rounding}

namespace Resolve

/-- a value that is not a number, or has 53 digits -/
def Machine (a : RF R) : Prop := ∀ y, a.val = fin y → Digits53 y

theorem machine_round (hR : Nearest R) (v : FX) : Machine (⟨R.round v⟩ : RF R) := by
  intro y hy
  cases v
  · have : R.rd _ = y := fin_inj hy
    rw [← this]; exact hR.digits _
  all_goals exact absurd hy (by simp [Rounding.round])

theorem machine_one (hR : Nearest R) : Machine (1 : RF R) := machine_round hR _

theorem machine_neg_one : Machine (-1 : RF R) := by
  intro y hy
  rw [one_num, neg_num] at hy
  have : (-1 : ℝ) = y := fin_inj hy
  rw [← this]; exact Digits53.one.neg

/-- a number with 53 digits below 1 -/
theorem below_one {y : ℝ} (h : Digits53 y) (h1 : y < 1) : y ≤ 1 - (1 / 2) ^ 53 := by
  rcases lt_or_ge y (1 / 2) with h2 | h2
  · have : ((1 : ℝ) / 2) ^ 53 ≤ 1 / 2 := by norm_num
    linarith
  obtain ⟨m, hm⟩ := h.units (k := -53) (by rw [abs_of_pos (by linarith)]; norm_num; linarith)
  have hp : ((2 : ℝ) ^ (-53 : ℤ)) = (1 / 2) ^ 53 := by norm_num
  rw [hp] at hm
  have h3 : m < 2 ^ 53 := by
    have : (m : ℝ) < 2 ^ 53 := by
      by_contra hc
      have := mul_le_mul_of_nonneg_right (not_lt.mp hc) (show (0 : ℝ) ≤ (1 / 2) ^ 53 by positivity)
      rw [← hm] at this
      norm_num at this
      linarith
    exact_mod_cast this
  have h4 : (m : ℝ) ≤ 2 ^ 53 - 1 := by exact_mod_cast Int.le_sub_one_of_lt h3
  have := mul_le_mul_of_nonneg_right h4 (show (0 : ℝ) ≤ (1 / 2) ^ 53 by positivity)
  rw [← hm] at this
  norm_num at this ⊢
  linarith

/-- the arccosine of such a number -/
theorem arccos_ge {y : ℝ} (h0 : -1 ≤ y) (h1 : y ≤ 1 - (1 / 2) ^ 53) : (1 / 2) ^ 26 ≤ Real.arccos y := by
  have h2 := Real.one_sub_sq_div_two_le_cos (x := Real.arccos y)
  rw [Real.cos_arccos h0 (h1.trans (by norm_num))] at h2
  have h3 := Real.arccos_nonneg y
  refine abs_le_of_sq_le_sq' ?_ h3 |>.2
  norm_num at h1 ⊢
  linarith

/-- zero, or an angle between `2^-26` and pi, up to rounding -/
def Base (a : RF R) : Prop := ∀ x, a.val = fin x → x = 0 ∨ 14901 / 10 ^ 12 ≤ x ∧ x ≤ 315 / 100

theorem base_zero : Base (0 : RF R) := by
  intro x hx
  rw [zero_num] at hx
  exact .inl (fin_inj hx).symm

theorem base_arccos (hR : Nearest R) {a : RF R} (h : Machine a) : Base (Np.arccos a) := by
  intro x hx
  obtain ⟨v⟩ := a
  have hu0 := R.u_nonneg
  have hu : R.u ≤ 1 / 10 ^ 14 := hR.small.trans (by norm_num)
  cases v with
  | fin y =>
    by_cases hy : -1 ≤ y ∧ y ≤ 1
    · have e : (Np.arccos (⟨fin y⟩ : RF R)).val = fin (Real.arccos y * Real.exp (R.lib .arccos y)) := by
        show R.libRound .arccos (fin y) (FX.arccos (fin y)) = _
        rw [FX.arccos, if_pos hy]; rfl
      rw [e] at hx
      have hx := fin_inj hx
      have hl := abs_le.mp (R.lib_le .arccos y)
      rcases eq_or_lt_of_le hy.2 with h1 | h1
      · left; rw [← hx, h1, Real.arccos_one, zero_mul]
      · right
        have h2 := arccos_ge hy.1 (below_one (h y rfl) h1)
        have h3 := Real.arccos_le_pi y
        have h4 := Real.pi_lt_d4
        have h5 := Real.add_one_le_exp (R.lib .arccos y)
        have h6 : Real.exp (R.lib .arccos y) ≤ 1 + 2 / 10 ^ 14 := by
          have := Real.abs_exp_sub_one_le (x := R.lib .arccos y) ((R.lib_le .arccos y).trans (by linarith))
          have := (abs_le.mp this).2
          have := R.lib_le .arccos y
          linarith
        have h7 : 1 - 1 / 10 ^ 14 ≤ Real.exp (R.lib .arccos y) := by linarith
        rw [← hx]
        constructor
        · refine le_trans ?_ (mul_le_mul h2 h7 (by norm_num) (Real.arccos_nonneg y))
          norm_num
        · refine (mul_le_mul (show Real.arccos y ≤ 31416 / 10000 by linarith) h6 (Real.exp_pos _).le (by norm_num)).trans ?_
          norm_num
    · have e : (Np.arccos (⟨fin y⟩ : RF R)).val = FX.nan := by
        show R.libRound .arccos (fin y) (FX.arccos (fin y)) = _
        rw [FX.arccos, if_neg hy]; rfl
      rw [e] at hx
      cases hx
  | _ => cases hx

/-- zero, the computed `2 pi`, or an angle that keeps a distance of `1.49e-8` from both -/
def Coarse (a : RF R) : Prop := ∀ x, a.val = fin x → x = 0 ∨ x = flTwoPi R ∨ 149 / 10 ^ 10 ≤ x ∧ x ≤ flTwoPi R - 149 / 10 ^ 10

theorem Base.coarse (hR : Nearest R) {a : RF R} (h : Base a) : Coarse a := by
  intro x hx
  rcases h x hx with h | ⟨h1, h2⟩
  · exact .inl h
  · have := flTwoPi_ge hR
    exact .inr (.inr ⟨by linarith, by linarith⟩)

theorem flTwoPi_le (hR : Nearest R) : flTwoPi R ≤ 64 / 10 := by
  have hu : R.u ≤ 1 / 10 ^ 14 := hR.small.trans (by norm_num)
  have h1 := abs_le.mp (rd_err (R := R) (x := Real.pi) (B := 4) (by linarith) (by rw [abs_of_pos Real.pi_pos]; linarith [Real.pi_lt_d4]))
  have h2 := abs_le.mp (rd_err (R := R) (x := 2 * R.rd Real.pi) (B := 10) (by linarith) (by
    rw [abs_le]; constructor <;> linarith [h1.1, h1.2, Real.pi_lt_d4, Real.pi_gt_d4]))
  unfold flTwoPi
  linarith [h1.1, h1.2, h2.2, Real.pi_lt_d4]

theorem Base.reflect (hR : Nearest R) {a : RF R} (h : Base a) : Coarse (twoPi - a) := by
  intro x hx
  obtain ⟨v⟩ := a
  have hu : R.u ≤ 1 / 10 ^ 14 := hR.small.trans (by norm_num)
  have hu0 := R.u_nonneg
  rw [twoPi_num] at hx
  cases v with
  | fin y =>
    have hx : R.rd (flTwoPi R - y) = x := fin_inj hx
    have g6 := flTwoPi_ge hR
    have g7 := flTwoPi_le hR
    rcases h y rfl with h | ⟨h1, h2⟩
    · right; left
      rw [← hx, h, sub_zero]; exact hR.idem _
    · right; right
      have h3 := abs_le.mp (rd_err (R := R) (x := flTwoPi R - y) (B := 64 / 10) (by linarith) (by rw [abs_of_pos (by linarith)]; linarith))
      rw [hx] at h3
      constructor <;> linarith [h3.1, h3.2]
  | _ => cases hx

theorem lt_asymm' (a b : RF R) (h : (a <ᵇ b) = true) : (b <ᵇ a) = false := by
  obtain ⟨v⟩ := a
  obtain ⟨w⟩ := b
  change FX.lt v w = true at h
  show FX.lt w v = false
  cases v <;> cases w <;> simp_all [FX.lt]
  exact h.le

theorem machine_dot (hR : Nearest R) (u v : V3 (RF R)) : Machine (u.dot v) := machine_round hR _
theorem machine_div (hR : Nearest R) (a b : RF R) : Machine (a / b) := machine_round hR _

theorem machine_clip (hR : Nearest R) {a : RF R} (h : Machine a) :
    Machine (if (if 1 <ᵇ a then 1 else a) <ᵇ -1 then -1 else if 1 <ᵇ a then 1 else a) := by
  by_cases h1 : (1 <ᵇ a) = true
  · rw [if_pos h1]
    split_ifs
    · exact machine_neg_one
    · exact machine_one hR
  · rw [if_neg h1]
    split_ifs
    · exact machine_neg_one
    · exact h

theorem om_shape (hR : Nearest R) (eg ig ez lo hi yn yp : Bool) (hlh : lo = true → hi = false) {a z : RF R} (ha : eg = true → Base a) :
    Coarse (if (hi && (eg && !ig) && yp) = true then twoPi - (if (lo && (eg && !ig) && yn) = true then twoPi - (if (ez && (eg && ig)) = true then
      twoPi - (if eg = true then a else if (!eg) = true then 0 else z) else if eg = true then a else if (!eg) = true then 0 else z) else
      if (ez && (eg && ig)) = true then twoPi - (if eg = true then a else if (!eg) = true then 0 else z) else if eg = true then a else if (!eg) = true then 0 else z)
      else if (lo && (eg && !ig) && yn) = true then twoPi - (if (ez && (eg && ig)) = true then
      twoPi - (if eg = true then a else if (!eg) = true then 0 else z) else if eg = true then a else if (!eg) = true then 0 else z) else
      if (ez && (eg && ig)) = true then twoPi - (if eg = true then a else if (!eg) = true then 0 else z) else if eg = true then a else if (!eg) = true then 0 else z) := by
  cases eg
  · simp only [Bool.false_and, Bool.and_false, Bool.false_eq_true, if_false, Bool.not_false, if_true]
    exact base_zero.coarse hR
  · have hb := ha rfl
    cases ig <;> cases ez <;> cases lo <;> cases hi <;> cases yn <;> cases yp <;>
      simp only [Bool.and_true, Bool.true_and, Bool.false_and, Bool.and_false, Bool.false_eq_true, if_false, Bool.not_false, Bool.not_true, if_true] <;>
      first
        | exact hb.coarse hR
        | exact hb.reflect hR
        | exact absurd (hlh rfl) (by simp)

theorem nu_shape (hR : Nearest R) (eg ig vn zn lo hi yn yp : Bool) (hlh : lo = true → hi = false) {a : RF R} (ha : Base a) :
    let o := if (vn && eg) = true then twoPi - a else a
    let o := if (zn && (!eg && ig)) = true then twoPi - o else o
    let o := if (lo && (!eg && !ig) && yn) = true then twoPi - o else o
    Coarse (if (hi && (!eg && !ig) && yp) = true then twoPi - o else o) := by
  cases eg <;> cases ig <;> cases vn <;> cases zn <;> cases lo <;> cases hi <;> cases yn <;> cases yp <;>
    simp only [Bool.and_true, Bool.true_and, Bool.false_and, Bool.and_false, Bool.false_eq_true, if_false, Bool.not_false, Bool.not_true, if_true] <;>
    first
      | exact ha.coarse hR
      | exact ha.reflect hR
      | exact absurd (hlh rfl) (by simp)

theorem OM_shape (hR : Nearest R) (ig yn : Bool) {a z : RF R} (ha : Base a) :
    Coarse (if (!ig) = true then 0 else if (yn && ig) = true then twoPi - (if ig = true then a else z) else if ig = true then a else z) := by
  cases ig <;> cases yn <;> simp only [Bool.and_true, Bool.true_and, Bool.and_false, Bool.false_eq_true, if_false, Bool.not_false, Bool.not_true, if_true] <;>
    first
      | exact base_zero.coarse hR
      | exact ha.coarse hR
      | exact ha.reflect hR

theorem cos_om_shape (eg ig : Bool) (h : eg = true) {a b z : RF R} (ha : Machine a) (hb : Machine b) :
    Machine (if (eg && !ig) = true then a else if (eg && ig) = true then b else z) := by
  subst h
  cases ig
  · exact ha
  · exact hb

theorem cos_nu_shape (eg ig : Bool) {a b c z : RF R} (ha : Machine a) (hb : Machine b) (hc : Machine c) :
    Machine (if (!eg && !ig) = true then a else if (!eg && ig) = true then b else if eg = true then c else z) := by
  cases eg <;> cases ig
  · exact ha
  · exact hb
  · exact hc
  · exact hc

set_option maxHeartbeats 1000000 in
theorem col (hR : Nearest R) (g : CtkGarbage (RF R)) (mu : RF R) (c : Cart (RF R)) :
    Base (cartToKepCol g .f64 mu c).i ∧ Coarse (cartToKepCol g .f64 mu c).om ∧ Coarse (cartToKepCol g .f64 mu c).OM ∧ Coarse (cartToKepCol g .f64 mu c).nu := by
  refine ⟨base_arccos hR (machine_div hR _ _), ?_, ?_, ?_⟩
  · exact om_shape hR _ _ _ _ _ _ _ (lt_asymm' _ _) fun heg => base_arccos hR (machine_clip hR (cos_om_shape _ _ heg (machine_div hR _ _) (machine_div hR _ _)))
  · exact OM_shape hR _ _ (base_arccos hR (machine_div hR _ _))
  · exact nu_shape hR _ _ _ _ _ _ _ _ (lt_asymm' _ _)
      (base_arccos hR (machine_clip hR (cos_nu_shape _ _ (machine_div hR _ _) (machine_dot hR _ _) (machine_div hR _ _))))

theorem in_degrees (hR : Nearest R) {a : RF R} (h : ∀ x, a.val = fin x → x = 0 ∨ 149 / 10 ^ 10 ≤ x) {y : ℝ} (hy : degrees a = RF.num R y) :
    y = 0 ∨ 853 / 10 ^ 9 ≤ y := by
  obtain ⟨v⟩ := a
  have hu : R.u ≤ 1 / 10 ^ 14 := hR.small.trans (by norm_num)
  have hu0 := R.u_nonneg
  have hpi := Real.pi_pos
  have h180 : (180 : RF R) = RF.num R 180 := by
    show (Np.lit ((180 : ℕ) : ℚ) : RF R) = _
    rw [ofNat_num 180 (by norm_num)]; norm_num
  have hc := (Rel.num (R := R) 180).div Rel.pi hpi.ne'
  cases v with
  | fin x =>
    obtain ⟨t, t1, t2⟩ := (Rel.num (R := R) x).mul hc
    have e : degrees (⟨fin x⟩ : RF R) = RF.num R (x * (180 / Real.pi) * Real.exp t) := by rw [degrees, h180]; exact t2
    rw [e] at hy
    have hy := num_inj hy
    rcases h x rfl with h | h
    · left; rw [← hy, h, zero_mul, zero_mul]
    · right
      rw [← hy]
      have h1 := Real.add_one_le_exp t
      have h2 := (abs_le.mp t1).1
      have h3 : 5729 / 100 ≤ 180 / Real.pi := by
        rw [le_div_iff₀ hpi]; linarith [Real.pi_lt_d4]
      have h4 := mul_le_mul h h3 (by norm_num) (by linarith)
      refine le_trans ?_ (mul_le_mul h4 (show 1 - 1 / 10 ^ 10 ≤ Real.exp t by linarith) (by norm_num) (by positivity))
      norm_num
  | _ =>
    exfalso
    obtain ⟨t, -, t2⟩ := hc
    rw [degrees, h180, t2] at hy
    refine NotNum.mul ?_ (isNum_num _) ⟨y, hy⟩
    rintro ⟨x, hx⟩
    cases congrArg RF.val hx

theorem returned {g : Nat → CtkGarbage (RF R)} {mu : Mu (RF R)} {deg : Bool} {cart : Arg6 (Cart (RF R))} {k : Kep (RF R)}
    (h : (cart_to_kep g mu deg cart).1 = .ok (.vec .f64 k) ∨ ∃ ks, (cart_to_kep g mu deg cart).1 = .ok (.mat .f64 ks) ∧ k ∈ ks) :
    ∃ j m c, k = cartToKep (g j) .f64 m deg c := by
  have key : ∀ {dt : DType} {cs : List (Cart (RF R))} {ks : List (Kep (RF R))}, cartToKepMat g dt mu deg cs = .ok ks → k ∈ ks →
      ∃ j m c, k = cartToKep (g j) dt m deg c := by
    intro dt cs ks h1 h2
    unfold cartToKepMat at h1
    cases hb : mu.broadcast cs.length with
    | none => rw [hb] at h1; cases h1
    | some mus =>
      rw [hb] at h1
      obtain rfl := Except.ok.inj h1
      obtain ⟨j, hj, rfl⟩ := List.mem_mapIdx.mp h2
      exact ⟨_, _, _, rfl⟩
  unfold cart_to_kep at h
  cases cart with
  | notArray => rcases h with h | ⟨ks, h, -⟩ <;> cases h
  | wrongRows => rcases h with h | ⟨ks, h, -⟩ <;> cases h
  | vec dt c =>
    cases hm : cartToKepMat g dt mu deg [c] with
    | error e => simp only [hm] at h; rcases h with h | ⟨ks, h, -⟩ <;> cases h
    | ok ks =>
      simp only [hm] at h
      rcases ks with _ | ⟨k1, _ | ⟨k2, ks⟩⟩
      · rcases h with h | ⟨ks, h, hk⟩
        · cases h
        · cases h; cases hk
      · rcases h with h | ⟨ks, h, hk⟩
        · cases h; exact key hm (List.mem_singleton_self _)
        · cases h
      · rcases h with h | ⟨ks, h, hk⟩
        · cases h
        · cases h; exact key hm hk
  | mat dt cs =>
    cases hm : cartToKepMat g dt mu deg cs with
    | error e => simp only [hm] at h; rcases h with h | ⟨ks, h, -⟩ <;> cases h
    | ok ks =>
      simp only [hm] at h
      rcases h with h | ⟨ks, h, hk⟩
      · cases h
      · cases h; exact key hm hk

end Resolve

/-- the column `k` is the result of a call, or one of the columns -/
def ReturnsColumn (r : Except PyErr (Arg6 (Kep (RF R)))) (k : Kep (RF R)) : Prop := r = .ok (.vec .f64 k) ∨ ∃ ks, r = .ok (.mat .f64 ks) ∧ k ∈ ks

open Resolve

/-- C112: whatever the states are, no inclination strictly between 0 and 1.49e-8 is returned, and no other angle strictly between 0 and 1.49e-8 or between the
computed value of `2 pi` less 1.49e-8 and that value. -/
theorem c112 (hR : Nearest R) (g : Nat → CtkGarbage (RF R)) (mu : Mu (RF R)) (cart : Arg6 (Cart (RF R))) (k : Kep (RF R))
    (h : ReturnsColumn (cart_to_kep g mu false cart).1 k) :
    (∀ i, k.i = RF.num R i → i = 0 ∨ 149 / 10 ^ 10 ≤ i) ∧
    ∀ θ, k.om = RF.num R θ ∨ k.OM = RF.num R θ ∨ k.nu = RF.num R θ → θ = 0 ∨ θ = flTwoPi R ∨ 149 / 10 ^ 10 ≤ θ ∧ θ ≤ flTwoPi R - 149 / 10 ^ 10 := by
  obtain ⟨j, m, c, rfl⟩ := returned h
  obtain ⟨h1, h2, h3, h4⟩ := col hR (g j) m c
  refine ⟨fun i hi => (h1 i (congrArg RF.val hi)).imp_right fun h => le_trans (by norm_num) h.1, fun θ hθ => ?_⟩
  rcases hθ with h | h | h
  · exact h2 θ (congrArg RF.val h)
  · exact h3 θ (congrArg RF.val h)
  · exact h4 θ (congrArg RF.val h)

/-- C112 in degrees: no angle strictly between 0 and 8.53e-7 degrees -/
theorem c112_degrees (hR : Nearest R) (g : Nat → CtkGarbage (RF R)) (mu : Mu (RF R)) (cart : Arg6 (Cart (RF R))) (k : Kep (RF R))
    (h : ReturnsColumn (cart_to_kep g mu true cart).1 k) :
    ∀ θ, k.i = RF.num R θ ∨ k.om = RF.num R θ ∨ k.OM = RF.num R θ ∨ k.nu = RF.num R θ → θ = 0 ∨ 853 / 10 ^ 9 ≤ θ := by
  obtain ⟨j, m, c, rfl⟩ := returned h
  obtain ⟨h1, h2, h3, h4⟩ := col hR (g j) m c
  have g6 := flTwoPi_ge hR
  have key : ∀ {a : RF R}, Coarse a → ∀ x, a.val = fin x → x = 0 ∨ 149 / 10 ^ 10 ≤ x := fun ha x hx => by
    rcases ha x hx with h | h | h
    · exact .inl h
    · exact .inr (by rw [h]; linarith)
    · exact .inr h.1
  intro θ hθ
  rcases hθ with h | h | h | h
  · exact in_degrees hR (fun x hx => (h1 x hx).imp_right fun h => le_trans (by norm_num) h.1) h
  · exact in_degrees hR (key h2) h
  · exact in_degrees hR (key h3) h
  · exact in_degrees hR (key h4) h

/-- C112, a consequence: a true anomaly below 1.49e-8 does not survive the conversion to a state and back; as an angle it changes by at least the smaller one of
its distances from 0 and from 1.49e-8, which is 7e-9 in the middle, that is `10^7` times the rounding errors. -/
theorem c112_trip (hR : Nearest R) (g : Nat → RF R) (g' : Nat → CtkGarbage (RF R)) {mu : ℝ} {k : Kep ℝ} (hmu : 0 < mu) (ha : 0 < k.a) (he1 : k.e < 1)
    (hs : 10 ^ 5 * R.u ≤ (1 - k.e) ^ 3) (hee : 4 / 10 ^ 9 ≤ k.e) (het : 10 ^ 5 * (R.u / (1 - k.e) ^ 2) ≤ k.e) (hi0 : 0 < Real.sin k.i)
    (hi1 : 10 ^ 5 * (R.u / (1 - k.e) ^ 2) ≤ Real.sin k.i) (hi2 : 300 * (R.u / (1 - k.e) ^ 2) + 2 / 10 ^ 16 ≤ Real.sin k.i ^ 2)
    (hn0 : 0 < k.nu) (hn1 : k.nu < 149 / 10 ^ 10) :
    ∃ (c : Cart (RF R)) (k' : Kep ℝ), (kep_to_cart g (.sc (RF.num R mu)) false (.vec .f64 (k.num R))).1 = .ok (.vec .f64 c) ∧
      (cart_to_kep g' (.sc (RF.num R mu)) false (.vec .f64 c)).1 = .ok (.vec .f64 (k'.num R)) ∧
      ∀ z : ℤ, min k.nu (149 / 10 ^ 10 - k.nu) - 2 / 10 ^ 14 ≤ |k'.nu - k.nu - 2 * Real.pi * z| := by
  obtain ⟨c, k', c1, c2, -⟩ := c94 hR g g' hmu ha he1 hs hee het hi0 hi1 hi2
  refine ⟨c, k', c1, c2, fun z => ?_⟩
  have hu : R.u ≤ (1 / 2) ^ 50 := hR.small
  have hu' : R.u ≤ 1 / 10 ^ 14 := hu.trans (by norm_num)
  have hu0 := R.u_nonneg
  have h := (c112 hR g' _ _ _ (.inl c2)).2 k'.nu (.inr (.inr rfl))
  have hpi := Real.pi_gt_d4
  have hpi' := Real.pi_lt_d4
  have e1 := abs_le.mp (rd_err (R := R) (x := Real.pi) (B := 32 / 10) (by linarith) (by rw [abs_of_pos Real.pi_pos]; linarith))
  have e2 := abs_le.mp (rd_err (R := R) (x := 2 * R.rd Real.pi) (B := 64 / 10) (by linarith) (by
    rw [abs_le]; constructor <;> linarith [e1.1, e1.2]))
  have e3 : |flTwoPi R - 2 * Real.pi| ≤ 2 / 10 ^ 14 := by
    rw [abs_le]; unfold flTwoPi
    norm_num at hu ⊢
    constructor <;> linarith [e1.1, e1.2, e2.1, e2.2]
  obtain ⟨f1, f2⟩ := abs_le.mp e3
  have m1 := min_le_left k.nu (149 / 10 ^ 10 - k.nu)
  have m2 := min_le_right k.nu (149 / 10 ^ 10 - k.nu)
  rcases lt_trichotomy z 0 with hz | hz | hz
  · have hz' : (z : ℝ) ≤ -1 := by exact_mod_cast Int.le_sub_one_of_lt hz
    have hz2 := mul_le_mul_of_nonneg_left hz' (show 0 ≤ 2 * Real.pi by linarith)
    refine le_trans ?_ (le_abs_self _)
    rcases h with h | h | h
    · rw [h]; linarith
    · rw [h]; linarith
    · linarith [h.1]
  · subst hz
    rw [Int.cast_zero, mul_zero, sub_zero]
    rcases h with h | h | h
    · refine le_trans ?_ (neg_le_abs _)
      rw [h]; linarith
    · refine le_trans ?_ (le_abs_self _)
      rw [h]; linarith
    · refine le_trans ?_ (le_abs_self _)
      linarith [h.1]
  · have hz' : (1 : ℝ) ≤ z := by exact_mod_cast hz
    have hz2 := mul_le_mul_of_nonneg_left hz' (show 0 ≤ 2 * Real.pi by linarith)
    refine le_trans ?_ (neg_le_abs _)
    rcases h with h | h | h
    · rw [h]; linarith
    · rw [h]; linarith
    · linarith [h.2]

/-- C112 in double precision, for an ellipse with `1e-6 ≤ e ≤ 0.99` and `sin i ≥ 1e-4`: the true anomaly 7.45e-9 changes by at least 7e-9. -/
theorem c112_binary64 (g : Nat → RF Binary.binary64) (g' : Nat → CtkGarbage (RF Binary.binary64)) {mu : ℝ} {k : Kep ℝ} (hmu : 0 < mu) (ha : 0 < k.a)
    (he0 : 1 / 10 ^ 6 ≤ k.e) (he1 : k.e ≤ 0.99) (hi : 1 / 10 ^ 4 ≤ Real.sin k.i) (hn : k.nu = 745 / 10 ^ 11) :
    ∃ (c : Cart (RF Binary.binary64)) (k' : Kep ℝ), (kep_to_cart g (.sc (RF.num _ mu)) false (.vec .f64 (k.num _))).1 = .ok (.vec .f64 c) ∧
      (cart_to_kep g' (.sc (RF.num _ mu)) false (.vec .f64 c)).1 = .ok (.vec .f64 (k'.num _)) ∧ ∀ z : ℤ, 7 / 10 ^ 9 ≤ |k'.nu - k.nu - 2 * Real.pi * z| := by
  have hu : Binary.binary64.u = (1 / 2) ^ 53 := rfl
  have hq : (1 / 100 : ℝ) ≤ 1 - k.e := by norm_num at he1 ⊢; linarith
  have hq3 := pow_le_pow_left₀ (by norm_num) hq 3
  have hq2 := pow_le_pow_left₀ (by norm_num) hq 2
  have hq2' : 0 < (1 - k.e) ^ 2 := lt_of_lt_of_le (by norm_num) hq2
  have ht : Binary.binary64.u / (1 - k.e) ^ 2 ≤ 1.112 / 10 ^ 12 := by
    rw [div_le_iff₀ hq2']
    calc Binary.binary64.u ≤ 1.112 / 10 ^ 12 * (1 / 100) ^ 2 := by rw [hu]; norm_num
      _ ≤ _ := mul_le_mul_of_nonneg_left hq2 (by norm_num)
  have hi0 : 0 < Real.sin k.i := lt_of_lt_of_le (by norm_num) hi
  have hi2 := pow_le_pow_left₀ (by norm_num) hi 2
  obtain ⟨c, k', h1, h2, h3⟩ := c112_trip Binary.nearest g g' hmu ha (by norm_num at he1; linarith) (by
      refine le_trans ?_ hq3
      rw [hu]; norm_num) (le_trans (by norm_num) he0) (by norm_num at ht he0 ⊢; linarith) hi0 (by norm_num at ht hi ⊢; linarith) (by norm_num at ht hi2 ⊢; linarith)
      (by rw [hn]; norm_num) (by rw [hn]; norm_num)
  refine ⟨c, k', h1, h2, fun z => le_trans ?_ (h3 z)⟩
  rw [hn, min_eq_left (by norm_num)]
  norm_num

/-- a case of `c112_binary64`: an ellipse with e = 1/2, inclined by 30 degrees -/
example (g : Nat → RF Binary.binary64) (g' : Nat → CtkGarbage (RF Binary.binary64)) :
    ∃ (c : Cart (RF Binary.binary64)) (k' : Kep ℝ), (kep_to_cart g (.sc (RF.num _ 1)) false (.vec .f64 (Kep.num _ ⟨2, 1 / 2, Real.pi / 6, 1, 1, 745 / 10 ^ 11⟩))).1 = .ok (.vec .f64 c) ∧
      (cart_to_kep g' (.sc (RF.num _ 1)) false (.vec .f64 c)).1 = .ok (.vec .f64 (k'.num _)) ∧ ∀ z : ℤ, 7 / 10 ^ 9 ≤ |k'.nu - 745 / 10 ^ 11 - 2 * Real.pi * z| := by
  refine c112_binary64 (k := ⟨2, 1 / 2, Real.pi / 6, 1, 1, 745 / 10 ^ 11⟩) g g' one_pos two_pos (by norm_num) (by norm_num) ?_ rfl
  show 1 / 10 ^ 4 ≤ Real.sin (Real.pi / 6)
  rw [Real.sin_pi_div_six]
  norm_num

end Pyorb
