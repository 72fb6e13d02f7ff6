import Verif.PropsOrbitRoundDeg
import Verif.PropsOrbitRoundHyp

/-!
# `Orbit.propagate` computed with rounding on hyperbolas, angles in degrees (C113)

C110 for objects with `degrees=True`: the mean anomaly is advanced and reduced to one turn in degrees, and the anomaly, the inclination, the argument of periapsis
and the node are converted, with rounding, at each call of the anomaly functions and of `kep_to_cart`.
-/

set_option linter.unusedSimpArgs false
set_option linter.unusedVariables false

namespace Pyorb
namespace Orbit
namespace HypDeg
open Py FX RF RHypProp RHyper
variable {R : Rounding} (g : Garb (RF R))

/-! ## The anomaly -/

/-- an angle that is converted to degrees and back -/
theorem round_angle (hu : R.u ≤ 1 / 10 ^ 6) (y : ℝ) : ∃ x, outA true (RF.num R y) = RF.num R x ∧ |flRad R true x - y| ≤ 62 / 10 * R.u * |y| := by
  have hu0 := R.u_nonneg
  obtain ⟨x, x1, x2⟩ := WideDeg.out_err (R := R) hu y
  have h := WideDeg.in_err (R := R) hu x
  refine ⟨x, x1, ?_⟩
  have h2 := abs_add_le (angleOf true x - y) y
  rw [sub_add_cancel] at h2
  have h3 : 304 / 100 * R.u * |y| ≤ 1 / 1000 * |y| := mul_le_mul_of_nonneg_right (by linarith) (abs_nonneg y)
  have h4 := mul_le_mul_of_nonneg_left (show |angleOf true x| ≤ 1001 / 1000 * |y| by linarith) (show 0 ≤ 304 / 100 * R.u by positivity)
  have h5 := abs_sub_le (flRad R true x) (angleOf true x) y
  have h6 := mul_nonneg hu0 (abs_nonneg y)
  linarith

/-- the mean anomalies of two close points -/
theorem mean_lip {e E δ : ℝ} (h1 : 1 < e) (hδ : |δ| ≤ 1 / 1000) :
    |e * Real.sinh (E + δ) - (E + δ) - (e * Real.sinh E - E)| ≤ (101 / 100 * (e * Real.cosh E) + 1) * |δ| := by
  have he : 0 < e := by linarith
  have hc := Real.one_le_cosh E
  have x1 := Real.abs_exp_sub_one_sub_id_le (x := δ) (hδ.trans (by norm_num))
  have x2 := Real.abs_exp_sub_one_sub_id_le (x := -δ) (by rw [abs_neg]; exact hδ.trans (by norm_num))
  have hd2 : δ ^ 2 ≤ 1 / 1000 * |δ| := by
    rw [← sq_abs, pow_two]
    exact mul_le_mul_of_nonneg_right hδ (abs_nonneg δ)
  rw [neg_sq] at x2
  obtain ⟨a1, a2⟩ := abs_le.mp x1
  obtain ⟨b1, b2⟩ := abs_le.mp x2
  have hs : |Real.sinh δ| ≤ 1001 / 1000 * |δ| := by
    rw [Real.sinh_eq, abs_le]
    constructor <;> linarith [neg_abs_le δ, le_abs_self δ]
  have hch : |Real.cosh δ - 1| ≤ 1 / 1000 * |δ| := by
    rw [Real.cosh_eq, abs_le]
    constructor <;> linarith [abs_nonneg δ]
  have hsE : |Real.sinh E| ≤ Real.cosh E := by
    rw [Real.abs_sinh, ← Real.cosh_abs]; exact (Real.sinh_lt_cosh _).le
  have e1 : e * Real.sinh (E + δ) - (E + δ) - (e * Real.sinh E - E) = e * (Real.sinh E * (Real.cosh δ - 1) + Real.cosh E * Real.sinh δ) - δ := by
    rw [Real.sinh_add]; ring
  rw [e1]
  have m1 : |Real.sinh E * (Real.cosh δ - 1)| ≤ Real.cosh E * (1 / 1000 * |δ|) := by
    rw [abs_mul]; exact mul_le_mul hsE hch (abs_nonneg _) (by linarith)
  have m2 : |Real.cosh E * Real.sinh δ| ≤ Real.cosh E * (1001 / 1000 * |δ|) := by
    rw [abs_mul, abs_of_pos (by linarith)]; exact mul_le_mul_of_nonneg_left hs (by linarith)
  have m3 := abs_add_le (Real.sinh E * (Real.cosh δ - 1)) (Real.cosh E * Real.sinh δ)
  have m4 : |e * (Real.sinh E * (Real.cosh δ - 1) + Real.cosh E * Real.sinh δ)| ≤ e * (Real.cosh E * (1 / 1000 * |δ|) + Real.cosh E * (1001 / 1000 * |δ|)) := by
    rw [abs_mul, abs_of_pos he]; exact mul_le_mul_of_nonneg_left (by linarith) he.le
  have m5 := abs_sub (e * (Real.sinh E * (Real.cosh δ - 1) + Real.cosh E * Real.sinh δ)) δ
  have m6 : 0 ≤ e * Real.cosh E * |δ| := by positivity
  linarith

/-- the hyperbolic anomaly the solver returns is at most one more than that of `top` -/
theorem anom_le {o : SolverOpts (RF R)} {e tol top S : ℝ} (h : HypSolver o e tol top S) {E : ℝ} (hE : |e * Real.sinh E - E| ≤ top + 1 / 10) : |E| ≤ S + 1 := by
  have h1 := h.e_gt
  have hM : e * Real.sinh |E| - |E| = |e * Real.sinh E - E| := by
    rcases le_total 0 E with h0 | h0
    · rw [abs_of_nonneg h0, abs_of_nonneg]
      have := Real.self_le_sinh_iff.mpr h0
      nlinarith
    · rw [abs_of_nonpos h0, Real.sinh_neg, abs_of_nonpos]
      · ring
      · have := Real.sinh_le_self_iff.mpr h0
        nlinarith
  rw [← hM] at hE
  by_contra hn
  push Not at hn
  have hmono : StrictMono (meanOf e) := meanOf_strictMono' (by linarith) h1.ne'
  have h2 := hmono hn
  rw [meanOf_hyp h1, meanOf_hyp h1, Real.sinh_add] at h2
  have h3 := Pyorb.Lag.sinh_ge3 (show (0 : ℝ) ≤ 1 by norm_num)
  have h4 := Real.one_le_cosh S
  have h5 := Real.one_le_cosh 1
  have h6 := Real.sinh_nonneg_iff.mpr h.anom_nonneg
  have h7 : Real.sinh S + 7 / 6 ≤ Real.sinh S * Real.cosh 1 + Real.cosh S * Real.sinh 1 := by nlinarith
  have h8 := mul_le_mul_of_nonneg_left h7 (show 0 ≤ e by linarith)
  linarith [h.anom]

set_option maxHeartbeats 1000000 in
/-- what is stored, the true anomaly the Cartesian state is calculated with, and the point it belongs to -/
theorem stored (hu : R.u ≤ 1 / 10 ^ 6) {o : SolverOpts (RF R)} {e tol top S : ℝ} (h : HypSolver o e tol top S) (t : Anom) {M : ℝ} (h0 : 0 ≤ flRad R true M) (ht : flRad R true M ≤ top) :
    ∃ x nd nu0 E, conv (rfKern g) o true .mean t (RF.num R M) (RF.num R e) = RF.num R x ∧ toTrue (rfKern g) t o true (RF.num R x) (RF.num R e) = RF.num R nd ∧
      SamePointHyp e nu0 E ∧ |flRad R true nd - nu0| ≤ 150 * R.u ∧ (t = .mean → x = M) ∧
      |e * Real.sinh E - E - flRad R true M| ≤ 5 / 4 * tol + 19 * R.u * (top + e) := by
  have hu0 := R.u_nonneg
  have h1 := h.e_gt
  obtain ⟨htop0, huW, hu9⟩ := h.small
  have htol := h.tol_pos
  obtain ⟨E, q1, q2⟩ := h.solve h0 ht
  have point : ∀ E : ℝ, ∃ nu nd nu0, wrap (ettHyp (RF.num R E) (RF.num R e)) = RF.num R nu ∧ outA true (RF.num R nu) = RF.num R nd ∧ SamePointHyp e nu0 E ∧
      |flRad R true nd - nu0| ≤ 150 * R.u := fun E => by
    obtain ⟨nu, y, l1, l2, l3, l4⟩ := RHyper.ett_err (R := R) hu h1 E
    obtain ⟨nd, d1, d2⟩ := round_angle (R := R) hu nu
    refine ⟨nu, nd, _, l1, d1, RHyper.hyp_point E y, ?_⟩
    rw [abs_of_nonneg l2] at d2
    have d3 : 62 / 10 * R.u * nu ≤ 62 / 10 * R.u * (629 / 100) := mul_le_mul_of_nonneg_left l3 (by positivity)
    have d4 := abs_sub_le (flRad R true nd) nu (2 * halfNu √((e + 1) / (e - 1)) E + y * (2 * Real.pi))
    linarith
  have q2' : |e * Real.sinh E - E - flRad R true M| ≤ 5 / 4 * tol + 19 * R.u * (top + e) := q2.trans (by linarith)
  by_cases hecc : t = .ecc
  · subst hecc
    obtain ⟨x, x1, x2⟩ := round_angle (R := R) hu E
    obtain ⟨nu, nd, nu0, n1, n2, n3, n4⟩ := point (flRad R true x)
    refine ⟨x, nd, nu0, flRad R true x, ?_, ?_, n3, n4, by simp, ?_⟩
    · rw [WideDeg.conv_from g o (by simp), WideDeg.in_num]
      show outA true (meanToEccentricEl o (RF.num R (flRad R true M)) (RF.num R e)) = _
      rw [q1, x1]
    · rw [WideDeg.toTrue_deg g o (by simp), WideDeg.in_num]
      show outA true ((rfKern g).eccToTrue false false (RF.num R (flRad R true x)) (RF.num R e)) = _
      rw [rh_ett g h1, n1, n2]
    · obtain ⟨W, hW⟩ : ∃ W, W = top + e := ⟨_, rfl⟩
      have hacc := h.accuracy
      rw [← hW] at q2 huW hacc ⊢
      have hE2 : |e * Real.sinh E - E| ≤ top + (tol + 19 * R.u * W) := by
        have := abs_add_le (e * Real.sinh E - E - flRad R true M) (flRad R true M)
        rw [sub_add_cancel, abs_of_nonneg h0] at this
        linarith
      have hS := anom_le h (hE2.trans (by linarith [h.tol_le]))
      have hQ := radius_le (W := W) h1 (E := E) (by rw [hW]; rw [hW] at hE2 huW; linarith [h.tol_le])
      have hS0 := h.anom_nonneg
      have hW1 : 1 ≤ W := by rw [hW]; linarith
      have hx : |flRad R true x - E| ≤ 62 / 10 * R.u * (S + 1) := x2.trans (mul_le_mul_of_nonneg_left hS (by positivity))
      have hsmall : 100 * R.u * (10 + S) ≤ tol := by
        refine le_trans ?_ hacc
        exact mul_le_mul_of_nonneg_left (le_mul_of_one_le_left (by linarith) hW1) (by positivity)
      have hδ : |flRad R true x - E| ≤ 1 / 1000 := by linarith [h.tol_le, mul_nonneg hu0 hS0]
      have hl := mean_lip (E := E) h1 hδ
      rw [add_sub_cancel] at hl
      have b1 : (101 / 100 * (e * Real.cosh E) + 1) * |flRad R true x - E| ≤ (403 / 100 * W) * (62 / 10 * R.u * (S + 1)) :=
        mul_le_mul (by linarith) hx (abs_nonneg _) (by linarith)
      have b2 : (403 / 100 * W) * (62 / 10 * R.u * (S + 1)) ≤ 1 / 4 * tol := by
        have b3 : R.u * (W * (S + 1)) ≤ R.u * (W * (10 + S)) := mul_le_mul_of_nonneg_left (mul_le_mul_of_nonneg_left (by linarith) (by linarith)) hu0
        have b4 : 0 ≤ R.u * (W * (10 + S)) := by positivity
        linarith
      have b5 := abs_sub_le (e * Real.sinh (flRad R true x) - flRad R true x) (e * Real.sinh E - E) (flRad R true M)
      linarith
  · obtain ⟨nu, nd, nu0, n1, n2, n3, n4⟩ := point E
    cases t
    · refine ⟨nd, nd, nu0, E, ?_, rfl, n3, n4, by simp, q2'⟩
      rw [WideDeg.conv_from g o (by simp), WideDeg.in_num]
      show outA true ((rfKern g).meanToTrue o false false (RF.num R (flRad R true M)) (RF.num R e)) = _
      rw [rh_mtt g h1 q1, n1, n2]
    · exact absurd rfl hecc
    · refine ⟨M, nd, nu0, E, rfl, ?_, n3, n4, fun _ => rfl, q2'⟩
      rw [WideDeg.toTrue_deg g o (by simp), WideDeg.in_num]
      show outA true ((rfKern g).meanToTrue o false false (RF.num R (flRad R true M)) (RF.num R e)) = _
      rw [rh_mtt g h1 q1, n1, n2]

/-! ## The orbital plane -/

/-- the states of two hyperbolas of the same shape in slightly different planes -/
theorem turned (k k' : Kep ℝ) {N : ℝ} (hN : 0 < N) {E W : ℝ} (ha : 0 < k.a) (h1 : 1 < k.e) (hW : k.e * Real.cosh E - 1 ≤ 2 * W) (heW : k.e ≤ W)
    (hae : k'.a = k.a) (hee : k'.e = k.e) {D : ℝ} (hD : |k.OM - k'.OM| + |k.i - k'.i| + |k.om - k'.om| ≤ D) :
    vlen ((hyperbolaState k N E).r - (hyperbolaState k' N E).r) ≤ k.a * (24 * W * D) ∧
    vlen ((hyperbolaState k N E).v - (hyperbolaState k' N E).v) ≤ k.a * N * √((k.e + 1) / (k.e - 1)) * (8 * D) := by
  have hq : 0 < k.e - 1 := by linarith
  have he1 : 0 < k.e ^ 2 - 1 := by nlinarith
  obtain ⟨⟨p1, p2, p3⟩, q1, q2, q3⟩ := WideDeg.plane_lip k k'
  have up : ∀ {x : ℝ}, x ≤ 2 * (|k.OM - k'.OM| + |k.i - k'.i| + |k.om - k'.om|) → x ≤ 2 * D := fun h => h.trans (by linarith)
  have hc := Real.one_le_cosh E
  have hs : |Real.sinh E| ≤ Real.cosh E := by rw [Real.abs_sinh, ← Real.cosh_abs]; exact (Real.sinh_lt_cosh _).le
  obtain ⟨w, hw⟩ : ∃ w, w = √(k.e ^ 2 - 1) := ⟨_, rfl⟩
  have hw0 : 0 < w := by rw [hw]; exact Real.sqrt_pos.mpr he1
  have hw2 : w ^ 2 = k.e ^ 2 - 1 := by rw [hw]; exact Real.sq_sqrt he1.le
  have hwe : w ≤ k.e := by nlinarith
  have hk : √((k.e + 1) / (k.e - 1)) = (k.e + 1) / w := by
    rw [Real.sqrt_eq_iff_mul_self_eq_of_pos (by positivity)]
    field_simp
    rw [hw2]; ring
  have hden : 0 < k.e * Real.cosh E - 1 := by nlinarith
  constructor
  · have hB : |k.a * (k.e - Real.cosh E)| + |k.a * √(k.e ^ 2 - 1) * Real.sinh E| ≤ 6 * W * k.a := by
      rw [← hw, abs_mul, abs_mul, abs_mul, abs_of_pos ha, abs_of_pos hw0]
      have e1 : |k.e - Real.cosh E| ≤ 3 * W := by
        rw [abs_le]; constructor <;> nlinarith
      have e2 : w * |Real.sinh E| ≤ 3 * W := (mul_le_mul hwe hs (abs_nonneg _) (by linarith)).trans (by linarith)
      have e3 := mul_le_mul_of_nonneg_left e1 ha.le
      have e4 := mul_le_mul_of_nonneg_left e2 ha.le
      linarith
    refine (vlen_le (B := 2 * D * (6 * W * k.a)) ?_).trans (le_of_eq (by ring))
    intro i
    fin_cases i
    · simpa [hyperbolaState, planeState, Cart.r, hae, hee] using WideDeg.comb_lip (up p1) (up q1) hB
    · simpa [hyperbolaState, planeState, Cart.r, hae, hee] using WideDeg.comb_lip (up p2) (up q2) hB
    · simpa [hyperbolaState, planeState, Cart.r, hae, hee] using WideDeg.comb_lip (up p3) (up q3) hB
  · have haN : 0 < k.a * N := by positivity
    have f1 : |-(k.a * N * Real.sinh E) / (k.e * Real.cosh E - 1)| ≤ k.a * N * ((k.e + 1) / w) := by
      rw [abs_div, abs_neg, abs_mul, abs_of_pos haN, abs_of_pos hden, mul_div_assoc]
      refine mul_le_mul_of_nonneg_left ?_ haN.le
      rw [div_le_div_iff₀ hden hw0]
      have f2 : |Real.sinh E| * w ≤ k.e * Real.cosh E - 1 := by
        refine abs_le_of_sq_le_sq' ?_ hden.le |>.2
        rw [mul_pow, sq_abs, hw2, Real.sinh_sq]
        nlinarith [sq_nonneg (Real.cosh E - k.e)]
      nlinarith
    have f3 : |k.a * N * √(k.e ^ 2 - 1) * Real.cosh E / (k.e * Real.cosh E - 1)| ≤ k.a * N * ((k.e + 1) / w) := by
      rw [← hw, abs_of_pos (by positivity), mul_assoc (k.a * N), mul_div_assoc]
      refine mul_le_mul_of_nonneg_left ?_ haN.le
      rw [div_le_div_iff₀ hden hw0, show w * Real.cosh E * w = w ^ 2 * Real.cosh E by ring, hw2]
      nlinarith
    have hB : |-(k.a * N * Real.sinh E) / (k.e * Real.cosh E - 1)| + |k.a * N * √(k.e ^ 2 - 1) * Real.cosh E / (k.e * Real.cosh E - 1)| ≤
        2 * (k.a * N * ((k.e + 1) / w)) := by linarith
    rw [hk]
    refine (vlen_le (B := 2 * D * (2 * (k.a * N * ((k.e + 1) / w)))) ?_).trans (le_of_eq (by ring))
    intro i
    fin_cases i
    · simpa [hyperbolaState, planeState, Cart.v, hae, hee] using WideDeg.comb_lip (up p1) (up q1) hB
    · simpa [hyperbolaState, planeState, Cart.v, hae, hee] using WideDeg.comb_lip (up p2) (up q2) hB
    · simpa [hyperbolaState, planeState, Cart.v, hae, hee] using WideDeg.comb_lip (up p3) (up q3) hB

/-- the state calculated from elements in degrees -/
theorem cart_err {mu : ℝ} (hmu : 0 < mu) {k : Kep ℝ} (ha : 0 < k.a) (h1 : 1 < k.e) {nd nu0 E W : ℝ} (hp : SamePointHyp k.e nu0 E)
    (hd : |flRad R true nd - nu0| ≤ 150 * R.u) (hW : k.e * Real.cosh E - 1 ≤ 2 * W) (heW : k.e ≤ W) (huW : R.u * W ≤ 1 / 10 ^ 9) (hroom : 2000 * (R.u * W) ≤ k.e - 1) :
    ∃ c : Cart ℝ, (rfKern g).kepToCart true (RF.num R mu) (Kep.num R { k with nu := nd }) = c.num R ∧
      vlen (c.r - (hyperbolaState (k.inRad true) √(mu / k.a ^ 3) E).r) ≤
        k.a * ((4800 * W ^ 2 / (k.e - 1) + 75 * W * (|angleOf true k.OM| + |angleOf true k.i| + |angleOf true k.om|)) * R.u) ∧
      vlen (c.v - (hyperbolaState (k.inRad true) √(mu / k.a ^ 3) E).v) ≤
        k.a * √(mu / k.a ^ 3) * √((k.e + 1) / (k.e - 1)) * ((1300 * W / (k.e - 1) + 25 * (|angleOf true k.OM| + |angleOf true k.i| + |angleOf true k.om|)) * R.u) := by
  have hu0 := R.u_nonneg
  have hu6 : R.u ≤ 1 / 10 ^ 6 := by nlinarith
  obtain ⟨hn, -⟩ := motion_pos hmu ha
  obtain ⟨c, c1, c2, c3⟩ := RHypProp.cart_err g hmu (k := { k.flRad R true with nu := flRad R true nd }) (nu := flRad R true nd) ha h1 hp hd hW heW huW hroom
  have hk : (rfKern g).kepToCart true (RF.num R mu) (Kep.num R { k with nu := nd }) = c.num R := by
    rw [← c1]
    exact kepToCart_flRad g.h mu true { k with nu := nd }
  have i1 := WideDeg.in_err (R := R) hu6 k.OM
  have i2 := WideDeg.in_err (R := R) hu6 k.i
  have i3 := WideDeg.in_err (R := R) hu6 k.om
  obtain ⟨A, hA⟩ : ∃ A, A = |angleOf true k.OM| + |angleOf true k.i| + |angleOf true k.om| := ⟨_, rfl⟩
  have hA0 : 0 ≤ A := by rw [hA]; positivity
  obtain ⟨d1, d2⟩ := turned { k.flRad R true with nu := flRad R true nd } (k.inRad true) hn ha h1 hW heW rfl rfl (D := 304 / 100 * R.u * A) (by
    show |flRad R true k.OM - angleOf true k.OM| + |flRad R true k.i - angleOf true k.i| + |flRad R true k.om - angleOf true k.om| ≤ _
    rw [hA]; linarith)
  rw [← hA]
  have hAu := mul_nonneg hA0 hu0
  refine ⟨c, hk, (vlen_via _ _ _).trans ((add_le_add c2 d1).trans ?_), (vlen_via _ _ _).trans ((add_le_add c3 d2).trans ?_)⟩
  · show k.a * (4800 * W ^ 2 / (k.e - 1) * R.u) + k.a * (24 * W * (304 / 100 * R.u * A)) ≤ _
    rw [← mul_add]
    refine mul_le_mul_of_nonneg_left ?_ ha.le
    have : 0 ≤ W * (A * R.u) := mul_nonneg (by linarith) hAu
    linarith
  · show k.a * √(mu / k.a ^ 3) * √((k.e + 1) / (k.e - 1)) * (1300 * W / (k.e - 1) * R.u) + k.a * √(mu / k.a ^ 3) * √((k.e + 1) / (k.e - 1)) * (8 * (304 / 100 * R.u * A)) ≤ _
    rw [← mul_add]
    refine mul_le_mul_of_nonneg_left ?_ (by positivity)
    linarith

/-! ## One step -/

/-- one hyperbolic orbit of an object that holds its angles in degrees, at position `j`: the numbers `k` are read from `orb.kepler`, `mu` is what `G*(M0 + m)`
computes to, and the solver converges up to the mean anomaly `top` (in radians), which belongs to the hyperbolic anomaly `S` -/
structure RDegHyperbola (s : Orb (RF R)) (j : Nat) (k : Kep ℝ) (mu tol top S : ℝ) : Prop extends HypSolver s.opts k.e tol top S where
  read : ∃ ks, (get_kepler (rfKern g) s).1 = .ok ks ∧ ks[j]? = some (k.num R)
  grav : ∃ m, s.m[j]? = some m ∧ s.G * (s.M0 + m) = RF.num R mu
  mu_pos : 0 < mu
  a_pos : 0 < k.a
  degs : s.degrees = true

theorem RDegHyperbola.mean {n : Nat} {s : Orb (RF R)} {j : Nat} {k : Kep ℝ} {mu tol top S M : ℝ} (hs : OneEntryPerOrbit s n) (h : RDegHyperbola g s j k mu tol top S)
    (hM : RReadsMean g s j M) : anomOf (rfKern g) .mean (kepCheck (rfKern g) s) (k.num R) = RF.num R M := by
  obtain ⟨ks, hks, hk⟩ := h.read
  obtain rfl : ks = (kepCheck (rfKern g) s).kep := (Except.ok.inj hks).symm
  obtain ⟨r, hr, -⟩ := get_anomaly_val (rfKern g) hs.wfe .mean
  obtain ⟨Ms, m1, m2⟩ := hM
  have e1 : (get_mean_anomaly (rfKern g) s).1 = _ := congrArg Prod.fst hr
  rw [e1] at m1
  obtain rfl := Except.ok.inj m1
  rw [List.getElem?_map, hk, Option.map_some] at m2
  exact Option.some.inj m2

/-- the bounds on the state read after calls of `propagate` -/
def CloseState (k : Kep ℝ) (mu tol top Mr : ℝ) (s' : Orb (RF R)) (j : Nat) : Prop :=
  ∃ cs c E, (get_cartesian (rfKern g) s').1 = .ok cs ∧ cs[j]? = some (Cart.num R c) ∧
    |k.e * Real.sinh E - E - Mr| ≤ 5 / 4 * tol + (19 * (top + k.e) + 20) * R.u ∧
    vlen (c.r - (hyperbolaState (k.inRad true) √(mu / k.a ^ 3) E).r) ≤
      k.a * ((4800 * (top + k.e) ^ 2 / (k.e - 1) + 75 * (top + k.e) * (|angleOf true k.OM| + |angleOf true k.i| + |angleOf true k.om|)) * R.u) ∧
    vlen (c.v - (hyperbolaState (k.inRad true) √(mu / k.a ^ 3) E).v) ≤ k.a * √(mu / k.a ^ 3) * √((k.e + 1) / (k.e - 1)) *
      ((1300 * (top + k.e) / (k.e - 1) + 25 * (|angleOf true k.OM| + |angleOf true k.i| + |angleOf true k.om|)) * R.u)

set_option maxHeartbeats 1000000 in
theorem RDegHyperbola.step {n : Nat} {s : Orb (RF R)} {j : Nat} {k : Kep ℝ} {mu tol top S M : ℝ} (hs : OneEntryPerOrbit s n) (hr : s.kro = false)
    (h : RDegHyperbola g s j k mu tol top S) (hM : RReadsMean g s j M) {dt : Val (RF R)} {dts : List (RF R)} (hdt : dt.Row n dts) {d : ℝ}
    (hd : dts[j]? = some (RF.num R d))
    (hlo : (50 + 2 * |angleOf true M| + 13 * (√(mu / k.a ^ 3) * |d|)) * R.u < angleOf true M + √(mu / k.a ^ 3) * d)
    (hhi : angleOf true M + √(mu / k.a ^ 3) * d < top - (50 + 2 * |angleOf true M| + 13 * (√(mu / k.a ^ 3) * |d|)) * R.u) :
    ∃ (s' : Orb (RF R)) (x M1 : ℝ), propagate (rfKern g) dt s = (.ok (), s') ∧ OneEntryPerOrbit s' n ∧ OnlyElements s s' ∧
      (∃ ks, (get_kepler (rfKern g) s').1 = .ok ks ∧ ks[j]? = some (Kep.num R { k with nu := x })) ∧ (s.type = .mean → x = M1) ∧
      0 ≤ angleOf true M1 ∧ angleOf true M1 ≤ top ∧
      |angleOf true M1 - (angleOf true M + √(mu / k.a ^ 3) * d)| ≤ (7 + 2 * |angleOf true M| + 13 * (√(mu / k.a ^ 3) * |d|)) * R.u ∧
      (s.auto = true ∨ s.direct = true → CloseState g k mu tol top (angleOf true M1) s' j) := by
  have hu0 := R.u_nonneg
  have h1 := h.e_gt
  have hdeg := h.degs
  obtain ⟨htop0, huW, hu9⟩ := h.small
  have hu6 : R.u ≤ 1 / 10 ^ 6 := by linarith
  have hM' := h.mean g hs hM
  obtain ⟨ks, hks, hk⟩ := h.read
  obtain rfl : ks = (kepCheck (rfKern g) s).kep := (Except.ok.inj hks).symm
  obtain ⟨m, hm, hmu⟩ := h.grav
  have hmu : (rfKern g).mu s.G s.M0 m = RF.num R mu := hmu
  obtain ⟨e1, e2, e3, -⟩ := kepCheck_settings (rfKern g) s
  obtain ⟨-, em, eG, eM0⟩ := kepCheck_body (rfKern g) s
  obtain ⟨M1, z, a1, a2, a3, a4⟩ := WideDeg.advance_err g hu6 h.a_pos h.mu_pos M d
  obtain ⟨i1, -, i3⟩ := WideDeg.in_turn (R := R) hu6 a2 a3
  have hn := (motion_pos h.mu_pos h.a_pos).1
  rw [abs_mul, abs_of_pos hn] at a4
  obtain ⟨B, hB⟩ : ∃ B, B = (2 * |angleOf true M| + 13 * (√(mu / k.a ^ 3) * |d|)) * R.u := ⟨_, rfl⟩
  have hB0 : 0 ≤ B := by rw [hB]; positivity
  have hB1 : (50 + 2 * |angleOf true M| + 13 * (√(mu / k.a ^ 3) * |d|)) * R.u = 50 * R.u + B := by rw [hB]; ring
  have hB2 : (7 + 2 * |angleOf true M| + 13 * (√(mu / k.a ^ 3) * |d|)) * R.u = 7 * R.u + B := by rw [hB]; ring
  rw [hB1] at hlo hhi
  rw [hB2] at a4 ⊢
  have hz : z = 0 := by
    have hpi := Real.pi_pos
    have ht := h.top_le
    obtain ⟨b1, b2⟩ := abs_le.mp a4
    rcases lt_trichotomy z 0 with hz | hz | hz
    · exfalso
      have hz' : (z : ℝ) ≤ -1 := by exact_mod_cast Int.le_sub_one_of_lt hz
      have := mul_le_mul_of_nonneg_right hz' (show 0 ≤ 2 * Real.pi by linarith)
      linarith
    · exact hz
    · exfalso
      have hz' : (1 : ℝ) ≤ z := by exact_mod_cast hz
      have := mul_le_mul_of_nonneg_right hz' (show 0 ≤ 2 * Real.pi by linarith)
      linarith
  rw [hz] at a4
  have a4 : |angleOf true M1 - (angleOf true M + √(mu / k.a ^ 3) * d)| ≤ 7 * R.u + B := by simpa using a4
  have hM1 : angleOf true M1 ≤ top - 30 * R.u := by
    obtain ⟨b1, b2⟩ := abs_le.mp a4
    linarith
  have hf : flRad R true M1 ≤ top := by
    obtain ⟨b1, b2⟩ := abs_le.mp i3
    linarith
  have hnew : newMean (rfKern g) (kepCheck (rfKern g) s) (k.num R) m (RF.num R d) = RF.num R M1 := by
    unfold newMean
    rw [hM', e2, eG, eM0, hmu, hdeg]
    exact a1
  obtain ⟨x, nd, nu0, E, x1, x2, x3, x4, x5, x6⟩ := stored g hu6 h.toHypSolver s.type i1 hf
  have hcol : ({ k.num R with nu := conv (rfKern g) s.opts s.degrees .mean s.type (newMean (rfKern g) (kepCheck (rfKern g) s) (k.num R) m (RF.num R d)) (k.num R).e } : Kep (RF R))
      = Kep.num R { k with nu := x } := by
    rw [hnew, hdeg]
    show ({ k.num R with nu := conv (rfKern g) s.opts true .mean s.type _ (RF.num R k.e) } : Kep (RF R)) = _
    rw [x1]; rfl
  obtain ⟨s', p1, p2, p3, p4, p5⟩ := propagate_ok (rfKern g) hs.wfe hr hdt
  refine ⟨s', x, M1, p1, p2.one, p3, ⟨s'.kep, ?_, ?_⟩, x5, a2, by linarith, a4, fun hmode => ?_⟩
  · show Except.ok (kepCheck (rfKern g) s').kep = _
    rw [p4.check]
  · have hmk : (kepCheck (rfKern g) s).m[j]? = some m := by rw [em]; exact hm
    rw [p5, List.getElem?_zipWith, hk]
    unfold newMeans
    rw [List.getElem?_zipWith]
    simp only [List.zip, List.getElem?_zipWith, hk, hmk, hd]
    rw [hcol]
  · obtain ⟨cs, c1, c2⟩ := propagate_cart (rfKern g) hs.wfe hr hdt hmode p1 hk hm hd (by rw [hcol]; rfl)
    have hQ := radius_le (W := top + k.e) h1 (E := E) (by
      have := abs_add_le (k.e * Real.sinh E - E - flRad R true M1) (flRad R true M1)
      rw [sub_add_cancel, abs_of_nonneg i1] at this
      linarith [h.tol_le])
    obtain ⟨c, d1, d2, d3⟩ := cart_err g h.mu_pos h.a_pos h1 x3 x4 hQ (by linarith) huW h.room
    refine ⟨cs, c, E, c1, ?_, ?_, d2, d3⟩
    · rw [c2, hcol, hmu, hdeg]
      refine congrArg some ?_
      rw [← d1]
      show (rfKern g).kepToCart true (RF.num R mu) { Kep.num R { k with nu := x } with nu := toTrue (rfKern g) s.type s.opts true (RF.num R x) (RF.num R k.e) } = _
      rw [x2]; rfl
    · have := abs_sub_le (k.e * Real.sinh E - E) (flRad R true M1) (angleOf true M1)
      linarith

/-! ## Any number of steps, for objects that store the mean anomaly -/

variable {g} in
theorem RDegHyperbola.after {s s' : Orb (RF R)} {j : Nat} {k : Kep ℝ} {mu tol top S : ℝ} (h : RDegHyperbola g s j k mu tol top S) (ho : OnlyElements s s') {x : ℝ}
    (hk : ∃ ks, (get_kepler (rfKern g) s').1 = .ok ks ∧ ks[j]? = some (Kep.num R { k with nu := x })) : RDegHyperbola g s' j { k with nu := x } mu tol top S := by
  refine ⟨?_, hk, ?_, h.mu_pos, h.a_pos, ?_⟩
  · rw [ho]; exact h.toHypSolver
  · rw [ho]; exact h.grav
  · rw [ho]; exact h.degs

theorem reads {n : Nat} {s : Orb (RF R)} (hs : OneEntryPerOrbit s n) {j : Nat} {k : Kep ℝ}
    (hread : ∃ ks, (get_kepler (rfKern g) s).1 = .ok ks ∧ ks[j]? = some (k.num R)) {M : ℝ}
    (h : conv (rfKern g) s.opts s.degrees s.type .mean (RF.num R k.nu) (RF.num R k.e) = RF.num R M) : RReadsMean g s j M := by
  obtain ⟨ks, hks, hk⟩ := hread
  obtain rfl : ks = (kepCheck (rfKern g) s).kep := (Except.ok.inj hks).symm
  obtain ⟨r, hr, -⟩ := get_anomaly_val (rfKern g) hs.wfe .mean
  obtain ⟨e1, e2, e3, -⟩ := kepCheck_settings (rfKern g) s
  refine ⟨_, congrArg Prod.fst hr, ?_⟩
  rw [List.getElem?_map, hk, Option.map_some, anomOf_conv, e1, e2, e3]
  exact congrArg some h

/-- what holds after any number of steps -/
structure RDegHypAfter (n j : Nat) (s s' : Orb (RF R)) (k : Kep ℝ) (mu tol top : ℝ) (m : Nat) (D T M1 : ℝ) : Prop where
  entries : OneEntryPerOrbit s' n
  only : OnlyElements s s'
  read : ∃ ks, (get_kepler (rfKern g) s').1 = .ok ks ∧ ks[j]? = some (Kep.num R { k with nu := M1 })
  nonneg : 0 ≤ angleOf true M1
  le : angleOf true M1 ≤ top
  close : |angleOf true M1 - (angleOf true k.nu + √(mu / k.a ^ 3) * D)| ≤ (20 * m + 2 * |angleOf true k.nu| + 13 * (√(mu / k.a ^ 3) * T)) * R.u
  cart : s.auto = true ∨ s.direct = true → CloseState g k mu tol top (angleOf true M1) s' j

variable {g} in
theorem run_after {n j m : Nat} {s s' : Orb (RF R)} {k : Kep ℝ} {mu tol top S D T : ℝ} (hrun : RHypRun g n j (angleOf true k.nu) √(mu / k.a ^ 3) top s s' m D T)
    (hs : OneEntryPerOrbit s n) (hr : s.kro = false) (h : RDegHyperbola g s j k mu tol top S) (ht : s.type = .mean) :
    (∃ M1, RDegHypAfter g n j s s' k mu tol top m D T M1) ∧ 0 ≤ T := by
  have hu0 := R.u_nonneg
  obtain ⟨htop0, huW, hu9⟩ := h.small
  obtain ⟨hn, -⟩ := motion_pos h.mu_pos h.a_pos
  have hpi := Real.pi_lt_d4
  have htl := h.top_le
  have hnu := mul_nonneg (abs_nonneg (angleOf true k.nu)) hu0
  obtain ⟨w, hw⟩ : ∃ w, w = √(mu / k.a ^ 3) := ⟨_, rfl⟩
  induction hrun with
  | one dt dts d row at_j lo hi run =>
    have hM : RReadsMean g s j k.nu := reads g hs h.read (by rw [ht]; rfl)
    have hwd : 0 ≤ √(mu / k.a ^ 3) * |d| * R.u := by positivity
    obtain ⟨s1, x, M1, p1, p2, p3, p4, p5, p6, p7, p8, p9⟩ := h.step g hs hr hM row at_j (by linarith) (by linarith)
    obtain rfl : s1 = _ := congrArg Prod.snd (p1.symm.trans run)
    obtain rfl := p5 ht
    refine ⟨⟨x, p2, p3, p4, p6, p7, p8.trans ?_, p9⟩, abs_nonneg d⟩
    push_cast
    linarith
  | @more s' s'' m D T before dt dts d row at_j lo hi run ih =>
    obtain ⟨⟨M1, a⟩, hT⟩ := ih
    have h' := h.after a.only a.read
    have ht' : s'.type = .mean := by rw [a.only]; exact ht
    have hau : s'.auto = s.auto := by rw [a.only]
    have hdi : s'.direct = s.direct := by rw [a.only]
    have hM : RReadsMean g s' j M1 := reads g a.entries a.read (by rw [ht']; rfl)
    have hc := a.close
    rw [← hw] at hc lo hi hn
    have hwd : 0 ≤ w * |d| * R.u := by positivity
    have hwT : 0 ≤ w * T * R.u := by positivity
    have habs : |angleOf true M1| ≤ 63 / 10 := by rw [abs_of_nonneg a.nonneg]; linarith [a.le]
    have hq := mul_le_mul_of_nonneg_right habs hu0
    have hM1 := a.nonneg
    have hmu0 := mul_nonneg (Nat.cast_nonneg (α := ℝ) m) hu0
    have hcc := abs_le.mp hc
    obtain ⟨s1, x, M2, p1, p2, p3, p4, p5, p6, p7, p8, p9⟩ := h'.step g a.entries (by rw [a.only]; exact hr) hM row at_j
      (by show (50 + 2 * |angleOf true M1| + 13 * (√(mu / k.a ^ 3) * |d|)) * R.u < angleOf true M1 + √(mu / k.a ^ 3) * d
          rw [← hw]; linarith [hcc.1])
      (by show angleOf true M1 + √(mu / k.a ^ 3) * d < top - (50 + 2 * |angleOf true M1| + 13 * (√(mu / k.a ^ 3) * |d|)) * R.u
          rw [← hw]; linarith [hcc.2])
    obtain rfl : s1 = _ := congrArg Prod.snd (p1.symm.trans run)
    obtain rfl := p5 ht'
    rw [hau, hdi] at p9
    refine ⟨⟨x, p2, ?_, p4, p6, p7, ?_, p9⟩, by positivity⟩
    · rw [p3, a.only]; rfl
    · have p8 : |angleOf true x - (angleOf true M1 + √(mu / k.a ^ 3) * d)| ≤ (7 + 2 * |angleOf true M1| + 13 * (√(mu / k.a ^ 3) * |d|)) * R.u := p8
      rw [← hw] at p8 ⊢
      push_cast
      have e4 : angleOf true x - (angleOf true k.nu + w * (D + d)) = (angleOf true x - (angleOf true M1 + w * d)) + (angleOf true M1 - (angleOf true k.nu + w * D)) := by ring
      rw [e4]
      have e5 := abs_add_le (angleOf true x - (angleOf true M1 + w * d)) (angleOf true M1 - (angleOf true k.nu + w * D))
      linarith

end HypDeg

open Py FX RF RHypProp HypDeg
variable {R : Rounding} (g : Garb (RF R))

/-- from the point of the solver to the solution of Newton's equations of motion -/
theorem HypDeg.CloseState.newton {s' : Orb (RF R)} {j : Nat} {k : Kep ℝ} {mu tol top S Mr M D δ : ℝ} {s : Orb (RF R)} (h : RDegHyperbola g s j k mu tol top S)
    (hc : CloseState g k mu tol top Mr s' j) (hδ : |Mr - (M + √(mu / k.a ^ 3) * D)| ≤ δ * R.u) :
    ∃ cs c', (get_cartesian (rfKern g) s').1 = .ok cs ∧ cs[j]? = some (Cart.num R c') ∧
      vlen (c'.r - (hyperbolaState (k.inRad true) √(mu / k.a ^ 3) (hypInv h.e_gt (M + √(mu / k.a ^ 3) * D))).r) ≤
        k.a * (√((k.e + 1) / (k.e - 1)) * (5 / 4 * tol + (19 * (top + k.e) + 20 + δ) * R.u) +
          (4800 * (top + k.e) ^ 2 / (k.e - 1) + 75 * (top + k.e) * (|angleOf true k.OM| + |angleOf true k.i| + |angleOf true k.om|)) * R.u) ∧
      vlen (c'.v - (hyperbolaState (k.inRad true) √(mu / k.a ^ 3) (hypInv h.e_gt (M + √(mu / k.a ^ 3) * D))).v) ≤
        k.a * √(mu / k.a ^ 3) * ((5 / 4 * tol + (19 * (top + k.e) + 20 + δ) * R.u) / (k.e - 1) ^ 2 +
          √((k.e + 1) / (k.e - 1)) * ((1300 * (top + k.e) / (k.e - 1) + 25 * (|angleOf true k.OM| + |angleOf true k.i| + |angleOf true k.om|)) * R.u)) := by
  obtain ⟨cs, c', E, c1, c2, c3, c4, c5⟩ := hc
  have htot : |(k.inRad true).e * Real.sinh E - E - (M + √(mu / (k.inRad true).a ^ 3) * D)| ≤ 5 / 4 * tol + (19 * (top + k.e) + 20 + δ) * R.u := by
    show |k.e * Real.sinh E - E - (M + √(mu / k.a ^ 3) * D)| ≤ _
    have := abs_sub_le (k.e * Real.sinh E - E) Mr (M + √(mu / k.a ^ 3) * D)
    linarith
  obtain ⟨q1, q2⟩ := RHypProp.points_close (k := k.inRad true) h.mu_pos h.a_pos h.e_gt htot
  refine ⟨cs, c', c1, c2, (vlen_via _ _ _).trans ((add_le_add c4 q1).trans (le_of_eq ?_)), (vlen_via _ _ _).trans ((add_le_add c5 q2).trans (le_of_eq ?_))⟩
  · show _ + k.a * (√((k.e + 1) / (k.e - 1)) * _) = _
    ring
  · show _ + k.a * √(mu / k.a ^ 3) * (_ / (k.e - 1) ^ 2) = _
    ring

/-- C113: C110 for an object that holds its angles in degrees.  For a hyperbolic orbit (`e > 1`, any anomaly type) of an object with automatic updates whose
arithmetic rounds there is one solution `c` of Newton's equations of motion, which at time 0 is at the exact point with the mean anomaly `M` (in degrees) the object
answers, in the plane given by the stored inclination, argument of periapsis and node (in degrees).  For every time `d` after which the mean anomaly in radians is
between 0 and `top`, with the rounding errors as margin, `propagate` returns, and the state read from `orb.cartesian` afterwards is close to `c d`. -/
theorem c113 {n : Nat} (s : Orb (RF R)) (hs : OneEntryPerOrbit s n) (hr : s.kro = false) (hmode : s.auto = true ∨ s.direct = true)
    (j : Nat) (k : Kep ℝ) (mu tol top S M : ℝ) (h : RDegHyperbola g s j k mu tol top S) (hM : RReadsMean g s j M) :
    ∃ c : ℝ → Cart ℝ, ObeysNewton mu c ∧
      (∀ nu E, SamePointHyp k.e nu E → k.e * Real.sinh E - E = angleOf true M → DescribesOrbit mu { k.inRad true with nu := nu } (c 0)) ∧
      ∀ (dt : Val (RF R)) (dts : List (RF R)) (d : ℝ), dt.Row n dts → dts[j]? = some (RF.num R d) →
        (50 + 2 * |angleOf true M| + 13 * (√(mu / k.a ^ 3) * |d|)) * R.u < angleOf true M + √(mu / k.a ^ 3) * d →
        angleOf true M + √(mu / k.a ^ 3) * d < top - (50 + 2 * |angleOf true M| + 13 * (√(mu / k.a ^ 3) * |d|)) * R.u →
        ∃ s' cs c', propagate (rfKern g) dt s = (.ok (), s') ∧ (get_cartesian (rfKern g) s').1 = .ok cs ∧ cs[j]? = some (Cart.num R c') ∧
          vlen (c'.r - (c d).r) ≤ k.a * (√((k.e + 1) / (k.e - 1)) *
              (5 / 4 * tol + (19 * (top + k.e) + 20 + (7 + 2 * |angleOf true M| + 13 * (√(mu / k.a ^ 3) * |d|))) * R.u) +
            (4800 * (top + k.e) ^ 2 / (k.e - 1) + 75 * (top + k.e) * (|angleOf true k.OM| + |angleOf true k.i| + |angleOf true k.om|)) * R.u) ∧
          vlen (c'.v - (c d).v) ≤ k.a * √(mu / k.a ^ 3) *
            ((5 / 4 * tol + (19 * (top + k.e) + 20 + (7 + 2 * |angleOf true M| + 13 * (√(mu / k.a ^ 3) * |d|))) * R.u) / (k.e - 1) ^ 2 +
            √((k.e + 1) / (k.e - 1)) * ((1300 * (top + k.e) / (k.e - 1) + 25 * (|angleOf true k.OM| + |angleOf true k.i| + |angleOf true k.om|)) * R.u)) := by
  obtain ⟨c, hc, hN, hst⟩ := curve (k := k.inRad true) h.mu_pos h.a_pos h.e_gt (angleOf true M)
  refine ⟨c, hN, hst, fun dt dts d row at_j lo hi => ?_⟩
  obtain ⟨s', x, M1, p1, -, -, -, -, -, -, p8, p9⟩ := h.step g hs hr hM row at_j lo hi
  obtain ⟨cs, c', c1, c2, c3, c4⟩ := (p9 hmode).newton g h p8
  refine ⟨s', cs, c', p1, c1, c2, ?_, ?_⟩
  · rw [hc d]; exact c3
  · rw [hc d]; exact c4

/-- C113, the mean anomaly an object answers: the stored number, if it stores the mean anomaly; if it stores the eccentric anomaly, that of the exact point up to
rounding errors -/
theorem c113_reads {n : Nat} (hu : R.u ≤ 1 / 10 ^ 6) (s : Orb (RF R)) (hs : OneEntryPerOrbit s n) (hdeg : s.degrees = true) (j : Nat) (k : Kep ℝ)
    (hread : ∃ ks, (get_kepler (rfKern g) s).1 = .ok ks ∧ ks[j]? = some (k.num R)) (h1 : 1 < k.e) :
    (s.type = .mean → RReadsMean g s j k.nu) ∧
    (s.type = .ecc → 304 / 100 * R.u * |angleOf true k.nu| ≤ 1 / 1000 → ∃ M, RReadsMean g s j M ∧
      |angleOf true M - (k.e * Real.sinh (angleOf true k.nu) - angleOf true k.nu)| ≤
        8 * (k.e * Real.cosh (angleOf true k.nu) + 1) * (1 + 2 * |angleOf true k.nu|) * R.u) := by
  have hu0 := R.u_nonneg
  constructor
  · intro ht
    exact reads g hs hread (by rw [ht]; rfl)
  · intro ht hx
    obtain ⟨x, hxd⟩ : ∃ x, x = angleOf true k.nu := ⟨_, rfl⟩
    obtain ⟨y, hyd⟩ : ∃ y, y = flRad R true k.nu := ⟨_, rfl⟩
    have hin := WideDeg.in_err (R := R) hu k.nu
    rw [← hxd] at hin hx ⊢
    rw [← hyd] at hin
    obtain ⟨M, m1, m2⟩ := RHyper.etm_err (R := R) hu h1 y
    obtain ⟨Md, d1, d2⟩ := WideDeg.out_err (R := R) hu M
    refine ⟨Md, reads g hs hread ?_, ?_⟩
    · rw [ht, hdeg, WideDeg.conv_to g s.opts (by simp), WideDeg.in_num, ← hyd]
      show outA true (eccentricToMeanEl g.mean .f64 (RF.num R y) (RF.num R k.e)) = _
      rw [eccentricToMeanEl, rhyp_mask h1, m1, d1]
    · obtain ⟨C, hC⟩ : ∃ C, C = k.e * Real.cosh x + 1 := ⟨_, rfl⟩
      have hC2 : 2 ≤ C := by rw [hC]; nlinarith [Real.one_le_cosh x]
      rw [← hC]
      have hl := mean_lip (E := x) (δ := y - x) h1 (hin.trans hx)
      rw [add_sub_cancel] at hl
      have hl2 : (101 / 100 * (k.e * Real.cosh x) + 1) * |y - x| ≤ 101 / 100 * C * |y - x| := mul_le_mul_of_nonneg_right (by linarith) (abs_nonneg _)
      have hl3 := mul_le_mul_of_nonneg_left hin (show 0 ≤ 101 / 100 * C by linarith)
      have hl4 := mul_le_mul_of_nonneg_left (hin.trans hx) (show 0 ≤ 101 / 100 * C by linarith)
      have hs : |Real.sinh x| ≤ Real.cosh x := by rw [Real.abs_sinh, ← Real.cosh_abs]; exact (Real.sinh_lt_cosh _).le
      have hs2 := mul_le_mul_of_nonneg_left hs (show 0 ≤ k.e by linarith)
      have hy : |y| ≤ |x| + 1 / 1000 := by
        have := abs_add_le (y - x) x
        rw [sub_add_cancel] at this
        linarith
      have hmx : |k.e * Real.sinh x - x| ≤ C - 1 + |x| := by
        refine (abs_sub _ _).trans ?_
        rw [abs_mul, abs_of_pos (show 0 < k.e by linarith)]
        linarith
      have hmy : |k.e * Real.sinh y - y| ≤ 1002 / 1000 * C - 1 + |x| := by
        have := abs_add_le (k.e * Real.sinh y - y - (k.e * Real.sinh x - x)) (k.e * Real.sinh x - x)
        rw [sub_add_cancel] at this
        linarith
      have hsy : k.e * |Real.sinh y| + |y| ≤ 1002 / 1000 * C + 3 * |x| := by
        have e1 : k.e * |Real.sinh y| = |(k.e * Real.sinh y - y) + y| := by rw [sub_add_cancel, abs_mul, abs_of_pos (show 0 < k.e by linarith)]
        have := abs_add_le (k.e * Real.sinh y - y) y
        rw [← e1] at this
        linarith
      have hsu := mul_le_mul_of_nonneg_left hsy hu0
      have hMb : |M| ≤ 101 / 100 * (1002 / 1000 * C + 3 * |x|) := by
        have := abs_add_le (M - (k.e * Real.sinh y - y)) (k.e * Real.sinh y - y)
        rw [sub_add_cancel] at this
        have h4 : 4 * R.u * (k.e * |Real.sinh y| + |y|) ≤ 1 / 1000 * (1002 / 1000 * C + 3 * |x|) := by
          refine mul_le_mul (by linarith) hsy (by have := abs_nonneg (Real.sinh y); have : 0 ≤ k.e * |Real.sinh y| := by positivity
                                                  linarith [abs_nonneg y]) (by norm_num)
        linarith [abs_nonneg x]
      have hMu := mul_le_mul_of_nonneg_left hMb hu0
      have hCx := mul_le_mul_of_nonneg_right hC2 (mul_nonneg (abs_nonneg x) hu0)
      have f1 := abs_sub_le (angleOf true Md) M (k.e * Real.sinh x - x)
      have f2 := abs_sub_le M (k.e * Real.sinh y - y) (k.e * Real.sinh x - x)
      have f3 : 0 ≤ C * R.u := by positivity
      have f4 : 0 ≤ |x| * R.u := by positivity
      linarith

/-- C113 for any number of calls, on an object that stores the mean anomaly: only the rounding errors of the mean anomaly add up, not those of the solver
of Kepler's equation.  (That the calls return: `c98_returns`.) -/
theorem c113_repeated {n : Nat} (s : Orb (RF R)) (hs : OneEntryPerOrbit s n) (hr : s.kro = false) (hmode : s.auto = true ∨ s.direct = true) (ht : s.type = .mean)
    (j : Nat) (k : Kep ℝ) (mu tol top S : ℝ) (h : RDegHyperbola g s j k mu tol top S) :
    ∃ c : ℝ → Cart ℝ, ObeysNewton mu c ∧
      (∀ nu E, SamePointHyp k.e nu E → k.e * Real.sinh E - E = angleOf true k.nu → DescribesOrbit mu { k.inRad true with nu := nu } (c 0)) ∧
      ∀ (s' : Orb (RF R)) (m : Nat) (D T : ℝ), RHypRun g n j (angleOf true k.nu) √(mu / k.a ^ 3) top s s' m D T →
        ∃ cs c', (get_cartesian (rfKern g) s').1 = .ok cs ∧ cs[j]? = some (Cart.num R c') ∧
          vlen (c'.r - (c D).r) ≤ k.a * (√((k.e + 1) / (k.e - 1)) *
              (5 / 4 * tol + (19 * (top + k.e) + 20 + (20 * m + 2 * |angleOf true k.nu| + 13 * (√(mu / k.a ^ 3) * T))) * R.u) +
            (4800 * (top + k.e) ^ 2 / (k.e - 1) + 75 * (top + k.e) * (|angleOf true k.OM| + |angleOf true k.i| + |angleOf true k.om|)) * R.u) ∧
          vlen (c'.v - (c D).v) ≤ k.a * √(mu / k.a ^ 3) *
            ((5 / 4 * tol + (19 * (top + k.e) + 20 + (20 * m + 2 * |angleOf true k.nu| + 13 * (√(mu / k.a ^ 3) * T))) * R.u) / (k.e - 1) ^ 2 +
            √((k.e + 1) / (k.e - 1)) * ((1300 * (top + k.e) / (k.e - 1) + 25 * (|angleOf true k.OM| + |angleOf true k.i| + |angleOf true k.om|)) * R.u)) := by
  obtain ⟨c, hc, hN, hst⟩ := curve (k := k.inRad true) h.mu_pos h.a_pos h.e_gt (angleOf true k.nu)
  refine ⟨c, hN, hst, fun s' m D T hrun => ?_⟩
  obtain ⟨⟨M1, a⟩, -⟩ := run_after hrun hs hr h ht
  obtain ⟨cs, c', c1, c2, c3, c4⟩ := (a.cart hmode).newton g h a.close
  refine ⟨cs, c', c1, c2, ?_, ?_⟩
  · rw [hc D]; exact c3
  · rw [hc D]; exact c4

/-- the hypotheses of C113 hold for the default options of the solver and arithmetic at least as accurate as double precision, when the mean anomaly in radians
plus `e` stays below 7 (`e ≥ 6/5`) or below 6.9 (`e` very close to 1) -/
theorem c113_default (hu : R.u ≤ (1 / 2) ^ 53) (s : Orb (RF R)) (ho : s.opts = .dflt) (hdeg : s.degrees = true) (j : Nat) (k : Kep ℝ) (mu : ℝ)
    (hread : ∃ ks, (get_kepler (rfKern g) s).1 = .ok ks ∧ ks[j]? = some (k.num R)) (hgrav : ∃ m, s.m[j]? = some m ∧ s.G * (s.M0 + m) = RF.num R mu)
    (hmu : 0 < mu) (ha : 0 < k.a) :
    (6 / 5 ≤ k.e → k.e ≤ 7 → ∃ tol S, tol ≤ 101 / 10 ^ 14 ∧ RDegHyperbola g s j k mu tol (7 - k.e) S) ∧
    (1 + 2 / 10 ^ 12 ≤ k.e → k.e ≤ 69 / 10 → ∃ tol S, tol ≤ 101 / 10 ^ 14 ∧ RDegHyperbola g s j k mu tol (69 / 10 - k.e) S) := by
  constructor
  · intro he h7
    obtain ⟨tol, S, h1, h2⟩ := default_solver hu he h7
    exact ⟨tol, S, h1, by rw [ho]; exact h2, hread, hgrav, hmu, ha, hdeg⟩
  · intro he h7
    obtain ⟨tol, S, h1, h2⟩ := default_solver_near hu he h7
    exact ⟨tol, S, h1, by rw [ho]; exact h2, hread, hgrav, hmu, ha, hdeg⟩

/-- a case: two calls for a hyperbola with e = 5/4, inclined by 30°, that stores its mean anomaly, 60° at the start, in double precision -/
example (g : Garb (RF Binary.binary64)) : ∃ (c : ℝ → Cart ℝ) (s1 s2 : Orb (RF Binary.binary64)) (cs : List (Cart (RF Binary.binary64))) (c' : Cart ℝ),
    ObeysNewton 1 c ∧ (∀ nu E, SamePointHyp (5 / 4) nu E → 5 / 4 * Real.sinh E - E = angleOf true 60 →
      DescribesOrbit 1 ⟨1, 5 / 4, angleOf true 30, angleOf true 60, angleOf true 90, nu⟩ (c 0)) ∧
    propagate (rfKern g) (.sc (RF.num _ 4)) (lazyDeg64 g .mean ⟨1, 5 / 4, 30, 60, 90, 60⟩) = (.ok (), s1) ∧ propagate (rfKern g) (.sc (RF.num _ (-3 / 2))) s1 = (.ok (), s2) ∧
    (get_cartesian (rfKern g) s2).1 = .ok cs ∧ cs[0]? = some (Cart.num Binary.binary64 c') ∧ vlen (c'.r - (c (5 / 2)).r) ≤ 13 / 10 ^ 11 := by
  have hs : OneEntryPerOrbit (lazyDeg64 g .mean ⟨1, 5 / 4, 30, 60, 90, 60⟩) 1 := ⟨rfl, rfl, rfl, rfl, ⟨_, rfl, rfl⟩, rfl, rfl, rfl⟩
  obtain ⟨tol, S, htol, h⟩ := (c113_default g (show (1 / 2 : ℝ) ^ 53 ≤ (1 / 2) ^ 53 from le_rfl) (lazyDeg64 g .mean ⟨1, 5 / 4, 30, 60, 90, 60⟩) rfl rfl 0
    ⟨1, 5 / 4, 30, 60, 90, 60⟩ 1 ⟨_, rfl, rfl⟩ ⟨0, rfl, by
      show (RF.num Binary.binary64 1 : RF _) * (RF.num _ 1 + 0) = _
      have : Binary.binary64.rd 1 = 1 := by
        have h1 := Binary.binary64.exact 4 (by norm_num)
        norm_num at h1
        rw [Rounding.rd, h1, Real.exp_zero, one_mul]
      rw [zero_num, add_num, mul_num, add_zero, this, one_mul, this]⟩ one_pos one_pos).1 (by norm_num) (by norm_num)
  obtain ⟨c, c1, c2, c3⟩ := c113_repeated g _ hs rfl (.inl rfl) rfl 0 _ 1 tol _ S h
  obtain ⟨⟨s1, p1⟩, -⟩ := c98_returns g _ hs rfl 0 (dt := .sc (RF.num _ 4)) (dts := [RF.num _ 4]) rfl
  have hR := RRun.one (g := g) (n := 1) (j := 0) (.sc (RF.num _ 4)) [RF.num _ 4] 4 rfl rfl p1
  obtain ⟨s2, p2⟩ := (c98_returns g _ hs rfl 0 (dt := .sc (RF.num _ (-3 / 2))) (dts := [RF.num _ (-3 / 2)]) rfl).2 _ _ _ _ hR
  have hw : √((1 : ℝ) / 1 ^ 3) = 1 := by norm_num
  have hk : √((5 / 4 + 1 : ℝ) / (5 / 4 - 1)) = 3 := by
    rw [show (5 / 4 + 1 : ℝ) / (5 / 4 - 1) = 3 ^ 2 by norm_num, Real.sqrt_sq (by norm_num)]
  have hu : Binary.binary64.u = (1 / 2 : ℝ) ^ 53 := rfl
  have hpi := Real.pi_lt_d4
  have hpi' := Real.pi_gt_d4
  have hS : |angleOf true 90| + |angleOf true 30| + |angleOf true 60| ≤ 4 := by
    simp only [angleOf, if_true]
    rw [abs_of_pos (by positivity), abs_of_pos (by positivity), abs_of_pos (by positivity)]
    linarith
  obtain ⟨M, hM⟩ : ∃ M, M = angleOf true 60 := ⟨_, rfl⟩
  have hM0 : 1 ≤ M := by rw [hM]; simp only [angleOf, if_true]; linarith
  have hM1 : M ≤ 11 / 10 := by rw [hM]; simp only [angleOf, if_true]; linarith
  have hMa : |M| = M := abs_of_pos (by linarith)
  simp only [hw, hk] at c3
  rw [← hM] at c3
  rw [← hM, hMa] at hS
  have r1 := RHypRun.one (g := g) (n := 1) (j := 0) (M0 := M) (w := 1) (top := 7 - 5 / 4) (.sc (RF.num _ 4)) [RF.num _ 4] 4 rfl rfl
    (by rw [hu, hMa, abs_of_pos (by norm_num)]; norm_num; linarith) (by rw [hu, hMa, abs_of_pos (by norm_num)]; norm_num; linarith) p1
  have r2 := r1.more (.sc (RF.num _ (-3 / 2))) [RF.num _ (-3 / 2)] (-3 / 2) rfl rfl
    (by rw [hu, hMa, abs_of_pos (show (0 : ℝ) < 4 by norm_num), abs_of_neg (show (-3 / 2 : ℝ) < 0 by norm_num)]; norm_num; linarith)
    (by rw [hu, hMa, abs_of_pos (show (0 : ℝ) < 4 by norm_num), abs_of_neg (show (-3 / 2 : ℝ) < 0 by norm_num)]; norm_num; linarith) p2
  obtain ⟨cs, c', d1, d2, d3, -⟩ := c3 _ _ _ _ r2
  refine ⟨c, s1, s2, cs, c', c1, c2, p1, p2, d1, d2, ?_⟩
  have e : (4 + -3 / 2 : ℝ) = 5 / 2 := by norm_num
  rw [e] at d3
  refine d3.trans ?_
  rw [hu, hMa, abs_of_pos (show (0 : ℝ) < 4 by norm_num), abs_of_neg (show (-3 / 2 : ℝ) < 0 by norm_num)]
  have := mul_le_mul_of_nonneg_right hS (show (0 : ℝ) ≤ (1 / 2) ^ 53 by norm_num)
  norm_num at this ⊢
  linarith

end Orbit
end Pyorb
