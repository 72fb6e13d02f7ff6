import Verif.PropsSteps

/-!
# The conserved quantities of propagated states, with rounding (C127)
-/

set_option linter.unusedVariables false

namespace Pyorb
namespace Orbit
open Py FX RF RHypProp CartKep Wide Matrix

theorem vlen_pos {u : Fin 3 → ℝ} (h : u ≠ 0) : 0 < vlen u := lt_of_le_of_ne (vlen_nonneg _) (vlen_ne h).symm

section newton
variable {mu : ℝ} {C : ℝ → Cart ℝ} (h : ObeysNewton mu C)
include h

theorem newton_r (t : ℝ) (i : Fin 3) : HasDerivAt (fun u => (C u).r i) ((C t).v i) t := hasDerivAt_pi.mp (h t).1 i
theorem newton_v (t : ℝ) (i : Fin 3) : HasDerivAt (fun u => (C u).v i) (-(mu / vlen (C t).r ^ 3) * (C t).r i) t := by
  have := hasDerivAt_pi.mp (h t).2 i
  simpa only [Pi.smul_apply, smul_eq_mul] using this

/-- along a solution of Newton's equations the angular momentum is constant -/
theorem newton_angMom (t : ℝ) : angMom (C t) = angMom (C 0) := by
  have key : ∀ i j : Fin 3, ∀ t, (C t).r i * (C t).v j - (C t).r j * (C t).v i = (C 0).r i * (C 0).v j - (C 0).r j * (C 0).v i := by
    intro i j t
    have hd : ∀ t, HasDerivAt (fun u => (C u).r i * (C u).v j - (C u).r j * (C u).v i) 0 t := by
      intro t
      have := (((newton_r h t i).mul (newton_v h t j)).sub ((newton_r h t j).mul (newton_v h t i)))
      exact (show HasDerivAt (fun u => (C u).r i * (C u).v j - (C u).r j * (C u).v i) _ t from this).congr_deriv (by ring)
    exact is_const_of_deriv_eq_zero (fun t => (hd t).differentiableAt) (fun t => (hd t).deriv) t 0
  unfold angMom
  simp only [cross_apply]
  rw [key 1 2 t, key 2 0 t, key 0 1 t]

/-- along a solution of Newton's equations with a nonzero angular momentum the energy is constant -/
theorem newton_energy (hh : angMom (C 0) ≠ 0) (t : ℝ) : (C t).r ≠ 0 ∧ energy mu (C t) = energy mu (C 0) := by
  have hr : ∀ t, (C t).r ≠ 0 := by
    intro t h0
    apply hh
    rw [← newton_angMom h t]
    unfold angMom
    rw [h0]
    simp
  have hpos : ∀ t, 0 < (C t).r ⬝ᵥ (C t).r := by
    intro t
    have := vlen_pos (hr t)
    rw [← vlen_sq']
    positivity
  refine ⟨hr t, ?_⟩
  have hd : ∀ t, HasDerivAt (fun u => energy mu (C u)) 0 t := by
    intro t
    have hv := ((((newton_v h t 0).mul (newton_v h t 0)).add ((newton_v h t 1).mul (newton_v h t 1))).add ((newton_v h t 2).mul (newton_v h t 2))).div_const 2
    have hq := ((((newton_r h t 0).mul (newton_r h t 0)).add ((newton_r h t 1).mul (newton_r h t 1))).add ((newton_r h t 2).mul (newton_r h t 2)))
    have hl : HasDerivAt (fun u => vlen (C u).r) (((C t).r ⬝ᵥ (C t).v) / vlen (C t).r) t := by
      have := hq.sqrt (by
        have := (hpos t).ne'
        rw [dotProduct, Fin.sum_univ_three] at this
        exact this)
      have e : (fun u => vlen (C u).r) = fun u => √((C u).r 0 * (C u).r 0 + (C u).r 1 * (C u).r 1 + (C u).r 2 * (C u).r 2) := by
        funext u
        rw [vlen, dotProduct, Fin.sum_univ_three]
      rw [e]
      refine (show HasDerivAt (fun u => √((C u).r 0 * (C u).r 0 + (C u).r 1 * (C u).r 1 + (C u).r 2 * (C u).r 2)) _ t from this).congr_deriv ?_
      have e2 : vlen (C t).r = √((C t).r 0 * (C t).r 0 + (C t).r 1 * (C t).r 1 + (C t).r 2 * (C t).r 2) := congrFun e t
      change _ / (2 * √((C t).r 0 * (C t).r 0 + (C t).r 1 * (C t).r 1 + (C t).r 2 * (C t).r 2)) = _
      rw [← e2, dotProduct, Fin.sum_univ_three]
      have := (vlen_pos (hr t)).ne'
      field_simp
      ring
    have := hv.sub ((hasDerivAt_const t mu).div hl (vlen_pos (hr t)).ne')
    have e : (fun u => energy mu (C u)) = fun u => ((C u).v 0 * (C u).v 0 + (C u).v 1 * (C u).v 1 + (C u).v 2 * (C u).v 2) / 2 - mu / vlen (C u).r := by
      funext u
      rw [energy, dotProduct, Fin.sum_univ_three]
    rw [e]
    refine (show HasDerivAt (fun u => ((C u).v 0 * (C u).v 0 + (C u).v 1 * (C u).v 1 + (C u).v 2 * (C u).v 2) / 2 - mu / vlen (C u).r) _ t from this).congr_deriv ?_
    rw [dotProduct, Fin.sum_univ_three]
    have := (vlen_pos (hr t)).ne'
    field_simp
    ring
  exact is_const_of_deriv_eq_zero (fun t => (hd t).differentiableAt) (fun t => (hd t).deriv) t 0

end newton

theorem energy_speed {mu : ℝ} (c : Cart ℝ) : vlen c.v ^ 2 = 2 * energy mu c + 2 * (mu / vlen c.r) := by
  rw [vlen_sq', energy]; ring

theorem ne_of_len {u : Fin 3 → ℝ} (h : 0 < vlen u) : u ≠ 0 := by
  rintro rfl
  simp [vlen] at h

/-- a state near a solution of Newton's equations along an ellipse: its energy and its angular momentum are near those of the solution's initial state -/
theorem ellipse_drift {mu : ℝ} {C : ℝ → Cart ℝ} (hN : ObeysNewton mu C) {k : Kep ℝ} (E : EllState mu k (C 0)) (hmu : 0 < mu) (ha : 0 < k.a) (he0 : 0 ≤ k.e) (he1 : k.e < 1)
    {X : ℝ} (hX0 : 0 ≤ X) (hX : X ≤ (1 - k.e) ^ 2 / 100) {D : ℝ} {c' : Cart ℝ} (hr : vlen (c'.r - (C D).r) ≤ k.a / (1 - k.e) * X)
    (hv : vlen (c'.v - (C D).v) ≤ k.a * √(mu / k.a ^ 3) / (1 - k.e) ^ 2 * X) :
    |energy mu c' - energy mu (C 0)| ≤ mu / k.a * (203 / 100 * X / (1 - k.e) ^ 3) ∧ vlen (angMom c' - angMom (C 0)) ≤ k.a ^ 2 * √(mu / k.a ^ 3) * (402 / 100 * X / (1 - k.e) ^ 3) := by
  obtain ⟨n0, n2⟩ := motion_pos hmu ha
  generalize √(mu / k.a ^ 3) = n at *
  obtain ⟨hne, hen⟩ := newton_energy hN (ne_of_len E.h_pos) D
  have hang := newton_angMom hN D
  have hr0 := vlen_pos hne
  have hq : 0 < 1 - k.e := by linarith
  have hsp := energy_speed (mu := mu) (C D)
  have hh : vlen (angMom (C D)) ^ 2 ≤ (vlen (C D).r * vlen (C D).v) ^ 2 := pow_le_pow_left₀ (vlen_nonneg _) (vlen_cross_le _ _) 2
  rw [hang, E.h_sq, mul_pow, hsp, hen, E.energy] at hh
  rw [← hen, ← hang]
  have hq2 : (vlen (C D).r - k.a) ^ 2 ≤ (k.a * k.e) ^ 2 := by
    have e1 : vlen (C D).r ^ 2 * (2 * (-mu / (2 * k.a)) + 2 * (mu / vlen (C D).r)) = mu * (-vlen (C D).r ^ 2 / k.a + 2 * vlen (C D).r) := by field_simp
    rw [e1] at hh
    have h2 := le_of_mul_le_mul_left hh hmu
    have h3 := mul_le_mul_of_nonneg_left h2 ha.le
    have e2 : k.a * (-vlen (C D).r ^ 2 / k.a + 2 * vlen (C D).r) = -vlen (C D).r ^ 2 + 2 * k.a * vlen (C D).r := by field_simp
    rw [e2] at h3
    nlinarith
  obtain ⟨r1, r2⟩ := abs_le_of_sq_le_sq' hq2 (by positivity)
  have hrge : k.a * (1 - k.e) ≤ vlen (C D).r := by linarith
  have hrle : vlen (C D).r ≤ 2 * k.a := by nlinarith
  have han : (k.a * n) ^ 2 = mu / k.a := by rw [eq_div_iff ha.ne', ← n2]; ring
  have hspeed : vlen (C D).v ≤ k.a * n / (1 - k.e) := by
    refine (abs_le_of_sq_le_sq' ?_ (by positivity)).2
    rw [hsp, hen, E.energy, div_pow, han]
    have b1 : mu / vlen (C D).r ≤ mu / (k.a * (1 - k.e)) := div_le_div_of_nonneg_left hmu.le (by positivity) hrge
    have e1 : mu / k.a / (1 - k.e) ^ 2 - (2 * (-mu / (2 * k.a)) + 2 * (mu / (k.a * (1 - k.e)))) = mu / k.a * (k.e / (1 - k.e)) ^ 2 := by field_simp; ring
    have e2 : 0 ≤ mu / k.a * (k.e / (1 - k.e)) ^ 2 := by positivity
    linarith
  have Cl : Close (C D) c' (k.a * n / (1 - k.e)) (X / (1 - k.e) ^ 2) (X / (1 - k.e)) := by
    refine ⟨hr.trans ?_, hv.trans (le_of_eq (by field_simp)), hspeed, by positivity, ?_, by positivity, ?_, hr0⟩
    · have := mul_le_mul_of_nonneg_left hrge (show 0 ≤ X / (1 - k.e) ^ 2 by positivity)
      refine le_trans (le_of_eq ?_) this
      field_simp
    · rw [div_le_iff₀ (by positivity)]; linarith
    · rw [div_le_iff₀ hq]; nlinarith
  constructor
  · refine (Cl.energy_le hmu).trans ?_
    rw [div_pow, han]
    have b1 : mu / vlen (C D).r ≤ mu / (k.a * (1 - k.e)) := div_le_div_of_nonneg_left hmu.le (by positivity) hrge
    have b2 := mul_le_mul_of_nonneg_left b1 (show 0 ≤ 102 / 100 * (X / (1 - k.e) ^ 2) by positivity)
    refine (add_le_add_right b2 _).trans (le_of_eq ?_)
    field_simp
    ring
  · refine Cl.angMom_le.trans ?_
    have b1 := mul_le_mul_of_nonneg_right hrle (show 0 ≤ k.a * n / (1 - k.e) by positivity)
    have b2 := mul_le_mul_of_nonneg_left b1 (show 0 ≤ 101 / 100 * (X / (1 - k.e) ^ 2) + X / (1 - k.e) by positivity)
    refine b2.trans ?_
    have b3 : X / (1 - k.e) ≤ X / (1 - k.e) ^ 2 := div_le_div_of_nonneg_left hX0 (by positivity) (by nlinarith)
    have b4 := mul_le_mul_of_nonneg_right b3 (show 0 ≤ 2 * k.a * (k.a * n / (1 - k.e)) by positivity)
    have e1 : k.a ^ 2 * n * (402 / 100 * X / (1 - k.e) ^ 3) = 201 / 100 * (X / (1 - k.e) ^ 2 * (2 * k.a * (k.a * n / (1 - k.e)))) := by field_simp; ring
    rw [e1]
    linarith

/-- a state near a solution of Newton's equations along a hyperbola: its energy is near that of the solution's initial state -/
theorem hyperbola_drift {mu W : ℝ} {C : ℝ → Cart ℝ} (hN : ObeysNewton mu C) {k : Kep ℝ} (H : HypState mu k (C 0) W) (hmu : 0 < mu) (ha : 0 < k.a) (h1 : 1 < k.e)
    {p q : ℝ} (hp0 : 0 ≤ p) (hq0 : 0 ≤ q) (hp : p ≤ (k.e - 1) / 100) (hq : q ≤ 1 / 100) {D : ℝ} {c' : Cart ℝ} (hr : vlen (c'.r - (C D).r) ≤ k.a * p)
    (hv : vlen (c'.v - (C D).v) ≤ k.a * √(mu / k.a ^ 3) * q) :
    |energy mu c' - energy mu (C 0)| ≤ mu / k.a * (101 / 100 * (√((k.e + 1) / (k.e - 1)) * q) + 102 / 100 * (p / (k.e - 1) ^ 2)) := by
  obtain ⟨n0, n2⟩ := motion_pos hmu ha
  generalize √(mu / k.a ^ 3) = n at *
  have hz : 0 < k.e - 1 := by linarith
  have hk2 := Real.sq_sqrt (show 0 ≤ (k.e + 1) / (k.e - 1) by positivity)
  have hk1 : 1 ≤ √((k.e + 1) / (k.e - 1)) := by rw [Real.one_le_sqrt, le_div_iff₀ hz]; linarith
  generalize √((k.e + 1) / (k.e - 1)) = κ at *
  have hk0 : 0 < κ := by linarith
  obtain ⟨hne, hen⟩ := newton_energy hN (ne_of_len H.h_pos) D
  have hang := newton_angMom hN D
  have hr0 := vlen_pos hne
  have hsp := energy_speed (mu := mu) (C D)
  have hh : vlen (angMom (C D)) ^ 2 ≤ (vlen (C D).r * vlen (C D).v) ^ 2 := pow_le_pow_left₀ (vlen_nonneg _) (vlen_cross_le _ _) 2
  rw [hang, H.h_sq, mul_pow, hsp, hen, H.energy] at hh
  rw [← hen]
  have hrge : k.a * (k.e - 1) ≤ vlen (C D).r := by
    have e1 : vlen (C D).r ^ 2 * (2 * (mu / (2 * k.a)) + 2 * (mu / vlen (C D).r)) = mu * (vlen (C D).r ^ 2 / k.a + 2 * vlen (C D).r) := by field_simp
    rw [e1] at hh
    have h2 := le_of_mul_le_mul_left hh hmu
    have h3 := mul_le_mul_of_nonneg_left h2 ha.le
    have e2 : k.a * (vlen (C D).r ^ 2 / k.a + 2 * vlen (C D).r) = vlen (C D).r ^ 2 + 2 * k.a * vlen (C D).r := by field_simp
    rw [e2] at h3
    have h4 : (k.a * k.e) ^ 2 ≤ (vlen (C D).r + k.a) ^ 2 := by nlinarith
    have := (abs_le_of_sq_le_sq' h4 (by positivity)).2
    linarith
  have han : (k.a * n) ^ 2 = mu / k.a := by rw [eq_div_iff ha.ne', ← n2]; ring
  have b1 : mu / vlen (C D).r ≤ mu / (k.a * (k.e - 1)) := div_le_div_of_nonneg_left hmu.le (by positivity) hrge
  have hspeed : vlen (C D).v ≤ k.a * n * κ := by
    refine (abs_le_of_sq_le_sq' ?_ (by positivity)).2
    rw [hsp, hen, H.energy, mul_pow, han, hk2]
    have e1 : mu / k.a * ((k.e + 1) / (k.e - 1)) = 2 * (mu / (2 * k.a)) + 2 * (mu / (k.a * (k.e - 1))) := by field_simp; ring
    linarith
  have Cl : Close (C D) c' (k.a * n * κ) (p / (k.e - 1)) (q / κ) := by
    refine ⟨hr.trans ?_, hv.trans (le_of_eq (by field_simp)), hspeed, by positivity, ?_, by positivity, ?_, hr0⟩
    · have := mul_le_mul_of_nonneg_left hrge (show 0 ≤ p / (k.e - 1) by positivity)
      refine le_trans (le_of_eq ?_) this
      field_simp
    · rw [div_le_iff₀ hz]; linarith
    · rw [div_le_iff₀ hk0]; linarith
  refine (Cl.energy_le hmu).trans ?_
  rw [mul_pow, han]
  have b2 := mul_le_mul_of_nonneg_left b1 (show 0 ≤ 102 / 100 * (p / (k.e - 1)) by positivity)
  refine (add_le_add_right b2 _).trans (le_of_eq ?_)
  field_simp

/-- C127 for a Cartesian state on an ellipse: after any number of calls of `propagate` the energy and the angular momentum of the state read are near those of the state assigned -/
theorem c127_ellipse {R : Rounding} (g : Garb (RF R)) {n : Nat} (hR : Nearest R) (hu : R.u ≤ 1 / 10 ^ 9) (s0 s : Orb (RF R)) (hs : OneEntryPerOrbit s0 n) (hr : s0.kro = false)
    (hmode : s0.auto = true ∨ s0.direct = true) (hdeg : s0.degrees = false) {tol : ℝ} (hsol : WideSolver s0.opts tol) (v : Val6 (RF R) (Cart (RF R)))
    (hset : set_cartesian (rfKern g) v s0 = (.ok (), s)) (j : Nat) (k : Kep ℝ) (mu : ℝ) (c : Cart ℝ) (hc : ∃ cs, (get_cartesian (rfKern g) s).1 = .ok cs ∧ cs[j]? = some (c.num R))
    (hgrav : ∃ m, s0.m[j]? = some m ∧ s0.G * (s0.M0 + m) = RF.num R mu) (hmu : 0 < mu) (hd : DescribesOrbit mu k c) (ha : 0 < k.a)
    (he0 : 3 / 10 ^ 9 ≤ k.e) (he1 : k.e < 1) (hi0 : 0 < Real.sin k.i) (hsm : 10 ^ 6 * (R.u / (1 - k.e)) ≤ k.e * Real.sin k.i)
    (hi : 200 * (R.u / (1 - k.e)) + 1 / 10 ^ 16 ≤ Real.sin k.i ^ 2) (s' : Orb (RF R)) (m : Nat) (D T : ℝ) (hrun : RRun g n j s s' m D T) {X : ℝ}
    (hX : X = 26 / 25 * (if s0.type = .mean then tol else m * tol) + cartTol R.u k +
      (5400 / (1 - k.e) + 2000 * √((1 + k.e) / (1 - k.e)) * m + 230 / (1 - k.e) * (√(mu / k.a ^ 3) * T)) * R.u) (hX1 : X ≤ (1 - k.e) ^ 2 / 100) :
    ∃ cs c', (get_cartesian (rfKern g) s').1 = .ok cs ∧ cs[j]? = some (Cart.num R c') ∧
      |energy mu c' - energy mu c| ≤ mu / k.a * (203 / 100 * X / (1 - k.e) ^ 3) ∧ vlen (angMom c' - angMom c) ≤ k.a ^ 2 * √(mu / k.a ^ 3) * (402 / 100 * X / (1 - k.e) ^ 3) := by
  obtain ⟨C, C1, C2, C3⟩ := c115 g hR hu s0 s hs hr hmode hdeg hsol v hset j k mu c hc hgrav hmu hd ha he0 he1 hi0 hsm hi
  obtain ⟨cs, c', d1, d2, d3, d4⟩ := C3 s' m D T hrun
  rw [← hX] at d3 d4
  have he : 0 ≤ k.e := le_trans (by norm_num) he0
  have hq : 0 < k.a / (1 - k.e) := div_pos ha (by linarith)
  have hX0 : 0 ≤ X := nonneg_of_mul_nonneg_right ((vlen_nonneg _).trans d3) hq
  have E := hd.ell hmu ha he he1
  rw [← C2] at E ⊢
  exact ⟨cs, c', d1, d2, ellipse_drift C1 E hmu ha he he1 hX0 hX1 d3 d4⟩

/-- C127 for a Cartesian state on an ellipse, in double precision -/
theorem c127_binary64 (g : Garb (RF Binary.binary64)) {n : Nat} (s0 s : Orb (RF Binary.binary64)) (hs : OneEntryPerOrbit s0 n) (hr : s0.kro = false)
    (hmode : s0.auto = true ∨ s0.direct = true) (hdeg : s0.degrees = false) (ho : s0.opts = .dflt) (v : Val6 (RF Binary.binary64) (Cart (RF Binary.binary64)))
    (hset : set_cartesian (rfKern g) v s0 = (.ok (), s)) (j : Nat) (k : Kep ℝ) (mu : ℝ) (c : Cart ℝ)
    (hc : ∃ cs, (get_cartesian (rfKern g) s).1 = .ok cs ∧ cs[j]? = some (c.num _)) (hgrav : ∃ m, s0.m[j]? = some m ∧ s0.G * (s0.M0 + m) = RF.num _ mu) (hmu : 0 < mu)
    (hd : DescribesOrbit mu k c) (ha : 0 < k.a) (he0 : 1 / 10 ≤ k.e) (he1 : k.e ≤ 9 / 10) (hi : 1 / 10 ≤ Real.sin k.i) (hOM : 1 / 10 ≤ |Real.sin k.OM|)
    (hom : 1 / 10 ≤ |Real.sin k.om|) (hnu : 1 / 10 ≤ |Real.sin k.nu|) (s' : Orb (RF Binary.binary64)) (m : Nat) (D T : ℝ) (hrun : RRun g n j s s' m D T) {X : ℝ}
    (hX : X = 47 / 10 ^ 8 + 21 / 10 ^ 13 * m + 26 / 10 ^ 14 * (√(mu / k.a ^ 3) * T)) (hX1 : X ≤ (1 - k.e) ^ 2 / 100) :
    ∃ cs c', (get_cartesian (rfKern g) s').1 = .ok cs ∧ cs[j]? = some (Cart.num Binary.binary64 c') ∧
      |energy mu c' - energy mu c| ≤ mu / k.a * (203 / 100 * X / (1 - k.e) ^ 3) ∧ vlen (angMom c' - angMom c) ≤ k.a ^ 2 * √(mu / k.a ^ 3) * (402 / 100 * X / (1 - k.e) ^ 3) := by
  obtain ⟨C, C1, C2, C3⟩ := c115_binary64 g s0 s hs hr hmode hdeg ho v hset j k mu c hc hgrav hmu hd ha he0 he1 hi hOM hom hnu
  obtain ⟨cs, c', d1, d2, d3, d4⟩ := C3 s' m D T hrun
  rw [← hX] at d3 d4
  have hq : 0 < k.a / (1 - k.e) := div_pos ha (by linarith)
  have hX0 : 0 ≤ X := nonneg_of_mul_nonneg_right ((vlen_nonneg _).trans d3) hq
  have E := hd.ell hmu ha (by linarith) (by linarith)
  rw [← C2] at E ⊢
  exact ⟨cs, c', d1, d2, ellipse_drift C1 E hmu ha (by linarith) (by linarith) hX0 hX1 d3 d4⟩

/-- a case: the state with e = 1/2 and four angles of 30 degrees assigned to an object with one orbit that stores the mean anomaly, then a call of `propagate` -/
example (g : Garb (RF Binary.binary64)) : ∃ (c : Cart ℝ) (s s1 : Orb (RF Binary.binary64)) (cs : List (Cart (RF Binary.binary64))) (c' : Cart ℝ),
    DescribesOrbit 1 ⟨2, 1 / 2, Real.pi / 6, Real.pi / 6, Real.pi / 6, Real.pi / 6⟩ c ∧
    set_cartesian (rfKern g) (.mat [c.num _]) (lazyBlank (rfKern g) (RF.num _ 1) (RF.num _ 1) .dflt .mean) = (.ok (), s) ∧
    propagate (rfKern g) (.sc (RF.num _ 5)) s = (.ok (), s1) ∧ (get_cartesian (rfKern g) s1).1 = .ok cs ∧ cs[0]? = some (Cart.num Binary.binary64 c') ∧
    |energy 1 c' - energy 1 c| ≤ 1 / 10 ^ 5 ∧ vlen (angMom c' - angMom c) ≤ 1 / 10 ^ 4 := by
  have hp : Physical 1 (⟨2, 1 / 2, Real.pi / 6, Real.pi / 6, Real.pi / 6, Real.pi / 6⟩ : Kep ℝ) := by
    refine ⟨by norm_num, by norm_num, by norm_num, ?_⟩
    show 0 < 1 + 1 / 2 * Real.cos (Real.pi / 6)
    have := Real.neg_one_le_cos (Real.pi / 6)
    linarith
  have hsin : 1 / 10 ≤ |Real.sin (Real.pi / 6)| := by rw [Real.sin_pi_div_six]; norm_num
  have hs : OneEntryPerOrbit (lazyBlank (rfKern g) (RF.num Binary.binary64 1) (RF.num _ 1) .dflt .mean) 1 := ⟨rfl, rfl, rfl, rfl, ⟨_, rfl, rfl⟩, rfl, rfl, rfl⟩
  obtain ⟨c, hc⟩ : ∃ c, DescribesOrbit 1 (⟨2, 1 / 2, Real.pi / 6, Real.pi / 6, Real.pi / 6, Real.pi / 6⟩ : Kep ℝ) c := ⟨_, hp.adm.describes⟩
  obtain ⟨s, hset⟩ : ∃ s, set_cartesian (rfKern g) (.mat [c.num _]) (lazyBlank (rfKern g) (RF.num Binary.binary64 1) (RF.num _ 1) .dflt .mean) = (.ok (), s) := ⟨_, rfl⟩
  have hread : ∃ cs, (get_cartesian (rfKern g) s).1 = .ok cs ∧ cs[0]? = some (c.num _) := by
    obtain ⟨l, l1, l2⟩ := c32_cartesian (rfKern g) _ _ hs _ hset
    refine ⟨l, l1, ?_⟩
    obtain ⟨-, ⟨-, h⟩ | ⟨c0, h1, h2⟩⟩ := l2
    · rw [h]; rfl
    · injection h1 with h1 _
      rw [h2, ← h1]; rfl
  obtain ⟨hs', honly, -⟩ := set_cartesian_only (rfKern g) hs hset
  obtain ⟨⟨s1, p1⟩, -⟩ := c98_returns g _ hs' (by rw [honly]; rfl) 0 (dt := .sc (RF.num _ 5)) (dts := [RF.num _ 5]) rfl
  have r1 := RRun.one (g := g) (n := 1) (j := 0) (.sc (RF.num _ 5)) [RF.num _ 5] 5 rfl rfl p1
  have hN : √((1 : ℝ) / 2 ^ 3) ≤ 1 := by rw [Real.sqrt_le_left (by norm_num)]; norm_num
  have hX : (47 / 10 ^ 8 + 21 / 10 ^ 13 * (1 : ℕ) + 26 / 10 ^ 14 * (√((1 : ℝ) / 2 ^ 3) * |(5 : ℝ)|) : ℝ) ≤ (1 - 1 / 2) ^ 2 / 100 := by
    rw [abs_of_pos (show (0 : ℝ) < 5 by norm_num), Nat.cast_one]
    generalize √((1 : ℝ) / 2 ^ 3) = N at *
    norm_num
    linarith
  have hX5 : (47 / 10 ^ 8 + 21 / 10 ^ 13 * (1 : ℕ) + 26 / 10 ^ 14 * (√((1 : ℝ) / 2 ^ 3) * |(5 : ℝ)|) : ℝ) ≤ 48 / 10 ^ 8 := by
    rw [abs_of_pos (show (0 : ℝ) < 5 by norm_num), Nat.cast_one]
    generalize √((1 : ℝ) / 2 ^ 3) = N at *
    norm_num
    linarith
  obtain ⟨cs, c', d1, d2, d3, d4⟩ := c127_binary64 g (n := 1) _ s hs rfl (.inl rfl) rfl rfl _ hset 0 _ 1 c hread ⟨0, rfl, by
      show (RF.num Binary.binary64 1 : RF _) * (RF.num _ 1 + 0) = _
      have : Binary.binary64.rd 1 = 1 := by
        have h1 := Binary.binary64.exact 4 (by norm_num)
        norm_num at h1
        rw [Rounding.rd, h1, Real.exp_zero, one_mul]
      rw [zero_num, add_num, mul_num, add_zero, this, one_mul, this]⟩ one_pos hc (by norm_num) (by norm_num) (by norm_num)
    (by show 1 / 10 ≤ Real.sin (Real.pi / 6); rw [Real.sin_pi_div_six]; norm_num) hsin hsin hsin _ _ _ _ r1 rfl hX
  refine ⟨c, s, s1, cs, c', hc, hset, p1, d1, d2, d3.trans ?_, d4.trans ?_⟩
  · show (1 : ℝ) / 2 * (203 / 100 * (47 / 10 ^ 8 + 21 / 10 ^ 13 * (1 : ℕ) + 26 / 10 ^ 14 * (√((1 : ℝ) / 2 ^ 3) * |(5 : ℝ)|)) / (1 - 1 / 2) ^ 3) ≤ _
    generalize (47 / 10 ^ 8 + 21 / 10 ^ 13 * ((1 : ℕ) : ℝ) + 26 / 10 ^ 14 * (√((1 : ℝ) / 2 ^ 3) * |(5 : ℝ)|) : ℝ) = X at *
    norm_num at hX5 ⊢
    linarith
  · show (2 : ℝ) ^ 2 * √((1 : ℝ) / 2 ^ 3) * (402 / 100 * (47 / 10 ^ 8 + 21 / 10 ^ 13 * (1 : ℕ) + 26 / 10 ^ 14 * (√((1 : ℝ) / 2 ^ 3) * |(5 : ℝ)|)) / (1 - 1 / 2) ^ 3) ≤ _
    have hX0 : (0 : ℝ) ≤ 47 / 10 ^ 8 + 21 / 10 ^ 13 * (1 : ℕ) + 26 / 10 ^ 14 * (√((1 : ℝ) / 2 ^ 3) * |(5 : ℝ)|) := by positivity
    generalize (47 / 10 ^ 8 + 21 / 10 ^ 13 * ((1 : ℕ) : ℝ) + 26 / 10 ^ 14 * (√((1 : ℝ) / 2 ^ 3) * |(5 : ℝ)|) : ℝ) = X at *
    have := mul_le_mul hN hX5 hX0 (by norm_num)
    norm_num at this ⊢
    linarith

/-- C127 for a Cartesian state on a hyperbola, in double precision: after any number of calls of `propagate` the energy of the state read is near that of the state assigned -/
theorem c127_hyperbola (g : Garb (RF Binary.binary64)) {n : Nat} (s0 s : Orb (RF Binary.binary64)) (hs : OneEntryPerOrbit s0 n) (hr : s0.kro = false)
    (hmode : s0.auto = true ∨ s0.direct = true) (hdeg : s0.degrees = false) (hty : s0.type = .mean) (ho : s0.opts = .dflt) (v : Val6 (RF Binary.binary64) (Cart (RF Binary.binary64)))
    (hset : set_cartesian (rfKern g) v s0 = (.ok (), s)) (j : Nat) (k : Kep ℝ) (mu : ℝ) (c : Cart ℝ)
    (hc : ∃ cs, (get_cartesian (rfKern g) s).1 = .ok cs ∧ cs[j]? = some (c.num _)) (hgrav : ∃ m, s0.m[j]? = some m ∧ s0.G * (s0.M0 + m) = RF.num _ mu) (hmu : 0 < mu)
    (hd : DescribesOrbit mu k c) (ha : 0 < k.a) (h1 : 1 < k.e) (h7 : k.e ≤ 68 / 10) (hW : (1 + vlen c.r / k.a) ^ 2 ≤ 10 * (k.e ^ 2 - 1)) (hi : 1 / 10 ≤ Real.sin k.i)
    (hOM : 1 / 10 ≤ |Real.sin k.OM|) (hom : 1 / 10 ≤ |Real.sin k.om|) (hnu : 1 / 10 ≤ |Real.sin k.nu|) {E : ℝ} (hE : SamePointHyp k.e k.nu E) (hM : 4 / 10 ^ 9 < k.e * Real.sinh E - E)
    (s' : Orb (RF Binary.binary64)) (m : Nat) (d τ : ℝ) (hrun : HypSteps g n j (k.e * Real.sinh E - E) √(mu / k.a ^ 3) (4 / 10 ^ 9) (68 / 10 - k.e) s s' m d τ) {p q : ℝ}
    (hp : p = 4 / 10 ^ 7 + (4 * m + 2 * (√(mu / k.a ^ 3) * τ)) / 10 ^ 14) (hq : q = 2 / 10 ^ 6 + (3 * m + √(mu / k.a ^ 3) * τ) / 10 ^ 12)
    (hp1 : p ≤ (k.e - 1) / 100) (hq1 : q ≤ 1 / 100) :
    ∃ cs c', (get_cartesian (rfKern g) s').1 = .ok cs ∧ cs[j]? = some (Cart.num Binary.binary64 c') ∧
      |energy mu c' - energy mu c| ≤ mu / k.a * (101 / 100 * (√((k.e + 1) / (k.e - 1)) * q) + 102 / 100 * (p / (k.e - 1) ^ 2)) := by
  obtain ⟨C, C1, C2, C3⟩ := c124_binary64 g s0 s hs hr hmode hdeg hty ho v hset j k mu c hc hgrav hmu hd ha h1 h7 hW hi hOM hom hnu hE hM
  obtain ⟨cs, c', d1, d2, d3, d4⟩ := C3 s' m d τ hrun
  rw [← hp] at d3
  rw [← hq] at d4
  have hτ := hrun.nonneg
  have hN := mul_nonneg (Real.sqrt_nonneg (mu / k.a ^ 3)) hτ
  have hp0 : 0 ≤ p := by rw [hp]; positivity
  have hq0 : 0 ≤ q := by rw [hq]; positivity
  have H := hd.hyp hmu ha h1
  rw [← C2] at H
  refine ⟨cs, c', d1, d2, ?_⟩
  rw [← C2]
  exact hyperbola_drift C1 H hmu ha h1 hp0 hq0 hp1 hq1 d3 d4

end Orbit
end Pyorb
