import Verif.PropsCartHypMotionDeg
import Verif.PropsCartHypRun

/-!
# Any number of steps from Cartesian coordinates on a hyperbola for objects that use degrees, with rounding (C125)
-/

set_option linter.unusedVariables false

namespace Pyorb
namespace Orbit
open Py FX RF RHypProp HypDeg CartKep
variable {R : Rounding} (g : Garb (RF R))

set_option maxHeartbeats 1000000 in
/-- C125: C124 for an object that holds its angles in degrees.  The Cartesian state `c` of a hyperbola with elements `k`, on the outbound leg with the hyperbolic anomaly `E`, is assigned to an
object that stores the mean anomaly.  There is a solution of Newton's equations with the state `c` at time 0, such that after any number `m` of calls of `propagate`, with time steps that add up
to `d` and whose absolute values add up to `τ`, the state read from `orb.cartesian` is close to that of the solution at `d`. -/
theorem c125 {n : Nat} (hR : Nearest R) (hu : R.u ≤ (1 / 2) ^ 53) (s0 s : Orb (RF R)) (hs : OneEntryPerOrbit s0 n) (hr : s0.kro = false) (hmode : s0.auto = true ∨ s0.direct = true)
    (hdeg : s0.degrees = true) (hty : s0.type = .mean) (ho : s0.opts = .dflt) (v : Val6 (RF R) (Cart (RF R))) (hset : set_cartesian (rfKern g) v s0 = (.ok (), s))
    (j : Nat) (k : Kep ℝ) (mu : ℝ) (c : Cart ℝ) (hc : ∃ cs, (get_cartesian (rfKern g) s).1 = .ok cs ∧ cs[j]? = some (c.num R))
    (hgrav : ∃ m, s0.m[j]? = some m ∧ s0.G * (s0.M0 + m) = RF.num R mu) (hmu : 0 < mu) (hd : DescribesOrbit mu k c) (ha : 0 < k.a)
    (h1 : 1 + 3 / 10 ^ 12 ≤ k.e) (h7 : k.e ≤ 68 / 10) (hi0 : 0 < Real.sin k.i) {W t : ℝ} (hW : W = 1 + vlen c.r / k.a) (ht : t = R.u * (W ^ 2 / (k.e ^ 2 - 1)))
    (hsm : 10 ^ 6 * t ≤ Real.sin k.i) (hi : 200 * t + 1 / 10 ^ 16 ≤ Real.sin k.i ^ 2) (hW1 : W ≤ 150) {E B : ℝ} (hE : SamePointHyp k.e k.nu E)
    (hB : B = hypMeanTol R.u k.e k.nu W t + 1000 * t * W) (hM : B < k.e * Real.sinh E - E) :
    ∃ C : ℝ → Cart ℝ, ObeysNewton mu C ∧ C 0 = c ∧
      ∀ (s' : Orb (RF R)) (m : Nat) (d τ : ℝ), HypSteps g n j (k.e * Real.sinh E - E) √(mu / k.a ^ 3) B (68 / 10 - k.e) s s' m d τ →
        ∃ cs c', (get_cartesian (rfKern g) s').1 = .ok cs ∧ cs[j]? = some (Cart.num R c') ∧
          vlen (c'.r - (C d).r) ≤ k.a * (√((k.e + 1) / (k.e - 1)) * (102 / 100 * (B + (20 * m + 19 * (√(mu / k.a ^ 3) * τ)) * R.u + 127 / 10 ^ 14)) + 182 * hypPlaneTol t k + 52000 * t + 230000 * (R.u / (k.e - 1))) ∧
          vlen (c'.v - (C d).v) ≤ k.a * √(mu / k.a ^ 3) * (102 / 100 * (B + (20 * m + 19 * (√(mu / k.a ^ 3) * τ)) * R.u + 127 / 10 ^ 14) / (k.e - 1) ^ 2 +
            √((k.e + 1) / (k.e - 1)) * (9 * hypPlaneTol t k + 5000 * t + 9100 * (R.u / (k.e - 1)))) := by
  have hu0 := R.u_nonneg
  have h1' : 1 < k.e := by norm_num at h1; linarith
  have he0 : 0 < k.e := by linarith
  have hq : 0 < k.e - 1 := by linarith
  obtain ⟨kd, k', tol, S, Mr, hkd, htol, N, hA, hs', honly, ⟨x, H⟩, hMr, hdM⟩ := hyp_object_deg g hR hu s0 s hs hmode hdeg ho v hset j k mu c hc hgrav hmu hd ha h1 h7 hi0 hW ht hsm hi hW1 hE
    (by rw [← hB]; exact hM)
  obtain ⟨C, hC, hN, hst⟩ := curve hmu ha h1' (k.e * Real.sinh E - E)
  refine ⟨C, hN, ?_, fun s' m d τ hrun => ?_⟩
  · have hd0 : DescribesOrbit mu k (C 0) := hst k.nu E hE rfl
    have hphys : Physical mu k := ⟨hmu, ha, he0.le, N.denom⟩
    rw [describes_unique hphys.adm hd0, describes_unique hphys.adm hd]
  obtain ⟨n0, -⟩ := motion_pos hmu ha
  have hB0' : 0 ≤ B := by
    have hT0' : 0 ≤ angTol (2000 * (R.u * W) / k.e) k.nu := AngleDist.tol_nonneg (div_nonneg (mul_nonneg (by norm_num) (mul_nonneg hu0 (by linarith [N.W1]))) he0.le) _
    have ht0' := N.t0
    have hWp' := N.W1
    rw [hB, hypMeanTol]; positivity
  obtain ⟨hτ, lo, hi'⟩ := hrun.range n0.le hB0'
  have ea : kd.a = k'.a := by rw [hkd]; rfl
  have ee : kd.e = k'.e := by rw [hkd]; rfl
  have ht0 := N.t0
  have hts := N.small
  have hut := N.scale.one
  have hT0 : 0 ≤ angTol (2000 * (R.u * W) / k.e) k.nu := AngleDist.tol_nonneg (div_nonneg (mul_nonneg (by norm_num) (mul_nonneg hu0 (by linarith [N.W1]))) he0.le) _
  have hWp := N.W1
  have hWeq := N.W_eq hE
  have hDD0 := N.D0
  obtain ⟨w0, -, -⟩ := N.droot
  obtain ⟨n0', -⟩ := motion_pos hmu N.a_pos'
  have hdn := N.dmotion hmu
  obtain ⟨G, hG⟩ : ∃ G, G = hypInv h1' (k.e * Real.sinh E - E + √(mu / k.a ^ 3) * d) := ⟨_, rfl⟩
  have hGm : k.e * Real.sinh G - G = k.e * Real.sinh E - E + √(mu / k.a ^ 3) * d := by rw [← meanOf_hyp h1' G, hG, meanOf_hypInv]
  have hCG : C d = hyperbolaState k √(mu / k.a ^ 3) G := by rw [hC, hG]
  obtain ⟨P, hP⟩ : ∃ P, P = hypPlaneTol t k := ⟨_, rfl⟩
  rw [← hP] at N hDD0 ⊢
  have hP0 : 0 ≤ P := by rw [hP]; exact hypPlaneTol_nonneg ht0 hi0.le
  rw [hypMeanTol] at hB
  obtain ⟨T, hT⟩ : ∃ T, T = angTol (2000 * (R.u * W) / k.e) k.nu := ⟨_, rfl⟩
  rw [← hT] at hB hdM hT0 N
  have hV0 : 0 ≤ k.e * W / √(k.e ^ 2 - 1) * T := by positivity
  have htW : 0 ≤ t * W := by positivity
  have htW1 : t ≤ t * W := le_mul_of_one_le_right ht0 hWp.le
  have huW : R.u * W ≤ t * W := mul_le_mul_of_nonneg_right hut (by linarith)
  have huW1 : R.u ≤ R.u * W := le_mul_of_one_le_right hu0 hWp.le
  have hB0 : 0 ≤ B := by rw [hB]; positivity
  have hMW : k.e * Real.sinh E - E ≤ W := by
    have a1 := mul_le_mul_of_nonneg_left (Real.sinh_lt_cosh E).le he0.le
    have a2 : 0 ≤ E := by
      by_contra hneg
      have hneg := not_le.mp hneg
      have := Real.sinh_lt_self_iff.mpr hneg
      nlinarith
    linarith
  obtain ⟨M, hMd⟩ : ∃ M, M = k.e * Real.sinh E - E := ⟨_, rfl⟩
  rw [← hMd] at hM lo hi' hGm hMW hdM hrun
  have hndx : ∀ x : ℝ, 0 < M + √(mu / k.a ^ 3) * x → M + √(mu / k.a ^ 3) * x < 68 / 10 → |√(mu / k'.a ^ 3) * x - √(mu / k.a ^ 3) * x| ≤ 4836 * (t * W) := by
    intro x lo hi'
    have hnd : √(mu / k.a ^ 3) * |x| ≤ 78 / 10 * W := by
      have : √(mu / k.a ^ 3) * |x| = |√(mu / k.a ^ 3) * x| := by rw [abs_mul, abs_of_pos n0]
      rw [this, abs_le]
      constructor <;> linarith
    rw [← sub_mul, abs_mul]
    have a1 := mul_le_mul_of_nonneg_right hdn (abs_nonneg x)
    have a2 := mul_le_mul_of_nonneg_left hnd (show 0 ≤ 620 * t by linarith)
    linarith
  have hnd' := hndx d (by linarith) (by linarith)
  have hnle : √(mu / k'.a ^ 3) ≤ 1001 / 1000 * √(mu / k.a ^ 3) := by
    have := mul_le_mul_of_nonneg_right hts n0.le
    linarith [(abs_le.mp hdn).2]
  have hee := abs_le.mp N.e_near
  have hty' : s.type = .mean := by rw [honly]; exact hty
  obtain rfl : x = Mr := by
    have a1 := H.mean g hs' hMr
    have a2 := H.mean g hs' (HypDeg.reads g hs' H.read (by rw [hty']; rfl))
    rw [a1] at a2
    exact (num_inj a2).symm
  obtain ⟨Ma, hMa⟩ : ∃ Ma, Ma = angleOf true x := ⟨_, rfl⟩
  rw [← hMa] at hdM
  have hMrle : |Ma| ≤ 79 / 10 * W := by
    have a1 := abs_le.mp hdM
    rw [abs_le]
    constructor <;> linarith
  have hMru : 5 * |Ma| * R.u ≤ 40 * (t * W) := by
    have := mul_le_mul_of_nonneg_right hMrle hu0
    linarith
  have hrun' : RHypRun g n j Ma √(mu / k'.a ^ 3) (69 / 10 - k'.e) s s' m d τ := by
    refine (hrun.to_run hB0 n0'.le hnle (by linarith) fun y lo hi' => ?_).2
    have a1 := abs_le.mp hdM
    have a2 := abs_le.mp (hndx y lo (by linarith))
    have a3 : |Ma + √(mu / k'.a ^ 3) * y - (M + √(mu / k.a ^ 3) * y)| ≤ B - 40 * (t * W) := by
      rw [abs_le]; constructor <;> linarith
    linarith
  rw [← ea, ← ee, hMa] at hrun'
  obtain ⟨⟨M1, ra⟩, -⟩ := HypDeg.run_after (k := { kd with nu := x }) hrun' hs' (by rw [honly]; exact hr) H hty'
  have p8 := ra.close
  obtain ⟨cs, c', F, c1, c2, c3, c4, c5⟩ := ra.cart (by rw [honly]; exact hmode)
  change |angleOf true M1 - (angleOf true x + √(mu / kd.a ^ 3) * d)| ≤ (20 * m + 2 * |angleOf true x| + 13 * (√(mu / kd.a ^ 3) * τ)) * R.u at p8
  change |kd.e * Real.sinh F - F - angleOf true M1| ≤ 5 / 4 * tol + (19 * (69 / 10 - kd.e + kd.e) + 20) * R.u at c3
  change vlen (c'.r - (hyperbolaState (kd.inRad true) √(mu / kd.a ^ 3) F).r) ≤
    kd.a * ((4800 * (69 / 10 - kd.e + kd.e) ^ 2 / (kd.e - 1) + 75 * (69 / 10 - kd.e + kd.e) * (|angleOf true kd.OM| + |angleOf true kd.i| + |angleOf true kd.om|)) * R.u) at c4
  change vlen (c'.v - (hyperbolaState (kd.inRad true) √(mu / kd.a ^ 3) F).v) ≤ kd.a * √(mu / kd.a ^ 3) * √((kd.e + 1) / (kd.e - 1)) *
    ((1300 * (69 / 10 - kd.e + kd.e) / (kd.e - 1) + 25 * (|angleOf true kd.OM| + |angleOf true kd.i| + |angleOf true kd.om|)) * R.u) at c5
  rw [sub_add_cancel] at c3 c4 c5
  obtain ⟨A, hAd⟩ : ∃ A, A = |angleOf true kd.OM| + |angleOf true kd.i| + |angleOf true kd.om| := ⟨_, rfl⟩
  obtain ⟨Mb, hMb⟩ : ∃ Mb, Mb = angleOf true M1 := ⟨_, rfl⟩
  rw [← hAd] at c4 c5 hA
  rw [ea, ← hMa, ← hMb] at p8
  rw [ee, ← hMb] at c3
  rw [ea, ee, ← hkd] at c4 c5
  have hAu := mul_le_mul_of_nonneg_right hA hu0
  have hA0 : 0 ≤ A * R.u := by rw [hAd]; positivity
  obtain ⟨η, hη⟩ : ∃ η, η = (20 * m + 19 * (√(mu / k.a ^ 3) * τ)) * R.u := ⟨_, rfl⟩
  have hη0 : 0 ≤ η := by rw [hη]; positivity
  have p8 : |Mb - (Ma + √(mu / k'.a ^ 3) * d)| ≤ η + 40 * (t * W) := by
    refine p8.trans ?_
    have a1 := mul_le_mul_of_nonneg_right hnle hτ
    have a2 := mul_le_mul_of_nonneg_right a1 hu0
    have a3 : 0 ≤ √(mu / k.a ^ 3) * τ * R.u := by positivity
    have a4 : 0 ≤ |Ma| * R.u := by positivity
    rw [hη]
    linarith
  rw [← hη]
  -- where the point is at the time `d`
  have hGle : k.e * Real.cosh G ≤ 14 := by
    have := radius_le (E := G) (W := 63 / 10) h1' (by rw [hGm, abs_of_pos (by linarith)]; linarith)
    linarith
  have hsG : |(k'.e - k.e) * Real.sinh G| ≤ 7000 * t := by
    rw [abs_mul]
    have a1 := mul_le_mul_of_nonneg_right N.de' (abs_nonneg (Real.sinh G))
    have a2 := sinh_le_cosh_abs G
    have a3 : (k.e - 1) * |Real.sinh G| ≤ k.e * Real.cosh G := mul_le_mul (by linarith) a2 (abs_nonneg _) he0.le
    have a4 := mul_le_mul_of_nonneg_left (a3.trans hGle) (show 0 ≤ 500 * t by linarith)
    linarith
  have hΔ : |k'.e * Real.sinh F - F - ((k'.e * Real.sinh G - G) + √(mu / k'.a ^ 3) * 0)| ≤ B + η + 127 / 10 ^ 14 := by
    rw [mul_zero, add_zero]
    have e1 : k'.e * Real.sinh F - F - (k'.e * Real.sinh G - G) = (k'.e * Real.sinh F - F - Mb) + (Mb - (Ma + √(mu / k'.a ^ 3) * d)) + (Ma - M) +
        (√(mu / k'.a ^ 3) * d - √(mu / k.a ^ 3) * d) - (k'.e - k.e) * Real.sinh G := by linear_combination -hGm
    rw [e1]
    have c3 : |k'.e * Real.sinh F - F - Mb| ≤ 127 / 10 ^ 14 + 152 * (t * W) := c3.trans (by norm_num at htol ⊢; linarith)
    rw [abs_le] at c3 p8 hdM hnd' hsG ⊢
    constructor <;> linarith
  obtain ⟨q1, q2⟩ := RHypProp.points_close hmu N.a_pos' N.e1' hΔ
  have hGG : hypInv N.e1' (k'.e * Real.sinh G - G + √(mu / k'.a ^ 3) * 0) = G := by rw [mul_zero, add_zero, ← meanOf_hyp N.e1' G, hypInv_meanOf]
  rw [hGG] at q1 q2
  obtain ⟨r1, r2⟩ := N.same_anomaly hmu G
  rw [← hCG] at r1 r2
  obtain ⟨Δ, hΔd⟩ : ∃ Δ, Δ = B + η + 127 / 10 ^ 14 := ⟨_, rfl⟩
  rw [← hΔd] at q1 q2 ⊢
  have hΔ0 : 0 ≤ Δ := by rw [hΔd]; positivity
  have hκ := N.factor'
  have hκ0 := Real.sqrt_nonneg ((k'.e + 1) / (k'.e - 1))
  have hale : k'.a ≤ 1001 / 1000 * k.a := by
    have := mul_le_mul_of_nonneg_right hts ha.le
    linarith [(abs_le.mp N.da).2]
  have hqle : 999 / 1000 * (k.e - 1) ≤ k'.e - 1 := by linarith
  have hq' : 0 < k'.e - 1 := by linarith
  have hinv : R.u / (k'.e - 1) ≤ 1002 / 1000 * (R.u / (k.e - 1)) := by
    rw [mul_div_assoc', div_le_div_iff₀ hq' hq]
    have := mul_le_mul_of_nonneg_left hqle (show 0 ≤ 1002 / 1000 * R.u by linarith)
    have := mul_nonneg hu0 hq.le
    linarith
  have hinv0 : 0 ≤ R.u / (k'.e - 1) := div_nonneg hu0 hq'.le
  have hinv0' : 0 ≤ R.u / (k.e - 1) := div_nonneg hu0 hq.le
  have ha' := N.a_pos'
  refine ⟨cs, c', c1, c2, ?_, ?_⟩
  · refine (vlen_via _ (hyperbolaState k' √(mu / k'.a ^ 3) F).r _).trans ((add_le_add c4 ((vlen_via _ (hyperbolaState k' √(mu / k'.a ^ 3) G).r _).trans (add_le_add q1 r1))).trans ?_)
    have a1 : k'.a * ((4800 * (69 / 10) ^ 2 / (k'.e - 1) + 75 * (69 / 10) * A) * R.u) ≤ k.a * (230000 * (R.u / (k.e - 1)) + 10400 * t) := by
      rw [show (4800 * (69 / 10 : ℝ) ^ 2 / (k'.e - 1) + 75 * (69 / 10) * A) * R.u = 228528 * (R.u / (k'.e - 1)) + 1035 / 2 * (A * R.u) by ring]
      have := mul_le_mul hale (show 228528 * (R.u / (k'.e - 1)) + 1035 / 2 * (A * R.u) ≤ 228528 * (1002 / 1000 * (R.u / (k.e - 1))) + 10350 * t by linarith) (by positivity) (by positivity)
      have a0 : 0 ≤ k.a * (R.u / (k.e - 1)) := by positivity
      have a00 : 0 ≤ k.a * t := by positivity
      linarith
    have a2 : k'.a * (√((k'.e + 1) / (k'.e - 1)) * Δ) ≤ k.a * (√((k.e + 1) / (k.e - 1)) * (102 / 100 * Δ)) := by
      have := mul_le_mul hale (mul_le_mul_of_nonneg_right hκ hΔ0) (by positivity) (by positivity)
      have a0 : 0 ≤ k.a * (√((k.e + 1) / (k.e - 1)) * Δ) := by positivity
      linarith
    have a3 : k.a * (k.e * Real.cosh G) * (13 * (P + 60 * R.u) + 2100 * t) ≤ k.a * (182 * P + 41000 * t) := by
      have := mul_le_mul_of_nonneg_right (mul_le_mul_of_nonneg_left hGle ha.le) (show 0 ≤ 13 * (P + 60 * R.u) + 2100 * t by positivity)
      have a00 := mul_le_mul_of_nonneg_left hut ha.le
      have a0 : 0 ≤ k.a * t := by positivity
      linarith
    have a0 : 0 ≤ k.a * t := by positivity
    linarith
  · refine (vlen_via _ (hyperbolaState k' √(mu / k'.a ^ 3) F).v _).trans ((add_le_add c5 ((vlen_via _ (hyperbolaState k' √(mu / k'.a ^ 3) G).v _).trans (add_le_add q2 r2))).trans ?_)
    have han : k'.a * √(mu / k'.a ^ 3) ≤ 1003 / 1000 * (k.a * √(mu / k.a ^ 3)) := by
      have := mul_le_mul hale hnle n0'.le (by positivity)
      have a0 : 0 ≤ k.a * √(mu / k.a ^ 3) := by positivity
      linarith
    generalize √(mu / k'.a ^ 3) = n' at *
    generalize √(mu / k.a ^ 3) = nn at *
    generalize √((k'.e + 1) / (k'.e - 1)) = κ' at *
    obtain ⟨κ, hκd⟩ : ∃ κ, κ = √((k.e + 1) / (k.e - 1)) := ⟨_, rfl⟩
    rw [← hκd] at hκ ⊢
    have hκp : 0 ≤ κ := by linarith
    have a1 : k'.a * n' * κ' * ((1300 * (69 / 10) / (k'.e - 1) + 25 * A) * R.u) ≤ k.a * nn * (κ * (9100 * (R.u / (k.e - 1)) + 510 * t)) := by
      rw [show (1300 * (69 / 10 : ℝ) / (k'.e - 1) + 25 * A) * R.u = 8970 * (R.u / (k'.e - 1)) + 25 * (A * R.u) by ring]
      have := mul_le_mul (mul_le_mul han hκ hκ0 (by positivity)) (show 8970 * (R.u / (k'.e - 1)) + 25 * (A * R.u) ≤ 8970 * (1002 / 1000 * (R.u / (k.e - 1))) + 500 * t by linarith) (by positivity) (by positivity)
      have a0 : 0 ≤ k.a * nn * (κ * (R.u / (k.e - 1))) := by positivity
      have a00 : 0 ≤ k.a * nn * (κ * t) := by positivity
      linarith
    have a2 : k'.a * n' * (Δ / (k'.e - 1) ^ 2) ≤ k.a * nn * (102 / 100 * Δ / (k.e - 1) ^ 2) := by
      have b1 : Δ / (k'.e - 1) ^ 2 ≤ 1003 / 1000 * (Δ / (k.e - 1) ^ 2) := by
        rw [mul_div_assoc', div_le_div_iff₀ (by positivity) (by positivity)]
        have b2 : (999 / 1000 * (k.e - 1)) ^ 2 ≤ (k'.e - 1) ^ 2 := pow_le_pow_left₀ (by positivity) hqle 2
        have b3 := mul_le_mul_of_nonneg_left b2 (show 0 ≤ 1003 / 1000 * Δ by positivity)
        have b4 : 0 ≤ Δ * (k.e - 1) ^ 2 := by positivity
        linarith
      have := mul_le_mul han b1 (by positivity) (by positivity)
      have a0 : 0 ≤ k.a * nn * (Δ / (k.e - 1) ^ 2) := by positivity
      rw [mul_div_assoc (102 / 100) Δ]
      linarith
    have a5 := mul_le_mul_of_nonneg_left hut (show 0 ≤ k.a * nn * κ by positivity)
    have a6 : 0 ≤ k.a * nn * κ * t := by positivity
    linarith

/-- C125 in double precision, where `(1 + r / a)² ≤ 10 (e² - 1)` and the sines of the four angles are at least 0.1 in absolute value -/
theorem c125_binary64 (g : Garb (RF Binary.binary64)) {n : Nat} (s0 s : Orb (RF Binary.binary64)) (hs : OneEntryPerOrbit s0 n) (hr : s0.kro = false)
    (hmode : s0.auto = true ∨ s0.direct = true) (hdeg : s0.degrees = true) (hty : s0.type = .mean) (ho : s0.opts = .dflt) (v : Val6 (RF Binary.binary64) (Cart (RF Binary.binary64)))
    (hset : set_cartesian (rfKern g) v s0 = (.ok (), s)) (j : Nat) (k : Kep ℝ) (mu : ℝ) (c : Cart ℝ)
    (hc : ∃ cs, (get_cartesian (rfKern g) s).1 = .ok cs ∧ cs[j]? = some (c.num _)) (hgrav : ∃ m, s0.m[j]? = some m ∧ s0.G * (s0.M0 + m) = RF.num _ mu) (hmu : 0 < mu)
    (hd : DescribesOrbit mu k c) (ha : 0 < k.a) (h1 : 1 < k.e) (h7 : k.e ≤ 68 / 10) (hW : (1 + vlen c.r / k.a) ^ 2 ≤ 10 * (k.e ^ 2 - 1)) (hi : 1 / 10 ≤ Real.sin k.i)
    (hOM : 1 / 10 ≤ |Real.sin k.OM|) (hom : 1 / 10 ≤ |Real.sin k.om|) (hnu : 1 / 10 ≤ |Real.sin k.nu|) {E : ℝ} (hE : SamePointHyp k.e k.nu E) (hM : 4 / 10 ^ 9 < k.e * Real.sinh E - E) :
    ∃ C : ℝ → Cart ℝ, ObeysNewton mu C ∧ C 0 = c ∧
      ∀ (s' : Orb (RF Binary.binary64)) (m : Nat) (d τ : ℝ), HypSteps g n j (k.e * Real.sinh E - E) √(mu / k.a ^ 3) (4 / 10 ^ 9) (68 / 10 - k.e) s s' m d τ →
        ∃ cs c', (get_cartesian (rfKern g) s').1 = .ok cs ∧ cs[j]? = some (Cart.num Binary.binary64 c') ∧
          vlen (c'.r - (C d).r) ≤ k.a * (4 / 10 ^ 7 + (4 * m + 2 * (√(mu / k.a ^ 3) * τ)) / 10 ^ 14) ∧
          vlen (c'.v - (C d).v) ≤ k.a * √(mu / k.a ^ 3) * (2 / 10 ^ 6 + (3 * m + √(mu / k.a ^ 3) * τ) / 10 ^ 12) := by
  have hu : Binary.binary64.u = (1 / 2) ^ 53 := rfl
  have hu0 := Binary.binary64.u_nonneg
  have hu1 : Binary.binary64.u ≤ 1112 / 10 ^ 19 := by rw [hu]; norm_num
  obtain ⟨W, hWd⟩ : ∃ W, W = 1 + vlen c.r / k.a := ⟨_, rfl⟩
  obtain ⟨t, ht⟩ : ∃ t, t = Binary.binary64.u * (W ^ 2 / (k.e ^ 2 - 1)) := ⟨_, rfl⟩
  rw [← hWd] at hW
  have H := hd.hyp hmu ha h1
  rw [← hWd] at H
  obtain ⟨ht0, ht1, he3, hW21, hB, hB0, hP, hP0, hκ, hinv, hinv0⟩ := hyp_tol_binary64 h1 h7 H.e_le ht hW hi hOM hom hnu
  have hi0 : 0 < Real.sin k.i := by linarith
  have hWp : 0 ≤ W := by linarith [H.e_le]
  have htW : 0 ≤ 1000 * t * W := by positivity
  have hB' : hypMeanTol Binary.binary64.u k.e k.nu W t + 1000 * t * W ≤ 4 / 10 ^ 9 := by
    have a5 := mul_le_mul ht1 hW21 hWp (by norm_num)
    norm_num at hB a5 ⊢
    linarith
  have hB0' := add_nonneg hB0 htW
  clear hB hB0
  have hi2 := pow_le_pow_left₀ (by norm_num) hi 2
  obtain ⟨C, C1, C2, C3⟩ := c125 g Binary.nearest (le_of_eq hu) s0 s hs hr hmode hdeg hty ho v hset j k mu c hc hgrav hmu hd ha (by norm_num at he3 ⊢; linarith) h7 hi0 hWd ht
    (by norm_num at ht1 ⊢; linarith) (by norm_num at ht1 hi2 ⊢; linarith) (by linarith) hE rfl (hB'.trans_lt hM)
  refine ⟨C, C1, C2, fun s' m d τ hrun => ?_⟩
  obtain ⟨cs, c', d2, d3, d4, d5⟩ := C3 s' m d τ (hrun.mono hB' le_rfl)
  have hN := Real.sqrt_nonneg (mu / k.a ^ 3)
  have hNτ : 0 ≤ √(mu / k.a ^ 3) * τ := mul_nonneg hN hrun.nonneg
  have hm0 := Nat.cast_nonneg (α := ℝ) m
  have hκ0 := Real.sqrt_nonneg ((k.e + 1) / (k.e - 1))
  have hq2 : (54 / 1000 : ℝ) ^ 2 ≤ (k.e - 1) ^ 2 := pow_le_pow_left₀ (by norm_num) (by linarith) 2
  have hq20 : 0 < (k.e - 1) ^ 2 := lt_of_lt_of_le (by norm_num) hq2
  refine ⟨cs, c', d2, d3, d4.trans (mul_le_mul_of_nonneg_left ?_ ha.le), d5.trans (mul_le_mul_of_nonneg_left ?_ (by positivity))⟩ <;> clear d4 d5 C3 hu ht hrun
  all_goals
    generalize hypMeanTol Binary.binary64.u k.e k.nu W t + 1000 * t * W = B at *
    generalize hypPlaneTol t k = P at *
    generalize Binary.binary64.u / (k.e - 1) = x at *
    generalize √((k.e + 1) / (k.e - 1)) = κ at *
    generalize √(mu / k.a ^ 3) * τ = y at *
    generalize (m : ℝ) = m at *
    generalize Binary.binary64.u = u at *
    have hη := mul_le_mul_of_nonneg_left hu1 (show 0 ≤ 20 * m + 19 * y by positivity)
    have hη0 : 0 ≤ (20 * m + 19 * y) * u := by positivity
  · have a1 := mul_le_mul hκ (show 102 / 100 * (B + (20 * m + 19 * y) * u + 127 / 10 ^ 14) ≤ 102 / 100 * (4 / 10 ^ 9 + (20 * m + 19 * y) * (1112 / 10 ^ 19) + 127 / 10 ^ 14) by linarith)
      (by positivity) (by norm_num)
    norm_num at a1 hP hinv ht1 ⊢
    linarith
  · have a1 := mul_le_mul hκ (show 9 * P + 5000 * t + 9100 * x ≤ 9 * (19 / 10 ^ 10) + 5000 * (1112 / 10 ^ 18) + 9100 * (206 / 10 ^ 17) by linarith) (by positivity) (by norm_num)
    have a2 : 102 / 100 * (B + (20 * m + 19 * y) * u + 127 / 10 ^ 14) / (k.e - 1) ^ 2 ≤ 15 / 10 ^ 7 + (3 * m + y) / 10 ^ 12 := by
      rw [div_le_iff₀ hq20]
      have a3 := mul_le_mul_of_nonneg_left hq2 (show 0 ≤ 15 / 10 ^ 7 + (3 * m + y) / 10 ^ 12 by positivity)
      norm_num at hB' hq2 hη a3 ⊢
      linarith
    norm_num at a1 a2 ⊢
    linarith

set_option maxHeartbeats 1000000 in
/-- a case: the state on the hyperbola with a = 1 and e = 2 at the true anomaly π/2, assigned to an object with one orbit that uses degrees and stores the mean anomaly, then two calls of `propagate`, the second backwards -/
example (g : Garb (RF Binary.binary64)) : ∃ (c : Cart ℝ) (C : ℝ → Cart ℝ) (s s1 s2 : Orb (RF Binary.binary64)) (cs : List (Cart (RF Binary.binary64))) (c' : Cart ℝ),
    DescribesOrbit 1 ⟨1, 2, Real.pi / 6, Real.pi / 6, Real.pi / 6, Real.pi / 2⟩ c ∧ ObeysNewton 1 C ∧ C 0 = c ∧
    set_cartesian (rfKern g) (.mat [c.num _]) { lazyBlank (rfKern g) (RF.num _ 1) (RF.num _ 1) .dflt .mean with degrees := true } = (.ok (), s) ∧
    propagate (rfKern g) (.sc (RF.num _ 1)) s = (.ok (), s1) ∧ propagate (rfKern g) (.sc (RF.num _ (-(1 / 2)))) s1 = (.ok (), s2) ∧ (get_cartesian (rfKern g) s2).1 = .ok cs ∧ cs[0]? = some (Cart.num Binary.binary64 c') ∧
    vlen (c'.r - (C (1 + -(1 / 2))).r) ≤ 401 / 10 ^ 9 := by
  have hp : Physical 1 (⟨1, 2, Real.pi / 6, Real.pi / 6, Real.pi / 6, Real.pi / 2⟩ : Kep ℝ) := by
    refine ⟨by norm_num, by norm_num, by norm_num, ?_⟩
    show 0 < 1 + 2 * Real.cos (Real.pi / 2)
    rw [Real.cos_pi_div_two]; norm_num
  have hsin : 1 / 10 ≤ |Real.sin (Real.pi / 6)| := by rw [Real.sin_pi_div_six]; norm_num
  obtain ⟨s0, hs0⟩ : ∃ s0, s0 = { lazyBlank (rfKern g) (RF.num Binary.binary64 1) (RF.num _ 1) .dflt .mean with degrees := true } := ⟨_, rfl⟩
  have hs : OneEntryPerOrbit s0 1 := by rw [hs0]; exact ⟨rfl, rfl, rfl, rfl, ⟨_, rfl, rfl⟩, rfl, rfl, rfl⟩
  obtain ⟨c, hc⟩ : ∃ c, DescribesOrbit 1 (⟨1, 2, Real.pi / 6, Real.pi / 6, Real.pi / 6, Real.pi / 2⟩ : Kep ℝ) c := ⟨_, hp.adm.describes⟩
  obtain ⟨s, hset⟩ : ∃ s, set_cartesian (rfKern g) (.mat [c.num _]) s0 = (.ok (), s) := by rw [hs0]; exact ⟨_, rfl⟩
  have hread : ∃ cs, (get_cartesian (rfKern g) s).1 = .ok cs ∧ cs[0]? = some (c.num _) := by
    obtain ⟨l, l1, l2⟩ := c32_cartesian (rfKern g) _ _ hs _ hset
    refine ⟨l, l1, ?_⟩
    obtain ⟨-, ⟨-, h⟩ | ⟨c0, h1, h2⟩⟩ := l2
    · rw [h]; rfl
    · injection h1 with h1 _
      rw [h2, ← h1]; rfl
  obtain ⟨E, hE⟩ := hyp_anomaly (e := 2) (nu := Real.pi / 2) (by norm_num) (by rw [Real.cos_pi_div_two]; norm_num)
  obtain ⟨q0, q1, q2⟩ := hyp_point_eqs (by norm_num) hE
  rw [Real.cos_pi_div_two] at q1
  rw [Real.sin_pi_div_two, one_mul] at q2
  have hcosh : Real.cosh E = 2 := by norm_num at q1; linarith
  have hsq := Real.cosh_sq E
  have hw : (0 : ℝ) < √(2 ^ 2 - 1) := Real.sqrt_pos.mpr (by norm_num)
  have hpos : 0 < Real.sinh E := by
    have : 0 < √((2 : ℝ) ^ 2 - 1) * Real.sinh E := by rw [← q2]; exact q0
    exact pos_of_mul_pos_right this hw.le
  have hE0 : 0 < E := Real.sinh_pos_iff.mp hpos
  have hle := Real.self_le_sinh_iff.mpr hE0.le
  rw [hcosh] at hsq
  have hs1 : 17 / 10 ≤ Real.sinh E := by nlinarith
  have hs2 : Real.sinh E ≤ 174 / 100 := by nlinarith
  have hn : √((1 : ℝ) / 1 ^ 3) = 1 := by norm_num
  have hdist : vlen c.r = 3 := by
    have := hc.distance
    rw [this, if_neg (by norm_num)]
    show 1 * |1 - (2 : ℝ) ^ 2| / (1 + 2 * Real.cos (Real.pi / 2)) = 3
    rw [Real.cos_pi_div_two]; norm_num
  obtain ⟨C, C1, C2, C3⟩ := c125_binary64 g (n := 1) s0 s hs (by rw [hs0]; rfl) (.inl (by rw [hs0]; rfl)) (by rw [hs0]) (by rw [hs0]; rfl) (by rw [hs0]; rfl) _ hset 0 _ 1 c hread ⟨0, by rw [hs0]; rfl, by
      rw [hs0]
      show (RF.num Binary.binary64 1 : RF _) * (RF.num _ 1 + 0) = _
      have : Binary.binary64.rd 1 = 1 := by
        have h1 := Binary.binary64.exact 4 (by norm_num)
        norm_num at h1
        rw [Rounding.rd, h1, Real.exp_zero, one_mul]
      rw [zero_num, add_num, mul_num, add_zero, this, one_mul, this]⟩ one_pos hc (by norm_num) (by norm_num) (by norm_num) (by rw [hdist]; norm_num)
    (by show 1 / 10 ≤ Real.sin (Real.pi / 6); rw [Real.sin_pi_div_six]; norm_num) hsin hsin (by show 1 / 10 ≤ |Real.sin (Real.pi / 2)|; rw [Real.sin_pi_div_two]; norm_num) hE
    (by show (4 / 10 ^ 9 : ℝ) < 2 * Real.sinh E - E; norm_num; linarith)
  obtain ⟨hs', honly, -⟩ := set_cartesian_only (rfKern g) hs hset
  have row1 : (Val.sc (RF.num Binary.binary64 1)).Row 1 [RF.num _ 1] := rfl
  have row2 : (Val.sc (RF.num Binary.binary64 (-(1 / 2)))).Row 1 [RF.num _ (-(1 / 2))] := rfl
  obtain ⟨⟨s1, p1⟩, -⟩ := c98_returns g _ hs' (by rw [honly, hs0]; rfl) 0 row1
  have hu0 := Binary.binary64.u_nonneg
  have hu1 : Binary.binary64.u ≤ 1112 / 10 ^ 19 := by
    have hu : Binary.binary64.u = (1 / 2) ^ 53 := rfl
    rw [hu]; norm_num
  have ab : |(-(1 / 2) : ℝ)| = 1 / 2 := by norm_num
  obtain ⟨s2, p2⟩ := (c98_returns g _ hs' (by rw [honly, hs0]; rfl) 0 row2).2 s1 1 1 |1| (.one _ [RF.num _ 1] 1 row1 rfl p1)
  obtain ⟨cs, c', d2, d3, d4, -⟩ := C3 s2 2 (1 + -(1 / 2)) (|1| + |-(1 / 2)|) (.more (.one (.sc (RF.num _ 1)) [RF.num _ 1] 1 row1 rfl
      (by show (4 / 10 ^ 9 : ℝ) + _ < 2 * Real.sinh E - E + √((1 : ℝ) / 1 ^ 3) * 1; rw [hn, abs_one]; norm_num; norm_num at hu1; linarith)
      (by show 2 * Real.sinh E - E + √((1 : ℝ) / 1 ^ 3) * 1 + _ + _ < 68 / 10 - (2 : ℝ); rw [hn, abs_one]; norm_num; norm_num at hu1; linarith) p1)
    (.sc (RF.num _ (-(1 / 2)))) [RF.num _ (-(1 / 2))] (-(1 / 2)) row2 rfl
      (by show (4 / 10 ^ 9 : ℝ) + _ < 2 * Real.sinh E - E + √((1 : ℝ) / 1 ^ 3) * (1 + -(1 / 2)); rw [hn, ab, abs_one]; norm_num; norm_num at hu1; linarith)
      (by show 2 * Real.sinh E - E + √((1 : ℝ) / 1 ^ 3) * (1 + -(1 / 2)) + _ + _ < 68 / 10 - (2 : ℝ); rw [hn, ab, abs_one]; norm_num; norm_num at hu1; linarith) p2)
  refine ⟨c, C, s, s1, s2, cs, c', hc, C1, C2, hs0 ▸ hset, p1, p2, d2, d3, d4.trans ?_⟩
  show (1 : ℝ) * (4 / 10 ^ 7 + (4 * ((2 : ℕ) : ℝ) + 2 * (√((1 : ℝ) / 1 ^ 3) * (|1| + |-(1 / 2)|))) / 10 ^ 14) ≤ _
  rw [hn, ab, abs_one]
  norm_num

end Orbit
end Pyorb
