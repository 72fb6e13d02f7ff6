import Verif.PropsCartDeg

/-!
# Propagation from Cartesian coordinates for objects that use degrees, with rounding (C120)
-/

set_option linter.unusedVariables false

namespace Pyorb
namespace Orbit
open Py FX RF Wide
variable {R : Rounding} (g : Garb (RF R))

/-- the anomaly `calculate_kepler` stores for a true anomaly in degrees -/
theorem stored_anom_deg (hu : R.u ≤ 1 / 10 ^ 6) (t : Anom) {e x F : ℝ} (h0 : 0 ≤ e) (h1 : e < 1) (hF : SamePoint e (flRad R true x) F) (hx : |flRad R true x| ≤ 7) :
    ∃ (y M0 : ℝ) (z : ℤ), fromTrue (rfKern g) t true (RF.num R x) (RF.num R e) = RF.num R y ∧ HasMean t e (angleOf true y) M0 ∧
      |M0 - (F - e * Real.sin F + z * (2 * Real.pi))| ≤ (200 + 170 * anomCond e) * R.u ∧ |angleOf true y| ≤ 23 := by
  have hu0 := R.u_nonneg
  have hc := anomCond_pos h0 h1
  by_cases ht : t = .tru
  · subst ht
    have hin := WideDeg.in_err (R := R) hu x
    have hy : |angleOf true x| ≤ 8 := by
      have h2 := abs_sub_le (angleOf true x) (flRad R true x) 0
      rw [sub_zero, sub_zero, abs_sub_comm] at h2
      have h3 := mul_le_mul_of_nonneg_right (show 304 / 100 * R.u ≤ 1 / 100 by linarith) (abs_nonneg (angleOf true x))
      linarith
    obtain ⟨M', m1, m2⟩ := WideDeg.hasMean_lip .tru h0 h1 (x := flRad R true x) (M := F - e * Real.sin F) ⟨F, hF, rfl⟩ (angleOf true x)
    refine ⟨x, M', 0, rfl, m1, ?_, by linarith⟩
    rw [Int.cast_zero, zero_mul, add_zero]
    rw [abs_sub_comm (angleOf true x)] at m2
    have h3 := mul_le_mul_of_nonneg_left hy hu0
    have h4 := mul_le_mul_of_nonneg_left (show |flRad R true x - angleOf true x| ≤ 25 * R.u by linarith) (show 0 ≤ anomCond e by linarith)
    have h5 := mul_nonneg (show 0 ≤ anomCond e by linarith) hu0
    linarith
  · obtain ⟨y, M0, z, y1, y2, y3, y4⟩ := stored_anom g hu t h0 h1 hF hx
    obtain ⟨yd, d1, d2⟩ := WideDeg.out_err (R := R) hu y
    obtain ⟨M', m1, m2⟩ := WideDeg.hasMean_lip t h0 h1 y2 (angleOf true yd)
    have h3 := mul_le_mul_of_nonneg_left y4 hu0
    have h4 := mul_le_mul_of_nonneg_left (show |angleOf true yd - y| ≤ 67 * R.u by linarith) (show 0 ≤ anomCond e by linarith)
    refine ⟨yd, M', z, ?_, m1, ?_, ?_⟩
    · rw [← d1, ← y1, ← WideDeg.in_num]
      cases t
      · exact absurd rfl ht
      · rfl
      · rfl
    · have h5 := abs_sub_le M' M0 (F - e * Real.sin F + z * (2 * Real.pi))
      have h6 := mul_nonneg (show 0 ≤ anomCond e by linarith) hu0
      linarith
    · have := abs_add_le (angleOf true yd - y) y
      rw [sub_add_cancel] at this
      linarith

/-- what is assumed of the object and of the assignment `orb.cartesian = value` -/
structure CartAssignedDeg (n j : Nat) (s0 s : Orb (RF R)) (mu tol : ℝ) (c : Cart ℝ) : Prop where
  one_entry : OneEntryPerOrbit s0 n
  writable : s0.kro = false
  mode : s0.auto = true ∨ s0.direct = true
  degs : s0.degrees = true
  solver : WideSolver s0.opts tol
  assigned : ∃ v, set_cartesian (rfKern g) v s0 = (.ok (), s)
  state : ∃ cs, (get_cartesian (rfKern g) s).1 = .ok cs ∧ cs[j]? = some (c.num R)
  grav : ∃ m, s0.m[j]? = some m ∧ s0.G * (s0.M0 + m) = RF.num R mu

set_option maxHeartbeats 1000000 in
open CartKep in
/-- the motion that follows when the computed elements are aligned with those of the state -/
theorem aligned_motion_deg {n j : Nat} (hu : R.u ≤ 1 / 10 ^ 9) {s0 s : Orb (RF R)} {mu tol : ℝ} {c : Cart ℝ} (W0 : CartAssignedDeg g n j s0 s mu tol c) (hmu : 0 < mu) {k kr k' : Kep ℝ}
    (hd : DescribesOrbit mu k c) (hue : 10 ^ 5 * R.u ≤ 1 - k.e) {φ F0 β γ D0 b η : ℝ} (hcol : cartToKepCol g.ctk .f64 (RF.num R mu) (c.num R) = k'.num R) (hF0 : SamePoint k.e k.nu F0)
    (A0 : Aligned k kr k' φ F0 (96 * (R.u / (1 - k.e))) β γ D0 b)
    (hη : ∀ x y : ℝ, |k.e * (Real.sin x - Real.sin y) - k'.e * (Real.sin (x + φ) - Real.sin (y + φ))| ≤ η) :
    FollowsWithin g n j s mu c k fun m T => 26 / 25 * (if s0.type = .mean then tol else m * tol) + 26 / 25 * (b + η) + 13 * D0 + 5 * β + 5 * γ +
      (3500 / (1 - k.e) + 3000 * √((1 + k.e) / (1 - k.e)) * m + 230 / (1 - k.e) * (√(mu / k.a ^ 3) * T)) * R.u := by
  obtain ⟨hs, hr, hmode, hdeg, hsol, ⟨v, hset⟩, hc, hgrav⟩ := W0
  have hu0 := R.u_nonneg
  have hu6 : R.u ≤ 1 / 10 ^ 6 := by linarith
  obtain ⟨r1, r2, r3, r4⟩ := angles_le (show R.u ≤ 1 / 10 ^ 5 by linarith) hcol
  obtain ⟨kd, hkd⟩ := in_degrees hu6 r1 r2 r3 r4
  have Af := A0.flRad hu6 r1 r2 r3 r4 hkd
  have hsum : |angleOf true kd.OM| + |angleOf true kd.i| + |angleOf true kd.om| ≤ 20 := by
    have a1 := abs_add_le (angleOf true kd.OM - k'.OM) k'.OM
    have a2 := abs_add_le (angleOf true kd.i - k'.i) k'.i
    have a3 := abs_add_le (angleOf true kd.om - k'.om) k'.om
    rw [sub_add_cancel] at a1 a2 a3
    have := hkd.OM
    have := hkd.i
    have := hkd.om
    linarith
  have Ar : Aligned k kr (kd.inRad true) φ F0 (96 * (R.u / (1 - k.e))) β γ (D0 + 60 * R.u) (b + 3 * (√((1 + k.e) / (1 - k.e)) * (20 * R.u))) := by
    refine A0.turn (kf := kd.inRad true) hkd.a hkd.e ?_ hkd.nu ?_
    · show |angleOf true kd.OM - k'.OM| + |angleOf true kd.i - k'.i| + |angleOf true kd.om - k'.om| ≤ _
      linarith [hkd.OM, hkd.i, hkd.om]
    · show |angleOf true kd.nu| ≤ 7
      have a1 := abs_add_le (angleOf true kd.nu - k'.nu) k'.nu
      rw [sub_add_cancel] at a1
      linarith [hkd.nu]
  have hη : ∀ x y : ℝ, |k.e * (Real.sin x - Real.sin y) - kd.e * (Real.sin (x + φ) - Real.sin (y + φ))| ≤ η := by rw [hkd.e]; exact hη
  obtain ⟨ha, hep, hq199, hquot, hquot2⟩ := Ar.shapes
  change 199 / 200 * (1 - k.e) ≤ 1 - kd.e at hq199
  change kd.a / (1 - kd.e) ≤ _ at hquot
  have he1 := A0.e1
  have hq : 0 < 1 - k.e := by linarith
  obtain ⟨hs', honly, cs0, hcs0, hread⟩ := set_cartesian_only (rfKern g) hs hset
  obtain ⟨cs1, hcs1, hcj⟩ := hc
  obtain rfl : cs0 = cs1 := by rw [hcs0] at hcs1; injection hcs1
  obtain ⟨mj, hmj, hmuj⟩ := hgrav
  obtain ⟨ks, hks, hkj⟩ := hread hmode j _ mj hcj hmj rfl
  have S : NearShape kr.a kr.e kd.a kd.e (96 * (R.u / (1 - k.e))) β := Ar.near.shape
  obtain ⟨F1, hF1, hb1⟩ := Af.point
  change SamePoint kd.e (flRad R true kd.nu) F1 at hF1
  change |meanOf kd.e F1 - meanOf kd.e (F0 + φ)| ≤ _ at hb1
  obtain ⟨x, M0, z0, x1, x2, x3, x4⟩ := stored_anom_deg g hu6 s0.type S.e0' S.e1' hF1 Af.range
  have hset' : s.type = s0.type ∧ s.degrees = s0.degrees ∧ s.opts = s0.opts ∧ s.m = s0.m ∧ s.G = s0.G ∧ s.M0 = s0.M0 ∧ s.kro = s0.kro ∧ s.auto = s0.auto ∧ s.direct = s0.direct := by
    rw [honly]; exact ⟨rfl, rfl, rfl, rfl, rfl, rfl, rfl, rfl, rfl⟩
  obtain ⟨w1, w2, w3, w4, w5, w6, w7, w8, w9⟩ := hset'
  have hstored : ks[j]? = some (Kep.num R { kd with nu := x }) := by
    rw [hkj]
    show some (kepOfCart (rfKern g) s0.type s0.degrees (s0.G * (s0.M0 + mj)) (c.num R)) = _
    have hcol' : (rfKern g).cartToKep true (RF.num R mu) (c.num R) = kd.num R := by
      rw [← hkd.out, ← hcol]; rfl
    rw [hmuj, hdeg, kepOfCart, hcol']
    show some ({ kd.num R with nu := fromTrue (rfKern g) s0.type true (RF.num R kd.nu) (RF.num R kd.e) } : Kep (RF R)) = _
    rw [x1]; rfl
  have htu : R.u ≤ R.u / (1 - k.e) := by rw [le_div_iff₀ hq]; nlinarith
  have hmot := S.motion hmu
  rw [A0.a] at hmot
  obtain ⟨t, ht⟩ : ∃ t, t = R.u / (1 - k.e) := ⟨_, rfl⟩
  rw [← ht] at htu hmot
  have ht0 : 0 ≤ t := by linarith
  have hwide : 300 * R.u ≤ 1 - kd.e := by
    norm_num at hue
    linarith
  have W : WideDeg.RDegEllipse g s j { kd with nu := x } mu tol :=
    ⟨⟨ks, hks, hstored⟩, ⟨mj, by rw [w4]; exact hmj, by rw [w5, w6]; exact hmuj⟩, hmu, S.a_pos', S.e0', S.e1', hwide, by rw [w2]; exact hdeg, by rw [w3]; exact hsol⟩
  -- the motion
  obtain ⟨C, hC, hNewt, hst⟩ := newton_curve hmu ha hep he1 false (meanOf k.e F0)
  have hphys : Physical mu k := ⟨hmu, ha, hep, by have := Real.neg_one_le_cos k.nu; nlinarith⟩
  refine ⟨C, hNewt, ?_, fun s' m D T hrun => ?_⟩
  · have h1 : DescribesOrbit mu k (C 0) := hst k.nu F0 hF0 (meanOf_eli _ he1 _).symm
    rw [describes_unique hphys.adm h1, describes_unique hphys.adm hd]
  obtain ⟨y, M1, A⟩ := WideDeg.run_after hu hrun hs' (by rw [w7]; exact hr) W (M0 := M0) (by rw [w1]; exact x2)
  obtain ⟨hm1, hT⟩ := hrun.pos
  have hDT := hrun.abs_le
  have hm1 : (1 : ℝ) ≤ m := by exact_mod_cast hm1
  obtain ⟨cs, c', F, c1, c2, c3, c4, c5⟩ := A.cart (by rw [w8, w9]; exact hmode)
  obtain ⟨z, hz⟩ := A.close
  obtain ⟨G, hG, hGm⟩ := hC D
  change |F - kd.e * Real.sin F - M1| ≤ _ + 360 * anomCond kd.e * R.u at c3
  change vlen (c'.r - (ellipseState (kd.inRad true) √(mu / kd.a ^ 3) F).r) ≤ kd.a / (1 - kd.e) * ((1200 + 40 * (|angleOf true kd.OM| + |angleOf true kd.i| + |angleOf true kd.om|)) * R.u) at c4
  change vlen (c'.v - (ellipseState (kd.inRad true) √(mu / kd.a ^ 3) F).v) ≤
    kd.a * √(mu / kd.a ^ 3) / (1 - kd.e) ^ 2 * ((1200 + 40 * (|angleOf true kd.OM| + |angleOf true kd.i| + |angleOf true kd.om|)) * R.u) at c5
  change |M1 - (M0 + √(mu / kd.a ^ 3) * D + z * (2 * Real.pi))| ≤ _ + (710 * anomCond kd.e * m + 23 * anomCond kd.e * |angleOf true x| + 13 * (√(mu / kd.a ^ 3) * T)) * R.u at hz
  rw [w1] at c3 hz
  obtain ⟨tm, htm⟩ : ∃ tm, tm = (if s0.type = .mean then tol else m * tol) := ⟨_, rfl⟩
  have htm0 : 0 ≤ tm := by
    rw [htm]; have := hsol.pos; split_ifs <;> positivity
  obtain ⟨cd, hcd⟩ : ∃ cd, cd = √((1 + k.e) / (1 - k.e)) := ⟨_, rfl⟩
  rw [← hcd] at hb1
  have hcd1 : 1 ≤ cd := by rw [hcd, Real.one_le_sqrt, le_div_iff₀ hq]; linarith
  have hcond : anomCond kd.e ≤ 3 / 2 * cd := by
    have he'1 := S.e1'
    have he'2 := S.e0'
    rw [hcd, anomCond, abs_of_nonneg S.e0', Real.sqrt_le_left (by positivity), mul_pow, Real.sq_sqrt (by positivity), mul_div_assoc', div_le_div_iff₀ (by linarith [S.e1']) hq]
    have h1 : 1 + kd.e ≤ 201 / 200 * (1 + k.e) := by
      have h1 := (abs_le.mp S.de).2
      have h2 := S.hβ
      have h3 := A0.e_le
      have h4 := S.e0
      linarith
    have h2 := mul_le_mul_of_nonneg_right h1 hq.le
    have h3 := mul_le_mul_of_nonneg_left hq199 (show 0 ≤ (3 / 2) ^ 2 * (1 + k.e) by positivity)
    have h4 : 0 ≤ (1 + k.e) * (1 - k.e) := by positivity
    linarith
  obtain ⟨N, hNd⟩ : ∃ N, N = √(mu / k.a ^ 3) := ⟨_, rfl⟩
  have hN0 : 0 ≤ N := by rw [hNd]; positivity
  rw [← hNd] at hmot hGm
  have hNT : 0 ≤ N * T := mul_nonneg hN0 hT
  have htNT : 0 ≤ t * (N * T) := mul_nonneg ht0 hNT
  have hcu : 0 ≤ cd * R.u := mul_nonneg (by linarith) hu0
  have hmc := mul_le_mul_of_nonneg_right hm1 hcu
  -- the phase
  have hphase : |meanOf kd.e F - (meanOf kd.e (G + φ) + (z + z0 : ℤ) * (2 * Real.pi))| ≤ tm + 2800 * (m * (cd * R.u)) + b + η + 200 * R.u + 216 * (t * (N * T)) := by
    rw [meanOf_eli _ S.e1'] at hb1 ⊢
    rw [meanOf_eli _ S.e1'] at hb1 ⊢
    rw [meanOf_eli _ he1, meanOf_eli _ he1] at hGm
    push_cast
    have s1 := hη G F0
    have s3 : |(√(mu / kd.a ^ 3) - N) * D| ≤ 197 * (t * (N * T)) := by
      rw [abs_mul]
      have h1 := mul_le_mul hmot.1 hDT (abs_nonneg _) (by positivity)
      linarith
    have s4 : 13 * (√(mu / kd.a ^ 3) * T) * R.u ≤ 19 * (t * (N * T)) := by
      have h1 := mul_le_mul_of_nonneg_right hmot.2 hT
      have h2 := mul_le_mul_of_nonneg_right h1 hu0
      have h3 := mul_le_mul_of_nonneg_left htu hNT
      linarith
    have s5 : (710 * anomCond kd.e * m + 23 * anomCond kd.e * |angleOf true x|) * R.u + 360 * anomCond kd.e * R.u + (200 + 170 * anomCond kd.e) * R.u ≤ 2660 * (m * (cd * R.u)) + 200 * R.u := by
      have hc0 : 0 ≤ anomCond kd.e := by rw [anomCond]; positivity
      have h0 : anomCond kd.e * R.u ≤ 3 / 2 * (cd * R.u) := by
        have := mul_le_mul_of_nonneg_right hcond hu0
        linarith
      have h00 : 0 ≤ anomCond kd.e * R.u := mul_nonneg hc0 hu0
      have h1 := mul_le_mul_of_nonneg_left x4 h00
      have h2 := mul_le_mul_of_nonneg_right h0 (show (0 : ℝ) ≤ m by linarith)
      linarith
    have s6 : (if s0.type = .mean then tol else 0) + m * (if s0.type = .mean then 0 else tol) ≤ tm := by
      rw [htm]; split_ifs <;> linarith
    have e1 : F - kd.e * Real.sin F - (G + φ - kd.e * Real.sin (G + φ) + ((z : ℝ) + z0) * (2 * Real.pi)) =
        (F - kd.e * Real.sin F - M1) + (M1 - (M0 + √(mu / kd.a ^ 3) * D + z * (2 * Real.pi))) + (M0 - (F1 - kd.e * Real.sin F1 + z0 * (2 * Real.pi))) +
          (F1 - kd.e * Real.sin F1 - (F0 + φ - kd.e * Real.sin (F0 + φ))) - (k.e * (Real.sin G - Real.sin F0) - kd.e * (Real.sin (G + φ) - Real.sin (F0 + φ))) +
          (√(mu / kd.a ^ 3) - N) * D := by
      linear_combination -hGm
    rw [e1]
    rw [abs_le] at c3 hz x3 hb1 s1 s3 ⊢
    constructor <;> linarith
  obtain ⟨q1, q2⟩ := Ar.close hmu hphase
  change vlen ((ellipseState (kd.inRad true) √(mu / kd.a ^ 3) F).r - _) ≤ _ at q1
  change vlen ((ellipseState (kd.inRad true) √(mu / kd.a ^ 3) F).v - _) ≤ _ at q2
  have hG' : C D = ellipseState k √(mu / k.a ^ 3) G := hG
  have hb0 : 0 ≤ b := by
    obtain ⟨F2, -, h⟩ := A0.point
    exact (abs_nonneg _).trans h
  have hβ0 := S.β0
  have hγ0 := A0.γ0
  have hfin : 26 / 25 * tm + 26 / 25 * (b + η) + 13 * D0 + 5 * β + 5 * γ + (3500 / (1 - k.e) + 3000 * cd * m + 230 / (1 - k.e) * (N * T)) * R.u =
      26 / 25 * tm + 26 / 25 * (b + η) + 13 * D0 + 5 * β + 5 * γ + 3500 * t + 3000 * (m * (cd * R.u)) + 230 * (t * (N * T)) := by
    rw [ht]; ring
  have hη0 := (abs_nonneg _).trans (hη 0 0)
  have hsu : (1200 + 40 * (|angleOf true kd.OM| + |angleOf true kd.i| + |angleOf true kd.om|)) * R.u ≤ 2000 * R.u := mul_le_mul_of_nonneg_right (by linarith) hu0
  rw [← ht] at q1 q2
  refine ⟨cs, c', c1, c2, ?_, ?_⟩
  · rw [← hcd, ← htm, ← hNd, hfin, hG']
    refine (vlen_via _ _ _).trans ((add_le_add c4 q1).trans ?_)
    have e1 := mul_le_mul hquot hsu (by positivity) (by positivity)
    refine (add_le_add_left e1 _).trans ?_
    rw [show 102 / 100 * (k.a / (1 - k.e)) * (2000 * R.u) = k.a / (1 - k.e) * (2040 * R.u) by ring, ← mul_add]
    refine mul_le_mul_of_nonneg_left ?_ (by positivity)
    linarith
  · rw [hG', ← hcd, ← htm, ← hNd, hfin]
    rw [← hNd] at q2
    refine (vlen_via _ _ _).trans ((add_le_add c5 q2).trans ?_)
    have e0 : kd.a * √(mu / kd.a ^ 3) / (1 - kd.e) ^ 2 ≤ 104 / 100 * (k.a * √(mu / k.a ^ 3) / (1 - k.e) ^ 2) := hquot2 hmu
    have e1 := mul_le_mul e0 hsu (by positivity) (by positivity)
    rw [← hNd] at e1
    refine (add_le_add_left e1 _).trans ?_
    rw [show 104 / 100 * (k.a * N / (1 - k.e) ^ 2) * (2000 * R.u) = k.a * N / (1 - k.e) ^ 2 * (2080 * R.u) by ring, ← mul_add]
    refine mul_le_mul_of_nonneg_left ?_ (by positivity)
    linarith

/-! ## C120 -/

/-- the part of the bound of C120 that grows with the number of calls and with the time -/
noncomputable def runTolDeg (u tol mu : ℝ) (t : Anom) (k : Kep ℝ) (m : Nat) (T : ℝ) : ℝ :=
  26 / 25 * (if t = .mean then tol else m * tol) + (8000 / (1 - k.e) + 3000 * √((1 + k.e) / (1 - k.e)) * m + 230 / (1 - k.e) * (√(mu / k.a ^ 3) * T)) * u

open CartKep in
/-- C120: the Cartesian state `c` of an orbit, on an ellipse as in C114 with elements `k`, is assigned to an object that uses degrees (automatic updates, any anomaly type) and whose arithmetic
rounds to nearest.  The object follows the Newtonian motion through `c`, as in C115 for objects that use radians. -/
theorem c120 {n j : Nat} (hR : Nearest R) (hu : R.u ≤ 1 / 10 ^ 9) (s0 s : Orb (RF R)) {mu tol : ℝ} {c : Cart ℝ} (W : CartAssignedDeg g n j s0 s mu tol c) (hmu : 0 < mu) (k : Kep ℝ)
    (hd : DescribesOrbit mu k c) (ha : 0 < k.a) (he0 : 3 / 10 ^ 9 ≤ k.e) (he1 : k.e < 1) (hi0 : 0 < Real.sin k.i) (hs : 10 ^ 6 * (R.u / (1 - k.e)) ≤ k.e * Real.sin k.i)
    (hi : 200 * (R.u / (1 - k.e)) + 1 / 10 ^ 16 ≤ Real.sin k.i ^ 2) :
    FollowsWithin g n j s mu c k fun m T => cartTol R.u k + runTolDeg R.u tol mu s0.type k m T := by
  have hu0 := R.u_nonneg
  have hep : 0 < k.e := lt_of_lt_of_le (by norm_num) he0
  have hq : 0 < 1 - k.e := by linarith
  have hei : k.e * Real.sin k.i ≤ k.e := mul_le_of_le_one_right hep.le (Real.sin_le_one _)
  obtain ⟨k', F0, h1, h2, e3, A⟩ := gen_aligned hR g.ctk hmu hd ha he0 he1 hi0 hs hi
  refine (aligned_motion_deg g hu W hmu hd ?_ h1 h2 A (η := 500 * R.u) (ecc_shift e3)).mono ha he1 fun m T hm hT => ?_
  · have hs' := hs.trans hei
    rw [mul_div_assoc', div_le_iff₀ hq] at hs'
    have := mul_le_of_le_one_left hq.le he1.le
    norm_num at hs' ⊢
    linarith
  have hT : 0 ≤ √((1 + k.e) / (1 - k.e)) * angTol (2000 * R.u / k.e) k.nu := mul_nonneg (Real.sqrt_nonneg _) (AngleDist.tol_nonneg (by positivity) _)
  have htu : R.u ≤ R.u / (1 - k.e) := by rw [le_div_iff₀ hq]; nlinarith
  rw [runTolDeg, cartTol]
  rw [show (8000 / (1 - k.e) + 3000 * √((1 + k.e) / (1 - k.e)) * m + 230 / (1 - k.e) * (√(mu / k.a ^ 3) * T)) * R.u = 4500 * (R.u / (1 - k.e)) +
    (3500 / (1 - k.e) + 3000 * √((1 + k.e) / (1 - k.e)) * m + 230 / (1 - k.e) * (√(mu / k.a ^ 3) * T)) * R.u by ring]
  linarith

open CartKep in
/-- C120 on nearly circular orbits that are not equatorial, as in C116 and C118 -/
theorem c120_circular {n j : Nat} (hR : Nearest R) (hu : R.u ≤ 1 / 10 ^ 9) (s0 s : Orb (RF R)) {mu tol : ℝ} {c : Cart ℝ} (W : CartAssignedDeg g n j s0 s mu tol c) (hmu : 0 < mu) (k : Kep ℝ)
    (hd : DescribesOrbit mu k c) (ha : 0 < k.a) (he0 : 0 ≤ k.e) (he : k.e + 250 * R.u ≤ 99 / 10 ^ 11) (hi0 : 0 < Real.sin k.i) (hs : 10 ^ 6 * (R.u / (1 - k.e)) ≤ Real.sin k.i)
    (hi : 200 * (R.u / (1 - k.e)) + 1 / 10 ^ 16 ≤ Real.sin k.i ^ 2) :
    FollowsWithin g n j s mu c k fun m T =>
      13 * (angTol (120 * (R.u / (1 - k.e)) / Real.sin k.i) k.OM + angTol (140 * (R.u / (1 - k.e))) k.i) +
        2 * angTol (600 * (R.u / (1 - k.e)) / Real.sin k.i) (k.om + k.nu) + 30 * k.e + runTolDeg R.u tol mu s0.type k m T := by
  have hu0 := R.u_nonneg
  have he' := he
  norm_num at he'
  have he1 : k.e < 1 := by linarith
  have hq : 0 < 1 - k.e := by linarith
  have S := shape_out hR g.ctk hmu hd ha he0 he1 (by have := Real.sin_le_one k.i; norm_num at hs ⊢; linarith)
  obtain ⟨k', F0, h1, h2, A⟩ := circ_aligned hR g.ctk hmu hd ha he0 he hi0 hs hi
  obtain ⟨e, e1, e2, e3⟩ := S.e
  have e4 : k'.e = e := by
    rw [h1] at e1
    exact num_inj e1
  refine (aligned_motion_deg g hu W hmu hd (by norm_num; linarith) h1 h2 A (η := 4 * k.e + 500 * R.u) (circ_shift he0 (by rw [e4]; exact e2) (by rw [e4]; exact e3))).mono ha he1 fun m T hm hT => ?_
  have hT := AngleDist.tol_nonneg (ε := 600 * (R.u / (1 - k.e)) / Real.sin k.i) (by positivity) (k.om + k.nu)
  have htu : R.u ≤ R.u / (1 - k.e) := by rw [le_div_iff₀ hq]; nlinarith
  rw [runTolDeg]
  rw [show (8000 / (1 - k.e) + 3000 * √((1 + k.e) / (1 - k.e)) * m + 230 / (1 - k.e) * (√(mu / k.a ^ 3) * T)) * R.u = 4500 * (R.u / (1 - k.e)) +
    (3500 / (1 - k.e) + 3000 * √((1 + k.e) / (1 - k.e)) * m + 230 / (1 - k.e) * (√(mu / k.a ^ 3) * T)) * R.u by ring]
  linarith

open CartKep in
/-- C120 on equatorial ellipses that are not nearly circular, as in C117 and C118 -/
theorem c120_plane {n j : Nat} (hR : Nearest R) (hu : R.u ≤ 1 / 10 ^ 9) (s0 s : Orb (RF R)) {mu tol : ℝ} {c : Cart ℝ} (W : CartAssignedDeg g n j s0 s mu tol c) (hmu : 0 < mu) (k : Kep ℝ)
    (hd : DescribesOrbit mu k c) (ha : 0 < k.a) (he0 : 3 / 10 ^ 9 ≤ k.e) (he1 : k.e < 1) (hi : Real.sin k.i = 0) (hs : 10 ^ 6 * (R.u / (1 - k.e)) ≤ k.e) :
    FollowsWithin g n j s mu c k fun m T =>
      13 * angTol (2000 * R.u / k.e) (k.om + Real.cos k.i * k.OM) + 4 * √((1 + k.e) / (1 - k.e)) * angTol (2000 * R.u / k.e) k.nu + runTolDeg R.u tol mu s0.type k m T := by
  have hu0 := R.u_nonneg
  have hep : 0 < k.e := lt_of_lt_of_le (by norm_num) he0
  have hq : 0 < 1 - k.e := by linarith
  have S := shape_out hR g.ctk hmu hd ha hep.le he1 (by norm_num at hs ⊢; linarith)
  obtain ⟨k', F0, h1, h2, A⟩ := plane_aligned hR g.ctk hmu hd ha he0 he1 hi hs
  obtain ⟨e, e1, e2, e3⟩ := S.e
  have e4 : k'.e = e := by
    rw [h1] at e1
    exact num_inj e1
  refine (aligned_motion_deg g hu W hmu hd ?_ h1 h2 A (η := 500 * R.u) (ecc_shift (by rw [e4]; exact e3))).mono ha he1 fun m T hm hT => ?_
  · rw [mul_div_assoc', div_le_iff₀ hq] at hs
    have := mul_le_of_le_one_left hq.le he1.le
    norm_num at hs ⊢
    linarith
  have hT : 0 ≤ √((1 + k.e) / (1 - k.e)) * angTol (2000 * R.u / k.e) k.nu := mul_nonneg (Real.sqrt_nonneg _) (AngleDist.tol_nonneg (by positivity) _)
  have htu : R.u ≤ R.u / (1 - k.e) := by rw [le_div_iff₀ hq]; nlinarith
  rw [runTolDeg]
  rw [show (8000 / (1 - k.e) + 3000 * √((1 + k.e) / (1 - k.e)) * m + 230 / (1 - k.e) * (√(mu / k.a ^ 3) * T)) * R.u = 4500 * (R.u / (1 - k.e)) +
    (3500 / (1 - k.e) + 3000 * √((1 + k.e) / (1 - k.e)) * m + 230 / (1 - k.e) * (√(mu / k.a ^ 3) * T)) * R.u by ring]
  linarith

open CartKep in
/-- C120 on nearly circular equatorial orbits, as in C117 and C118 -/
theorem c120_plane_circular {n j : Nat} (hR : Nearest R) (hu : R.u ≤ 1 / 10 ^ 9) (s0 s : Orb (RF R)) {mu tol : ℝ} {c : Cart ℝ} (W : CartAssignedDeg g n j s0 s mu tol c) (hmu : 0 < mu)
    (k : Kep ℝ) (hd : DescribesOrbit mu k c) (ha : 0 < k.a) (he0 : 0 ≤ k.e) (he : k.e + 250 * R.u ≤ 99 / 10 ^ 11) (hi : Real.sin k.i = 0) :
    FollowsWithin g n j s mu c k fun m T => 2 * angTol (100 * R.u) (k.nu + (k.om + Real.cos k.i * k.OM)) + 30 * k.e + runTolDeg R.u tol mu s0.type k m T := by
  have hu0 := R.u_nonneg
  have he' := he
  norm_num at he'
  have he1 : k.e < 1 := by linarith
  have hq : 0 < 1 - k.e := by linarith
  have S := shape_out hR g.ctk hmu hd ha he0 he1 (by rw [div_le_iff₀ hq]; norm_num; linarith)
  obtain ⟨k', F0, h1, h2, A⟩ := plane_circ_aligned hR g.ctk hmu hd ha he0 he hi
  obtain ⟨e, e1, e2, e3⟩ := S.e
  have e4 : k'.e = e := by
    rw [h1] at e1
    exact num_inj e1
  refine (aligned_motion_deg g hu W hmu hd (by norm_num; linarith) h1 h2 A (η := 4 * k.e + 500 * R.u) (circ_shift he0 (by rw [e4]; exact e2) (by rw [e4]; exact e3))).mono ha he1 fun m T hm hT => ?_
  have hT := AngleDist.tol_nonneg (ε := 100 * R.u) (by positivity) (k.nu + (k.om + Real.cos k.i * k.OM))
  have htu : R.u ≤ R.u / (1 - k.e) := by rw [le_div_iff₀ hq]; nlinarith
  rw [runTolDeg]
  rw [show (8000 / (1 - k.e) + 3000 * √((1 + k.e) / (1 - k.e)) * m + 230 / (1 - k.e) * (√(mu / k.a ^ 3) * T)) * R.u = 4500 * (R.u / (1 - k.e)) +
    (3500 / (1 - k.e) + 3000 * √((1 + k.e) / (1 - k.e)) * m + 230 / (1 - k.e) * (√(mu / k.a ^ 3) * T)) * R.u by ring]
  linarith

/-- C120 in double precision with the default options of the solver, for eccentricities between 0.1 and 0.9, `sin i ≥ 0.1` and sines of node, argument of periapsis and true anomaly of
at least 0.1 in absolute value: `4.7e-7` for the elements, `2.6e-12` for each call and `2.6e-13` for each radian of mean anomaly. -/
theorem c120_binary64 (g : Garb (RF Binary.binary64)) {n j : Nat} (s0 s : Orb (RF Binary.binary64)) {mu : ℝ} {c : Cart ℝ}
    (W : CartAssignedDeg g n j s0 s mu (Binary.binary64.rd (1 / 10 ^ 12)) c) (hmu : 0 < mu) (k : Kep ℝ) (hd : DescribesOrbit mu k c) (ha : 0 < k.a)
    (he0 : 1 / 10 ≤ k.e) (he1 : k.e ≤ 9 / 10) (hi : 1 / 10 ≤ Real.sin k.i) (hOM : 1 / 10 ≤ |Real.sin k.OM|) (hom : 1 / 10 ≤ |Real.sin k.om|) (hnu : 1 / 10 ≤ |Real.sin k.nu|) :
    FollowsWithin g n j s mu c k fun m T => 47 / 10 ^ 8 + 26 / 10 ^ 13 * m + 26 / 10 ^ 14 * (√(mu / k.a ^ 3) * T) := by
  have hu : Binary.binary64.u = (1 / 2) ^ 53 := rfl
  have hu0 := Binary.binary64.u_nonneg
  have hu1 : Binary.binary64.u ≤ 1112 / 10 ^ 19 := by rw [hu]; norm_num
  obtain ⟨h1, ht1, hc⟩ := cartTol_binary64 he0 he1 hi hOM hom hnu hu0 hu1
  have hei : (1 / 100 : ℝ) ≤ k.e * Real.sin k.i := by have := mul_le_mul he0 hi (by norm_num) (by linarith); linarith
  have hi2 : (1 / 100 : ℝ) ≤ Real.sin k.i ^ 2 := by have := pow_le_pow_left₀ (by norm_num) hi 2; norm_num at this ⊢; exact this
  obtain ⟨ok, ht⟩ := wideSolver_default (R := Binary.binary64) (le_of_eq hu)
  clear hu
  refine (c120 g Binary.nearest (by norm_num at hu1 ⊢; linarith) s0 s W hmu k hd ha (by norm_num at he0 ⊢; linarith) (by linarith) (by linarith) (by norm_num at ht1 hei ⊢; linarith)
    (by norm_num at ht1 hi2 ⊢; linarith)).mono ha (by linarith) fun m T hm hT => ?_
  have hNT := mul_nonneg (Real.sqrt_nonneg (mu / k.a ^ 3)) hT
  rw [runTolDeg]
  have h2 : (if s0.type = .mean then Binary.binary64.rd (1 / 10 ^ 12) else m * Binary.binary64.rd (1 / 10 ^ 12)) ≤ 101 / 10 ^ 14 * m := by
    have := mul_le_mul_of_nonneg_left ht (show (0 : ℝ) ≤ m by linarith)
    split_ifs <;> linarith
  rw [show (8000 / (1 - k.e) + 3000 * √((1 + k.e) / (1 - k.e)) * m + 230 / (1 - k.e) * (√(mu / k.a ^ 3) * T)) * Binary.binary64.u =
    8000 * (Binary.binary64.u / (1 - k.e)) + 3000 * (√((1 + k.e) / (1 - k.e)) * Binary.binary64.u) * m + 230 * (Binary.binary64.u / (1 - k.e)) * (√(mu / k.a ^ 3) * T) by ring]
  have h3 := mul_le_mul hc hu1 hu0 (by norm_num)
  have h4 := mul_le_mul_of_nonneg_right h3 (show (0 : ℝ) ≤ m by linarith)
  have h5 := mul_le_mul_of_nonneg_right ht1 hNT
  clear ok ht
  generalize (if s0.type = .mean then Binary.binary64.rd (1 / 10 ^ 12) else m * Binary.binary64.rd (1 / 10 ^ 12)) = tm at *
  generalize cartTol Binary.binary64.u k = ct at *
  generalize Binary.binary64.u / (1 - k.e) = t at *
  generalize Binary.binary64.u = u at *
  norm_num at h1 h2 h3 h4 h5 ht1 ⊢
  linarith

/-- a case of C120: a state with all angles 30 degrees, assigned to an object with one orbit that uses degrees and stores the mean anomaly, and propagated by 5 -/
example (g : Garb (RF Binary.binary64)) : ∃ (c : Cart ℝ) (s s1 : Orb (RF Binary.binary64)), DescribesOrbit 1 ⟨2, 1 / 2, Real.pi / 6, Real.pi / 6, Real.pi / 6, Real.pi / 6⟩ c ∧
    CartAssignedDeg g 1 0 { lazyBlank (rfKern g) (RF.num _ 1) (RF.num _ 1) .dflt .mean with degrees := true } s 1 (Binary.binary64.rd (1 / 10 ^ 12)) c ∧
    FollowsWithin g 1 0 s 1 c ⟨2, 1 / 2, Real.pi / 6, Real.pi / 6, Real.pi / 6, Real.pi / 6⟩
      (fun m T => 47 / 10 ^ 8 + 26 / 10 ^ 13 * m + 26 / 10 ^ 14 * (√((1 : ℝ) / 2 ^ 3) * T)) ∧ RRun g 1 0 s s1 1 5 |5| := by
  have hp : Physical 1 (⟨2, 1 / 2, Real.pi / 6, Real.pi / 6, Real.pi / 6, Real.pi / 6⟩ : Kep ℝ) := by
    refine ⟨by norm_num, by norm_num, by norm_num, ?_⟩
    show 0 < 1 + 1 / 2 * Real.cos (Real.pi / 6)
    have := Real.neg_one_le_cos (Real.pi / 6)
    linarith
  have hsin : 1 / 10 ≤ |Real.sin (Real.pi / 6)| := by rw [Real.sin_pi_div_six]; norm_num
  obtain ⟨s0, hs0⟩ : ∃ s0, s0 = { lazyBlank (rfKern g) (RF.num Binary.binary64 1) (RF.num _ 1) .dflt .mean with degrees := true } := ⟨_, rfl⟩
  have hs : OneEntryPerOrbit s0 1 := by rw [hs0]; exact ⟨rfl, rfl, rfl, rfl, ⟨_, rfl, rfl⟩, rfl, rfl, rfl⟩
  obtain ⟨c, hc⟩ : ∃ c, DescribesOrbit 1 (⟨2, 1 / 2, Real.pi / 6, Real.pi / 6, Real.pi / 6, Real.pi / 6⟩ : Kep ℝ) c := ⟨_, hp.adm.describes⟩
  obtain ⟨s, hset⟩ : ∃ s, set_cartesian (rfKern g) (.mat [c.num _]) s0 = (.ok (), s) := by rw [hs0]; exact ⟨_, rfl⟩
  have hread : ∃ cs, (get_cartesian (rfKern g) s).1 = .ok cs ∧ cs[0]? = some (c.num _) := by
    obtain ⟨l, l1, l2⟩ := c32_cartesian (rfKern g) _ _ hs _ hset
    refine ⟨l, l1, ?_⟩
    obtain ⟨-, ⟨-, h⟩ | ⟨c0, h1, h2⟩⟩ := l2
    · rw [h]; rfl
    · injection h1 with h1 _
      rw [h2, ← h1]; rfl
  obtain ⟨hs', honly, -⟩ := set_cartesian_only (rfKern g) hs hset
  obtain ⟨ok, -⟩ := wideSolver_default (R := Binary.binary64) (le_of_eq rfl)
  have W : CartAssignedDeg g 1 0 s0 s 1 (Binary.binary64.rd (1 / 10 ^ 12)) c := ⟨hs, by rw [hs0]; rfl, .inl (by rw [hs0]; rfl), by rw [hs0], by rw [hs0]; exact ok, ⟨_, hset⟩, hread,
    ⟨0, by rw [hs0]; rfl, by
      rw [hs0]
      show (RF.num Binary.binary64 1 : RF _) * (RF.num _ 1 + 0) = _
      have : Binary.binary64.rd 1 = 1 := by
        have h1 := Binary.binary64.exact 4 (by norm_num)
        norm_num at h1
        rw [Rounding.rd, h1, Real.exp_zero, one_mul]
      rw [zero_num, add_num, mul_num, add_zero, this, one_mul, this]⟩⟩
  obtain ⟨⟨s1, p1⟩, -⟩ := c98_returns g _ hs' (by rw [honly, hs0]; rfl) 0 (dt := .sc (RF.num _ 5)) (dts := [RF.num _ 5]) rfl
  refine ⟨c, s, s1, hc, hs0 ▸ W, c120_binary64 g s0 s W one_pos _ hc (by norm_num) (by norm_num) (by norm_num)
    (by show 1 / 10 ≤ Real.sin (Real.pi / 6); rw [Real.sin_pi_div_six]; norm_num) hsin hsin hsin, .one (.sc (RF.num _ 5)) [RF.num _ 5] 5 rfl rfl p1⟩

end Orbit
end Pyorb
