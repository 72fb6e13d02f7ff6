import Verif.PropsCartSpecial

/-!
# Propagation from Cartesian coordinates on nearly circular and equatorial orbits with rounding (C118)
-/

set_option linter.unusedVariables false

namespace Pyorb
namespace Orbit
open Py FX RF Wide
variable {R : Rounding} (g : Garb (RF R))

/-- the object `s` follows a Newtonian motion that starts at `c`: after `m` calls of `propagate` with steps whose absolute values add up to `T`, position and velocity of orbit `j` are within
`a / (1 - e)` and `a n / (1 - e)²` times `B m T` of it -/
structure FollowsWithin (n j : Nat) (s : Orb (RF R)) (mu : ℝ) (c : Cart ℝ) (k : Kep ℝ) (B : Nat → ℝ → ℝ) : Prop where
  follows : ∃ C : ℝ → Cart ℝ, ObeysNewton mu C ∧ C 0 = c ∧
      ∀ (s' : Orb (RF R)) (m : Nat) (D T : ℝ), RRun g n j s s' m D T →
        ∃ cs c', (get_cartesian (rfKern g) s').1 = .ok cs ∧ cs[j]? = some (Cart.num R c') ∧
          vlen (c'.r - (C D).r) ≤ k.a / (1 - k.e) * B m T ∧ vlen (c'.v - (C D).v) ≤ k.a * √(mu / k.a ^ 3) / (1 - k.e) ^ 2 * B m T

variable {g} in
theorem FollowsWithin.mono {n j : Nat} {s : Orb (RF R)} {mu : ℝ} {c : Cart ℝ} {k : Kep ℝ} {B B' : Nat → ℝ → ℝ} (h : FollowsWithin g n j s mu c k B) (ha : 0 < k.a) (he : k.e < 1)
    (hB : ∀ (m : Nat) (T : ℝ), (1 : ℝ) ≤ m → 0 ≤ T → B m T ≤ B' m T) : FollowsWithin g n j s mu c k B' := by
  obtain ⟨C, h1, h2, h3⟩ := h.follows
  have hq : 0 < 1 - k.e := by linarith
  have hn := Real.sqrt_nonneg (mu / k.a ^ 3)
  refine ⟨C, h1, h2, fun s' m D T hrun => ?_⟩
  obtain ⟨cs, c', d1, d2, d3, d4⟩ := h3 s' m D T hrun
  obtain ⟨hm1, hT⟩ := hrun.pos
  have hm1 : (1 : ℝ) ≤ m := by exact_mod_cast hm1
  exact ⟨cs, c', d1, d2, d3.trans (mul_le_mul_of_nonneg_left (hB m T hm1 hT) (by positivity)), d4.trans (mul_le_mul_of_nonneg_left (hB m T hm1 hT) (by positivity))⟩

/-- what is assumed of the object and of the assignment `orb.cartesian = value` -/
structure CartAssigned (n j : Nat) (s0 s : Orb (RF R)) (mu tol : ℝ) (c : Cart ℝ) : Prop where
  one_entry : OneEntryPerOrbit s0 n
  writable : s0.kro = false
  mode : s0.auto = true ∨ s0.direct = true
  radians : s0.degrees = false
  solver : WideSolver s0.opts tol
  assigned : ∃ v, set_cartesian (rfKern g) v s0 = (.ok (), s)
  state : ∃ cs, (get_cartesian (rfKern g) s).1 = .ok cs ∧ cs[j]? = some (c.num R)
  grav : ∃ m, s0.m[j]? = some m ∧ s0.G * (s0.M0 + m) = RF.num R mu

set_option maxHeartbeats 1000000 in
open CartKep in
/-- the motion that follows when the computed elements are aligned with those of the state -/
theorem aligned_motion {n j : Nat} (hu : R.u ≤ 1 / 10 ^ 9) {s0 s : Orb (RF R)} {mu tol : ℝ} {c : Cart ℝ} (W0 : CartAssigned g n j s0 s mu tol c) (hmu : 0 < mu) {k kr k' : Kep ℝ}
    (hd : DescribesOrbit mu k c) (hue : 10 ^ 5 * R.u ≤ 1 - k.e) {φ F0 β γ D0 b η : ℝ} (hcol : cartToKepCol g.ctk .f64 (RF.num R mu) (c.num R) = k'.num R) (hF0 : SamePoint k.e k.nu F0)
    (A0 : Aligned k kr k' φ F0 (96 * (R.u / (1 - k.e))) β γ D0 b)
    (hη : ∀ x y : ℝ, |k.e * (Real.sin x - Real.sin y) - k'.e * (Real.sin (x + φ) - Real.sin (y + φ))| ≤ η) :
    FollowsWithin g n j s mu c k fun m T => 26 / 25 * (if s0.type = .mean then tol else m * tol) + 26 / 25 * (b + η) + 13 * D0 + 5 * β + 5 * γ +
      (1730 / (1 - k.e) + 2000 * √((1 + k.e) / (1 - k.e)) * m + 230 / (1 - k.e) * (√(mu / k.a ^ 3) * T)) * R.u := by
  obtain ⟨hs, hr, hmode, hdeg, hsol, ⟨v, hset⟩, hc, hgrav⟩ := W0
  have hu0 := R.u_nonneg
  obtain ⟨ha, hep, hq199, hquot, hquot2⟩ := A0.shapes
  have he1 := A0.e1
  have hq : 0 < 1 - k.e := by linarith
  obtain ⟨hs', honly, cs0, hcs0, hread⟩ := set_cartesian_only (rfKern g) hs hset
  obtain ⟨cs1, hcs1, hcj⟩ := hc
  obtain rfl : cs0 = cs1 := by rw [hcs0] at hcs1; injection hcs1
  obtain ⟨mj, hmj, hmuj⟩ := hgrav
  obtain ⟨ks, hks, hkj⟩ := hread hmode j _ mj hcj hmj rfl
  have S := A0.near.shape
  obtain ⟨F1, hF1, hb1⟩ := A0.point
  obtain ⟨x, M0, z0, x1, x2, x3, x4⟩ := stored_anom g (show R.u ≤ 1 / 10 ^ 6 by linarith) s0.type S.e0' S.e1' hF1 A0.range
  have hset' : s.type = s0.type ∧ s.degrees = s0.degrees ∧ s.opts = s0.opts ∧ s.m = s0.m ∧ s.G = s0.G ∧ s.M0 = s0.M0 ∧ s.kro = s0.kro ∧ s.auto = s0.auto ∧ s.direct = s0.direct := by
    rw [honly]; exact ⟨rfl, rfl, rfl, rfl, rfl, rfl, rfl, rfl, rfl⟩
  obtain ⟨w1, w2, w3, w4, w5, w6, w7, w8, w9⟩ := hset'
  have hstored : ks[j]? = some (Kep.num R { k' with nu := x }) := by
    rw [hkj]
    show some (kepOfCart (rfKern g) s0.type s0.degrees (s0.G * (s0.M0 + mj)) (c.num R)) = _
    have hcol' : (rfKern g).cartToKep false (RF.num R mu) (c.num R) = k'.num R := hcol
    rw [hmuj, hdeg, kepOfCart, hcol']
    show some ({ k'.num R with nu := fromTrue (rfKern g) s0.type false (RF.num R k'.nu) (RF.num R k'.e) } : Kep (RF R)) = _
    rw [x1]; rfl
  have htu : R.u ≤ R.u / (1 - k.e) := by rw [le_div_iff₀ hq]; nlinarith
  have hmot := S.motion hmu
  rw [A0.a] at hmot
  obtain ⟨t, ht⟩ : ∃ t, t = R.u / (1 - k.e) := ⟨_, rfl⟩
  rw [← ht] at htu hmot
  have ht0 : 0 ≤ t := by linarith
  have hwide : 300 * R.u ≤ 1 - k'.e := by
    norm_num at hue
    linarith
  have W : RWideEllipse g s j { k' with nu := x } mu tol :=
    ⟨⟨ks, hks, hstored⟩, ⟨mj, by rw [w4]; exact hmj, by rw [w5, w6]; exact hmuj⟩, hmu, S.a_pos', S.e0', S.e1', hwide, by rw [w2]; exact hdeg, by rw [w3]; exact hsol⟩
  -- the motion
  obtain ⟨C, hC, hNewt, hst⟩ := newton_curve hmu ha hep he1 false (meanOf k.e F0)
  have hphys : Physical mu k := ⟨hmu, ha, hep, by have := Real.neg_one_le_cos k.nu; nlinarith⟩
  refine ⟨C, hNewt, ?_, fun s' m D T hrun => ?_⟩
  · have h1 : DescribesOrbit mu k (C 0) := hst k.nu F0 hF0 (meanOf_eli _ he1 _).symm
    rw [describes_unique hphys.adm h1, describes_unique hphys.adm hd]
  obtain ⟨y, M1, A⟩ := run_after hu hrun hs' (by rw [w7]; exact hr) W (M0 := M0) (by rw [w1]; exact x2)
  obtain ⟨hm1, hT⟩ := hrun.pos
  have hDT := hrun.abs_le
  have hm1 : (1 : ℝ) ≤ m := by exact_mod_cast hm1
  obtain ⟨cs, c', F, c1, c2, c3, c4, c5⟩ := A.cart (by rw [w8, w9]; exact hmode)
  obtain ⟨z, hz⟩ := A.close
  obtain ⟨G, hG, hGm⟩ := hC D
  change |F - k'.e * Real.sin F - M1| ≤ _ + 200 * anomCond k'.e * R.u at c3
  change vlen (c'.r - (ellipseState k' √(mu / k'.a ^ 3) F).r) ≤ k'.a / (1 - k'.e) * (600 * (1 + k'.e) * R.u) at c4
  change vlen (c'.v - (ellipseState k' √(mu / k'.a ^ 3) F).v) ≤ k'.a * √(mu / k'.a ^ 3) / (1 - k'.e) ^ 2 * (400 * R.u) at c5
  change |M1 - (M0 + √(mu / k'.a ^ 3) * D + z * (2 * Real.pi))| ≤ _ + (600 * anomCond k'.e * m + 14 * anomCond k'.e * |x| + 18 * (√(mu / k'.a ^ 3) * T)) * R.u at hz
  rw [w1] at c3 hz
  obtain ⟨tm, htm⟩ : ∃ tm, tm = (if s0.type = .mean then tol else m * tol) := ⟨_, rfl⟩
  have htm0 : 0 ≤ tm := by
    rw [htm]; have := hsol.pos; split_ifs <;> positivity
  obtain ⟨cd, hcd⟩ : ∃ cd, cd = √((1 + k.e) / (1 - k.e)) := ⟨_, rfl⟩
  have hcd1 : 1 ≤ cd := by rw [hcd, Real.one_le_sqrt, le_div_iff₀ hq]; linarith
  have hcond : anomCond k'.e ≤ 3 / 2 * cd := by
    have he'1 := S.e1'
    have he'2 := S.e0'
    rw [hcd, anomCond, abs_of_nonneg S.e0', Real.sqrt_le_left (by positivity), mul_pow, Real.sq_sqrt (by positivity), mul_div_assoc', div_le_div_iff₀ (by linarith [S.e1']) hq]
    have h1 : 1 + k'.e ≤ 201 / 200 * (1 + k.e) := by
      have h1 := (abs_le.mp S.de).2
      have h2 := S.hβ
      have h3 := A0.e_le
      have h4 := S.e0
      linarith
    have h2 := mul_le_mul_of_nonneg_right h1 hq.le
    have h3 := mul_le_mul_of_nonneg_left hq199 (show 0 ≤ (3 / 2) ^ 2 * (1 + k.e) by positivity)
    have h4 : 0 ≤ (1 + k.e) * (1 - k.e) := by positivity
    linarith
  obtain ⟨N, hNd⟩ : ∃ N, N = √(mu / k.a ^ 3) := ⟨_, rfl⟩
  have hN0 : 0 ≤ N := by rw [hNd]; positivity
  rw [← hNd] at hmot hGm
  have hNT : 0 ≤ N * T := mul_nonneg hN0 hT
  have htNT : 0 ≤ t * (N * T) := mul_nonneg ht0 hNT
  have hcu : 0 ≤ cd * R.u := mul_nonneg (by linarith) hu0
  -- the phase
  have hphase : |meanOf k'.e F - (meanOf k'.e (G + φ) + (z + z0 : ℤ) * (2 * Real.pi))| ≤ tm + 1910 * m * (cd * R.u) + b + η + 200 * R.u + 216 * (t * (N * T)) := by
    rw [meanOf_eli _ S.e1'] at hb1 ⊢
    rw [meanOf_eli _ S.e1'] at hb1 ⊢
    rw [meanOf_eli _ he1, meanOf_eli _ he1] at hGm
    push_cast
    have s1 := hη G F0
    have s3 : |(√(mu / k'.a ^ 3) - N) * D| ≤ 197 * (t * (N * T)) := by
      rw [abs_mul]
      have h1 := mul_le_mul hmot.1 hDT (abs_nonneg _) (by positivity)
      linarith
    have s4 : 18 * (√(mu / k'.a ^ 3) * T) * R.u ≤ 19 * (t * (N * T)) := by
      have h1 := mul_le_mul_of_nonneg_right hmot.2 hT
      have h2 := mul_le_mul_of_nonneg_right h1 hu0
      have h3 := mul_le_mul_of_nonneg_left htu hNT
      linarith
    have s5 : (600 * anomCond k'.e * m + 14 * anomCond k'.e * |x|) * R.u + 200 * anomCond k'.e * R.u + (200 + 28 * anomCond k'.e) * R.u ≤ 1910 * m * (cd * R.u) + 200 * R.u := by
      have hc0 : 0 ≤ anomCond k'.e := by rw [anomCond]; positivity
      have h0 : anomCond k'.e * R.u ≤ 3 / 2 * (cd * R.u) := by
        have := mul_le_mul_of_nonneg_right hcond hu0
        linarith
      have h00 : 0 ≤ anomCond k'.e * R.u := mul_nonneg hc0 hu0
      have h1 := mul_le_mul_of_nonneg_left x4 h00
      have h2 := mul_le_mul_of_nonneg_right h0 (show (0 : ℝ) ≤ m by linarith)
      have h3 := mul_le_mul_of_nonneg_right hm1 hcu
      linarith
    have s6 : (if s0.type = .mean then tol else 0) + m * (if s0.type = .mean then 0 else tol) ≤ tm := by
      rw [htm]; split_ifs <;> linarith
    have e1 : F - k'.e * Real.sin F - (G + φ - k'.e * Real.sin (G + φ) + ((z : ℝ) + z0) * (2 * Real.pi)) =
        (F - k'.e * Real.sin F - M1) + (M1 - (M0 + √(mu / k'.a ^ 3) * D + z * (2 * Real.pi))) + (M0 - (F1 - k'.e * Real.sin F1 + z0 * (2 * Real.pi))) +
          (F1 - k'.e * Real.sin F1 - (F0 + φ - k'.e * Real.sin (F0 + φ))) - (k.e * (Real.sin G - Real.sin F0) - k'.e * (Real.sin (G + φ) - Real.sin (F0 + φ))) +
          (√(mu / k'.a ^ 3) - N) * D := by
      linear_combination -hGm
    rw [e1]
    rw [abs_le] at c3 hz x3 hb1 s1 s3 ⊢
    constructor <;> linarith
  obtain ⟨q1, q2⟩ := A0.close hmu hphase
  have hG' : C D = ellipseState k √(mu / k.a ^ 3) G := hG
  have hb0 : 0 ≤ b := (abs_nonneg _).trans hb1
  have hβ0 := S.β0
  have hγ0 := A0.γ0
  have hfin : 26 / 25 * tm + 26 / 25 * (b + η) + 13 * D0 + 5 * β + 5 * γ + (1730 / (1 - k.e) + 2000 * cd * m + 230 / (1 - k.e) * (N * T)) * R.u =
      26 / 25 * tm + 26 / 25 * (b + η) + 13 * D0 + 5 * β + 5 * γ + 1730 * t + 2000 * m * (cd * R.u) + 230 * (t * (N * T)) := by
    rw [ht]; ring
  have hη0 := (abs_nonneg _).trans (hη 0 0)
  have e3 := mul_nonneg (show (0 : ℝ) ≤ m by linarith) hcu
  rw [← ht] at q1 q2
  refine ⟨cs, c', c1, c2, ?_, ?_⟩
  · rw [← hcd, ← htm, ← hNd, hfin, hG']
    refine (vlen_via _ _ _).trans ((add_le_add c4 q1).trans ?_)
    have e1 := mul_le_mul hquot (show 600 * (1 + k'.e) * R.u ≤ 1200 * R.u by have := mul_le_mul_of_nonneg_right (show 1 + k'.e ≤ 2 by linarith [S.e1']) hu0; linarith)
      (by have := S.e0'; positivity) (by positivity)
    refine (add_le_add_left e1 _).trans ?_
    rw [show 102 / 100 * (k.a / (1 - k.e)) * (1200 * R.u) = k.a / (1 - k.e) * (1224 * R.u) by ring, ← mul_add]
    refine mul_le_mul_of_nonneg_left ?_ (by positivity)
    linarith
  · rw [hG', ← hcd, ← htm, ← hNd, hfin]
    rw [← hNd] at q2
    refine (vlen_via _ _ _).trans ((add_le_add c5 q2).trans ?_)
    have e1 := mul_le_mul_of_nonneg_right (hquot2 hmu) (show 0 ≤ 400 * R.u by linarith)
    rw [← hNd] at e1
    refine (add_le_add_left e1 _).trans ?_
    rw [show 104 / 100 * (k.a * N / (1 - k.e) ^ 2) * (400 * R.u) = k.a * N / (1 - k.e) ^ 2 * (416 * R.u) by ring, ← mul_add]
    refine mul_le_mul_of_nonneg_left ?_ (by positivity)
    linarith

/-! ## C118 -/

/-- the part of the bound of C118 that grows with the number of calls and with the time -/
noncomputable def runTol (u tol mu : ℝ) (t : Anom) (k : Kep ℝ) (m : Nat) (T : ℝ) : ℝ :=
  26 / 25 * (if t = .mean then tol else m * tol) + (6000 / (1 - k.e) + 2000 * √((1 + k.e) / (1 - k.e)) * m + 230 / (1 - k.e) * (√(mu / k.a ^ 3) * T)) * u

/-- on a nearly circular orbit the anomaly may be counted from another place -/
theorem circ_shift {e e' u φ : ℝ} (he0 : 0 ≤ e) (he0' : 0 ≤ e') (h : |e' - e| ≤ 250 * u) (x y : ℝ) :
    |e * (Real.sin x - Real.sin y) - e' * (Real.sin (x + φ) - Real.sin (y + φ))| ≤ 4 * e + 500 * u := by
  have h1 := (abs_le.mp h).2
  have a1 := Real.abs_sin_le_one x
  have a2 := Real.abs_sin_le_one y
  have a3 := Real.abs_sin_le_one (x + φ)
  have a4 := Real.abs_sin_le_one (y + φ)
  have b1 := abs_sub (Real.sin x) (Real.sin y)
  have b2 := abs_sub (Real.sin (x + φ)) (Real.sin (y + φ))
  refine (abs_sub _ _).trans ?_
  rw [abs_mul, abs_mul, abs_of_nonneg he0, abs_of_nonneg he0']
  have c1 := mul_le_mul_of_nonneg_left (show |Real.sin x - Real.sin y| ≤ 2 by linarith) he0
  have c2 := mul_le_mul_of_nonneg_left (show |Real.sin (x + φ) - Real.sin (y + φ)| ≤ 2 by linarith) he0'
  linarith

theorem ecc_shift {e e' u : ℝ} (h : |e' - e| ≤ 250 * u) (x y : ℝ) :
    |e * (Real.sin x - Real.sin y) - e' * (Real.sin (x + 0) - Real.sin (y + 0))| ≤ 500 * u := by
  rw [add_zero, add_zero, show e * (Real.sin x - Real.sin y) - e' * (Real.sin x - Real.sin y) = -((e' - e) * (Real.sin x - Real.sin y)) by ring, abs_neg, abs_mul]
  have b1 := abs_sub (Real.sin x) (Real.sin y)
  have a1 := Real.abs_sin_le_one x
  have a2 := Real.abs_sin_le_one y
  have := mul_le_mul h (show |Real.sin x - Real.sin y| ≤ 2 by linarith) (abs_nonneg _) ((abs_nonneg _).trans h)
  linarith

open CartKep in
/-- C118: the Cartesian state `c` of a nearly circular orbit that is not equatorial, as in C116, is assigned to an object (radians, automatic updates, any anomaly type) whose arithmetic rounds
to nearest.  The object follows the Newtonian motion through `c`; the bound is that of C116 with `30 e` in place of `25 e`, plus what each call and each unit of time adds. -/
theorem c118 {n j : Nat} (hR : Nearest R) (hu : R.u ≤ 1 / 10 ^ 9) (s0 s : Orb (RF R)) {mu tol : ℝ} {c : Cart ℝ} (W : CartAssigned g n j s0 s mu tol c) (hmu : 0 < mu) (k : Kep ℝ)
    (hd : DescribesOrbit mu k c) (ha : 0 < k.a) (he0 : 0 ≤ k.e) (he : k.e + 250 * R.u ≤ 99 / 10 ^ 11) (hi0 : 0 < Real.sin k.i) (hs : 10 ^ 6 * (R.u / (1 - k.e)) ≤ Real.sin k.i)
    (hi : 200 * (R.u / (1 - k.e)) + 1 / 10 ^ 16 ≤ Real.sin k.i ^ 2) :
    FollowsWithin g n j s mu c k fun m T =>
      13 * (angTol (120 * (R.u / (1 - k.e)) / Real.sin k.i) k.OM + angTol (140 * (R.u / (1 - k.e))) k.i) +
        2 * angTol (600 * (R.u / (1 - k.e)) / Real.sin k.i) (k.om + k.nu) + 30 * k.e + runTol R.u tol mu s0.type k m T := by
  have hu0 := R.u_nonneg
  have he' := he
  norm_num at he'
  have he1 : k.e < 1 := by linarith
  have hq : 0 < 1 - k.e := by linarith
  have S := shape_out hR g.ctk hmu hd ha he0 he1 (by have := Real.sin_le_one k.i; norm_num at hs ⊢; linarith)
  obtain ⟨k', F0, h1, h2, A⟩ := circ_aligned hR g.ctk hmu hd ha he0 he hi0 hs hi
  obtain ⟨e, e1, e2, e3⟩ := S.e
  have e4 : k'.e = e := by
    rw [h1] at e1
    exact num_inj e1
  refine (aligned_motion g hu W hmu hd (by norm_num; linarith) h1 h2 A (η := 4 * k.e + 500 * R.u) (circ_shift he0 (by rw [e4]; exact e2) (by rw [e4]; exact e3))).mono ha he1 fun m T hm hT => ?_
  have hT := AngleDist.tol_nonneg (ε := 600 * (R.u / (1 - k.e)) / Real.sin k.i) (by positivity) (k.om + k.nu)
  have htu : R.u ≤ R.u / (1 - k.e) := by rw [le_div_iff₀ hq]; nlinarith
  rw [runTol]
  rw [show (6000 / (1 - k.e) + 2000 * √((1 + k.e) / (1 - k.e)) * m + 230 / (1 - k.e) * (√(mu / k.a ^ 3) * T)) * R.u = 4270 * (R.u / (1 - k.e)) +
    (1730 / (1 - k.e) + 2000 * √((1 + k.e) / (1 - k.e)) * m + 230 / (1 - k.e) * (√(mu / k.a ^ 3) * T)) * R.u by ring]
  linarith

open CartKep in
/-- C118 on equatorial ellipses that are not nearly circular, as in C117 -/
theorem c118_plane {n j : Nat} (hR : Nearest R) (hu : R.u ≤ 1 / 10 ^ 9) (s0 s : Orb (RF R)) {mu tol : ℝ} {c : Cart ℝ} (W : CartAssigned g n j s0 s mu tol c) (hmu : 0 < mu) (k : Kep ℝ)
    (hd : DescribesOrbit mu k c) (ha : 0 < k.a) (he0 : 3 / 10 ^ 9 ≤ k.e) (he1 : k.e < 1) (hi : Real.sin k.i = 0) (hs : 10 ^ 6 * (R.u / (1 - k.e)) ≤ k.e) :
    FollowsWithin g n j s mu c k fun m T =>
      13 * angTol (2000 * R.u / k.e) (k.om + Real.cos k.i * k.OM) + 4 * √((1 + k.e) / (1 - k.e)) * angTol (2000 * R.u / k.e) k.nu + runTol R.u tol mu s0.type k m T := by
  have hu0 := R.u_nonneg
  have hep : 0 < k.e := lt_of_lt_of_le (by norm_num) he0
  have hq : 0 < 1 - k.e := by linarith
  have S := shape_out hR g.ctk hmu hd ha hep.le he1 (by norm_num at hs ⊢; linarith)
  obtain ⟨k', F0, h1, h2, A⟩ := plane_aligned hR g.ctk hmu hd ha he0 he1 hi hs
  obtain ⟨e, e1, e2, e3⟩ := S.e
  have e4 : k'.e = e := by
    rw [h1] at e1
    exact num_inj e1
  refine (aligned_motion g hu W hmu hd ?_ h1 h2 A (η := 500 * R.u) (ecc_shift (by rw [e4]; exact e3))).mono ha he1 fun m T hm hT => ?_
  · rw [mul_div_assoc', div_le_iff₀ hq] at hs
    have := mul_le_of_le_one_left hq.le he1.le
    norm_num at hs ⊢
    linarith
  have hT : 0 ≤ √((1 + k.e) / (1 - k.e)) * angTol (2000 * R.u / k.e) k.nu := mul_nonneg (Real.sqrt_nonneg _) (AngleDist.tol_nonneg (by positivity) _)
  have htu : R.u ≤ R.u / (1 - k.e) := by rw [le_div_iff₀ hq]; nlinarith
  rw [runTol]
  rw [show (6000 / (1 - k.e) + 2000 * √((1 + k.e) / (1 - k.e)) * m + 230 / (1 - k.e) * (√(mu / k.a ^ 3) * T)) * R.u = 4270 * (R.u / (1 - k.e)) +
    (1730 / (1 - k.e) + 2000 * √((1 + k.e) / (1 - k.e)) * m + 230 / (1 - k.e) * (√(mu / k.a ^ 3) * T)) * R.u by ring]
  linarith

open CartKep in
/-- C118 on nearly circular equatorial orbits, as in C117 -/
theorem c118_plane_circular {n j : Nat} (hR : Nearest R) (hu : R.u ≤ 1 / 10 ^ 9) (s0 s : Orb (RF R)) {mu tol : ℝ} {c : Cart ℝ} (W : CartAssigned g n j s0 s mu tol c) (hmu : 0 < mu)
    (k : Kep ℝ) (hd : DescribesOrbit mu k c) (ha : 0 < k.a) (he0 : 0 ≤ k.e) (he : k.e + 250 * R.u ≤ 99 / 10 ^ 11) (hi : Real.sin k.i = 0) :
    FollowsWithin g n j s mu c k fun m T => 2 * angTol (100 * R.u) (k.nu + (k.om + Real.cos k.i * k.OM)) + 30 * k.e + runTol R.u tol mu s0.type k m T := by
  have hu0 := R.u_nonneg
  have he' := he
  norm_num at he'
  have he1 : k.e < 1 := by linarith
  have hq : 0 < 1 - k.e := by linarith
  have S := shape_out hR g.ctk hmu hd ha he0 he1 (by rw [div_le_iff₀ hq]; norm_num; linarith)
  obtain ⟨k', F0, h1, h2, A⟩ := plane_circ_aligned hR g.ctk hmu hd ha he0 he hi
  obtain ⟨e, e1, e2, e3⟩ := S.e
  have e4 : k'.e = e := by
    rw [h1] at e1
    exact num_inj e1
  refine (aligned_motion g hu W hmu hd (by norm_num; linarith) h1 h2 A (η := 4 * k.e + 500 * R.u) (circ_shift he0 (by rw [e4]; exact e2) (by rw [e4]; exact e3))).mono ha he1 fun m T hm hT => ?_
  have hT := AngleDist.tol_nonneg (ε := 100 * R.u) (by positivity) (k.nu + (k.om + Real.cos k.i * k.OM))
  have htu : R.u ≤ R.u / (1 - k.e) := by rw [le_div_iff₀ hq]; nlinarith
  rw [runTol]
  rw [show (6000 / (1 - k.e) + 2000 * √((1 + k.e) / (1 - k.e)) * m + 230 / (1 - k.e) * (√(mu / k.a ^ 3) * T)) * R.u = 4270 * (R.u / (1 - k.e)) +
    (1730 / (1 - k.e) + 2000 * √((1 + k.e) / (1 - k.e)) * m + 230 / (1 - k.e) * (√(mu / k.a ^ 3) * T)) * R.u by ring]
  linarith

/-- C118 in double precision with the default options of the solver, for a nearly circular equatorial orbit, `e ≤ 9.8e-10`, at every point: `2e-6` for the elements, `1.4e-12` for each call
and `3e-14` for each radian of mean anomaly. -/
theorem c118_binary64 (g : Garb (RF Binary.binary64)) {n j : Nat} (s0 s : Orb (RF Binary.binary64)) {mu : ℝ} {c : Cart ℝ}
    (W : CartAssigned g n j s0 s mu (Binary.binary64.rd (1 / 10 ^ 12)) c) (hmu : 0 < mu) (k : Kep ℝ) (hd : DescribesOrbit mu k c) (ha : 0 < k.a) (he0 : 0 ≤ k.e) (he1 : k.e ≤ 98 / 10 ^ 11)
    (hi : Real.sin k.i = 0) :
    FollowsWithin g n j s mu c k fun m T => 2 / 10 ^ 6 + 14 / 10 ^ 13 * m + 3 / 10 ^ 14 * (√(mu / k.a ^ 3) * T) := by
  have hu : Binary.binary64.u = (1 / 2) ^ 53 := rfl
  have hu0 := Binary.binary64.u_nonneg
  have hu1 : Binary.binary64.u ≤ 1112 / 10 ^ 19 := by rw [hu]; norm_num
  norm_num at he1 hu1
  have hq0 : 0 < 1 - k.e := by linarith
  have ht1 : Binary.binary64.u / (1 - k.e) ≤ 112 / 10 ^ 18 := by
    rw [div_le_iff₀ hq0]
    norm_num
    linarith
  obtain ⟨ok, ht⟩ := wideSolver_default (R := Binary.binary64) (le_of_eq hu)
  refine (c118_plane_circular g Binary.nearest (by norm_num; linarith) s0 s W hmu k hd ha he0 (by norm_num; linarith) hi).mono ha (by linarith) fun m T hm hT => ?_
  have hNT := mul_nonneg (Real.sqrt_nonneg (mu / k.a ^ 3)) hT
  have hc : √((1 + k.e) / (1 - k.e)) ≤ 101 / 100 := by
    rw [Real.sqrt_le_left (by norm_num), div_le_iff₀ hq0]; linarith
  rw [runTol]
  have h1 : (if s0.type = .mean then Binary.binary64.rd (1 / 10 ^ 12) else m * Binary.binary64.rd (1 / 10 ^ 12)) ≤ 101 / 10 ^ 14 * m := by
    have := mul_le_mul_of_nonneg_left ht (show (0 : ℝ) ≤ m by linarith)
    split_ifs <;> linarith
  rw [show (6000 / (1 - k.e) + 2000 * √((1 + k.e) / (1 - k.e)) * m + 230 / (1 - k.e) * (√(mu / k.a ^ 3) * T)) * Binary.binary64.u =
    6000 * (Binary.binary64.u / (1 - k.e)) + 2000 * (√((1 + k.e) / (1 - k.e)) * Binary.binary64.u) * m + 230 * (Binary.binary64.u / (1 - k.e)) * (√(mu / k.a ^ 3) * T) by ring]
  have h2 := mul_le_mul hc hu1 hu0 (by norm_num)
  have h3 := mul_le_mul_of_nonneg_right h2 (show (0 : ℝ) ≤ m by linarith)
  have h4 := mul_le_mul_of_nonneg_right ht1 hNT
  clear hu ok ht
  generalize (if s0.type = .mean then Binary.binary64.rd (1 / 10 ^ 12) else m * Binary.binary64.rd (1 / 10 ^ 12)) = tm at *
  generalize Binary.binary64.u / (1 - k.e) = t at *
  generalize Binary.binary64.u = u at *
  have hr : √(100 * u) ≤ 106 / 10 ^ 9 := by rw [Real.sqrt_le_left (by norm_num)]; norm_num; linarith
  have a1 := AngleDist.tol_le_sqrt (ε := 100 * u) (by linarith) (k.nu + (k.om + Real.cos k.i * k.OM))
  generalize √(100 * u) = w at *
  norm_num at h1 h2 h3 h4 ht1 hr ⊢
  linarith

/-- a case of C118: the state with velocity 1 on the x axis at distance 1 assigned to an object with one orbit that stores the mean anomaly -/
example (g : Garb (RF Binary.binary64)) : ∃ (c : Cart ℝ) (s : Orb (RF Binary.binary64)), DescribesOrbit 1 ⟨1, 0, 0, 0, 0, 0⟩ c ∧
    CartAssigned g 1 0 (lazyBlank (rfKern g) (RF.num _ 1) (RF.num _ 1) .dflt .mean) s 1 (Binary.binary64.rd (1 / 10 ^ 12)) c ∧
    FollowsWithin g 1 0 s 1 c ⟨1, 0, 0, 0, 0, 0⟩ fun m T => 2 / 10 ^ 6 + 14 / 10 ^ 13 * m + 3 / 10 ^ 14 * (√((1 : ℝ) / 1 ^ 3) * T) := by
  have hp : Physical 1 (⟨1, 0, 0, 0, 0, 0⟩ : Kep ℝ) := by
    refine ⟨by norm_num, by norm_num, by norm_num, ?_⟩
    show 0 < 1 + 0 * Real.cos 0
    norm_num
  have hs : OneEntryPerOrbit (lazyBlank (rfKern g) (RF.num Binary.binary64 1) (RF.num _ 1) .dflt .mean) 1 := ⟨rfl, rfl, rfl, rfl, ⟨_, rfl, rfl⟩, rfl, rfl, rfl⟩
  obtain ⟨c, hc⟩ : ∃ c, DescribesOrbit 1 (⟨1, 0, 0, 0, 0, 0⟩ : Kep ℝ) c := ⟨_, hp.adm.describes⟩
  obtain ⟨s, hset⟩ : ∃ s, set_cartesian (rfKern g) (.mat [c.num _]) (lazyBlank (rfKern g) (RF.num Binary.binary64 1) (RF.num _ 1) .dflt .mean) = (.ok (), s) := ⟨_, rfl⟩
  have hread : ∃ cs, (get_cartesian (rfKern g) s).1 = .ok cs ∧ cs[0]? = some (c.num _) := by
    obtain ⟨l, l1, l2⟩ := c32_cartesian (rfKern g) _ _ hs _ hset
    refine ⟨l, l1, ?_⟩
    obtain ⟨-, ⟨-, h⟩ | ⟨c0, h1, h2⟩⟩ := l2
    · rw [h]; rfl
    · injection h1 with h1 _
      rw [h2, ← h1]; rfl
  obtain ⟨ok, -⟩ := wideSolver_default (R := Binary.binary64) (le_of_eq rfl)
  have W : CartAssigned g 1 0 (lazyBlank (rfKern g) (RF.num _ 1) (RF.num _ 1) .dflt .mean) s 1 (Binary.binary64.rd (1 / 10 ^ 12)) c := ⟨hs, rfl, .inl rfl, rfl, ok, ⟨_, hset⟩, hread, ⟨0, rfl, by
      show (RF.num Binary.binary64 1 : RF _) * (RF.num _ 1 + 0) = _
      have : Binary.binary64.rd 1 = 1 := by
        have h1 := Binary.binary64.exact 4 (by norm_num)
        norm_num at h1
        rw [Rounding.rd, h1, Real.exp_zero, one_mul]
      rw [zero_num, add_num, mul_num, add_zero, this, one_mul, this]⟩⟩
  exact ⟨c, s, hc, W, c118_binary64 g _ s W one_pos _ hc one_pos le_rfl (by norm_num) Real.sin_zero⟩

end Orbit
end Pyorb
