import Verif.PropsCartHypRun

/-!
# How the time is divided into steps hardly matters, with rounding (C126)
-/

set_option linter.unusedVariables false

namespace Pyorb
namespace Orbit
open Py FX RF RHypProp CartKep

theorem vlen_between {a b x : Fin 3 → ℝ} {p q : ℝ} (ha : vlen (a - x) ≤ p) (hb : vlen (b - x) ≤ q) : vlen (a - b) ≤ p + q := by
  refine (vlen_via a x b).trans (add_le_add ha ?_)
  rwa [← neg_sub b x, vlen_neg]

/-- C126 for ellipses given by their elements: two objects that came from the same one by calls of `propagate` with the same total time -/
theorem c126_elements {R : Rounding} (g : Garb (RF R)) {n : Nat} (hu : R.u ≤ (1 / 2) ^ 50) (s : Orb (RF R)) (hs : OneEntryPerOrbit s n) (hr : s.kro = false)
    (hmode : s.auto = true ∨ s.direct = true) (ho : s.opts = .dflt) (hdeg : s.degrees = false) (j : Nat) (k : Kep ℝ) (mu : ℝ)
    (hread : ∃ ks, (get_kepler (rfKern g) s).1 = .ok ks ∧ ks[j]? = some (k.num R)) (hgrav : ∃ m, s.m[j]? = some m ∧ s.G * (s.M0 + m) = RF.num R mu)
    (hmu : 0 < mu) (ha : 0 < k.a) (h0 : 0 ≤ k.e) (h7 : k.e ≤ 7 / 10) {s1 s2 : Orb (RF R)} {m1 m2 : Nat} {D T1 T2 : ℝ} (h1 : RRun g n j s s1 m1 D T1) (h2 : RRun g n j s s2 m2 D T2) :
    ∃ cs1 c1 cs2 c2, (get_cartesian (rfKern g) s1).1 = .ok cs1 ∧ cs1[j]? = some (Cart.num R c1) ∧ (get_cartesian (rfKern g) s2).1 = .ok cs2 ∧ cs2[j]? = some (Cart.num R c2) ∧
      vlen (c1.r - c2.r) ≤ k.a / (1 - k.e) *
        (101 / 10 ^ 14 * (if s.type = .mean then 2 else (m1 + m2 : ℝ)) + (2300 * (m1 + m2) + 40 * |k.nu| + 18 * (√(mu / k.a ^ 3) * (T1 + T2))) * R.u) ∧
      vlen (c1.v - c2.v) ≤ k.a * √(mu / k.a ^ 3) / (1 - k.e) ^ 2 *
        (101 / 10 ^ 14 * (if s.type = .mean then 2 else (m1 + m2 : ℝ)) + (2300 * (m1 + m2) + 40 * |k.nu| + 18 * (√(mu / k.a ^ 3) * (T1 + T2))) * R.u) := by
  obtain ⟨c, -, -, c3⟩ := c98_default g hu s hs hr hmode ho hdeg j k mu hread hgrav hmu ha h0 h7
  obtain ⟨cs1, c1, a1, a2, a3, a4⟩ := c3 s1 m1 D T1 h1
  obtain ⟨cs2, c2, b1, b2, b3, b4⟩ := c3 s2 m2 D T2 h2
  refine ⟨cs1, c1, cs2, c2, a1, a2, b1, b2, (vlen_between a3 b3).trans (le_of_eq ?_), (vlen_between a4 b4).trans (le_of_eq ?_)⟩ <;> split_ifs <;> ring

/-- a case: an orbit with e = 1/2 that stores its mean anomaly, one call with the step 9/2, and two calls with the steps 6 and -3/2 -/
example (g : Garb (RF Binary.binary64)) : ∃ (s1 s2 s3 : Orb (RF Binary.binary64)) (cs1 cs3 : List (Cart (RF Binary.binary64))) (c1 c3 : Cart ℝ),
    propagate (rfKern g) (.sc (RF.num _ (6 + -3 / 2))) (lazy64 g .mean ⟨1, 1 / 2, 1, 2, 3, 0⟩) = (.ok (), s1) ∧
    propagate (rfKern g) (.sc (RF.num _ 6)) (lazy64 g .mean ⟨1, 1 / 2, 1, 2, 3, 0⟩) = (.ok (), s2) ∧ propagate (rfKern g) (.sc (RF.num _ (-3 / 2))) s2 = (.ok (), s3) ∧
    (get_cartesian (rfKern g) s1).1 = .ok cs1 ∧ cs1[0]? = some (Cart.num Binary.binary64 c1) ∧ (get_cartesian (rfKern g) s3).1 = .ok cs3 ∧ cs3[0]? = some (Cart.num Binary.binary64 c3) ∧
    vlen (c1.r - c3.r) ≤ 8 / 10 ^ 12 := by
  have hs : OneEntryPerOrbit (lazy64 g .mean ⟨1, 1 / 2, 1, 2, 3, 0⟩) 1 := ⟨rfl, rfl, rfl, rfl, ⟨_, rfl, rfl⟩, rfl, rfl, rfl⟩
  obtain ⟨⟨s1, p1⟩, -⟩ := c98_returns g _ hs rfl 0 (dt := .sc (RF.num _ (6 + -3 / 2))) (dts := [RF.num _ (6 + -3 / 2)]) rfl
  obtain ⟨⟨s2, p2⟩, -⟩ := c98_returns g _ hs rfl 0 (dt := .sc (RF.num _ 6)) (dts := [RF.num _ 6]) rfl
  have r1 := RRun.one (g := g) (n := 1) (j := 0) (.sc (RF.num _ (6 + -3 / 2))) [RF.num _ (6 + -3 / 2)] (6 + -3 / 2) rfl rfl p1
  have r2 := RRun.one (g := g) (n := 1) (j := 0) (.sc (RF.num _ 6)) [RF.num _ 6] 6 rfl rfl p2
  obtain ⟨s3, p3⟩ := (c98_returns g _ hs rfl 0 (dt := .sc (RF.num _ (-3 / 2))) (dts := [RF.num _ (-3 / 2)]) rfl).2 _ _ _ _ r2
  have r3 := r2.more (.sc (RF.num _ (-3 / 2))) [RF.num _ (-3 / 2)] (-3 / 2) rfl rfl p3
  obtain ⟨cs1, c1, cs3, c3, d1, d2, d3, d4, d5, -⟩ := c126_elements g (show (1 / 2 : ℝ) ^ 53 ≤ (1 / 2) ^ 50 by norm_num) (lazy64 g .mean ⟨1, 1 / 2, 1, 2, 3, 0⟩) hs rfl (.inl rfl) rfl rfl 0
    ⟨1, 1 / 2, 1, 2, 3, 0⟩ 1 ⟨_, rfl, rfl⟩ ⟨0, rfl, by
      show (RF.num Binary.binary64 1 : RF _) * (RF.num _ 1 + 0) = _
      have : Binary.binary64.rd 1 = 1 := by
        have h1 := Binary.binary64.exact 4 (by norm_num)
        norm_num at h1
        rw [Rounding.rd, h1, Real.exp_zero, one_mul]
      rw [zero_num, add_num, mul_num, add_zero, this, one_mul, this]⟩ one_pos one_pos (by norm_num) (by norm_num) r1 r3
  refine ⟨s1, s2, s3, cs1, cs3, c1, c3, p1, p2, p3, d1, d2, d3, d4, d5.trans ?_⟩
  have ht : (lazy64 g .mean ⟨1, 1 / 2, 1, 2, 3, 0⟩).type = .mean := rfl
  rw [ht, if_pos rfl, show Binary.binary64.u = (1 / 2) ^ 53 from rfl, abs_of_pos (show (0 : ℝ) < 6 by norm_num), abs_of_neg (show (-3 / 2 : ℝ) < 0 by norm_num),
    abs_of_pos (show (0 : ℝ) < 6 + -3 / 2 by norm_num)]
  norm_num

/-- C126 for a Cartesian state on an ellipse, in double precision: two sequences of steps with the same total, and a sequence that adds up to zero -/
theorem c126_ellipse (g : Garb (RF Binary.binary64)) {n : Nat} (s0 s : Orb (RF Binary.binary64)) (hs : OneEntryPerOrbit s0 n) (hr : s0.kro = false)
    (hmode : s0.auto = true ∨ s0.direct = true) (hdeg : s0.degrees = false) (ho : s0.opts = .dflt) (v : Val6 (RF Binary.binary64) (Cart (RF Binary.binary64)))
    (hset : set_cartesian (rfKern g) v s0 = (.ok (), s)) (j : Nat) (k : Kep ℝ) (mu : ℝ) (c : Cart ℝ)
    (hc : ∃ cs, (get_cartesian (rfKern g) s).1 = .ok cs ∧ cs[j]? = some (c.num _)) (hgrav : ∃ m, s0.m[j]? = some m ∧ s0.G * (s0.M0 + m) = RF.num _ mu) (hmu : 0 < mu)
    (hd : DescribesOrbit mu k c) (ha : 0 < k.a) (he0 : 1 / 10 ≤ k.e) (he1 : k.e ≤ 9 / 10) (hi : 1 / 10 ≤ Real.sin k.i) (hOM : 1 / 10 ≤ |Real.sin k.OM|)
    (hom : 1 / 10 ≤ |Real.sin k.om|) (hnu : 1 / 10 ≤ |Real.sin k.nu|) :
    (∀ (s1 s2 : Orb (RF Binary.binary64)) (m1 m2 : Nat) (D T1 T2 : ℝ), RRun g n j s s1 m1 D T1 → RRun g n j s s2 m2 D T2 →
      ∃ cs1 c1 cs2 c2, (get_cartesian (rfKern g) s1).1 = .ok cs1 ∧ cs1[j]? = some (Cart.num _ c1) ∧ (get_cartesian (rfKern g) s2).1 = .ok cs2 ∧ cs2[j]? = some (Cart.num _ c2) ∧
        vlen (c1.r - c2.r) ≤ k.a / (1 - k.e) * (94 / 10 ^ 8 + 21 / 10 ^ 13 * (m1 + m2) + 26 / 10 ^ 14 * (√(mu / k.a ^ 3) * (T1 + T2))) ∧
        vlen (c1.v - c2.v) ≤ k.a * √(mu / k.a ^ 3) / (1 - k.e) ^ 2 * (94 / 10 ^ 8 + 21 / 10 ^ 13 * (m1 + m2) + 26 / 10 ^ 14 * (√(mu / k.a ^ 3) * (T1 + T2)))) ∧
    ∀ (s' : Orb (RF Binary.binary64)) (m : Nat) (T : ℝ), RRun g n j s s' m 0 T →
      ∃ cs c', (get_cartesian (rfKern g) s').1 = .ok cs ∧ cs[j]? = some (Cart.num _ c') ∧
        vlen (c'.r - c.r) ≤ k.a / (1 - k.e) * (47 / 10 ^ 8 + 21 / 10 ^ 13 * m + 26 / 10 ^ 14 * (√(mu / k.a ^ 3) * T)) ∧
        vlen (c'.v - c.v) ≤ k.a * √(mu / k.a ^ 3) / (1 - k.e) ^ 2 * (47 / 10 ^ 8 + 21 / 10 ^ 13 * m + 26 / 10 ^ 14 * (√(mu / k.a ^ 3) * T)) := by
  obtain ⟨C, -, C2, C3⟩ := c115_binary64 g s0 s hs hr hmode hdeg ho v hset j k mu c hc hgrav hmu hd ha he0 he1 hi hOM hom hnu
  constructor
  · intro s1 s2 m1 m2 D T1 T2 h1 h2
    obtain ⟨cs1, c1, a1, a2, a3, a4⟩ := C3 s1 m1 D T1 h1
    obtain ⟨cs2, c2, b1, b2, b3, b4⟩ := C3 s2 m2 D T2 h2
    exact ⟨cs1, c1, cs2, c2, a1, a2, b1, b2, (vlen_between a3 b3).trans (le_of_eq (by ring)), (vlen_between a4 b4).trans (le_of_eq (by ring))⟩
  · intro s' m T h
    have := C3 s' m 0 T h
    rwa [C2] at this

/-- C126 for a Cartesian state on a hyperbola, in double precision: two sequences of steps with the same total, and a sequence that adds up to zero -/
theorem c126_hyperbola (g : Garb (RF Binary.binary64)) {n : Nat} (s0 s : Orb (RF Binary.binary64)) (hs : OneEntryPerOrbit s0 n) (hr : s0.kro = false)
    (hmode : s0.auto = true ∨ s0.direct = true) (hdeg : s0.degrees = false) (hty : s0.type = .mean) (ho : s0.opts = .dflt) (v : Val6 (RF Binary.binary64) (Cart (RF Binary.binary64)))
    (hset : set_cartesian (rfKern g) v s0 = (.ok (), s)) (j : Nat) (k : Kep ℝ) (mu : ℝ) (c : Cart ℝ)
    (hc : ∃ cs, (get_cartesian (rfKern g) s).1 = .ok cs ∧ cs[j]? = some (c.num _)) (hgrav : ∃ m, s0.m[j]? = some m ∧ s0.G * (s0.M0 + m) = RF.num _ mu) (hmu : 0 < mu)
    (hd : DescribesOrbit mu k c) (ha : 0 < k.a) (h1 : 1 < k.e) (h7 : k.e ≤ 68 / 10) (hW : (1 + vlen c.r / k.a) ^ 2 ≤ 10 * (k.e ^ 2 - 1)) (hi : 1 / 10 ≤ Real.sin k.i)
    (hOM : 1 / 10 ≤ |Real.sin k.OM|) (hom : 1 / 10 ≤ |Real.sin k.om|) (hnu : 1 / 10 ≤ |Real.sin k.nu|) {E : ℝ} (hE : SamePointHyp k.e k.nu E) (hM : 4 / 10 ^ 9 < k.e * Real.sinh E - E) :
    (∀ (s1 s2 : Orb (RF Binary.binary64)) (m1 m2 : Nat) (D T1 T2 : ℝ), HypSteps g n j (k.e * Real.sinh E - E) √(mu / k.a ^ 3) (4 / 10 ^ 9) (68 / 10 - k.e) s s1 m1 D T1 →
      HypSteps g n j (k.e * Real.sinh E - E) √(mu / k.a ^ 3) (4 / 10 ^ 9) (68 / 10 - k.e) s s2 m2 D T2 →
      ∃ cs1 c1 cs2 c2, (get_cartesian (rfKern g) s1).1 = .ok cs1 ∧ cs1[j]? = some (Cart.num _ c1) ∧ (get_cartesian (rfKern g) s2).1 = .ok cs2 ∧ cs2[j]? = some (Cart.num _ c2) ∧
        vlen (c1.r - c2.r) ≤ k.a * (8 / 10 ^ 7 + (4 * (m1 + m2) + 2 * (√(mu / k.a ^ 3) * (T1 + T2))) / 10 ^ 14) ∧
        vlen (c1.v - c2.v) ≤ k.a * √(mu / k.a ^ 3) * (4 / 10 ^ 6 + (3 * (m1 + m2) + √(mu / k.a ^ 3) * (T1 + T2)) / 10 ^ 12)) ∧
    ∀ (s' : Orb (RF Binary.binary64)) (m : Nat) (T : ℝ), HypSteps g n j (k.e * Real.sinh E - E) √(mu / k.a ^ 3) (4 / 10 ^ 9) (68 / 10 - k.e) s s' m 0 T →
      ∃ cs c', (get_cartesian (rfKern g) s').1 = .ok cs ∧ cs[j]? = some (Cart.num _ c') ∧
        vlen (c'.r - c.r) ≤ k.a * (4 / 10 ^ 7 + (4 * m + 2 * (√(mu / k.a ^ 3) * T)) / 10 ^ 14) ∧
        vlen (c'.v - c.v) ≤ k.a * √(mu / k.a ^ 3) * (2 / 10 ^ 6 + (3 * m + √(mu / k.a ^ 3) * T) / 10 ^ 12) := by
  obtain ⟨C, -, C2, C3⟩ := c124_binary64 g s0 s hs hr hmode hdeg hty ho v hset j k mu c hc hgrav hmu hd ha h1 h7 hW hi hOM hom hnu hE hM
  constructor
  · intro s1 s2 m1 m2 D T1 T2 h1 h2
    obtain ⟨cs1, c1, a1, a2, a3, a4⟩ := C3 s1 m1 D T1 h1
    obtain ⟨cs2, c2, b1, b2, b3, b4⟩ := C3 s2 m2 D T2 h2
    exact ⟨cs1, c1, cs2, c2, a1, a2, b1, b2, (vlen_between a3 b3).trans (le_of_eq (by ring)), (vlen_between a4 b4).trans (le_of_eq (by ring))⟩
  · intro s' m T h
    have := C3 s' m 0 T h
    rwa [C2] at this

set_option maxHeartbeats 1000000 in
/-- a case: the state on the hyperbola with a = 1 and e = 2 at the true anomaly π/2, assigned to an object with one orbit that stores the mean anomaly, then two calls of `propagate` with the steps 1 and -1 -/
example (g : Garb (RF Binary.binary64)) : ∃ (c : Cart ℝ) (s s1 s2 : Orb (RF Binary.binary64)) (cs : List (Cart (RF Binary.binary64))) (c' : Cart ℝ),
    DescribesOrbit 1 ⟨1, 2, Real.pi / 6, Real.pi / 6, Real.pi / 6, Real.pi / 2⟩ c ∧
    set_cartesian (rfKern g) (.mat [c.num _]) (lazyBlank (rfKern g) (RF.num _ 1) (RF.num _ 1) .dflt .mean) = (.ok (), s) ∧
    propagate (rfKern g) (.sc (RF.num _ 1)) s = (.ok (), s1) ∧ propagate (rfKern g) (.sc (RF.num _ (-1))) s1 = (.ok (), s2) ∧ (get_cartesian (rfKern g) s2).1 = .ok cs ∧ cs[0]? = some (Cart.num Binary.binary64 c') ∧
    vlen (c'.r - c.r) ≤ 401 / 10 ^ 9 := by
  have hp : Physical 1 (⟨1, 2, Real.pi / 6, Real.pi / 6, Real.pi / 6, Real.pi / 2⟩ : Kep ℝ) := by
    refine ⟨by norm_num, by norm_num, by norm_num, ?_⟩
    show 0 < 1 + 2 * Real.cos (Real.pi / 2)
    rw [Real.cos_pi_div_two]; norm_num
  have hsin : 1 / 10 ≤ |Real.sin (Real.pi / 6)| := by rw [Real.sin_pi_div_six]; norm_num
  have hs : OneEntryPerOrbit (lazyBlank (rfKern g) (RF.num Binary.binary64 1) (RF.num _ 1) .dflt .mean) 1 := ⟨rfl, rfl, rfl, rfl, ⟨_, rfl, rfl⟩, rfl, rfl, rfl⟩
  obtain ⟨c, hc⟩ : ∃ c, DescribesOrbit 1 (⟨1, 2, Real.pi / 6, Real.pi / 6, Real.pi / 6, Real.pi / 2⟩ : Kep ℝ) c := ⟨_, hp.adm.describes⟩
  obtain ⟨s, hset⟩ : ∃ s, set_cartesian (rfKern g) (.mat [c.num _]) (lazyBlank (rfKern g) (RF.num Binary.binary64 1) (RF.num _ 1) .dflt .mean) = (.ok (), s) := ⟨_, rfl⟩
  have hread : ∃ cs, (get_cartesian (rfKern g) s).1 = .ok cs ∧ cs[0]? = some (c.num _) := by
    obtain ⟨l, l1, l2⟩ := c32_cartesian (rfKern g) _ _ hs _ hset
    refine ⟨l, l1, ?_⟩
    obtain ⟨-, ⟨-, h⟩ | ⟨c0, h1, h2⟩⟩ := l2
    · rw [h]; rfl
    · injection h1 with h1 _
      rw [h2, ← h1]; rfl
  obtain ⟨E, hE⟩ := hyp_anomaly (e := 2) (nu := Real.pi / 2) (by norm_num) (by rw [Real.cos_pi_div_two]; norm_num)
  obtain ⟨q0, q1, q2⟩ := hyp_point_eqs (by norm_num) hE
  rw [Real.cos_pi_div_two] at q1
  rw [Real.sin_pi_div_two, one_mul] at q2
  have hcosh : Real.cosh E = 2 := by norm_num at q1; linarith
  have hsq := Real.cosh_sq E
  have hw : (0 : ℝ) < √(2 ^ 2 - 1) := Real.sqrt_pos.mpr (by norm_num)
  have hpos : 0 < Real.sinh E := by
    have : 0 < √((2 : ℝ) ^ 2 - 1) * Real.sinh E := by rw [← q2]; exact q0
    exact pos_of_mul_pos_right this hw.le
  have hE0 : 0 < E := Real.sinh_pos_iff.mp hpos
  have hle := Real.self_le_sinh_iff.mpr hE0.le
  rw [hcosh] at hsq
  have hs1 : 17 / 10 ≤ Real.sinh E := by nlinarith
  have hs2 : Real.sinh E ≤ 174 / 100 := by nlinarith
  have hn : √((1 : ℝ) / 1 ^ 3) = 1 := by norm_num
  have hdist : vlen c.r = 3 := by
    have := hc.distance
    rw [this, if_neg (by norm_num)]
    show 1 * |1 - (2 : ℝ) ^ 2| / (1 + 2 * Real.cos (Real.pi / 2)) = 3
    rw [Real.cos_pi_div_two]; norm_num
  obtain ⟨-, C3⟩ := c126_hyperbola g (n := 1) _ s hs rfl (.inl rfl) rfl rfl rfl _ hset 0 _ 1 c hread ⟨0, rfl, by
      show (RF.num Binary.binary64 1 : RF _) * (RF.num _ 1 + 0) = _
      have : Binary.binary64.rd 1 = 1 := by
        have h1 := Binary.binary64.exact 4 (by norm_num)
        norm_num at h1
        rw [Rounding.rd, h1, Real.exp_zero, one_mul]
      rw [zero_num, add_num, mul_num, add_zero, this, one_mul, this]⟩ one_pos hc (by norm_num) (by norm_num) (by norm_num) (by rw [hdist]; norm_num)
    (by show 1 / 10 ≤ Real.sin (Real.pi / 6); rw [Real.sin_pi_div_six]; norm_num) hsin hsin (by show 1 / 10 ≤ |Real.sin (Real.pi / 2)|; rw [Real.sin_pi_div_two]; norm_num) hE
    (by show (4 / 10 ^ 9 : ℝ) < 2 * Real.sinh E - E; norm_num; linarith)
  obtain ⟨hs', honly, -⟩ := set_cartesian_only (rfKern g) hs hset
  have row1 : (Val.sc (RF.num Binary.binary64 1)).Row 1 [RF.num _ 1] := rfl
  have row2 : (Val.sc (RF.num Binary.binary64 (-1))).Row 1 [RF.num _ (-1)] := rfl
  obtain ⟨⟨s1, p1⟩, -⟩ := c98_returns g _ hs' (by rw [honly]; rfl) 0 row1
  have hu0 := Binary.binary64.u_nonneg
  have hu1 : Binary.binary64.u ≤ 1112 / 10 ^ 19 := by
    have hu : Binary.binary64.u = (1 / 2) ^ 53 := rfl
    rw [hu]; norm_num
  have hz : (1 + -1 : ℝ) = 0 := by norm_num
  have ab : |(-1 : ℝ)| = 1 := by norm_num
  obtain ⟨s2, p2⟩ := (c98_returns g _ hs' (by rw [honly]; rfl) 0 row2).2 s1 1 1 |1| (.one _ [RF.num _ 1] 1 row1 rfl p1)
  obtain ⟨cs, c', d2, d3, d4, -⟩ := C3 s2 2 (|1| + |-1|) (hz ▸ .more (.one (.sc (RF.num _ 1)) [RF.num _ 1] 1 row1 rfl
      (by show (4 / 10 ^ 9 : ℝ) + _ < 2 * Real.sinh E - E + √((1 : ℝ) / 1 ^ 3) * 1; rw [hn, abs_one]; norm_num; norm_num at hu1; linarith)
      (by show 2 * Real.sinh E - E + √((1 : ℝ) / 1 ^ 3) * 1 + _ + _ < 68 / 10 - (2 : ℝ); rw [hn, abs_one]; norm_num; norm_num at hu1; linarith) p1)
    (.sc (RF.num _ (-1))) [RF.num _ (-1)] (-1) row2 rfl
      (by show (4 / 10 ^ 9 : ℝ) + _ < 2 * Real.sinh E - E + √((1 : ℝ) / 1 ^ 3) * (1 + -1); rw [hn, ab, abs_one]; norm_num; norm_num at hu1; linarith)
      (by show 2 * Real.sinh E - E + √((1 : ℝ) / 1 ^ 3) * (1 + -1) + _ + _ < 68 / 10 - (2 : ℝ); rw [hn, ab, abs_one]; norm_num; norm_num at hu1; linarith) p2)
  refine ⟨c, s, s1, s2, cs, c', hc, hset, p1, p2, d2, d3, d4.trans ?_⟩
  show (1 : ℝ) * (4 / 10 ^ 7 + (4 * ((2 : ℕ) : ℝ) + 2 * (√((1 : ℝ) / 1 ^ 3) * (|1| + |-1|))) / 10 ^ 14) ≤ _
  rw [hn, ab, abs_one]
  norm_num

end Orbit
end Pyorb
