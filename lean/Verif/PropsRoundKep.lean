import Verif.PropsRound
import Verif.PropsRoundTrip

/-!
# `kep_to_cart` with rounding (C70)

The forward error of `kep_to_cart` in floating-point arithmetic, relative to the distance and to the speed at periapsis.
-/

namespace Pyorb
open FX RF
variable {R : Rounding}

/-- elements as numbers given to the code -/
def Kep.num (R : Rounding) (k : Kep ℝ) : Kep (RF R) := ⟨RF.num R k.a, RF.num R k.e, RF.num R k.i, RF.num R k.om, RF.num R k.OM, RF.num R k.nu⟩
@[inherit_doc Kep.num] def Cart.num (R : Rounding) (c : Cart ℝ) : Cart (RF R) :=
  ⟨RF.num R c.x, RF.num R c.y, RF.num R c.z, RF.num R c.vx, RF.num R c.vy, RF.num R c.vz⟩

theorem near_cos (x : ℝ) : Near 1 1 (Np.cos (RF.num R x)) (Real.cos x) := (Rel.cos x).near (Real.abs_cos_le_one x)
theorem near_sin (x : ℝ) : Near 1 1 (Np.sin (RF.num R x)) (Real.sin x) := (Rel.sin x).near (Real.abs_sin_le_one x)

theorem RF.Near.cast {j k B C : ℝ} {a : RF R} {x y : ℝ} (h : Near j B a x) (hjk : j = k) (hB : B = C) (hx : x = y) : Near k C a y := by
  rw [← hjk, ← hB, ← hx]; exact h

theorem near_two {a b : RF R} {x y : ℝ} (h1 : Near 1 1 a x) (h2 : Near 1 1 b y) : Near 5 1 (a * b) (x * y) :=
  (h1.mul h2).mono (by norm_num) (by norm_num) (by norm_num)
theorem near_three {a b c : RF R} {x y z : ℝ} (h1 : Near 1 1 a x) (h2 : Near 1 1 b y) (h3 : Near 1 1 c z) :
    Near 5 1 (a * b * c) (x * y * z) :=
  ((h1.mul h2).mul h3).mono (by norm_num) (by norm_num) (by norm_num)

/-- the entries of the rotation matrix that `kep_to_cart` uses -/
theorem euler_near (k : Kep ℝ) :
    Near 6 2 (euler_rotation_matrix (RF.num R k.i) (RF.num R k.om) (RF.num R k.OM) false 0 0) k.px ∧
    Near 6 2 (euler_rotation_matrix (RF.num R k.i) (RF.num R k.om) (RF.num R k.OM) false 1 0) k.py ∧
    Near 6 2 (euler_rotation_matrix (RF.num R k.i) (RF.num R k.om) (RF.num R k.OM) false 2 0) k.pz ∧
    Near 6 2 (euler_rotation_matrix (RF.num R k.i) (RF.num R k.om) (RF.num R k.OM) false 0 1) k.qx ∧
    Near 6 2 (euler_rotation_matrix (RF.num R k.i) (RF.num R k.om) (RF.num R k.OM) false 1 1) k.qy ∧
    Near 6 2 (euler_rotation_matrix (RF.num R k.i) (RF.num R k.om) (RF.num R k.OM) false 2 1) k.qz := by
  have c1 := near_cos (R := R) k.OM
  have s1 := near_sin (R := R) k.OM
  have c2 := near_cos (R := R) k.i
  have s2 := near_sin (R := R) k.i
  have c3 := near_cos (R := R) k.om
  have s3 := near_sin (R := R) k.om
  have h56 : (5 : ℝ) + 1 = 6 := by norm_num
  have h12 : (1 : ℝ) + 1 = 2 := by norm_num
  refine ⟨?_, ?_, ?_, ?_, ?_, ?_⟩
  · exact ((near_two c1 c3).sub (near_three c2 s1 s3)).cast h56 h12 rfl
  · exact ((near_two c3 s1).add (near_three c1 c2 s3)).cast h56 h12 rfl
  · exact (near_two s2 s3).mono (by norm_num) (by norm_num) (by norm_num)
  · exact ((near_two c1.neg s3).sub (near_three c2 c3 s1)).cast h56 h12 rfl
  · exact ((near_three c1 c2 c3).sub (near_two s1 s3)).cast h56 h12 rfl
  · exact (near_two c3 s2).mono (by norm_num) (by norm_num) (by norm_num)

/-- a matrix-vector product as `kep_to_cart` computes it -/
theorem near_row {p q x y : RF R} {p' q' x' y' m B : ℝ} (hp : Near 6 2 p p') (hq : Near 6 2 q q') (hx : Near m B x x') (hy : Near m B y y') :
    Near (m + 8) (4 * B) (p * x + q * y) (p' * x' + q' * y') :=
  ((hp.mul hx).add (hq.mul hy)).cast (by ring) (by ring) rfl

/-- how well a state is determined by the elements: `c` bounds the cancellation in `1 + e cos nu` and `1 - e²` -/
structure Condition (k : Kep ℝ) (c : ℝ) : Prop where
  one_le : 1 ≤ c
  denom : 1 + k.e ≤ c * (1 + k.e * Real.cos k.nu)
  ecc : k.e ≠ 1 → 1 + k.e ^ 2 ≤ c * |1 - k.e ^ 2|

/-- `1 + e cos nu` -/
theorem denom_rel {k : Kep ℝ} {c : ℝ} (h0 : 0 ≤ k.e) (hc : Condition k c) (hs : 12 * c * R.u ≤ 1) :
    Rel (6 * c) (1 + RF.num R k.e * Np.cos (RF.num R k.nu)) (1 + k.e * Real.cos k.nu) := by
  have hp : 0 < 1 + k.e * Real.cos k.nu := by
    have := hc.denom
    have := hc.one_le
    by_contra hn
    nlinarith
  have h1 := ((Rel.num (R := R) k.e).mul (Rel.cos k.nu)).near (B := k.e) (by
    rw [abs_mul, abs_of_nonneg h0]
    exact mul_le_of_le_one_right h0 (Real.abs_cos_le_one _))
  have h2 := Near.add (((Rel.num (R := R) 1).near (B := 1) (by norm_num)).mono (k := 2) (by norm_num) (by norm_num) le_rfl)
    (h1.mono (k := 2) (by norm_num) (by norm_num) le_rfl)
  rw [one_num]
  exact (h2.rel (c := c) (by norm_num) (by rw [abs_of_pos hp]; exact hc.denom) hc.one_le (by linarith)).mono (by linarith [hc.one_le])

/-- the angular momentum of an ellipse or hyperbola; `a'` is the semi-major axis with the sign that the code gives it -/
theorem angmom_rel {k : Kep ℝ} {mu c a : ℝ} (hmu : 0 < mu) (ha : 0 < k.a) (h0 : 0 ≤ k.e) (h1 : k.e ≠ 1) (hc : Condition k c) (hs : 8 * c * R.u ≤ 1)
    {a' : RF R} (hA : Rel 1 a' a) (haa : a * (1 - k.e ^ 2) = k.slr) :
    Rel (5 / 2 + 2 * c) (orbit_total_angular_momentum a' (RF.num R k.e) (RF.num R mu)) (k.hm mu) := by
  have e1 := ((Rel.num (R := R) k.e).mul (Rel.num k.e)).near (B := k.e ^ 2) (by rw [abs_mul, abs_of_nonneg h0, pow_two])
  have e2 := Near.sub (((Rel.num (R := R) 1).near (B := 1) (by norm_num)).mono (k := 1) (by norm_num) (by norm_num) le_rfl)
    (e1.mono (k := 1) (by norm_num) (by norm_num) le_rfl)
  have e3 := e2.rel (c := c) (by norm_num) (by rw [← pow_two]; exact hc.ecc h1) hc.one_le (by linarith)
  have e4 := (((Rel.num (R := R) mu).mul hA).mul e3)
  have hx : mu * a * (1 - k.e * k.e) = mu * k.slr := by rw [← haa]; ring
  rw [hx] at e4
  have e5 := e4.sqrt (mul_nonneg hmu.le (k.slr_pos ha h0).le)
  unfold orbit_total_angular_momentum sq
  rw [one_num]
  exact e5.mono (by linarith)

theorem angmom_par_rel {k : Kep ℝ} {mu : ℝ} (hmu : 0 < mu) (ha : 0 < k.a) (h1 : k.e = 1) :
    Rel 2 (parabolic_total_angular_momentum (RF.num R k.a) (RF.num R mu)) (k.hm mu) := by
  have e4 := ((Rel.num (R := R) mu).mul (Rel.num 2)).mul (Rel.num k.a)
  have hx : mu * 2 * k.a = mu * k.slr := by rw [Kep.slr, if_pos h1]; ring
  rw [hx] at e4
  have e5 := e4.sqrt (mul_nonneg hmu.le (k.slr_pos ha (by rw [h1]; norm_num)).le)
  unfold parabolic_total_angular_momentum
  rw [two_num]
  exact e5.mono (by norm_num)

/-- the computation of `kep_to_cart` once the angular momentum `h` is known (kepler.py 1756-1776) -/
def colOf {α : Type} [Np α] (h mu : α) (k : Kep α) : Cart α :=
  let rn := orbital_distance h mu k.e k.nu false
  let R := euler_rotation_matrix k.i k.om k.OM false
  let rx := rn * Np.cos k.nu
  let ry := rn * Np.sin k.nu
  let vn := mu / h
  let vx := -vn * Np.sin k.nu
  let vy := vn * (k.e + Np.cos k.nu)
  ⟨R 0 0 * rx + R 0 1 * ry, R 1 0 * rx + R 1 1 * ry, R 2 0 * rx + R 2 1 * ry,
   R 0 0 * vx + R 0 1 * vy, R 1 0 * vx + R 1 1 * vy, R 2 0 * vx + R 2 1 * vy⟩

/-- a state that is near a given one -/
structure CartNear (m B m' B' : ℝ) (w : Cart (RF R)) (c : Cart ℝ) : Prop where
  x : Near m B w.x c.x
  y : Near m B w.y c.y
  z : Near m B w.z c.z
  vx : Near m' B' w.vx c.vx
  vy : Near m' B' w.vy c.vy
  vz : Near m' B' w.vz c.vz

theorem colOf_near {k : Kep ℝ} {mu c : ℝ} (hmu : 0 < mu) (ha : 0 < k.a) (h0 : 0 ≤ k.e) (hc : Condition k c) (hs : 12 * c * R.u ≤ 1)
    {h : RF R} (hh : Rel (5 / 2 + 2 * c) h (k.hm mu)) :
    CartNear (18 + 10 * c) (4 * k.rad) (15 + 2 * c) (4 * (mu / k.hm mu * (1 + k.e))) (colOf h (RF.num R mu) (k.num R)) (k.state mu) := by
  have h1c := hc.one_le
  have hp : 0 < 1 + k.e * Real.cos k.nu := by
    have := hc.denom
    by_contra hn
    nlinarith
  have hhm := k.hm_pos mu hmu ha h0
  have hslr := k.slr_pos ha h0
  have hrad : 0 < k.rad := div_pos hslr hp
  have hD := denom_rel (R := R) h0 hc hs
  -- distance
  have r1 : Rel (8 + 10 * c) (orbital_distance h (RF.num R mu) (RF.num R k.e) (RF.num R k.nu) false) k.rad := by
    have e1 := (hh.mul hh).div ((Rel.num (R := R) mu).mul hD) (mul_ne_zero hmu.ne' hp.ne')
    have hx : k.hm mu * k.hm mu / (mu * (1 + k.e * Real.cos k.nu)) = k.rad := by
      rw [← pow_two, k.hm_sq mu hmu ha h0, Kep.rad, mul_div_mul_left _ _ hmu.ne']
    rw [hx] at e1
    exact e1.mono (by linarith)
  have hrx : Near (10 + 10 * c) k.rad (orbital_distance h (RF.num R mu) (RF.num R k.e) (RF.num R k.nu) false * Np.cos (RF.num R k.nu)) k.rx :=
    (((r1.mul (Rel.cos k.nu)).mono (by linarith)).near (by
      rw [abs_mul, abs_of_pos hrad]; exact mul_le_of_le_one_right hrad.le (Real.abs_cos_le_one _)))
  have hry : Near (10 + 10 * c) k.rad (orbital_distance h (RF.num R mu) (RF.num R k.e) (RF.num R k.nu) false * Np.sin (RF.num R k.nu)) k.ry :=
    (((r1.mul (Rel.sin k.nu)).mono (by linarith)).near (by
      rw [abs_mul, abs_of_pos hrad]; exact mul_le_of_le_one_right hrad.le (Real.abs_sin_le_one _)))
  -- velocity
  have v1 : Rel (7 / 2 + 2 * c) (RF.num R mu / h) (mu / k.hm mu) := ((Rel.num (R := R) mu).div hh hhm.ne').mono (by linarith)
  have hV : 0 < mu / k.hm mu := div_pos hmu hhm
  have hvx : Near (7 + 2 * c) (mu / k.hm mu * (1 + k.e)) (-(RF.num R mu / h) * Np.sin (RF.num R k.nu)) (k.ux mu) :=
    ((v1.neg.mul (Rel.sin k.nu)).mono (by linarith)).near (by
      rw [abs_mul, abs_neg, abs_of_pos hV]
      exact mul_le_mul_of_nonneg_left ((Real.abs_sin_le_one _).trans (by linarith)) hV.le)
  have hvy : Near (7 + 2 * c) (mu / k.hm mu * (1 + k.e)) (RF.num R mu / h * (RF.num R k.e + Np.cos (RF.num R k.nu))) (k.uy mu) := by
    have e1 := Near.add (((Rel.num (R := R) k.e).near (B := k.e) (by rw [abs_of_nonneg h0])).mono (k := 1) (by norm_num) (by norm_num) le_rfl) (near_cos k.nu)
    have e2 := (v1.near (B := mu / k.hm mu) (by rw [abs_of_pos hV])).mul e1
    exact (e2.mono (by linarith) (by linarith) (le_of_eq (by ring)))
  obtain ⟨p1, p2, p3, q1, q2, q3⟩ := euler_near (R := R) k
  exact ⟨(near_row p1 q1 hrx hry).cast (by ring) rfl rfl, (near_row p2 q2 hrx hry).cast (by ring) rfl rfl,
    (near_row p3 q3 hrx hry).cast (by ring) rfl rfl, (near_row p1 q1 hvx hvy).cast (by ring) rfl rfl,
    (near_row p2 q2 hvx hvy).cast (by ring) rfl rfl, (near_row p3 q3 hvx hvy).cast (by ring) rfl rfl⟩

/-- the angular momentum that `kep_to_cart` computes (kepler.py 1746-1754) -/
theorem col_eq (gh : RF R) (mu : ℝ) (k : Kep ℝ) :
    (kepToCartCol gh .f64 (RF.num R mu) (k.num R)).1 = colOf
      (if k.e = 1 then parabolic_total_angular_momentum (RF.num R k.a) (RF.num R mu)
        else orbit_total_angular_momentum (if 1 < k.e then RF.num R k.a * -1 else RF.num R k.a) (RF.num R k.e) (RF.num R mu))
      (RF.num R mu) (k.num R) := by
  unfold kepToCartCol colOf
  simp only [store_f64, Kep.num, one_num, eq_num, lt_num, decide_eq_true_eq]
  by_cases h : k.e = 1
  · simp [h]
  · simp [h]

theorem kepToCartCol_near {k : Kep ℝ} {mu c : ℝ} (hp : Physical mu k) (hc : Condition k c) (hs : 12 * c * R.u ≤ 1) (gh : RF R) :
    CartNear (18 + 10 * c) (4 * k.rad) (15 + 2 * c) (4 * (mu / k.hm mu * (1 + k.e))) (kepToCartCol gh .f64 (RF.num R mu) (k.num R)).1 (k.state mu) := by
  obtain ⟨hmu, ha, h0, -⟩ := hp
  have h1c := hc.one_le
  have hu := R.u_nonneg
  rw [col_eq]
  refine colOf_near hmu ha h0 hc hs ?_
  by_cases h : k.e = 1
  · rw [if_pos h]
    exact (angmom_par_rel hmu ha h).mono (by linarith)
  · rw [if_neg h]
    have hs' : 8 * c * R.u ≤ 1 := by nlinarith
    by_cases h2 : 1 < k.e
    · rw [if_pos h2]
      have hA : Rel 1 (RF.num R k.a * -1) (k.a * -1) := by
        have := (Rel.num (R := R) k.a).mul (Rel.num (1 : ℝ)).neg
        rw [← one_num] at this
        exact this.mono (by norm_num)
      refine angmom_rel hmu ha h0 h hc hs' hA ?_
      rw [Kep.slr, if_neg h, abs_of_neg (by nlinarith)]; ring
    · rw [if_neg h2]
      have h3 : k.e < 1 := lt_of_le_of_ne (not_lt.mp h2) h
      refine angmom_rel hmu ha h0 h hc hs' ((Rel.num k.a).mono (by norm_num)) ?_
      rw [Kep.slr, if_neg h, abs_of_pos (by nlinarith)]

/-! ## C70 -/

theorem vlen_le {u : Fin 3 → ℝ} {B : ℝ} (h : ∀ i, |u i| ≤ B) : vlen u ≤ 2 * B := by
  have hB : 0 ≤ B := (abs_nonneg _).trans (h 0)
  unfold vlen
  rw [Real.sqrt_le_left (by linarith)]
  simp only [dotProduct, Fin.sum_univ_three]
  have hi : ∀ i, u i * u i ≤ B * B := fun i => by
    rw [← abs_mul_abs_self (u i)]
    exact mul_self_le_mul_self (abs_nonneg _) (h i)
  nlinarith [hi 0, hi 1, hi 2]

/-- one column of `kep_to_cart` with rounding, next to the exact state -/
theorem kepToCartCol_close (gh : RF R) {k : Kep ℝ} {mu c : ℝ} (hp : Physical mu k) (hc : Condition k c) (hs : 150 * c * R.u ≤ 1) :
    ∃ s' : Cart ℝ, (kepToCartCol gh .f64 (RF.num R mu) (k.num R)).1 = s'.num R ∧
      vlen (s'.r - (k.state mu).r) ≤ 300 * c * R.u * vlen (k.state mu).r ∧
      vlen (s'.v - (k.state mu).v) ≤ 200 * c * R.u * ((1 + k.e) * mu / vlen (angMom (k.state mu))) := by
  have hu := R.u_nonneg
  have h1c := hc.one_le
  have hcu : 0 ≤ c * R.u := mul_nonneg (by linarith) hu
  have hN := kepToCartCol_near (R := R) hp hc (by nlinarith) gh
  have hk1 : (0 : ℝ) ≤ 18 + 10 * c := by linarith
  have hk2 : (0 : ℝ) ≤ 15 + 2 * c := by linarith
  have hs1 : 4 * (18 + 10 * c) * R.u ≤ 1 := by nlinarith
  have hs2 : 4 * (15 + 2 * c) * R.u ≤ 1 := by nlinarith
  obtain ⟨x, x1, x2⟩ := hN.x.abs_le hk1 hs1
  obtain ⟨y, y1, y2⟩ := hN.y.abs_le hk1 hs1
  obtain ⟨z, z1, z2⟩ := hN.z.abs_le hk1 hs1
  obtain ⟨vx, vx1, vx2⟩ := hN.vx.abs_le hk2 hs2
  obtain ⟨vy, vy1, vy2⟩ := hN.vy.abs_le hk2 hs2
  obtain ⟨vz, vz1, vz2⟩ := hN.vz.abs_le hk2 hs2
  have hrad : vlen (k.state mu).r = k.rad := by rw [vlen_r, hp.adm.state_rn]
  have hmom : vlen (angMom (k.state mu)) = k.hm mu := by rw [vlen_angMom, hp.adm.state_hn]
  have hradp : 0 ≤ k.rad := by rw [← hrad]; exact Real.sqrt_nonneg _
  have hhm := k.hm_pos mu hp.1 hp.2.1 hp.2.2.1
  refine ⟨⟨x, y, z, vx, vy, vz⟩, by rw [Cart.num, ← x1, ← y1, ← z1, ← vx1, ← vy1, ← vz1], ?_, ?_⟩
  · refine (vlen_le (B := 4 / 3 * (18 + 10 * c) * R.u * (4 * k.rad)) ?_).trans ?_
    · intro i
      fin_cases i
      · exact x2
      · exact y2
      · exact z2
    · rw [hrad]
      nlinarith [mul_nonneg hu hradp, mul_nonneg hcu hradp, mul_nonneg (mul_nonneg (sub_nonneg.mpr h1c) hu) hradp]
  · have hw : 0 ≤ mu / k.hm mu * (1 + k.e) := mul_nonneg (div_nonneg hp.1.le hhm.le) (by linarith [hp.2.2.1])
    refine (vlen_le (B := 4 / 3 * (15 + 2 * c) * R.u * (4 * (mu / k.hm mu * (1 + k.e)))) ?_).trans ?_
    · intro i
      fin_cases i
      · exact vx2
      · exact vy2
      · exact vz2
    · rw [hmom, show (1 + k.e) * mu / k.hm mu = mu / k.hm mu * (1 + k.e) by ring]
      nlinarith [mul_nonneg hu hw, mul_nonneg hcu hw, mul_nonneg (mul_nonneg (sub_nonneg.mpr h1c) hu) hw]

/-- C70: in every arithmetic with unit roundoff `u`, for all physical elements with condition number `c`, `150 c u ≤ 1`: `kep_to_cart` returns a state
whose position differs from that of the exact state `s` of the elements by at most `300 c u` times the distance, and whose velocity by at most
`200 c u` times the speed at periapsis `(1 + e) mu / |r × v|`. -/
theorem c70 (g : Nat → RF R) {k : Kep ℝ} {mu c : ℝ} (hp : Physical mu k) (hc : Condition k c) (hs : 150 * c * R.u ≤ 1) :
    ∃ s s' : Cart ℝ, DescribesOrbit mu k s ∧ (kep_to_cart g (.sc (RF.num R mu)) false (.vec .f64 (k.num R))).1 = .ok (.vec .f64 (s'.num R)) ∧
      vlen (s'.r - s.r) ≤ 300 * c * R.u * vlen s.r ∧
      vlen (s'.v - s.v) ≤ 200 * c * R.u * ((1 + k.e) * mu / vlen (angMom s)) := by
  obtain ⟨s', h1, h2, h3⟩ := kepToCartCol_close (R := R) (g 0) hp hc hs
  refine ⟨k.state mu, s', hp.adm.describes, ?_, h2, h3⟩
  show (kep_to_cart g (.sc (RF.num R mu)) false (.vec .f64 (k.num R))).1 = _
  rw [← h1]
  rfl

/-- on an ellipse the condition number is at most `2 / (1 - e)` -/
theorem condition_ellipse {k : Kep ℝ} (h0 : 0 ≤ k.e) (h1 : k.e < 1) : Condition k (2 / (1 - k.e)) := by
  have hq : 0 < 1 - k.e := by linarith
  have hcos := Real.neg_one_le_cos k.nu
  have hd : 1 - k.e ≤ 1 + k.e * Real.cos k.nu := by nlinarith
  refine ⟨?_, ?_, fun _ => ?_⟩
  · rw [le_div_iff₀ hq]; linarith
  · calc 1 + k.e ≤ 2 / (1 - k.e) * (1 - k.e) := by rw [div_mul_cancel₀ _ hq.ne']; linarith
      _ ≤ _ := mul_le_mul_of_nonneg_left hd (by positivity)
  · rw [abs_of_pos (by nlinarith), show 1 - k.e ^ 2 = (1 - k.e) * (1 + k.e) by ring, ← mul_assoc, div_mul_cancel₀ _ hq.ne']
    nlinarith

/-- C70 on ellipses in double precision: relative errors of at most `7e-14 / (1 - e)` and `5e-14 / (1 - e)` -/
theorem c70_binary64 (g : Nat → RF Binary.binary64) {k : Kep ℝ} {mu : ℝ} (hmu : 0 < mu) (ha : 0 < k.a) (h0 : 0 ≤ k.e) (h1 : k.e ≤ 1 - 1 / 10 ^ 13) :
    ∃ s s' : Cart ℝ, DescribesOrbit mu k s ∧
      (kep_to_cart g (.sc (RF.num _ mu)) false (.vec .f64 (k.num _))).1 = .ok (.vec .f64 (s'.num Binary.binary64)) ∧
      vlen (s'.r - s.r) ≤ 7 / 10 ^ 14 / (1 - k.e) * vlen s.r ∧
      vlen (s'.v - s.v) ≤ 5 / 10 ^ 14 / (1 - k.e) * ((1 + k.e) * mu / vlen (angMom s)) := by
  have hlt : k.e < 1 := by
    have : (0 : ℝ) < 1 / 10 ^ 13 := by positivity
    linarith
  have hq : 0 < 1 - k.e := by linarith
  have hcos := Real.neg_one_le_cos k.nu
  have hphys : Physical mu k := ⟨hmu, ha, h0, by nlinarith⟩
  have hu : Binary.binary64.u = (1 / 2) ^ 53 := rfl
  have hq' : 1 / 10 ^ 13 ≤ 1 - k.e := by linarith
  obtain ⟨s, s', h2, h3, h4, h5⟩ := c70 (R := Binary.binary64) g hphys (condition_ellipse h0 hlt) (by
    rw [hu, mul_assoc, mul_comm_div, ← mul_assoc, ← mul_div_assoc, div_le_one hq]
    norm_num at hq' ⊢
    linarith)
  refine ⟨s, s', h2, h3, h4.trans ?_, h5.trans ?_⟩
  · refine mul_le_mul_of_nonneg_right ?_ (Real.sqrt_nonneg _)
    rw [hu, mul_assoc, mul_comm_div, ← mul_assoc, ← mul_div_assoc]
    refine div_le_div_of_nonneg_right ?_ hq.le
    norm_num
  · refine mul_le_mul_of_nonneg_right ?_ (div_nonneg (mul_nonneg (by linarith) hmu.le) (Real.sqrt_nonneg _))
    rw [hu, mul_assoc, mul_comm_div, ← mul_assoc, ← mul_div_assoc]
    refine div_le_div_of_nonneg_right ?_ hq.le
    norm_num

/-- a case of `c70` that is not an ellipse: a hyperbola with e = 2 at nu = 0 -/
example : Physical 1 ⟨1, 2, 1, 2, 3, 0⟩ ∧ Condition ⟨1, 2, 1, 2, 3, 0⟩ 2 := by
  refine ⟨⟨one_pos, one_pos, by norm_num, by norm_num⟩, by norm_num, by norm_num, fun _ => ?_⟩
  rw [abs_of_neg (by norm_num)]
  norm_num

end Pyorb
