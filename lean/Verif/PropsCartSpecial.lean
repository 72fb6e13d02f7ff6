import Verif.CartSpecial

/-!
# Nearly circular and equatorial orbits: Cartesian coordinates to elements and back with rounding (C116, C117)

`cart_to_kep` sets the argument of periapsis of a nearly circular orbit (`e ≤ 1e-9`) to zero and the node of an equatorial orbit to zero, and counts the true
anomaly or the argument of periapsis from there (kepler.py 455-524).
-/

set_option linter.unusedVariables false

namespace Pyorb
open FX RF Matrix
variable {R : Rounding}

/-- the state that comes back lies within `S a / (1 - e)` and `S a n / (1 - e)²` of the given one -/
structure BackWithin (R : Rounding) (g : Nat → CtkGarbage (RF R)) (g' : Nat → RF R) (mu : ℝ) (k : Kep ℝ) (c : Cart ℝ) (S : ℝ) : Prop where
  back : ∃ (kep : Kep (RF R)) (c' : Cart ℝ), (cart_to_kep g (.sc (RF.num R mu)) false (.vec .f64 (c.num R))).1 = .ok (.vec .f64 kep) ∧
      (kep_to_cart g' (.sc (RF.num R mu)) false (.vec .f64 kep)).1 = .ok (.vec .f64 (c'.num R)) ∧
      vlen (c'.r - c.r) ≤ k.a / (1 - k.e) * S ∧ vlen (c'.v - c.v) ≤ k.a * √(mu / k.a ^ 3) / (1 - k.e) ^ 2 * S

theorem BackWithin.mono {g : Nat → CtkGarbage (RF R)} {g' : Nat → RF R} {mu : ℝ} {k : Kep ℝ} {c : Cart ℝ} {S S' : ℝ} (h : BackWithin R g g' mu k c S) (ha : 0 < k.a) (he : k.e < 1)
    (hS : S ≤ S') : BackWithin R g g' mu k c S' := by
  obtain ⟨kep, c', h1, h2, h3, h4⟩ := h.back
  have hq : 0 < 1 - k.e := by linarith
  have hn := Real.sqrt_nonneg (mu / k.a ^ 3)
  exact ⟨kep, c', h1, h2, h3.trans (mul_le_mul_of_nonneg_left hS (by positivity)), h4.trans (mul_le_mul_of_nonneg_left hS (by positivity))⟩

namespace CartKep

theorem Aligned.within {g : Nat → CtkGarbage (RF R)} (g' : Nat → RF R) {mu : ℝ} (hmu : 0 < mu) {k kr k' : Kep ℝ} {c : Cart ℝ} {φ F0 α β γ D b : ℝ} (A : Aligned k kr k' φ F0 α β γ D b)
    (hd : DescribesOrbit mu k c) (hu : 10 ^ 5 * R.u ≤ 1 - k.e) (hk : cartToKepCol (g 0) .f64 (RF.num R mu) (c.num R) = k'.num R) (hF : Orbit.SamePoint k.e k.nu F0) :
    BackWithin R g g' mu k c (104 / 100 * b + 13 * D + 3 * α + 5 * β + 5 * γ + 1230 * R.u) := by
  obtain ⟨hak, he0, -, -, -⟩ := A.shapes
  have hphys : Physical mu k := ⟨hmu, hak, he0, by nlinarith [Real.neg_one_le_cos k.nu, A.e1]⟩
  have hc : c = ellipseState k √(mu / k.a ^ 3) F0 := by
    rw [Orbit.describes_unique hphys.adm hd]
    exact Orbit.state_point hmu hak he0 A.e1 false (k := k) (nu := k.nu) hF
  obtain ⟨c', h1, h2, h3⟩ := A.back hmu g' hc hu
  refine ⟨k'.num R, c', ?_, h1, h2, h3⟩
  rw [← hk]
  rfl

end CartKep

/-! ## C116 -/

open CartKep in
/-- C116: let the state `c` move on a nearly circular orbit that is not equatorial: `e + 250 u ≤ 9.9e-10`, `t = u / (1 - e)`, `10^6 t ≤ sin i` and
`200 t + 1e-16 ≤ sin² i`.  In every arithmetic that rounds to nearest, `cart_to_kep` followed by `kep_to_cart` returns a state whose position and velocity differ from the
given ones by at most `a / (1 - e)` and `a n / (1 - e)²` times `13 (T_Ω + T_i) + 2 T + 25 e + 5000 t`, where each `T` is `8 ε / (|sin θ| + sqrt ε)` for the
errors `ε = 120 t / sin i`, `140 t` and `600 t / sin i` of the cosines of the node, the inclination and the argument of latitude `ω + ν`.  The term `25 e` is there because
the direction of the periapsis is dropped. -/
theorem c116 (hR : Nearest R) (g : Nat → CtkGarbage (RF R)) (g' : Nat → RF R) {mu : ℝ} {k : Kep ℝ} {c : Cart ℝ} (hmu : 0 < mu) (hd : DescribesOrbit mu k c) (ha : 0 < k.a)
    (he0 : 0 ≤ k.e) (he : k.e + 250 * R.u ≤ 99 / 10 ^ 11) (hi0 : 0 < Real.sin k.i) (hs : 10 ^ 6 * (R.u / (1 - k.e)) ≤ Real.sin k.i)
    (hi : 200 * (R.u / (1 - k.e)) + 1 / 10 ^ 16 ≤ Real.sin k.i ^ 2) :
    BackWithin R g g' mu k c
      (13 * (angTol (120 * (R.u / (1 - k.e)) / Real.sin k.i) k.OM + angTol (140 * (R.u / (1 - k.e))) k.i) +
        2 * angTol (600 * (R.u / (1 - k.e)) / Real.sin k.i) (k.om + k.nu) + 25 * k.e + 5000 * (R.u / (1 - k.e))) := by
  have hu0 := R.u_nonneg
  have he' := he
  norm_num at he'
  have he1 : k.e < 1 := by linarith
  have hq : 0 < 1 - k.e := by linarith
  obtain ⟨k', F0, h1, h2, A⟩ := circ_aligned hR (g 0) hmu hd ha he0 he hi0 hs hi
  refine (A.within g' hmu hd (by norm_num; linarith) h1 h2).mono ha he1 ?_
  have htu : R.u ≤ R.u / (1 - k.e) := by rw [le_div_iff₀ hq]; nlinarith
  have hT := AngleDist.tol_nonneg (ε := 600 * (R.u / (1 - k.e)) / Real.sin k.i) (by positivity) (k.om + k.nu)
  linarith

open CartKep in
/-- C116, with one bound for all directions: `3000 sqrt (u / ((1 - e) sin i)) + 25 e`. -/
theorem c116_sqrt (hR : Nearest R) (g : Nat → CtkGarbage (RF R)) (g' : Nat → RF R) {mu : ℝ} {k : Kep ℝ} {c : Cart ℝ} (hmu : 0 < mu) (hd : DescribesOrbit mu k c) (ha : 0 < k.a)
    (he0 : 0 ≤ k.e) (he : k.e + 250 * R.u ≤ 99 / 10 ^ 11) (hi0 : 0 < Real.sin k.i) (hs : 10 ^ 6 * (R.u / (1 - k.e)) ≤ Real.sin k.i)
    (hi : 200 * (R.u / (1 - k.e)) + 1 / 10 ^ 16 ≤ Real.sin k.i ^ 2) :
    BackWithin R g g' mu k c (3000 * √(R.u / (1 - k.e) / Real.sin k.i) + 25 * k.e) := by
  have hu0 := R.u_nonneg
  have he' := he
  norm_num at he'
  have he1 : k.e < 1 := by linarith
  have hq : 0 < 1 - k.e := by linarith
  refine (c116 hR g g' hmu hd ha he0 he hi0 hs hi).mono ha he1 ?_
  have hsi1 := Real.sin_le_one k.i
  obtain ⟨t, ht⟩ : ∃ t, t = R.u / (1 - k.e) := ⟨_, rfl⟩
  have ht0 : 0 ≤ t := by rw [ht]; positivity
  rw [← ht] at hs ⊢
  obtain ⟨τ, hτ⟩ : ∃ τ, τ = t / Real.sin k.i := ⟨_, rfl⟩
  have hτ0 : 0 ≤ τ := by rw [hτ]; positivity
  have hτ1 : τ ≤ 1 / 10 ^ 6 := by rw [hτ, div_le_iff₀ hi0]; linarith
  have htτ : t ≤ τ := by rw [hτ, le_div_iff₀ hi0]; exact mul_le_of_le_one_right ht0 hsi1
  rw [← hτ]
  have hr0 := Real.sqrt_nonneg τ
  have sq : ∀ {ε θ C c : ℝ}, 0 ≤ ε → ε ≤ C * τ → 0 ≤ c → C ≤ c ^ 2 → angTol ε θ ≤ 8 * (c * √τ) := by
    intro ε θ C c a b d f
    refine (AngleDist.tol_le_sqrt a θ).trans ?_
    refine mul_le_mul_of_nonneg_left ?_ (by norm_num)
    rw [Real.sqrt_le_left (by positivity), mul_pow, Real.sq_sqrt hτ0]
    exact b.trans (mul_le_mul_of_nonneg_right f hτ0)
  have a1 := sq (ε := 120 * t / Real.sin k.i) (θ := k.OM) (C := 120) (c := 11) (by positivity) (by rw [mul_div_assoc, ← hτ]) (by norm_num) (by norm_num)
  have a2 := sq (ε := 140 * t) (θ := k.i) (C := 140) (c := 12) (by positivity) (by linarith) (by norm_num) (by norm_num)
  have a4 := sq (ε := 600 * t / Real.sin k.i) (θ := k.om + k.nu) (C := 600) (c := 25) (by positivity) (by rw [mul_div_assoc, ← hτ]) (by norm_num) (by norm_num)
  have a7 : t ≤ 1 / 1000 * √τ := by
    have e1 := Real.mul_self_sqrt hτ0
    have e2 : √τ ≤ 1 / 1000 := by rw [Real.sqrt_le_left (by norm_num)]; norm_num at hτ1 ⊢; exact hτ1
    have := mul_le_mul_of_nonneg_right e2 hr0
    linarith
  linarith

open CartKep in
/-- C116 in double precision, for `e ≤ 9.8e-10`, `sin i ≥ 0.1` and sines of the node and of the argument of latitude of at least 0.1 in absolute value: the position comes back with an error
of at most `(25 e + 3e-10) a / (1 - e)`, the velocity with one of at most `(25 e + 3e-10) a n / (1 - e)²`. -/
theorem c116_binary64 (g : Nat → CtkGarbage (RF Binary.binary64)) (g' : Nat → RF Binary.binary64) {mu : ℝ} {k : Kep ℝ} {c : Cart ℝ} (hmu : 0 < mu) (hd : DescribesOrbit mu k c)
    (ha : 0 < k.a) (he0 : 0 ≤ k.e) (he1 : k.e ≤ 98 / 10 ^ 11) (hi : 1 / 10 ≤ Real.sin k.i) (hOM : 1 / 10 ≤ |Real.sin k.OM|) (hlat : 1 / 10 ≤ |Real.sin (k.om + k.nu)|) :
    BackWithin Binary.binary64 g g' mu k c (25 * k.e + 3 / 10 ^ 10) := by
  have hu : Binary.binary64.u = (1 / 2) ^ 53 := rfl
  have hu0 := Binary.binary64.u_nonneg
  have hu1 : Binary.binary64.u ≤ 1112 / 10 ^ 19 := by rw [hu]; norm_num
  norm_num at he1 hu1
  have hq0 : 0 < 1 - k.e := by linarith
  have ht1 : Binary.binary64.u / (1 - k.e) ≤ 112 / 10 ^ 18 := by
    rw [div_le_iff₀ hq0]
    norm_num
    linarith
  have ht0 : 0 ≤ Binary.binary64.u / (1 - k.e) := div_nonneg hu0 hq0.le
  have hi2 := pow_le_pow_left₀ (by norm_num) hi 2
  refine (c116 Binary.nearest g g' hmu hd ha he0 (by norm_num; linarith) (by linarith) (by norm_num at ht1 ⊢; linarith) (by norm_num at ht1 hi2 ⊢; linarith)).mono ha (by linarith) ?_
  clear hu
  generalize Binary.binary64.u / (1 - k.e) = t at *
  have gen : ∀ {ε θ B : ℝ}, 0 ≤ ε → ε ≤ B → 1 / 10 ≤ |Real.sin θ| → angTol ε θ ≤ 80 * B := by
    intro ε θ B a b d
    refine (AngleDist.tol_le_sin a (by norm_num) d).trans ?_
    linarith
  have hi0 : 0 < Real.sin k.i := by linarith
  have a1 := gen (ε := 120 * t / Real.sin k.i) (θ := k.OM) (B := 1200 * t) (by positivity) (by
    rw [div_le_iff₀ hi0]; have := mul_le_mul_of_nonneg_left hi (show 0 ≤ 1200 * t by linarith); linarith) hOM
  have a2 := gen (ε := 140 * t) (θ := k.i) (B := 140 * t) (by positivity) le_rfl (hi.trans (le_abs_self _))
  have a3 := gen (ε := 600 * t / Real.sin k.i) (θ := k.om + k.nu) (B := 6000 * t) (by positivity) (by
    rw [div_le_iff₀ hi0]; have := mul_le_mul_of_nonneg_left hi (show 0 ≤ 6000 * t by linarith); linarith) hlat
  norm_num at ht1 ⊢
  linarith

/-- a case of `c116_binary64`: the state on a circle whose node, inclination and anomaly are 30 degrees -/
example : ∃ c : Cart ℝ, DescribesOrbit 1 ⟨2, 0, Real.pi / 6, 0, Real.pi / 6, Real.pi / 6⟩ c ∧ 1 / 10 ≤ |Real.sin (Real.pi / 6)| ∧ 1 / 10 ≤ |Real.sin (0 + Real.pi / 6)| := by
  have hp : Physical 1 (⟨2, 0, Real.pi / 6, 0, Real.pi / 6, Real.pi / 6⟩ : Kep ℝ) := by
    refine ⟨by norm_num, by norm_num, by norm_num, ?_⟩
    show 0 < 1 + 0 * Real.cos (Real.pi / 6)
    norm_num
  refine ⟨_, hp.adm.describes, ?_⟩
  rw [zero_add, Real.sin_pi_div_six]
  norm_num

/-! ## C117 -/

open CartKep in
/-- C117: let the state `c` move on an equatorial ellipse, in either sense, that is not nearly circular: `sin i = 0`, `3e-9 ≤ e`, `t = u / (1 - e)` and `10^6 t ≤ e`.  In every arithmetic
that rounds to nearest, `cart_to_kep` followed by `kep_to_cart` returns a state whose position and velocity differ from the given ones by at most `a / (1 - e)` and `a n / (1 - e)²` times
`13 T_ϖ + 4 sqrt ((1 + e) / (1 - e)) T_ν + 5000 t`, where `ϖ = ω + cos i Ω` and each `T` is `8 ε / (|sin θ| + sqrt ε)` for the error `ε = 2000 u / e` of the cosines. -/
theorem c117 (hR : Nearest R) (g : Nat → CtkGarbage (RF R)) (g' : Nat → RF R) {mu : ℝ} {k : Kep ℝ} {c : Cart ℝ} (hmu : 0 < mu) (hd : DescribesOrbit mu k c) (ha : 0 < k.a)
    (he0 : 3 / 10 ^ 9 ≤ k.e) (he1 : k.e < 1) (hi : Real.sin k.i = 0) (hs : 10 ^ 6 * (R.u / (1 - k.e)) ≤ k.e) :
    BackWithin R g g' mu k c
      (13 * angTol (2000 * R.u / k.e) (k.om + Real.cos k.i * k.OM) + 4 * √((1 + k.e) / (1 - k.e)) * angTol (2000 * R.u / k.e) k.nu + 5000 * (R.u / (1 - k.e))) := by
  have hu0 := R.u_nonneg
  have hep : 0 < k.e := lt_of_lt_of_le (by norm_num) he0
  have hq : 0 < 1 - k.e := by linarith
  obtain ⟨k', F0, h1, h2, A⟩ := plane_aligned hR (g 0) hmu hd ha he0 he1 hi hs
  refine (A.within g' hmu hd ?_ h1 h2).mono ha he1 ?_
  · rw [mul_div_assoc', div_le_iff₀ hq] at hs
    have := mul_le_of_le_one_left hq.le he1.le
    norm_num at hs ⊢
    linarith
  · have htu : R.u ≤ R.u / (1 - k.e) := by rw [le_div_iff₀ hq]; nlinarith
    have hT : 0 ≤ √((1 + k.e) / (1 - k.e)) * angTol (2000 * R.u / k.e) k.nu := mul_nonneg (Real.sqrt_nonneg _) (AngleDist.tol_nonneg (by positivity) _)
    linarith

open CartKep in
/-- C117 for nearly circular equatorial orbits, `e + 250 u ≤ 9.9e-10`: the factor is `2 T + 25 e + 5000 t` for the error `ε = 100 u` of the cosine of the true longitude `ν + ω + cos i Ω`. -/
theorem c117_circular (hR : Nearest R) (g : Nat → CtkGarbage (RF R)) (g' : Nat → RF R) {mu : ℝ} {k : Kep ℝ} {c : Cart ℝ} (hmu : 0 < mu) (hd : DescribesOrbit mu k c) (ha : 0 < k.a)
    (he0 : 0 ≤ k.e) (he : k.e + 250 * R.u ≤ 99 / 10 ^ 11) (hi : Real.sin k.i = 0) :
    BackWithin R g g' mu k c (2 * angTol (100 * R.u) (k.nu + (k.om + Real.cos k.i * k.OM)) + 25 * k.e + 5000 * (R.u / (1 - k.e))) := by
  have hu0 := R.u_nonneg
  have he' := he
  norm_num at he'
  have he1 : k.e < 1 := by linarith
  have hq : 0 < 1 - k.e := by linarith
  obtain ⟨k', F0, h1, h2, A⟩ := plane_circ_aligned hR (g 0) hmu hd ha he0 he hi
  refine (A.within g' hmu hd (by norm_num; linarith) h1 h2).mono ha he1 ?_
  have htu : R.u ≤ R.u / (1 - k.e) := by rw [le_div_iff₀ hq]; nlinarith
  have hT := AngleDist.tol_nonneg (ε := 100 * R.u) (by positivity) (k.nu + (k.om + Real.cos k.i * k.OM))
  linarith

open CartKep in
/-- C117 in double precision: on every equatorial ellipse with `0.1 ≤ e ≤ 0.9` the position comes back with an error of at most `6e-4 a / (1 - e)` and the velocity with one of at most
`6e-4 a n / (1 - e)²`; with sines of `ϖ` and `ν` of at least 0.1 in absolute value the factor is `1e-8`. -/
theorem c117_binary64 (g : Nat → CtkGarbage (RF Binary.binary64)) (g' : Nat → RF Binary.binary64) {mu : ℝ} {k : Kep ℝ} {c : Cart ℝ} (hmu : 0 < mu) (hd : DescribesOrbit mu k c)
    (ha : 0 < k.a) (he0 : 1 / 10 ≤ k.e) (he1 : k.e ≤ 9 / 10) (hi : Real.sin k.i = 0) :
    BackWithin Binary.binary64 g g' mu k c (6 / 10 ^ 4) ∧
    (1 / 10 ≤ |Real.sin (k.om + Real.cos k.i * k.OM)| → 1 / 10 ≤ |Real.sin k.nu| → BackWithin Binary.binary64 g g' mu k c (1 / 10 ^ 8)) := by
  have hu : Binary.binary64.u = (1 / 2) ^ 53 := rfl
  have hu0 := Binary.binary64.u_nonneg
  have hu1 : Binary.binary64.u ≤ 1112 / 10 ^ 19 := by rw [hu]; norm_num
  have hq : (1 / 10 : ℝ) ≤ 1 - k.e := by linarith
  have hq0 : 0 < 1 - k.e := by linarith
  have ht1 : Binary.binary64.u / (1 - k.e) ≤ 1112 / 10 ^ 18 := by
    rw [div_le_iff₀ hq0]
    have := mul_le_mul_of_nonneg_left hq (show (0 : ℝ) ≤ 1112 / 10 ^ 18 by norm_num)
    norm_num at hu1 this ⊢
    linarith
  have ht0 : 0 ≤ Binary.binary64.u / (1 - k.e) := div_nonneg hu0 hq0.le
  have hep : 0 < k.e := by linarith
  have h := c117 Binary.nearest g g' hmu hd ha (by norm_num at he0 ⊢; linarith) (by linarith) hi (by norm_num at ht1 ⊢; linarith)
  have hε : 2000 * Binary.binary64.u / k.e ≤ 2224 / 10 ^ 15 := by
    rw [div_le_iff₀ hep]
    have := mul_le_mul_of_nonneg_left he0 (show (0 : ℝ) ≤ 2224 / 10 ^ 15 by norm_num)
    norm_num at hu1 this ⊢
    linarith
  have hε0 : 0 ≤ 2000 * Binary.binary64.u / k.e := div_nonneg (by linarith) hep.le
  have hc : √((1 + k.e) / (1 - k.e)) ≤ 5 := by
    rw [Real.sqrt_le_left (by norm_num), div_le_iff₀ hq0]; linarith
  clear hu
  generalize Binary.binary64.u / (1 - k.e) = t at *
  generalize 2000 * Binary.binary64.u / k.e = ε at *
  constructor
  · refine h.mono ha (by linarith) ?_
    have hr : √ε ≤ 15 / 10 ^ 7 := by rw [Real.sqrt_le_left (by norm_num)]; norm_num at hε ⊢; linarith
    have a1 := AngleDist.tol_le_sqrt hε0 (k.om + Real.cos k.i * k.OM)
    have a2 := AngleDist.tol_le_sqrt hε0 k.nu
    have a3 := mul_le_mul hc a2 (AngleDist.tol_nonneg hε0 _) (by norm_num)
    norm_num at ht1 hr ⊢
    linarith
  · intro s1 s2
    refine h.mono ha (by linarith) ?_
    have a1 := AngleDist.tol_le_sin hε0 (by norm_num) s1
    have a2 := AngleDist.tol_le_sin hε0 (by norm_num) s2
    have a3 := mul_le_mul hc a2 (AngleDist.tol_nonneg hε0 _) (by norm_num)
    norm_num at ht1 hε a1 a3 ⊢
    linarith

open CartKep in
/-- C117 in double precision for nearly circular equatorial orbits, `e ≤ 9.8e-10`, at every point: the factor is `2e-6`. -/
theorem c117_circular_binary64 (g : Nat → CtkGarbage (RF Binary.binary64)) (g' : Nat → RF Binary.binary64) {mu : ℝ} {k : Kep ℝ} {c : Cart ℝ} (hmu : 0 < mu) (hd : DescribesOrbit mu k c)
    (ha : 0 < k.a) (he0 : 0 ≤ k.e) (he1 : k.e ≤ 98 / 10 ^ 11) (hi : Real.sin k.i = 0) : BackWithin Binary.binary64 g g' mu k c (2 / 10 ^ 6) := by
  have hu : Binary.binary64.u = (1 / 2) ^ 53 := rfl
  have hu0 := Binary.binary64.u_nonneg
  have hu1 : Binary.binary64.u ≤ 1112 / 10 ^ 19 := by rw [hu]; norm_num
  norm_num at he1 hu1
  have hq0 : 0 < 1 - k.e := by linarith
  have ht1 : Binary.binary64.u / (1 - k.e) ≤ 112 / 10 ^ 18 := by
    rw [div_le_iff₀ hq0]
    norm_num
    linarith
  refine (c117_circular Binary.nearest g g' hmu hd ha he0 (by norm_num; linarith) hi).mono ha (by linarith) ?_
  clear hu
  generalize Binary.binary64.u / (1 - k.e) = t at *
  generalize Binary.binary64.u = u at *
  have hr : √(100 * u) ≤ 106 / 10 ^ 9 := by rw [Real.sqrt_le_left (by norm_num)]; norm_num; linarith
  have a1 := AngleDist.tol_le_sqrt (ε := 100 * u) (by linarith) (k.nu + (k.om + Real.cos k.i * k.OM))
  generalize √(100 * u) = w at *
  norm_num at ht1 hr ⊢
  linarith

/-- cases of C117: a retrograde ellipse and a circle in the equatorial plane -/
example : (∃ c : Cart ℝ, DescribesOrbit 1 ⟨2, 1 / 2, Real.pi, 1, 1, 2⟩ c) ∧ (∃ c : Cart ℝ, DescribesOrbit 1 ⟨2, 0, 0, 0, 0, 2⟩ c) ∧ Real.sin Real.pi = 0 ∧ Real.sin 0 = 0 := by
  have hp : Physical 1 (⟨2, 1 / 2, Real.pi, 1, 1, 2⟩ : Kep ℝ) := by
    refine ⟨by norm_num, by norm_num, by norm_num, ?_⟩
    show 0 < 1 + 1 / 2 * Real.cos 2
    have := Real.neg_one_le_cos 2
    linarith
  have hp' : Physical 1 (⟨2, 0, 0, 0, 0, 2⟩ : Kep ℝ) := by
    refine ⟨by norm_num, by norm_num, by norm_num, ?_⟩
    show 0 < 1 + 0 * Real.cos 2
    norm_num
  exact ⟨⟨_, hp.adm.describes⟩, ⟨_, hp'.adm.describes⟩, Real.sin_pi, Real.sin_zero⟩

end Pyorb
