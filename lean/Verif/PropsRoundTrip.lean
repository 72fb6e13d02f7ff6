import Verif.OrbitSpec
import Verif.PropsRot
import Mathlib.Analysis.Real.Pi.Bounds

/-!
# C01-C04, C15, C50: `kep_to_cart` and `cart_to_kep` on arrays

The statements are about the public functions (`Verif/KeplerArr.lean`) applied to `(6,N)` arrays or 6-vectors of finite
floats, for a scalar gravitational parameter or one per object, in radians or degrees.
-/

namespace Pyorb
open FX Matrix

/-! ## Units and gravitational parameters -/

/-- the elements in radians denoted by an element column given in degrees (`deg`) or radians -/
noncomputable def Kep.inRad (deg : Bool) (k : Kep ℝ) : Kep ℝ :=
  ⟨k.a, k.e, angleOf deg k.i, angleOf deg k.om, angleOf deg k.OM, angleOf deg k.nu⟩

/-- the `mu` argument denotes the gravitational parameters `mus`, one per object -/
inductive MuIs : Mu FX → List ℝ → Prop
  /-- a number, used for each of the `n` objects -/
  | sc (m : ℝ) (n : ℕ) : MuIs (.sc (fin m)) (List.replicate n m)
  /-- an array -/
  | arr (ms : List ℝ) : MuIs (.arr (ms.map fin)) ms

theorem MuIs.toList {mu : Mu FX} {mus : List ℝ} (h : MuIs mu mus) {n : ℕ} (hl : mus.length = n) :
    mu.toList n = mus.map fin := by
  cases h with
  | sc m n' => simp [Mu.toList] at *; rw [hl]
  | arr ms => rfl

theorem MuIs.broadcast {mu : Mu FX} {mus : List ℝ} (h : MuIs mu mus) {n : ℕ} (hl : mus.length = n) :
    mu.broadcast n = some (mus.map fin) := by
  cases h with
  | sc m n' => simp [Mu.broadcast] at *; rw [hl]
  | arr =>
    match mus, hl with
    | [], hl => simp [Mu.broadcast] at *; omega
    | [x], hl => simp at hl; subst hl; simp [Mu.broadcast]
    | x :: y :: t, hl => simp [Mu.broadcast] at *; omega

theorem Kep.toRadians_fx (k : Kep ℝ) : k.fx.toRadians .f64 = (k.inRad true).fx := by
  simp [Kep.toRadians, Kep.fx, Kep.inRad, angleOf]

theorem Kep.toDegrees_inRad (k : Kep ℝ) : ((k.inRad true).fx).toDegrees .f64 = k.fx := by
  have : ∀ x : ℝ, x * (Real.pi / 180) * (180 / Real.pi) = x := by
    intro x; have := Real.pi_ne_zero; field_simp
  simp [Kep.toDegrees, Kep.fx, Kep.inRad, angleOf, this]

theorem Kep.inRad_false (k : Kep ℝ) : k.inRad false = k := rfl

/-- column of `kep_to_cart` including units: result -/
theorem kepToCart_fst (gh : FX) {mu : ℝ} {k : Kep ℝ} {deg : Bool} (h : (k.inRad deg).Adm mu) :
    (kepToCart gh .f64 (fin mu) deg k.fx).1 = ((k.inRad deg).state mu).fx := by
  have := kepToCartCol_eq gh mu (k.inRad deg) h.hmu h.ha h.he h.hc.ne'
  cases deg
  · simp only [kepToCart, Bool.false_eq_true, if_false]
    rw [Kep.inRad_false] at this ⊢
    rw [this]
  · simp only [kepToCart, if_true]
    rw [Kep.toRadians_fx, this]

/-- column of `cart_to_kep` including units, on the state of canonical elements -/
theorem cartToKep_state (g : CtkGarbage FX) {mu : ℝ} {k : Kep ℝ} {deg : Bool} (hk : Canonical (k.inRad deg))
    (hmu : 0 < mu) : cartToKep g .f64 (fin mu) deg ((k.inRad deg).state mu).fx = k.fx := by
  have h1 := hk.roundtrip hmu (fin 0) g
  have h := hk.adm hmu
  rw [kepToCartCol_eq _ mu _ hmu h.ha h.he h.hc.ne'] at h1
  cases deg
  · simp only [cartToKep, Bool.false_eq_true, if_false]
    exact h1
  · simp only [cartToKep, if_true]
    rw [h1, Kep.toDegrees_inRad]

/-! ## C01 -/

/-- C01: for `N` canonical element sets (any N, ellipses and hyperbolas mixed), `kep_to_cart` succeeds and `cart_to_kep`
returns exactly the original array, whatever uninitialised memory contains. -/
theorem c01_kep_cart_kep (g : Nat → FX) (g' : Nat → CtkGarbage FX) (mu : Mu FX) (mus : List ℝ) (deg : Bool)
    (ks : List (Kep ℝ)) (hmu : MuIs mu mus) (hpos : ∀ m ∈ mus, 0 < m) (hl : mus.length = ks.length)
    (hk : ∀ k ∈ ks, Canonical (k.inRad deg)) :
    ∃ cart, (kep_to_cart g mu deg (.mat .f64 (ks.map Kep.fx))).1 = .ok cart ∧
      (cart_to_kep g' mu deg cart).1 = .ok (.mat .f64 (ks.map Kep.fx)) := by
  have e1 : (kep_to_cart g mu deg (.mat .f64 (ks.map Kep.fx))).1
      = .ok (.mat .f64 (List.zipWith (fun m k => ((Kep.inRad deg k).state m).fx) mus ks)) := by
    simp only [kep_to_cart, kepToCartMat]
    rw [hmu.toList (by simpa using hl)]
    rw [if_pos (by simpa using hl)]
    simp only [Except.ok.injEq, Arg6.mat.injEq, true_and]
    apply List.ext_getElem
    · simp
    · intro j h1 h2
      have hj : j < ks.length := by simp at h2; omega
      have hj' : j < mus.length := by omega
      simp only [List.getElem_map, List.getElem_mapIdx, List.getElem_zip, List.getElem_zipWith]
      exact kepToCart_fst _ ((hk _ (List.getElem_mem hj)).adm (hpos _ (List.getElem_mem hj')))
  refine ⟨_, e1, ?_⟩
  simp only [cart_to_kep, cartToKepMat]
  rw [hmu.broadcast (by simp; omega)]
  simp only [Except.ok.injEq, Arg6.mat.injEq, true_and]
  apply List.ext_getElem
  · simp; omega
  · intro j h1 h2
    have hj : j < ks.length := by simpa using h2
    have hj' : j < mus.length := by omega
    simp only [List.getElem_map, List.getElem_mapIdx, List.getElem_zip, List.getElem_zipWith]
    exact cartToKep_state _ (hk _ (List.getElem_mem hj)) (hpos _ (List.getElem_mem hj'))

/-- C01 for a single 6-vector. -/
theorem c01_kep_cart_kep_vec (g : Nat → FX) (g' : Nat → CtkGarbage FX) (mu : ℝ) (deg : Bool) (k : Kep ℝ) (hmu : 0 < mu)
    (hk : Canonical (k.inRad deg)) :
    ∃ cart, (kep_to_cart g (.sc (fin mu)) deg (.vec .f64 k.fx)).1 = .ok cart ∧
      (cart_to_kep g' (.sc (fin mu)) deg cart).1 = .ok (.vec .f64 k.fx) := by
  have e1 : (kep_to_cart g (.sc (fin mu)) deg (.vec .f64 k.fx)).1 = .ok (.vec .f64 ((Kep.inRad deg k).state mu).fx) := by
    simp [kep_to_cart, kepToCartMat, Mu.toList, kepToCart_fst _ (hk.adm hmu)]
  refine ⟨_, e1, ?_⟩
  simp [cart_to_kep, cartToKepMat, Mu.broadcast, cartToKep_state _ hk hmu]

/-! ## C02 -/

/-- A state covered by C02: non-zero angular momentum, not a parabola, clearly eccentric or exactly circular, clearly
inclined or exactly planar. -/
structure Regular (mu : ℝ) (c : Cart ℝ) : Prop where
  rotating : angMom c ≠ 0
  not_parabolic : vlen (eccVec mu c) ≠ 1
  ecc : eLim < vlen (eccVec mu c) ∨ eccVec mu c = 0
  inc : (iLim < inclination c ∧ inclination c < Real.pi - iLim) ∨ (angMom c 0 = 0 ∧ angMom c 1 = 0)

theorem Regular.exists_canonical {mu : ℝ} {c : Cart ℝ} (hmu : 0 < mu) (h : Regular mu c) :
    ∃ k, Canonical k ∧ k.state mu = c := by
  have hh := angMom_ne_zero h.rotating
  apply c.exists_canonical hmu hh
  · rw [← vlen_eccVec hmu hh]; exact h.not_parabolic
  · rcases h.ecc with h1 | h1
    · left; rw [Cart.EG, ← vlen_eccVec hmu hh]; exact h1
    · right; rw [← vlen_eccVec hmu hh, h1]; simp [vlen]
  · rcases h.inc with h1 | ⟨h1, h2⟩
    · left; rw [Cart.IG, ← inclination_eq]; exact h1
    · right; rw [angMom_eq] at h1 h2; exact ⟨h1, h2⟩

/-- the elements in the unit of the `degrees` flag -/
noncomputable def Kep.outDeg (deg : Bool) (k : Kep ℝ) : Kep ℝ :=
  if deg then ⟨k.a, k.e, k.i * (180 / Real.pi), k.om * (180 / Real.pi), k.OM * (180 / Real.pi), k.nu * (180 / Real.pi)⟩
  else k

theorem Kep.inRad_outDeg (deg : Bool) (k : Kep ℝ) : (k.outDeg deg).inRad deg = k := by
  have : ∀ x : ℝ, x * (180 / Real.pi) * (Real.pi / 180) = x := by
    intro x; have := Real.pi_ne_zero; field_simp
  cases deg
  · rfl
  · simp [Kep.outDeg, Kep.inRad, angleOf, this]

theorem Regular.columns {mu : ℝ} {c : Cart ℝ} (hmu : 0 < mu) (h : Regular mu c) (deg : Bool) :
    ∃ k : Kep ℝ, Canonical (k.inRad deg) ∧ (k.inRad deg).state mu = c := by
  obtain ⟨k, hk, hs⟩ := h.exists_canonical hmu
  refine ⟨k.outDeg deg, ?_, ?_⟩
  · rw [Kep.inRad_outDeg]; exact hk
  · rw [Kep.inRad_outDeg]; exact hs

/-- C02: for `N` regular states, `cart_to_kep` succeeds and `kep_to_cart` returns exactly the original array. -/
theorem c02_cart_kep_cart (g : Nat → FX) (g' : Nat → CtkGarbage FX) (mu : Mu FX) (mus : List ℝ) (deg : Bool)
    (cs : List (Cart ℝ)) (hmu : MuIs mu mus) (hpos : ∀ m ∈ mus, 0 < m) (hl : mus.length = cs.length)
    (hc : ∀ p ∈ mus.zip cs, Regular p.1 p.2) :
    ∃ kep, (cart_to_kep g' mu deg (.mat .f64 (cs.map Cart.fx))).1 = .ok kep ∧
      (kep_to_cart g mu deg kep).1 = .ok (.mat .f64 (cs.map Cart.fx)) := by
  -- choose elements for every column
  have hex : ∃ ks : List (Kep ℝ), ks.length = cs.length ∧ ∀ j (h1 : j < ks.length) (h2 : j < cs.length)
      (h3 : j < mus.length), Canonical ((ks[j]).inRad deg) ∧ ((ks[j]).inRad deg).state mus[j] = cs[j] := by
    have hcol : ∀ j : Fin cs.length, ∃ k : Kep ℝ, Canonical (k.inRad deg) ∧
        (k.inRad deg).state (mus[j.1]'(by omega)) = cs[j.1] := by
      intro j
      have hj : j.1 < mus.length := by omega
      refine Regular.columns (hpos _ (List.getElem_mem hj)) (hc (mus[j.1], cs[j.1]) ?_) deg
      rw [List.mem_iff_getElem]
      exact ⟨j.1, by simp; omega, by simp⟩
    choose f hf using hcol
    refine ⟨List.ofFn f, by simp, ?_⟩
    intro j h1 h2 h3
    simpa using hf ⟨j, h2⟩
  obtain ⟨ks, hkl, hks⟩ := hex
  refine ⟨.mat .f64 (ks.map Kep.fx), ?_, ?_⟩
  · simp only [cart_to_kep, cartToKepMat]
    rw [hmu.broadcast (by simp; omega)]
    simp only [Except.ok.injEq, Arg6.mat.injEq, true_and]
    apply List.ext_getElem
    · simp; omega
    · intro j h1 h2
      have hj : j < ks.length := by simpa using h2
      have hj' : j < mus.length := by omega
      obtain ⟨k1, k2⟩ := hks j hj (by omega) hj'
      simp only [List.getElem_map, List.getElem_mapIdx, List.getElem_zip]
      rw [← k2]
      exact cartToKep_state _ k1 (hpos _ (List.getElem_mem hj'))
  · simp only [kep_to_cart, kepToCartMat]
    rw [hmu.toList (by simp; omega)]
    rw [if_pos (by simp; omega)]
    simp only [Except.ok.injEq, Arg6.mat.injEq, true_and]
    apply List.ext_getElem
    · simp; omega
    · intro j h1 h2
      have hj : j < cs.length := by simpa using h2
      have hj' : j < mus.length := by omega
      obtain ⟨k1, k2⟩ := hks j (by omega) hj hj'
      simp only [List.getElem_map, List.getElem_mapIdx, List.getElem_zip]
      rw [← k2]
      exact kepToCart_fst _ (k1.adm (hpos _ (List.getElem_mem hj')))

/-! ## C03 -/

/-- The state `c` is the point of true anomaly `nu` of the orbit with elements `k` (angles in radians, `a` the periapsis
distance when `e = 1`) around a body with gravitational parameter `mu`.  `R` is the orientation given by the three
Euler angles; its columns are the periapsis direction, the direction of motion at periapsis and the orbit normal. -/
structure DescribesOrbit (mu : ℝ) (k : Kep ℝ) (c : Cart ℝ) : Prop where
  distance : vlen c.r = (if k.e = 1 then 2 * k.a else k.a * |1 - k.e ^ 2|) / (1 + k.e * Real.cos k.nu)
  position : c.r = vlen c.r • (Real.cos k.nu • (RZ k.OM * RX k.i * RZ k.om) *ᵥ ex
    + Real.sin k.nu • (RZ k.OM * RX k.i * RZ k.om) *ᵥ ey)
  ang_mom : angMom c = √(mu * if k.e = 1 then 2 * k.a else k.a * |1 - k.e ^ 2|) • (RZ k.OM * RX k.i * RZ k.om) *ᵥ ez
  normal : (RZ k.OM * RX k.i * RZ k.om) *ᵥ ez
    = ![Real.sin k.OM * Real.sin k.i, -Real.cos k.OM * Real.sin k.i, Real.cos k.i]
  ecc : eccVec mu c = k.e • (RZ k.OM * RX k.i * RZ k.om) *ᵥ ex
  energy_ell : k.e < 1 → energy mu c = -mu / (2 * k.a)
  energy_par : k.e = 1 → energy mu c = 0
  energy_hyp : 1 < k.e → energy mu c = mu / (2 * k.a)

/-- physical elements: `mu > 0`, `a > 0`, `e >= 0` and the anomaly on the orbit's branch -/
def Physical (mu : ℝ) (k : Kep ℝ) : Prop := 0 < mu ∧ 0 < k.a ∧ 0 ≤ k.e ∧ 0 < 1 + k.e * Real.cos k.nu

theorem Physical.adm {mu : ℝ} {k : Kep ℝ} (h : Physical mu k) : k.Adm mu := ⟨h.1, h.2.1, h.2.2.1, h.2.2.2⟩

theorem Kep.frame_ex (k : Kep ℝ) : (RZ k.OM * RX k.i * RZ k.om) *ᵥ ex = ![k.px, k.py, k.pz] := by
  ext i; fin_cases i <;>
    simp [RZ, RX, ex, Matrix.mulVec, dotProduct, Matrix.mul_apply, Fin.sum_univ_three, Kep.px, Kep.py, Kep.pz] <;> ring
theorem Kep.frame_ey (k : Kep ℝ) : (RZ k.OM * RX k.i * RZ k.om) *ᵥ ey = ![k.qx, k.qy, k.qz] := by
  ext i; fin_cases i <;>
    simp [RZ, RX, ey, Matrix.mulVec, dotProduct, Matrix.mul_apply, Fin.sum_univ_three, Kep.qx, Kep.qy, Kep.qz] <;> ring
theorem Kep.frame_ez (k : Kep ℝ) : (RZ k.OM * RX k.i * RZ k.om) *ᵥ ez = ![k.wx, k.wy, k.wz] := by
  ext i; fin_cases i <;>
    simp [RZ, RX, ez, Matrix.mulVec, dotProduct, Matrix.mul_apply, Fin.sum_univ_three, Kep.wx, Kep.wy, Kep.wz]

theorem Kep.Adm.describes {mu : ℝ} {k : Kep ℝ} (h : k.Adm mu) : DescribesOrbit mu k (k.state mu) := by
  have hh : 0 < (k.state mu).hn := by rw [h.state_hn]; exact h.hm
  have hm := h.hmu.ne'
  have ha := h.ha.ne'
  have he := h.he
  refine ⟨?_, ?_, ?_, ?_, ?_, ?_, ?_, ?_⟩
  · rw [vlen_r, h.state_rn]; rfl
  · rw [vlen_r, h.state_rn, Kep.frame_ex, Kep.frame_ey]
    unfold Cart.r Kep.state Kep.rx Kep.ry
    ext i; fin_cases i <;> simp <;> ring
  · rw [angMom_eq, h.state_hx, h.state_hy, h.state_hz, Kep.frame_ez]
    ext i; fin_cases i <;> simp [Kep.hm, Kep.slr]
  · rw [Kep.frame_ez]; rfl
  · obtain ⟨e1, e2, e3⟩ := h.state_ev
    rw [eccVec_eq h.hmu hh, e1, e2, e3, Kep.frame_ex]
    ext i; fin_cases i <;> simp
  · intro h1
    have h2 : 1 - k.e ^ 2 ≠ 0 := by nlinarith
    rw [energy_eq, h.state_eps, Kep.slr, if_neg h1.ne, abs_of_pos (by nlinarith)]
    field_simp; ring
  · intro h1
    rw [energy_eq, h.state_eps, h1]; norm_num
  · intro h1
    have h2 : k.e ^ 2 - 1 ≠ 0 := by nlinarith
    rw [energy_eq, h.state_eps, Kep.slr, if_neg h1.ne', abs_of_neg (by nlinarith)]
    have : -(1 - k.e ^ 2) = k.e ^ 2 - 1 := by ring
    rw [this]; field_simp

theorem kep_to_cart_mat_ok (g : Nat → FX) (mu : Mu FX) (mus : List ℝ) (deg : Bool)
    (ks : List (Kep ℝ)) (hmu : MuIs mu mus) (hl : mus.length = ks.length)
    (hk : ∀ p ∈ mus.zip ks, Physical p.1 (p.2.inRad deg)) :
    (kep_to_cart g mu deg (.mat .f64 (ks.map Kep.fx))).1
      = .ok (.mat .f64 ((List.zipWith (fun m k => (Kep.inRad deg k).state m) mus ks).map Cart.fx)) := by
  simp only [kep_to_cart, kepToCartMat]
  rw [hmu.toList (by simpa using hl)]
  rw [if_pos (by simpa using hl)]
  simp only [Except.ok.injEq, Arg6.mat.injEq, true_and]
  apply List.ext_getElem
  · simp
  · intro j h1 h2
    have hj : j < ks.length := by simp at h2; omega
    have hj' : j < mus.length := by omega
    simp only [List.getElem_map, List.getElem_mapIdx, List.getElem_zip, List.getElem_zipWith]
    refine kepToCart_fst _ (hk (mus[j], ks[j]) ?_).adm
    rw [List.mem_iff_getElem]
    exact ⟨j, by simp; omega, by simp⟩

/-- C03: column `j` of the result of `kep_to_cart` is the state described by column `j` of the elements (all conic
types, degrees or radians). -/
theorem c03_kep_to_cart (g : Nat → FX) (mu : Mu FX) (mus : List ℝ) (deg : Bool)
    (ks : List (Kep ℝ)) (hmu : MuIs mu mus) (hl : mus.length = ks.length)
    (hk : ∀ p ∈ mus.zip ks, Physical p.1 (p.2.inRad deg)) :
    ∃ cs : List (Cart ℝ), (kep_to_cart g mu deg (.mat .f64 (ks.map Kep.fx))).1 = .ok (.mat .f64 (cs.map Cart.fx)) ∧
      cs.length = ks.length ∧
      ∀ j (h1 : j < mus.length) (h2 : j < ks.length) (h3 : j < cs.length),
        DescribesOrbit mus[j] (ks[j].inRad deg) cs[j] := by
  refine ⟨_, kep_to_cart_mat_ok g mu mus deg ks hmu hl hk, by simp; omega, ?_⟩
  intro j h1 h2 h3
  simp only [List.getElem_zipWith]
  apply Kep.Adm.describes
  refine (hk (mus[j], ks[j]) ?_).adm
  rw [List.mem_iff_getElem]
  exact ⟨j, by simp; omega, by simp⟩

/-- C03 for a single 6-vector. -/
theorem c03_kep_to_cart_vec (g : Nat → FX) (mu : ℝ) (deg : Bool) (k : Kep ℝ) (hk : Physical mu (k.inRad deg)) :
    ∃ c : Cart ℝ, (kep_to_cart g (.sc (fin mu)) deg (.vec .f64 k.fx)).1 = .ok (.vec .f64 c.fx) ∧
      DescribesOrbit mu (k.inRad deg) c := by
  refine ⟨_, ?_, hk.adm.describes⟩
  simp [kep_to_cart, kepToCartMat, Mu.toList, kepToCart_fst _ hk.adm]

/-! ## C15 -/

/-- C15: the speed of the state returned by `kep_to_cart` is `orbital_speed(|r|, a, mu)`, with `a` counted negative for a
hyperbola. -/
theorem c15_orbital_speed (g : Nat → FX) (mu : ℝ) (deg : Bool) (k : Kep ℝ) (hk : Physical mu (k.inRad deg))
    (hp : k.e ≠ 1) :
    ∃ c : Cart ℝ, (kep_to_cart g (.sc (fin mu)) deg (.vec .f64 k.fx)).1 = .ok (.vec .f64 c.fx) ∧
      orbital_speed (fin (vlen c.r)) (fin (if 1 < k.e then -k.a else k.a)) (fin mu) = fin (vlen c.v) := by
  obtain ⟨c, h1, h2⟩ := c03_kep_to_cart_vec g mu deg k hk
  refine ⟨c, h1, ?_⟩
  have h := hk.adm
  have hr : 0 < vlen c.r := by
    rw [h2.distance]
    exact div_pos ((k.inRad deg).slr_pos h.ha h.he) h.hc
  have ha : 0 < k.a := h.ha
  set A : ℝ := if 1 < k.e then -k.a else k.a with hA
  have hA0 : A ≠ 0 := by rw [hA]; split_ifs <;> linarith
  have hen : energy mu c = -mu / (2 * A) := by
    rcases lt_or_gt_of_ne hp with h3 | h3
    · rw [h2.energy_ell h3, hA, if_neg (not_lt.mpr h3.le)]; rfl
    · rw [h2.energy_hyp h3, hA, if_pos h3]
      show mu / (2 * k.a) = _
      have := ha.ne'
      field_simp
  have hv : mu * (2 / vlen c.r - 1 / A) = c.v ⬝ᵥ c.v := by
    unfold energy at hen
    have e1 : -mu / (2 * A) = -(mu * (1 / A)) / 2 := by field_simp
    rw [e1] at hen
    have e2 : mu * (2 / vlen c.r) = 2 * (mu / vlen c.r) := by ring
    rw [mul_sub, e2]; linarith
  simp only [orbital_speed, ofNat_fin, one_fin, div_fin hr.ne', div_fin hA0, sub_fin, mul_fin, hv]
  rw [sqrt_fin (by rw [v_dot]; positivity)]; rfl

/-! ## C04 -/

theorem Cart.ecc_energy {mu : ℝ} (c : Cart ℝ) (hmu : 0 < mu) (hh : 0 < c.hn) :
    mu ^ 2 * (c.ecc mu ^ 2 - 1) = 2 * c.eps mu * c.hn ^ 2 := by
  obtain ⟨h1, h2, h3⟩ := c.mu_ev hmu hh
  have hr := c.rn_pos hh
  have e1 : mu / c.rn * c.rn = mu := div_mul_cancel₀ _ hr.ne'
  have hv := c.vn_sq
  have hn := c.hn_sq
  have hrr := c.rn_sq
  have hvh : c.vx * c.hx + c.vy * c.hy + c.vz * c.hz = 0 := by unfold Cart.hx Cart.hy Cart.hz; ring
  have hrvh : c.x * (c.vy * c.hz - c.vz * c.hy) + c.y * (c.vz * c.hx - c.vx * c.hz)
      + c.z * (c.vx * c.hy - c.vy * c.hx) = c.hn ^ 2 := by
    rw [hn]; unfold Cart.hx Cart.hy Cart.hz; ring
  have hcr : (c.vy * c.hz - c.vz * c.hy) ^ 2 + (c.vz * c.hx - c.vx * c.hz) ^ 2 + (c.vx * c.hy - c.vy * c.hx) ^ 2
      = c.vn ^ 2 * c.hn ^ 2 := by
    rw [hv, hn]
    linear_combination -(c.vx * c.hx + c.vy * c.hy + c.vz * c.hz) * hvh
  have hsum : mu ^ 2 * c.ecc mu ^ 2 = (mu * c.evx mu) ^ 2 + (mu * c.evy mu) ^ 2 + (mu * c.evz mu) ^ 2 := by
    rw [c.ecc_sq]; ring
  rw [h1, h2, h3] at hsum
  unfold Cart.eps
  linear_combination hsum + hcr - 2 * (mu / c.rn) * hrvh - (mu / c.rn) ^ 2 * hrr + (mu / c.rn * c.rn + mu) * e1

theorem refl_mem (b : Prop) [Decidable b] (x : ℝ) : 0 ≤ refl b x ∧ refl b x ≤ 2 * Real.pi := by
  have h0 := Real.arccos_nonneg x
  have h1 := Real.arccos_le_pi x
  unfold refl
  split_ifs <;> constructor <;> linarith [Real.pi_pos]

/-- The documented form of the output of `cart_to_kep` (README and kepler.py 358-366), angles in radians. -/
structure OutputForm (mu : ℝ) (c : Cart ℝ) (k : Kep ℝ) : Prop where
  e_eq : k.e = vlen (eccVec mu c)
  i_eq : k.i = inclination c
  i_mem : 0 ≤ k.i ∧ k.i ≤ Real.pi
  om_mem : 0 ≤ k.om ∧ k.om ≤ 2 * Real.pi
  OM_mem : 0 ≤ k.OM ∧ k.OM ≤ 2 * Real.pi
  nu_mem : 0 ≤ k.nu ∧ k.nu ≤ 2 * Real.pi
  planar : k.i ≤ iLim ∨ Real.pi - iLim ≤ k.i → k.OM = 0
  circular : k.e ≤ eLim → k.om = 0

theorem Cart.outputForm {mu : ℝ} (c : Cart ℝ) (hmu : 0 < mu) (hh : 0 < c.hn) (a : ℝ) :
    OutputForm mu c ⟨a, c.ecc mu, c.inc, c.ctkOm mu, c.ctkOM, c.ctkNu mu⟩ := by
  have hpi := Real.pi_pos
  have z : (0:ℝ) ≤ 0 ∧ 0 ≤ 2 * Real.pi := ⟨le_rfl, by linarith⟩
  refine ⟨(vlen_eccVec hmu hh).symm, (inclination_eq c).symm, ⟨Real.arccos_nonneg _, Real.arccos_le_pi _⟩,
    ?_, ?_, ?_, ?_, ?_⟩
  · show 0 ≤ c.ctkOm mu ∧ c.ctkOm mu ≤ _
    unfold Cart.ctkOm; split_ifs
    exacts [refl_mem _ _, refl_mem _ _, refl_mem _ _, z]
  · show 0 ≤ c.ctkOM ∧ c.ctkOM ≤ _
    unfold Cart.ctkOM; split_ifs
    exacts [refl_mem _ _, z]
  · show 0 ≤ c.ctkNu mu ∧ c.ctkNu mu ≤ _
    unfold Cart.ctkNu; split_ifs <;> exact refl_mem _ _
  · intro h
    show c.ctkOM = 0
    unfold Cart.ctkOM
    rw [if_neg]
    intro hI
    rcases h with h | h
    · exact absurd hI.1 (not_lt.mpr h)
    · exact absurd hI.2 (not_lt.mpr h)
  · intro h
    show c.ctkOm mu = 0
    unfold Cart.ctkOm
    rw [if_neg]
    exact not_lt.mpr h

/-- C04 (not parabolic): on any state with non-zero angular momentum whose energy is not zero, `cart_to_kep` returns finite
elements in the documented form, with `a > 0` and energy `∓mu/(2a)` (ellipse / hyperbola). -/
theorem c04_ranges (g' : Nat → CtkGarbage FX) (mu : ℝ) (deg : Bool) (c : Cart ℝ) (hmu : 0 < mu) (hr : angMom c ≠ 0)
    (hpar : vlen (eccVec mu c) ≠ 1) :
    ∃ k : Kep ℝ, (cart_to_kep g' (.sc (fin mu)) deg (.vec .f64 c.fx)).1 = .ok (.vec .f64 k.fx) ∧
      OutputForm mu c (k.inRad deg) ∧ 0 < k.a ∧
      (k.e < 1 → energy mu c = -mu / (2 * k.a)) ∧ (1 < k.e → energy mu c = mu / (2 * k.a)) := by
  have hh := angMom_ne_zero hr
  have hrn := c.rn_pos hh
  have he : 0 ≤ c.ecc mu := Real.sqrt_nonneg _
  have hen := c.ecc_energy hmu hh
  rw [vlen_eccVec hmu hh] at hpar
  have hm := hmu.ne'
  have hh2 : 0 < c.hn ^ 2 := by positivity
  -- the semi-major axis
  obtain ⟨a, ha, ha0, hE1, hE2⟩ : ∃ a : ℝ, c.ctkA mu = fin a ∧ 0 < a ∧
      (c.ecc mu < 1 → c.eps mu = -mu / (2 * a)) ∧ (1 < c.ecc mu → c.eps mu = mu / (2 * a)) := by
    rcases lt_or_gt_of_ne hpar with h1 | h1
    · have hneg : c.eps mu < 0 := by
        have : mu ^ 2 * (c.ecc mu ^ 2 - 1) < 0 := mul_neg_of_pos_of_neg (by positivity) (by nlinarith)
        by_contra h; have := not_lt.mp h
        have : 0 ≤ 2 * c.eps mu * c.hn ^ 2 := by positivity
        linarith
      refine ⟨-mu / (2 * c.eps mu), ?_, div_pos_of_neg_of_neg (by linarith) (by linarith), fun _ => ?_,
        fun h => absurd h (not_lt.mpr h1.le)⟩
      · unfold Cart.ctkA
        rw [if_neg (not_le.mpr h1), div_fin (by linarith)]
      · have := hneg.ne; field_simp
    · have hp : 0 < c.eps mu := by
        have : 0 < mu ^ 2 * (c.ecc mu ^ 2 - 1) := mul_pos (by positivity) (by nlinarith)
        by_contra h; have := not_lt.mp h
        have : 2 * c.eps mu * c.hn ^ 2 ≤ 0 := mul_nonpos_of_nonpos_of_nonneg (by linarith) hh2.le
        linarith
      refine ⟨-(-mu / (2 * c.eps mu)), ?_, ?_, fun h => absurd h (not_lt.mpr h1.le), fun _ => ?_⟩
      · unfold Cart.ctkA
        rw [if_pos h1.le, div_fin (by linarith), neg_fin]
      · rw [neg_div, neg_neg]; positivity
      · have := hp.ne'; field_simp
  have hcol : cartToKepCol (g' 0) .f64 (fin mu) c.fx
      = (Kep.mk a (c.ecc mu) c.inc (c.ctkOm mu) c.ctkOM (c.ctkNu mu)).fx := by
    rw [cartToKepCol_eq _ mu c hm hrn hh, ha]; rfl
  refine ⟨(Kep.mk a (c.ecc mu) c.inc (c.ctkOm mu) c.ctkOM (c.ctkNu mu)).outDeg deg, ?_, ?_, ?_, ?_, ?_⟩
  · simp only [cart_to_kep, cartToKepMat, Mu.broadcast, List.length_singleton, cartToKep]
    cases deg
    · simp [hcol, Kep.outDeg]
    · simp [hcol, Kep.outDeg, Kep.toDegrees, Kep.fx]
  · rw [Kep.inRad_outDeg]; exact c.outputForm hmu hh a
  · cases deg <;> simpa [Kep.outDeg] using ha0
  · rw [energy_eq]; cases deg <;> simpa [Kep.outDeg] using hE1
  · rw [energy_eq]; cases deg <;> simpa [Kep.outDeg] using hE2

/-- C04 (parabolic) / C50: on an exactly parabolic state all elements but `a` are as documented; `a` is infinite, not the
periapsis distance the README promises. -/
theorem c04_parabola (g' : Nat → CtkGarbage FX) (mu : ℝ) (c : Cart ℝ) (hmu : 0 < mu) (hr : angMom c ≠ 0)
    (hpar : vlen (eccVec mu c) = 1) :
    ∃ k : Kep ℝ, (cart_to_kep g' (.sc (fin mu)) false (.vec .f64 c.fx)).1
        = .ok (.vec .f64 { k.fx with a := pinf }) ∧ OutputForm mu c k := by
  have hh := angMom_ne_zero hr
  have hrn := c.rn_pos hh
  rw [vlen_eccVec hmu hh] at hpar
  have hen := c.ecc_energy hmu hh
  rw [hpar] at hen
  have h0 : c.eps mu = 0 := by
    have : 2 * c.eps mu * c.hn ^ 2 = 0 := by linarith
    have h2 : c.hn ^ 2 ≠ 0 := by positivity
    rcases mul_eq_zero.mp this with h | h
    · linarith
    · exact absurd h h2
  have hA : c.ctkA mu = pinf := by
    unfold Cart.ctkA
    rw [hpar, if_pos le_rfl, h0, mul_zero]
    show FX.neg (FX.div (fin (-mu)) (fin 0)) = pinf
    simp [FX.div, FX.infSign, FX.neg, hmu, not_lt.mpr hmu.le]
  refine ⟨⟨0, c.ecc mu, c.inc, c.ctkOm mu, c.ctkOM, c.ctkNu mu⟩, ?_, c.outputForm hmu hh 0⟩
  simp [cart_to_kep, cartToKepMat, Mu.broadcast, cartToKep, cartToKepCol_eq _ mu c hmu.ne' hrn hh, hA, Kep.fx]

/-! ## C50 -/

/-- C50, what holds: a parabola survives the round trip except for its `a`, which comes back infinite.  Missing: the
full claim `cart_to_kep(kep_to_cart(kep)) = kep`, refuted by `c50_parabola_not_roundtrip`. -/
theorem c50_parabola_partial (g : Nat → FX) (g' : Nat → CtkGarbage FX) (mu : ℝ) (k : Kep ℝ) (hmu : 0 < mu)
    (hk : CanonicalAny k) (hpar : k.e = 1) :
    ∃ cart, (kep_to_cart g (.sc (fin mu)) false (.vec .f64 k.fx)).1 = .ok cart ∧
      (cart_to_kep g' (.sc (fin mu)) false cart).1 = .ok (.vec .f64 { k.fx with a := pinf }) := by
  have h := hk.adm hmu
  have e1 : (kep_to_cart g (.sc (fin mu)) false (.vec .f64 k.fx)).1 = .ok (.vec .f64 (k.state mu).fx) := by
    simp [kep_to_cart, kepToCartMat, Mu.toList, kepToCart_fst (k := k) (deg := false) _ h]
    rfl
  refine ⟨_, e1, ?_⟩
  have hn : 0 < (k.state mu).hn := by rw [h.state_hn]; exact h.hm
  have hrn : 0 < (k.state mu).rn := by rw [h.state_rn]; exact h.rad
  have hA : (k.state mu).ctkA mu = pinf := by
    unfold Cart.ctkA
    rw [h.state_ecc, hpar, if_pos le_rfl, h.state_eps, hpar]
    norm_num
    show FX.neg (FX.div (fin (-mu)) (fin 0)) = pinf
    simp [FX.div, FX.infSign, FX.neg, hmu, not_lt.mpr hmu.le]
  simp [cart_to_kep, cartToKepMat, Mu.broadcast, cartToKep, cartToKepCol_eq _ mu _ hmu.ne' hrn hn, hA, Kep.fx,
    h.state_ecc, hk.inc_eq hmu, hk.om_eq hmu, hk.OM_eq hmu, hk.nu_eq hmu]

/-- C50 fails: no parabola at all is returned unchanged. -/
theorem c50_parabola_not_roundtrip (g : Nat → FX) (g' : Nat → CtkGarbage FX) (mu : ℝ) (k : Kep ℝ) (hmu : 0 < mu)
    (hk : CanonicalAny k) (hpar : k.e = 1) :
    ∃ cart, (kep_to_cart g (.sc (fin mu)) false (.vec .f64 k.fx)).1 = .ok cart ∧
      (cart_to_kep g' (.sc (fin mu)) false cart).1 ≠ .ok (.vec .f64 k.fx) := by
  obtain ⟨cart, h1, h2⟩ := c50_parabola_partial g g' mu k hmu hk hpar
  refine ⟨cart, h1, ?_⟩
  rw [h2]
  simp [Kep.fx]

/-! ## Non-vacuity -/

theorem iLim_small : iLim < 1 / 100000000 := by
  unfold iLim; have := Real.pi_le_four; norm_num at *; linarith

/-- an inclined ellipse -/
theorem example_ellipse : Canonical ⟨7000, 1 / 10, 1, 2, 3, 4⟩ := by
  have h1 := iLim_small
  have h2 := Real.pi_gt_three
  have h3 : eLim < 1 / 10 := by norm_num [eLim]
  have hc := Real.neg_one_le_cos 4
  refine ⟨⟨by norm_num, by norm_num, by norm_num, ?_, ?_, ?_, ?_, ?_, ?_, ?_, ?_, ?_⟩, by norm_num⟩ <;> simp only
  · linarith
  · linarith
  · intros; constructor <;> linarith
  · intro h; exfalso; rcases h with h | h <;> linarith
  · intros; constructor <;> linarith
  · intro _ h; exfalso; linarith
  · intro h; exfalso; linarith
  · intros; constructor <;> linarith
  · intro h; exfalso; linarith

/-- a planar retrograde hyperbola -/
theorem example_hyperbola : Canonical ⟨2, 3, Real.pi, 1, 0, 0⟩ := by
  have h1 := iLim_small
  have h0 := iLim_pos
  have h2 := Real.pi_gt_three
  have h3 : eLim < 1 / 10 := by norm_num [eLim]
  refine ⟨⟨by norm_num, by norm_num, by linarith, ?_, ?_, ?_, ?_, ?_, ?_, ?_, ?_, ?_⟩, by norm_num⟩ <;>
    simp only
  · linarith
  · rw [Real.cos_zero]; norm_num
  · intros; constructor <;> linarith
  · intros; trivial
  · intro _ h; exfalso; linarith
  · intros; constructor <;> linarith
  · intro h; exfalso; linarith
  · intros; constructor <;> linarith
  · intro h; exfalso; linarith

/-- a parabola -/
theorem example_parabola : CanonicalAny ⟨2, 1, 1, 1, 1, 1⟩ := by
  have h1 := iLim_small
  have h2 := Real.pi_gt_three
  have h3 : eLim < 1 / 10 := by norm_num [eLim]
  have hc : 0 < Real.cos 1 := Real.cos_pos_of_mem_Ioo ⟨by linarith, by linarith⟩
  refine ⟨by norm_num, by norm_num, by norm_num, ?_, ?_, ?_, ?_, ?_, ?_, ?_, ?_, ?_⟩ <;> simp only
  · linarith
  · linarith
  · intros; constructor <;> linarith
  · intro h; exfalso; rcases h with h | h <;> linarith
  · intros; constructor <;> linarith
  · intro _ h; exfalso; linarith
  · intro h; exfalso; linarith
  · intros; constructor <;> linarith
  · intro h; exfalso; linarith

/-- a polar, eccentric state -/
theorem example_state : Regular 1 ⟨1, 0, 0, 0, 0, 11 / 10⟩ := by
  have h1 := iLim_small
  have h2 := Real.pi_gt_three
  have hA : angMom ⟨1, 0, 0, 0, 0, 11 / 10⟩ = ![0, -(11 / 10), 0] := by
    rw [angMom_eq]; simp [Cart.hx, Cart.hy, Cart.hz]
  have hr : vlen (Cart.r ⟨1, 0, 0, 0, 0, 11 / 10⟩) = 1 := by
    rw [vlen_r]; norm_num [Cart.rn]
  have hE : eccVec 1 ⟨1, 0, 0, 0, 0, 11 / 10⟩ = ![21 / 100, 0, 0] := by
    unfold eccVec
    rw [hr, hA]; unfold Cart.v Cart.r
    rw [cross_apply]
    ext i; fin_cases i <;> simp <;> norm_num
  have hEl : vlen (eccVec 1 ⟨1, 0, 0, 0, 0, 11 / 10⟩) = 21 / 100 := by
    rw [hE]; unfold vlen
    rw [show (![21 / 100, 0, 0] : Fin 3 → ℝ) ⬝ᵥ ![21 / 100, 0, 0] = (21 / 100) ^ 2 by
      simp [dotProduct, Fin.sum_univ_three]; norm_num]
    rw [Real.sqrt_sq (by norm_num)]
  refine ⟨?_, ?_, ?_, ?_⟩
  · rw [hA]; intro h; have := congrFun h 1; norm_num at this
  · rw [hEl]; norm_num
  · left; rw [hEl]; norm_num [eLim]
  · left
    have : inclination ⟨1, 0, 0, 0, 0, 11 / 10⟩ = Real.pi / 2 := by
      unfold inclination; rw [hA]; simp
    rw [this]; constructor <;> linarith

/-- the hypotheses of `c01_kep_cart_kep` hold for a batch of different conics -/
example : ∃ (mu : Mu FX) (mus : List ℝ) (ks : List (Kep ℝ)), MuIs mu mus ∧ (∀ m ∈ mus, 0 < m) ∧ mus.length = ks.length ∧ ks.length = 2 ∧
    ∀ k ∈ ks, Canonical (Kep.inRad false k) :=
  ⟨_, [1, 5], [⟨7000, 1 / 10, 1, 2, 3, 4⟩, ⟨2, 3, Real.pi, 1, 0, 0⟩], .arr _, by simp, rfl, rfl,
    List.forall_mem_cons.2 ⟨example_ellipse, List.forall_mem_cons.2 ⟨example_hyperbola, by simp⟩⟩⟩

/-- the hypotheses of `c02_cart_kep_cart` hold for a concrete state -/
example : ∃ (mu : Mu FX) (mus : List ℝ) (cs : List (Cart ℝ)), MuIs mu mus ∧ (∀ m ∈ mus, 0 < m) ∧ mus.length = cs.length ∧ cs.length = 1 ∧
    ∀ p ∈ mus.zip cs, Regular p.1 p.2 :=
  ⟨_, [1], [⟨1, 0, 0, 0, 0, 11 / 10⟩], .sc 1 1, by simp, rfl, rfl, by simpa using example_state⟩

/-- the hypotheses of C03, C04, C15 and C50 hold for concrete orbits -/
example : Physical 2 (Kep.inRad false ⟨7000, 1 / 10, 1, 2, 3, 4⟩) ∧ Physical 2 (Kep.inRad false ⟨2, 3, Real.pi, 1, 0, 0⟩) ∧
    angMom ⟨1, 0, 0, 0, 0, 11 / 10⟩ ≠ 0 ∧ vlen (eccVec 1 ⟨1, 0, 0, 0, 0, 11 / 10⟩) ≠ 1 ∧
    CanonicalAny ⟨2, 1, 1, 1, 1, 1⟩ :=
  ⟨⟨by norm_num, example_ellipse.a_pos, example_ellipse.e_nonneg, example_ellipse.on_branch⟩,
   ⟨by norm_num, example_hyperbola.a_pos, example_hyperbola.e_nonneg, example_hyperbola.on_branch⟩,
   example_state.rotating, example_state.not_parabolic, example_parabola⟩

end Pyorb
