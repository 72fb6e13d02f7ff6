import Verif.PropsRoundTrip
import Verif.PropsSolver
import Verif.PropsCalls

/-!
# C19, C20: equinoctial elements
-/

set_option linter.unusedSimpArgs false

namespace Pyorb
open FX

/-! ## Reduction of angles to one revolution, in either unit -/

/-- an angle in radians expressed in the unit of the flag -/
noncomputable def angleOut (deg : Bool) (x : ℝ) : ℝ := if deg then x * (180 / Real.pi) else x

theorem angleOf_angleOut (deg : Bool) (x : ℝ) : angleOf deg (angleOut deg x) = x := by
  have := Real.pi_ne_zero
  cases deg <;> simp only [angleOf, angleOut, Bool.false_eq_true, if_false, if_true]
  field_simp

theorem angleOut_angleOf (deg : Bool) (x : ℝ) : angleOut deg (angleOf deg x) = x := by
  have := Real.pi_ne_zero
  cases deg <;> simp only [angleOf, angleOut, Bool.false_eq_true, if_false, if_true]
  field_simp

theorem angleOf_add (deg : Bool) (x y : ℝ) : angleOf deg (x + y) = angleOf deg x + angleOf deg y := by
  cases deg <;> simp [angleOf, add_mul]
theorem angleOf_sub (deg : Bool) (x y : ℝ) : angleOf deg (x - y) = angleOf deg x - angleOf deg y := by
  cases deg <;> simp [angleOf, sub_mul]
theorem angleOf_half (deg : Bool) (x : ℝ) : angleOf deg (1 / 2 * x) = angleOf deg x / 2 := by
  cases deg <;> simp [angleOf] <;> ring
theorem angleOf_zero (deg : Bool) : angleOf deg 0 = 0 := by cases deg <;> simp [angleOf]

theorem mod_circ (deg : Bool) (x : ℝ) :
    Np.mod (fin x + circ deg) (circ deg) = fin (angleOut deg (turn (angleOf deg x))) := by
  cases deg
  · exact wrap_fin x
  · have h : (360 : ℝ) ≠ 0 := by norm_num
    have hp := Real.pi_pos
    simp only [circ, if_true, ofNat_fin, add_fin, mod_fin h]
    congr 1
    simp only [angleOf, angleOut, if_true]
    rw [← floor_turn, add_div, div_self h, Int.floor_add_one]
    have : x * (Real.pi / 180) / (2 * Real.pi) = x / 360 := by field_simp; ring
    rw [this]
    push_cast
    field_simp
    ring

/-! ## The two conversions on real numbers -/

/-- equinoctial elements of a column (radians) -/
noncomputable def equiOf (k : Kep ℝ) : Equi ℝ :=
  ⟨k.a, k.e * Real.sin (k.om + k.OM), k.e * Real.cos (k.om + k.OM), Real.tan (k.i / 2) * Real.sin k.OM,
    Real.tan (k.i / 2) * Real.cos k.OM, turn (k.om + k.OM + k.nu)⟩

/-- Keplerian elements of a column (radians) as `equi_to_kep` computes them -/
noncomputable def kepOf (q : Equi ℝ) : Kep ℝ :=
  let e := √(q.h ^ 2 + q.k ^ 2)
  let w := Complex.arg ⟨q.k, q.h⟩
  let OM := Complex.arg ⟨q.q, q.p⟩
  ⟨q.a, e, 2 * Real.arctan (√(q.p ^ 2 + q.q ^ 2)), turn (if eLim < e then w - OM else 0), turn OM,
    turn (q.lam - if eLim < e then w else OM)⟩

/-- the elements in radians denoted by an equinoctial column; only the longitude is an angle -/
noncomputable def Equi.inRad (deg : Bool) (q : Equi ℝ) : Equi ℝ := { q with lam := angleOf deg q.lam }
@[inherit_doc Equi.inRad] noncomputable def Equi.outDeg (deg : Bool) (q : Equi ℝ) : Equi ℝ :=
  { q with lam := angleOut deg q.lam }

theorem Equi.inRad_outDeg (deg : Bool) (q : Equi ℝ) : (q.outDeg deg).inRad deg = q := by
  simp only [Equi.inRad, Equi.outDeg, angleOf_angleOut]
theorem Equi.outDeg_inRad (deg : Bool) (q : Equi ℝ) : (q.inRad deg).outDeg deg = q := by
  simp only [Equi.inRad, Equi.outDeg, angleOut_angleOf]

theorem Kep.outDeg_eq (deg : Bool) (k : Kep ℝ) :
    k.outDeg deg = ⟨k.a, k.e, angleOut deg k.i, angleOut deg k.om, angleOut deg k.OM, angleOut deg k.nu⟩ := by
  cases deg <;> rfl
theorem Kep.outDeg_inRad (deg : Bool) (k : Kep ℝ) : (k.inRad deg).outDeg deg = k := by
  simp only [Kep.outDeg_eq, Kep.inRad, angleOut_angleOf]

theorem kepToEqui_fx (deg : Bool) (k : Kep ℝ) (hc : Real.cos (angleOf deg k.i / 2) ≠ 0) :
    kepToEqui .f64 deg k.fx = ((equiOf (k.inRad deg)).outDeg deg).fx := by
  have h1 : (if deg then radians (fin (k.om + k.OM)) else fin (k.om + k.OM)) = fin (angleOf deg (k.om + k.OM)) := by
    cases deg <;> simp [angleOf]
  have h2 : (if deg then radians (fin k.OM) else fin k.OM) = fin (angleOf deg k.OM) := by
    cases deg <;> simp [angleOf]
  have h3 : (if deg then radians (fin (1 / 2 * k.i)) else fin (1 / 2 * k.i)) = fin (angleOf deg k.i / 2) := by
    rw [← angleOf_half]
    cases deg <;> simp [angleOf]
  have hh : (half : FX) = fin (1 / 2) := by simp [half]
  simp only [kepToEqui, Kep.fx, store_f64, add_fin, hh, mul_fin, h1, h2, h3, sin_fin, cos_fin, tan_fin hc, mod_circ]
  simp only [Equi.fx, Equi.outDeg, equiOf, Kep.inRad, angleOf_add]

theorem equiToKep_fx (g : Kep FX) (deg : Bool) (q : Equi ℝ) :
    equiToKep g .f64 deg q.fx = ((kepOf (q.inRad deg)).outDeg deg).fx := by
  have h1 : ∀ x : ℝ, (if deg then degrees (fin x) else fin x) = fin (angleOut deg x) := by
    intro x; cases deg <;> simp [angleOut]
  have hs1 : 0 ≤ q.h ^ 2 + q.k ^ 2 := by positivity
  have hs2 : 0 ≤ q.p ^ 2 + q.q ^ 2 := by positivity
  have hl : (e_lim : FX) = fin eLim := by simp [e_lim, eLim]
  simp only [equiToKep, Equi.fx, store_f64, sq_fin, add_fin, sqrt_fin hs1, sqrt_fin hs2, arctan2_fin, arctan_fin, ofNat_fin,
    mul_fin, h1, hl, lt_fin, sub_fin]
  by_cases h : eLim < √(q.h ^ 2 + q.k ^ 2)
  · simp only [h, decide_true, Bool.not_true, Bool.false_eq_true, if_true, if_false, mod_circ]
    simp only [Kep.outDeg_eq, Kep.fx, kepOf, Equi.inRad, h, if_true, angleOf_sub, angleOf_angleOut]
  · simp only [h, decide_false, Bool.not_false, Bool.false_eq_true, if_true, if_false, zero_fin, mod_circ]
    simp only [Kep.outDeg_eq, Kep.fx, kepOf, Equi.inRad, h, if_false, angleOf_sub, angleOf_angleOut, angleOf_zero]

theorem arg_polar {r : ℝ} (hr : 0 < r) (w : ℝ) :
    ∃ k : ℤ, Complex.arg ⟨r * Real.cos w, r * Real.sin w⟩ = w + k * (2 * Real.pi) := by
  have h1 : (⟨r * Real.cos w, r * Real.sin w⟩ : ℂ) = r * (Complex.cos w + Complex.sin w * Complex.I) := by
    apply Complex.ext <;> simp [Complex.cos_ofReal_re, Complex.sin_ofReal_re]
  rw [h1, Complex.arg_mul_cos_add_sin_mul_I_eq_toIocMod hr]
  refine ⟨-toIocDiv Real.two_pi_pos (-Real.pi) w, ?_⟩
  rw [toIocMod, zsmul_eq_mul]; push_cast; ring

/-- polar form of a pair -/
theorem polar_arg (x y : ℝ) : √(y ^ 2 + x ^ 2) * Real.cos (Complex.arg ⟨x, y⟩) = x ∧
    √(y ^ 2 + x ^ 2) * Real.sin (Complex.arg ⟨x, y⟩) = y := by
  have h : √(y ^ 2 + x ^ 2) = ‖(⟨x, y⟩ : ℂ)‖ := by
    rw [Complex.norm_eq_sqrt_sq_add_sq, add_comm]
  rw [h]
  exact ⟨Complex.norm_mul_cos_arg _, Complex.norm_mul_sin_arg _⟩

/-- element sets without a redundant angle: eccentricity above `e_lim`, or not above it and `omega = 0`; inclined below
pi, or planar with `Omega = 0`; angles reduced -/
structure EquiRegular (k : Kep ℝ) : Prop where
  ecc : eLim < k.e ∨ 0 ≤ k.e ∧ k.om = 0
  inc : 0 < k.i ∨ k.i = 0 ∧ k.OM = 0
  inc_lt : k.i < Real.pi
  om : 0 ≤ k.om ∧ k.om < 2 * Real.pi
  OM : 0 ≤ k.OM ∧ k.OM < 2 * Real.pi
  nu : 0 ≤ k.nu ∧ k.nu < 2 * Real.pi

theorem arg_zero : Complex.arg ⟨0, 0⟩ = 0 := by
  have : (⟨0, 0⟩ : ℂ) = 0 := rfl
  rw [this, Complex.arg_zero]

theorem eLim_pos' : 0 < eLim := by unfold eLim; norm_num

theorem kepOf_equiOf {k : Kep ℝ} (h : EquiRegular k) : kepOf (equiOf k) = k := by
  have he : 0 ≤ k.e := by
    rcases h.ecc with h1 | h1
    · exact (eLim_pos'.trans h1).le
    · exact h1.1
  have hi : 0 ≤ k.i := by
    rcases h.inc with h1 | h1
    · exact h1.le
    · exact h1.1.ge
  have ht : 0 ≤ Real.tan (k.i / 2) := Real.tan_nonneg_of_nonneg_of_le_pi_div_two (by linarith) (by linarith [h.inc_lt])
  have he' : √((k.e * Real.sin (k.om + k.OM)) ^ 2 + (k.e * Real.cos (k.om + k.OM)) ^ 2) = k.e := by
    rw [← Real.sqrt_sq he]; congr 1
    rw [Real.sqrt_sq he]
    linear_combination k.e ^ 2 * Real.sin_sq_add_cos_sq (k.om + k.OM)
  have ht' : √((Real.tan (k.i / 2) * Real.sin k.OM) ^ 2 + (Real.tan (k.i / 2) * Real.cos k.OM) ^ 2)
      = Real.tan (k.i / 2) := by
    rw [← Real.sqrt_sq ht]; congr 1
    rw [Real.sqrt_sq ht]
    linear_combination Real.tan (k.i / 2) ^ 2 * Real.sin_sq_add_cos_sq k.OM
  have hi2 : 2 * Real.arctan (Real.tan (k.i / 2)) = k.i := by
    rw [Real.arctan_tan] <;> linarith [Real.pi_pos, h.inc_lt]
  -- node
  have hO : ∃ m : ℤ, Complex.arg ⟨Real.tan (k.i / 2) * Real.cos k.OM, Real.tan (k.i / 2) * Real.sin k.OM⟩
      = k.OM + m * (2 * Real.pi) := by
    rcases h.inc with h1 | ⟨h1, h2⟩
    · exact arg_polar (Real.tan_pos_of_pos_of_lt_pi_div_two (by linarith) (by linarith [h.inc_lt])) _
    · refine ⟨0, ?_⟩; simp [h1, h2, arg_zero]
  obtain ⟨m, hm⟩ := hO
  unfold kepOf equiOf
  simp only [he', ht', hi2, hm]
  have e1 : turn (k.OM + m * (2 * Real.pi)) = k.OM := by rw [turn_add_int, turn_of_mem h.OM.1 h.OM.2]
  obtain ⟨n, hn⟩ := turn_eq (k.om + k.OM + k.nu)
  by_cases h1 : eLim < k.e
  · obtain ⟨l, hl⟩ := arg_polar (eLim_pos'.trans h1) (k.om + k.OM)
    simp only [hl, h1, if_true]
    have e2 : turn (k.om + k.OM + l * (2 * Real.pi) - (k.OM + m * (2 * Real.pi))) = k.om := by
      rw [turn_congr (y := k.om) (l - m) (by push_cast; ring), turn_of_mem h.om.1 h.om.2]
    have e3 : turn (turn (k.om + k.OM + k.nu) - (k.om + k.OM + l * (2 * Real.pi))) = k.nu := by
      rw [hn, turn_congr (y := k.nu) (-n - l) (by push_cast; ring), turn_of_mem h.nu.1 h.nu.2]
    rw [e1, e2, e3]
  · have h2 : k.om = 0 := (h.ecc.resolve_left h1).2
    simp only [h1, if_false]
    have e2 : turn 0 = k.om := by rw [h2, turn_of_mem le_rfl Real.two_pi_pos]
    have e3 : turn (turn (k.om + k.OM + k.nu) - (k.OM + m * (2 * Real.pi))) = k.nu := by
      rw [hn, turn_congr (y := k.nu) (-n - m) (by push_cast; rw [h2]; ring), turn_of_mem h.nu.1 h.nu.2]
    rw [e1, e2, e3]

theorem equiOf_kepOf {q : Equi ℝ} (h : eLim < √(q.h ^ 2 + q.k ^ 2) ∨ q.h = 0 ∧ q.k = 0)
    (hl : 0 ≤ q.lam ∧ q.lam < 2 * Real.pi) : equiOf (kepOf q) = q := by
  obtain ⟨p1, p2⟩ := polar_arg q.k q.h
  obtain ⟨p3, p4⟩ := polar_arg q.q q.p
  unfold equiOf kepOf
  simp only [mul_div_cancel_left₀ _ (two_ne_zero' ℝ), Real.tan_arctan, sin_turn, cos_turn, p3, p4]
  obtain ⟨a, ha⟩ := turn_eq (Complex.arg ⟨q.q, q.p⟩)
  rcases h with h | ⟨h1, h2⟩
  · simp only [h, if_true]
    obtain ⟨b, hb⟩ := turn_eq (Complex.arg ⟨q.k, q.h⟩ - Complex.arg ⟨q.q, q.p⟩)
    obtain ⟨c, hc⟩ := turn_eq (q.lam - Complex.arg ⟨q.k, q.h⟩)
    have e1 : turn (Complex.arg ⟨q.k, q.h⟩ - Complex.arg ⟨q.q, q.p⟩) + turn (Complex.arg ⟨q.q, q.p⟩)
        = Complex.arg ⟨q.k, q.h⟩ - ((a + b : ℤ) : ℝ) * (2 * Real.pi) := by rw [ha, hb]; push_cast; ring
    rw [e1, hc, Real.sin_sub_int_mul_two_pi, Real.cos_sub_int_mul_two_pi, p1, p2,
      turn_congr (y := q.lam) (-(a + b + c)) (by push_cast; ring), turn_of_mem hl.1 hl.2]
  · have hz : √(q.h ^ 2 + q.k ^ 2) = 0 := by simp [h1, h2]
    have hlt : ¬ eLim < √(q.h ^ 2 + q.k ^ 2) := by rw [hz]; exact not_lt.mpr eLim_pos'.le
    obtain ⟨c, hc⟩ := turn_eq (q.lam - Complex.arg ⟨q.q, q.p⟩)
    simp only [hlt, if_false]
    simp only [hz, zero_mul, turn_of_mem le_rfl Real.two_pi_pos, hc, ha]
    rw [turn_congr (y := q.lam) (-(a + c)) (by push_cast; ring), turn_of_mem hl.1 hl.2]
    obtain ⟨a', h', k', p', q', l'⟩ := q
    simp only at h1 h2
    subst h1 h2
    rfl

/-! ## C19 -/

theorem mapCols_map {C C' D D' : Type} (f : Nat → DType → C → D) (i : C' → C) (o : D' → D) (φ : C' → D') (cs : List C')
    (h : ∀ j, ∀ c ∈ cs, f j .f64 (i c) = o (φ c)) :
    Arg6.mapCols f (.mat .f64 (cs.map i)) = .ok (.mat .f64 ((cs.map φ).map o)) := by
  simp only [Arg6.mapCols, Except.ok.injEq, Arg6.mat.injEq, true_and]
  apply List.ext_getElem
  · simp
  · intro j h1 h2
    simp only [List.getElem_map, List.getElem_mapIdx]
    exact h j _ (List.getElem_mem _)

theorem EquiRegular.cos_half {k : Kep ℝ} (h : EquiRegular k) : Real.cos (k.i / 2) ≠ 0 := by
  have hi : 0 ≤ k.i := by
    rcases h.inc with h1 | h1
    · exact h1.le
    · exact h1.1.ge
  exact (Real.cos_pos_of_mem_Ioo ⟨by linarith [Real.pi_pos], by linarith [h.inc_lt]⟩).ne'

/-- C19: for any number of element sets `equi_to_kep(kep_to_equi(kep))` is exactly `kep`, in either unit. -/
theorem c19_kep_equi_kep (g : Nat → Kep FX) (deg : Bool) (ks : List (Kep ℝ)) (h : ∀ k ∈ ks, EquiRegular (k.inRad deg)) :
    ∃ q, kep_to_equi deg (.mat .f64 (ks.map Kep.fx)) = .ok q ∧
      equi_to_kep g deg q = .ok (.mat .f64 (ks.map Kep.fx)) := by
  refine ⟨_, mapCols_map _ Kep.fx Equi.fx (fun k => (equiOf (k.inRad deg)).outDeg deg) ks
    fun j k hk => kepToEqui_fx deg k (h k hk).cos_half, ?_⟩
  have := mapCols_map (fun j dt q => equiToKep (g j) dt deg q) Equi.fx Kep.fx
    (fun q => (kepOf (q.inRad deg)).outDeg deg) (ks.map fun k => (equiOf (k.inRad deg)).outDeg deg)
    fun j q hq => equiToKep_fx (g j) deg q
  unfold equi_to_kep
  rw [this]
  congr 2
  rw [List.map_map, List.map_map]
  apply List.map_congr_left
  intro k hk
  simp only [Function.comp, Equi.inRad_outDeg, kepOf_equiOf (h k hk), Kep.outDeg_inRad]

/-- C19 for a single 6-vector. -/
theorem c19_kep_equi_kep_vec (g : Nat → Kep FX) (deg : Bool) (k : Kep ℝ) (h : EquiRegular (k.inRad deg)) :
    ∃ q, kep_to_equi deg (.vec .f64 k.fx) = .ok q ∧ equi_to_kep g deg q = .ok (.vec .f64 k.fx) := by
  refine ⟨_, rfl, ?_⟩
  simp only [equi_to_kep, Arg6.mapCols]
  rw [kepToEqui_fx deg k h.cos_half, equiToKep_fx, Equi.inRad_outDeg, kepOf_equiOf h, Kep.outDeg_inRad]

/-- concrete elements meeting the hypotheses: an inclined ellipse, a hyperbola and an equatorial circular orbit -/
example : ∀ k ∈ [(⟨7000, 1 / 10, 30, 50, 70, 350⟩ : Kep ℝ), ⟨100, 2, 170, 359, 0, 10⟩, ⟨5, 0, 0, 0, 0, 123⟩],
    EquiRegular (k.inRad true) := by
  have hp := Real.pi_pos
  intro k hk
  simp only [List.mem_cons, List.not_mem_nil, or_false] at hk
  rcases hk with rfl | rfl | rfl <;> constructor <;>
    simp only [Kep.inRad, angleOf, if_true, eLim, zero_mul, and_self, or_true, le_refl, true_and] <;>
    first
    | (left; norm_num; done)
    | (left; positivity)
    | positivity
    | (constructor <;> nlinarith)
    | nlinarith

theorem kep_to_equi_cos_arctan (q : Equi ℝ) : Real.cos ((kepOf q).i / 2) ≠ 0 := by
  simp only [kepOf, mul_div_cancel_left₀ _ (two_ne_zero' ℝ)]
  exact (Real.cos_arctan_pos _).ne'

/-- what `kep_to_equi(equi_to_kep(equi))` is, column by column, for all finite input -/
theorem equi_kep_equi_col (g : Kep FX) (deg : Bool) (q : Equi ℝ) :
    kepToEqui .f64 deg (equiToKep g .f64 deg q.fx) = ((equiOf (kepOf (q.inRad deg))).outDeg deg).fx := by
  rw [equiToKep_fx, kepToEqui_fx, Kep.inRad_outDeg]
  rw [Kep.outDeg_eq]
  simp only [angleOf_angleOut]
  exact kep_to_equi_cos_arctan _

/-- C19, the other direction: `kep_to_equi(equi_to_kep(equi))` is exactly `equi` for every set with eccentricity above `e_lim`
or zero; `p`, `q` are arbitrary. -/
theorem c19_equi_kep_equi (g : Nat → Kep FX) (deg : Bool) (qs : List (Equi ℝ))
    (h : ∀ q ∈ qs, (eLim < √(q.h ^ 2 + q.k ^ 2) ∨ q.h = 0 ∧ q.k = 0) ∧ 0 ≤ angleOf deg q.lam ∧
      angleOf deg q.lam < 2 * Real.pi) :
    ∃ k, equi_to_kep g deg (.mat .f64 (qs.map Equi.fx)) = .ok k ∧
      kep_to_equi deg k = .ok (.mat .f64 (qs.map Equi.fx)) := by
  refine ⟨_, mapCols_map _ Equi.fx Kep.fx (fun q => (kepOf (q.inRad deg)).outDeg deg) qs
    fun j q hq => equiToKep_fx (g j) deg q, ?_⟩
  have := mapCols_map (fun _ dt k => kepToEqui dt deg k) Kep.fx Equi.fx (fun k => (equiOf (k.inRad deg)).outDeg deg)
    (qs.map fun q => (kepOf (q.inRad deg)).outDeg deg) fun j k hk => by
      obtain ⟨q, hq, rfl⟩ := List.mem_map.mp hk
      apply kepToEqui_fx
      rw [Kep.outDeg_eq]
      simp only [angleOf_angleOut]
      exact kep_to_equi_cos_arctan _
  unfold kep_to_equi
  rw [this]
  congr 2
  rw [List.map_map, List.map_map]
  apply List.map_congr_left
  intro q hq
  obtain ⟨h1, h2⟩ := h q hq
  simp only [Function.comp, Kep.inRad_outDeg, equiOf_kepOf (q := q.inRad deg) h1 h2, Equi.outDeg_inRad]

example : ∀ q ∈ [(⟨7000, 1 / 10, -1 / 5, 1 / 2, 3, 350⟩ : Equi ℝ), ⟨5, 0, 0, -1, 2, 123⟩],
    (eLim < √(q.h ^ 2 + q.k ^ 2) ∨ q.h = 0 ∧ q.k = 0) ∧ 0 ≤ angleOf true q.lam ∧
      angleOf true q.lam < 2 * Real.pi := by
  have hp := Real.pi_pos
  intro q hq
  simp only [List.mem_cons, List.not_mem_nil, or_false] at hq
  rcases hq with rfl | rfl <;> refine ⟨?_, ?_, ?_⟩ <;> simp only [angleOf, if_true] <;> first | positivity | nlinarith | skip
  · left; apply Real.lt_sqrt_of_sq_lt; unfold eLim; norm_num
  · right; simp

/-- C19 inside the band `0 <= e <= e_lim`: `kep_to_equi(equi_to_kep(equi))` still reproduces `a, p, q` and the longitude exactly,
and `h`, `k` are off by at most `2e <= 2 e_lim`. -/
theorem c19_band (g : Nat → Kep FX) (deg : Bool) (q : Equi ℝ) (h : √(q.h ^ 2 + q.k ^ 2) ≤ eLim)
    (hl : 0 ≤ angleOf deg q.lam ∧ angleOf deg q.lam < 2 * Real.pi) :
    ∃ k h' k', equi_to_kep g deg (.vec .f64 q.fx) = .ok k ∧
      kep_to_equi deg k = .ok (.vec .f64 (Equi.fx { q with h := h', k := k' })) ∧
      |h' - q.h| ≤ 2 * √(q.h ^ 2 + q.k ^ 2) ∧ |k' - q.k| ≤ 2 * √(q.h ^ 2 + q.k ^ 2) := by
  obtain ⟨p3, p4⟩ := polar_arg q.q q.p
  set e := √(q.h ^ 2 + q.k ^ 2) with he
  have he0 : 0 ≤ e := Real.sqrt_nonneg _
  set O := Complex.arg ⟨q.q, q.p⟩ with hO
  refine ⟨_, e * Real.sin O, e * Real.cos O, rfl, ?_, ?_, ?_⟩
  · simp only [kep_to_equi, Arg6.mapCols]
    rw [equi_kep_equi_col]
    congr 3
    have hlt : ¬ eLim < √((q.inRad deg).h ^ 2 + (q.inRad deg).k ^ 2) := not_lt.mpr h
    obtain ⟨a, ha⟩ := turn_eq O
    obtain ⟨c, hc⟩ := turn_eq ((q.inRad deg).lam - O)
    have e1 : turn (turn 0 + turn O + turn ((q.inRad deg).lam - O)) = (q.inRad deg).lam := by
      rw [turn_of_mem le_rfl Real.two_pi_pos, ha, hc, turn_congr (y := (q.inRad deg).lam) (-(a + c)) (by push_cast; ring),
        turn_of_mem (x := (q.inRad deg).lam) hl.1 hl.2]
    have e2 : equiOf (kepOf (q.inRad deg)) = { q.inRad deg with h := e * Real.sin O, k := e * Real.cos O } := by
      unfold equiOf kepOf
      simp only [hlt, if_false]
      simp only [e1, ← hO, show (q.inRad deg).q = q.q from rfl, show (q.inRad deg).p = q.p from rfl,
        mul_div_cancel_left₀ _ (two_ne_zero' ℝ), Real.tan_arctan, sin_turn, cos_turn, p3, p4,
        turn_of_mem le_rfl Real.two_pi_pos, zero_add, show (q.inRad deg).h = q.h from rfl,
        show (q.inRad deg).k = q.k from rfl, ← he]
      simp only [turn_of_mem le_rfl Real.two_pi_pos, zero_add] at e1
      rw [e1]
    rw [e2]
    simp only [Equi.outDeg, Equi.inRad, angleOut_angleOf]
  · have h1 : |q.h| ≤ e := by rw [he, ← Real.sqrt_sq_eq_abs]; exact Real.sqrt_le_sqrt (by nlinarith [sq_nonneg q.k])
    have h2 : |e * Real.sin O| ≤ e := by
      rw [abs_mul, abs_of_nonneg he0]; exact mul_le_of_le_one_right he0 (Real.abs_sin_le_one _)
    calc _ ≤ |e * Real.sin O| + |q.h| := abs_sub _ _
      _ ≤ _ := by linarith
  · have h1 : |q.k| ≤ e := by rw [he, ← Real.sqrt_sq_eq_abs]; exact Real.sqrt_le_sqrt (by nlinarith [sq_nonneg q.h])
    have h2 : |e * Real.cos O| ≤ e := by
      rw [abs_mul, abs_of_nonneg he0]; exact mul_le_of_le_one_right he0 (Real.abs_cos_le_one _)
    calc _ ≤ |e * Real.cos O| + |q.k| := abs_sub _ _
      _ ≤ _ := by linarith

example : √((5 / 10000000000 : ℝ) ^ 2 + 0 ^ 2) ≤ eLim ∧ √((5 / 10000000000 : ℝ) ^ 2 + 0 ^ 2) ≠ 0 := by
  have : (5 / 10000000000 : ℝ) ^ 2 + 0 ^ 2 = (5 / 10000000000) ^ 2 := by ring
  rw [this, Real.sqrt_sq (by norm_num)]; unfold eLim; norm_num

end Pyorb
