import Verif.PropsEqui

/-!
# C20: Cartesian <-> equinoctial
-/

set_option linter.unusedSimpArgs false

namespace Pyorb
open FX

/-- eccentric anomaly of a point of an ellipse, in `[0, 2 pi)` -/
noncomputable def eccOf (e nu : ℝ) : ℝ := scaleHalf (eliFac e) nu
/-- true anomaly of a point of an ellipse, in `[0, 2 pi)` -/
noncomputable def trueOf (e E : ℝ) : ℝ := scaleHalf (eliFac e)⁻¹ E

theorem trueToEccentricEl_eli (g : FX) {nu e : ℝ} (h0 : 0 ≤ e) (h1 : e < 1) :
    trueToEccentricEl g .f64 (fin nu) (fin e) = fin (eccOf e nu) := by
  unfold trueToEccentricEl
  rw [triMask_eq_triSc _ _ _ _ _ (by simp)]
  exact trueToEccentricSc_eli h0 h1

theorem eccentricToTrueEl_eli (g : FX) {E e : ℝ} (h0 : 0 ≤ e) (h1 : e < 1) :
    eccentricToTrueEl g .f64 (fin E) (fin e) = fin (trueOf e E) := by
  unfold eccentricToTrueEl
  rw [triMask_eq_triSc _ _ _ _ _ (by simp)]
  exact eccentricToTrueSc_eli h0 h1

theorem eccentricToMeanEl_eli (g : FX) {E e : ℝ} (h1 : e < 1) :
    eccentricToMeanEl g .f64 (fin E) (fin e) = fin (meanOf e E) := by
  unfold eccentricToMeanEl
  rw [triMask_eq_triSc _ _ _ _ _ (by simp)]
  rw [meanOf, if_neg (not_lt.mpr h1.le), if_neg h1.ne]
  exact eccentricToMeanSc_eli h1

theorem trueOf_eccOf {e nu : ℝ} (h0 : 0 ≤ e) (h1 : e < 1) : trueOf e (eccOf e nu) = turn nu :=
  scaleHalf_scaleHalf (inv_mul_cancel₀ (eliFac_pos h0 h1).ne') nu

theorem eccOf_trueOf {e E : ℝ} (h0 : 0 ≤ e) (h1 : e < 1) : eccOf e (trueOf e E) = turn E :=
  scaleHalf_scaleHalf (mul_inv_cancel₀ (eliFac_pos h0 h1).ne') E

theorem toRad_fin (deg : Bool) (x : ℝ) : (if deg then radians (fin x) else fin x) = fin (angleOf deg x) := by
  cases deg <;> simp [angleOf]
theorem toDeg_fin (deg : Bool) (x : ℝ) : (if deg then degrees (fin x) else fin x) = fin (angleOut deg x) := by
  cases deg <;> simp [angleOut]

theorem nuToMean_fx (g1 g2 : FX) (deg : Bool) (k : Kep ℝ) (h0 : 0 ≤ k.e) (h1 : k.e < 1) :
    nuToMean g1 g2 .f64 deg k.fx = (Kep.fx { k with
      nu := if eLim < k.e then angleOut deg (meanOf k.e (eccOf k.e (angleOf deg k.nu))) else k.nu }) := by
  have hd : (if deg = true then DType.f64 else DType.f64) = .f64 := by cases deg <;> rfl
  simp only [nuToMean, Kep.fx, e_lim_fin, lt_fin, decide_eq_true_eq]
  split_ifs with he hg
  all_goals simp only [hd, toRad_fin, store_f64]
  · simp only [hg, angleOf, if_true, radians_fin]
    rw [trueToEccentricEl_eli _ h0 h1, eccentricToMeanEl_eli _ h1]
    simp [angleOut]
  · simp only [hg, angleOf, Bool.false_eq_true, if_false]
    rw [trueToEccentricEl_eli _ h0 h1, eccentricToMeanEl_eli _ h1]
    simp [angleOut]

theorem meanToNu_fx (g : FX) (o : SolverOpts FX) (deg : Bool) (k : Kep ℝ) (E : ℝ) (h0 : 0 ≤ k.e) (h1 : k.e < 1)
    (hE : eLim < k.e → meanToEccentricEl o (fin (angleOf deg k.nu)) (fin k.e) = fin E) :
    meanToNu g o .f64 deg k.fx = (Kep.fx { k with nu := if eLim < k.e then angleOut deg (trueOf k.e E) else k.nu }) := by
  have hd : (if deg = true then DType.f64 else DType.f64) = .f64 := by cases deg <;> rfl
  simp only [meanToNu, Kep.fx, e_lim_fin, lt_fin, decide_eq_true_eq]
  split_ifs with he hg
  all_goals simp only [hd, store_f64]
  · have hE := hE he
    simp only [hg, angleOf, if_true, radians_fin] at hE ⊢
    rw [hE, eccentricToTrueEl_eli _ h0 h1]
    simp [angleOut]
  · have hE := hE he
    simp only [hg, angleOf, Bool.false_eq_true, if_false] at hE ⊢
    rw [hE, eccentricToTrueEl_eli _ h0 h1]
    simp [angleOut]

theorem meanOf_range {e E : ℝ} (h0 : 0 ≤ e) (h1 : e < 1) (hE : 0 ≤ E ∧ E < 2 * Real.pi) :
    0 ≤ meanOf e E ∧ meanOf e E < 2 * Real.pi := by
  rw [meanOf, if_neg (not_lt.mpr h1.le), if_neg h1.ne]
  constructor
  · rcases hE.1.eq_or_lt with h | h
    · simp [← h]
    · have := kepler_strictMono h0 h1 h; simp at this; linarith
  · have := kepler_strictMono h0 h1 hE.2
    rw [Real.sin_two_pi, mul_zero, sub_zero] at this; exact this

/-- a canonical ellipse whose inclination stays away from pi -/
structure EllipsePoint (k : Kep ℝ) : Prop extends Canonical k where
  e_lt : k.e < 1
  i_lt : k.i < Real.pi - iLim

/-- the mean anomaly that `cart_to_equi` uses -/
noncomputable def slotMean (k : Kep ℝ) : ℝ := if eLim < k.e then meanOf k.e (eccOf k.e k.nu) else k.nu

theorem EllipsePoint.regular {k : Kep ℝ} (h : EllipsePoint k) : EquiRegular { k with nu := slotMean k } := by
  have hnu := h.nu_range (Or.inr h.i_lt)
  refine ⟨?_, ?_, by have := h.i_lt; have := iLim_pos; simp only; linarith, ?_, ?_, ?_⟩
  · by_cases he : eLim < k.e
    · exact .inl he
    · exact .inr ⟨h.e_nonneg, h.circ_om (not_lt.mp he)⟩
  · rcases h.i_nonneg.eq_or_lt with hi | hi
    · exact .inr ⟨hi.symm, h.planar (.inl (by rw [← hi]; exact iLim_pos.le))⟩
    · exact .inl hi
  · by_cases he : eLim < k.e
    · exact h.ecc_om he h.i_lt
    · simp only [h.circ_om (not_lt.mp he)]; exact ⟨le_rfl, Real.two_pi_pos⟩
  · by_cases hi : iLim < k.i
    · exact h.inclined hi h.i_lt
    · simp only [h.planar (.inl (not_lt.mp hi))]; exact ⟨le_rfl, Real.two_pi_pos⟩
  · simp only [slotMean]
    split_ifs
    · exact meanOf_range h.e_nonneg h.e_lt (scaleHalf_mem _ _)
    · exact hnu

/-- `cart_to_equi` on one column -/
theorem cart_to_equi_col (g : CtkGarbage FX) (g1 g2 : FX) {mu : ℝ} (hmu : 0 < mu) (deg : Bool) {k : Kep ℝ}
    (h : EllipsePoint (k.inRad deg)) :
    kepToEqui .f64 deg (nuToMean g1 g2 .f64 deg (cartToKep g .f64 (fin mu) deg ((k.inRad deg).state mu).fx))
      = ((equiOf { k.inRad deg with nu := slotMean (k.inRad deg) }).outDeg deg).fx := by
  rw [cartToKep_state g h.toCanonical hmu, nuToMean_fx g1 g2 deg k h.e_nonneg h.e_lt, kepToEqui_fx]
  · simp only [Kep.inRad, slotMean]
    congr 4
    by_cases hl : eLim < k.e
    · simp only [hl, if_true, angleOf_angleOut]
    · simp only [hl, if_false]
  · exact h.regular.cos_half

/-- `equi_to_cart` on one column, when the solver returns `E` -/
theorem equi_to_cart_col (ge : Kep FX) (gt gh : FX) (o : SolverOpts FX) {mu : ℝ} (hmu : 0 < mu) (deg : Bool) {k : Kep ℝ}
    (h : EllipsePoint (k.inRad deg)) (E : ℝ)
    (hE : eLim < k.e → meanToEccentricEl o (fin (slotMean (k.inRad deg))) (fin k.e) = fin E) :
    (kepToCart gh .f64 (fin mu) deg (meanToNu gt o .f64 deg (equiToKep ge .f64 deg
        ((equiOf { k.inRad deg with nu := slotMean (k.inRad deg) }).outDeg deg).fx))).1
      = (Kep.state mu { k.inRad deg with nu := if eLim < k.e then trueOf k.e E else (k.inRad deg).nu }).fx := by
  rw [equiToKep_fx, Equi.inRad_outDeg, kepOf_equiOf h.regular]
  have e1 : Kep.outDeg deg { k.inRad deg with nu := slotMean (k.inRad deg) }
      = { k with nu := angleOut deg (slotMean (k.inRad deg)) } := by
    simp only [Kep.outDeg_eq, Kep.inRad, angleOut_angleOf]
  rw [e1, meanToNu_fx gt o deg { k with nu := angleOut deg (slotMean (k.inRad deg)) } E h.e_nonneg h.e_lt (by simpa only [angleOf_angleOut] using hE)]
  have e2 : Kep.inRad deg { k with
        nu := if eLim < k.e then angleOut deg (trueOf k.e E) else angleOut deg (slotMean (k.inRad deg)) }
      = { k.inRad deg with nu := if eLim < k.e then trueOf k.e E else (k.inRad deg).nu } := by
    simp only [Kep.inRad]
    congr 1
    split_ifs with hl
    · rw [angleOf_angleOut]
    · rw [angleOf_angleOut, slotMean, if_neg (by exact hl)]
  rw [kepToCart_fst gh, e2]
  rw [e2]
  exact ⟨hmu, h.a_pos, h.e_nonneg, by
    have h1 := h.e_nonneg; have h2 := h.e_lt
    simp only [Kep.inRad] at h1 h2 ⊢
    nlinarith [Real.neg_one_le_cos (if eLim < k.e then trueOf k.e E else angleOf deg k.nu)]⟩

theorem cart_to_equi_vec (g : Nat → CtkGarbage FX) (g1 g2 : Nat → FX) (mu : FX) (deg : Bool) (c : Cart FX) :
    (cart_to_equi g g1 g2 (.sc mu) deg (.vec .f64 c)).1
      = .ok (.vec .f64 (kepToEqui .f64 deg (nuToMean (g1 0) (g2 0) .f64 deg (cartToKep (g 0) .f64 mu deg c)))) := by
  simp [cart_to_equi, cart_to_kep, cartToKepMat, Mu.broadcast, Arg6.mapCols, kep_to_equi, bind, Except.bind]

theorem equi_to_cart_vec (ge : Nat → Kep FX) (gt gh : Nat → FX) (o : SolverOpts FX) (mu : FX) (deg : Bool) (q : Equi FX) :
    equi_to_cart ge gt gh o (.sc mu) deg (.vec .f64 q)
      = .ok (.vec .f64 (kepToCart (gh 0) .f64 mu deg (meanToNu (gt 0) o .f64 deg (equiToKep (ge 0) .f64 deg q))).1) := by
  simp [equi_to_cart, kep_to_cart, kepToCartMat, Mu.toList, Arg6.mapCols, equi_to_kep, bind, Except.bind]

/-- C20 with the solver as it is: for every canonical ellipse with elements `k` (eccentricity and inclination arbitrary
below the bands), converting its state to equinoctial elements and back gives a point of the *same* orbit, whose
eccentric anomaly differs from the original one by at most `tol/(1-e)`, provided the iteration limit was not hit. -/
theorem c20_same_orbit (gh : Nat → FX) (g : Nat → CtkGarbage FX) (g1 g2 : Nat → FX) (ge : Nat → Kep FX) (gt : Nat → FX)
    (mu tol : ℝ) (mi : Int) (d : ℝ) (deg : Bool) (k : Kep ℝ) (hmu : 0 < mu)
    (h : EllipsePoint (k.inRad deg)) (he : eLim < k.e)
    (hl : ¬ HitLimit (opts tol mi d) (fin (slotMean (k.inRad deg))) (fin k.e)) :
    ∃ (x : Arg6 (Cart FX)) (q : Arg6 (Equi FX)) (E' nu' : ℝ),
      (kep_to_cart gh (.sc (fin mu)) deg (.vec .f64 k.fx)).1 = .ok x ∧
      (cart_to_equi g g1 g2 (.sc (fin mu)) deg x).1 = .ok q ∧
      equi_to_cart ge gt gh (opts tol mi d) (.sc (fin mu)) deg q
        = (kep_to_cart gh (.sc (fin mu)) deg (.vec .f64 (Kep.fx { k with nu := nu' }))).1 ∧
      eccOf k.e (angleOf deg nu') = turn E' ∧ |E' - eccOf k.e (angleOf deg k.nu)| ≤ tol / (1 - k.e) := by
  have h0 : 0 ≤ k.e := h.e_nonneg
  have h1 : k.e < 1 := h.e_lt
  obtain ⟨E', hE', -, hres⟩ := meanToEccentricEl_fin tol mi d (slotMean (k.inRad deg)) k.e h0 (.inl h1.le)
  have hres := hres h1.ne hl
  have hsm : slotMean (k.inRad deg) = meanOf k.e (eccOf k.e (angleOf deg k.nu)) := if_pos he
  have herr : |E' - eccOf k.e (angleOf deg k.nu)| ≤ tol / (1 - k.e) := by
    have := meanOf_error h0 h1.ne E' (eccOf k.e (angleOf deg k.nu))
    rw [abs_of_pos (sub_pos.mpr h1)] at this
    refine this.trans (div_le_div_of_nonneg_right ?_ (by linarith))
    rw [hsm] at hres
    exact hres.le
  have e1 : (kep_to_cart gh (.sc (fin mu)) deg (.vec .f64 k.fx)).1 = .ok (.vec .f64 ((k.inRad deg).state mu).fx) := by
    simp [kep_to_cart, kepToCartMat, Mu.toList, kepToCart_fst _ (h.adm hmu)]
  refine ⟨_, _, E', angleOut deg (trueOf k.e E'), e1, cart_to_equi_vec _ _ _ _ _ _, ?_, ?_, herr⟩
  · rw [equi_to_cart_vec, cart_to_equi_col _ _ _ hmu deg h, equi_to_cart_col _ _ _ _ hmu deg h E' (fun _ => hE')]
    have hadm : (Kep.inRad deg { k with nu := angleOut deg (trueOf k.e E') }).Adm mu :=
      ⟨hmu, h.a_pos, h.e_nonneg, by
        simp only [Kep.inRad]
        nlinarith [Real.neg_one_le_cos (angleOf deg (angleOut deg (trueOf k.e E')))]⟩
    simp only [kep_to_cart, kepToCartMat, Mu.toList, List.length_singleton, List.replicate_one, if_true, List.zip_cons_cons,
      List.zip_nil_right, List.mapIdx_cons, List.mapIdx_nil, List.map_cons, List.map_nil, kepToCart_fst _ hadm]
    simp only [he, if_true, Kep.inRad, angleOf_angleOut]
  · rw [angleOf_angleOut, eccOf_trueOf h0 h1]

/-- `mean_to_eccentric` returns the exact solution for this mean anomaly -/
def SolvedExactly (o : SolverOpts FX) (e M : ℝ) : Prop :=
  ∃ E, meanToEccentricEl o (fin M) (fin e) = fin E ∧ meanOf e E = M

theorem cart_to_equi_mat (g : Nat → CtkGarbage FX) (g1 g2 : Nat → FX) {mu : Mu FX} {mus : List ℝ} (deg : Bool)
    (cs : List (Cart FX)) (hmu : MuIs mu mus) (hl : mus.length = cs.length) :
    (cart_to_equi g g1 g2 mu deg (.mat .f64 cs)).1
      = .ok (.mat .f64 (((mus.map fin).zip cs).mapIdx fun j p =>
          kepToEqui .f64 deg (nuToMean (g1 j) (g2 j) .f64 deg (cartToKep (g j) .f64 p.1 deg p.2)))) := by
  simp only [cart_to_equi, cart_to_kep, cartToKepMat, hmu.broadcast hl, Arg6.mapCols, kep_to_equi, bind, Except.bind,
    Except.ok.injEq, Arg6.mat.injEq, true_and]
  apply List.ext_getElem
  · simp
  · intro j h1 h2
    simp

theorem equi_to_cart_mat (ge : Nat → Kep FX) (gt gh : Nat → FX) (o : SolverOpts FX) {mu : Mu FX} {mus : List ℝ} (deg : Bool)
    (qs : List (Equi FX)) (hmu : MuIs mu mus) (hl : mus.length = qs.length) :
    equi_to_cart ge gt gh o mu deg (.mat .f64 qs)
      = .ok (.mat .f64 (((mus.map fin).zip qs).mapIdx fun j p =>
          (kepToCart (gh j) .f64 p.1 deg (meanToNu (gt j) o .f64 deg (equiToKep (ge j) .f64 deg p.2))).1)) := by
  simp only [equi_to_cart, kep_to_cart, kepToCartMat, Arg6.mapCols, equi_to_kep, bind, Except.bind]
  rw [hmu.toList (n := _) (by simp; exact hl), if_pos (by simp; exact hl)]
  simp only [Except.ok.injEq, Arg6.mat.injEq, true_and]
  apply List.ext_getElem
  · simp
  · intro j h1 h2
    simp

/-- C20: `equi_to_cart(cart_to_equi(x))` is exactly `x` for any number of elliptic states outside the bands (a number or an
array for `mu`, either unit), when Kepler's equation is solved exactly. -/
theorem c20_exact (g : Nat → CtkGarbage FX) (g1 g2 : Nat → FX) (ge : Nat → Kep FX) (gt gh : Nat → FX) (o : SolverOpts FX)
    (mu : Mu FX) (mus : List ℝ) (deg : Bool) (cs : List (Cart ℝ)) (hmu : MuIs mu mus) (hpos : ∀ m ∈ mus, 0 < m)
    (hl : mus.length = cs.length)
    (hc : ∀ p ∈ mus.zip cs, ∃ k : Kep ℝ, EllipsePoint k ∧
      (kep_to_cart gh (.sc (fin p.1)) false (.vec .f64 k.fx)).1 = .ok (.vec .f64 p.2.fx) ∧
      (eLim < k.e → SolvedExactly o k.e (meanOf k.e (eccOf k.e k.nu)))) :
    ∃ q, (cart_to_equi g g1 g2 mu deg (.mat .f64 (cs.map Cart.fx))).1 = .ok q ∧
      equi_to_cart ge gt gh o mu deg q = .ok (.mat .f64 (cs.map Cart.fx)) := by
  refine ⟨_, cart_to_equi_mat g g1 g2 deg _ hmu (by simpa using hl), ?_⟩
  rw [equi_to_cart_mat ge gt gh o deg _ hmu (by simp [hl])]
  simp only [Except.ok.injEq, Arg6.mat.injEq, true_and]
  apply List.ext_getElem
  · simp [hl]
  · intro j h1 h2
    have hj : j < cs.length := by simpa using h2
    have hj' : j < mus.length := by omega
    simp only [List.getElem_mapIdx, List.getElem_zip, List.getElem_map]
    have hm := hpos _ (List.getElem_mem hj')
    obtain ⟨k, hk, hd, hs⟩ := hc (mus[j], cs[j]) (by
      rw [List.mem_iff_getElem]; exact ⟨j, by simp; omega, by simp⟩)
    have hst : cs[j] = k.state mus[j] := by
      have h5 : (kepToCart (gh 0) .f64 (fin mus[j]) false k.fx).1 = (k.state mus[j]).fx :=
        kepToCart_fst (gh 0) (deg := false) (hk.adm hm)
      simp [kep_to_cart, kepToCartMat, Mu.toList, h5] at hd
      exact (Cart.fx_inj hd).symm
    rw [hst]
    have hk' : EllipsePoint ((k.outDeg deg).inRad deg) := by rw [Kep.inRad_outDeg]; exact hk
    have key : ∀ E, (eLim < k.e → meanToEccentricEl o (fin (slotMean k)) (fin k.e) = fin E) →
        (eLim < k.e → trueOf k.e E = k.nu) →
        (kepToCart (gh j) .f64 (fin mus[j]) deg (meanToNu (gt j) o .f64 deg (equiToKep (ge j) .f64 deg
          (kepToEqui .f64 deg (nuToMean (g1 j) (g2 j) .f64 deg
            (cartToKep (g j) .f64 (fin mus[j]) deg (k.state mus[j]).fx)))))).1 = (k.state mus[j]).fx := by
      intro E hE hnu
      have h3 := cart_to_equi_col (g j) (g1 j) (g2 j) hm deg hk'
      have h4 := equi_to_cart_col (ge j) (gt j) (gh j) o hm deg hk' E
      rw [Kep.inRad_outDeg] at h3 h4
      have hee : (k.outDeg deg).e = k.e := by cases deg <;> rfl
      rw [hee] at h4
      rw [h3, h4 hE]
      by_cases hel : eLim < k.e
      · simp only [hel, if_true, hnu hel]
      · simp only [hel, if_false]
    by_cases hel : eLim < k.e
    · obtain ⟨E, hE1, hE2⟩ := hs hel
      have heq : E = eccOf k.e k.nu := by
        have := meanOf_error hk.e_nonneg hk.e_lt.ne E (eccOf k.e k.nu)
        rw [hE2, sub_self, abs_zero, zero_div] at this
        exact sub_eq_zero.mp (abs_nonpos_iff.mp this)
      have hnr := hk.nu_range (Or.inl hel)
      refine key E (fun _ => by rw [slotMean, if_pos hel]; exact hE1) (fun _ => ?_)
      · rw [heq, trueOf_eccOf hk.e_nonneg hk.e_lt, turn_of_mem hnr.1 hnr.2]
    · exact key 0 (fun h => absurd h hel) (fun h => absurd h hel)

/-! ### A concrete orbit meeting all hypotheses of both theorems: e = 1/2 at periapsis -/

theorem examplePoint : EllipsePoint ⟨7000, 1 / 2, 1, 2, 3, 0⟩ := by
  have h3 := Real.pi_gt_three
  have hi : iLim < 1 := by unfold iLim; nlinarith [Real.pi_lt_four]
  refine ⟨⟨⟨by norm_num, by norm_num, by norm_num, by simp only; linarith, by simp; norm_num,
    fun _ _ => ⟨by norm_num, by simp only; linarith⟩, fun h => ?_, fun _ _ => ⟨by norm_num, by simp only; linarith⟩,
    fun _ h => ?_, fun h => ?_, fun _ => ⟨le_rfl, Real.two_pi_pos⟩, fun h => ?_⟩, by norm_num⟩, by norm_num,
    by simp only; linarith⟩
  · simp only at h; rcases h with h | h <;> linarith
  · simp only at h; linarith
  · simp only [eLim] at h; norm_num at h
  · simp only [eLim] at h; norm_num at h

theorem exampleGuess : keplerGuess (fin 0) (fin (1 / 2)) = fin 0 := by
  have hp := Real.pi_pos
  have hn : ¬ (1 : ℝ) < 1 / 2 := by norm_num
  rw [keplerGuess]
  simp only [one_fin, lt_fin, hn, decide_false, Bool.false_eq_true, if_false]
  rw [get_kepler_guess_fin (by norm_num) (by norm_num), if_neg (not_lt.mpr hp.le)]
  norm_num [guessLow]

theorem exampleSolve {tol : ℝ} (ht : 0 < tol) (mi : Int) (d : ℝ) :
    laguerre_solve_kepler (keplerGuess (fin 0) (fin (1 / 2))) (fin 0) (fin (1 / 2)) (opts tol mi d) = (fin 0, 0) := by
  rw [exampleGuess, c11_start_accepted]
  rw [lagGoesOn, lagF_fin (by norm_num), meanOf_zero]
  simpa [opts] using ht

example {tol : ℝ} (ht : 0 < tol) (mi : Int) (d : ℝ) : SolvedExactly (opts tol mi d) (1 / 2) (meanOf (1 / 2) (eccOf (1 / 2) 0)) ∧
    ¬ HitLimit (opts tol mi d) (fin (slotMean ⟨7000, 1 / 2, 1, 2, 3, 0⟩)) (fin (1 / 2)) ∧ eLim < 1 / 2 := by
  have h0 : eccOf (1 / 2) 0 = 0 := scaleHalf_zero _
  have hl : eLim < 1 / 2 := by unfold eLim; norm_num
  refine ⟨⟨0, ?_, by rw [h0]⟩, ?_, hl⟩
  · rw [h0, meanOf_zero, meanToEccentricEl_guess _ _ _ (by simp), exampleSolve ht]
  · simp only [slotMean, if_pos hl, h0, meanOf_zero, HitLimit, exampleSolve ht]
    simp [opts]

end Pyorb
