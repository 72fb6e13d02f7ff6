import Verif.PropsShape
import Verif.PropsRoundTrip

/-!
# C05, C06, C07, C43: side effects, failure atomicity, vectorisation, integer arrays
-/

namespace Pyorb
open FX

set_option linter.unusedSimpArgs false

/-! ## C05: `kep_to_cart` and the caller's array -/

/-- columns of an argument -/
def Arg6.cols {C : Type} : Arg6 C → List C
  | .vec _ c => [c]
  | .mat _ cs => cs
  | _ => []

theorem kepToCartCol_snd {α : Type} [Np α] (gh : α) (dt : DType) (mu : α) (k : Kep α) (h : ((1 : α) <ᵇ k.e) = false) :
    (kepToCartCol gh dt mu k).2 = k := by
  unfold kepToCartCol; simp only [h]; cases k; rfl

theorem mapIdx_snd_eq {α C D : Type} (F : Nat → α × C → D × C) (ms : List α) (cs : List C) (h : ms.length = cs.length)
    (hF : ∀ j, ∀ m ∈ ms, ∀ c ∈ cs, (F j (m, c)).2 = c) : ((ms.zip cs).mapIdx F).map Prod.snd = cs := by
  apply List.ext_getElem
  · simp; omega
  · intro j h1 h2
    simp only [List.getElem_map, List.getElem_mapIdx, List.getElem_zip]
    exact hF _ _ (List.getElem_mem _) _ (List.getElem_mem _)

/-- C05, what holds (radians): for every scalar type, dtype and batch in which no column has `e > 1`, `kep_to_cart`
leaves the caller's array exactly as it was when it returns.  Missing for the full claim: hyperbolic columns, see
`c05_hyperbola_modified`. -/
theorem c05_unmodified_partial {α : Type} [Np α] (g : Nat → α) (mu : Mu α) (kep : Arg6 (Kep α))
    (h : ∀ k ∈ kep.cols, ((1 : α) <ᵇ k.e) = false) (cart : Arg6 (Cart α))
    (hok : (kep_to_cart g mu false kep).1 = .ok cart) : (kep_to_cart g mu false kep).2 = kep := by
  have hmat : ∀ dt ks, (∀ k ∈ ks, ((1 : α) <ᵇ k.e) = false) → (mu.toList ks.length).length = ks.length →
      (kepToCartMat g dt mu false ks).2 = ks := by
    intro dt ks hks hl
    unfold kepToCartMat
    simp only [hl, if_true]
    apply mapIdx_snd_eq _ _ _ hl
    intro j m _ c hc
    simp only [kepToCart, Bool.false_eq_true, if_false]
    exact kepToCartCol_snd _ _ _ _ (hks c hc)
  cases kep with
  | notArray => rfl
  | wrongRows => rfl
  | vec dt k =>
    have hk : ((1 : α) <ᵇ k.e) = false := h k (by simp [Arg6.cols])
    have hone : ∀ m : α, (kepToCart (g 0) dt m false k).2 = k := by
      intro m
      simp only [kepToCart, Bool.false_eq_true, if_false]
      exact kepToCartCol_snd _ _ _ _ hk
    cases mu with
    | sc m => simp [kep_to_cart, kepToCartMat, Mu.toList, hone]
    | arr ms =>
      match ms, hok with
      | [], hok => simp [kep_to_cart, kepToCartMat, Mu.toList] at hok
      | [m], _ => simp [kep_to_cart, kepToCartMat, Mu.toList, hone]
      | _ :: _ :: _, hok => simp [kep_to_cart, kepToCartMat, Mu.toList] at hok
  | mat dt ks =>
    have hl : (mu.toList ks.length).length = ks.length := by
      by_contra hl
      simp [kep_to_cart, kepToCartMat, hl] at hok
    have := hmat dt ks (by simpa [Arg6.cols] using h) hl
    simp only [kep_to_cart]
    unfold kepToCartMat at this ⊢
    simp only [hl, if_true] at this ⊢
    rw [this]

/-- C05, what holds (degrees): float elements, no hyperbola. -/
theorem c05_unmodified_degrees_partial (g : Nat → FX) (mu : ℝ) (k : Kep ℝ) (h : k.e ≤ 1) :
    (kep_to_cart g (.sc (fin mu)) true (.vec .f64 k.fx)).2 = .vec .f64 k.fx := by
  simp only [kep_to_cart, kepToCartMat, Mu.toList, List.length_singleton, List.length_replicate, if_true,
    List.replicate_one, List.zip_cons_cons, List.zip_nil_right, List.mapIdx_cons, List.mapIdx_nil, List.map_cons,
    List.map_nil, kepToCart]
  rw [Kep.toRadians_fx, kepToCartCol_snd _ _ _ _ (by simp [Kep.inRad, Kep.fx, not_lt.mpr h]), Kep.toDegrees_inRad]

/-- C05 fails: after `kep_to_cart` on any hyperbola (`a ≠ 0`), in radians or degrees, the caller's `a` has changed sign. -/
theorem c05_hyperbola_modified (g : Nat → FX) (mu : ℝ) (deg : Bool) (k : Kep ℝ) (h : 1 < k.e) (ha : k.a ≠ 0) :
    (kep_to_cart g (.sc (fin mu)) deg (.vec .f64 k.fx)).2 = .vec .f64 ({ k with a := -k.a } : Kep ℝ).fx ∧
    (kep_to_cart g (.sc (fin mu)) deg (.vec .f64 k.fx)).2 ≠ .vec .f64 k.fx := by
  have key : (kep_to_cart g (.sc (fin mu)) deg (.vec .f64 k.fx)).2 = .vec .f64 ({ k with a := -k.a } : Kep ℝ).fx := by
    have hcol : ∀ k' : Kep ℝ, 1 < k'.e →
        (kepToCartCol (g 0) .f64 (fin mu) k'.fx).2 = ({ k' with a := -k'.a } : Kep ℝ).fx := by
      intro k' h'
      simp [kepToCartCol, Kep.fx, h']
    simp only [kep_to_cart, kepToCartMat, Mu.toList, List.length_singleton, List.length_replicate, if_true,
      List.replicate_one, List.zip_cons_cons, List.zip_nil_right, List.mapIdx_cons, List.mapIdx_nil, List.map_cons,
      List.map_nil, kepToCart]
    cases deg
    · simp only [Bool.false_eq_true, if_false]; rw [hcol k h]
    · simp only [if_true]
      rw [Kep.toRadians_fx, hcol _ (by exact h)]
      have := Kep.toDegrees_inRad { k with a := -k.a }
      simp only [Kep.inRad] at this ⊢
      rw [this]
  refine ⟨key, ?_⟩
  rw [key]
  intro h'
  simp [Kep.fx] at h'
  exact ha (by linarith)

/-- Consequence: converting the same hyperbolic array twice does not give the same answer; the second result is all NaN. -/
theorem c05_second_call_nan (g g2 : Nat → FX) (mu : ℝ) (k : Kep ℝ) (hmu : 0 < mu) (h : 1 < k.e) (ha : 0 < k.a) :
    (kep_to_cart g2 (.sc (fin mu)) false (kep_to_cart g (.sc (fin mu)) false (.vec .f64 k.fx)).2).1
      = .ok (.vec .f64 ⟨nan, nan, nan, nan, nan, nan⟩) := by
  rw [(c05_hyperbola_modified g mu false k h ha.ne').1]
  have hneg : mu * k.a * (1 - k.e ^ 2) < 0 := by
    have : 0 < mu * k.a := mul_pos hmu ha
    have : 1 - k.e ^ 2 < 0 := by nlinarith
    exact mul_neg_of_pos_of_neg ‹_› this
  have e1 : orbit_total_angular_momentum (fin (-k.a) * -(1 : FX)) (fin k.e) (fin mu) = nan := by
    simp only [orbit_total_angular_momentum, one_fin, neg_fin, mul_fin, sq_fin, sub_fin]
    rw [sqrt_neg (by nlinarith)]
  have hne : k.e ≠ 1 := h.ne'
  simp only [kep_to_cart, kepToCartMat, Mu.toList, List.length_singleton, List.length_replicate, if_true,
      List.replicate_one, List.zip_cons_cons, List.zip_nil_right, List.mapIdx_cons, List.mapIdx_nil, List.map_cons,
      List.map_nil, kepToCart, Bool.false_eq_true, if_false, kepToCartCol, Kep.fx]
  have l1 : ((1 : FX) <ᵇ fin k.e) = true := by simp [h]
  have l2 : (fin k.e =ᵇ (1 : FX)) = false := by simp [hne]
  simp only [l1, l2, if_true, Bool.not_false, Bool.false_eq_true, if_false, store_f64, e1]
  simp [orbital_distance, sq]

/-! ## C06: failures -/

/-- C06, what holds for `cart_to_kep`: a `(6,N)` array is never touched, a bad type or bad row count leaves the argument as
it was, and a vector is untouched unless `mu` is an array of a length other than 1. -/
theorem c06_cart_to_kep_partial {α : Type} [Np α] (g : Nat → CtkGarbage α) (mu : Mu α) (deg : Bool)
    (cart : Arg6 (Cart α)) (h : ∀ dt c, cart = .vec dt c → mu.broadcast 1 ≠ none) :
    (cart_to_kep g mu deg cart).2 = cart := by
  cases cart with
  | notArray => rfl
  | wrongRows => rfl
  | vec dt c =>
    have h1 := h dt c rfl
    simp only [cart_to_kep, cartToKepMat, List.length_singleton]
    have hlen : ∀ ms, mu.broadcast 1 = some ms → ms.length = 1 := by
      intro ms hms
      cases mu with
      | sc x => simp [Mu.broadcast] at hms; rw [← hms]; rfl
      | arr xs =>
        match xs with
        | [] => simp [Mu.broadcast] at hms
        | [x] => simp [Mu.broadcast] at hms; rw [← hms]; rfl
        | x :: y :: t => simp [Mu.broadcast] at hms
    cases hb : mu.broadcast 1 with
    | none => exact absurd hb h1
    | some ms =>
      have := hlen ms hb
      match ms, this with
      | [m], _ => simp
  | mat dt cs =>
    simp only [cart_to_kep]
    cases cartToKepMat g dt mu deg cs <;> rfl

/-- C06 fails for `cart_to_kep`: a 6-vector with any gravitational-parameter array of the wrong length raises ValueError and
leaves the caller's vector with shape (6,1). -/
theorem c06_cart_to_kep_reshaped {α : Type} [Np α] (g : Nat → CtkGarbage α) (xs : List α) (deg : Bool) (dt : DType)
    (c : Cart α) (h : xs.length ≠ 1) :
    cart_to_kep g (.arr xs) deg (.vec dt c) = (.error .valueError, .mat dt [c]) := by
  match xs, h with
  | [], _ => simp [cart_to_kep, cartToKepMat, Mu.broadcast]
  | [x], h => simp at h
  | x :: y :: t, _ => simp [cart_to_kep, cartToKepMat, Mu.broadcast]

/-- C06, what holds for `kep_to_cart`: with a scalar `mu` it raises only for a non-array or a wrong row count, and then the
argument is untouched. -/
theorem c06_kep_to_cart_partial {α : Type} [Np α] (g : Nat → α) (x : α) (deg : Bool) (kep : Arg6 (Kep α)) (err : PyErr)
    (h : (kep_to_cart g (.sc x) deg kep).1 = .error err) :
    (kep_to_cart g (.sc x) deg kep).2 = kep ∧ (kep = .notArray ∧ err = .typeError ∨ kep = .wrongRows ∧ err = .valueError) := by
  cases kep with
  | notArray => simp [kep_to_cart] at h ⊢; exact h.symm
  | wrongRows => simp [kep_to_cart] at h ⊢; exact h.symm
  | vec dt k => simp [kep_to_cart, kepToCartMat, Mu.toList] at h
  | mat dt ks => simp [kep_to_cart, kepToCartMat, Mu.toList] at h

/-- C06 fails for `kep_to_cart`: with a gravitational-parameter array of the wrong length it raises IndexError after
overwriting the caller's array: here the degrees have become radians (and a hyperbola's `a` is negated). -/
theorem c06_kep_to_cart_corrupts (g : Nat → FX) (xs : List FX) (ks : List (Kep ℝ)) (h : xs.length ≠ ks.length) :
    (kep_to_cart g (.arr xs) true (.mat .f64 (ks.map Kep.fx))).1 = .error .indexError ∧
    (kep_to_cart g (.arr xs) true (.mat .f64 (ks.map Kep.fx))).2
      = .mat .f64 (ks.map fun k => ((k.inRad true).afterCall).fx) := by
  constructor
  · simp [kep_to_cart, kepToCartMat, Mu.toList, h]
  · simp only [kep_to_cart, kepToCartMat, Mu.toList, List.length_map, h, if_false, if_true, List.map_map, Arg6.mat.injEq,
      true_and]
    apply List.map_congr_left
    intro k _
    simp only [Function.comp, Kep.toRadians_fx]
    by_cases h2 : 1 < k.e <;> simp [Kep.fx, Kep.afterCall, Kep.inRad, h2]

/-- the corruption is visible for a concrete orbit -/
example : ((⟨1, 0, 180, 0, 0, 0⟩ : Kep ℝ).inRad true).afterCall ≠ ⟨1, 0, 180, 0, 0, 0⟩ := by
  intro h
  simp [Kep.inRad, Kep.afterCall, angleOf] at h
  have := Real.pi_lt_four
  linarith

/-! ## C07: vectorisation and uninitialised memory -/

/-- C07: `cart_to_kep` never shows uninitialised memory, for every scalar type (so NaN included). -/
theorem cartToKepCol_garbage {α : Type} [Np α] (g g' : CtkGarbage α) (dt : DType) (mu : α) (c : Cart α) :
    cartToKepCol g dt mu c = cartToKepCol g' dt mu c := by
  unfold cartToKepCol
  simp only []
  generalize hE : ((e_lim : α) <ᵇ _) = eg
  generalize hI : (((i_lim : α) <ᵇ _) && _) = ig
  cases eg <;> cases ig <;> simp

theorem kepToCartCol_garbage {α : Type} [Np α] (g g' : α) (dt : DType) (mu : α) (k : Kep α) :
    kepToCartCol g dt mu k = kepToCartCol g' dt mu k := by
  unfold kepToCartCol
  simp only []
  generalize hE : (k.e =ᵇ 1) = per
  cases per <;> simp

theorem equiToKep_garbage {α : Type} [Np α] (g g' : Kep α) (dt : DType) (deg : Bool) (q : Equi α) :
    equiToKep g dt deg q = equiToKep g' dt deg q := by
  unfold equiToKep
  simp only []
  generalize hE : ((e_lim : α) <ᵇ _) = eg
  cases eg <;> simp

/-- C07 (cart_to_kep): object `j` of a batch is converted exactly like the single vector in its column, for every scalar
type, dtype, unit, batch size and content of uninitialised memory. -/
theorem c07_cart_to_kep {α : Type} [Np α] (g g1 : Nat → CtkGarbage α) (mus : List α) (deg : Bool) (dt : DType)
    (cs : List (Cart α)) (hl : mus.length = cs.length) :
    ∃ ks, (cart_to_kep g (.arr mus) deg (.mat dt cs)).1 = .ok (.mat dt ks) ∧ ks.length = cs.length ∧
      ∀ j (h1 : j < mus.length) (h2 : j < cs.length) (h3 : j < ks.length),
        (cart_to_kep g1 (.sc mus[j]) deg (.vec dt cs[j])).1 = .ok (.vec dt ks[j]) := by
  have hb : (Mu.arr mus).broadcast cs.length = some mus := by
    match mus, hl with
    | [], hl => simp at hl; simp [Mu.broadcast, ← hl]
    | [m], hl => simp at hl; simp [Mu.broadcast, ← hl]
    | _ :: _ :: _, hl => simp [Mu.broadcast, ← hl]
  refine ⟨(mus.zip cs).mapIdx fun j p => cartToKep (g j) dt p.1 deg p.2, ?_, by simp; omega, ?_⟩
  · simp [cart_to_kep, cartToKepMat, hb]
  · intro j h1 h2 h3
    simp only [cart_to_kep, cartToKepMat, Mu.broadcast, List.length_singleton, List.getElem_mapIdx, List.getElem_zip]
    simp [cartToKep, cartToKepCol_garbage (g1 0) (g j)]

/-- C07 (kep_to_cart) -/
theorem c07_kep_to_cart {α : Type} [Np α] (g g1 : Nat → α) (mus : List α) (deg : Bool) (dt : DType)
    (ks : List (Kep α)) (hl : mus.length = ks.length) :
    ∃ cs, (kep_to_cart g (.arr mus) deg (.mat dt ks)).1 = .ok (.mat dt cs) ∧ cs.length = ks.length ∧
      ∀ j (h1 : j < mus.length) (h2 : j < ks.length) (h3 : j < cs.length),
        (kep_to_cart g1 (.sc mus[j]) deg (.vec dt ks[j])).1 = .ok (.vec dt cs[j]) := by
  refine ⟨((mus.zip ks).mapIdx fun j p => kepToCart (g j) dt p.1 deg p.2).map Prod.fst, ?_, by simp; omega, ?_⟩
  · simp [kep_to_cart, kepToCartMat, Mu.toList, hl]
  · intro j h1 h2 h3
    simp [kep_to_cart, kepToCartMat, Mu.toList, kepToCart, kepToCartCol_garbage (g1 0) (g j)]

/-- C07 (kep_to_equi) -/
theorem c07_kep_to_equi {α : Type} [Np α] (deg : Bool) (dt : DType) (ks : List (Kep α)) :
    ∃ qs, kep_to_equi deg (.mat dt ks) = .ok (.mat dt qs) ∧ qs.length = ks.length ∧
      ∀ j (h2 : j < ks.length) (h3 : j < qs.length), kep_to_equi deg (.vec dt ks[j]) = .ok (.vec dt qs[j]) := by
  refine ⟨ks.mapIdx fun _ k => kepToEqui dt deg k, rfl, by simp, ?_⟩
  intro j h2 h3
  simp [kep_to_equi, Arg6.mapCols]

/-- C07 (equi_to_kep) -/
theorem c07_equi_to_kep {α : Type} [Np α] (g g1 : Nat → Kep α) (deg : Bool) (dt : DType) (qs : List (Equi α)) :
    ∃ ks, equi_to_kep g deg (.mat dt qs) = .ok (.mat dt ks) ∧ ks.length = qs.length ∧
      ∀ j (h2 : j < qs.length) (h3 : j < ks.length), equi_to_kep g1 deg (.vec dt qs[j]) = .ok (.vec dt ks[j]) := by
  refine ⟨qs.mapIdx fun j q => equiToKep (g j) dt deg q, rfl, by simp, ?_⟩
  intro j h2 h3
  simp [equi_to_kep, Arg6.mapCols, equiToKep_garbage (g1 0) (g j)]

theorem triMask_eq_triSc (g : FX) (e x y z : FX) (he : e ≠ nan) : triMask g .f64 e x y z = triSc e x y z := by
  unfold triMask triSc
  cases e with
  | fin r =>
    simp only [one_fin, lt_fin, eq_fin, store_f64]
    rcases lt_trichotomy r 1 with h | h | h
    · simp [h, not_lt.mpr h.le, h.ne]
    · simp [h]
    · simp [h, not_lt.mpr h.le, h.ne']
  | pinf =>
    have h1 : ((1 : FX) <ᵇ pinf) = true := by rw [one_fin]; rfl
    have h2 : (pinf =ᵇ (1 : FX)) = false := by rw [one_fin]; rfl
    have h3 : (pinf <ᵇ (1 : FX)) = false := by rw [one_fin]; rfl
    simp only [h1, h2, h3, store_f64, if_true, if_false, Bool.false_eq_true]
  | ninf =>
    have h1 : ((1 : FX) <ᵇ ninf) = false := by rw [one_fin]; rfl
    have h2 : (ninf =ᵇ (1 : FX)) = false := by rw [one_fin]; rfl
    have h3 : (ninf <ᵇ (1 : FX)) = true := by rw [one_fin]; rfl
    simp only [h1, h2, h3, store_f64, if_true, if_false, Bool.false_eq_true]
  | nan => exact absurd rfl he

theorem elementwise_get {α : Type} [Np α] (g : Nat → α) (el : α → DType → α → α → α) (od : DType → DType) (X Y : NdArr α)
    (p : Nat) (h1 : p < X.data.length) (h2 : p < Y.data.length) (h3 : p < (elementwise g el od X Y).data.length) :
    (elementwise g el od X Y).data[p] = el (g p) X.dt X.data[p] Y.data[p] := by
  simp [elementwise]

/-- a float array -/
def NdArr.IsF64 {α : Type} (A : NdArr α) : Prop := A.dt = .f64

/-- C07, what holds for the anomaly conversions: element `p` of a float array result is the scalar result for element `p`,
provided its eccentricity is not NaN.  (A 0-dimensional array gives a numpy scalar.)  Missing: NaN eccentricities, see `c07_anomaly_leaks`. -/
theorem c07_anomaly_partial (g : Nat → FX) (X Y : NdArr FX) (hX : X.IsF64) (hs : X.shape = Y.shape) (h0 : X.shape ≠ [])
    (hl : X.data.length = Y.data.length) :
    (∃ A, true_to_eccentric g (.arr X) (.arr Y) false = .ok (.arr A) ∧ A.shape = X.shape ∧ A.data.length = X.data.length ∧
      ∀ p (h1 : p < X.data.length) (h2 : p < Y.data.length) (h3 : p < A.data.length), Y.data[p] ≠ nan →
        true_to_eccentric g (.sc .f64 X.data[p]) (.sc .f64 Y.data[p]) false = .ok (.sc .f64 A.data[p])) ∧
    (∃ A, eccentric_to_true g (.arr X) (.arr Y) false = .ok (.arr A) ∧ A.shape = X.shape ∧ A.data.length = X.data.length ∧
      ∀ p (h1 : p < X.data.length) (h2 : p < Y.data.length) (h3 : p < A.data.length), Y.data[p] ≠ nan →
        eccentric_to_true g (.sc .f64 X.data[p]) (.sc .f64 Y.data[p]) false = .ok (.sc .f64 A.data[p])) ∧
    (∃ A, eccentric_to_mean g (.arr X) (.arr Y) false = .ok (.arr A) ∧ A.shape = X.shape ∧ A.data.length = X.data.length ∧
      ∀ p (h1 : p < X.data.length) (h2 : p < Y.data.length) (h3 : p < A.data.length), Y.data[p] ≠ nan →
        eccentric_to_mean g (.sc .f64 X.data[p]) (.sc .f64 Y.data[p]) false = .ok (.sc .f64 A.data[p])) := by
  have hu : unify (.arr X) (.arr Y) = .ok (.arrays X Y) := by simp [unify, hs]
  refine ⟨⟨elementwise g trueToEccentricEl (fun _ => .f64) X Y, ?_, rfl, by simp [elementwise, hl], ?_⟩,
    ⟨elementwise g eccentricToTrueEl (fun _ => .f64) X Y, ?_, rfl, by simp [elementwise, hl], ?_⟩,
    ⟨elementwise g eccentricToMeanEl id X Y, ?_, rfl, by simp [elementwise, hl], ?_⟩⟩
  · simp only [true_to_eccentric, toRad, toDeg, hu, bind, Except.bind, pure, Except.pure, Bool.false_eq_true, if_false]
    rw [ufuncOut_arr (A := elementwise g trueToEccentricEl (fun _ => .f64) X Y) h0]
  · intro p h1 h2 h3 hn
    rw [elementwise_get _ _ _ _ _ _ h1 h2, hX]
    simp only [true_to_eccentric, toRad, toDeg, unify, bind, Except.bind, pure, Except.pure, Bool.false_eq_true, if_false,
      trueToEccentricEl, trueToEccentricSc, triMask_eq_triSc _ _ _ _ _ hn]
  · simp only [eccentric_to_true, toRad, toDeg, hu, bind, Except.bind, pure, Except.pure, Bool.false_eq_true, if_false]
    rw [ufuncOut_arr (A := elementwise g eccentricToTrueEl (fun _ => .f64) X Y) h0]
  · intro p h1 h2 h3 hn
    rw [elementwise_get _ _ _ _ _ _ h1 h2, hX]
    simp only [eccentric_to_true, toRad, toDeg, unify, bind, Except.bind, pure, Except.pure, Bool.false_eq_true, if_false,
      eccentricToTrueEl, eccentricToTrueSc, triMask_eq_triSc _ _ _ _ _ hn]
  · simp [eccentric_to_mean, toRad, toDeg, hu, bind, Except.bind, pure, Except.pure]
  · intro p h1 h2 h3 hn
    rw [elementwise_get _ _ _ _ _ _ h1 h2, hX]
    simp only [eccentric_to_mean, toRad, toDeg, unify, bind, Except.bind, pure, Except.pure, Bool.false_eq_true, if_false,
      eccentricToMeanEl, eccentricToMeanSc, triMask_eq_triSc _ _ _ _ _ hn]

/-- C07 fails for the anomaly conversions: with a NaN eccentricity in an array, the content of uninitialised memory is
returned (`eccentric_to_mean`: verbatim; the two others: reduced mod 2 pi). -/
theorem c07_anomaly_leaks (g : Nat → FX) (x : FX) :
    eccentric_to_mean g (.arr ⟨.f64, [1], [x], [0]⟩) (.arr ⟨.f64, [1], [nan], [0]⟩) false
      = .ok (.arr ⟨.f64, [1], [g 0], [0]⟩) ∧
    true_to_eccentric g (.arr ⟨.f64, [1], [x], [0]⟩) (.arr ⟨.f64, [1], [nan], [0]⟩) false
      = .ok (.arr ⟨.f64, [1], [wrap (g 0)], [0]⟩) ∧
    eccentric_to_true g (.arr ⟨.f64, [1], [x], [0]⟩) (.arr ⟨.f64, [1], [nan], [0]⟩) false
      = .ok (.arr ⟨.f64, [1], [wrap (g 0)], [0]⟩) := by
  refine ⟨?_, ?_, ?_⟩
  · simp [eccentric_to_mean, toRad, toDeg, unify, bind, Except.bind, pure, Except.pure, elementwise, eccentricToMeanEl,
      triMask]
  · simp [true_to_eccentric, toRad, toDeg, unify, bind, Except.bind, pure, Except.pure, elementwise, trueToEccentricEl, ufuncOut,
      triMask]
  · simp [eccentric_to_true, toRad, toDeg, unify, bind, Except.bind, pure, Except.pure, elementwise, eccentricToTrueEl, ufuncOut,
      triMask]

/-! ## C43: integer arrays -/

theorem realTrunc_of_lt_one {x : ℝ} (h0 : 0 ≤ x) (h1 : x < 1) : realTrunc x = 0 := by
  unfold realTrunc
  rw [if_pos h0]
  have : ⌊x⌋ = 0 := Int.floor_eq_zero_iff.mpr ⟨h0, h1⟩
  rw [this]; simp

/-- C43 fails: given as an integer array, *every* elliptic orbit is returned with eccentricity 0, while the float array
with the same numbers gives the true eccentricity. -/
theorem c43_cart_to_kep_int (g : Nat → CtkGarbage FX) (mu : ℝ) (c : Cart ℝ) (hmu : 0 < mu) (hr : angMom c ≠ 0)
    (he : vlen (eccVec mu c) < 1) :
    ∃ ki kf : Kep FX, (cart_to_kep g (.sc (fin mu)) false (.vec .i64 c.fx)).1 = .ok (.vec .i64 ki) ∧
      (cart_to_kep g (.sc (fin mu)) false (.vec .f64 c.fx)).1 = .ok (.vec .f64 kf) ∧
      ki.e = fin 0 ∧ kf.e = fin (vlen (eccVec mu c)) := by
  have hh := angMom_ne_zero hr
  have hrn := c.rn_pos hh
  rw [vlen_eccVec hmu hh] at he ⊢
  refine ⟨cartToKep (g 0) .i64 (fin mu) false c.fx, cartToKep (g 0) .f64 (fin mu) false c.fx, ?_, ?_, ?_, ?_⟩
  · simp [cart_to_kep, cartToKepMat, Mu.broadcast]
  · simp [cart_to_kep, cartToKepMat, Mu.broadcast]
  · have e0 : c.fx = ⟨fin c.x, fin c.y, fin c.z, fin c.vx, fin c.vy, fin c.vz⟩ := rfl
    have : (cartToKep (g 0) .i64 (fin mu) false c.fx).e = fin (realTrunc (c.ecc mu)) := by
      rw [e0]
      simp only [cartToKep, cartToKepCol, Bool.false_eq_true, if_false, V3.norm_fin]
      have f1 : √(c.x ^ 2 + c.y ^ 2 + c.z ^ 2) = c.rn := rfl
      have f2 : √(c.vx ^ 2 + c.vy ^ 2 + c.vz ^ 2) = c.vn := rfl
      simp only [f1, f2, V3.sdiv_fin _ _ _ hrn.ne', V3.dot_fin]
      have f7 : c.x / c.rn * c.vx + c.y / c.rn * c.vy + c.z / c.rn * c.vz = c.vr := rfl
      simp only [f7, sq_fin, mul_fin, div_fin hrn.ne', sub_fin, V3.smul_fin, V3.sub_fin, one_fin, div_fin hmu.ne',
        V3.norm_fin, store]
      rfl
    have hnn : 0 ≤ c.ecc mu := Real.sqrt_nonneg _
    rw [this, realTrunc_of_lt_one hnn he]
  · simp [cartToKep, cartToKepCol_eq _ mu c hmu.ne' hrn hh]

/-- a circular-ish counterexample state with integer entries: `r = (2,0,0)`, `v = (0,0,1)`, `mu = 3`; eccentricity 1/3 -/
example : angMom ⟨2, 0, 0, 0, 0, 1⟩ ≠ 0 ∧ vlen (eccVec 3 ⟨2, 0, 0, 0, 0, 1⟩) < 1 := by
  have hA : angMom ⟨2, 0, 0, 0, 0, 1⟩ = ![0, -2, 0] := by
    rw [angMom_eq]; simp [Cart.hx, Cart.hy, Cart.hz]
  have h0 : angMom ⟨2, 0, 0, 0, 0, 1⟩ ≠ 0 := by
    rw [hA]; intro h; have := congrFun h 1; norm_num at this
  refine ⟨h0, ?_⟩
  have h4 : √(4:ℝ) = 2 := by
    rw [show (4:ℝ) = 2 ^ 2 by norm_num]; exact Real.sqrt_sq (by norm_num)
  rw [vlen_eccVec (by norm_num) (angMom_ne_zero h0)]
  simp only [Cart.ecc, Cart.evx, Cart.evy, Cart.evz, Cart.vn, Cart.rn, Cart.vr]
  norm_num [h4]
  rw [show (9:ℝ) = 3 ^ 2 by norm_num, Real.sqrt_sq (by norm_num)]
  norm_num

/-- C43, what holds: the anomaly conversions give the same result for integer and float arrays when `degrees=True`
(the unit conversion makes the working copy float).  Missing: everything else, e.g. `c43_cart_to_kep_int`. -/
theorem c43_anomaly_degrees_partial {α : Type} [Np α] (g : Nat → α) (X : NdArr α) (e : Arg α) :
    true_to_eccentric g (.arr { X with dt := .i64 }) e true = true_to_eccentric g (.arr { X with dt := .f64 }) e true ∧
    eccentric_to_true g (.arr { X with dt := .i64 }) e true = eccentric_to_true g (.arr { X with dt := .f64 }) e true ∧
    eccentric_to_mean g (.arr { X with dt := .i64 }) e true = eccentric_to_mean g (.arr { X with dt := .f64 }) e true :=
  ⟨rfl, rfl, rfl⟩

/-- C43 fails for `eccentric_to_mean` in radians: `E = 1` given as an integer array with `e = 1/2` yields mean anomaly 0. -/
theorem c43_eccentric_to_mean_int (g : Nat → FX) :
    eccentric_to_mean g (.arr ⟨.i64, [1], [fin 1], [0]⟩) (.sc .f64 (fin (1 / 2))) false
      = .ok (.arr ⟨.i64, [1], [fin 0], [0]⟩) ∧
    eccentric_to_mean g (.arr ⟨.f64, [1], [fin 1], [0]⟩) (.sc .f64 (fin (1 / 2))) false
      = .ok (.arr ⟨.f64, [1], [fin (1 - 1 / 2 * Real.sin 1)], [0]⟩) ∧ 1 - 1 / 2 * Real.sin 1 ≠ 0 := by
  have h1 := Real.sin_le_one 1
  have h2 : 0 < Real.sin 1 := Real.sin_pos_of_pos_of_lt_pi (by norm_num) (by linarith [Real.pi_gt_three])
  have ht : realTrunc (1 - 1 / 2 * Real.sin 1) = 0 := realTrunc_of_lt_one (by linarith) (by linarith)
  have l1 : ((1 : FX) <ᵇ fin (1 / 2)) = false := by rw [one_fin, lt_fin]; norm_num
  have l2 : (fin (1 / 2) =ᵇ (1 : FX)) = false := by rw [one_fin, eq_fin]; norm_num
  have l3 : (fin (1 / 2) <ᵇ (1 : FX)) = true := by rw [one_fin, lt_fin]; norm_num
  refine ⟨?_, ?_, by linarith⟩
  · simp only [eccentric_to_mean, toRad, toDeg, unify, NdArr.full, bind, Except.bind, pure, Except.pure, elementwise,
      eccentricToMeanEl, triMask, etmEli, l1, l2, l3, store]
    norm_num at ht ⊢
    rw [ht, l3, if_pos rfl]
  · simp only [eccentric_to_mean, toRad, toDeg, unify, NdArr.full, bind, Except.bind, pure, Except.pure, elementwise,
      eccentricToMeanEl, triMask, etmEli, l1, l2, l3, store]
    norm_num
    intro h; rw [l3] at h; exact absurd h (by simp)

end Pyorb
