import Verif.PropsEquiCart

/-!
# C21: `degrees=True` is the radian function with converted angles

All statements are over the extended floats `FX`, so they include infinite and NaN entries.  6-row arrays and the scalar
`mean_to_eccentric` are float arrays/floats (with an integer array the converted angles are truncated, C43).
-/

set_option linter.unusedSimpArgs false

namespace Pyorb
open FX

/-! ## Specification: converting the angular slots -/

/-- apply `f` to the four angles of an element column -/
def Kep.mapAng {α : Type} (f : α → α) (k : Kep α) : Kep α := ⟨k.a, k.e, f k.i, f k.om, f k.OM, f k.nu⟩
/-- apply `f` to the only angle of an equinoctial column -/
def Equi.mapAng {α : Type} (f : α → α) (q : Equi α) : Equi α := { q with lam := f q.lam }
/-- apply `f` to every column -/
def Arg6.map {C D : Type} (f : C → D) : Arg6 C → Arg6 D
  | .notArray => .notArray
  | .wrongRows => .wrongRows
  | .vec dt c => .vec dt (f c)
  | .mat dt cs => .mat dt (cs.map f)

/-- the argument is a float array -/
def Arg6.IsFloat {C : Type} : Arg6 C → Prop
  | .vec dt _ => dt = .f64
  | .mat dt _ => dt = .f64
  | _ => True

/-! ## Unit conversion of extended floats -/

theorem pi180 : (Np.pi / 180 : FX) = fin (Real.pi / 180) := by simp
theorem c180pi : (180 / Np.pi : FX) = fin (180 / Real.pi) := by simp [Real.pi_ne_zero]

theorem infSign_pos {x : ℝ} (h : 0 < x) : infSign x = pinf := if_pos h

theorem mul_pinf {x : ℝ} (h : 0 < x) : (pinf * fin x : FX) = pinf := infSign_pos h
theorem mul_ninf {x : ℝ} (h : 0 < x) : (ninf * fin x : FX) = ninf := by
  show neg (infSign x) = ninf
  rw [infSign_pos h]; rfl
theorem mul_nan' (x : FX) : (nan * x : FX) = nan := rfl

theorem r1 : 0 < Real.pi / 180 := by positivity
theorem r2 : 0 < 180 / Real.pi := by positivity

theorem radians_degrees (x : FX) : radians (degrees x) = x := by
  have := Real.pi_ne_zero
  unfold radians degrees
  rw [pi180, c180pi]
  cases x with
  | fin x => simp only [mul_fin]; congr 1; field_simp
  | pinf => rw [mul_pinf r2, mul_pinf r1]
  | ninf => rw [mul_ninf r2, mul_ninf r1]
  | nan => rfl

theorem degrees_radians (x : FX) : degrees (radians x) = x := by
  have := Real.pi_ne_zero
  unfold radians degrees
  rw [pi180, c180pi]
  cases x with
  | fin x => simp only [mul_fin]; congr 1; field_simp
  | pinf => rw [mul_pinf r1, mul_pinf r2]
  | ninf => rw [mul_ninf r1, mul_ninf r2]
  | nan => rfl

theorem scale_add {c : ℝ} (hc : 0 < c) (x y : FX) : (x + y) * fin c = x * fin c + y * fin c := by
  cases x <;> cases y <;> (try simp only [add_fin, mul_fin, add_mul]) <;>
    (try simp only [mul_pinf hc, mul_ninf hc, mul_nan']) <;>
    (try simp only [show ∀ a : ℝ, (fin a + pinf : FX) = pinf from fun _ => rfl,
      show ∀ a : ℝ, (fin a + ninf : FX) = ninf from fun _ => rfl, show ∀ a : ℝ, (fin a + nan : FX) = nan from fun _ => rfl,
      show ∀ a : ℝ, (pinf + fin a : FX) = pinf from fun _ => rfl, show ∀ a : ℝ, (ninf + fin a : FX) = ninf from fun _ => rfl,
      show ∀ a : FX, (nan + a : FX) = nan from fun _ => rfl, show (pinf + ninf : FX) = nan from rfl,
      show (ninf + pinf : FX) = nan from rfl, show (pinf + pinf : FX) = pinf from rfl, show (ninf + ninf : FX) = ninf from rfl,
      show (pinf + nan : FX) = nan from rfl, show (ninf + nan : FX) = nan from rfl]) <;>
    (try simp only [mul_pinf hc, mul_ninf hc, mul_nan'])

theorem neg_scale {c : ℝ} (hc : 0 < c) (x : FX) : neg (x * fin c) = neg x * fin c := by
  cases x with
  | fin a => simp [neg]
  | pinf => rw [mul_pinf hc]; exact (mul_ninf hc).symm
  | ninf => rw [mul_ninf hc]; exact (mul_pinf hc).symm
  | nan => rfl

theorem sub_eq_add_neg' (x y : FX) : x - y = x + neg y := by
  cases x <;> cases y <;> rfl

theorem scale_sub {c : ℝ} (hc : 0 < c) (x y : FX) : (x - y) * fin c = x * fin c - y * fin c := by
  rw [sub_eq_add_neg', sub_eq_add_neg', neg_scale hc, scale_add hc]

theorem radians_add (x y : FX) : radians (x + y) = radians x + radians y := by
  unfold radians; rw [pi180]; exact scale_add r1 x y
theorem radians_sub (x y : FX) : radians (x - y) = radians x - radians y := by
  unfold radians; rw [pi180]; exact scale_sub r1 x y

theorem radians_half (x : FX) : radians (half * x) = half * radians x := by
  have hh : (half : FX) = fin (1 / 2) := by simp [half]
  unfold radians
  rw [pi180, hh]
  have h2 : ∀ {x : ℝ}, 0 < x → (fin x * pinf : FX) = pinf := fun h => infSign_pos h
  have h3 : ∀ {x : ℝ}, 0 < x → (fin x * ninf : FX) = ninf := fun {x} h => by
    show neg (infSign x) = ninf
    rw [infSign_pos h]; rfl
  cases x with
  | fin a => simp only [mul_fin]; congr 1; ring
  | pinf => rw [mul_pinf r1, h2 (by norm_num), mul_pinf r1]
  | ninf => rw [mul_ninf r1, h3 (by norm_num), mul_ninf r1]
  | nan => rfl

/-- reduction modulo 360 is reduction modulo 2 pi in the other unit -/
theorem mod_deg (x : FX) : Np.mod (x + circ true) (circ true) = degrees (Np.mod (radians x + circ false) (circ false)) := by
  cases x with
  | fin a =>
    rw [radians_fin, mod_circ true, mod_circ false]
    simp [angleOf, angleOut]
  | pinf => unfold radians; rw [pi180, mul_pinf r1]; simp only [circ, if_true, Bool.false_eq_true, if_false]; rfl
  | ninf => unfold radians; rw [pi180, mul_ninf r1]; simp only [circ, if_true, Bool.false_eq_true, if_false]; rfl
  | nan => rfl

/-! ## Columns -/

theorem Kep.toDegrees_f64 (k : Kep FX) : k.toDegrees .f64 = k.mapAng degrees := by
  simp only [Kep.toDegrees, Kep.mapAng, store_f64]
theorem Kep.toRadians_f64 (k : Kep FX) : k.toRadians .f64 = k.mapAng radians := by
  simp only [Kep.toRadians, Kep.mapAng, store_f64]

theorem kepToEqui_deg (k : Kep FX) :
    kepToEqui .f64 true k = (kepToEqui .f64 false (k.mapAng radians)).mapAng degrees := by
  simp only [kepToEqui, Equi.mapAng, Kep.mapAng, store_f64, if_true, Bool.false_eq_true, if_false, radians_add, radians_half,
    mod_deg]

theorem equiToKep_deg (g g' : Kep FX) (q : Equi FX) :
    equiToKep g .f64 true q = (equiToKep g' .f64 false (q.mapAng radians)).mapAng degrees := by
  have h0 : radians (0 : FX) = 0 := by simp
  simp only [equiToKep, Equi.mapAng, Kep.mapAng, store_f64, if_true, Bool.false_eq_true, if_false, mod_deg]
  cases (e_lim <ᵇ Np.sqrt (sq q.h + sq q.k)) <;>
    simp only [Bool.not_true, Bool.not_false, if_true, Bool.false_eq_true, if_false, radians_sub, radians_degrees, h0]

theorem nuToMean_deg (g1 g2 : FX) (k : Kep FX) :
    nuToMean g1 g2 .f64 true k = (nuToMean g1 g2 .f64 false (k.mapAng radians)).mapAng degrees := by
  simp only [nuToMean, Kep.mapAng, store_f64, if_true, Bool.false_eq_true, if_false]
  split_ifs <;> simp only [degrees_radians]

theorem meanToNu_deg (g : FX) (o : SolverOpts FX) (k : Kep FX) :
    meanToNu g o .f64 true k = (meanToNu g o .f64 false (k.mapAng radians)).mapAng degrees := by
  simp only [meanToNu, Kep.mapAng, store_f64, if_true, Bool.false_eq_true, if_false]
  split_ifs <;> simp only [degrees_radians]

theorem Kep.mapAng_rd (k : Kep FX) : (k.mapAng degrees).mapAng radians = k := by
  simp only [Kep.mapAng, radians_degrees]
theorem Kep.mapAng_dr (k : Kep FX) : (k.mapAng radians).mapAng degrees = k := by
  simp only [Kep.mapAng, degrees_radians]

/-! ## C21 -/

/-- C21, anomaly functions: for scalars and arrays of any shape and dtype, including the exceptions. -/
theorem c21_true_to_eccentric (g : Nat → FX) (nu e : Arg FX) :
    true_to_eccentric g nu e true = (true_to_eccentric g (nu.map radians) e false).map (Arg.map degrees) := by
  simp only [true_to_eccentric, toRad, toDeg, if_true, Bool.false_eq_true, if_false]
  cases unify (nu.map radians) e with
  | error => rfl
  | ok p => cases p <;> rfl
/-- C21 -/
theorem c21_eccentric_to_true (g : Nat → FX) (E e : Arg FX) :
    eccentric_to_true g E e true = (eccentric_to_true g (E.map radians) e false).map (Arg.map degrees) := by
  simp only [eccentric_to_true, toRad, toDeg, if_true, Bool.false_eq_true, if_false]
  cases unify (E.map radians) e with
  | error => rfl
  | ok p => cases p <;> rfl
/-- C21 -/
theorem c21_eccentric_to_mean (g : Nat → FX) (E e : Arg FX) :
    eccentric_to_mean g E e true = (eccentric_to_mean g (E.map radians) e false).map (Arg.map degrees) := by
  simp only [eccentric_to_mean, toRad, toDeg, if_true, Bool.false_eq_true, if_false]
  cases unify (E.map radians) e with
  | error => rfl
  | ok p => cases p <;> rfl
/-- C21 -/
theorem c21_true_to_mean (g1 g2 : Nat → FX) (nu e : Arg FX) :
    true_to_mean g1 g2 nu e true = (true_to_mean g1 g2 (nu.map radians) e false).map (Arg.map degrees) := by
  simp only [true_to_mean, toRad, toDeg, if_true, Bool.false_eq_true, if_false]
  cases true_to_eccentric g1 (nu.map radians) e false with
  | error => rfl
  | ok E =>
    simp only [bind, Except.bind]
    cases eccentric_to_mean g2 E e false <;> rfl
/-- C21 -/
theorem c21_mean_to_eccentric (o : SolverOpts FX) (M e : Arg FX) (hM : ∀ dt x, M = .sc dt x → dt = .f64)
    (hM0 : ∀ A, M = .arr A → A.shape ≠ []) :
    mean_to_eccentric o M e true = (mean_to_eccentric o (M.map radians) e false).map (Arg.map degrees) := by
  simp only [mean_to_eccentric, toRad, toDeg, if_true, Bool.false_eq_true, if_false]
  cases M with
  | sc dt x =>
    obtain rfl := hM dt x rfl
    cases e with
    | sc d y =>
      simp only [Arg.map, unify, bind, Except.bind]
      split_ifs
      · simp only [pure, Except.pure, Except.map, Arg.map, degrees_radians]
      · rfl
    | arr Y => rfl
  | arr X =>
    rw [Arg.map, ufuncOut_arr (A := ⟨.f64, X.shape, X.data.map radians, X.mem⟩) (hM0 X rfl)]
    cases e with
    | sc d y => rfl
    | arr Y =>
      simp only [unify, bind, Except.bind]
      split_ifs <;> rfl
/-- C21 -/
theorem c21_mean_to_true (g : Nat → FX) (o : SolverOpts FX) (M e : Arg FX) :
    mean_to_true g o M e true = (mean_to_true g o (M.map radians) e false).map (Arg.map degrees) := by
  simp only [mean_to_true, toRad, toDeg, if_true, Bool.false_eq_true, if_false]
  cases mean_to_eccentric o (M.map radians) e false with
  | error => rfl
  | ok E =>
    simp only [bind, Except.bind]
    cases eccentric_to_true g E e false <;> rfl

/-- C21, formulas with an angle argument or result. -/
theorem c21_formulas (x y z w : FX) :
    orbital_distance x y z w true = orbital_distance x y z (radians w) false ∧
    elliptic_radius x y z true = elliptic_radius (radians x) y z false ∧
    parabolic_radius x y true = parabolic_radius (radians x) y false ∧
    hyperbolic_radius x y z true = hyperbolic_radius (radians x) y z false ∧
    true_of_the_asymptote x true = degrees (true_of_the_asymptote x false) ∧
    euler_rotation_matrix x y z true = euler_rotation_matrix (radians x) (radians y) (radians z) false :=
  ⟨rfl, rfl, rfl, rfl, rfl, rfl⟩

theorem mapCols_congr {C D : Type} {f f' : Nat → DType → C → D} (a : Arg6 C) (ha : a.IsFloat)
    (h : ∀ j c, f j .f64 c = f' j .f64 c) : a.mapCols f = a.mapCols f' := by
  cases a with
  | notArray => rfl
  | wrongRows => rfl
  | vec dt c => obtain rfl : dt = .f64 := ha; simp only [Arg6.mapCols, h]
  | mat dt cs => obtain rfl : dt = .f64 := ha; simp only [Arg6.mapCols, h]

theorem mapCols_comp {C C' D D' : Type} (f : Nat → DType → C → D) (i : C' → C) (o : D → D') (a : Arg6 C') :
    a.mapCols (fun j dt c => o (f j dt (i c))) = ((a.map i).mapCols f).map (Arg6.map o) := by
  cases a with
  | notArray => rfl
  | wrongRows => rfl
  | vec dt c => rfl
  | mat dt cs =>
    simp only [Arg6.mapCols, Arg6.map, Except.map, Except.ok.injEq, Arg6.mat.injEq, true_and]
    apply List.ext_getElem <;> simp

theorem mapCols_float {C D : Type} {f : Nat → DType → C → D} {a : Arg6 C} {b : Arg6 D} (ha : a.IsFloat)
    (h : a.mapCols f = .ok b) : b.IsFloat := by
  cases a with
  | notArray => cases h
  | wrongRows => cases h
  | vec dt c => cases h; exact ha
  | mat dt cs => cases h; exact ha

/-- C21, `kep_to_equi`. -/
theorem c21_kep_to_equi (kep : Arg6 (Kep FX)) (hf : kep.IsFloat) :
    kep_to_equi true kep = (kep_to_equi false (kep.map (Kep.mapAng radians))).map (Arg6.map (Equi.mapAng degrees)) := by
  unfold kep_to_equi
  rw [← mapCols_comp]
  exact mapCols_congr _ hf fun j k => kepToEqui_deg k

/-- C21, `equi_to_kep`. -/
theorem c21_equi_to_kep (g g' : Nat → Kep FX) (equi : Arg6 (Equi FX)) (hf : equi.IsFloat) :
    equi_to_kep g true equi
      = (equi_to_kep g' false (equi.map (Equi.mapAng radians))).map (Arg6.map (Kep.mapAng degrees)) := by
  unfold equi_to_kep
  rw [← mapCols_comp]
  exact mapCols_congr _ hf fun j k => equiToKep_deg _ _ k

theorem cartToKep_deg (g : CtkGarbage FX) (mu : FX) (c : Cart FX) :
    cartToKep g .f64 mu true c = (cartToKep g .f64 mu false c).mapAng degrees := by
  simp only [cartToKep, if_true, Bool.false_eq_true, if_false, Kep.toDegrees_f64]

theorem cartToKepMat_deg (g : Nat → CtkGarbage FX) (mu : Mu FX) (cs : List (Cart FX)) :
    cartToKepMat g .f64 mu true cs = (cartToKepMat g .f64 mu false cs).map (List.map (Kep.mapAng degrees)) := by
  unfold cartToKepMat
  cases mu.broadcast cs.length with
  | none => rfl
  | some mus =>
    simp only [Except.map, cartToKep_deg, Except.ok.injEq]
    apply List.ext_getElem <;> simp

/-- C21, `cart_to_kep`. -/
theorem c21_cart_to_kep (g : Nat → CtkGarbage FX) (mu : Mu FX) (cart : Arg6 (Cart FX)) (hf : cart.IsFloat) :
    (cart_to_kep g mu true cart).1 = ((cart_to_kep g mu false cart).1).map (Arg6.map (Kep.mapAng degrees)) := by
  cases cart with
  | notArray => rfl
  | wrongRows => rfl
  | vec dt c =>
    obtain rfl : dt = .f64 := hf
    simp only [cart_to_kep, cartToKepMat_deg]
    cases h : cartToKepMat g .f64 mu false [c] with
    | error => rfl
    | ok ks =>
      match ks with
      | [] => rfl
      | [k] => rfl
      | k :: k' :: t => rfl
  | mat dt cs =>
    obtain rfl : dt = .f64 := hf
    simp only [cart_to_kep, cartToKepMat_deg]
    cases cartToKepMat g .f64 mu false cs <;> rfl

theorem kepToCart_deg (gh mu : FX) (k : Kep FX) :
    (kepToCart gh .f64 mu true k).1 = (kepToCart gh .f64 mu false (k.mapAng radians)).1 := by
  simp only [kepToCart, if_true, Bool.false_eq_true, if_false, Kep.toRadians_f64]

theorem kepToCartMat_deg (g : Nat → FX) (mu : Mu FX) (ks : List (Kep FX)) :
    (kepToCartMat g .f64 mu true ks).1 = (kepToCartMat g .f64 mu false (ks.map (Kep.mapAng radians))).1 := by
  simp only [kepToCartMat, List.length_map]
  by_cases h : (mu.toList ks.length).length = ks.length
  · rw [if_pos h, if_pos h]
    simp only [Except.ok.injEq]
    apply List.ext_getElem
    · simp
    · intro j h1 h2
      simp [kepToCart_deg]
  · rw [if_neg h, if_neg h]

/-- C21, `kep_to_cart`. -/
theorem c21_kep_to_cart (g : Nat → FX) (mu : Mu FX) (kep : Arg6 (Kep FX)) (hf : kep.IsFloat) :
    (kep_to_cart g mu true kep).1 = (kep_to_cart g mu false (kep.map (Kep.mapAng radians))).1 := by
  cases kep with
  | notArray => rfl
  | wrongRows => rfl
  | vec dt k =>
    obtain rfl : dt = .f64 := hf
    simp only [kep_to_cart, Arg6.map]
    simp only [kepToCartMat, List.length_singleton]
    match hm : mu.toList 1 with
    | [] => simp
    | [m] => simp [kepToCart_deg]
    | a :: b :: t => simp
  | mat dt ks =>
    obtain rfl : dt = .f64 := hf
    have h := kepToCartMat_deg g mu ks
    simp only [kep_to_cart, Arg6.map]
    generalize kepToCartMat g .f64 mu true ks = A at *
    generalize kepToCartMat g .f64 mu false (ks.map (Kep.mapAng radians)) = B at *
    obtain ⟨A1, A2⟩ := A
    obtain ⟨B1, B2⟩ := B
    simp only at h
    subst h
    cases A1 <;> rfl

theorem Arg6.map_map {C D E : Type} (f : C → D) (h : D → E) (a : Arg6 C) : (a.map f).map h = a.map fun c => h (f c) := by
  cases a <;> simp [Arg6.map]

theorem Arg6.map_id' {C : Type} (a : Arg6 C) : a.map (fun c => c) = a := by
  cases a <;> simp [Arg6.map]

theorem Arg6.map_float {C D : Type} {f : C → D} {a : Arg6 C} (h : a.IsFloat) : (a.map f).IsFloat := by
  cases a <;> exact h

theorem cart_to_kep_float {g : Nat → CtkGarbage FX} {mu : Mu FX} {deg : Bool} {cart : Arg6 (Cart FX)} {k : Arg6 (Kep FX)}
    (hf : cart.IsFloat) (h : (cart_to_kep g mu deg cart).1 = .ok k) : k.IsFloat := by
  cases cart with
  | notArray => cases h
  | wrongRows => cases h
  | vec dt c =>
    obtain rfl : dt = .f64 := hf
    simp only [cart_to_kep] at h
    split at h <;> cases h <;> rfl
  | mat dt cs =>
    obtain rfl : dt = .f64 := hf
    simp only [cart_to_kep] at h
    split at h <;> cases h
    rfl

/-- C21, `cart_to_equi`. -/
theorem c21_cart_to_equi (g : Nat → CtkGarbage FX) (g1 g2 : Nat → FX) (mu : Mu FX) (cart : Arg6 (Cart FX)) (hf : cart.IsFloat) :
    (cart_to_equi g g1 g2 mu true cart).1
      = ((cart_to_equi g g1 g2 mu false cart).1).map (Arg6.map (Equi.mapAng degrees)) := by
  have h := c21_cart_to_kep g mu cart hf
  have hfl := @cart_to_kep_float g mu false cart
  simp only [cart_to_equi]
  generalize cart_to_kep g mu true cart = A at *
  generalize cart_to_kep g mu false cart = B at *
  obtain ⟨A1, A2⟩ := A
  obtain ⟨B1, B2⟩ := B
  simp only at h
  subst h
  cases B1 with
  | error => rfl
  | ok k =>
    have hk : k.IsFloat := hfl hf rfl
    simp only [Except.map, bind, Except.bind]
    rw [mapCols_congr _ (Arg6.map_float hk) (f' := fun j dt k => (nuToMean (g1 j) (g2 j) dt false (k.mapAng radians)).mapAng degrees)
      (fun j k => nuToMean_deg _ _ k), mapCols_comp, Arg6.map_map]
    simp only [Kep.mapAng_rd, Arg6.map_id']
    cases hm : k.mapCols fun j dt k => nuToMean (g1 j) (g2 j) dt false k with
    | error => rfl
    | ok k' =>
      simp only [Except.map]
      rw [c21_kep_to_equi _ (Arg6.map_float (mapCols_float hk hm)), Arg6.map_map]
      simp only [Kep.mapAng_rd, Arg6.map_id']
      rfl

/-- C21, `equi_to_cart`. -/
theorem c21_equi_to_cart (ge ge' : Nat → Kep FX) (gt gh : Nat → FX) (o : SolverOpts FX) (mu : Mu FX) (equi : Arg6 (Equi FX))
    (hf : equi.IsFloat) :
    equi_to_cart ge gt gh o mu true equi = equi_to_cart ge' gt gh o mu false (equi.map (Equi.mapAng radians)) := by
  simp only [equi_to_cart]
  rw [c21_equi_to_kep ge ge' equi hf]
  cases h1 : equi_to_kep ge' false (equi.map (Equi.mapAng radians)) with
  | error => rfl
  | ok k =>
    have hk : k.IsFloat := mapCols_float (Arg6.map_float hf) h1
    simp only [Except.map, bind, Except.bind]
    rw [mapCols_congr _ (Arg6.map_float hk) (f' := fun j dt k => (meanToNu (gt j) o dt false (k.mapAng radians)).mapAng degrees)
      (fun j k => meanToNu_deg _ _ k), mapCols_comp, Arg6.map_map]
    simp only [Kep.mapAng_rd, Arg6.map_id']
    cases hm : k.mapCols fun j dt k => meanToNu (gt j) o dt false k with
    | error => rfl
    | ok k' =>
      simp only [Except.map]
      rw [c21_kep_to_cart _ _ _ (Arg6.map_float (mapCols_float hk hm)), Arg6.map_map]
      simp only [Kep.mapAng_rd, Arg6.map_id']

/-- float arrays meeting the hypothesis -/
example : (Arg6.mat .f64 [(⟨fin 7000, fin 0, fin 30, fin 400, nan, pinf⟩ : Kep FX)]).IsFloat := rfl

end Pyorb
