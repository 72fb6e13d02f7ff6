import Verif.KeplerArr

/-!
# Shapes accepted and returned by the anomaly functions (C54)
-/

set_option linter.unusedSectionVars false

namespace Pyorb
variable {α : Type} [Np α]

/-! ## Specification -/

/-- shape of an argument or result: `none` for a scalar -/
def Arg.shape? : Arg α → Option (List Nat)
  | .sc _ _ => none
  | .arr A => some A.shape

/-- a scalar, or a numpy array of at least one dimension; an array has as many elements as its shape says, each stored
once -/
def Arg.Sound : Arg α → Prop
  | .sc _ _ => True
  | .arr A => A.WF ∧ A.shape ≠ []

/-- The documented contract for one call: a scalar goes with everything, two arrays must have the same shape, and the
result has the shape of the array arguments. -/
def ContractAt (f : Arg α → Arg α → Except PyErr (Arg α)) (x e : Arg α) : Prop :=
  match x.shape?, e.shape? with
  | none, sh => ∃ y, f x e = .ok y ∧ y.Sound ∧ y.shape? = sh
  | some sh, none => ∃ y, f x e = .ok y ∧ y.Sound ∧ y.shape? = some sh
  | some sh, some sh' =>
    if sh = sh' then ∃ y, f x e = .ok y ∧ y.Sound ∧ y.shape? = some sh else f x e = .error .typeError

/-- The documented contract, for all scalars and all arrays of at least one dimension. -/
def ShapeContract (f : Arg α → Arg α → Except PyErr (Arg α)) : Prop :=
  ∀ x e : Arg α, x.Sound → e.Sound → ContractAt f x e

/-- the arguments agree (in the sense of the contract) and are to give an empty array: some axis has length 0 -/
def AgreeEmpty (x e : Arg α) : Prop :=
  match x.shape?, e.shape? with
  | none, none => False
  | none, some sh => 0 ∈ sh
  | some sh, none => 0 ∈ sh
  | some sh, some sh' => sh = sh' ∧ 0 ∈ sh

/-! ## Proofs -/

theorem ufuncOut_arr {A : NdArr α} (h : A.shape ≠ []) : ufuncOut A = .arr A := by
  unfold ufuncOut
  split
  · contradiction
  · rfl
theorem shape?_map (f : α → α) {x : Arg α} (h : x.Sound) : (x.map f).shape? = x.shape? := by
  cases x with
  | sc => rfl
  | arr A => rw [Arg.map, ufuncOut_arr (A := ⟨.f64, A.shape, A.data.map f, A.mem⟩) h.2]; rfl
theorem sound_map {f : α → α} {x : Arg α} (h : x.Sound) : (x.map f).Sound := by
  cases x with
  | sc => trivial
  | arr A =>
    rw [Arg.map, ufuncOut_arr (A := ⟨.f64, A.shape, A.data.map f, A.mem⟩) h.2]
    exact ⟨⟨by show (A.data.map f).length = A.size; rw [List.length_map]; exact h.1.len, h.1.perm⟩, h.2⟩
theorem shape?_toRad (d : Bool) {x : Arg α} (h : x.Sound) : (toRad d x).shape? = x.shape? := by
  cases d <;> simp [toRad, shape?_map _ h]
theorem shape?_toDeg (d : Bool) {x : Arg α} (h : x.Sound) : (toDeg d x).shape? = x.shape? := by
  cases d <;> simp [toDeg, shape?_map _ h]
theorem sound_toRad {d : Bool} {x : Arg α} (h : x.Sound) : (toRad d x).Sound := by
  cases d
  · exact h
  · exact sound_map h
theorem sound_toDeg {d : Bool} {x : Arg α} (h : x.Sound) : (toDeg d x).Sound := by
  cases d
  · exact h
  · exact sound_map h

theorem full_wf (sh : List Nat) (dt : DType) (x : α) : (NdArr.full sh dt x).WF :=
  ⟨by simp [NdArr.full, NdArr.size], by simp [NdArr.full, NdArr.size]⟩
theorem elementwise_wf (g : Nat → α) (el : α → DType → α → α → α) (o : DType → DType) {X Y : NdArr α} (hX : X.WF) (hY : Y.WF)
    (h : X.shape = Y.shape) : (elementwise g el o X Y).WF := by
  have hl : X.data.length = Y.data.length := by rw [hX.len, hY.len]; unfold NdArr.size; rw [h]
  have : ((X.data.zip Y.data).mapIdx fun k p => el (g k) X.dt p.1 p.2).length = X.size := by simp [← hl, hX.len]
  exact ⟨this, by show (List.range _).Perm _; rw [this]; exact List.Perm.refl _⟩
theorem nditer_length {X : NdArr α} (hX : X.WF) : X.nditer.length = X.size := by
  simp [NdArr.nditer, hX.perm.length_eq]
theorem nditerLoop_wf (f : α → α → α) {X Y : NdArr α} (hX : X.WF) (hY : Y.WF) (h : X.shape = Y.shape) :
    (nditerLoop f X Y).WF := by
  have hs : X.size = Y.size := by unfold NdArr.size; rw [h]
  have : (List.zipWith (fun m e => store X.dt (f m e)) X.nditer Y.nditer).length = X.size := by
    simp [nditer_length hX, nditer_length hY, hs]
  exact ⟨this, by show (List.range _).Perm _; rw [this]; exact List.Perm.refl _⟩

/-- shape contract of a function that unifies its arguments and then works on scalars or on arrays -/
theorem contract_of_unify (f : Arg α → Arg α → Except PyErr (Arg α)) (d : Bool)
    (F : Arg α → Pair α → Arg α) (hf : ∀ x e, f x e = (unify (toRad d x) e).map (F x))
    (h1 : ∀ x a b, x.shape? = none → (F x (.scalars a b)).shape? = none)
    (h2 : ∀ x X Y, (X : NdArr α).WF → Y.WF → X.shape = Y.shape → X.shape ≠ [] →
      (F x (.arrays X Y)).Sound ∧ (F x (.arrays X Y)).shape? = some X.shape) : ShapeContract f := by
  intro x e hx he
  have hx' := sound_toRad (d := d) hx
  have hs := shape?_toRad d hx
  unfold ContractAt
  rw [← hs, hf]
  generalize hz : toRad d x = z at hx' hs
  cases z with
  | sc dt a =>
    cases e with
    | sc dt' b =>
      have h := h1 x a b hs.symm
      refine ⟨_, rfl, ?_, h⟩
      cases hF : F x (.scalars a b) with
      | sc => trivial
      | arr A => rw [hF] at h; cases h
    | arr Y =>
      obtain ⟨h3, h4⟩ := h2 x (NdArr.full Y.shape (DType.promote Y.dt dt) a) Y (full_wf _ _ _) he.1 rfl he.2
      exact ⟨_, rfl, h3, h4⟩
  | arr X =>
    cases e with
    | sc dt' b =>
      obtain ⟨h3, h4⟩ := h2 x X (NdArr.full X.shape (DType.promote X.dt dt') b) hx'.1 (full_wf _ _ _) rfl hx'.2
      exact ⟨_, rfl, h3, h4⟩
    | arr Y =>
      show if X.shape = Y.shape then _ else _
      by_cases h : X.shape = Y.shape
      · rw [if_pos h]
        obtain ⟨h3, h4⟩ := h2 x X Y hx'.1 he.1 h hx'.2
        exact ⟨_, by show (unify (.arr X) (.arr Y)).map (F x) = _; simp only [unify, if_pos h]; rfl, h3, h4⟩
      · rw [if_neg h]
        show (unify (.arr X) (.arr Y)).map (F x) = _
        simp only [unify, if_neg h]; rfl

/-- C54 -/
theorem c54_true_to_eccentric (g : Nat → α) (d : Bool) : ShapeContract fun nu e => true_to_eccentric g nu e d := by
  refine contract_of_unify _ d (fun _ p => match p with
    | .scalars x e => toDeg d (.sc .f64 (trueToEccentricSc x e))
    | .arrays X Y => toDeg d (ufuncOut (elementwise g trueToEccentricEl (fun _ => .f64) X Y))) ?_ ?_ ?_
  · intro x e
    simp only [true_to_eccentric]
    cases unify (toRad d x) e with
    | error => rfl
    | ok p => cases p <;> rfl
  · intro x a b _; exact shape?_toDeg (x := .sc .f64 _) d trivial
  · intro x X Y hX hY h h0
    have hs : (Arg.arr (elementwise g trueToEccentricEl (fun _ => .f64) X Y)).Sound := ⟨elementwise_wf _ _ _ hX hY h, h0⟩
    show (toDeg d (ufuncOut _)).Sound ∧ (toDeg d (ufuncOut _)).shape? = _
    rw [ufuncOut_arr (A := elementwise g trueToEccentricEl (fun _ => .f64) X Y) h0]
    exact ⟨sound_toDeg hs, by rw [shape?_toDeg d hs]; rfl⟩
/-- C54 -/
theorem c54_eccentric_to_true (g : Nat → α) (d : Bool) : ShapeContract fun E e => eccentric_to_true g E e d := by
  refine contract_of_unify _ d (fun _ p => match p with
    | .scalars x e => toDeg d (.sc .f64 (eccentricToTrueSc x e))
    | .arrays X Y => toDeg d (ufuncOut (elementwise g eccentricToTrueEl (fun _ => .f64) X Y))) ?_ ?_ ?_
  · intro x e
    simp only [eccentric_to_true]
    cases unify (toRad d x) e with
    | error => rfl
    | ok p => cases p <;> rfl
  · intro x a b _; exact shape?_toDeg (x := .sc .f64 _) d trivial
  · intro x X Y hX hY h h0
    have hs : (Arg.arr (elementwise g eccentricToTrueEl (fun _ => .f64) X Y)).Sound := ⟨elementwise_wf _ _ _ hX hY h, h0⟩
    show (toDeg d (ufuncOut _)).Sound ∧ (toDeg d (ufuncOut _)).shape? = _
    rw [ufuncOut_arr (A := elementwise g eccentricToTrueEl (fun _ => .f64) X Y) h0]
    exact ⟨sound_toDeg hs, by rw [shape?_toDeg d hs]; rfl⟩
/-- C54 -/
theorem c54_eccentric_to_mean (g : Nat → α) (d : Bool) : ShapeContract fun E e => eccentric_to_mean g E e d := by
  refine contract_of_unify _ d (fun _ p => match p with
    | .scalars x e => toDeg d (.sc .f64 (eccentricToMeanSc x e))
    | .arrays X Y => toDeg d (.arr (elementwise g eccentricToMeanEl id X Y))) ?_ ?_ ?_
  · intro x e
    simp only [eccentric_to_mean]
    cases unify (toRad d x) e with
    | error => rfl
    | ok p => cases p <;> rfl
  · intro x a b _; exact shape?_toDeg (x := .sc .f64 _) d trivial
  · intro x X Y hX hY h h0
    have hs : (Arg.arr (elementwise g eccentricToMeanEl id X Y)).Sound := ⟨elementwise_wf _ _ _ hX hY h, h0⟩
    exact ⟨sound_toDeg hs, by rw [shape?_toDeg d hs]; rfl⟩
theorem size_zero_iff (A : NdArr α) : A.size = 0 ↔ 0 ∈ A.shape := by
  unfold NdArr.size
  induction A.shape with
  | nil => simp
  | cons n l ih => rw [List.foldr_cons, Nat.mul_eq_zero, ih, List.mem_cons, eq_comm (a := n)]

/-- C54 for `kepler_guess`: the contract holds except that an empty result is refused with a ValueError. -/
theorem c54_kepler_guess (x e : Arg α) (hx : x.Sound) (he : e.Sound) :
    (AgreeEmpty x e → kepler_guess x e = .error .valueError) ∧ (¬ AgreeEmpty x e → ContractAt kepler_guess x e) := by
  cases x with
  | sc dt a =>
    cases e with
    | sc dt' b => exact ⟨False.elim, fun _ => ⟨_, rfl, trivial, rfl⟩⟩
    | arr Y =>
      have hsz : (NdArr.full Y.shape (DType.promote Y.dt dt) a).size = Y.size := rfl
      have hk : kepler_guess (.sc dt a) (.arr Y)
          = if (NdArr.full Y.shape (DType.promote Y.dt dt) a).size = 0 then .error .valueError
            else .ok (.arr (nditerLoop keplerGuess (NdArr.full Y.shape (DType.promote Y.dt dt) a) Y)) := rfl
      refine ⟨fun h => ?_, fun h => ⟨.arr (nditerLoop keplerGuess (NdArr.full Y.shape (DType.promote Y.dt dt) a) Y), ?_,
        ⟨nditerLoop_wf _ (full_wf _ _ _) he.1 rfl, he.2⟩, rfl⟩⟩
      · rw [hk, if_pos (hsz.trans ((size_zero_iff Y).2 h))]
      · rw [hk, if_neg fun h' => h ((size_zero_iff Y).1 (hsz.symm.trans h'))]
  | arr X =>
    cases e with
    | sc dt' b =>
      have hk : kepler_guess (.arr X) (.sc dt' b)
          = if X.size = 0 then .error .valueError
            else .ok (.arr (nditerLoop keplerGuess X (NdArr.full X.shape (DType.promote X.dt dt') b))) := rfl
      refine ⟨fun h => ?_, fun h => ⟨.arr (nditerLoop keplerGuess X (NdArr.full X.shape (DType.promote X.dt dt') b)), ?_,
        ⟨nditerLoop_wf _ hx.1 (full_wf _ _ _) rfl, hx.2⟩, rfl⟩⟩
      · rw [hk, if_pos ((size_zero_iff X).2 h)]
      · rw [hk, if_neg fun h' => h ((size_zero_iff X).1 h')]
    | arr Y =>
      by_cases hs : X.shape = Y.shape
      · have hk : kepler_guess (.arr X) (.arr Y)
            = if X.size = 0 then .error .valueError else .ok (.arr (nditerLoop keplerGuess X Y)) := by
          simp only [kepler_guess, unify, if_pos hs]; rfl
        refine ⟨fun h => ?_, fun h => ?_⟩
        · rw [hk, if_pos ((size_zero_iff X).2 h.2)]
        · show if X.shape = Y.shape then _ else _
          rw [if_pos hs, hk, if_neg fun h' => h ⟨hs, (size_zero_iff X).1 h'⟩]
          exact ⟨_, rfl, ⟨nditerLoop_wf _ hx.1 he.1 hs, hx.2⟩, rfl⟩
      · refine ⟨fun h => absurd h.1 hs, fun _ => ?_⟩
        show if X.shape = Y.shape then _ else _
        rw [if_neg hs]
        simp only [kepler_guess, unify, if_neg hs]; rfl
/-- C54 -/
theorem c54_mean_to_eccentric (o : SolverOpts α) (d : Bool) : ShapeContract fun M e => mean_to_eccentric o M e d := by
  refine contract_of_unify _ d (fun M p => match p with
    | .scalars x ec => if ec =ᵇ 0 then M else toDeg d (.sc .f64 (meanToEccentricEl o x ec))
    | .arrays X Y => toDeg d (.arr (nditerLoop (meanToEccentricEl o) X Y))) ?_ ?_ ?_
  · intro x e
    simp only [mean_to_eccentric]
    cases unify (toRad d x) e with
    | error => rfl
    | ok p =>
      cases p with
      | arrays => rfl
      | scalars a b =>
        show (if b =ᵇ 0 then pure x else pure _ : Except PyErr (Arg α)) = .ok (if b =ᵇ 0 then x else _)
        by_cases hb : (b =ᵇ 0) = true
        · rw [if_pos hb, if_pos hb]; rfl
        · rw [if_neg hb, if_neg hb]; rfl
  · intro x a b hx
    show (if b =ᵇ 0 then x else _ : Arg α).shape? = none
    by_cases hb : (b =ᵇ 0) = true
    · rw [if_pos hb]; exact hx
    · rw [if_neg hb]; exact shape?_toDeg (x := .sc .f64 _) d trivial
  · intro x X Y hX hY h h0
    have hs : (Arg.arr (nditerLoop (meanToEccentricEl o) X Y)).Sound := ⟨nditerLoop_wf _ hX hY h, h0⟩
    exact ⟨sound_toDeg hs, by rw [shape?_toDeg d hs]; rfl⟩

/-- composition of two functions that share their second argument -/
theorem contract_comp {f h : Arg α → Arg α → Except PyErr (Arg α)} (hf : ShapeContract f) (hh : ShapeContract h) (d : Bool) :
    ShapeContract fun x e => (do
      let y ← f (toRad d x) e
      let z ← h y e
      pure (toDeg d z) : Except PyErr (Arg α)) := by
  intro x e hx he
  have hx' := sound_toRad (d := d) hx
  have hs := shape?_toRad d hx
  have key : ∀ y z, f (toRad d x) e = .ok y → h y e = .ok z →
      (do let y ← f (toRad d x) e
          let z ← h y e
          pure (toDeg d z) : Except PyErr (Arg α)) = .ok (toDeg d z) := by
    intro y z h1 h2; rw [h1]; show (h y e >>= _) = _; rw [h2]; rfl
  have hfx := hf _ _ hx' he
  unfold ContractAt at hfx ⊢
  rw [hs] at hfx
  cases h1 : x.shape? with
  | none =>
    cases h2 : e.shape? with
    | none =>
      rw [h1, h2] at hfx
      obtain ⟨y, e1, s1, p1⟩ := hfx
      have := hh y e s1 he
      unfold ContractAt at this
      rw [p1, h2] at this
      obtain ⟨z, e2, s2, p2⟩ := this
      exact ⟨_, key y z e1 e2, sound_toDeg s2, by rw [shape?_toDeg d s2]; exact p2⟩
    | some sh =>
      rw [h1, h2] at hfx
      obtain ⟨y, e1, s1, p1⟩ := hfx
      have := hh y e s1 he
      unfold ContractAt at this
      rw [p1, h2] at this
      simp only [if_true] at this
      obtain ⟨z, e2, s2, p2⟩ := this
      exact ⟨_, key y z e1 e2, sound_toDeg s2, by rw [shape?_toDeg d s2]; exact p2⟩
  | some sh =>
    cases h2 : e.shape? with
    | none =>
      rw [h1, h2] at hfx
      obtain ⟨y, e1, s1, p1⟩ := hfx
      have := hh y e s1 he
      unfold ContractAt at this
      rw [p1, h2] at this
      obtain ⟨z, e2, s2, p2⟩ := this
      exact ⟨_, key y z e1 e2, sound_toDeg s2, by rw [shape?_toDeg d s2]; exact p2⟩
    | some sh' =>
      rw [h1, h2] at hfx
      by_cases hsh : sh = sh'
      · simp only [if_pos hsh] at hfx ⊢
        obtain ⟨y, e1, s1, p1⟩ := hfx
        have := hh y e s1 he
        unfold ContractAt at this
        rw [p1, h2] at this
        simp only [if_pos hsh] at this
        obtain ⟨z, e2, s2, p2⟩ := this
        exact ⟨_, key y z e1 e2, sound_toDeg s2, by rw [shape?_toDeg d s2]; exact p2⟩
      · simp only [if_neg hsh] at hfx ⊢
        rw [hfx]; rfl

/-- C54 -/
theorem c54_true_to_mean (g1 g2 : Nat → α) (d : Bool) : ShapeContract fun nu e => true_to_mean g1 g2 nu e d :=
  contract_comp (c54_true_to_eccentric g1 false) (c54_eccentric_to_mean g2 false) d
/-- C54 -/
theorem c54_mean_to_true (g : Nat → α) (o : SolverOpts α) (d : Bool) : ShapeContract fun M e => mean_to_true g o M e d :=
  contract_comp (c54_mean_to_eccentric o false) (c54_eccentric_to_true g false) d

/-- C54 does not extend to 0-dimensional arrays: whether one goes with an array `e` of another shape depends on
`degrees`.  In radians it is refused; in degrees `np.radians` has turned it into a numpy scalar, which is accepted. -/
theorem c54_zero_d_false (g : Nat → α) (dt : DType) (a : α) (Y : NdArr α) (hY : Y.WF) (hs : Y.shape ≠ []) :
    true_to_eccentric g (.arr ⟨dt, [], [a], [0]⟩) (.arr Y) false = .error .typeError ∧
    eccentric_to_mean g (.arr ⟨dt, [], [a], [0]⟩) (.arr Y) false = .error .typeError ∧
    (∃ y, true_to_eccentric g (.arr ⟨dt, [], [a], [0]⟩) (.arr Y) true = .ok y ∧ y.shape? = some Y.shape) ∧
    (∃ y, eccentric_to_mean g (.arr ⟨dt, [], [a], [0]⟩) (.arr Y) true = .ok y ∧ y.shape? = some Y.shape) := by
  have hu : unify (.arr ⟨dt, [], [a], [0]⟩) (.arr Y) = .error .typeError := by
    simp only [unify, if_neg (Ne.symm hs)]
  have hy : (Arg.arr Y).Sound := ⟨hY, hs⟩
  refine ⟨?_, ?_, ?_, ?_⟩
  · show (unify (.arr ⟨dt, [], [a], [0]⟩) (.arr Y) >>= _) = _
    rw [hu]; rfl
  · show (unify (.arr ⟨dt, [], [a], [0]⟩) (.arr Y) >>= _) = _
    rw [hu]; rfl
  · obtain ⟨y, h, _, h'⟩ := c54_true_to_eccentric g true (.sc .f64 a) (.arr Y) trivial hy
    exact ⟨y, h, h'⟩
  · obtain ⟨y, h, _, h'⟩ := c54_eccentric_to_mean g true (.sc .f64 a) (.arr Y) trivial hy
    exact ⟨y, h, h'⟩

/-- C54 on arrays of shapes (2,) and (3,), and (2,) with a scalar -/
example (g : Nat → α) (a b : α) :
    true_to_eccentric g (.arr ⟨.f64, [2], [a, b], [0, 1]⟩) (.arr ⟨.f64, [3], [a, b, a], [0, 1, 2]⟩) true = .error .typeError ∧
    ∃ y, true_to_eccentric g (.arr ⟨.f64, [2], [a, b], [0, 1]⟩) (.sc .f64 a) true = .ok y ∧ y.Sound ∧ y.shape? = some [2] := by
  have w2 : (⟨.f64, [2], [a, b], [0, 1]⟩ : NdArr α).WF := ⟨rfl, List.Perm.refl _⟩
  have w3 : (⟨.f64, [3], [a, b, a], [0, 1, 2]⟩ : NdArr α).WF := ⟨rfl, List.Perm.refl _⟩
  exact ⟨c54_true_to_eccentric g true (.arr ⟨.f64, [2], [a, b], [0, 1]⟩) (.arr ⟨.f64, [3], [a, b, a], [0, 1, 2]⟩) ⟨w2, by simp⟩ ⟨w3, by simp⟩,
    c54_true_to_eccentric g true (.arr ⟨.f64, [2], [a, b], [0, 1]⟩) (.sc .f64 a) ⟨w2, by simp⟩ trivial⟩

/-- C54, `kepler_guess` on an empty and on a non-empty array -/
example (a b : α) :
    kepler_guess (.arr ⟨.f64, [0], [], []⟩) (.sc .f64 a) = .error .valueError ∧
    ∃ y, kepler_guess (.arr ⟨.f64, [2], [a, b], [0, 1]⟩) (.sc .f64 a) = .ok y ∧ y.Sound ∧ y.shape? = some [2] := by
  have w0 : (⟨.f64, [0], [], []⟩ : NdArr α).WF := ⟨rfl, List.Perm.refl _⟩
  have w2 : (⟨.f64, [2], [a, b], [0, 1]⟩ : NdArr α).WF := ⟨rfl, List.Perm.refl _⟩
  exact ⟨(c54_kepler_guess (.arr ⟨.f64, [0], [], []⟩) (.sc .f64 a) ⟨w0, by simp⟩ trivial).1 (by simp [AgreeEmpty, Arg.shape?]),
    (c54_kepler_guess (.arr ⟨.f64, [2], [a, b], [0, 1]⟩) (.sc .f64 a) ⟨w2, by simp⟩ trivial).2
      (by simp [AgreeEmpty, Arg.shape?])⟩

end Pyorb
