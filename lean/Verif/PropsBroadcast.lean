import Verif.KeplerBcast
import Verif.KepReal

/-!
# Arrays of any shape in the scalar formulas (C91), `kep_equivalent` on any arguments (C92)
-/

set_option linter.unusedSimpArgs false

namespace Pyorb
variable {α : Type} [Np α]

/-! ## Specification of broadcasting -/

/-- length of the axis number `d`, counted from the last; axes that are not there have length 1 -/
def axisLen (s : List Nat) (d : Nat) : Nat := s.getD d 1

/-- `s` is the shape to which all the shapes in `S` are broadcast: it has as many axes as the longest of them, and along every axis all lengths other than 1 are
equal, and are the length of `s`. -/
structure Joint (S : List (List Nat)) (s : List Nat) : Prop where
  axes : ∀ t ∈ S, t.length ≤ s.length
  tight : s = [] ∨ ∃ t ∈ S, t.length = s.length
  fits : ∀ t ∈ S, ∀ d, axisLen t d = 1 ∨ axisLen t d = axisLen s d
  used : ∀ d, axisLen s d = 1 ∨ ∃ t ∈ S, axisLen t d = axisLen s d

/-- `X` is the result of a function of arguments of the shapes `S` that is computed element by element: if the shapes fit together, an array of the joint shape with
the elements `f`; otherwise `ValueError`. -/
def Elementwise (S : List (List Nat)) (f : List Nat → α) (X : Except PyErr (BArg α)) : Prop :=
  (∀ s, Joint S s → ∃ y, X = .ok y ∧ y.rshape = s ∧ ∀ i, y.at i = f i) ∧ ((¬ ∃ s, Joint S s) → X = .error .valueError)

/-- a python number equal to zero -/
def BArg.PyZero (x : BArg α) : Prop := ∃ a, x = .py a ∧ (a =ᵇ 0) = true

/-- inside the array, broadcasting reads the element itself -/
theorem clip_id : ∀ (s i : List Nat), i.length = s.length → (∀ d, axisLen s d = 1 → i.getD d 0 = 0) → clip s i = i
  | [], i, h, _ => by rw [clip]; exact (List.length_eq_zero_iff.mp h).symm
  | n :: s, [], h, _ => by simp at h
  | n :: s, j :: i, h, h1 => by
    have h0 := h1 0
    simp [axisLen] at h0
    rw [clip, List.headD_cons, List.tail_cons, clip_id s i (by simpa using h) fun d hd => by simpa using h1 (d + 1) (by simpa [axisLen] using hd)]
    by_cases hn : n = 1
    · rw [if_pos hn, h0 hn]
    · rw [if_neg hn]

/-! ## Shapes -/

theorem axisLen_nil (d : Nat) : axisLen [] d = 1 := by simp [axisLen]
theorem axisLen_zero (n : Nat) (s : List Nat) : axisLen (n :: s) 0 = n := by simp [axisLen]
theorem axisLen_succ (n : Nat) (s : List Nat) (d : Nat) : axisLen (n :: s) (d + 1) = axisLen s d := by simp [axisLen]

theorem axisLen_ge {s : List Nat} {d : Nat} (h : s.length ≤ d) : axisLen s d = 1 := by simp [axisLen, h]

theorem shape_ext : ∀ {s t : List Nat}, s.length = t.length → (∀ d, axisLen s d = axisLen t d) → s = t
  | [], [], _, _ => rfl
  | m :: s, n :: t, h, h' => by
    have := h' 0
    rw [axisLen_zero, axisLen_zero] at this
    rw [this, shape_ext (s := s) (t := t) (by simpa using h) fun d => by simpa only [axisLen_succ] using h' (d + 1)]

/-- what `bshape` computes -/
theorem bshape_iff : ∀ {s t u : List Nat}, bshape s t = some u ↔ u.length = max s.length t.length ∧
    ∀ d, (axisLen s d = axisLen u d ∧ (axisLen t d = axisLen u d ∨ axisLen t d = 1)) ∨ (axisLen s d = 1 ∧ axisLen t d = axisLen u d)
  | [], t, u => by
    rw [bshape]
    constructor
    · rintro h
      obtain rfl := Option.some.inj h
      exact ⟨by simp, fun d => .inr ⟨axisLen_nil d, rfl⟩⟩
    · rintro ⟨h1, h2⟩
      rw [shape_ext (s := t) (t := u) (by simpa using h1.symm) fun d => ?_]
      rcases h2 d with ⟨a, b | b⟩ | ⟨_, b⟩
      · exact b
      · rw [axisLen_nil] at a; rw [b, a]
      · exact b
  | m :: s, [], u => by
    rw [bshape]
    · constructor
      · rintro h
        obtain rfl := Option.some.inj h
        exact ⟨by simp, fun d => .inl ⟨rfl, .inr (axisLen_nil d)⟩⟩
      · rintro ⟨h1, h2⟩
        rw [shape_ext (s := m :: s) (t := u) (by simpa using h1.symm) fun d => ?_]
        rcases h2 d with ⟨a, b⟩ | ⟨a, b⟩
        · exact a
        · rw [axisLen_nil] at b; rw [a, b]
    · simp
  | m :: s, n :: t, u => by
    have key (p : Nat) (hp : (m = p ∧ (n = p ∨ n = 1)) ∨ (m = 1 ∧ n = p)) :
        (bshape s t).map (p :: ·) = some u ↔ u.length = max (m :: s).length (n :: t).length ∧
        ∀ d, (axisLen (m :: s) d = axisLen u d ∧ (axisLen (n :: t) d = axisLen u d ∨ axisLen (n :: t) d = 1)) ∨
          (axisLen (m :: s) d = 1 ∧ axisLen (n :: t) d = axisLen u d) := by
      rw [Option.map_eq_some_iff]
      constructor
      · rintro ⟨v, hv, rfl⟩
        obtain ⟨h1, h2⟩ := bshape_iff.mp hv
        refine ⟨by simp [h1, Nat.succ_max_succ], fun d => ?_⟩
        cases d with
        | zero => simpa only [axisLen_zero] using hp
        | succ d => simpa only [axisLen_succ] using h2 d
      · rintro ⟨h1, h2⟩
        cases u with
        | nil => simp at h1
        | cons w v =>
          refine ⟨v, bshape_iff.mpr ⟨by simpa [Nat.succ_max_succ] using h1, fun d => by simpa only [axisLen_succ] using h2 (d + 1)⟩, ?_⟩
          have := h2 0
          simp only [axisLen_zero] at this
          congr 1
          omega
    rw [bshape]
    split_ifs with h1 h2
    · exact key m (by omega)
    · exact key n (by omega)
    · constructor
      · rintro ⟨⟩
      · rintro ⟨_, h⟩
        have := h 0
        simp only [axisLen_zero] at this
        exfalso
        omega

theorem joint_unique {S : List (List Nat)} {s t : List Nat} (hs : Joint S s) (ht : Joint S t) : s = t := by
  have hl : s.length = t.length := by
    apply le_antisymm
    · rcases hs.tight with h | ⟨x, hx, h⟩
      · simp [h]
      · rw [← h]; exact ht.axes x hx
    · rcases ht.tight with h | ⟨x, hx, h⟩
      · simp [h]
      · rw [← h]; exact hs.axes x hx
  refine shape_ext hl fun d => ?_
  rcases hs.used d with h | ⟨x, hx, h⟩
  · rcases ht.used d with h' | ⟨y, hy, h'⟩
    · rw [h, h']
    · rcases hs.fits y hy d with g | g
      · rw [h, ← h', g]
      · rw [← g, h']
  · rcases ht.fits x hx d with g | g
    · rcases ht.used d with h' | ⟨y, hy, h'⟩
      · rw [← h, g, h']
      · rcases hs.fits y hy d with k | k
        · rw [← h, g, ← h', k]
        · rw [← k, h']
    · rw [← h, g]

theorem joint_congr {S T : List (List Nat)} (h : ∀ t, t ∈ S ↔ t ∈ T) {s : List Nat} : Joint S s ↔ Joint T s := by
  constructor
  · rintro ⟨a, b, c, d⟩
    exact ⟨fun t ht => a t ((h t).mpr ht), b.imp_right fun ⟨t, ht, e⟩ => ⟨t, (h t).mp ht, e⟩, fun t ht => c t ((h t).mpr ht),
      fun i => (d i).imp_right fun ⟨t, ht, e⟩ => ⟨t, (h t).mp ht, e⟩⟩
  · rintro ⟨a, b, c, d⟩
    exact ⟨fun t ht => a t ((h t).mp ht), b.imp_right fun ⟨t, ht, e⟩ => ⟨t, (h t).mpr ht, e⟩, fun t ht => c t ((h t).mp ht),
      fun i => (d i).imp_right fun ⟨t, ht, e⟩ => ⟨t, (h t).mpr ht, e⟩⟩

theorem joint_single (s : List Nat) : Joint [s] s :=
  ⟨by simp, .inr ⟨s, by simp, rfl⟩, by simp, fun d => .inr ⟨s, by simp, rfl⟩⟩

theorem joint_nil : Joint [] [] := ⟨by simp, .inl rfl, by simp, fun d => .inl (axisLen_nil d)⟩

/-- shapes that fit together fit together in every part -/
theorem joint_sub {S T : List (List Nat)} (h : ∀ t, t ∈ T → t ∈ S) {s : List Nat} (hs : Joint S s) : ∃ t, Joint T t := by
  classical
  -- the longest shape of `T`
  let n := (T.map List.length).foldr max 0
  have hn1 : ∀ t ∈ T, t.length ≤ n := by
    intro t ht
    show t.length ≤ (T.map List.length).foldr max 0
    clear n h
    induction T with
    | nil => simp at ht
    | cons a T ih =>
      rw [List.map_cons, List.foldr_cons]
      rcases List.mem_cons.mp ht with rfl | ht
      · exact le_max_left _ _
      · exact (ih ht).trans (le_max_right _ _)
  have hn2 : n = 0 ∨ ∃ t ∈ T, t.length = n := by
    show (T.map List.length).foldr max 0 = 0 ∨ ∃ t ∈ T, t.length = (T.map List.length).foldr max 0
    clear hn1 n h
    induction T with
    | nil => left; rfl
    | cons a T ih =>
      rw [List.map_cons, List.foldr_cons]
      right
      rcases le_total ((T.map List.length).foldr max 0) a.length with g | g
      · exact ⟨a, by simp, (max_eq_left g).symm⟩
      · rw [max_eq_right g]
        rcases ih with ih | ⟨t, ht, e⟩
        · exact ⟨a, by simp, by omega⟩
        · exact ⟨t, by simp [ht], e⟩
  let t : List Nat := (List.range n).map fun d => if ∀ x ∈ T, axisLen x d = 1 then 1 else axisLen s d
  have ht (d : Nat) : axisLen t d = if ∀ x ∈ T, axisLen x d = 1 then 1 else axisLen s d := by
    by_cases hd : d < n
    · simp [axisLen, t, hd]
    · have h1 : ∀ x ∈ T, axisLen x d = 1 := fun x hx => by
        have := hn1 x hx
        exact axisLen_ge (by omega)
      rw [if_pos h1, axisLen_ge (by simp [t]; omega)]
  have hlen : t.length = n := by simp [t]
  refine ⟨t, fun x hx => by rw [hlen]; exact hn1 x hx, ?_, fun x hx d => ?_, fun d => ?_⟩
  · rcases hn2 with g | ⟨x, hx, g⟩
    · left; exact List.length_eq_zero_iff.mp (by rw [hlen, g])
    · right; exact ⟨x, hx, by rw [hlen, g]⟩
  · rw [ht]
    split_ifs with g
    · left; exact g x hx
    · exact hs.fits x (h x hx) d
  · rw [ht]
    split_ifs with g
    · left; rfl
    · push Not at g
      obtain ⟨x, hx, g⟩ := g
      right
      exact ⟨x, hx, (hs.fits x (h x hx) d).resolve_left g⟩

theorem joint_bshape {S T : List (List Nat)} {s t u : List Nat} (hs : Joint S s) (ht : Joint T t) : Joint (S ++ T) u ↔ bshape s t = some u := by
  rw [bshape_iff]
  constructor
  · intro hu
    constructor
    · apply le_antisymm
      · rcases hu.tight with h | ⟨x, hx, h⟩
        · simp [h]
        · rcases List.mem_append.mp hx with hx | hx
          · rw [← h]; exact (hs.axes x hx).trans (le_max_left _ _)
          · rw [← h]; exact (ht.axes x hx).trans (le_max_right _ _)
      · apply max_le
        · rcases hs.tight with h | ⟨x, hx, h⟩
          · simp [h]
          · rw [← h]; exact hu.axes x (by simp [hx])
        · rcases ht.tight with h | ⟨x, hx, h⟩
          · simp [h]
          · rw [← h]; exact hu.axes x (by simp [hx])
    · intro d
      have f1 : axisLen s d = 1 ∨ axisLen s d = axisLen u d := by
        rcases hs.used d with h | ⟨x, hx, h⟩
        · exact .inl h
        · rw [← h]; exact hu.fits x (by simp [hx]) d
      have f2 : axisLen t d = 1 ∨ axisLen t d = axisLen u d := by
        rcases ht.used d with h | ⟨x, hx, h⟩
        · exact .inl h
        · rw [← h]; exact hu.fits x (by simp [hx]) d
      have f3 : axisLen u d = 1 ∨ axisLen s d = axisLen u d ∨ axisLen t d = axisLen u d := by
        rcases hu.used d with h | ⟨x, hx, h⟩
        · exact .inl h
        · rcases List.mem_append.mp hx with hx | hx
          · rcases hs.fits x hx d with g | g
            · left; omega
            · right; left; omega
          · rcases ht.fits x hx d with g | g
            · left; omega
            · right; right; omega
      omega
  · rintro ⟨h1, h2⟩
    refine ⟨fun x hx => ?_, ?_, fun x hx d => ?_, fun d => ?_⟩
    · rw [h1]
      rcases List.mem_append.mp hx with hx | hx
      · exact (hs.axes x hx).trans (le_max_left _ _)
      · exact (ht.axes x hx).trans (le_max_right _ _)
    · rcases le_total s.length t.length with g | g
      · rw [max_eq_right g] at h1
        rcases ht.tight with h | ⟨x, hx, h⟩
        · left; rw [h] at h1; exact List.length_eq_zero_iff.mp (by simpa using h1)
        · right; exact ⟨x, by simp [hx], by omega⟩
      · rw [max_eq_left g] at h1
        rcases hs.tight with h | ⟨x, hx, h⟩
        · left; rw [h] at h1; exact List.length_eq_zero_iff.mp (by simpa using h1)
        · right; exact ⟨x, by simp [hx], by omega⟩
    · have := h2 d
      rcases List.mem_append.mp hx with hx | hx
      · have := hs.fits x hx d
        omega
      · have := ht.fits x hx d
        omega
    · have := h2 d
      by_cases hu : axisLen u d = 1
      · exact .inl hu
      right
      rcases (show axisLen s d = axisLen u d ∨ axisLen t d = axisLen u d by omega) with g | g
      · obtain ⟨x, hx, h⟩ := (hs.used d).resolve_left (by omega)
        exact ⟨x, by simp [hx], by omega⟩
      · obtain ⟨x, hx, h⟩ := (ht.used d).resolve_left (by omega)
        exact ⟨x, by simp [hx], by omega⟩

/-! ## Elements -/

/-- reading through an intermediate array -/
theorem clip_clip : ∀ {s u : List Nat}, s.length ≤ u.length → (∀ d, axisLen s d = 1 ∨ axisLen s d = axisLen u d) → ∀ i, clip s (clip u i) = clip s i
  | [], _, _, _, _ => by simp [clip]
  | n :: s, [], h, _, _ => by simp at h
  | n :: s, m :: u, h, h', i => by
    have h0 := h' 0
    simp only [axisLen_zero] at h0
    rw [clip, clip, clip, List.headD_cons, List.tail_cons, clip_clip (by simpa using h) fun d => by simpa only [axisLen_succ] using h' (d + 1)]
    congr 1
    split_ifs <;> first | rfl | omega

theorem joint_clip {S : List (List Nat)} {u x : List Nat} (h : Joint S u) (hx : x ∈ S) (i : List Nat) : clip x (clip u i) = clip x i :=
  clip_clip (h.axes x hx) (fun d => h.fits x hx d) i

/-- `f` depends on the index only through the elements of arguments of the shapes `S` -/
def Reads (S : List (List Nat)) (f : List Nat → α) : Prop := ∀ i j, (∀ x ∈ S, clip x i = clip x j) → f i = f j

/-- invariant of the evaluation of an expression -/
structure Ev (S : List (List Nat)) (f : List Nat → α) (X : Except PyErr (BArg α)) : Prop where
  reads : Reads S f
  res : Elementwise S f X

omit [Np α] in
theorem Ev.arg (x : BArg α) : Ev [x.rshape] x.at (.ok x) := by
  refine ⟨fun i j h => ?_, fun s hs => ⟨x, rfl, joint_unique (joint_single _) hs, fun _ => rfl⟩, fun h => absurd ⟨_, joint_single _⟩ h⟩
  cases x with
  | py x => rfl
  | np A => exact congrArg A.get (h A.rshape (by simp [BArg.rshape]))

omit [Np α] in
theorem Ev.const (x : α) : Ev [] (fun _ => x) (.ok (.py x)) :=
  ⟨fun _ _ _ => rfl, fun _ hs => ⟨.py x, rfl, joint_unique joint_nil hs, fun _ => rfl⟩, fun h => absurd ⟨_, joint_nil⟩ h⟩

omit [Np α] in
theorem Ev.congr {S T : List (List Nat)} {f : List Nat → α} {X : Except PyErr (BArg α)} (h : Ev S f X) (hST : ∀ t, t ∈ S ↔ t ∈ T) : Ev T f X :=
  ⟨fun i j g => h.reads i j fun x hx => g x ((hST x).mp hx), fun s hs => h.res.1 s ((joint_congr hST).mpr hs),
    fun g => h.res.2 fun ⟨s, hs⟩ => g ⟨s, (joint_congr hST).mp hs⟩⟩

omit [Np α] in
theorem Ev.map {S : List (List Nat)} {f : List Nat → α} {X : Except PyErr (BArg α)} (h : Ev S f X) (op : α → α) {F : BArg α → BArg α}
    (hF : F = ufunc1 op ∨ F = pyop1 op) : Ev S (fun i => op (f i)) (X >>= fun x => pure (F x)) := by
  refine ⟨fun i j g => congrArg op (h.reads i j g), fun s hs => ?_, fun g => by rw [h.res.2 g]; rfl⟩
  obtain ⟨y, rfl, e1, e2⟩ := h.res.1 s hs
  have hu : (ufunc1 op y).rshape = s ∧ ∀ i, (ufunc1 op y).at i = op (f i) := by
    refine ⟨e1, fun i => ?_⟩
    show op (y.at (clip y.rshape i)) = op (f i)
    rw [e2, e1]
    exact congrArg op (h.reads _ _ fun x hx => joint_clip hs hx i)
  rcases hF with rfl | rfl
  · exact ⟨_, rfl, hu⟩
  · refine ⟨_, rfl, ?_⟩
    cases y with
    | py x => exact ⟨e1, fun i => congrArg op (e2 i)⟩
    | np A => exact hu

omit [Np α] in
theorem Ev.map2 {S T : List (List Nat)} {f g : List Nat → α} {X Y : Except PyErr (BArg α)} (hX : Ev S f X) (hY : Ev T g Y) (op : α → α → α) {F : BArg α → BArg α → Except PyErr (BArg α)}
    (hF : ∀ x y, X = .ok x → Y = .ok y → F x y = pyop2 op x y) : Ev (S ++ T) (fun i => op (f i) (g i)) (X >>= fun x => Y >>= fun y => F x y) := by
  have hr : Reads (S ++ T) fun i => op (f i) (g i) := fun i j h => by
    show op _ _ = op _ _
    rw [hX.reads i j fun x hx => h x (by simp [hx]), hY.reads i j fun x hx => h x (by simp [hx])]
  have main {s t : List Nat} (hs : Joint S s) (ht : Joint T t) : ∃ x y, X = .ok x ∧ Y = .ok y ∧ x.rshape = s ∧ y.rshape = t ∧ (∀ i, x.at i = f i) ∧ (∀ i, y.at i = g i) ∧
      F x y = pyop2 op x y := by
    obtain ⟨x, h1, h2, h3⟩ := hX.res.1 s hs
    obtain ⟨y, k1, k2, k3⟩ := hY.res.1 t ht
    exact ⟨x, y, h1, k1, h2, k2, h3, k3, hF x y h1 k1⟩
  have hev {x y : BArg α} : pyop2 op x y = (match x, y with | .py a, .py b => .ok (.py (op a b)) | x, y => match bshape x.rshape y.rshape with
      | some s => .ok (.np ⟨s, fun i => op (x.at i) (y.at i)⟩) | none => .error .valueError) := rfl
  refine ⟨hr, fun u hu => ?_, fun hno => ?_⟩
  · obtain ⟨s, hs⟩ := joint_sub (T := S) (fun t ht => by simp [ht]) hu
    obtain ⟨t, ht⟩ := joint_sub (T := T) (fun t ht => by simp [ht]) hu
    obtain ⟨x, y, rfl, rfl, h1, h2, h3, h4, h5⟩ := main hs ht
    have hb := (joint_bshape hs ht).mp hu
    have hnp : ∃ z, F x y = .ok z ∧ z.rshape = u ∧ ∀ i, z.at i = op (f i) (g i) := by
      rw [h5]
      have hgen : ∀ z : Except PyErr (BArg α), z = (match bshape x.rshape y.rshape with
          | some s => .ok (.np ⟨s, fun i => op (x.at i) (y.at i)⟩) | none => .error .valueError) → ∃ w, z = .ok w ∧ w.rshape = u ∧ ∀ i, w.at i = op (f i) (g i) := by
        rintro z rfl
        rw [h1, h2, hb]
        refine ⟨_, rfl, rfl, fun i => ?_⟩
        show op (x.at (clip u i)) (y.at (clip u i)) = _
        rw [h3, h4]
        exact hr _ _ fun x hx => joint_clip hu hx i
      cases x with
      | np A => exact hgen _ (by rw [hev])
      | py a =>
        cases y with
        | np B => exact hgen _ (by rw [hev])
        | py b =>
          refine ⟨.py (op a b), rfl, ?_, fun i => ?_⟩
          · rw [← h1, ← h2] at hb
            exact Option.some.inj hb
          · show op a b = _
            rw [← h3 i, ← h4 i]; rfl
    exact hnp
  · by_cases hs : ∃ s, Joint S s
    · by_cases ht : ∃ t, Joint T t
      · obtain ⟨s, hs⟩ := hs
        obtain ⟨t, ht⟩ := ht
        obtain ⟨x, y, rfl, rfl, h1, h2, h3, h4, h5⟩ := main hs ht
        have hb : bshape s t = none := by
          cases hb : bshape s t with
          | none => rfl
          | some u => exact absurd ⟨u, (joint_bshape hs ht).mpr hb⟩ hno
        show F x y = _
        rw [h5]
        cases x with
        | np A => rw [hev]; simp only [h1, h2, hb]
        | py a =>
          cases y with
          | np B => rw [hev]; simp only [h1, h2, hb]
          | py b =>
            rw [← h1, ← h2] at hb
            exact absurd hb (by simp [BArg.rshape, bshape])
      · obtain ⟨s, hs⟩ := hs
        obtain ⟨x, rfl, _⟩ := hX.res.1 s hs
        rw [hY.res.2 ht]; rfl
    · rw [hX.res.2 hs]; rfl

/-! ## Division, and which intermediate results are numpy values -/

theorem pydiv_eq {x y : BArg α} (h : ¬ ((∃ a, x = .py a) ∧ y.PyZero)) : pydiv x y = pyop2 (· / ·) x y := by
  cases x with
  | np A => rfl
  | py a =>
    cases y with
    | np B => rfl
    | py b =>
      have hb : ¬ (b =ᵇ 0) = true := fun hb => h ⟨⟨a, rfl⟩, b, rfl, hb⟩
      show (if b =ᵇ 0 then _ else _) = _
      rw [if_neg hb]; rfl

theorem pydiv_zero {x y : BArg α} (h : (∃ a, x = .py a) ∧ y.PyZero) : pydiv x y = .error .zeroDivisionError := by
  obtain ⟨⟨a, rfl⟩, b, rfl, hb⟩ := h
  show (if b =ᵇ 0 then _ else _) = _
  rw [if_pos hb]

/-- a numpy value, not a python number -/
def BArg.IsNp (x : BArg α) : Prop := ∃ A, x = .np A

omit [Np α] in
theorem pyop2_right {op : α → α → α} {x y z : BArg α} (h : pyop2 op x y = .ok z) (hy : y.IsNp) : z.IsNp := by
  obtain ⟨B, rfl⟩ := hy
  unfold pyop2 at h
  split at h
  · rename_i h'; cases h'
  · split at h
    · injection h with h; exact ⟨_, h.symm⟩
    · cases h

omit [Np α] in
theorem isNp_ufunc1 (f : α → α) (x : BArg α) : (ufunc1 f x).IsNp := ⟨_, rfl⟩

theorem pydiv_np {x y : BArg α} (h : y.IsNp) : pydiv x y = pyop2 (· / ·) x y :=
  pydiv_eq fun ⟨_, a, e, _⟩ => by obtain ⟨B, rfl⟩ := h; cases e

theorem ok_bind' {β γ : Type} (x : β) (f : β → Except PyErr γ) : (Except.ok x >>= f) = f x := rfl

theorem Ev.rad (deg : Bool) (x : BArg α) : Ev [x.rshape] (fun i => if deg then radians (x.at i) else x.at i) (.ok (inRad deg x)) := by
  cases deg with
  | false => exact Ev.arg x
  | true => exact (Ev.arg x).map radians (.inl rfl)

/-- the cosine of an angle argument -/
theorem Ev.cosRad (deg : Bool) (x : BArg α) : Ev [x.rshape] (fun i => Np.cos (if deg then radians (x.at i) else x.at i)) (.ok (ufunc1 Np.cos (inRad deg x))) :=
  (Ev.rad deg x).map Np.cos (.inl rfl)

/-! ## C91 -/

section
variable (a e mu h nu q r P E : BArg α) (deg : Bool)

/-- C91: `orbit_total_angular_momentum` with arguments of any shapes -/
theorem c91_angular_momentum : Elementwise [a.rshape, e.rshape, mu.rshape] (fun i => orbit_total_angular_momentum (a.at i) (e.at i) (mu.at i))
    (orbit_total_angular_momentumB a e mu) := by
  have h1 := (Ev.arg mu).map2 (Ev.arg a) (· * ·) (F := pyop2 (· * ·)) fun _ _ _ _ => rfl
  have h2 := (Ev.const 1).map2 ((Ev.arg e).map sq (.inr rfl)) (· - ·) (F := pyop2 (· - ·)) fun _ _ _ _ => rfl
  have h3 := ((h1.map2 h2 (· * ·) (F := pyop2 (· * ·)) fun _ _ _ _ => rfl).map Np.sqrt (.inl rfl)).congr (T := [a.rshape, e.rshape, mu.rshape]) (by simp; tauto)
  have hh := h3.res
  simp only [bind_assoc, pure_bind, ok_bind'] at hh
  exact hh

/-- C91: `parabolic_total_angular_momentum` -/
theorem c91_parabolic_angular_momentum : Elementwise [q.rshape, mu.rshape] (fun i => parabolic_total_angular_momentum (q.at i) (mu.at i))
    (parabolic_total_angular_momentumB q mu) := by
  have h1 := (Ev.arg mu).map2 (Ev.const 2) (· * ·) (F := pyop2 (· * ·)) fun _ _ _ _ => rfl
  have h3 := ((h1.map2 (Ev.arg q) (· * ·) (F := pyop2 (· * ·)) fun _ _ _ _ => rfl).map Np.sqrt (.inl rfl)).congr (T := [q.rshape, mu.rshape]) (by simp; tauto)
  have hh := h3.res
  simp only [bind_assoc, pure_bind, ok_bind'] at hh
  exact hh

/-- C91: `orbital_distance` -/
theorem c91_orbital_distance : Elementwise [h.rshape, mu.rshape, e.rshape, nu.rshape] (fun i => orbital_distance (h.at i) (mu.at i) (e.at i) (nu.at i) deg)
    (orbital_distanceB h mu e nu deg) := by
  have h1 := (Ev.arg e).map2 (Ev.cosRad deg nu) (· * ·) (F := pyop2 (· * ·)) fun _ _ _ _ => rfl
  have h2 := (Ev.const 1).map2 h1 (· + ·) (F := pyop2 (· + ·)) fun _ _ _ _ => rfl
  have h3 := (Ev.arg mu).map2 h2 (· * ·) (F := pyop2 (· * ·)) fun _ _ _ _ => rfl
  have h4 := (((Ev.arg h).map sq (.inr rfl)).map2 h3 (· / ·) (F := pydiv) fun x y _ hy => pydiv_np (by
    simp only [ok_bind'] at hy
    cases h5 : pyop2 (· * ·) e (ufunc1 Np.cos (inRad deg nu)) with
    | error _ => rw [h5] at hy; cases hy
    | ok z =>
      rw [h5] at hy
      simp only [ok_bind'] at hy
      cases h6 : pyop2 (· + ·) (.py 1) z with
      | error _ => rw [h6] at hy; cases hy
      | ok w =>
        rw [h6] at hy
        exact pyop2_right hy (pyop2_right h6 (pyop2_right h5 (isNp_ufunc1 _ _))))).congr (T := [h.rshape, mu.rshape, e.rshape, nu.rshape]) (by simp)
  have hh := h4.res
  simp only [bind_assoc, pure_bind, ok_bind'] at hh
  exact hh

/-- C91: `elliptic_radius` -/
theorem c91_elliptic_radius : Elementwise [E.rshape, a.rshape, e.rshape] (fun i => elliptic_radius (E.at i) (a.at i) (e.at i) deg) (elliptic_radiusB E a e deg) := by
  have h1 := (Ev.arg e).map2 (Ev.cosRad deg E) (· * ·) (F := pyop2 (· * ·)) fun _ _ _ _ => rfl
  have h2 := (Ev.const 1).map2 h1 (· - ·) (F := pyop2 (· - ·)) fun _ _ _ _ => rfl
  have h3 := ((Ev.arg a).map2 h2 (· * ·) (F := pyop2 (· * ·)) fun _ _ _ _ => rfl).congr (T := [E.rshape, a.rshape, e.rshape]) (by simp; tauto)
  have hh := h3.res
  simp only [bind_assoc, pure_bind, ok_bind'] at hh
  exact hh

/-- C91: `parabolic_radius` -/
theorem c91_parabolic_radius : Elementwise [nu.rshape, q.rshape] (fun i => parabolic_radius (nu.at i) (q.at i) deg) (parabolic_radiusB nu q deg) := by
  have h1 := (Ev.const 2).map2 (Ev.arg q) (· * ·) (F := pyop2 (· * ·)) fun _ _ _ _ => rfl
  have h2 := (Ev.const 1).map2 (Ev.cosRad deg nu) (· + ·) (F := pyop2 (· + ·)) fun _ _ _ _ => rfl
  have h3 := (h1.map2 h2 (· / ·) (F := pydiv) fun x y _ hy => pydiv_np (pyop2_right (op := (· + ·)) (x := .py 1) (y := ufunc1 Np.cos (inRad deg nu)) hy (isNp_ufunc1 _ _))).congr (T := [nu.rshape, q.rshape]) (by simp; tauto)
  have hh := h3.res
  simp only [bind_assoc, pure_bind, ok_bind'] at hh
  exact hh

/-- C91: `hyperbolic_radius` -/
theorem c91_hyperbolic_radius : Elementwise [nu.rshape, a.rshape, e.rshape] (fun i => hyperbolic_radius (nu.at i) (a.at i) (e.at i) deg) (hyperbolic_radiusB nu a e deg) := by
  have h1 := ((Ev.arg e).map sq (.inr rfl)).map2 (Ev.const 1) (· - ·) (F := pyop2 (· - ·)) fun _ _ _ _ => rfl
  have h2 := (Ev.arg a).map2 h1 (· * ·) (F := pyop2 (· * ·)) fun _ _ _ _ => rfl
  have h3 := (Ev.arg e).map2 (Ev.cosRad deg nu) (· * ·) (F := pyop2 (· * ·)) fun _ _ _ _ => rfl
  have h4 := (Ev.const 1).map2 h3 (· + ·) (F := pyop2 (· + ·)) fun _ _ _ _ => rfl
  have h5 := (h2.map2 h4 (· / ·) (F := pydiv) fun x y _ hy => pydiv_np (by
    simp only [ok_bind'] at hy
    cases h5 : pyop2 (· * ·) e (ufunc1 Np.cos (inRad deg nu)) with
    | error _ => rw [h5] at hy; cases hy
    | ok z =>
      rw [h5] at hy
      exact pyop2_right hy (pyop2_right h5 (isNp_ufunc1 _ _)))).congr (T := [nu.rshape, a.rshape, e.rshape]) (by simp; tauto)
  have hh := h5.res
  simp only [bind_assoc, pure_bind, ok_bind'] at hh
  exact hh

/-- C91: `orbital_speed`; python numbers equal to zero as `r` or `a` raise `ZeroDivisionError` -/
theorem c91_orbital_speed : (r.PyZero ∨ a.PyZero → orbital_speedB r a mu = .error .zeroDivisionError) ∧
    (¬ (r.PyZero ∨ a.PyZero) → Elementwise [r.rshape, a.rshape, mu.rshape] (fun i => orbital_speed (r.at i) (a.at i) (mu.at i)) (orbital_speedB r a mu)) := by
  constructor
  · intro hz
    by_cases hr : r.PyZero
    · show (pydiv (.py 2) r >>= _) = _
      rw [pydiv_zero ⟨⟨2, rfl⟩, hr⟩]; rfl
    · have ha := hz.resolve_left hr
      have h2 : ∃ p, pydiv (.py 2) r = .ok p := by
        rw [pydiv_eq fun h => hr h.2]
        obtain ⟨y, hy, _⟩ := ((Ev.const 2).map2 (Ev.arg r) (· / ·) (F := pyop2 (· / ·)) fun _ _ _ _ => rfl).res.1 _ (joint_single r.rshape)
        exact ⟨y, hy⟩
      obtain ⟨p, hp⟩ := h2
      show (pydiv (.py 2) r >>= fun p => pydiv (.py 1) a >>= _) = _
      rw [hp, pydiv_zero ⟨⟨1, rfl⟩, ha⟩]; rfl
  · intro hz
    have h1 := (Ev.const 2).map2 (Ev.arg r) (· / ·) (F := pydiv) fun x y _ hy => pydiv_eq (by injection hy with hy; rw [← hy]; tauto)
    have h2 := (Ev.const 1).map2 (Ev.arg a) (· / ·) (F := pydiv) fun x y _ hy => pydiv_eq (by injection hy with hy; rw [← hy]; tauto)
    have h3 := h1.map2 h2 (· - ·) (F := pyop2 (· - ·)) fun _ _ _ _ => rfl
    have h4 := (((Ev.arg mu).map2 h3 (· * ·) (F := pyop2 (· * ·)) fun _ _ _ _ => rfl).map Np.sqrt (.inl rfl)).congr (T := [r.rshape, a.rshape, mu.rshape]) (by simp; tauto)
    have hh := h4.res
    simp only [bind_assoc, pure_bind, ok_bind'] at hh
    exact hh

/-- C91: `orbital_period`; two python numbers with `mu` zero raise `ZeroDivisionError` -/
theorem c91_orbital_period : ((∃ x, a = .py x) ∧ mu.PyZero → orbital_periodB a mu = .error .zeroDivisionError) ∧
    (¬ ((∃ x, a = .py x) ∧ mu.PyZero) → Elementwise [a.rshape, mu.rshape] (fun i => orbital_period (a.at i) (mu.at i)) (orbital_periodB a mu)) := by
  constructor
  · rintro ⟨⟨x, rfl⟩, hz⟩
    show (pydiv (.py (cube x)) mu >>= _) = _
    rw [pydiv_zero ⟨⟨_, rfl⟩, hz⟩]; rfl
  · intro hz
    have h1 := (Ev.const 2).map2 (Ev.const Np.pi) (· * ·) (F := pyop2 (α := α) (· * ·)) fun _ _ _ _ => rfl
    have h2 := (((Ev.arg a).map cube (.inr rfl)).map2 (Ev.arg mu) (· / ·) (F := pydiv) fun x y hx hy => pydiv_eq (by
      injection hy with hy
      injection hx with hx
      rintro ⟨⟨c, hc⟩, hm⟩
      refine hz ⟨?_, hy ▸ hm⟩
      cases a with
      | py b => exact ⟨b, rfl⟩
      | np A => rw [← hx] at hc; cases hc)).map Np.sqrt (.inl rfl)
    have h3 := (h1.map2 h2 (· * ·) (F := pyop2 (· * ·)) fun _ _ _ _ => rfl).congr (T := [a.rshape, mu.rshape]) (by simp)
    have hh := h3.res
    simp only [bind_assoc, pure_bind, ok_bind'] at hh
    exact hh

/-- C91: `semi_major_axis`; `hpi` says that `2.0*np.pi` is not zero -/
theorem c91_semi_major_axis (hpi : ((2 * Np.pi : α) =ᵇ 0) = false) :
    Elementwise [P.rshape, mu.rshape] (fun i => semi_major_axis (P.at i) (mu.at i)) (semi_major_axisB P mu) := by
  have h1 := (Ev.const 2).map2 (Ev.const Np.pi) (· * ·) (F := pyop2 (α := α) (· * ·)) fun _ _ _ _ => rfl
  have h2 := ((Ev.arg P).map2 h1 (· / ·) (F := pydiv) fun x y _ hy => pydiv_eq (by
    rintro ⟨_, b, rfl, hb⟩
    have : (BArg.py (2 * Np.pi) : BArg α) = .py b := by injection hy
    injection this with this
    rw [← this, hpi] at hb
    cases hb)).map sq (.inr rfl)
  have h3 := ((h2.map2 (Ev.arg mu) (· * ·) (F := pyop2 (· * ·)) fun _ _ _ _ => rfl).map Np.cbrt (.inl rfl)).congr (T := [P.rshape, mu.rshape]) (by simp)
  have hh := h3.res
  simp only [bind_assoc, pure_bind, ok_bind'] at hh
  exact hh

/-- C91: `true_of_the_asymptote`; the python number zero raises `ZeroDivisionError` -/
theorem c91_asymptote : (e.PyZero → true_of_the_asymptoteB e deg = .error .zeroDivisionError) ∧
    (¬ e.PyZero → Elementwise [e.rshape] (fun i => true_of_the_asymptote (e.at i) deg) (true_of_the_asymptoteB e deg)) := by
  constructor
  · intro hz
    show (pydiv (.py (-1)) e >>= _) = _
    rw [pydiv_zero ⟨⟨_, rfl⟩, hz⟩]; rfl
  · intro hz
    have h1 := (((Ev.const (-1)).map2 (Ev.arg e) (· / ·) (F := pydiv) fun x y _ hy => pydiv_eq (by injection hy with hy; rw [← hy]; tauto)).map Np.arccos (.inl rfl))
    cases deg with
    | false => 
      have hh := (h1.congr (T := [e.rshape]) (by simp)).res
      simp only [bind_assoc, pure_bind, ok_bind'] at hh
      exact hh
    | true => 
      have hh := ((h1.map degrees (.inl rfl)).congr (T := [e.rshape]) (by simp)).res
      simp only [bind_assoc, pure_bind, ok_bind'] at hh
      exact hh

end

/-- `hpi` of `c91_semi_major_axis` in exact arithmetic -/
example : ((2 * Np.pi : FX) =ᵇ 0) = false := by
  simp [Real.pi_ne_zero]

/-- a case: shapes (4, 1) and (3) are broadcast to (4, 3), shapes (2) and (3) do not fit -/
example : Joint [[1, 4], [3]] [3, 4] ∧ ¬ ∃ s, Joint [[2], [3]] s := by
  constructor
  · rw [show [[1, 4], [3]] = [[1, 4]] ++ [[3]] from rfl, joint_bshape (joint_single _) (joint_single _)]
    decide
  · rintro ⟨s, hs⟩
    rw [show [[2], [3]] = [[2]] ++ [[3]] from rfl, joint_bshape (joint_single _) (joint_single _)] at hs
    have : bshape [2] [3] = none := by decide
    rw [this] at hs
    cases hs

/-! ## C92 -/

/-- the six elements as a vector -/
def Kep.vec (k : Kep α) : EqArg α := .vec [k.a, k.e, k.i, k.om, k.OM, k.nu]

/-- C92, six elements each: the answer of `kep_equivalent` -/
theorem c92_six (k1 k2 : Kep α) : kep_equivalentV k1.vec k2.vec = .ok (kep_equivalent k1 k2) := by
  have h1 : EqArg.allclose k1.vec k2.vec = .ok (allclose k1 k2) := by
    simp [EqArg.allclose, Kep.vec, allcloseV, allclose, Bool.and_assoc]
  unfold kep_equivalentV kep_equivalent
  rw [h1]
  simp only [Kep.vec, EqArg.tooMany, EqArg.get, ok_bind', pure_bind, List.getElem?_cons_zero, List.getElem?_cons_succ]
  generalize allclose k1 k2 = b0
  generalize isclose k1.a k2.a = b1
  generalize (k1.e <ᵇ e_lim) = b2
  generalize (k2.e <ᵇ e_lim) = b3
  generalize isclose (k1.om + k1.nu) (k2.om + k2.nu) = b4
  generalize isclose k1.om k2.om = b5
  generalize isclose k1.nu k2.nu = b6
  generalize (i_lim <ᵇ k1.i) = b7
  generalize (i_lim <ᵇ k2.i) = b8
  generalize isclose k1.i k2.i = b9
  generalize isclose k1.OM k2.OM = b10
  revert b0 b1 b2 b3 b4 b5 b6 b7 b8 b9 b10
  intro b0 b1 b2 b3 b4 b5 b6 b7 b8 b9 b10
  cases b0
  · cases b1
    · rfl
    · cases b2 <;> cases b3 <;> cases b4 <;> cases b5 <;> cases b6 <;> cases b7 <;> cases b8 <;> cases b9 <;> cases b10 <;> rfl
  · rfl

/-- C92, vectors of equal length with at least six elements never raise -/
theorem c92_long (v w : List α) (h : v.length = w.length) (h6 : 6 ≤ v.length) : ∃ b, kep_equivalentV (.vec v) (.vec w) = .ok b := by
  obtain ⟨a1, e1, i1, o1, O1, n1, r, rfl⟩ : ∃ a1 e1 i1 o1 O1 n1 r, v = a1 :: e1 :: i1 :: o1 :: O1 :: n1 :: r := by
    match v, h6 with
    | a1 :: e1 :: i1 :: o1 :: O1 :: n1 :: r, _ => exact ⟨a1, e1, i1, o1, O1, n1, r, rfl⟩
  obtain ⟨a2, e2, i2, o2, O2, n2, s, rfl⟩ : ∃ a1 e1 i1 o1 O1 n1 r, w = a1 :: e1 :: i1 :: o1 :: O1 :: n1 :: r := by
    match w, h ▸ h6 with
    | a1 :: e1 :: i1 :: o1 :: O1 :: n1 :: r, _ => exact ⟨a1, e1, i1, o1, O1, n1, r, rfl⟩
  obtain ⟨b0, h1⟩ : ∃ b, EqArg.allclose (.vec (a1 :: e1 :: i1 :: o1 :: O1 :: n1 :: r)) (.vec (a2 :: e2 :: i2 :: o2 :: O2 :: n2 :: s)) = .ok b := by
    refine ⟨((a1 :: e1 :: i1 :: o1 :: O1 :: n1 :: r).zip (a2 :: e2 :: i2 :: o2 :: O2 :: n2 :: s)).all fun p => isclose p.1 p.2, ?_⟩
    simp only [EqArg.allclose, allcloseV]
    rw [if_pos h]
  unfold kep_equivalentV
  rw [h1]
  simp only [EqArg.tooMany, EqArg.get, ok_bind', pure_bind, List.getElem?_cons_zero, List.getElem?_cons_succ]
  generalize isclose a1 a2 = b1
  generalize (e1 <ᵇ e_lim) = b2
  generalize (e2 <ᵇ e_lim) = b3
  generalize isclose (o1 + n1) (o2 + n2) = b4
  generalize isclose o1 o2 = b5
  generalize isclose n1 n2 = b6
  generalize (i_lim <ᵇ i1) = b7
  generalize (i_lim <ᵇ i2) = b8
  generalize isclose i1 i2 = b9
  generalize isclose O1 O2 = b10
  cases b0
  · cases b1
    · exact ⟨_, rfl⟩
    · cases b2 <;> cases b3 <;> cases b4 <;> cases b5 <;> cases b6 <;> cases b7 <;> cases b8 <;> cases b9 <;> cases b10 <;> exact ⟨_, rfl⟩
  · exact ⟨_, rfl⟩

/-- C92, vectors of different lengths, none of them 1: `ValueError` -/
theorem c92_lengths (v w : List α) (h : v.length ≠ w.length) (hv : v.length ≠ 1) (hw : w.length ≠ 1) : kep_equivalentV (.vec v) (.vec w) = .error .valueError := by
  have h1 : EqArg.allclose (.vec v) (.vec w) = .error .valueError := by
    show allcloseV v w = _
    unfold allcloseV
    split
    · simp at hv
    · simp at hw
    · rw [if_neg h]
  unfold kep_equivalentV
  rw [h1]
  rfl

/-- C92, anything without a shape, and arrays of two or more axes -/
theorem c92_dims (x : EqArg α) : kep_equivalentV .noShape x = .error .attributeError ∧ kep_equivalentV .more x = .error .valueError ∧
    (∀ v, kep_equivalentV (.vec v) (.noShape : EqArg α) = .error .attributeError) ∧ (∀ v, kep_equivalentV (.vec v) (.more : EqArg α) = .error .valueError) :=
  ⟨rfl, rfl, fun _ => rfl, fun _ => rfl⟩

/-- C92, vectors with fewer than six elements: equal in all elements they are equivalent; otherwise the answer is no, or `IndexError` -/
theorem c92_short (v w : List α) (h : v.length = w.length) (h6 : v.length < 6) :
    ((v.zip w).all (fun p => isclose p.1 p.2) = true → kep_equivalentV (.vec v) (.vec w) = .ok true) ∧
    ((v.zip w).all (fun p => isclose p.1 p.2) = false → kep_equivalentV (.vec v) (.vec w) = .ok false ∨ kep_equivalentV (.vec v) (.vec w) = .error .indexError) := by
  have hac : EqArg.allclose (.vec v) (.vec w) = .ok ((v.zip w).all fun p => isclose p.1 p.2) := by
    show allcloseV v w = _
    unfold allcloseV
    split
    · match w, h with
      | [y], _ => simp
    · match v, h with
      | [x], _ => simp
    · rw [if_pos h]
  constructor
  · intro hc
    unfold kep_equivalentV
    rw [hac, hc]
    rfl
  · intro hc
    rw [hc] at hac
    have hget (k : Nat) (hk : v.length ≤ k) : EqArg.get (.vec v) k = .error .indexError := by
      simp [EqArg.get, hk]
    have hin (k : Nat) (hk : k < v.length) : ∃ x y, EqArg.get (.vec v) k = .ok x ∧ EqArg.get (.vec w) k = .ok y :=
      ⟨v[k], w[k]'(h ▸ hk), by simp [EqArg.get, hk], by simp [EqArg.get, h ▸ hk]⟩
    have h5 := hget 5 (by omega)
    have hcase (k : Nat) : (∃ x y, EqArg.get (.vec v) k = .ok x ∧ EqArg.get (.vec w) k = .ok y) ∨ EqArg.get (.vec v) k = .error .indexError := by
      rcases lt_or_ge k v.length with g | g
      · exact .inl (hin k g)
      · exact .inr (hget k g)
    unfold kep_equivalentV
    rw [hac, h5]
    simp only [EqArg.tooMany, ok_bind', pure_bind]
    rcases hcase 0 with ⟨x0, y0, p0, q0⟩ | p0
    · rw [p0, q0]
      simp only [ok_bind']
      cases isclose x0 y0
      · exact .inl rfl
      rcases hcase 1 with ⟨x1, y1, p1, q1⟩ | p1
      · rw [p1, q1]
        simp only [ok_bind']
        rcases hcase 3 with ⟨x3, y3, p3, q3⟩ | p3
        · rw [p3, q3]
          simp only [ok_bind']
          cases (x1 <ᵇ e_lim) <;> cases (y1 <ᵇ e_lim) <;> cases isclose x3 y3 <;> first | exact .inl rfl | exact .inr rfl
        · rw [p3]
          cases (x1 <ᵇ e_lim) <;> cases (y1 <ᵇ e_lim) <;> exact .inr rfl
      · rw [p1]
        exact .inr rfl
    · rw [p0]
      exact .inr rfl

/-- C92, a vector with a single element, given first or second, is compared with all the elements of the other one: it may be called equivalent to six elements -/
theorem c92_one (x : α) (w : List α) :
    (w.all (fun y => isclose x y) = true → kep_equivalentV (.vec [x]) (.vec w) = .ok true) ∧
    (w.all (fun y => isclose y x) = true → kep_equivalentV (.vec w) (.vec [x]) = .ok true) := by
  refine ⟨fun h => ?_, fun h => ?_⟩
  · have hac : EqArg.allclose (.vec [x]) (.vec w) = .ok true := by
      show allcloseV [x] w = _
      rw [← h]; rfl
    unfold kep_equivalentV
    rw [hac]
    rfl
  · have hac : EqArg.allclose (.vec w) (.vec [x]) = .ok true := by
      show allcloseV w [x] = _
      rw [← h]
      rcases w with _ | ⟨y, _ | ⟨z, w⟩⟩ <;> rfl
    unfold kep_equivalentV
    rw [hac]
    rfl

/-- a case of `c92_short` and of `c92_one`: the empty vectors are equivalent, and a vector with the single element 0 is equivalent to six zeros -/
example : kep_equivalentV (.vec []) (.vec [] : EqArg FX) = .ok true ∧ kep_equivalentV (.vec [0]) (.vec [0, 0, 0, 0, 0, 0] : EqArg FX) = .ok true := by
  have h : isclose (0 : FX) 0 = true := by simp [isclose]
  exact ⟨rfl, (c92_one _ _).1 (by simp only [List.all_cons, List.all_nil, h]; rfl)⟩

end Pyorb
