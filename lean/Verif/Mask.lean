/-!
# Boolean-mask indexing is elementwise

The array code reads `x[mask]`, computes, and writes `out[mask] = ...`.  The model renders this as an elementwise `if`.
This file justifies the rendering: compress-compute-scatter with one mask equals the elementwise conditional, for arrays
of any length.
-/

namespace Pyorb.Mask

/-- `x[mask]` -/
def compress {β : Type} : List Bool → List β → List β
  | true :: m, x :: xs => x :: compress m xs
  | false :: m, _ :: xs => compress m xs
  | _, _ => []

/-- `out[mask] = vals` -/
def scatter {β : Type} : List Bool → List β → List β → List β
  | true :: m, _ :: out, v :: vs => v :: scatter m out vs
  | false :: m, o :: out, vs => o :: scatter m out vs
  | _, out, _ => out

/-- `out[mask] = f(a[mask])` is elementwise. -/
theorem scatter_map {β γ : Type} (f : γ → β) (m : List Bool) (out : List β) (a : List γ)
    (h1 : m.length = out.length) (h2 : m.length = a.length) :
    scatter m out ((compress m a).map f)
      = (m.zip (out.zip a)).map fun t => if t.1 then f t.2.2 else t.2.1 := by
  induction m generalizing out a with
  | nil =>
    cases out with
    | nil => simp [scatter]
    | cons => simp at h1
  | cons b m ih =>
    cases out with
    | nil => simp at h1
    | cons o out =>
      cases a with
      | nil => simp at h2
      | cons x a =>
        simp at h1 h2
        cases b <;> simp [compress, scatter, ih out a h1 h2]

/-- `out[mask] = f(a[mask], b[mask])` is elementwise. -/
theorem scatter_map₂ {β γ δ : Type} (f : γ → δ → β) (m : List Bool) (out : List β) (a : List γ) (c : List δ)
    (h1 : m.length = out.length) (h2 : m.length = a.length) (h3 : m.length = c.length) :
    scatter m out (List.zipWith f (compress m a) (compress m c))
      = (m.zip (out.zip (a.zip c))).map fun t => if t.1 then f t.2.2.1 t.2.2.2 else t.2.1 := by
  induction m generalizing out a c with
  | nil =>
    cases out with
    | nil => simp [scatter]
    | cons => simp at h1
  | cons b m ih =>
    cases out with
    | nil => simp at h1
    | cons o out =>
      cases a with
      | nil => simp at h2
      | cons x a =>
        cases c with
        | nil => simp at h3
        | cons y c =>
          simp at h1 h2 h3
          cases b <;> simp [compress, scatter, ih out a c h1 h2 h3]

/-- `out[mask] = c` for a scalar `c` is elementwise. -/
theorem scatter_const {β : Type} (v : β) (m : List Bool) (out : List β) (h1 : m.length = out.length) :
    scatter m out ((compress m out).map fun _ => v) = (m.zip out).map fun t => if t.1 then v else t.2 := by
  induction m generalizing out with
  | nil =>
    cases out with
    | nil => simp [scatter]
    | cons => simp at h1
  | cons b m ih =>
    cases out with
    | nil => simp at h1
    | cons o out =>
      simp at h1
      cases b <;> simp [compress, scatter, ih out h1]

end Pyorb.Mask
