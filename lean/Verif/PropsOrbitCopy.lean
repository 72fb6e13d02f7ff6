import Verif.OrbitVals
import Verif.OrbitReal
import Verif.PropsRoundTrip

/-!
# Copies and index selections (C35)
-/

set_option linter.unusedSimpArgs false
set_option linter.unusedVariables false

namespace Pyorb
namespace Orbit
open Py
variable {α : Type} (K : Kern α)

/-! ## Positions selected by an index -/

theorem slicePos_lt {n : Nat} {a b : Option Int} {step : Int} {p : Nat} (hs : step ≠ 0) (h : p ∈ slicePos n a b step) : p < n := by
  unfold slicePos at h
  split at h
  · rename_i hpos
    simp only [List.mem_map, List.mem_range] at h
    obtain ⟨k, hk, rfl⟩ := h
    have ha : 0 ≤ (sliceUp n a b).1 := by
      unfold sliceUp; dsimp only
      cases a with
      | none => exact Int.le_refl 0
      | some x => dsimp only; split <;> omega
    have hb : (sliceUp n a b).2 ≤ n := by
      unfold sliceUp; dsimp only
      cases b with
      | none => exact Int.le_refl _
      | some x => dsimp only; split <;> omega
    generalize (sliceUp n a b).1 = A at *
    generalize (sliceUp n a b).2 = B at *
    have h1 : (k : Int) + 1 ≤ (B - A + step - 1) / step := by omega
    have h2 := (Int.le_ediv_iff_mul_le hpos).mp h1
    have h3 : ((k : Int) + 1) * step = k * step + step := by rw [Int.add_mul, Int.one_mul]
    have h4 : 0 ≤ (k : Int) * step := Int.mul_nonneg (by omega) (by omega)
    omega
  · rename_i hneg
    simp only [List.mem_map, List.mem_range] at h
    obtain ⟨k, hk, rfl⟩ := h
    have ha : (sliceDown n a b).1 ≤ n - 1 := by
      unfold sliceDown; dsimp only
      cases a with
      | none => exact Int.le_refl _
      | some x => dsimp only; split <;> omega
    have hb : -1 ≤ (sliceDown n a b).2 := by
      unfold sliceDown; dsimp only
      cases b with
      | none => exact Int.le_refl _
      | some x => dsimp only; split <;> omega
    generalize (sliceDown n a b).1 = A at *
    generalize (sliceDown n a b).2 = B at *
    have h1 : (k : Int) + 1 ≤ (A - B - step - 1) / -step := by omega
    have h2 := (Int.le_ediv_iff_mul_le (by omega : (0:Int) < -step)).mp h1
    have h3 : ((k : Int) + 1) * -step = -(k * step) - step := by
      rw [Int.mul_neg, Int.add_mul, Int.one_mul]; omega
    have h4 : (k : Int) * step ≤ 0 := Int.mul_nonpos_of_nonneg_of_nonpos (by omega) (by omega)
    omega

theorem pyIndex_lt {n : Nat} {i : Int} {j : Nat} (h : pyIndex n i = some j) : j < n := by
  unfold pyIndex at h
  by_cases h0 : 0 ≤ i
  · rw [if_pos h0] at h
    by_cases h1 : i.toNat < n
    · rw [if_pos h1] at h; cases h; exact h1
    · rw [if_neg h1] at h; cases h
  · rw [if_neg h0] at h
    by_cases h1 : 0 ≤ i + n
    · rw [if_pos h1] at h; cases h; omega
    · rw [if_neg h1] at h; cases h

theorem mapM_mem {β γ : Type} {f : β → Except PyErr γ} {P : γ → Prop} (hf : ∀ x y, f x = .ok y → P y) :
    ∀ {xs : List β} {ys : List γ}, xs.mapM f = .ok ys → ∀ y ∈ ys, P y
  | [], ys, h, y, hy => by
    rw [List.mapM_nil] at h; cases h; cases hy
  | x :: xs, ys, h, y, hy => by
    rw [List.mapM_cons] at h
    cases hx : f x with
    | error e => rw [hx] at h; cases h
    | ok z =>
      rw [hx] at h
      cases hxs : xs.mapM f with
      | error e => rw [hxs] at h; cases h
      | ok zs =>
        rw [hxs] at h
        cases h
        rcases List.mem_cons.mp hy with rfl | h'
        · exact hf _ _ hx
        · exact mapM_mem hf hxs y h'

theorem pos_lt {n : Nat} {inds : Inds} {ps : List Nat} (h : inds.pos n = .ok ps) : ∀ p ∈ ps, p < n := by
  intro p hp
  cases inds with
  | slice a b st =>
    simp only [Inds.pos] at h
    by_cases hs : st = 0
    · rw [if_pos hs] at h; cases h
    · rw [if_neg hs] at h; cases h
      exact slicePos_lt hs hp
  | int i =>
    simp only [Inds.pos] at h
    cases hj : pyIndex n i with
    | none => rw [hj] at h; cases h
    | some j =>
      rw [hj] at h; cases h
      rw [List.mem_singleton] at hp
      subst hp
      exact pyIndex_lt hj
  | list is =>
    refine mapM_mem (P := fun p => p < n) (fun i j hj => ?_) h p hp
    cases hi : pyIndex n i with
    | none => rw [hi] at hj; cases hj
    | some k => rw [hi] at hj; cases hj; exact pyIndex_lt hi
  | mask bs =>
    simp only [Inds.pos] at h
    by_cases hb : bs.length = n
    · rw [if_pos hb] at h; cases h
      simp only [maskPos, List.mem_filter, List.mem_range] at hp
      omega
    · rw [if_neg hb] at h; cases h

theorem gather_length {β : Type} (l : List β) (ps : List Nat) (h : ∀ p ∈ ps, p < l.length) : (gather l ps).length = ps.length := by
  induction ps with
  | nil => rfl
  | cons p ps ih =>
    have hp : p < l.length := h p (by simp)
    have : gather l (p :: ps) = l[p] :: gather l ps := by simp [gather, List.filterMap_cons, hp]
    rw [this, List.length_cons, List.length_cons, ih fun q hq => h q (by simp [hq])]

theorem gather_map {β γ : Type} (f : β → γ) (l : List β) (ps : List Nat) : gather (l.map f) ps = (gather l ps).map f := by
  unfold gather
  rw [List.map_filterMap]
  apply List.filterMap_congr
  intro p _
  simp

theorem gather_zipWith {β γ δ : Type} (f : β → γ → δ) (l : List β) (l' : List γ) (ps : List Nat) (h : ∀ p ∈ ps, p < l.length)
    (h' : ∀ p ∈ ps, p < l'.length) : gather (List.zipWith f l l') ps = List.zipWith f (gather l ps) (gather l' ps) := by
  induction ps with
  | nil => rfl
  | cons p ps ih =>
    have hp : p < l.length := h p (by simp)
    have hp' : p < l'.length := h' p (by simp)
    have e1 : gather l (p :: ps) = l[p] :: gather l ps := by simp [gather, List.filterMap_cons, hp]
    have e2 : gather l' (p :: ps) = l'[p] :: gather l' ps := by simp [gather, List.filterMap_cons, hp']
    have e3 : gather (List.zipWith f l l') (p :: ps) = f l[p] l'[p] :: gather (List.zipWith f l l') ps := by
      simp [gather, List.filterMap_cons, hp, hp']
    rw [e1, e2, e3, ih (fun q hq => h q (by simp [hq])) (fun q hq => h' q (by simp [hq]))]
    rfl

theorem gather_range {β : Type} (l : List β) : gather l (List.range l.length) = l := by
  apply List.ext_getElem?
  intro j
  rw [gather_getElem? _ _ (by simp)]
  by_cases hj : j < l.length
  · simp [hj]
  · simp [hj]

/-! ## The object returned by an index selection -/

/-- the object returned by `orb[inds]` for positions `ps` -/
def view (ps : List Nat) (s : Orb α) : Orb α :=
  { s with
    m := gather s.m ps, cart := gather s.cart ps, kep := gather s.kep ps
    tA := List.replicate ps.length K.nan, eA := .arr (List.replicate ps.length K.nan), mA := List.replicate ps.length K.nan
    cartCalc := List.replicate ps.length false, kepCalc := List.replicate ps.length false, it := none }

theorem init_mass (M0 : α) (kw : InitKw α) (ty : Anom) (m : List α) (hn : kw.n = m.length) (hm : kw.m = some (.vec m))
    (ht : kw.type = some ty) :
    init K M0 kw {} = .ok { (allocate K m.length (empty M0 kw ty)).2 with m := m, kro := kw.kro, cro := kw.cro } := by
  have h0 : ∀ b (s : Orb α), when b (update K .all {}) s = (.ok (), s) := by
    intro b s; cases b
    · rfl
    · rfl
  have hsp : (Val.vec m).spread (List.replicate m.length K.zero).length = .ok m := by
    rw [List.length_replicate]
    rcases m with _ | ⟨a, _ | ⟨b, r⟩⟩
    · rfl
    · rfl
    · simp [Val.spread]
  simp only [init, ht, initBody, allocate, upd_bind, hm, hn]
  simp only [writeAllMass, bind_assoc', self_bind, hsp, liftOk_bind, upd_bind]
  rw [bind_ok (num_wf (n := m.length) ⟨by simp, by simp, by simp, by simp, by simp, by simp, by simp⟩), bind_ok (h0 _ _)]
  rfl

theorem getitem_run {n : Nat} {s : Orb α} (hw : WF n s) (inds : Inds) :
    getitem K inds s = match inds.pos n with
      | .ok ps => .ok (view K ps s)
      | .error e => .error e := by
  unfold getitem
  rw [hw.m, hw.cart, hw.kep]
  cases hp : inds.pos n with
  | error e => rfl
  | ok ps =>
    have hl := gather_length s.m ps (by rw [hw.m]; exact pos_lt hp)
    have := init_mass K s.M0
      { G := s.G, n := (gather s.m ps).length, m := some (.vec (gather s.m ps)), degrees := s.degrees, opts := s.opts,
        epoch := s.epoch, type := some s.type } s.type (gather s.m ps) rfl rfl rfl
    show (init K s.M0 _ {} >>= _) = _
    rw [this]
    show Except.ok _ = Except.ok _
    congr 1
    simp only [allocate, upd, empty, view, hl]

theorem view_wfe {n : Nat} {s : Orb α} (hw : WF n s) {ps : List Nat} (h : ∀ p ∈ ps, p < n) : WFE ps.length (view K ps s) :=
  ⟨⟨gather_length _ _ (by rw [hw.m]; exact h), gather_length _ _ (by rw [hw.cart]; exact h),
    gather_length _ _ (by rw [hw.kep]; exact h), by simp [view], by simp [view], by simp [view], by simp [view]⟩,
    _, rfl, by simp⟩

/-! ## C35 -/

/-- the part of an answer that belongs to the orbits `ps`, in this order -/
def Read.pick (ps : List Nat) : (g : Read) → g.Ans α → g.Ans α
  | .num, _ => ps.length
  | .str, a => a
  | .m, a => gather (β := α) a ps
  | .r, a => gather (β := Tri α) a ps
  | .v, a => gather (β := Tri α) a ps
  | .cartesian, a => gather (β := Cart α) a ps
  | .cart _, a => gather (β := α) a ps
  | .kepler, a => gather (β := Kep α) a ps
  | .kep _, a => gather (β := α) a ps
  | .period, a => gather (β := α) a ps
  | .meanMotion, a => gather (β := α) a ps
  | .trueAnomaly, a => gather (β := α) a ps
  | .meanAnomaly, a => gather (β := α) a ps
  | .eccentricAnomaly, a => gather (β := α) a ps
  | .apoapsis, a => gather (β := α) a ps
  | .periapsis, a => gather (β := α) a ps
  | .meanLongitude, a => gather (β := α) a ps
  | .equinoctial, a => gather (β := Equi α) a ps
  | .velocity, a => gather (β := α) a ps
  | .speed, a => gather (β := α) a ps

theorem view_val {n : Nat} {s : Orb α} (hw : WF n s) {ps : List Nat} (h : ∀ p ∈ ps, p < n) (g : Read) (hg : g ≠ .str) :
    g.val K (view K ps s) = g.pick ps (g.val K s) := by
  have hm : ∀ p ∈ ps, p < s.m.length := by rw [hw.m]; exact h
  have hk : ∀ p ∈ ps, p < s.kep.length := by rw [hw.kep]; exact h
  cases g <;> first | exact absurd rfl hg | skip
  case num => exact gather_length _ _ hk
  case m => rfl
  case cartesian => rfl
  case kepler => rfl
  case period => exact (gather_zipWith _ _ _ _ hk hm).symm
  case meanMotion => exact (gather_zipWith _ _ _ _ hk hm).symm
  case speed => exact (gather_zipWith _ _ _ _ hk hm).symm
  all_goals exact (gather_map _ _ _).symm

theorem view_range_val {n : Nat} {s : Orb α} (hw : WF n s) (g : Read) : g.val K (view K (List.range n) s) = g.val K s := by
  have hv : view K (List.range n) s = { s with
      tA := List.replicate n K.nan, eA := .arr (List.replicate n K.nan), mA := List.replicate n K.nan
      cartCalc := List.replicate n false, kepCalc := List.replicate n false, it := none } := by
    simp only [view, List.length_range]
    rw [show gather s.m (List.range n) = s.m by rw [← hw.m]; exact gather_range _,
      show gather s.cart (List.range n) = s.cart by rw [← hw.cart]; exact gather_range _,
      show gather s.kep (List.range n) = s.kep by rw [← hw.kep]; exact gather_range _]
  rw [hv]
  cases g <;> rfl

theorem OneEntryPerOrbit.wfe {s : Orb α} {n : Nat} (h : OneEntryPerOrbit s n) : WFE n s :=
  ⟨⟨h.masses, h.cartesian, h.kepler, h.cachedTrue, h.cachedMean, h.cartesianFlags, h.keplerFlags⟩, h.cachedEccentric⟩

/-- C35 (partial), selections: without lazy recalculation (`direct_update=True` or `auto_update=False`), `orb[inds]` raises
exactly when the index does not fit, and otherwise the new object answers every query as the selected orbits of `orb` do, in
the order of the selection.  All attributes that are not arrays are the same.  Left out: lazy mode (`c35_false`). -/
theorem c35_getitem_partial {n : Nat} (s : Orb α) (hs : OneEntryPerOrbit s n) (hd : s.direct = true ∨ s.auto = false) (inds : Inds) :
    ((∀ ps, ¬ Selects n inds ps) → getitem K inds s = .error (refusal inds)) ∧
    ∀ ps, Selects n inds ps → ∃ t, getitem K inds s = .ok t ∧
      (∀ g : Read, g ≠ .str → ∃ a, (g.get K s).1 = .ok a ∧ (g.get K t).1 = .ok (g.pick ps a)) ∧
      t.auto = s.auto ∧ t.direct = s.direct ∧ t.G = s.G ∧ t.M0 = s.M0 ∧ t.opts = s.opts ∧ t.epoch = s.epoch ∧
      t.degrees = s.degrees ∧ t.type = s.type ∧ t.kro = s.kro ∧ t.cro = s.cro := by
  have hw := hs.wfe
  have hl : lazy s = false := by rcases hd with h | h <;> simp [lazy, h]
  constructor
  · intro he
    rw [getitem_run K hw.1, pos_refuses he]
  · intro ps hp
    have hp := pos_selects.mpr hp
    refine ⟨view K ps s, by rw [getitem_run K hw.1, hp], fun g hg => ⟨g.val K s, read_val K hw hl g, ?_⟩,
      rfl, rfl, rfl, rfl, rfl, rfl, rfl, rfl, rfl, rfl⟩
    rw [read_val K (view_wfe K hw.1 (pos_lt hp)) hl g, view_val K hw.1 (pos_lt hp) g hg]

/-- C35 (partial), copies: without lazy recalculation `orb.copy()` answers every query, and also `str`, as `orb` does. -/
theorem c35_copy_partial {n : Nat} (s : Orb α) (hs : OneEntryPerOrbit s n) (hd : s.direct = true ∨ s.auto = false) :
    ∃ t, copy K s = .ok t ∧ ∀ g : Read, ∃ a, (g.get K s).1 = .ok a ∧ (g.get K t).1 = .ok a := by
  have hw := hs.wfe
  have hl : lazy s = false := by rcases hd with h | h <;> simp [lazy, h]
  refine ⟨view K (List.range n) s, by rw [copy, getitem_run K hw.1, pos_all], fun g => ⟨g.val K s, read_val K hw hl g, ?_⟩⟩
  have := read_val K (view_wfe K hw.1 (ps := List.range n) (by simp)) (show lazy (view K (List.range n) s) = false from hl) g
  rw [this, view_range_val K hw.1]

/-! ## Lazy mode -/

theorem init_plain (M0 : α) (kw : InitKw α) (ty : Anom) (hm : kw.m = none) (ht : kw.type = some ty) :
    init K M0 kw {} = .ok { (allocate K kw.n (empty M0 kw ty)).2 with kro := kw.kro, cro := kw.cro } := by
  have h0 : ∀ b (s : Orb α), when b (update K .all {}) s = (.ok (), s) := by
    intro b s; cases b
    · rfl
    · rfl
  simp only [init, ht, initBody, allocate, upd_bind, hm]
  rw [bind_ok (x := writeAllMass none) rfl,
    bind_ok (num_wf (n := kw.n) ⟨by simp, by simp, by simp, by simp, by simp, by simp, by simp⟩), bind_ok (h0 _ _)]
  rfl

/-- what the copy of a lazy object answers: its flags say that nothing is calculated, so every orbit with a Cartesian state
gets Kepler elements recalculated from that state, whether or not it is up to date -/
theorem lazy_copy_kepler {n : Nat} (s : Orb α) (hw : WF n s) (hl : lazy s = true) :
    ∃ t, copy K s = .ok t ∧ (get_kepler K t).1 = .ok (s.kep.mapIdx fun j k =>
      if cartOk K s j then kepOfCart K s.type s.degrees (muAt K s j) (cartAt K s j) else k) := by
  refine ⟨view K (List.range n) s, by rw [copy, getitem_run K hw, pos_all], ?_⟩
  have hv : view K (List.range n) s = { s with
      tA := List.replicate n K.nan, eA := .arr (List.replicate n K.nan), mA := List.replicate n K.nan
      cartCalc := List.replicate n false, kepCalc := List.replicate n false, it := none } := by
    simp only [view, List.length_range]
    rw [show gather s.m (List.range n) = s.m by rw [← hw.m]; exact gather_range _,
      show gather s.cart (List.range n) = s.cart by rw [← hw.cart]; exact gather_range _,
      show gather s.kep (List.range n) = s.kep by rw [← hw.kep]; exact gather_range _]
  rw [hv]
  simp only [get_kepler, upd_bind, self_bind, pure_run, kepCheck_eq]
  show Except.ok (s.kep.mapIdx _) = Except.ok (s.kep.mapIdx _)
  congr 1
  apply mapIdx_congr'
  intro j hj b hb
  have hst : stale (List.replicate n false) j = true := by
    have : j < n := by rw [← hw.kep]; exact hj
    simp [stale, List.getD_eq_getElem?_getD, this]
  show (if (lazy s && stale (List.replicate n false) j && cartOk K s j) = true then _ else _) = _
  rw [hl, hst]
  rfl

/-- The elements of a single orbit, set by the user before (`k1`) and after (`k2`) the Cartesian state was read: the object
answers `k2`, its copy answers the elements calculated from the state of `k1`. -/
theorem lazy_copy_old (M0 G : α) (o : SolverOpts α) (k1 k2 : Kep α) (hk1 : k1.any K.isnan = false)
    (hc : (cartOfKep K .tru o false (K.mu G M0 K.zero) k1).any K.isnan = false) :
    ∃ s0 t, init K M0 { G := G, opts := o, direct := false } {} = .ok s0 ∧
      copy K (exec K s0 [.setKepler (.mat [k1]), .read .cartesian, .setKepler (.mat [k2])]) = .ok t ∧
      (get_kepler K (exec K s0 [.setKepler (.mat [k1]), .read .cartesian, .setKepler (.mat [k2])])).1 = .ok [k2] ∧
      (get_kepler K t).1 = .ok [kepOfCart K .tru false (K.mu G M0 K.zero) (cartOfKep K .tru o false (K.mu G M0 K.zero) k1)] := by
  let s0 : Orb α := { (allocate K 1 (empty M0 { G := G, opts := o, direct := false } .tru)).2 with kro := false, cro := false }
  let s1 : Orb α := { s0 with kep := [k1], kepCalc := [true] }
  let s2 : Orb α := { s0 with kep := [k1], kepCalc := [true], cartCalc := [true], cart := [cartOfKep K .tru o false (K.mu G M0 K.zero) k1] }
  let s3 : Orb α := { s0 with kep := [k2], kepCalc := [true], cart := [cartOfKep K .tru o false (K.mu G M0 K.zero) k1] }
  have h0 := init_plain K M0 { G := G, opts := o, direct := false } .tru rfl rfl
  have h1 : ((Op.setKepler (.mat [k1])).run K s0).2 = s1 := rfl
  have h2 : ((Op.read .cartesian).run K s1).2 = s2 := by
    have hd : doCart K (fun j => !s1.cartCalc.getD j true) s1 0 = true := by
      show (true && true && !k1.any K.isnan) = true
      rw [hk1]; rfl
    have ha : anyDo s1.kep.length (doCart K (fun j => !s1.cartCalc.getD j true) s1) = true := by
      show (doCart K (fun j => !s1.cartCalc.getD j true) s1 0 || false) = true
      rw [hd]; rfl
    show cartCheck K s1 = s2
    unfold cartCheck
    rw [if_pos (show (s1.auto && !s1.direct) = true from rfl)]
    unfold calcCart
    simp only [ha, if_true]
    rw [if_pos (show s1.type = .tru from rfl)]
    simp only [storeCart, markCart]
    show ({ s1 with
      cartCalc := [if doCart K (fun j => !s1.cartCalc.getD j true) s1 0 then true else false]
      cart := [if doCart K (fun j => !s1.cartCalc.getD j true) s1 0 then cartOfKep K .tru o false (K.mu G M0 K.zero) k1 else Cart.const K.nan] } : Orb α) = s2
    rw [hd]
    rfl
  have h3 : ((Op.setKepler (.mat [k2])).run K s2).2 = s3 := rfl
  have he : exec K s0 [.setKepler (.mat [k1]), .read .cartesian, .setKepler (.mat [k2])] = s3 := by
    rw [exec_cons, h1, exec_cons, h2, exec_cons, h3, exec_nil]
  have hw : WF 1 s3 := ⟨rfl, rfl, rfl, rfl, rfl, rfl, rfl⟩
  obtain ⟨t, ht, hk⟩ := lazy_copy_kepler K s3 hw rfl
  refine ⟨s0, t, h0, by rw [he]; exact ht, ?_, ?_⟩
  · rw [he]
    simp only [get_kepler, upd_bind, self_bind, pure_run]
    rw [kepCheck_eq, recalcKep_none K]
    intro j
    cases j <;> rfl
  · rw [hk]
    have hok : cartOk K s3 0 = true := by
      show (true && !(cartOfKep K .tru o false (K.mu G M0 K.zero) k1).any K.isnan) = true
      rw [hc]; rfl
    show Except.ok [if cartOk K s3 0 then _ else _] = _
    rw [hok]
    rfl

theorem fx_mu (g : KGarbage) : (fxKern g).mu 1 1 0 = .fin 1 := by
  show gravParam (1 : FX) 1 0 = .fin 1
  unfold gravParam
  show FX.mul (.fin _) (FX.add (.fin _) (.fin _)) = _
  simp [FX.mul, FX.add]

theorem kep_fx_any (k : Kep ℝ) : k.fx.any Np.isnan = false := rfl
theorem cart_fx_any (c : Cart ℝ) : c.fx.any Np.isnan = false := rfl

/-- the kernel on canonical elements in radians and true anomaly -/
theorem fx_cartOfKep (g : KGarbage) (o : SolverOpts FX) {k : Kep ℝ} (hk : Canonical k) {mu : ℝ} (hmu : 0 < mu) :
    cartOfKep (fxKern g) .tru o false (.fin mu) k.fx = (k.state mu).fx :=
  kepToCart_fst g.h (deg := false) (hk.toCanonicalAny.adm hmu)
theorem fx_kepOfCart (g : KGarbage) {k : Kep ℝ} (hk : Canonical k) {mu : ℝ} (hmu : 0 < mu) :
    kepOfCart (fxKern g) .tru false (.fin mu) (k.state mu).fx = k.fx := by
  have := cartToKep_state g.ctk (deg := false) (k := k) hk hmu
  show ({ cartToKep g.ctk .f64 (.fin mu) false (k.state mu).fx with nu := (cartToKep g.ctk .f64 (.fin mu) false (k.state mu).fx).nu } : Kep FX) = k.fx
  exact this

/-- C35, refuted: there is an object in lazy mode (`direct_update=False`), made by the constructor, whose copy answers
`orb.kepler` differently.  The copy returns elements that were overwritten in the original. -/
theorem c35_false (g : KGarbage) : ¬ ∀ (M0 : FX) (kw : InitKw FX) (u : Upd FX) (s0 : Orb FX) (ops : List (Op FX)),
    init (fxKern g) M0 kw u = .ok s0 →
    ∃ t, copy (fxKern g) (exec (fxKern g) s0 ops) = .ok t ∧
      ∀ q : Read, (q.get (fxKern g) t).1 = (q.get (fxKern g) (exec (fxKern g) s0 ops)).1 := by
  intro h
  have hm : (fxKern g).mu 1 1 (fxKern g).zero = .fin 1 := fx_mu g
  have hc := fx_cartOfKep g .dflt example_ellipse one_pos
  obtain ⟨s0, t, h0, h1, h2, h3⟩ := lazy_copy_old (fxKern g) 1 1 .dflt (Kep.fx ⟨7000, 1 / 10, 1, 2, 3, 4⟩) (Kep.fx ⟨8000, 1 / 10, 1, 2, 3, 4⟩)
    (kep_fx_any _) (by rw [hm, hc]; exact cart_fx_any _)
  rw [hm, hc, fx_kepOfCart g example_ellipse one_pos] at h3
  obtain ⟨t', ht', hq⟩ := h _ _ _ _ [.setKepler (.mat [Kep.fx ⟨7000, 1 / 10, 1, 2, 3, 4⟩]), .read .cartesian,
    .setKepler (.mat [Kep.fx ⟨8000, 1 / 10, 1, 2, 3, 4⟩])] h0
  rw [h1] at ht'
  cases ht'
  have h4 := h3.symm.trans ((hq .kepler).trans h2)
  injection h4 with h5
  injection h5 with h6 _
  have h7 : (7000 : ℝ) = 8000 := congrArg Kep.a (Kep.fx_inj h6)
  norm_num at h7

/-- a case of the two partial theorems: two orbits in direct mode, selected in reverse order -/
example (g : KGarbage) : ∃ s : Orb FX, OneEntryPerOrbit s 2 ∧ (s.direct = true ∨ s.auto = false) ∧ Selects 2 (.slice none none (-1)) [1, 0] ∧
    ∀ ps, ¬ Selects 2 (.list [0, 2]) ps :=
  ⟨{ (allocate (fxKern g) 2 (empty 1 { G := 1, opts := .dflt } .tru)).2 with
      kep := [Kep.fx ⟨7000, 1 / 10, 1, 2, 3, 4⟩, Kep.fx ⟨8000, 1 / 10, 1, 2, 3, 4⟩] },
    ⟨rfl, rfl, rfl, rfl, ⟨_, rfl, rfl⟩, rfl, rfl, rfl⟩, .inl rfl, pos_selects.mp rfl, (pos_error (e := .indexError) rfl).1⟩

end Orbit
end Pyorb
