import Verif.PropsOrbitCopy
import Verif.PropsOrbitSet
import Verif.PropsOrbitPropagate

/-!
# Orbits held in one object do not influence each other (C75)

Selecting orbits and then running a history gives the same as running the history and then selecting, when every value given
for all orbits is selected likewise.  With one position this says that an object with many orbits behaves as one object per
orbit.  Direct and manual mode.
-/

set_option linter.unusedSimpArgs false
set_option linter.unusedVariables false

namespace Pyorb
namespace Orbit
open Py
variable {α : Type} (K : Kern α)

/-! ## Specification: the part of a value that belongs to the selected orbits -/

/-- one entry per orbit: the entries of the selected orbits; any other length (a single entry for all orbits) as it is -/
def pickList {β : Type} (n : Nat) (ps : List Nat) (l : List β) : List β := if l.length = n then gather l ps else l

/-- a value for one row -/
def _root_.Pyorb.Val.pick (n : Nat) (ps : List Nat) : Val α → Val α
  | .vec xs => .vec (pickList n ps xs)
  | v => v

/-- a value for several rows, 1-d values being rows -/
def _root_.Pyorb.Val6.pick {C : Type} (n : Nat) (ps : List Nat) : Val6 α C → Val6 α C
  | .sc x => .sc x
  | .vec nd xs => .vec nd (pickList n ps xs)
  | .mat cs => .mat (pickList n ps cs)

/-- a value for six rows, 1-d numpy arrays being one column for all orbits -/
def _root_.Pyorb.Val6.pickCol {C : Type} (n : Nat) (ps : List Nat) : Val6 α C → Val6 α C
  | .vec true xs => .vec true xs
  | v => v.pick n ps

/-- the keywords of `update` -/
def Upd.pick (n : Nat) (ps : List Nat) (u : Upd α) : Upd α :=
  { cartesian := u.cartesian.map (·.pick n ps), kepler := u.kepler.map (·.pick n ps), m := u.m.map (·.pick n ps)
    cartEl := fun i => (u.cartEl i).map (·.pick n ps), kepEl := fun i => (u.kepEl i).map (·.pick n ps), unknown := u.unknown }

/-- the operations that treat every orbit in the same way, without lazy recalculation -/
def Op.whole : Op α → Prop
  | .add .. | .delete .. | .allocate .. | .iter | .next | .calcTrue _ | .calcMean _ | .calcEcc _ => False
  | .update inds _ | .calcCartesian inds | .calcKepler inds => inds = .all
  | .setFlags auto direct _ _ => direct = true ∨ auto = false
  | _ => True

/-- the operation on the selected orbits only -/
def Op.pick (n : Nat) (ps : List Nat) : Op α → Op α
  | .setKep i v => .setKep i (v.pick n ps)
  | .setCart i v => .setCart i (v.pick n ps)
  | .setKepler v => .setKepler (v.pickCol n ps)
  | .setCartesian v => .setCartesian (v.pickCol n ps)
  | .setR v => .setR (v.pick n ps)
  | .setV v => .setV (v.pick n ps)
  | .setTrue v => .setTrue (v.pick n ps)
  | .setEcc v => .setEcc (v.pick n ps)
  | .setMean v => .setMean (v.pick n ps)
  | .setPeriod v => .setPeriod (v.pick n ps)
  | .setMeanMotion v => .setMeanMotion (v.pick n ps)
  | .setVelocity v => .setVelocity (v.pick n ps)
  | .setEquinoctial (.inr qs) => .setEquinoctial (.inr (pickList n ps qs))
  | .propagate dt => .propagate (dt.pick n ps)
  | .writeM v => .writeM (v.pick n ps)
  | .update inds u => .update inds (u.pick n ps)
  | o => o

/-- no operation of the history raises -/
def Runs : Orb α → List (Op α) → Prop
  | _, [] => True
  | s, o :: h => (o.run K s).1 = .ok () ∧ Runs (o.run K s).2 h

/-! ## Lists -/

theorem gather_replicate {β : Type} (x : β) (n : Nat) (ps : List Nat) (h : ∀ p ∈ ps, p < n) :
    gather (List.replicate n x) ps = List.replicate ps.length x := by
  induction ps with
  | nil => rfl
  | cons p ps ih =>
    have hp : p < n := h p (by simp)
    have : gather (List.replicate n x) (p :: ps) = x :: gather (List.replicate n x) ps := by
      simp [gather, List.filterMap_cons, hp]
    rw [this, ih fun q hq => h q (by simp [hq])]
    rfl

theorem gather_mapIdx {β γ : Type} (f g : Nat → β → γ) (l : List β) (ps : List Nat) (h : ∀ p ∈ ps, p < l.length)
    (hfg : ∀ k p b, ps[k]? = some p → l[p]? = some b → f p b = g k b) :
    gather (l.mapIdx f) ps = (gather l ps).mapIdx g := by
  apply List.ext_getElem?
  intro k
  rw [gather_getElem? _ _ (by simpa using h), List.getElem?_mapIdx, gather_getElem? _ _ h]
  cases hk : ps[k]? with
  | none => rfl
  | some p =>
    simp only [Option.bind_some, List.getElem?_mapIdx]
    cases hb : l[p]? with
    | none => rfl
    | some b => simp only [Option.map_some, hfg k p b hk hb]

theorem pickList_length {β : Type} {n : Nat} {ps : List Nat} {l : List β} (hl : l.length = n) : pickList n ps l = gather l ps := if_pos hl

section
variable {n : Nat} {ps : List Nat} (hp : ∀ p ∈ ps, p < n)
include hp

theorem spread_pick {v : Val α} {vs : List α} (h : v.spread n = .ok vs) : (v.pick n ps).spread ps.length = .ok (gather vs ps) := by
  match v, h with
  | .sc x, h => cases h; rw [gather_replicate x n ps hp]; rfl
  | .zd x, h => cases h; rw [gather_replicate x n ps hp]; rfl
  | .vec xs, h =>
    simp only [Val.pick, pickList]
    by_cases hn : xs.length = n
    · rw [if_pos hn]
      have hxs : xs = vs := by
        match xs, h, hn with
        | [], h, hn => simp only [Val.spread, hn, if_true] at h; cases h; rfl
        | [x], h, hn => cases h; rw [← hn]; rfl
        | x :: y :: r, h, hn => simp only [Val.spread, hn, if_true] at h; cases h; rfl
      subst hxs
      have hl := gather_length xs ps (by rw [hn]; exact hp)
      generalize gather xs ps = g at hl ⊢
      match g, hl with
      | [], hl => simp [Val.spread, hl]
      | [x], hl => rw [← hl]; rfl
      | x :: y :: r, hl => simp [Val.spread, ← hl]
    · rw [if_neg hn]
      match xs, h, hn with
      | [], h, hn => simp only [Val.spread, hn, if_false] at h; cases h
      | [x], h, hn => cases h; rw [gather_replicate x n ps hp]; rfl
      | x :: y :: r, h, hn => simp only [Val.spread, hn, if_false] at h; cases h

theorem spread6_pick {C : Type} {const : α → C} {v : Val6 α C} {vs : List C} (h : v.spread const n = .ok vs) :
    (v.pick n ps).spread const ps.length = .ok (gather vs ps) := by
  match v, h with
  | .sc x, h => cases h; rw [gather_replicate _ n ps hp]; rfl
  | .vec nd xs, h =>
    simp only [Val6.pick, pickList]
    by_cases hn : xs.length = n
    · rw [if_pos hn]
      have hxs : xs.map const = vs := by
        match xs, h, hn with
        | [], h, hn => simp only [Val6.spread, hn, if_true] at h; cases h; rfl
        | [x], h, hn => cases h; rw [← hn]; rfl
        | x :: y :: r, h, hn => simp only [Val6.spread, hn, if_true] at h; cases h; rfl
      subst hxs
      have hl := gather_length xs ps (by rw [hn]; exact hp)
      rw [gather_map]
      generalize gather xs ps = g at hl ⊢
      match g, hl with
      | [], hl => simp [Val6.spread, hl]
      | [x], hl => rw [← hl]; rfl
      | x :: y :: r, hl => simp [Val6.spread, ← hl]
    · rw [if_neg hn]
      match xs, h, hn with
      | [], h, hn => simp only [Val6.spread, hn, if_false] at h; cases h
      | [x], h, hn => cases h; rw [gather_replicate _ n ps hp]; rfl
      | x :: y :: r, h, hn => simp only [Val6.spread, hn, if_false] at h; cases h
  | .mat cs, h =>
    simp only [Val6.pick, pickList]
    by_cases hn : cs.length = n
    · rw [if_pos hn]
      have hxs : cs = vs := by
        match cs, h, hn with
        | [], h, hn => simp only [Val6.spread, hn, if_true] at h; cases h; rfl
        | [x], h, hn => cases h; rw [← hn]; rfl
        | x :: y :: r, h, hn => simp only [Val6.spread, hn, if_true] at h; cases h; rfl
      subst hxs
      have hl := gather_length cs ps (by rw [hn]; exact hp)
      generalize gather cs ps = g at hl ⊢
      match g, hl with
      | [], hl => simp [Val6.spread, hl]
      | [x], hl => rw [← hl]; rfl
      | x :: y :: r, hl => simp [Val6.spread, ← hl]
    · rw [if_neg hn]
      match cs, h, hn with
      | [], h, hn => simp only [Val6.spread, hn, if_false] at h; cases h
      | [x], h, hn => cases h; rw [gather_replicate _ n ps hp]; rfl
      | x :: y :: r, h, hn => simp only [Val6.spread, hn, if_false] at h; cases h

theorem setter_pick {C : Type} {const : α → C} {col : List α → Option C} {v : Val6 α C} {vs : List C}
    (h : v.setter const col n = .ok vs) : (v.pickCol n ps).setter const col ps.length = .ok (gather vs ps) := by
  match v, h with
  | .vec true [x], h => cases h; rw [gather_replicate _ n ps hp]; rfl
  | .vec true [], h =>
    cases hc : col [] with
    | none => simp only [Val6.setter, hc] at h; cases h
    | some c => simp only [Val6.setter, hc] at h; cases h; simp only [Val6.pickCol, Val6.setter, hc, gather_replicate _ n ps hp]
  | .vec true (x :: y :: xs), h =>
    cases hc : col (x :: y :: xs) with
    | none => simp only [Val6.setter, hc] at h; cases h
    | some c => simp only [Val6.setter, hc] at h; cases h; simp only [Val6.pickCol, Val6.setter, hc, gather_replicate _ n ps hp]
  | .vec false xs, h => exact spread6_pick (v := .vec false xs) hp h
  | .sc x, h => exact spread6_pick (v := .sc x) hp h
  | .mat cs, h => exact spread6_pick (v := .mat cs) hp h

theorem convVal_pick {deg : Bool} {f : α → α → α} {v : Val α} {es vs : List α} (hn : es.length = n) (h : convVal deg f v es = .ok vs) :
    convVal deg f (v.pick n ps) (gather es ps) = .ok (gather vs ps) := by
  match v, h with
  | .sc x, h => cases h; rw [gather_map]; rfl
  | .zd x, h =>
    cases deg with
    | false => cases h
    | true => cases h; rw [gather_map]; rfl
  | .vec xs, h =>
    simp only [convVal] at h
    by_cases hl : xs.length = es.length
    · rw [if_pos hl] at h
      cases h
      have hx : ∀ p ∈ ps, p < xs.length := by rw [hl, hn]; exact hp
      have he : ∀ p ∈ ps, p < es.length := by rw [hn]; exact hp
      simp only [Val.pick, pickList_length (hl.trans hn), convVal]
      rw [if_pos (by rw [gather_length _ _ hx, gather_length _ _ he]), gather_zipWith f xs es ps hx he]
    · rw [if_neg hl] at h; cases h

theorem bcast_pick {β : Type} {f : α → α → β} {xs : List α} {v : Val α} {r : List β} (hn : xs.length = n) (hr : r.length = n)
    (h : bcast f xs v = .ok r) : bcast f (gather xs ps) (v.pick n ps) = .ok (gather r ps) := by
  have hx : ∀ p ∈ ps, p < xs.length := by rw [hn]; exact hp
  match v, h with
  | .sc x, h => cases h; rw [gather_map]; rfl
  | .zd x, h => cases h; rw [gather_map]; rfl
  | .vec ys, h =>
    simp only [bcast] at h
    by_cases hl : ys.length = xs.length
    · rw [if_pos hl] at h
      cases h
      have hy : ∀ p ∈ ps, p < ys.length := by rw [hl, hn]; exact hp
      simp only [Val.pick, pickList_length (hl.trans hn), bcast]
      rw [if_pos (by rw [gather_length _ _ hx, gather_length _ _ hy]), gather_zipWith f xs ys ps hx hy]
    · rw [if_neg hl] at h
      have hl' : ys.length ≠ n := by rw [← hn]; exact hl
      have key : ∃ y, ys = [y] ∧ r = xs.map fun x => f x y := by
        match xs, ys, h with
        | xs, [y], h => cases h; exact ⟨y, rfl, rfl⟩
        | [x], [], h => cases h; simp at hr hn; omega
        | [x], y :: z :: ys, h => cases h; simp at hr hn; omega
        | [], [], h => cases h
        | x :: x' :: xs, [], h => cases h
        | [], y :: z :: ys, h => cases h
        | x :: x' :: xs, y :: z :: ys, h => cases h
      obtain ⟨y, rfl, rfl⟩ := key
      have hlp := gather_length xs ps hx
      rw [gather_map]
      simp only [Val.pick, pickList, hl', if_false, bcast]
      generalize gather xs ps = g
      match g with
      | [] => rfl
      | [a] => rfl
      | a :: b :: g => simp
end

/-! ## The relation between the object and the selected part -/

/-- `t` holds the orbits `ps` of `s` and the same settings; neither is lazy -/
structure Sel (n : Nat) (ps : List Nat) (s t : Orb α) : Prop where
  ws : WFE n s
  wt : WFE ps.length t
  hp : ∀ p ∈ ps, p < n
  lz : lazy s = false
  m : t.m = gather s.m ps
  cart : t.cart = gather s.cart ps
  kep : t.kep = gather s.kep ps
  auto : t.auto = s.auto
  direct : t.direct = s.direct
  G : t.G = s.G
  M0 : t.M0 = s.M0
  opts : t.opts = s.opts
  epoch : t.epoch = s.epoch
  degrees : t.degrees = s.degrees
  type : t.type = s.type
  kro : t.kro = s.kro
  cro : t.cro = s.cro

section Sel
variable {n : Nat} {ps : List Nat} {s t : Orb α}

theorem Sel.lz' (h : Sel n ps s t) : lazy t = false := by rw [lazy, h.auto, h.direct]; exact h.lz

/-- caches do not matter -/
theorem Sel.core (h : Sel n ps s t) {s' t' : Orb α} (hs : SameCore s s') (ht : SameCore t t') (ws : WFE n s') (wt : WFE ps.length t') :
    Sel n ps s' t' := by
  rw [SameCore] at hs ht
  refine ⟨ws, wt, h.hp, ?_, ?_, ?_, ?_, ?_, ?_, ?_, ?_, ?_, ?_, ?_, ?_, ?_, ?_⟩
  all_goals first | rw [hs, ht] | rw [hs]
  exacts [h.lz, h.m, h.cart, h.kep, h.auto, h.direct, h.G, h.M0, h.opts, h.epoch, h.degrees, h.type, h.kro, h.cro]

theorem Sel.setKep (h : Sel n ps s t) {l l' : List (Kep α)} (hl : l.length = n) (e : l' = gather l ps) :
    Sel n ps { s with kep := l } { t with kep := l' } := by
  subst e
  exact ⟨setKepCol_wfe h.ws hl, setKepCol_wfe h.wt (gather_length _ _ (by rw [hl]; exact h.hp)), h.hp, h.lz, h.m, h.cart, rfl, h.auto,
    h.direct, h.G, h.M0, h.opts, h.epoch, h.degrees, h.type, h.kro, h.cro⟩
theorem Sel.setCart (h : Sel n ps s t) {l l' : List (Cart α)} (hl : l.length = n) (e : l' = gather l ps) :
    Sel n ps { s with cart := l } { t with cart := l' } := by
  subst e
  exact ⟨setCartCol_wfe h.ws hl, setCartCol_wfe h.wt (gather_length _ _ (by rw [hl]; exact h.hp)), h.hp, h.lz, h.m, rfl, h.kep, h.auto,
    h.direct, h.G, h.M0, h.opts, h.epoch, h.degrees, h.type, h.kro, h.cro⟩
theorem Sel.setM (h : Sel n ps s t) {l l' : List α} (hl : l.length = n) (e : l' = gather l ps) :
    Sel n ps { s with m := l } { t with m := l' } := by
  subst e
  exact ⟨setM_wfe h.ws hl, setM_wfe h.wt (gather_length _ _ (by rw [hl]; exact h.hp)), h.hp, h.lz, rfl, h.cart, h.kep, h.auto,
    h.direct, h.G, h.M0, h.opts, h.epoch, h.degrees, h.type, h.kro, h.cro⟩
theorem Sel.setFlags (h : Sel n ps s t) {f g f' g' : List Bool} (hf : f.length = n) (hg : g.length = n) (hf' : f'.length = ps.length)
    (hg' : g'.length = ps.length) :
    Sel n ps { s with cartCalc := f, kepCalc := g } { t with cartCalc := f', kepCalc := g' } :=
  ⟨setKC_wfe (setCC_wfe h.ws hf) hg, setKC_wfe (setCC_wfe h.wt hf') hg', h.hp, h.lz, h.m, h.cart, h.kep, h.auto,
    h.direct, h.G, h.M0, h.opts, h.epoch, h.degrees, h.type, h.kro, h.cro⟩

theorem Sel.getD {β : Type} {l l' : List β} (d : β) (e : l' = gather l ps) (hl : ∀ p ∈ ps, p < l.length) {k p : Nat}
    (hk : ps[k]? = some p) : l'.getD k d = l.getD p d := by
  rw [e, List.getD_eq_getElem?_getD, gather_getElem? _ _ hl, hk, List.getD_eq_getElem?_getD]; rfl

theorem Sel.kepAt (h : Sel n ps s t) {k p : Nat} (hk : ps[k]? = some p) : kepAt K t k = kepAt K s p :=
  Sel.getD _ h.kep (by rw [h.ws.1.kep]; exact h.hp) hk
theorem Sel.cartAt (h : Sel n ps s t) {k p : Nat} (hk : ps[k]? = some p) : cartAt K t k = cartAt K s p :=
  Sel.getD _ h.cart (by rw [h.ws.1.cart]; exact h.hp) hk
theorem Sel.muAt (h : Sel n ps s t) {k p : Nat} (hk : ps[k]? = some p) : muAt K t k = muAt K s p := by
  unfold Orbit.muAt
  rw [h.G, h.M0, Sel.getD K.zero h.m (by rw [h.ws.1.m]; exact h.hp) hk]
theorem Sel.kepOk (h : Sel n ps s t) {k p : Nat} (hk : ps[k]? = some p) : kepOk K t k = kepOk K s p := by
  have h1 : p < n := h.hp p (List.mem_of_getElem? hk)
  have h2 : k < ps.length := (List.getElem?_eq_some_iff.mp hk).1
  simp [Orbit.kepOk, h.kepAt K hk, h.ws.1.kep, h.wt.1.kep, h1, h2]
theorem Sel.cartOk (h : Sel n ps s t) {k p : Nat} (hk : ps[k]? = some p) : cartOk K t k = cartOk K s p := by
  have h1 : p < n := h.hp p (List.mem_of_getElem? hk)
  have h2 : k < ps.length := (List.getElem?_eq_some_iff.mp hk).1
  simp [Orbit.cartOk, h.cartAt K hk, h.ws.1.cart, h.wt.1.cart, h1, h2]

theorem recalcCart_wfe (d : Nat → Bool) (h : WFE n s) : WFE n (recalcCart K d s) := by
  obtain ⟨l, h1, h2⟩ := h.2
  refine ⟨⟨h.1.m, ?_, h.1.kep, ?_, h.1.mA, ?_, h.1.kepCalc⟩, l, h1, h2⟩
  · simp [recalcCart, h.1.cart]
  · unfold recalcCart
    by_cases ht : s.type = .tru
    · simp [ht, h.1.tA]
    · simp [ht, h.1.tA]
  · simp [recalcCart, h.1.cartCalc]
theorem recalcKep_wfe (d : Nat → Bool) (h : WFE n s) : WFE n (recalcKep K d s) := by
  obtain ⟨l, h1, h2⟩ := h.2
  refine ⟨⟨h.1.m, h.1.cart, ?_, h.1.tA, h.1.mA, h.1.cartCalc, ?_⟩, l, h1, h2⟩
  · simp [recalcKep, h.1.kep]
  · simp [recalcKep, h.1.kepCalc]

theorem Sel.recalcCart (h : Sel n ps s t) : Sel n ps (recalcCart K (Orbit.kepOk K s) s) (Orbit.recalcCart K (Orbit.kepOk K t) t) := by
  refine ⟨recalcCart_wfe K _ h.ws, recalcCart_wfe K _ h.wt, h.hp, h.lz, h.m, ?_, h.kep, h.auto,
    h.direct, h.G, h.M0, h.opts, h.epoch, h.degrees, h.type, h.kro, h.cro⟩
  show t.cart.mapIdx _ = gather (s.cart.mapIdx _) ps
  rw [h.cart]
  refine (gather_mapIdx _ _ _ _ (by rw [h.ws.1.cart]; exact h.hp) fun k p b hk _ => ?_).symm
  simp only [h.kepOk K hk, h.kepAt K hk, h.muAt K hk, h.type, h.opts, h.degrees]

theorem Sel.recalcKep (h : Sel n ps s t) : Sel n ps (recalcKep K (Orbit.cartOk K s) s) (Orbit.recalcKep K (Orbit.cartOk K t) t) := by
  refine ⟨recalcKep_wfe K _ h.ws, recalcKep_wfe K _ h.wt, h.hp, h.lz, h.m, h.cart, ?_, h.auto,
    h.direct, h.G, h.M0, h.opts, h.epoch, h.degrees, h.type, h.kro, h.cro⟩
  show t.kep.mapIdx _ = gather (s.kep.mapIdx _) ps
  rw [h.kep]
  refine (gather_mapIdx _ _ _ _ (by rw [h.ws.1.kep]; exact h.hp) fun k p b hk _ => ?_).symm
  simp only [h.cartOk K hk, h.cartAt K hk, h.muAt K hk, h.type, h.degrees]

end Sel

/-! ## Two runs -/

/-- where `x` succeeds on the whole object, `y` succeeds on the selected part -/
def Sim (n : Nat) (ps : List Nat) {β γ : Type} (x : Py α β) (y : Py α γ) (Q : β → γ → Prop) : Prop :=
  ∀ s t b s', Sel n ps s t → x s = (.ok b, s') → ∃ b' t', y t = (.ok b', t') ∧ Sel n ps s' t' ∧ Q b b'

section Sim
variable {n : Nat} {ps : List Nat} {β γ β' γ' : Type}

theorem Sim.bind {x : Py α β} {y : Py α γ} {f : β → Py α β'} {g : γ → Py α γ'} {Q : β → γ → Prop} {R : β' → γ' → Prop}
    (h : Sim n ps x y Q) (hf : ∀ b c, Q b c → Sim n ps (f b) (g c) R) : Sim n ps (x >>= f) (y >>= g) R := by
  intro s t b s' hst hx
  rcases hxs : x s with ⟨r, s1⟩
  cases r with
  | error e => rw [show (x >>= f) s = (.error e, s1) by show Py.bind x f s = _; simp [Py.bind, hxs]] at hx; cases hx
  | ok c =>
    rw [bind_ok hxs] at hx
    obtain ⟨c', t1, h1, h2, h3⟩ := h s t c s1 hst hxs
    obtain ⟨b', t', h4, h5, h6⟩ := hf c c' h3 s1 t1 b s' h2 hx
    exact ⟨b', t', by rw [bind_ok h1, h4], h5, h6⟩

theorem Sim.pure {b : β} {c : γ} {Q : β → γ → Prop} (h : Q b c) : Sim n ps (Pure.pure b : Py α β) (Pure.pure c : Py α γ) Q := by
  intro s t b s' hst hx
  cases hx
  exact ⟨c, t, rfl, hst, h⟩
theorem Sim.raise {e : PyErr} {y : Py α γ} {Q : β → γ → Prop} : Sim n ps (Py.raise e : Py α β) y Q := by
  intro s t b s' hst hx
  cases hx
theorem Sim.self : Sim n ps (Py.self : Py α (Orb α)) Py.self (Sel n ps) := by
  intro s t b s' hst hx
  cases hx
  exact ⟨t, t, rfl, hst, hst⟩
theorem Sim.upd {f g : Orb α → Orb α} (h : ∀ s t, Sel n ps s t → Sel n ps (f s) (g t)) :
    Sim n ps (Py.upd f) (Py.upd g) (fun _ _ => True) := by
  intro s t b s' hst hx
  cases hx
  exact ⟨(), _, rfl, h s t hst, trivial⟩
theorem Sim.lift {x : Except PyErr β} {y : Except PyErr γ} {Q : β → γ → Prop} (h : ∀ b, x = .ok b → ∃ c, y = .ok c ∧ Q b c) :
    Sim n ps (Py.lift x : Py α β) (Py.lift y : Py α γ) Q := by
  intro s t b s' hst hx
  obtain ⟨c, h1, h2⟩ := h b (congrArg Prod.fst hx)
  cases (congrArg Prod.snd hx : s = s')
  exact ⟨c, t, by rw [h1]; rfl, hst, h2⟩
theorem Sim.ite {c d : Prop} [Decidable c] [Decidable d] (hcd : d ↔ c) {x x' : Py α β} {y y' : Py α γ} {Q : β → γ → Prop}
    (h : c → Sim n ps x y Q) (h' : ¬ c → Sim n ps x' y' Q) : Sim n ps (if c then x else x') (if d then y else y') Q := by
  by_cases hc : c
  · rw [if_pos hc, if_pos (hcd.mpr hc)]; exact h hc
  · rw [if_neg hc, if_neg fun hd => hc (hcd.mp hd)]; exact h' hc
theorem Sim.mono {x : Py α β} {y : Py α γ} {Q R : β → γ → Prop} (h : Sim n ps x y Q) (hQ : ∀ b c, Q b c → R b c) : Sim n ps x y R := by
  intro s t b s' hst hx
  obtain ⟨c, t', h1, h2, h3⟩ := h s t b s' hst hx
  exact ⟨c, t', h1, h2, hQ _ _ h3⟩
/-- continue with what is known of the object at this point -/
theorem Sim.selfBind {f : Orb α → Py α β} {g : Orb α → Py α γ} {Q : β → γ → Prop}
    (h : ∀ s t, Sel n ps s t → Sim n ps (f s) (g t) Q) : Sim n ps (Py.self >>= f) (Py.self >>= g) Q := Sim.self.bind h

/-- nothing is related but the objects -/
abbrev Sim' (n : Nat) (ps : List Nat) (x y : Py α Unit) : Prop := Sim n ps x y (fun _ _ => True)

/-! ## Recalculation and the end of the setters -/

theorem calcCart_sim : Sim' n ps (calculate_cartesian K .all) (calculate_cartesian K .all) := by
  intro s t b s' hst hx
  rw [calculate_cartesian_direct K hst.ws.1 hst.lz] at hx
  cases hx
  exact ⟨(), _, calculate_cartesian_direct K hst.wt.1 hst.lz', hst.recalcCart K, trivial⟩
theorem calcKep_sim : Sim' n ps (calculate_kepler K .all) (calculate_kepler K .all) := by
  intro s t b s' hst hx
  rw [calculate_kepler_direct K hst.ws.1 hst.lz] at hx
  cases hx
  exact ⟨(), _, calculate_kepler_direct K hst.wt.1 hst.lz', hst.recalcKep K, trivial⟩

theorem direct_iff {s t : Orb α} (h : Sel n ps s t) : t.direct = true ↔ s.direct = true := by rw [h.direct]

theorem flags_len {l : List Bool} {b : Bool} {k : Nat} (h : l.length = k) : (allFlags l b).length = k := by rw [allFlags_length, h]

theorem afterKepEl_sim : Sim' n ps (afterKepEl K) (afterKepEl K) :=
  Sim.selfBind fun s t h => Sim.ite (direct_iff h) (fun _ => calcCart_sim K) fun _ => Sim.upd fun s t h =>
    h.setFlags (flags_len h.ws.1.cartCalc) h.ws.1.kepCalc (flags_len h.wt.1.cartCalc) h.wt.1.kepCalc
theorem afterKep_sim : Sim' n ps (afterKep K) (afterKep K) :=
  Sim.selfBind fun s t h => Sim.ite (direct_iff h) (fun _ => calcCart_sim K) fun _ => Sim.upd fun s t h =>
    h.setFlags (flags_len h.ws.1.cartCalc) (flags_len h.ws.1.kepCalc) (flags_len h.wt.1.cartCalc) (flags_len h.wt.1.kepCalc)
theorem afterCartEl_sim : Sim' n ps (afterCartEl K) (afterCartEl K) :=
  Sim.selfBind fun s t h => Sim.ite (direct_iff h) (fun _ => calcKep_sim K) fun _ => Sim.upd fun s t h =>
    h.setFlags h.ws.1.cartCalc (flags_len h.ws.1.kepCalc) h.wt.1.cartCalc (flags_len h.wt.1.kepCalc)
theorem afterCart_sim : Sim' n ps (afterCart K) (afterCart K) :=
  Sim.selfBind fun s t h => Sim.ite (direct_iff h) (fun _ => calcKep_sim K) fun _ => Sim.upd fun s t h =>
    h.setFlags (flags_len h.ws.1.cartCalc) (flags_len h.ws.1.kepCalc) (flags_len h.wt.1.cartCalc) (flags_len h.wt.1.kepCalc)
theorem guardKep_sim : Sim' n ps (guardKep : Py α Unit) guardKep :=
  Sim.selfBind fun s t h => Sim.ite (by rw [h.kro]) (fun _ => Sim.raise) fun _ => Sim.pure trivial
theorem guardCart_sim : Sim' n ps (guardCart : Py α Unit) guardCart :=
  Sim.selfBind fun s t h => Sim.ite (by rw [h.cro]) (fun _ => Sim.raise) fun _ => Sim.pure trivial

/-! ## The setters -/

/-- one entry per orbit on both sides -/
def Both (n : Nat) (ps : List Nat) {C : Type} (l l' : List C) : Prop := l.length = n ∧ l' = gather l ps

theorem spread_len {v : Val α} {vs : List α} (h : v.spread n = .ok vs) : vs.length = n := by
  match v, h with
  | .sc x, h => cases h; simp
  | .zd x, h => cases h; simp
  | .vec [x], h => cases h; simp
  | .vec [], h =>
    simp only [Val.spread] at h
    split at h
    · cases h; assumption
    · cases h
  | .vec (x :: y :: r), h =>
    simp only [Val.spread] at h
    split at h
    · cases h; assumption
    · cases h
theorem spread6_len {C : Type} {const : α → C} {v : Val6 α C} {vs : List C} (h : v.spread const n = .ok vs) : vs.length = n := by
  match v, h with
  | .sc x, h => cases h; simp
  | .vec _ [x], h => cases h; simp
  | .vec _ [], h =>
    simp only [Val6.spread] at h
    split at h
    · cases h; simpa
    · cases h
  | .vec _ (x :: y :: r), h =>
    simp only [Val6.spread] at h
    split at h
    · cases h; simpa
    · cases h
  | .mat [x], h => cases h; simp
  | .mat [], h =>
    simp only [Val6.spread] at h
    split at h
    · cases h; assumption
    · cases h
  | .mat (x :: y :: r), h =>
    simp only [Val6.spread] at h
    split at h
    · cases h; assumption
    · cases h
theorem setter_len {C : Type} {const : α → C} {col : List α → Option C} {v : Val6 α C} {vs : List C}
    (h : v.setter const col n = .ok vs) : vs.length = n := by
  match v, h with
  | .vec true [x], h => cases h; simp
  | .vec true [], h =>
    cases hc : col [] with
    | none => simp only [Val6.setter, hc] at h; cases h
    | some c => simp only [Val6.setter, hc] at h; cases h; simp
  | .vec true (x :: y :: xs), h =>
    cases hc : col (x :: y :: xs) with
    | none => simp only [Val6.setter, hc] at h; cases h
    | some c => simp only [Val6.setter, hc] at h; cases h; simp
  | .vec false xs, h => exact spread6_len (v := .vec false xs) h
  | .sc x, h => exact spread6_len (v := .sc x) h
  | .mat cs, h => exact spread6_len (v := .mat cs) h

/-- two values that spread to the same entries for the selected orbits -/
def SameVal (n : Nat) (ps : List Nat) (v w : Val α) : Prop := ∀ vs, v.spread n = .ok vs → w.spread ps.length = .ok (gather vs ps)

theorem zip_both {β C D : Type} (f : C → D → β) {l l' : List C} {r r' : List D} (hp : ∀ p ∈ ps, p < n) (h : Both n ps l l')
    (h' : Both n ps r r') : Both n ps (List.zipWith f l r) (List.zipWith f l' r') := by
  refine ⟨by simp [h.1, h'.1], ?_⟩
  rw [h.2, h'.2, gather_zipWith f l r ps (by rw [h.1]; exact hp) (by rw [h'.1]; exact hp)]

theorem Sel.bothKep {s t : Orb α} (h : Sel n ps s t) : Both n ps s.kep t.kep := ⟨h.ws.1.kep, h.kep⟩
theorem Sel.bothCart {s t : Orb α} (h : Sel n ps s t) : Both n ps s.cart t.cart := ⟨h.ws.1.cart, h.cart⟩

theorem set_kep_sim (i : Fin 6) {v w : Val α} (hv : SameVal n ps v w) : Sim' n ps (set_kep K i v) (set_kep K i w) := by
  refine guardKep_sim.bind fun _ _ _ => Sim.selfBind fun s t h => ?_
  rw [h.ws.1.kep, h.wt.1.kep]
  refine (Sim.lift (Q := Both n ps) fun vs hs => ⟨_, hv vs hs, spread_len hs, rfl⟩).bind fun vs ws hb => ?_
  refine (Sim.upd fun s t h => ?_).bind fun _ _ _ => afterKepEl_sim K
  have := zip_both (fun (k : Kep α) x => k.set i x) h.hp h.bothKep hb
  exact h.setKep this.1 this.2
theorem set_cart_sim (i : Fin 6) {v w : Val α} (hv : SameVal n ps v w) : Sim' n ps (set_cart K i v) (set_cart K i w) := by
  refine guardCart_sim.bind fun _ _ _ => Sim.selfBind fun s t h => ?_
  rw [h.ws.1.cart, h.wt.1.cart]
  refine (Sim.lift (Q := Both n ps) fun vs hs => ⟨_, hv vs hs, spread_len hs, rfl⟩).bind fun vs ws hb => ?_
  refine (Sim.upd fun s t h => ?_).bind fun _ _ _ => afterCartEl_sim K
  have := zip_both (fun (k : Cart α) x => k.set i x) h.hp h.bothCart hb
  exact h.setCart this.1 this.2
theorem set_kepler_sim (v : Val6 α (Kep α)) : Sim' n ps (set_kepler K v) (set_kepler K (v.pickCol n ps)) := by
  refine guardKep_sim.bind fun _ _ _ => Sim.selfBind fun s t h => ?_
  rw [h.ws.1.kep, h.wt.1.kep]
  refine (Sim.lift (Q := Both n ps) fun vs hs => ⟨_, setter_pick h.hp hs, setter_len hs, rfl⟩).bind fun vs ws hb => ?_
  exact (Sim.upd fun s t h => h.setKep hb.1 hb.2).bind fun _ _ _ => afterKep_sim K
theorem set_cartesian_sim (v : Val6 α (Cart α)) : Sim' n ps (set_cartesian K v) (set_cartesian K (v.pickCol n ps)) := by
  refine guardCart_sim.bind fun _ _ _ => Sim.selfBind fun s t h => ?_
  rw [h.ws.1.cart, h.wt.1.cart]
  refine (Sim.lift (Q := Both n ps) fun vs hs => ⟨_, setter_pick h.hp hs, setter_len hs, rfl⟩).bind fun vs ws hb => ?_
  exact (Sim.upd fun s t h => h.setCart hb.1 hb.2).bind fun _ _ _ => afterCart_sim K
theorem set_r_sim (v : Val6 α (Tri α)) : Sim' n ps (set_r K v) (set_r K (v.pick n ps)) := by
  refine guardCart_sim.bind fun _ _ _ => Sim.selfBind fun s t h => ?_
  rw [h.ws.1.cart, h.wt.1.cart]
  refine (Sim.lift (Q := Both n ps) fun vs hs => ⟨_, spread6_pick h.hp hs, spread6_len hs, rfl⟩).bind fun vs ws hb => ?_
  refine (Sim.upd fun s t h => ?_).bind fun _ _ _ => afterCart_sim K
  have := zip_both Cart.setR h.hp h.bothCart hb
  exact h.setCart this.1 this.2
theorem set_v_sim' {v w : Val6 α (Tri α)}
    (hv : ∀ vs, v.spread (fun x => ⟨x, x, x⟩) n = .ok vs → w.spread (fun x => ⟨x, x, x⟩) ps.length = .ok (gather vs ps)) :
    Sim' n ps (set_v K v) (set_v K w) := by
  refine guardCart_sim.bind fun _ _ _ => Sim.selfBind fun s t h => ?_
  rw [h.ws.1.cart, h.wt.1.cart]
  refine (Sim.lift (Q := Both n ps) fun vs hs => ⟨_, hv vs hs, spread6_len hs, rfl⟩).bind fun vs ws hb => ?_
  refine (Sim.upd fun s t h => ?_).bind fun _ _ _ => afterCart_sim K
  have := zip_both Cart.setV h.hp h.bothCart hb
  exact h.setCart this.1 this.2

theorem get_kep_sim (i : Fin 6) : Sim n ps (get_kep K i) (get_kep K i) (Both n ps) := by
  refine (Sim.upd fun s t h => ?_).bind fun _ _ _ => Sim.selfBind fun s t h => Sim.pure ⟨by simp [h.ws.1.kep], ?_⟩
  · rw [kepCheck_direct K h.lz, kepCheck_direct K h.lz']; exact h
  · rw [h.kep, gather_map]

/-- values that agree for the selected orbits, in assignments and in anomaly conversions -/
def SameVal' (n : Nat) (ps : List Nat) (v w : Val α) : Prop :=
  SameVal n ps v w ∧ ∀ (deg : Bool) (f : α → α → α) (es vs : List α), es.length = n → convVal deg f v es = .ok vs →
    convVal deg f w (gather es ps) = .ok (gather vs ps)

theorem SameVal'.pick (hp : ∀ p ∈ ps, p < n) (v : Val α) : SameVal' n ps v (v.pick n ps) :=
  ⟨fun vs h => spread_pick hp h, fun deg f es vs hn h => convVal_pick hp hn h⟩

theorem convVal_len {deg : Bool} {f : α → α → α} {v : Val α} {es vs : List α} (h : convVal deg f v es = .ok vs) : vs.length = es.length := by
  match v, h with
  | .sc x, h => cases h; simp
  | .zd x, h =>
    cases deg with
    | false => cases h
    | true => cases h; simp
  | .vec xs, h =>
    simp only [convVal] at h
    split at h
    · cases h; simp [*]
    · cases h

theorem sameVal_both (hp : ∀ p ∈ ps, p < n) {vs ws : List α} (h : Both n ps vs ws) : SameVal n ps (.vec vs) (.vec ws) := by
  intro us hu
  have := spread_pick hp (v := .vec vs) hu
  rwa [Val.pick, pickList_length h.1, ← h.2] at this

theorem setConv_sim (hp : ∀ p ∈ ps, p < n) (deg : Bool) (f : α → α → α) {v w : Val α} (hv : SameVal' n ps v w) :
    Sim' n ps (setConv K deg f v) (setConv K deg f w) := by
  refine (get_kep_sim K 1).bind fun es es' he => ?_
  refine (Sim.lift (Q := Both n ps) fun vs hs => ⟨gather vs ps, ?_, (convVal_len hs).trans he.1, rfl⟩).bind fun vs ws hb => ?_
  · rw [he.2]; exact hv.2 deg f es vs he.1 hs
  · exact set_kep_sim K 5 (sameVal_both hp hb)

theorem set_true_sim (hp : ∀ p ∈ ps, p < n) {v w : Val α} (hv : SameVal' n ps v w) :
    Sim' n ps (set_true_anomaly K v) (set_true_anomaly K w) := by
  refine guardKep_sim.bind fun _ _ _ => Sim.selfBind fun s t h => ?_
  rw [h.type, h.degrees]
  cases s.type
  · exact (set_kep_sim K 5 hv.1).bind fun _ _ _ => afterKepEl_sim K
  · exact (setConv_sim K hp _ _ hv).bind fun _ _ _ => afterKepEl_sim K
  · exact (setConv_sim K hp _ _ hv).bind fun _ _ _ => afterKepEl_sim K
theorem set_ecc_sim (hp : ∀ p ∈ ps, p < n) {v w : Val α} (hv : SameVal' n ps v w) :
    Sim' n ps (set_eccentric_anomaly K v) (set_eccentric_anomaly K w) := by
  refine guardKep_sim.bind fun _ _ _ => Sim.selfBind fun s t h => ?_
  rw [h.type, h.degrees]
  cases s.type
  · exact (setConv_sim K hp _ _ hv).bind fun _ _ _ => afterKepEl_sim K
  · exact (set_kep_sim K 5 hv.1).bind fun _ _ _ => afterKepEl_sim K
  · exact (setConv_sim K hp _ _ hv).bind fun _ _ _ => afterKepEl_sim K
theorem set_mean_sim (hp : ∀ p ∈ ps, p < n) {v w : Val α} (hv : SameVal' n ps v w) :
    Sim' n ps (set_mean_anomaly K v) (set_mean_anomaly K w) := by
  refine guardKep_sim.bind fun _ _ _ => Sim.selfBind fun s t h => ?_
  rw [h.type, h.degrees, h.opts]
  cases s.type
  · exact (setConv_sim K hp _ _ hv).bind fun _ _ _ => afterKepEl_sim K
  · exact (setConv_sim K hp _ _ hv).bind fun _ _ _ => afterKepEl_sim K
  · exact (set_kep_sim K 5 hv.1).bind fun _ _ _ => afterKepEl_sim K

theorem set_velocity_sim {v w : Val α} (hv : SameVal n ps v w) : Sim' n ps (set_velocity K v) (set_velocity K w) := by
  have hc : ∀ s t : Orb α, Sel n ps s t → Sel n ps (cartCheck K s) (cartCheck K t) := fun s t h => by
    rw [cartCheck_direct K h.lz, cartCheck_direct K h.lz']; exact h
  refine guardCart_sim.bind fun _ _ _ => (Sim.upd hc).bind fun _ _ _ => (Sim.upd hc).bind fun _ _ _ => Sim.selfBind fun s t h => ?_
  rw [h.ws.1.cart, h.wt.1.cart]
  refine (Sim.lift (Q := Both n ps) fun vs hs => ⟨_, hv vs hs, spread_len hs, rfl⟩).bind fun vs ws hb => ?_
  have hz := zip_both (fun c x => (K.scaleV c x).getV) h.hp h.bothCart hb
  refine (set_v_sim' K fun us hu => ?_).bind fun _ _ _ => afterCartEl_sim K
  have := spread6_pick h.hp hu
  rwa [Val6.pick, pickList_length hz.1, ← hz.2] at this

theorem pickList_map {β C : Type} (f : β → C) (l : List β) : pickList n ps (l.map f) = (pickList n ps l).map f := by
  unfold pickList
  rw [List.length_map]
  split
  · rw [gather_map]
  · rfl

/-- the end of the `equinoctial` setter -/
theorem equi_sim (hp : ∀ p ∈ ps, p < n) {ks ks' : List (Kep α)} {v w : Val α} (hk : ∀ cs, (Val6.mat ks : Val6 α (Kep α)).spread Kep.const n = .ok cs →
      (Val6.mat ks' : Val6 α (Kep α)).spread Kep.const ps.length = .ok (gather cs ps)) (hv : SameVal' n ps v w) :
    Sim' n ps (do
      let cs ← lift ((Val6.mat ks : Val6 α (Kep α)).spread Kep.const n)
      Py.upd fun s => { s with kep := List.zipWith (fun old new => { new with nu := old.nu }) s.kep cs }
      set_mean_anomaly K v) (do
      let cs ← lift ((Val6.mat ks' : Val6 α (Kep α)).spread Kep.const ps.length)
      Py.upd fun s => { s with kep := List.zipWith (fun old new => { new with nu := old.nu }) s.kep cs }
      set_mean_anomaly K w) := by
  refine (Sim.lift (Q := Both n ps) fun vs hs => ⟨_, hk vs hs, spread6_len hs, rfl⟩).bind fun vs ws hb => ?_
  refine (Sim.upd fun s t h => ?_).bind fun _ _ _ => set_mean_sim K hp hv
  have := zip_both (fun (old new : Kep α) => { new with nu := old.nu }) h.hp h.bothKep hb
  exact h.setKep this.1 this.2

theorem set_equi_sim (hp : ∀ p ∈ ps, p < n) (v : Equi α ⊕ List (Equi α)) :
    Sim' n ps (set_equinoctial K v) (set_equinoctial K (v.map id (pickList n ps))) := by
  refine Sim.selfBind fun s t h => ?_
  rw [h.ws.1.kep, h.wt.1.kep, h.degrees]
  cases v with
  | inl q =>
    refine equi_sim K hp (fun cs hc => ?_) (SameVal'.pick hp (.zd _))
    cases hc
    rw [gather_replicate _ n ps hp]
    rfl
  | inr qs =>
    refine equi_sim K hp (fun cs hc => ?_) ?_
    · have := spread6_pick hp hc
      rw [Val6.pick, pickList_map] at this
      exact this
    · have := SameVal'.pick hp (.vec ((qs.map (K.equiToKep s.degrees)).map Kep.nu))
      rw [Val.pick, pickList_map, pickList_map] at this
      exact this

/-! ## Queries -/

theorem Sel.val {s t : Orb α} (h : Sel n ps s t) (g : Read) (hg : g ≠ .str) : g.val K t = g.pick ps (g.val K s) := by
  rw [← view_val K h.ws.1 h.hp g hg]
  have ht : t = { view K ps s with tA := t.tA, eA := t.eA, mA := t.mA, cartCalc := t.cartCalc, kepCalc := t.kepCalc, it := t.it } := by
    obtain ⟨_, _, _, _, h1, h2, h3, h4, h5, h6, h7, h8, h9, h10, h11, h12, h13⟩ := h
    cases t; cases s
    simp only at h1 h2 h3 h4 h5 h6 h7 h8 h9 h10 h11 h12 h13
    subst h1 h2 h3 h4 h5 h6 h7 h8 h9 h10 h11 h12 h13
    rfl
  rw [ht]
  cases g <;> rfl

theorem read_state {s : Orb α} (hw : WFE n s) (hl : lazy s = false) (g : Read) :
    ∃ s', g.get K s = (.ok (g.val K s), s') ∧ SameCore s s' ∧ WFE n s' :=
  ⟨(g.get K s).2, Prod.ext (read_val K hw hl g) rfl, (read_co K hl g s (SameCore.refl s)).1, (read_sh K g s hw).1⟩

theorem read_sim (g : Read) : Sim n ps (g.get K) (g.get K) (fun a b => g ≠ .str → b = g.pick ps a) := by
  intro s t b s' h hx
  obtain ⟨s1, hs1, hc, hw⟩ := read_state K h.ws h.lz g
  obtain ⟨t1, ht1, hc', hw'⟩ := read_state K h.wt h.lz' g
  rw [hs1] at hx
  cases hx
  exact ⟨_, t1, ht1, h.core hc hc' hw hw', fun hg => h.val K g hg⟩

theorem get_mean_sim : Sim n ps (get_mean_anomaly K) (get_mean_anomaly K) (Both n ps) := by
  intro s t b s' h hx
  obtain ⟨b', t', h1, h2, h3⟩ := read_sim K .meanAnomaly s t b s' h hx
  refine ⟨b', t', h1, h2, ?_, h3 (by simp)⟩
  obtain ⟨s1, hs1, -, -⟩ := read_state K h.ws h.lz .meanAnomaly
  have e : b = s.kep.map (anomOf K .mean s) := Except.ok.inj (congrArg Prod.fst (hx.symm.trans hs1))
  rw [e, List.length_map, h.ws.1.kep]
theorem get_true_sim : Sim n ps (get_true_anomaly K) (get_true_anomaly K) (Both n ps) := by
  intro s t b s' h hx
  obtain ⟨b', t', h1, h2, h3⟩ := read_sim K .trueAnomaly s t b s' h hx
  refine ⟨b', t', h1, h2, ?_, h3 (by simp)⟩
  obtain ⟨s1, hs1, -, -⟩ := read_state K h.ws h.lz .trueAnomaly
  have e : b = s.kep.map (anomOf K .tru s) := Except.ok.inj (congrArg Prod.fst (hx.symm.trans hs1))
  rw [e, List.length_map, h.ws.1.kep]
theorem get_ecc_sim : Sim n ps (get_eccentric_anomaly K) (get_eccentric_anomaly K) (Both n ps) := by
  intro s t b s' h hx
  obtain ⟨b', t', h1, h2, h3⟩ := read_sim K .eccentricAnomaly s t b s' h hx
  refine ⟨b', t', h1, h2, ?_, h3 (by simp)⟩
  obtain ⟨s1, hs1, -, -⟩ := read_state K h.ws h.lz .eccentricAnomaly
  have e : b = s.kep.map (anomOf K .ecc s) := Except.ok.inj (congrArg Prod.fst (hx.symm.trans hs1))
  rw [e, List.length_map, h.ws.1.kep]
theorem get_motion_sim : Sim n ps (get_mean_motion K) (get_mean_motion K) (Both n ps) := by
  intro s t b s' h hx
  obtain ⟨b', t', h1, h2, h3⟩ := read_sim K .meanMotion s t b s' h hx
  refine ⟨b', t', h1, h2, ?_, h3 (by simp)⟩
  obtain ⟨s1, hs1, -, -⟩ := read_state K h.ws h.lz .meanMotion
  have e : b = List.zipWith (fun k m => K.motion s.degrees (K.period k.a (K.mu s.G s.M0 m))) s.kep s.m :=
    Except.ok.inj (congrArg Prod.fst (hx.symm.trans hs1))
  rw [e, List.length_zipWith, h.ws.1.kep, h.ws.1.m, Nat.min_self]

theorem set_type_sim (hp : ∀ p ∈ ps, p < n) (a : Option Anom) : Sim' n ps (set_type K a) (set_type K a) := by
  cases a with
  | none => exact Sim.raise
  | some a =>
    refine Sim.selfBind fun s t h => Sim.ite (by rw [h.type]) (fun _ => Sim.pure trivial) fun _ => ?_
    have hg : Sim n ps (get_anomaly K a) (get_anomaly K a) (Both n ps) := by
      cases a
      · exact get_true_sim K
      · exact get_ecc_sim K
      · exact get_mean_sim K
    refine hg.bind fun x y hxy => (set_kep_sim K 5 (sameVal_both hp hxy)).bind fun _ _ _ => Sim.upd fun s t h => ?_
    exact ⟨⟨⟨h.ws.1.m, h.ws.1.cart, h.ws.1.kep, h.ws.1.tA, h.ws.1.mA, h.ws.1.cartCalc, h.ws.1.kepCalc⟩, h.ws.2⟩,
      ⟨⟨h.wt.1.m, h.wt.1.cart, h.wt.1.kep, h.wt.1.tA, h.wt.1.mA, h.wt.1.cartCalc, h.wt.1.kepCalc⟩, h.wt.2⟩, h.hp, h.lz, h.m, h.cart,
      h.kep, h.auto, h.direct, h.G, h.M0, h.opts, h.epoch, h.degrees, rfl, h.kro, h.cro⟩

/-! ## `propagate` -/

theorem set_kep_len (i : Fin 6) (xs : List α) : Sh n (set_kep K i (.vec xs)) (fun _ => xs.length = n ∨ xs.length = 1) := by
  refine guardKep_sh.bind fun _ _ => Keeps.self.bind fun s hs => Keeps.lift.bind fun vs hv => ?_
  have hl : xs.length = n ∨ xs.length = 1 := by
    rw [hs.1.kep] at hv
    match xs, hv with
    | [x], _ => exact .inr rfl
    | [], hv =>
      simp only [Val.spread] at hv
      split at hv
      · exact .inl (by assumption)
      · cases hv
    | x :: y :: r, hv =>
      simp only [Val.spread] at hv
      split at hv
      · exact .inl (by assumption)
      · cases hv
  refine (Keeps.upd fun t ht => setKepCol_wfe ht ?_).bind fun _ _ => (afterKepEl_sh K).mono fun _ _ => hl
  have := spread_len hv
  simp [ht.1.kep, this, hs.1.kep]

theorem setConv_len (deg : Bool) (f : α → α → α) (xs : List α) :
    Sh n (setConv K deg f (.vec xs)) (fun _ => xs.length = n ∨ xs.length = 1) := by
  refine (get_kep_sh K 1).bind fun es he => Keeps.lift.bind fun vs hv => (set_kep_sh K 5 _).mono fun _ _ => ?_
  simp only [convVal] at hv
  split at hv
  · rename_i h; exact .inl (h.trans he)
  · cases hv

theorem set_mean_len (xs : List α) : Sh n (set_mean_anomaly K (.vec xs)) (fun _ => xs.length = n ∨ xs.length = 1) := by
  refine guardKep_sh.bind fun _ _ => Keeps.self.bind fun s hs => ?_
  cases s.type
  · exact (setConv_len K _ _ xs).bind fun _ h => (afterKepEl_sh K).mono fun _ _ => h
  · exact (setConv_len K _ _ xs).bind fun _ h => (afterKepEl_sh K).mono fun _ _ => h
  · exact (set_kep_len K 5 xs).bind fun _ h => (afterKepEl_sh K).mono fun _ _ => h

/-- `propagate` after its queries -/
def propTail (M mm : List α) (dt : Val α) (deg : Bool) : Py α Unit := do
  let nd ← lift (bcast (fun n dt => (n, dt)) mm dt)
  let Ms ← lift (if nd.length = M.length then .ok (List.zipWith (fun M p => K.wrapM deg (K.advance M p.1 p.2)) M nd)
    else match M with
      | [M] => .ok (nd.map fun p => K.wrapM deg (K.advance M p.1 p.2))
      | _ => .error .valueError)
  set_mean_anomaly K (.vec Ms)
  let s ← Py.self
  if s.direct then calculate_cartesian K .all else Pure.pure ()

theorem propTail_sim (hp : ∀ p ∈ ps, p < n) {M M' mm mm' : List α} (hM : Both n ps M M') (hm : Both n ps mm mm') (dt : Val α) (deg : Bool) :
    Sim' n ps (propTail K M mm dt deg) (propTail K M' mm' (dt.pick n ps) deg) := by
  intro s t b s' h hx
  unfold propTail at hx
  cases hb : bcast (fun n dt => (n, dt)) mm dt with
  | error e => rw [hb] at hx; cases hx
  | ok nd =>
    by_cases hn : nd.length = n
    · have hb' := bcast_pick hp hm.1 hn hb
      rw [← hm.2] at hb'
      rw [hb, liftOk_bind, if_pos (hn.trans hM.1.symm), liftOk_bind] at hx
      have hz := zip_both (fun M (p : α × α) => K.wrapM deg (K.advance M p.1 p.2)) hp hM ⟨hn, rfl⟩
      have hv : SameVal' n ps (.vec (List.zipWith (fun M (p : α × α) => K.wrapM deg (K.advance M p.1 p.2)) M nd))
          (.vec (List.zipWith (fun M (p : α × α) => K.wrapM deg (K.advance M p.1 p.2)) M' (gather nd ps))) := by
        rw [hz.2, ← pickList_length hz.1]
        exact SameVal'.pick hp (.vec _)
      have hs := ((set_mean_sim K hp hv).bind fun _ _ _ => Sim.selfBind fun s t h =>
        Sim.ite (Q := fun _ _ => True) (direct_iff h) (fun _ => calcCart_sim K) fun _ => Sim.pure (c := ()) trivial) s t b s' h hx
      obtain ⟨b', t', h1, h2, h3⟩ := hs
      refine ⟨b', t', ?_, h2, h3⟩
      unfold propTail
      rw [hb', liftOk_bind, if_pos, liftOk_bind]
      · exact h1
      · rw [hM.2, gather_length nd ps (by rw [hn]; exact hp), gather_length M ps (by rw [hM.1]; exact hp)]
    · exfalso
      rw [hb, liftOk_bind, if_neg (by rw [hM.1]; exact hn)] at hx
      match M, hM, hx with
      | [], _, hx => cases hx
      | _ :: _ :: _, _, hx => cases hx
      | [M], hM, hx =>
        have h1 : n = 1 := hM.1.symm
        rw [show (match [M] with
          | [M] => Except.ok (nd.map fun p => K.wrapM deg (K.advance M p.1 p.2))
          | _ => .error .valueError) = Except.ok (ε := PyErr) (nd.map fun p => K.wrapM deg (K.advance M p.1 p.2)) from rfl, liftOk_bind] at hx
        have := (set_mean_len K (n := n) (nd.map fun p => K.wrapM deg (K.advance M p.1 p.2))) s h.ws
        rcases hr : set_mean_anomaly K (.vec (nd.map fun p => K.wrapM deg (K.advance M p.1 p.2))) s with ⟨e | r, s1⟩
        · rw [bind_run, hr] at hx; cases hx
        · rw [hr] at this
          have := this.2 r rfl
          rw [List.length_map] at this
          omega

theorem propagate_sim (hp : ∀ p ∈ ps, p < n) (dt : Val α) : Sim' n ps (propagate K dt) (propagate K (dt.pick n ps)) := by
  refine (get_mean_sim K).bind fun M M' hM => (get_motion_sim K).bind fun mm mm' hm => Sim.selfBind fun s t h => ?_
  rw [h.degrees]
  exact propTail_sim K hp hM hm dt s.degrees

/-! ## `update` of all orbits -/

theorem writeAt_zip {β γ : Type} (w : β → γ → β) (l : List β) (vs : List γ) (h : vs.length = l.length) :
    writeAt w l (List.range l.length) vs = List.zipWith w l vs := by
  have key : ∀ (b : List β) (vs : List γ) (k : Nat) (a : List β), a.length = k → b.length = vs.length →
      writeAt w (a ++ b) (List.range' k b.length) vs = a ++ List.zipWith w b vs := by
    intro b
    induction b with
    | nil =>
      intro vs k a _ hb
      have : vs = [] := List.length_eq_zero_iff.mp hb.symm
      subst this; simp [writeAt]
    | cons x b ih =>
      intro vs k a ha hb
      cases vs with
      | nil => cases hb
      | cons v vs =>
        have h1 := ih vs (k + 1) (a ++ [w x v]) (by simp [ha]) (by simpa using hb)
        simp only [writeAt, List.length_cons, List.range'_succ, List.zip_cons_cons, List.foldl_cons] at h1 ⊢
        rw [show (a ++ x :: b).modify k (fun b => w b v) = (a ++ [w x v]) ++ b by
          subst ha
          clear h1 hb ih
          induction a with
          | nil => rfl
          | cons y a ih => simpa using ih]
        rw [h1]; simp
  have := key l vs 0 [] rfl h.symm
  simpa [List.range_eq_range'] using this

theorem writeRow_pick (hp : ∀ p ∈ ps, p < n) {C : Type} (set : C → α → C) {l l' r : List C} (hl : Both n ps l l') {v : Val α}
    (h : writeRow set l .all v = .ok r) : ∃ r', writeRow set l' .all (v.pick n ps) = .ok r' ∧ Both n ps r r' := by
  have hl' : l'.length = ps.length := by rw [hl.2, gather_length l ps (by rw [hl.1]; exact hp)]
  unfold writeRow at h ⊢
  rw [pos_all] at h ⊢
  obtain ⟨vs, hv, hr⟩ := ebind_ok (show (do let vs ← v.spread (List.range l.length).length
                                            pure (writeAt set l (List.range l.length) vs)) = .ok r from h)
  rw [List.length_range, hl.1] at hv
  have hv' := spread_pick hp hv
  have hvl := spread_len hv
  cases hr
  refine ⟨List.zipWith set l' (gather vs ps), ?_, ?_⟩
  · show (do let vs ← (v.pick n ps).spread (List.range l'.length).length; pure (writeAt set l' (List.range l'.length) vs)) = _
    rw [List.length_range, hl', hv', ← hl']
    show Except.ok _ = _
    rw [writeAt_zip set l' _ (by rw [hl', gather_length vs ps (by rw [hvl]; exact hp)])]
  · rw [writeAt_zip set l vs (by rw [hvl, hl.1])]
    exact zip_both set hp hl ⟨hvl, rfl⟩

theorem writeCols_pick (hp : ∀ p ∈ ps, p < n) {C : Type} {const : α → C} {col : List α → Option C} {l l' r : List C} (hl : Both n ps l l')
    {v : Val6 α C} (h : writeCols const col l .all v = .ok r) : ∃ r', writeCols const col l' .all (v.pick n ps) = .ok r' ∧ Both n ps r r' := by
  have hl' : l'.length = ps.length := by rw [hl.2, gather_length l ps (by rw [hl.1]; exact hp)]
  unfold writeCols at h ⊢
  rw [pos_all] at h ⊢
  obtain ⟨vs, hv, hr⟩ := ebind_ok (show (do let cs ← v.spread const (List.range l.length).length
                                            pure (writeAt (fun _ c => c) l (List.range l.length) cs)) = .ok r from h)
  rw [List.length_range, hl.1] at hv
  have hv' := spread6_pick hp hv
  have hvl := spread6_len hv
  cases hr
  refine ⟨gather vs ps, ?_, ?_⟩
  · show (do let vs ← (v.pick n ps).spread const (List.range l'.length).length; pure (writeAt (fun _ c => c) l' (List.range l'.length) vs)) = _
    rw [List.length_range, hl', hv', ← hl']
    show Except.ok _ = _
    rw [writeAt_all l' _ (by rw [hl', gather_length vs ps (by rw [hvl]; exact hp)])]
  · rw [writeAt_all l vs (by rw [hvl, hl.1])]
    exact ⟨hvl, rfl⟩

theorem updKepRow_sim (hp : ∀ p ∈ ps, p < n) (i : Fin 6) (v : Option (Val α)) :
    Sim' n ps (updKepRow .all i v) (updKepRow .all i (v.map (·.pick n ps))) := by
  cases v with
  | none => exact Sim.pure trivial
  | some v =>
    refine Sim.selfBind fun s t h => ?_
    refine (Sim.lift (Q := Both n ps) fun r hr => writeRow_pick hp _ h.bothKep hr).bind fun r r' hb => ?_
    exact Sim.upd fun s t h => h.setKep hb.1 hb.2
theorem updCartRow_sim (hp : ∀ p ∈ ps, p < n) (i : Fin 6) (v : Option (Val α)) :
    Sim' n ps (updCartRow .all i v) (updCartRow .all i (v.map (·.pick n ps))) := by
  cases v with
  | none => exact Sim.pure trivial
  | some v =>
    refine Sim.selfBind fun s t h => ?_
    refine (Sim.lift (Q := Both n ps) fun r hr => writeRow_pick hp _ h.bothCart hr).bind fun r r' hb => ?_
    exact Sim.upd fun s t h => h.setCart hb.1 hb.2
theorem updKepRows_sim (hp : ∀ p ∈ ps, p < n) (u : Fin 6 → Option (Val α)) : ∀ is : List (Fin 6),
    Sim' n ps (updKepRows .all u is) (updKepRows .all (fun i => (u i).map (·.pick n ps)) is)
  | [] => Sim.pure trivial
  | i :: is => (updKepRow_sim hp i (u i)).bind fun _ _ _ => updKepRows_sim hp u is
theorem updCartRows_sim (hp : ∀ p ∈ ps, p < n) (u : Fin 6 → Option (Val α)) : ∀ is : List (Fin 6),
    Sim' n ps (updCartRows .all u is) (updCartRows .all (fun i => (u i).map (·.pick n ps)) is)
  | [] => Sim.pure trivial
  | i :: is => (updCartRow_sim hp i (u i)).bind fun _ _ _ => updCartRows_sim hp u is

theorem flags_all {l : List Bool} {b : Bool} : ∃ r, writeFlags l .all b = .ok r := by
  unfold writeFlags
  rw [pos_all]
  exact ⟨_, rfl⟩

theorem markFlags_sim (kc cc : Bool) : Sim' n ps (markFlags .all kc cc : Py α Unit) (markFlags .all kc cc) := by
  refine Sim.selfBind fun s t h => ?_
  refine (Sim.lift (Q := fun f f' => f.length = n ∧ f'.length = ps.length) fun f hf => ?_).bind fun f f' hb => ?_
  · obtain ⟨r, hr⟩ := flags_all (l := t.kepCalc) (b := kc)
    exact ⟨r, hr, by rw [writeFlags_length hf, h.ws.1.kepCalc], by rw [writeFlags_length hr, h.wt.1.kepCalc]⟩
  refine (Sim.upd fun s t h => h.setFlags h.ws.1.cartCalc hb.1 h.wt.1.cartCalc hb.2).bind fun _ _ _ => ?_
  refine (Sim.lift (Q := fun f f' => f.length = n ∧ f'.length = ps.length) fun f hf => ?_).bind fun f f' hb => ?_
  · obtain ⟨r, hr⟩ := flags_all (l := t.cartCalc) (b := cc)
    exact ⟨r, hr, by rw [writeFlags_length hf, h.ws.1.cartCalc], by rw [writeFlags_length hr, h.wt.1.cartCalc]⟩
  exact Sim.upd fun s t h => h.setFlags hb.1 h.ws.1.kepCalc hb.2 h.wt.1.kepCalc

theorem updAfterCart_sim : Sim' n ps (updAfterCart K .all) (updAfterCart K .all) :=
  Sim.selfBind fun s t h => Sim.ite (direct_iff h) (fun _ => calcKep_sim K) fun _ => markFlags_sim _ _
theorem updAfterKep_sim : Sim' n ps (updAfterKep K .all) (updAfterKep K .all) :=
  Sim.selfBind fun s t h => Sim.ite (direct_iff h) (fun _ => calcCart_sim K) fun _ => markFlags_sim _ _
theorem when_sim (b : Bool) {x y : Py α Unit} (h : Sim' n ps x y) : Sim' n ps (when b x) (when b y) :=
  Sim.ite Iff.rfl (fun _ => h) fun _ => Sim.pure trivial

theorem updM_sim (hp : ∀ p ∈ ps, p < n) (v : Option (Val α)) : Sim' n ps (updM .all v) (updM .all (v.map (·.pick n ps))) := by
  cases v with
  | none => exact Sim.pure trivial
  | some v =>
    refine Sim.selfBind fun s t h => Sim.ite (direct_iff h) (fun _ => Sim.raise) fun _ => ?_
    refine (Sim.lift (Q := Both n ps) fun r hr => writeRow_pick hp _ ⟨h.ws.1.m, h.m⟩ hr).bind fun r r' hb => ?_
    exact Sim.upd fun s t h => h.setM hb.1 hb.2

theorem pick_cartUp (u : Upd α) : (u.pick n ps).cartUp = u.cartUp := by simp [Upd.cartUp, Upd.pick]
theorem pick_kepUp (u : Upd α) : (u.pick n ps).kepUp = u.kepUp := by simp [Upd.kepUp, Upd.pick]

theorem update_sim (hp : ∀ p ∈ ps, p < n) (u : Upd α) : Sim' n ps (update K .all u) (update K .all (u.pick n ps)) := by
  have hlast : Sim' n ps (do updGuard u.cartUp u.kepUp; updM .all u.m; updCartEls K .all u; updKepEls K .all u)
      (do updGuard (u.pick n ps).cartUp (u.pick n ps).kepUp; updM .all (u.pick n ps).m; updCartEls K .all (u.pick n ps)
          updKepEls K .all (u.pick n ps)) := by
    rw [pick_cartUp, pick_kepUp]
    refine Sim.bind (Q := fun _ _ => True) ?_ fun _ _ _ => (updM_sim hp u.m).bind fun _ _ _ => Sim.bind (Q := fun _ _ => True) ?_ fun _ _ _ => ?_
    · exact (when_sim _ guardCart_sim).bind fun _ _ _ => (when_sim _ guardKep_sim).bind fun _ _ _ => when_sim _ Sim.raise
    · refine Sim.ite (by rw [pick_cartUp]) (fun _ => ?_) fun _ => Sim.pure trivial
      exact (updCartRows_sim hp u.cartEl _).bind fun _ _ _ => updAfterCart_sim K
    · refine Sim.ite (by rw [pick_kepUp]) (fun _ => ?_) fun _ => Sim.pure trivial
      exact (updKepRows_sim hp u.kepEl _).bind fun _ _ _ => updAfterKep_sim K
  obtain ⟨uc, uk, um, uce, uke, uu⟩ := u
  cases uc with
  | some v =>
    refine guardCart_sim.bind fun _ _ _ => Sim.selfBind fun s t h => ?_
    refine (Sim.lift (Q := Both n ps) fun r hr => writeCols_pick hp h.bothCart hr).bind fun r r' hb => ?_
    exact (Sim.upd fun s t h => h.setCart hb.1 hb.2).bind fun _ _ _ => updAfterCart_sim K
  | none =>
    cases uk with
    | some v =>
      refine guardKep_sim.bind fun _ _ _ => Sim.selfBind fun s t h => ?_
      refine (Sim.lift (Q := Both n ps) fun r hr => writeCols_pick hp h.bothKep hr).bind fun r r' hb => ?_
      exact (Sim.upd fun s t h => h.setKep hb.1 hb.2).bind fun _ _ _ => updAfterKep_sim K
    | none => exact hlast

/-! ## Histories -/

theorem run_sim (hp : ∀ p ∈ ps, p < n) (o : Op α) (ho : o.whole) : Sim' n ps (o.run K) ((o.pick n ps).run K) := by
  have settings : ∀ (f : Orb α → Orb α), (∀ s t, Sel n ps s t → Sel n ps (f s) (f t)) → Sim' n ps (Py.upd f) (Py.upd f) :=
    fun f h => Sim.upd h
  cases o with
  | read g => exact (read_sim K g).bind fun _ _ _ => Sim.pure trivial
  | setKep i v => exact set_kep_sim K i (SameVal'.pick hp v).1
  | setCart i v => exact set_cart_sim K i (SameVal'.pick hp v).1
  | setKepler v => exact set_kepler_sim K v
  | setCartesian v => exact set_cartesian_sim K v
  | setR v => exact set_r_sim K v
  | setV v => exact set_v_sim' K fun us hu => spread6_pick hp hu
  | setTrue v => exact set_true_sim K hp (SameVal'.pick hp v)
  | setEcc v => exact set_ecc_sim K hp (SameVal'.pick hp v)
  | setMean v => exact set_mean_sim K hp (SameVal'.pick hp v)
  | setPeriod v => exact Sim.raise
  | setMeanMotion v => exact guardKep_sim.bind fun _ _ _ => Sim.bind (Q := fun _ _ => True) Sim.raise fun _ _ _ => afterKepEl_sim K
  | setVelocity v => exact set_velocity_sim K (SameVal'.pick hp v).1
  | setEquinoctial v =>
    have := set_equi_sim K hp v
    cases v with
    | inl q => exact this
    | inr qs => exact this
  | setType a => exact set_type_sim K hp a
  | propagate dt => exact propagate_sim K hp dt
  | update inds u => cases ho; exact update_sim K hp u
  | add _ _ => cases ho
  | delete _ => cases ho
  | allocate _ => cases ho
  | calcCartesian inds => cases ho; exact calcCart_sim K
  | calcKepler inds => cases ho; exact calcKep_sim K
  | calcTrue _ => cases ho
  | calcMean _ => cases ho
  | calcEcc _ => cases ho
  | iter => cases ho
  | next => cases ho
  | writeM v =>
    refine Sim.selfBind fun s t h => ?_
    rw [h.ws.1.m, h.wt.1.m]
    refine (Sim.lift (Q := Both n ps) fun vs hs => ⟨_, spread_pick hp hs, spread_len hs, rfl⟩).bind fun vs ws hb => ?_
    exact Sim.upd fun s t h => h.setM hb.1 hb.2
  | setFlags a d k c =>
    refine settings _ fun s t h => ?_
    exact ⟨⟨⟨h.ws.1.m, h.ws.1.cart, h.ws.1.kep, h.ws.1.tA, h.ws.1.mA, h.ws.1.cartCalc, h.ws.1.kepCalc⟩, h.ws.2⟩,
      ⟨⟨h.wt.1.m, h.wt.1.cart, h.wt.1.kep, h.wt.1.tA, h.wt.1.mA, h.wt.1.cartCalc, h.wt.1.kepCalc⟩, h.wt.2⟩, h.hp,
      by rcases ho with ho | ho <;> simp [lazy, ho], h.m, h.cart,
      h.kep, rfl, rfl, h.G, h.M0, h.opts, h.epoch, h.degrees, h.type, rfl, rfl⟩
  | setDegrees b =>
    refine settings _ fun s t h => ?_
    exact ⟨⟨⟨h.ws.1.m, h.ws.1.cart, h.ws.1.kep, h.ws.1.tA, h.ws.1.mA, h.ws.1.cartCalc, h.ws.1.kepCalc⟩, h.ws.2⟩,
      ⟨⟨h.wt.1.m, h.wt.1.cart, h.wt.1.kep, h.wt.1.tA, h.wt.1.mA, h.wt.1.cartCalc, h.wt.1.kepCalc⟩, h.wt.2⟩, h.hp, h.lz, h.m, h.cart,
      h.kep, h.auto, h.direct, h.G, h.M0, h.opts, h.epoch, rfl, h.type, h.kro, h.cro⟩
  | setGM G M0 =>
    refine settings _ fun s t h => ?_
    exact ⟨⟨⟨h.ws.1.m, h.ws.1.cart, h.ws.1.kep, h.ws.1.tA, h.ws.1.mA, h.ws.1.cartCalc, h.ws.1.kepCalc⟩, h.ws.2⟩,
      ⟨⟨h.wt.1.m, h.wt.1.cart, h.wt.1.kep, h.wt.1.tA, h.wt.1.mA, h.wt.1.cartCalc, h.wt.1.kepCalc⟩, h.wt.2⟩, h.hp, h.lz, h.m, h.cart,
      h.kep, h.auto, h.direct, rfl, rfl, h.opts, h.epoch, h.degrees, h.type, h.kro, h.cro⟩
  | setOpts o =>
    refine settings _ fun s t h => ?_
    exact ⟨⟨⟨h.ws.1.m, h.ws.1.cart, h.ws.1.kep, h.ws.1.tA, h.ws.1.mA, h.ws.1.cartCalc, h.ws.1.kepCalc⟩, h.ws.2⟩,
      ⟨⟨h.wt.1.m, h.wt.1.cart, h.wt.1.kep, h.wt.1.tA, h.wt.1.mA, h.wt.1.cartCalc, h.wt.1.kepCalc⟩, h.wt.2⟩, h.hp, h.lz, h.m, h.cart,
      h.kep, h.auto, h.direct, h.G, h.M0, rfl, h.epoch, h.degrees, h.type, h.kro, h.cro⟩

theorem exec_sim (hp : ∀ p ∈ ps, p < n) : ∀ (h : List (Op α)) (s t : Orb α), (∀ o ∈ h, o.whole) → Sel n ps s t → Runs K s h →
    Runs K t (h.map (·.pick n ps)) ∧ Sel n ps (exec K s h) (exec K t (h.map (·.pick n ps)))
  | [], s, t, _, hst, _ => ⟨trivial, hst⟩
  | o :: h, s, t, ho, hst, hr => by
    obtain ⟨b', t', h1, h2, -⟩ := run_sim K hp o (ho o (by simp)) s t () (o.run K s).2 hst (Prod.ext hr.1 rfl)
    have := exec_sim hp h (o.run K s).2 t' (fun o' ho' => ho o' (by simp [ho'])) h2 hr.2
    have e1 : ((o.pick n ps).run K t).2 = t' := by rw [h1]
    rw [List.map_cons, exec_cons, exec_cons, Runs, e1, h1]
    exact ⟨⟨rfl, this.1⟩, this.2⟩

end Sim

theorem sel_view {n : Nat} {ps : List Nat} {s : Orb α} (hw : WFE n s) (hl : lazy s = false) (hp : ∀ p ∈ ps, p < n) :
    Sel n ps s (view K ps s) :=
  ⟨hw, view_wfe K hw.1 hp, hp, hl, rfl, rfl, rfl, rfl, rfl, rfl, rfl, rfl, rfl, rfl, rfl, rfl, rfl⟩

/-! ## C75 -/

/-- C75: in direct or manual mode, select any orbits `orb[inds]` and then run a history of assignments, `propagate`, `update`
of all orbits, changes of settings and queries, with every value that has one entry per orbit selected likewise.  If no
operation raises on the whole object then none raises on the selected part, and afterwards every query on the part answers
the selected entries of the answer of the whole object. -/
theorem c75_history {n : Nat} (s : Orb α) (hs : OneEntryPerOrbit s n) (hd : s.direct = true ∨ s.auto = false) (inds : Inds)
    (ps : List Nat) (hp : Selects n inds ps) (h : List (Op α)) (hw : ∀ o ∈ h, o.whole) (hr : Runs K s h) :
    ∃ t, getitem K inds s = .ok t ∧ Runs K t (h.map (·.pick n ps)) ∧
      ∀ g : Read, g ≠ .str → ∃ a, (g.get K (exec K s h)).1 = .ok a ∧
        (g.get K (exec K t (h.map (·.pick n ps)))).1 = .ok (g.pick ps a) := by
  have hl : lazy s = false := by rcases hd with h | h <;> simp [lazy, h]
  have hpos := pos_selects.mpr hp
  have hlt := pos_lt hpos
  obtain ⟨h1, h2⟩ := exec_sim K hlt h s (view K ps s) hw (sel_view K hs.wfe hl hlt) hr
  refine ⟨view K ps s, by rw [getitem_run K hs.wfe.1, hpos], h1, fun g hg => ?_⟩
  exact ⟨g.val K (exec K s h), read_val K h2.ws h2.lz g, by rw [read_val K h2.wt h2.lz' g, h2.val K g hg]⟩

/-- C75 for one orbit: `orb[j]` goes through the history as orbit `j` of the whole object does -/
theorem c75_one {n : Nat} (s : Orb α) (hs : OneEntryPerOrbit s n) (hd : s.direct = true ∨ s.auto = false) (j : Nat) (hj : j < n)
    (h : List (Op α)) (hw : ∀ o ∈ h, o.whole) (hr : Runs K s h) :
    ∃ t ks k cs c, getitem K (.int j) s = .ok t ∧ Runs K t (h.map (·.pick n [j])) ∧
      (get_kepler K (exec K s h)).1 = .ok ks ∧ ks[j]? = some k ∧ (get_cartesian K (exec K s h)).1 = .ok cs ∧ cs[j]? = some c ∧
      (get_kepler K (exec K t (h.map (·.pick n [j])))).1 = .ok [k] ∧
      (get_cartesian K (exec K t (h.map (·.pick n [j])))).1 = .ok [c] := by
  have hl : lazy s = false := by rcases hd with h | h <;> simp [lazy, h]
  have hpos : (Inds.int j).pos n = .ok [j] := by simp [Inds.pos, pyIndex, hj]
  have hlt := pos_lt hpos
  obtain ⟨h1, h2⟩ := exec_sim K hlt h s (view K [j] s) hw (sel_view K hs.wfe hl hlt) hr
  have hk : j < (exec K s h).kep.length := by rw [h2.ws.1.kep]; exact hj
  have hc : j < (exec K s h).cart.length := by rw [h2.ws.1.cart]; exact hj
  refine ⟨view K [j] s, _, _, _, _, by rw [getitem_run K hs.wfe.1, hpos], h1, read_val K h2.ws h2.lz .kepler,
    List.getElem?_eq_getElem hk, read_val K h2.ws h2.lz .cartesian, List.getElem?_eq_getElem hc, ?_, ?_⟩
  · rw [show (get_kepler K (exec K (view K [j] s) (h.map (·.pick n [j])))).1 = _ from read_val K h2.wt h2.lz' .kepler]
    show Except.ok (exec K (view K [j] s) (h.map (·.pick n [j]))).kep = _
    rw [h2.kep]
    simp [gather, hk]
  · rw [show (get_cartesian K (exec K (view K [j] s) (h.map (·.pick n [j])))).1 = _ from read_val K h2.wt h2.lz' .cartesian]
    show Except.ok (exec K (view K [j] s) (h.map (·.pick n [j]))).cart = _
    rw [h2.cart]
    simp [gather, hc]

/-- a case: two orbits, of which the second is taken out; elements, masses and time steps given per orbit or for all orbits -/
example (M0 G x y d d' m m' : α) (o : SolverOpts α) : ∃ s : Orb α,
    init K M0 { G := G, n := 2, opts := o, type := some .tru } {} = .ok s ∧ OneEntryPerOrbit s 2 ∧ s.direct = true ∧
    (∀ p ∈ ([.writeM (.vec [m, m']), .setKep 1 (.sc x), .propagate (.vec [d, d'])] : List (Op α)), p.whole) ∧
    Runs K s [.writeM (.vec [m, m']), .setKep 1 (.sc x), .propagate (.vec [d, d'])] ∧ Selects 2 (.int (-1)) [1] := by
  refine ⟨_, init_blank K M0 G o .tru 2, ⟨rfl, rfl, rfl, rfl, ⟨_, rfl, rfl⟩, rfl, rfl, rfl⟩, rfl, ?_, ?_, ?_⟩
  · intro p hp
    simp only [List.mem_cons, List.not_mem_nil, or_false] at hp
    rcases hp with rfl | rfl | rfl <;> simp [Op.whole]
  · refine ⟨rfl, ?_⟩
    generalize hs : (Op.run K (.writeM (.vec [m, m'])) _).2 = s
    have hw : WFE 2 s := by
      subst hs
      exact ⟨⟨rfl, rfl, rfl, rfl, rfl, rfl, rfl⟩, _, rfl, rfl⟩
    have hk : s.kro = false := by subst hs; rfl
    have hd : s.direct = true := by subst hs; rfl
    obtain ⟨r, hr⟩ : ∃ r, r = { s with kep := List.zipWith (fun (k : Kep α) x => k.set 1 x) s.kep (List.replicate s.kep.length x) } :=
      ⟨_, rfl⟩
    have hw1 : WFE 2 r := by rw [hr]; exact setKepCol_wfe hw (by simp [hw.1.kep])
    have hk1 : r.kro = false := by rw [hr]; exact hk
    have h1 : set_kep K 1 (.sc x) s = (.ok (), recalcCart K (kepOk K r) r) := by
      simp only [set_kep, guardKep, self_bind, hk, Val.spread, liftOk_bind, upd_bind, afterKepEl, hd, if_true, Bool.false_eq_true,
        if_false, bind_run, pure_run, self_run, upd_run, lift]
      rw [hd, hk] at hr
      rw [← hr]
      exact calculate_cartesian_direct K hw1.1 (lazy_direct (by rw [hr]))
    obtain ⟨s', h2, -⟩ := propagate_ok K (recalcCart_wfe K (kepOk K r) hw1) hk1 (dt := .vec [d, d']) (dts := [d, d']) (by simp [Val.Row])
    refine ⟨congrArg Prod.fst h1, ?_, trivial⟩
    show (propagate K (.vec [d, d']) (set_kep K 1 (.sc x) s).2).1 = _
    rw [h1, h2]
  · exact ⟨1, by simp [IndexOf, fromEnd], rfl⟩

end Orbit
end Pyorb
