import Verif.PropsOrbitRead

/-!
# C29: with `direct_update` the two element sets agree
-/

set_option linter.unusedSimpArgs false
set_option linter.unusedVariables false

namespace Pyorb
namespace Orbit
open Py
variable {α : Type} (K : Kern α)

/-- Every orbit without NaN: its Cartesian state is the conversion of its Kepler elements, or its Kepler elements are the
conversion of its Cartesian state. -/
def Agree (s : Orb α) : Prop :=
  ∀ (j : Nat) (k : Kep α) (c : Cart α) (m : α), s.kep[j]? = some k → s.cart[j]? = some c → s.m[j]? = some m →
    k.any K.isnan = false → c.any K.isnan = false →
    c = cartOfKep K s.type s.opts s.degrees (K.mu s.G s.M0 m) k ∨ k = kepOfCart K s.type s.degrees (K.mu s.G s.M0 m) c

theorem kepAt_of {s : Orb α} {j : Nat} {k : Kep α} (h : s.kep[j]? = some k) : kepAt K s j = k := by
  simp [kepAt, List.getD_eq_getElem?_getD, h]
theorem cartAt_of {s : Orb α} {j : Nat} {c : Cart α} (h : s.cart[j]? = some c) : cartAt K s j = c := by
  simp [cartAt, List.getD_eq_getElem?_getD, h]
theorem muAt_of {s : Orb α} {j : Nat} {m : α} (h : s.m[j]? = some m) : muAt K s j = K.mu s.G s.M0 m := by
  simp [muAt, List.getD_eq_getElem?_getD, h]
theorem lt_of_getElem? {β : Type} {l : List β} {j : Nat} {b : β} (h : l[j]? = some b) : j < l.length :=
  (List.getElem?_eq_some_iff.mp h).1
theorem kepOk_of {s : Orb α} {j : Nat} {k : Kep α} (h : s.kep[j]? = some k) : kepOk K s j = !k.any K.isnan := by
  simp [kepOk, kepAt_of K h, lt_of_getElem? h]
theorem cartOk_of {s : Orb α} {j : Nat} {c : Cart α} (h : s.cart[j]? = some c) : cartOk K s j = !c.any K.isnan := by
  simp [cartOk, cartAt_of K h, lt_of_getElem? h]

/-- a recalculation of the Cartesian elements at selected positions keeps or makes agreement there -/
theorem agree_recalcCart {s : Orb α} {d : Nat → Bool} (h : ∀ j, d j = false → ∀ k c m, s.kep[j]? = some k → s.cart[j]? = some c →
      s.m[j]? = some m → k.any K.isnan = false → c.any K.isnan = false →
      c = cartOfKep K s.type s.opts s.degrees (K.mu s.G s.M0 m) k ∨ k = kepOfCart K s.type s.degrees (K.mu s.G s.M0 m) c) :
    Agree K (recalcCart K d s) := by
  intro j k c m hk hc hm hkn hcn
  have hk' : s.kep[j]? = some k := hk
  have hm' : s.m[j]? = some m := hm
  simp only [recalcCart, List.getElem?_mapIdx, Option.map_eq_some_iff] at hc
  obtain ⟨c0, hc0, hc1⟩ := hc
  by_cases hd : d j
  · left
    rw [if_pos hd, kepAt_of K hk', muAt_of K hm'] at hc1
    exact hc1.symm
  · rw [if_neg hd] at hc1
    subst hc1
    exact h j (by simpa using hd) k c0 m hk' hc0 hm' hkn hcn

theorem agree_recalcKep {s : Orb α} {d : Nat → Bool} (h : ∀ j, d j = false → ∀ k c m, s.kep[j]? = some k → s.cart[j]? = some c →
      s.m[j]? = some m → k.any K.isnan = false → c.any K.isnan = false →
      c = cartOfKep K s.type s.opts s.degrees (K.mu s.G s.M0 m) k ∨ k = kepOfCart K s.type s.degrees (K.mu s.G s.M0 m) c) :
    Agree K (recalcKep K d s) := by
  intro j k c m hk hc hm hkn hcn
  have hc' : s.cart[j]? = some c := hc
  have hm' : s.m[j]? = some m := hm
  simp only [recalcKep, List.getElem?_mapIdx, Option.map_eq_some_iff] at hk
  obtain ⟨k0, hk0, hk1⟩ := hk
  by_cases hd : d j
  · right
    rw [if_pos hd, cartAt_of K hc', muAt_of K hm'] at hk1
    exact hk1.symm
  · rw [if_neg hd] at hk1
    subst hk1
    exact h j (by simpa using hd) k0 c m hk0 hc' hm' hkn hcn

theorem agree_kepOk (s : Orb α) : Agree K (recalcCart K (kepOk K s) s) := by
  apply agree_recalcCart
  intro j hj k c m hk hc hm hkn _
  rw [kepOk_of K hk, hkn] at hj
  cases hj

theorem agree_cartOk (s : Orb α) : Agree K (recalcKep K (cartOk K s) s) := by
  apply agree_recalcKep
  intro j hj k c m hk hc hm hkn hcn
  rw [cartOk_of K hc, hcn] at hj
  cases hj

theorem Agree.core {s t : Orb α} (h : Agree K s) (hc : SameCore s t) : Agree K t := by
  intro j k c m hk hcj hm
  rw [hc.kep] at hk; rw [hc.cart] at hcj; rw [hc.m] at hm
  rw [hc.type, hc.degrees, hc.opts, hc.G, hc.M0]
  exact h j k c m hk hcj hm

/-- shape and direct mode -/
def Dir (n : Nat) (s : Orb α) : Prop := WFE n s ∧ s.direct = true
/-- shape, direct mode and agreement -/
def DirA (n : Nat) (s : Orb α) : Prop := Dir n s ∧ Agree K s

theorem Dir.lazy {n : Nat} {s : Orb α} (h : Dir n s) : lazy s = false := lazy_direct h.2

theorem DirA.core {n : Nat} {s t : Orb α} (h : DirA K n s) (hc : SameCore s t) (hw : WFE n t) : DirA K n t :=
  ⟨⟨hw, hc.direct.trans h.1.2⟩, h.2.core K hc⟩

section
variable {n : Nat}

/-- a method that keeps shape and core keeps agreement -/
theorem core_dirA {β : Type} {x : Py α β} {Q : β → Prop} (hsh : Sh n x Q)
    (hco : ∀ s0, lazy s0 = false → Co s0 x (fun _ => True)) : Keeps (DirA K n) x Q := by
  intro s hs
  have h1 := hsh s hs.1.1
  have h2 := hco s hs.1.lazy s (SameCore.refl s)
  exact ⟨hs.core K h2.1 h1.1, h1.2⟩
theorem core_dir {β : Type} {x : Py α β} {Q : β → Prop} (hsh : Sh n x Q)
    (hco : ∀ s0, lazy s0 = false → Co s0 x (fun _ => True)) : Keeps (Dir n) x Q := by
  intro s hs
  have h1 := hsh s hs.1
  have h2 := hco s hs.lazy s (SameCore.refl s)
  exact ⟨⟨h1.1, h2.1.direct.trans hs.2⟩, h1.2⟩

theorem read_dirA (g : Read) : Keeps (DirA K n) (g.get K) (fun _ => True) := core_dirA K (read_sh K g) fun s0 h => read_co K h g

theorem calculate_cartesian_dirA : Ok (Dir n) (calculate_cartesian K .all) (fun _ s => DirA K n s) := by
  intro s hs b s' h
  have hw := (calculate_cartesian_sh K .all s hs.1).1
  rw [calculate_cartesian_direct K hs.1.1 hs.lazy] at h hw
  cases h
  exact ⟨⟨hw, hs.2⟩, agree_kepOk K s⟩
theorem calculate_kepler_dirA : Ok (Dir n) (calculate_kepler K .all) (fun _ s => DirA K n s) := by
  intro s hs b s' h
  have hw := (calculate_kepler_sh K .all s hs.1).1
  rw [calculate_kepler_direct K hs.1.1 hs.lazy] at h hw
  cases h
  exact ⟨⟨hw, hs.2⟩, agree_cartOk K s⟩

theorem ite_direct {P : Orb α → Prop} {x y : Py α Unit} {Q : Unit → Orb α → Prop} (hP : ∀ s, P s → s.direct = true) (h : Ok P x Q) :
    Ok P (do let s ← self; if s.direct then x else y) Q := by
  intro s hs b s' hb
  simp only [self_bind, hP s hs, if_true] at hb
  exact h s hs b s' hb

theorem afterKepEl_dirA : Ok (Dir n) (afterKepEl K) (fun _ s => DirA K n s) :=
  ite_direct (fun _ h => h.2) (calculate_cartesian_dirA K)
theorem afterKep_dirA : Ok (Dir n) (afterKep K) (fun _ s => DirA K n s) :=
  ite_direct (fun _ h => h.2) (calculate_cartesian_dirA K)
theorem afterCartEl_dirA : Ok (Dir n) (afterCartEl K) (fun _ s => DirA K n s) :=
  ite_direct (fun _ h => h.2) (calculate_kepler_dirA K)
theorem afterCart_dirA : Ok (Dir n) (afterCart K) (fun _ s => DirA K n s) :=
  ite_direct (fun _ h => h.2) (calculate_kepler_dirA K)
theorem updAfterKep_dirA (inds : Inds) : Ok (Dir n) (updAfterKep K inds) (fun _ s => DirA K n s) :=
  ite_direct (fun _ h => h.2) (calculate_cartesian_dirA K)
theorem updAfterCart_dirA (inds : Inds) : Ok (Dir n) (updAfterCart K inds) (fun _ s => DirA K n s) :=
  ite_direct (fun _ h => h.2) (calculate_kepler_dirA K)

theorem guardKep_dir : Keeps (Dir n) (guardKep : Py α Unit) (fun _ => True) :=
  Keeps.self.bind fun s _ => Keeps.ite (fun _ => Keeps.raise) fun _ => Keeps.pure trivial
theorem guardCart_dir : Keeps (Dir n) (guardCart : Py α Unit) (fun _ => True) :=
  Keeps.self.bind fun s _ => Keeps.ite (fun _ => Keeps.raise) fun _ => Keeps.pure trivial
theorem get_kep_dir (i : Fin 6) : Keeps (Dir n) (get_kep K i) (fun l => l.length = n) :=
  core_dir (get_kep_sh K i) fun s0 h => (get_kep_co K h i).mono fun _ _ => trivial

theorem setKepCol_dir {s : Orb α} (h : Dir n s) {ks : List (Kep α)} (hk : ks.length = n) : Dir n { s with kep := ks } :=
  ⟨setKepCol_wfe h.1 hk, h.2⟩
theorem setCartCol_dir {s : Orb α} (h : Dir n s) {cs : List (Cart α)} (hc : cs.length = n) : Dir n { s with cart := cs } :=
  ⟨setCartCol_wfe h.1 hc, h.2⟩

/-- first keep shape and mode, then establish agreement -/
theorem thenA {β : Type} {x : Py α β} {Q : β → Prop} {f : β → Py α Unit} (hx : Keeps (Dir n) x Q)
    (hf : ∀ b, Q b → Ok (Dir n) (f b) (fun _ s => DirA K n s)) : Ok (Dir n) (x >>= f) (fun _ s => DirA K n s) := by
  refine hx.ok.bind fun b => ?_
  intro s hs
  exact hf b hs.1 s hs.2

theorem set_kep_dirA (i : Fin 6) (v : Val α) : Ok (Dir n) (set_kep K i v) (fun _ s => DirA K n s) :=
  thenA K guardKep_dir fun _ _ => thenA K Keeps.self fun s hs => thenA K Keeps.lift fun vs hvs =>
    thenA K (Keeps.upd fun t ht => setKepCol_dir ht (by simp [ht.1.1.kep, Val.spread_length hvs, hs.1.1.kep])) fun _ _ =>
      afterKepEl_dirA K
theorem set_cart_dirA (i : Fin 6) (v : Val α) : Ok (Dir n) (set_cart K i v) (fun _ s => DirA K n s) :=
  thenA K guardCart_dir fun _ _ => thenA K Keeps.self fun s hs => thenA K Keeps.lift fun vs hvs =>
    thenA K (Keeps.upd fun t ht => setCartCol_dir ht (by simp [ht.1.1.cart, Val.spread_length hvs, hs.1.1.cart])) fun _ _ =>
      afterCartEl_dirA K
theorem set_kepler_dirA (v : Val6 α (Kep α)) : Ok (Dir n) (set_kepler K v) (fun _ s => DirA K n s) :=
  thenA K guardKep_dir fun _ _ => thenA K Keeps.self fun s hs => thenA K Keeps.lift fun vs hvs =>
    thenA K (Keeps.upd fun t ht => setKepCol_dir ht (by simp [Val6.setter_length hvs, hs.1.1.kep])) fun _ _ => afterKep_dirA K
theorem set_cartesian_dirA (v : Val6 α (Cart α)) : Ok (Dir n) (set_cartesian K v) (fun _ s => DirA K n s) :=
  thenA K guardCart_dir fun _ _ => thenA K Keeps.self fun s hs => thenA K Keeps.lift fun vs hvs =>
    thenA K (Keeps.upd fun t ht => setCartCol_dir ht (by simp [Val6.setter_length hvs, hs.1.1.cart])) fun _ _ => afterCart_dirA K
theorem set_r_dirA (v : Val6 α (Tri α)) : Ok (Dir n) (set_r K v) (fun _ s => DirA K n s) :=
  thenA K guardCart_dir fun _ _ => thenA K Keeps.self fun s hs => thenA K Keeps.lift fun vs hvs =>
    thenA K (Keeps.upd fun t ht => setCartCol_dir ht (by simp [ht.1.1.cart, Val6.spread_length hvs, hs.1.1.cart])) fun _ _ =>
      afterCart_dirA K
theorem set_v_dirA (v : Val6 α (Tri α)) : Ok (Dir n) (set_v K v) (fun _ s => DirA K n s) :=
  thenA K guardCart_dir fun _ _ => thenA K Keeps.self fun s hs => thenA K Keeps.lift fun vs hvs =>
    thenA K (Keeps.upd fun t ht => setCartCol_dir ht (by simp [ht.1.1.cart, Val6.spread_length hvs, hs.1.1.cart])) fun _ _ =>
      afterCart_dirA K

/-- agreement may be forgotten before a step that restores it -/
theorem okA {x y : Py α Unit} (hx : Ok (Dir n) x (fun _ s => DirA K n s)) (hy : Ok (Dir n) y (fun _ s => DirA K n s)) :
    Ok (Dir n) (do x; y) (fun _ s => DirA K n s) :=
  hx.bind fun _ => hy.pre fun _ h => h.1

theorem setConv_dirA (deg : Bool) (f : α → α → α) (v : Val α) : Ok (Dir n) (setConv K deg f v) (fun _ s => DirA K n s) :=
  thenA K (get_kep_dir K 1) fun _ _ => thenA K Keeps.lift fun _ _ => set_kep_dirA K 5 _
theorem set_true_anomaly_dirA (v : Val α) : Ok (Dir n) (set_true_anomaly K v) (fun _ s => DirA K n s) := by
  refine thenA K guardKep_dir fun _ _ => thenA K Keeps.self fun s hs => ?_
  split
  · exact okA K (set_kep_dirA K 5 v) (afterKepEl_dirA K)
  · exact okA K (setConv_dirA K _ _ _) (afterKepEl_dirA K)
  · exact okA K (setConv_dirA K _ _ _) (afterKepEl_dirA K)
theorem set_eccentric_anomaly_dirA (v : Val α) : Ok (Dir n) (set_eccentric_anomaly K v) (fun _ s => DirA K n s) := by
  refine thenA K guardKep_dir fun _ _ => thenA K Keeps.self fun s hs => ?_
  split
  · exact okA K (set_kep_dirA K 5 v) (afterKepEl_dirA K)
  · exact okA K (setConv_dirA K _ _ _) (afterKepEl_dirA K)
  · exact okA K (setConv_dirA K _ _ _) (afterKepEl_dirA K)
theorem set_mean_anomaly_dirA (v : Val α) : Ok (Dir n) (set_mean_anomaly K v) (fun _ s => DirA K n s) := by
  refine thenA K guardKep_dir fun _ _ => thenA K Keeps.self fun s hs => ?_
  split
  · exact okA K (set_kep_dirA K 5 v) (afterKepEl_dirA K)
  · exact okA K (setConv_dirA K _ _ _) (afterKepEl_dirA K)
  · exact okA K (setConv_dirA K _ _ _) (afterKepEl_dirA K)
theorem set_mean_motion_dirA (v : Val α) : Ok (Dir n) (set_mean_motion K v) (fun _ s => DirA K n s) :=
  thenA K guardKep_dir fun _ _ => (Ok.raise (Q := fun _ s => DirA K n s)).bind fun _ => (afterKepEl_dirA K).pre fun _ h => h.1
theorem cartCheck_dir : Keeps (Dir n) (upd (cartCheck K)) (fun _ => True) :=
  Keeps.upd fun s h => by rw [cartCheck_direct K h.lazy]; exact h
theorem set_velocity_dirA (v : Val α) : Ok (Dir n) (set_velocity K v) (fun _ s => DirA K n s) :=
  thenA K guardCart_dir fun _ _ => thenA K (cartCheck_dir K) fun _ _ => thenA K (cartCheck_dir K) fun _ _ =>
    thenA K Keeps.self fun s hs => thenA K Keeps.lift fun vs _ => okA K (set_v_dirA K _) (afterCartEl_dirA K)
theorem set_equinoctial_dirA (v : Equi α ⊕ List (Equi α)) : Ok (Dir n) (set_equinoctial K v) (fun _ s => DirA K n s) :=
  thenA K Keeps.self fun s hs => thenA K Keeps.lift fun cs hcs =>
    thenA K (Keeps.upd fun t ht => setKepCol_dir ht (by simp [ht.1.1.kep, Val6.spread_length hcs, hs.1.1.kep])) fun _ _ =>
      set_mean_anomaly_dirA K _
theorem propagate_dirA (dt : Val α) : Ok (Dir n) (propagate K dt) (fun _ s => DirA K n s) :=
  thenA K (core_dir (get_mean_anomaly_sh K) fun s0 h => get_mean_anomaly_co K h) fun M _ =>
    thenA K (core_dir (get_mean_motion_sh K) fun s0 h => (get_mean_motion_co K h).mono fun _ _ => trivial) fun m _ =>
      thenA K Keeps.self fun s _ => thenA K Keeps.lift fun nd _ => thenA K Keeps.lift fun Ms _ =>
        okA K (set_mean_anomaly_dirA K _) (ite_direct (fun _ h => h.2) (calculate_cartesian_dirA K))

/-! ### `update` -/

theorem unit_dir : Keeps (Dir n) (pure () : Py α Unit) (fun _ => True) := Keeps.pure trivial
theorem updKepRows_dir (inds : Inds) (u : Fin 6 → Option (Val α)) (is : List (Fin 6)) :
    Keeps (Dir n) (updKepRows inds u is) (fun _ => True) := by
  induction is with
  | nil => exact unit_dir
  | cons i is ih =>
    refine Keeps.bind (Q := fun _ => True) ?_ fun _ _ => ih
    unfold updKepRow
    split
    · exact unit_dir
    · exact Keeps.self.bind fun s hs => Keeps.lift.bind fun k hk =>
        Keeps.upd fun t ht => setKepCol_dir ht (by rw [writeRow_length hk, hs.1.1.kep])
theorem updCartRows_dir (inds : Inds) (u : Fin 6 → Option (Val α)) (is : List (Fin 6)) :
    Keeps (Dir n) (updCartRows inds u is) (fun _ => True) := by
  induction is with
  | nil => exact unit_dir
  | cons i is ih =>
    refine Keeps.bind (Q := fun _ => True) ?_ fun _ _ => ih
    unfold updCartRow
    split
    · exact unit_dir
    · exact Keeps.self.bind fun s hs => Keeps.lift.bind fun k hk =>
        Keeps.upd fun t ht => setCartCol_dir ht (by rw [writeRow_length hk, hs.1.1.cart])

/-- methods that leave the object as it is, when they return -/
def Still (x : Py α Unit) : Prop := ∀ s b s', x s = (.ok b, s') → s' = s

theorem when_still {b : Bool} {x : Py α Unit} (h : Still x) : Still (when b x) := by
  intro s c s' hs
  cases b
  · cases hs; rfl
  · exact h s c s' hs
theorem guardKep_still : Still (guardKep : Py α Unit) := by
  intro s b s' h
  simp only [guardKep, self_bind] at h
  split_ifs at h <;> cases h; rfl
theorem guardCart_still : Still (guardCart : Py α Unit) := by
  intro s b s' h
  simp only [guardCart, self_bind] at h
  split_ifs at h <;> cases h; rfl
theorem raise_still {e : PyErr} : Still (raise e : Py α Unit) := by
  intro s b s' h; cases h
theorem bind_still {x : Py α Unit} {y : Py α Unit} (hx : Still x) (hy : Still y) : Still (do x; y) := by
  intro s b s' h
  rw [bind_run] at h
  rcases hxs : x s with ⟨e | c, s1⟩
  · rw [hxs] at h; cases h
  · rw [hxs] at h
    rw [hy s1 b s' h, hx s c s1 hxs]
theorem updGuard_still (b c : Bool) : Still (updGuard b c : Py α Unit) :=
  bind_still (when_still guardCart_still) (bind_still (when_still guardKep_still) (when_still raise_still))

theorem Still.ok {P : Orb α → Prop} {x : Py α Unit} (h : Still x) : Ok P x (fun _ s => P s) := by
  intro s hs b s' hb; rw [h s b s' hb]; exact hs

/-- in direct mode the keyword `m` raises -/
theorem updM_dirA (inds : Inds) (v : Option (Val α)) : Ok (DirA K n) (updM inds v) (fun _ s => DirA K n s) := by
  unfold updM
  split
  · exact Ok.pure fun s h => h
  · intro s hs b s' h
    simp only [self_bind, hs.1.2, if_true] at h
    cases h

theorem update_dirA (inds : Inds) (u : Upd α) : Ok (DirA K n) (update K inds u) (fun _ s => DirA K n s) := by
  unfold update
  split
  · exact (thenA K guardCart_dir fun _ _ => thenA K Keeps.self fun s hs => thenA K Keeps.lift fun c h =>
      thenA K (Keeps.upd fun t ht => setCartCol_dir ht (by rw [writeCols_length h, hs.1.1.cart])) fun _ _ =>
        updAfterCart_dirA K inds).pre fun _ h => h.1
  · exact (thenA K guardKep_dir fun _ _ => thenA K Keeps.self fun s hs => thenA K Keeps.lift fun c h =>
      thenA K (Keeps.upd fun t ht => setKepCol_dir ht (by rw [writeCols_length h, hs.1.1.kep])) fun _ _ =>
        updAfterKep_dirA K inds).pre fun _ h => h.1
  · refine (updGuard_still _ _).ok.bind fun _ => (updM_dirA K _ _).bind fun _ => Ok.bind (Q := fun _ s => DirA K n s) ?_ fun _ => ?_
    · exact Ok.ite (fun _ => (thenA K (updCartRows_dir inds _ _) fun _ _ => updAfterCart_dirA K inds).pre fun _ h => h.1)
        fun _ => Ok.pure fun s h => h
    · exact Ok.ite (fun _ => (thenA K (updKepRows_dir inds _ _) fun _ _ => updAfterKep_dirA K inds).pre fun _ h => h.1)
        fun _ => Ok.pure fun s h => h

/-! ### Partial recalculation -/

theorem calculate_cartesian_inds_dirA (inds : Inds) : Keeps (DirA K n) (calculate_cartesian K inds) (fun _ => True) := by
  intro s hs
  have hw := calculate_cartesian_sh K inds s hs.1.1
  refine ⟨?_, fun _ _ => trivial⟩
  have hr := calculate_cartesian_run K hs.1.1.1 inds
  rw [hr] at hw ⊢
  cases hp : inds.pos n with
  | error e => exact hs
  | ok ps =>
    rw [hp] at hw
    simp only at hw ⊢
    rw [calcCart_direct K hs.1.1.1 hs.1.lazy] at hw ⊢
    refine ⟨⟨hw.1, hs.1.2⟩, agree_recalcCart K fun j _ k c m => hs.2 j k c m⟩
theorem calculate_kepler_inds_dirA (inds : Inds) : Keeps (DirA K n) (calculate_kepler K inds) (fun _ => True) := by
  intro s hs
  have hw := calculate_kepler_sh K inds s hs.1.1
  refine ⟨?_, fun _ _ => trivial⟩
  have hr := calculate_kepler_run K hs.1.1.1 inds
  rw [hr] at hw ⊢
  cases hp : inds.pos n with
  | error e => exact hs
  | ok ps =>
    rw [hp] at hw
    simp only at hw ⊢
    rw [calcKep_direct K hs.1.lazy] at hw ⊢
    refine ⟨⟨hw.1, hs.1.2⟩, agree_recalcKep K fun j _ k c m => hs.2 j k c m⟩

/-! ### Calls that raise -/

/-- a call that raises leaves masses, elements, settings and flags as they were -/
def ErrCore {β : Type} (n : Nat) (x : Py α β) : Prop :=
  ∀ s, Dir n s → ∀ e s', x s = (.error e, s') → SameCore s s' ∧ WFE n s'
/-- the call returns normally -/
def Never {β : Type} (n : Nat) (x : Py α β) : Prop := ∀ s, Dir n s → ∃ b s', x s = (.ok b, s')

theorem Never.err {β : Type} {x : Py α β} (h : Never n x) : ErrCore n x := by
  intro s hs e s' he
  obtain ⟨b, s1, h1⟩ := h s hs
  rw [h1] at he; cases he

theorem errBind {β γ : Type} {x : Py α β} {Q : β → Prop} {f : β → Py α γ} (hsh : Sh n x Q)
    (hco : ∀ s0, lazy s0 = false → Co s0 x (fun _ => True)) (hf : ∀ b, Q b → ErrCore n (f b)) : ErrCore n (x >>= f) := by
  intro s hs e s' h
  have h1 := hsh s hs.1
  have h2 := (hco s hs.lazy s (SameCore.refl s)).1
  rw [bind_run] at h
  rcases hx : x s with ⟨e1 | b, s1⟩
  · rw [hx] at h h1 h2
    cases h
    exact ⟨h2, h1.1⟩
  · rw [hx] at h h1 h2
    have := hf b (h1.2 b rfl) s1 ⟨h1.1, h2.direct.trans hs.2⟩ e s' h
    exact ⟨h2.trans this.1, this.2⟩
theorem errThen {x y : Py α Unit} (hx : ErrCore n x) (hxo : Ok (Dir n) x (fun _ s => DirA K n s)) (hy : Never n y) :
    ErrCore n (do x; y) := by
  intro s hs e s' h
  rw [bind_run] at h
  rcases hxs : x s with ⟨e1 | b, s1⟩
  · rw [hxs] at h; cases h
    exact hx s hs _ _ hxs
  · rw [hxs] at h
    obtain ⟨c, s2, h2⟩ := hy s1 (hxo s hs b s1 hxs).1
    have h' : y s1 = (.error e, s') := h
    rw [h2] at h'; cases h'
theorem errCoreOnly {β : Type} {x : Py α β} {Q : β → Prop} (hsh : Sh n x Q)
    (hco : ∀ s0, lazy s0 = false → Co s0 x (fun _ => True)) : ErrCore n x := by
  intro s hs e s' h
  have h1 := (hsh s hs.1).1
  have h2 := (hco s hs.lazy s (SameCore.refl s)).1
  rw [h] at h1 h2
  exact ⟨h2, h1⟩
theorem errSelf {γ : Type} {f : Orb α → Py α γ} (hf : ∀ b, WFE n b → ErrCore n (f b)) : ErrCore n (self >>= f) :=
  errBind Keeps.self (fun s0 h => Keeps.self.mono fun _ _ => trivial) hf
theorem errLift {β γ : Type} {x : Except PyErr β} {f : β → Py α γ} (hf : ∀ b, x = .ok b → ErrCore n (f b)) :
    ErrCore n (lift x >>= f) :=
  errBind Keeps.lift (fun s0 h => Keeps.lift.mono fun _ _ => trivial) hf
theorem guardKep_co (s0 : Orb α) : Co s0 (guardKep : Py α Unit) (fun _ => True) :=
  Keeps.self.bind fun s _ => Keeps.ite (fun _ => Keeps.raise) fun _ => Keeps.pure trivial
theorem guardCart_co (s0 : Orb α) : Co s0 (guardCart : Py α Unit) (fun _ => True) :=
  Keeps.self.bind fun s _ => Keeps.ite (fun _ => Keeps.raise) fun _ => Keeps.pure trivial
theorem errGuardKep {γ : Type} {f : Unit → Py α γ} (hf : ErrCore n (f ())) : ErrCore n (guardKep >>= f) :=
  errBind guardKep_sh (fun s0 _ => guardKep_co s0) fun _ _ => hf
theorem errGuardCart {γ : Type} {f : Unit → Py α γ} (hf : ErrCore n (f ())) : ErrCore n (guardCart >>= f) :=
  errBind guardCart_sh (fun s0 _ => guardCart_co s0) fun _ _ => hf

theorem calculate_cartesian_never : Never n (calculate_cartesian K .all) :=
  fun s hs => ⟨_, _, calculate_cartesian_direct K hs.1.1 hs.lazy⟩
theorem calculate_kepler_never : Never n (calculate_kepler K .all) :=
  fun s hs => ⟨_, _, calculate_kepler_direct K hs.1.1 hs.lazy⟩
theorem ite_never {x y : Py α Unit} (h : Never n x) : Never n (do let s ← self; if s.direct then x else y) := by
  intro s hs
  simp only [self_bind, hs.2, if_true]
  exact h s hs
theorem afterKepEl_never : Never n (afterKepEl K) := ite_never (calculate_cartesian_never K)
theorem afterKep_never : Never n (afterKep K) := ite_never (calculate_cartesian_never K)
theorem afterCartEl_never : Never n (afterCartEl K) := ite_never (calculate_kepler_never K)
theorem afterCart_never : Never n (afterCart K) := ite_never (calculate_kepler_never K)
theorem upd_never {f : Orb α → Orb α} {y : Py α Unit} (hf : ∀ s, Dir n s → Dir n (f s)) (hy : Never n y) :
    Never n (do upd f; y) := fun s hs => hy (f s) (hf s hs)

theorem set_kep_err (i : Fin 6) (v : Val α) : ErrCore n (set_kep K i v) :=
  errGuardKep <| errSelf fun s hs => errLift fun vs hvs => (upd_never
    (fun t ht => setKepCol_dir ht (by simp [ht.1.1.kep, Val.spread_length hvs, hs.1.kep])) (afterKepEl_never K)).err
theorem set_cart_err (i : Fin 6) (v : Val α) : ErrCore n (set_cart K i v) :=
  errGuardCart <| errSelf fun s hs => errLift fun vs hvs => (upd_never
    (fun t ht => setCartCol_dir ht (by simp [ht.1.1.cart, Val.spread_length hvs, hs.1.cart])) (afterCartEl_never K)).err
theorem set_kepler_err (v : Val6 α (Kep α)) : ErrCore n (set_kepler K v) :=
  errGuardKep <| errSelf fun s hs => errLift fun vs hvs => (upd_never
    (fun t ht => setKepCol_dir ht (by simp [Val6.setter_length hvs, hs.1.kep])) (afterKep_never K)).err
theorem set_cartesian_err (v : Val6 α (Cart α)) : ErrCore n (set_cartesian K v) :=
  errGuardCart <| errSelf fun s hs => errLift fun vs hvs => (upd_never
    (fun t ht => setCartCol_dir ht (by simp [Val6.setter_length hvs, hs.1.cart])) (afterCart_never K)).err
theorem set_r_err (v : Val6 α (Tri α)) : ErrCore n (set_r K v) :=
  errGuardCart <| errSelf fun s hs => errLift fun vs hvs => (upd_never
    (fun t ht => setCartCol_dir ht (by simp [ht.1.1.cart, Val6.spread_length hvs, hs.1.cart])) (afterCart_never K)).err
theorem set_v_err (v : Val6 α (Tri α)) : ErrCore n (set_v K v) :=
  errGuardCart <| errSelf fun s hs => errLift fun vs hvs => (upd_never
    (fun t ht => setCartCol_dir ht (by simp [ht.1.1.cart, Val6.spread_length hvs, hs.1.cart])) (afterCart_never K)).err
theorem setConv_err (deg : Bool) (f : α → α → α) (v : Val α) : ErrCore n (setConv K deg f v) :=
  errBind (get_kep_sh K 1) (fun s0 h => (get_kep_co K h 1).mono fun _ _ => trivial) fun _ _ => errLift fun _ _ => set_kep_err K 5 _
theorem set_true_anomaly_err (v : Val α) : ErrCore n (set_true_anomaly K v) := by
  refine errGuardKep <| errSelf fun s hs => ?_
  split
  · exact errThen K (set_kep_err K 5 v) (set_kep_dirA K 5 v) (afterKepEl_never K)
  · exact errThen K (setConv_err K _ _ v) (setConv_dirA K _ _ v) (afterKepEl_never K)
  · exact errThen K (setConv_err K _ _ v) (setConv_dirA K _ _ v) (afterKepEl_never K)
theorem set_eccentric_anomaly_err (v : Val α) : ErrCore n (set_eccentric_anomaly K v) := by
  refine errGuardKep <| errSelf fun s hs => ?_
  split
  · exact errThen K (set_kep_err K 5 v) (set_kep_dirA K 5 v) (afterKepEl_never K)
  · exact errThen K (setConv_err K _ _ v) (setConv_dirA K _ _ v) (afterKepEl_never K)
  · exact errThen K (setConv_err K _ _ v) (setConv_dirA K _ _ v) (afterKepEl_never K)
theorem set_mean_anomaly_err (v : Val α) : ErrCore n (set_mean_anomaly K v) := by
  refine errGuardKep <| errSelf fun s hs => ?_
  split
  · exact errThen K (set_kep_err K 5 v) (set_kep_dirA K 5 v) (afterKepEl_never K)
  · exact errThen K (setConv_err K _ _ v) (setConv_dirA K _ _ v) (afterKepEl_never K)
  · exact errThen K (setConv_err K _ _ v) (setConv_dirA K _ _ v) (afterKepEl_never K)
theorem set_period_err (v : Val α) : ErrCore n (set_period v) := by
  intro s hs e s' h
  cases h
  exact ⟨SameCore.refl s, hs.1⟩
theorem set_mean_motion_err (v : Val α) : ErrCore n (set_mean_motion K v) :=
  errGuardKep <| errThen K (set_period_err v) Ok.raise (afterKepEl_never K)
theorem cartCheck_co (s0 : Orb α) (h : lazy s0 = false) : Co s0 (upd (cartCheck K)) (fun _ => True) :=
  Keeps.upd (core_cartCheck K h)
theorem set_velocity_err (v : Val α) : ErrCore n (set_velocity K v) :=
  errGuardCart <| errBind (Keeps.upd (cartCheck_wfe K)) (cartCheck_co K) fun _ _ =>
    errBind (Keeps.upd (cartCheck_wfe K)) (cartCheck_co K) fun _ _ => errSelf fun s hs => errLift fun vs hvs =>
      errThen K (set_v_err K _) (set_v_dirA K _) (afterCartEl_never K)
theorem propagate_err (dt : Val α) : ErrCore n (propagate K dt) :=
  errBind (get_mean_anomaly_sh K) (fun s0 h => get_mean_anomaly_co K h) fun M _ =>
    errBind (get_mean_motion_sh K) (fun s0 h => (get_mean_motion_co K h).mono fun _ _ => trivial) fun m _ =>
      errSelf fun s _ => errLift fun nd _ => errLift fun Ms _ =>
        errThen K (set_mean_anomaly_err K _) (set_mean_anomaly_dirA K _) (ite_never (calculate_cartesian_never K))

/-- after a call, whether it returns or raises, the elements agree -/
theorem keepsA {x : Py α Unit} (hok : Ok (Dir n) x (fun _ s => DirA K n s)) (herr : ErrCore n x) :
    Keeps (DirA K n) x (fun _ => True) := by
  intro s hs
  refine ⟨?_, fun _ _ => trivial⟩
  rcases hx : x s with ⟨e | b, s'⟩
  · obtain ⟨h1, h2⟩ := herr s hs.1 e s' hx
    exact hs.core K h1 h2
  · exact hok s hs.1 b s' hx

end

/-! ### Operations that change the number of orbits -/

/-- positions kept by `delete` -/
def keptPos (ps : List Nat) (n : Nat) : List Nat := (List.range n).filter fun j => !ps.contains j

theorem gather_getElem? {β : Type} (l : List β) (ps : List Nat) (h : ∀ p ∈ ps, p < l.length) (j : Nat) :
    (gather l ps)[j]? = (ps[j]?).bind fun p => l[p]? := by
  induction ps generalizing j with
  | nil => simp [gather]
  | cons p ps ih =>
    have hp : p < l.length := h p (by simp)
    have hg : gather l (p :: ps) = l[p] :: gather l ps := by
      simp [gather, List.filterMap_cons, hp]
    rw [hg]
    cases j with
    | zero => simp [hp]
    | succ j => simpa using ih (fun q hq => h q (by simp [hq])) j

theorem kept_eq {β : Type} (l : List β) (ps : List Nat) :
    (l.zipIdx.filter fun x => !ps.contains x.2).map Prod.fst = gather l (keptPos ps l.length) := by
  have hr : List.range l.length = l.zipIdx.map Prod.snd := by simp [List.range_eq_range']
  unfold gather keptPos
  rw [hr, List.filter_map, List.filterMap_map]
  have : ∀ zs : List (β × Nat), (∀ z ∈ zs, l[z.2]? = some z.1) →
      (zs.filter fun x => !ps.contains x.2).map Prod.fst =
        (zs.filter ((fun j => !ps.contains j) ∘ Prod.snd)).filterMap ((fun p => l[p]?) ∘ Prod.snd) := by
    intro zs hz
    induction zs with
    | nil => rfl
    | cons z zs ih =>
      have hz0 := hz z (by simp)
      have ih' := ih fun z' h' => hz z' (by simp [h'])
      by_cases hc : ps.contains z.2 = true
      · have e1 : (!ps.contains z.2) = false := by rw [hc]; rfl
        rw [List.filter_cons_of_neg (by rw [e1]; simp), List.filter_cons_of_neg (by simp only [Function.comp, e1]; simp)]
        exact ih'
      · have e1 : (!ps.contains z.2) = true := by simp at hc ⊢; exact hc
        rw [List.filter_cons_of_pos (p := fun x : β × Nat => !ps.contains x.2) e1,
          List.filter_cons_of_pos (p := (fun j => !ps.contains j) ∘ Prod.snd) e1, List.map_cons,
          List.filterMap_cons_some (b := z.1) (by simpa only [Function.comp] using hz0), ih']
  apply this
  intro z hz
  exact List.mem_zipIdx_iff_getElem?.mp hz

theorem keptPos_lt {ps : List Nat} {n p : Nat} (h : p ∈ keptPos ps n) : p < n := by
  simp only [keptPos, List.mem_filter, List.mem_range] at h
  exact h.1

/-- the object with the orbits at `qs`, in this order -/
def select (qs : List Nat) (s : Orb α) (l : List α) : Orb α :=
  { s with
    m := gather s.m qs, cart := gather s.cart qs, kep := gather s.kep qs, tA := gather s.tA qs, eA := .arr (gather l qs),
    mA := gather s.mA qs, cartCalc := gather s.cartCalc qs, kepCalc := gather s.kepCalc qs }

/-- `delete` either raises and changes nothing, or keeps the orbits that are not selected -/
theorem delete_run {n : Nat} {s : Orb α} {l : List α} (hw : WF n s) (hl : s.eA = .arr l) (hn : l.length = n) (inds : Inds) :
    delete inds s = match inds.pos n with
      | .ok ps => (.ok (), select (keptPos ps n) s l)
      | .error e => (.error (inds.delErr e), s) := by
  cases hp : inds.pos n with
  | error e =>
    have e1 : npDelete s.m inds = .error (inds.delErr e) := by simp only [npDelete, hw.m, hp]
    simp only [delete, self_bind, e1, liftErr_bind]
  | ok ps =>
    have key : ∀ (γ : Type) (l' : List γ), l'.length = n → npDelete l' inds = .ok (gather l' (keptPos ps n)) := by
      intro γ l' h'
      simp only [npDelete, h', hp, kept_eq]
    simp only [delete, self_bind, key _ _ hw.m, key _ _ hw.cart, key _ _ hw.kep, key _ _ hw.tA, hl, key _ _ hn, key _ _ hw.mA,
      key _ _ hw.cartCalc, key _ _ hw.kepCalc, liftOk_bind, upd_bind, upd_run, select]

theorem agree_select {n : Nat} {s : Orb α} (hw : WF n s) (h : Agree K s) {qs : List Nat} (hq : ∀ p ∈ qs, p < n) (l : List α) :
    Agree K (select qs s l) := by
  intro j k c m hk hc hm
  simp only [select] at hk hc hm ⊢
  rw [gather_getElem? _ _ (by rw [hw.kep]; exact hq)] at hk
  rw [gather_getElem? _ _ (by rw [hw.cart]; exact hq)] at hc
  rw [gather_getElem? _ _ (by rw [hw.m]; exact hq)] at hm
  cases hj : qs[j]? with
  | none => rw [hj] at hk; cases hk
  | some p =>
    rw [hj] at hk hc hm
    exact h p k c m hk hc hm

theorem delete_dirA {n : Nat} {s : Orb α} (h : DirA K n s) (inds : Inds) : ∃ k, DirA K k (delete inds s).2 := by
  obtain ⟨l, hl, hn⟩ := h.1.1.2
  obtain ⟨k, hk⟩ := delete_wfe h.1.1 inds
  refine ⟨k, ?_⟩
  have hr := delete_run h.1.1.1 hl hn inds
  cases hp : inds.pos n with
  | error e =>
    rw [hp] at hr
    rw [hr] at hk ⊢
    exact ⟨⟨hk, h.1.2⟩, h.2⟩
  | ok ps =>
    rw [hp] at hr
    rw [hr] at hk ⊢
    exact ⟨⟨hk, h.1.2⟩, agree_select K h.1.1.1 h.2 (fun p hp => keptPos_lt hp) l⟩

theorem kepConst_any : (Kep.const K.nan).any K.isnan = true := by simp [Kep.any, Kep.const, K.isnan_nan]
theorem cartConst_any : (Cart.const K.nan).any K.isnan = true := by simp [Cart.any, Cart.const, K.isnan_nan]

theorem allocate_dirA {n : Nat} {s : Orb α} (h : s.direct = true) : DirA K n (allocate K n s).2 := by
  refine ⟨⟨allocate_wfe K, h⟩, ?_⟩
  intro j k c m hk hc hm hkn
  have : k = Kep.const K.nan := by
    simp only [allocate, upd_run] at hk
    exact (List.mem_replicate.mp (List.mem_of_getElem? hk)).2
  rw [this, kepConst_any] at hkn
  cases hkn

theorem slice_tail (n k : Nat) : slicePos (n + k) (some (n : Int)) (some ((n + k : Nat) : Int)) 1 = List.range' n k := by
  have h1 : ¬ ((n : Int) < 0) := by omega
  have h2 : ¬ (((n + k : Nat) : Int) < 0) := by omega
  have h5 : min ((n + k : Nat) : Int) ((n + k : Nat) : Int) = ((n + k : Nat) : Int) := by omega
  have h3 : min (n : Int) ((n + k : Nat) : Int) = n := by omega
  have h4 : (((n + k : Nat) : Int) - (n : Int) + 1 - 1) / 1 = k := by omega
  simp only [slicePos, sliceUp, if_pos (show (0:Int) < 1 by decide), if_neg h1, if_neg h2, h3, h5, h4, Int.toNat_natCast]
  apply List.ext_getElem
  · simp
  · intro i hi _
    simp
    omega

theorem writeAt_getElem? {β γ : Type} (w : β → γ → β) (l : List β) (ps : List Nat) (vs : List γ) (j : Nat) (hj : j ∉ ps) :
    (writeAt w l ps vs)[j]? = l[j]? := by
  unfold writeAt
  have hz : ∀ z ∈ ps.zip vs, z.1 ≠ j := fun z h hz => hj (hz ▸ (List.of_mem_zip h).1)
  generalize ps.zip vs = zs at hz
  induction zs generalizing l with
  | nil => rfl
  | cons z zs ih =>
    rw [List.foldl_cons, ih _ fun z' h' => hz z' (by simp [h']), List.getElem?_modify]
    simp [hz z (by simp)]

/-- masses of the old orbits are not touched by `add` -/
theorem writeMass_ok {n k : Nat} {s s' : Orb α} (hw : s.m.length = n + k) (v : Option (Val α)) {b : Unit}
    (h : writeMass (.slice (some (n : Int)) (some ((n + k : Nat) : Int)) 1) v s = (.ok b, s')) :
    ∃ ms, s' = { s with m := ms } ∧ ms.length = n + k ∧ ∀ j < n, ms[j]? = s.m[j]? := by
  cases v with
  | none => cases h; exact ⟨s.m, rfl, hw, fun _ _ => rfl⟩
  | some v =>
    simp only [writeMass, self_bind] at h
    rw [lift_bind] at h
    cases hm : writeRow (fun _ x => x) s.m (.slice (some (n : Int)) (some ((n + k : Nat) : Int)) 1) v with
    | error e => rw [hm] at h; cases h
    | ok ms =>
      rw [hm] at h
      cases h
      refine ⟨ms, rfl, by rw [writeRow_length hm, hw], fun j hj => ?_⟩
      obtain ⟨ps, h1, h2⟩ := ebind_ok hm
      obtain ⟨vs, h3, h4⟩ := ebind_ok h2
      injection h4 with h4
      rw [← h4]
      simp only [Inds.pos, hw, if_neg (show ¬ (1:Int) = 0 by decide), slice_tail] at h1
      injection h1 with h1
      refine writeAt_getElem? _ _ _ _ _ ?_
      rw [← h1]
      simp
      omega

theorem extend_dirA {n k : Nat} {s : Orb α} {l : List α} (h : DirA K n s) (hn : l.length = n) (ms : List α) (hms : ms.length = n + k)
    (hold : ∀ j < n, ms[j]? = s.m[j]?) : DirA K (n + k) { extend K k s l with m := ms } := by
  have hw := h.1.1.1
  refine ⟨⟨setM_wfe (extend_wfe K hw hn) hms, h.1.2⟩, ?_⟩
  intro j kk c m hk hc hm hkn
  simp only [extend] at hk hc hm ⊢
  by_cases hj : j < n
  · rw [List.getElem?_append_left (by rw [hw.kep]; exact hj)] at hk
    rw [List.getElem?_append_left (by rw [hw.cart]; exact hj)] at hc
    rw [hold j hj] at hm
    exact h.2 j kk c m hk hc hm hkn
  · rw [List.getElem?_append_right (by rw [hw.kep]; omega)] at hk
    have : kk = Kep.const K.nan := (List.mem_replicate.mp (List.mem_of_getElem? hk)).2
    rw [this, kepConst_any] at hkn
    cases hkn

theorem add_dirA {n : Nat} {s s' : Orb α} (h : DirA K n s) (k : Nat) (u : Upd α) {b : Unit} (hr : add K k u s = (.ok b, s')) :
    DirA K (n + k) s' := by
  obtain ⟨l, hl, hn⟩ := h.1.1.2
  rw [add_run K h.1.1.1 hl] at hr
  rw [bind_run] at hr
  rcases hm : writeMass (.slice (some (n : Int)) (some ((n + k : Nat) : Int)) 1) u.m (extend K k s l) with ⟨e | c, s1⟩
  · rw [hm] at hr; cases hr
  · rw [hm] at hr
    obtain ⟨ms, h1, h2, h3⟩ := writeMass_ok (n := n) (k := k) (by simp [extend, h.1.1.1.m]) u.m hm
    refine update_dirA K _ _ s1 ?_ b s' hr
    rw [h1]
    exact extend_dirA K h hn ms h2 fun j hj => by
      rw [h3 j hj]
      simp [extend, List.getElem?_append_left (show j < s.m.length by rw [h.1.1.1.m]; exact hj)]

theorem when_ok {P : Orb α → Prop} {b : Bool} {x : Py α Unit} (h : Ok P x (fun _ s => P s)) : Ok P (when b x) (fun _ s => P s) :=
  Ok.ite (fun _ => h) fun _ => Ok.pure fun s hs => hs

/-- masses do not matter while there are no elements -/
theorem agree_blank {n : Nat} {s : Orb α} (h : s.kep = List.replicate n (Kep.const K.nan)) : Agree K s := by
  intro j k c m hk hc hm hkn
  rw [h] at hk
  have : k = Kep.const K.nan := (List.mem_replicate.mp (List.mem_of_getElem? hk)).2
  rw [this, kepConst_any] at hkn
  cases hkn

theorem init_dirA {M0 : α} {kw : InitKw α} {u : Upd α} {s : Orb α} (hd : kw.direct = true) (h : init K M0 kw u = .ok s) :
    DirA K kw.n s := by
  unfold init at h
  split at h
  · cases h
  · rename_i ty _
    split at h
    · rename_i b s' heq
      injection h with h
      subst h
      have h1 : Ok (fun s => Dir kw.n s ∧ s.kep = List.replicate kw.n (Kep.const K.nan)) (writeAllMass kw.m)
          (fun _ s => DirA K kw.n s) := by
        unfold writeAllMass
        split
        · exact Ok.pure fun s hs => ⟨hs.1, agree_blank K hs.2⟩
        · refine Ok.selfBind fun t ht => Ok.lift.bind fun ms => Ok.upd ?_
          rintro s ⟨hms, rfl⟩
          exact ⟨⟨setM_wfe ht.1.1 (by rw [Val.spread_length hms, ht.1.1.1.m]), ht.1.2⟩, agree_blank K ht.2⟩
      have hrest : Ok (fun s => Dir kw.n s ∧ s.kep = List.replicate kw.n (Kep.const K.nan)) (do
          writeAllMass kw.m
          let n ← num
          when (decide (0 < n)) (update K .all { u with m := none })
          upd fun s => { s with kro := kw.kro, cro := kw.cro } : Py α Unit) (fun _ s => DirA K kw.n s) := by
        refine h1.bind fun _ => Ok.bind (Q := fun _ s => DirA K kw.n s) ?_ fun n => (when_ok (update_dirA K _ _)).bind fun _ => Ok.upd ?_
        · intro s hs b' s'' hb
          rw [num_wf hs.1.1.1] at hb
          cases hb; exact hs
        · exact fun s hs => ⟨⟨shape_wfe hs.1.1 rfl rfl rfl rfl rfl rfl rfl rfl, hs.1.2⟩, hs.2⟩
      exact hrest _ ⟨(allocate_dirA K (s := empty M0 kw ty) hd).1, rfl⟩ b s' heq
    · cases h

/-! ## C29 -/

/-- The operations of C29: element assignments of any kind, `update`, `add`, `delete`, `allocate`, `propagate`, the
recalculations, and all reads.  Left out are changing the settings (anomaly type, degrees, `G`, `M0`, solver options, mode)
and the masses, after which the user has to recalculate, and `calc_eccentric_anomaly` of a selection (see C34). -/
def Op.elementwise : Op α → Bool
  | .setType _ | .writeM _ | .setFlags .. | .setDegrees _ | .setGM .. | .setOpts _ => false
  | .calcEcc (.slice none none 1) => true
  | .calcEcc _ => false
  | _ => true

/-- operations that write several arrays or rows one after the other, checking each one just before it is written -/
def Op.stepwise : Op α → Bool
  | .update .. | .add .. | .setEquinoctial _ => true
  | _ => false

/-- every stepwise operation of the history returns normally -/
def StepwiseOk (s : Orb α) : List (Op α) → Prop
  | [] => True
  | o :: h => (o.stepwise = true → (o.run K s).1 = .ok ()) ∧ StepwiseOk (o.run K s).2 h

theorem run_dirA {n : Nat} {s : Orb α} (h : DirA K n s) (o : Op α) (ho : o.elementwise = true)
    (hok : o.stepwise = true → (o.run K s).1 = .ok ()) : ∃ k, DirA K k (o.run K s).2 := by
  have hk : ∀ {x : Py α Unit}, Keeps (DirA K n) x (fun _ => True) → ∃ k, DirA K k (x s).2 := fun hx => ⟨n, (hx s h).1⟩
  have hu : Keeps (DirA K n) (pure () : Py α Unit) (fun _ => True) := Keeps.pure trivial
  cases o with
  | read g => exact hk ((read_dirA K g).bind fun _ _ => hu)
  | setKep i v => exact hk (keepsA K (set_kep_dirA K i v) (set_kep_err K i v))
  | setCart i v => exact hk (keepsA K (set_cart_dirA K i v) (set_cart_err K i v))
  | setKepler v => exact hk (keepsA K (set_kepler_dirA K v) (set_kepler_err K v))
  | setCartesian v => exact hk (keepsA K (set_cartesian_dirA K v) (set_cartesian_err K v))
  | setR v => exact hk (keepsA K (set_r_dirA K v) (set_r_err K v))
  | setV v => exact hk (keepsA K (set_v_dirA K v) (set_v_err K v))
  | setTrue v => exact hk (keepsA K (set_true_anomaly_dirA K v) (set_true_anomaly_err K v))
  | setEcc v => exact hk (keepsA K (set_eccentric_anomaly_dirA K v) (set_eccentric_anomaly_err K v))
  | setMean v => exact hk (keepsA K (set_mean_anomaly_dirA K v) (set_mean_anomaly_err K v))
  | setPeriod v => exact hk (keepsA K Ok.raise (set_period_err v))
  | setMeanMotion v => exact hk (keepsA K (set_mean_motion_dirA K v) (set_mean_motion_err K v))
  | setVelocity v => exact hk (keepsA K (set_velocity_dirA K v) (set_velocity_err K v))
  | setEquinoctial v =>
    exact ⟨n, set_equinoctial_dirA K v s h.1 () _ (Prod.ext (hok rfl) rfl)⟩
  | setType t => cases ho
  | propagate dt => exact hk (keepsA K (propagate_dirA K dt) (propagate_err K dt))
  | update inds u => exact ⟨n, update_dirA K inds u s h () _ (Prod.ext (hok rfl) rfl)⟩
  | add k u => exact ⟨n + k, add_dirA K h k u (b := ()) (Prod.ext (hok rfl) rfl)⟩
  | delete inds => exact delete_dirA K h inds
  | allocate k => exact ⟨k, allocate_dirA K h.1.2⟩
  | calcCartesian inds => exact hk (calculate_cartesian_inds_dirA K inds)
  | calcKepler inds => exact hk (calculate_kepler_inds_dirA K inds)
  | calcTrue inds => exact hk (core_dirA K (calc_true_anomaly_sh K inds) fun s0 h => calc_true_anomaly_co K h inds)
  | calcMean inds => exact hk (core_dirA K (calc_mean_anomaly_sh K inds) fun s0 h => calc_mean_anomaly_co K h inds)
  | calcEcc inds =>
    have : inds = .all := by
      revert ho
      unfold Op.elementwise
      split <;> simp_all [Inds.all]
    exact hk (core_dirA K (calc_eccentric_anomaly_sh K inds this) fun s0 h => calc_eccentric_anomaly_co K h inds)
  | iter => exact ⟨n, ⟨shape_wfe h.1.1 rfl rfl rfl rfl rfl rfl rfl rfl, h.1.2⟩, h.2⟩
  | next =>
    have hn : Keeps (DirA K n) (next K) (fun _ => True) := by
      refine Keeps.self.bind fun s hs => ?_
      split
      · exact Keeps.raise
      · refine Keeps.bind (Q := fun _ => True) ?_ fun _ _ => Keeps.ite (fun _ => ?_) fun _ => Keeps.raise
        · intro s hs; rw [num_wf hs.1.1.1]; exact ⟨hs, fun _ _ => trivial⟩
        · refine Keeps.bind (Keeps.upd ?_) fun _ _ => Keeps.self.bind fun _ _ => Keeps.lift.mono fun _ _ => trivial
          exact fun t ht => ⟨⟨shape_wfe ht.1.1 rfl rfl rfl rfl rfl rfl rfl rfl, ht.1.2⟩, ht.2⟩
    exact hk (hn.bind fun _ _ => hu)
  | writeM v => cases ho
  | setFlags a b c d => cases ho
  | setDegrees b => cases ho
  | setGM G M0 => cases ho
  | setOpts o => cases ho

/-- C29 (partial): start from the constructor with `direct_update` and apply any history of element operations with any
values and any numbers of orbits, for any kernel.  Then every orbit without NaN has a Cartesian state that is the conversion
of its Kepler elements, or Kepler elements that are the conversion of its Cartesian state.  Operations may raise, except that
`update`, `add` and the assignment of `equinoctial` have to return normally: see `c29_false`. -/
theorem c29_partial (M0 : α) (kw : InitKw α) (u : Upd α) (s : Orb α) (hd : kw.direct = true) (h : init K M0 kw u = .ok s)
    (ops : List (Op α)) (hops : ∀ o ∈ ops, o.elementwise = true) (hok : StepwiseOk K s ops) : Agree K (exec K s ops) := by
  have key : ∀ (ops : List (Op α)) (s : Orb α), (∃ n, DirA K n s) → (∀ o ∈ ops, o.elementwise = true) → StepwiseOk K s ops →
      Agree K (exec K s ops) := by
    intro ops
    induction ops with
    | nil => intro s ⟨n, hn⟩ _ _; exact hn.2
    | cons o ops ih =>
      intro s ⟨n, hn⟩ h1 h2
      rw [exec_cons]
      exact ih _ (run_dirA K hn o (h1 o (by simp)) h2.1) (fun o' h' => h1 o' (by simp [h'])) h2.2
  exact key ops s ⟨_, init_dirA K hd h⟩ hops hok

end Orbit
end Pyorb
