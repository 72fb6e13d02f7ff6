import Verif.OrbitHeap
import Verif.PropsOrbitInit

/-!
# C103: objects share no arrays with each other or with the caller

For every program (`runActs` from the empty world).
-/

namespace Pyorb
namespace Orbit
variable {α : Type} (K : Kern α)

/-- a slot the class keeps for itself: every one but `m` and `solver_options` -/
def Private (f : Fin 9) : Prop := f ≠ 0 ∧ f ≠ 8

/-- what holds in every state a program can reach -/
structure Sep (w : World α) : Prop where
  slot_lt : ∀ (i : Nat) (o : Obj α), w.objs[i]? = some o → ∀ f, o.slot f < w.heap.size
  epoch_lt : ∀ (i : Nat) (o : Obj α), w.objs[i]? = some o → o.epoch < w.heap.size
  held_lt : ∀ a ∈ w.held, a < w.heap.size
  kind_m : ∀ (i : Nat) (o : Obj α), w.objs[i]? = some o → (w.heap.cell (o.slot 0)).kind = 0
  kind_opts : ∀ (i : Nat) (o : Obj α), w.objs[i]? = some o → (w.heap.cell (o.slot 8)).kind = 1
  kind_epoch : ∀ (i : Nat) (o : Obj α), w.objs[i]? = some o → (w.heap.cell o.epoch).kind = 2
  priv : ∀ (i j : Nat) (o p : Obj α), w.objs[i]? = some o → w.objs[j]? = some p → ∀ f g, Private f → o.slot f = p.slot g → i = j ∧ f = g
  priv_epoch : ∀ (i j : Nat) (o p : Obj α), w.objs[i]? = some o → w.objs[j]? = some p → ∀ f, Private f → o.slot f ≠ p.epoch
  priv_held : ∀ (i : Nat) (o : Obj α), w.objs[i]? = some o → ∀ f, Private f → o.slot f ∉ w.held
  pub : ∀ (i j : Nat) (o p : Obj α), w.objs[i]? = some o → w.objs[j]? = some p → i ≠ j → ∀ f, o.slot f = p.slot f → o.slot f ∈ w.held

variable {K}

theorem Sep.inj {w : World α} (h : Sep w) {i : Nat} {o : Obj α} (ho : w.objs[i]? = some o) {f g : Fin 9} (e : o.slot f = o.slot g) :
    f = g := by
  by_cases hf : Private f
  · exact (h.priv i i o o ho ho f g hf e).2
  by_cases hg : Private g
  · exact ((h.priv i i o o ho ho g f hg e.symm).2).symm
  have h0 := h.kind_m i o ho
  have h8 := h.kind_opts i o ho
  simp only [Private, not_and_or, not_not] at hf hg
  rcases hf with rfl | rfl <;> rcases hg with rfl | rfl <;> try rfl
  · rw [e] at h0; omega
  · rw [e] at h8; omega

section Store
variable (h : Heap α) (fr : Fin 9 → Bool) (o : Obj α) (s : Orb α)

theorem store_at (inj : ∀ f g, target h fr o f = target h fr o g → f = g) (f : Fin 9) :
    (h.store fr o s).cell (target h fr o f) = cells s f := by
  have : (List.finRange 9).find? (fun g => target h fr o g == target h fr o f) = some f := by
    have hsome : ((List.finRange 9).find? (fun g => target h fr o g == target h fr o f)).isSome := by
      rw [List.find?_isSome]
      exact ⟨f, List.mem_finRange f, by simp⟩
    obtain ⟨g, hg⟩ := Option.isSome_iff_exists.1 hsome
    have := List.find?_some hg
    rw [hg, inj g f (by simpa using this)]
  unfold Heap.store
  simp only [this]

theorem store_other {a : Nat} (ha : ∀ f, target h fr o f ≠ a) : (h.store fr o s).cell a = h.cell a := by
  have : (List.finRange 9).find? (fun g => target h fr o g == a) = none := by
    rw [List.find?_eq_none]
    intro g _
    simpa using ha g
  unfold Heap.store
  simp only [this]

end Store

/-- the conditions under which a new value is stored: all arrays are new, or the object is one of the world -/
structure Storing (w : World α) (i : Nat) (o : Obj α) (fr : Fin 9 → Bool) : Prop where
  src : (∀ f, fr f = true) ∨ w.objs[i]? = some o
  ep_lt : o.epoch < w.heap.size
  ep_kind : (w.heap.cell o.epoch).kind = 2
  ep_priv : ∀ (j : Nat) (p : Obj α), w.objs[j]? = some p → ∀ f, Private f → p.slot f ≠ o.epoch

theorem Storing.target_cases {w : World α} {i : Nat} {o : Obj α} {fr : Fin 9 → Bool} (h : Storing w i o fr) (f : Fin 9) :
    (fr f = true ∧ target w.heap fr o f = w.heap.size + f) ∨
    (fr f = false ∧ w.objs[i]? = some o ∧ target w.heap fr o f = o.slot f) := by
  unfold target
  cases hf : fr f with
  | true => left; simp
  | false =>
    right
    rcases h.src with hs | hs
    · rw [hs f] at hf; cases hf
    · simp [hs]

theorem Storing.inj {w : World α} {i : Nat} {o : Obj α} {fr : Fin 9 → Bool} (hw : Sep w) (h : Storing w i o fr) (f g : Fin 9)
    (e : target w.heap fr o f = target w.heap fr o g) : f = g := by
  rcases h.target_cases f with ⟨_, h1⟩ | ⟨_, ho, h1⟩ <;> rcases h.target_cases g with ⟨_, h2⟩ | ⟨_, ho', h2⟩
  · exact Fin.ext (by omega)
  · have := hw.slot_lt i o ho' g; omega
  · have := hw.slot_lt i o ho f; omega
  · exact hw.inj ho (by omega)

/-- a stored value does not touch the cell `a` -/
theorem Storing.other {w : World α} {i : Nat} {o : Obj α} {fr : Fin 9 → Bool} (h : Storing w i o fr) (s : Orb α) {a : Nat}
    (ha : a < w.heap.size) (hne : ∀ f, w.objs[i]? = some o → fr f = false → o.slot f ≠ a) :
    (w.heap.store fr o s).cell a = w.heap.cell a := by
  apply store_other
  intro f
  rcases h.target_cases f with ⟨_, h1⟩ | ⟨h0, ho, h1⟩
  · omega
  · rw [h1]; exact hne f ho h0

theorem Sep.store {w : World α} (hw : Sep w) {i : Nat} {o : Obj α} {fr : Fin 9 → Bool} (h : Storing w i o fr) (s : Orb α)
    (objs : List (Obj α))
    (hobjs : ∀ (j : Nat) (p : Obj α), objs[j]? = some p → (j = i ∧ p = o.store w.heap fr s) ∨ (j ≠ i ∧ w.objs[j]? = some p)) :
    Sep { heap := w.heap.store fr o s, objs := objs, held := w.held } := by
  have size : (w.heap.store fr o s).size = w.heap.size + 9 := rfl
  have slot : (o.store w.heap fr s).slot = target w.heap fr o := rfl
  have ep : (o.store w.heap fr s).epoch = o.epoch := rfl
  have at' := store_at w.heap fr o s (h.inj hw)
  have epk : ∀ a, a < w.heap.size → (w.heap.cell a).kind = 2 → (∀ (j : Nat) (p : Obj α), w.objs[j]? = some p → ∀ f, Private f → p.slot f ≠ a) →
      (w.heap.store fr o s).cell a = w.heap.cell a := by
    intro a ha hk hp
    apply h.other s ha
    intro f ho _ e
    by_cases hf : Private f
    · exact hp i o ho f hf e
    · simp only [Private, not_and_or, not_not] at hf
      rcases hf with rfl | rfl
      · have := hw.kind_m i o ho; rw [e] at this; omega
      · have := hw.kind_opts i o ho; rw [e] at this; omega
  have pubk : ∀ (g : Fin 9) (j : Nat) (p : Obj α), (g = 0 ∨ g = 8) → j ≠ i → w.objs[j]? = some p →
      ((w.heap.store fr o s).cell (p.slot g)).kind = (w.heap.cell (p.slot g)).kind := by
    intro g j p hg hj hp
    by_cases hc : w.objs[i]? = some o ∧ o.slot g = p.slot g ∧ fr g = false
    · obtain ⟨ho, e, hf⟩ := hc
      have : target w.heap fr o g = p.slot g := by unfold target; rw [hf]; exact e
      rw [← this, at' g, this]
      rcases hg with rfl | rfl
      · rw [hw.kind_m j p hp]; rfl
      · rw [hw.kind_opts j p hp]; rfl
    · rw [h.other s (hw.slot_lt j p hp g)]
      intro f ho hf e
      by_cases hp' : Private f
      · exact hj (hw.priv i j o p ho hp f g hp' e).1.symm
      · have h0 := hw.kind_m i o ho
        have h8 := hw.kind_opts i o ho
        have k0 := hw.kind_m j p hp
        have k8 := hw.kind_opts j p hp
        simp only [Private, not_and_or, not_not] at hp'
        rcases hp' with rfl | rfl <;> rcases hg with rfl | rfl
        · exact hc ⟨ho, e, hf⟩
        · rw [e] at h0; omega
        · rw [e] at h8; omega
        · exact hc ⟨ho, e, hf⟩
  constructor
  · intro j p hp f
    simp only [size]
    rcases hobjs j p hp with ⟨_, rfl⟩ | ⟨_, hp⟩
    · rw [slot]
      rcases h.target_cases f with ⟨_, h1⟩ | ⟨_, ho, h1⟩
      · have := f.2; omega
      · have := hw.slot_lt i o ho f; omega
    · have := hw.slot_lt j p hp f; omega
  · intro j p hp
    simp only [size]
    rcases hobjs j p hp with ⟨_, rfl⟩ | ⟨_, hp⟩
    · rw [ep]; have := h.ep_lt; omega
    · have := hw.epoch_lt j p hp; omega
  · intro a ha
    have := hw.held_lt a ha
    simp only [size]; omega
  · intro j p hp
    rcases hobjs j p hp with ⟨_, rfl⟩ | ⟨hj, hp⟩
    · rw [slot]; simp only [at' 0]; rfl
    · simp only [pubk 0 j p (Or.inl rfl) hj hp]; exact hw.kind_m j p hp
  · intro j p hp
    rcases hobjs j p hp with ⟨_, rfl⟩ | ⟨hj, hp⟩
    · rw [slot]; simp only [at' 8]; rfl
    · simp only [pubk 8 j p (Or.inr rfl) hj hp]; exact hw.kind_opts j p hp
  · intro j p hp
    rcases hobjs j p hp with ⟨_, rfl⟩ | ⟨hj, hp⟩
    · rw [ep]; simp only [epk o.epoch h.ep_lt h.ep_kind h.ep_priv]; exact h.ep_kind
    · simp only [epk p.epoch (hw.epoch_lt j p hp) (hw.kind_epoch j p hp) fun k q hq f hf => hw.priv_epoch k j q p hq hp f hf]
      exact hw.kind_epoch j p hp
  · intro j k p q hp hq f g hf e
    rcases hobjs j p hp with ⟨rfl, rfl⟩ | ⟨hj, hp⟩ <;> rcases hobjs k q hq with ⟨rfl, rfl⟩ | ⟨hk, hq⟩
    · rw [slot] at e
      exact ⟨rfl, h.inj hw f g e⟩
    · rw [slot] at e
      rcases h.target_cases f with ⟨_, h1⟩ | ⟨_, ho, h1⟩
      · have := hw.slot_lt k q hq g; omega
      · rw [h1] at e; exact absurd (hw.priv j k o q ho hq f g hf e).1.symm hk
    · rw [slot] at e
      rcases h.target_cases g with ⟨_, h1⟩ | ⟨_, ho, h1⟩
      · have := hw.slot_lt j p hp f; omega
      · rw [h1] at e; exact absurd (hw.priv j k p o hp ho f g hf e).1 hj
    · exact hw.priv j k p q hp hq f g hf e
  · intro j k p q hp hq f hf
    have hlt : q.epoch < w.heap.size := by
      rcases hobjs k q hq with ⟨_, rfl⟩ | ⟨_, hq⟩
      · exact h.ep_lt
      · exact hw.epoch_lt k q hq
    have hpr : ∀ (j' : Nat) (p' : Obj α), w.objs[j']? = some p' → ∀ f, Private f → p'.slot f ≠ q.epoch := by
      rcases hobjs k q hq with ⟨_, rfl⟩ | ⟨_, hq⟩
      · exact h.ep_priv
      · exact fun j' p' hp' f hf => hw.priv_epoch j' k p' q hp' hq f hf
    rcases hobjs j p hp with ⟨_, rfl⟩ | ⟨_, hp⟩
    · rw [slot]
      rcases h.target_cases f with ⟨_, h1⟩ | ⟨_, ho, h1⟩
      · omega
      · rw [h1]; exact hpr i o ho f hf
    · exact hpr j p hp f hf
  · intro j p hp f hf hm
    rcases hobjs j p hp with ⟨_, rfl⟩ | ⟨_, hp⟩
    · rw [slot] at hm
      rcases h.target_cases f with ⟨_, h1⟩ | ⟨_, ho, h1⟩
      · have := hw.held_lt _ hm; omega
      · rw [h1] at hm; exact hw.priv_held i o ho f hf hm
    · exact hw.priv_held j p hp f hf hm
  · intro j k p q hp hq hjk f e
    show p.slot f ∈ w.held
    rcases hobjs j p hp with ⟨rfl, rfl⟩ | ⟨hj, hp⟩ <;> rcases hobjs k q hq with ⟨rfl, rfl⟩ | ⟨hk, hq⟩
    · exact absurd rfl hjk
    · rw [slot] at e ⊢
      rcases h.target_cases f with ⟨_, h1⟩ | ⟨_, ho, h1⟩
      · have := hw.slot_lt k q hq f; omega
      · rw [h1] at e ⊢; exact hw.pub j k o q ho hq (Ne.symm hk) f e
    · rw [slot] at e
      rcases h.target_cases f with ⟨_, h1⟩ | ⟨_, ho, h1⟩
      · have := hw.slot_lt j p hp f; omega
      · rw [h1] at e; exact hw.pub j k p o hp ho hj f e
    · exact hw.pub j k p q hp hq hjk f e


theorem Sep.alloc {w : World α} (hw : Sep w) (c : Cell α) : Sep { w with heap := w.heap.alloc c } := by
  have old : ∀ a, a < w.heap.size → (w.heap.alloc c).cell a = w.heap.cell a := by
    intro a ha
    show (if a = w.heap.size then c else w.heap.cell a) = _
    rw [if_neg (by omega)]
  have size : (w.heap.alloc c).size = w.heap.size + 1 := rfl
  constructor
  · intro i o ho f; have := hw.slot_lt i o ho f; simp only [size]; omega
  · intro i o ho; have := hw.epoch_lt i o ho; simp only [size]; omega
  · intro a ha; have := hw.held_lt a ha; simp only [size]; omega
  · intro i o ho; simp only [old _ (hw.slot_lt i o ho 0)]; exact hw.kind_m i o ho
  · intro i o ho; simp only [old _ (hw.slot_lt i o ho 8)]; exact hw.kind_opts i o ho
  · intro i o ho; simp only [old _ (hw.epoch_lt i o ho)]; exact hw.kind_epoch i o ho
  · exact hw.priv
  · exact hw.priv_epoch
  · exact hw.priv_held
  · exact hw.pub

/-- the caller gets a reference that no object uses for itself -/
theorem Sep.hold {w : World α} (hw : Sep w) {a : Nat} (ha : a < w.heap.size)
    (hp : ∀ (i : Nat) (o : Obj α), w.objs[i]? = some o → ∀ f, Private f → o.slot f ≠ a) :
    Sep { w with held := w.held ++ [a] } := by
  constructor
  · exact hw.slot_lt
  · exact hw.epoch_lt
  · intro b hb
    rcases List.mem_append.1 hb with hb | hb
    · exact hw.held_lt b hb
    · rw [List.mem_singleton.1 hb]; exact ha
  · exact hw.kind_m
  · exact hw.kind_opts
  · exact hw.kind_epoch
  · exact hw.priv
  · exact hw.priv_epoch
  · intro i o ho f hf hm
    rcases List.mem_append.1 hm with hm | hm
    · exact hw.priv_held i o ho f hf hm
    · exact hp i o ho f hf (List.mem_singleton.1 hm)
  · intro i j o p ho hq hij f e
    exact List.mem_append_left _ (hw.pub i j o p ho hq hij f e)

theorem Sep.put {w : World α} (hw : Sep w) {a : Nat} {c : Cell α} (hk : (w.heap.cell a).kind = c.kind) :
    Sep { w with heap := w.heap.put a c } := by
  have kind : ∀ b, ((w.heap.put a c).cell b).kind = (w.heap.cell b).kind := by
    intro b
    show (if b = a then c else w.heap.cell b).kind = _
    split
    · next e => rw [e, hk]
    · rfl
  constructor
  · exact hw.slot_lt
  · exact hw.epoch_lt
  · exact hw.held_lt
  · intro i o ho; simp only [kind]; exact hw.kind_m i o ho
  · intro i o ho; simp only [kind]; exact hw.kind_opts i o ho
  · intro i o ho; simp only [kind]; exact hw.kind_epoch i o ho
  · exact hw.priv
  · exact hw.priv_epoch
  · exact hw.priv_held
  · exact hw.pub

theorem getElem?_set_cases {β : Type} {l : List β} {i j : Nat} {x y : β} (h : (l.set i x)[j]? = some y) :
    (j = i ∧ y = x) ∨ (j ≠ i ∧ l[j]? = some y) := by
  rw [List.getElem?_set] at h
  split at h
  · next e =>
    split at h
    · left; exact ⟨e.symm, (Option.some.inj h).symm⟩
    · cases h
  · next e => right; exact ⟨fun h => e h.symm, h⟩

/-- `orb.m = arr`, `orb.solver_options = d` -/
theorem Sep.assign {w : World α} (hw : Sep w) {i a : Nat} {o : Obj α} (ho : w.objs[i]? = some o) (f : Fin 9) (k : Nat)
    (hf : f = 0 ∧ k = 0 ∨ f = 8 ∧ k = 1) (ha : a ∈ w.held) (hk : (w.heap.cell a).kind = k) :
    Sep { w with objs := w.objs.set i { o with slot := Function.update o.slot f a } } := by
  have hfp : ¬ Private f := by rintro ⟨h0, h8⟩; rcases hf with ⟨e, _⟩ | ⟨e, _⟩ <;> contradiction
  have same : ∀ g, g ≠ f → Function.update o.slot f a g = o.slot g := fun g hg => Function.update_of_ne hg ..
  have cases' : ∀ (j : Nat) (p : Obj α), (w.objs.set i { o with slot := Function.update o.slot f a })[j]? = some p →
      (j = i ∧ p = { o with slot := Function.update o.slot f a }) ∨ (j ≠ i ∧ w.objs[j]? = some p) :=
    fun j p hp => getElem?_set_cases hp
  have slotp : ∀ (j : Nat) (p : Obj α), (w.objs.set i { o with slot := Function.update o.slot f a })[j]? = some p →
      ∃ q, w.objs[j]? = some q ∧ p.epoch = q.epoch ∧ ∀ g, p.slot g = q.slot g ∨ (g = f ∧ j = i ∧ p.slot g = a) := by
    intro j p hp
    rcases cases' j p hp with ⟨rfl, rfl⟩ | ⟨_, hp⟩
    · refine ⟨o, ho, rfl, fun g => ?_⟩
      by_cases hg : g = f
      · right; subst hg; exact ⟨rfl, rfl, Function.update_self ..⟩
      · left; exact same g hg
    · exact ⟨p, hp, rfl, fun _ => Or.inl rfl⟩
  constructor
  · intro j p hp g
    obtain ⟨q, hq, _, h⟩ := slotp j p hp
    rcases h g with h | ⟨_, _, h⟩
    · rw [h]; exact hw.slot_lt j q hq g
    · rw [h]; exact hw.held_lt a ha
  · intro j p hp
    obtain ⟨q, hq, h, _⟩ := slotp j p hp
    rw [h]; exact hw.epoch_lt j q hq
  · exact hw.held_lt
  · intro j p hp
    obtain ⟨q, hq, _, h⟩ := slotp j p hp
    rcases h 0 with h | ⟨e, _, h⟩
    · rw [h]; exact hw.kind_m j q hq
    · rw [h]
      rcases hf with ⟨_, rfl⟩ | ⟨e', _⟩
      · exact hk
      · rw [e'] at e; exact absurd e (by decide)
  · intro j p hp
    obtain ⟨q, hq, _, h⟩ := slotp j p hp
    rcases h 8 with h | ⟨e, _, h⟩
    · rw [h]; exact hw.kind_opts j q hq
    · rw [h]
      rcases hf with ⟨e', _⟩ | ⟨_, rfl⟩
      · rw [e'] at e; exact absurd e (by decide)
      · exact hk
  · intro j p hp
    obtain ⟨q, hq, h, _⟩ := slotp j p hp
    rw [h]; exact hw.kind_epoch j q hq
  · intro j k p q hp hq g g' hg e
    obtain ⟨p', hp', _, h⟩ := slotp j p hp
    obtain ⟨q', hq', _, h'⟩ := slotp k q hq
    rcases h g with h | ⟨e', _, _⟩
    · rcases h' g' with h' | ⟨_, _, h'⟩
      · exact hw.priv j k p' q' hp' hq' g g' hg (by rw [← h, ← h', e])
      · exact absurd (by rw [← h, e, h']; exact ha) (hw.priv_held j p' hp' g hg)
    · exact absurd (e' ▸ hg) hfp
  · intro j k p q hp hq g hg
    obtain ⟨p', hp', _, h⟩ := slotp j p hp
    obtain ⟨q', hq', h', _⟩ := slotp k q hq
    rcases h g with h | ⟨e', _, _⟩
    · rw [h, h']; exact hw.priv_epoch j k p' q' hp' hq' g hg
    · exact absurd (e' ▸ hg) hfp
  · intro j p hp g hg
    obtain ⟨p', hp', _, h⟩ := slotp j p hp
    rcases h g with h | ⟨e', _, _⟩
    · rw [h]; exact hw.priv_held j p' hp' g hg
    · exact absurd (e' ▸ hg) hfp
  · intro j k p q hp hq hjk g e
    show p.slot g ∈ w.held
    obtain ⟨p', hp', _, h⟩ := slotp j p hp
    obtain ⟨q', hq', _, h'⟩ := slotp k q hq
    rcases h g with h | ⟨_, _, h⟩
    · rcases h' g with h' | ⟨_, _, h'⟩
      · rw [h]; exact hw.pub j k p' q' hp' hq' hjk g (by rw [← h, ← h', e])
      · rw [e, h']; exact ha
    · rw [h]; exact ha

/-- `orb.epoch = t` -/
theorem Sep.setEpoch {w : World α} (hw : Sep w) {i a : Nat} {o : Obj α} (ho : w.objs[i]? = some o) (ha : a ∈ w.held)
    (hk : (w.heap.cell a).kind = 2) : Sep { w with objs := w.objs.set i { o with epoch := a } } := by
  have slotp : ∀ (j : Nat) (p : Obj α), (w.objs.set i { o with epoch := a })[j]? = some p →
      ∃ q, w.objs[j]? = some q ∧ p.slot = q.slot ∧ (p.epoch = q.epoch ∨ p.epoch = a) := by
    intro j p hp
    rcases getElem?_set_cases hp with ⟨rfl, rfl⟩ | ⟨_, hp⟩
    · exact ⟨o, ho, rfl, Or.inr rfl⟩
    · exact ⟨p, hp, rfl, Or.inl rfl⟩
  constructor
  · intro j p hp; obtain ⟨q, hq, h, _⟩ := slotp j p hp; rw [h]; exact hw.slot_lt j q hq
  · intro j p hp
    obtain ⟨q, hq, _, h⟩ := slotp j p hp
    rcases h with h | h <;> rw [h]
    · exact hw.epoch_lt j q hq
    · exact hw.held_lt a ha
  · exact hw.held_lt
  · intro j p hp; obtain ⟨q, hq, h, _⟩ := slotp j p hp; rw [h]; exact hw.kind_m j q hq
  · intro j p hp; obtain ⟨q, hq, h, _⟩ := slotp j p hp; rw [h]; exact hw.kind_opts j q hq
  · intro j p hp
    obtain ⟨q, hq, _, h⟩ := slotp j p hp
    rcases h with h | h <;> rw [h]
    · exact hw.kind_epoch j q hq
    · exact hk
  · intro j k p q hp hq
    obtain ⟨p', hp', h, _⟩ := slotp j p hp
    obtain ⟨q', hq', h', _⟩ := slotp k q hq
    rw [h, h']; exact hw.priv j k p' q' hp' hq'
  · intro j k p q hp hq f hf
    obtain ⟨p', hp', h, _⟩ := slotp j p hp
    obtain ⟨q', hq', _, h'⟩ := slotp k q hq
    rcases h' with h' | h' <;> rw [h, h']
    · exact hw.priv_epoch j k p' q' hp' hq' f hf
    · exact fun e => hw.priv_held j p' hp' f hf (e ▸ ha)
  · intro j p hp; obtain ⟨q, hq, h, _⟩ := slotp j p hp; rw [h]; exact hw.priv_held j q hq
  · intro j k p q hp hq
    obtain ⟨p', hp', h, _⟩ := slotp j p hp
    obtain ⟨q', hq', h', _⟩ := slotp k q hq
    rw [h, h']; exact hw.pub j k p' q' hp' hq'

theorem Sep.storing {w : World α} (hw : Sep w) {i : Nat} {o : Obj α} (ho : w.objs[i]? = some o) (fr : Fin 9 → Bool) :
    Storing w i o fr :=
  ⟨Or.inr ho, hw.epoch_lt i o ho, hw.kind_epoch i o ho, fun j p hp f hf => hw.priv_epoch j i p o hp ho f hf⟩

theorem Sep.after {w : World α} (hw : Sep w) {i : Nat} {o : Obj α} (ho : w.objs[i]? = some o) (fr : Fin 9 → Bool) (s : Orb α) :
    Sep (w.after i o fr s) :=
  hw.store (hw.storing ho fr) s _ fun _ _ hp => getElem?_set_cases hp

/-- the record of a new object, before it gets arrays -/
def newObj (s : Orb α) (e : Nat) : Obj α :=
  { auto := s.auto, direct := s.direct, G := s.G, M0 := s.M0, degrees := s.degrees, type := s.type, kro := s.kro
    cro := s.cro, it := s.it, slot := fun _ => 0, epoch := e }

theorem create_eq (w : World α) (s : Orb α) (e : Nat) :
    w.create s e = { heap := w.heap.store (fun _ => true) (newObj s e) s
                     objs := w.objs ++ [(newObj s e).store w.heap (fun _ => true) s], held := w.held } := rfl

theorem getElem?_append_cases {β : Type} {l : List β} {j : Nat} {x y : β} (h : (l ++ [x])[j]? = some y) :
    (j = l.length ∧ y = x) ∨ (j ≠ l.length ∧ l[j]? = some y) := by
  rw [List.getElem?_append] at h
  split at h
  · right; exact ⟨by omega, h⟩
  · next hl =>
    rw [List.getElem?_singleton] at h
    split at h
    · left; exact ⟨by omega, (Option.some.inj h).symm⟩
    · cases h

/-- an epoch a new object may refer to -/
structure EpochOk (w : World α) (e : Nat) : Prop where
  lt : e < w.heap.size
  kind : (w.heap.cell e).kind = 2
  priv : ∀ (j : Nat) (p : Obj α), w.objs[j]? = some p → ∀ f, Private f → p.slot f ≠ e

theorem EpochOk.storing {w : World α} {e : Nat} (h : EpochOk w e) (i : Nat) (s : Orb α) : Storing w i (newObj s e) fun _ => true :=
  ⟨Or.inl fun _ => rfl, h.lt, h.kind, h.priv⟩

theorem Sep.create {w : World α} (hw : Sep w) {e : Nat} (h : EpochOk w e) (s : Orb α) : Sep (w.create s e) := by
  rw [create_eq]
  exact hw.store (h.storing w.objs.length s) s _ fun _ _ hp => getElem?_append_cases hp

theorem Sep.epochOk {w : World α} (hw : Sep w) {i : Nat} {o : Obj α} (ho : w.objs[i]? = some o) : EpochOk w o.epoch :=
  ⟨hw.epoch_lt i o ho, hw.kind_epoch i o ho, fun j p hp f hf => hw.priv_epoch j i p o hp ho f hf⟩

theorem Sep.epochHeld {w : World α} (hw : Sep w) {a : Nat} (ha : a ∈ w.held) (hk : (w.heap.cell a).kind = 2) : EpochOk w a :=
  ⟨hw.held_lt a ha, hk, fun j p hp f hf e => hw.priv_held j p hp f hf (e ▸ ha)⟩

theorem alloc_epochOk {w : World α} (hw : Sep w) :
    EpochOk { w with heap := w.heap.alloc (.epoch none) } w.heap.size := by
  refine ⟨Nat.lt_succ_self _, ?_, fun j p hp f _ e => ?_⟩
  · show (if w.heap.size = w.heap.size then (Cell.epoch none : Cell α) else _).kind = 2
    rw [if_pos rfl]; rfl
  · have := hw.slot_lt j p hp f; omega

/-- the caller gets a new array -/
theorem Sep.fresh {w : World α} (hw : Sep w) (c : Cell α) :
    Sep { w with heap := w.heap.alloc c, held := w.held ++ [w.heap.size] } :=
  (hw.alloc c).hold (Nat.lt_succ_self _) fun i o ho f _ e => by have := hw.slot_lt i o ho f; omega

theorem Sep.holdPub {w : World α} (hw : Sep w) {i : Nat} {o : Obj α} (ho : w.objs[i]? = some o) {f : Fin 9} (hf : ¬ Private f) :
    Sep { w with held := w.held ++ [o.slot f] } :=
  hw.hold (hw.slot_lt i o ho f) fun j p hp g hg e => hf ((hw.priv j i p o hp ho g f hg e).2 ▸ hg)

theorem Sep.hand {w : World α} (hw : Sep w) (c : Option (Cell α)) : Sep (w.hand c) := by
  cases c with
  | none => exact hw
  | some c => exact hw.fresh c

theorem Sep.give {w : World α} (hw : Sep w) (i : Nat) (g : Read) (x : g.Ans α) : Sep (w.give i g x) := by
  unfold World.give
  split
  · split
    · next o ho => exact hw.holdPub ho (by simp [Private])
    · exact hw
  · exact hw.hand _

variable (K)

theorem Sep.step {w : World α} (hw : Sep w) (x : Act α) : Sep (step K w x) := by
  cases x with
  | make c => exact hw.fresh c
  | write a c =>
    unfold Orbit.step; dsimp only
    split
    · next h => exact hw.put h.2
    · exact hw
  | new M0 kw u epoch =>
    unfold Orbit.step; dsimp only
    cases epoch with
    | none =>
      dsimp only
      split
      · exact (hw.alloc _).create (alloc_epochOk hw) _
      · exact hw
    | some a =>
      dsimp only
      split
      · next h =>
        split
        · exact hw.create (hw.epochHeld h.1 h.2) _
        · exact hw
      · exact hw
  | op i x fr =>
    unfold Orbit.step; dsimp only
    split
    · next o ho => exact hw.after ho _ _
    · exact hw
  | get i g fr =>
    unfold Orbit.step; dsimp only
    split
    · next o ho =>
      split
      · exact (hw.after ho _ _).give _ _ _
      · exact hw.after ho _ _
    · exact hw
  | getOpts i =>
    unfold Orbit.step; dsimp only
    split
    · next o ho => exact hw.holdPub ho (by simp [Private])
    · exact hw
  | getEpoch i =>
    unfold Orbit.step; dsimp only
    split
    · next o ho => exact hw.hold (hw.epoch_lt i o ho) fun j p hp f hf => hw.priv_epoch j i p o hp ho f hf
    · exact hw
  | setM i a =>
    unfold Orbit.step; dsimp only
    split
    · next o ho =>
      split
      · next h => exact hw.assign ho 0 0 (Or.inl ⟨rfl, rfl⟩) h.1 h.2
      · exact hw
    · exact hw
  | setOpts i a =>
    unfold Orbit.step; dsimp only
    split
    · next o ho =>
      split
      · next h => exact hw.assign ho 8 1 (Or.inr ⟨rfl, rfl⟩) h.1 h.2
      · exact hw
    · exact hw
  | setEpoch i a =>
    unfold Orbit.step; dsimp only
    split
    · next o ho =>
      split
      · next h => exact hw.setEpoch ho h.1 h.2
      · exact hw
    · exact hw
  | getitem i inds =>
    unfold Orbit.step; dsimp only
    split
    · next o ho =>
      split
      · exact hw.create (hw.epochOk ho) _
      · exact hw
    · exact hw
  | next i fr =>
    unfold Orbit.step; dsimp only
    split
    · next o ho =>
      have hk := hw.after ho (Op.rebinds Op.next (look K w.heap o) fr) (Orbit.next K (look K w.heap o)).2
      have hi : (w.after i o (Op.rebinds Op.next (look K w.heap o) fr) (Orbit.next K (look K w.heap o)).2).objs[i]? =
          some (o.store w.heap (Op.rebinds Op.next (look K w.heap o) fr) (Orbit.next K (look K w.heap o)).2) := by
        show (w.objs.set i _)[i]? = _
        rw [List.getElem?_set_self (List.getElem?_eq_some_iff.1 ho).1]
      split
      · exact hk.create (hk.epochOk hi) _
      · exact hk
    · exact hw

theorem Sep.start : Sep (World.start : World α) := by
  constructor <;> intros <;> simp_all [World.start]

theorem Sep.run {w : World α} (hw : Sep w) (l : List (Act α)) : Sep (runActs K w l) := by
  induction l generalizing w with
  | nil => exact hw
  | cons x l ih => exact ih (hw.step K x)


/-! ## Values -/

/-- No operation changes the reference or the content of `epoch`. -/
theorem run_epoch (x : Op α) (s : Orb α) : (x.run K s).2.epoch = s.epoch :=
  (fr_run K (f := Orb.epoch) (fun _ _ _ _ _ _ _ _ _ => rfl) x (.inr fun _ _ _ _ _ _ _ _ _ => rfl) (.inr fun _ _ => rfl)
    (.inr fun _ _ => rfl)).out s rfl

theorem get_state (g : Read) (s : Orb α) : ((Op.read g).run K s).2 = (g.get K s).2 := by
  show ((do let _ ← g.get K; pure () : Py α Unit) s).2 = _
  show (Py.bind _ _ s).2 = _
  unfold Py.bind
  rcases g.get K s with ⟨_ | _, t⟩ <;> rfl

theorem next_state (s : Orb α) : ((Op.next : Op α).run K s).2 = (Orbit.next K s).2 := by
  show ((do let _ ← Orbit.next K; pure () : Py α Unit) s).2 = _
  show (Py.bind _ _ s).2 = _
  unfold Py.bind
  rcases Orbit.next K s with ⟨_ | _, t⟩ <;> rfl

theorem look_store {w : World α} (hw : Sep w) {i : Nat} {o : Obj α} {fr : Fin 9 → Bool} (h : Storing w i o fr) (s : Orb α) :
    look K (w.heap.store fr o s) (o.store w.heap fr s) = { s with epoch := (w.heap.cell o.epoch).toEpoch } := by
  have at' := store_at w.heap fr o s (h.inj hw)
  have slot : (o.store w.heap fr s).slot = target w.heap fr o := rfl
  have ep : (w.heap.store fr o s).cell o.epoch = w.heap.cell o.epoch := by
    apply h.other s h.ep_lt
    intro f ho _ e
    by_cases hf : Private f
    · exact h.ep_priv i o ho f hf e
    · simp only [Private, not_and_or, not_not] at hf
      have hk := h.ep_kind
      rcases hf with rfl | rfl
      · have := hw.kind_m i o ho; rw [e] at this; omega
      · have := hw.kind_opts i o ho; rw [e] at this; omega
  unfold look
  rw [slot, show (o.store w.heap fr s).epoch = o.epoch from rfl, ep]
  simp only [at']
  rfl

theorem look_congr {h h' : Heap α} (o : Obj α) (hs : ∀ f, h'.cell (o.slot f) = h.cell (o.slot f))
    (he : h'.cell o.epoch = h.cell o.epoch) : look K h' o = look K h o := by
  unfold look; simp only [hs, he]

/-- the object takes the value the operation leaves -/
theorem val_after {w : World α} (hw : Sep w) {i : Nat} {o : Obj α} (ho : w.objs[i]? = some o) (fr : Fin 9 → Bool) (s : Orb α)
    (he : s.epoch = (look K w.heap o).epoch) : (w.after i o fr s).val K i = some s := by
  unfold World.val World.after
  dsimp only
  rw [List.getElem?_set_self (List.getElem?_eq_some_iff.1 ho).1]
  show some (look K _ _) = _
  rw [look_store K hw (hw.storing ho fr) s]
  exact congrArg some (by cases s; simp only [look] at he; simp only [he])

theorem val_create {w : World α} (hw : Sep w) {e : Nat} (h : EpochOk w e) (s : Orb α) (he : s.epoch = (w.heap.cell e).toEpoch) :
    (w.create s e).val K w.objs.length = some s := by
  rw [create_eq]
  unfold World.val
  dsimp only
  rw [List.getElem?_append_right (Nat.le_refl _), Nat.sub_self]
  show some (look K _ _) = _
  rw [look_store K hw (h.storing w.objs.length s) s]
  exact congrArg some (by cases s; simp only at he; simp only [he]; rfl)

theorem init_epoch {M0 : α} {kw : InitKw α} {u : Upd α} {s : Orb α} (h : init K M0 kw u = .ok s) : s.epoch = kw.epoch :=
  congrArg Settings.epoch (c63_settings K h).2.1

theorem getitem_epoch {inds : Inds} {s t : Orb α} (h : Orbit.getitem K inds s = .ok t) : t.epoch = s.epoch := by
  unfold Orbit.getitem at h
  simp only [bind, Except.bind] at h
  split at h
  · cases h
  split at h
  · cases h
  next h1 =>
  split at h
  · cases h
  split at h
  · cases h
  cases h
  exact (init_epoch K h1 :)

/-! ## Which cells a step changes -/

theorem after_cell {w : World α} (hw : Sep w) {i : Nat} {o : Obj α} (ho : w.objs[i]? = some o) (fr : Fin 9 → Bool) (s : Orb α)
    {a : Nat} (ha : a < w.heap.size) (hne : ∀ f, fr f = false → o.slot f ≠ a) : (w.after i o fr s).heap.cell a = w.heap.cell a :=
  (hw.storing ho fr).other s ha fun f _ hf => hne f hf

theorem create_cell {w : World α} {e : Nat} (s : Orb α) {a : Nat} (ha : a < w.heap.size) :
    (w.create s e).heap.cell a = w.heap.cell a := by
  rw [create_eq]
  apply store_other
  intro f
  show (if true then w.heap.size + f.val else _) ≠ a
  simp only [if_true]; omega

theorem alloc_cell {h : Heap α} (c : Cell α) {a : Nat} (ha : a < h.size) : (h.alloc c).cell a = h.cell a := by
  show (if a = h.size then c else h.cell a) = _
  rw [if_neg (by omega)]

theorem hand_cell {w : World α} (c : Option (Cell α)) {a : Nat} (ha : a < w.heap.size) : (w.hand c).heap.cell a = w.heap.cell a := by
  cases c with
  | none => rfl
  | some c => exact alloc_cell c ha

theorem give_cell {w : World α} (i : Nat) (g : Read) (x : g.Ans α) {a : Nat} (ha : a < w.heap.size) :
    (w.give i g x).heap.cell a = w.heap.cell a := by
  unfold World.give
  split
  · split <;> rfl
  · exact hand_cell _ ha

theorem after_size (w : World α) (i : Nat) (o : Obj α) (fr : Fin 9 → Bool) (s : Orb α) :
    (w.after i o fr s).heap.size = w.heap.size + 9 := rfl

/-- A step leaves the content of `a` alone, unless the caller writes it or the step is about an object that has `a` in a slot. -/
theorem step_cell {w : World α} (hw : Sep w) (x : Act α) {a : Nat} (ha : a < w.heap.size) (hx : ∀ c, x ≠ .write a c)
    (hs : ∀ (j : Nat) (p : Obj α), x.about = some j → w.objs[j]? = some p → ∀ f, p.slot f ≠ a) :
    (step K w x).heap.cell a = w.heap.cell a := by
  cases x with
  | make c => exact alloc_cell c ha
  | write b c =>
    unfold Orbit.step; dsimp only
    split
    · show (if a = b then c else w.heap.cell a) = _
      rw [if_neg]
      rintro rfl
      exact hx c rfl
    · rfl
  | new M0 kw u epoch =>
    unfold Orbit.step; dsimp only
    cases epoch with
    | none =>
      dsimp only
      split
      · rw [create_cell _ (show a < w.heap.size + 1 by omega)]; exact alloc_cell _ ha
      · rfl
    | some b =>
      dsimp only
      split
      · split
        · exact create_cell _ ha
        · rfl
      · rfl
  | op i x fr =>
    unfold Orbit.step; dsimp only
    split
    · next o ho => exact after_cell hw ho _ _ ha fun f _ => hs i o rfl ho f
    · rfl
  | get i g fr =>
    unfold Orbit.step; dsimp only
    split
    · next o ho =>
      split
      · rw [give_cell _ _ _ (by rw [after_size]; omega)]; exact after_cell hw ho _ _ ha fun f _ => hs i o rfl ho f
      · exact after_cell hw ho _ _ ha fun f _ => hs i o rfl ho f
    · rfl
  | getOpts i => unfold Orbit.step; dsimp only; split <;> rfl
  | getEpoch i => unfold Orbit.step; dsimp only; split <;> rfl
  | setM i b => unfold Orbit.step; dsimp only; split <;> (try split) <;> rfl
  | setOpts i b => unfold Orbit.step; dsimp only; split <;> (try split) <;> rfl
  | setEpoch i b => unfold Orbit.step; dsimp only; split <;> (try split) <;> rfl
  | getitem i inds =>
    unfold Orbit.step; dsimp only
    split
    · split
      · exact create_cell _ ha
      · rfl
    · rfl
  | next i fr =>
    unfold Orbit.step; dsimp only
    split
    · next o ho =>
      split
      · rw [create_cell _ (by rw [after_size]; omega)]; exact after_cell hw ho _ _ ha fun f _ => hs i o rfl ho f
      · exact after_cell hw ho _ _ ha fun f _ => hs i o rfl ho f
    · rfl

theorem create_objs (w : World α) (s : Orb α) (e : Nat) {i : Nat} (hi : i < w.objs.length) :
    (w.create s e).objs[i]? = w.objs[i]? := by
  rw [create_eq]; exact List.getElem?_append_left hi

theorem hand_objs (w : World α) (c : Option (Cell α)) : (w.hand c).objs = w.objs := by cases c <;> rfl

theorem give_objs (w : World α) (i : Nat) (g : Read) (x : g.Ans α) : (w.give i g x).objs = w.objs := by
  unfold World.give
  split
  · split <;> rfl
  · exact hand_objs _ _

/-- A step that is not about an object leaves its record alone. -/
theorem step_objs {w : World α} (x : Act α) {i : Nat} {o : Obj α} (ho : w.objs[i]? = some o) (hx : x.about ≠ some i) :
    (step K w x).objs[i]? = some o := by
  have hlt : i < w.objs.length := (List.getElem?_eq_some_iff.1 ho).1
  have hset : ∀ (j : Nat) (p : Obj α), j ≠ i → (w.objs.set j p)[i]? = some o := by
    intro j p hj; rw [List.getElem?_set_ne hj]; exact ho
  cases x with
  | make c => exact ho
  | write b c => unfold Orbit.step; dsimp only; split <;> exact ho
  | new M0 kw u epoch =>
    unfold Orbit.step; dsimp only
    cases epoch with
    | none =>
      dsimp only
      split
      · exact (create_objs _ _ _ (by exact hlt)).trans ho
      · exact ho
    | some b =>
      dsimp only
      split
      · split
        · rw [create_objs _ _ _ hlt]; exact ho
        · exact ho
      · exact ho
  | op j x fr =>
    have hj : j ≠ i := fun e => hx (congrArg some e)
    unfold Orbit.step; dsimp only
    split
    · exact hset _ _ hj
    · exact ho
  | get j g fr =>
    have hj : j ≠ i := fun e => hx (congrArg some e)
    unfold Orbit.step; dsimp only
    split
    · split
      · rw [give_objs]; exact hset _ _ hj
      · exact hset _ _ hj
    · exact ho
  | getOpts j => unfold Orbit.step; dsimp only; split <;> exact ho
  | getEpoch j => unfold Orbit.step; dsimp only; split <;> exact ho
  | setM j b =>
    have hj : j ≠ i := fun e => hx (congrArg some e)
    unfold Orbit.step; dsimp only
    split
    · split
      · exact hset _ _ hj
      · exact ho
    · exact ho
  | setOpts j b =>
    have hj : j ≠ i := fun e => hx (congrArg some e)
    unfold Orbit.step; dsimp only
    split
    · split
      · exact hset _ _ hj
      · exact ho
    · exact ho
  | setEpoch j b =>
    have hj : j ≠ i := fun e => hx (congrArg some e)
    unfold Orbit.step; dsimp only
    split
    · split
      · exact hset _ _ hj
      · exact ho
    · exact ho
  | getitem j inds =>
    unfold Orbit.step; dsimp only
    split
    · split
      · rw [create_objs _ _ _ hlt]; exact ho
      · exact ho
    · exact ho
  | next j fr =>
    have hj : j ≠ i := fun e => hx (congrArg some e)
    unfold Orbit.step; dsimp only
    split
    · split
      · rw [create_objs _ _ _ (by show i < (w.objs.set _ _).length; rw [List.length_set]; exact hlt)]; exact hset _ _ hj
      · exact hset _ _ hj
    · exact ho


/-- The references the caller gets by a step: new ones, or `m`, `solver_options` or `epoch` of the object the step is about. -/
theorem step_held {w : World α} (x : Act α) {a : Nat} (ha : a ∈ (step K w x).held) :
    a ∈ w.held ∨ w.heap.size ≤ a ∨
      ∃ (j : Nat) (p : Obj α), x.about = some j ∧ w.objs[j]? = some p ∧ (p.slot 0 = a ∨ p.slot 8 = a ∨ p.epoch = a) := by
  have app : ∀ {l : List Nat} {b : Nat}, a ∈ l ++ [b] → a ∈ l ∨ a = b := fun h => by simpa using h
  cases x with
  | make c =>
    rcases app ha with h | rfl
    · exact Or.inl h
    · exact Or.inr (Or.inl (Nat.le_refl _))
  | write b c => unfold Orbit.step at ha; dsimp only at ha; split at ha <;> exact Or.inl ha
  | new M0 kw u epoch =>
    unfold Orbit.step at ha; dsimp only at ha
    cases epoch with
    | none => dsimp only at ha; split at ha <;> exact Or.inl ha
    | some b => dsimp only at ha; split at ha <;> (try split at ha) <;> exact Or.inl ha
  | op i x fr => unfold Orbit.step at ha; dsimp only at ha; split at ha <;> exact Or.inl ha
  | get i g fr =>
    unfold Orbit.step at ha; dsimp only at ha
    split at ha
    · next o ho =>
      split at ha
      · next y _ =>
        unfold World.give at ha
        split at ha
        · split at ha
          · next q hq =>
            have hq' : q = o.store w.heap (Op.rebinds (Op.read g) (look K w.heap o) fr) (g.get K (look K w.heap o)).2 := by
              rcases getElem?_set_cases hq with ⟨_, h⟩ | ⟨h, _⟩
              · exact h
              · exact absurd rfl h
            rcases app ha with h | rfl
            · exact Or.inl h
            · right; right
              refine ⟨i, o, rfl, ho, Or.inl ?_⟩
              rw [hq']; rfl
          · exact Or.inl ha
        · cases hc : (g.array y) with
          | none => rw [hc] at ha; exact Or.inl ha
          | some c =>
            rw [hc] at ha
            rcases app ha with h | rfl
            · exact Or.inl h
            · right; left; show w.heap.size ≤ w.heap.size + 9; omega
      · exact Or.inl ha
    · exact Or.inl ha
  | getOpts i =>
    unfold Orbit.step at ha; dsimp only at ha
    split at ha
    · next o ho =>
      rcases app ha with h | rfl
      · exact Or.inl h
      · exact Or.inr (Or.inr ⟨i, o, rfl, ho, Or.inr (Or.inl rfl)⟩)
    · exact Or.inl ha
  | getEpoch i =>
    unfold Orbit.step at ha; dsimp only at ha
    split at ha
    · next o ho =>
      rcases app ha with h | rfl
      · exact Or.inl h
      · exact Or.inr (Or.inr ⟨i, o, rfl, ho, Or.inr (Or.inr rfl)⟩)
    · exact Or.inl ha
  | setM i b => unfold Orbit.step at ha; dsimp only at ha; split at ha <;> (try split at ha) <;> exact Or.inl ha
  | setOpts i b => unfold Orbit.step at ha; dsimp only at ha; split at ha <;> (try split at ha) <;> exact Or.inl ha
  | setEpoch i b => unfold Orbit.step at ha; dsimp only at ha; split at ha <;> (try split at ha) <;> exact Or.inl ha
  | getitem i inds => unfold Orbit.step at ha; dsimp only at ha; split at ha <;> (try split at ha) <;> exact Or.inl ha
  | next i fr => unfold Orbit.step at ha; dsimp only at ha; split at ha <;> (try split at ha) <;> exact Or.inl ha

/-! ## C103 -/

/-- a state some program can reach -/
def Reachable (w : World α) : Prop := ∃ l : List (Act α), w = runActs K World.start l

/-- object `i` is one whose `m` and `solver_options` the caller has never read or assigned -/
def Untouched (w : World α) (i : Nat) : Prop :=
  ∃ o, w.objs[i]? = some o ∧ o.slot 0 ∉ w.held ∧ o.slot 8 ∉ w.held

/-- the value without its epoch -/
def Orb.sansEpoch (s : Orb α) : Orb α := { s with epoch := none }

variable {K}

theorem Reachable.sep {w : World α} (h : Reachable K w) : Sep w := by
  obtain ⟨l, rfl⟩ := h
  exact Sep.start.run K l

theorem Reachable.step {w : World α} (h : Reachable K w) (x : Act α) : Reachable K (Orbit.step K w x) := by
  obtain ⟨l, rfl⟩ := h
  exact ⟨l ++ [x], by unfold runActs; rw [List.foldl_append]; rfl⟩

variable (K)

/-- C103, no step about another object and no write of the caller reaches an object whose `m` and `solver_options` the caller has
never got hold of. -/
theorem step_untouched {w : World α} (hw : Sep w) {i : Nat} {o : Obj α} (ho : w.objs[i]? = some o) (h0 : o.slot 0 ∉ w.held)
    (h8 : o.slot 8 ∉ w.held) (x : Act α) (hx : x.about ≠ some i) (hfail : ∀ c a, x = .write a c → a ∈ w.held ∨ step K w x = w) :
    (step K w x).objs[i]? = some o ∧ o.slot 0 ∉ (step K w x).held ∧ o.slot 8 ∉ (step K w x).held ∧
      (∀ f, (step K w x).heap.cell (o.slot f) = w.heap.cell (o.slot f)) ∧
      ((∀ c, x ≠ .write o.epoch c) → (step K w x).heap.cell o.epoch = w.heap.cell o.epoch) := by
  have held : ∀ f, o.slot f ∉ w.held := by
    intro f
    by_cases hf : Private f
    · exact hw.priv_held i o ho f hf
    · simp only [Private, not_and_or, not_not] at hf
      rcases hf with rfl | rfl
      · exact h0
      · exact h8
  have other : ∀ (j : Nat) (p : Obj α), x.about = some j → w.objs[j]? = some p → ∀ f g, p.slot f ≠ o.slot g := by
    intro j p hj hp f g e
    have hij : j ≠ i := fun e => hx (e ▸ hj)
    by_cases hf : Private f
    · exact hij (hw.priv j i p o hp ho f g hf e).1
    by_cases hg : Private g
    · exact hij (hw.priv i j o p ho hp g f hg e.symm).1.symm
    have k0 := hw.kind_m i o ho
    have k8 := hw.kind_opts i o ho
    have q0 := hw.kind_m j p hp
    have q8 := hw.kind_opts j p hp
    simp only [Private, not_and_or, not_not] at hf hg
    rcases hf with rfl | rfl <;> rcases hg with rfl | rfl
    · exact h0 (e ▸ hw.pub j i p o hp ho hij 0 e)
    · rw [e] at q0; omega
    · rw [e] at q8; omega
    · exact h8 (e ▸ hw.pub j i p o hp ho hij 8 e)
  have keep : ∀ f, (f = 0 ∨ f = 8) → o.slot f ∉ (step K w x).held := by
    intro f hf hm
    rcases step_held K x hm with h | h | ⟨j, p, hj, hp, h | h | h⟩
    · exact held f h
    · have := hw.slot_lt i o ho f; omega
    · exact other j p hj hp 0 f h
    · exact other j p hj hp 8 f h
    · have k2 := hw.kind_epoch j p hp
      have k0 := hw.kind_m i o ho
      have k8 := hw.kind_opts i o ho
      rcases hf with rfl | rfl <;> rw [h] at k2 <;> omega
  refine ⟨step_objs K x ho hx, keep 0 (Or.inl rfl), keep 8 (Or.inr rfl), fun f => ?_, fun hne => ?_⟩
  · by_cases hwr : ∃ c, x = .write (o.slot f) c
    · obtain ⟨c, hc⟩ := hwr
      rcases hfail c _ hc with h | h
      · exact absurd h (held f)
      · rw [h]
    · exact step_cell K hw x (hw.slot_lt i o ho f) (fun c hc => hwr ⟨c, hc⟩) fun j p hj hp g => other j p hj hp g f
  · refine step_cell K hw x (hw.epoch_lt i o ho) hne fun j p hj hp f e => ?_
    by_cases hf : Private f
    · exact hw.priv_epoch j i p o hp ho f hf e
    · have k2 := hw.kind_epoch i o ho
      have q0 := hw.kind_m j p hp
      have q8 := hw.kind_opts j p hp
      simp only [Private, not_and_or, not_not] at hf
      rcases hf with rfl | rfl
      · rw [e] at q0; omega
      · rw [e] at q8; omega

theorem write_fails (w : World α) (x : Act α) (c : Cell α) (a : Nat) (h : x = .write a c) : a ∈ w.held ∨ step K w x = w := by
  by_cases ha : a ∈ w.held
  · exact Or.inl ha
  · right
    rw [h]
    unfold Orbit.step; dsimp only
    rw [if_neg fun h => ha h.1]

theorem run_untouched {w : World α} (hw : Sep w) {i : Nat} {o : Obj α} (ho : w.objs[i]? = some o) (h0 : o.slot 0 ∉ w.held)
    (h8 : o.slot 8 ∉ w.held) (l : List (Act α)) (hl : ∀ x ∈ l, x.about ≠ some i) :
    (runActs K w l).objs[i]? = some o ∧ (∀ f, (runActs K w l).heap.cell (o.slot f) = w.heap.cell (o.slot f)) ∧
      ((∀ x ∈ l, ∀ c, x ≠ .write o.epoch c) → (runActs K w l).heap.cell o.epoch = w.heap.cell o.epoch) := by
  induction l generalizing w with
  | nil => exact ⟨ho, fun _ => rfl, fun _ => rfl⟩
  | cons x l ih =>
    obtain ⟨p1, p2, p3, p4, p5⟩ := step_untouched K hw ho h0 h8 x (hl x (List.mem_cons_self ..)) (write_fails K w x)
    obtain ⟨q1, q2, q3⟩ := ih (hw.step K x) p1 p2 p3 fun y hy => hl y (List.mem_cons_of_mem _ hy)
    refine ⟨q1, fun f => (q2 f).trans (p4 f), fun h => ?_⟩
    exact (q3 fun y hy => h y (List.mem_cons_of_mem _ hy)).trans (p5 (h x (List.mem_cons_self ..)))

/-- C103, independence: in every program, an object whose `m` and `solver_options` the caller has not got hold of keeps its value,
apart from a mutable epoch, whatever is done to other objects and to any array the caller has.  If the object in `epoch` is not
changed in place either, nothing changes. -/
theorem c103_independent {w : World α} (hw : Reachable K w) {i : Nat} (hi : Untouched w i) (l : List (Act α))
    (hl : ∀ x ∈ l, x.about ≠ some i) :
    ((runActs K w l).val K i).map Orb.sansEpoch = (w.val K i).map Orb.sansEpoch ∧
      ((∀ x ∈ l, ∀ a c, x = .write a c → (w.objs[i]?).map Obj.epoch ≠ some a) → (runActs K w l).val K i = w.val K i) := by
  obtain ⟨o, ho, h0, h8⟩ := hi
  obtain ⟨q1, q2, q3⟩ := run_untouched K hw.sep ho h0 h8 l hl
  unfold World.val
  rw [q1, ho]
  constructor
  · show some (Orb.sansEpoch (look K _ o)) = some (Orb.sansEpoch (look K _ o))
    unfold Orb.sansEpoch look
    simp only [q2]
  · intro h
    exact congrArg some (look_congr K o q2 (q3 fun x hx c hc => h x hx _ c hc rfl))

/-- C103, new objects: what the constructor, indexing, `copy()` and iteration return is an object of its own. -/
theorem create_untouched {w : World α} (hw : Sep w) {e : Nat} (s : Orb α) : Untouched (w.create s e) w.objs.length := by
  refine ⟨(newObj s e).store w.heap (fun _ => true) s, ?_, ?_, ?_⟩
  · rw [create_eq]; dsimp only
    rw [List.getElem?_append_right (Nat.le_refl _), Nat.sub_self]; rfl
  · intro h
    have := hw.held_lt _ h
    have e : ((newObj s e).store w.heap (fun _ => true) s).slot 0 = w.heap.size + 0 := rfl
    omega
  · intro h
    have := hw.held_lt _ h
    have e : ((newObj s e).store w.heap (fun _ => true) s).slot 8 = w.heap.size + 8 := rfl
    omega

theorem val_eq {w : World α} {i : Nat} {s : Orb α} (h : w.val K i = some s) : ∃ o, w.objs[i]? = some o ∧ look K w.heap o = s := by
  unfold World.val at h
  cases ho : w.objs[i]? with
  | none => rw [ho] at h; cases h
  | some o => rw [ho] at h; exact ⟨o, rfl, Option.some.inj h⟩

/-- C103, values: in every program, an operation on an object leaves it with the value `OrbitCls` computes, however its arrays are
stored; all theorems about values therefore hold for the objects of a program. -/
theorem c103_value {w : World α} (hw : Reachable K w) {i : Nat} {s : Orb α} (hs : w.val K i = some s) (x : Op α)
    (fr : Fin 9 → Bool) : (step K w (.op i x fr)).val K i = some (x.run K s).2 := by
  obtain ⟨o, ho, rfl⟩ := val_eq K hs
  unfold Orbit.step; dsimp only
  rw [ho]; dsimp only
  exact val_after K hw.sep ho _ _ (run_epoch K x _)

/-- C103, copies: `orb[inds]` (so also `orb.copy()`) makes a new object with the value `OrbitCls` computes; no later step of the
program that is not about the new object changes it, except that a mutable object in `epoch` is shared with the original. -/
theorem c103_copy {w : World α} (hw : Reachable K w) {i : Nat} {s t : Orb α} (hs : w.val K i = some s) (inds : Inds)
    (ht : Orbit.getitem K inds s = .ok t) (l : List (Act α)) (hl : ∀ x ∈ l, x.about ≠ some w.objs.length) :
    let w' := step K w (.getitem i inds)
    w'.val K w.objs.length = some t ∧ ((runActs K w' l).val K w.objs.length).map Orb.sansEpoch = some (Orb.sansEpoch t) := by
  obtain ⟨o, ho, rfl⟩ := val_eq K hs
  intro w'
  have hw' : w' = w.create t o.epoch := by
    show Orbit.step K w _ = _
    unfold Orbit.step; dsimp only
    rw [ho]; dsimp only
    rw [ht]
  have hv : w'.val K w.objs.length = some t := by
    rw [hw']
    exact val_create K hw.sep (hw.sep.epochOk ho) t (getitem_epoch K ht)
  refine ⟨hv, ?_⟩
  have := (c103_independent K (hw.step (.getitem i inds)) (i := w.objs.length) (by
    rw [show Orbit.step K w _ = _ from hw']; exact create_untouched hw.sep t) l hl).1
  rw [this, hv]; rfl


theorem getitem_heap {w : World α} (i : Nat) (inds : Inds) {a : Nat} (ha : a < w.heap.size) :
    (step K w (.getitem i inds)).heap.cell a = w.heap.cell a := by
  unfold Orbit.step; dsimp only
  split
  · split
    · exact create_cell _ ha
    · rfl
  · rfl

theorem getitem_objs {w : World α} (i : Nat) (inds : Inds) {j : Nat} (hj : j < w.objs.length) :
    (step K w (.getitem i inds)).objs[j]? = w.objs[j]? := by
  unfold Orbit.step; dsimp only
  split
  · split
    · exact create_objs _ _ _ hj
    · rfl
  · rfl

/-- C103: indexing and copying change no object that exists. -/
theorem c103_copy_original {w : World α} (hw : Reachable K w) (i : Nat) (inds : Inds) {j : Nat} {s : Orb α}
    (hs : w.val K j = some s) : (step K w (.getitem i inds)).val K j = some s := by
  obtain ⟨o, ho, rfl⟩ := val_eq K hs
  unfold World.val
  rw [getitem_objs K i inds (List.getElem?_eq_some_iff.1 ho).1, ho]
  exact congrArg some (look_congr K o (fun f => getitem_heap K i inds (hw.sep.slot_lt j o ho f))
    (getitem_heap K i inds (hw.sep.epoch_lt j o ho)))

theorem run_opts (x : Op α) (hx : ∀ o, x ≠ .setOpts o) (s : Orb α) : (x.run K s).2.opts = s.opts := by
  by_cases ha : x.assignsSettings = false
  · exact (fr_run K (f := Orb.opts) (fun _ _ _ _ _ _ _ _ _ => rfl) x (.inl ha) (.inr fun _ _ => rfl)
      (.inr fun _ _ => rfl)).out s rfl
  · cases x <;> first | rfl | exact absurd rfl ha | exact absurd rfl (hx _)

theorem run_mass (x : Op α) (hx : x.assignsMass = false) (s : Orb α) : (x.run K s).2.m = s.m :=
  c59_mass K s [x] (by simpa using hx)

theorem Cell.row_of_kind {c : Cell α} (h : c.kind = 0) : c = .row c.toRow := by cases c <;> first | rfl | cases h
theorem Cell.opts_of_kind {c : Cell α} (d : SolverOpts α) (h : c.kind = 1) : c = .opts (c.toOpts d) := by
  cases c <;> first | rfl | cases h

/-- C103, frame: an operation on one object changes another one only if the two were given the same array as `m` and the operation
assigns masses. -/
theorem c103_frame {w : World α} (hw : Reachable K w) {i j : Nat} (hij : i ≠ j) {o p : Obj α} (ho : w.objs[i]? = some o)
    (hp : w.objs[j]? = some p) (x : Op α) (fr : Fin 9 → Bool) (hm : o.slot 0 ≠ p.slot 0 ∨ x.assignsMass = false) :
    (step K w (.op j x fr)).val K i = w.val K i := by
  have hS := hw.sep
  have hobj := step_objs K (.op j x fr) ho (fun e => hij (Option.some.inj e).symm)
  have hstep : step K w (.op j x fr) =
      w.after j p (x.rebinds (look K w.heap p) fr) (x.run K (look K w.heap p)).2 := by
    unfold Orbit.step; dsimp only; rw [hp]
  unfold World.val
  rw [hobj, ho]
  rw [hstep]
  have inj := (hS.storing hp (x.rebinds (look K w.heap p) fr)).inj hS
  refine congrArg some (look_congr K o (fun f => ?_) ?_)
  · by_cases hc : x.rebinds (look K w.heap p) fr f = false ∧ p.slot f = o.slot f
    · obtain ⟨hf, e⟩ := hc
      have hmem := hS.pub j i p o hp ho (Ne.symm hij) f e
      have hpub : ¬ Private f := fun h => hS.priv_held j p hp f h hmem
      have ht : target w.heap (x.rebinds (look K w.heap p) fr) p f = o.slot f := by unfold target; rw [hf]; exact e
      have hst := store_at w.heap (x.rebinds (look K w.heap p) fr) p (x.run K (look K w.heap p)).2 inj f
      rw [ht] at hst
      refine hst.trans ?_
      simp only [Private, not_and_or, not_not] at hpub
      rcases hpub with rfl | rfl
      · rcases hm with hm | hm
        · exact absurd e.symm hm
        · show Cell.row _ = _
          rw [run_mass K x hm]
          show Cell.row (w.heap.cell (p.slot 0)).toRow = _
          rw [← Cell.row_of_kind (hS.kind_m j p hp), e]
      · have hx : ∀ o, x ≠ .setOpts o := by
          rintro o rfl
          cases hf
        show Cell.opts _ = _
        rw [run_opts K x hx]
        show Cell.opts ((w.heap.cell (p.slot 8)).toOpts _) = _
        rw [← Cell.opts_of_kind (noOpts K) (hS.kind_opts j p hp), e]
    · refine after_cell hS hp _ _ (hS.slot_lt i o ho f) fun g hg e => ?_
      by_cases hgf : g = f
      · subst hgf; exact hc ⟨hg, e⟩
      by_cases h1 : Private g
      · exact hij (hS.priv j i p o hp ho g f h1 e).1.symm
      by_cases h2 : Private f
      · exact hij (hS.priv i j o p ho hp f g h2 e.symm).1
      have k0 := hS.kind_m i o ho
      have k8 := hS.kind_opts i o ho
      have q0 := hS.kind_m j p hp
      have q8 := hS.kind_opts j p hp
      simp only [Private, not_and_or, not_not] at h1 h2
      rcases h1 with rfl | rfl <;> rcases h2 with rfl | rfl
      · exact hgf rfl
      · rw [e] at q0; omega
      · rw [e] at q8; omega
      · exact hgf rfl
  · refine after_cell hS hp _ _ (hS.epoch_lt i o ho) fun g hg e => ?_
    by_cases h1 : Private g
    · exact hS.priv_epoch j i p o hp ho g h1 e
    have k2 := hS.kind_epoch i o ho
    have q0 := hS.kind_m j p hp
    have q8 := hS.kind_opts j p hp
    simp only [Private, not_and_or, not_not] at h1
    rcases h1 with rfl | rfl
    · rw [e] at q0; omega
    · rw [e] at q8; omega

/-- C103, writes: the caller changes an object by writing into an array it has only if that array is the object's `m`,
`solver_options` or `epoch`. -/
theorem c103_write {w : World α} (hw : Reachable K w) {i : Nat} {o : Obj α} (ho : w.objs[i]? = some o) (a : Nat) (c : Cell α)
    (h0 : a ≠ o.slot 0) (h8 : a ≠ o.slot 8) (he : a ≠ o.epoch) : (step K w (.write a c)).val K i = w.val K i := by
  have hS := hw.sep
  by_cases ha : a ∈ w.held
  · unfold World.val
    rw [step_objs K (.write a c) ho (by intro h; cases h), ho]
    refine congrArg some (look_congr K o (fun f => ?_) ?_)
    · refine step_cell K hS _ (hS.slot_lt i o ho f) (fun c' h => ?_) (by intro j p h; cases h)
      injection h with h1 _
      by_cases hf : Private f
      · exact hS.priv_held i o ho f hf (h1 ▸ ha)
      · simp only [Private, not_and_or, not_not] at hf
        rcases hf with rfl | rfl
        · exact h0 h1
        · exact h8 h1
    · refine step_cell K hS _ (hS.epoch_lt i o ho) (fun c' h => ?_) (by intro j p h; cases h)
      injection h with h1 _
      exact he h1
  · rcases write_fails K w (.write a c) c a rfl with h | h
    · exact absurd h ha
    · rw [h]

theorem after_objs_self {w : World α} {i : Nat} {o : Obj α} (ho : w.objs[i]? = some o) (fr : Fin 9 → Bool) (s : Orb α) :
    (w.after i o fr s).objs[i]? = some (o.store w.heap fr s) := by
  show (w.objs.set i _)[i]? = _
  rw [List.getElem?_set_self (List.getElem?_eq_some_iff.1 ho).1]

/-- C103, answers: a property getter returns the array `OrbitCls` computes under a reference nobody else has, and the object keeps
the value the getter leaves. -/
theorem c103_get {w : World α} (hw : Reachable K w) {i : Nat} {s : Orb α} (hs : w.val K i = some s) (g : Read) (fr : Fin 9 → Bool)
    {x : g.Ans α} (hx : (g.get K s).1 = .ok x) {c : Cell α} (hc : g.array x = some c) :
    let w' := step K w (.get i g fr)
    w'.val K i = some (g.get K s).2 ∧ ∃ a, a ∉ w.held ∧ w'.held = w.held ++ [a] ∧ w'.heap.cell a = c ∧ a < w'.heap.size ∧
      (∀ (j : Nat) (p : Obj α), w'.objs[j]? = some p → (∀ f, p.slot f ≠ a) ∧ p.epoch ≠ a) := by
  obtain ⟨o, ho, rfl⟩ := val_eq K hs
  intro w'
  have hS := hw.sep
  have hA := hS.after ho ((Op.read g).rebinds (look K w.heap o) fr) (g.get K (look K w.heap o)).2
  have hM : g.isM = false := by cases g <;> first | rfl | cases hc
  have e : w' = (w.after i o ((Op.read g).rebinds (look K w.heap o) fr) (g.get K (look K w.heap o)).2).hand (some c) := by
    show Orbit.step K w _ = _
    unfold Orbit.step; dsimp only
    rw [ho]; dsimp only
    rw [hx]; dsimp only
    unfold World.give
    rw [if_neg (by rw [hM]; exact Bool.false_ne_true), hc]
  have hv := val_after K hS ho ((Op.read g).rebinds (look K w.heap o) fr) (g.get K (look K w.heap o)).2
    (by rw [← get_state]; exact run_epoch K (.read g) _)
  rw [e]
  refine ⟨?_, w.heap.size + 9, ?_, rfl, ?_, Nat.lt_succ_self _, fun j p hp => ⟨fun f => ?_, ?_⟩⟩
  · rw [← hv]
    unfold World.val
    rw [hand_objs, after_objs_self ho]
    exact congrArg some (look_congr K _ (fun f => hand_cell _ (hA.slot_lt i _ (after_objs_self ho _ _) f))
      (hand_cell _ (hA.epoch_lt i _ (after_objs_self ho _ _))))
  · intro h; have := hS.held_lt _ h; omega
  · exact if_pos rfl
  · rw [hand_objs] at hp
    have : p.slot f < w.heap.size + 9 := hA.slot_lt j p hp f
    omega
  · rw [hand_objs] at hp
    have : p.epoch < w.heap.size + 9 := hA.epoch_lt j p hp
    omega

/-- C103, answers stay: an array the caller has and that is not the `m` or `solver_options` of an object keeps its content,
whatever operations follow, until the caller writes into it or assigns it to an object. -/
theorem c103_answer {w : World α} (hw : Reachable K w) {a : Nat} (ha : a ∈ w.held)
    (hfree : ∀ (j : Nat) (p : Obj α), w.objs[j]? = some p → p.slot 0 ≠ a ∧ p.slot 8 ≠ a) (l : List (Act α))
    (hl : ∀ x ∈ l, ∀ c j, x ≠ .write a c ∧ x ≠ .setM j a ∧ x ≠ .setOpts j a) :
    (runActs K w l).heap.cell a = w.heap.cell a := by
  have free : ∀ {w : World α}, Sep w → a ∈ w.held →
      (∀ (j : Nat) (p : Obj α), w.objs[j]? = some p → p.slot 0 ≠ a ∧ p.slot 8 ≠ a) →
      ∀ (j : Nat) (p : Obj α), w.objs[j]? = some p → ∀ f, p.slot f ≠ a := by
    intro w hS ha hfree j p hp f e
    by_cases hf : Private f
    · exact hS.priv_held j p hp f hf (e ▸ ha)
    · simp only [Private, not_and_or, not_not] at hf
      rcases hf with rfl | rfl
      · exact (hfree j p hp).1 e
      · exact (hfree j p hp).2 e
  have grow : ∀ (w : World α) (x : Act α), a ∈ w.held → a ∈ (step K w x).held := by
    intro w x ha
    cases x <;> unfold Orbit.step <;> dsimp only
    case make => exact List.mem_append_left _ ha
    case write => split <;> exact ha
    case new M0 kw u ep => cases ep <;> dsimp only <;> split <;> (try split) <;> exact ha
    case op => split <;> exact ha
    case get i g fr =>
      split
      · split
        · next y _ =>
          unfold World.give
          split
          · split
            · exact List.mem_append_left _ ha
            · exact ha
          · cases hc : g.array y with
            | none => exact ha
            | some c => exact List.mem_append_left _ ha
        · exact ha
      · exact ha
    case getOpts => split <;> first | exact List.mem_append_left _ ha | exact ha
    case getEpoch => split <;> first | exact List.mem_append_left _ ha | exact ha
    all_goals split <;> (try split) <;> exact ha
  have keep : ∀ (w : World α) (x : Act α), Sep w → a ∈ w.held →
      (∀ (j : Nat) (p : Obj α), w.objs[j]? = some p → p.slot 0 ≠ a ∧ p.slot 8 ≠ a) →
      (∀ c j, x ≠ .write a c ∧ x ≠ .setM j a ∧ x ≠ .setOpts j a) →
      ∀ (j : Nat) (p : Obj α), (step K w x).objs[j]? = some p → p.slot 0 ≠ a ∧ p.slot 8 ≠ a := by
    intro w x hS ha hfree hx
    have lt := hS.held_lt a ha
    have after : ∀ {i : Nat} {o : Obj α} (fr : Fin 9 → Bool) (s : Orb α), w.objs[i]? = some o →
        ∀ (j : Nat) (p : Obj α), (w.after i o fr s).objs[j]? = some p → p.slot 0 ≠ a ∧ p.slot 8 ≠ a := by
      intro i o fr s ho j p hp
      rcases getElem?_set_cases hp with ⟨rfl, rfl⟩ | ⟨_, hp⟩
      · have tn : ∀ f, target w.heap fr o f ≠ a := by
          intro f
          unfold target
          split
          · omega
          · exact free hS ha hfree j o ho f
        exact ⟨tn 0, tn 8⟩
      · exact hfree j p hp
    have create : ∀ {w' : World α} (s : Orb α) (e : Nat), a < w'.heap.size →
        (∀ (j : Nat) (p : Obj α), w'.objs[j]? = some p → p.slot 0 ≠ a ∧ p.slot 8 ≠ a) →
        ∀ (j : Nat) (p : Obj α), (w'.create s e).objs[j]? = some p → p.slot 0 ≠ a ∧ p.slot 8 ≠ a := by
      intro w' s e hlt hf j p hp
      rw [create_eq] at hp
      rcases getElem?_append_cases hp with ⟨_, rfl⟩ | ⟨_, hp⟩
      · have tn : ∀ f, target w'.heap (fun _ => true) (newObj s e) f ≠ a := by
          intro f
          unfold target
          simp only [if_true]; omega
        exact ⟨tn 0, tn 8⟩
      · exact hf j p hp
    cases x <;> unfold Orbit.step <;> dsimp only
    case make => exact hfree
    case write => split <;> exact hfree
    case new M0 kw u ep =>
      cases ep <;> dsimp only
      · split
        · exact create _ _ (Nat.lt_succ_of_lt lt) hfree
        · exact hfree
      · split
        · split
          · exact create _ _ lt hfree
          · exact hfree
        · exact hfree
    case op =>
      split
      · next o ho => exact after _ _ ho
      · exact hfree
    case get i g fr =>
      split
      · next o ho =>
        split
        · rw [give_objs]; exact after _ _ ho
        · exact after _ _ ho
      · exact hfree
    case getOpts => split <;> exact hfree
    case getEpoch => split <;> exact hfree
    case setM i b =>
      split
      · next o ho =>
        split
        · intro j p hp
          rcases getElem?_set_cases hp with ⟨rfl, rfl⟩ | ⟨_, hp⟩
          · refine ⟨?_, ?_⟩
            · show Function.update o.slot 0 b 0 ≠ a
              rw [Function.update_self]
              rintro rfl
              exact (hx (.row []) j).2.1 rfl
            · show Function.update o.slot 0 b 8 ≠ a
              rw [Function.update_of_ne (by decide)]
              exact (hfree j o ho).2
          · exact hfree j p hp
        · exact hfree
      · exact hfree
    case setOpts i b =>
      split
      · next o ho =>
        split
        · intro j p hp
          rcases getElem?_set_cases hp with ⟨rfl, rfl⟩ | ⟨_, hp⟩
          · refine ⟨?_, ?_⟩
            · show Function.update o.slot 8 b 0 ≠ a
              rw [Function.update_of_ne (by decide)]
              exact (hfree j o ho).1
            · show Function.update o.slot 8 b 8 ≠ a
              rw [Function.update_self]
              rintro rfl
              exact (hx (.row []) j).2.2 rfl
          · exact hfree j p hp
        · exact hfree
      · exact hfree
    case setEpoch i b =>
      split
      · next o ho =>
        split
        · intro j p hp
          rcases getElem?_set_cases hp with ⟨rfl, rfl⟩ | ⟨_, hp⟩
          · exact hfree j o ho
          · exact hfree j p hp
        · exact hfree
      · exact hfree
    case getitem =>
      split
      · split
        · exact create _ _ lt hfree
        · exact hfree
      · exact hfree
    case next i fr =>
      split
      · next o ho =>
        split
        · exact create _ _ (by rw [after_size]; omega) (after _ _ ho)
        · exact after _ _ ho
      · exact hfree
  have hS := hw.sep
  clear hw
  induction l generalizing w with
  | nil => rfl
  | cons x l ih =>
    have hx := hl x (List.mem_cons_self ..)
    have h1 := step_cell K hS x (hS.held_lt a ha) (fun c => (hx c 0).1) fun j p _ hp => free hS ha hfree j p hp
    exact (ih (grow w x ha) (keep w x hS ha hfree hx) (fun y hy => hl y (List.mem_cons_of_mem _ hy)) (hS.step K x)).trans h1

/-- C103, the exception: after `orb.m = arr` the caller changes the masses of the object by writing into `arr`. -/
theorem c103_m_is_shared {w : World α} (hw : Reachable K w) {i : Nat} {s : Orb α} (hs : w.val K i = some s) {a : Nat}
    (ha : a ∈ w.held) {l0 : List α} (hc : w.heap.cell a = .row l0) (l : List α) :
    (runActs K w [.setM i a, .write a (.row l)]).val K i = some { s with m := l } := by
  obtain ⟨o, ho, rfl⟩ := val_eq K hs
  have hS := hw.sep
  have h1 : step K w (.setM i a) = { w with objs := w.objs.set i { o with slot := Function.update o.slot 0 a } } := by
    unfold Orbit.step; dsimp only
    rw [ho]; dsimp only
    rw [if_pos ⟨ha, by rw [hc]; rfl⟩]
  show (step K (step K w (.setM i a)) (.write a (.row l))).val K i = _
  rw [h1]
  unfold Orbit.step; dsimp only
  rw [if_pos ⟨ha, by rw [hc]; rfl⟩]
  unfold World.val
  dsimp only
  rw [List.getElem?_set_self (List.getElem?_eq_some_iff.1 ho).1]
  have priv : ∀ f, Private f → o.slot f ≠ a := fun f hf e => hS.priv_held i o ho f hf (e ▸ ha)
  have h8 : o.slot 8 ≠ a := by
    intro e; have := hS.kind_opts i o ho; rw [e, hc] at this; cases this
  have he : o.epoch ≠ a := by
    intro e; have := hS.kind_epoch i o ho; rw [e, hc] at this; cases this
  have other : ∀ b, b ≠ a → (w.heap.put a (.row l)).cell b = w.heap.cell b := fun b hb => if_neg hb
  have self : (w.heap.put a (.row l)).cell a = .row l := if_pos rfl
  have up : ∀ f, f ≠ 0 → Function.update o.slot 0 a f = o.slot f := fun f hf => Function.update_of_ne hf ..
  refine congrArg some ?_
  unfold look
  simp only [Function.update_self, self, up 1 (by decide), up 2 (by decide), up 3 (by decide), up 4 (by decide), up 5 (by decide),
    up 6 (by decide), up 7 (by decide), up 8 (by decide), other _ (priv 1 (by simp [Private])), other _ (priv 2 (by simp [Private])),
    other _ (priv 3 (by simp [Private])), other _ (priv 4 (by simp [Private])), other _ (priv 5 (by simp [Private])),
    other _ (priv 6 (by simp [Private])), other _ (priv 7 (by simp [Private])), other _ h8, other _ he]
  rfl

/-- C103, the other exception: a copy refers to the same object in `epoch`; changed in place, it changes in both. -/
theorem c103_epoch_is_shared {w : World α} (hw : Reachable K w) {i : Nat} {s t : Orb α} (hs : w.val K i = some s)
    (ht : Orbit.copy K s = .ok t) (e : Option α) :
    ∃ a, let w' := runActs K w [.getitem i .all, .getEpoch i, .write a (.epoch e)]
      (w'.val K i).map Orb.epoch = some e ∧ (w'.val K w.objs.length).map Orb.epoch = some e := by
  obtain ⟨o, ho, rfl⟩ := val_eq K hs
  have hS := hw.sep
  have hlt : i < w.objs.length := (List.getElem?_eq_some_iff.1 ho).1
  have h1 : step K w (.getitem i .all) = w.create t o.epoch := by
    unfold Orbit.step; dsimp only
    rw [ho]; dsimp only
    rw [show Orbit.getitem K .all _ = _ from ht]
  have ho' : (w.create t o.epoch).objs[i]? = some o := by rw [create_objs _ _ _ hlt]; exact ho
  have hk : ((w.create t o.epoch).heap.cell o.epoch).kind = 2 := by
    rw [create_cell t (hS.epoch_lt i o ho)]; exact hS.kind_epoch i o ho
  refine ⟨o.epoch, ?_⟩
  intro w'
  have e' : w' = { (w.create t o.epoch) with
      held := (w.create t o.epoch).held ++ [o.epoch], heap := (w.create t o.epoch).heap.put o.epoch (.epoch e) } := by
    show step K (step K (step K w (.getitem i .all)) (.getEpoch i)) (.write o.epoch (.epoch e)) = _
    rw [h1]
    have h2 : step K (w.create t o.epoch) (.getEpoch i) =
        { (w.create t o.epoch) with held := (w.create t o.epoch).held ++ [o.epoch] } := by
      unfold Orbit.step; dsimp only; rw [ho']
    rw [h2]
    unfold Orbit.step; dsimp only
    rw [if_pos ⟨by simp, hk⟩]
  rw [e']
  have self : ((w.create t o.epoch).heap.put o.epoch (.epoch e)).cell o.epoch = .epoch e := if_pos rfl
  unfold World.val
  dsimp only
  constructor
  · rw [ho']
    show some (look K _ o).epoch = _
    unfold look; dsimp only; rw [self]; rfl
  · rw [create_eq]; dsimp only
    rw [List.getElem?_append_right (Nat.le_refl _), Nat.sub_self]
    show some (look K _ ((newObj t o.epoch).store w.heap (fun _ => true) t)).epoch = _
    unfold look; dsimp only
    show some ((((w.create t o.epoch).heap.put o.epoch (.epoch e)).cell o.epoch).toEpoch) = _
    rw [self]; rfl


/-- C103, constructor: the new object has the value `OrbitCls` computes and arrays of its own, also if masses, elements and solver
options were given as arrays or a dictionary of the caller. -/
theorem c103_new {w : World α} (hw : Reachable K w) {M0 : α} {kw : InitKw α} {u : Upd α} {s : Orb α}
    (h : init K M0 { kw with epoch := none } u = .ok s) :
    (step K w (.new M0 kw u none)).val K w.objs.length = some s ∧ Untouched (step K w (.new M0 kw u none)) w.objs.length := by
  have hS := hw.sep
  have e : step K w (.new M0 kw u none) = { w with heap := w.heap.alloc (.epoch none) }.create s w.heap.size := by
    unfold Orbit.step; dsimp only; rw [h]
  rw [e]
  refine ⟨val_create K (hS.alloc _) (alloc_epochOk hS) s ?_, create_untouched (hS.alloc _) s⟩
  rw [init_epoch K h]
  show none = (if w.heap.size = w.heap.size then (Cell.epoch none : Cell α) else _).toEpoch
  rw [if_pos rfl]; rfl

/-- C103, iteration: `next(orb)` returns a new object with arrays of its own. -/
theorem c103_next {w : World α} (hw : Reachable K w) {i : Nat} {s t : Orb α} (hs : w.val K i = some s) (fr : Fin 9 → Bool)
    (ht : (Orbit.next K s).1 = .ok t) :
    (step K w (.next i fr)).objs.length = w.objs.length + 1 ∧ Untouched (step K w (.next i fr)) w.objs.length := by
  obtain ⟨o, ho, rfl⟩ := val_eq K hs
  have hA := hw.sep.after ho (Op.rebinds Op.next (look K w.heap o) fr) (Orbit.next K (look K w.heap o)).2
  have e : step K w (.next i fr) =
      (w.after i o (Op.rebinds Op.next (look K w.heap o) fr) (Orbit.next K (look K w.heap o)).2).create t o.epoch := by
    unfold Orbit.step; dsimp only
    rw [ho]; dsimp only
    rw [ht]
  have hl : (w.after i o (Op.rebinds Op.next (look K w.heap o) fr) (Orbit.next K (look K w.heap o)).2).objs.length =
      w.objs.length := List.length_set ..
  rw [e]
  refine ⟨?_, ?_⟩
  · rw [create_eq]; dsimp only; rw [List.length_append, hl]; rfl
  · have := create_untouched hA (e := o.epoch) t
    rw [hl] at this
    exact this

/-- A program that meets the hypotheses: an object with one orbit, its copy, and operations on the original and on arrays of the
caller, among them one assigned to `m` of the original and then changed.  The copy stays as it was. -/
example (M0 G x y : α) (o : SolverOpts α) (fr : Fin 9 → Bool) :
    ∃ (w : World α) (s : Orb α), Reachable K w ∧ w.val K 0 = some s ∧ Untouched w 0 ∧ w.objs.length = 1 ∧
      ∃ t, Orbit.copy K s = .ok t ∧
        ((runActs K (step K w (.getitem 0 .all)) [.make (.row [x]), .setM 0 (w.heap.size + 9), .op 0 (.setKep 0 (.sc y)) fr,
          .get 0 .kepler fr, .write (w.heap.size + 9) (.row [y]), .op 0 (.allocate 3) fr]).val K 1).map Orb.sansEpoch =
          some (Orb.sansEpoch t) := by
  obtain ⟨s, hs⟩ : ∃ s, init K M0 { G := G, opts := o } {} = .ok s := ⟨_, rfl⟩
  obtain ⟨h1, h2⟩ := c103_new K (w := World.start) ⟨[], rfl⟩ (kw := { G := G, opts := o }) (u := {}) hs
  have hr : Reachable K (step K World.start (.new M0 { G := G, opts := o } {} none)) :=
    (show Reachable K World.start from ⟨[], rfl⟩).step _
  have hl : (step K World.start (.new M0 { G := G, opts := o } {} none)).objs.length = 1 := by
    unfold Orbit.step; dsimp only; rw [hs]; rfl
  obtain ⟨t, ht, _⟩ := c35_copy_partial K s (c63_settings K hs).1 (Or.inl (congrArg Settings.direct_update (c63_settings K hs).2.1))
  refine ⟨_, s, hr, h1, h2, hl, t, ht, ?_⟩
  have := (c103_copy K hr h1 .all ht [.make (.row [x]),
    .setM 0 ((step K World.start (.new M0 { G := G, opts := o } {} none)).heap.size + 9), .op 0 (.setKep 0 (.sc y)) fr,
    .get 0 .kepler fr, .write ((step K World.start (.new M0 { G := G, opts := o } {} none)).heap.size + 9) (.row [y]),
    .op 0 (.allocate 3) fr] (by
      rw [hl]
      intro z hz
      simp only [List.mem_cons, List.not_mem_nil, or_false] at hz
      rcases hz with rfl | rfl | rfl | rfl | rfl | rfl <;> simp [Act.about])).2
  rw [hl] at this
  exact this

end Orbit
end Pyorb
