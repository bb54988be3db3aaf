import Verif.Spec.Locks
import Mathlib.Logic.Hydra
import Mathlib.Algebra.Order.Group.Multiset
import Mathlib.Tactic.Push
import Mathlib.Tactic.Abel

/-! Invariants of the lock model. -/

namespace SampleFlow.Locks

variable {may : Nat → Call → Prop} {layer : Nat → Nat} {layers : Nat}

/-- all entries of all stacks -/
def State.items (s : State) : Multiset Item := (s.threads.flatten : List Item)

theorem mem_items {s : State} {x : Item} : x ∈ s.items ↔ ∃ t ∈ s.threads, x ∈ t := by
  simp [State.items, List.mem_flatten]

theorem flatten_set (l : List (List Item)) (x : Item) (rest new : List Item) : ∀ (i : Nat), l[i]? = some (x :: rest) →
    ((l.set i (new ++ rest)).flatten : Multiset Item) + {x} = (l.flatten : Multiset Item) + (new : Multiset Item) := by
  induction l with
  | nil => intro i h; simp at h
  | cons t l ih =>
    intro i h
    cases i with
    | zero =>
      simp only [List.getElem?_cons_zero, Option.some.injEq] at h
      subst h
      rw [List.set_cons_zero, List.flatten_cons, List.flatten_cons]
      simp only [← Multiset.coe_add, ← Multiset.cons_coe, ← Multiset.singleton_add]
      abel
    | succ i =>
      rw [List.getElem?_cons_succ] at h
      have := ih i h
      rw [List.set_cons_succ, List.flatten_cons, List.flatten_cons]
      simp only [← Multiset.coe_add]
      rw [add_assoc, this, add_assoc]

/-! ## the order of the entries of a stack -/

/-- the level of an entry -/
def level (layer : Nat → Nat) : Item → Nat
  | .call k => 2 * layer k.target
  | .reading c => 2 * layer c
  | .trim c => 2 * layer c
  | .one c _ => 2 * layer c
  | .both c _ => 2 * layer c
  | .flushing c => 2 * layer c
  | .clearing c => 2 * layer c
  | .run c _ => 2 * layer c + 1
  | .finish c _ => 2 * layer c + 1

/-- others may wait for this entry to be removed -/
def Item.holder : Item → Bool
  | .call _ => false
  | .trim _ => false
  | _ => true

/-- entries are above those that others wait for -/
def Ordered (layer : Nat → Nat) (t : List Item) : Prop := t.Pairwise (fun x h => h.holder = true → level layer h < level layer x)

theorem ordered_replace {x : Item} {rest new : List Item} (h : Ordered layer (x :: rest)) (hn : Ordered layer new) (hl : ∀ y ∈ new, level layer x ≤ level layer y) :
    Ordered layer (new ++ rest) := by
  unfold Ordered at *
  rw [List.pairwise_cons] at h
  rw [List.pairwise_append]
  refine ⟨hn, h.2, fun a ha b hb hh => ?_⟩
  exact lt_of_lt_of_le (h.1 b hb hh) (hl a ha)

theorem ordered_calls (body : List Call) (tail : List Item) (ht : Ordered layer tail) (hb : ∀ k ∈ body, ∀ y ∈ tail, y.holder = true → level layer y < 2 * layer k.target) :
    Ordered layer (body.map .call ++ tail) := by
  unfold Ordered at *
  rw [List.pairwise_append]
  refine ⟨?_, ht, ?_⟩
  · rw [List.pairwise_map]
    exact List.Pairwise.imp (R := fun _ _ => True) (fun _ hh => by simp [Item.holder] at hh) (List.pairwise_of_forall (fun _ _ => trivial))
  · intro a ha b hb' hh
    obtain ⟨k, hk, rfl⟩ := List.mem_map.1 ha
    exact hb k hk b hb' hh

def AllOrdered (layer : Nat → Nat) (s : State) : Prop := ∀ t ∈ s.threads, Ordered layer t

theorem allOrdered_set {s : State} (h : AllOrdered layer s) {i : Nat} {x : Item} {rest new : List Item} (hi : s.threads[i]? = some (x :: rest)) (hn : Ordered layer new)
    (hl : ∀ y ∈ new, level layer x ≤ level layer y) (t : List Item) (ht : t ∈ s.threads.set i (new ++ rest)) : Ordered layer t := by
  rcases List.mem_or_eq_of_mem_set ht with h1 | rfl
  · exact h t h1
  · exact ordered_replace (h _ (List.mem_of_getElem? hi)) hn hl

theorem ordered_single (x : Item) : Ordered layer [x] := by simp [Ordered]

theorem allOrdered_step (hL : Layered may layer layers) {i : Nat} {s s' : State} (hs : Step may i s s') (h : AllOrdered layer s) : AllOrdered layer s' := by
  have body1 : ∀ (c : Nat) (body : List Call) (x : Item), (∀ k ∈ body, may c k) → (level layer x ≤ 2 * layer c + 1) → Ordered layer (body.map .call ++ [x]) := by
    intro c body x hb hx
    refine ordered_calls body _ (ordered_single x) (fun k hk y hy _ => ?_)
    rw [List.mem_singleton] at hy
    subst hy
    have := hL.downwards c k (hb k hk)
    omega
  have lev : ∀ (c : Nat) (body : List Call), (∀ k ∈ body, may c k) → ∀ y ∈ body.map Item.call, 2 * layer c + 1 ≤ level layer y := by
    intro c body hb y hy
    obtain ⟨k, hk, rfl⟩ := List.mem_map.1 hy
    have := hL.downwards c k (hb k hk)
    show 2 * layer c + 1 ≤ 2 * layer k.target
    omega
  cases hs with
  | enter c rest body hi hw hb =>
    intro t ht
    rw [State.goto, show body.map Item.call ++ Item.reading c :: rest = (body.map Item.call ++ [Item.reading c]) ++ rest by simp] at ht
    refine allOrdered_set h hi (body1 c body _ hb (by show 2 * layer c ≤ _; omega)) (fun y hy => ?_) t ht
    rcases List.mem_append.1 hy with h1 | h1
    · have := lev c body hb y h1
      show 2 * layer c ≤ _; omega
    · rw [List.mem_singleton] at h1; subst h1; exact le_refl _
  | leave c rest hi => exact fun t ht => allOrdered_set h hi (new := []) (by simp [Ordered]) (by simp) t ht
  | launchAsync c rest hi hl =>
    intro t ht
    rcases List.mem_append.1 ht with h1 | h1
    · exact allOrdered_set h hi (new := [.trim c]) (ordered_single _) (by simp [level, Call.target]) t h1
    · rw [List.mem_singleton] at h1; subst h1; exact ordered_single _
  | launchDeferred c rest hi hl => exact fun t ht => allOrdered_set h hi (new := [.trim c]) (ordered_single _) (by simp [level, Call.target]) t ht
  | launchSkip c rest hi hl => exact fun t ht => allOrdered_set h hi (new := []) (by simp [Ordered]) (by simp) t ht
  | trim c rest removed kept hi hl hq hr => exact fun t ht => allOrdered_set h hi (new := []) (by simp [Ordered]) (by simp) t ht
  | run c j rest body hi hb =>
    intro t ht
    rw [State.goto, show body.map Item.call ++ Item.finish c j :: rest = (body.map Item.call ++ [Item.finish c j]) ++ rest by simp] at ht
    refine allOrdered_set h hi (body1 c body _ hb (le_refl _)) (fun y hy => ?_) t ht
    rcases List.mem_append.1 hy with h1 | h1
    · exact lev c body hb y h1
    · rw [List.mem_singleton] at h1; subst h1; exact le_refl _
  | finish c j rest hi => exact fun t ht => allOrdered_set h hi (new := []) (by simp [Ordered]) (by simp) t ht
  | flushLock c rest hi hl => exact fun t ht => allOrdered_set h hi (new := [.flushing c]) (ordered_single _) (by simp [level, Call.target]) t ht
  | flushRun c j rest before after hi hq hb hj =>
    exact fun t ht => allOrdered_set h hi (new := [.run c j, .flushing c]) (by simp [Ordered, level]) (by simp [level]) t ht
  | flushWaited c rest hi hq => exact fun t ht => allOrdered_set h hi (new := [.clearing c]) (ordered_single _) (by simp [level]) t ht
  | flushDone c rest body hi hb =>
    refine fun t ht => allOrdered_set h hi (new := body.map .call) ?_ (fun y hy => ?_) t ht
    · have := ordered_calls (layer := layer) body [] (by simp [Ordered]) (by simp)
      simpa using this
    · have := lev c body hb y hy
      show 2 * layer c ≤ _; omega
  | disconnectLock c rest hi hl => exact fun t ht => allOrdered_set h hi (new := [.one c true]) (ordered_single _) (by simp [level, Call.target]) t ht
  | severLock c rest hi hl => exact fun t ht => allOrdered_set h hi (new := [.one c false]) (ordered_single _) (by simp [level, Call.target]) t ht
  | exclusive c fl rest hi hw hr => exact fun t ht => allOrdered_set h hi (new := [.both c fl]) (ordered_single _) (by simp [level]) t ht
  | disconnected c rest hi => exact fun t ht => allOrdered_set h hi (new := [.call (.flush c)]) (ordered_single _) (by simp [level, Call.target]) t ht
  | severed c rest hi => exact fun t ht => allOrdered_set h hi (new := []) (by simp [Ordered]) (by simp) t ht

theorem allOrdered_start (programs : List (List Call)) : AllOrdered layer (start programs) := by
  intro t ht
  obtain ⟨p, _, rfl⟩ := List.mem_map.1 ht
  have := ordered_calls (layer := layer) p [] (by simp [Ordered]) (by simp)
  simpa using this

/-- every entry is the first of its stack, or below an entry of a higher level -/
theorem top_of {s : State} (h : AllOrdered layer s) {x : Item} (hx : x ∈ s.items) (hh : x.holder = true) :
    ∃ (i : Nat) (y : Item) (rest : List Item), s.threads[i]? = some (y :: rest) ∧ (y = x ∨ level layer x < level layer y) := by
  obtain ⟨t, ht, hxt⟩ := mem_items.1 hx
  obtain ⟨i, hi⟩ := List.getElem?_of_mem ht
  cases t with
  | nil => simp at hxt
  | cons y rest =>
    refine ⟨i, y, rest, hi, ?_⟩
    rcases List.mem_cons.1 hxt with rfl | h1
    · exact Or.inl rfl
    · exact Or.inr ((List.pairwise_cons.1 (h _ ht)).1 x h1 hh)

/-! ## tasks -/

/-- the task that an entry is about -/
def taskOf : Item → Multiset (Nat × Nat)
  | .run c j => {(c, j)}
  | .finish c j => {(c, j)}
  | _ => 0

/-- unfinished tasks -/
def State.active (s : State) : Multiset (Nat × Nat) := s.items.bind taskOf + (s.deferred : Multiset (Nat × Nat))

theorem bind_calls (body : List Call) : ((body.map Item.call : List Item) : Multiset Item).bind taskOf = 0 := by
  induction body with
  | nil => rfl
  | cons k body ih => rw [List.map_cons, ← Multiset.cons_coe, Multiset.cons_bind, ih]; rfl

structure TaskInv (s : State) : Prop where
  nodup : (s.active.map Prod.snd).Nodup
  queued : ∀ p ∈ s.active, p.2 ∈ s.queue p.1 ∧ s.done p.2 = false ∧ p.2 < s.tasks
  accounted : ∀ c, ∀ j ∈ s.queue c, s.done j = true ∨ (c, j) ∈ s.active
  fresh : ∀ j, s.tasks ≤ j → s.done j = false

/-- when `background_tasks` is about to be cleared, all tasks in it are finished -/
def ClearInv (s : State) : Prop := ∀ c, .clearing c ∈ s.items → ∀ j ∈ s.queue c, s.done j = true

theorem taskInv_start (programs : List (List Call)) : TaskInv (start programs) := by
  have e : (start programs).active = 0 := by
    rw [State.active]
    have : ∀ x ∈ (start programs).items, taskOf x = 0 := by
      intro x hx
      obtain ⟨t, ht, hxt⟩ := mem_items.1 hx
      obtain ⟨p, _, rfl⟩ := List.mem_map.1 ht
      obtain ⟨k, _, rfl⟩ := List.mem_map.1 hxt
      rfl
    have h2 : (start programs).items.bind taskOf = (start programs).items.bind (fun _ => 0) := Multiset.bind_congr this
    rw [h2]
    simp [start]
  constructor
  · rw [e]; simp
  · rw [e]; simp
  · intro c j hj; simp [start] at hj
  · intro j _; rfl

theorem items_goto {s : State} {i : Nat} {x : Item} {rest new : List Item} (hi : s.threads[i]? = some (x :: rest)) :
    (s.goto i (new ++ rest)).items + {x} = s.items + (new : Multiset Item) := flatten_set s.threads x rest new i hi

/-- unfinished tasks of a state in which one entry was replaced -/
theorem bind_goto {s : State} {i : Nat} {x : Item} {rest new : List Item} (hi : s.threads[i]? = some (x :: rest)) :
    (s.goto i (new ++ rest)).items.bind taskOf + taskOf x = s.items.bind taskOf + (new : Multiset Item).bind taskOf := by
  have := congrArg (fun m => Multiset.bind m taskOf) (items_goto (new := new) hi)
  simpa [Multiset.add_bind] using this

theorem active_same {s : State} {i : Nat} {x : Item} {rest new : List Item} (hi : s.threads[i]? = some (x :: rest)) (hx : taskOf x = (new : Multiset Item).bind taskOf) :
    (s.goto i (new ++ rest)).active = s.active := by
  have := bind_goto (new := new) hi
  rw [hx] at this
  rw [State.active, State.active, add_right_cancel this]
  rfl

/-- an invariant that does not depend on anything but these -/
theorem taskInv_congr {s s' : State} (h : TaskInv s) (ha : s'.active = s.active) (hq : s'.queue = s.queue) (hd : s'.done = s.done) (ht : s'.tasks = s.tasks) : TaskInv s' := by
  constructor
  · rw [ha]; exact h.nodup
  · rw [ha, hq, hd, ht]; exact h.queued
  · rw [ha, hq, hd]; exact h.accounted
  · rw [hd, ht]; exact h.fresh

theorem taskInv_launch {s s' : State} (c : Nat) (h : TaskInv s) (ha : s'.active = s.active + {(c, s.tasks)}) (hq : s'.queue = fun d => if d = c then s.queue c ++ [s.tasks] else s.queue d)
    (hd : s'.done = s.done) (ht : s'.tasks = s.tasks + 1) : TaskInv s' := by
  constructor
  · rw [ha, Multiset.map_add, Multiset.map_singleton, Multiset.nodup_add]
    refine ⟨h.nodup, Multiset.nodup_singleton _, ?_⟩
    rw [Multiset.disjoint_singleton]
    intro hm
    obtain ⟨p, hp, e⟩ := Multiset.mem_map.1 hm
    have := (h.queued p hp).2.2
    dsimp only at e
    omega
  · intro p hp
    rw [ha, Multiset.mem_add, Multiset.mem_singleton] at hp
    rw [hq, hd, ht]
    rcases hp with hp | rfl
    · obtain ⟨h1, h2, h3⟩ := h.queued p hp
      refine ⟨?_, h2, by omega⟩
      by_cases e : p.1 = c
      · simp only [e, if_pos]; rw [e] at h1; exact List.mem_append_left _ h1
      · simp only [e, if_false]; exact h1
    · exact ⟨by simp, h.fresh _ (le_refl _), Nat.lt_succ_self _⟩
  · intro d j hj
    rw [hq] at hj
    rw [hd, ha, Multiset.mem_add]
    by_cases e : d = c
    · subst e
      simp only [if_pos] at hj
      rcases List.mem_append.1 hj with h1 | h1
      · exact (h.accounted d j h1).imp id Or.inl
      · rw [List.mem_singleton] at h1; subst h1; exact Or.inr (Or.inr (Multiset.mem_singleton_self _))
    · simp only [e, if_false] at hj
      exact (h.accounted d j hj).imp id Or.inl
  · rw [hd, ht]; exact fun j hj => h.fresh j (by omega)

theorem taskInv_dequeue {s s' : State} (c : Nat) (q : List Nat) (h : TaskInv s) (ha : s'.active = s.active) (hq : s'.queue = fun d => if d = c then q else s.queue d)
    (hd : s'.done = s.done) (ht : s'.tasks = s.tasks) (hsub : ∀ j ∈ q, j ∈ s.queue c) (hrem : ∀ j ∈ s.queue c, j ∈ q ∨ s.done j = true) : TaskInv s' := by
  constructor
  · rw [ha]; exact h.nodup
  · intro p hp
    rw [ha] at hp
    rw [hq, hd, ht]
    obtain ⟨h1, h2, h3⟩ := h.queued p hp
    refine ⟨?_, h2, h3⟩
    by_cases e : p.1 = c
    · simp only [e, if_pos]
      rw [e] at h1
      rcases hrem _ h1 with h4 | h4
      · exact h4
      · rw [h2] at h4; cases h4
    · simp only [e, if_false]; exact h1
  · intro d j hj
    rw [hq] at hj
    rw [hd, ha]
    by_cases e : d = c
    · subst e; simp only [if_pos] at hj; exact h.accounted d j (hsub j hj)
    · simp only [e, if_false] at hj; exact h.accounted d j hj
  · rw [hd, ht]; exact h.fresh

theorem taskInv_step {i : Nat} {s s' : State} (hs : Step may i s s') (hc : ClearInv s) (h : TaskInv s) : TaskInv s' := by
  cases hs with
  | enter c rest body hi hw hb =>
    rw [show body.map Item.call ++ Item.reading c :: rest = (body.map Item.call ++ [Item.reading c]) ++ rest by simp]
    refine taskInv_congr h (active_same hi ?_) rfl rfl rfl
    rw [← Multiset.coe_add, Multiset.add_bind, bind_calls]; rfl
  | leave c rest hi => exact taskInv_congr h (active_same (new := []) hi rfl) rfl rfl rfl
  | launchAsync c rest hi hl =>
    refine taskInv_launch c h ?_ rfl rfl rfl
    have := bind_goto (new := [Item.trim c]) hi
    have e : (({ (s.goto i (.trim c :: rest)).setQueue c (s.queue c ++ [s.tasks]) with
        threads := s.threads.set i (.trim c :: rest) ++ [[.run c s.tasks]], tasks := s.tasks + 1 } : State)).items = (s.goto i ([.trim c] ++ rest)).items + {Item.run c s.tasks} := by
      show ((List.flatten (s.threads.set i (.trim c :: rest) ++ [[.run c s.tasks]]) : List Item) : Multiset Item) = _
      rw [List.flatten_append]
      rfl
    rw [State.active, e, Multiset.add_bind]
    have h0 : (s.goto i ([Item.trim c] ++ rest)).items.bind taskOf = s.items.bind taskOf := by
      have h1 : taskOf (.call (.launch c)) = 0 := rfl
      have h2 : (([Item.trim c] : List Item) : Multiset Item).bind taskOf = 0 := rfl
      rw [h1, h2] at this
      simpa using this
    rw [h0]
    show s.items.bind taskOf + Multiset.bind {Item.run c s.tasks} taskOf + (s.deferred : Multiset (Nat × Nat)) = s.active + {(c, s.tasks)}
    rw [Multiset.singleton_bind, State.active]
    show s.items.bind taskOf + {(c, s.tasks)} + _ = _
    rw [add_right_comm]
  | launchDeferred c rest hi hl =>
    refine taskInv_launch c h ?_ rfl rfl rfl
    have := active_same (new := [Item.trim c]) hi rfl
    rw [← this]
    show (s.goto i ([.trim c] ++ rest)).items.bind taskOf + ((s.deferred ++ [(c, s.tasks)] : List (Nat × Nat)) : Multiset (Nat × Nat)) = _
    rw [← Multiset.coe_add, ← add_assoc]
    rfl
  | launchSkip c rest hi hl => exact taskInv_congr h (active_same (new := []) hi rfl) rfl rfl rfl
  | trim c rest removed kept hi hl hq hr =>
    refine taskInv_dequeue c kept h (active_same (new := []) hi rfl) rfl rfl rfl (fun j hj => ?_) (fun j hj => ?_)
    · rw [hq]; exact List.mem_append_right _ hj
    · rw [hq] at hj
      exact (List.mem_append.1 hj).symm.imp id (hr j)
  | run c j rest body hi hb =>
    rw [show body.map Item.call ++ Item.finish c j :: rest = (body.map Item.call ++ [Item.finish c j]) ++ rest by simp]
    refine taskInv_congr h (active_same hi ?_) rfl rfl rfl
    rw [← Multiset.coe_add, Multiset.add_bind, bind_calls]; rfl
  | finish c j rest hi =>
    have e : (({ s.goto i rest with done := fun k => if k = j then true else s.done k } : State)).active + {(c, j)} = s.active := by
      have := bind_goto (new := []) hi
      rw [show (([] : List Item) : Multiset Item).bind taskOf = 0 from rfl, add_zero] at this
      show ((s.goto i ([] ++ rest)).items.bind taskOf + (s.deferred : Multiset (Nat × Nat))) + {(c, j)} = _
      rw [add_right_comm, show ({(c, j)} : Multiset (Nat × Nat)) = taskOf (.finish c j) from rfl, this]
      rfl
    have hnd := h.nodup
    rw [← e, Multiset.map_add, Multiset.map_singleton, Multiset.nodup_add, Multiset.disjoint_singleton] at hnd
    have hmem : ∀ p ∈ (({ s.goto i rest with done := fun k => if k = j then true else s.done k } : State)).active, p ∈ s.active := by
      intro p hp; rw [← e]; exact Multiset.mem_add.2 (Or.inl hp)
    constructor
    · exact hnd.1
    · intro p hp
      obtain ⟨h1, h2, h3⟩ := h.queued p (hmem p hp)
      refine ⟨h1, ?_, h3⟩
      have : p.2 ≠ j := by
        intro e'
        exact hnd.2.2 (Multiset.mem_map.2 ⟨p, hp, e'⟩)
      show (if p.2 = j then true else s.done p.2) = false
      rw [if_neg this, h2]
    · intro d k hk
      show (if k = j then true else s.done k) = true ∨ _
      by_cases ek : k = j
      · rw [if_pos ek]; exact Or.inl rfl
      · rw [if_neg ek]
        refine (h.accounted d k hk).imp id (fun hm => ?_)
        rw [← e, Multiset.mem_add, Multiset.mem_singleton] at hm
        rcases hm with hm | hm
        · exact hm
        · exact absurd (congrArg Prod.snd hm) ek
    · intro k hk
      show (if k = j then true else s.done k) = false
      have hj : j < s.tasks := (h.queued (c, j) (by rw [← e]; exact Multiset.mem_add.2 (Or.inr (Multiset.mem_singleton_self _)))).2.2
      rw [if_neg (by have : s.tasks ≤ k := hk; omega)]
      exact h.fresh k hk
  | flushLock c rest hi hl => exact taskInv_congr h (active_same (new := [.flushing c]) hi rfl) rfl rfl rfl
  | flushRun c j rest before after hi hq hb hj =>
    refine taskInv_congr h ?_ rfl rfl rfl
    have := bind_goto (new := [.run c j, .flushing c]) hi
    have h1 : taskOf (.flushing c) = 0 := rfl
    have h2 : (([Item.run c j, Item.flushing c] : List Item) : Multiset Item).bind taskOf = {(c, j)} := rfl
    rw [h1, h2, add_zero] at this
    show (s.goto i ([.run c j, .flushing c] ++ rest)).items.bind taskOf + ((s.deferred.erase (c, j) : List (Nat × Nat)) : Multiset (Nat × Nat)) = _
    rw [this, State.active, add_assoc]
    congr 1
    rw [Multiset.singleton_add, Multiset.cons_coe, Multiset.coe_eq_coe]
    exact (List.perm_cons_erase hj).symm
  | flushWaited c rest hi hq => exact taskInv_congr h (active_same (new := [.clearing c]) hi rfl) rfl rfl rfl
  | flushDone c rest body hi hb =>
    exact taskInv_dequeue c [] h (active_same (new := body.map .call) hi (by rw [bind_calls]; rfl)) rfl rfl rfl (by simp)
      (fun j hj => Or.inr (hc c (mem_items.2 ⟨_, List.mem_of_getElem? hi, List.mem_cons_self⟩) j hj))
  | disconnectLock c rest hi hl => exact taskInv_congr h (active_same (new := [.one c true]) hi rfl) rfl rfl rfl
  | severLock c rest hi hl => exact taskInv_congr h (active_same (new := [.one c false]) hi rfl) rfl rfl rfl
  | exclusive c fl rest hi hw hr => exact taskInv_congr h (active_same (new := [.both c fl]) hi rfl) rfl rfl rfl
  | disconnected c rest hi => exact taskInv_congr h (active_same (new := [.call (.flush c)]) hi rfl) rfl rfl rfl
  | severed c rest hi => exact taskInv_congr h (active_same (new := []) hi rfl) rfl rfl rfl

/-! ## mutual exclusion -/

/-- number of locks of a kind -/
def State.count (s : State) (p : Item → Bool) : Nat := s.items.countP (fun x => p x = true)

theorem count_zero {s : State} {p : Item → Bool} : s.count p = 0 ↔ ∀ t ∈ s.threads, ∀ x ∈ t, p x = false := by
  rw [State.count, Multiset.countP_eq_zero]
  constructor
  · intro h t ht x hx
    have := h x (mem_items.2 ⟨t, ht, hx⟩)
    simpa using this
  · intro h x hx
    obtain ⟨t, ht, hxt⟩ := mem_items.1 hx
    simp [h t ht x hxt]

theorem count_goto {s : State} {i : Nat} {x : Item} {rest new : List Item} (p : Item → Bool) (hi : s.threads[i]? = some (x :: rest)) :
    (s.goto i (new ++ rest)).count p + (if p x then 1 else 0) = s.count p + (new.filter p).length := by
  have := congrArg (Multiset.countP (fun x => p x = true)) (items_goto (new := new) hi)
  rw [Multiset.countP_add, Multiset.countP_add] at this
  have e1 : Multiset.countP (fun x => p x = true) ({x} : Multiset Item) = if p x then 1 else 0 := by
    rw [← Multiset.cons_zero, Multiset.countP_cons, Multiset.countP_zero, zero_add]
  have e2 : Multiset.countP (fun x => p x = true) (new : Multiset Item) = (new.filter p).length := by
    rw [Multiset.coe_countP, List.countP_eq_length_filter]
    simp
  rw [e1, e2] at this
  exact this

structure LockInv (s : State) : Prop where
  async : ∀ c, s.count (Item.holdsAsync c) ≤ 1
  sync : ∀ c, s.count (Item.writes c) = 0 ∨ s.count (Item.reads c) = 0

theorem filter_calls (p : Item → Bool) (hp : ∀ k, p (.call k) = false) (body : List Call) (tail : List Item) :
    (body.map Item.call ++ tail).filter p = tail.filter p := by
  rw [List.filter_append, List.filter_eq_nil_iff.2, List.nil_append]
  intro x hx
  obtain ⟨k, _, rfl⟩ := List.mem_map.1 hx
  simp [hp]

theorem lockInv_mono {s : State} {i : Nat} {x : Item} {rest new : List Item} (h : LockInv s) (hi : s.threads[i]? = some (x :: rest))
    (h1 : ∀ c, (new.filter (Item.holdsAsync c)).length ≤ if x.holdsAsync c then 1 else 0)
    (h2 : ∀ c, (new.filter (Item.reads c)).length ≤ if x.reads c then 1 else 0)
    (h3 : ∀ c, (new.filter (Item.writes c)).length ≤ if x.writes c then 1 else 0) : LockInv (s.goto i (new ++ rest)) := by
  constructor
  · intro c
    have := count_goto (new := new) (Item.holdsAsync c) hi
    have := h1 c
    have := h.async c
    omega
  · intro c
    have a1 := count_goto (new := new) (Item.reads c) hi
    have a2 := count_goto (new := new) (Item.writes c) hi
    have b1 := h2 c
    have b2 := h3 c
    rcases h.sync c with e | e
    · left; omega
    · right; omega

theorem lockInv_acquire {s : State} {i : Nat} {x : Item} {rest new : List Item} (h : LockInv s) (hi : s.threads[i]? = some (x :: rest)) (c : Nat) (hl : s.AsyncFree c)
    (hx : ∀ c, x.holdsAsync c = false ∧ x.reads c = false ∧ x.writes c = false)
    (h1 : ∀ d, (new.filter (Item.holdsAsync d)).length ≤ if d = c then 1 else 0)
    (h2 : ∀ d, (new.filter (Item.reads d)).length = 0)
    (h3 : ∀ d, (new.filter (Item.writes d)).length = 0) : LockInv (s.goto i (new ++ rest)) := by
  constructor
  · intro d
    have a := count_goto (new := new) (Item.holdsAsync d) hi
    have b := h1 d
    have e := h.async d
    rw [(hx d).1] at a
    by_cases hd : d = c
    · subst hd
      have := count_zero.2 hl
      rw [if_pos rfl] at b
      simp at a
      omega
    · rw [if_neg hd] at b
      simp at a
      omega
  · intro d
    have a1 := count_goto (new := new) (Item.reads d) hi
    have a2 := count_goto (new := new) (Item.writes d) hi
    rw [h2, (hx d).2.1] at a1
    rw [h3, (hx d).2.2] at a2
    simp at a1 a2
    rw [a1, a2]
    exact h.sync d

theorem lockInv_step {i : Nat} {s s' : State} (hs : Step may i s s') (h : LockInv s) : LockInv s' := by
  cases hs with
  | enter c rest body hi hw hb =>
    rw [show body.map Item.call ++ Item.reading c :: rest = (body.map Item.call ++ [Item.reading c]) ++ rest by simp]
    constructor
    · intro d
      have a := count_goto (new := body.map Item.call ++ [Item.reading c]) (Item.holdsAsync d) hi
      rw [filter_calls _ (fun _ => rfl)] at a
      have := h.async d
      simp [Item.holdsAsync] at a
      simp only [List.append_assoc, List.cons_append, List.nil_append]
      omega
    · intro d
      have a1 := count_goto (new := body.map Item.call ++ [Item.reading c]) (Item.reads d) hi
      have a2 := count_goto (new := body.map Item.call ++ [Item.reading c]) (Item.writes d) hi
      rw [filter_calls _ (fun _ => rfl)] at a1 a2
      by_cases hd : d = c
      · subst hd
        have := count_zero.2 hw
        left
        simp [Item.writes] at a2
        simp only [List.append_assoc, List.cons_append, List.nil_append]
        omega
      · simp [Item.writes] at a2
        simp [Item.reads, Ne.symm hd] at a1
        simp only [List.append_assoc, List.cons_append, List.nil_append]
        rw [a1, a2]; exact h.sync d
  | leave c rest hi => exact lockInv_mono h hi (new := []) (by simp) (by simp) (by simp)
  | launchAsync c rest hi hl =>
    have h1 := lockInv_mono h hi (new := [.trim c]) (by simp [Item.holdsAsync]) (by simp [Item.reads]) (by simp [Item.writes])
    have e : ∀ p : Item → Bool, p (.run c s.tasks) = false → ({ (s.goto i (.trim c :: rest)).setQueue c (s.queue c ++ [s.tasks]) with
        threads := s.threads.set i (.trim c :: rest) ++ [[.run c s.tasks]], tasks := s.tasks + 1 } : State).count p = (s.goto i ([.trim c] ++ rest)).count p := by
      intro p hp
      unfold State.count
      show Multiset.countP _ ((List.flatten (s.threads.set i (.trim c :: rest) ++ [[.run c s.tasks]]) : List Item) : Multiset Item) = _
      rw [List.flatten_append, ← Multiset.coe_add, Multiset.countP_add]
      have : Multiset.countP (fun x => p x = true) ((List.flatten [[Item.run c s.tasks]] : List Item) : Multiset Item) = 0 := by
        rw [Multiset.countP_eq_zero]
        intro x hx
        simp at hx
        subst hx
        simp [hp]
      rw [this]
      rfl
    constructor
    · intro d; rw [e _ rfl]; exact h1.async d
    · intro d; rw [e _ rfl, e _ rfl]; exact h1.sync d
  | launchDeferred c rest hi hl =>
    have h1 := lockInv_mono h hi (new := [.trim c]) (by simp [Item.holdsAsync]) (by simp [Item.reads]) (by simp [Item.writes])
    exact ⟨h1.async, h1.sync⟩
  | launchSkip c rest hi hl => exact lockInv_mono h hi (new := []) (by simp) (by simp) (by simp)
  | trim c rest removed kept hi hl hq hr =>
    have h1 := lockInv_mono h hi (new := []) (by simp) (by simp) (by simp)
    exact ⟨h1.async, h1.sync⟩
  | run c j rest body hi hb =>
    rw [show body.map Item.call ++ Item.finish c j :: rest = (body.map Item.call ++ [Item.finish c j]) ++ rest by simp]
    refine lockInv_mono h hi ?_ ?_ ?_ <;> intro d <;> rw [filter_calls _ (fun _ => rfl)] <;> simp [Item.holdsAsync, Item.reads, Item.writes]
  | finish c j rest hi =>
    have h1 := lockInv_mono h hi (new := []) (by simp) (by simp) (by simp)
    exact ⟨h1.async, h1.sync⟩
  | flushLock c rest hi hl =>
    refine lockInv_acquire h hi (new := [.flushing c]) c hl (fun _ => ⟨rfl, rfl, rfl⟩) (fun d => ?_) (by simp [Item.reads]) (by simp [Item.writes])
    rcases eq_or_ne d c with rfl | hd
    · simp [Item.holdsAsync]
    · simp [Item.holdsAsync, hd, Ne.symm hd]
  | flushRun c j rest before after hi hq hb hj =>
    have h1 := lockInv_mono h hi (new := [.run c j, .flushing c]) (fun d => by by_cases hd : c = d <;> simp [Item.holdsAsync, hd]) (by simp [Item.reads]) (by simp [Item.writes])
    exact ⟨h1.async, h1.sync⟩
  | flushWaited c rest hi hq => exact lockInv_mono h hi (new := [.clearing c]) (fun d => by by_cases hd : c = d <;> simp [Item.holdsAsync, hd]) (by simp [Item.reads]) (by simp [Item.writes])
  | flushDone c rest body hi hb =>
    have f : ∀ p : Item → Bool, (∀ k, p (.call k) = false) → (body.map Item.call).filter p = [] := by
      intro p hp
      have := filter_calls p hp body []
      simpa using this
    have h1 := lockInv_mono h hi (new := body.map .call) (fun d => by rw [f _ (fun _ => rfl)]; simp) (fun d => by rw [f _ (fun _ => rfl)]; simp) (fun d => by rw [f _ (fun _ => rfl)]; simp)
    exact ⟨h1.async, h1.sync⟩
  | disconnectLock c rest hi hl =>
    refine lockInv_acquire h hi (new := [.one c true]) c hl (fun _ => ⟨rfl, rfl, rfl⟩) (fun d => ?_) (by simp [Item.reads]) (by simp [Item.writes])
    rcases eq_or_ne d c with rfl | hd
    · simp [Item.holdsAsync]
    · simp [Item.holdsAsync, hd, Ne.symm hd]
  | severLock c rest hi hl =>
    refine lockInv_acquire h hi (new := [.one c false]) c hl (fun _ => ⟨rfl, rfl, rfl⟩) (fun d => ?_) (by simp [Item.reads]) (by simp [Item.writes])
    rcases eq_or_ne d c with rfl | hd
    · simp [Item.holdsAsync]
    · simp [Item.holdsAsync, hd, Ne.symm hd]
  | exclusive c fl rest hi hw hr =>
    constructor
    · intro d
      have a := count_goto (new := [.both c fl]) (Item.holdsAsync d) hi
      have := h.async d
      by_cases hd : c = d
      · subst hd; simp [Item.holdsAsync] at a; omega
      · simp [Item.holdsAsync, hd] at a; omega
    · intro d
      have a1 := count_goto (new := [.both c fl]) (Item.reads d) hi
      have a2 := count_goto (new := [.both c fl]) (Item.writes d) hi
      simp [Item.reads] at a1
      by_cases hd : c = d
      · subst hd
        have := count_zero.2 hr
        right
        show (s.goto i (.both c fl :: rest)).count _ = 0
        omega
      · simp [Item.writes, hd] at a2
        show (s.goto i (.both c fl :: rest)).count _ = 0 ∨ (s.goto i (.both c fl :: rest)).count _ = 0
        rw [a1, a2]; exact h.sync d
  | disconnected c rest hi => exact lockInv_mono h hi (new := [.call (.flush c)]) (by simp [Item.holdsAsync]) (by simp [Item.reads]) (by simp [Item.writes])
  | severed c rest hi => exact lockInv_mono h hi (new := []) (by simp) (by simp) (by simp)

theorem lockInv_start (programs : List (List Call)) : LockInv (start programs) := by
  have e : ∀ p : Item → Bool, (∀ k, p (.call k) = false) → (start programs).count p = 0 := by
    intro p hp
    rw [count_zero]
    intro t ht x hx
    obtain ⟨pr, _, rfl⟩ := List.mem_map.1 ht
    obtain ⟨k, _, rfl⟩ := List.mem_map.1 hx
    exact hp k
  constructor
  · intro c; rw [e _ (fun _ => rfl)]; exact Nat.zero_le _
  · intro c; rw [e _ (fun _ => rfl)]; exact Or.inl rfl

/-- new entries of the stacks -/
theorem mem_goto {s : State} {i : Nat} {x y : Item} {rest new : List Item} (hi : s.threads[i]? = some (x :: rest)) (hy : y ∈ (s.goto i (new ++ rest)).items) : y ∈ s.items ∨ y ∈ new := by
  have : y ∈ s.items + (new : Multiset Item) := by rw [← items_goto hi]; exact Multiset.mem_add.2 (Or.inl hy)
  simpa using this

theorem clearInv_mono {s s' : State} (h : ClearInv s) (hx : ∀ c, .clearing c ∈ s'.items → .clearing c ∈ s.items) (hq : ∀ c, ∀ j ∈ s'.queue c, j ∈ s.queue c) (hd : ∀ j, s.done j = true → s'.done j = true) : ClearInv s' :=
  fun c hc j hj => hd j (h c (hx c hc) j (hq c j hj))

theorem not_clearing {s : State} {c : Nat} (hl : s.AsyncFree c) : .clearing c ∉ s.items := by
  intro h
  obtain ⟨t, ht, hx⟩ := mem_items.1 h
  have := hl t ht _ hx
  simp [Item.holdsAsync] at this

theorem queue_sub {s : State} {c : Nat} {q : List Nat} (hq : ∀ j ∈ q, j ∈ s.queue c) : ∀ d, ∀ j ∈ (s.setQueue c q).queue d, j ∈ s.queue d := by
  intro d j hj
  by_cases e : d = c
  · subst e; simp [State.setQueue] at hj; exact hq j hj
  · simpa [State.setQueue, e] using hj

theorem clearInv_step {i : Nat} {s s' : State} (hs : Step may i s s') (h : ClearInv s) : ClearInv s' := by
  have calls : ∀ (c : Nat) (body : List Call), Item.clearing c ∉ body.map Item.call := by
    intro c body hm
    obtain ⟨k, _, e⟩ := List.mem_map.1 hm
    cases e
  cases hs with
  | enter c rest body hi hw hb =>
    rw [show body.map Item.call ++ Item.reading c :: rest = (body.map Item.call ++ [Item.reading c]) ++ rest by simp]
    refine clearInv_mono h (fun d hd => (mem_goto hi hd).elim id (fun hm => ?_)) (fun _ _ => id) (fun _ => id)
    rcases List.mem_append.1 hm with h1 | h1
    · exact absurd h1 (calls d body)
    · simp at h1
  | leave c rest hi => exact clearInv_mono h (fun d hd => (mem_goto (new := []) hi hd).elim id (by simp)) (fun _ _ => id) (fun _ => id)
  | launchAsync c rest hi hl =>
    intro d hd j hj
    have hd' : Item.clearing d ∈ s.items := by
      have e : (({ (s.goto i (.trim c :: rest)).setQueue c (s.queue c ++ [s.tasks]) with
          threads := s.threads.set i (.trim c :: rest) ++ [[.run c s.tasks]], tasks := s.tasks + 1 } : State)).items = (s.goto i ([.trim c] ++ rest)).items + {Item.run c s.tasks} := by
        show ((List.flatten (s.threads.set i (.trim c :: rest) ++ [[.run c s.tasks]]) : List Item) : Multiset Item) = _
        rw [List.flatten_append]
        rfl
      rw [e, Multiset.mem_add, Multiset.mem_singleton] at hd
      rcases hd with hd | hd
      · exact (mem_goto hi hd).elim id (by simp)
      · cases hd
    have hne : d ≠ c := fun e => not_clearing hl (e ▸ hd')
    exact h d hd' j (by simpa [State.setQueue, State.goto, hne] using hj)
  | launchDeferred c rest hi hl =>
    intro d hd j hj
    have hd' : Item.clearing d ∈ s.items := (mem_goto (new := [.trim c]) hi hd).elim id (by simp)
    have hne : d ≠ c := fun e => not_clearing hl (e ▸ hd')
    exact h d hd' j (by simpa [State.setQueue, State.goto, hne] using hj)
  | launchSkip c rest hi hl => exact clearInv_mono h (fun d hd => (mem_goto (new := []) hi hd).elim id (by simp)) (fun _ _ => id) (fun _ => id)
  | trim c rest removed kept hi hl hq hr =>
    exact clearInv_mono h (fun d hd => (mem_goto (new := []) hi hd).elim id (by simp)) (queue_sub (fun j hj => by show j ∈ s.queue c; rw [hq]; exact List.mem_append_right _ hj)) (fun _ => id)
  | run c j rest body hi hb =>
    rw [show body.map Item.call ++ Item.finish c j :: rest = (body.map Item.call ++ [Item.finish c j]) ++ rest by simp]
    refine clearInv_mono h (fun d hd => (mem_goto hi hd).elim id (fun hm => ?_)) (fun _ _ => id) (fun _ => id)
    rcases List.mem_append.1 hm with h1 | h1
    · exact absurd h1 (calls d body)
    · simp at h1
  | finish c j rest hi =>
    refine clearInv_mono h (fun d hd => (mem_goto (new := []) hi hd).elim id (by simp)) (fun _ _ => id) (fun k hk => ?_)
    show (if k = j then true else s.done k) = true
    split
    · rfl
    · exact hk
  | flushLock c rest hi hl => exact clearInv_mono h (fun d hd => (mem_goto (new := [.flushing c]) hi hd).elim id (by simp)) (fun _ _ => id) (fun _ => id)
  | flushRun c j rest before after hi hq hb hj => exact clearInv_mono h (fun d hd => (mem_goto (new := [.run c j, .flushing c]) hi hd).elim id (by simp)) (fun _ _ => id) (fun _ => id)
  | flushWaited c rest hi hq =>
    intro d hd j hj
    rcases mem_goto (new := [.clearing c]) hi hd with h1 | h1
    · exact h d h1 j hj
    · simp at h1; subst h1; exact hq j hj
  | flushDone c rest body hi hb =>
    exact clearInv_mono h (fun d hd => (mem_goto (new := body.map .call) hi hd).elim id (fun hm => absurd hm (calls d body))) (queue_sub (by simp)) (fun _ => id)
  | disconnectLock c rest hi hl => exact clearInv_mono h (fun d hd => (mem_goto (new := [.one c true]) hi hd).elim id (by simp)) (fun _ _ => id) (fun _ => id)
  | severLock c rest hi hl => exact clearInv_mono h (fun d hd => (mem_goto (new := [.one c false]) hi hd).elim id (by simp)) (fun _ _ => id) (fun _ => id)
  | exclusive c fl rest hi hw hr => exact clearInv_mono h (fun d hd => (mem_goto (new := [.both c fl]) hi hd).elim id (by simp)) (fun _ _ => id) (fun _ => id)
  | disconnected c rest hi => exact clearInv_mono h (fun d hd => (mem_goto (new := [.call (.flush c)]) hi hd).elim id (by simp)) (fun _ _ => id) (fun _ => id)
  | severed c rest hi => exact clearInv_mono h (fun d hd => (mem_goto (new := []) hi hd).elim id (by simp)) (fun _ _ => id) (fun _ => id)

theorem clearInv_start (programs : List (List Call)) : ClearInv (start programs) := by
  intro c _ j hj; simp [start] at hj

/-! ## progress -/

theorem progress (s : State) (ho : AllOrdered layer s) (ht : TaskInv s) (B : Nat) (hB : ∀ x ∈ s.items, level layer x < B) :
    ∀ (n : Nat) (i : Nat) (x : Item) (rest : List Item), s.threads[i]? = some (x :: rest) → B ≤ level layer x + n → ∃ k, s.Ready k := by
  have inItems : ∀ (i : Nat) (x : Item) (rest : List Item), s.threads[i]? = some (x :: rest) → x ∈ s.items :=
    fun i x rest hi => mem_items.2 ⟨_, List.mem_of_getElem? hi, List.mem_cons_self⟩
  intro n
  induction n with
  | zero =>
    intro i x rest hi hl
    have := hB x (inItems i x rest hi)
    omega
  | succ n ih =>
    -- an entry that others wait for is first in its stack, or there is progress
    have up : ∀ h : Item, h ∈ s.items → h.holder = true → B ≤ level layer h + (n + 1) → (∃ k, s.Ready k) ∨ ∃ (i : Nat) (rest : List Item), s.threads[i]? = some (h :: rest) := by
      intro h hh hold hl
      obtain ⟨i, y, rest, hi, e | e⟩ := top_of ho hh hold
      · subst e; exact Or.inr ⟨i, rest, hi⟩
      · exact Or.inl (ih i y rest hi (by omega))
    -- waiting for the exclusive lock
    have one : ∀ (i c : Nat) (fl : Bool) (rest : List Item), s.threads[i]? = some (.one c fl :: rest) → B ≤ 2 * layer c + (n + 1) → ∃ k, s.Ready k := by
      intro i c fl rest hi hl
      by_cases hw : s.NoWriter c
      · by_cases hr : s.NoReader c
        · exact ⟨i, _, rest, hi, hw, hr⟩
        · unfold State.NoReader at hr
          push Not at hr
          obtain ⟨t, ht', x, hx, hx'⟩ := hr
          cases x <;> simp [Item.reads] at hx'
          subst hx'
          rcases up _ (mem_items.2 ⟨t, ht', hx⟩) rfl hl with h1 | ⟨i', rest', h1⟩
          · exact h1
          · exact ⟨i', _, rest', h1, trivial⟩
      · unfold State.NoWriter at hw
        push Not at hw
        obtain ⟨t, ht', x, hx, hx'⟩ := hw
        cases x <;> simp [Item.writes] at hx'
        subst hx'
        rcases up _ (mem_items.2 ⟨t, ht', hx⟩) rfl hl with h1 | ⟨i', rest', h1⟩
        · exact h1
        · exact ⟨i', _, rest', h1, trivial⟩
    -- waiting for tasks
    have flush : ∀ (i c : Nat) (rest : List Item), s.threads[i]? = some (.flushing c :: rest) → B ≤ 2 * layer c + (n + 1) → ∃ k, s.Ready k := by
      intro i c rest hi hl
      by_cases hq : ∀ j ∈ s.queue c, s.done j = true
      · exact ⟨i, _, rest, hi, Or.inl hq⟩
      · have hsplit : ∀ q : List Nat, (¬ ∀ j ∈ q, s.done j = true) → ∃ before j after, q = before ++ j :: after ∧ (∀ k ∈ before, s.done k = true) ∧ s.done j = false := by
          intro q
          induction q with
          | nil => intro h; simp at h
          | cons a q ihq =>
            intro h
            by_cases ha : s.done a = true
            · obtain ⟨b, j, af, e1, e2, e3⟩ := ihq (fun h' => h (fun j hj => by rcases List.mem_cons.1 hj with rfl | hj; exact ha; exact h' j hj))
              exact ⟨a :: b, j, af, by rw [e1]; rfl, fun k hk => by rcases List.mem_cons.1 hk with rfl | hk; exact ha; exact e2 k hk, e3⟩
            · exact ⟨[], a, q, rfl, by simp, by simpa using ha⟩
        obtain ⟨before, j, after, e1, e2, e3⟩ := hsplit _ hq
        rcases ht.accounted c j (by rw [e1]; simp) with h1 | h1
        · rw [e3] at h1; cases h1
        · rw [State.active, Multiset.mem_add] at h1
          rcases h1 with h1 | h1
          · obtain ⟨x, hx, hx'⟩ := Multiset.mem_bind.1 h1
            cases x <;> simp [taskOf] at hx'
            · obtain ⟨rfl, rfl⟩ := hx'
              rcases up _ hx rfl (by show B ≤ 2 * layer c + 1 + (n + 1); omega) with h2 | ⟨i', rest', h2⟩
              · exact h2
              · exact ⟨i', _, rest', h2, trivial⟩
            · obtain ⟨rfl, rfl⟩ := hx'
              rcases up _ hx rfl (by show B ≤ 2 * layer c + 1 + (n + 1); omega) with h2 | ⟨i', rest', h2⟩
              · exact h2
              · exact ⟨i', _, rest', h2, trivial⟩
          · exact ⟨i, _, rest, hi, Or.inr ⟨before, j, after, e1, e2, h1⟩⟩
    -- waiting for `asynchronous_mode_mutex`
    have async : ∀ c : Nat, B ≤ 2 * layer c + (n + 1) → s.AsyncFree c ∨ ∃ k, s.Ready k := by
      intro c hl
      by_cases hf : s.AsyncFree c
      · exact Or.inl hf
      · right
        unfold State.AsyncFree at hf
        push Not at hf
        obtain ⟨t, ht', x, hx, hx'⟩ := hf
        cases x <;> simp [Item.holdsAsync] at hx'
        · subst hx'
          rcases up _ (mem_items.2 ⟨t, ht', hx⟩) rfl hl with h1 | ⟨i', rest', h1⟩
          · exact h1
          · exact one i' _ _ rest' h1 hl
        · subst hx'
          rcases up _ (mem_items.2 ⟨t, ht', hx⟩) rfl hl with h1 | ⟨i', rest', h1⟩
          · exact h1
          · exact ⟨i', _, rest', h1, trivial⟩
        · subst hx'
          rcases up _ (mem_items.2 ⟨t, ht', hx⟩) rfl hl with h1 | ⟨i', rest', h1⟩
          · exact h1
          · exact flush i' _ rest' h1 hl
        · subst hx'
          rcases up _ (mem_items.2 ⟨t, ht', hx⟩) rfl hl with h1 | ⟨i', rest', h1⟩
          · exact h1
          · exact ⟨i', _, rest', h1, trivial⟩
    intro i x rest hi hl
    cases x with
    | call k =>
      cases k with
      | receive c =>
        by_cases hww : s.WriterWaits c
        · obtain ⟨t, ht', fl, hh⟩ := hww
          obtain ⟨i', hi'⟩ := List.getElem?_of_mem ht'
          cases t with
          | nil => simp at hh
          | cons y rest' =>
            simp only [List.head?_cons, Option.some.injEq] at hh
            subst hh
            exact one i' c fl rest' hi' hl
        · by_cases hw : s.NoWriter c
          · exact ⟨i, _, rest, hi, hw, hww⟩
          · unfold State.NoWriter at hw
            push Not at hw
            obtain ⟨t, ht', x, hx, hx'⟩ := hw
            cases x <;> simp [Item.writes] at hx'
            subst hx'
            rcases up _ (mem_items.2 ⟨t, ht', hx⟩) rfl hl with h1 | ⟨i', rest', h1⟩
            · exact h1
            · exact ⟨i', _, rest', h1, trivial⟩
      | launch c => exact (async c hl).elim (fun h => ⟨i, _, rest, hi, h⟩) id
      | flush c => exact (async c hl).elim (fun h => ⟨i, _, rest, hi, h⟩) id
      | disconnect c => exact (async c hl).elim (fun h => ⟨i, _, rest, hi, h⟩) id
      | sever c => exact (async c hl).elim (fun h => ⟨i, _, rest, hi, h⟩) id
    | reading c => exact ⟨i, _, rest, hi, trivial⟩
    | trim c => exact (async c hl).elim (fun h => ⟨i, _, rest, hi, h⟩) id
    | one c fl => exact one i c fl rest hi hl
    | both c fl => exact ⟨i, _, rest, hi, trivial⟩
    | flushing c => exact flush i c rest hi hl
    | clearing c => exact ⟨i, _, rest, hi, trivial⟩
    | run c j => exact ⟨i, _, rest, hi, trivial⟩
    | finish c j => exact ⟨i, _, rest, hi, trivial⟩

/-! ## termination -/

/-- the weight of an entry -/
def weight (layer : Nat → Nat) (layers : Nat) : Item → Nat
  | .call (.receive c) => 10 * (layers - layer c) + 2
  | .call (.launch c) => 10 * (layers - layer c) + 9
  | .call (.flush c) => 10 * (layers - layer c) + 6
  | .call (.disconnect c) => 10 * (layers - layer c) + 9
  | .call (.sever c) => 10 * (layers - layer c) + 9
  | .reading c => 10 * (layers - layer c) + 1
  | .trim c => 10 * (layers - layer c) + 1
  | .one c _ => 10 * (layers - layer c) + 8
  | .both c _ => 10 * (layers - layer c) + 7
  | .flushing c => 10 * (layers - layer c) + 5
  | .clearing c => 10 * (layers - layer c) + 4
  | .run c _ => 10 * (layers - layer c) + 2
  | .finish c _ => 10 * (layers - layer c) + 1

/-- the weight of a deferred task -/
def weightDeferred (layer : Nat → Nat) (layers : Nat) (p : Nat × Nat) : Nat := 10 * (layers - layer p.1) + 3

/-- everything that remains to be done -/
def State.work (layer : Nat → Nat) (layers : Nat) (s : State) : Multiset Nat :=
  s.items.map (weight layer layers) + (s.deferred : Multiset (Nat × Nat)).map (weightDeferred layer layers)

theorem weight_body (hL : Layered may layer layers) (c : Nat) (body : List Call) (hb : ∀ k ∈ body, may c k) :
    ∀ a ∈ (body.map Item.call : List Item).map (weight layer layers), a < 10 * (layers - layer c) := by
  intro a ha
  rw [List.map_map] at ha
  obtain ⟨k, hk, rfl⟩ := List.mem_map.1 ha
  have h1 := hL.downwards c k (hb k hk)
  have h2 := hL.bounded k.target
  have : weight layer layers (.call k) ≤ 10 * (layers - layer k.target) + 9 := by
    cases k <;> simp [weight, Call.target]
  show weight layer layers (.call k) < _
  omega

theorem work_goto {s : State} {i : Nat} {x : Item} {rest new : List Item} (hi : s.threads[i]? = some (x :: rest)) :
    (s.goto i (new ++ rest)).items.map (weight layer layers) + {weight layer layers x} = s.items.map (weight layer layers) + (new.map (weight layer layers) : List Nat) := by
  have := congrArg (Multiset.map (weight layer layers)) (items_goto (new := new) hi)
  simpa using this

theorem work_less {s s' : State} {i : Nat} {x : Item} {rest new : List Item} (hi : s.threads[i]? = some (x :: rest)) (hs : s'.items = (s.goto i (new ++ rest)).items)
    (hd : s'.deferred = s.deferred) (hw : ∀ a ∈ new.map (weight layer layers), a < weight layer layers x) :
    Relation.CutExpand (· < ·) (s'.work layer layers) (s.work layer layers) := by
  refine ⟨(new.map (weight layer layers) : List Nat), weight layer layers x, fun a ha => hw a (by simpa using ha), ?_⟩
  have := work_goto (layer := layer) (layers := layers) (new := new) hi
  unfold State.work
  rw [hs, hd, add_right_comm, this, add_right_comm]

theorem work_step (hL : Layered may layer layers) {i : Nat} {s s' : State} (hs : Step may i s s') :
    Relation.CutExpand (· < ·) (s'.work layer layers) (s.work layer layers) := by
  cases hs with
  | enter c rest body hi hw hb =>
    refine work_less (new := body.map .call ++ [.reading c]) hi (by simp) rfl (fun a ha => ?_)
    rw [List.map_append] at ha
    rcases List.mem_append.1 ha with h1 | h1
    · have := weight_body hL c body hb a h1
      simp only [weight]; omega
    · simp at h1; subst h1; simp [weight]
  | leave c rest hi => exact work_less (new := []) hi rfl rfl (by simp)
  | launchAsync c rest hi hl =>
    refine ⟨([weight layer layers (.trim c), weight layer layers (.run c s.tasks)] : List Nat), weight layer layers (.call (.launch c)), ?_, ?_⟩
    · intro a ha
      simp at ha
      rcases ha with rfl | rfl <;> simp [weight]
    · have := work_goto (layer := layer) (layers := layers) (new := [.trim c]) hi
      have e : (({ (s.goto i (.trim c :: rest)).setQueue c (s.queue c ++ [s.tasks]) with
          threads := s.threads.set i (.trim c :: rest) ++ [[.run c s.tasks]], tasks := s.tasks + 1 } : State)).items = (s.goto i ([.trim c] ++ rest)).items + {Item.run c s.tasks} := by
        show ((List.flatten (s.threads.set i (.trim c :: rest) ++ [[.run c s.tasks]]) : List Item) : Multiset Item) = _
        rw [List.flatten_append]
        rfl
      unfold State.work
      rw [e, Multiset.map_add, Multiset.map_singleton, add_right_comm, add_right_comm (Multiset.map _ _), this]
      show _ + ((s.deferred : Multiset (Nat × Nat))).map _ = _
      rw [show (([weight layer layers (.trim c), weight layer layers (.run c s.tasks)] : List Nat) : Multiset Nat) = (([Item.trim c].map (weight layer layers) : List Nat) : Multiset Nat) + {weight layer layers (.run c s.tasks)} from rfl]
      abel
  | launchDeferred c rest hi hl =>
    refine ⟨([weight layer layers (.trim c), weightDeferred layer layers (c, s.tasks)] : List Nat), weight layer layers (.call (.launch c)), ?_, ?_⟩
    · intro a ha
      simp at ha
      rcases ha with rfl | rfl <;> simp [weight, weightDeferred]
    · have := work_goto (layer := layer) (layers := layers) (new := [.trim c]) hi
      unfold State.work
      show (s.goto i ([.trim c] ++ rest)).items.map _ + ((s.deferred ++ [(c, s.tasks)] : List (Nat × Nat)) : Multiset (Nat × Nat)).map _ + _ = _
      rw [add_right_comm, this, ← Multiset.coe_add, Multiset.map_add]
      rw [show (([weight layer layers (.trim c), weightDeferred layer layers (c, s.tasks)] : List Nat) : Multiset Nat) = (([Item.trim c].map (weight layer layers) : List Nat) : Multiset Nat) + {weightDeferred layer layers (c, s.tasks)} from rfl]
      simp only [Multiset.coe_singleton, Multiset.map_singleton]
      abel
  | launchSkip c rest hi hl => exact work_less (new := []) hi rfl rfl (by simp)
  | trim c rest removed kept hi hl hq hr => exact work_less (new := []) hi rfl rfl (by simp)
  | run c j rest body hi hb =>
    refine work_less (new := body.map .call ++ [.finish c j]) hi (by simp) rfl (fun a ha => ?_)
    rw [List.map_append] at ha
    rcases List.mem_append.1 ha with h1 | h1
    · have := weight_body hL c body hb a h1
      simp only [weight]; omega
    · simp at h1; subst h1; simp [weight]
  | finish c j rest hi => exact work_less (new := []) hi rfl rfl (by simp)
  | flushLock c rest hi hl => exact work_less (new := [.flushing c]) hi rfl rfl (by simp [weight])
  | flushRun c j rest before after hi hq hb hj =>
    refine ⟨([weight layer layers (.run c j)] : List Nat), weightDeferred layer layers (c, j), ?_, ?_⟩
    · intro a ha
      simp at ha
      subst ha
      simp [weight, weightDeferred]
    · have := work_goto (layer := layer) (layers := layers) (new := [.run c j, .flushing c]) hi
      rw [show ((([Item.run c j, Item.flushing c].map (weight layer layers) : List Nat)) : Multiset Nat) = {weight layer layers (.run c j)} + {weight layer layers (.flushing c)} from rfl, ← add_assoc] at this
      have h1 := add_right_cancel this
      unfold State.work
      show (s.goto i ([.run c j, .flushing c] ++ rest)).items.map _ + ((s.deferred.erase (c, j) : List (Nat × Nat)) : Multiset (Nat × Nat)).map _ + _ = _
      rw [h1, add_assoc]
      have h2 : ((s.deferred.erase (c, j) : List (Nat × Nat)) : Multiset (Nat × Nat)).map (weightDeferred layer layers) + {weightDeferred layer layers (c, j)} = ((s.deferred : Multiset (Nat × Nat))).map (weightDeferred layer layers) := by
        rw [← Multiset.map_singleton, ← Multiset.map_add]
        congr 1
        rw [add_comm, Multiset.singleton_add, Multiset.cons_coe, Multiset.coe_eq_coe]
        exact (List.perm_cons_erase hj).symm
      rw [h2, add_right_comm]
      rfl
  | flushWaited c rest hi hq => exact work_less (new := [.clearing c]) hi rfl rfl (by simp [weight])
  | flushDone c rest body hi hb =>
    refine work_less (new := body.map .call) hi rfl rfl (fun a ha => ?_)
    have := weight_body hL c body hb a ha
    simp only [weight]; omega
  | disconnectLock c rest hi hl => exact work_less (new := [.one c true]) hi rfl rfl (by simp [weight])
  | severLock c rest hi hl => exact work_less (new := [.one c false]) hi rfl rfl (by simp [weight])
  | exclusive c fl rest hi hw hr => exact work_less (new := [.both c fl]) hi rfl rfl (by simp [weight])
  | disconnected c rest hi => exact work_less (new := [.call (.flush c)]) hi rfl rfl (by simp [weight])
  | severed c rest hi => exact work_less (new := []) hi rfl rfl (by simp)

theorem steps_wf (hL : Layered may layer layers) : WellFounded (fun s' s => AnyStep may s s') := by
  refine Subrelation.wf (r := InvImage (Relation.CutExpand (· < ·)) (State.work layer layers)) ?_ (InvImage.wf _ (WellFounded.cutExpand Nat.lt_wfRel.wf))
  rintro s' s ⟨i, hs⟩
  exact work_step hL hs

end SampleFlow.Locks
