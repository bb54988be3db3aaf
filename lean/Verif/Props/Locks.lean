import Verif.Proofs.Locks

/-!
# Property C86: no deadlocks in networks used by several threads, whose consume() functions disconnect and flush
-/

namespace SampleFlow.Locks

variable {may : Nat → Call → Prop} {layer : Nat → Nat} {layers : Nat}

theorem invariants (hL : Layered may layer layers) {programs : List (List Call)} {s : State} (h : Reachable may programs s) : AllOrdered layer s := by
  induction h with
  | refl => exact allOrdered_start programs
  | tail _ hs ih => obtain ⟨i, hs⟩ := hs; exact allOrdered_step hL hs ih

theorem clearInv {programs : List (List Call)} {s : State} (h : Reachable may programs s) : ClearInv s := by
  induction h with
  | refl => exact clearInv_start programs
  | tail _ hs ih => obtain ⟨i, hs⟩ := hs; exact clearInv_step hs ih

theorem taskInv {programs : List (List Call)} {s : State} (h : Reachable may programs s) : TaskInv s := by
  induction h with
  | refl => exact taskInv_start programs
  | tail hr hs ih => obtain ⟨i, hs⟩ := hs; exact taskInv_step hs (clearInv hr) ih

theorem lockInv {programs : List (List Call)} {s : State} (h : Reachable may programs s) : LockInv s := by
  induction h with
  | refl => exact lockInv_start programs
  | tail _ hs ih => obtain ⟨i, hs⟩ := hs; exact lockInv_step hs ih

/-- **C86** (no deadlock): whatever the threads do, and whatever consume() and flush() functions do further down in the network, and however the calls are
interleaved: as long as some thread is not finished, some thread does not have to wait -- even if the implementation of `std::shared_mutex` lets threads that want to
share a lock wait for threads that want the exclusive lock. -/
theorem C86_no_deadlock (hL : Layered may layer layers) (programs : List (List Call)) (s : State) (h : Reachable may programs s) (hf : ¬ s.Finished) : ∃ i, s.Ready i := by
  unfold State.Finished at hf
  push Not at hf
  obtain ⟨t, ht, hne⟩ := hf
  obtain ⟨i, hi⟩ := List.getElem?_of_mem ht
  cases t with
  | nil => exact absurd rfl hne
  | cons x rest =>
    have hB : ∀ y ∈ s.items, level layer y < 2 * layers + 2 := by
      intro y _
      have b := hL.bounded
      cases y with
      | call k => have := b k.target; simp only [level]; omega
      | reading c => have := b c; simp only [level]; omega
      | trim c => have := b c; simp only [level]; omega
      | one c _ => have := b c; simp only [level]; omega
      | both c _ => have := b c; simp only [level]; omega
      | flushing c => have := b c; simp only [level]; omega
      | clearing c => have := b c; simp only [level]; omega
      | run c _ => have := b c; simp only [level]; omega
      | finish c _ => have := b c; simp only [level]; omega
    exact progress s (invariants hL h) (taskInv h) (2 * layers + 2) hB (2 * layers + 2) i x rest hi (by omega)

/-- **C86**: a thread that does not have to wait can make a step; if it calls `consume()`, then with whatever calls `consume()` makes. -/
theorem C86_ready_goes (s : State) (i : Nat) (h : s.Ready i) :
    (∃ s', Step may i s s') ∧
    ∀ (c : Nat) (rest : List Item) (body : List Call), s.threads[i]? = some (.call (.receive c) :: rest) → (∀ k ∈ body, may c k) → Step may i s (s.goto i (body.map .call ++ .reading c :: rest)) := by
  obtain ⟨x, rest, hi, hf⟩ := h
  constructor
  · cases x with
    | call k =>
      cases k with
      | receive c => exact ⟨_, .enter c rest [] hi hf.1 (by simp)⟩
      | launch c => exact ⟨_, .launchSkip c rest hi hf⟩
      | flush c => exact ⟨_, .flushLock c rest hi hf⟩
      | disconnect c => exact ⟨_, .disconnectLock c rest hi hf⟩
      | sever c => exact ⟨_, .severLock c rest hi hf⟩
    | reading c => exact ⟨_, .leave c rest hi⟩
    | trim c => exact ⟨_, .trim c rest [] (s.queue c) hi hf rfl (by simp)⟩
    | one c fl => exact ⟨_, .exclusive c fl rest hi hf.1 hf.2⟩
    | both c fl =>
      cases fl with
      | true => exact ⟨_, .disconnected c rest hi⟩
      | false => exact ⟨_, .severed c rest hi⟩
    | flushing c =>
      rcases hf with hq | ⟨before, j, after, e1, e2, e3⟩
      · exact ⟨_, .flushWaited c rest hi hq⟩
      · exact ⟨_, .flushRun c j rest before after hi e1 e2 e3⟩
    | clearing c => exact ⟨_, .flushDone c rest [] hi (by simp)⟩
    | run c j => exact ⟨_, .run c j rest [] hi (by simp)⟩
    | finish c j => exact ⟨_, .finish c j rest hi⟩
  · intro c rest' body hi' hb
    rw [hi] at hi'
    cases hi'
    exact .enter c rest body hi hf.1 hb

/-- **C86** (everything ends): there are no infinite runs. -/
theorem C86_terminates (hL : Layered may layer layers) : ¬ ∃ f : Nat → State, ∀ n, AnyStep may (f n) (f (n + 1)) := by
  rintro ⟨f, hf⟩
  have := (steps_wf hL).has_min (Set.range f) ⟨f 0, 0, rfl⟩
  obtain ⟨m, ⟨n, rfl⟩, hm⟩ := this
  exact hm (f (n + 1)) ⟨n + 1, rfl⟩ (hf n)

/-- **C86** (all calls return): a run that cannot be continued has finished all threads, and every run can be continued to such an end. -/
theorem C86_all_calls_return (hL : Layered may layer layers) (programs : List (List Call)) (s : State) (h : Reachable may programs s) :
    ((∀ s', ¬ AnyStep may s s') → s.Finished) ∧ ∃ s', Relation.ReflTransGen (AnyStep may) s s' ∧ s'.Finished := by
  constructor
  · intro hn
    by_contra hf
    obtain ⟨i, hi⟩ := C86_no_deadlock hL programs s h hf
    obtain ⟨⟨s', hs⟩, _⟩ := C86_ready_goes (may := may) s i hi
    exact hn s' ⟨i, hs⟩
  · induction s using (steps_wf hL).induction with
    | _ s ih =>
      by_cases hf : s.Finished
      · exact ⟨s, .refl, hf⟩
      · obtain ⟨i, hi⟩ := C86_no_deadlock hL programs s h hf
        obtain ⟨⟨s', hs⟩, _⟩ := C86_ready_goes (may := may) s i hi
        obtain ⟨s2, h2, hf2⟩ := ih s' ⟨i, hs⟩ (h.tail ⟨i, hs⟩)
        exact ⟨s2, Relation.ReflTransGen.head ⟨i, hs⟩ h2, hf2⟩

/-- **C86** (mutual exclusion; for all networks, layered or not): while a thread severs the connections of a consumer, no thread executes its consume() function in synchronous mode, and no other thread
holds its `asynchronous_mode_mutex`. -/
theorem C86_mutual_exclusion (programs : List (List Call)) (s : State) (h : Reachable may programs s) (c i : Nat) (fl : Bool) (t : List Item)
    (hi : s.threads[i]? = some t) (ht : .both c fl ∈ t) :
    s.NoReader c ∧ ∀ (k : Nat) (t' : List Item), s.threads[k]? = some t' → k ≠ i → ∀ x ∈ t', x.holdsAsync c = false := by
  have inv := lockInv h
  have hm : Item.both c fl ∈ s.items := mem_items.2 ⟨t, List.mem_of_getElem? hi, ht⟩
  constructor
  · rcases inv.sync c with h0 | h0
    · have := count_zero.1 h0 t (List.mem_of_getElem? hi) _ ht
      simp [Item.writes] at this
    · exact count_zero.1 h0
  · intro k t' hk hne x hx
    by_contra hx'
    have hx'' : x.holdsAsync c = true := by simpa using hx'
    have two : 2 ≤ s.count (Item.holdsAsync c) := by
      unfold State.count State.items
      rw [Multiset.coe_countP, List.countP_flatten]
      have aux : ∀ (l : List (List Item)) (a b : Nat) (t t' : List Item) (p : Item → Bool), l[a]? = some t → l[b]? = some t' → a ≠ b → (∃ x ∈ t, p x = true) → (∃ x ∈ t', p x = true) →
          2 ≤ (l.map (List.countP p)).sum := by
        have pos : ∀ (t : List Item) (p : Item → Bool), (∃ x ∈ t, p x = true) → 1 ≤ List.countP p t := by
          intro t p ⟨x, hx, hp⟩
          exact List.countP_pos_iff.2 ⟨x, hx, hp⟩
        have pos1 : ∀ (l : List (List Item)) (a : Nat) (t : List Item) (p : Item → Bool), l[a]? = some t → (∃ x ∈ t, p x = true) → 1 ≤ (l.map (List.countP p)).sum := by
          intro l a t p ha hx
          have := List.single_le_sum (l := l.map (List.countP p)) (fun _ _ => Nat.zero_le _) (List.countP p t) (List.mem_map.2 ⟨t, List.mem_of_getElem? ha, rfl⟩)
          have := pos t p hx
          omega
        intro l
        induction l with
        | nil => intro a b t t' p ha; simp at ha
        | cons u l ih =>
          intro a b t t' p ha hb hne h1 h2
          rw [List.map_cons, List.sum_cons]
          cases a with
          | zero =>
            cases b with
            | zero => exact absurd rfl hne
            | succ b =>
              simp at ha hb
              subst ha
              have := pos u p h1
              have := pos1 l b t' p hb h2
              omega
          | succ a =>
            cases b with
            | zero =>
              simp at ha hb
              subst hb
              have := pos u p h2
              have := pos1 l a t p ha h1
              omega
            | succ b =>
              simp at ha hb
              have := ih a b t t' p ha hb (by omega) h1 h2
              omega
      refine aux s.threads i k t t' _ hi hk (Ne.symm hne) ⟨_, ht, by simp [Item.holdsAsync]⟩ ⟨x, hx, by simp [hx'']⟩
    have := inv.async c
    omega

/-- Thread `i` leaves the function `flush()` of consumer `c`. -/
def LeavesFlush (i c : Nat) (s s' : State) : Prop :=
  (∃ rest, s.threads[i]? = some (.flushing c :: rest) ∨ s.threads[i]? = some (.clearing c :: rest)) ∧ ∀ t, s'.threads[i]? = some t → .flushing c ∉ t ∧ .clearing c ∉ t

/-- **C86** (flush() is complete): when `flush()`, and thus `disconnect_and_flush()`, of a consumer returns, all its background tasks are finished -- those that have been launched until then in all threads. -/
theorem C86_flush_complete (programs : List (List Call)) (s s' : State) (h : Reachable may programs s) (i c : Nat) (hs : Step may i s s') (hl : LeavesFlush i c s s') :
    s'.queue c = [] ∧ (∀ j, (c, j) ∉ s'.deferred) ∧ ∀ t ∈ s'.threads, ∀ j, .run c j ∉ t ∧ .finish c j ∉ t := by
  have h' : Reachable may programs s' := h.tail ⟨i, hs⟩
  have inv := taskInv h'
  obtain ⟨⟨rest, hi⟩, hleft⟩ := hl
  have hq : s'.queue c = [] := by
    cases hs with
    | flushRun c' j rest' before after hi' hq' hb hj =>
      have hlt : i < s.threads.length := (List.getElem?_eq_some_iff.1 hi').1
      rcases hi with hi | hi <;> rw [hi] at hi' <;> cases hi'
      exact absurd (by simp) (hleft (.run c j :: .flushing c :: rest) (by simp [State.goto, hlt])).1
    | flushWaited c' rest' hi' hq' =>
      have hlt : i < s.threads.length := (List.getElem?_eq_some_iff.1 hi').1
      rcases hi with hi | hi <;> rw [hi] at hi' <;> cases hi'
      exact absurd (by simp) (hleft (.clearing c :: rest) (by simp [State.goto, hlt])).2
    | flushDone c' rest' body hi' hb =>
      rcases hi with hi | hi <;> rw [hi] at hi' <;> cases hi'
      simp [State.setQueue]
    | enter _ _ _ hi' _ _ => rcases hi with hi | hi <;> rw [hi] at hi' <;> cases hi'
    | leave _ _ hi' => rcases hi with hi | hi <;> rw [hi] at hi' <;> cases hi'
    | launchAsync _ _ hi' _ => rcases hi with hi | hi <;> rw [hi] at hi' <;> cases hi'
    | launchDeferred _ _ hi' _ => rcases hi with hi | hi <;> rw [hi] at hi' <;> cases hi'
    | launchSkip _ _ hi' _ => rcases hi with hi | hi <;> rw [hi] at hi' <;> cases hi'
    | trim _ _ _ _ hi' _ _ _ => rcases hi with hi | hi <;> rw [hi] at hi' <;> cases hi'
    | run _ _ _ _ hi' _ => rcases hi with hi | hi <;> rw [hi] at hi' <;> cases hi'
    | finish _ _ _ hi' => rcases hi with hi | hi <;> rw [hi] at hi' <;> cases hi'
    | flushLock _ _ hi' _ => rcases hi with hi | hi <;> rw [hi] at hi' <;> cases hi'
    | disconnectLock _ _ hi' _ => rcases hi with hi | hi <;> rw [hi] at hi' <;> cases hi'
    | severLock _ _ hi' _ => rcases hi with hi | hi <;> rw [hi] at hi' <;> cases hi'
    | exclusive _ _ _ hi' _ _ => rcases hi with hi | hi <;> rw [hi] at hi' <;> cases hi'
    | disconnected _ _ hi' => rcases hi with hi | hi <;> rw [hi] at hi' <;> cases hi'
    | severed _ _ hi' => rcases hi with hi | hi <;> rw [hi] at hi' <;> cases hi'
  refine ⟨hq, fun j hj => ?_, fun t ht j => ⟨fun hx => ?_, fun hx => ?_⟩⟩
  · have := (inv.queued (c, j) (by rw [State.active, Multiset.mem_add]; exact Or.inr hj)).1
    rw [hq] at this; simp at this
  · have := (inv.queued (c, j) (by rw [State.active, Multiset.mem_add]; exact Or.inl (Multiset.mem_bind.2 ⟨_, mem_items.2 ⟨t, ht, hx⟩, by simp [taskOf]⟩))).1
    rw [hq] at this; simp at this
  · have := (inv.queued (c, j) (by rw [State.active, Multiset.mem_add]; exact Or.inl (Multiset.mem_bind.2 ⟨_, mem_items.2 ⟨t, ht, hx⟩, by simp [taskOf]⟩))).1
    rw [hq] at this; simp at this

/-! ### waiting for oneself -/

theorem step_shape {i : Nat} {s s' : State} (hs : Step may i s s') : ∃ x rest new extra, s.threads[i]? = some (x :: rest) ∧ s'.threads = s.threads.set i (new ++ rest) ++ extra := by
  cases hs with
  | enter c rest body hi _ _ => exact ⟨_, rest, body.map .call ++ [.reading c], [], hi, by simp [State.goto]⟩
  | leave c rest hi => exact ⟨_, rest, [], [], hi, by simp [State.goto]⟩
  | launchAsync c rest hi _ => exact ⟨_, rest, [.trim c], [[.run c s.tasks]], hi, rfl⟩
  | launchDeferred c rest hi _ => exact ⟨_, rest, [.trim c], [], hi, by simp [State.goto, State.setQueue]⟩
  | launchSkip c rest hi _ => exact ⟨_, rest, [], [], hi, by simp [State.goto]⟩
  | trim c rest _ _ hi _ _ _ => exact ⟨_, rest, [], [], hi, by simp [State.goto, State.setQueue]⟩
  | run c j rest body hi _ => exact ⟨_, rest, body.map .call ++ [.finish c j], [], hi, by simp [State.goto]⟩
  | finish c j rest hi => exact ⟨_, rest, [], [], hi, by simp [State.goto]⟩
  | flushLock c rest hi _ => exact ⟨_, rest, [.flushing c], [], hi, by simp [State.goto]⟩
  | flushRun c j rest _ _ hi _ _ _ => exact ⟨_, rest, [.run c j, .flushing c], [], hi, by simp [State.goto]⟩
  | flushWaited c rest hi _ => exact ⟨_, rest, [.clearing c], [], hi, by simp [State.goto]⟩
  | flushDone c rest body hi _ => exact ⟨_, rest, body.map .call, [], hi, by simp [State.goto, State.setQueue]⟩
  | disconnectLock c rest hi _ => exact ⟨_, rest, [.one c true], [], hi, by simp [State.goto]⟩
  | severLock c rest hi _ => exact ⟨_, rest, [.one c false], [], hi, by simp [State.goto]⟩
  | exclusive c fl rest hi _ _ => exact ⟨_, rest, [.both c fl], [], hi, by simp [State.goto]⟩
  | disconnected c rest hi => exact ⟨_, rest, [.call (.flush c)], [], hi, by simp [State.goto]⟩
  | severed c rest hi => exact ⟨_, rest, [], [], hi, by simp [State.goto]⟩

/-- the stacks of the other threads stay -/
theorem other_thread {i k : Nat} {s s' : State} (hs : Step may k s s') (hne : k ≠ i) {t : List Item} (hi : s.threads[i]? = some t) : s'.threads[i]? = some t := by
  obtain ⟨x, rest, new, extra, _, e⟩ := step_shape hs
  have hlt : i < s.threads.length := (List.getElem?_eq_some_iff.1 hi).1
  rw [e, List.getElem?_append_left (by simpa using hlt), List.getElem?_set_ne hne, hi]

/-- a step that does not touch the bottom of the stack -/
theorem same_thread {i : Nat} {s s' : State} (hs : Step may i s s') {x : Item} {pre bottom : List Item} (hi : s.threads[i]? = some (x :: pre ++ bottom)) :
    ∃ pre', s'.threads[i]? = some (pre' ++ bottom) := by
  obtain ⟨y, rest, new, extra, hy, e⟩ := step_shape hs
  rw [hi] at hy
  simp only [List.cons_append, Option.some.injEq, List.cons.injEq] at hy
  obtain ⟨_, rfl⟩ := hy
  have hlt : i < s.threads.length := (List.getElem?_eq_some_iff.1 hi).1
  refine ⟨new ++ pre, ?_⟩
  rw [e, List.getElem?_append_left (by simpa using hlt), List.getElem?_set_self hlt, List.append_assoc]

theorem queue_step {i : Nat} {s s' : State} (hs : Step may i s s') (hc : ClearInv s) (c j : Nat) (hj : s.done j = true ∨ j ∈ s.queue c) : s'.done j = true ∨ j ∈ s'.queue c := by
  have sq : ∀ (d : Nat) (q : List Nat) (b : State), b.queue = s.queue → (d = c → j ∈ s.queue c → s.done j = true ∨ j ∈ q) → s.done j = true ∨ j ∈ (b.setQueue d q).queue c := by
    intro d q b hb hq
    rcases hj with h1 | h1
    · exact Or.inl h1
    · by_cases e : c = d
      · subst e; simpa [State.setQueue] using hq rfl h1
      · right; simpa [State.setQueue, e, hb] using h1
  cases hs with
  | launchAsync d rest hi hl => exact sq d (s.queue d ++ [s.tasks]) (s.goto i (.trim d :: rest)) rfl (fun e h1 => by subst e; exact Or.inr (List.mem_append_left _ h1))
  | launchDeferred d rest hi hl => exact sq d (s.queue d ++ [s.tasks]) (s.goto i (.trim d :: rest)) rfl (fun e h1 => by subst e; exact Or.inr (List.mem_append_left _ h1))
  | trim d rest removed kept hi hl hq hr =>
    exact sq d kept (s.goto i rest) rfl (fun e h1 => by
      subst e
      rw [hq] at h1
      exact (List.mem_append.1 h1).imp (hr j) id)
  | finish d k rest hi =>
    refine hj.imp (fun h1 => ?_) id
    show (if j = k then true else s.done j) = true
    split
    · rfl
    · exact h1
  | flushDone d rest body hi hb =>
    exact sq d [] (s.goto i (body.map .call ++ rest)) rfl (fun e h1 => by
      subst e
      exact Or.inl (hc d (mem_items.2 ⟨_, List.mem_of_getElem? hi, List.mem_cons_self⟩) j h1))
  | _ => exact hj

/-- the entries of a call of `flush()` or `disconnect_and_flush()` of `c` that has not waited for all tasks yet -/
def beforeFlushed (c : Nat) : Item → Bool
  | .call (.flush d) => d == c
  | .call (.disconnect d) => d == c
  | .one d fl => d == c && fl
  | .both d fl => d == c && fl
  | .flushing d => d == c
  | _ => false

/-- **C86** (flush() waits): thread `i` calls `flush()` or `disconnect_and_flush()` of consumer `c`.  When the call has returned -- the thread is back at what it has to do next -- all tasks are finished that were in `background_tasks` when it was called. -/
theorem C86_flush_waits (programs : List (List Call)) (s : State) (h : Reachable may programs s) (i c : Nat) (k : Call) (hk : k = .flush c ∨ k = .disconnect c) (rest : List Item)
    (hi : s.threads[i]? = some (.call k :: rest)) (s' : State) (h' : Relation.ReflTransGen (AnyStep may) s s') (hback : s'.threads[i]? = some rest) :
    ∀ j ∈ s.queue c, s'.done j = true := by
  intro j hj
  have key : s'.done j = true ∨ (j ∈ s'.queue c ∧ ∃ pre x, s'.threads[i]? = some (pre ++ x :: rest) ∧ beforeFlushed c x = true) := by
    clear hback
    induction h' with
    | refl => exact Or.inr ⟨hj, [], _, hi, by rcases hk with rfl | rfl <;> simp [beforeFlushed]⟩
    | @tail b d hb hs ih =>
      obtain ⟨m, hs⟩ := hs
      have hcl := clearInv (h.trans hb)
      rcases ih with hd | ⟨hq, pre, x, hst, hx⟩
      · rcases queue_step hs hcl c j (Or.inl hd) with h1 | _
        · exact Or.inl h1
        · left
          -- tasks stay finished
          cases hs with
          | finish c' j' rest' hi' =>
            show (if j = j' then true else b.done j) = true
            split
            · rfl
            · exact hd
          | _ => exact hd
      · rcases queue_step hs hcl c j (Or.inr hq) with h1 | hq'
        · exact Or.inl h1
        · by_cases hm : m = i
          · subst hm
            cases pre with
            | cons y pre =>
              obtain ⟨pre', e⟩ := same_thread (bottom := x :: rest) hs hst
              exact Or.inr ⟨hq', pre', x, e, hx⟩
            | nil =>
              rw [List.nil_append] at hst
              have hlt : m < b.threads.length := (List.getElem?_eq_some_iff.1 hst).1
              cases hs with
              | flushLock c' rest' hi' hl =>
                rw [hst] at hi'; cases hi'
                refine Or.inr ⟨hq', [], .flushing c', by simp [State.goto, hlt], by simpa [beforeFlushed] using hx⟩
              | flushRun c' j' rest' before after hi' hq'' hb' hj' =>
                rw [hst] at hi'; cases hi'
                refine Or.inr ⟨hq', [.run c' j'], .flushing c', by simp [State.goto, hlt], hx⟩
              | flushWaited c' rest' hi' hq'' =>
                rw [hst] at hi'; cases hi'
                have e : c' = c := by simpa [beforeFlushed] using hx
                subst e
                exact Or.inl (hq'' j hq)
              | disconnectLock c' rest' hi' hl =>
                rw [hst] at hi'; cases hi'
                refine Or.inr ⟨hq', [], .one c' true, by simp [State.goto, hlt], by simpa [beforeFlushed] using hx⟩
              | exclusive c' fl rest' hi' hw hr =>
                rw [hst] at hi'; cases hi'
                refine Or.inr ⟨hq', [], .both c' fl, by simp [State.goto, hlt], by simpa [beforeFlushed] using hx⟩
              | disconnected c' rest' hi' =>
                rw [hst] at hi'; cases hi'
                refine Or.inr ⟨hq', [], .call (.flush c'), by simp [State.goto, hlt], by simpa [beforeFlushed] using hx⟩
              | enter _ _ _ hi' _ _ => rw [hst] at hi'; cases hi'; simp [beforeFlushed] at hx
              | leave _ _ hi' => rw [hst] at hi'; cases hi'; simp [beforeFlushed] at hx
              | launchAsync _ _ hi' _ => rw [hst] at hi'; cases hi'; simp [beforeFlushed] at hx
              | launchDeferred _ _ hi' _ => rw [hst] at hi'; cases hi'; simp [beforeFlushed] at hx
              | launchSkip _ _ hi' _ => rw [hst] at hi'; cases hi'; simp [beforeFlushed] at hx
              | trim _ _ _ _ hi' _ _ _ => rw [hst] at hi'; cases hi'; simp [beforeFlushed] at hx
              | run _ _ _ _ hi' _ => rw [hst] at hi'; cases hi'; simp [beforeFlushed] at hx
              | finish _ _ _ hi' => rw [hst] at hi'; cases hi'; simp [beforeFlushed] at hx
              | severLock _ _ hi' _ => rw [hst] at hi'; cases hi'; simp [beforeFlushed] at hx
              | severed _ _ hi' => rw [hst] at hi'; cases hi'; simp [beforeFlushed] at hx
              | flushDone _ _ _ hi' _ => rw [hst] at hi'; cases hi'; simp [beforeFlushed] at hx
          · exact Or.inr ⟨hq', pre, x, other_thread hs hm hst, hx⟩
  rcases key with h1 | ⟨_, pre, x, e, _⟩
  · exact h1
  · rw [hback] at e
    have := congrArg List.length (Option.some.inj e)
    simp at this
    omega

/-- **C86** (what is excluded, asynchronous mode): a background task of a consumer that calls `flush()` -- or `disconnect_and_flush()`, or destroys the consumer, whose last part is `flush()` -- on this very consumer waits for itself: it
never returns from there, in no continuation of the run, whatever the network. -/
theorem C86_no_flush_in_own_task (programs : List (List Call)) (s : State) (h : Reachable may programs s) (i c j : Nat) (rest : List Item)
    (hi : s.threads[i]? = some (.flushing c :: rest)) (hj : .finish c j ∈ rest) (s' : State) (h' : Relation.ReflTransGen (AnyStep may) s s') :
    ∃ pre, s'.threads[i]? = some (pre ++ .flushing c :: rest) := by
  induction h' with
  | refl => exact ⟨[], hi⟩
  | @tail b d hb hs ih =>
    obtain ⟨pre, hpre⟩ := ih
    obtain ⟨k, hs⟩ := hs
    by_cases hk : k = i
    · subst hk
      cases pre with
      | cons x pre => exact same_thread hs hpre
      | nil =>
        have inv := taskInv (h.trans hb)
        have hact := inv.queued (c, j) (by
          rw [State.active, Multiset.mem_add]
          exact Or.inl (Multiset.mem_bind.2 ⟨.finish c j, mem_items.2 ⟨_, List.mem_of_getElem? hpre, by simp [hj]⟩, by simp [taskOf]⟩))
        rw [List.nil_append] at hpre
        have hlt : k < b.threads.length := (List.getElem?_eq_some_iff.1 hpre).1
        cases hs with
        | flushRun c' j' rest' before after hi' hq' hb' hj' =>
          rw [hpre] at hi'
          cases hi'
          exact ⟨[.run c j'], by simp [State.goto, hlt]⟩
        | flushWaited c' rest' hi' hq' =>
          rw [hpre] at hi'
          cases hi'
          have := hq' j hact.1
          rw [hact.2.1] at this
          cases this
        | flushDone c' rest' body hi' hb' => rw [hpre] at hi'; cases hi'
        | enter _ _ _ hi' _ _ => rw [hpre] at hi'; cases hi'
        | leave _ _ hi' => rw [hpre] at hi'; cases hi'
        | launchAsync _ _ hi' _ => rw [hpre] at hi'; cases hi'
        | launchDeferred _ _ hi' _ => rw [hpre] at hi'; cases hi'
        | launchSkip _ _ hi' _ => rw [hpre] at hi'; cases hi'
        | trim _ _ _ _ hi' _ _ _ => rw [hpre] at hi'; cases hi'
        | run _ _ _ _ hi' _ => rw [hpre] at hi'; cases hi'
        | finish _ _ _ hi' => rw [hpre] at hi'; cases hi'
        | flushLock _ _ hi' _ => rw [hpre] at hi'; cases hi'
        | disconnectLock _ _ hi' _ => rw [hpre] at hi'; cases hi'
        | severLock _ _ hi' _ => rw [hpre] at hi'; cases hi'
        | exclusive _ _ _ hi' _ _ => rw [hpre] at hi'; cases hi'
        | disconnected _ _ hi' => rw [hpre] at hi'; cases hi'
        | severed _ _ hi' => rw [hpre] at hi'; cases hi'
    · exact ⟨pre, other_thread hs hk hpre⟩

/-- **C86** (what is excluded, synchronous mode): a thread that executes consume() of a consumer in synchronous mode and disconnects this consumer, or destroys one of its producers, waits for the exclusive lock for ever (cf. C84). -/
theorem C86_no_disconnect_in_own_consume (programs : List (List Call)) (s : State) (i c : Nat) (fl : Bool) (rest : List Item)
    (hi : s.threads[i]? = some (.one c fl :: rest)) (hj : .reading c ∈ rest) (s' : State) (h' : Relation.ReflTransGen (AnyStep may) s s') :
    s'.threads[i]? = some (.one c fl :: rest) := by
  induction h' with
  | refl => exact hi
  | @tail b d hb hs ih =>
    obtain ⟨k, hs⟩ := hs
    by_cases hk : k = i
    · subst hk
      cases hs with
      | exclusive c' fl' rest' hi' hw hr =>
        rw [ih] at hi'
        cases hi'
        have := hr _ (List.mem_of_getElem? ih) (.reading c) (by simp [hj])
        simp [Item.reads] at this
      | enter _ _ _ hi' _ _ => rw [ih] at hi'; cases hi'
      | leave _ _ hi' => rw [ih] at hi'; cases hi'
      | launchAsync _ _ hi' _ => rw [ih] at hi'; cases hi'
      | launchDeferred _ _ hi' _ => rw [ih] at hi'; cases hi'
      | launchSkip _ _ hi' _ => rw [ih] at hi'; cases hi'
      | trim _ _ _ _ hi' _ _ _ => rw [ih] at hi'; cases hi'
      | run _ _ _ _ hi' _ => rw [ih] at hi'; cases hi'
      | finish _ _ _ hi' => rw [ih] at hi'; cases hi'
      | flushLock _ _ hi' _ => rw [ih] at hi'; cases hi'
      | disconnectLock _ _ hi' _ => rw [ih] at hi'; cases hi'
      | severLock _ _ hi' _ => rw [ih] at hi'; cases hi'
      | disconnected _ _ hi' => rw [ih] at hi'; cases hi'
      | severed _ _ hi' => rw [ih] at hi'; cases hi'
      | flushRun _ _ _ _ _ hi' _ _ _ => rw [ih] at hi'; cases hi'
      | flushWaited _ _ hi' _ => rw [ih] at hi'; cases hi'
      | flushDone _ _ _ hi' _ => rw [ih] at hi'; cases hi'
    · exact other_thread hs hk ih

/-! ### two threads -/

/-- consumers 0 and 1 (synchronous mode), each of which disconnects the other in its consume() function -/
def crossing (c : Nat) (k : Call) : Prop := k = .disconnect (1 - c)

/-- the state in which both wait -/
def crossed : State where
  threads := [[.one 1 true, .reading 0], [.one 0 true, .reading 1]]
  queue := fun _ => []
  deferred := []
  done := fun _ => false
  tasks := 0

/-- **C86** (violation): two threads issue samples to two consumers (synchronous mode) whose consume() functions each disconnect the other consumer: both can wait for ever.  Each of the functions alone would be fine (C84). -/
theorem C86_violation_crossing : Reachable crossing [[.receive 0], [.receive 1]] crossed ∧ ¬ crossed.Finished ∧ ∀ s', ¬ AnyStep crossing crossed s' := by
  refine ⟨?_, ?_, ?_⟩
  · refine .head ⟨0, .enter 0 [] [.disconnect 1] rfl ?_ (by simp [crossing])⟩ (.head ⟨1, .enter 1 [] [.disconnect 0] rfl ?_ (by simp [crossing])⟩
      (.head ⟨0, .disconnectLock 1 [.reading 0] rfl ?_⟩ (.head ⟨1, .disconnectLock 0 [.reading 1] rfl ?_⟩ .refl)))
    · simp [State.NoWriter, start, Item.writes]
    · simp [State.NoWriter, start, Item.writes, State.goto]
    · simp [State.AsyncFree, start, Item.holdsAsync, State.goto]
    · simp [State.AsyncFree, start, Item.holdsAsync, State.goto]
  · simp [State.Finished, crossed]
  · rintro s' ⟨i, hs⟩
    obtain ⟨x, rest, _, _, hx, _⟩ := step_shape hs
    have hnr : ¬ crossed.NoReader 0 ∧ ¬ crossed.NoReader 1 := by
      constructor <;> simp [State.NoReader, crossed, Item.reads]
    have key : ∀ (x : Item) (rest : List Item), crossed.threads[i]? = some (x :: rest) → (x = .one 1 true ∨ x = .one 0 true) := by
      intro x rest hx
      match i, hx with
      | 0, hx => simp [crossed] at hx; exact Or.inl hx.1.symm
      | 1, hx => simp [crossed] at hx; exact Or.inr hx.1.symm
      | n + 2, hx => simp [crossed] at hx
    cases hs with
    | exclusive c' fl' rest' hi' hw hr =>
      rcases key _ _ hi' with e | e <;> cases e
      · exact hnr.2 hr
      · exact hnr.1 hr
    | enter _ _ _ hi' _ _ => rcases key _ _ hi' with e | e <;> cases e
    | leave _ _ hi' => rcases key _ _ hi' with e | e <;> cases e
    | launchAsync _ _ hi' _ => rcases key _ _ hi' with e | e <;> cases e
    | launchDeferred _ _ hi' _ => rcases key _ _ hi' with e | e <;> cases e
    | launchSkip _ _ hi' _ => rcases key _ _ hi' with e | e <;> cases e
    | trim _ _ _ _ hi' _ _ _ => rcases key _ _ hi' with e | e <;> cases e
    | run _ _ _ _ hi' _ => rcases key _ _ hi' with e | e <;> cases e
    | finish _ _ _ hi' => rcases key _ _ hi' with e | e <;> cases e
    | flushLock _ _ hi' _ => rcases key _ _ hi' with e | e <;> cases e
    | disconnectLock _ _ hi' _ => rcases key _ _ hi' with e | e <;> cases e
    | severLock _ _ hi' _ => rcases key _ _ hi' with e | e <;> cases e
    | disconnected _ _ hi' => rcases key _ _ hi' with e | e <;> cases e
    | severed _ _ hi' => rcases key _ _ hi' with e | e <;> cases e
    | flushRun _ _ _ _ _ hi' _ _ _ => rcases key _ _ hi' with e | e <;> cases e
    | flushWaited _ _ hi' _ => rcases key _ _ hi' with e | e <;> cases e
    | flushDone _ _ _ hi' _ => rcases key _ _ hi' with e | e <;> cases e

/-- **C86** (violation): a consumer (asynchronous mode) that disconnects itself in its consume() function -- say because it has seen enough samples: its background task waits for its own end.  No thread can continue, and the task is not finished. -/
theorem C86_violation_own_task : ∃ s, Reachable (fun c k => k = .disconnect c) [[.launch 0]] s ∧ ¬ s.Finished ∧ ∀ s', ¬ AnyStep (fun c k => k = .disconnect c) s s' := by
  refine ⟨⟨[[], [.flushing 0, .finish 0 0]], fun d => if d = 0 then [0] else [], [], fun _ => false, 1⟩, ?_, ?_, ?_⟩
  · refine .head ⟨0, .launchAsync 0 [] rfl ?_⟩ (.head ⟨0, .trim 0 [] [] [0] rfl ?_ rfl (by simp)⟩ (.head ⟨1, .run 0 0 [] [.disconnect 0] rfl (by simp)⟩
      (.head ⟨1, .disconnectLock 0 [.finish 0 0] rfl ?_⟩ (.head ⟨1, .exclusive 0 true [.finish 0 0] rfl ?_ ?_⟩ (.head ⟨1, .disconnected 0 [.finish 0 0] rfl⟩
      (.head ⟨1, .flushLock 0 [.finish 0 0] rfl ?_⟩ ?_))))))
    · simp [State.AsyncFree, start, Item.holdsAsync]
    · simp [State.AsyncFree, start, Item.holdsAsync, State.goto, State.setQueue]
    · simp [State.AsyncFree, start, Item.holdsAsync, State.goto, State.setQueue]
    · simp [State.NoWriter, start, Item.writes, State.goto, State.setQueue]
    · simp [State.NoReader, start, Item.reads, State.goto, State.setQueue]
    · simp [State.AsyncFree, start, Item.holdsAsync, State.goto, State.setQueue]
    · refine Relation.ReflTransGen.refl.trans (Relation.reflTransGen_iff_eq_or_transGen.2 (Or.inl ?_))
      simp only [State.goto, State.setQueue, start, List.map_cons, List.map_nil, List.set_cons_zero, List.set_cons_succ, List.cons_append, List.nil_append, State.mk.injEq, true_and, and_true]
      funext d
      by_cases hd : d = 0 <;> simp [hd]
  · simp [State.Finished]
  · rintro s' ⟨i, hs⟩
    have key : ∀ (x : Item) (rest : List Item), ([[], [Item.flushing 0, .finish 0 0]] : List (List Item))[i]? = some (x :: rest) → x = .flushing 0 := by
      intro x rest hx
      match i, hx with
      | 0, hx => simp at hx
      | 1, hx => simp at hx; exact hx.1.symm
      | n + 2, hx => simp at hx
    cases hs with
    | flushRun c' j' rest' before after hi' hq' hb' hj' => simp at hj'
    | flushWaited c' rest' hi' hq' =>
      have e := key _ _ hi'
      cases e
      have := hq' 0 (by simp)
      simp at this
    | flushDone _ _ _ hi' _ => have e := key _ _ hi'; cases e
    | enter _ _ _ hi' _ _ => have e := key _ _ hi'; cases e
    | leave _ _ hi' => have e := key _ _ hi'; cases e
    | launchAsync _ _ hi' _ => have e := key _ _ hi'; cases e
    | launchDeferred _ _ hi' _ => have e := key _ _ hi'; cases e
    | launchSkip _ _ hi' _ => have e := key _ _ hi'; cases e
    | trim _ _ _ _ hi' _ _ _ => have e := key _ _ hi'; cases e
    | run _ _ _ _ hi' _ => have e := key _ _ hi'; cases e
    | finish _ _ _ hi' => have e := key _ _ hi'; cases e
    | flushLock _ _ hi' _ => have e := key _ _ hi'; cases e
    | disconnectLock _ _ hi' _ => have e := key _ _ hi'; cases e
    | severLock _ _ hi' _ => have e := key _ _ hi'; cases e
    | exclusive _ _ _ hi' _ _ => have e := key _ _ hi'; cases e
    | disconnected _ _ hi' => have e := key _ _ hi'; cases e
    | severed _ _ hi' => have e := key _ _ hi'; cases e

/-! ### the premises can be met -/

/-- A network: the filter 0 (asynchronous mode) issues to consumer 1 (synchronous mode) and flushes it; consumer 1 issues to consumer 2, and disconnects it when it has seen enough. -/
def exampleNetwork (c : Nat) (k : Call) : Prop := (c = 0 ∧ (k = .receive 1 ∨ k = .flush 1)) ∨ (c = 1 ∧ (k = .receive 2 ∨ k = .disconnect 2))

theorem exampleLayered : Layered exampleNetwork (fun c => min c 2) 3 where
  bounded := fun c => by omega
  downwards := by
    rintro c k (⟨rfl, rfl | rfl⟩ | ⟨rfl, rfl | rfl⟩) <;> simp [Call.target]

/-- Two threads sample and flush at the same time, a third one disconnects consumers: they always come to an end. -/
example (s : State) (h : Reachable exampleNetwork [[.launch 0, .launch 0, .flush 0], [.launch 0, .receive 2, .flush 0], [.disconnect 1, .disconnect 0, .sever 2]] s) :
    ∃ s', Relation.ReflTransGen (AnyStep exampleNetwork) s s' ∧ s'.Finished :=
  (C86_all_calls_return exampleLayered _ s h).2

end SampleFlow.Locks
