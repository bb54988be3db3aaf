import Verif.Proofs.Disconnect

/-!
# Disconnecting and destroying consumers while samples flow (C17, C18, C54)
-/

namespace SampleFlow.Disconnect

variable {V : Type}

/-- Thread `i` has returned from `disconnect_and_flush()`. -/
def HasReturned (s : State V) (i : Nat) : Prop :=
  s.threads[i]? = some .dReturned ∨ s.threads[i]? = some .dDestroyed

theorem HasReturned.step {s s' : State V} {i : Nat} (h : HasReturned s i) (hs : Step s s') :
    HasReturned s' i := by
  have key : ∀ (k : Nat) (pc pc' : Pc V), s.threads[k]? = some pc → pc.returned = false →
      (s.threads.set k pc')[i]? = some .dReturned ∨ (s.threads.set k pc')[i]? = some .dDestroyed := by
    intro k pc pc' hk hp
    rw [get_set hk]
    by_cases e : i = k
    · subst e
      exfalso
      rcases h with h | h <;> rw [hk] at h <;> cases h <;> cases hp
    · simp only [e, if_false]; exact h
  cases hs with
  | asyncLaunch k c m msgs hi hm hd hl hc =>
    have := key k _ (.sTrim c msgs) hi rfl
    have up : ∀ q, (s.threads.set k (.sTrim c msgs))[i]? = some q →
        (s.threads.set k (.sTrim c msgs) ++ [.wReady m])[i]? = some q := by
      intro q hq
      rw [List.getElem?_append_left]
      · exact hq
      · by_contra h; rw [List.getElem?_eq_none (by omega)] at hq; cases hq
    exact this.imp (up _) (up _)
  | discSlot k c hi hc hu => exact h
  | destroy k hi =>
    show (s.threads.set k _)[i]? = _ ∨ (s.threads.set k _)[i]? = _
    rw [get_set hi]
    by_cases e : i = k
    · simp [e]
    · simp only [e, if_false]; exact h
  | useAfterFree k pc hi hp hd =>
    exact key k _ _ hi (by cases pc <;> simp_all [Pc.inSlot, Pc.returned])
  | emit k c m msgs hi hu => exact key k _ _ hi rfl
  | emitNot k c m msgs hi hu => exact key k _ _ hi rfl
  | syncEnter k c m msgs hi hm hd hl hc => exact key k _ _ hi rfl
  | syncSkip k c m msgs hi hm hd hl hc => exact key k _ _ hi rfl
  | syncLeave k c m msgs hi => exact key k _ _ hi rfl
  | asyncSkip k c m msgs hi hm hd hl hc => exact key k _ _ hi rfl
  | trim k c msgs removed rest hi hd hl hq hr => exact key k _ _ hi rfl
  | taskStart k m hi => exact key k _ _ hi rfl
  | taskEnd k m hi => exact key k _ _ hi rfl
  | flushEmit k c hi hu => exact key k _ _ hi rfl
  | flushEmitNot k c hi hu => exact key k _ _ hi rfl
  | flushLock k c hi hd hl => exact key k _ _ hi rfl
  | flushWait k c hi hq => exact key k _ _ hi rfl
  | prodEmit k c hi hu => exact key k _ _ hi rfl
  | prodEmitNot k c hi hu => exact key k _ _ hi rfl
  | prodLock1 k c hi hd hl => exact key k _ _ hi rfl
  | prodLock2 k c hi hl hr => exact key k _ _ hi rfl
  | prodErase k c hi hc => exact key k _ _ hi rfl
  | prodEnd k c hi hc => exact key k _ _ hi rfl
  | discLock1 k hi hl => exact key k _ _ hi rfl
  | discLock2 k hi hl hr => exact key k _ _ hi rfl
  | discClear k hi hc => exact key k _ _ hi rfl
  | discFlush k hi hl => exact key k _ _ hi rfl
  | discWait k hi hq => exact key k _ _ hi rfl

/-- **C17**. Any number of threads sending samples, flushing and destroying producers, and background
tasks; in both parallel modes; every schedule: once a thread `i` has returned from
`disconnect_and_flush()` (in state `s`), in no state `s'` from then on any thread or task is executing
`consume()` of the object. -/
theorem C17_no_consume_after_disconnect (isAsync : Bool) (conns : List Nat) (threads : List (Pc V))
    (hf : ∀ pc ∈ threads, pc.fresh = true) (s : State V) (h : Reachable isAsync conns threads s)
    (i : Nat) (hret : HasReturned s i) (s' : State V) (hlater : Relation.ReflTransGen Step s s') :
    ∀ pc ∈ s'.threads, pc.consuming = false := by
  have hret' : HasReturned s' i := by
    induction hlater with
    | refl => exact hret
    | tail _ hs ih => exact ih.step hs
  have I : Inv s' := Reachable.inv hf (h.trans hlater)
  obtain ⟨q, h1, h2⟩ : ∃ q, s'.at i q ∧ q.returned = true := by
    rcases hret' with h | h
    · exact ⟨_, h, rfl⟩
    · exact ⟨_, h, rfl⟩
  intro pc hpc
  obtain ⟨j, hj⟩ := List.mem_iff_getElem?.mp hpc
  have r1 := I.d (I.e i q h1 (returned_past h2)) j pc hj
  have r2 := I.h i q h1 h2 j pc hj
  cases pc <;> simp_all [Pc.reader, Pc.pending, Pc.consuming]

/-- **C54**, no deadlock: as long as some thread has not come to its end, somebody can act. -/
theorem C54_no_deadlock (isAsync : Bool) (conns : List Nat) (threads : List (Pc V))
    (hf : ∀ pc ∈ threads, pc.fresh = true) (s : State V) (h : Reachable isAsync conns threads s)
    (hne : ∃ pc ∈ s.threads, pc.ended = false) : ∃ s', Step s s' :=
  progress (Reachable.inv hf h) (Reachable.inv2 h) hne

/-- `k` actions lead from `s` to `s'`. -/
inductive Steps : Nat → State V → State V → Prop
  | zero (s) : Steps 0 s s
  | succ {k s s' s''} : Steps k s s' → Step s' s'' → Steps (k + 1) s s''

/-- **C54**, termination: the number of actions is bounded, for every schedule; so every call of
`disconnect_and_flush()` returns. -/
theorem C54_every_schedule_finite (isAsync : Bool) (conns : List Nat) (threads : List (Pc V)) :
    ∃ bound, ∀ k s, Steps k (initial isAsync conns threads) s → k ≤ bound := by
  refine ⟨(initial isAsync conns threads).weight, ?_⟩
  have key : ∀ k (s s' : State V), Steps k s s' → s'.weight + k ≤ s.weight := by
    intro k s s' h
    induction h with
    | zero s => simp
    | succ _ hs ih => have := hs.decreases; omega
  intro k s h
  have := key k _ s h
  omega

/-! ### C18 -/

/-- **C18 is violated** in synchronous mode: a sender that has been preempted between the signal's check and
the slot's lock uses the mutex of the destroyed consumer. -/
theorem C18_violation_synchronous (m : V) :
    ∃ s, Reachable false [0] [.sIdle 0 [m], .dStart] s ∧ s.fault = true := by
  refine ⟨_, Relation.ReflTransGen.refl
    |>.tail (.emit 0 0 m [] rfl rfl)
    |>.tail (.discLock1 1 rfl rfl)
    |>.tail (.discLock2 1 rfl rfl (by intro pc h; simp [State.goto, initial] at h; rcases h with rfl | rfl <;> rfl))
    |>.tail (.discSlot 1 0 rfl (by simp [State.goto, initial]) rfl)
    |>.tail (.discClear 1 rfl (by intro c h; simp [State.goto, initial] at h; subst h; rfl))
    |>.tail (.discFlush 1 rfl rfl)
    |>.tail (.discWait 1 rfl (by intro j h; simp [State.goto, initial] at h))
    |>.tail (.destroy 1 rfl)
    |>.tail (.useAfterFree 0 (.sSlot 0 m []) rfl rfl rfl), rfl⟩

/-- **C18 is violated** in asynchronous mode, also when the sample was accepted long before: a sender that
has been preempted before `trim_background_queue()`. -/
theorem C18_violation_asynchronous (m : V) :
    ∃ s, Reachable true [0] [.sIdle 0 [m], .dStart] s ∧ s.fault = true := by
  refine ⟨_, Relation.ReflTransGen.refl
    |>.tail (.emit 0 0 m [] rfl rfl)
    |>.tail (.asyncLaunch 0 0 m [] rfl rfl rfl rfl (by simp [State.goto, initial]))
    |>.tail (.discLock1 1 rfl rfl)
    |>.tail (.discLock2 1 rfl rfl (by
        intro pc h; simp [State.goto, initial] at h; rcases h with rfl | rfl | rfl <;> rfl))
    |>.tail (.discSlot 1 0 rfl (by simp [State.goto, initial]) rfl)
    |>.tail (.discClear 1 rfl (by intro c h; simp [State.goto, initial] at h; subst h; rfl))
    |>.tail (.discFlush 1 rfl rfl)
    |>.tail (.taskStart 2 m rfl)
    |>.tail (.taskEnd 2 m rfl)
    |>.tail (.discWait 1 rfl (by intro j h; simp [State.goto, initial] at h; subst h; rfl))
    |>.tail (.destroy 1 rfl)
    |>.tail (.useAfterFree 0 (.sTrim 0 []) rfl rfl rfl), rfl⟩

/-- **C18 is violated** if a producer and the consumer are disconnected at the same time: the slot
`disconnect_from_producer` looks for its connection in a container from which `disconnect_and_flush()` has
removed it, and dereferences the end iterator. -/
theorem C18_violation_iterator :
    (initial (V := V) false [0] [.pIdle 0, .dStart]).badIterator = false ∧
    ∃ s : State V, Reachable false [0] [.pIdle 0, .dStart] s ∧ s.badIterator = true := by
  refine ⟨rfl, _, Relation.ReflTransGen.refl
    |>.tail (.prodEmit 0 0 rfl rfl)
    |>.tail (.discLock1 1 rfl rfl)
    |>.tail (.discLock2 1 rfl rfl (by intro pc h; simp [State.goto, initial] at h; rcases h with rfl | rfl <;> rfl))
    |>.tail (.discSlot 1 0 rfl (by simp [State.goto, initial]) rfl)
    |>.tail (.discClear 1 rfl (by intro c h; simp [State.goto, initial] at h; subst h; rfl))
    |>.tail (.prodLock1 0 0 rfl rfl rfl)
    |>.tail (.prodLock2 0 0 rfl rfl (by intro pc h; simp [State.goto, initial] at h; rcases h with rfl | rfl <;> rfl))
    |>.tail (.prodEnd 0 0 rfl (by simp [State.goto, initial])), rfl⟩

/-- A step in which the object is destroyed only while no thread executes one of its slots (for example
because all calls of `sample()` have returned). -/
def CarefulStep (s s' : State V) : Prop :=
  Step s s' ∧ (s'.destroyed = true → s.destroyed = false → ∀ pc ∈ s.threads, pc.inSlot = false)

/-- **C18**, what does hold: if the object is destroyed only while no other thread is inside one of its
slots, then a destroyed object is never used (even though the other threads may go on sampling). -/
theorem C18_no_use_after_destruction_partial (isAsync : Bool) (conns : List Nat) (threads : List (Pc V))
    (hf : ∀ pc ∈ threads, pc.fresh = true) (s : State V)
    (h : Relation.ReflTransGen CarefulStep (initial isAsync conns threads) s) : s.fault = false := by
  have key : Reachable isAsync conns threads s ∧ s.fault = false ∧
      (s.destroyed = true → ∀ pc ∈ s.threads, pc.inSlot = false) := by
    induction h with
    | refl => exact ⟨.refl, rfl, by intro h; cases h⟩
    | tail hprev hs ih =>
      rename_i b c
      obtain ⟨hr, hfa, hsl⟩ := ih
      obtain ⟨hs, hcare⟩ := hs
      have I := Reachable.inv hf hr
      refine ⟨hr.tail hs, ?_, ?_⟩
      · cases hs with
        | useAfterFree i pc hi hp hd =>
          have := hsl hd pc (List.mem_of_getElem? hi)
          rw [hp] at this; cases this
        | _ => exact hfa
      · -- after the destruction all slots are disconnected
        have mem : ∀ (i : Nat) (p : Pc V), p.inSlot = false → (∀ pc ∈ b.threads, pc.inSlot = false) →
            ∀ pc ∈ b.threads.set i p, pc.inSlot = false := by
          intro i p hp hall pc hpc
          rcases List.mem_or_eq_of_mem_set hpc with h | h
          · exact hall pc h
          · rw [h]; exact hp
        have noSlot : ∀ k, b.destroyed = true → b.slotUp k = false := by
          intro k hd
          by_contra hu
          have := I.l k (by simpa using hu)
          rw [I.k hd] at this
          simp at this
        cases hs with
        | emit i c m msgs hi hu => intro hd; rw [noSlot c hd] at hu; cases hu
        | flushEmit i c hi hu => intro hd; rw [noSlot c hd] at hu; cases hu
        | prodEmit i c hi hu => intro hd; rw [noSlot c hd] at hu; cases hu
        | asyncLaunch i c m msgs hi hm hd hl hc => intro hd'; simp only at hd'; rw [hd] at hd'; cases hd'
        | discSlot i c hi hc hu => exact hsl
        | destroy i hi =>
          intro _
          cases hd : b.destroyed with
          | true => exact mem i _ rfl (hsl hd)
          | false => exact mem i _ rfl (hcare rfl hd)
        | useAfterFree i pc hi hp hd => intro hd; exact mem i _ rfl (hsl hd)
        | emitNot i c m msgs hi hu => intro hd; exact mem i _ rfl (hsl hd)
        | syncEnter i c m msgs hi hm hd hl hc => intro hd; exact mem i _ rfl (hsl hd)
        | syncSkip i c m msgs hi hm hd hl hc => intro hd; exact mem i _ rfl (hsl hd)
        | syncLeave i c m msgs hi => intro hd; exact mem i _ rfl (hsl hd)
        | asyncSkip i c m msgs hi hm hd hl hc => intro hd; exact mem i _ rfl (hsl hd)
        | trim i c msgs removed rest hi hd hl hq hr => intro hd; exact mem i _ rfl (hsl hd)
        | taskStart i m hi => intro hd; exact mem i _ rfl (hsl hd)
        | taskEnd i m hi => intro hd; exact mem i _ rfl (hsl hd)
        | flushEmitNot i c hi hu => intro hd; exact mem i _ rfl (hsl hd)
        | flushLock i c hi hd hl => intro hd; exact mem i _ rfl (hsl hd)
        | flushWait i c hi hq => intro hd; exact mem i _ rfl (hsl hd)
        | prodEmitNot i c hi hu => intro hd; exact mem i _ rfl (hsl hd)
        | prodLock1 i c hi hd hl => intro hd; exact mem i _ rfl (hsl hd)
        | prodLock2 i c hi hl hr => intro hd; exact mem i _ rfl (hsl hd)
        | prodErase i c hi hc => intro hd; exact mem i _ rfl (hsl hd)
        | prodEnd i c hi hc => intro hd; exact mem i _ rfl (hsl hd)
        | discLock1 i hi hl => intro hd; exact mem i _ rfl (hsl hd)
        | discLock2 i hi hl hr => intro hd; exact mem i _ rfl (hsl hd)
        | discClear i hi hc => intro hd; exact mem i _ rfl (hsl hd)
        | discFlush i hi hl => intro hd; exact mem i _ rfl (hsl hd)
        | discWait i hi hq => intro hd; exact mem i _ rfl (hsl hd)
  exact key.2.1

/-- Non-vacuity: the schedules of the violation theorems pass through states where
`disconnect_and_flush()` has returned while a sender still has samples to send. -/
example : ∃ s : State Nat, Reachable false [0] [.sIdle 0 [7, 8], .dStart] s ∧ HasReturned s 1 ∧
    s.threads[0]? = some (.sIdle 0 [8]) ∧ (∀ pc ∈ [Pc.sIdle 0 [7, 8], Pc.dStart], pc.fresh = true) := by
  refine ⟨_, Relation.ReflTransGen.refl
    |>.tail (.emit 0 0 7 [8] rfl rfl)
    |>.tail (.syncEnter 0 0 7 [8] rfl rfl rfl rfl (by simp [State.goto, initial]))
    |>.tail (.syncLeave 0 0 7 [8] rfl)
    |>.tail (.discLock1 1 rfl rfl)
    |>.tail (.discLock2 1 rfl rfl (by intro pc h; simp [State.goto, initial] at h; rcases h with rfl | rfl <;> rfl))
    |>.tail (.discSlot 1 0 rfl (by simp [State.goto, initial]) rfl)
    |>.tail (.discClear 1 rfl (by intro c h; simp [State.goto, initial] at h; subst h; rfl))
    |>.tail (.discFlush 1 rfl rfl)
    |>.tail (.discWait 1 rfl (by intro j h; simp [State.goto, initial] at h)), Or.inl rfl, rfl, by decide⟩

/-- The premise `fresh` of the theorems admits threads of all four kinds: senders, threads that flush, threads that
destroy a producer and threads that call `disconnect_and_flush()`. -/
example (c : Nat) (ms : List V) : ∀ pc ∈ [Pc.sIdle c ms, .fIdle c, .pIdle c, .dStart], pc.fresh = true := by
  intro pc h
  simp only [List.mem_cons, List.not_mem_nil, or_false] at h
  rcases h with rfl | rfl | rfl | rfl <;> rfl

/-- `consuming` in C43 covers synchronous calls of `consume()` and those by background tasks. -/
example (pc : Pc V) : pc.consuming = false ↔ (∀ c m ms, pc ≠ .sConsume c m ms) ∧ ∀ m, pc ≠ .wConsume m := by
  cases pc <;> simp [Pc.consuming]

/-! ### Instances: concrete cases that meet the hypotheses of the theorems above -/

example (s : State Nat) (h : Reachable false [0] [.sIdle 0 [7, 8], .dStart] s) (hret : HasReturned s 1) (s' : State Nat) :=
  C17_no_consume_after_disconnect false [0] [.sIdle 0 [7, 8], .dStart] (by simp [Pc.fresh]) s h 1 hret s'
example (s : State Nat) (h : Reachable true [0, 1] [.sIdle 0 [7, 8], .fIdle 1, .dStart] s) := C54_no_deadlock true [0, 1] [.sIdle 0 [7, 8], .fIdle 1, .dStart] (by simp [Pc.fresh]) s h
example (s : State Nat) (h : Relation.ReflTransGen CarefulStep (initial true [0, 1] [.sIdle 0 [7, 8], .fIdle 1, .dStart]) s) :=
  C18_no_use_after_destruction_partial true [0, 1] [.sIdle 0 [7, 8], .fIdle 1, .dStart] (by simp [Pc.fresh]) s h

end SampleFlow.Disconnect
