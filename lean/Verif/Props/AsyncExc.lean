import Verif.Proofs.AsyncExc
import Verif.Props.AsyncNet

/-!
# Exceptions in networks with asynchronous members, all schedules (C69)

`ExcReachable N progs s`: some schedule of the user threads and of the background tasks leads from the start to `s`, where any consumer or filter may throw exceptions.
-/

namespace SampleFlow.Async

open Spec

variable {V E : Type}

/-- **C69** (flushing). Whichever consumers and filters throw, whatever the schedule: as soon as a call of `sample()` made by user thread `a` has ended (with an exception or not),
every background task caused by a sample of that thread has finished. -/
theorem C69_flush_waits (N : ExcNet V E) (progs : List (List (Call V))) (hf : Flushes progs) (s : ExcState V E)
    (h : ExcReachable N progs s) (a : Nat) (ha : NotSampling s.base a) (t : Thread V) (ht : t ∈ s.base.threads)
    (hto : t.owner = a) (htask : t.task ≠ none) : t.stack = [] := by
  have I := h.inv hf
  by_contra hne
  obtain ⟨i, hi⟩ := List.mem_iff_getElem?.mp ht
  obtain ⟨⟨u, d⟩, hm⟩ := Option.ne_none_iff_exists'.mp htask
  obtain ⟨ta, h1, k, h2, -⟩ := I.cover i t u d hi hm hne
  obtain ⟨tb, h3, h4, h5⟩ := ha
  rw [hto, h3] at h1; cases h1
  rcases h5 with h5 | ⟨rest, h5⟩ <;> rw [h5] at h2 <;> simp at h2

/-- **C69** (lifetime). A task that has not finished, also because an exception is on its way, is in the queue of its consumer, so that `disconnect_and_flush()` waits for it. -/
theorem C69_unfinished_is_queued (N : ExcNet V E) (progs : List (List (Call V))) (hf : Flushes progs) (s : ExcState V E)
    (h : ExcReachable N progs s) (j : Nat) (t : Thread V) (n : Nat) (d : Bool) (ht : s.base.threads[j]? = some t)
    (htask : t.task = some (n, d)) (hs : t.stack ≠ []) : j ∈ s.base.queue n :=
  (h.inv hf).inQueue j t n d ht htask hs

/-- **C69** (no deadlock). As long as not everything has finished, some thread can go on. -/
theorem C69_no_deadlock (N : ExcNet V E) (hac : Acyclic N.quiet) (progs : List (List (Call V))) (hf : Flushes progs)
    (s : ExcState V E) (h : ExcReachable N progs s) (hd : ¬ AllDone s.base) : ∃ s', ExcStep N s s' := by
  obtain ⟨rank, hr⟩ := hac
  obtain ⟨b, hb⟩ := (h.inv hf).progress hr hd
  exact hb.exc (rep := s.reported)

/-- **C69** (termination). There is a bound on the number of actions of all schedules together. -/
theorem C69_terminates (N : ExcNet V E) (hac : Acyclic N.quiet) (progs : List (List (Call V))) :
    ∃ B, ∀ k s, ExcSteps N k ⟨initial progs, []⟩ s → k ≤ B := by
  obtain ⟨rank, hr⟩ := hac
  refine ⟨total (weight N.quiet rank) (initial progs).threads, fun k s h => ?_⟩
  have := ExcSteps.bound hr h
  simp only at this
  omega

/-- **C69** (completion). From every reachable state all calls of `sample()` and all tasks can come to their end, and a schedule that cannot be continued has brought them there. -/
theorem C69_always_completes (N : ExcNet V E) (hac : Acyclic N.quiet) (progs : List (List (Call V))) (hf : Flushes progs)
    (s : ExcState V E) (h : ExcReachable N progs s) :
    (∃ s', Relation.ReflTransGen (ExcStep N) s s' ∧ AllDone s'.base) ∧
      ∀ s', Relation.ReflTransGen (ExcStep N) s s' → (¬ ∃ s'', ExcStep N s' s'') → AllDone s'.base := by
  constructor
  · obtain ⟨rank, hr⟩ := hac
    exact exc_completes hr _ s (h.inv hf) rfl
  · intro s' hss' hstop
    by_contra hd
    exact hstop (C69_no_deadlock N hac progs hf s' (h.trans hss') hd)

/-- **C69** (no duplicates). Nothing is ever consumed that was not sent, or more often than it was sent; a filter that throws sends nothing. -/
theorem C69_never_duplicated (N : ExcNet V E) (K : Nat) (hK : Finite N.quiet K) (progs : List (List (Call V)))
    (s : ExcState V E) (h : ExcReachable N progs s) (n : Nat) :
    (s.base.log n).Subperm (fromProducers progs n ++ fromNodes N.quiet K s.base.log n) := by
  classical
  rw [List.subperm_ext_iff]
  intro v _
  have := h.count hK (fun x => x == v) n
  rw [List.count_append]
  simp only [List.count]
  rw [countP_fromNodes]
  omega

/-- **C69** (isolation). If only asynchronous consumers and filters throw, nobody else notices: the possible executions are exactly those of the network in which they discard the sample
instead of throwing. -/
theorem C69_asynchronous_exceptions_are_isolated (N : ExcNet V E) (ho : OnlyAsyncThrows N) (progs : List (List (Call V))) (b : State V) :
    (∃ rep, ExcReachable N progs ⟨b, rep⟩) ↔ Reachable N.quiet progs b := by
  constructor
  · rintro ⟨rep, h⟩
    exact h.as_quiet ho
  · intro h
    refine ⟨[], ?_⟩
    induction h with
    | refl => exact .refl
    | tail h0 hs ih =>
      exact Relation.ReflTransGen.tail ih (Step.as_exc (s := ⟨_, []⟩) (ExcReachable.isolated ih) ho hs)

/-- **C69** (isolation, exactly once). In particular every consumer then gets exactly what was sent to it. -/
theorem C69_asynchronous_exactly_once (N : ExcNet V E) (ho : OnlyAsyncThrows N) (K : Nat) (hK : Finite N.quiet K)
    (progs : List (List (Call V))) (s : ExcState V E) (h : ExcReachable N progs s) (hd : AllDone s.base) (n : Nat) :
    (s.base.log n).Perm (fromProducers progs n ++ fromNodes N.quiet K s.base.log n) :=
  C13_exactly_once N.quiet K hK progs s.base (h.as_quiet ho) hd n

/-- **C69** (reports). `sample()` only ends with exceptions that a synchronous consumer or filter has thrown, and only in a user's thread. -/
theorem C69_reported_are_synchronous (N : ExcNet V E) (progs : List (List (Call V))) (s : ExcState V E)
    (h : ExcReachable N progs s) (a : Nat) (e : E) (ha : (a, e) ∈ s.reported) :
    (∃ t : Thread V, s.base.threads[a]? = some t ∧ t.task = none) ∧ ∃ n hist m, N.behave n hist m = .error e ∧ N.isAsync n = false := by
  induction h with
  | refl => simp at ha
  | tail h0 hs ih =>
    have keep : ∀ {b b' : State V}, Step N.quiet b b' → ∀ {a : Nat}, (∃ t : Thread V, b.threads[a]? = some t ∧ t.task = none) →
        ∃ t : Thread V, b'.threads[a]? = some t ∧ t.task = none := by
      rintro b b' hb a ⟨t, h1, h2⟩
      obtain ⟨t', h3, -, h4⟩ := (C12_owner_meaning N.quiet b b' hb).1 a t h1
      exact ⟨t', h3, by rw [h4]; exact h2⟩
    cases hs with
    | quiet b hb hn => exact ⟨keep hb (ih ha).1, (ih ha).2⟩
    | throw i t n m rest skipped rest' e' hi hr ht he hu hs =>
      have keep' : ∀ {a : Nat} {b : State V}, b.threads[i]? = some t → (∃ x : Thread V, b.threads[a]? = some x ∧ x.task = none) →
          ∃ x : Thread V, (b.threads.set i { t with stack := rest' })[a]? = some x ∧ x.task = none := by
        rintro a b hbi ⟨x, h1, h2⟩
        rw [get_set hbi]
        by_cases hai : a = i
        · subst hai
          rw [hbi] at h1; cases h1
          exact ⟨{ t with stack := rest' }, by simp, h2⟩
        · exact ⟨x, by simp [hai, h1], h2⟩
      by_cases hm : t.task = none
      · replace ha : (a, e) ∈ (if t.task = none then _ ++ [(i, e')] else _) := ha
        rw [if_pos hm] at ha
        rcases List.mem_append.mp ha with ha | ha
        · exact ⟨keep' hi (ih ha).1, (ih ha).2⟩
        · simp only [List.mem_singleton, Prod.mk.injEq] at ha
          obtain ⟨rfl, rfl⟩ := ha
          refine ⟨keep' hi ⟨t, hi, hm⟩, n, _, m, he, ?_⟩
          by_contra hc
          exact (ExcReachable.isolated h0 a t hi n m (by rw [ht]; simp) (by simpa using hc)).1 hm
      · replace ha : (a, e) ∈ (if t.task = none then _ ++ [(i, e')] else _) := ha
        rw [if_neg hm] at ha
        exact ⟨keep' hi (ih ha).1, (ih ha).2⟩

/-- **C69** (reports, completeness). If nothing that throws is asynchronous or gets its samples from an asynchronous filter, then no exception is lost and none is reported twice: the exceptions with
which calls of `sample()` have ended are, up to their order, those that the consumers and filters have thrown while processing what they got. -/
theorem C69_synchronous_exceptions_are_reported (N : ExcNet V E) (progs : List (List (Call V))) (hf : Flushes progs)
    (hc : ThrowersInCallingThread N) (K : Nat) (hK : ThrowersBelow N K) (s : ExcState V E) (h : ExcReachable N progs s) :
    (s.reported.map Prod.snd).Perm ((List.range K).flatMap (fun n => thrown N n (s.base.log n))) :=
  ExcReachable.reports hf hc hK h

/-- **C69** (silence). If everything connected to the producers is asynchronous, `sample()` never ends with an exception of a consumer or filter, whichever object anywhere in the network throws,
synchronous or not: the user cannot learn of it. -/
theorem C69_asynchronous_exceptions_are_lost (N : ExcNet V E) (progs : List (List (Call V))) (hra : RootsAsync N progs)
    (s : ExcState V E) (h : ExcReachable N progs s) : s.reported = [] := (h.unreported hra).2

/-! ### The hypotheses can be met -/

/-- An asynchronous filter (0) with two synchronous consumers (1 and 2), in this order; an asynchronous consumer (3).  Consumer 1 throws for the sample 7, consumer 3 for the sample 8. -/
def excNet : ExcNet Nat String where
  outs := fun n => if n = 0 then [1, 2] else []
  isAsync := fun n => n == 0 || n == 3
  queueSize := fun _ => 1
  behave := fun n _ m =>
    if n = 0 then .ok (some m)
    else if n = 1 ∧ m = 7 then .error "seven"
    else if n = 3 ∧ m = 8 then .error "eight"
    else .ok none

/-- Two calls of `sample()`. -/
def excCalls : List (List (Call Nat)) := [[⟨[0, 3], [7, 8], 1⟩, ⟨[0], [9], 2⟩]]

theorem excNet_roots : RootsAsync excNet excCalls := by
  intro calls h c hc r hr
  simp only [excCalls, List.mem_singleton] at h
  subst h
  simp only [List.mem_cons, List.not_mem_nil, or_false] at hc
  rcases hc with rfl | rfl <;> simp only [List.mem_cons, List.not_mem_nil, or_false] at hr
  · rcases hr with rfl | rfl <;> rfl
  · subst hr; rfl

theorem excCalls_flush : Flushes excCalls := by
  intro calls h c hc
  simp only [excCalls, List.mem_singleton] at h
  subst h
  simp only [List.mem_cons, List.not_mem_nil, or_false] at hc
  rcases hc with rfl | rfl <;> simp

theorem excNet_acyclic : Acyclic excNet.quiet :=
  ⟨fun n => if n = 0 then 1 else 0, by
    intro n c hc
    by_cases h : n = 0
    · subst h
      have : c = 1 ∨ c = 2 := by simp [ExcNet.quiet, excNet] at hc; omega
      rcases this with rfl | rfl <;> simp
    · simp [ExcNet.quiet, excNet, h] at hc⟩

theorem excNet_finite : Finite excNet.quiet 1 := by
  intro p hp
  have : p ≠ 0 := by omega
  simp [ExcNet.quiet, excNet, this]

/-- **C69**: an example of what the user cannot learn of.  The synchronous consumer 1 behind the asynchronous filter 0 throws for the sample 7; the sample is then lost for consumer 2, which
is connected after it and did not throw; `sample()` returns without an exception. -/
theorem C69_sample_lost_silently : ∃ s, ExcReachable excNet [[⟨[0], [7], 1⟩]] s ∧ AllDone s.base ∧ s.reported = [] ∧
    s.base.log 0 = [7] ∧ s.base.log 1 = [7] ∧ s.base.log 2 = [] := by
  refine ⟨_, Relation.ReflTransGen.refl
    |>.tail (.other (.deliverAsync 0 ⟨none, 0, _⟩ 0 7 _ false rfl trivial rfl rfl rfl) rfl)
    |>.tail (.other (.trim 0 ⟨none, 0, _⟩ 0 _ (fun _ => false) rfl trivial rfl rfl (by simp)) rfl)
    |>.tail (.consumeOk 1 ⟨some (0, false), 0, _⟩ 0 7 _ (some 7) rfl trivial rfl rfl)
    |>.tail (.other (.deliverSync 1 ⟨some (0, false), 0, _⟩ 1 7 _ rfl trivial rfl rfl) rfl)
    |>.tail (.throw 1 ⟨some (0, false), 0, _⟩ 1 7 _ [] [] "seven" rfl trivial rfl rfl rfl (by simp))
    |>.tail (.other (.flush 0 ⟨none, 0, _⟩ 0 _ rfl trivial rfl rfl) rfl)
    |>.tail (.other (.waitDone 0 ⟨none, 0, _⟩ 0 _ rfl trivial rfl (by decide)) rfl)
    |>.tail (.other (.flush 0 ⟨none, 0, _⟩ 1 _ rfl trivial rfl rfl) rfl)
    |>.tail (.other (.waitDone 0 ⟨none, 0, _⟩ 1 _ rfl trivial rfl (by decide)) rfl)
    |>.tail (.other (.flush 0 ⟨none, 0, _⟩ 2 _ rfl trivial rfl rfl) rfl)
    |>.tail (.other (.waitDone 0 ⟨none, 0, _⟩ 2 _ rfl trivial rfl (by decide)) rfl)
    |>.tail (.other (.ret 0 ⟨none, 0, _⟩ _ rfl trivial rfl) rfl), ?_, rfl, rfl, rfl, rfl⟩
  unfold AllDone
  decide

/-- A network in which only the asynchronous consumer 3 throws. -/
def excNet2 : ExcNet Nat String where
  outs := excNet.outs
  isAsync := excNet.isAsync
  queueSize := excNet.queueSize
  behave := fun n hist m => if n = 1 then .ok none else excNet.behave n hist m

theorem excNet2_throws : OnlyAsyncThrows excNet2 := by
  intro n hist m e h
  simp only [excNet2, excNet] at h ⊢
  by_cases h0 : n = 0
  · simp [h0]
  by_cases h1 : n = 1
  · simp [h1] at h
  by_cases h3 : n = 3
  · simp [h3]
  · simp [h0, h1, h3] at h

/-- It does throw, and this is not reported. -/
example : excNet2.behave 3 [] 8 = .error "eight" := rfl

/-- A network in which only the synchronous consumers 1 and 2 throw, which the asynchronous consumer 3 does not feed. -/
def excNet3 : ExcNet Nat String where
  outs := fun n => if n = 1 then [2] else []
  isAsync := fun n => n == 3
  queueSize := fun _ => 1
  behave := fun n _ m => if (n = 1 ∨ n = 2) ∧ m = 7 then .error "seven" else .ok (some m)

theorem excNet3_throws : ThrowersInCallingThread excNet3 ∧ ThrowersBelow excNet3 3 := by
  have key : ∀ n hist m e, excNet3.behave n hist m = .error e → n = 1 ∨ n = 2 := by
    intro n hist m e h
    by_contra hc
    simp [excNet3, hc] at h
  constructor
  · intro n hist m e h a ha hr
    have ha3 : a = 3 := by simpa [excNet3] using ha
    subst ha3
    have hn := key n hist m e h
    rcases Relation.ReflTransGen.cases_head hr with h3 | ⟨c, hc, -⟩
    · omega
    · simp [excNet3] at hc
  · intro n hist m e h
    have := key n hist m e h
    omega

/-- A synchronous consumer connected directly to the producer: `sample()` ends with its exception, after the flush, and the user's thread goes on with the next call.  The sample 5 is
never issued. -/
example : ∃ s, ExcReachable excNet [[⟨[1], [7, 5], 1⟩, ⟨[1], [6], 1⟩]] s ∧ AllDone s.base ∧ s.reported = [(0, "seven")] ∧ s.base.log 1 = [7, 6] := by
  refine ⟨_, Relation.ReflTransGen.refl
    |>.tail (.other (.deliverSync 0 ⟨none, 0, _⟩ 1 7 _ rfl trivial rfl rfl) rfl)
    |>.tail (.throw 0 ⟨none, 0, _⟩ 1 7 _ [] _ "seven" rfl trivial rfl rfl rfl (by simp))
    |>.tail (.other (.flush 0 ⟨none, 0, _⟩ 1 _ rfl trivial rfl rfl) rfl)
    |>.tail (.other (.waitDone 0 ⟨none, 0, _⟩ 1 _ rfl trivial rfl (by decide)) rfl)
    |>.tail (.other (.ret 0 ⟨none, 0, _⟩ _ rfl trivial rfl) rfl)
    |>.tail (.other (.deliverSync 0 ⟨none, 0, _⟩ 1 6 _ rfl trivial rfl rfl) rfl)
    |>.tail (.consumeOk 0 ⟨none, 0, _⟩ 1 6 _ none rfl trivial rfl rfl)
    |>.tail (.other (.flush 0 ⟨none, 0, _⟩ 1 _ rfl trivial rfl rfl) rfl)
    |>.tail (.other (.waitDone 0 ⟨none, 0, _⟩ 1 _ rfl trivial rfl (by decide)) rfl)
    |>.tail (.other (.ret 0 ⟨none, 0, _⟩ _ rfl trivial rfl) rfl), ?_, rfl, rfl⟩
  unfold AllDone
  decide

/-! ### Instances: concrete cases that meet the hypotheses of the theorems above -/

-- runs of these networks exist, by the examples above
example (s : ExcState Nat String) (h : ExcReachable excNet excCalls s) := C69_flush_waits excNet excCalls excCalls_flush s h 0
example (s : ExcState Nat String) (h : ExcReachable excNet excCalls s) := C69_unfinished_is_queued excNet excCalls excCalls_flush s h
example (s : ExcState Nat String) (h : ExcReachable excNet excCalls s) := C69_no_deadlock excNet excNet_acyclic excCalls excCalls_flush s h
example := C69_terminates excNet excNet_acyclic excCalls
example := C69_always_completes excNet excNet_acyclic excCalls excCalls_flush _ .refl
example (s : ExcState Nat String) (h : ExcReachable excNet excCalls s) := C69_never_duplicated excNet 1 excNet_finite excCalls s h 2
example (b : State Nat) := C69_asynchronous_exceptions_are_isolated excNet2 excNet2_throws excCalls b
example (s : ExcState Nat String) (h : ExcReachable excNet2 excCalls s) := C69_asynchronous_exactly_once excNet2 excNet2_throws 1 excNet_finite excCalls s h
example (s : ExcState Nat String) (h : ExcReachable excNet3 excCalls s) :=
  C69_synchronous_exceptions_are_reported excNet3 excCalls excCalls_flush excNet3_throws.1 3 excNet3_throws.2 s h
example (s : ExcState Nat String) (h : ExcReachable excNet excCalls s) := C69_asynchronous_exceptions_are_lost excNet excCalls excNet_roots s h

end SampleFlow.Async
