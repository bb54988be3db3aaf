import Mathlib.Logic.Relation

/-!
# The locks of a whole network

Any number of consumers (and filters, which are consumers, too), any number of threads.  Every consumer has the two mutexes of
consumer.impl.h: `asynchronous_mode_mutex` and `synchronous_mode_mutex` (a `std::shared_mutex`), and its list
`background_tasks`.  Threads deliver samples, flush, disconnect and destroy consumers and destroy producers; the
`consume()` functions, executed while a shared lock is held or in a background task, may do the same again, to any depth.

Which locks a thread holds can be read off its stack.  Not modelled here: which connections exist (whether a slot is called, and
what `consume()` does, is left open: all possibilities are allowed); exceptions; the mutexes inside boost signals (not held while a
slot is called).
-/

namespace SampleFlow.Locks

/-- A call that involves the mutexes of a consumer.
(consumer.impl.h 337-579.) -/
inductive Call where
  /-- the slot of a consumer in synchronous mode is called with a sample (consumer.impl.h 384-397) -/
  | receive (c : Nat)
  /-- the slot of a consumer in asynchronous mode is called with a sample (407-452) -/
  | launch (c : Nat)
  /-- `flush()` (560-579), or of a filter (filter.impl.h 192-205), also through the signal `flush_consumers` (467) -/
  | flush (c : Nat)
  /-- `disconnect_and_flush()` (523-556), also from destructors -/
  | disconnect (c : Nat)
  /-- the slot `disconnect_from_producer` (472-495), called by `~Producer` (producer.impl.h 212-215) -/
  | sever (c : Nat)
deriving DecidableEq

/-- the consumer whose mutexes are involved
(Scaffolding; no lines of its own in the code.) -/
def Call.target : Call → Nat
  | .receive c => c
  | .launch c => c
  | .flush c => c
  | .disconnect c => c
  | .sever c => c

/-- What a thread still has to do: the entries of its stack.
(Positions in consumer.impl.h 384-598.) -/
inductive Item where
  /-- about to make a call -/
  | call (k : Call)
  /-- at the end of `consume()` in synchronous mode (396-397): holds the shared lock of `synchronous_mode_mutex` -/
  | reading (c : Nat)
  /-- a task has been launched; about to call `trim_background_queue` (451) -/
  | trim (c : Nat)
  /-- holds `asynchronous_mode_mutex`, about to lock `synchronous_mode_mutex` exclusively (483, 541); `fl`: `flush()` follows (553) -/
  | one (c : Nat) (fl : Bool)
  /-- holds both -/
  | both (c : Nat) (fl : Bool)
  /-- inside `flush()`: holds `asynchronous_mode_mutex` and waits for the futures (563-570) -/
  | flushing (c : Nat)
  /-- inside `flush()`: all futures have been waited for; about to clear `background_tasks` and to release the mutex (572-578) -/
  | clearing (c : Nat)
  /-- about to execute task `j` of consumer `c` (415-419) -/
  | run (c j : Nat)
  /-- at the end of task `j` of consumer `c` -/
  | finish (c j : Nat)
deriving DecidableEq

/-- holds `asynchronous_mode_mutex` of `c`
(consumer.impl.h 410-452, 523-598.) -/
def Item.holdsAsync (c : Nat) : Item → Bool
  | .one d _ => d == c
  | .both d _ => d == c
  | .flushing d => d == c
  | .clearing d => d == c
  | _ => false

/-- holds a shared lock of `synchronous_mode_mutex` of `c`
(consumer.impl.h 384-397.) -/
def Item.reads (c : Nat) : Item → Bool
  | .reading d => d == c
  | _ => false

/-- holds the exclusive lock of `synchronous_mode_mutex` of `c`
(consumer.impl.h 472-495, 523-556.) -/
def Item.writes (c : Nat) : Item → Bool
  | .both d _ => d == c
  | _ => false

/-- All threads (the first entry of a stack is executed next), `background_tasks` of all consumers, the tasks launched
with the policy `deferred` that have not been executed yet, the tasks that are finished, and the number of tasks so far.
(Members of consumer.impl.h 232-283.) -/
structure State where
  threads : List (List Item)
  queue : Nat → List Nat
  deferred : List (Nat × Nat)
  done : Nat → Bool
  tasks : Nat

namespace State

/-- `asynchronous_mode_mutex` of `c` is not locked
(Scaffolding; no lines of its own in the code.) -/
def AsyncFree (s : State) (c : Nat) : Prop := ∀ t ∈ s.threads, ∀ x ∈ t, x.holdsAsync c = false

/-- nobody holds the exclusive lock of `synchronous_mode_mutex` of `c`
(Scaffolding; no lines of its own in the code.) -/
def NoWriter (s : State) (c : Nat) : Prop := ∀ t ∈ s.threads, ∀ x ∈ t, x.writes c = false

/-- nobody holds a shared lock of `synchronous_mode_mutex` of `c`
(Scaffolding; no lines of its own in the code.) -/
def NoReader (s : State) (c : Nat) : Prop := ∀ t ∈ s.threads, ∀ x ∈ t, x.reads c = false

/-- the stack of thread `i` becomes `t`
(Scaffolding; no lines of its own in the code.) -/
def goto (s : State) (i : Nat) (t : List Item) : State := { s with threads := s.threads.set i t }

/-- `background_tasks` of `c` becomes `q`
(Scaffolding; no lines of its own in the code.) -/
def setQueue (s : State) (c : Nat) (q : List Nat) : State := { s with queue := fun d => if d = c then q else s.queue d }

end State

/-- `Step may i s s'`: an action of thread `i`.  `may c k`: `consume()` (or `flush()`, after the tasks have been waited for) of consumer `c` may
make the call `k`.
(consumer.impl.h 384-598; the constructors say which part.) -/
inductive Step (may : Nat → Call → Prop) (i : Nat) (s : State) : State → Prop
  /-- 387-396: the shared lock is taken, `consume()` makes the calls `body` (none if there are no connections any more, 392-393) -/
  | enter (c : Nat) (rest : List Item) (body : List Call) (hi : s.threads[i]? = some (.call (.receive c) :: rest))
      (hw : s.NoWriter c) (hb : ∀ k ∈ body, may c k) :
      Step may i s (s.goto i (body.map .call ++ .reading c :: rest))
  /-- 397 -/
  | leave (c : Nat) (rest : List Item) (hi : s.threads[i]? = some (.reading c :: rest)) : Step may i s (s.goto i rest)
  /-- 426-446, and `std::async` starts a thread -/
  | launchAsync (c : Nat) (rest : List Item) (hi : s.threads[i]? = some (.call (.launch c) :: rest)) (hl : s.AsyncFree c) :
      Step may i s { (s.goto i (.trim c :: rest)).setQueue c (s.queue c ++ [s.tasks]) with
        threads := s.threads.set i (.trim c :: rest) ++ [[.run c s.tasks]], tasks := s.tasks + 1 }
  /-- the same, `std::async` defers the task -/
  | launchDeferred (c : Nat) (rest : List Item) (hi : s.threads[i]? = some (.call (.launch c) :: rest)) (hl : s.AsyncFree c) :
      Step may i s { (s.goto i (.trim c :: rest)).setQueue c (s.queue c ++ [s.tasks]) with
        deferred := s.deferred ++ [(c, s.tasks)], tasks := s.tasks + 1 }
  /-- 426-433: there are no connections any more -/
  | launchSkip (c : Nat) (rest : List Item) (hi : s.threads[i]? = some (.call (.launch c) :: rest)) (hl : s.AsyncFree c) :
      Step may i s (s.goto i rest)
  /-- 583-598: removes finished tasks at the front (see C14) -/
  | trim (c : Nat) (rest : List Item) (removed kept : List Nat) (hi : s.threads[i]? = some (.trim c :: rest)) (hl : s.AsyncFree c)
      (hq : s.queue c = removed ++ kept) (hr : ∀ j ∈ removed, s.done j = true) :
      Step may i s ((s.goto i rest).setQueue c kept)
  /-- a task starts: `consume()` makes the calls `body` -/
  | run (c j : Nat) (rest : List Item) (body : List Call) (hi : s.threads[i]? = some (.run c j :: rest)) (hb : ∀ k ∈ body, may c k) :
      Step may i s (s.goto i (body.map .call ++ .finish c j :: rest))
  /-- a task ends: its future is ready -/
  | finish (c j : Nat) (rest : List Item) (hi : s.threads[i]? = some (.finish c j :: rest)) :
      Step may i s { s.goto i rest with done := fun k => if k = j then true else s.done k }
  /-- 563 -/
  | flushLock (c : Nat) (rest : List Item) (hi : s.threads[i]? = some (.call (.flush c) :: rest)) (hl : s.AsyncFree c) :
      Step may i s (s.goto i (.flushing c :: rest))
  /-- 568-570: waiting for a deferred task executes it -/
  | flushRun (c j : Nat) (rest : List Item) (before after : List Nat) (hi : s.threads[i]? = some (.flushing c :: rest))
      (hq : s.queue c = before ++ j :: after) (hb : ∀ k ∈ before, s.done k = true) (hj : (c, j) ∈ s.deferred) :
      Step may i s { s.goto i (.run c j :: .flushing c :: rest) with deferred := s.deferred.erase (c, j) }
  /-- 568-570: all futures are ready -/
  | flushWaited (c : Nat) (rest : List Item) (hi : s.threads[i]? = some (.flushing c :: rest)) (hq : ∀ j ∈ s.queue c, s.done j = true) :
      Step may i s (s.goto i (.clearing c :: rest))
  /-- 577-578: `background_tasks` is cleared, whatever it contains; a filter then flushes what is downstream (filter.impl.h 198-204) -/
  | flushDone (c : Nat) (rest : List Item) (body : List Call) (hi : s.threads[i]? = some (.clearing c :: rest)) (hb : ∀ k ∈ body, may c k) :
      Step may i s ((s.goto i (body.map .call ++ rest)).setQueue c [])
  /-- 540 -/
  | disconnectLock (c : Nat) (rest : List Item) (hi : s.threads[i]? = some (.call (.disconnect c) :: rest)) (hl : s.AsyncFree c) :
      Step may i s (s.goto i (.one c true :: rest))
  /-- 482 -/
  | severLock (c : Nat) (rest : List Item) (hi : s.threads[i]? = some (.call (.sever c) :: rest)) (hl : s.AsyncFree c) :
      Step may i s (s.goto i (.one c false :: rest))
  /-- 541, 483 -/
  | exclusive (c : Nat) (fl : Bool) (rest : List Item) (hi : s.threads[i]? = some (.one c fl :: rest)) (hw : s.NoWriter c) (hr : s.NoReader c) :
      Step may i s (s.goto i (.both c fl :: rest))
  /-- 543-550 and then `flush()` (553) -/
  | disconnected (c : Nat) (rest : List Item) (hi : s.threads[i]? = some (.both c true :: rest)) :
      Step may i s (s.goto i (.call (.flush c) :: rest))
  /-- 485-494 -/
  | severed (c : Nat) (rest : List Item) (hi : s.threads[i]? = some (.both c false :: rest)) : Step may i s (s.goto i rest)

/-- The beginning: the threads are about to make the given calls.
(Scaffolding; no lines of its own in the code.) -/
def start (programs : List (List Call)) : State where
  threads := programs.map (fun p => p.map .call)
  queue := fun _ => []
  deferred := []
  done := fun _ => false
  tasks := 0

/-- some thread makes a step
(Scaffolding; no lines of its own in the code.) -/
def AnyStep (may : Nat → Call → Prop) (s s' : State) : Prop := ∃ i, Step may i s s'

/-- The states that some schedule leads to.
(Scaffolding: all schedules of the steps that model consumer.impl.h 384-598.) -/
def Reachable (may : Nat → Call → Prop) (programs : List (List Call)) (s : State) : Prop :=
  Relation.ReflTransGen (AnyStep may) (start programs) s

end SampleFlow.Locks
