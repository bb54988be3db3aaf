import Mathlib.Logic.Relation

/-!
# Disconnecting and destroying a consumer while samples are in flight

One consumer object, any number of threads: threads that issue samples through one of the connections,
threads that flush it through a connection, threads that destroy a producer connected to it, background
tasks, and threads that call `disconnect_and_flush()` and possibly then destroy the object
(consumer.impl.h 337-598).

Each rule is one atomic action.  A critical section that only touches data protected by the mutex it holds
is one action; sections that block inside (waiting for futures, taking a second lock, running `consume`) are
split.  `boost::signals2`: emitting a signal first looks whether the slot is still connected and then calls
it; a disconnection in between does not stop the call.
-/

namespace SampleFlow.Disconnect

variable {V : Type}

/-- Where a thread is. `c` is the number of the connection that it uses.
(Positions in consumer.impl.h 384-452, 472-495, 523-598.) -/
inductive Pc (V : Type) where
  /-- a producer's thread, about to issue `msgs` through connection `c` -/
  | sIdle (c : Nat) (msgs : List V)
  /-- the slot of the signal has been called with `m`, no lock taken yet (386-387, 409-428) -/
  | sSlot (c : Nat) (m : V) (msgs : List V)
  /-- synchronous mode: holding the shared lock, executing `consume(m)` (396) -/
  | sConsume (c : Nat) (m : V) (msgs : List V)
  /-- asynchronous mode: task launched, lock released, about to call `trim_background_queue` (451) -/
  | sTrim (c : Nat) (msgs : List V)
  /-- a background task that has not started -/
  | wReady (m : V)
  /-- a background task executing `consume(m)` (415-419) -/
  | wConsume (m : V)
  /-- a finished background task -/
  | wDone
  /-- a thread about to emit the signal `flush_consumers` -/
  | fIdle (c : Nat)
  /-- the slot for flushing has been called (467) -/
  | fSlot (c : Nat)
  /-- inside `flush()`, holding the asynchronous mutex (563-568) -/
  | fWait (c : Nat)
  /-- flushed -/
  | fDone
  /-- a thread about to destroy the producer of connection `c` (producer.impl.h 212-215) -/
  | pIdle (c : Nat)
  /-- the slot `disconnect_from_producer` has been called (472) -/
  | pSlot (c : Nat)
  /-- holding the asynchronous mutex (482) -/
  | pOne (c : Nat)
  /-- holding both mutexes (483) -/
  | pBoth (c : Nat)
  /-- disconnected -/
  | pDone
  /-- a thread about to call `disconnect_and_flush()` -/
  | dStart
  /-- holding the asynchronous mutex (539) -/
  | dOne
  /-- holding both mutexes, severing the connections (540-548) -/
  | dBoth
  /-- released the locks, about to call `flush()` (553) -/
  | dFlush
  /-- inside `flush()`, holding the asynchronous mutex, waiting for the futures (563-568) -/
  | dWait
  /-- `disconnect_and_flush()` has returned -/
  | dReturned
  /-- the object has been destroyed (328-333) -/
  | dDestroyed
  /-- undefined behaviour has occurred in this thread -/
  | crashed

/-- The consumer object and all threads.
(Members of consumer.impl.h 232-283.) -/
structure State (V : Type) where
  /-- parallel mode (never changes while connected, C11) -/
  isAsync : Bool
  threads : List (Pc V)
  /-- `connections_to_producers` -/
  conns : List Nat
  /-- is the slot of connection `c` still connected to its signals? -/
  slotUp : Nat → Bool
  /-- holder of `asynchronous_mode_mutex` -/
  asyncLock : Option Nat
  /-- writer holding `synchronous_mode_mutex` (its readers are the threads in `sConsume`) -/
  syncLock : Option Nat
  /-- `background_tasks` -/
  queue : List Nat
  destroyed : Bool
  /-- some thread has used a member of the object after it was destroyed -/
  fault : Bool
  /-- some thread has dereferenced the end iterator of `connections_to_producers` -/
  badIterator : Bool

/-- Is the thread executing `consume()` of the object?
(consumer.impl.h 384-397, 415-446.) -/
def Pc.consuming : Pc V → Bool
  | .sConsume .. => true
  | .wConsume .. => true
  | _ => false

/-- Does the thread hold the shared lock of `synchronous_mode_mutex`?
(consumer.impl.h 384-397.) -/
def Pc.reader : Pc V → Bool
  | .sConsume .. => true
  | _ => false

/-- The thread executes a slot of the consumer: it is about to use the object.
(consumer.impl.h 384-452.) -/
def Pc.inSlot : Pc V → Bool
  | .sSlot .. => true
  | .sTrim .. => true
  | .fSlot .. => true
  | .pSlot .. => true
  | _ => false

/-- The future of task `j` is ready.
(consumer.impl.h 583-598.) -/
def State.isDone (s : State V) (j : Nat) : Bool :=
  match s.threads[j]? with
  | some .wDone => true
  | _ => false

/-- Thread `i` moves to `pc`.
(Scaffolding; no lines of its own in the code.) -/
def State.goto (s : State V) (i : Nat) (pc : Pc V) : State V :=
  { s with threads := s.threads.set i pc }

/-- One atomic action of some thread.
(consumer.impl.h 328-333, 384-495, 523-598; the constructors say which part.) -/
inductive Step (s : State V) : State V → Prop
  /-- emitting `issue_sample`: the slot is connected and is called -/
  | emit (i c : Nat) (m : V) (msgs : List V) (hi : s.threads[i]? = some (.sIdle c (m :: msgs))) (hu : s.slotUp c = true) :
      Step s (s.goto i (.sSlot c m msgs))
  /-- emitting `issue_sample`: the slot is not connected any more -/
  | emitNot (i c : Nat) (m : V) (msgs : List V) (hi : s.threads[i]? = some (.sIdle c (m :: msgs))) (hu : s.slotUp c = false) :
      Step s (s.goto i (.sIdle c msgs))
  /-- 387-394, lock and check: there are connections -/
  | syncEnter (i c : Nat) (m : V) (msgs : List V) (hi : s.threads[i]? = some (.sSlot c m msgs)) (hm : s.isAsync = false)
      (hd : s.destroyed = false) (hl : s.syncLock = none) (hc : s.conns ≠ []) :
      Step s (s.goto i (.sConsume c m msgs))
  /-- 387-394, lock and check: no connections, return -/
  | syncSkip (i c : Nat) (m : V) (msgs : List V) (hi : s.threads[i]? = some (.sSlot c m msgs)) (hm : s.isAsync = false)
      (hd : s.destroyed = false) (hl : s.syncLock = none) (hc : s.conns = []) :
      Step s (s.goto i (.sIdle c msgs))
  /-- 396-397: `consume` ends, the shared lock is released -/
  | syncLeave (i c : Nat) (m : V) (msgs : List V) (hi : s.threads[i]? = some (.sConsume c m msgs)) :
      Step s (s.goto i (.sIdle c msgs))
  /-- 426-446: lock, check, launch, append, unlock -/
  | asyncLaunch (i c : Nat) (m : V) (msgs : List V) (hi : s.threads[i]? = some (.sSlot c m msgs)) (hm : s.isAsync = true)
      (hd : s.destroyed = false) (hl : s.asyncLock = none) (hc : s.conns ≠ []) :
      Step s { s with
        threads := s.threads.set i (.sTrim c msgs) ++ [.wReady m]
        queue := s.queue ++ [s.threads.length] }
  /-- 426-433: lock, check: no connections, return -/
  | asyncSkip (i c : Nat) (m : V) (msgs : List V) (hi : s.threads[i]? = some (.sSlot c m msgs)) (hm : s.isAsync = true)
      (hd : s.destroyed = false) (hl : s.asyncLock = none) (hc : s.conns = []) :
      Step s (s.goto i (.sIdle c msgs))
  /-- 583-598: removes some finished tasks at the front (see C14) -/
  | trim (i c : Nat) (msgs : List V) (removed rest : List Nat) (hi : s.threads[i]? = some (.sTrim c msgs)) (hd : s.destroyed = false)
      (hl : s.asyncLock = none) (hq : s.queue = removed ++ rest) (hr : ∀ j ∈ removed, s.isDone j = true) :
      Step s { s.goto i (.sIdle c msgs) with queue := rest }
  /-- a background task starts -/
  | taskStart (i : Nat) (m : V) (hi : s.threads[i]? = some (.wReady m)) : Step s (s.goto i (.wConsume m))
  /-- a background task ends -/
  | taskEnd (i : Nat) (m : V) (hi : s.threads[i]? = some (.wConsume m)) : Step s (s.goto i .wDone)
  /-- emitting `flush_consumers` -/
  | flushEmit (i c : Nat) (hi : s.threads[i]? = some (.fIdle c)) (hu : s.slotUp c = true) :
      Step s (s.goto i (.fSlot c))
  /-- emitting `flush_consumers` when disconnected -/
  | flushEmitNot (i c : Nat) (hi : s.threads[i]? = some (.fIdle c)) (hu : s.slotUp c = false) :
      Step s (s.goto i .fDone)
  /-- 563 -/
  | flushLock (i c : Nat) (hi : s.threads[i]? = some (.fSlot c)) (hd : s.destroyed = false)
      (hl : s.asyncLock = none) : Step s { s.goto i (.fWait c) with asyncLock := some i }
  /-- 566-578 -/
  | flushWait (i c : Nat) (hi : s.threads[i]? = some (.fWait c)) (hq : ∀ j ∈ s.queue, s.isDone j = true) :
      Step s { s.goto i .fDone with asyncLock := none, queue := [] }
  /-- the producer of connection `c` is destroyed and emits `disconnect_consumers` -/
  | prodEmit (i c : Nat) (hi : s.threads[i]? = some (.pIdle c)) (hu : s.slotUp c = true) :
      Step s (s.goto i (.pSlot c))
  /-- the same when disconnected -/
  | prodEmitNot (i c : Nat) (hi : s.threads[i]? = some (.pIdle c)) (hu : s.slotUp c = false) :
      Step s (s.goto i .pDone)
  /-- 482 -/
  | prodLock1 (i c : Nat) (hi : s.threads[i]? = some (.pSlot c)) (hd : s.destroyed = false)
      (hl : s.asyncLock = none) : Step s { s.goto i (.pOne c) with asyncLock := some i }
  /-- 483 -/
  | prodLock2 (i c : Nat) (hi : s.threads[i]? = some (.pOne c)) (hl : s.syncLock = none)
      (hr : ∀ pc ∈ s.threads, pc.reader = false) :
      Step s { s.goto i (.pBoth c) with syncLock := some i }
  /-- 485-493: the entry is found, severed and erased -/
  | prodErase (i c : Nat) (hi : s.threads[i]? = some (.pBoth c)) (hc : c ∈ s.conns) :
      Step s { s.goto i .pDone with
        conns := s.conns.filter (· ≠ c)
        slotUp := fun k => if k = c then false else s.slotUp k
        asyncLock := none, syncLock := none }
  /-- 485-487: the entry is not there any more; `find` returns `end()`, which is dereferenced -/
  | prodEnd (i c : Nat) (hi : s.threads[i]? = some (.pBoth c)) (hc : c ∉ s.conns) :
      Step s { s.goto i .crashed with badIterator := true, asyncLock := none, syncLock := none }
  /-- 539 -/
  | discLock1 (i : Nat) (hi : s.threads[i]? = some .dStart) (hl : s.asyncLock = none) :
      Step s { s.goto i .dOne with asyncLock := some i }
  /-- 540 -/
  | discLock2 (i : Nat) (hi : s.threads[i]? = some .dOne) (hl : s.syncLock = none)
      (hr : ∀ pc ∈ s.threads, pc.reader = false) :
      Step s { s.goto i .dBoth with syncLock := some i }
  /-- 542-547: disconnect one of the slots -/
  | discSlot (i c : Nat) (hi : s.threads[i]? = some .dBoth) (hc : c ∈ s.conns)
      (hu : s.slotUp c = true) :
      Step s { s with slotUp := fun k => if k = c then false else s.slotUp k }
  /-- 548-549: all slots are disconnected; clear and release both locks -/
  | discClear (i : Nat) (hi : s.threads[i]? = some .dBoth) (hc : ∀ c ∈ s.conns, s.slotUp c = false) :
      Step s { s.goto i .dFlush with conns := [], asyncLock := none, syncLock := none }
  /-- 553, 563 -/
  | discFlush (i : Nat) (hi : s.threads[i]? = some .dFlush) (hl : s.asyncLock = none) :
      Step s { s.goto i .dWait with asyncLock := some i }
  /-- 566-578: all futures are ready; `disconnect_and_flush` returns -/
  | discWait (i : Nat) (hi : s.threads[i]? = some .dWait) (hq : ∀ j ∈ s.queue, s.isDone j = true) :
      Step s { s.goto i .dReturned with asyncLock := none, queue := [] }
  /-- the destructor ends (328-333) -/
  | destroy (i : Nat) (hi : s.threads[i]? = some .dReturned) :
      Step s { s.goto i .dDestroyed with destroyed := true }
  /-- a thread that executes a slot (or `trim_background_queue`) locks a mutex of a destroyed object; the
  model does not describe what happens to that thread afterwards -/
  | useAfterFree (i : Nat) (pc : Pc V) (hi : s.threads[i]? = some pc) (hp : pc.inSlot = true)
      (hd : s.destroyed = true) : Step s { s.goto i .crashed with fault := true }

/-- The threads that exist in the beginning: they have not done anything yet.
(Scaffolding; no lines of its own in the code.) -/
def Pc.fresh : Pc V → Bool
  | .sIdle .. => true
  | .fIdle .. => true
  | .pIdle .. => true
  | .dStart => true
  | _ => false

/-- The beginning: the connections `conns` exist, nothing has happened yet.
(Scaffolding; no lines of its own in the code.) -/
def initial (isAsync : Bool) (conns : List Nat) (threads : List (Pc V)) : State V where
  isAsync := isAsync
  threads := threads
  conns := conns
  slotUp := fun c => conns.contains c
  asyncLock := none
  syncLock := none
  queue := []
  destroyed := false
  fault := false
  badIterator := false

/-- States that some schedule can reach.
(Scaffolding: all schedules of the steps that model consumer.impl.h 384-598.) -/
def Reachable (isAsync : Bool) (conns : List Nat) (threads : List (Pc V)) (s : State V) : Prop :=
  Relation.ReflTransGen Step (initial isAsync conns threads) s

/-- thread has reached its end
(Scaffolding; no lines of its own in the code.) -/
def Pc.ended : Pc V → Bool
  | .sIdle _ [] | .wDone | .fDone | .pDone | .dDestroyed | .crashed => true
  | _ => false

end SampleFlow.Disconnect
