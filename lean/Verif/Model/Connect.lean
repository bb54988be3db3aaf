import Mathlib.Logic.Relation

/-!
# Connecting a consumer while producers are sampling

One consumer object and any number of threads: threads that issue samples through a connection (several may use the same one), and
threads that execute `connect_to_producer` (include/sampleflow/consumer.impl.h 337-501).  Each rule is one atomic action.
Simplifications: nothing is disconnected (see Model/Disconnect.lean); of the three signals connected by `connect_to_signals`
(producer.impl.h 219-238) only `issue_sample` is modelled; what a background task does is not modelled, a sample counts as received when its task
is launched.
-/

namespace SampleFlow.Connect

variable {V : Type}

/-- Where a thread is; `c` is the number of the connection.
(Positions in consumer.impl.h 337-501, 384-452, 523-556.) -/
inductive Pc (V : Type) where
  /-- a producer's thread, about to issue `msgs` through connection `c` -/
  | sIdle (c : Nat) (msgs : List V)
  /-- the slot has been called with `m`, no lock taken yet (386-387, 409-426) -/
  | sSlot (c : Nat) (m : V) (msgs : List V)
  /-- holding the lock, evaluating `connections_to_producers.size() == 0` (392, 432) -/
  | sRead (c : Nat) (m : V) (msgs : List V)
  /-- synchronous mode: executing `consume` (396) -/
  | sConsume (c : Nat) (m : V) (msgs : List V)
  /-- about to call `connect_to_producer` -/
  | cStart (c : Nat)
  /-- the slot is connected to the signal `issue_sample` (498, producer.impl.h 233) -/
  | cUp (c : Nat)
  /-- executing `connections_to_producers.insert` (498), no lock taken -/
  | cInsert (c : Nat)
  /-- `connect_to_producer` has returned -/
  | cDone (c : Nat)

/-- The consumer, the signals, and all threads.
(Members of consumer.impl.h 232-283; signals of producer.impl.h 129-186.) -/
structure State (V : Type) where
  /-- parallel mode of the consumer -/
  isAsync : Bool
  threads : List (Pc V)
  /-- `connections_to_producers` -/
  conns : List Nat
  /-- is the slot connected to the signal of producer `c`? -/
  up : Nat → Bool
  /-- holder of `asynchronous_mode_mutex` -/
  asyncLock : Option Nat
  /-- record: what thread `i` has issued so far -/
  sent : Nat → List V
  /-- record: the samples of thread `i` for which `consume` was called or a task was launched -/
  got : Nat → List V

/-- Thread `i` moves to `pc`.
(Scaffolding; no lines of its own in the code.) -/
def State.goto (s : State V) (i : Nat) (pc : Pc V) : State V := { s with threads := s.threads.set i pc }

/-- `l` with `m` appended to the entry of thread `i`.
(Scaffolding: the ghost record of samples received in consumer.impl.h 384-452.) -/
def record (l : Nat → List V) (i : Nat) (m : V) : Nat → List V := fun k => if k = i then l k ++ [m] else l k

/-- One atomic action.
(consumer.impl.h 337-556, producer.impl.h 129-238; the constructors say which part.) -/
inductive Step (s : State V) : State V → Prop
  /-- emitting `issue_sample`: the slot is connected and is called -/
  | emit (i c : Nat) (m : V) (msgs : List V) (hi : s.threads[i]? = some (.sIdle c (m :: msgs))) (hu : s.up c = true) :
      Step s { s.goto i (.sSlot c m msgs) with sent := record s.sent i m }
  /-- emitting `issue_sample`: the slot is not connected yet -/
  | emitNot (i c : Nat) (m : V) (msgs : List V) (hi : s.threads[i]? = some (.sIdle c (m :: msgs))) (hu : s.up c = false) :
      Step s { s.goto i (.sIdle c msgs) with sent := record s.sent i m }
  /-- 387: shared lock (nobody locks it exclusively) -/
  | lockSync (i c : Nat) (m : V) (msgs : List V) (hi : s.threads[i]? = some (.sSlot c m msgs)) (hm : s.isAsync = false) :
      Step s (s.goto i (.sRead c m msgs))
  /-- 426 -/
  | lockAsync (i c : Nat) (m : V) (msgs : List V) (hi : s.threads[i]? = some (.sSlot c m msgs)) (hm : s.isAsync = true)
      (hl : s.asyncLock = none) : Step s { s.goto i (.sRead c m msgs) with asyncLock := some i }
  /-- 392-393, 432-433: no connections: return, releasing the lock -/
  | skip (i c : Nat) (m : V) (msgs : List V) (hi : s.threads[i]? = some (.sRead c m msgs)) (hc : s.conns = []) :
      Step s { s.goto i (.sIdle c msgs) with asyncLock := none }
  /-- 396 -/
  | consume (i c : Nat) (m : V) (msgs : List V) (hi : s.threads[i]? = some (.sRead c m msgs)) (hm : s.isAsync = false)
      (hc : s.conns ≠ []) : Step s { s.goto i (.sConsume c m msgs) with got := record s.got i m }
  /-- 397: `consume` returns -/
  | leave (i c : Nat) (m : V) (msgs : List V) (hi : s.threads[i]? = some (.sConsume c m msgs)) :
      Step s (s.goto i (.sIdle c msgs))
  /-- 431-446: launch a task and release the lock -/
  | launch (i c : Nat) (m : V) (msgs : List V) (hi : s.threads[i]? = some (.sRead c m msgs)) (hm : s.isAsync = true)
      (hc : s.conns ≠ []) :
      Step s { s.goto i (.sIdle c msgs) with asyncLock := none, got := record s.got i m }
  /-- 498, producer.impl.h 233: the slot is connected -/
  | connect (i c : Nat) (hi : s.threads[i]? = some (.cStart c)) :
      Step s { s.goto i (.cUp c) with up := fun k => if k = c then true else s.up k }
  /-- 498: `insert` begins -/
  | insertBegin (i c : Nat) (hi : s.threads[i]? = some (.cUp c)) : Step s (s.goto i (.cInsert c))
  /-- 498: `insert` ends -/
  | insertEnd (i c : Nat) (hi : s.threads[i]? = some (.cInsert c)) :
      Step s { s.goto i (.cDone c) with conns := s.conns ++ [c] }

/-- Threads that have not done anything yet.
(Scaffolding; threads before consumer.impl.h 337 and producer.impl.h 129.) -/
def Pc.fresh : Pc V → Bool
  | .sIdle .. => true
  | .cStart .. => true
  | _ => false

/-- The beginning: the connections `conns` exist already.
(Scaffolding; no lines of its own in the code.) -/
def initial (isAsync : Bool) (conns : List Nat) (threads : List (Pc V)) : State V where
  isAsync := isAsync
  threads := threads
  conns := conns
  up := fun c => conns.contains c
  asyncLock := none
  sent := fun _ => []
  got := fun _ => []

/-- Some schedule leads from `s` to `s'`.
(Scaffolding: schedules of the steps that model consumer.impl.h 337-556.) -/
def Steps (s s' : State V) : Prop := Relation.ReflTransGen Step s s'

/-- Thread `i` writes to `connections_to_producers`.
(consumer.impl.h 498 and 486-493.) -/
def Writes (s : State V) (i : Nat) : Prop := ∃ c, s.threads[i]? = some (.cInsert c)

/-- Thread `i` reads `connections_to_producers`.
(consumer.impl.h 472-495, 523-556.) -/
def Reads (s : State V) (i : Nat) : Prop := ∃ c m msgs, s.threads[i]? = some (.sRead c m msgs)

/-- Two threads access `connections_to_producers` at the same time, one of them writes: a data race, undefined behaviour.
(The accesses of consumer.impl.h 472-498.) -/
def Race (s : State V) : Prop := ∃ i j, i ≠ j ∧ Writes s i ∧ (Writes s j ∨ Reads s j)

end SampleFlow.Connect
