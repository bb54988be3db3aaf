import Mathlib.Logic.Relation

/-!
# Asynchronous networks: threads, tasks, queues and locks

An interleaving semantics of a network of synchronous and asynchronous consumers/filters fed by any
number of user threads, each of which calls `sample()` on producers again and again.  Every rule of `Step` is one atomic
action of one thread.  Not modelled here: connecting/disconnecting while samples flow (see
`Model/Disconnect`), exceptions thrown by `consume()`, the user's code running inside `consume()`
(one atomic action; the mutexes of the individual consumers are the subject of `Model/Mutex`).
-/

namespace SampleFlow.Async

/-- The static structure of the network. `outs n` are the consumers connected to the signals of node
`n` in order (with repetition for multiple connections); a pure consumer has none.  `isAsync n`:
the parallel mode of `n`.  `behave n hist m`: what the filter `n` issues for message `m` after having
consumed `hist` (any deterministic stateful filter can be described like this;
filter.impl.h 170-188).  `queueSize n`: the argument of
`set_parallel_mode` (consumer.impl.h 505-519); it is stored but never read, so no rule below mentions
it. -/
structure Net (V : Type) where
  outs : Nat → List Nat
  isAsync : Nat → Bool
  queueSize : Nat → Nat
  behave : Nat → List V → V → Option V

/-- The pending actions of a thread.
* `deliver n m`: about to call the slot of node `n` (consumer.impl.h 384-397 or 407-452);
* `consume n m`: about to execute `n.consume(m)`;
* `trim n`: about to execute `trim_background_queue()` (451, 583-598);
* `flush n`: about to call `n.flush()` (560-579, filter.impl.h 192-205);
* `wait n`: inside `n.flush()`, holding `asynchronous_mode_mutex` and waiting for the futures;
* `ret`: `sample()` has returned to the user's code (which goes on with the next call). -/
inductive Instr (V : Type) where
  | deliver (n : Nat) (m : V)
  | consume (n : Nat) (m : V)
  | trim (n : Nat)
  | flush (n : Nat)
  | wait (n : Nat)
  | ret

/-- A thread of control: a user's thread calling `sample()` (`task = none`), or a task created by `std::async`
(431-439) for node `n`; `deferred` tells which launch policy the library chose (the call leaves the
choice to the implementation): a deferred task runs inside `future.wait()`.  `owner` is the user's
thread whose sample caused the task (bookkeeping only). -/
structure Thread (V : Type) where
  task : Option (Nat × Bool)
  owner : Nat
  stack : List (Instr V)

/-- The global state: threads (numbered in the order of creation), `background_tasks` of every node,
the holder of every node's `asynchronous_mode_mutex` (all critical sections except the one in `flush`
are one atomic step), and the messages consumed by every node so far.
(Members `asynchronous_mode_mutex`, `background_tasks` of consumer.impl.h 232-283.) -/
structure State (V : Type) where
  threads : List (Thread V)
  queue : Nat → List Nat
  lock : Nat → Option Nat
  log : Nat → List V

variable {V : Type}

/-- The future of task `j` is ready.
(`wait_for(std::chrono::seconds(0)) == std::future_status::ready`, consumer.impl.h 583-598.) -/
def State.isDone (s : State V) (j : Nat) : Bool :=
  match s.threads[j]? with
  | some t => t.stack.isEmpty
  | none => true

/-- Thread `i` may run: users' threads and asynchronously launched tasks always; a deferred task
for node `n` while somebody is in the loop of `n.flush()` (566-568) and has reached its future, i.e.
all futures before it in the queue are ready. -/
def State.runnable (s : State V) (i : Nat) (t : Thread V) : Prop :=
  match t.task with
  | some (n, true) => (s.lock n).isSome ∧ (s.queue n).find? (fun j => !s.isDone j) = some i
  | _ => True

/-- Replace the pending actions of thread `i`.
(Scaffolding; no lines of its own in the code.) -/
def State.setStack (s : State V) (i : Nat) (t : Thread V) (stack : List (Instr V)) : State V :=
  { s with threads := s.threads.set i { t with stack := stack } }

/-- The actions that follow `n.consume(m)`: if the filter lets something through, deliver it to everything
connected to `n`, one after the other (filter.impl.h 170-188, producer.impl.h 129). -/
def Net.emit (N : Net V) (n : Nat) (hist : List V) (m : V) : List (Instr V) :=
  match N.behave n hist m with
  | some y => (N.outs n).map (fun c => .deliver c y)
  | none => []

/-- The loop of `trim_background_queue`, consumer.impl.h 593-597, where `ready j` is what
`wait_for(0)` answers for the future of task `j`. -/
def trimQueue (ready : Nat → Bool) : List Nat → List Nat
  | [] => []
  | j :: q => if ready j then trimQueue ready q else j :: q

/-- One atomic action.
(consumer.impl.h 384-397, 407-452, 560-598, filter.impl.h 170-205, producer.impl.h 129-186; the constructors say which part.) -/
inductive Step (N : Net V) (s : State V) : State V → Prop
  /-- synchronous slot, consumer.impl.h 384-397: call `consume` in this thread -/
  | deliverSync (i : Nat) (t : Thread V) (n : Nat) (m : V) (rest : List (Instr V))
      (hi : s.threads[i]? = some t) (hr : s.runnable i t)
      (ht : t.stack = .deliver n m :: rest) (ha : N.isAsync n = false) :
      Step N s (s.setStack i t (.consume n m :: rest))
  /-- asynchronous slot, consumer.impl.h 407-452: under the lock create the task and append its future
  to the queue, then go on to `trim_background_queue()` -/
  | deliverAsync (i : Nat) (t : Thread V) (n : Nat) (m : V) (rest : List (Instr V)) (deferred : Bool)
      (hi : s.threads[i]? = some t) (hr : s.runnable i t)
      (ht : t.stack = .deliver n m :: rest) (ha : N.isAsync n = true) (hl : s.lock n = none) :
      Step N s { s with
        threads := s.threads.set i { t with stack := .trim n :: rest } ++
          [⟨some (n, deferred), t.owner, [.consume n m]⟩]
        queue := fun k => if k = n then s.queue n ++ [s.threads.length] else s.queue k }
  /-- `trim_background_queue`, consumer.impl.h 583-598: drop the ready futures at the front.  The
  answers `ready` were collected while the loop was running: a future reported as ready is ready (and
  stays so), one that was not may have become ready since. -/
  | trim (i : Nat) (t : Thread V) (n : Nat) (rest : List (Instr V)) (ready : Nat → Bool)
      (hi : s.threads[i]? = some t) (hr : s.runnable i t)
      (ht : t.stack = .trim n :: rest) (hl : s.lock n = none)
      (hready : ∀ j, ready j = true → s.isDone j = true) :
      Step N s { s.setStack i t rest with
        queue := fun k => if k = n then trimQueue ready (s.queue n) else s.queue k }
  /-- `Filter::consume`, filter.impl.h 170-188: the message is processed; if something comes out it is
  delivered to all consumers connected to `n`, one after the other -/
  | consume (i : Nat) (t : Thread V) (n : Nat) (m : V) (rest : List (Instr V))
      (hi : s.threads[i]? = some t) (hr : s.runnable i t)
      (ht : t.stack = .consume n m :: rest) :
      Step N s { s.setStack i t (N.emit n (s.log n) m ++ rest) with
        log := fun k => if k = n then s.log n ++ [m] else s.log k }
  /-- entering `Consumer::flush`: take the lock (consumer.impl.h 566) -/
  | flush (i : Nat) (t : Thread V) (n : Nat) (rest : List (Instr V))
      (hi : s.threads[i]? = some t) (hr : s.runnable i t)
      (ht : t.stack = .flush n :: rest) (hl : s.lock n = none) :
      Step N s { s.setStack i t (.wait n :: rest) with
        lock := fun k => if k = n then some i else s.lock k }
  /-- all futures are ready: clear the queue, release the lock (consumer.impl.h 566-578), then
  `flush_consumers()` (filter.impl.h 204) -/
  | waitDone (i : Nat) (t : Thread V) (n : Nat) (rest : List (Instr V))
      (hi : s.threads[i]? = some t) (hr : s.runnable i t)
      (ht : t.stack = .wait n :: rest) (hd : ∀ j ∈ s.queue n, s.isDone j = true) :
      Step N s { s.setStack i t ((N.outs n).map .flush ++ rest) with
        queue := fun k => if k = n then [] else s.queue k
        lock := fun k => if k = n then none else s.lock k }
  /-- `sample()` returns; the user's thread goes on -/
  | ret (i : Nat) (t : Thread V) (rest : List (Instr V))
      (hi : s.threads[i]? = some t) (hr : s.runnable i t) (ht : t.stack = .ret :: rest) :
      Step N s (s.setStack i t rest)

/-- One call of `sample()` on a producer: what is connected to the producer (`roots`), what it issues,
how often it calls the signal `flush_consumers` at the end.
(E.g. range.impl.h 108-123, metropolis_hastings.impl.h 603-689.) -/
structure Call (V : Type) where
  roots : List Nat
  msgs : List V
  flushes : Nat

/-- What a thread does in a call of `sample()`: issue the messages to everything connected to the
producer, then call the signal `flush_consumers` (once or twice), then return
(range.impl.h 108-123, metropolis_hastings.impl.h 603-689, producer.impl.h 129-186). -/
def Call.program (c : Call V) : List (Instr V) :=
  c.msgs.flatMap (fun m => c.roots.map (fun r => .deliver r m)) ++
    (List.replicate c.flushes (c.roots.map .flush)).flatten ++ [.ret]

/-- The state in which all user threads are about to start; `progs` are the calls that each of them is
going to make.
(Scaffolding: threads of the user program; no lines of its own in the code.) -/
def initial (progs : List (List (Call V))) : State V where
  threads := progs.mapIdx (fun a calls => ⟨none, a, calls.flatMap Call.program⟩)
  queue := fun _ => []
  lock := fun _ => none
  log := fun _ => []

/-- States that some schedule can reach.
(Scaffolding: all schedules of the steps that model consumer.impl.h 384-598.) -/
def Reachable (N : Net V) (progs : List (List (Call V))) (s : State V) : Prop :=
  Relation.ReflTransGen (Step N) (initial progs) s

end SampleFlow.Async
