import Verif.Model.Lifecycle

/-!
# consume() functions that change connections

Extends Model/Lifecycle.lean: while a sample is being delivered, `consume()` of a consumer (for example the
function of an `Action`) may itself connect, disconnect, create or destroy consumers and make producers
issue samples (a `Filter` does the latter all the time).  One thread.
-/

namespace SampleFlow.Reentrant

variable {V : Type}

/-- What happens, in order: the consumer of slot `s` consumes `m`; an operation other than issuing a sample.
(Scaffolding: ghost record of calls made in consumer.impl.h 384-397.) -/
inductive Event (V : Type) where
  | consumed (s : Slot) (m : V)
  | did (o : Op V)

/-- The end of a computation: the objects and what has happened.
(Scaffolding; no lines of its own in the code.) -/
abbrev Result (V : Type) := Except Fault (Objects V × List (Event V))

/-- What the thread is doing: the consumers whose `consume()` it is executing in synchronous mode, and on
whose `synchronous_mode_mutex` it thus holds a shared lock (consumer.impl.h 387, 396); and the producers whose
signal `issue_sample` it is executing. -/
structure Stack where
  inside : List Nat
  emitting : List Nat

/-- The operation needs an exclusive lock on a mutex that the thread has locked already -- undefined behaviour
of `std::shared_mutex::lock`, in practice a deadlock -- or destroys a signal that it is executing:
`disconnect_and_flush` (consumer.impl.h 543), also from destructors; `~Producer` (producer.impl.h 212-215) through
the slot `disconnect_from_producer` (consumer.impl.h 484). -/
def Stack.forbids (k : Stack) (w : Objects V) : Op V → Bool
  | .disconnectAndFlush c => k.inside.contains c
  | .destroyConsumer c => k.inside.contains c
  | .destroyProducer p => k.emitting.contains p || (w.prod p).disc.any (fun s => k.inside.contains s.cons)
  | _ => false

/-- One operation executed inside `consume()`; `emit` is what issuing a sample does.
(action.impl.h 174-186 with a function that calls consumer.impl.h 337-556 and producer.impl.h 129-215.) -/
def perform (emit : Stack → Objects V → Nat → V → Result V) (k : Stack) (w : Objects V) : Op V → Result V
  | .issue p m => emit k w p m
  | o =>
    if k.forbids w o then .error .ub
    else match w.step o with
      | .error e => .error e
      | .ok w' => .ok (w', [.did o])

/-- The operations of one call of `consume()`.
(action.impl.h 174-186.) -/
def performAll (emit : Stack → Objects V → Nat → V → Result V) (k : Stack) : List (Op V) → Objects V → Result V
  | [], w => .ok (w, [])
  | o :: os, w =>
    match perform emit k w o with
    | .error e => .error e
    | .ok (w1, t1) =>
      match performAll emit k os w1 with
      | .error e => .error e
      | .ok (w2, t2) => .ok (w2, t1 ++ t2)

/-- A slot of `issue_sample` is called: consumer.impl.h 384-397 (synchronous mode: shared lock -- undefined
behaviour if the thread holds it already --, test for connections, `consume`); 407-452 (asynchronous mode: `consume` is
executed by another thread; what it does there is not modelled here). `react` is what `consume()` does. -/
def receive (emit : Stack → Objects V → Nat → V → Result V) (react : Slot → V → List (Op V)) (k : Stack) (w : Objects V) (s : Slot) (m : V) : Result V :=
  let cs := w.cons s.cons
  if cs.alive = false then .error .ub
  else if s.mode = 1 ∧ k.inside.contains s.cons then .error .ub
  else if cs.conns.length = 0 then .ok (w, [])
  else
    let w1 := w.setCons s.cons { cs with log := cs.log ++ [.sample m] }
    if s.mode = 1 then
      match performAll emit { k with inside := s.cons :: k.inside } (react s m) w1 with
      | .error e => .error e
      | .ok (w2, t) => .ok (w2, .consumed s m :: t)
    else .ok (w1, [.consumed s m])

/-- The signal `issue_sample` calls the slots it had when it was called, in order, except those that have been
disconnected in the meantime (boost signals).
(producer.impl.h 129, consumer.impl.h 384-397.) -/
def deliverSlots (emit : Stack → Objects V → Nat → V → Result V) (react : Slot → V → List (Op V)) (k : Stack) (p : Nat) (m : V) :
    List Slot → Objects V → Result V
  | [], w => .ok (w, [])
  | s :: rest, w =>
    if s ∈ (w.prod p).issue then
      match receive emit react k w s m with
      | .error e => .error e
      | .ok (w1, t1) =>
        match deliverSlots emit react k p m rest w1 with
        | .error e => .error e
        | .ok (w2, t2) => .ok (w2, t1 ++ t2)
    else deliverSlots emit react k p m rest w

/-- `issue_sample(...)` of producer `p`.  The call stack has room for `depth` nested calls.
(producer.impl.h 129.) -/
def emit (react : Slot → V → List (Op V)) : (depth : Nat) → Stack → Objects V → Nat → V → Result V
  | 0, _, _, _, _ => .error .ub
  | depth + 1, k, w, p, m =>
    if (w.prod p).alive = false then .error .ub
    else deliverSlots (emit react depth) react { k with emitting := p :: k.emitting } p m (w.prod p).issue w

/-- A history of operations by the main program; with each comes what the `consume()` functions do at that time.
(The user program; no lines of its own in the code.) -/
def run (depth : Nat) : List ((Slot → V → List (Op V)) × Op V) → Objects V → Result V
  | [], w => .ok (w, [])
  | (react, o) :: os, w =>
    match perform (emit react depth) ⟨[], []⟩ w o with
    | .error e => .error e
    | .ok (w1, t1) =>
      match run depth os w1 with
      | .error e => .error e
      | .ok (w2, t2) => .ok (w2, t1 ++ t2)

end SampleFlow.Reentrant
