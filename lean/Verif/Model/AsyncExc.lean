import Verif.Model.AsyncNet

/-!
# Asynchronous networks whose consumers and filters throw exceptions

Model/AsyncNet.lean with exceptions.  There is no `catch` in include/sampleflow: an exception thrown by `consume()` or `filter()` leaves the slot, the signal and
the `consume()` of the filters before it, until it reaches
* the task (`std::async`, consumer.impl.h 440), which stores it in the future; the future is only waited for (566-568, 593-597), never asked for its result, or
* `sample()`, which it leaves after the object `scope_exit` has flushed the consumers (scope_exit.impl.h 84-90).  The user catches it and goes on with the next call.
-/

namespace SampleFlow.Async

/-- As `Net`, but a node may throw an exception for a message (before it issues anything: filter.impl.h 170-188). -/
structure ExcNet (V E : Type) where
  outs : Nat → List Nat
  isAsync : Nat → Bool
  queueSize : Nat → Nat
  behave : Nat → List V → V → Except E (Option V)

variable {V E : Type}

/-- The network in which each node, instead of throwing, issues nothing.
(Scaffolding for comparing with AsyncNet; no lines of its own in the code.) -/
def ExcNet.quiet (N : ExcNet V E) : Net V where
  outs := N.outs
  isAsync := N.isAsync
  queueSize := N.queueSize
  behave := fun n hist m => match N.behave n hist m with
    | .ok o => o
    | .error _ => none

/-- The action belongs to the flush at the end of `sample()`, or to the return.
(`scope_exit` in e.g. metropolis_hastings.impl.h 613-616, scope_exit.impl.h 55-90.) -/
def Instr.isFinal : Instr V → Bool
  | .flush _ => true
  | .ret => true
  | _ => false

/-- What an exception leaves of the pending actions: everything up to the flush of `scope_exit` is skipped.  (A task has no such flush: nothing is left.)
(Stack unwinding past `scope_exit`: scope_exit.impl.h 86-91; the slots of producer.impl.h 129-186; std::async in consumer.impl.h 440.) -/
def unwind (st : List (Instr V)) : List (Instr V) := st.dropWhile (fun ins => !ins.isFinal)

/-- The actions before the next return.
(Scaffolding: the rest of the current call of `sample()`, e.g. metropolis_hastings.impl.h 603-689.) -/
def beforeRet : List (Instr V) → List (Instr V)
  | [] => []
  | .ret :: _ => []
  | ins :: st => ins :: beforeRet st

/-- The state, and the exceptions with which calls of `sample()` have ended so far, with the user's thread that made the call.
(Members of consumer.impl.h 232-283; exceptions leave `sample()` at e.g. metropolis_hastings.impl.h 603-689.) -/
structure ExcState (V E : Type) where
  base : State V
  reported : List (Nat × E)

/-- One atomic action.
(consumer.impl.h 384-452, 523-598; the constructors say which part.) -/
inductive ExcStep (N : ExcNet V E) (s : ExcState V E) : ExcState V E → Prop
  /-- an action of Model/AsyncNet.lean; if a message is consumed, no exception is thrown -/
  | quiet (b : State V) (h : Step N.quiet s.base b) (hn : ∀ n m, b.log n = s.base.log n ++ [m] → ∃ o, N.behave n (s.base.log n) m = .ok o) :
      ExcStep N s ⟨b, s.reported⟩
  /-- `n.consume(m)` throws.  Producers that flush explicitly before `scope_exit` does (metropolis_hastings.impl.h 603-689) skip the explicit flush: `skipped` are flushes that are
  still to be done afterwards. -/
  | throw (i : Nat) (t : Thread V) (n : Nat) (m : V) (rest skipped rest' : List (Instr V)) (e : E)
      (hi : s.base.threads[i]? = some t) (hr : s.base.runnable i t)
      (ht : t.stack = .consume n m :: rest) (he : N.behave n (s.base.log n) m = .error e)
      (hu : unwind rest = skipped ++ rest') (hs : ∀ ins ∈ skipped, ins ∈ beforeRet rest') :
      ExcStep N s ⟨{ s.base.setStack i t rest' with log := fun k => if k = n then s.base.log n ++ [m] else s.base.log k },
        if t.task = none then s.reported ++ [(i, e)] else s.reported⟩

/-- States that some schedule can reach.
(Scaffolding: all schedules of the steps that model consumer.impl.h 384-598.) -/
def ExcReachable (N : ExcNet V E) (progs : List (List (Call V))) (s : ExcState V E) : Prop :=
  Relation.ReflTransGen (ExcStep N) ⟨initial progs, []⟩ s

end SampleFlow.Async
