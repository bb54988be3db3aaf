import Verif.Model.Network

/-!
# Networks whose consumers throw exceptions

As Model/Network.lean, but `filter()` of a filter and `consume()` of a consumer may throw an exception of type `E` (and may have changed
the object before).  An exception leaves the boost signal that called the slot, so that the slots after it are not called, and goes on to
the caller of `issue_sample`, i.e. to the filter before it and finally to `sample()`.  Nothing in the library catches it (there is no
`catch` in include/sampleflow), except `std::async`: a task that ends with an exception stores it in the future, and the future is
only waited for (`consumer.impl.h` 560-579), never asked for its result.
-/

namespace SampleFlow.Exc

/-- A filter or consumer object with its state.  `step s m` is the call with the message `m` in the state `s`: it throws, issues something or
issues nothing, and leaves a new state.
(consume() and flush() of consumer.impl.h 560-579, filter.impl.h 170-205.) -/
structure Component (V E : Type) : Type 1 where
  σ : Type
  step : σ → V → Except E (Option V) × σ
  state : σ

/-- The component after one call with the message `m`.
(filter.impl.h 170-188.) -/
def Component.next {V E : Type} (c : Component V E) (m : V) : Component V E := { c with state := (c.step c.state m).2 }

/-- A component, whether it is in asynchronous mode, the calls it has received so far, and the components connected to it in the order of
connection.
(Connections made by consumer.impl.h 337-501.) -/
inductive Node (V E : Type) : Type 1 where
  | mk (comp : Component V E) (async : Bool) (log : List (NetEvent V)) (children : List (Node V E))

mutual
/-- `Filter::consume`, include/sampleflow/filter.impl.h 170-188, or `consume` of a derived class of `Consumer`.  Returns the
exception with which the call ends, if any. -/
def Node.consume {V E : Type} : Node V E → V → Option E × Node V E
  | .mk c a log cs, m =>
    match c.step c.state m with
    | (.error e, _) => (some e, .mk (c.next m) a (log ++ [.sample m]) cs)
    | (.ok none, _) => (none, .mk (c.next m) a (log ++ [.sample m]) cs)
    | (.ok (some y), _) => ((issueSample cs y).1, .mk (c.next m) a (log ++ [.sample m]) (issueSample cs y).2)

/-- The signal `issue_sample` (producer.impl.h 129): the slots are called in order until one throws.  The slot of a
component in synchronous mode (consumer.impl.h 384-397) calls `consume`, the shared lock is released when the exception leaves it.
The slot of a component in asynchronous mode (407-452) starts a task and returns; the exception stays in the future.  Simplification: of all the
schedules of the task, only the one is modelled in which it runs at once. -/
def issueSample {V E : Type} : List (Node V E) → V → Option E × List (Node V E)
  | [], _ => (none, [])
  | .mk c a log cs :: ns, m =>
    match a, ((Node.mk c a log cs).consume m).1 with
    | false, some e => (some e, ((Node.mk c a log cs).consume m).2 :: ns)
    | _, _ => ((issueSample ns m).1, ((Node.mk c a log cs).consume m).2 :: (issueSample ns m).2)
end

mutual
/-- `Filter::flush`, filter.impl.h 192-205. -/
def Node.flush {V E : Type} : Node V E → Node V E
  | .mk c a log cs => .mk c a (log ++ [.flush]) (flushConsumers cs)

/-- The signal `flush_consumers` (producer.impl.h 177). -/
def flushConsumers {V E : Type} : List (Node V E) → List (Node V E)
  | [] => []
  | n :: ns => n.flush :: flushConsumers ns
end

/-- A producer issues `xs` one after the other until a call of `issue_sample` throws.
(Loops around `issue_sample`, e.g. range.impl.h 108-123.) -/
def produce {V E : Type} (net : List (Node V E)) : List V → Option E × List (Node V E)
  | [] => (none, net)
  | x :: xs =>
    match issueSample net x with
    | (some e, net') => (some e, net')
    | (none, net') => produce net' xs

/-- `Range::sample`, range.impl.h 108-123: the object `scope_exit` flushes whether or not an exception is on its way
(scope_exit.impl.h 84-90). -/
def sampleRange {V E : Type} (net : List (Node V E)) (xs : List V) : Option E × List (Node V E) :=
  ((produce net xs).1, flushConsumers (produce net xs).2)

/-- The node reached from the producer by taking the `i`-th connection, then the `j`-th, ...
(Scaffolding; no lines of its own in the code.) -/
def nodeAt {V E : Type} : List (Node V E) → List Nat → Option (Node V E)
  | _, [] => none
  | ns, [i] => ns[i]?
  | ns, i :: j :: p =>
    match ns[i]? with
    | some (.mk _ _ _ cs) => nodeAt cs (j :: p)
    | none => none

/-- The calls received so far.
(Scaffolding: ghost record of the calls made in consumer.impl.h 384-452.) -/
def Node.log {V E : Type} : Node V E → List (NetEvent V)
  | .mk _ _ l _ => l

/-- The object of a node.
(Scaffolding; no lines of its own in the code.) -/
def Node.comp {V E : Type} : Node V E → Component V E
  | .mk c _ _ _ => c

/-- The components strictly between the producer and the node at the path.
(Scaffolding; no lines of its own in the code.) -/
def above {V E : Type} : List (Node V E) → List Nat → List (Component V E)
  | ns, i :: j :: p =>
    match ns[i]? with
    | some (.mk c _ _ cs) => c :: above cs (j :: p)
    | none => []
  | _, _ => []

/-- Every component is in synchronous mode.
(`parallel_mode`, consumer.impl.h 505-519.) -/
inductive Node.Sync {V E : Type} : Node V E → Prop
  | mk (c : Component V E) (log : List (NetEvent V)) (cs : List (Node V E)) (h : ∀ n ∈ cs, Node.Sync n) :
      Node.Sync (.mk c false log cs)

end SampleFlow.Exc
