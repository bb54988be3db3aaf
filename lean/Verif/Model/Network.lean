import Verif.Model.Filters
import Mathlib.Logic.Function.Iterate

/-!
# Synchronous networks

A producer with everything connected downstream, all in synchronous mode, one thread.  All C++ types
of samples (with their auxiliary data) are embedded into one type `V`.
-/

namespace SampleFlow

/-- What the outside of a `Consumer` sees: `consume(sample, aux_data)` was called, or `flush()` was
called (include/sampleflow/consumer.impl.h 154-156 and 200-201). -/
inductive NetEvent (V : Type) where
  | sample (m : V)
  | flush
deriving DecidableEq

/-- A filter or consumer object together with its current state.  A pure consumer is a component that
never issues anything.
(consumer.impl.h 384-397, filter.impl.h 170-205.) -/
structure Component (V : Type) : Type 1 where
  σ : Type
  obj : FilterObj σ V V
  state : σ

/-- A component, the calls it has received so far, and the components connected to it in the order of
connection (the order in which boost signals call the slots).
(Connections made by consumer.impl.h 337-501.) -/
inductive Node (V : Type) : Type 1 where
  | mk (comp : Component V) (log : List (NetEvent V)) (children : List (Node V))

mutual
/-- `Filter::consume`, include/sampleflow/filter.impl.h 170-188, called through the synchronous slot
(consumer.impl.h 384-397); a fault stops the program. For a pure consumer the virtual function
`consume` of the derived class. -/
def Node.consume {V : Type} : Node V → V → Except Fault (Node V)
  | .mk c log cs, m =>
    match c.obj.filter c.state m with
    | .error e => .error e
    | .ok (none, s) => .ok (.mk { c with state := s } (log ++ [.sample m]) cs)
    | .ok (some y, s) =>
      match issueSample cs y with
      | .error e => .error e
      | .ok cs' => .ok (.mk { c with state := s } (log ++ [.sample m]) cs')

/-- The signal `issue_sample` (producer.impl.h 129): all slots are called in order. -/
def issueSample {V : Type} : List (Node V) → V → Except Fault (List (Node V))
  | [], _ => .ok []
  | n :: ns, m =>
    match n.consume m with
    | .error e => .error e
    | .ok n' =>
      match issueSample ns m with
      | .error e => .error e
      | .ok ns' => .ok (n' :: ns')
end

mutual
/-- `Filter::flush`, filter.impl.h 192-205: `Consumer::flush()` (nothing to wait for in synchronous
mode, consumer.impl.h 560-579), then the signal `flush_consumers`. -/
def Node.flush {V : Type} : Node V → Node V
  | .mk c log cs => .mk c (log ++ [.flush]) (flushConsumers cs)

/-- The signal `flush_consumers` (producer.impl.h 177). -/
def flushConsumers {V : Type} : List (Node V) → List (Node V)
  | [] => []
  | n :: ns => n.flush :: flushConsumers ns
end

/-- A producer issues `xs` one after the other to the nodes connected to it.
(Loops around `issue_sample`, e.g. range.impl.h 108-123.) -/
def produce {V : Type} (net : List (Node V)) : List V → Except Fault (List (Node V))
  | [] => .ok net
  | x :: xs =>
    match issueSample net x with
    | .error e => .error e
    | .ok net' => produce net' xs

/-- `sample()` of a producer that issues `xs` and then flushes `k` times (range.impl.h 108-123: once;
metropolis_hastings.impl.h 603-689: twice, see 613 and 688). -/
def sampleRun {V : Type} (net : List (Node V)) (xs : List V) (k : Nat) :
    Except Fault (List (Node V)) :=
  match produce net xs with
  | .error e => .error e
  | .ok net' => .ok (flushConsumers^[k] net')

/-- The node reached from the producer by taking the `i`-th connection, then the `j`-th, ...
(Scaffolding; no lines of its own in the code.) -/
def nodeAt {V : Type} : List (Node V) → List Nat → Option (Node V)
  | _, [] => none
  | ns, [i] => ns[i]?
  | ns, i :: j :: p =>
    match ns[i]? with
    | some (.mk _ _ cs) => nodeAt cs (j :: p)
    | none => none

/-- The calls received so far.
(Scaffolding: ghost record of the calls made in consumer.impl.h 384-397.) -/
def Node.log {V : Type} : Node V → List (NetEvent V)
  | .mk _ l _ => l

/-- The components strictly between the producer and the node at the path.
(Scaffolding; no lines of its own in the code.) -/
def above {V : Type} : List (Node V) → List Nat → List (Component V)
  | ns, i :: j :: p =>
    match ns[i]? with
    | some (.mk c _ cs) => c :: above cs (j :: p)
    | none => []
  | _, _ => []

end SampleFlow
