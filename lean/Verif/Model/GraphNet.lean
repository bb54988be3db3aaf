import Verif.Model.Network

/-!
# Synchronous networks in which components are shared

In `Model/Network.lean` the components form a tree.  In general a filter or consumer may be connected to several producers and filters, also several times to the same one (diamonds, double connections), and filters may
even be connected in a circle: nothing in `connect_to_producer` (consumer.impl.h 337-501) prevents any of this.  All components are in synchronous mode, and one thread is running.
-/

namespace SampleFlow.Graph

variable {V : Type}

/-- Something that has the signals of a `Producer` (producer.impl.h 129, 177): a producer, or a filter (filter.impl.h 61). -/
inductive Source where
  | producer (p : Nat)
  | node (n : Nat)
deriving DecidableEq

/-- The network. `outs s`: the filters and consumers connected to the signals of `s`, in the order in which they were connected, with repetition for multiple connections (producer.impl.h 219-238; boost signals call the slots in this
order).  `behave n hist m`: what the filter `n` issues for the sample `m` if it has consumed `hist` before (any deterministic filter with internal state; nothing for a pure consumer); filter.impl.h 153-155. -/
structure Net (V : Type) where
  outs : Source → List Nat
  behave : Nat → List V → V → Option V

/-- A call that a component has received: `consume(m)` or `flush()`, through slot number `slot` of `src`.
(Calls made by consumer.impl.h 384-397, 467.) -/
structure Entry (V : Type) where
  src : Source
  slot : Nat
  event : NetEvent V

/-- The calls that each component has received so far.
(Scaffolding: ghost record of the calls made in consumer.impl.h 384-397, 467.) -/
abbrev Log (V : Type) := Nat → List (Entry V)

/-- The sample of a call of `consume`.
(Scaffolding; no lines of its own in the code.) -/
def sample? : NetEvent V → Option V
  | .sample m => some m
  | .flush => none

/-- The samples that a component has consumed.
(Scaffolding; no lines of its own in the code.) -/
def samplesOf (l : List (Entry V)) : List V := l.filterMap (fun e => sample? e.event)

/-- What component `n`, which has consumed `hist`, passes on to everything connected to it: what the filter makes of a sample (`Filter::consume`, filter.impl.h 170-188), and every flush (`Filter::flush`, filter.impl.h 192-205). -/
def Net.reaction (N : Net V) (n : Nat) (hist : List V) : NetEvent V → Option (NetEvent V)
  | .sample m => (N.behave n hist m).map .sample
  | .flush => some .flush

/-- A call is entered into the log.
(Scaffolding: ghost record.) -/
def addEntry (L : Log V) (n : Nat) (e : Entry V) : Log V := fun k => if k = n then L n ++ [e] else L k

/-- A slot of `n` is called: `n.consume(m)` under a `std::shared_lock` of `n`'s `synchronous_mode_mutex` (consumer.impl.h 384-397), or `n.flush()` (consumer.impl.h 467, 560-579; no lock is held while the flush is passed on).  What is
passed on goes to all slots of `n`, one after the other.  `stack`: the components that are executing `consume` in this thread; locking a mutex that the thread has locked already is undefined behaviour.  `depth`: how deep calls can
still be nested before the stack of the thread overflows. -/
def Net.call (N : Net V) : (depth : Nat) → (stack : List Nat) → Log V → Source → (slot n : Nat) → NetEvent V → Except Fault (Log V)
  | 0, _, _, _, _, _, _ => .error .ub
  | d + 1, stack, L, src, slot, n, ev =>
    if (sample? ev).isSome ∧ n ∈ stack then .error .ub
    else match N.reaction n (samplesOf (L n)) ev with
      | none => .ok (addEntry L n ⟨src, slot, ev⟩)
      | some y => (N.outs (.node n)).zipIdx.foldlM (fun L ck => N.call d (n :: stack) L (.node n) ck.2 ck.1 y) (addEntry L n ⟨src, slot, ev⟩)

/-- What the user's program does: producer `p` issues a sample or flushes (producer.impl.h 129, 177). -/
structure Op (V : Type) where
  producer : Nat
  event : NetEvent V

/-- One operation: all slots of the producer are called, one after the other.
(producer.impl.h 129-186, e.g. called in range.impl.h 108-123.) -/
def Net.step (N : Net V) (depth : Nat) (L : Log V) (o : Op V) : Except Fault (Log V) :=
  (N.outs (.producer o.producer)).zipIdx.foldlM (fun L ck => N.call depth [] L (.producer o.producer) ck.2 ck.1 o.event) L

/-- A whole program.
(The user program; no lines of its own in the code.) -/
def Net.run (N : Net V) (depth : Nat) (ops : List (Op V)) : Except Fault (Log V) := ops.foldlM (N.step depth) (fun _ => [])

end SampleFlow.Graph
