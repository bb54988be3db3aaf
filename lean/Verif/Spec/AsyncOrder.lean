import Verif.Spec.AsyncNet

/-!
# Specification vocabulary for the order of samples in mixed networks (C78)
-/

namespace SampleFlow.Async.Spec

open SampleFlow.Async

variable {V : Type}

/-- Node `n` is asynchronous, or (directly or through other nodes) connected to an asynchronous node above it. -/
def BehindAsync (N : Net V) (n : Nat) : Prop :=
  ∃ a, N.isAsync a = true ∧ Relation.ReflTransGen (fun p c => c ∈ N.outs p) a n

/-- A path of synchronous nodes, each of which gets its messages only from its predecessor; the first one gets no messages from
other nodes (only from producers). -/
structure SyncPath (N : Net V) (path : List Nat) : Prop where
  sync : ∀ n ∈ path, N.isAsync n = false
  nodup : path.Nodup
  feeds : ∀ (i c : Nat), path[i]? = some c → ∀ q, c ∈ N.outs q → ∃ j, i = j + 1 ∧ path[j]? = some q

/-- What the last node of a path receives, in order, if the first one receives `xs`: each node sends what it issues to its successor,
one copy per connection. -/
def along (N : Net V) : List Nat → List V → List V
  | [], xs => xs
  | [_], xs => xs
  | p :: c :: rest, xs => along N (c :: rest) ((issued N p xs).flatMap (fun y => List.replicate ((N.outs p).count c) y))

/-- User thread `a` has just returned from a call of `sample()` and will then make the calls `todo`. -/
def ReturnedFrom (s : State V) (a : Nat) (todo : List (Call V)) : Prop :=
  ∃ t, s.threads[a]? = some t ∧ t.stack = .ret :: todo.flatMap Call.program

end SampleFlow.Async.Spec
