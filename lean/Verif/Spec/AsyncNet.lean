import Verif.Model.AsyncNet

/-!
# Specification vocabulary for asynchronous networks (C12-C16)
-/

namespace SampleFlow.Async.Spec

open SampleFlow.Async

variable {V : Type}

/-- What node `n` sends on to its consumers while processing the messages `rest`, having processed
`past` before. -/
def issuedFrom (N : Net V) (n : Nat) : List V → List V → List V
  | _, [] => []
  | past, m :: rest => (N.behave n past m).toList ++ issuedFrom N n (past ++ [m]) rest

/-- What node `n` sends on to its consumers when it processes `hist` from the beginning. -/
def issued (N : Net V) (n : Nat) (hist : List V) : List V := issuedFrom N n [] hist

/-- The messages that the producers themselves send to node `n`: one copy per connection. -/
def fromProducers (progs : List (List (Call V))) (n : Nat) : List V :=
  progs.flatten.flatMap (fun c => c.msgs.flatMap (fun m => List.replicate (c.roots.count n) m))

/-- The messages that the nodes `0..K-1` send to node `n`, if node `p` has processed `hist p`: one copy
per connection. -/
def fromNodes (N : Net V) (K : Nat) (hist : Nat → List V) (n : Nat) : List V :=
  (List.range K).flatMap (fun p =>
    (issued N p (hist p)).flatMap (fun y => List.replicate ((N.outs p).count n) y))

/-- The network has only the nodes `0..K-1` (everything else has no consumers). -/
def Finite (N : Net V) (K : Nat) : Prop := ∀ p, K ≤ p → N.outs p = []

/-- There are no cycles: the nodes have ranks that decrease along connections. -/
def Acyclic (N : Net V) : Prop := ∃ rank : Nat → Nat, ∀ n, ∀ c ∈ N.outs n, rank c < rank n

/-- All threads and tasks have come to their end. -/
def AllDone (s : State V) : Prop := ∀ t ∈ s.threads, t.stack = []

/-- Every call of `sample()` flushes at least once (all four producers do: C40). -/
def Flushes (progs : List (List (Call V))) : Prop := ∀ calls ∈ progs, ∀ c ∈ calls, 1 ≤ c.flushes

/-- User thread `a` is not inside a call of `sample()`: it has just returned from one, or has made all
its calls. -/
def NotSampling (s : State V) (a : Nat) : Prop :=
  ∃ t, s.threads[a]? = some t ∧ t.task = none ∧ (t.stack = [] ∨ ∃ rest, t.stack = .ret :: rest)

/-- `k` atomic actions lead from `s` to `s'`. -/
inductive Steps (N : Net V) : Nat → State V → State V → Prop
  | zero (s) : Steps N 0 s s
  | succ {k s s' s''} : Steps N k s s' → Step N s' s'' → Steps N (k + 1) s s''

/-- What a filter does with a message does not depend on earlier messages. -/
def Stateless (N : Net V) : Prop := ∀ n hist m, N.behave n hist m = N.behave n [] m

/-- The only user thread has just returned from a call of `sample()` and will then make the calls `todo`. -/
def ReturnedBefore (s : State V) (todo : List (Call V)) : Prop :=
  ∃ t, s.threads[0]? = some t ∧ t.stack = .ret :: todo.flatMap Call.program

end SampleFlow.Async.Spec
