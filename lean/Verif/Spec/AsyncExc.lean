import Verif.Model.AsyncExc
import Verif.Spec.AsyncNet

/-!
# Specification vocabulary for exceptions in asynchronous networks (C69)
-/

namespace SampleFlow.Async.Spec

variable {V E : Type}

/-- `k` atomic actions lead from `s` to `s'`. -/
inductive ExcSteps (N : ExcNet V E) : Nat → ExcState V E → ExcState V E → Prop
  | zero (s) : ExcSteps N 0 s s
  | succ {k s s' s''} : ExcSteps N k s s' → ExcStep N s' s'' → ExcSteps N (k + 1) s s''

/-- Only consumers in asynchronous mode throw. -/
def OnlyAsyncThrows (N : ExcNet V E) : Prop := ∀ n hist m e, N.behave n hist m = .error e → N.isAsync n = true

/-- Everything connected to the producers is in asynchronous mode. -/
def RootsAsync (N : ExcNet V E) (progs : List (List (Call V))) : Prop := ∀ calls ∈ progs, ∀ c ∈ calls, ∀ r ∈ c.roots, N.isAsync r = true

/-- The exception in a result. -/
def errorOf {R : Type} : Except E R → List E
  | .error e => [e]
  | .ok _ => []

/-- The exceptions that node `n` throws while it processes the messages `rest`, having processed `past` before. -/
def thrownFrom (N : ExcNet V E) (n : Nat) : List V → List V → List E
  | _, [] => []
  | past, m :: rest => errorOf (N.behave n past m) ++ thrownFrom N n (past ++ [m]) rest

/-- The exceptions that node `n` throws when it processes `hist` from the beginning. -/
def thrown (N : ExcNet V E) (n : Nat) (hist : List V) : List E := thrownFrom N n [] hist

/-- No exception is thrown by asynchronous consumers and filters, nor by anything that gets its samples from them. -/
def ThrowersInCallingThread (N : ExcNet V E) : Prop :=
  ∀ n hist m e, N.behave n hist m = .error e → ∀ a, N.isAsync a = true → ¬ Relation.ReflTransGen (fun p c => c ∈ N.outs p) a n

/-- Only the nodes `0..K-1` throw. -/
def ThrowersBelow (N : ExcNet V E) (K : Nat) : Prop := ∀ n hist m e, N.behave n hist m = .error e → n < K

end SampleFlow.Async.Spec
