import Verif.Spec.ExcNetwork
import Verif.Spec.Producers

/-!
# Specification: what a network of filters and consumers sees of a call of `sample()`
-/

namespace SampleFlow.Exc.Spec

variable {V E X α : Type}

/-- `n'` is `n` after the messages `ms` and then `flushes` flushes. -/
def Received (n n' : Node V E) (ms : List V) (flushes : Nat) : Prop :=
  n'.log = n.log ++ ms.map .sample ++ List.replicate flushes .flush ∧ n'.comp = after n.comp ms

/-- A call of `sample()` that has issued the samples `issued` and then returned or ended with an exception, not one of the
network's: no component has thrown, and every one has received what the filters above it pass of the samples issued, and then the flushes. -/
def AllDelivered (net net' : List (Node V E)) (issued : List V) (flushes : Nat) : Prop :=
  (∀ k x, issued[k]? = some x → ∀ t e, ¬ ThrowsAt net (issued.take k) x t e) ∧
  ∀ p n, nodeAt net p = some n → ∃ n', nodeAt net' p = some n' ∧ Received n n' (through (above net p) issued) flushes

/-- A call of `sample()` that ended because the component at path `t` threw `e`: it did so for the last sample issued; it was the first
one to throw; the components that come after `t` in the order of calls have received what the filters above them pass of the samples before the
last one, the others also what they pass of the last one; all have been flushed once. -/
def StoppedAt (net net' : List (Node V E)) (issued : List V) (t : List Nat) (e : E) : Prop :=
  ∃ before x, issued = before ++ [x] ∧ ThrowsAt net before x t e ∧
    (∀ k x', before[k]? = some x' → ∀ t' e', ¬ ThrowsAt net (before.take k) x' t' e') ∧
    (∀ t' e', ThrowsAt net before x t' e' → t' = t ∨ ComesAfter t' t) ∧
    ∀ p n, nodeAt net p = some n → ∃ n', nodeAt net' p = some n' ∧
      (¬ ComesAfter p t → Received n n' (through (above net p) (before ++ [x])) 1) ∧
      (ComesAfter p t → Received n n' (through (above net p) before) 1)

/-- The possible outcomes of a call of `sample()` that returns `result`.  `flushes` is the number of flushes of a call that
returns. -/
inductive Outcome (inj : E → X) (net net' : List (Node V E)) (issued : List V) (flushes : Nat) : Except X α → Prop
  /-- it returned -/
  | returned (a : α) (h : AllDelivered net net' issued flushes) : Outcome inj net net' issued flushes (.ok a)
  /-- an exception of a function of the user, or a fault -/
  | user (x : X) (h : AllDelivered net net' issued 1) : Outcome inj net net' issued flushes (.error x)
  /-- an exception of a component of the network -/
  | network (t : List Nat) (e : E) (h : StoppedAt net net' issued t e) : Outcome inj net net' issued flushes (.error (inj e))

end SampleFlow.Exc.Spec
