import Verif.Model.Basic

/-!
# operator>> and Chain (include/sampleflow/connections.impl.h)

Objects are identified by numbers; `T` is the set of sample types. Expressions are typed the way the
templates are: `Expr i o` has input type `i` and output type `o`, where `none` stands for `void`.
-/

namespace SampleFlow

/-- An expression built with `operator>>` (598-635).  `Chain` has four specialisations
(42-165 both types, 193-298 no output, 327-422 no input, 451-529 neither); they are the four
instances of `chain` with `i`, `o` equal to `none` or not. The concepts in 600-604 demand that the
output type of the left is the input type of the right. -/
inductive Expr (T : Type) : Option T → Option T → Type where
  | producer (id : Nat) (o : T) : Expr T none (some o)
  | filter (id : Nat) (i o : T) : Expr T (some i) (some o)
  | consumer (id : Nat) (i : T) : Expr T (some i) none
  | chain {i o : Option T} {m : T} (left : Expr T i (some m)) (right : Expr T (some m) o) : Expr T i o

/-- The object on which `connect_to_signals` finally acts: a chain forwards to its right object
(99-104, 380-388). -/
def Expr.signalSource {T : Type} : {i o : Option T} → {m : T} → (h : o = some m) → Expr T i o → Nat
  | _, _, _, _, .producer id _ => id
  | _, _, _, _, .filter id _ _ => id
  | _, _, _, h, .consumer _ _ => nomatch h
  | _, _, _, h, .chain _ r => r.signalSource h

/-- The object on which `connect_to_producer` finally acts: a chain forwards to its left object
(113-118, 246-251). -/
def Expr.receiver {T : Type} : {i o : Option T} → {m : T} → (h : i = some m) → Expr T i o → Nat
  | _, _, _, h, .producer _ _ => nomatch h
  | _, _, _, _, .filter id _ _ => id
  | _, _, _, _, .consumer id _ => id
  | _, _, _, h, .chain l _ => l.receiver h

/-- The connections (producing object, receiving object) made while the expression is evaluated, in
order: the operands are evaluated (the C++ standard sequences the left operand of `>>` first), then
the constructor of `Chain` calls `right.connect_to_producer(left)` (lines 73, 224, 358, 482). -/
def Expr.connections {T : Type} : {i o : Option T} → Expr T i o → List (Nat × Nat)
  | _, _, .producer _ _ => []
  | _, _, .filter _ _ _ => []
  | _, _, .consumer _ _ => []
  | _, _, .chain l r => l.connections ++ r.connections ++ [(l.signalSource rfl, r.receiver rfl)]

end SampleFlow
