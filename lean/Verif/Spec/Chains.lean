import Verif.Model.Chains

namespace SampleFlow.Spec

/-- The objects in an expression from left to right, forgetting the parentheses. -/
def objects {T : Type} : {i o : Option T} → Expr T i o → List Nat
  | _, _, .producer id _ => [id]
  | _, _, .filter id _ _ => [id]
  | _, _, .consumer id _ => [id]
  | _, _, .chain l r => objects l ++ objects r

/-- Pairs of neighbours in a list. -/
def neighbours (l : List Nat) : List (Nat × Nat) := l.zip l.tail

end SampleFlow.Spec
