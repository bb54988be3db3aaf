/-!
# Specification vocabulary for streams

Nothing here refers to the model.
-/

namespace SampleFlow.Spec

/-- The elements of `xs` whose position (counted from 0) satisfies `P`, in order. -/
def keepAt {X : Type} (P : Nat → Prop) [DecidablePred P] (xs : List X) : List X :=
  (xs.zipIdx.filter (fun p => decide (P p.2))).map Prod.fst

end SampleFlow.Spec
