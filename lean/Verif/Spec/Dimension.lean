import Verif.Model.Dimension

/-!
# Specification vocabulary for C79
-/

namespace SampleFlow.Dim

/-- `E` behaves like an array: `els s` are the elements of the sample `s`. -/
structure Lawful {S K : Type} [Field K] (E : Elements S K) (els : S → List K) : Prop where
  size : ∀ s, E.size s = (els s).length
  nth : ∀ s i, E.nth s i = readAt (els s) i
  set : ∀ s i x, (E.set s i x).map els = writeAt (els s) i x
  sub : ∀ a b, (E.sub a b).map els = (valarray K).sub (els a) (els b)
  add : ∀ a b, (E.add a b).map els = (valarray K).add (els a) (els b)
  scale : ∀ a c, els (E.scale a c) = (els a).map (· * c)

/-- All samples have the same number of elements. -/
def SameSize {S K : Type} (els : S → List K) (xs : List S) : Prop := ∃ d, ∀ x ∈ xs, (els x).length = d

/-- The elements of a sample of size `d` as a function. -/
def fn {S K : Type} [Zero K] (els : S → List K) (d : Nat) (x : S) : Fin d → K := fun i => (els x).getD i 0

end SampleFlow.Dim
