import Verif.Model.Network

/-!
# Specification: filters in a row
-/

namespace SampleFlow.Spec

/-- What comes out at the end of a row of filters, each receiving what its predecessor issues. -/
def throughFilters {V : Type} : List (Component V) → List V → List V
  | [], xs => xs
  | c :: cs, xs => throughFilters cs (c.obj.runFrom c.state xs).1

end SampleFlow.Spec
