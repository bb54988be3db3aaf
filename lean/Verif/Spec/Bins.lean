import Mathlib.Order.Defs.LinearOrder

/-!
# Specification of histogram bins (independent of the model)
-/

namespace SampleFlow.Spec

/-- A subdivision: at least two strictly increasing points. -/
structure Subdivision {D : Type} [LinearOrder D] (pts : List D) : Prop where
  sorted : pts.Pairwise (· < ·)
  two : 2 ≤ pts.length

/-- `x` belongs to bin `k` of the subdivision `p₀ < p₁ < ... < p_N`: `p_k < x ≤ p_{k+1}`, except that
bin 0 also contains its left end and the last bin does not contain its right end. -/
def inBin {D : Type} [LinearOrder D] (points : List D) (k : Nat) (x : D) : Bool :=
  match points[k]?, points[k+1]? with
  | some lo, some hi =>
    (decide (lo < x) || (decide (k = 0) && decide (x = lo))) &&
    (decide (x ≤ hi)) && (decide (k + 2 ≠ points.length) || decide (x < hi))
  | _, _ => false

end SampleFlow.Spec
