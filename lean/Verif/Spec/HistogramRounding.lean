import Mathlib.Order.Defs.LinearOrder

/-!
# Specification: bins some of which may be empty intervals
-/

namespace SampleFlow.Spec

/-- A subdivision in which neighbouring points may coincide: at least two non-decreasing points, the first less than the last. -/
structure WeakSubdivision {D : Type} [LinearOrder D] (pts : List D) : Prop where
  sorted : pts.Pairwise (· ≤ ·)
  two : 2 ≤ pts.length
  proper : pts[0] < pts[pts.length - 1]

/-- `x` is counted in bin `k`: it is in the range `p₀ ≤ x < p_N` of the histogram, and `p_k < x ≤ p_{k+1}` or, for the first bin, `p₀ ≤ x ≤ p₁`. -/
def countedIn {D : Type} [LinearOrder D] (points : List D) (k : Nat) (x : D) : Prop :=
  ∃ (h : k + 1 < points.length), points[0] ≤ x ∧ x < points[points.length - 1] ∧ (points[k] < x ∨ (k = 0 ∧ x = points[0])) ∧ x ≤ points[k+1]

instance {D : Type} [LinearOrder D] (points : List D) (k : Nat) (x : D) : Decidable (countedIn points k x) := by
  unfold countedIn; infer_instance

end SampleFlow.Spec
