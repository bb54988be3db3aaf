import Verif.Model.Histogram
import Mathlib.Order.Defs.LinearOrder
import Mathlib.Order.Monotone.Defs

/-!
# Specification: conversions between doubles and the type in which samples are compared, and the bins of samples (C90)
-/

namespace SampleFlow.Spec

variable {C D : Type} [LinearOrder C] [LinearOrder D]

/-- Every double is a number of the type `C` as well and its conversion to `C` and back does not change it; conversions keep the order (but different numbers may become equal in the conversion to double). -/
structure Conversions (emb : D → C) (toDouble : C → D) : Prop where
  exact : ∀ d, toDouble (emb d) = d
  embLt : ∀ a b, a < b → emb a < emb b
  mono : ∀ a b, a ≤ b → toDouble a ≤ toDouble b

/-- The sample `x` is counted in bin `k`: it is in the range of the histogram, and, rounded to double, in the interval of the bin (closed on the right, for the first bin also on the left). -/
def countedAs (emb : D → C) (toDouble : C → D) (points : List D) (k : Nat) (x : C) : Prop :=
  ∃ (h : k + 1 < points.length), emb points[0] ≤ x ∧ x < emb points[points.length - 1] ∧
    (points[k] < toDouble x ∨ (k = 0 ∧ toDouble x = points[0])) ∧ toDouble x ≤ points[k+1]

instance (emb : D → C) (toDouble : C → D) (points : List D) (k : Nat) (x : C) : Decidable (countedAs emb toDouble points k x) := by
  unfold countedAs; infer_instance

/-- number of NaN in a list of samples -/
def nans : List (Fl C) → Nat
  | [] => 0
  | .nan :: xs => nans xs + 1
  | .num _ :: xs => nans xs

/-- the samples that are numbers -/
def numbers : List (Fl C) → List C
  | [] => []
  | .nan :: xs => numbers xs
  | .num x :: xs => x :: numbers xs

end SampleFlow.Spec
