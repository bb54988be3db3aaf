import Mathlib.Algebra.BigOperators.Group.Finset.Basic
import Mathlib.Algebra.Field.Basic
import Mathlib.Algebra.Star.Basic
import Mathlib.Algebra.BigOperators.Pi
import Mathlib.Data.Fintype.BigOperators
import Mathlib.Data.Matrix.Mul

/-!
# Textbook definitions of the statistics (independent of the model)
-/

namespace SampleFlow.Spec

/-- Arithmetic mean `(x₁ + ... + xₙ)/n` of scalars. -/
def mean {K : Type} [Field K] (xs : List K) : K := xs.sum / (xs.length : K)

/-- Arithmetic mean of vectors, component by component. -/
def vmean {K ι : Type} [Field K] (xs : List (ι → K)) : ι → K :=
  fun i => mean (xs.map (fun x => x i))

/-- Sample covariance of components `i` and `j`:
`1/(n-1) ∑ₜ (xₜ(i) - x̄(i)) conj(xₜ(j) - x̄(j))`. -/
def cov {K ι : Type} [Field K] [Star K] (xs : List (ι → K)) (i j : ι) : K :=
  (xs.map (fun x => (x i - vmean xs i) * star (x j - vmean xs j))).sum / ((xs.length : K) - 1)

/-- All pairs `(x_{t+l}, x_t)` of samples at distance `l`. -/
def lagPairs {X : Type} (l : Nat) (xs : List X) : List (X × X) := (xs.drop l).zip xs

/-- Auto-covariance matrix for lag `l`:
`1/(n-l-1) ∑_{t=1}^{n-l} (x_{t+l}(i) - x̄(i)) (xₜ(j) - x̄(j))` (n = number of samples). -/
def autoCov {K ι : Type} [Field K] (l : Nat) (xs : List (ι → K)) (i j : ι) : K :=
  ((lagPairs l xs).map (fun p => (p.1 i - vmean xs i) * (p.2 j - vmean xs j))).sum
    / ((xs.length : K) - l - 1)

/-- Trace of the auto-covariance matrix for lag `l`:
`1/(n-l-1) ∑_{t=1}^{n-l} (x_{t+l} - x̄)ᵀ(xₜ - x̄)`. -/
def autoCovTrace {K ι : Type} [Field K] [Fintype ι] (l : Nat) (xs : List (ι → K)) : K :=
  ((lagPairs l xs).map (fun p => ∑ j, (p.1 j - vmean xs j) * (p.2 j - vmean xs j))).sum
    / ((xs.length : K) - l - 1)

end SampleFlow.Spec
