import Verif.Model.IntMean
import Verif.Spec.Ieee

/-!
# CovarianceMatrix<int>

`CovarianceMatrix::consume` (include/sampleflow/consumers/covariance_matrix.impl.h 155-197) instantiated with `InputType = int` (32 bit): the matrix has one entry, of type `int`; the update of the entry (line 189)
is computed with doubles and converted to `int`.  The parameter `fl` is the rounding of double precision (`Spec.double`); the numbers are too small to overflow.
-/

namespace SampleFlow

/-- Conversion of a double to `int`: the fractional part is discarded (covariance_matrix.impl.h 189). -/
noncomputable def truncate (x : ℝ) : ℤ := if 0 ≤ x then ⌊x⌋ else ⌈x⌉

/-- Members `n_samples`, `current_mean` and the entry of `current_covariance_matrix` (covariance_matrix.impl.h 104-127). -/
structure IntCov where
  mean : IntMean
  C : ℤ

/-- The values of type `int` (the products and conversions in covariance_matrix.impl.h 189). -/
def isInt (z : ℤ) : Prop := -2 ^ 31 ≤ z ∧ z < 2 ^ 31

open Classical in
/-- `consume`, covariance_matrix.impl.h 155-197.  `G`: what the memory of the matrix contains after `resize` (line 172).  Signed overflow (of `delta`, of the product, of the mean, of the conversion to `int`) is undefined
behaviour.  Lines 192-195 update the mean like MeanValue. -/
noncomputable def IntCov.consume (fl : ℝ → ℝ) (G : ℤ) (s : IntCov) (sample : BitVec 32) : Except Fault IntCov :=
  if s.mean.n = 0 then .ok ⟨⟨1, sample⟩, G⟩
  else
    let n := s.mean.n + 1
    if n = 0 then .error .ub else
    if BitVec.ssubOverflow sample s.mean.mean then .error .ub else
    let delta := (sample - s.mean.mean).toInt
    if ¬ isInt (delta * delta) then .error .ub else
    let update := fl (fl (((delta * delta : ℤ) : ℝ) / fl n.toNat) - fl ((s.C : ℝ) / fl (fl n.toNat - 1)))
    let C := truncate (fl (s.C + update))
    if ¬ isInt C then .error .ub else
    (s.mean.consume sample).map (fun m => ⟨m, C⟩)

/-- The object after consuming `xs` (constructor covariance_matrix.impl.h 132-141; `M`, `C₀`: uninitialised memory). -/
noncomputable def intCovAfter (fl : ℝ → ℝ) (M : BitVec 32) (C₀ G : ℤ) (xs : List (BitVec 32)) : Except Fault IntCov :=
  xs.foldlM (IntCov.consume fl G) ⟨⟨0, M⟩, C₀⟩

end SampleFlow
