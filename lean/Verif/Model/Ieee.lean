import Verif.Model.Rounding
import Verif.Model.IdealDouble

/-!
# The arithmetic of floating point numbers with limited exponents: rounding, gradual underflow, overflow, infinities and NaN

IEEE 754 defines each operation as the exact operation, followed by rounding; results too large in absolute value become infinities.  Zero is unsigned (Model/IdealDouble.lean).  Model/Rounding.lean is parameterised over
the arithmetic: with `ieee` below it describes what `MeanValue<double>::consume` and `CovarianceMatrix<double>::consume` compute (mean_value.impl.h 173-200, covariance_matrix.impl.h 155-197).
-/

namespace SampleFlow

/-- Rounding of an exact result: `fl` rounds, `Ω` is the largest finite number.
(The arithmetic of `double` in mean_value.impl.h 173-200, covariance_matrix.impl.h 155-197.) -/
noncomputable def roundResult (fl : ℝ → ℝ) (Ω : ℝ) : XR → XR
  | .fin x => if Ω < fl x then .posInf else if fl x < -Ω then .negInf else .fin (fl x)
  | .posInf => .posInf
  | .negInf => .negInf
  | .nan => .nan

/-- The operations on floating point numbers.
(The arithmetic of `double` in mean_value.impl.h 173-200, covariance_matrix.impl.h 155-197.) -/
@[reducible] noncomputable def ieee (fl : ℝ → ℝ) (Ω : ℝ) : Arith XR where
  add := fun a b => roundResult fl Ω (a.add b)
  sub := fun a b => roundResult fl Ω (a.add b.neg)
  mul := fun a b => roundResult fl Ω (a.mul b)
  div := fun a b => roundResult fl Ω (a.div b)
  ofNat := fun n => roundResult fl Ω (.fin n)
  conj := id

end SampleFlow
