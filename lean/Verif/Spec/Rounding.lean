import Mathlib.Data.Real.Basic
import Mathlib.Algebra.Order.AbsoluteValue.Basic
import Mathlib.Data.Int.Log
import Mathlib.Data.Real.Archimedean
import Mathlib.Algebra.Order.Floor.Ring

/-!
# Specification: rounding

The standard model of floating point arithmetic without overflow and underflow.
-/

namespace SampleFlow.Spec

/-- `fl` rounds every real number to a machine number: machine numbers are not changed, larger numbers do not get smaller results, negative numbers are
treated like positive ones, and the relative error is at most `u` (`2^-53` for doubles rounded to nearest). -/
structure Rounding (u : ℝ) (fl : ℝ → ℝ) : Prop where
  idempotent : ∀ x, fl (fl x) = fl x
  mono : ∀ x y, x ≤ y → fl x ≤ fl y
  odd : ∀ x, fl (-x) = - fl x
  error : ∀ x, |fl x - x| ≤ u * |x|

/-- a number the machine can represent -/
def Machine (fl : ℝ → ℝ) (x : ℝ) : Prop := fl x = x

/-- The distance of neighbouring numbers with `p` significant bits around `x > 0`. -/
noncomputable def ulp (p : Nat) (x : ℝ) : ℝ := 2 ^ (Int.log 2 x - p + 1)

/-- The nearest integer; of two equally near ones the even one (the default rounding mode of IEEE 754). -/
noncomputable def roundInt (y : ℝ) : ℤ := if y - ⌊y⌋ < 1 / 2 then ⌊y⌋ else if 1 / 2 < y - ⌊y⌋ then ⌊y⌋ + 1 else if 2 ∣ ⌊y⌋ then ⌊y⌋ else ⌊y⌋ + 1

/-- A positive number rounded to the nearest integer multiple of `ulp`. -/
noncomputable def roundPos (p : Nat) (x : ℝ) : ℝ := roundInt (x / ulp p x) * ulp p x

/-- Rounding to the nearest number with `p` significant bits, ties to even; `p = 53` for doubles, with unlimited exponents. -/
noncomputable def nearest (p : Nat) (x : ℝ) : ℝ := if 0 ≤ x then roundPos p x else -roundPos p (-x)

end SampleFlow.Spec
