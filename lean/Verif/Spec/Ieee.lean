import Verif.Spec.Rounding

/-!
# Specification: floating point formats with gradual underflow (C89)

Numbers of at least the size `2^(e+p-1)` are rounded to `p` significant bits, smaller ones to integer multiples of `2^e`.  For IEEE double precision, `p = 53` and `e = -1074`.
-/

namespace SampleFlow.Spec

/-- A number `x ≥ 0` rounded to the nearest floating point number (ties to even). -/
noncomputable def gradualPos (p : Nat) (e : ℤ) (x : ℝ) : ℝ := if (2:ℝ) ^ (e + p - 1) ≤ x then roundPos p x else roundInt (x / 2 ^ e) * 2 ^ e

/-- A number rounded to the nearest floating point number (exponents not limited above). -/
noncomputable def gradual (p : Nat) (e : ℤ) (x : ℝ) : ℝ := if 0 ≤ x then gradualPos p e x else -gradualPos p e (-x)

/-- Rounding to double precision. -/
noncomputable def double : ℝ → ℝ := gradual 53 (-1074)

/-- `std::numeric_limits<double>::max()` -/
noncomputable def maxDouble : ℝ := (2 ^ 53 - 1) * 2 ^ 971

/-- What the proofs use about a format: machine numbers are not changed by rounding, rounding is monotone and treats negative numbers like positive ones, 1 and 2 are machine numbers; the relative error is at most `u` unless
the exact result is smaller than `tiny`; sums of machine numbers that are not larger than `2 tiny` are exact. -/
structure Format (u tiny : ℝ) (fl : ℝ → ℝ) : Prop where
  idempotent : ∀ x, fl (fl x) = fl x
  mono : ∀ x y, x ≤ y → fl x ≤ fl y
  odd : ∀ x, fl (-x) = - fl x
  one : fl 1 = 1
  two : fl 2 = 2
  error : ∀ x, tiny ≤ |x| → |fl x - x| ≤ u * |x|
  small : ∀ x y, Machine fl x → Machine fl y → |x + y| ≤ 2 * tiny → fl (x + y) = x + y

end SampleFlow.Spec
