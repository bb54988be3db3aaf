import Verif.Model.ProducerBase
import Mathlib.Analysis.SpecialFunctions.Log.Basic

/-!
# Idealised double precision numbers

Real numbers without rounding and overflow, plus infinities and NaN with the rules of IEEE 754.  Zero is
unsigned (`x/0` is `+inf` for `x > 0`, as for `+0.0`).  `max` is the largest finite double, of which only the
negative is used as a marker for "zero probability".
-/

namespace SampleFlow

/-- An idealised double.
(The arithmetic of `double` in metropolis_hastings.impl.h 653-671, delayed_rejection_mh.impl.h 156-189, differential_evaluation_mh.impl.h 262-266.) -/
inductive XR where
  | nan
  | negInf
  | posInf
  | fin (r : ℝ)

namespace XR

open Classical

/-- negation
(The arithmetic of `double` in metropolis_hastings.impl.h 653-671, delayed_rejection_mh.impl.h 156-189, differential_evaluation_mh.impl.h 262-266.) -/
noncomputable def neg : XR → XR
  | nan => nan
  | negInf => posInf
  | posInf => negInf
  | fin r => fin (-r)

/-- addition
(The arithmetic of `double` in metropolis_hastings.impl.h 653-671, delayed_rejection_mh.impl.h 156-189, differential_evaluation_mh.impl.h 262-266.) -/
noncomputable def add : XR → XR → XR
  | nan, _ => nan
  | _, nan => nan
  | posInf, negInf => nan
  | negInf, posInf => nan
  | posInf, _ => posInf
  | _, posInf => posInf
  | negInf, _ => negInf
  | _, negInf => negInf
  | fin a, fin b => fin (a + b)

/-- multiplication of an infinity (`pos`: its sign) by a finite number
(The arithmetic of `double` in metropolis_hastings.impl.h 653-671, delayed_rejection_mh.impl.h 156-189, differential_evaluation_mh.impl.h 262-266.) -/
noncomputable def infTimes (pos : Bool) (r : ℝ) : XR :=
  if r = 0 then nan else if (0 < r) = (pos = true) then posInf else negInf

/-- multiplication
(The arithmetic of `double` in metropolis_hastings.impl.h 653-671, delayed_rejection_mh.impl.h 156-189, differential_evaluation_mh.impl.h 262-266.) -/
noncomputable def mul : XR → XR → XR
  | nan, _ => nan
  | _, nan => nan
  | posInf, posInf => posInf
  | posInf, negInf => negInf
  | negInf, posInf => negInf
  | negInf, negInf => posInf
  | posInf, fin r => infTimes true r
  | negInf, fin r => infTimes false r
  | fin r, posInf => infTimes true r
  | fin r, negInf => infTimes false r
  | fin a, fin b => fin (a * b)

/-- division
(The arithmetic of `double` in metropolis_hastings.impl.h 653-671, delayed_rejection_mh.impl.h 156-189, differential_evaluation_mh.impl.h 262-266.) -/
noncomputable def div : XR → XR → XR
  | nan, _ => nan
  | _, nan => nan
  | fin a, fin b => if b = 0 then (if a = 0 then nan else if 0 < a then posInf else negInf) else fin (a / b)
  | fin _, _ => fin 0
  | posInf, fin b => if 0 ≤ b then posInf else negInf
  | negInf, fin b => if 0 ≤ b then negInf else posInf
  | _, _ => nan

/-- `std::exp`
(The arithmetic of `double` in metropolis_hastings.impl.h 653-671, delayed_rejection_mh.impl.h 156-189, differential_evaluation_mh.impl.h 262-266.) -/
noncomputable def exp : XR → XR
  | nan => nan
  | negInf => fin 0
  | posInf => posInf
  | fin r => fin (Real.exp r)

/-- `std::log`
(The arithmetic of `double` in metropolis_hastings.impl.h 653-671, delayed_rejection_mh.impl.h 156-189, differential_evaluation_mh.impl.h 262-266.) -/
noncomputable def log : XR → XR
  | nan => nan
  | negInf => nan
  | posInf => posInf
  | fin r => if r < 0 then nan else if r = 0 then negInf else fin (Real.log r)

/-- `==`
(The arithmetic of `double` in metropolis_hastings.impl.h 653-671, delayed_rejection_mh.impl.h 156-189, differential_evaluation_mh.impl.h 262-266.) -/
noncomputable def eqb : XR → XR → Bool
  | negInf, negInf => true
  | posInf, posInf => true
  | fin a, fin b => decide (a = b)
  | _, _ => false

/-- `<`: false if an argument is NaN
(The arithmetic of `double` in metropolis_hastings.impl.h 653-671, delayed_rejection_mh.impl.h 156-189, differential_evaluation_mh.impl.h 262-266.) -/
noncomputable def ltb : XR → XR → Bool
  | nan, _ => false
  | _, nan => false
  | fin a, fin b => decide (a < b)
  | negInf, negInf => false
  | negInf, _ => true
  | _, negInf => false
  | posInf, _ => false
  | fin _, posInf => true

/-- `<=`
(The arithmetic of `double` in metropolis_hastings.impl.h 653-671, delayed_rejection_mh.impl.h 156-189, differential_evaluation_mh.impl.h 262-266.) -/
noncomputable def leb (a b : XR) : Bool := ltb a b || eqb a b

end XR

/-- The operations of the samplers on idealised doubles; `max` = `std::numeric_limits<double>::max()`.
(The arithmetic of `double` in metropolis_hastings.impl.h 653-671, delayed_rejection_mh.impl.h 156-189, differential_evaluation_mh.impl.h 262-266.) -/
@[reducible] noncomputable def idealOps (max : ℝ) : FloatOps XR where
  sub := fun a b => a.add b.neg
  mul := XR.mul
  div := XR.div
  exp := XR.exp
  log := XR.log
  one := .fin 1
  negMax := .fin (-max)
  negInf := .negInf
  eq := XR.eqb
  lt := XR.ltb
  le := XR.leb

end SampleFlow
