import Verif.Model.Ieee
import Verif.Model.Producers

/-!
# The operations of the samplers in floating point arithmetic with rounding, underflow and overflow

Model/Producers.lean is parameterised over the operations on doubles.  With `ieeeOps` it describes what `DelayedRejectionMetropolisHastings` computes (delayed_rejection_mh.impl.h 156-189, 254-257) in IEEE 754 arithmetic; `std::exp` and `std::log`
return some floating point numbers (`fexp`, `flog`, about which the theorems make assumptions), `-inf` and `+inf` are treated as in Model/IdealDouble.lean.
-/

namespace SampleFlow

/-- `std::exp` (delayed_rejection_mh.impl.h 169). -/
noncomputable def ieeeExp (fl : ℝ → ℝ) (Ω : ℝ) (fexp : ℝ → ℝ) : XR → XR
  | .nan => .nan
  | .negInf => .fin 0
  | .posInf => .posInf
  | .fin r => roundResult fl Ω (.fin (fexp r))

/-- `std::log` (metropolis_hastings.impl.h 668; not used by the delayed rejection sampler). -/
noncomputable def ieeeLog (fl : ℝ → ℝ) (Ω : ℝ) (flog : ℝ → ℝ) : XR → XR
  | .nan => .nan
  | .negInf => .nan
  | .posInf => .posInf
  | .fin r => if r < 0 then .nan else if r = 0 then .negInf else roundResult fl Ω (.fin (flog r))

/-- The operations on doubles (delayed_rejection_mh.impl.h 156-189, 254-257): exact operation, rounding, overflow. -/
@[reducible] noncomputable def ieeeOps (fl : ℝ → ℝ) (Ω : ℝ) (fexp flog : ℝ → ℝ) : FloatOps XR where
  sub := fun a b => roundResult fl Ω (a.add b.neg)
  mul := fun a b => roundResult fl Ω (a.mul b)
  div := fun a b => roundResult fl Ω (a.div b)
  exp := ieeeExp fl Ω fexp
  log := ieeeLog fl Ω flog
  one := .fin 1
  negMax := .fin (-Ω)
  negInf := .negInf
  eq := XR.eqb
  lt := XR.ltb
  le := XR.leb

end SampleFlow
