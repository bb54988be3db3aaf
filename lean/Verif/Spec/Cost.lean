import Verif.Spec.Producers

/-! # How often the user's functions are called -/

namespace SampleFlow.Spec

open SampleFlow

variable {S D : Type}

/-- The samples whose log likelihood was evaluated (successfully), in order. -/
def evaluatedOf (tr : List (Event S D)) : List S :=
  tr.filterMap (fun e => match e with | .logLikelihood x _ => some x | _ => none)

/-- The samples that the proposal function returned, in order. -/
def trialsOf (tr : List (Event S D)) : List S :=
  tr.filterMap (fun e => match e with | .proposed _ _ y _ => some y | _ => none)

end SampleFlow.Spec
