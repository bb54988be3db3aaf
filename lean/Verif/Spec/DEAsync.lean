import Verif.Model.ProducerBase

/-!
# Specification vocabulary for asynchronous execution
-/

namespace SampleFlow.Spec

open SampleFlow

variable {S D : Type}

/-- What the main thread does apart from calling the likelihood function: proposals, crossovers, random numbers,
samples and flushes, in order. -/
def withoutLikelihoods (tr : List (Event S D)) : List (Event S D) :=
  tr.filter (fun e => match e with | .logLikelihood _ _ => false | _ => true)

end SampleFlow.Spec
