import Verif.Model.ProducerBase

/-!
# What user functions see of a consumer (C71)
-/

namespace SampleFlow.Spec

variable {U C S D E : Type}

/-- In the run with the given events, in which the consumer is in state `c` at the beginning, each call of a function of the user was a call of this function with the consumer in the state it has after
consuming exactly the samples issued before the call.  (`u` is the state of everything else outside of the sampler at the time of the call.) -/
def SeesIssued (env : C → World U S D E) (step : C → S × Aux D → C) : C → List (Event S D) → Prop
  | _, [] => True
  | c, .issued x aux :: tr => SeesIssued env step (step c (x, aux)) tr
  | c, .logLikelihood x d :: tr => (∃ u u', (env c).logLikelihood x u = (.ok d, u')) ∧ SeesIssued env step c tr
  | c, .proposed x l y r :: tr => (∃ u u', (env c).propose x l u = (.ok (y, r), u')) ∧ SeesIssued env step c tr
  | c, .crossed x a b y :: tr => (∃ u u', (env c).crossover x a b u = (.ok y, u')) ∧ SeesIssued env step c tr
  | c, .drew _ :: tr => SeesIssued env step c tr
  | c, .drewInt _ _ :: tr => SeesIssued env step c tr
  | c, .flushed :: tr => SeesIssued env step c tr

end SampleFlow.Spec
