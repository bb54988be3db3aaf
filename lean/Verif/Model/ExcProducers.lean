import Verif.Model.DifferentialEvaluation
import Verif.Model.ExcNetwork

/-!
# A producer with a network of filters and consumers, whose members may throw
-/

universe u

namespace SampleFlow.Exc

variable {U : Type u} {S D E X : Type}

/-- The world of a producer to which the network `net` of Model/ExcNetwork.lean is connected: `issue_sample`
(include/sampleflow/producer.impl.h 129) sends the sample and its auxiliary data into the network, `flush_consumers` (177) flushes it.  `inj`
says which exception of the producer's world an exception of the network is.  The functions of the user and the random numbers are those of
`env`; they do not touch the network. -/
def attachNet (inj : E → X) (env : World U S D X) : World (U × List (Node (S × Aux D) E)) S D X where
  logLikelihood := fun x w => ((env.logLikelihood x w.1).1, ((env.logLikelihood x w.1).2, w.2))
  propose := fun x l w => ((env.propose x l w.1).1, ((env.propose x l w.1).2, w.2))
  crossover := fun x a b w => ((env.crossover x a b w.1).1, ((env.crossover x a b w.1).2, w.2))
  uniform := fun w => ((env.uniform w.1).1, ((env.uniform w.1).2, w.2))
  uniformInt := fun k w => ((env.uniformInt k w.1).1, ((env.uniformInt k w.1).2, w.2))
  issue := fun x aux w =>
    match issueSample w.2 (x, aux) with
    | (none, net') => (.ok (), (w.1, net'))
    | (some e, net') => (.error (inj e), (w.1, net'))
  flush := fun w => (w.1, flushConsumers w.2)

end SampleFlow.Exc
