import Verif.Model.EndToEnd
import Verif.Model.Moments
import Verif.Model.SimpleConsumers

/-!
# User functions that look at consumers while the sampler runs

As in tests/adaptive_mh_01.cc: the proposal function calls `get()` of consumers connected to the sampler (here: the number of samples and the covariance matrix).
-/

namespace SampleFlow

variable {U C S D E : Type}

/-- As `attach`, but the user's functions (and the other consumers) may look at the consumer's current state.  Models tests/adaptive_mh_01.cc 108-117 (the lambda function given to `sample` captures the consumers) together with
the synchronous slot, consumer.impl.h 384-397: `consume` has returned before the signal returns.  The consumers connected later (`env`, `issue`) see the new state. -/
def attachSeen (env : C → World U S D E) (step : C → S × Aux D → C) : World (U × C) S D E where
  logLikelihood := fun x w => (((env w.2).logLikelihood x w.1).1, (((env w.2).logLikelihood x w.1).2, w.2))
  propose := fun x l w => (((env w.2).propose x l w.1).1, (((env w.2).propose x l w.1).2, w.2))
  crossover := fun x a b w => (((env w.2).crossover x a b w.1).1, (((env w.2).crossover x a b w.1).2, w.2))
  uniform := fun w => (((env w.2).uniform w.1).1, (((env w.2).uniform w.1).2, w.2))
  uniformInt := fun k w => (((env w.2).uniformInt k w.1).1, (((env w.2).uniformInt k w.1).2, w.2))
  issue := fun x aux w => (((env (step w.2 (x, aux))).issue x aux w.1).1, (((env (step w.2 (x, aux))).issue x aux w.1).2, step w.2 (x, aux)))
  flush := fun w => ((env w.2).flush w.1, w.2)

/-- The consumers of tests/adaptive_mh_01.cc: `CountSamples` and `CovarianceMatrix`. -/
structure AdaptiveState (K ι : Type) where
  count : UInt64
  cov : CovState K ι

/-- Nothing has been consumed; `M` and `C₀` are what is in memory (see Model/Moments.lean).
Models the captured variables in tests/adaptive_mh_01.cc 96-105 before the first call and the construction of the consumer, covariance_matrix.impl.h 133-141. -/
def AdaptiveState.init {K ι : Type} (M : ι → K) (C₀ : ι → ι → K) : AdaptiveState K ι := ⟨0, CovState.init M C₀⟩

/-- Both consumers consume a sample (tests/adaptive_mh_01.cc, connections in `main`). -/
def AdaptiveState.consume {K ι D : Type} [Field K] [Star K] (G : ι → ι → K) (s : AdaptiveState K ι) (m : (ι → K) × Aux D) : AdaptiveState K ι :=
  ⟨countConsume s.count m.1, CovState.consume G s.cov m.1⟩

/-- The lambda function of tests/adaptive_mh_01.cc: `perturb` gets `counter.get()` and `covariance_matrix.get()`; everything else is as in `rest`. -/
def adaptiveWorld {K ι : Type} (perturb : Nat → (ι → ι → K) → (ι → K) → U → Except E ((ι → K) × D) × U) (rest : World U (ι → K) D E)
    (s : AdaptiveState K ι) : World U (ι → K) D E :=
  { rest with propose := fun x _ u => perturb s.count.toNat s.cov.get x u }

end SampleFlow
