import Verif.Model.DifferentialEvaluation
import Verif.Model.Moments
import Verif.Model.SimpleConsumers
import Verif.Model.Filters

/-!
# A producer with a synchronous consumer connected to it
-/

namespace SampleFlow

variable {U C S D E : Type}

/-- The world of a producer to which a consumer in synchronous mode is connected before all other
consumers: `issue_sample` (include/sampleflow/producer.impl.h 129) first calls the consumer's `consume` in the
producer's thread (consumer.impl.h 384-397), then the other slots, which may throw.  `step` is the effect of `consume` on the
consumer's state. -/
def attach (env : World U S D E) (step : C → S × Aux D → C) : World (U × C) S D E where
  logLikelihood := fun x w => ((env.logLikelihood x w.1).1, ((env.logLikelihood x w.1).2, w.2))
  propose := fun x l w => ((env.propose x l w.1).1, ((env.propose x l w.1).2, w.2))
  crossover := fun x a b w => ((env.crossover x a b w.1).1, ((env.crossover x a b w.1).2, w.2))
  uniform := fun w => ((env.uniform w.1).1, ((env.uniform w.1).2, w.2))
  uniformInt := fun k w => ((env.uniformInt k w.1).1, ((env.uniformInt k w.1).2, w.2))
  issue := fun x aux w => ((env.issue x aux w.1).1, ((env.issue x aux w.1).2, step w.2 (x, aux)))
  flush := fun w => (env.flush w.1, w.2)

/-- A consumer connected to a filter: `Filter::consume` (include/sampleflow/filter.impl.h 170-188) calls `filter` and hands on what it
returns.  The state consists of the filter's, or the fault that stopped the program, and the consumer's. -/
def behindFilter {σ C X Y : Type} (F : FilterObj σ X Y) (step : C → Y → C) (s : Except Fault σ × C) (m : X) : Except Fault σ × C :=
  match s.1 with
  | .error e => (.error e, s.2)
  | .ok st =>
    match F.filter st m with
    | .error e => (.error e, s.2)
    | .ok (none, st') => (.ok st', s.2)
    | .ok (some y, st') => (.ok st', step s.2 y)

/-- The entry "relative log likelihood" of auxiliary data as `MaximumProbabilitySample` sees it
(maximum_probability_sample.impl.h 157-167). -/
def llEntry (aux : Aux D) : LLEntry D :=
  match aux.lookup "relative log likelihood" with
  | none => .absent
  | some (.real d) => .val d
  | some _ => .wrongType

/-- The states of four consumers connected to the same producer.
(count_samples.impl.h 119-139, mean_value.impl.h 173-213, acceptance_ratio.impl.h 190-241, maximum_probability_sample.impl.h 151-194.) -/
structure Diagnostics (K ι D : Type) where
  count : UInt64
  mean : MeanState (ι → K)
  ratio : ARState (ι → K)
  best : Except Fault (MaxProbState (ι → K) D)

/-- CountSamples, MeanValue, AcceptanceRatio and MaximumProbabilitySample consume a sample.
(count_samples.impl.h 119-127, mean_value.impl.h 173-200, acceptance_ratio.impl.h 190-224, maximum_probability_sample.impl.h 151-183.) -/
def Diagnostics.consume {K ι D : Type} [Field K] (eq : (ι → K) → (ι → K) → Bool) (isLowest : D → Bool)
    (gt : D → D → Bool) (s : Diagnostics K ι D) (m : (ι → K) × Aux D) : Diagnostics K ι D where
  count := countConsume s.count m.1
  mean := s.mean.consume m.1
  ratio := s.ratio.consume eq m.1
  best := s.best.bind (fun b => b.consume isLowest gt (m.1, llEntry m.2))

/-- The four consumers after construction; `G`, `S₀` are unspecified or default values.
(The constructors of count_samples.impl.h, mean_value.impl.h, acceptance_ratio.impl.h, maximum_probability_sample.impl.h; see their models, e.g. mean_value.impl.h 153-159.) -/
def Diagnostics.init {K ι D : Type} (G S₀ : ι → K) (lowest : D) : Diagnostics K ι D where
  count := 0
  mean := MeanState.init G
  ratio := ⟨0, 0, G⟩
  best := .ok ⟨S₀, lowest⟩

end SampleFlow
