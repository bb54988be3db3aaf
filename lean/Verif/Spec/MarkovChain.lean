import Verif.Model.Producers
import Verif.Model.IdealDouble
import Mathlib.MeasureTheory.Measure.Lebesgue.Basic
import Mathlib.MeasureTheory.Measure.Prod

/-!
# Specification: the Markov chain on a finite set defined by one step of the Metropolis-Hastings sampler

`sample` with one step, run in a world in which the proposal is `z` and the random number generator returns the
given numbers, is a deterministic program.  The transition probability is the probability, over the proposal
distribution `q x` and independent uniformly distributed random numbers in [0,1), that the program ends in `y`.
-/

namespace SampleFlow.Spec

open SampleFlow MeasureTheory

/-- A world in which the proposal function returns `z` and `ratio`, the log likelihood is `L`, the random
number generator returns the numbers in the list (0 when it is exhausted, which does not happen below), and the
consumers do nothing. -/
noncomputable def fixedWorld {S : Type} (L : S → XR) (z : S) (ratio : XR) : World (List ℝ) S XR Empty where
  logLikelihood := fun x w => (.ok (L x), w)
  propose := fun _ _ w => (.ok (z, ratio), w)
  crossover := fun x _ _ w => (.ok x, w)
  uniform := fun w => (.fin (w.headD 0), w.tail)
  uniformInt := fun _ w => (0, w)
  issue := fun _ _ w => (.ok (), w)
  flush := fun w => w

/-- The unit square: pairs of random numbers. -/
def unitSquare : Set (ℝ × ℝ) := Set.Ico 0 1 ×ˢ Set.Ico 0 1

/-- Probability that one step of `MetropolisHastings::sample` started in `x`, with proposal `z`, ends in `y`. -/
noncomputable def stepProbGiven {S : Type} (max : ℝ) (L : S → XR) (ratio : XR) (x z y : S) : ℝ :=
  (volume {u : ℝ × ℝ | u ∈ unitSquare ∧
    (@mhSample (List ℝ) S XR Empty (fixedWorld L z ratio) (idealOps max) x 1 [u.1, u.2]).2.1 = .ok y}).toReal

/-- The log likelihood function for a target density `π`. -/
noncomputable def logOf (p : ℝ) : XR := if p = 0 then .negInf else .fin (Real.log p)

/-- Transition probability from `x` to `y` for the target `π` and the proposal probabilities `q`: the
proposal function returns `z` with probability `q x z` together with the ratio `q x z / q z x`, as
documented. -/
noncomputable def transition {S : Type} [Fintype S] (max : ℝ) (π : S → ℝ) (q : S → S → ℝ) (x y : S) : ℝ :=
  ∑ z, q x z * stepProbGiven max (fun s => logOf (π s)) (XR.div (.fin (q x z)) (.fin (q z x))) x z y

end SampleFlow.Spec
