import Verif.Spec.MarkovChain
import Mathlib.MeasureTheory.Integral.Lebesgue.Basic

/-!
# Specification: one step of the Metropolis-Hastings sampler on a general state space

The samples are elements of a measurable space with a reference measure `μ` (the Lebesgue measure on ℝⁿ, the counting measure on a
countable set, ...).  The target distribution has the density `π` with respect to `μ`, not necessarily normalised, and the proposal
distribution at `x` has the density `q x`.
-/

namespace SampleFlow.Spec

open SampleFlow MeasureTheory
open scoped ENNReal

/-- The sample with which a run that does not throw ends. -/
def resultOf {S : Type} : Except Empty S → S
  | .ok y => y

/-- The expected value of `f` at the sample after one step of `MetropolisHastings::sample` started in `x`: the proposal `z` is distributed with
the density `q x`, the proposal function returns the ratio `q x z / q z x` as documented, and the random numbers are
independent and uniformly distributed in [0,1). -/
noncomputable def expectNext {S : Type} [MeasurableSpace S] (μ : Measure S) (max : ℝ) (π : S → ℝ) (q : S → S → ℝ) (f : S → ℝ≥0∞)
    (x : S) : ℝ≥0∞ :=
  ∫⁻ z, ENNReal.ofReal (q x z) * (∫⁻ u in unitSquare,
    f (resultOf (@mhSample (List ℝ) S XR Empty (fixedWorld (fun s => logOf (π s)) z (XR.div (.fin (q x z)) (.fin (q z x))))
      (idealOps max) x 1 [u.1, u.2]).2.1)) ∂μ

/-- The probability that the sample after one step is in `B`. -/
noncomputable def probNext {S : Type} [MeasurableSpace S] (μ : Measure S) (max : ℝ) (π : S → ℝ) (q : S → S → ℝ) (x : S) (B : Set S) : ℝ≥0∞ :=
  expectNext μ max π q (B.indicator 1) x

/-- The expected value of `f` at the sample after `n` steps, each with new random numbers. -/
noncomputable def expectAfter {S : Type} [MeasurableSpace S] (μ : Measure S) (max : ℝ) (π : S → ℝ) (q : S → S → ℝ) :
    Nat → (S → ℝ≥0∞) → S → ℝ≥0∞
  | 0, f => f
  | n + 1, f => expectNext μ max π q (expectAfter μ max π q n f)

/-- What is assumed about the densities: `π` is a target density, not necessarily normalised; `q x` is the density of the proposals from `x`; log
likelihoods are (almost) never exactly the number `-max`, which the sampler takes for zero probability. -/
structure Densities {S : Type} [MeasurableSpace S] (μ : Measure S) (max : ℝ) (π : S → ℝ) (q : S → S → ℝ) : Prop where
  nonneg : ∀ x, 0 ≤ π x
  proposals_nonneg : ∀ x y, 0 ≤ q x y
  measurable : Measurable π
  proposals_measurable : Measurable (Function.uncurry q)
  proposals_total : ∀ x, ∫⁻ z, ENNReal.ofReal (q x z) ∂μ = 1
  no_marker : ∀ᵐ x ∂μ, Real.log (π x) ≠ -max

end SampleFlow.Spec
