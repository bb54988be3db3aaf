import Verif.Spec.GeneralChain
import Verif.Spec.LargeNumbers

/-!
# Specification: the random variables observed in a run of the Metropolis-Hastings sampler on a general sample space (C73)

As Spec/LargeNumbers.lean, but samples are elements of a measurable space with a measure `μ` (for example ℝⁿ with the Lebesgue measure), `π` is the density of the target with respect to `μ` and `q x`
the density of the proposals.
-/

namespace SampleFlow.Spec

open SampleFlow MeasureTheory
open scoped ENNReal

section
variable {S C : Type} [MeasurableSpace S] (μ : Measure S) (max : ℝ) (π : S → ℝ) (q : S → S → ℝ) (step : C → S × Aux XR → C) (c : C) (start : S)

/-- The expected value of `g ≥ 0`, a function of the script, over the next `n` steps, given the decisions made so far: the next proposal has the density `q x` where `x` is the current sample, and the
random numbers are independent and uniformly distributed in [0,1). -/
noncomputable def meanGiven (g : List (Chance S) → ℝ≥0∞) : Nat → List (Chance S) → ℝ≥0∞
  | 0, past => g past
  | n + 1, past => ∫⁻ z, ENNReal.ofReal (q (currentSample max π q step c start past) z) *
      (∫⁻ u in unitSquare, meanGiven g n (past ++ [(z, u)])) ∂μ

/-- The expected value of `g ≥ 0`, a function of the script of `n` steps. -/
noncomputable def meanOf (n : Nat) (g : List (Chance S) → ℝ≥0∞) : ℝ≥0∞ := meanGiven μ max π q step c start g n []

open Classical in
/-- The probability of an event in the first `n` steps. -/
noncomputable def probOf (n : Nat) (A : List (Chance S) → Prop) : ℝ≥0∞ :=
  meanOf μ max π q step c start n (fun script => if A script then 1 else 0)

/-- The probability of `B` under the target distribution. -/
noncomputable def targetProb (B : Set S) : ℝ≥0∞ := (∫⁻ x in B, ENNReal.ofReal (π x) ∂μ) / ∫⁻ x, ENNReal.ofReal (π x) ∂μ

/-- The expected value of `f` under the target distribution. -/
noncomputable def targetExpectation (f : S → ℝ) : ℝ := (∫ x, π x * f x ∂μ) / ∫ x, π x ∂μ

/-- The covariance of `f` and `g` under the target distribution. -/
noncomputable def targetCov (f g : S → ℝ) : ℝ :=
  targetExpectation μ π (fun x => (f x - targetExpectation μ π f) * (g x - targetExpectation μ π g))

/-- What is assumed about target and proposals: see `Densities`; moreover the target density can be normalised. -/
structure GeneralTarget : Prop extends Densities μ max π q where
  integrable : Integrable π μ
  nonzero : 0 < ∫ x, π x ∂μ

/-- A sample from which the chain may start: its probability density is not zero, and its log likelihood is not the number that the sampler takes for zero probability. -/
def GoodStart (x : S) : Prop := 0 < π x ∧ Real.log (π x) ≠ -max

/-- From wherever the chain is, the distribution of the sample after `k` steps has a part of weight `ε` that is the target distribution.  (`expectAfter` is the expected value after `k` steps of the
sampler, Spec/GeneralChain.lean.) -/
def Forgets (k : Nat) (ε : ℝ) : Prop :=
  ∀ x, GoodStart max π x → ∀ B, MeasurableSet B → ENNReal.ofReal ε * targetProb μ π B ≤ expectAfter μ max π q k (B.indicator 1) x

end

end SampleFlow.Spec
