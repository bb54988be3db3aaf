import Verif.Proofs.GeneralChain
import Mathlib.MeasureTheory.Measure.Lebesgue.Basic
import Mathlib.MeasureTheory.Function.SpecialFunctions.Basic
import Mathlib.MeasureTheory.Constructions.BorelSpace.Order

/-!
# C42 on general state spaces

The theorems in Props/MarkovChain.lean are about finite sets of states.  Here the samples are in an arbitrary measurable space, for
example ℝⁿ, with densities with respect to a measure `μ`.
-/

namespace SampleFlow

open Spec MeasureTheory
open scoped ENNReal

variable {S : Type} [MeasurableSpace S]

/-- **C42** (detailed balance on general state spaces): with the current sample distributed with the density `π`, it is as likely that
it is in `A` and the next one in `B` as the other way round. -/
theorem C42_general_detailed_balance (μ : Measure S) [SFinite μ] (max : ℝ) (π : S → ℝ) (q : S → S → ℝ) (h : Densities μ max π q)
    (A B : Set S) (hA : MeasurableSet A) (hB : MeasurableSet B) :
    ∫⁻ x in A, ENNReal.ofReal (π x) * probNext μ max π q x B ∂μ = ∫⁻ x in B, ENNReal.ofReal (π x) * probNext μ max π q x A ∂μ := by
  have key := expectNext_selfAdjoint μ max h.nonneg h.proposals_nonneg h.measurable h.proposals_measurable h.no_marker
    (B.indicator 1) (A.indicator 1) (measurable_one.indicator hB) (measurable_one.indicator hA)
  have conv : ∀ (C D : Set S), MeasurableSet C → ∫⁻ x in C, ENNReal.ofReal (π x) * probNext μ max π q x D ∂μ =
      ∫⁻ x, C.indicator 1 x * (ENNReal.ofReal (π x) * expectNext μ max π q (D.indicator 1) x) ∂μ := by
    intro C D hC
    rw [← lintegral_indicator hC]
    refine lintegral_congr (fun x => ?_)
    unfold probNext
    by_cases hx : x ∈ C <;> simp [hx]
  rw [conv A B hA, conv B A hB]
  exact key

/-- **C42** (stationarity on general state spaces): if the current sample has the (unnormalised) density `π`, so does the next one. -/
theorem C42_general_stationary (μ : Measure S) [SFinite μ] (max : ℝ) (π : S → ℝ) (q : S → S → ℝ) (h : Densities μ max π q)
    (B : Set S) (hB : MeasurableSet B) :
    ∫⁻ x, ENNReal.ofReal (π x) * probNext μ max π q x B ∂μ = ∫⁻ x in B, ENNReal.ofReal (π x) ∂μ := by
  have := C42_general_detailed_balance μ max π q h Set.univ B MeasurableSet.univ hB
  rw [setLIntegral_univ] at this
  rw [this]
  refine lintegral_congr (fun x => ?_)
  unfold probNext
  rw [Set.indicator_univ, show (1 : S → ℝ≥0∞) = fun _ => 1 from rfl, expectNext_one μ max h.proposals_total, mul_one]

/-- **C42** (stationarity over any number of steps): if the chain is started with the density `π`, then after any number of steps
the expected value of every function of the sample is the one under `π`. -/
theorem C42_general_stationary_steps (μ : Measure S) [SFinite μ] (max : ℝ) (π : S → ℝ) (q : S → S → ℝ) (h : Densities μ max π q)
    (n : Nat) (f : S → ℝ≥0∞) (hf : Measurable f) :
    ∫⁻ x, ENNReal.ofReal (π x) * expectAfter μ max π q n f x ∂μ = ∫⁻ x, ENNReal.ofReal (π x) * f x ∂μ := by
  obtain ⟨f', -, h2, h3⟩ := expectAfter_integral μ max h.nonneg h.proposals_nonneg h.proposals_total h.measurable
    h.proposals_measurable h.no_marker f hf n
  rw [← h3]
  refine lintegral_congr_ae (h.no_marker.mono (fun x hx => ?_))
  simp only
  by_cases h0 : π x = 0
  · simp [h0]
  · rw [h2 x h0 hx]

/-- **C42**: from every starting point the probabilities of one step sum to one. -/
theorem C42_general_total (μ : Measure S) (max : ℝ) (π : S → ℝ) (q : S → S → ℝ)
    (hq1 : ∀ x, ∫⁻ z, ENNReal.ofReal (q x z) ∂μ = 1) (x : S) : probNext μ max π q x Set.univ = 1 := by
  unfold probNext
  rw [Set.indicator_univ]
  exact expectNext_one μ max hq1 x

/-! ### example: the real line, density `exp(-|x|)`, proposals uniformly distributed at distance at most 1/2 -/

theorem densities_laplace (max : ℝ) : Densities (volume : Measure ℝ) max (fun x => Real.exp (-|x|))
    (fun x z => if |z - x| ≤ 1/2 then 1 else 0) where
  nonneg := fun x => (Real.exp_pos _).le
  proposals_nonneg := fun x y => by split <;> norm_num
  measurable := Real.measurable_exp.comp (continuous_abs.measurable.neg)
  proposals_measurable := by
    refine Measurable.ite ?_ measurable_const measurable_const
    exact measurableSet_le (continuous_abs.measurable.comp (measurable_snd.sub measurable_fst)) measurable_const
  proposals_total := by
    intro x
    have : (fun z : ℝ => ENNReal.ofReal (if |z - x| ≤ 1/2 then 1 else 0)) = (Set.Icc (x - 1/2) (x + 1/2)).indicator 1 := by
      ext z
      by_cases hz : |z - x| ≤ 1/2
      · have : z ∈ Set.Icc (x - 1/2) (x + 1/2) := by rw [abs_le] at hz; constructor <;> linarith [hz.1, hz.2]
        simp only [if_pos hz, ENNReal.ofReal_one, Set.indicator_of_mem this, Pi.one_apply]
      · have : z ∉ Set.Icc (x - 1/2) (x + 1/2) := by
          intro h; apply hz; rw [abs_le]; constructor <;> linarith [h.1, h.2]
        simp only [if_neg hz, ENNReal.ofReal_zero, Set.indicator_of_notMem this]
    rw [this, lintegral_indicator_one measurableSet_Icc, Real.volume_Icc]
    norm_num
  no_marker := by
    have : ({max, -max} : Set ℝ).Finite := by simp
    refine (measure_eq_zero_iff_ae_notMem.mp (this.measure_zero volume)).mono (fun x hx => ?_)
    intro h
    rw [Real.log_exp] at h
    apply hx
    have h' : |x| = max := by linarith
    rcases abs_choice x with h'' | h''
    · left; linarith
    · right; show x = -max; linarith

example (max : ℝ) (B : Set ℝ) (hB : MeasurableSet B) :
    ∫⁻ x : ℝ, ENNReal.ofReal (Real.exp (-|x|)) * probNext volume max (fun x => Real.exp (-|x|))
      (fun x z => if |z - x| ≤ 1/2 then 1 else 0) x B = ∫⁻ x in B, ENNReal.ofReal (Real.exp (-|x|)) :=
  C42_general_stationary volume max _ _ (densities_laplace max) B hB

/-! ### Instances: concrete cases that meet the hypotheses of the theorems above -/

example (max : ℝ) := C42_general_detailed_balance volume max _ _ (densities_laplace max) (Set.Icc 0 1) (Set.Icc 3 4) measurableSet_Icc measurableSet_Icc
example (max : ℝ) := C42_general_stationary_steps volume max _ _ (densities_laplace max) 7 (fun x => ENNReal.ofReal (x * x)) (by fun_prop)
example (max : ℝ) := C42_general_total volume max (fun x => Real.exp (-|x|)) (fun x z => if |z - x| ≤ 1/2 then 1 else 0) (densities_laplace max).proposals_total 3

end SampleFlow
