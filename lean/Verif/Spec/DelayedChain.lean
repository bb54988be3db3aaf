import Verif.Spec.MarkovChain

/-!
# Specification: the Markov chain on a finite set defined by one step of the delayed rejection sampler with one
delay
-/

namespace SampleFlow.Spec

open SampleFlow MeasureTheory

/-- A world in which the proposal function returns `y1` and, if that has been rejected, `y2`, with ratio 1; the
log likelihood is `L`, the random number generator returns the numbers in the list, and the consumers do
nothing. -/
noncomputable def twoStageWorld {S : Type} (L : S → XR) (y1 y2 : S) : World (List ℝ) S XR (Stop Empty) where
  logLikelihood := fun x w => (.ok (L x), w)
  propose := fun _ rejected w => (.ok (if rejected.isEmpty then y1 else y2, .fin 1), w)
  crossover := fun x _ _ w => (.ok x, w)
  uniform := fun w => (.fin (w.headD 0), w.tail)
  uniformInt := fun _ w => (0, w)
  issue := fun _ _ w => (.ok (), w)
  flush := fun w => w

/-- Probability that one step of the delayed rejection sampler with `max_delays = 1`, started in `x`, with
proposals `y1` and `y2`, ends in `y`.  (The out-of-bounds read, whose result is not used, is ignored:
`checked = false`.) -/
noncomputable def drStepProb {S : Type} (max : ℝ) (L : S → XR) (x y1 y2 y : S) : ℝ :=
  (volume {u : ℝ × ℝ | u ∈ unitSquare ∧
    (@drSample (List ℝ) S XR (idealOps max) Empty false (twoStageWorld L y1 y2) x 1 1 [u.1, u.2]).2.1 = .ok y}).toReal

/-- Transition probability from `x` to `y` for the target `π`, first-stage proposal probabilities `q1 x y1` and
second-stage proposal probabilities `q2 x y1 y2`. -/
noncomputable def drTransition {S : Type} [Fintype S] (max : ℝ) (π : S → ℝ) (q1 : S → S → ℝ)
    (q2 : S → S → S → ℝ) (x y : S) : ℝ :=
  ∑ y1, ∑ y2, q1 x y1 * q2 x y1 y2 * drStepProb max (fun s => logOf (π s)) x y1 y2 y

/-- The acceptance probability of delayed rejection with constant proposal densities (Mira 2001; Trias, Vecchio
and Veitch 2009, equation for `α_i`), for the likelihoods `x` of the current sample and `ys` of the proposals
(`fuel` at least the length of `ys`):
`α(x,y₁..yᵢ) = min(1, (yᵢ/x) ∏_{j<i} (1-α(yᵢ,yᵢ₋₁..yᵢ₋ⱼ)) / (1-α(x,y₁..yⱼ)))`. -/
noncomputable def referenceAlpha : Nat → ℝ → List ℝ → ℝ
  | 0, _, _ => 0
  | fuel + 1, x, ys =>
    match ys.getLast? with
    | none => 0
    | some y => min 1 (y / x * ((List.range (ys.length - 1)).map (fun j0 =>
        (1 - referenceAlpha fuel y ((ys.dropLast.reverse).take (j0 + 1))) /
        (1 - referenceAlpha fuel x (ys.take (j0 + 1))))).prod)

end SampleFlow.Spec
