import Verif.Spec.LargeNumbers
import Verif.Model.DifferentialEvaluation

/-!
# Specification: the random variables observed in a run of the differential evaluation sampler on a finite set

What chance decides in one step of one chain: two random numbers from which the two random integers for the choice of the partners are computed
(used with crossover only), the random choice made by the proposal function, and the random number with which the proposal is accepted or rejected.  All
random numbers are independent; the real numbers are uniformly distributed in [0,1), a random integer in `0..k` is `⌊v (k+1)⌋`.

The proposal function computes the proposal `pick y ω` from its argument `y` and a random choice `ω` which has probability `weight ω`; every proposal distribution
on a finite set has this form.
-/

namespace SampleFlow.Spec

open SampleFlow MeasureTheory

/-- What chance decides in one step of one chain. -/
structure DEChance (Ω : Type) where
  v1 : ℝ
  v2 : ℝ
  ω : Ω
  u : ℝ

open Classical in
/-- The probability that the proposal function proposes `z` when called with `y`. -/
noncomputable def proposalProb {S Ω : Type} [Fintype Ω] (weight : Ω → ℝ) (pick : S → Ω → S) (y z : S) : ℝ :=
  ∑ ω, if pick y ω = z then weight ω else 0

/-- The world of a run; its state is what chance has decided for the remaining steps.  The target density is `π`.  The proposal function returns the ratio
of `q y z` and `q z y` as documented, where `q` are the proposal probabilities. -/
noncomputable def deWorld {S Ω : Type} (π : S → ℝ) (q : S → S → ℝ) (pick : S → Ω → S) (cross : S → S → S → S) :
    World (List (DEChance Ω)) S XR (Stop Empty) where
  logLikelihood := fun x w => (.ok (logOf (π x)), w)
  propose := fun y _ w =>
    match w with
    | [] => (.ok (y, .fin 1), [])
    | e :: w' => (.ok (pick y e.ω, XR.div (.fin (q y (pick y e.ω))) (.fin (q (pick y e.ω) y))), e :: w')
  crossover := fun x a b w => (.ok (cross x a b), w)
  uniform := fun w =>
    match w with
    | [] => (.fin 0, [])
    | e :: w' => (.fin e.u, w')
  uniformInt := fun k w =>
    match w with
    | [] => (0, [])
    | e :: w' => (⌊e.v1 * (k + 1)⌋₊, { e with v1 := e.v2 } :: w')
  issue := fun _ _ w => (.ok (), w)
  flush := fun w => w

/-- The expected value of a function of what chance decides in `n` steps. -/
noncomputable def average {Ω : Type} [Fintype Ω] (weight : Ω → ℝ) : Nat → (List (DEChance Ω) → ℝ) → ℝ
  | 0, g => g []
  | n + 1, g => ∫ v1 in Set.Ico (0:ℝ) 1, ∫ v2 in Set.Ico (0:ℝ) 1, ∑ ω, weight ω * ∫ u in Set.Ico (0:ℝ) 1,
      average weight n (fun l => g (⟨v1, v2, ω, u⟩ :: l))

/-- The messages with chain number `c`, as seen by a consumer that looks at the auxiliary data. -/
def ofChain {S D : Type} (c : Nat) (msgs : List (S × Aux D)) : List S :=
  msgs.filterMap (fun m => match m.2.lookup "chain number" with
    | some (.index k) => if k = c then some m.1 else none
    | _ => none)

section
variable {S Ω : Type} [Fintype Ω] (max : ℝ) (π : S → ℝ) (weight : Ω → ℝ) (pick : S → Ω → S) (cross : S → S → S → S)
  (starts : List S) (gap : Nat)

/-- The messages issued in a run of `sample` with synchronous execution; as many samples as the script has entries. -/
noncomputable def deMessages (script : List (DEChance Ω)) : List (S × Aux XR) :=
  issuedOf (@deSample _ S XR Empty (idealOps max) (deWorld π (proposalProb weight pick) pick cross) starts gap script.length script).1

/-- The expected value of a function `g` of the messages issued in a run with `nSamples` samples. -/
noncomputable def deExpected (nSamples : Nat) (g : List (S × Aux XR) → ℝ) : ℝ :=
  average weight nSamples (fun script => g (deMessages max π weight pick cross starts gap script))

end

end SampleFlow.Spec
