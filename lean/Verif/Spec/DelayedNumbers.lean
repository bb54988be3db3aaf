import Verif.Spec.DelayedChain
import Verif.Spec.LargeNumbers

/-!
# Specification: the random variables observed in a run of the delayed rejection sampler with one delay on a finite set

What chance decides in one step is the first proposal, the second proposal (used if the first one is rejected) and two random numbers.  A *script* is a
list of such decisions; given a script, a run of `sample` is deterministic.
-/

namespace SampleFlow.Spec.Delayed

open SampleFlow SampleFlow.Spec MeasureTheory

/-- What chance decides in one step: two proposals and two random numbers. -/
abbrev Chance (S : Type) := (S × S) × (ℝ × ℝ)

/-- The world that follows a script.  Its state: the second proposal of the current step, the random numbers of the current step that have not been used
yet, the rest of the script.  The target density is `π`; the proposal function returns the ratio 1 (the sampler ignores it). -/
noncomputable def world {S : Type} (π : S → ℝ) : World (Option S × List ℝ × List (Chance S)) S XR (Stop Empty) where
  logLikelihood := fun x w => (.ok (logOf (π x)), w)
  propose := fun x rejected w =>
    if rejected.isEmpty then
      (.ok ((w.2.2.head?.map (fun d => d.1.1)).getD x, .fin 1),
        (w.2.2.head?.map (fun d => d.1.2), (w.2.2.head?.map (fun d => [d.2.1, d.2.2])).getD [], w.2.2.tail))
    else (.ok (w.1.getD x, .fin 1), w)
  crossover := fun x _ _ w => (.ok x, w)
  uniform := fun w => (.fin (w.2.1.headD 0), (w.1, w.2.1.tail, w.2.2))
  uniformInt := fun _ w => (0, w)
  issue := fun _ _ w => (.ok (), w)
  flush := fun w => w

section
variable {S C : Type} (max : ℝ) (π : S → ℝ) (q1 : S → S → ℝ) (q2 : S → S → S → ℝ) (step : C → S × Aux XR → C) (c : C) (start : S)

/-- The run of `DelayedRejectionMetropolisHastings::sample` with `max_delays = 1` and as many samples as the script has entries, with a consumer (initial
state `c`) connected to the sampler.  (`checked = false`: the out-of-bounds read, whose result is not used, is ignored, see C46.) -/
noncomputable def run (script : List (Chance S)) :
    List (Event S XR) × Except (Stop Empty) S × ((Option S × List ℝ × List (Chance S)) × C) :=
  @drSample _ S XR (idealOps max) Empty false (attach (world π) step) start 1 script.length ((none, [], script), c)

/-- The samples issued. -/
noncomputable def samplesIssued (script : List (Chance S)) : List S :=
  (issuedOf (run max π step c start script).1).map Prod.fst

/-- The sample at the end of the run (no run fails, see `C77_no_failure`). -/
noncomputable def currentSample (script : List (Chance S)) : S :=
  match (run max π step c start script).2.1 with
  | .ok y => y
  | .error _ => start

/-- The state of the consumer at the end of the run. -/
noncomputable def consumerState (script : List (Chance S)) : C := (run max π step c start script).2.2.2

/-- The expected value of `g`, a function of the script, over the next `n` steps, given the decisions made so far: the first proposal has
probability `q1 x y1`, where `x` is the current sample, the second one `q2 x y1 y2`, the random numbers are independent and uniformly distributed in [0,1). -/
noncomputable def expectGiven [Fintype S] (g : List (Chance S) → ℝ) : Nat → List (Chance S) → ℝ
  | 0, past => g past
  | n + 1, past => ∑ y1, ∑ y2, q1 (currentSample max π step c start past) y1 * q2 (currentSample max π step c start past) y1 y2 *
      ∫ u in unitSquare, expectGiven g n (past ++ [((y1, y2), u)])

/-- The expected value of `g`, a function of the script of `n` steps. -/
noncomputable def expected [Fintype S] (n : Nat) (g : List (Chance S) → ℝ) : ℝ :=
  expectGiven max π q1 q2 step c start g n []

open Classical in
/-- The probability of an event in the first `n` steps. -/
noncomputable def probability [Fintype S] (n : Nat) (A : List (Chance S) → Prop) : ℝ :=
  expected max π q1 q2 step c start n (fun script => if A script then 1 else 0)

end

/-- What is assumed about the target and the proposals: `π` is a density, not necessarily normalised, that is not zero everywhere; `q1 x` and `q2 x y1` are
probabilities; from every state one can get to one and the same state by first proposals into states of positive probability. -/
structure Target {S : Type} [Fintype S] (π : S → ℝ) (q1 : S → S → ℝ) (q2 : S → S → S → ℝ) : Prop where
  nonneg : ∀ x, 0 ≤ π x
  nonzero : 0 < ∑ x, π x
  first_nonneg : ∀ x y, 0 ≤ q1 x y
  first_total : ∀ x, ∑ y, q1 x y = 1
  second_nonneg : ∀ x y1 y2, 0 ≤ q2 x y1 y2
  second_total : ∀ x y1, ∑ y2, q2 x y1 y2 = 1
  connected : ∃ y, ∀ x, Relation.ReflTransGen (fun a b => 0 < q1 a b ∧ 0 < π b) x y

/-- The condition on the proposals under which the target distribution is invariant (C47): the first proposal is symmetric, and proposing first `y1`, then `y`
from `x` is as likely as proposing first `y1`, then `x` from `y`. -/
structure Balanced {S : Type} (q1 : S → S → ℝ) (q2 : S → S → S → ℝ) : Prop where
  symmetric : ∀ x y, q1 x y = q1 y x
  exchange : ∀ x y1 y, q1 x y1 * q2 x y1 y = q1 y y1 * q2 y y1 x

end SampleFlow.Spec.Delayed
