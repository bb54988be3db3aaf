import Verif.Spec.LargeNumbers
import Verif.Spec.GeneralNumbers
import Verif.Spec.AsyncNet

/-!
# Specification: what an asynchronous consumer has consumed when a Metropolis-Hastings sampler has returned (C88)

The messages of a run of the sampler are determined by its script (what chance decides, Spec/LargeNumbers.lean).  The order in which a consumer in mode `asynchronous` processes them is
decided by the scheduler, and by what else is connected to the sampler.
-/

namespace SampleFlow.Spec

open SampleFlow SampleFlow.Async SampleFlow.Async.Spec

/-- The expected values and probabilities of Spec/LargeNumbers.lean are those of a run with one consumer; here this is one that ignores the samples, since the consumers are nodes of a network. -/
def nobody {V : Type} : Unit → V → Unit := fun _ _ => ()

/-- The messages (samples with their auxiliary data) that `MetropolisHastings::sample` issues in a run that follows the script. -/
noncomputable def messages {S : Type} (max : ℝ) (π : S → ℝ) (q : S → S → ℝ) (start : S) (script : List (Chance S)) : List (S × Aux XR) :=
  issuedOf (scriptRun max π q nobody () start script).1

/-- A state that some schedule of the network `net` can reach in which the user thread has just returned from calls of `sample()` that together issued `msgs`; node `node` is connected exactly
once to the sampler, and to nothing else.  The thread may go on with further calls afterwards. -/
def SampledAll {V : Type} (net : Net V) (node : Nat) (msgs : List V) (s : State V) : Prop :=
  (∀ p, node ∉ net.outs p) ∧
  ∃ calls todo : List (Call V), calls ≠ [] ∧ Flushes [calls] ∧ (∀ c ∈ calls, c.roots.count node = 1) ∧
    calls.flatMap Call.msgs = msgs ∧ Reachable net [calls ++ todo] s ∧ ReturnedBefore s todo

/-- Whatever chance decides in a run, afterwards the network is in a state that some schedule can lead to.  Which one may depend on the run: `final` is the scheduler. -/
def Schedule {S : Type} (max : ℝ) (π : S → ℝ) (q : S → S → ℝ) (start : S) (net : Net (S × Aux XR)) (node : Nat)
    (final : List (Chance S) → State (S × Aux XR)) : Prop :=
  ∀ script, SampledAll net node (messages max π q start script) (final script)

/-- What a consumer with initial state `c` holds after it has consumed what is in the log of `node`. -/
def heldBy {V C : Type} (step : C → V → C) (c : C) (node : Nat) (s : State V) : C := (s.log node).foldl step c

end SampleFlow.Spec
