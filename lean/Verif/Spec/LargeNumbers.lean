import Verif.Spec.MarkovChain
import Verif.Spec.Producers
import Verif.Model.EndToEnd
import Verif.Model.Histogram
import Mathlib.MeasureTheory.Integral.Bochner.Basic
import Mathlib.MeasureTheory.Integral.Bochner.Set

/-!
# Specification: the random variables observed in a run of the Metropolis-Hastings sampler on a finite set

What chance decides in one step is the proposal and two random numbers (of which the sampler uses none, one or both).  A
*script* is a list of such decisions; given a script, a run of `sample` is deterministic.  The probability
distribution of scripts: given the decisions made so far, the next proposal is distributed according to
`q x` where `x` is the current sample, and the random numbers are independent and uniformly distributed in [0,1).
-/

namespace SampleFlow.Spec

open SampleFlow MeasureTheory

/-- What chance decides in one step: the proposal and two random numbers. -/
abbrev Chance (S : Type) := S × (ℝ × ℝ)

/-- The world that follows a script.  Its state consists of the random numbers of the current step that have not been used
yet and of the rest of the script.  The target density is `π`; the proposal function returns the ratio `q x z / q z x` as
documented. -/
noncomputable def scriptWorld {S : Type} (π : S → ℝ) (q : S → S → ℝ) : World (List ℝ × List (Chance S)) S XR Empty where
  logLikelihood := fun x w => (.ok (logOf (π x)), w)
  propose := fun x _ w =>
    (.ok ((w.2.head?.map Prod.fst).getD x,
        XR.div (.fin (q x ((w.2.head?.map Prod.fst).getD x))) (.fin (q ((w.2.head?.map Prod.fst).getD x) x))),
      ((w.2.head?.map (fun c => [c.2.1, c.2.2])).getD [], w.2.tail))
  crossover := fun x _ _ w => (.ok x, w)
  uniform := fun w => (.fin (w.1.headD 0), (w.1.tail, w.2))
  uniformInt := fun _ w => (0, w)
  issue := fun _ _ w => (.ok (), w)
  flush := fun w => w

section
variable {S C : Type} (max : ℝ) (π : S → ℝ) (q : S → S → ℝ) (step : C → S × Aux XR → C) (c : C) (start : S)

/-- The run of `MetropolisHastings::sample` with as many samples as the script has entries, with a consumer (initial
state `c`) connected to the sampler. -/
noncomputable def scriptRun (script : List (Chance S)) :
    List (Event S XR) × Except Empty S × ((List ℝ × List (Chance S)) × C) :=
  @mhSample _ S XR Empty (attach (scriptWorld π q) step) (idealOps max) start script.length (([], script), c)

/-- The samples issued. -/
noncomputable def samplesIssued (script : List (Chance S)) : List S :=
  (issuedOf (scriptRun max π q step c start script).1).map Prod.fst

/-- The sample at the end of the run. -/
noncomputable def currentSample (script : List (Chance S)) : S :=
  match (scriptRun max π q step c start script).2.1 with
  | .ok y => y

/-- The state of the consumer at the end of the run. -/
noncomputable def consumerState (script : List (Chance S)) : C := (scriptRun max π q step c start script).2.2.2

/-- The expected value of `g`, a function of the script, over the next `n` steps, given the decisions made so far. -/
noncomputable def expectGiven [Fintype S] (g : List (Chance S) → ℝ) : Nat → List (Chance S) → ℝ
  | 0, past => g past
  | n + 1, past => ∑ z, q (currentSample max π q step c start past) z *
      ∫ u in unitSquare, expectGiven g n (past ++ [(z, u)])

/-- The expected value of `g`, a function of the script of `n` steps. -/
noncomputable def expected [Fintype S] (n : Nat) (g : List (Chance S) → ℝ) : ℝ :=
  expectGiven max π q step c start g n []

open Classical in
/-- The probability of an event in the first `n` steps. -/
noncomputable def probability [Fintype S] (n : Nat) (A : List (Chance S) → Prop) : ℝ :=
  expected max π q step c start n (fun script => if A script then 1 else 0)

end

/-- A `MeanValue` connected to the sampler through a `Conversion` filter that applies `f`. -/
noncomputable def meanStep {S ι : Type} (f : S → ι → ℝ) (s : MeanState (ι → ℝ)) (m : S × Aux XR) : MeanState (ι → ℝ) := s.consume (f m.1)

/-- A `CovarianceMatrix` connected to the sampler through a `Conversion` filter that applies `f`; `G` is uninitialised memory. -/
noncomputable def covarianceStep {S ι : Type} (f : S → ι → ℝ) (G : ι → ι → ℝ) (s : CovState ℝ ι) (m : S × Aux XR) : CovState ℝ ι :=
  s.consume G (f m.1)

/-- A `Histogram` connected to the sampler through a `Conversion` filter that applies `f`. -/
noncomputable def histogramStep {S : Type} (debug : Bool) (f : S → ℝ) (s : Except Fault (Hist ℝ)) (m : S × Aux XR) : Except Fault (Hist ℝ) :=
  s.bind (fun h => h.consume debug (.num (f m.1)))

/-- The number of samples that `Histogram::get()` reports for bin `k`. -/
def binCount (s : Except Fault (Hist ℝ)) (k : Nat) : Nat :=
  match s with
  | .error _ => 0
  | .ok h =>
    match h.get with
    | .error _ => 0
    | .ok rows => ((rows[k]?).map (fun r => r.2.2)).getD 0

/-- A `MaximumProbabilitySample` connected to the sampler. -/
noncomputable def bestStep {S : Type} (max : ℝ) (s : Except Fault (MaxProbState S XR)) (m : S × Aux XR) : Except Fault (MaxProbState S XR) :=
  s.bind (fun b => b.consume (fun d => XR.eqb d (.fin (-max))) (fun a b => XR.ltb b a) (m.1, llEntry m.2))

/-- From every state one can get to one and the same state by proposals that can be made in both directions and
lead to states of positive probability. -/
def Connected {S : Type} (π : S → ℝ) (q : S → S → ℝ) : Prop :=
  ∃ y, ∀ x, Relation.ReflTransGen (fun a b => 0 < q a b ∧ 0 < q b a ∧ 0 < π b) x y

/-- `y` can be reached from `x` by exactly `n` steps of `R`. -/
def ReachIn {S : Type} (R : S → S → Prop) : Nat → S → S → Prop
  | 0, x, y => x = y
  | n + 1, x, y => ∃ z, R x z ∧ ReachIn R n z y

/-- A step that can happen: a proposal that can be made in both directions and leads to a state of positive probability (the proposal may be the
current sample itself), or the rejection of some proposal `z`. -/
def PossibleStep {S : Type} (π : S → ℝ) (q : S → S → ℝ) (a b : S) : Prop :=
  (0 < q a b ∧ 0 < q b a ∧ 0 < π b) ∨ (a = b ∧ ∃ z, z ≠ a ∧ π z * q z a < π a * q a z)

/-- From every state one can get to one and the same state by exactly `k` steps. -/
def ConnectedIn {S : Type} (π : S → ℝ) (q : S → S → ℝ) (k : Nat) : Prop :=
  ∃ y, ∀ x, ReachIn (PossibleStep π q) k x y

/-- The covariance of `f` and `g` under the target distribution. -/
noncomputable def targetCovariance {S : Type} [Fintype S] (π f g : S → ℝ) : ℝ :=
  (∑ x, π x * ((f x - (∑ y, π y * f y) / ∑ y, π y) * (g x - (∑ y, π y * g y) / ∑ y, π y))) / ∑ x, π x

/-- What is assumed about target and proposals: `π` is a density, not necessarily normalised, that is not zero everywhere; `q x` are the probabilities of the
proposals from `x`; no log likelihood is exactly the number `-max`, which the sampler takes for zero probability. -/
structure FiniteTarget {S : Type} [Fintype S] (max : ℝ) (π : S → ℝ) (q : S → S → ℝ) : Prop where
  nonneg : ∀ x, 0 ≤ π x
  nonzero : 0 < ∑ x, π x
  proposals_nonneg : ∀ x y, 0 ≤ q x y
  proposals_total : ∀ x, ∑ z, q x z = 1
  no_marker : ∀ x, Real.log (π x) ≠ -max

/-- The expected value of `f` under the target distribution. -/
noncomputable def targetMean {S : Type} [Fintype S] (π f : S → ℝ) : ℝ := (∑ x, π x * f x) / ∑ x, π x

end SampleFlow.Spec
