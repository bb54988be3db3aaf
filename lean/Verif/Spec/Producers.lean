import Verif.Model.ProducerBase

/-!
# Specification vocabulary for producers

What happened according to a trace, and what a Metropolis-Hastings chain is.
-/

namespace SampleFlow.Spec

open SampleFlow

variable {S D : Type}

/-- The samples issued, with their auxiliary data, in order. -/
def issuedOf (tr : List (Event S D)) : List (S × Aux D) :=
  tr.filterMap (fun e => match e with | .issued x a => some (x, a) | _ => none)

/-- The proposals made, in order: the sample it was made from, the samples already rejected, the proposal and
the ratio. -/
def proposalsOf (tr : List (Event S D)) : List (S × List S × S × D) :=
  tr.filterMap (fun e => match e with | .proposed x l y r => some (x, l, y, r) | _ => none)

/-- The event is neither a sample being issued nor a flush. -/
def Event.quiet : Event S D → Bool
  | .issued .. => false
  | .flushed => false
  | _ => true

/-- One step of a Metropolis-Hastings chain: the proposal `trial` with `ratio` was made from `prev`, the random
numbers `draws` were drawn, and the proposal was accepted or not. -/
structure Move (S D : Type) where
  prev : S
  trial : S
  ratio : D
  draws : List D
  accepted : Bool

/-- The sample after the step. -/
def Move.next (m : Move S D) : S := if m.accepted then m.trial else m.prev

/-- Consecutive steps fit together and the first one starts at `start`. -/
def Linked (start : S) : List (Move S D) → Prop
  | [] => True
  | m :: ms => m.prev = start ∧ Linked m.next ms

/-- The sample at which a chain of moves ends. -/
def endOf (start : S) : List (Move S D) → S
  | [] => start
  | m :: ms => endOf m.next ms

/-- What an observer sees of one step, `L` being the log likelihood: the proposal, the evaluation of its
likelihood, the random numbers, and then the sample. -/
def Move.events (L : S → D) (m : Move S D) : List (Event S D) :=
  [.proposed m.prev [] m.trial m.ratio, .logLikelihood m.trial (L m.trial)] ++
  m.draws.map .drew ++
  [.issued m.next [("relative log likelihood", .real (L m.next)), ("sample is repeated", .flag (!m.accepted))]]

open FloatOps in
/-- The acceptance rule of the documentation (metropolis_hastings.impl.h 553-570 and the comment 635-652) for
doubles with arbitrary arithmetic: which random numbers are used and what is decided.
* a proposal of zero probability is rejected if the current sample has nonzero probability;
* if both have zero probability it is accepted with "probability" `1/ratio`; otherwise, and for proposals of
  nonzero probability:
* it is accepted if its (corrected) likelihood is larger;
* otherwise it is accepted if the ratio of likelihoods is at least a random number. -/
inductive AcceptRule [FloatOps D] (zero : D → Bool) (trialLL currentLL ratio : D) : List D → Bool → Prop
  | zeroReject (h1 : zero trialLL = true) (h2 : zero currentLL = false) :
      AcceptRule zero trialLL currentLL ratio [] false
  | zeroWalk (u : D) (h1 : zero trialLL = true) (h2 : zero currentLL = true) (h3 : le u (div one ratio) = true) :
      AcceptRule zero trialLL currentLL ratio [u] true
  | zeroUp (u : D) (h1 : zero trialLL = true) (h2 : zero currentLL = true) (h3 : le u (div one ratio) = false)
      (h4 : lt currentLL (sub trialLL (log ratio)) = true) :
      AcceptRule zero trialLL currentLL ratio [u] true
  | zeroRatio (u u' : D) (h1 : zero trialLL = true) (h2 : zero currentLL = true)
      (h3 : le u (div one ratio) = false) (h4 : lt currentLL (sub trialLL (log ratio)) = false) :
      AcceptRule zero trialLL currentLL ratio [u, u'] (le u' (div (exp (sub trialLL currentLL)) ratio))
  | up (h1 : zero trialLL = false) (h4 : lt currentLL (sub trialLL (log ratio)) = true) :
      AcceptRule zero trialLL currentLL ratio [] true
  | ratio (u : D) (h1 : zero trialLL = false) (h4 : lt currentLL (sub trialLL (log ratio)) = false) :
      AcceptRule zero trialLL currentLL ratio [u] (le u (div (exp (sub trialLL currentLL)) ratio))

end SampleFlow.Spec

namespace SampleFlow.Spec

variable {S D : Type}

/-- The last thing that happened is a flush, and nothing else happened after the first flush. -/
def EndsWithFlush (tr : List (Event S D)) : Prop :=
  ∃ before k, tr = before ++ List.replicate (k + 1) Event.flushed ∧ Event.flushed ∉ before

end SampleFlow.Spec

namespace SampleFlow.Spec

open SampleFlow

variable {S D : Type}

/-- One step of a delayed rejection chain: the proposals tried one after the other from `prev` (with the ratio the
proposal function returned and the random numbers drawn for the decision), and whether the last one was
accepted. -/
structure DRMove (S D : Type) where
  prev : S
  tried : List (S × D × List D)
  accepted : Bool

/-- The sample after the step: the last proposal, or the previous sample. -/
def DRMove.next (m : DRMove S D) : S :=
  if m.accepted then (m.tried.getLast?.map (fun t => t.1)).getD m.prev else m.prev

/-- What an observer sees of the proposals `tried` if `before` have been rejected already: each proposal is made
from `prev` knowing the samples rejected in this step, and its likelihood is evaluated. -/
def triedEvents (L : S → D) (prev : S) : (before : List S) → List (S × D × List D) → List (Event S D)
  | _, [] => []
  | before, (y, r, draws) :: rest =>
    [.proposed prev before y r, .logLikelihood y (L y)] ++ draws.map .drew ++
      triedEvents L prev (before ++ [y]) rest

/-- What an observer sees of one step. -/
def DRMove.events (L : S → D) (m : DRMove S D) : List (Event S D) :=
  triedEvents L m.prev [] m.tried ++
  [.issued m.next [("relative log likelihood", .real (L m.next)), ("sample is repeated", .flag (!m.accepted))]]

/-- Consecutive steps fit together. -/
def DRLinked (start : S) : List (DRMove S D) → Prop
  | [] => True
  | m :: ms => m.prev = start ∧ DRLinked m.next ms

/-- The decision on one proposal with acceptance ratio `a`: accepted without a random number if the ratio is
larger than one, otherwise accepted if the random number drawn is not larger than the ratio. -/
def StageDecision [FloatOps D] (a : D) (draws : List D) (accepted : Bool) : Prop :=
  (FloatOps.lt FloatOps.one a = true ∧ draws = [] ∧ accepted = true) ∨
  (FloatOps.lt FloatOps.one a = false ∧ ∃ u, draws = [u] ∧ accepted = FloatOps.le u a)

/-- Every proposal of the step was decided with the acceptance ratio that `alpha` assigns to the log likelihoods
of the previous sample and of the proposals up to this one; all were rejected, except the last one if the step
was successful. -/
def DRMove.Decided [FloatOps D] (alpha : D → List D → D → Prop) (L : S → D) (m : DRMove S D) : Prop :=
  ∀ (k : Nat) (t : S × D × List D), m.tried[k]? = some t →
    ∃ a, alpha (L m.prev) ((m.tried.take (k + 1)).map (fun t => L t.1)) a ∧
      StageDecision a t.2.2 (decide (k + 1 = m.tried.length) && m.accepted)

/-- A step makes at least one and at most `maxDelays + 1` proposals; it gives up only after the last of them. -/
def DRMove.Complete (maxDelays : Nat) (m : DRMove S D) : Prop :=
  1 ≤ m.tried.length ∧ m.tried.length ≤ maxDelays + 1 ∧ (m.accepted = false → m.tried.length = maxDelays + 1)

end SampleFlow.Spec
