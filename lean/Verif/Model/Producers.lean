import Verif.Model.ProducerBase

/-!
# Range, MetropolisHastings, DelayedRejectionMetropolisHastings
-/

universe u

namespace SampleFlow

variable {W : Type u} {S D E : Type} (env : World W S D E)

/-! ## Range -/

/-- The loop of `Range::sample`, include/sampleflow/producers/range.impl.h 119-122.  Elements are already
converted to the output type. -/
def rangeLoop : List S → Prog W S D E Unit
  | [] => pure ()
  | x :: xs => do
    callIssue env x []
    rangeLoop xs

/-- `Range::sample`, range.impl.h 108-123. -/
def rangeSample (range : List S) : Prog W S D E Unit :=
  Prog.withScopeExit (scopeExitFlush env) (rangeLoop env range)

/-! ## MetropolisHastings -/

variable [FloatOps D]

open FloatOps

/-- `trial_sample_has_zero_probability`, `current_sample_has_zero_probability`:
metropolis_hastings.impl.h 653-660. -/
def hasZeroProbability (ll : D) : Bool := eq ll negMax || eq ll negInf

/-- The condition of the `if`, metropolis_hastings.impl.h 663-670, with the short-circuit evaluation of
`&&` and `||`: random numbers are drawn only if needed. -/
def mhAccept (trialLL currentLL ratio : D) : Prog W S D E Bool := do
  let tz := hasZeroProbability trialLL
  let cz := hasZeroProbability currentLL
  if !(tz && !cz) then
    let c1 ← (if tz && cz then do
        let u ← draw env
        pure (le u (div one ratio))
      else pure false)
    if c1 then pure true
    else if lt currentLL (sub trialLL (log ratio)) then pure true
    else do
      let u ← draw env
      pure (le u (div (exp (sub trialLL currentLL)) ratio))
  else pure false

/-- The auxiliary data of a sample, metropolis_hastings.impl.h 681-685 and
delayed_rejection_mh.impl.h 266-271. -/
def mhAux (ll : D) (repeated : Bool) : Aux D :=
  [("relative log likelihood", .real ll), ("sample is repeated", .flag repeated)]

/-- The loop of `MetropolisHastings::sample`, metropolis_hastings.impl.h 624-686, with `n` iterations left;
returns the last sample. -/
def mhLoop : Nat → S → D → Prog W S D E S
  | 0, current, _ => pure current
  | n + 1, current, currentLL => do
    let (trial, ratio) ← callPropose env current []
    let trialLL ← callLogLikelihood env trial
    let accepted ← mhAccept env trialLL currentLL ratio
    if accepted then do
      callIssue env trial (mhAux trialLL false)
      mhLoop n trial trialLL
    else do
      callIssue env current (mhAux currentLL true)
      mhLoop n current currentLL

/-- `MetropolisHastings::sample`, metropolis_hastings.impl.h 603-689.  (Returns the last sample instead of
nothing, for convenience.) -/
def mhSample (start : S) (n : Nat) : Prog W S D E S :=
  Prog.withScopeExit (scopeExitFlush env) do
    let ll ← callLogLikelihood env start
    let last ← mhLoop env n start ll
    callFlush env
    pure last

/-! ## DelayedRejectionMetropolisHastings -/

/-- `alpha_fn`, delayed_rejection_mh.impl.h 156-189, on the log likelihoods of `x` and of the vector `y`.
`num_yvec` (line 183) is constructed from the range `[rbegin, rend()+1)` of a vector: this copies one element
before the first one, undefined behaviour.  The vector is not used afterwards.  With `checked = true` the
undefined behaviour is the result, with `checked = false` the construction is skipped.
`fuel` bounds the depth of the recursion; the depth is less than the length of `y`. -/
def alphaFn (checked : Bool) : Nat → D → List D → Except Fault D
  | 0, _, _ => .error .ub
  | fuel + 1, x, y =>
    match y.getLast? with
    | none => .error .ub                       -- y[num_rejected_samples] with num_rejected_samples = -1
    | some yi =>
      let numRejected := y.length - 1
      let likelihoodRatio := exp (sub yi x)
      if numRejected = 0 then .ok likelihoodRatio
      else
        (List.range numRejected).foldlM (fun alpha j0 => do
          let j := j0 + 1
          let numYvecRev := (y.drop (numRejected - j)).take j
          if checked then throw Fault.ub
          let denYvec := y.take j
          let a ← alphaFn checked fuel yi numYvecRev
          let b ← alphaFn checked fuel x denYvec
          return mul alpha (div (sub one a) (sub one b))) likelihoodRatio

/-- Exceptions of the world, or undefined behaviour.
(Undefined behaviour: delayed_rejection_mh.impl.h 183.) -/
inductive Stop (E : Type) where
  | exception (e : E)
  | fault (f : Fault)

/-- Lift a computation with undefined behaviour into a program.
(Scaffolding, for delayed_rejection_mh.impl.h 156-189.) -/
def liftFault {α : Type} (r : Except Fault α) : Prog W S D (Stop E) α :=
  match r with
  | .ok a => pure a
  | .error f => Prog.throw (.fault f)

/-- The delayed rejection loop, delayed_rejection_mh.impl.h 230-260: `stagesLeft` is
`max_delays + 1 - delay_stage`; `proposed` are the samples proposed so far with their log likelihoods. Returns
the accepted sample and its log likelihood, or nothing.  The `proposal_distribution_ratio` is discarded
(lines 240-244). -/
def drStages {E' : Type} (checked : Bool) (env : World W S D (Stop E')) (current : S) (currentLL : D) :
    Nat → List (S × D) → Prog W S D (Stop E') (Option (S × D))
  | 0, _ => pure none
  | stagesLeft + 1, proposed => do
    let (trial, _) ← callPropose env current (proposed.map Prod.fst)
    let trialLL ← callLogLikelihood env trial
    let proposed := proposed ++ [(trial, trialLL)]
    let ratio ← liftFault (alphaFn checked proposed.length currentLL (proposed.map Prod.snd))
    let accepted ← (if lt one ratio then pure true
      else do
        let u ← draw env
        pure (le u ratio))
    if accepted then pure (some (trial, trialLL))
    else drStages checked env current currentLL stagesLeft proposed

/-- The loop of `DelayedRejectionMetropolisHastings::sample`, delayed_rejection_mh.impl.h 222-270, with `n`
iterations left. -/
def drLoop {E' : Type} (checked : Bool) (env : World W S D (Stop E')) (maxDelays : Nat) :
    Nat → S → D → Prog W S D (Stop E') S
  | 0, current, _ => pure current
  | n + 1, current, currentLL => do
    match ← drStages checked env current currentLL (maxDelays + 1) [] with
    | some (trial, trialLL) => do
      callIssue env trial (mhAux trialLL false)
      drLoop checked env maxDelays n trial trialLL
    | none => do
      callIssue env current (mhAux currentLL true)
      drLoop checked env maxDelays n current currentLL

/-- `DelayedRejectionMetropolisHastings::sample`, delayed_rejection_mh.impl.h 204-275. -/
def drSample {E' : Type} (checked : Bool) (env : World W S D (Stop E')) (start : S) (maxDelays n : Nat) :
    Prog W S D (Stop E') S :=
  Prog.withScopeExit (scopeExitFlush env) do
    let ll ← callLogLikelihood env start
    let last ← drLoop checked env maxDelays n start ll
    callFlush env
    pure last

end SampleFlow
