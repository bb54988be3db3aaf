import Verif.Model.Producers

/-!
# DifferentialEvaluationMetropolisHastings with synchronous likelihood execution

include/sampleflow/producers/differential_evaluation_mh.impl.h 148-325 with
`asynchronous_likelihood_execution = false`.  The asynchronous execution is in Model/DEAsync.

Simplifications: `generation * n_chains` does not overflow (with overflow: Model/DEWords).  The random number generator is local to the call and
only used by `uniform`, `uniformInt` of the world.  `propose_sample` has one argument; it is modelled by the
proposal function of the world with an empty list of rejected samples.
-/

universe u

namespace SampleFlow

variable {W : Type u} {S D E : Type}

/-- `v[i]`: undefined behaviour if `i` is out of range.
(E.g. differential_evaluation_mh.impl.h 218-273.) -/
def atIndex {α : Type} (l : List α) (i : Nat) : Prog W S D (Stop E) α :=
  match l[i]? with
  | some a => pure a
  | none => Prog.throw (.fault .ub)

/-- Whether crossover is done in a generation, lines 208-212. -/
def crossoverNow (gap generation : Nat) : Bool :=
  (gap == 0 || generation % gap == 0) && decide (generation > 0)

/-- The first partner from the random number `a0` in `0..n_chains-2`, lines 218-220. -/
def partnerA (chain a0 : Nat) : Nat := if a0 ≥ chain then a0 + 1 else a0

/-- The second partner from the random number `b0` in `0..n_chains-3`, lines 227-231. -/
def partnerB (chain a b0 : Nat) : Nat :=
  if b0 ≥ max a chain then b0 + 2
  else if b0 ≥ min a chain then b0 + 1
  else b0

/-- The trial sample of one chain, lines 203-241; `cur` is `current_samples`. -/
def deTrial (env : World W S D (Stop E)) (gap generation : Nat) (cur : List S) (chain : Nat) :
    Prog W S D (Stop E) (S × D) :=
  if crossoverNow gap generation then do
    let a0 ← drawInt env (cur.length - 2)
    let xa ← atIndex cur (partnerA chain a0)
    let b0 ← drawInt env (cur.length - 3)
    let xb ← atIndex cur (partnerB chain (partnerA chain a0) b0)
    let x ← atIndex cur chain
    let y ← callCrossover env x xa xb
    callPropose env y []
  else do
    let x ← atIndex cur chain
    callPropose env x []

/-- What the lambda function `task` (lines 248-256) captures by value. -/
structure DETask (S D : Type) where
  trial : S
  ratio : D
  u : D

/-- Creation of the task: the trial sample, and a random number, lines 203-256. -/
def deMakeTask (env : World W S D (Stop E)) (gap generation : Nat) (cur : List S) (chain : Nat) :
    Prog W S D (Stop E) (DETask S D) := do
  let t ← deTrial env gap generation cur chain
  let u ← draw env
  pure ⟨t.1, t.2, u⟩

/-- The arrays shared by the tasks and the main program: `current_samples`, `next_samples`,
`current_log_likelihoods`.
(differential_evaluation_mh.impl.h 174-181.) -/
structure DEState (S D : Type) where
  cur : List S
  next : List S
  lls : List D

variable [FloatOps D]

open FloatOps

/-- `acceptance_ratio >= uniform_random_number`, lines 262-266. -/
def deAccept (t : DETask S D) (trialLL currentLL : D) : Bool :=
  le t.u (div (exp (sub trialLL currentLL)) t.ratio)

/-- The body of the task, lines 258-276. -/
def deRunTask (env : World W S D (Stop E)) (chain : Nat) (t : DETask S D) (st : DEState S D) :
    Prog W S D (Stop E) (Bool × DEState S D) := do
  let trialLL ← callLogLikelihood env t.trial
  let currentLL ← atIndex st.lls chain
  if deAccept t trialLL currentLL then
    pure (true, { st with next := st.next.set chain t.trial, lls := st.lls.set chain trialLL })
  else do
    let x ← atIndex st.cur chain
    pure (false, { st with next := st.next.set chain x })

/-- `packaged_task`: the exception (of the likelihood function) is stored in the future, lines 286-291. -/
def deRunCaptured (env : World W S D (Stop E)) (chain : Nat) (t : DETask S D) (st : DEState S D) :
    Prog W S D (Stop E) (Except E Bool × DEState S D) := fun w =>
  match deRunTask env chain t st w with
  | (tr, .ok (acc, st'), w') => (tr, .ok (.ok acc, st'), w')
  | (tr, .error (.exception e), w') => (tr, .ok (.error e, st), w')
  | (tr, .error (.fault f), w') => (tr, .error (.fault f), w')

/-- The first loop over the chains, lines 197-292: creates the tasks and runs them.  `left` is
`n_chains - chain`.  Returns what the futures contain. -/
def deCreate (env : World W S D (Stop E)) (gap nSamples generation nChains : Nat) :
    (left chain : Nat) → DEState S D → Prog W S D (Stop E) (List (Except E Bool) × DEState S D)
  | 0, _, st => pure ([], st)
  | left + 1, chain, st =>
    if generation * nChains + chain ≥ nSamples then pure ([], st)
    else do
      let t ← deMakeTask env gap generation st.cur chain
      let r ← deRunCaptured env chain t st
      let rs ← deCreate env gap nSamples generation nChains left (chain + 1) r.2
      pure (r.1 :: rs.1, rs.2)

/-- The auxiliary data, lines 316-320. -/
def deAux (ll : D) (repeated : Bool) (chain : Nat) : Aux D :=
  [("relative log likelihood", .real ll), ("sample is repeated", .flag repeated), ("chain number", .index chain)]

/-- `chain_evaluation_results[chain].get()`: rethrows the exception of the task.
(differential_evaluation_mh.impl.h 314.) -/
def deGet {α : Type} (r : Except E α) : Prog W S D (Stop E) α :=
  match r with
  | .ok a => pure a
  | .error e => Prog.throw (.exception e)

/-- The second loop over the chains, lines 304-321: issues the samples. -/
def deIssue (env : World W S D (Stop E)) (nSamples generation nChains : Nat) (results : List (Except E Bool))
    (st : DEState S D) : (left chain : Nat) → Prog W S D (Stop E) Unit
  | 0, _ => pure ()
  | left + 1, chain =>
    if generation * nChains + chain ≥ nSamples then pure ()
    else do
      let r ← atIndex results chain
      let accepted ← deGet r
      let x ← atIndex st.next chain
      let ll ← atIndex st.lls chain
      callIssue env x (deAux ll (!accepted) chain)
      deIssue env nSamples generation nChains results st left (chain + 1)

/-- One generation, lines 187-324. -/
def deGeneration (env : World W S D (Stop E)) (gap nSamples nChains generation : Nat) (st : DEState S D) :
    Prog W S D (Stop E) (DEState S D) := do
  let rs ← deCreate env gap nSamples generation nChains nChains 0 st
  deIssue env nSamples generation nChains rs.1 rs.2 nChains 0
  pure { rs.2 with cur := rs.2.next }

/-- The loop over the generations, line 187.  `fuel` bounds the number of generations. -/
def deLoop (env : World W S D (Stop E)) (gap nSamples nChains : Nat) :
    (fuel generation : Nat) → DEState S D → Prog W S D (Stop E) Unit
  | 0, _, _ => pure ()
  | fuel + 1, generation, st =>
    if generation * nChains < nSamples then do
      let st' ← deGeneration env gap nSamples nChains generation st
      deLoop env gap nSamples nChains fuel (generation + 1) st'
    else pure ()

/-- The likelihoods of the starting points, lines 175-177. -/
def deInitial (env : World W S D (Stop E)) : List S → Prog W S D (Stop E) (List D)
  | [] => pure []
  | x :: xs => do
    let d ← callLogLikelihood env x
    let ds ← deInitial env xs
    pure (d :: ds)

/-- `DifferentialEvaluationMetropolisHastings::sample` with synchronous execution.
(differential_evaluation_mh.impl.h 148-325.) -/
def deSample (env : World W S D (Stop E)) (starts : List S) (gap nSamples : Nat) : Prog W S D (Stop E) Unit :=
  if starts.length ≥ 3 then
    Prog.withScopeExit (scopeExitFlush env) do
      let lls ← deInitial env starts
      deLoop env gap nSamples starts.length nSamples 0 ⟨starts, starts, lls⟩
  else Prog.throw (.fault .assertion)

end SampleFlow
