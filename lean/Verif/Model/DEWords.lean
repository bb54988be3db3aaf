import Verif.Model.DifferentialEvaluation

/-!
# The counters of DifferentialEvaluationMetropolisHastings as machine words

Model/DifferentialEvaluation.lean computes `generation * n_chains` with unlimited integers.  In the code, `generation`, `n_chains`, `n_samples` and `chain` are of type `std::size_t` (`types::sample_index`, types.impl.h 38) and wrap
around; here they have `b` bits.
-/

universe u

namespace SampleFlow

variable {W : Type u} {S D E : Type} [FloatOps D] {b : Nat}

/-- `generation * n_chains + chain >= n_samples`, differential_evaluation_mh.impl.h 200, 308. -/
def deEnough (nSamples generation nChains : BitVec b) (chain : Nat) : Bool :=
  decide (generation * nChains + BitVec.ofNat b chain ≥ nSamples)

/-- The first loop over the chains, differential_evaluation_mh.impl.h 197-292. -/
def deCreateW (env : World W S D (Stop E)) (gap : Nat) (nSamples generation nChains : BitVec b) :
    (left chain : Nat) → DEState S D → Prog W S D (Stop E) (List (Except E Bool) × DEState S D)
  | 0, _, st => pure ([], st)
  | left + 1, chain, st =>
    if deEnough nSamples generation nChains chain then pure ([], st)
    else do
      let t ← deMakeTask env gap generation.toNat st.cur chain
      let r ← deRunCaptured env chain t st
      let rs ← deCreateW env gap nSamples generation nChains left (chain + 1) r.2
      pure (r.1 :: rs.1, rs.2)

/-- The second loop over the chains, differential_evaluation_mh.impl.h 304-321. -/
def deIssueW (env : World W S D (Stop E)) (nSamples generation nChains : BitVec b) (results : List (Except E Bool))
    (st : DEState S D) : (left chain : Nat) → Prog W S D (Stop E) Unit
  | 0, _ => pure ()
  | left + 1, chain =>
    if deEnough nSamples generation nChains chain then pure ()
    else do
      let r ← atIndex results chain
      let accepted ← deGet r
      let x ← atIndex st.next chain
      let ll ← atIndex st.lls chain
      callIssue env x (deAux ll (!accepted) chain)
      deIssueW env nSamples generation nChains results st left (chain + 1)

/-- One generation, differential_evaluation_mh.impl.h 187-324. -/
def deGenerationW (env : World W S D (Stop E)) (gap : Nat) (nSamples nChains generation : BitVec b) (st : DEState S D) :
    Prog W S D (Stop E) (DEState S D) := do
  let rs ← deCreateW env gap nSamples generation nChains nChains.toNat 0 st
  deIssueW env nSamples generation nChains rs.1 rs.2 nChains.toNat 0
  pure { rs.2 with cur := rs.2.next }

/-- The loop over the generations, differential_evaluation_mh.impl.h 187.  Returns whether the loop has ended after at most `fuel` generations. -/
def deLoopW (env : World W S D (Stop E)) (gap : Nat) (nSamples nChains : BitVec b) :
    (fuel : Nat) → (generation : BitVec b) → DEState S D → Prog W S D (Stop E) Bool
  | 0, _, _ => pure false
  | fuel + 1, generation, st =>
    if generation * nChains < nSamples then do
      let st' ← deGenerationW env gap nSamples nChains generation st
      deLoopW env gap nSamples nChains fuel (generation + 1) st'
    else pure true

/-- `DifferentialEvaluationMetropolisHastings::sample`, differential_evaluation_mh.impl.h 148-325, observed for at most `fuel` generations.  If the result is `false`, the loop is still running (the flush at the end of the trace
has not happened yet in this case). -/
def deSampleW (env : World W S D (Stop E)) (starts : List S) (gap : Nat) (nSamples : BitVec b) (fuel : Nat) : Prog W S D (Stop E) Bool :=
  if starts.length ≥ 3 then
    Prog.withScopeExit (scopeExitFlush env) do
      let lls ← deInitial env starts
      deLoopW env gap nSamples (BitVec.ofNat b starts.length) fuel 0 ⟨starts, starts, lls⟩
  else Prog.throw (.fault .assertion)

end SampleFlow
