import Verif.Proofs.ExcProducers
import Verif.Proofs.Flush
import Verif.Props.DEAsync
import Verif.Model.Toy

/-!
# C61 for all producers: exceptions thrown by the consumers and filters connected to a sampler
-/

universe u

namespace SampleFlow.Exc

open Spec SampleFlow.Spec

variable {U : Type u} {S D E X : Type}

/-- **C61** for `Range` in the same form as below: whatever a call of `sample()` returns, the network connected to the producer has received
all samples that were issued and the flush; or the call has ended with the exception of the first component that threw, and the components
received everything up to that moment and the flush. -/
theorem C61_range (inj : E → X) (env : World U S D X) (range : List S) (w : U × List (Node (S × Aux D) E)) (hs : ∀ n ∈ w.2, n.Sync) :
    Outcome inj w.2 (rangeSample (attachNet inj env) range w).2.2.2
      (issuedOf (rangeSample (attachNet inj env) range w).1) 1 (rangeSample (attachNet inj env) range w).2.1 :=
  outcome_scopeExit env (Feeds.rangeLoop env range) w hs

/-- **C61** for `MetropolisHastings`, with whatever likelihood and proposal functions, which may also throw.  (A call that returns flushes
twice.) -/
theorem C61_metropolis_hastings [FloatOps D] (inj : E → X) (env : World U S D X) (start : S) (N : Nat)
    (w : U × List (Node (S × Aux D) E)) (hs : ∀ n ∈ w.2, n.Sync) :
    Outcome inj w.2 (mhSample (attachNet inj env) start N w).2.2.2
      (issuedOf (mhSample (attachNet inj env) start N w).1) 2 (mhSample (attachNet inj env) start N w).2.1 := by
  have h := outcome_scopeExit' env (p := callLogLikelihood (attachNet inj env) start >>= fun ll => mhLoop (attachNet inj env) N start ll)
    (Feeds.bind (Silent.logLikelihood env start).feeds (fun ll => Feeds.mhLoop (inj := inj) env N start ll)) w hs
  rw [Prog.bind_assoc'] at h
  exact h

/-- **C61** for `DelayedRejectionMetropolisHastings`. -/
theorem C61_delayed_rejection {E' : Type} [FloatOps D] (inj : E → Stop E') (env : World U S D (Stop E')) (checked : Bool) (start : S)
    (maxDelays N : Nat) (w : U × List (Node (S × Aux D) E)) (hs : ∀ n ∈ w.2, n.Sync) :
    Outcome inj w.2 (drSample checked (attachNet inj env) start maxDelays N w).2.2.2
      (issuedOf (drSample checked (attachNet inj env) start maxDelays N w).1) 2
      (drSample checked (attachNet inj env) start maxDelays N w).2.1 := by
  have h := outcome_scopeExit' env (p := callLogLikelihood (attachNet inj env) start >>= fun ll =>
      drLoop checked (attachNet inj env) maxDelays N start ll)
    (Feeds.bind (Silent.logLikelihood env start).feeds (fun ll => Feeds.drLoop (inj := inj) env checked maxDelays N start ll)) w hs
  rw [Prog.bind_assoc'] at h
  exact h

/-- **C61** for `DifferentialEvaluationMetropolisHastings` with synchronous likelihood execution (and at least three chains). -/
theorem C61_differential_evaluation {E' : Type} [FloatOps D] (inj : E → Stop E') (env : World U S D (Stop E')) (starts : List S)
    (hn : 3 ≤ starts.length) (gap N : Nat) (w : U × List (Node (S × Aux D) E)) (hs : ∀ n ∈ w.2, n.Sync) :
    Outcome inj w.2 (deSample (attachNet inj env) starts gap N w).2.2.2
      (issuedOf (deSample (attachNet inj env) starts gap N w).1) 1 (deSample (attachNet inj env) starts gap N w).2.1 := by
  unfold deSample
  rw [if_pos hn]
  exact outcome_scopeExit env (Feeds.bind (Silent.deInitial env starts).feeds (fun lls => Feeds.deLoop env _ _ _ _ _ _)) w hs

/-- Leaving out the evaluations of the likelihood does not change the samples issued. -/
theorem issuedOf_withoutLikelihoods (tr : List (Event S D)) : issuedOf (withoutLikelihoods tr) = issuedOf tr := by
  unfold issuedOf withoutLikelihoods
  rw [List.filterMap_filter]
  congr 1
  funext e
  cases e <;> rfl

/-- **C61** for `DifferentialEvaluationMetropolisHastings` with asynchronous likelihood execution: under every schedule of the threads that
evaluate the (deterministic) likelihood. -/
theorem C61_differential_evaluation_async {E' : Type} [FloatOps D] (inj : E → Stop E')
    (env : World U S D (Stop E')) (p : DEAsync.Params (U × List (Node (S × Aux D) E)) S D E') (he : p.env = attachNet inj env)
    (hp : DEAsync.SameLikelihood p) (hn : 3 ≤ p.starts.length) (w : U × List (Node (S × Aux D) E)) (hs : ∀ n ∈ w.2, n.Sync)
    (c : DEAsync.Config (U × List (Node (S × Aux D) E)) S D E') (h : DEAsync.Reachable p w c) (r : Except (Stop E') Unit)
    (hf : c.phase = .finished r) :
    Outcome inj w.2 c.world.2 (issuedOf c.trace) 1 r := by
  obtain ⟨h1, h2, h3⟩ := DEAsync.C50_async_same_as_sync p hp hn w c h r hf
  rw [h1, h2, h3, issuedOf_withoutLikelihoods, he]
  exact C61_differential_evaluation inj env p.starts hn p.gap p.nSamples w hs

/-! ### example -/

/-- A consumer that counts and throws for samples larger than 6. -/
def limit : Component (Int × Aux Int) String := ⟨Nat, fun s m => (if 6 < m.1 then .error "too large" else .ok none, s + 1), 0⟩

/-- A consumer that counts. -/
def tally : Component (Int × Aux Int) String := ⟨Nat, fun s _ => (.ok none, s + 1), 0⟩

/-- A filter that passes everything. -/
def passAll : Component (Int × Aux Int) String := ⟨Unit, fun _ m => (.ok (some m), ()), ()⟩

/-- sampler >> passAll >> (tally, limit, tally), sampler >> tally -/
def limitNet : List (Node (Int × Aux Int) String) :=
  [.mk passAll false [] [.mk tally false [] [], .mk limit false [] [], .mk tally false [] []], .mk tally false [] []]

theorem limitNet_sync : ∀ n ∈ limitNet, n.Sync := by
  intro n hn
  simp only [limitNet, List.mem_cons, List.not_mem_nil, or_false] at hn
  rcases hn with rfl | rfl
  · refine .mk _ _ _ ?_
    intro n hn
    simp only [List.mem_cons, List.not_mem_nil, or_false] at hn
    rcases hn with rfl | rfl | rfl <;> exact .mk _ _ _ (by simp)
  · exact .mk _ _ _ (by simp)

/-- A chain that starts at 5 and always moves up by one. -/
def limitRun : List (Event Int Int) × Except String Int × List Nat × List (Node (Int × Aux Int) String) :=
  let _ := toyOps
  mhSample (attachNet id toyWorld) 5 10 ([], limitNet)

/-- The sample 7 is the last one, the exception of `limit` ends the call: the first `tally` and `limit` have received two samples and the flush, the
other consumers one sample and the flush. -/
example : (match limitRun.2.1 with | .error e => some e | .ok _ => none) = some "too large" ∧
    (issuedOf limitRun.1).map Prod.fst = [6, 7] ∧
    (nodeAt limitRun.2.2.2 [0, 0]).map (fun n => n.log.length) = some 3 ∧
    (nodeAt limitRun.2.2.2 [0, 1]).map (fun n => n.log.length) = some 3 ∧
    (nodeAt limitRun.2.2.2 [0, 2]).map (fun n => n.log.length) = some 2 ∧
    (nodeAt limitRun.2.2.2 [1]).map (fun n => n.log.length) = some 2 := by
  decide +kernel

/-- The likelihood of the example is deterministic. -/
example : DEAsync.SameLikelihood (W := List Nat × List (Node (Int × Aux Int) String)) (E := String)
    ⟨attachNet Stop.exception toyWorld, fun x => .ok x, [1, 2, 3], 1, 10⟩ :=
  fun _ _ => rfl

/-! ### Instances: concrete cases that meet the hypotheses of the theorems above -/

section
attribute [local instance] toyOps
example := C61_range (U := List Nat) (X := String) id toyWorld [1, 2, 7, 8] ([], limitNet) limitNet_sync
example := C61_metropolis_hastings (U := List Nat) (X := String) id toyWorld 5 10 ([], limitNet) limitNet_sync
example := C61_delayed_rejection (E' := String) Stop.exception toyWorld true 5 1 10 ([], limitNet) limitNet_sync
example := C61_differential_evaluation (E' := String) Stop.exception toyWorld [1, 2, 3] (by decide) 1 10 ([], limitNet) limitNet_sync
end

end SampleFlow.Exc
