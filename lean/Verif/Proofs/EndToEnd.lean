import Verif.Model.EndToEnd
import Verif.Proofs.DifferentialEvaluation

set_option linter.unusedSimpArgs false

namespace SampleFlow

open Spec

variable {U C S D E : Type}

/-- the consumer has consumed exactly the samples issued -/
def Tracks {α : Type} (step : C → S × Aux D → C) (p : Prog (U × C) S D E α) : Prop :=
  ∀ w, (p w).2.2.2 = (issuedOf (p w).1).foldl step w.2

variable {step : C → S × Aux D → C}

theorem Tracks.pure {α : Type} (a : α) : Tracks step (Pure.pure a : Prog (U × C) S D E α) := fun _ => rfl

theorem Tracks.throw {α : Type} (e : E) : Tracks step (Prog.throw e : Prog (U × C) S D E α) := fun _ => rfl

theorem Tracks.bind {α β : Type} {p : Prog (U × C) S D E α} {f : α → Prog (U × C) S D E β} (hp : Tracks step p)
    (hf : ∀ a, Tracks step (f a)) : Tracks step (p >>= f) := by
  intro w
  have h := hp w
  rcases h1 : p w with ⟨tr, (e | a), w'⟩
  · rw [Prog.bind_error h1]
    rw [h1] at h; exact h
  · rw [Prog.bind_ok h1]
    rw [h1] at h
    have h2 := hf a w'
    simp only at h ⊢
    rw [h2, issuedOf_append, List.foldl_append, h]

theorem Tracks.ite {α : Type} {c : Prop} [Decidable c] {p q : Prog (U × C) S D E α} (hp : Tracks step p)
    (hq : Tracks step q) : Tracks step (if c then p else q) := by
  split <;> assumption

variable (env : World U S D E)

theorem Tracks.logLikelihood (x : S) : Tracks step (callLogLikelihood (attach env step) x) := by
  intro w
  simp only [callLogLikelihood, attach]
  rcases h : env.logLikelihood x w.1 with ⟨(e | d), u⟩ <;> rfl

theorem Tracks.propose (x : S) (l : List S) : Tracks step (callPropose (attach env step) x l) := by
  intro w
  simp only [callPropose, attach]
  rcases h : env.propose x l w.1 with ⟨(e | ⟨y, r⟩), u⟩ <;> rfl

theorem Tracks.crossover (x a b : S) : Tracks step (callCrossover (attach env step) x a b) := by
  intro w
  simp only [callCrossover, attach]
  rcases h : env.crossover x a b w.1 with ⟨(e | y), u⟩ <;> rfl

theorem Tracks.draw : Tracks step (draw (attach env step)) := fun _ => rfl

theorem Tracks.drawInt (n : Nat) : Tracks step (drawInt (attach env step) n) := fun _ => rfl

theorem Tracks.issue (x : S) (a : Aux D) : Tracks step (callIssue (attach env step) x a) := fun _ => rfl

theorem Tracks.flush : Tracks step (callFlush (attach env step)) := fun _ => rfl

theorem Tracks.scopeExit {α : Type} {p : Prog (U × C) S D E α} (hp : Tracks step p) :
    Tracks step (Prog.withScopeExit (scopeExitFlush (attach env step)) p) := by
  intro w
  have h := hp w
  unfold Prog.withScopeExit
  rw [issuedOf_append]
  have : issuedOf (scopeExitFlush (attach env step) (p w).2.2).1 = [] := rfl
  rw [this, List.append_nil]
  exact h

theorem Tracks.rangeSample (range : List S) : Tracks step (rangeSample (attach env step) range) := by
  apply Tracks.scopeExit
  induction range with
  | nil => exact Tracks.pure ()
  | cons x xs ih => exact Tracks.bind (Tracks.issue env x []) (fun _ => ih)

variable [FloatOps D]

theorem Tracks.mhAccept (a b r : D) : Tracks step (mhAccept (attach env step) a b r) := by
  unfold SampleFlow.mhAccept
  refine Tracks.ite (Tracks.bind (Tracks.ite (Tracks.bind (Tracks.draw env) (fun _ => Tracks.pure _)) (Tracks.pure _))
    (fun _ => Tracks.ite (Tracks.pure _) (Tracks.ite (Tracks.pure _) (Tracks.bind (Tracks.draw env)
      (fun _ => Tracks.pure _))))) (Tracks.pure _)

theorem Tracks.mhSample (start : S) (n : Nat) : Tracks step (mhSample (attach env step) start n) := by
  apply Tracks.scopeExit
  refine Tracks.bind (Tracks.logLikelihood env _) (fun ll => Tracks.bind ?_ (fun _ => Tracks.bind (Tracks.flush env)
    (fun _ => Tracks.pure _)))
  induction n generalizing start ll with
  | zero => exact Tracks.pure _
  | succ n ih =>
    unfold mhLoop
    refine Tracks.bind (Tracks.propose env _ _) (fun p => Tracks.bind (Tracks.logLikelihood env _) (fun d =>
      Tracks.bind (Tracks.mhAccept env _ _ _) (fun acc => Tracks.ite
        (Tracks.bind (Tracks.issue env _ _) (fun _ => ih _ _)) (Tracks.bind (Tracks.issue env _ _) (fun _ => ih _ _)))))

end SampleFlow

namespace SampleFlow

open Spec

variable {U C S D E : Type} {step : C → S × Aux D → C} (env : World U S D (Stop E))

theorem Tracks.liftFault {α : Type} (r : Except Fault α) :
    Tracks step (liftFault r : Prog (U × C) S D (Stop E) α) := by
  cases r with
  | ok a => exact Tracks.pure a
  | error f => exact Tracks.throw _

theorem Tracks.atIndex {α : Type} (l : List α) (i : Nat) :
    Tracks step (atIndex l i : Prog (U × C) S D (Stop E) α) := by
  unfold SampleFlow.atIndex
  cases l[i]? with
  | none => exact Tracks.throw _
  | some a => exact Tracks.pure a

variable [FloatOps D]

theorem Tracks.drStages (checked : Bool) (cur : S) (ll : D) (left : Nat) : ∀ l : List (S × D),
    Tracks step (drStages checked (attach env step) cur ll left l) := by
  induction left with
  | zero => intro l; exact Tracks.pure _
  | succ left ih =>
    intro l
    unfold SampleFlow.drStages
    refine Tracks.bind (Tracks.propose env _ _) (fun p => Tracks.bind (Tracks.logLikelihood env _) (fun d =>
      Tracks.bind (Tracks.liftFault _) (fun a => Tracks.bind (Tracks.ite (Tracks.pure _)
        (Tracks.bind (Tracks.draw env) (fun _ => Tracks.pure _))) (fun acc => Tracks.ite (Tracks.pure _) (ih _)))))

theorem Tracks.drSample (checked : Bool) (start : S) (maxDelays n : Nat) :
    Tracks step (drSample checked (attach env step) start maxDelays n) := by
  apply Tracks.scopeExit
  refine Tracks.bind (Tracks.logLikelihood env _) (fun ll => Tracks.bind ?_ (fun _ => Tracks.bind (Tracks.flush env)
    (fun _ => Tracks.pure _)))
  induction n generalizing start ll with
  | zero => exact Tracks.pure _
  | succ n ih =>
    unfold drLoop
    refine Tracks.bind (Tracks.drStages env _ _ _ _ _) (fun r => ?_)
    cases r with
    | none => exact Tracks.bind (Tracks.issue env _ _) (fun _ => ih _ _)
    | some p => exact Tracks.bind (Tracks.issue env _ _) (fun _ => ih _ _)

theorem Tracks.deCreate (gap N gen n : Nat) (left : Nat) : ∀ (c : Nat) (st : DEState S D),
    Tracks step (deCreate (attach env step) gap N gen n left c st) := by
  induction left with
  | zero => intro c st; exact Tracks.pure _
  | succ left ih =>
    intro c st
    unfold SampleFlow.deCreate
    refine Tracks.ite (Tracks.pure _) (Tracks.bind ?_ (fun t => Tracks.bind ?_ (fun r =>
      Tracks.bind (ih _ _) (fun rs => Tracks.pure _))))
    · unfold deMakeTask
      refine Tracks.bind ?_ (fun _ => Tracks.bind (Tracks.draw env) (fun _ => Tracks.pure _))
      unfold deTrial
      refine Tracks.ite ?_ ?_
      · exact Tracks.bind (Tracks.drawInt env _) (fun _ => Tracks.bind (Tracks.atIndex _ _) (fun _ =>
          Tracks.bind (Tracks.drawInt env _) (fun _ => Tracks.bind (Tracks.atIndex _ _) (fun _ =>
          Tracks.bind (Tracks.atIndex _ _) (fun _ => Tracks.bind (Tracks.crossover env _ _ _) (fun _ =>
          Tracks.propose env _ _))))))
      · exact Tracks.bind (Tracks.atIndex _ _) (fun _ => Tracks.propose env _ _)
    · have h : Tracks step (deRunTask (attach env step) c t st) := by
        unfold deRunTask
        exact Tracks.bind (Tracks.logLikelihood env _) (fun _ => Tracks.bind (Tracks.atIndex _ _) (fun _ =>
          Tracks.ite (Tracks.pure _) (Tracks.bind (Tracks.atIndex _ _) (fun _ => Tracks.pure _))))
      intro w
      have h := h w
      unfold deRunCaptured
      rcases h1 : deRunTask (attach env step) c t st w with ⟨tr, ((e | f) | ⟨acc, st'⟩), w'⟩ <;> rw [h1] at h <;> exact h

theorem Tracks.deSample (starts : List S) (gap n : Nat) :
    Tracks step (deSample (attach env step) starts gap n) := by
  unfold SampleFlow.deSample
  refine Tracks.ite ?_ (Tracks.throw _)
  apply Tracks.scopeExit
  have hini : ∀ xs : List S, Tracks step (deInitial (attach env step) xs) := by
    intro xs
    induction xs with
    | nil => exact Tracks.pure _
    | cons x xs ih => exact Tracks.bind (Tracks.logLikelihood env _) (fun _ => Tracks.bind ih (fun _ => Tracks.pure _))
  refine Tracks.bind (hini starts) (fun lls => ?_)
  have hloop : ∀ (fuel gen : Nat) (st : DEState S D),
      Tracks step (deLoop (attach env step) gap n starts.length fuel gen st) := by
    intro fuel
    induction fuel with
    | zero => intro gen st; exact Tracks.pure _
    | succ fuel ih =>
      intro gen st
      unfold deLoop
      refine Tracks.ite (Tracks.bind ?_ (fun _ => ih _ _)) (Tracks.pure _)
      unfold deGeneration
      refine Tracks.bind (Tracks.deCreate env _ _ _ _ _ _ _) (fun rs => Tracks.bind ?_ (fun _ => Tracks.pure _))
      have hiss : ∀ left c, Tracks step (deIssue (attach env step) n gen starts.length rs.1 rs.2 left c) := by
        intro left
        induction left with
        | zero => intro c; exact Tracks.pure _
        | succ left ih2 =>
          intro c
          unfold deIssue
          refine Tracks.ite (Tracks.pure _) (Tracks.bind (Tracks.atIndex _ _) (fun r => Tracks.bind ?_ (fun _ =>
            Tracks.bind (Tracks.atIndex _ _) (fun _ => Tracks.bind (Tracks.atIndex _ _) (fun _ =>
            Tracks.bind (Tracks.issue env _ _) (fun _ => ih2 _))))))
          cases r with
          | ok a => exact Tracks.pure a
          | error e => exact Tracks.throw _
      exact hiss _ _
  exact hloop _ _ _

end SampleFlow
