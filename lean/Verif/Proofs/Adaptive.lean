import Verif.Model.Adaptive
import Verif.Spec.Adaptive
import Verif.Proofs.EndToEnd

set_option linter.unusedSimpArgs false

namespace SampleFlow.Adaptive

open Spec

variable {U C S D E : Type} (env : C → World U S D E) {step : C → S × Aux D → C}

theorem seesIssued_append {env : C → World U S D E} (t1 t2 : List (Event S D)) (c : C) :
    SeesIssued env step c (t1 ++ t2) ↔ SeesIssued env step c t1 ∧ SeesIssued env step ((issuedOf t1).foldl step c) t2 := by
  induction t1 generalizing c with
  | nil => simp [SeesIssued, issuedOf]
  | cons e t1 ih =>
    cases e <;> simp [SeesIssued, ih, issuedOf, and_assoc]

/-- the consumer has consumed exactly the samples issued, and calls of the user's functions have seen this -/
def Sees {α : Type} (env : C → World U S D E) (step : C → S × Aux D → C) (p : Prog (U × C) S D E α) : Prop :=
  ∀ w, (p w).2.2.2 = (issuedOf (p w).1).foldl step w.2 ∧ SeesIssued env step w.2 (p w).1

theorem Sees.pure {α : Type} {env : C → World U S D E} (a : α) : Sees env step (Pure.pure a : Prog (U × C) S D E α) := fun _ => ⟨rfl, trivial⟩

theorem Sees.throw {α : Type} {env : C → World U S D E} (e : E) : Sees env step (Prog.throw e : Prog (U × C) S D E α) := fun _ => ⟨rfl, trivial⟩

theorem Sees.bind {α β : Type} {env : C → World U S D E} {p : Prog (U × C) S D E α} {f : α → Prog (U × C) S D E β} (hp : Sees env step p)
    (hf : ∀ a, Sees env step (f a)) : Sees env step (p >>= f) := by
  intro w
  have h := hp w
  rcases h1 : p w with ⟨tr, (e | a), w'⟩
  · rw [Prog.bind_error h1]
    rw [h1] at h; exact h
  · rw [Prog.bind_ok h1]
    rw [h1] at h
    have h2 := hf a w'
    simp only at h ⊢
    refine ⟨by rw [h2.1, issuedOf_append, List.foldl_append, h.1], ?_⟩
    rw [seesIssued_append, ← h.1]
    exact ⟨h.2, h2.2⟩

theorem Sees.ite {α : Type} {env : C → World U S D E} {c : Prop} [Decidable c] {p q : Prog (U × C) S D E α} (hp : Sees env step p)
    (hq : Sees env step q) : Sees env step (if c then p else q) := by
  split <;> assumption

theorem Sees.logLikelihood (x : S) : Sees env step (callLogLikelihood (attachSeen env step) x) := by
  intro w
  simp only [callLogLikelihood, attachSeen]
  rcases h : (env w.2).logLikelihood x w.1 with ⟨(e | d), u⟩
  · exact ⟨rfl, trivial⟩
  · exact ⟨rfl, ⟨_, _, h⟩, trivial⟩

theorem Sees.propose (x : S) (l : List S) : Sees env step (callPropose (attachSeen env step) x l) := by
  intro w
  simp only [callPropose, attachSeen]
  rcases h : (env w.2).propose x l w.1 with ⟨(e | ⟨y, r⟩), u⟩
  · exact ⟨rfl, trivial⟩
  · exact ⟨rfl, ⟨_, _, h⟩, trivial⟩

theorem Sees.crossover (x a b : S) : Sees env step (callCrossover (attachSeen env step) x a b) := by
  intro w
  simp only [callCrossover, attachSeen]
  rcases h : (env w.2).crossover x a b w.1 with ⟨(e | y), u⟩
  · exact ⟨rfl, trivial⟩
  · exact ⟨rfl, ⟨_, _, h⟩, trivial⟩

theorem Sees.draw : Sees env step (draw (attachSeen env step)) := fun _ => ⟨rfl, trivial⟩

theorem Sees.drawInt (n : Nat) : Sees env step (drawInt (attachSeen env step) n) := fun _ => ⟨rfl, trivial⟩

theorem Sees.issue (x : S) (a : Aux D) : Sees env step (callIssue (attachSeen env step) x a) := fun _ => ⟨rfl, trivial⟩

theorem Sees.flush : Sees env step (callFlush (attachSeen env step)) := fun _ => ⟨rfl, trivial⟩

theorem Sees.scopeExit {α : Type} {p : Prog (U × C) S D E α} (hp : Sees env step p) :
    Sees env step (Prog.withScopeExit (scopeExitFlush (attachSeen env step)) p) := by
  intro w
  have h := hp w
  unfold Prog.withScopeExit
  rw [issuedOf_append, seesIssued_append]
  have : issuedOf (scopeExitFlush (attachSeen env step) (p w).2.2).1 = [] := rfl
  rw [this, List.append_nil]
  exact ⟨h.1, h.2, trivial⟩

theorem Sees.rangeSample (range : List S) : Sees env step (rangeSample (attachSeen env step) range) := by
  apply Sees.scopeExit env
  induction range with
  | nil => exact Sees.pure ()
  | cons x xs ih => exact Sees.bind (Sees.issue env x []) (fun _ => ih)

variable [FloatOps D]

theorem Sees.mhAccept (a b r : D) : Sees env step (mhAccept (attachSeen env step) a b r) := by
  unfold SampleFlow.mhAccept
  refine Sees.ite (Sees.bind (Sees.ite (Sees.bind (Sees.draw env) (fun _ => Sees.pure _)) (Sees.pure _))
    (fun _ => Sees.ite (Sees.pure _) (Sees.ite (Sees.pure _) (Sees.bind (Sees.draw env)
      (fun _ => Sees.pure _))))) (Sees.pure _)

theorem Sees.mhSample (start : S) (n : Nat) : Sees env step (mhSample (attachSeen env step) start n) := by
  apply Sees.scopeExit env
  refine Sees.bind (Sees.logLikelihood env _) (fun ll => Sees.bind ?_ (fun _ => Sees.bind (Sees.flush env)
    (fun _ => Sees.pure _)))
  induction n generalizing start ll with
  | zero => exact Sees.pure _
  | succ n ih =>
    unfold mhLoop
    refine Sees.bind (Sees.propose env _ _) (fun p => Sees.bind (Sees.logLikelihood env _) (fun d =>
      Sees.bind (Sees.mhAccept env _ _ _) (fun acc => Sees.ite
        (Sees.bind (Sees.issue env _ _) (fun _ => ih _ _)) (Sees.bind (Sees.issue env _ _) (fun _ => ih _ _)))))

end SampleFlow.Adaptive

namespace SampleFlow.Adaptive

open Spec

variable {U C S D E : Type} {step : C → S × Aux D → C} (env : C → World U S D (Stop E))

theorem Sees.liftFault {α : Type} {env : C → World U S D (Stop E)} (r : Except Fault α) :
    Sees env step (liftFault r : Prog (U × C) S D (Stop E) α) := by
  cases r with
  | ok a => exact Sees.pure a
  | error f => exact Sees.throw _

theorem Sees.atIndex {α : Type} {env : C → World U S D (Stop E)} (l : List α) (i : Nat) :
    Sees env step (atIndex l i : Prog (U × C) S D (Stop E) α) := by
  unfold SampleFlow.atIndex
  cases l[i]? with
  | none => exact Sees.throw _
  | some a => exact Sees.pure a

variable [FloatOps D]

theorem Sees.drStages (checked : Bool) (cur : S) (ll : D) (left : Nat) : ∀ l : List (S × D),
    Sees env step (drStages checked (attachSeen env step) cur ll left l) := by
  induction left with
  | zero => intro l; exact Sees.pure _
  | succ left ih =>
    intro l
    unfold SampleFlow.drStages
    refine Sees.bind (Sees.propose env _ _) (fun p => Sees.bind (Sees.logLikelihood env _) (fun d =>
      Sees.bind (Sees.liftFault _) (fun a => Sees.bind (Sees.ite (Sees.pure _)
        (Sees.bind (Sees.draw env) (fun _ => Sees.pure _))) (fun acc => Sees.ite (Sees.pure _) (ih _)))))

theorem Sees.drSample (checked : Bool) (start : S) (maxDelays n : Nat) :
    Sees env step (drSample checked (attachSeen env step) start maxDelays n) := by
  apply Sees.scopeExit env
  refine Sees.bind (Sees.logLikelihood env _) (fun ll => Sees.bind ?_ (fun _ => Sees.bind (Sees.flush env)
    (fun _ => Sees.pure _)))
  induction n generalizing start ll with
  | zero => exact Sees.pure _
  | succ n ih =>
    unfold drLoop
    refine Sees.bind (Sees.drStages env _ _ _ _ _) (fun r => ?_)
    cases r with
    | none => exact Sees.bind (Sees.issue env _ _) (fun _ => ih _ _)
    | some p => exact Sees.bind (Sees.issue env _ _) (fun _ => ih _ _)

theorem Sees.deCreate (gap N gen n : Nat) (left : Nat) : ∀ (c : Nat) (st : DEState S D),
    Sees env step (deCreate (attachSeen env step) gap N gen n left c st) := by
  induction left with
  | zero => intro c st; exact Sees.pure _
  | succ left ih =>
    intro c st
    unfold SampleFlow.deCreate
    refine Sees.ite (Sees.pure _) (Sees.bind ?_ (fun t => Sees.bind ?_ (fun r =>
      Sees.bind (ih _ _) (fun rs => Sees.pure _))))
    · unfold deMakeTask
      refine Sees.bind ?_ (fun _ => Sees.bind (Sees.draw env) (fun _ => Sees.pure _))
      unfold deTrial
      refine Sees.ite ?_ ?_
      · exact Sees.bind (Sees.drawInt env _) (fun _ => Sees.bind (Sees.atIndex _ _) (fun _ =>
          Sees.bind (Sees.drawInt env _) (fun _ => Sees.bind (Sees.atIndex _ _) (fun _ =>
          Sees.bind (Sees.atIndex _ _) (fun _ => Sees.bind (Sees.crossover env _ _ _) (fun _ =>
          Sees.propose env _ _))))))
      · exact Sees.bind (Sees.atIndex _ _) (fun _ => Sees.propose env _ _)
    · have h : Sees env step (deRunTask (attachSeen env step) c t st) := by
        unfold deRunTask
        exact Sees.bind (Sees.logLikelihood env _) (fun _ => Sees.bind (Sees.atIndex _ _) (fun _ =>
          Sees.ite (Sees.pure _) (Sees.bind (Sees.atIndex _ _) (fun _ => Sees.pure _))))
      intro w
      have h := h w
      unfold deRunCaptured
      rcases h1 : deRunTask (attachSeen env step) c t st w with ⟨tr, ((e | f) | ⟨acc, st'⟩), w'⟩ <;> rw [h1] at h <;> exact h

theorem Sees.deSample (starts : List S) (gap n : Nat) :
    Sees env step (deSample (attachSeen env step) starts gap n) := by
  unfold SampleFlow.deSample
  refine Sees.ite ?_ (Sees.throw _)
  apply Sees.scopeExit env
  have hini : ∀ xs : List S, Sees env step (deInitial (attachSeen env step) xs) := by
    intro xs
    induction xs with
    | nil => exact Sees.pure _
    | cons x xs ih => exact Sees.bind (Sees.logLikelihood env _) (fun _ => Sees.bind ih (fun _ => Sees.pure _))
  refine Sees.bind (hini starts) (fun lls => ?_)
  have hloop : ∀ (fuel gen : Nat) (st : DEState S D),
      Sees env step (deLoop (attachSeen env step) gap n starts.length fuel gen st) := by
    intro fuel
    induction fuel with
    | zero => intro gen st; exact Sees.pure _
    | succ fuel ih =>
      intro gen st
      unfold deLoop
      refine Sees.ite (Sees.bind ?_ (fun _ => ih _ _)) (Sees.pure _)
      unfold deGeneration
      refine Sees.bind (Sees.deCreate env _ _ _ _ _ _ _) (fun rs => Sees.bind ?_ (fun _ => Sees.pure _))
      have hiss : ∀ left c, Sees env step (deIssue (attachSeen env step) n gen starts.length rs.1 rs.2 left c) := by
        intro left
        induction left with
        | zero => intro c; exact Sees.pure _
        | succ left ih2 =>
          intro c
          unfold deIssue
          refine Sees.ite (Sees.pure _) (Sees.bind (Sees.atIndex _ _) (fun r => Sees.bind ?_ (fun _ =>
            Sees.bind (Sees.atIndex _ _) (fun _ => Sees.bind (Sees.atIndex _ _) (fun _ =>
            Sees.bind (Sees.issue env _ _) (fun _ => ih2 _))))))
          cases r with
          | ok a => exact Sees.pure a
          | error e => exact Sees.throw _
      exact hiss _ _
  exact hloop _ _ _

end SampleFlow.Adaptive
