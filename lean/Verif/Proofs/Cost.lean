import Verif.Spec.Cost
import Verif.Proofs.DifferentialEvaluation

/-! An upper bound on the number of likelihood evaluations of a program, in every run. -/

universe u

namespace SampleFlow

open Spec

section
variable {W : Type u} {S D E : Type}

theorem evaluatedOf_append (a b : List (Event S D)) : evaluatedOf (a ++ b) = evaluatedOf a ++ evaluatedOf b :=
  List.filterMap_append

theorem trialsOf_append (a b : List (Event S D)) : trialsOf (a ++ b) = trialsOf a ++ trialsOf b :=
  List.filterMap_append

theorem evaluatedOf_flatMap {α : Type} (l : List α) (f : α → List (Event S D)) :
    evaluatedOf (l.flatMap f) = l.flatMap (fun a => evaluatedOf (f a)) := by
  induction l with
  | nil => rfl
  | cons a l ih => rw [List.flatMap_cons, evaluatedOf_append, ih, List.flatMap_cons]

theorem trialsOf_flatMap {α : Type} (l : List α) (f : α → List (Event S D)) :
    trialsOf (l.flatMap f) = l.flatMap (fun a => trialsOf (f a)) := by
  induction l with
  | nil => rfl
  | cons a l ih => rw [List.flatMap_cons, trialsOf_append, ih, List.flatMap_cons]

theorem evaluatedOf_drew (l : List D) : evaluatedOf (l.map (Event.drew : D → Event S D)) = [] := by
  induction l with
  | nil => rfl
  | cons a l ih => exact ih

theorem trialsOf_drew (l : List D) : trialsOf (l.map (Event.drew : D → Event S D)) = [] := by
  induction l with
  | nil => rfl
  | cons a l ih => exact ih

/-- at most `k` evaluations, in every run -/
def AtMost {α : Type} (p : Prog W S D E α) (k : Nat) : Prop := ∀ w, (evaluatedOf (p w).1).length ≤ k

theorem AtMost.mono {α : Type} {p : Prog W S D E α} {k l : Nat} (h : AtMost p k) (hkl : k ≤ l) : AtMost p l :=
  fun w => Nat.le_trans (h w) hkl

theorem AtMost.pure {α : Type} (a : α) : AtMost (Pure.pure a : Prog W S D E α) 0 := fun _ => Nat.le_refl _

theorem AtMost.throw {α : Type} (e : E) : AtMost (Prog.throw e : Prog W S D E α) 0 := fun _ => Nat.le_refl _

theorem AtMost.bind {α β : Type} {p : Prog W S D E α} {f : α → Prog W S D E β} {k l : Nat} (hp : AtMost p k)
    (hf : ∀ a, AtMost (f a) l) : AtMost (p >>= f) (k + l) := by
  intro w
  have h := hp w
  rcases h1 : p w with ⟨tr, (e | a), w'⟩
  · rw [Prog.bind_error h1]
    rw [h1] at h
    exact Nat.le_trans h (Nat.le_add_right _ _)
  · rw [Prog.bind_ok h1]
    rw [h1] at h
    simp only at h ⊢
    rw [evaluatedOf_append, List.length_append]
    exact Nat.add_le_add h (hf a w')

/-- sequence with a first part that evaluates nothing -/
theorem AtMost.bind0 {α β : Type} {p : Prog W S D E α} {f : α → Prog W S D E β} {l : Nat} (hp : AtMost p 0)
    (hf : ∀ a, AtMost (f a) l) : AtMost (p >>= f) l := by
  have := AtMost.bind hp hf; rwa [Nat.zero_add] at this

/-- sequence with a second part that evaluates nothing -/
theorem AtMost.bind_0 {α β : Type} {p : Prog W S D E α} {f : α → Prog W S D E β} {l : Nat} (hp : AtMost p l)
    (hf : ∀ a, AtMost (f a) 0) : AtMost (p >>= f) l := AtMost.bind hp hf

theorem AtMost.ite {α : Type} {c : Prop} [Decidable c] {p q : Prog W S D E α} {k : Nat} (hp : AtMost p k) (hq : AtMost q k) :
    AtMost (if c then p else q) k := by
  split <;> assumption

variable (env : World W S D E)

theorem AtMost.logLikelihood (x : S) : AtMost (callLogLikelihood env x) 1 := by
  intro w
  rcases h1 : env.logLikelihood x w with ⟨(e | d), w'⟩ <;> simp [callLogLikelihood, h1, evaluatedOf]

theorem AtMost.propose (x : S) (l : List S) : AtMost (callPropose env x l) 0 := by
  intro w
  rcases h1 : env.propose x l w with ⟨(e | ⟨y, r⟩), w'⟩ <;> simp [callPropose, h1, evaluatedOf]

theorem AtMost.crossover (x a b : S) : AtMost (callCrossover env x a b) 0 := by
  intro w
  rcases h1 : env.crossover x a b w with ⟨(e | y), w'⟩ <;> simp [callCrossover, h1, evaluatedOf]

theorem AtMost.draw : AtMost (draw env) 0 := fun _ => Nat.le_refl _

theorem AtMost.drawInt (n : Nat) : AtMost (drawInt env n) 0 := fun _ => Nat.le_refl _

theorem AtMost.issue (x : S) (a : Aux D) : AtMost (callIssue env x a) 0 := fun _ => Nat.le_refl _

theorem AtMost.flush : AtMost (callFlush env) 0 := fun _ => Nat.le_refl _

theorem AtMost.scopeExit {α : Type} {p : Prog W S D E α} {k : Nat} (hp : AtMost p k) :
    AtMost (Prog.withScopeExit (scopeExitFlush env) p) k := by
  intro w
  have h := hp w
  unfold Prog.withScopeExit
  rw [evaluatedOf_append]
  have : evaluatedOf (scopeExitFlush env (p w).2.2).1 = [] := rfl
  rw [this, List.append_nil]
  exact h

variable [FloatOps D]

theorem AtMost.mhAccept (a b r : D) : AtMost (mhAccept env a b r) 0 := by
  unfold SampleFlow.mhAccept
  exact AtMost.ite (AtMost.bind0 (AtMost.ite (AtMost.bind0 (AtMost.draw env) (fun _ => AtMost.pure _)) (AtMost.pure _))
    (fun _ => AtMost.ite (AtMost.pure _) (AtMost.ite (AtMost.pure _) (AtMost.bind0 (AtMost.draw env)
      (fun _ => AtMost.pure _))))) (AtMost.pure _)

theorem AtMost.mhSample (start : S) (n : Nat) : AtMost (mhSample env start n) (n + 1) := by
  apply AtMost.scopeExit
  rw [Nat.add_comm]
  refine AtMost.bind (AtMost.logLikelihood env _) (fun ll => AtMost.bind_0 ?_ (fun _ => AtMost.bind0 (AtMost.flush env)
    (fun _ => AtMost.pure _)))
  induction n generalizing start ll with
  | zero => exact AtMost.pure _
  | succ n ih =>
    unfold mhLoop
    rw [Nat.add_comm]
    refine AtMost.bind0 (AtMost.propose env _ _) (fun p => AtMost.bind (AtMost.logLikelihood env _) (fun d =>
      AtMost.bind0 (AtMost.mhAccept env _ _ _) (fun acc => AtMost.ite
        (AtMost.bind0 (AtMost.issue env _ _) (fun _ => ih _ _)) (AtMost.bind0 (AtMost.issue env _ _) (fun _ => ih _ _)))))

end

section
variable {W : Type u} {S D E : Type} (env : World W S D (Stop E))

theorem AtMost.liftFault {α : Type} (r : Except Fault α) :
    AtMost (liftFault r : Prog W S D (Stop E) α) 0 := by
  cases r with
  | ok a => exact AtMost.pure a
  | error f => exact AtMost.throw _

theorem AtMost.atIndex {α : Type} (l : List α) (i : Nat) :
    AtMost (atIndex l i : Prog W S D (Stop E) α) 0 := by
  unfold SampleFlow.atIndex
  cases l[i]? with
  | none => exact AtMost.throw _
  | some a => exact AtMost.pure a

variable [FloatOps D]

theorem AtMost.drStages (checked : Bool) (cur : S) (ll : D) (left : Nat) : ∀ l : List (S × D),
    AtMost (drStages checked env cur ll left l) left := by
  induction left with
  | zero => intro l; exact AtMost.pure _
  | succ left ih =>
    intro l
    unfold SampleFlow.drStages
    rw [Nat.add_comm]
    refine AtMost.bind0 (AtMost.propose env _ _) (fun p => AtMost.bind (AtMost.logLikelihood env _) (fun d =>
      AtMost.bind0 (AtMost.liftFault _) (fun a => AtMost.bind0 (AtMost.ite (AtMost.pure _)
        (AtMost.bind0 (AtMost.draw env) (fun _ => AtMost.pure _))) (fun acc => AtMost.ite
          ((AtMost.pure _).mono (Nat.zero_le _)) (ih _)))))

theorem AtMost.drSample (checked : Bool) (start : S) (maxDelays n : Nat) :
    AtMost (drSample checked env start maxDelays n) (1 + n * (maxDelays + 1)) := by
  apply AtMost.scopeExit
  refine AtMost.bind (AtMost.logLikelihood env _) (fun ll => AtMost.bind_0 ?_ (fun _ => AtMost.bind0 (AtMost.flush env)
    (fun _ => AtMost.pure _)))
  induction n generalizing start ll with
  | zero => exact (AtMost.pure _).mono (Nat.zero_le _)
  | succ n ih =>
    unfold drLoop
    rw [Nat.succ_mul, Nat.add_comm (n * _)]
    refine AtMost.bind (AtMost.drStages env _ _ _ _ _) (fun r => ?_)
    cases r with
    | none => exact AtMost.bind0 (AtMost.issue env _ _) (fun _ => ih _ _)
    | some p => exact AtMost.bind0 (AtMost.issue env _ _) (fun _ => ih _ _)

theorem AtMost.deCreate (gap N gen n : Nat) (left : Nat) : ∀ (c : Nat) (st : DEState S D),
    AtMost (deCreate env gap n gen N left c st) (min left (n - (gen * N + c))) := by
  induction left with
  | zero => intro c st; exact (AtMost.pure _).mono (Nat.zero_le _)
  | succ left ih =>
    intro c st
    unfold SampleFlow.deCreate
    by_cases hc : gen * N + c ≥ n
    · rw [if_pos hc]; exact (AtMost.pure _).mono (Nat.zero_le _)
    rw [if_neg hc]
    refine AtMost.bind0 ?_ (fun t => AtMost.mono (k := 1 + (min left (n - (gen * N + (c + 1))))) (AtMost.bind ?_ (fun r =>
      AtMost.bind_0 (ih _ _) (fun rs => AtMost.pure _))) (by omega))
    · unfold deMakeTask
      refine AtMost.bind0 ?_ (fun _ => AtMost.bind0 (AtMost.draw env) (fun _ => AtMost.pure _))
      unfold deTrial
      refine AtMost.ite ?_ ?_
      · exact AtMost.bind0 (AtMost.drawInt env _) (fun _ => AtMost.bind0 (AtMost.atIndex _ _) (fun _ =>
          AtMost.bind0 (AtMost.drawInt env _) (fun _ => AtMost.bind0 (AtMost.atIndex _ _) (fun _ =>
          AtMost.bind0 (AtMost.atIndex _ _) (fun _ => AtMost.bind0 (AtMost.crossover env _ _ _) (fun _ =>
          AtMost.propose env _ _))))))
      · exact AtMost.bind0 (AtMost.atIndex _ _) (fun _ => AtMost.propose env _ _)
    · have h : AtMost (deRunTask env c t st) 1 := by
        unfold deRunTask
        exact AtMost.bind_0 (AtMost.logLikelihood env _) (fun _ => AtMost.bind0 (AtMost.atIndex _ _) (fun _ =>
          AtMost.ite (AtMost.pure _) (AtMost.bind0 (AtMost.atIndex _ _) (fun _ => AtMost.pure _))))
      intro w
      have h := h w
      unfold deRunCaptured
      rcases h1 : deRunTask env c t st w with ⟨tr, ((e | f) | ⟨acc, st'⟩), w'⟩ <;> rw [h1] at h <;> exact h

theorem AtMost.deIssue (n gen N : Nat) (rs : List (Except E Bool)) (st : DEState S D) : ∀ left c,
    AtMost (deIssue env n gen N rs st left c) 0 := by
  intro left
  induction left with
  | zero => intro c; exact AtMost.pure _
  | succ left ih2 =>
    intro c
    unfold SampleFlow.deIssue
    refine AtMost.ite (AtMost.pure _) (AtMost.bind0 (AtMost.atIndex _ _) (fun r => AtMost.bind0 ?_ (fun _ =>
      AtMost.bind0 (AtMost.atIndex _ _) (fun _ => AtMost.bind0 (AtMost.atIndex _ _) (fun _ =>
      AtMost.bind0 (AtMost.issue env _ _) (fun _ => ih2 _))))))
    cases r with
    | ok a => exact AtMost.pure a
    | error e => exact AtMost.throw _

theorem AtMost.deSample (starts : List S) (gap n : Nat) :
    AtMost (deSample env starts gap n) (starts.length + n) := by
  unfold SampleFlow.deSample
  refine AtMost.ite ?_ ((AtMost.throw _).mono (Nat.zero_le _))
  apply AtMost.scopeExit
  have hini : ∀ xs : List S, AtMost (deInitial env xs) xs.length := by
    intro xs
    induction xs with
    | nil => exact AtMost.pure _
    | cons x xs ih =>
      rw [List.length_cons, Nat.add_comm]
      exact AtMost.bind (AtMost.logLikelihood env _) (fun _ => AtMost.bind_0 ih (fun _ => AtMost.pure _))
  refine AtMost.bind (hini starts) (fun lls => ?_)
  have hloop : ∀ (fuel gen : Nat) (st : DEState S D),
      AtMost (deLoop env gap n starts.length fuel gen st) (n - gen * starts.length) := by
    intro fuel
    induction fuel with
    | zero => intro gen st; exact (AtMost.pure _).mono (Nat.zero_le _)
    | succ fuel ih =>
      intro gen st
      unfold deLoop
      refine AtMost.ite ?_ ((AtMost.pure _).mono (Nat.zero_le _))
      refine AtMost.mono (AtMost.bind (k := min starts.length (n - (gen * starts.length + 0)))
        (l := n - (gen + 1) * starts.length) ?_ (fun _ => ih _ _)) (by rw [Nat.succ_mul]; omega)
      unfold deGeneration
      exact AtMost.bind_0 (AtMost.deCreate env _ _ _ _ _ _ _) (fun rs => AtMost.bind0 (AtMost.deIssue env _ _ _ _ _ _ _)
        (fun _ => AtMost.pure _))
  have := hloop n 0 ⟨starts, starts, lls⟩
  simpa using this

end

end SampleFlow
