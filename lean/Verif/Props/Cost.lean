import Verif.Proofs.Cost
import Verif.Props.Metropolis
import Verif.Props.DelayedRejection
import Verif.Props.DifferentialEvaluation

/-!
# Property C57: how often the log likelihood is evaluated

The log likelihood is usually the expensive part of sampling (for example, the solution of a differential equation).  Every
sampler evaluates it once for each starting point and once for each proposal, and never again for a sample already
known.
-/

universe u

namespace SampleFlow

open Spec

theorem flatMap_singleton_fun {α β : Type} (f : α → β) (l : List α) : l.flatMap (fun a => [f a]) = l.map f := by
  induction l with
  | nil => rfl
  | cons a l ih => rw [List.flatMap_cons, ih]; rfl

variable {W : Type u} {S D E : Type} [FloatOps D]

/-- C57: `MetropolisHastings::sample` evaluates the likelihood at most `n + 1` times in every run, and in a run that
returns, exactly at the starting point and at the `n` proposals. -/
theorem C57_metropolisHastings (env : World W S D E) (start : S) (n : Nat) (w : W) :
    (evaluatedOf (mhSample env start n w).1).length ≤ n + 1 ∧
    ∀ (L : S → D), LikelihoodIs env L → ∀ last, (mhSample env start n w).2.1 = .ok last →
      evaluatedOf (mhSample env start n w).1 = start :: trialsOf (mhSample env start n w).1 ∧
      (trialsOf (mhSample env start n w).1).length = n := by
  refine ⟨AtMost.mhSample env start n w, fun L hL last hr => ?_⟩
  obtain ⟨moves, h1, -, -, h4, -⟩ := C38_chain env L hL start n w last hr
  have e1 : ∀ m : Move S D, evaluatedOf (m.events L) = [m.trial] := by
    intro m
    unfold Move.events
    rw [evaluatedOf_append, evaluatedOf_append, evaluatedOf_drew]; rfl
  have e2 : ∀ m : Move S D, trialsOf (m.events L) = [m.trial] := by
    intro m
    unfold Move.events
    rw [trialsOf_append, trialsOf_append, trialsOf_drew]; rfl
  have a1 : trialsOf (mhSample env start n w).1 = moves.map (fun m => m.trial) := by
    rw [h4, ← List.singleton_append, trialsOf_append, trialsOf_append, trialsOf_flatMap]
    simp only [e2, flatMap_singleton_fun]
    simp [trialsOf]
  have a2 : evaluatedOf (mhSample env start n w).1 = start :: moves.map (fun m => m.trial) := by
    rw [h4, ← List.singleton_append, evaluatedOf_append, evaluatedOf_append, evaluatedOf_flatMap]
    simp only [e1, flatMap_singleton_fun]
    simp [evaluatedOf]
  rw [a1, a2]
  exact ⟨rfl, by simpa using h1⟩

omit [FloatOps D] in
theorem triedEvents_cost (L : S → D) (prev : S) (tried : List (S × D × List D)) : ∀ before,
    evaluatedOf (triedEvents L prev before tried) = tried.map (fun t => t.1) ∧
    trialsOf (triedEvents L prev before tried) = tried.map (fun t => t.1) := by
  induction tried with
  | nil => intro b; exact ⟨rfl, rfl⟩
  | cons t ts ih =>
    intro b
    obtain ⟨y, r, ds⟩ := t
    unfold triedEvents
    rw [evaluatedOf_append, evaluatedOf_append, evaluatedOf_drew, trialsOf_append, trialsOf_append, trialsOf_drew,
      (ih _).1, (ih _).2]
    exact ⟨rfl, rfl⟩

/-- C57: `DelayedRejectionMetropolisHastings::sample` evaluates the likelihood at most `1 + n (max_delays + 1)` times in
every run, and in a run that returns, exactly at the starting point and at the proposals, of which there are at least
`n`. -/
theorem C57_delayedRejection (checked : Bool) (env : World W S D (Stop E)) (start : S) (maxDelays n : Nat) (w : W) :
    (evaluatedOf (drSample checked env start maxDelays n w).1).length ≤ 1 + n * (maxDelays + 1) ∧
    ((checked = false ∨ maxDelays = 0) → ∀ (L : S → D), LikelihoodIs env L →
      ∀ last, (drSample checked env start maxDelays n w).2.1 = .ok last →
      evaluatedOf (drSample checked env start maxDelays n w).1 =
        start :: trialsOf (drSample checked env start maxDelays n w).1 ∧
      n ≤ (trialsOf (drSample checked env start maxDelays n w).1).length) := by
  refine ⟨AtMost.drSample env checked start maxDelays n w, fun hdef L hL last hr => ?_⟩
  obtain ⟨moves, h1, -, h3, h4⟩ := C44_chain checked maxDelays hdef env L hL start n w last hr
  have e1 : ∀ m : DRMove S D, evaluatedOf (m.events L) = m.tried.map (fun t => t.1) := by
    intro m
    unfold DRMove.events
    rw [evaluatedOf_append, (triedEvents_cost L _ _ _).1]; simp [evaluatedOf]
  have e2 : ∀ m : DRMove S D, trialsOf (m.events L) = m.tried.map (fun t => t.1) := by
    intro m
    unfold DRMove.events
    rw [trialsOf_append, (triedEvents_cost L _ _ _).2]; simp [trialsOf]
  have a1 : trialsOf (drSample checked env start maxDelays n w).1 = moves.flatMap (fun m => m.tried.map (fun t => t.1)) := by
    rw [h4, ← List.singleton_append, trialsOf_append, trialsOf_append, trialsOf_flatMap]
    simp only [e2]
    simp [trialsOf]
  have a2 : evaluatedOf (drSample checked env start maxDelays n w).1 =
      start :: moves.flatMap (fun m => m.tried.map (fun t => t.1)) := by
    rw [h4, ← List.singleton_append, evaluatedOf_append, evaluatedOf_append, evaluatedOf_flatMap]
    simp only [e1]
    simp [evaluatedOf]
  rw [a1, a2]
  refine ⟨rfl, ?_⟩
  rw [← h1]
  clear h1 h4 a1 a2 hr
  have h5 : ∀ m ∈ moves, 1 ≤ m.tried.length := fun m hm => (h3 m hm).1.1
  clear h3
  induction moves with
  | nil => exact Nat.zero_le _
  | cons m ms ih =>
    have i1 := ih (fun m hm => h5 m (List.mem_cons_of_mem _ hm))
    have i2 := h5 m List.mem_cons_self
    simp only [List.flatMap_cons, List.length_append, List.length_cons, List.length_map]
    omega

/-- C57: `DifferentialEvaluationMetropolisHastings::sample` evaluates the likelihood at most `n_chains + n` times in every
run, and in a run that returns, exactly at the starting points and at the `n` proposals. -/
theorem C57_differentialEvaluation (env : World W S D (Stop E)) (starts : List S) (gap n : Nat) (w : W) :
    (evaluatedOf (deSample env starts gap n w).1).length ≤ starts.length + n ∧
    ∀ (L : S → D), LikelihoodIs env L → (deSample env starts gap n w).2.1 = .ok () →
      evaluatedOf (deSample env starts gap n w).1 = starts ++ trialsOf (deSample env starts gap n w).1 ∧
      (trialsOf (deSample env starts gap n w).1).length = n := by
  refine ⟨AtMost.deSample env starts gap n w, fun L hL hr => ?_⟩
  obtain ⟨gens, -, -, h3, h4⟩ := C51_generations env L hL starts gap n w hr
  have i1 : ∀ (g : List (DEMove S D)) (c : Nat), evaluatedOf (issueEvents L c g) = [] ∧ trialsOf (issueEvents L c g) = [] := by
    intro g
    induction g with
    | nil => intro c; exact ⟨rfl, rfl⟩
    | cons m ms ih => intro c; exact ih (c + 1)
  have i2 : ∀ m : DEMove S D, evaluatedOf (m.events L starts.length) = [m.trial] ∧
      trialsOf (m.events L starts.length) = [m.trial] := by
    intro m
    unfold DEMove.events DEMove.trialEvents
    cases m.crossing <;> exact ⟨rfl, rfl⟩
  have e1 : ∀ g : List (DEMove S D), evaluatedOf (generationEvents L starts.length g) = g.map (fun m => m.trial) := by
    intro g
    unfold generationEvents
    rw [evaluatedOf_append, (i1 g 0).1, evaluatedOf_flatMap]
    simp only [fun m => (i2 m).1, flatMap_singleton_fun]
    simp
  have e2 : ∀ g : List (DEMove S D), trialsOf (generationEvents L starts.length g) = g.map (fun m => m.trial) := by
    intro g
    unfold generationEvents
    rw [trialsOf_append, (i1 g 0).2, trialsOf_flatMap]
    simp only [fun m => (i2 m).2, flatMap_singleton_fun]
    simp
  have s1 : ∀ l : List S, evaluatedOf (l.map (fun x => Event.logLikelihood x (L x))) = l ∧
      trialsOf (l.map (fun x => Event.logLikelihood x (L x))) = [] := by
    intro l
    induction l with
    | nil => exact ⟨rfl, rfl⟩
    | cons x xs ih => exact ⟨congrArg (x :: ·) ih.1, ih.2⟩
  have a1 : trialsOf (deSample env starts gap n w).1 = gens.flatten.map (fun m => m.trial) := by
    rw [h4, trialsOf_append, trialsOf_append, trialsOf_flatMap, (s1 starts).2]
    simp only [e2]
    simp [trialsOf, List.map_flatten, List.flatMap_def]
  have a2 : evaluatedOf (deSample env starts gap n w).1 = starts ++ gens.flatten.map (fun m => m.trial) := by
    rw [h4, evaluatedOf_append, evaluatedOf_append, evaluatedOf_flatMap, (s1 starts).1]
    simp only [e1]
    simp [evaluatedOf, List.map_flatten, List.flatMap_def]
  rw [a1, a2]
  exact ⟨rfl, by rw [List.length_map]; exact h3⟩

/-! ## examples -/

section
local instance costOps : FloatOps Int := toyOps

/-- Premises are met; a run with three proposals, one of which is rejected. -/
example : (mhSample (toyWorld (E := Empty)) 3 3 [1, 7, 1]).2.1 = .ok 5 ∧
    evaluatedOf (mhSample (toyWorld (E := Empty)) 3 3 [1, 7, 1]).1 = [3, 4, 5, 5] := ⟨rfl, rfl⟩

example : LikelihoodIs (toyWorld (E := Empty)) (fun x => x) := by
  rintro x w d w' h
  simp only [toyWorld, Prod.mk.injEq, Except.ok.injEq] at h
  exact h.1.symm

end

end SampleFlow
