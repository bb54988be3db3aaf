import Verif.Proofs.Producers

/-! No part of a producer flushes except its end. -/

universe u

namespace SampleFlow

open Spec

variable {W : Type u} {S D E : Type}

/-- the program never flushes -/
def NoFlush {α : Type} (p : Prog W S D E α) : Prop := ∀ w, Event.flushed ∉ (p w).1

theorem NoFlush.pure {α : Type} (a : α) : NoFlush (Pure.pure a : Prog W S D E α) := by
  intro w h; simp [Prog.pure_run] at h

theorem NoFlush.throw {α : Type} (e : E) : NoFlush (Prog.throw e : Prog W S D E α) := by
  intro w h; simp [Prog.throw] at h

theorem NoFlush.bind {α β : Type} {p : Prog W S D E α} {f : α → Prog W S D E β} (hp : NoFlush p)
    (hf : ∀ a, NoFlush (f a)) : NoFlush (p >>= f) := by
  intro w h
  rcases h1 : p w with ⟨tr, (e | a), w'⟩
  · rw [Prog.bind_error h1] at h
    exact hp w (by rw [h1]; exact h)
  · rw [Prog.bind_ok h1] at h
    rcases List.mem_append.mp h with h | h
    · exact hp w (by rw [h1]; exact h)
    · exact hf a w' h

theorem NoFlush.ite {α : Type} {c : Prop} [Decidable c] {p q : Prog W S D E α} (hp : NoFlush p) (hq : NoFlush q) :
    NoFlush (if c then p else q) := by
  split <;> assumption

variable (env : World W S D E)

theorem NoFlush.logLikelihood (x : S) : NoFlush (callLogLikelihood env x) := by
  intro w h
  rcases h1 : env.logLikelihood x w with ⟨(e | d), w'⟩ <;> simp [callLogLikelihood, h1] at h

theorem NoFlush.propose (x : S) (l : List S) : NoFlush (callPropose env x l) := by
  intro w h
  rcases h1 : env.propose x l w with ⟨(e | ⟨y, r⟩), w'⟩ <;> simp [callPropose, h1] at h

theorem NoFlush.crossover (x a b : S) : NoFlush (callCrossover env x a b) := by
  intro w h
  rcases h1 : env.crossover x a b w with ⟨(e | y), w'⟩ <;> simp [callCrossover, h1] at h

theorem NoFlush.draw : NoFlush (draw env) := by
  intro w h; simp [SampleFlow.draw] at h

theorem NoFlush.drawInt (n : Nat) : NoFlush (drawInt env n) := by
  intro w h; simp [SampleFlow.drawInt] at h

theorem NoFlush.issue (x : S) (a : Aux D) : NoFlush (callIssue env x a) := by
  intro w h; simp [callIssue] at h

/-- a function guarded by `ScopeExit`, without other flushes -/
theorem endsWithFlush_scopeExit {α : Type} {p : Prog W S D E α} (hp : NoFlush p) (w : W) :
    EndsWithFlush (Prog.withScopeExit (scopeExitFlush env) p w).1 :=
  ⟨(p w).1, 0, rfl, hp w⟩

/-- the same with an explicit flush at the end of the body -/
theorem endsWithFlush_scopeExit' {α : Type} {p : Prog W S D E α} (hp : NoFlush p) (w : W) :
    EndsWithFlush (Prog.withScopeExit (scopeExitFlush env)
      (p >>= fun a => callFlush env >>= fun _ => (Pure.pure a : Prog W S D E α)) w).1 := by
  rcases h1 : p w with ⟨tr, (e | a), w'⟩
  · refine ⟨tr, 0, ?_, by have := hp w; rwa [h1] at this⟩
    unfold Prog.withScopeExit
    simp only
    rw [Prog.bind_error h1]; rfl
  · refine ⟨tr, 1, ?_, by have := hp w; rwa [h1] at this⟩
    unfold Prog.withScopeExit
    simp only
    rw [Prog.bind_ok h1]
    have : callFlush env w' = ([.flushed], .ok (), env.flush w') := rfl
    simp only
    rw [Prog.bind_ok this]
    have h2 : (Pure.pure a : Prog W S D E α) (env.flush w') = ([], .ok a, env.flush w') := rfl
    rw [h2]
    simp [scopeExitFlush]

theorem NoFlush.rangeLoop (range : List S) : NoFlush (rangeLoop env range) := by
  induction range with
  | nil => exact NoFlush.pure ()
  | cons x xs ih => exact NoFlush.bind (NoFlush.issue env x []) (fun _ => ih)

variable [FloatOps D]

theorem NoFlush.mhAccept (a b r : D) : NoFlush (mhAccept env a b r) := by
  intro w h
  obtain ⟨draws, acc, w', h1, -⟩ := mhAccept_run env a b r w
  rw [h1] at h
  simp at h

theorem NoFlush.mhLoop (n : Nat) : ∀ (cur : S) (ll : D), NoFlush (mhLoop env n cur ll) := by
  induction n with
  | zero => intro cur ll; exact NoFlush.pure cur
  | succ n ih =>
    intro cur ll
    unfold SampleFlow.mhLoop
    refine NoFlush.bind (NoFlush.propose env cur []) (fun p => ?_)
    refine NoFlush.bind (NoFlush.logLikelihood env _) (fun d => ?_)
    refine NoFlush.bind (NoFlush.mhAccept env _ _ _) (fun acc => ?_)
    exact NoFlush.ite (NoFlush.bind (NoFlush.issue env _ _) (fun _ => ih _ _))
      (NoFlush.bind (NoFlush.issue env _ _) (fun _ => ih _ _))

end SampleFlow

namespace SampleFlow

theorem Prog.bind_assoc' {W : Type u} {S D E α β γ : Type} (p : Prog W S D E α) (f : α → Prog W S D E β)
    (g : β → Prog W S D E γ) : ((p >>= f) >>= g) = (p >>= fun a => f a >>= g) := by
  funext w
  rcases h1 : p w with ⟨tr, (e | a), w'⟩
  · rw [Prog.bind_error (Prog.bind_error h1), Prog.bind_error h1]
  · rw [Prog.bind_ok h1]
    rcases h2 : f a w' with ⟨tr2, (e | b), w2⟩
    · have : (p >>= f) w = (tr ++ tr2, .error e, w2) := by rw [Prog.bind_ok h1, h2]
      rw [Prog.bind_error this, Prog.bind_error h2]
    · have : (p >>= f) w = (tr ++ tr2, .ok b, w2) := by rw [Prog.bind_ok h1, h2]
      rw [Prog.bind_ok this, Prog.bind_ok h2]
      simp

end SampleFlow
