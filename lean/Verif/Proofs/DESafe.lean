import Verif.Proofs.DifferentialEvaluation

/-! The differential evaluation sampler never reads out of bounds. -/

universe u

namespace SampleFlow

open Spec

variable {W : Type u} {S D E : Type}

/-- the program does not fault, and its result satisfies `Q` -/
def Safe {α : Type} (Q : α → Prop) (p : Prog W S D (Stop E) α) : Prop :=
  ∀ w, (∀ f, (p w).2.1 ≠ .error (.fault f)) ∧ (∀ a, (p w).2.1 = .ok a → Q a)

theorem Safe.bind {α β : Type} {Q : α → Prop} {R : β → Prop} {p : Prog W S D (Stop E) α}
    {f : α → Prog W S D (Stop E) β} (hp : Safe Q p) (hf : ∀ a, Q a → Safe R (f a)) : Safe R (p >>= f) := by
  intro w
  have h := hp w
  rcases h1 : p w with ⟨tr, (e | a), w'⟩
  · rw [h1] at h
    rw [Prog.bind_error h1]
    exact ⟨fun f => by have := h.1 f; simpa using this, by intro b hb; cases hb⟩
  · rw [h1] at h
    rw [Prog.bind_ok h1]
    exact hf a (h.2 a rfl) w'

theorem Safe.pure {α : Type} {Q : α → Prop} {a : α} (h : Q a) : Safe Q (Pure.pure a : Prog W S D (Stop E) α) := by
  intro w
  refine ⟨by intro f hf; simp [Prog.pure_run] at hf, ?_⟩
  intro b hb
  simp only [Prog.pure_run, Except.ok.injEq] at hb
  exact hb ▸ h

theorem Safe.atIndex {α : Type} {l : List α} {i : Nat} (h : i < l.length) :
    Safe (fun _ => True) (atIndex l i : Prog W S D (Stop E) α) := by
  have : (SampleFlow.atIndex l i : Prog W S D (Stop E) α) = Pure.pure l[i] := by
    unfold SampleFlow.atIndex; rw [List.getElem?_eq_getElem h]
  rw [this]; exact Safe.pure trivial

/-- The user's functions and the consumers fail only by throwing exceptions, and random integers are in the
requested range. -/
structure Polite (env : World W S D (Stop E)) : Prop where
  ll : ∀ x w f w', env.logLikelihood x w ≠ (.error (.fault f), w')
  propose : ∀ x l w f w', env.propose x l w ≠ (.error (.fault f), w')
  crossover : ∀ x a b w f w', env.crossover x a b w ≠ (.error (.fault f), w')
  issue : ∀ x a w f w', env.issue x a w ≠ (.error (.fault f), w')
  int : ∀ k w, (env.uniformInt k w).1 ≤ k

variable {env : World W S D (Stop E)}

theorem Safe.logLikelihood (h : Polite env) (x : S) : Safe (fun _ => True) (callLogLikelihood env x) := by
  intro w
  refine ⟨?_, fun _ _ => trivial⟩
  intro f
  unfold callLogLikelihood
  rcases h1 : env.logLikelihood x w with ⟨(e | d), w1⟩
  · simp only [ne_eq, Except.error.injEq]; rintro rfl; exact h.ll _ _ _ _ h1
  · simp

theorem Safe.propose (h : Polite env) (x : S) (l : List S) : Safe (fun _ => True) (callPropose env x l) := by
  intro w
  refine ⟨?_, fun _ _ => trivial⟩
  intro f
  unfold callPropose
  rcases h1 : env.propose x l w with ⟨(e | ⟨y, r⟩), w1⟩
  · simp only [ne_eq, Except.error.injEq]; rintro rfl; exact h.propose _ _ _ _ _ h1
  · simp

theorem Safe.crossover (h : Polite env) (x a b : S) : Safe (fun _ => True) (callCrossover env x a b) := by
  intro w
  refine ⟨?_, fun _ _ => trivial⟩
  intro f
  unfold callCrossover
  rcases h1 : env.crossover x a b w with ⟨(e | y), w1⟩
  · simp only [ne_eq, Except.error.injEq]; rintro rfl; exact h.crossover _ _ _ _ _ _ h1
  · simp

theorem Safe.issue (h : Polite env) (x : S) (a : Aux D) : Safe (fun _ => True) (callIssue env x a) := by
  intro w
  refine ⟨?_, fun _ _ => trivial⟩
  intro f
  unfold callIssue
  rcases h1 : env.issue x a w with ⟨(e | y), w1⟩
  · simp only [ne_eq, Except.error.injEq]; rintro rfl; exact h.issue _ _ _ _ _ h1
  · simp

theorem Safe.draw : Safe (fun _ => True) (draw env) := by
  intro w; exact ⟨by intro f; simp [SampleFlow.draw], fun _ _ => trivial⟩

theorem Safe.drawInt (h : Polite env) (k : Nat) : Safe (fun a => a ≤ k) (drawInt env k) := by
  intro w
  refine ⟨by intro f; simp [SampleFlow.drawInt], ?_⟩
  intro a ha
  simp only [SampleFlow.drawInt, Except.ok.injEq] at ha
  exact ha ▸ h.int k w

theorem partnerA_lt {n chain a0 : Nat} (hn : 3 ≤ n) (h : a0 ≤ n - 2) : partnerA chain a0 < n := by
  unfold partnerA; split <;> omega

theorem partnerB_lt {n chain a b0 : Nat} (hn : 3 ≤ n) (h : b0 ≤ n - 3) : partnerB chain a b0 < n := by
  unfold partnerB; split
  · omega
  · split <;> omega

theorem Safe.deTrial (h : Polite env) (gap gen : Nat) (cur : List S) (hn : 3 ≤ cur.length) (c : Nat)
    (hc : c < cur.length) : Safe (fun _ => True) (deTrial env gap gen cur c) := by
  unfold SampleFlow.deTrial
  split
  · refine Safe.bind (Safe.drawInt h _) (fun a0 ha => Safe.bind (Safe.atIndex (partnerA_lt hn ha)) (fun xa _ =>
      Safe.bind (Safe.drawInt h _) (fun b0 hb => Safe.bind (Safe.atIndex (partnerB_lt hn hb)) (fun xb _ =>
      Safe.bind (Safe.atIndex hc) (fun x _ => Safe.bind (Safe.crossover h _ _ _) (fun y _ => Safe.propose h _ _))))))
  · exact Safe.bind (Safe.atIndex hc) (fun x _ => Safe.propose h _ _)

/-- the arrays have one entry per chain -/
def Sized (n : Nat) (st : DEState S D) : Prop := st.cur.length = n ∧ st.next.length = n ∧ st.lls.length = n

variable [FloatOps D]

theorem Safe.deRunTask (h : Polite env) (n c : Nat) (hc : c < n) (t : DETask S D) (st : DEState S D)
    (hst : Sized n st) : Safe (fun r => Sized n r.2) (deRunTask env c t st) := by
  obtain ⟨h1, h2, h3⟩ := hst
  unfold SampleFlow.deRunTask
  refine Safe.bind (Safe.logLikelihood h _) (fun d _ => Safe.bind (Safe.atIndex (by omega)) (fun d' _ => ?_))
  split
  · exact Safe.pure ⟨h1, by simpa using h2, by simpa using h3⟩
  · exact Safe.bind (Safe.atIndex (by omega)) (fun x _ => Safe.pure ⟨h1, by simpa using h2, h3⟩)

theorem Safe.deRunCaptured (h : Polite env) (n c : Nat) (hc : c < n) (t : DETask S D) (st : DEState S D)
    (hst : Sized n st) : Safe (fun r => Sized n r.2) (deRunCaptured env c t st) := by
  intro w
  have h1 := Safe.deRunTask h n c hc t st hst w
  unfold SampleFlow.deRunCaptured
  rcases h2 : SampleFlow.deRunTask env c t st w with ⟨tr1, ((e | f) | ⟨acc, st'⟩), w1⟩
  · rw [h2] at h1
    exact ⟨by intro f; simp, by rintro a ⟨rfl⟩; exact hst⟩
  · rw [h2] at h1
    exact absurd rfl (h1.1 f)
  · rw [h2] at h1
    exact ⟨by intro f; simp, by rintro a ⟨rfl⟩; exact h1.2 _ rfl⟩

theorem Safe.deCreate (h : Polite env) (gap N gen n : Nat) (hn : 3 ≤ n) (left : Nat) : ∀ (c : Nat) (st : DEState S D),
    c + left = n → Sized n st →
    Safe (fun rs => Sized n rs.2 ∧ rs.1.length = deCount N gen n left c) (deCreate env gap N gen n left c st) := by
  induction left with
  | zero => intro c st hc hst; exact Safe.pure ⟨hst, by simp [deCount]⟩
  | succ left ih =>
    intro c st hc hst
    unfold SampleFlow.deCreate
    split
    · exact Safe.pure ⟨hst, by simp only [deCount, List.length_nil]; omega⟩
    · refine Safe.bind (Q := fun _ => True) ?_ (fun t _ => Safe.bind (Safe.deRunCaptured h n c (by omega) t st hst)
        (fun r hr => Safe.bind (ih (c + 1) r.2 (by omega) hr) (fun rs hrs => Safe.pure ⟨hrs.1, ?_⟩)))
      · unfold deMakeTask
        have := hst.1
        exact Safe.bind (Safe.deTrial h gap gen st.cur (by omega) c (by omega)) (fun _ _ =>
          Safe.bind Safe.draw (fun _ _ => Safe.pure trivial))
      · simp only [List.length_cons, hrs.2, deCount]; omega

theorem Safe.deIssue (h : Polite env) (N gen n : Nat) (results : List (Except E Bool)) (st : DEState S D)
    (hst : Sized n st) (hr : results.length = deCount N gen n n 0) (left : Nat) : ∀ c, c + left = n →
    Safe (fun _ => True) (deIssue env N gen n results st left c) := by
  induction left with
  | zero => intro c hc; exact Safe.pure trivial
  | succ left ih =>
    intro c hc
    obtain ⟨h1, h2, h3⟩ := hst
    unfold SampleFlow.deIssue
    split
    · exact Safe.pure trivial
    · refine Safe.bind (Safe.atIndex (by rw [hr]; simp only [deCount]; omega)) (fun r _ => Safe.bind (Q := fun _ => True) ?_
        (fun acc _ => Safe.bind (Safe.atIndex (by omega)) (fun x _ => Safe.bind (Safe.atIndex (by omega)) (fun d _ =>
        Safe.bind (Safe.issue h _ _) (fun _ _ => ih (c + 1) (by omega))))))
      cases r with
      | ok a => exact Safe.pure trivial
      | error e => intro w; exact ⟨by intro f; simp [deGet, Prog.throw], fun _ _ => trivial⟩

theorem Safe.deGeneration (h : Polite env) (gap N n gen : Nat) (hn : 3 ≤ n) (st : DEState S D) (hst : Sized n st) :
    Safe (Sized n) (deGeneration env gap N n gen st) := by
  unfold SampleFlow.deGeneration
  exact Safe.bind (Safe.deCreate h gap N gen n hn n 0 st (by omega) hst) (fun rs hrs =>
    Safe.bind (Safe.deIssue h N gen n rs.1 rs.2 hrs.1 hrs.2 n 0 (by omega)) (fun _ _ =>
      Safe.pure ⟨hrs.1.2.1, hrs.1.2.1, hrs.1.2.2⟩))

theorem Safe.deLoop (h : Polite env) (gap N n : Nat) (hn : 3 ≤ n) (fuel : Nat) : ∀ (gen : Nat) (st : DEState S D),
    Sized n st → Safe (fun _ => True) (deLoop env gap N n fuel gen st) := by
  induction fuel with
  | zero => intro gen st hst; exact Safe.pure trivial
  | succ fuel ih =>
    intro gen st hst
    unfold SampleFlow.deLoop
    split
    · exact Safe.bind (Safe.deGeneration h gap N n gen hn st hst) (fun st' hst' => ih (gen + 1) st' hst')
    · exact Safe.pure trivial

omit [FloatOps D] in
theorem Safe.deInitial (h : Polite env) (xs : List S) :
    Safe (fun ds => ds.length = xs.length) (deInitial env xs) := by
  induction xs with
  | nil => exact Safe.pure rfl
  | cons x xs ih =>
    exact Safe.bind (Safe.logLikelihood h x) (fun d _ => Safe.bind ih (fun ds hds => Safe.pure (by simp [hds])))

theorem deSample_safe (h : Polite env) (starts : List S) (hn : 3 ≤ starts.length) (gap N : Nat) (w : W) (f : Fault) :
    (deSample env starts gap N w).2.1 ≠ .error (.fault f) := by
  unfold deSample
  rw [if_pos hn]
  have := Safe.bind (Safe.deInitial h starts) (fun lls hl => Safe.deLoop h gap N starts.length hn N 0
    (⟨starts, starts, lls⟩ : DEState S D) ⟨rfl, rfl, hl⟩)
  exact (this w).1 f

end SampleFlow
