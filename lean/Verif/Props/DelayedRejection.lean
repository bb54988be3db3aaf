import Verif.Proofs.DelayedRejection
import Verif.Model.IdealDouble
import Verif.Model.Toy
import Verif.Proofs.MarkovChain
import Mathlib.Tactic.NormNum

/-!
# Properties C40, C44, C45, C46: DelayedRejectionMetropolisHastings

`checked = false` ignores the out-of-bounds read of line 183 (its result is not used); `checked = true` stops there.
The theorems hold for every arithmetic unless `idealOps` is mentioned, every world and every exception.
-/

universe u

namespace SampleFlow

open Spec

variable {W : Type u} {S D E : Type} [FloatOps D]

/-! ## C44 -/

omit [FloatOps D] in
theorem issuedOf_drEvents (L : S → D) (m : DRMove S D) :
    issuedOf (m.events L) =
      [(m.next, [("relative log likelihood", .real (L m.next)), ("sample is repeated", .flag (!m.accepted))])] := by
  unfold DRMove.events
  rw [issuedOf_append, issuedOf_quiet (triedEvents_quiet L m.prev [] m.tried)]
  rfl

omit [FloatOps D] in
theorem issuedOf_drMoves (L : S → D) (ms : List (DRMove S D)) :
    issuedOf (ms.flatMap (DRMove.events L)) = ms.map (fun m => (m.next,
      [("relative log likelihood", .real (L m.next)), ("sample is repeated", .flag (!m.accepted))])) := by
  induction ms with
  | nil => rfl
  | cons m ms ih => rw [List.flatMap_cons, issuedOf_append, ih, issuedOf_drEvents]; rfl

omit [FloatOps D] in
/-- the predecessor of the `k`-th sample -/
theorem Spec.DRLinked.prev {start : S} {ms : List (DRMove S D)} (h : DRLinked start ms) (k : Nat) (m : DRMove S D)
    (hk : ms[k]? = some m) : (start :: ms.map DRMove.next)[k]? = some m.prev := by
  induction ms generalizing start k with
  | nil => simp at hk
  | cons m0 ms ih =>
    cases k with
    | zero =>
      simp only [List.getElem?_cons_zero, Option.some.injEq] at hk
      subst hk
      simp [h.1]
    | succ k =>
      simp only [List.getElem?_cons_succ] at hk
      have := ih h.2 k hk
      simpa using this

/-- C44: a run that returns consists of the evaluation of the likelihood of the starting point, `n` steps, each
starting where the previous one ended, and the flushes.  Each step makes between 1 and `max_delays + 1`
proposals, each knowing the ones rejected before in this step; each is decided with one random number at most
using the ratio `alpha_fn` returns; the step ends with the first accepted one, or with the previous sample after
`max_delays + 1` rejections; the sample carries its own log likelihood and whether it is repeated. -/
theorem C44_chain (checked : Bool) (maxDelays : Nat) (hdef : checked = false ∨ maxDelays = 0)
    (env : World W S D (Stop E)) (L : S → D) (hL : LikelihoodIs env L) (start : S) (n : Nat) (w : W)
    (last : S) (hr : (drSample checked env start maxDelays n w).2.1 = .ok last) :
    ∃ moves : List (DRMove S D), moves.length = n ∧ DRLinked start moves ∧
      (∀ m ∈ moves, m.Complete maxDelays ∧
        m.Decided (fun x ys a => alphaFn checked ys.length x ys = .ok a) L) ∧
      (drSample checked env start maxDelays n w).1 =
        .logLikelihood start (L start) :: (moves.flatMap (DRMove.events L) ++ [.flushed, .flushed]) := by
  rcases drSample_run checked maxDelays hdef env L hL start n w with
    ⟨e, h1, -⟩ | ⟨moves, tail, h1, h2, -, ⟨e, h4, -⟩ | ⟨-, h5, h6⟩⟩
  · rw [h1] at hr; cases hr
  · rw [h4] at hr; cases hr
  · exact ⟨moves, h5, h1, h2, h6⟩

/-- C44: a call that returns has issued exactly `n` samples, a call that throws at most `n`; every sample carries
its own log likelihood, and, if "sample is repeated" is set, is the previous sample. -/
theorem C44_samples (checked : Bool) (maxDelays : Nat) (hdef : checked = false ∨ maxDelays = 0)
    (env : World W S D (Stop E)) (L : S → D) (hL : LikelihoodIs env L) (start : S) (n : Nat) (w : W) :
    (issuedOf (drSample checked env start maxDelays n w).1).length ≤ n ∧
    (∀ last, (drSample checked env start maxDelays n w).2.1 = .ok last →
      (issuedOf (drSample checked env start maxDelays n w).1).length = n) ∧
    (∀ (k : Nat) (x : S) (aux : Aux D),
      (issuedOf (drSample checked env start maxDelays n w).1)[k]? = some (x, aux) →
      ∃ rep : Bool,
        aux = [("relative log likelihood", .real (L x)), ("sample is repeated", .flag rep)] ∧
        (rep = true →
          (start :: (issuedOf (drSample checked env start maxDelays n w).1).map Prod.fst)[k]? = some x)) := by
  have key : ∃ moves : List (DRMove S D), DRLinked start moves ∧ moves.length ≤ n ∧
      issuedOf (drSample checked env start maxDelays n w).1 = moves.map (fun m => (m.next,
        [("relative log likelihood", .real (L m.next)), ("sample is repeated", .flag (!m.accepted))])) ∧
      (∀ last, (drSample checked env start maxDelays n w).2.1 = .ok last → moves.length = n) := by
    rcases drSample_run checked maxDelays hdef env L hL start n w with
      ⟨e, h1, h2⟩ | ⟨moves, tail, h1, h2, h3, ⟨e, h4, h5, h6⟩ | ⟨-, h5, h6⟩⟩
    · exact ⟨[], trivial, by simp, by rw [h2]; rfl, by intro last h; rw [h1] at h; cases h⟩
    · refine ⟨moves, h1, h3, ?_, by intro last h; rw [h4] at h; cases h⟩
      rw [h6, show ∀ l, issuedOf (Event.logLikelihood start (L start) :: l) = issuedOf l from fun _ => rfl,
        issuedOf_append, issuedOf_append, issuedOf_quiet h5, issuedOf_drMoves]
      simp [issuedOf]
    · refine ⟨moves, h1, h3, ?_, fun _ _ => h5⟩
      rw [h6, show ∀ l, issuedOf (Event.logLikelihood start (L start) :: l) = issuedOf l from fun _ => rfl,
        issuedOf_append, issuedOf_drMoves]
      simp [issuedOf]
  obtain ⟨moves, h1, h2, h3, h4⟩ := key
  refine ⟨by rw [h3]; simpa using h2, ?_, ?_⟩
  · intro last h; rw [h3]; simpa using h4 last h
  · intro k x aux hk
    rw [h3, List.getElem?_map, Option.map_eq_some_iff] at hk
    obtain ⟨m, hm, he⟩ := hk
    simp only [Prod.mk.injEq] at he
    obtain ⟨rfl, rfl⟩ := he
    refine ⟨!m.accepted, rfl, ?_⟩
    intro hrep
    have hp := h1.prev k m hm
    have hn : m.next = m.prev := by unfold DRMove.next; simp at hrep; simp [hrep]
    rw [h3, List.map_map, hn]
    simpa [Function.comp_def] using hp

/-! ## C40 -/

theorem NoFlush.liftFault {α : Type} (r : Except Fault α) :
    NoFlush (liftFault r : Prog W S D (Stop E) α) := by
  cases r with
  | ok a => exact NoFlush.pure a
  | error f => exact NoFlush.throw _

theorem NoFlush.drStages (checked : Bool) (env : World W S D (Stop E)) (cur : S) (ll : D) (k : Nat) :
    ∀ proposed : List (S × D), NoFlush (drStages checked env cur ll k proposed) := by
  induction k with
  | zero => intro p; exact NoFlush.pure none
  | succ k ih =>
    intro p
    unfold SampleFlow.drStages
    refine NoFlush.bind (NoFlush.propose env cur _) (fun pr => ?_)
    refine NoFlush.bind (NoFlush.logLikelihood env _) (fun d => ?_)
    refine NoFlush.bind (NoFlush.liftFault _) (fun r => ?_)
    refine NoFlush.bind (NoFlush.ite (NoFlush.pure true)
      (NoFlush.bind (NoFlush.draw env) (fun u => NoFlush.pure _))) (fun acc => ?_)
    exact NoFlush.ite (NoFlush.pure _) (ih _)

theorem NoFlush.drLoop (checked : Bool) (env : World W S D (Stop E)) (maxDelays n : Nat) :
    ∀ (cur : S) (ll : D), NoFlush (drLoop checked env maxDelays n cur ll) := by
  induction n with
  | zero => intro cur ll; exact NoFlush.pure cur
  | succ n ih =>
    intro cur ll
    unfold SampleFlow.drLoop
    refine NoFlush.bind (NoFlush.drStages checked env cur ll _ _) (fun r => ?_)
    cases r with
    | none => exact NoFlush.bind (NoFlush.issue env _ _) (fun _ => ih _ _)
    | some p => exact NoFlush.bind (NoFlush.issue env _ _) (fun _ => ih _ _)

/-- C40 for the delayed rejection sampler: whatever throws wherever, the last thing that happens is that the
consumers are flushed. -/
theorem C40_delayedRejection (checked : Bool) (env : World W S D (Stop E)) (start : S) (maxDelays n : Nat) (w : W) :
    EndsWithFlush (drSample checked env start maxDelays n w).1 := by
  have := endsWithFlush_scopeExit' env
    (p := callLogLikelihood env start >>= fun ll => drLoop checked env maxDelays n start ll)
    (NoFlush.bind (NoFlush.logLikelihood env start) (fun ll => NoFlush.drLoop checked env maxDelays n start ll)) w
  rw [Prog.bind_assoc'] at this
  exact this

/-! ## C46 -/

omit [FloatOps D] in
theorem mem_proposalsOf_nil_of (tr : List (Event S D))
    (h : ∀ x rej y r, Event.proposed x rej y r ∈ tr → rej = []) :
    ∀ x rej y r, (x, rej, y, r) ∈ proposalsOf tr → rej = [] := by
  intro x rej y r hm
  unfold proposalsOf at hm
  rw [List.mem_filterMap] at hm
  obtain ⟨e, he, hee⟩ := hm
  cases e <;> simp at hee
  obtain ⟨rfl, rfl, rfl, rfl⟩ := hee
  exact h _ _ _ _ he

/-- every proposal in the trace was made without rejected samples -/
def Undelayed (tr : List (Event S D)) : Prop := ∀ x rej y r, Event.proposed x rej y r ∈ tr → rej = []

omit [FloatOps D] in
theorem Undelayed.append {a b : List (Event S D)} (ha : Undelayed a) (hb : Undelayed b) : Undelayed (a ++ b) := by
  intro x rej y r h
  rcases List.mem_append.mp h with h | h
  · exact ha x rej y r h
  · exact hb x rej y r h

/-- the delayed stages cannot be passed -/
theorem drStages_delayed (env : World W S D (Stop E)) (cur : S) (ll : D) (k : Nat) (proposed : List (S × D))
    (hp : proposed ≠ []) (w : W) (tr : List (Event S D)) (r : Option (S × D)) (w' : W)
    (h : drStages true env cur ll k proposed w = (tr, .ok r, w')) : k = 0 ∧ tr = [] := by
  cases k with
  | zero => unfold drStages at h; simp only [Prog.pure_run, Prod.mk.injEq] at h; exact ⟨rfl, h.1.symm⟩
  | succ k =>
    exfalso
    unfold drStages at h
    rcases h1 : callPropose env cur (proposed.map Prod.fst) w with ⟨t1, (e | ⟨y, q⟩), w1⟩
    · rw [Prog.bind_error h1] at h; simp at h
    rw [Prog.bind_ok h1] at h
    simp only at h
    rcases h2 : callLogLikelihood env y w1 with ⟨t2, (e | d), w2⟩
    · rw [Prog.bind_error h2] at h; simp at h
    rw [Prog.bind_ok h2] at h
    have hl : 2 ≤ ((proposed ++ [(y, d)]).map Prod.snd).length := by
      have := List.length_pos_of_ne_nil hp
      simp; omega
    have e3 : (liftFault (alphaFn true (proposed ++ [(y, d)]).length ll ((proposed ++ [(y, d)]).map Prod.snd)) :
        Prog W S D (Stop E) D) w2 = ([], .error (.fault .ub), w2) := by
      rw [alphaFn_ub _ _ _ hl]; rfl
    rw [Prog.bind_error e3] at h
    simp at h

theorem drStages_ok_undelayed (env : World W S D (Stop E)) (cur : S) (ll : D) (k : Nat) (w : W)
    (tr : List (Event S D)) (r : Option (S × D)) (w' : W)
    (h : drStages true env cur ll k [] w = (tr, .ok r, w')) : Undelayed tr := by
  cases k with
  | zero =>
    unfold drStages at h
    simp only [Prog.pure_run, Prod.mk.injEq] at h
    rw [← h.1]
    intro x rej y r hm; simp at hm
  | succ k =>
    unfold drStages at h
    rcases h1 : env.propose cur [] w with ⟨(e | ⟨y, q⟩), w1⟩
    · have e1 : callPropose env cur (List.map Prod.fst ([] : List (S × D))) w = ([], .error e, w1) := by
        simp [callPropose, h1]
      rw [Prog.bind_error e1] at h; simp at h
    have e1 : callPropose env cur (List.map Prod.fst ([] : List (S × D))) w =
      ([.proposed cur [] y q], .ok (y, q), w1) := by simp [callPropose, h1]
    rw [Prog.bind_ok e1] at h
    simp only at h
    rcases h2 : env.logLikelihood y w1 with ⟨(e | d), w2⟩
    · have e2 : callLogLikelihood env y w1 = ([], .error e, w2) := by simp [callLogLikelihood, h2]
      rw [Prog.bind_error e2] at h; simp at h
    have e2 : callLogLikelihood env y w1 = ([.logLikelihood y d], .ok d, w2) := by simp [callLogLikelihood, h2]
    rw [Prog.bind_ok e2] at h
    have e3 : (liftFault (alphaFn true ([] ++ [(y, d)]).length ll (([] ++ [(y, d)]).map Prod.snd)) :
        Prog W S D (Stop E) D) w2 = ([], .ok (FloatOps.exp (FloatOps.sub d ll)), w2) := by
      have := alphaFn_single true 0 ll d
      simp only [List.nil_append, List.length_singleton, List.map_cons, List.map_nil]
      rw [this]; rfl
    rw [Prog.bind_ok e3] at h
    obtain ⟨draws, acc, w3, e4, -⟩ := drAccept_run env (FloatOps.exp (FloatOps.sub d ll)) w2
    rw [Prog.bind_ok e4] at h
    have base : Undelayed ([Event.proposed cur [] y q] ++ ([Event.logLikelihood y d] ++ draws.map Event.drew)) := by
      intro x rej y' r' hm
      simp only [List.mem_append, List.mem_singleton, List.mem_map, Event.proposed.injEq, reduceCtorEq,
        and_false, exists_false, or_false] at hm
      exact hm.2.1
    cases acc with
    | true =>
      simp only [if_true, Prog.pure_run, Prod.mk.injEq, List.nil_append, List.append_nil] at h
      rw [← h.1]; exact base
    | false =>
      simp only [Bool.false_eq_true, if_false, List.nil_append, Prod.mk.injEq] at h
      obtain ⟨h5, h6⟩ := h
      rcases h7 : drStages true env cur ll k [(y, d)] w3 with ⟨t, s, w4⟩
      rw [h7] at h5 h6
      simp only [Prod.mk.injEq] at h6
      obtain ⟨h6, h8⟩ := h6
      subst h6
      obtain ⟨-, h9⟩ := drStages_delayed env cur ll k _ (by simp) w3 t r w4 h7
      subst h9
      rw [← h5]
      simpa using base

theorem drLoop_ok_undelayed (env : World W S D (Stop E)) (maxDelays n : Nat) :
    ∀ (cur : S) (ll : D) (w : W) (tr : List (Event S D)) (last : S) (w' : W),
      drLoop true env maxDelays n cur ll w = (tr, .ok last, w') → Undelayed tr := by
  induction n with
  | zero =>
    intro cur ll w tr last w' h
    unfold drLoop at h
    simp only [Prog.pure_run, Prod.mk.injEq] at h
    rw [← h.1]; intro x rej y r hm; simp at hm
  | succ n ih =>
    intro cur ll w tr last w' h
    unfold drLoop at h
    rcases h1 : drStages true env cur ll (maxDelays + 1) [] w with ⟨t1, (e | r), w1⟩
    · rw [Prog.bind_error h1] at h; simp at h
    have u1 := drStages_ok_undelayed env cur ll _ w t1 r w1 h1
    rw [Prog.bind_ok h1] at h
    have cont : ∀ (x : S) (d : D) (a : Aux D),
        (t1 ++ ((callIssue env x a >>= fun _ => drLoop true env maxDelays n x d) w1).1,
          ((callIssue env x a >>= fun _ => drLoop true env maxDelays n x d) w1).2) = (tr, .ok last, w') →
        Undelayed tr := by
      intro x d a h
      rcases h2 : env.issue x a w1 with ⟨(e | ⟨⟩), w2⟩
      · have e2 : callIssue env x a w1 = ([.issued x a], .error e, w2) := by simp [callIssue, h2]
        rw [Prog.bind_error e2] at h; simp at h
      · have e2 : callIssue env x a w1 = ([.issued x a], .ok (), w2) := by simp [callIssue, h2]
        rw [Prog.bind_ok e2] at h
        rcases h3 : drLoop true env maxDelays n x d w2 with ⟨t3, s, w3⟩
        rw [h3] at h
        simp only [Prod.mk.injEq] at h
        obtain ⟨h4, h5, h6⟩ := h
        subst h5
        rw [← h4]
        refine u1.append (Undelayed.append ?_ (ih x d w2 t3 last w3 h3))
        intro x rej y r hm; simp at hm
    cases r with
    | none => exact cont _ _ _ h
    | some p => exact cont _ _ _ h

/-- C46 (violated): no run that respects the bounds of its vectors gets past a delayed proposal: if the run
returns normally, no proposal was made after a rejection within a step. -/
theorem C46_violation (env : World W S D (Stop E)) (start : S) (maxDelays n : Nat) (w : W) (last : S)
    (h : (drSample true env start maxDelays n w).2.1 = .ok last) :
    ∀ x rej y r, (x, rej, y, r) ∈ proposalsOf (drSample true env start maxDelays n w).1 → rej = [] := by
  apply mem_proposalsOf_nil_of
  show Undelayed _
  unfold drSample Prog.withScopeExit at h ⊢
  rcases h1 : env.logLikelihood start w with ⟨(e | d), w1⟩
  · have e1 : callLogLikelihood env start w = ([], .error e, w1) := by simp [callLogLikelihood, h1]
    rw [Prog.bind_error e1] at h; cases h
  have e1 : callLogLikelihood env start w = ([.logLikelihood start d], .ok d, w1) := by simp [callLogLikelihood, h1]
  rw [Prog.bind_ok e1] at h ⊢
  rcases h2 : drLoop true env maxDelays n start d w1 with ⟨t, (e | l), w2⟩
  · simp only at h; rw [Prog.bind_error h2] at h; cases h
  · simp only
    rw [Prog.bind_ok h2]
    have u := drLoop_ok_undelayed env maxDelays n start d w1 t l w2 h2
    refine Undelayed.append (Undelayed.append ?_ (Undelayed.append u ?_)) ?_
    all_goals intro x rej y r hm; simp [callFlush, bind, Prog.bind, Prog.pure_run, scopeExitFlush] at hm

/-- Without delayed stages there is no out-of-bounds access. -/
theorem C46_no_delays_partial (env : World W S D (Stop E)) (start : S) (n : Nat) (w : W) :
    drSample true env start 0 n w = drSample false env start 0 n w := by
  have st : ∀ (cur : S) (ll : D), drStages true env cur ll 1 [] = drStages false env cur ll 1 [] := by
    intro cur ll
    unfold drStages
    congr 1
  have lp : ∀ (n : Nat) (cur : S) (ll : D), drLoop true env 0 n cur ll = drLoop false env 0 n cur ll := by
    intro n
    induction n with
    | zero => intro cur ll; rfl
    | succ n ih =>
      intro cur ll
      unfold drLoop
      rw [st]
      simp only [ih]
  unfold drSample
  simp only [lp]

/-! ### Instances: concrete cases that meet the hypotheses of the theorems above -/

section

attribute [local instance] toyOps

theorem toy_likelihood_delayed {E : Type} : LikelihoodIs (toyWorld (E := E)) (fun x => x) := by
  rintro x w d w' h
  simp only [toyWorld, Prod.mk.injEq, Except.ok.injEq] at h
  exact h.1.symm

example := C44_chain (E := Empty) false 2 (Or.inl rfl) toyWorld (fun x => x) toy_likelihood_delayed 10 3 [5, 20, 30] _ rfl
example := C44_samples (E := Empty) false 2 (Or.inl rfl) toyWorld (fun x => x) toy_likelihood_delayed 10 3 [5, 20, 30]
example := C46_violation (E := Empty) toyWorld 10 2 3 [0, 0, 0] _ rfl

end

end SampleFlow
