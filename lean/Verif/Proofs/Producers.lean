import Verif.Model.Producers
import Verif.Spec.Producers
import Mathlib.Data.List.Basic

set_option linter.unusedSimpArgs false

universe u

namespace SampleFlow

open Spec

variable {W : Type u} {S D E : Type}

/-! ## the monad -/

theorem Prog.bind_ok {α β : Type} {p : Prog W S D E α} {f : α → Prog W S D E β} {w w' : W}
    {tr : List (Event S D)} {a : α} (h : p w = (tr, .ok a, w')) :
    (p >>= f) w = (tr ++ (f a w').1, (f a w').2) := by
  show Prog.bind p f w = _
  rw [Prog.bind, h]

theorem Prog.bind_error {α β : Type} {p : Prog W S D E α} {f : α → Prog W S D E β} {w w' : W}
    {tr : List (Event S D)} {e : E} (h : p w = (tr, .error e, w')) :
    (p >>= f) w = (tr, .error e, w') := by
  show Prog.bind p f w = _
  rw [Prog.bind, h]

theorem Prog.pure_run {α : Type} (a : α) (w : W) : (Pure.pure a : Prog W S D E α) w = ([], .ok a, w) := rfl

theorem issuedOf_append (a b : List (Event S D)) : issuedOf (a ++ b) = issuedOf a ++ issuedOf b := by
  simp [issuedOf]

theorem proposalsOf_append (a b : List (Event S D)) :
    proposalsOf (a ++ b) = proposalsOf a ++ proposalsOf b := by
  simp [proposalsOf]

theorem issuedOf_quiet {tr : List (Event S D)} (h : ∀ e ∈ tr, Spec.Event.quiet e = true) : issuedOf tr = [] := by
  unfold issuedOf
  rw [List.filterMap_eq_nil_iff]
  intro e he
  have := h e he
  cases e <;> simp_all [Spec.Event.quiet]

theorem quiet_drew (l : List D) : ∀ e ∈ l.map (Event.drew (S := S)), Spec.Event.quiet e = true := by
  intro e he
  obtain ⟨u, -, rfl⟩ := List.mem_map.mp he
  rfl

variable [FloatOps D]

/-! ## MetropolisHastings -/

theorem mhAccept_run (env : World W S D E) (a b r : D) (w : W) :
    ∃ draws acc w', mhAccept env a b r w = (draws.map .drew, .ok acc, w') ∧
      AcceptRule hasZeroProbability a b r draws acc := by
  unfold mhAccept
  by_cases hz : hasZeroProbability a = true
  · by_cases hc : hasZeroProbability b = true
    · simp only [hz, hc, Bool.not_true, Bool.and_false, Bool.not_false, if_true, Bool.and_self]
      by_cases h3 : FloatOps.le (env.uniform w).1 (FloatOps.div FloatOps.one r) = true
      · refine ⟨[(env.uniform w).1], true, (env.uniform w).2, ?_, .zeroWalk _ hz hc h3⟩
        simp only [bind, Prog.bind, draw, Prog.pure_run, h3, if_true, List.append_nil, List.map_cons, List.map_nil]
      · simp only [Bool.not_eq_true] at h3
        by_cases h4 : FloatOps.lt b (FloatOps.sub a (FloatOps.log r)) = true
        · refine ⟨[(env.uniform w).1], true, (env.uniform w).2, ?_, .zeroUp _ hz hc h3 h4⟩
          simp [bind, Prog.bind, draw, Prog.pure_run, h3, h4]
        · simp only [Bool.not_eq_true] at h4
          refine ⟨[(env.uniform w).1, (env.uniform (env.uniform w).2).1], _, (env.uniform (env.uniform w).2).2, ?_,
            .zeroRatio _ _ hz hc h3 h4⟩
          simp [bind, Prog.bind, draw, Prog.pure_run, h3, h4]
    · simp only [Bool.not_eq_true] at hc
      refine ⟨[], false, w, ?_, .zeroReject hz hc⟩
      simp [hz, hc, Prog.pure_run]
  · simp only [Bool.not_eq_true] at hz
    by_cases h4 : FloatOps.lt b (FloatOps.sub a (FloatOps.log r)) = true
    · refine ⟨[], true, w, ?_, .up hz h4⟩
      simp only [hz, Bool.false_and, Bool.not_false, if_true, Bool.false_eq_true, if_false, h4]
      rfl
    · simp only [Bool.not_eq_true] at h4
      refine ⟨[(env.uniform w).1], _, (env.uniform w).2, ?_, .ratio _ hz h4⟩
      simp only [hz, Bool.false_and, Bool.not_false, if_true, Bool.false_eq_true, if_false, h4]
      rfl

/-- the log likelihood function of the user, where it does not throw, is the function `L` -/
def LikelihoodIs (env : World W S D E) (L : S → D) : Prop :=
  ∀ x w d w', env.logLikelihood x w = (.ok d, w') → d = L x

theorem mhLoop_run (env : World W S D E) (L : S → D) (hL : LikelihoodIs env L) (n : Nat) :
    ∀ (cur : S) (w : W), ∃ (moves : List (Move S D)) (tail : List (Event S D)),
      Linked cur moves ∧
      (∀ m ∈ moves, AcceptRule hasZeroProbability (L m.trial) (L m.prev) m.ratio m.draws m.accepted) ∧
      (mhLoop env n cur (L cur) w).1 = moves.flatMap (Move.events L) ++ tail ∧
      (∀ e ∈ tail, Spec.Event.quiet e = true) ∧
      moves.length ≤ n ∧
      (∀ last, (mhLoop env n cur (L cur) w).2.1 = .ok last →
        moves.length = n ∧ tail = [] ∧ last = endOf cur moves) := by
  induction n with
  | zero =>
    intro cur w
    refine ⟨[], [], trivial, by simp, rfl, by simp, Nat.le_refl _, ?_⟩
    intro last h
    cases h
    exact ⟨rfl, rfl, rfl⟩
  | succ n ih =>
    intro cur w
    unfold mhLoop
    -- the proposal
    rcases h1 : env.propose cur [] w with ⟨(e | ⟨y, r⟩), w1⟩
    · have e1 : callPropose env cur [] w = ([], .error e, w1) := by simp [callPropose, h1]
      refine ⟨[], [], trivial, by simp, ?_, by simp, by simp, ?_⟩
      · rw [Prog.bind_error e1]; rfl
      · rw [Prog.bind_error e1]; intro last h; cases h
    have e1 : callPropose env cur [] w = ([.proposed cur [] y r], .ok (y, r), w1) := by simp [callPropose, h1]
    rw [Prog.bind_ok e1]
    -- its likelihood
    rcases h2 : env.logLikelihood y w1 with ⟨(e | d), w2⟩
    · have e2 : callLogLikelihood env y w1 = ([], .error e, w2) := by simp [callLogLikelihood, h2]
      refine ⟨[], [.proposed cur [] y r], trivial, by simp, ?_, by simp [Spec.Event.quiet], by simp, ?_⟩
      · simp only; rw [Prog.bind_error e2]; rfl
      · simp only; rw [Prog.bind_error e2]; intro last h; cases h
    have hd := hL y w1 d w2 h2
    subst hd
    have e2 : callLogLikelihood env y w1 = ([.logLikelihood y (L y)], .ok (L y), w2) := by
      simp [callLogLikelihood, h2]
    simp only
    rw [Prog.bind_ok e2]
    -- acceptance
    obtain ⟨draws, acc, w3, e3, hacc⟩ := mhAccept_run env (L y) (L cur) r w2
    rw [Prog.bind_ok e3]
    -- the new sample
    let m : Move S D := ⟨cur, y, r, draws, acc⟩
    have cont : ∀ (nx : S) (a : Aux D), nx = m.next →
        a = [("relative log likelihood", .real (L m.next)), ("sample is repeated", .flag (!m.accepted))] →
        ∃ (moves : List (Move S D)) (tail : List (Event S D)),
          Linked cur moves ∧
          (∀ m ∈ moves, AcceptRule hasZeroProbability (L m.trial) (L m.prev) m.ratio m.draws m.accepted) ∧
          [Event.proposed cur [] y r] ++ ([Event.logLikelihood y (L y)] ++ (draws.map Event.drew ++
            ((callIssue env nx a >>= fun _ => mhLoop env n nx (L nx)) w3).1)) =
            moves.flatMap (Move.events L) ++ tail ∧
          (∀ e ∈ tail, Spec.Event.quiet e = true) ∧
          moves.length ≤ n + 1 ∧
          (∀ last, ((callIssue env nx a >>= fun _ => mhLoop env n nx (L nx)) w3).2.1 = .ok last →
            moves.length = n + 1 ∧ tail = [] ∧ last = endOf cur moves) := by
      intro nx a hnx ha
      rcases h4 : env.issue nx a w3 with ⟨(e | ⟨⟩), w4⟩
      · have e4 : callIssue env nx a w3 = ([.issued nx a], .error e, w4) := by simp [callIssue, h4]
        rw [Prog.bind_error e4]
        refine ⟨[m], [], ⟨rfl, trivial⟩, ?_, ?_, by simp, by simp, ?_⟩
        · intro m' hm'; simp only [List.mem_singleton] at hm'; subst hm'; exact hacc
        · rw [hnx, ha]; simp [Move.events, m]
        · intro last h; cases h
      · have e4 : callIssue env nx a w3 = ([.issued nx a], .ok (), w4) := by simp [callIssue, h4]
        rw [Prog.bind_ok e4]
        obtain ⟨ms, tail, i1, i2, i3, i4, i5, i6⟩ := ih nx w4
        refine ⟨m :: ms, tail, ⟨rfl, hnx ▸ i1⟩, ?_, ?_, i4, by simpa using i5, ?_⟩
        · intro m' hm'
          rcases List.mem_cons.mp hm' with rfl | hm'
          · exact hacc
          · exact i2 m' hm'
        · simp only; rw [i3, hnx, ha]; simp [Move.events, m]
        · intro last h
          obtain ⟨j1, j2, j3⟩ := i6 last h
          refine ⟨by simp [j1], j2, ?_⟩
          rw [j3, hnx]; rfl
    cases acc with
    | true =>
      simp only [if_true]
      exact cont y (mhAux (L y) false) rfl rfl
    | false =>
      simp only [Bool.false_eq_true, if_false]
      exact cont cur (mhAux (L cur) true) rfl rfl

/-- what every run of `MetropolisHastings::sample` looks like from outside -/
theorem mhSample_run (env : World W S D E) (L : S → D) (hL : LikelihoodIs env L) (start : S) (n : Nat) (w : W) :
    (∃ e, (mhSample env start n w).2.1 = .error e ∧ (mhSample env start n w).1 = [.flushed]) ∨
    ∃ (moves : List (Move S D)) (tail : List (Event S D)),
      Linked start moves ∧
      (∀ m ∈ moves, AcceptRule hasZeroProbability (L m.trial) (L m.prev) m.ratio m.draws m.accepted) ∧
      moves.length ≤ n ∧
      ((∃ e, (mhSample env start n w).2.1 = .error e ∧ (∀ ev ∈ tail, Spec.Event.quiet ev = true) ∧
          (mhSample env start n w).1 =
            .logLikelihood start (L start) :: (moves.flatMap (Move.events L) ++ tail ++ [.flushed])) ∨
        ((mhSample env start n w).2.1 = .ok (endOf start moves) ∧ moves.length = n ∧
          (mhSample env start n w).1 =
            .logLikelihood start (L start) :: (moves.flatMap (Move.events L) ++ [.flushed, .flushed]))) := by
  unfold mhSample Prog.withScopeExit
  rcases h1 : env.logLikelihood start w with ⟨(e | d), w1⟩
  · left
    have e1 : callLogLikelihood env start w = ([], .error e, w1) := by simp [callLogLikelihood, h1]
    refine ⟨e, ?_, ?_⟩
    · simp only; rw [Prog.bind_error e1]
    · simp only; rw [Prog.bind_error e1]; rfl
  · right
    have hd := hL start w d w1 h1
    subst hd
    have e1 : callLogLikelihood env start w = ([.logLikelihood start (L start)], .ok (L start), w1) := by
      simp [callLogLikelihood, h1]
    obtain ⟨moves, tail, i1, i2, i3, i4, i5, i6⟩ := mhLoop_run env L hL n start w1
    refine ⟨moves, tail, i1, i2, i5, ?_⟩
    simp only
    rw [Prog.bind_ok e1]
    rcases h2 : mhLoop env n start (L start) w1 with ⟨tr, (e | last), w2⟩
    · left
      rw [h2] at i3
      simp only at i3
      refine ⟨e, ?_, i4, ?_⟩
      · simp only; rw [Prog.bind_error h2]
      · simp only; rw [Prog.bind_error h2, i3]; simp [scopeExitFlush]
    · right
      rw [h2] at i3 i6
      simp only at i3
      obtain ⟨j1, j2, j3⟩ := i6 last rfl
      subst j2 j3
      have e3 : callFlush env w2 = ([.flushed], .ok (), env.flush w2) := rfl
      refine ⟨?_, j1, ?_⟩
      · simp only; rw [Prog.bind_ok h2]; simp only; rw [Prog.bind_ok e3]; rfl
      · simp only; rw [Prog.bind_ok h2]; simp only; rw [Prog.bind_ok e3, i3]
        have e4 : (pure (endOf start moves) : Prog W S D E S) (env.flush w2) = ([], .ok (endOf start moves), env.flush w2) := rfl
        rw [e4]
        simp [scopeExitFlush]

end SampleFlow
