import Verif.Proofs.Producers

set_option linter.unusedSimpArgs false

universe u

namespace SampleFlow

open Spec

variable {W : Type u} {S D E : Type}

theorem issuedOf_events (L : S → D) (m : Move S D) :
    issuedOf (m.events L) =
      [(m.next, [("relative log likelihood", .real (L m.next)), ("sample is repeated", .flag (!m.accepted))])] := by
  unfold Move.events
  rw [issuedOf_append, issuedOf_append, issuedOf_quiet (quiet_drew _)]
  rfl

theorem issuedOf_moves (L : S → D) (ms : List (Move S D)) :
    issuedOf (ms.flatMap (Move.events L)) = ms.map (fun m => (m.next,
      [("relative log likelihood", .real (L m.next)), ("sample is repeated", .flag (!m.accepted))])) := by
  induction ms with
  | nil => rfl
  | cons m ms ih => rw [List.flatMap_cons, issuedOf_append, ih, issuedOf_events]; rfl

theorem proposalsOf_drew (l : List D) : proposalsOf (l.map (Event.drew (S := S))) = [] := by
  induction l with
  | nil => rfl
  | cons a l ih => simpa [proposalsOf] using ih

theorem proposalsOf_moves (L : S → D) (ms : List (Move S D)) :
    proposalsOf (ms.flatMap (Move.events L)) = ms.map (fun m => (m.prev, [], m.trial, m.ratio)) := by
  induction ms with
  | nil => rfl
  | cons m ms ih =>
    rw [List.flatMap_cons, proposalsOf_append, ih]
    unfold Move.events
    rw [proposalsOf_append, proposalsOf_append, proposalsOf_drew]
    rfl

/-- the predecessor of the `k`-th sample -/
theorem Spec.Linked.prev {start : S} {ms : List (Move S D)} (h : Linked start ms) (k : Nat) (m : Move S D)
    (hk : ms[k]? = some m) : (start :: ms.map Move.next)[k]? = some m.prev := by
  induction ms generalizing start k with
  | nil => simp at hk
  | cons m0 ms ih =>
    cases k with
    | zero =>
      simp only [List.getElem?_cons_zero, Option.some.injEq] at hk
      subst hk
      simp [h.1]
    | succ k =>
      simp only [List.getElem?_cons_succ] at hk
      have := ih h.2 k hk
      simpa using this

theorem endOf_eq (start : S) (ms : List (Move S D)) :
    some (endOf start ms) = (start :: ms.map Move.next).getLast? := by
  induction ms generalizing start with
  | nil => rfl
  | cons m ms ih =>
    rw [endOf, ih]
    rw [List.map_cons, List.getLast?_cons_cons]

/-- a chain of moves in which no move goes from good to bad stays good -/
theorem Spec.Linked.stays {start : S} {ms : List (Move S D)} (good : S → Prop) (h : Linked start ms)
    (hm : ∀ m ∈ ms, good m.prev → good m.next) (hs : good start) : ∀ m ∈ ms, good m.next := by
  induction ms generalizing start with
  | nil => simp
  | cons m ms ih =>
    intro m' hm'
    have h1 : good m.next := hm m (by simp) (h.1 ▸ hs)
    rcases List.mem_cons.mp hm' with rfl | hm'
    · exact h1
    · exact ih h.2 (fun m hm0 => hm m (by simp [hm0])) h1 m' hm'

theorem Spec.Linked.drop {start : S} {ms : List (Move S D)} (h : Linked start ms) (k : Nat) (m : Move S D)
    (hk : ms[k]? = some m) : Linked m.next (ms.drop (k + 1)) := by
  induction ms generalizing start k with
  | nil => simp at hk
  | cons m0 ms ih =>
    cases k with
    | zero =>
      simp only [List.getElem?_cons_zero, Option.some.injEq] at hk
      subst hk
      exact h.2
    | succ k =>
      simp only [List.getElem?_cons_succ] at hk
      exact ih h.2 k hk

variable [FloatOps D]

/-- the samples issued by a run, in all cases -/
theorem mhSample_issued (env : World W S D E) (L : S → D) (hL : LikelihoodIs env L) (start : S) (n : Nat) (w : W) :
    ∃ (moves : List (Move S D)), Linked start moves ∧
      (∀ m ∈ moves, AcceptRule hasZeroProbability (L m.trial) (L m.prev) m.ratio m.draws m.accepted) ∧
      moves.length ≤ n ∧
      issuedOf (mhSample env start n w).1 = moves.map (fun m => (m.next,
        [("relative log likelihood", .real (L m.next)), ("sample is repeated", .flag (!m.accepted))])) ∧
      (∀ (k : Nat) (m : Move S D), moves[k]? = some m →
        (proposalsOf (mhSample env start n w).1)[k]? = some (m.prev, [], m.trial, m.ratio)) ∧
      (∀ last, (mhSample env start n w).2.1 = .ok last → moves.length = n ∧ last = endOf start moves) := by
  rcases mhSample_run env L hL start n w with ⟨e, h1, h2⟩ | ⟨moves, tail, h1, h2, h3, h4⟩
  · refine ⟨[], trivial, by simp, by simp, ?_, by simp, ?_⟩
    · rw [h2]; rfl
    · intro last h; rw [h1] at h; cases h
  · refine ⟨moves, h1, h2, h3, ?_, ?_, ?_⟩
    · rcases h4 with ⟨e, -, h5, h6⟩ | ⟨-, -, h6⟩
      · rw [h6]
        rw [← List.singleton_append, issuedOf_append, issuedOf_append, issuedOf_append, issuedOf_moves, issuedOf_quiet h5]
        simp [issuedOf]
      · rw [h6]
        rw [← List.singleton_append, issuedOf_append, issuedOf_append, issuedOf_moves]
        simp [issuedOf]
    · intro k m hk
      have hlt : k < moves.length := by
        by_contra hc
        rw [List.getElem?_eq_none (by omega)] at hk; cases hk
      have key : ∀ rest : List (Event S D),
          (proposalsOf (Event.logLikelihood start (L start) :: (moves.flatMap (Move.events L) ++ rest)))[k]? =
            some (m.prev, [], m.trial, m.ratio) := by
        intro rest
        rw [← List.singleton_append, proposalsOf_append, proposalsOf_append, proposalsOf_moves]
        have e0 : proposalsOf [Event.logLikelihood start (L start)] = [] := rfl
        rw [e0, List.nil_append, List.getElem?_append_left (by simpa using hlt), List.getElem?_map, hk]
        rfl
      rcases h4 with ⟨e, -, h5, h6⟩ | ⟨-, -, h6⟩
      · rw [h6, List.append_assoc]; exact key _
      · rw [h6]; exact key _
    · intro last h
      rcases h4 with ⟨e, h5, -⟩ | ⟨h5, h6, -⟩
      · rw [h5] at h; cases h
      · rw [h5] at h; cases h; exact ⟨h6, rfl⟩

theorem Spec.AcceptRule.nonzero {zero : D → Bool} {a b r : D} {draws : List D} {acc : Bool}
    (h : AcceptRule zero a b r draws acc) (hb : zero b = false) (hacc : acc = true) : zero a = false := by
  cases h with
  | zeroReject => cases hacc
  | zeroWalk u h1 h2 => rw [hb] at h2; cases h2
  | zeroUp u h1 h2 => rw [hb] at h2; cases h2
  | zeroRatio u u' h1 h2 => rw [hb] at h2; cases h2
  | up h1 => exact h1
  | ratio u h1 => exact h1

/-! ## the world stays the same -/

omit [FloatOps D] in
theorem callLogLikelihood_pure {env : World W S D E} {L : S → D}
    (hL : ∀ x w, env.logLikelihood x w = (.ok (L x), w)) (x : S) (w : W) :
    callLogLikelihood env x w = ([.logLikelihood x (L x)], .ok (L x), w) := by
  simp [callLogLikelihood, hL]

theorem mhLoop_split (env : World W S D E) (L : S → D)
    (hL : ∀ x w, env.logLikelihood x w = (.ok (L x), w)) (n m : Nat) :
    ∀ (cur : S) (w : W),
      mhLoop env (n + m) cur (L cur) w =
        (mhLoop env n cur (L cur) >>= fun last => mhLoop env m last (L last)) w := by
  induction n with
  | zero =>
    intro cur w
    have : mhLoop env 0 cur (L cur) w = ([], .ok cur, w) := rfl
    rw [Prog.bind_ok this, Nat.zero_add, List.nil_append]
  | succ n ih =>
    intro cur w
    have e : n + 1 + m = (n + m) + 1 := by omega
    rw [e]
    show mhLoop env (n + m + 1) cur (L cur) w = Prog.bind (mhLoop env (n + 1) cur (L cur)) _ w
    unfold Prog.bind
    simp only [mhLoop]
    rcases h1 : env.propose cur [] w with ⟨(e | ⟨y, r⟩), w1⟩
    · have e1 : callPropose env cur [] w = ([], .error e, w1) := by simp [callPropose, h1]
      rw [Prog.bind_error e1, Prog.bind_error e1]
    have e1 : callPropose env cur [] w = ([.proposed cur [] y r], .ok (y, r), w1) := by simp [callPropose, h1]
    rw [Prog.bind_ok e1, Prog.bind_ok e1]
    simp only
    have e2 := callLogLikelihood_pure (env := env) hL y w1
    rw [Prog.bind_ok e2, Prog.bind_ok e2]
    obtain ⟨draws, acc, w3, e3, -⟩ := mhAccept_run env (L y) (L cur) r w1
    rw [Prog.bind_ok e3, Prog.bind_ok e3]
    have fin : ∀ (nx : S) (a : Aux D),
        (callIssue env nx a >>= fun _ => mhLoop env (n + m) nx (L nx)) w3 =
        match (callIssue env nx a >>= fun _ => mhLoop env n nx (L nx)) w3 with
        | (tr, .error e, w') => (tr, .error e, w')
        | (tr, .ok last, w') => (tr ++ (mhLoop env m last (L last) w').1, (mhLoop env m last (L last) w').2) := by
      intro nx a
      rcases h4 : env.issue nx a w3 with ⟨(e | ⟨⟩), w4⟩
      · have e4 : callIssue env nx a w3 = ([.issued nx a], .error e, w4) := by simp [callIssue, h4]
        rw [Prog.bind_error e4, Prog.bind_error e4]
      · have e4 : callIssue env nx a w3 = ([.issued nx a], .ok (), w4) := by simp [callIssue, h4]
        rw [Prog.bind_ok e4, Prog.bind_ok e4, ih nx w4]
        show ([Event.issued nx a] ++ (Prog.bind _ _ w4).1, (Prog.bind _ _ w4).2) = _
        unfold Prog.bind
        rcases mhLoop env n nx (L nx) w4 with ⟨tr, (e | last), w'⟩
        · rfl
        · simp
    cases acc with
    | true =>
      simp only [if_true]
      rw [fin y (mhAux (L y) false)]
      rcases (callIssue env y (mhAux (L y) false) >>= fun _ => mhLoop env n y (L y)) w3 with ⟨tr, (e | last), w'⟩
      · rfl
      · simp
    | false =>
      simp only [Bool.false_eq_true, if_false]
      rw [fin cur (mhAux (L cur) true)]
      rcases (callIssue env cur (mhAux (L cur) true) >>= fun _ => mhLoop env n cur (L cur)) w3 with ⟨tr, (e | last), w'⟩
      · rfl
      · simp

end SampleFlow
