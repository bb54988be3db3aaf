import Verif.Proofs.Producers
import Verif.Proofs.Flush

set_option linter.unusedSimpArgs false

universe u

namespace SampleFlow

open Spec

variable {W : Type u} {S D E : Type} [FloatOps D]

/-! ## alpha_fn -/

theorem foldlM_ok {α β ε : Type} (f : β → α → Except ε β) (l : List α)
    (h : ∀ b, ∀ a ∈ l, ∃ b', f b a = .ok b') (b : β) : ∃ b', l.foldlM f b = .ok b' := by
  induction l generalizing b with
  | nil => exact ⟨b, rfl⟩
  | cons a l ih =>
    obtain ⟨b', hb⟩ := h b a (by simp)
    obtain ⟨b'', hb'⟩ := ih (fun b a ha => h b a (by simp [ha])) b'
    refine ⟨b'', ?_⟩
    rw [List.foldlM_cons, hb]
    exact hb'

/-- without the out-of-bounds read the recursion always returns a number -/
theorem alphaFn_ok (fuel : Nat) : ∀ (x : D) (y : List D), y ≠ [] → y.length ≤ fuel →
    ∃ a, alphaFn false fuel x y = .ok a := by
  induction fuel with
  | zero =>
    intro x y hy h
    exact absurd (List.length_eq_zero_iff.mp (by omega)) hy
  | succ fuel ih =>
    intro x y hy hlen
    unfold alphaFn
    rw [List.getLast?_eq_some_getLast hy]
    simp only
    have hpos : 0 < y.length := List.length_pos_of_ne_nil hy
    by_cases h0 : y.length - 1 = 0
    · exact ⟨_, by rw [if_pos h0]⟩
    · rw [if_neg h0]
      apply foldlM_ok
      intro b j hj
      have hj' := List.mem_range.mp hj
      obtain ⟨a1, h1⟩ := ih (y.getLast hy) ((y.drop (y.length - 1 - (j + 1))).take (j + 1))
        (by intro h; have := congrArg List.length h; rw [List.length_take, List.length_drop, List.length_nil] at this; omega)
        (by rw [List.length_take, List.length_drop]; omega)
      obtain ⟨a2, h2⟩ := ih x (y.take (j + 1))
        (by intro h; have := congrArg List.length h; rw [List.length_take, List.length_nil] at this; omega)
        (by rw [List.length_take]; omega)
      simp only [h1, h2]
      exact ⟨_, rfl⟩

/-- with it, a delayed stage is undefined behaviour -/
theorem alphaFn_ub (fuel : Nat) (x : D) (y : List D) (h : 2 ≤ y.length) :
    alphaFn true fuel x y = .error .ub := by
  cases fuel with
  | zero => rfl
  | succ fuel =>
    have hy : y ≠ [] := by rintro rfl; simp at h
    unfold alphaFn
    rw [List.getLast?_eq_some_getLast hy]
    have h0 : ¬ (y.length - 1 = 0) := by omega
    simp only [if_neg h0]
    have h1 : y.length - 1 = (y.length - 2) + 1 := by omega
    rw [h1, List.range_succ_eq_map, List.foldlM_cons]
    rfl

theorem alphaFn_single (checked : Bool) (fuel : Nat) (x y : D) :
    alphaFn checked (fuel + 1) x [y] = .ok (FloatOps.exp (FloatOps.sub y x)) := by
  unfold alphaFn
  rfl

/-- the program is well defined for these settings -/
def DRDefined (checked : Bool) (maxDelays : Nat) : Prop := checked = false ∨ maxDelays = 0

theorem alphaFn_defined {checked : Bool} {maxDelays : Nat} (h : DRDefined checked maxDelays) (x : D) (y : List D)
    (hy : y ≠ []) (hl : y.length ≤ maxDelays + 1) : ∃ a, alphaFn checked y.length x y = .ok a := by
  rcases h with h | h
  · rw [h]; exact alphaFn_ok _ x y hy (Nat.le_refl _)
  · have : y.length = 1 := by
      have := List.length_pos_of_ne_nil hy
      omega
    obtain ⟨a, rfl⟩ := List.length_eq_one_iff.mp this
    exact ⟨_, alphaFn_single checked 0 x a⟩

/-! ## the loops -/

theorem drAccept_run (env : World W S D (Stop E)) (ratio : D) (w : W) :
    ∃ (draws : List D) (acc : Bool) (w' : W), (if FloatOps.lt FloatOps.one ratio then pure true
      else do
        let u ← draw env
        pure (FloatOps.le u ratio) : Prog W S D (Stop E) Bool) w = (draws.map .drew, .ok acc, w') ∧
      StageDecision ratio draws acc := by
  by_cases h : FloatOps.lt FloatOps.one ratio = true
  · exact ⟨[], true, w, by rw [if_pos h]; rfl, Or.inl ⟨h, rfl, rfl⟩⟩
  · exact ⟨[(env.uniform w).1], FloatOps.le (env.uniform w).1 ratio, (env.uniform w).2, by rw [if_neg h]; rfl,
      Or.inr ⟨by simpa using h, _, rfl, rfl⟩⟩

omit [FloatOps D] in
theorem triedEvents_quiet (L : S → D) (prev : S) (before : List S) (tried : List (S × D × List D)) :
    ∀ e ∈ triedEvents L prev before tried, Spec.Event.quiet e = true := by
  induction tried generalizing before with
  | nil => simp [triedEvents]
  | cons t rest ih =>
    intro e he
    obtain ⟨y, r, draws⟩ := t
    simp only [triedEvents, List.mem_append, List.mem_cons, List.not_mem_nil, or_false] at he
    rcases he with ((h | h) | h) | h
    · subst h; rfl
    · subst h; rfl
    · exact quiet_drew draws e h
    · exact ih _ e h

theorem drStages_run (checked : Bool) (maxDelays : Nat) (hdef : DRDefined checked maxDelays)
    (env : World W S D (Stop E)) (L : S → D) (hL : LikelihoodIs env L) (cur : S) (stagesLeft : Nat) :
    ∀ (proposed : List (S × D)) (w : W), stagesLeft + proposed.length ≤ maxDelays + 1 →
      ∃ (tried : List (S × D × List D)) (tail : List (Event S D)),
        (∀ e ∈ tail, Spec.Event.quiet e = true) ∧
        (drStages checked env cur (L cur) stagesLeft proposed w).1 =
          triedEvents L cur (proposed.map Prod.fst) tried ++ tail ∧
        tried.length ≤ stagesLeft ∧
        (∀ r, (drStages checked env cur (L cur) stagesLeft proposed w).2.1 = .ok r → tail = [] ∧
          ((r = none ∧ tried.length = stagesLeft) ∨
           (∃ y, r = some (y, L y) ∧ tried.getLast?.map (fun t => t.1) = some y ∧ 1 ≤ tried.length)) ∧
          ∀ (k : Nat) (t : S × D × List D), tried[k]? = some t →
            ∃ a, alphaFn checked (proposed.length + (k + 1)) (L cur)
                (proposed.map Prod.snd ++ (tried.take (k + 1)).map (fun t => L t.1)) = .ok a ∧
              StageDecision a t.2.2 (decide (k + 1 = tried.length) && r.isSome)) := by
  induction stagesLeft with
  | zero =>
    intro proposed w _
    refine ⟨[], [], by simp, rfl, Nat.le_refl _, ?_⟩
    intro r hr; cases hr; exact ⟨rfl, Or.inl ⟨rfl, rfl⟩, by simp⟩
  | succ k ih =>
    intro proposed w hlen
    unfold drStages
    rcases h1 : env.propose cur (proposed.map Prod.fst) w with ⟨(e | ⟨y, r⟩), w1⟩
    · have e1 : callPropose env cur (proposed.map Prod.fst) w = ([], .error e, w1) := by simp [callPropose, h1]
      rw [Prog.bind_error e1]
      exact ⟨[], [], by simp, rfl, by simp, by intro r hr; cases hr⟩
    have e1 : callPropose env cur (proposed.map Prod.fst) w =
      ([.proposed cur (proposed.map Prod.fst) y r], .ok (y, r), w1) := by simp [callPropose, h1]
    rw [Prog.bind_ok e1]
    rcases h2 : env.logLikelihood y w1 with ⟨(e | d), w2⟩
    · have e2 : callLogLikelihood env y w1 = ([], .error e, w2) := by simp [callLogLikelihood, h2]
      simp only
      rw [Prog.bind_error e2]
      refine ⟨[], [.proposed cur (proposed.map Prod.fst) y r], by simp [Spec.Event.quiet], rfl, by simp, ?_⟩
      intro r hr; cases hr
    have hd := hL y w1 d w2 h2
    subst hd
    have e2 : callLogLikelihood env y w1 = ([.logLikelihood y (L y)], .ok (L y), w2) := by
      simp [callLogLikelihood, h2]
    simp only
    rw [Prog.bind_ok e2]
    obtain ⟨a, ha⟩ := alphaFn_defined hdef (L cur) ((proposed ++ [(y, L y)]).map Prod.snd) (by simp)
      (by simp; omega)
    have e3 : (liftFault (alphaFn checked (proposed ++ [(y, L y)]).length (L cur)
        ((proposed ++ [(y, L y)]).map Prod.snd)) : Prog W S D (Stop E) D) w2 = ([], .ok a, w2) := by
      have hl : (proposed ++ [(y, L y)]).length = ((proposed ++ [(y, L y)]).map Prod.snd).length := by simp
      rw [hl, ha]; rfl
    have ha' : alphaFn checked (proposed.length + (0 + 1)) (L cur) (proposed.map Prod.snd ++ [L y]) = .ok a := by
      rw [← ha]; simp
    rw [Prog.bind_ok e3]
    obtain ⟨draws, acc, w3, e4, hdec⟩ := drAccept_run env a w2
    rw [Prog.bind_ok e4]
    cases acc with
    | true =>
      refine ⟨[(y, r, draws)], [], by simp, ?_, by simp, ?_⟩
      · simp [triedEvents, Prog.pure_run]
      · intro r' hr
        cases hr
        refine ⟨rfl, Or.inr ⟨y, rfl, rfl, Nat.le_refl _⟩, ?_⟩
        intro k t hk
        cases k with
        | zero =>
          simp only [List.getElem?_cons_zero, Option.some.injEq] at hk
          subst hk
          exact ⟨a, by simpa using ha', by simpa using hdec⟩
        | succ k => simp at hk
    | false =>
      simp only [Bool.false_eq_true, if_false]
      obtain ⟨tried, tail, i1, i2, i3, i4⟩ := ih (proposed ++ [(y, L y)]) w3 (by simp; omega)
      refine ⟨(y, r, draws) :: tried, tail, i1, ?_, by simpa using i3, ?_⟩
      · rw [i2]; simp [triedEvents]
      · intro r' hr
        obtain ⟨j1, j2, j5⟩ := i4 r' hr
        refine ⟨j1, ?_, ?_⟩
        swap
        · intro k0 t hk0
          cases k0 with
          | zero =>
            simp only [List.getElem?_cons_zero, Option.some.injEq] at hk0
            subst hk0
            refine ⟨a, by simpa using ha', ?_⟩
            have : (decide (0 + 1 = ((y, r, draws) :: tried).length) && r'.isSome) = false := by
              rcases j2 with ⟨j2, -⟩ | ⟨z, -, -, j4⟩
              · simp [j2]
              · rw [Bool.and_eq_false_iff]; left; rw [decide_eq_false_iff_not, List.length_cons]; omega
            rw [this]; exact hdec
          | succ k0 =>
            simp only [List.getElem?_cons_succ] at hk0
            obtain ⟨a', b1, b2⟩ := j5 k0 t hk0
            refine ⟨a', ?_, by simpa using b2⟩
            rw [← b1]
            simp only [List.length_append, List.length_singleton, List.map_append, List.map_cons, List.map_nil,
              List.append_assoc, List.take_succ_cons, List.singleton_append]
            congr 1
            omega
        rcases j2 with ⟨j2, j3⟩ | ⟨z, j2, j3, j4⟩
        · exact Or.inl ⟨j2, by simp [j3]⟩
        · refine Or.inr ⟨z, j2, ?_, by simp⟩
          cases tried with
          | nil => simp at j4
          | cons t ts => rw [List.getLast?_cons_cons]; exact j3

/-- `a` is what `alpha_fn` returns -/
def alphaIs (checked : Bool) (x : D) (ys : List D) (a : D) : Prop := alphaFn checked ys.length x ys = .ok a

theorem drLoop_run (checked : Bool) (maxDelays : Nat) (hdef : DRDefined checked maxDelays)
    (env : World W S D (Stop E)) (L : S → D) (hL : LikelihoodIs env L) (n : Nat) :
    ∀ (cur : S) (w : W), ∃ (moves : List (DRMove S D)) (tail : List (Event S D)),
      DRLinked cur moves ∧ (∀ m ∈ moves, m.Complete maxDelays ∧ m.Decided (alphaIs checked) L) ∧
      (drLoop checked env maxDelays n cur (L cur) w).1 = moves.flatMap (DRMove.events L) ++ tail ∧
      (∀ e ∈ tail, Spec.Event.quiet e = true) ∧
      moves.length ≤ n ∧
      (∀ last, (drLoop checked env maxDelays n cur (L cur) w).2.1 = .ok last → moves.length = n ∧ tail = []) := by
  induction n with
  | zero =>
    intro cur w
    exact ⟨[], [], trivial, by simp, rfl, by simp, Nat.le_refl _, by intro last h; exact ⟨rfl, rfl⟩⟩
  | succ n ih =>
    intro cur w
    unfold drLoop
    obtain ⟨tried, tail, i1, i2, i3, i4⟩ := drStages_run checked maxDelays hdef env L hL cur (maxDelays + 1) [] w
      (by simp)
    rcases h : drStages checked env cur (L cur) (maxDelays + 1) [] w with ⟨tr, (e | r), w1⟩
    · rw [Prog.bind_error h]
      rw [h] at i2
      simp only [List.map_nil] at i2
      refine ⟨[], tr, trivial, by simp, by simp, ?_, by simp, by intro last h; cases h⟩
      intro e he
      rw [i2] at he
      rcases List.mem_append.mp he with he | he
      · exact triedEvents_quiet L cur [] tried e he
      · exact i1 e he
    · rw [Prog.bind_ok h]
      rw [h] at i2 i4
      simp only [List.map_nil] at i2
      obtain ⟨j1, j2, j5⟩ := i4 r rfl
      subst j1
      rw [List.append_nil] at i2
      have cont : ∀ (m : DRMove S D) (nx : S) (a : Aux D), m.prev = cur → m.tried = tried →
          (m.Complete maxDelays ∧ m.Decided (alphaIs checked) L) → nx = m.next →
          a = [("relative log likelihood", .real (L m.next)), ("sample is repeated", .flag (!m.accepted))] →
          ∃ (moves : List (DRMove S D)) (tail : List (Event S D)),
            DRLinked cur moves ∧ (∀ m ∈ moves, m.Complete maxDelays ∧ m.Decided (alphaIs checked) L) ∧
            tr ++ ((callIssue env nx a >>= fun _ => drLoop checked env maxDelays n nx (L nx)) w1).1 =
              moves.flatMap (DRMove.events L) ++ tail ∧
            (∀ e ∈ tail, Spec.Event.quiet e = true) ∧
            moves.length ≤ n + 1 ∧
            (∀ last, ((callIssue env nx a >>= fun _ => drLoop checked env maxDelays n nx (L nx)) w1).2.1 = .ok last →
              moves.length = n + 1 ∧ tail = []) := by
        intro m nx a hm1 hm2 hm3 hnx ha
        rcases h4 : env.issue nx a w1 with ⟨(e | ⟨⟩), w4⟩
        · have e4 : callIssue env nx a w1 = ([.issued nx a], .error e, w4) := by simp [callIssue, h4]
          rw [Prog.bind_error e4]
          refine ⟨[m], [], ⟨hm1, trivial⟩, by simpa using hm3, ?_, by simp, by simp, by intro last h; cases h⟩
          rw [hnx, ha, i2]; simp [DRMove.events, hm1, hm2]
        · have e4 : callIssue env nx a w1 = ([.issued nx a], .ok (), w4) := by simp [callIssue, h4]
          rw [Prog.bind_ok e4]
          obtain ⟨ms, tail, k1, k2, k3, k4, k5, k6⟩ := ih nx w4
          refine ⟨m :: ms, tail, ⟨hm1, hnx ▸ k1⟩, ?_, ?_, k4, by simpa using k5, ?_⟩
          · intro m' hm'
            rcases List.mem_cons.mp hm' with rfl | hm'
            · exact hm3
            · exact k2 m' hm'
          · simp only; rw [k3, hnx, ha, i2]; simp [DRMove.events, hm1, hm2]
          · intro last h
            obtain ⟨l1, l2⟩ := k6 last h
            exact ⟨by simp [l1], l2⟩
      have dec : ∀ acc : Bool, acc = r.isSome → (⟨cur, tried, acc⟩ : DRMove S D).Decided (alphaIs checked) L := by
        intro acc hacc k t hk
        obtain ⟨a, b1, b2⟩ := j5 k t hk
        have hlt : k < tried.length := (List.getElem?_eq_some_iff.mp hk).1
        refine ⟨a, ?_, by rw [hacc]; exact b2⟩
        unfold alphaIs
        rw [← b1]
        simp only [List.length_map, List.length_take, List.length_nil, List.map_nil, List.nil_append, Nat.zero_add]
        rw [Nat.min_eq_left (by omega)]
      rcases j2 with ⟨j2, j3⟩ | ⟨y, j2, j3, j4⟩
      · subst j2
        exact cont ⟨cur, tried, false⟩ cur (mhAux (L cur) true) rfl rfl
          ⟨⟨by simp only; omega, by simp only; omega, fun _ => j3⟩, dec _ rfl⟩ rfl rfl
      · subst j2
        exact cont ⟨cur, tried, true⟩ y (mhAux (L y) false) rfl rfl
          ⟨⟨j4, i3, fun h => by cases h⟩, dec _ rfl⟩ (by simp [DRMove.next, j3]) (by simp [DRMove.next, j3, mhAux])

theorem drSample_run (checked : Bool) (maxDelays : Nat) (hdef : DRDefined checked maxDelays)
    (env : World W S D (Stop E)) (L : S → D) (hL : LikelihoodIs env L) (start : S) (n : Nat) (w : W) :
    (∃ e, (drSample checked env start maxDelays n w).2.1 = .error e ∧
      (drSample checked env start maxDelays n w).1 = [.flushed]) ∨
    ∃ (moves : List (DRMove S D)) (tail : List (Event S D)),
      DRLinked start moves ∧ (∀ m ∈ moves, m.Complete maxDelays ∧ m.Decided (alphaIs checked) L) ∧
      moves.length ≤ n ∧
      ((∃ e, (drSample checked env start maxDelays n w).2.1 = .error e ∧
          (∀ ev ∈ tail, Spec.Event.quiet ev = true) ∧
          (drSample checked env start maxDelays n w).1 =
            .logLikelihood start (L start) :: (moves.flatMap (DRMove.events L) ++ tail ++ [.flushed])) ∨
        ((∃ last, (drSample checked env start maxDelays n w).2.1 = .ok last) ∧ moves.length = n ∧
          (drSample checked env start maxDelays n w).1 =
            .logLikelihood start (L start) :: (moves.flatMap (DRMove.events L) ++ [.flushed, .flushed]))) := by
  unfold drSample Prog.withScopeExit
  rcases h1 : env.logLikelihood start w with ⟨(e | d), w1⟩
  · left
    have e1 : callLogLikelihood env start w = ([], .error e, w1) := by simp [callLogLikelihood, h1]
    exact ⟨e, by rw [Prog.bind_error e1], by rw [Prog.bind_error e1]; rfl⟩
  · right
    have hd := hL start w d w1 h1
    subst hd
    have e1 : callLogLikelihood env start w = ([.logLikelihood start (L start)], .ok (L start), w1) := by
      simp [callLogLikelihood, h1]
    obtain ⟨moves, tail, i1, i2, i3, i4, i5, i6⟩ := drLoop_run checked maxDelays hdef env L hL n start w1
    refine ⟨moves, tail, i1, i2, i5, ?_⟩
    rw [Prog.bind_ok e1]
    rcases h2 : drLoop checked env maxDelays n start (L start) w1 with ⟨tr, (e | last), w2⟩
    · left
      rw [h2] at i3
      simp only at i3
      refine ⟨e, ?_, i4, ?_⟩
      · simp only; rw [Prog.bind_error h2]
      · simp only; rw [Prog.bind_error h2, i3]; simp [scopeExitFlush]
    · right
      rw [h2] at i3 i6
      simp only at i3
      obtain ⟨j1, j2⟩ := i6 last rfl
      subst j2
      have e3 : callFlush env w2 = ([.flushed], .ok (), env.flush w2) := rfl
      refine ⟨⟨last, ?_⟩, j1, ?_⟩
      · simp only; rw [Prog.bind_ok h2]; simp only; rw [Prog.bind_ok e3]; rfl
      · simp only; rw [Prog.bind_ok h2]; simp only; rw [Prog.bind_ok e3, i3]
        simp [scopeExitFlush, Prog.pure_run]

end SampleFlow
