import Verif.Proofs.DEAsync
import Verif.Model.Toy

/-!
# Properties C50, C55, C56: asynchronous execution of DifferentialEvaluationMetropolisHastings
-/

universe u

namespace SampleFlow.DEAsync

open SampleFlow Spec

variable {W : Type u} {S D E : Type} [FloatOps D]

/-- C50: with a deterministic likelihood function (which may throw), whenever the asynchronous execution has finished
- under whatever schedule of its threads - it has made the same proposals and crossovers, drawn the same random
numbers, issued the same samples with the same auxiliary data, in the same order, flushed at the end, returned or
thrown the same, and left the world in the same state as the synchronous execution. -/
theorem C50_async_same_as_sync (p : Params W S D E) (hp : SameLikelihood p) (hn : 3 ≤ p.starts.length) (w : W)
    (c : Config W S D E) (h : Reachable p w c) (r : Except (Stop E) Unit) (hf : c.phase = .finished r) :
    c.trace = withoutLikelihoods (deSample p.env p.starts p.gap p.nSamples w).1 ∧
    r = (deSample p.env p.starts p.gap p.nSamples w).2.1 ∧
    c.world = (deSample p.env p.starts p.gap p.nSamples w).2.2 := by
  have hi := reachable_inv p hp (by unfold Params.n; omega) w c h
  unfold PhaseInv at hi
  rw [hf] at hi
  obtain ⟨-, h1, h2, h3⟩ := hi
  have hs : deSample p.env p.starts p.gap p.nSamples w =
      ((body p w).1 ++ [.flushed], (body p w).2.1, p.env.flush (body p w).2.2) := by
    unfold deSample
    rw [if_pos hn]
    rfl
  rw [hs]
  refine ⟨?_, h2, h3⟩
  rw [h1, without_append]
  rfl

/-- C50: at every moment of every schedule, what the main thread has done so far is a beginning of what the
synchronous execution does. -/
theorem C50_async_prefix (p : Params W S D E) (hp : SameLikelihood p) (hn : 3 ≤ p.starts.length) (w : W)
    (c : Config W S D E) (h : Reachable p w c) :
    c.trace <+: withoutLikelihoods (deSample p.env p.starts p.gap p.nSamples w).1 := by
  have hi := reachable_inv p hp (by unfold Params.n; omega) w c h
  have hs : withoutLikelihoods (deSample p.env p.starts p.gap p.nSamples w).1 =
      (obs (body p w)).1 ++ [.flushed] := by
    unfold deSample
    rw [if_pos hn]
    show withoutLikelihoods ((body p w).1 ++ [.flushed]) = _
    rw [without_append]; rfl
  rw [hs]
  unfold PhaseInv at hi
  cases hph : c.phase with
  | creating k =>
    rw [hph] at hi
    obtain ⟨-, -, -, -, results, vst, -, h6⟩ := hi
    rw [← h6]
    exact ⟨_, (List.append_assoc _ _ _).symm⟩
  | issuing k =>
    rw [hph] at hi
    obtain ⟨-, -, -, -, results, vst, -, h6⟩ := hi
    rw [← h6]
    exact ⟨_, (List.append_assoc _ _ _).symm⟩
  | leaving r =>
    rw [hph] at hi
    obtain ⟨h6, -⟩ := hi
    rw [← h6]
    exact ⟨_, rfl⟩
  | finished r =>
    rw [hph] at hi
    obtain ⟨-, h6, -⟩ := hi
    rw [h6]
    exact ⟨[], List.append_nil _⟩

/-- C55: no deadlock: as long as `sample` has not been left, some thread can take a step. -/
theorem C55_no_deadlock (p : Params W S D E) (hp : SameLikelihood p) (hn : 3 ≤ p.starts.length) (w : W)
    (c : Config W S D E) (h : Reachable p w c) (hf : ∀ r, c.phase ≠ .finished r) : ∃ c', Step p c c' :=
  progress (reachable_inv p hp (by unfold Params.n; omega) w c h) hf

/-- C55: there is no infinite schedule. -/
theorem C55_every_schedule_finite (p : Params W S D E) (hp : SameLikelihood p) (hn : 3 ≤ p.starts.length) (w : W) :
    ¬ ∃ s : Nat → Config W S D E, s 0 = initial p w ∧ ∀ i, Step p (s i) (s (i + 1)) := by
  rintro ⟨s, h0, hs⟩
  have hr : ∀ i, Reachable p w (s i) := by
    intro i
    induction i with
    | zero => rw [h0]; exact .start
    | succ i ih => exact .step ih (hs i)
  have hdec : ∀ i, measure p (s (i + 1)) < measure p (s i) := by
    intro i
    cases hs i with
    | main h => exact h.decreases (by unfold Params.n; omega) (reachable_inv p hp (by unfold Params.n; omega) w _ (hr i))
    | task j h => exact h.decreases
  have : ∀ i, measure p (s i) + i ≤ measure p (s 0) := by
    intro i
    induction i with
    | zero => simp
    | succ i ih => have := hdec i; omega
  have := this (measure p (s 0) + 1)
  omega

/-- C55: from every state that can be reached, the call can be completed. -/
theorem C55_completes (p : Params W S D E) (hp : SameLikelihood p) (hn : 3 ≤ p.starts.length) (w : W)
    (c : Config W S D E) (h : Reachable p w c) : ∃ c' r, Reachable p w c' ∧ c'.phase = .finished r := by
  generalize hm : measure p c = m
  induction m using Nat.strongRecOn generalizing c with
  | ind m ih =>
    by_cases hf : ∀ r, c.phase ≠ .finished r
    · obtain ⟨c', hs⟩ := C55_no_deadlock p hp hn w c h hf
      have hlt : measure p c' < measure p c := by
        cases hs with
        | main h' => exact h'.decreases (by unfold Params.n; omega) (reachable_inv p hp (by unfold Params.n; omega) w _ h)
        | task j h' => exact h'.decreases
      exact ih (measure p c') (by omega) c' (.step h hs) rfl
    · obtain ⟨r, hr⟩ := not_forall.mp hf
      exact ⟨c, r, h, not_not.mp hr⟩

/-- C56: no data race: in no state that can be reached are two different threads about to access the same element of
one of the shared arrays with at least one of the accesses being a write.  This includes the destruction of the
arrays at the end of the function, on normal exit and with an exception. -/
theorem C56_no_data_race (p : Params W S D E) (hp : SameLikelihood p) (hn : 3 ≤ p.starts.length) (w : W)
    (c : Config W S D E) (h : Reachable p w c) (t1 t2 : Thread) (ht : t1 ≠ t2) (l : Loc) (w1 w2 : Bool)
    (h1 : Accesses p c t1 l w1) (h2 : Accesses p c t2 l w2) : w1 = false ∧ w2 = false := by
  have hi := reachable_inv p hp (by unfold Params.n; omega) w c h
  -- a task whose thread accesses the arrays is neither at rest nor done
  have running : ∀ (i : Nat) (l : Loc) (wr : Bool), Accesses p c (.task i) l wr →
      ∃ t, c.tasks[i]? = some t ∧ ¬ t.AtRest := by
    intro i l wr ha
    cases ha with
    | decide _ t d h => exact ⟨_, h, by rintro (h' | ⟨r, h'⟩) <;> cases h'⟩
    | writeNext _ t d h => exact ⟨_, h, by rintro (h' | ⟨r, h'⟩) <;> cases h'⟩
    | writeLL _ t d h => exact ⟨_, h, by rintro (h' | ⟨r, h'⟩) <;> cases h'⟩
    | keepCur _ t d h => exact ⟨_, h, by rintro (h' | ⟨r, h'⟩) <;> cases h'⟩
    | keepNext _ t d h => exact ⟨_, h, by rintro (h' | ⟨r, h'⟩) <;> cases h'⟩
  -- the main thread issues a sample only after waiting for the task
  have waited : ∀ (k : Nat), c.phase = .issuing k → p.Active c.gen k → (∃ c', MainStep p c c') →
      ∃ (t : DETask S D) (r : Except E Bool), c.tasks[k]? = some ⟨t, .done r⟩ := by
    rintro k hph hact ⟨c', hs⟩
    cases hs with
    | issue k' h _ t a hd => rw [hph] at h; cases h; exact ⟨t, _, hd⟩
    | rethrow k' h _ t e hd => rw [hph] at h; cases h; exact ⟨t, _, hd⟩
    | leave r' h => rw [hph] at h; cases h
    | create k h => rw [hph] at h; cases h
    | created k h => rw [hph] at h; cases h
    | advance k' h hn => rw [hph] at h; cases h; exact absurd hact hn
  -- main thread against a task
  have mainTask : ∀ (i : Nat) (l : Loc) (wm wt : Bool), Accesses p c .main l wm → Accesses p c (.task i) l wt →
      wm = false ∧ wt = false := by
    intro i l wm wt hm ha
    obtain ⟨t, hti, hrun⟩ := running i l wt ha
    unfold PhaseInv at hi
    cases hm with
    | create k j hph hact =>
      cases ha with
      | keepCur => exact ⟨rfl, rfl⟩
    | issueNext k hph hact hs =>
      obtain ⟨t', r, hd⟩ := waited k hph hact hs
      cases ha <;> (rw [hd] at hti; cases hti; exact absurd (Or.inr ⟨r, rfl⟩) hrun)
    | issueLL k hph hact hs =>
      obtain ⟨t', r, hd⟩ := waited k hph hact hs
      cases ha <;> (rw [hd] at hti; cases hti; exact absurd (Or.inr ⟨r, rfl⟩) hrun)
    | advanceCur k j hph hact =>
      exfalso
      rw [hph] at hi
      obtain ⟨-, hlen, hk, hdone, -⟩ := hi
      have hlt := (List.getElem?_eq_some_iff.mp hti).1
      obtain ⟨t', r, hd⟩ := hdone i (by unfold Params.Active at hact; omega)
      rw [hd] at hti; cases hti
      exact hrun (Or.inr ⟨r, rfl⟩)
    | advanceNext k j hph hact =>
      exfalso
      rw [hph] at hi
      obtain ⟨-, hlen, hk, hdone, -⟩ := hi
      have hlt := (List.getElem?_eq_some_iff.mp hti).1
      obtain ⟨t', r, hd⟩ := hdone i (by unfold Params.Active at hact; omega)
      rw [hd] at hti; cases hti
      exact hrun (Or.inr ⟨r, rfl⟩)
    | destroy r hph hs =>
      obtain ⟨c', hs⟩ := hs
      cases hs with
      | leave r' h hw => exact absurd (hw t (List.mem_of_getElem? hti)) hrun
      | create k h => rw [hph] at h; cases h
      | created k h => rw [hph] at h; cases h
      | issue k h => rw [hph] at h; cases h
      | rethrow k h => rw [hph] at h; cases h
      | advance k h => rw [hph] at h; cases h
  -- two tasks access different elements
  have index : ∀ (i : Nat) (l : Loc) (wr : Bool), Accesses p c (.task i) l wr → l = .cur i ∨ l = .next i ∨ l = .ll i := by
    intro i l wr ha
    cases ha <;> simp
  cases t1 with
  | main =>
    cases t2 with
    | main => exact absurd rfl ht
    | task j => exact mainTask j l w1 w2 h1 h2
  | task i =>
    cases t2 with
    | main => exact (mainTask i l w2 w1 h2 h1).symm
    | task j =>
      exfalso
      apply ht
      rcases index i l w1 h1 with rfl | rfl | rfl <;> rcases index j _ w2 h2 with h | h | h <;> cases h <;> rfl

/-! ## the accesses are complete

`C56_no_data_race` is about `Accesses`; the following two theorems say that `Accesses` leaves nothing out: what a step
changes is recorded as written, and what a step does depends only on what is recorded. -/

/-- What a location contains. -/
def valueAt (st : DEState S D) : Loc → Option (S ⊕ D)
  | .cur i => (st.cur[i]?).map .inl
  | .next i => (st.next[i]?).map .inl
  | .ll i => (st.lls[i]?).map .inr

/-- A step of the given thread. -/
def StepOf (p : Params W S D E) : Thread → Config W S D E → Config W S D E → Prop
  | .main, c, c' => MainStep p c c'
  | .task i, c, c' => TaskStep p i c c'

omit [FloatOps D] in
/-- writing one element of an array changes no other -/
theorem valueAt_next_set {st : DEState S D} {i : Nat} {x : S} {l : Loc}
    (h : valueAt { st with next := st.next.set i x } l ≠ valueAt st l) : l = .next i := by
  cases l with
  | cur j => exact absurd rfl h
  | ll j => exact absurd rfl h
  | next j =>
    by_cases hj : i = j
    · rw [hj]
    · refine absurd ?_ h
      show ((st.next.set i x)[j]?).map Sum.inl = _
      rw [List.getElem?_set_ne hj]; rfl

omit [FloatOps D] in
/-- the same for the log likelihoods -/
theorem valueAt_lls_set {st : DEState S D} {i : Nat} {x : D} {l : Loc}
    (h : valueAt { st with lls := st.lls.set i x } l ≠ valueAt st l) : l = .ll i := by
  cases l with
  | cur j => exact absurd rfl h
  | next j => exact absurd rfl h
  | ll j =>
    by_cases hj : i = j
    · rw [hj]
    · refine absurd ?_ h
      show ((st.lls.set i x)[j]?).map Sum.inr = _
      rw [List.getElem?_set_ne hj]; rfl

/-- C56: whatever element of the shared arrays a step of a thread changes, `Accesses` records as written by it. -/
theorem C56_writes_are_recorded (p : Params W S D E) (th : Thread) (c c' : Config W S D E) (h : StepOf p th c c')
    (l : Loc) (hl : valueAt c'.st l ≠ valueAt c.st l) : Accesses p c th l true := by
  cases th with
  | main =>
    cases h with
    | create k h ha =>
      refine absurd ?_ hl
      rcases hm : deMakeTask p.env p.gap c.gen c.st.cur k c.world with ⟨tr, r, w⟩
      cases r <;> rfl
    | created k h ha => exact absurd rfl hl
    | issue k h ha t acc hd x hx ll hll =>
      refine absurd ?_ hl
      rcases hm : callIssue p.env x (deAux ll (!acc) k) c.world with ⟨tr, r, w⟩
      cases r <;> rfl
    | rethrow k h ha t e hd => exact absurd rfl hl
    | advance k h ha =>
      cases l with
      | cur i => exact .advanceCur k i h ha
      | next i => exact absurd rfl hl
      | ll i => exact absurd rfl hl
    | leave r h hw => exact absurd rfl hl
  | task i =>
    cases h with
    | evaluate t d h hL => exact absurd rfl hl
    | throw t e h hL => exact absurd rfl hl
    | decide t d ll h hll => exact absurd rfl hl
    | writeNext t d h hn => cases valueAt_next_set hl; exact .writeNext i t d h
    | writeLL t d h hn => cases valueAt_lls_set hl; exact .writeLL i t d h
    | keep t d x h hx hn => cases valueAt_next_set hl; exact .keepNext i t d h

omit [FloatOps D] in
/-- equal contents at all positions: equal arrays -/
theorem ext_inl {A : Type} {B : Type} {l l' : List A}
    (h : ∀ i : Nat, (l[i]?).map (Sum.inl (β := B)) = (l'[i]?).map Sum.inl) : l = l' := by
  apply List.ext_getElem?
  intro i
  exact Option.map_injective (fun _ _ h => Sum.inl.inj h) (h i)

omit [FloatOps D] in
theorem inl_eq {A B : Type} {o o' : Option A} (h : o.map (Sum.inl (β := B)) = o'.map Sum.inl) : o = o' :=
  Option.map_injective (fun _ _ h => Sum.inl.inj h) h

omit [FloatOps D] in
theorem inr_eq {A B : Type} {o o' : Option A} (h : o.map (Sum.inr (α := B)) = o'.map Sum.inr) : o = o' :=
  Option.map_injective (fun _ _ h => Sum.inr.inj h) h

omit [FloatOps D] in
theorem lt_of_getElem?_eq {A : Type} {l l' : List A} {i : Nat} (h : l'[i]? = l[i]?) (hi : i < l.length) :
    i < l'.length := by
  rw [List.getElem?_eq_getElem hi] at h
  exact (List.getElem?_eq_some_iff.mp h).1

/-- C56: what a step does depends only on the elements of the shared arrays that `Accesses` records: change all the
others, and the same thread can take a step with the same effect on everything outside the arrays, and on the
elements that it writes. -/
theorem C56_reads_are_recorded (p : Params W S D E) (th : Thread) (c c' : Config W S D E) (h : StepOf p th c c')
    (st : DEState S D) (hst : ∀ l wr, Accesses p c th l wr → valueAt st l = valueAt c.st l) :
    ∃ c2, StepOf p th { c with st := st } c2 ∧ c2 = { c' with st := c2.st } ∧
      ∀ l, Accesses p c th l true → valueAt c2.st l = valueAt c'.st l := by
  cases th with
  | main =>
    have hstep : ∃ c', MainStep p c c' := ⟨c', h⟩
    cases h with
    | create k h ha =>
      have hc : st.cur = c.st.cur := ext_inl (fun i => hst (.cur i) false (.create k i h ha))
      have hs := MainStep.create (p := p) (c := { c with st := st }) k h ha
      refine ⟨_, hs, ?_, ?_⟩
      · show afterCreate _ k (deMakeTask p.env p.gap c.gen st.cur k c.world) = _
        rw [hc]
        rcases hm : deMakeTask p.env p.gap c.gen c.st.cur k c.world with ⟨tr, r, w⟩
        cases r <;> rfl
      · intro l hl
        exfalso
        cases hl with
        | advanceCur k' i h' ha' => rw [h] at h'; cases h'
        | destroy r h' => rw [h] at h'; cases h'
    | created k h ha =>
      refine ⟨_, MainStep.created (c := { c with st := st }) k h ha, rfl, ?_⟩
      intro l hl
      exfalso
      cases hl with
      | advanceCur k' i h' ha' => rw [h] at h'; cases h'
      | destroy r h' => rw [h] at h'; cases h'
    | issue k h ha t acc hd x hx ll hll =>
      have h1 : st.next[k]? = some x := (inl_eq (hst (.next k) false (.issueNext k h ha hstep))).trans hx
      have h2 : st.lls[k]? = some ll := (inr_eq (hst (.ll k) false (.issueLL k h ha hstep))).trans hll
      have hs := MainStep.issue (p := p) (c := { c with st := st }) k h ha t acc hd x h1 ll h2
      refine ⟨_, hs, ?_, ?_⟩
      · rcases hm : callIssue p.env x (deAux ll (!acc) k) c.world with ⟨tr, r, w⟩
        cases r <;> rfl
      · intro l hl
        exfalso
        cases hl with
        | advanceCur k' i h' ha' => rw [h] at h'; cases h'; exact ha' ha
        | destroy r h' => rw [h] at h'; cases h'
    | rethrow k h ha t e hd =>
      refine ⟨_, MainStep.rethrow (c := { c with st := st }) k h ha t e hd, rfl, ?_⟩
      intro l hl
      exfalso
      cases hl with
      | advanceCur k' i h' ha' => rw [h] at h'; cases h'; exact ha' ha
      | destroy r h' => rw [h] at h'; cases h'
    | advance k h ha =>
      have hn : st.next = c.st.next := ext_inl (fun i => hst (.next i) false (.advanceNext k i h ha))
      refine ⟨_, MainStep.advance (c := { c with st := st }) k h ha, rfl, ?_⟩
      intro l hl
      cases hl with
      | advanceCur k' i h' ha' =>
        show (st.next[i]?).map Sum.inl = (c.st.next[i]?).map Sum.inl
        rw [hn]
      | destroy r h' => rw [h] at h'; cases h'
    | leave r h hw =>
      refine ⟨_, MainStep.leave (c := { c with st := st }) r h hw, rfl, ?_⟩
      intro l hl
      exact hst l true hl
  | task i =>
    cases h with
    | evaluate t d h hL =>
      refine ⟨_, TaskStep.evaluate (c := { c with st := st }) t d h hL, rfl, fun l hl => hst l true hl⟩
    | throw t e h hL =>
      refine ⟨_, TaskStep.throw (c := { c with st := st }) t e h hL, rfl, fun l hl => hst l true hl⟩
    | decide t d ll h hll =>
      have h2 : st.lls[i]? = some ll := (inr_eq (hst (.ll i) false (.decide i t d h))).trans hll
      exact ⟨_, TaskStep.decide (c := { c with st := st }) t d ll h h2, rfl, fun l hl => hst l true hl⟩
    | writeNext t d h hn =>
      have h2 := inl_eq (hst (.next i) true (.writeNext i t d h))
      refine ⟨_, TaskStep.writeNext (c := { c with st := st }) t d h (lt_of_getElem?_eq h2 hn), rfl, ?_⟩
      intro l hl
      cases hl <;> rename_i h' <;> rw [h] at h' <;> cases h'
      show ((st.next.set i t.trial)[i]?).map Sum.inl = ((c.st.next.set i t.trial)[i]?).map Sum.inl
      rw [List.getElem?_set_self (lt_of_getElem?_eq h2 hn), List.getElem?_set_self hn]
    | writeLL t d h hn =>
      have h2 := inr_eq (hst (.ll i) true (.writeLL i t d h))
      refine ⟨_, TaskStep.writeLL (c := { c with st := st }) t d h (lt_of_getElem?_eq h2 hn), rfl, ?_⟩
      intro l hl
      cases hl <;> rename_i h' <;> rw [h] at h' <;> cases h'
      show ((st.lls.set i d)[i]?).map Sum.inr = ((c.st.lls.set i d)[i]?).map Sum.inr
      rw [List.getElem?_set_self (lt_of_getElem?_eq h2 hn), List.getElem?_set_self hn]
    | keep t d x h hx hn =>
      have h1 : st.cur[i]? = some x := (inl_eq (hst (.cur i) false (.keepCur i t d h))).trans hx
      have h2 := inl_eq (hst (.next i) true (.keepNext i t d h))
      refine ⟨_, TaskStep.keep (c := { c with st := st }) t d x h h1 (lt_of_getElem?_eq h2 hn), rfl, ?_⟩
      intro l hl
      cases hl <;> rename_i h' <;> rw [h] at h' <;> cases h'
      show ((st.next.set i x)[i]?).map Sum.inl = ((c.st.next.set i x)[i]?).map Sum.inl
      rw [List.getElem?_set_self (lt_of_getElem?_eq h2 hn), List.getElem?_set_self hn]

/-! ## examples -/

section
local instance : FloatOps Int := toyOps

/-- a call with three chains that meets the premises -/
def toyParams : Params (List Nat) Int Int Empty where
  env := toyWorld
  likelihood := fun x => .ok x
  starts := [10, 20, 30]
  gap := 1
  nSamples := 5

theorem toyParams_same : SameLikelihood toyParams := fun _ _ => rfl
theorem toyParams_three : 3 ≤ toyParams.starts.length := by decide

/-- a state in which two tasks are running at the same time, task 1 ahead of task 0 -/
example : ∃ c, Reachable toyParams [0, 9, 1] c ∧ ∃ t0 t1, c.tasks[0]? = some ⟨t0, .evaluated 11⟩ ∧
    c.tasks[1]? = some ⟨t1, .done (.ok false)⟩ := by
  refine ⟨_, .step (.step (.step (.step (.step (.step .start
    (.main (.create 0 rfl ⟨by decide, by decide⟩))) (.main (.create 1 rfl ⟨by decide, by decide⟩)))
    (.task 1 (.evaluate ⟨21, 1, 9⟩ 21 rfl rfl))) (.task 0 (.evaluate ⟨11, 1, 0⟩ 11 rfl rfl)))
    (.task 1 (.decide ⟨21, 1, 9⟩ 21 20 rfl rfl))) (.task 1 (.keep ⟨21, 1, 9⟩ 21 20 rfl rfl (by decide))), ?_⟩
  exact ⟨_, _, rfl, rfl⟩

/-- a step that changes an element: task 0 accepts its trial sample -/
example : ∃ c c', Reachable toyParams [0, 9, 1] c ∧ StepOf toyParams (.task 0) c c' ∧
    valueAt c.st (.next 0) = some (.inl 10) ∧ valueAt c'.st (.next 0) = some (.inl 11) := by
  refine ⟨_, _, .step (.step (.step .start
    (.main (.create 0 rfl ⟨by decide, by decide⟩)))
    (.task 0 (.evaluate ⟨11, 1, 0⟩ 11 rfl rfl)))
    (.task 0 (.decide ⟨11, 1, 0⟩ 11 10 rfl rfl)), .writeNext ⟨11, 1, 0⟩ 11 rfl (by decide), rfl, rfl⟩

/-! ### Instances: concrete cases that meet the hypotheses of the theorems above -/

-- runs of `toyParams` with several tasks exist, by the examples above
example (c : Config (List Nat) Int Int Empty) (h : Reachable toyParams [0, 9, 1] c) := C50_async_same_as_sync toyParams toyParams_same toyParams_three [0, 9, 1] c h
example (c : Config (List Nat) Int Int Empty) (h : Reachable toyParams [0, 9, 1] c) := C50_async_prefix toyParams toyParams_same toyParams_three [0, 9, 1] c h
example (c : Config (List Nat) Int Int Empty) (h : Reachable toyParams [0, 9, 1] c) := C55_no_deadlock toyParams toyParams_same toyParams_three [0, 9, 1] c h
example := C55_every_schedule_finite toyParams toyParams_same toyParams_three [0, 9, 1]
example := C55_completes toyParams toyParams_same toyParams_three [0, 9, 1] _ .start
example (c : Config (List Nat) Int Int Empty) (h : Reachable toyParams [0, 9, 1] c) := C56_no_data_race toyParams toyParams_same toyParams_three [0, 9, 1] c h (.task 0) (.task 1) (by simp)

end

end SampleFlow.DEAsync
