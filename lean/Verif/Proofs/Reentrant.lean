import Verif.Spec.Reentrant
import Verif.Proofs.Lifecycle

namespace SampleFlow.Reentrant

open Spec

variable {V : Type}

/-! ### events -/

theorem replay_append (t1 t2 : List (Event V)) (w : Objects V) :
    replay (t1 ++ t2) w = match replay t1 w with
      | .error e => .error e
      | .ok w' => replay t2 w' := by
  induction t1 generalizing w with
  | nil => rfl
  | cons e t1 ih =>
    cases e with
    | consumed s m => simp only [List.cons_append, replay, ih]
    | did o =>
      simp only [List.cons_append, replay]
      cases w.step o with
      | error e => rfl
      | ok w1 => exact ih w1

theorem operations_append (t1 t2 : List (Event V)) : operations (t1 ++ t2) = operations t1 ++ operations t2 := by
  induction t1 with
  | nil => rfl
  | cons e t1 ih => cases e <;> simp [operations, ih]

theorem ended_append (c : Nat) (t1 t2 : List (Event V)) : ended c (t1 ++ t2) ↔ ended c t1 ∨ ended c t2 := by
  simp only [ended, operations_append, List.mem_append]
  constructor
  · rintro ⟨o, h | h, h2⟩
    · exact Or.inl ⟨o, h, h2⟩
    · exact Or.inr ⟨o, h, h2⟩
  · rintro (⟨o, h, h2⟩ | ⟨o, h, h2⟩)
    · exact ⟨o, Or.inl h, h2⟩
    · exact ⟨o, Or.inr h, h2⟩

theorem ended_nil (c : Nat) : ¬ ended c ([] : List (Event V)) := by
  rintro ⟨o, h, -⟩; simp [operations] at h

theorem ended_consumed (c : Nat) (s : Slot) (m : V) (t : List (Event V)) : ended c (.consumed s m :: t) ↔ ended c t := Iff.rfl

theorem ended_did (c : Nat) (o : Op V) : ended c [.did o] ↔ ends c o = true := by
  constructor
  · rintro ⟨o', h, h2⟩; simp [operations] at h; subst h; exact h2
  · intro h; exact ⟨o, by simp [operations], h⟩

/-! ### what the computations produce -/

/-- events that are possible while the thread does `k`, and that lead from `w` to `w'` -/
structure Good (k : Stack) (w : Objects V) (t : List (Event V)) (w' : Objects V) : Prop where
  replay : replay t w = .ok w'
  inside : ∀ c ∈ k.inside, ¬ ended c t
  emitting : ∀ p ∈ k.emitting, .destroyProducer p ∉ operations t

theorem Good.nil (k : Stack) (w : Objects V) : Good k w [] w :=
  ⟨rfl, fun c _ => ended_nil c, fun p _ => by simp [operations]⟩

theorem Good.append {k : Stack} {w w1 w2 : Objects V} {t1 t2 : List (Event V)} (h1 : Good k w t1 w1) (h2 : Good k w1 t2 w2) :
    Good k w (t1 ++ t2) w2 := by
  refine ⟨?_, fun c hc => ?_, fun p hp => ?_⟩
  · rw [replay_append, h1.replay]; exact h2.replay
  · rw [ended_append]; rintro (h | h)
    · exact h1.inside c hc h
    · exact h2.inside c hc h
  · rw [operations_append, List.mem_append]; rintro (h | h)
    · exact h1.emitting p hp h
    · exact h2.emitting p hp h

def EmitGood (emit : Stack → Objects V → Nat → V → Result V) : Prop :=
  ∀ k w p m w' t, emit k w p m = .ok (w', t) → Good k w t w'

theorem perform_good {emit : Stack → Objects V → Nat → V → Result V} (he : EmitGood emit) (k : Stack) (w : Objects V) (o : Op V) (w' : Objects V) (t : List (Event V))
    (h : perform emit k w o = .ok (w', t)) : Good k w t w' := by
  by_cases hi : ∃ p m, o = .issue p m
  · obtain ⟨p, m, rfl⟩ := hi
    exact he k w p m w' t h
  have e : perform emit k w o = if k.forbids w o then .error .ub
    else match w.step o with
      | .error e => .error e
      | .ok w' => .ok (w', [.did o]) := by
    cases o <;> first | rfl | exact absurd ⟨_, _, rfl⟩ hi
  rw [e] at h
  split at h
  · cases h
  rename_i hf
  split at h
  · cases h
  rename_i w1 hw
  cases h
  refine ⟨?_, fun c hc => ?_, fun p hp => ?_⟩
  · simp only [replay, hw]
  · rw [ended_did]
    intro hd
    apply hf
    cases o <;> simp [ends] at hd <;> subst hd <;> simp [Stack.forbids, hc]
  · simp only [operations, List.mem_singleton]
    intro hd
    apply hf
    rw [← hd]
    simp [Stack.forbids, hp]

theorem performAll_good {emit : Stack → Objects V → Nat → V → Result V} (he : EmitGood emit) (k : Stack) (os : List (Op V)) : ∀ (w w' : Objects V) (t : List (Event V)),
    performAll emit k os w = .ok (w', t) → Good k w t w' := by
  induction os with
  | nil => intro w w' t h; rw [performAll] at h; cases h; exact Good.nil k w
  | cons o os ih =>
    intro w w' t h
    rw [performAll] at h
    split at h
    · cases h
    rename_i w1 t1 h1
    split at h
    · cases h
    rename_i w2 t2 h2
    cases h
    exact (perform_good he k w o w1 t1 h1).append (ih _ _ _ h2)

theorem receive_good {emit : Stack → Objects V → Nat → V → Result V} (he : EmitGood emit) (react : Slot → V → List (Op V)) (k : Stack) (w : Objects V) (s : Slot) (m : V)
    (w' : Objects V) (t : List (Event V)) (h : receive emit react k w s m = .ok (w', t)) : Good k w t w' := by
  unfold receive at h
  dsimp only at h
  split at h
  · cases h
  split at h
  · cases h
  split at h
  · cases h; exact Good.nil k w
  split at h
  · split at h
    · cases h
    rename_i w2 t2 h2
    cases h
    have g := performAll_good he _ _ _ _ _ h2
    exact ⟨g.replay, fun c hc => g.inside c (by simp [hc]), fun p hp => g.emitting p hp⟩
  · cases h
    exact ⟨rfl, fun c _ => by rw [ended_consumed]; exact ended_nil c, fun p _ => by simp [operations]⟩

theorem deliverSlots_good {emit : Stack → Objects V → Nat → V → Result V} (he : EmitGood emit) (react : Slot → V → List (Op V)) (k : Stack) (p : Nat) (m : V) (slots : List Slot) :
    ∀ (w w' : Objects V) (t : List (Event V)), deliverSlots emit react k p m slots w = .ok (w', t) → Good k w t w' := by
  induction slots with
  | nil => intro w w' t h; rw [deliverSlots] at h; cases h; exact Good.nil k w
  | cons s slots ih =>
    intro w w' t h
    rw [deliverSlots] at h
    split at h
    · split at h
      · cases h
      rename_i w1 t1 h1
      split at h
      · cases h
      rename_i w2 t2 h2
      cases h
      exact (receive_good he react k w s m w1 t1 h1).append (ih _ _ _ h2)
    · exact ih _ _ _ h

theorem emit_good (react : Slot → V → List (Op V)) (depth : Nat) : EmitGood (emit react depth) := by
  induction depth with
  | zero => intro k w p m w' t h; rw [emit] at h; cases h
  | succ depth ih =>
    intro k w p m w' t h
    rw [emit] at h
    split at h
    · cases h
    have g := deliverSlots_good ih react _ p m _ _ _ _ h
    exact ⟨g.replay, g.inside, fun q hq => g.emitting q (by simp [hq])⟩

theorem emit_good' (react : Slot → V → List (Op V)) (depth : Nat) (k : Stack) (w : Objects V) (p : Nat) (m : V) (w' : Objects V) (t : List (Event V))
    (h : emit react depth k w p m = .ok (w', t)) : .destroyProducer p ∉ operations t := by
  cases depth with
  | zero => rw [emit] at h; cases h
  | succ depth =>
    rw [emit] at h
    split at h
    · cases h
    exact (deliverSlots_good (emit_good react depth) react _ p m _ _ _ _ h).emitting p (by simp)

theorem run_good (depth : Nat) (os : List ((Slot → V → List (Op V)) × Op V)) : ∀ (w w' : Objects V) (t : List (Event V)),
    run depth os w = .ok (w', t) → Good ⟨[], []⟩ w t w' := by
  induction os with
  | nil => intro w w' t h; rw [run] at h; cases h; exact Good.nil _ w
  | cons o os ih =>
    intro w w' t h
    obtain ⟨react, o⟩ := o
    rw [run] at h
    split at h
    · cases h
    rename_i w1 t1 h1
    split at h
    · cases h
    rename_i w2 t2 h2
    cases h
    exact (perform_good (emit_good react depth) _ _ _ _ _ h1).append (ih _ _ _ h2)

/-! ### slots -/

theorem callDisconnect_next (p : Nat) (l : List Slot) : ∀ (w w' : Objects V), w.callDisconnect p l = .ok w' → w'.next = w.next := by
  induction l with
  | nil => intro w w' h; rw [Objects.callDisconnect] at h; cases h; rfl
  | cons s l ih =>
    intro w w' h
    rw [Objects.callDisconnect] at h
    split at h
    · split at h
      · cases h
      rename_i w1 h1
      rw [ih _ _ h]
      unfold Objects.disconnectFromProducer at h1
      split at h1
      · cases h1
      split at h1
      · cases h1
      · cases h1; rfl
    · exact ih _ _ h

theorem destroyProducer_next (w w' : Objects V) (p : Nat) (h : w.destroyProducer p = .ok w') : w'.next = w.next := by
  unfold Objects.destroyProducer at h
  split at h
  · cases h
  split at h
  · cases h
  rename_i w1 h1
  cases h
  exact callDisconnect_next p _ w w1 h1

theorem disconnectAndFlush_next (w w' : Objects V) (c : Nat) (h : w.disconnectAndFlush c = .ok w') : w'.next = w.next := by
  unfold Objects.disconnectAndFlush at h
  split at h
  · cases h
  cases h
  exact (disconnectList_cons w (w.cons c).conns).2

theorem destroyConsumer_next (w w' : Objects V) (c : Nat) (h : w.destroyConsumer c = .ok w') : w'.next = w.next := by
  unfold Objects.destroyConsumer at h
  split at h
  · cases h
  rename_i w1 h1
  split at h
  · cases h; exact disconnectAndFlush_next w w1 c h1
  · cases h

/-- what an operation does to the slots of a producer that exist -/
theorem step_slots {w w' : Objects V} (I : Inv w) (o : Op V) (h : w.step o = .ok w') (hi : ∀ p m, o ≠ .issue p m) (q : Nat) (s : Slot) (hs : s.conn < w.next) :
    w.next ≤ w'.next ∧ (s ∈ (w'.prod q).issue ↔ s ∈ (w.prod q).issue ∧ ends s.cons o = false ∧ o ≠ .destroyProducer q) := by
  cases o with
  | connect c p =>
    rw [Objects.step] at h
    obtain ⟨-, -, -, hn, hq, hp, -, -⟩ := connect_spec w c p w' h
    refine ⟨by omega, ?_⟩
    by_cases e : q = p
    · subst e
      rw [hp]
      simp only [List.mem_append, List.mem_singleton, ends, ne_eq, reduceCtorEq, not_false_eq_true, and_true]
      constructor
      · rintro (h | h)
        · exact h
        · rw [h] at hs; simp at hs
      · exact Or.inl
    · rw [hq q e]; simp [ends]
  | disconnectAndFlush c =>
    rw [Objects.step] at h
    have ha : (w.cons c).alive = true := by
      by_contra hcon
      rw [Objects.disconnectAndFlush, if_pos (by simpa using hcon)] at h
      cases h
    obtain ⟨w1, e, hn, hp, -, -⟩ := disconnectAndFlush_spec I c ha
    rw [e] at h; cases h
    refine ⟨by omega, ?_⟩
    have : (ends s.cons (Op.disconnectAndFlush c : Op V) = false) ↔ s.cons ≠ c := by
      simp only [ends, beq_eq_false_iff_ne, ne_eq]; exact ⟨fun h e => h e.symm, fun h e => h e.symm⟩
    rw [(hp q).2.1, List.mem_filter, this]
    simp
  | destroyConsumer c =>
    rw [Objects.step] at h
    have hn := destroyConsumer_next w w' c h
    have ha : (w.cons c).alive = true := by
      by_contra hcon
      rw [Objects.destroyConsumer, Objects.disconnectAndFlush, if_pos (by simpa using hcon)] at h
      cases h
    obtain ⟨w1, e, -, hp, -, -⟩ := destroyConsumer_spec I c ha
    rw [e] at h; cases h
    refine ⟨by omega, ?_⟩
    have : (ends s.cons (Op.destroyConsumer c : Op V) = false) ↔ s.cons ≠ c := by
      simp only [ends, beq_eq_false_iff_ne, ne_eq]; exact ⟨fun h e => h e.symm, fun h e => h e.symm⟩
    rw [(hp q).2, List.mem_filter, this]
    simp
  | destroyProducer p =>
    rw [Objects.step] at h
    have hn := destroyProducer_next w w' p h
    have ha : (w.prod p).alive = true := by
      by_contra hcon
      rw [Objects.destroyProducer, if_pos (by simpa using hcon)] at h
      cases h
    obtain ⟨w1, e, -, hp, hq, -⟩ := destroyProducer_spec I p ha
    rw [e] at h; cases h
    refine ⟨by omega, ?_⟩
    by_cases e : q = p
    · subst e; rw [hp]; simp
    · rw [hq q e]; simp [ends, Ne.symm e]
  | setParallelMode c m =>
    rw [Objects.step] at h
    obtain ⟨-, -, -, hp, hn, -, -⟩ := setParallelMode_spec w c m w' h
    refine ⟨by omega, ?_⟩
    rw [hp]; simp [ends]
  | issue p m => exact absurd rfl (hi p m)
  | flush p =>
    rw [Objects.step] at h
    have ha : (w.prod p).alive = true := by
      by_contra hcon
      rw [Objects.flush, if_pos (by simpa using hcon)] at h
      cases h
    obtain ⟨w1, e1, e2, e3, e4⟩ := callFlush_spec (w.prod p).flush w (fun s hs => I.alive (by rwa [I.flush_eq] at hs))
    have : w.flush p = .ok w1 := by rw [Objects.flush, if_neg (by simp [ha])]; exact e1
    rw [this] at h; cases h
    refine ⟨by omega, ?_⟩
    rw [e2]; simp [ends]

/-- no operation among the events issues a sample -/
def NoIssue (t : List (Event V)) : Prop := ∀ p m, .issue p m ∉ operations t

theorem replay_inv (t : List (Event V)) : ∀ (w w' : Objects V), Inv w → replay t w = .ok w' → Inv w' ∧
    (∀ c p, (slotsOf w' p c).length = liveConnections c p (slotsOf w p c).length (operations t)) ∧
    (∀ c, (w'.cons c).mode = lastMode c (w.cons c).mode (operations t)) ∧
    (∀ c, (w'.cons c).alive = ((w.cons c).alive && decide (c ∉ destroyedConsumers (operations t)))) ∧
    (∀ p, (w'.prod p).alive = ((w.prod p).alive && decide (p ∉ destroyedProducers (operations t)))) := by
  induction t with
  | nil =>
    intro w w' I h; rw [replay] at h; cases h
    refine ⟨I, fun _ _ => rfl, fun _ => rfl, ?_, ?_⟩ <;> intro c <;> simp [operations, destroyedConsumers, destroyedProducers]
  | cons e t ih =>
    intro w w' I h
    cases e with
    | consumed s m =>
      rw [replay] at h
      have hc : ∀ d, ((w.setCons s.cons { w.cons s.cons with log := (w.cons s.cons).log ++ [.sample m] }).cons d).alive = (w.cons d).alive ∧
          ((w.setCons s.cons { w.cons s.cons with log := (w.cons s.cons).log ++ [.sample m] }).cons d).conns = (w.cons d).conns ∧
          ((w.setCons s.cons { w.cons s.cons with log := (w.cons s.cons).log ++ [.sample m] }).cons d).mode = (w.cons d).mode := by
        intro d
        by_cases hd : d = s.cons
        · subst hd; simp [Objects.setCons]
        · simp [Objects.setCons, hd]
      have I1 : Inv (w.setCons s.cons { w.cons s.cons with log := (w.cons s.cons).log ++ [.sample m] }) := I.logs rfl rfl hc
      obtain ⟨a1, a2, a3, a4, a5⟩ := ih _ _ I1 h
      refine ⟨a1, a2, fun c => ?_, fun c => ?_, a5⟩
      · rw [a3, (hc c).2.2]; rfl
      · rw [a4, (hc c).1]; rfl
    | did o =>
      rw [replay] at h
      split at h
      · cases h
      rename_i w1 h1
      obtain ⟨I1, a1, a2, a3, a4, a5⟩ := step_spec I o h1
      obtain ⟨I2, b1, b2, b4, b5⟩ := ih _ _ I1 h
      refine ⟨I2, ?_, ?_, ?_, ?_⟩
      · intro c p; rw [b1, a1]; exact (liveConnections_cons _ _ _ o _).symm
      · intro c; rw [b2, a2]; exact (lastMode_cons _ _ o _).symm
      · intro c; rw [b4, a4]; show _ = (_ && decide (c ∉ destroyedConsumers (o :: operations t))); rw [destroyedConsumers_cons o (operations t)]; simp [not_or, Bool.and_assoc]
      · intro c; rw [b5, a5]; show _ = (_ && decide (c ∉ destroyedProducers (o :: operations t))); rw [destroyedProducers_cons o (operations t)]; simp [not_or, Bool.and_assoc]

theorem replay_slots (t : List (Event V)) : ∀ (w w' : Objects V), Inv w → replay t w = .ok w' → NoIssue t → ∀ (q : Nat) (s : Slot), s.conn < w.next →
    (s ∈ (w'.prod q).issue ↔ s ∈ (w.prod q).issue ∧ ¬ ended s.cons t ∧ .destroyProducer q ∉ operations t) := by
  induction t with
  | nil => intro w w' I h _ q s hs; rw [replay] at h; cases h; simp [ended_nil, operations]
  | cons e t ih =>
    intro w w' I h hno q s hs
    cases e with
    | consumed s' m =>
      rw [replay] at h
      have hc : ∀ d, ((w.setCons s'.cons { w.cons s'.cons with log := (w.cons s'.cons).log ++ [.sample m] }).cons d).alive = (w.cons d).alive ∧
          ((w.setCons s'.cons { w.cons s'.cons with log := (w.cons s'.cons).log ++ [.sample m] }).cons d).conns = (w.cons d).conns ∧
          ((w.setCons s'.cons { w.cons s'.cons with log := (w.cons s'.cons).log ++ [.sample m] }).cons d).mode = (w.cons d).mode := by
        intro d
        by_cases hd : d = s'.cons
        · subst hd; simp [Objects.setCons]
        · simp [Objects.setCons, hd]
      have I1 : Inv (w.setCons s'.cons { w.cons s'.cons with log := (w.cons s'.cons).log ++ [.sample m] }) := I.logs rfl rfl hc
      exact ih _ _ I1 h hno q s hs
    | did o =>
      rw [replay] at h
      split at h
      · cases h
      rename_i w1 h1
      have hno1 : ∀ p m, o ≠ .issue p m := fun p m e => hno p m (by simp [operations, e])
      have hno2 : NoIssue t := fun p m e => hno p m (by simp [operations, e])
      obtain ⟨g1, g2⟩ := step_slots I o h1 hno1 q s hs
      rw [ih _ _ (step_spec I o h1).1 h hno2 q s (by omega), g2]
      have e1 : ended s.cons (.did o :: t) ↔ ends s.cons o = true ∨ ended s.cons t := by
        have := ended_append s.cons [.did o] t
        rwa [ended_did] at this
      rw [e1]
      simp only [operations, List.mem_cons, not_or, ne_eq, eq_comm (a := Op.destroyProducer q)]
      constructor
      · rintro ⟨⟨h1, h2, h3⟩, h4, h5⟩; exact ⟨h1, ⟨by simp [h2], h4⟩, h3, h5⟩
      · rintro ⟨h1, ⟨h2, h4⟩, h3, h5⟩; exact ⟨⟨h1, by simpa using h2, h3⟩, h4, h5⟩

/-! ### issuing is never an operation of the trace -/

theorem NoIssue.nil : NoIssue ([] : List (Event V)) := fun p m h => by simp [operations] at h

theorem NoIssue.append {t1 t2 : List (Event V)} (h1 : NoIssue t1) (h2 : NoIssue t2) : NoIssue (t1 ++ t2) := fun p m h => by
  rw [operations_append, List.mem_append] at h
  exact h.elim (h1 p m) (h2 p m)

def EmitNoIssue (emit : Stack → Objects V → Nat → V → Result V) : Prop :=
  ∀ k w p m w' t, emit k w p m = .ok (w', t) → NoIssue t

theorem perform_noIssue {emit : Stack → Objects V → Nat → V → Result V} (he : EmitNoIssue emit) (k : Stack) (w : Objects V) (o : Op V) (w' : Objects V) (t : List (Event V))
    (h : perform emit k w o = .ok (w', t)) : NoIssue t := by
  by_cases hi : ∃ p m, o = .issue p m
  · obtain ⟨p, m, rfl⟩ := hi
    exact he k w p m w' t h
  have e : perform emit k w o = if k.forbids w o then .error .ub
    else match w.step o with
      | .error e => .error e
      | .ok w' => .ok (w', [.did o]) := by
    cases o <;> first | rfl | exact absurd ⟨_, _, rfl⟩ hi
  rw [e] at h
  split at h
  · cases h
  split at h
  · cases h
  cases h
  intro p m hm
  simp only [operations, List.mem_singleton] at hm
  exact hi ⟨p, m, hm.symm⟩

theorem performAll_noIssue {emit : Stack → Objects V → Nat → V → Result V} (he : EmitNoIssue emit) (k : Stack) (os : List (Op V)) : ∀ (w w' : Objects V) (t : List (Event V)),
    performAll emit k os w = .ok (w', t) → NoIssue t := by
  induction os with
  | nil => intro w w' t h; rw [performAll] at h; cases h; exact NoIssue.nil
  | cons o os ih =>
    intro w w' t h
    rw [performAll] at h
    split at h
    · cases h
    rename_i w1 t1 h1
    split at h
    · cases h
    rename_i w2 t2 h2
    cases h
    exact (perform_noIssue he k w o w1 t1 h1).append (ih _ _ _ h2)

theorem receive_noIssue {emit : Stack → Objects V → Nat → V → Result V} (he : EmitNoIssue emit) (react : Slot → V → List (Op V)) (k : Stack) (w : Objects V) (s : Slot) (m : V)
    (w' : Objects V) (t : List (Event V)) (h : receive emit react k w s m = .ok (w', t)) : NoIssue t := by
  unfold receive at h
  dsimp only at h
  split at h
  · cases h
  split at h
  · cases h
  split at h
  · cases h; exact NoIssue.nil
  split at h
  · split at h
    · cases h
    rename_i w2 t2 h2
    cases h
    have g : NoIssue t2 := performAll_noIssue he _ _ _ _ _ h2
    exact g
  · cases h
    exact NoIssue.nil

theorem deliverSlots_noIssue {emit : Stack → Objects V → Nat → V → Result V} (he : EmitNoIssue emit) (react : Slot → V → List (Op V)) (k : Stack) (p : Nat) (m : V) (slots : List Slot) :
    ∀ (w w' : Objects V) (t : List (Event V)), deliverSlots emit react k p m slots w = .ok (w', t) → NoIssue t := by
  induction slots with
  | nil => intro w w' t h; rw [deliverSlots] at h; cases h; exact NoIssue.nil
  | cons s slots ih =>
    intro w w' t h
    rw [deliverSlots] at h
    split at h
    · split at h
      · cases h
      rename_i w1 t1 h1
      split at h
      · cases h
      rename_i w2 t2 h2
      cases h
      exact (receive_noIssue he react k w s m w1 t1 h1).append (ih _ _ _ h2)
    · exact ih _ _ _ h

theorem emit_noIssue (react : Slot → V → List (Op V)) (depth : Nat) : EmitNoIssue (emit react depth) := by
  induction depth with
  | zero => intro k w p m w' t h; rw [emit] at h; cases h
  | succ depth ih =>
    intro k w p m w' t h
    rw [emit] at h
    split at h
    · cases h
    exact deliverSlots_noIssue ih react _ p m _ _ _ _ h

theorem run_noIssue (depth : Nat) (os : List ((Slot → V → List (Op V)) × Op V)) : ∀ (w w' : Objects V) (t : List (Event V)),
    run depth os w = .ok (w', t) → NoIssue t := by
  induction os with
  | nil => intro w w' t h; rw [run] at h; cases h; exact NoIssue.nil
  | cons o os ih =>
    intro w w' t h
    obtain ⟨react, o⟩ := o
    rw [run] at h
    split at h
    · cases h
    rename_i w1 t1 h1
    split at h
    · cases h
    rename_i w2 t2 h2
    cases h
    exact (perform_noIssue (emit_noIssue react depth) _ _ _ _ _ h1).append (ih _ _ _ h2)

/-! ### delivery -/

/-- what a call of a slot of a connection in force does -/
theorem receive_eq {emit : Stack → Objects V → Nat → V → Result V} (react : Slot → V → List (Op V)) (k : Stack) {w : Objects V} (I : Inv w) {p : Nat} {s : Slot} (hs : s ∈ (w.prod p).issue) (m : V) :
    receive emit react k w s m =
      if s.mode = 1 ∧ k.inside.contains s.cons then .error .ub
      else if s.mode = 1 then
        match performAll emit { k with inside := s.cons :: k.inside } (react s m) (w.setCons s.cons { w.cons s.cons with log := (w.cons s.cons).log ++ [.sample m] }) with
        | .error e => .error e
        | .ok (w2, t) => .ok (w2, .consumed s m :: t)
      else .ok (w.setCons s.cons { w.cons s.cons with log := (w.cons s.cons).log ++ [.sample m] }, [.consumed s m]) := by
  unfold receive
  dsimp only
  rw [if_neg (by simp [I.alive hs])]
  split
  · rfl
  · rw [if_neg (I.conns_ne hs)]
    rfl

/-- the trace of a call of a slot of a connection in force begins with the consumption of the sample -/
theorem receive_head {emit : Stack → Objects V → Nat → V → Result V} (react : Slot → V → List (Op V)) (k : Stack) {w : Objects V} (I : Inv w) {p : Nat} {s : Slot} (hs : s ∈ (w.prod p).issue) (m : V)
    (w' : Objects V) (t : List (Event V)) (h : receive emit react k w s m = .ok (w', t)) : ∃ u, t = .consumed s m :: u := by
  rw [receive_eq react k I hs] at h
  split at h
  · cases h
  split at h
  · split at h
    · cases h
    cases h
    exact ⟨_, rfl⟩
  · cases h
    exact ⟨[], rfl⟩

theorem deliverSlots_delivery {emit : Stack → Objects V → Nat → V → Result V} (he : EmitGood emit) (hn : EmitNoIssue emit) (react : Slot → V → List (Op V)) (k : Stack) (p : Nat) (hp : p ∈ k.emitting) (m : V)
    (w0 : Objects V) (I0 : Inv w0) (slots : List Slot) :
    ∀ (pre : List (Event V)) (w w' : Objects V) (t : List (Event V)), (∀ s ∈ slots, s ∈ (w0.prod p).issue) → replay pre w0 = .ok w → NoIssue pre → .destroyProducer p ∉ operations pre →
      deliverSlots emit react k p m slots w = .ok (w', t) → Delivery m slots pre t := by
  induction slots with
  | nil => intro pre w w' t _ _ _ _ h; rw [deliverSlots] at h; cases h; exact Delivery.done pre
  | cons s slots ih =>
    intro pre w w' t hsl hw hpre hd h
    have hs0 := hsl s (by simp)
    have key := replay_slots pre w0 w I0 hw hpre p s (I0.fresh p s hs0)
    have I := (replay_inv pre w0 w I0 hw).1
    rw [deliverSlots] at h
    split at h
    · rename_i hin
      split at h
      · cases h
      rename_i w1 t1 h1
      split at h
      · cases h
      rename_i w2 t2 h2
      cases h
      obtain ⟨u, rfl⟩ := receive_head react k I hin m w1 t1 h1
      have g := receive_good he react k w s m w1 _ h1
      refine Delivery.call s slots pre u t2 (key.1 hin).2.1 ?_
      refine ih _ w1 w' t2 (fun s' h' => hsl s' (by simp [h'])) ?_ ?_ ?_ h2
      · rw [replay_append, hw]; exact g.replay
      · exact hpre.append (receive_noIssue hn react k w s m w1 _ h1)
      · rw [operations_append, List.mem_append]
        rintro (h | h)
        · exact hd h
        · exact g.emitting p hp h
    · rename_i hin
      have hend : ended s.cons pre := by
        by_contra hcon
        exact hin (key.2 ⟨hs0, hcon, hd⟩)
      exact Delivery.skip s slots pre t hend (ih pre w w' t (fun s' h' => hsl s' (by simp [h'])) hw hpre hd h)

theorem emit_delivery (react : Slot → V → List (Op V)) (depth : Nat) (k : Stack) (w : Objects V) (I : Inv w) (p : Nat) (m : V) (w' : Objects V) (t : List (Event V))
    (h : emit react depth k w p m = .ok (w', t)) : Delivery m (w.prod p).issue [] t := by
  cases depth with
  | zero => rw [emit] at h; cases h
  | succ depth =>
    rw [emit] at h
    split at h
    · cases h
    exact deliverSlots_delivery (emit_good react depth) (emit_noIssue react depth) react _ p (by simp) m w I _ [] w w' t (fun s hs => hs) rfl NoIssue.nil (by simp [operations]) h

/-! ### what consumers have consumed -/

theorem samples_append (l1 l2 : List (NetEvent V)) : samples (l1 ++ l2) = samples l1 ++ samples l2 := by
  induction l1 with
  | nil => rfl
  | cons e l1 ih => cases e <;> simp [samples, ih]

theorem samples_flushes (n : Nat) : samples (List.replicate n (NetEvent.flush : NetEvent V)) = [] := by
  induction n with
  | zero => rfl
  | succ n ih => rw [List.replicate_succ, samples, ih]

theorem step_samples {w w' : Objects V} (I : Inv w) (o : Op V) (h : w.step o = .ok w') (hi : ∀ p m, o ≠ .issue p m) (d : Nat) :
    samples (w'.cons d).log = samples (w.cons d).log := by
  cases o with
  | connect c p =>
    rw [Objects.step] at h
    obtain ⟨-, -, -, -, -, -, hd, hc⟩ := connect_spec w c p w' h
    by_cases e : d = c
    · subst e; rw [hc]
    · rw [hd d e]
  | disconnectAndFlush c =>
    rw [Objects.step] at h
    have ha : (w.cons c).alive = true := by
      by_contra hcon
      rw [Objects.disconnectAndFlush, if_pos (by simpa using hcon)] at h
      cases h
    obtain ⟨w1, e, -, -, hd, hc⟩ := disconnectAndFlush_spec I c ha
    rw [e] at h; cases h
    by_cases e : d = c
    · subst e; rw [hc]; simp [samples_append, samples]
    · rw [hd d e]
  | destroyConsumer c =>
    rw [Objects.step] at h
    have ha : (w.cons c).alive = true := by
      by_contra hcon
      rw [Objects.destroyConsumer, Objects.disconnectAndFlush, if_pos (by simpa using hcon)] at h
      cases h
    obtain ⟨w1, e, -, -, hd, hc⟩ := destroyConsumer_spec I c ha
    rw [e] at h; cases h
    by_cases e : d = c
    · subst e; rw [hc]; simp [samples_append, samples]
    · rw [hd d e]
  | destroyProducer p =>
    rw [Objects.step] at h
    have ha : (w.prod p).alive = true := by
      by_contra hcon
      rw [Objects.destroyProducer, if_pos (by simpa using hcon)] at h
      cases h
    obtain ⟨w1, e, -, -, -, hc⟩ := destroyProducer_spec I p ha
    rw [e] at h; cases h
    rw [hc d]
  | setParallelMode c m =>
    rw [Objects.step] at h
    obtain ⟨-, -, -, -, -, hd, hc⟩ := setParallelMode_spec w c m w' h
    by_cases e : d = c
    · subst e; rw [hc]
    · rw [hd d e]
  | issue p m => exact absurd rfl (hi p m)
  | flush p =>
    rw [Objects.step] at h
    have ha : (w.prod p).alive = true := by
      by_contra hcon
      rw [Objects.flush, if_pos (by simpa using hcon)] at h
      cases h
    obtain ⟨w1, e, -, -, hc⟩ := flush_spec I p ha
    rw [e] at h; cases h
    rw [hc d]; simp [samples_append, samples_flushes]

theorem consumed_inv {w : Objects V} (I : Inv w) (s : Slot) (m : V) : Inv (w.setCons s.cons { w.cons s.cons with log := (w.cons s.cons).log ++ [.sample m] }) := by
  refine I.logs rfl rfl ?_
  intro d
  by_cases hd : d = s.cons
  · subst hd; simp [Objects.setCons]
  · simp [Objects.setCons, hd]

theorem replay_samples (t : List (Event V)) : ∀ (w w' : Objects V), Inv w → replay t w = .ok w' → NoIssue t → ∀ d,
    samples (w'.cons d).log = samples (w.cons d).log ++ consumedBy d t := by
  induction t with
  | nil => intro w w' I h _ d; rw [replay] at h; cases h; simp [consumedBy]
  | cons e t ih =>
    intro w w' I h hno d
    cases e with
    | consumed s m =>
      rw [replay] at h
      rw [ih _ _ (consumed_inv I s m) h hno d, consumedBy]
      by_cases hd : d = s.cons
      · subst hd; simp [Objects.setCons, samples_append, samples]
      · rw [if_neg (Ne.symm hd)]; simp [Objects.setCons, hd]
    | did o =>
      rw [replay] at h
      split at h
      · cases h
      rename_i w1 h1
      have hno1 : ∀ p m, o ≠ .issue p m := fun p m e => hno p m (by simp [operations, e])
      have hno2 : NoIssue t := fun p m e => hno p m (by simp [operations, e])
      rw [ih _ _ (step_spec I o h1).1 h hno2 d, step_samples I o h1 hno1 d, consumedBy]

/-! ### consume() functions that issue nothing -/

theorem quiet_perform (emit : Stack → Objects V → Nat → V → Result V) (k : Stack) (w : Objects V) (o : Op V) (hq : quiet o = true) :
    perform emit k w o = if k.forbids w o then .error .ub
    else match w.step o with
      | .error e => .error e
      | .ok w' => .ok (w', [.did o]) := by
  cases o <;> first | rfl | simp [quiet] at hq

theorem performAll_quiet (emit : Stack → Objects V → Nat → V → Result V) (k : Stack) (os : List (Op V)) (hq : ∀ o ∈ os, quiet o = true) : ∀ (w w' : Objects V) (t : List (Event V)),
    performAll emit k os w = .ok (w', t) → t = os.map .did := by
  induction os with
  | nil => intro w w' t h; rw [performAll] at h; cases h; rfl
  | cons o os ih =>
    intro w w' t h
    rw [performAll, quiet_perform emit k w o (hq o (by simp))] at h
    split at h
    · cases h
    rename_i w1 t1 h1
    split at h
    · cases h
    rename_i w2 t2 h2
    cases h
    split at h1
    · cases h1
    split at h1
    · cases h1
    cases h1
    rw [ih (fun o ho => hq o (by simp [ho])) _ _ _ h2]; rfl

theorem receive_quiet {emit : Stack → Objects V → Nat → V → Result V} (react : Slot → V → List (Op V)) (k : Stack) {w : Objects V} (I : Inv w) {p : Nat} {s : Slot} (hs : s ∈ (w.prod p).issue) (m : V)
    (hq : ∀ o ∈ react s m, quiet o = true) (w' : Objects V) (t : List (Event V)) (h : receive emit react k w s m = .ok (w', t)) : t = .consumed s m :: (during react s m).map .did := by
  rw [receive_eq react k I hs] at h
  split at h
  · cases h
  split at h
  · rename_i hm
    split at h
    · cases h
    rename_i w2 t2 h2
    cases h
    rw [performAll_quiet emit _ _ hq _ _ _ h2, during, if_pos hm]
  · rename_i hm
    cases h
    rw [during, if_neg hm]; rfl

theorem operations_did (os : List (Op V)) : operations (os.map .did) = os := by
  induction os with
  | nil => rfl
  | cons o os ih => simp [operations, ih]

/-- the consumers whose connections operations end -/
def goners (os : List (Op V)) : List Nat := os.filterMap (fun | .disconnectAndFlush c => some c | .destroyConsumer c => some c | _ => none)

theorem mem_goners (os : List (Op V)) (c : Nat) : c ∈ goners os ↔ ended c (os.map .did) := by
  simp only [ended, operations_did, goners, List.mem_filterMap]
  constructor
  · rintro ⟨o, ho, h⟩
    refine ⟨o, ho, ?_⟩
    cases o <;> simp_all [ends]
  · rintro ⟨o, ho, h⟩
    refine ⟨o, ho, ?_⟩
    cases o <;> simp_all [ends]

theorem receivers_cons (react : Slot → V → List (Op V)) (m : V) (gone : List Nat) (s : Slot) (rest : List Slot) :
    receivers react m gone (s :: rest) = if s.cons ∈ gone then receivers react m gone rest else s :: receivers react m (gone ++ goners (during react s m)) rest := rfl

theorem deliverSlots_quiet {emit : Stack → Objects V → Nat → V → Result V} (he : EmitGood emit) (hn : EmitNoIssue emit) (react : Slot → V → List (Op V)) (k : Stack) (p : Nat) (hp : p ∈ k.emitting) (m : V)
    (hq : ∀ s, ∀ o ∈ react s m, quiet o = true) (w0 : Objects V) (I0 : Inv w0) (slots : List Slot) :
    ∀ (gone : List Nat) (pre : List (Event V)) (w w' : Objects V) (t : List (Event V)), (∀ s ∈ slots, s ∈ (w0.prod p).issue) → (∀ c, c ∈ gone ↔ ended c pre) → replay pre w0 = .ok w → NoIssue pre →
      .destroyProducer p ∉ operations pre →
      deliverSlots emit react k p m slots w = .ok (w', t) → t = (receivers react m gone slots).flatMap (fun s => .consumed s m :: (during react s m).map .did) := by
  induction slots with
  | nil => intro gone pre w w' t _ _ _ _ _ h; rw [deliverSlots] at h; cases h; rfl
  | cons s slots ih =>
    intro gone pre w w' t hsl hg hw hpre hd h
    have hs0 := hsl s (by simp)
    have key := replay_slots pre w0 w I0 hw hpre p s (I0.fresh p s hs0)
    have I := (replay_inv pre w0 w I0 hw).1
    rw [deliverSlots] at h
    rw [receivers_cons]
    split at h
    · rename_i hin
      split at h
      · cases h
      rename_i w1 t1 h1
      split at h
      · cases h
      rename_i w2 t2 h2
      cases h
      have e1 := receive_quiet react k I hin m (hq s) w1 t1 h1
      have g := receive_good he react k w s m w1 _ h1
      rw [if_neg (by rw [hg]; exact (key.1 hin).2.1), List.flatMap_cons, ← e1]
      congr 1
      refine ih _ (pre ++ t1) w1 w' t2 (fun s' h' => hsl s' (by simp [h'])) ?_ ?_ ?_ ?_ h2
      · intro c
        rw [List.mem_append, ended_append, hg, mem_goners, e1, ended_consumed]
      · rw [replay_append, hw]; exact g.replay
      · exact hpre.append (receive_noIssue hn react k w s m w1 _ h1)
      · rw [operations_append, List.mem_append]
        rintro (h | h)
        · exact hd h
        · exact g.emitting p hp h
    · rename_i hin
      have hend : ended s.cons pre := by
        by_contra hcon
        exact hin (key.2 ⟨hs0, hcon, hd⟩)
      rw [if_pos (by rw [hg]; exact hend)]
      exact ih gone pre w w' t (fun s' h' => hsl s' (by simp [h'])) hg hw hpre hd h

theorem emit_quiet (react : Slot → V → List (Op V)) (depth : Nat) (k : Stack) (w : Objects V) (I : Inv w) (p : Nat) (m : V) (hq : ∀ s, ∀ o ∈ react s m, quiet o = true) (w' : Objects V) (t : List (Event V))
    (h : emit react depth k w p m = .ok (w', t)) : t = (receivers react m [] (w.prod p).issue).flatMap (fun s => .consumed s m :: (during react s m).map .did) := by
  cases depth with
  | zero => rw [emit] at h; cases h
  | succ depth =>
    rw [emit] at h
    split at h
    · cases h
    exact deliverSlots_quiet (emit_good react depth) (emit_noIssue react depth) react _ p (by simp) m hq w I _ [] [] w w' t (fun s hs => hs) (fun c => by simp [ended_nil]) rfl NoIssue.nil (by simp [operations]) h

theorem consumedBy_append (c : Nat) (t1 t2 : List (Event V)) : consumedBy c (t1 ++ t2) = consumedBy c t1 ++ consumedBy c t2 := by
  induction t1 with
  | nil => rfl
  | cons e t1 ih =>
    cases e with
    | consumed s m => simp only [List.cons_append, consumedBy, ih]; split <;> rfl
    | did o => simp [consumedBy, ih]

theorem consumedBy_did (c : Nat) (os : List (Op V)) : consumedBy c (os.map .did) = [] := by
  induction os with
  | nil => rfl
  | cons o os ih => simp [consumedBy, ih]

theorem consumedBy_flat (c : Nat) (react : Slot → V → List (Op V)) (m : V) (l : List Slot) :
    consumedBy c (l.flatMap (fun s => .consumed s m :: (during react s m).map .did)) = List.replicate (l.countP (fun s => s.cons = c)) m := by
  induction l with
  | nil => rfl
  | cons s l ih =>
    rw [List.flatMap_cons, consumedBy_append, ih, consumedBy, consumedBy_did]
    by_cases h : s.cons = c
    · rw [if_pos h, List.countP_cons_of_pos (by simpa using h), List.replicate_succ]; rfl
    · rw [if_neg h, List.countP_cons_of_neg (by simpa using h)]; rfl

/-! ### success -/

/-- the situation in the course of events that started in `w` -/
structure Sound (w : Objects V) (pl lv : Nat → Nat) (x : Objects V) : Prop where
  inv : Inv x
  aliveC : ∀ c, (x.cons c).alive = (w.cons c).alive
  aliveP : ∀ p, (x.prod p).alive = (w.prod p).alive
  mode : ∀ c, (x.cons c).mode = 1 ∨ (x.cons c).mode = 2
  layer : ∀ q, ∀ s ∈ (x.prod q).issue, pl q ≤ lv s.cons

theorem Sound.consumed {w x : Objects V} {pl lv : Nat → Nat} (h : Sound w pl lv x) (s : Slot) (m : V) :
    Sound w pl lv (x.setCons s.cons { x.cons s.cons with log := (x.cons s.cons).log ++ [.sample m] }) := by
  refine ⟨consumed_inv h.inv s m, fun c => ?_, h.aliveP, fun c => ?_, h.layer⟩
  · by_cases hd : c = s.cons
    · subst hd; simp [Objects.setCons, h.aliveC]
    · simp [Objects.setCons, hd, h.aliveC]
  · by_cases hd : c = s.cons
    · subst hd; simp [Objects.setCons, h.mode]
    · simp [Objects.setCons, hd, h.mode]

theorem Sound.step {w x : Objects V} {pl lv : Nat → Nat} (h : Sound w pl lv x) (c : Nat) (o : Op V) (ho : harmless w pl lv c o) (hq : quiet o = true) :
    ∃ x', x.step o = .ok x' ∧ Sound w pl lv x' := by
  cases o with
  | connect d q =>
    obtain ⟨h1, h2, h3⟩ := ho
    have e : ∃ x', x.connect d q = .ok x' := by
      rw [Objects.connect, if_neg (by simp [h.aliveC, h.aliveP, h1, h2]), if_neg (by have := h.mode d; omega)]
      exact ⟨_, rfl⟩
    obtain ⟨x', e⟩ := e
    obtain ⟨-, -, -, -, g1, g2, g3, g4⟩ := connect_spec x d q x' e
    refine ⟨x', e, h.inv.connect d q e, fun b => ?_, fun b => ?_, fun b => ?_, fun b s hs => ?_⟩
    · by_cases hb : b = d
      · subst hb; rw [g4]; exact h.aliveC b
      · rw [g3 b hb]; exact h.aliveC b
    · by_cases hb : b = q
      · subst hb; rw [g2]; exact h.aliveP b
      · rw [g1 b hb]; exact h.aliveP b
    · by_cases hb : b = d
      · subst hb; rw [g4]; exact h.mode b
      · rw [g3 b hb]; exact h.mode b
    · by_cases hb : b = q
      · subst hb
        rw [g2] at hs
        simp only [List.mem_append, List.mem_singleton] at hs
        rcases hs with hs | hs
        · exact h.layer b s hs
        · rw [hs]; exact h3
      · rw [g1 b hb] at hs; exact h.layer b s hs
  | disconnectAndFlush d =>
    obtain ⟨h1, h2, h3⟩ := ho
    obtain ⟨x', e, -, g1, g2, g3⟩ := disconnectAndFlush_spec h.inv d (by rw [h.aliveC]; exact h1)
    refine ⟨x', e, h.inv.disconnectAndFlush d e, fun b => ?_, fun b => ?_, fun b => ?_, fun b s hs => ?_⟩
    · by_cases hb : b = d
      · subst hb; rw [g3]; exact h.aliveC b
      · rw [g2 b hb]; exact h.aliveC b
    · rw [(g1 b).1]; exact h.aliveP b
    · by_cases hb : b = d
      · subst hb; rw [g3]; exact h.mode b
      · rw [g2 b hb]; exact h.mode b
    · rw [(g1 b).2.1, List.mem_filter] at hs
      exact h.layer b s hs.1
  | flush q =>
    obtain ⟨x', e, I', g1, g2⟩ := flush_spec h.inv q (by rw [h.aliveP]; exact ho)
    refine ⟨x', e, I', fun b => ?_, fun b => ?_, fun b => ?_, fun b s hs => ?_⟩
    · rw [g2]; exact h.aliveC b
    · rw [g1]; exact h.aliveP b
    · rw [g2]; exact h.mode b
    · rw [g1] at hs; exact h.layer b s hs
  | issue q m => simp [quiet] at hq
  | destroyConsumer _ => exact ho.elim
  | destroyProducer _ => exact ho.elim
  | setParallelMode _ _ => exact ho.elim

/-- issuing succeeds for producers in layer `n` and above -/
def EmitOk (w : Objects V) (pl lv : Nat → Nat) (n : Nat) (emit : Stack → Objects V → Nat → V → Result V) : Prop :=
  ∀ k x p m, Sound w pl lv x → (w.prod p).alive = true → n ≤ pl p → (∀ c ∈ k.inside, lv c < pl p) → ∃ x' t, emit k x p m = .ok (x', t) ∧ Sound w pl lv x'

theorem performAll_ok {w : Objects V} {pl lv : Nat → Nat} {n : Nat} {emit : Stack → Objects V → Nat → V → Result V} (he : EmitOk w pl lv n emit) (c : Nat) (hn : n ≤ lv c + 1) (k : Stack) (hk : ∀ d ∈ k.inside, lv d < lv c) (os : List (Op V))
    (ho : ∀ o ∈ os, harmless w pl lv c o) : ∀ x, Sound w pl lv x → ∃ x' t, performAll emit { k with inside := c :: k.inside } os x = .ok (x', t) ∧ Sound w pl lv x' := by
  induction os with
  | nil => intro x hx; exact ⟨x, [], rfl, hx⟩
  | cons o os ih =>
    intro x hx
    have h1 : ∃ x1 t1, perform emit { k with inside := c :: k.inside } x o = .ok (x1, t1) ∧ Sound w pl lv x1 := by
      have hoo := ho o (by simp)
      by_cases hq : quiet o = true
      · obtain ⟨x1, e, hx1⟩ := hx.step c o hoo hq
        refine ⟨x1, [.did o], ?_, hx1⟩
        rw [quiet_perform _ _ _ _ hq, if_neg ?_, e]
        cases o with
        | disconnectAndFlush d =>
          obtain ⟨-, h2, h3⟩ := hoo
          simp only [Stack.forbids, List.contains_eq_mem, List.mem_cons, decide_eq_true_eq]
          rintro (h | h)
          · exact h2 h
          · have := hk d h; omega
        | connect _ _ => simp [Stack.forbids]
        | flush _ => simp [Stack.forbids]
        | issue q m => simp [quiet] at hq
        | destroyConsumer _ => exact hoo.elim
        | destroyProducer _ => exact hoo.elim
        | setParallelMode _ _ => exact hoo.elim
      · cases o with
        | issue q m =>
          obtain ⟨h2, h3⟩ := hoo
          rw [perform]
          refine he _ x q m hx h2 (by omega) ?_
          intro d hd
          simp only [List.mem_cons] at hd
          rcases hd with rfl | hd
          · exact h3
          · have := hk d hd; omega
        | _ => simp [quiet] at hq
    obtain ⟨x1, t1, e1, hx1⟩ := h1
    obtain ⟨x2, t2, e2, hx2⟩ := ih (fun o ho' => ho o (by simp [ho'])) x1 hx1
    exact ⟨x2, t1 ++ t2, by rw [performAll, e1]; simp only [e2], hx2⟩

theorem deliverSlots_ok {w : Objects V} {pl lv : Nat → Nat} {n : Nat} {emit : Stack → Objects V → Nat → V → Result V} (he : EmitOk w pl lv n emit) (react : Slot → V → List (Op V))
    (hr : ∀ s m, ∀ o ∈ react s m, harmless w pl lv s.cons o) (k : Stack) (p : Nat) (hp : n ≤ pl p + 1) (hk : ∀ d ∈ k.inside, lv d < pl p) (m : V) (slots : List Slot) :
    ∀ x, Sound w pl lv x → ∃ x' t, deliverSlots emit react k p m slots x = .ok (x', t) ∧ Sound w pl lv x' := by
  induction slots with
  | nil => intro x hx; exact ⟨x, [], rfl, hx⟩
  | cons s slots ih =>
    intro x hx
    rw [deliverSlots]
    split
    · rename_i hin
      have hl := hx.layer p s hin
      have h1 : ∃ x1 t1, receive emit react k x s m = .ok (x1, t1) ∧ Sound w pl lv x1 := by
        rw [receive_eq react k hx.inv hin, if_neg ?_]
        · split
          · obtain ⟨x1, t1, e, hx1⟩ := performAll_ok he s.cons (by omega) k (fun d hd => by have := hk d hd; omega) (react s m) (hr s m) _ (hx.consumed s m)
            exact ⟨x1, .consumed s m :: t1, by rw [e], hx1⟩
          · exact ⟨_, _, rfl, hx.consumed s m⟩
        · rintro ⟨-, hc⟩
          have := hk s.cons (by simpa using hc)
          omega
      obtain ⟨x1, t1, e1, hx1⟩ := h1
      obtain ⟨x2, t2, e2, hx2⟩ := ih x1 hx1
      exact ⟨x2, t1 ++ t2, by rw [e1]; simp only [e2], hx2⟩
    · exact ih x hx

theorem emit_ok {w : Objects V} {pl lv : Nat → Nat} (D : Nat) (hD : ∀ p, pl p ≤ D) (react : Slot → V → List (Op V)) (hr : ∀ s m, ∀ o ∈ react s m, harmless w pl lv s.cons o) (depth : Nat) :
    EmitOk w pl lv (D + 1 - depth) (emit react depth) := by
  induction depth with
  | zero => intro k x p m _ _ hn; have := hD p; omega
  | succ depth ih =>
    intro k x p m hx hp hn hk
    rw [emit, if_neg (by rw [hx.aliveP, hp]; simp)]
    exact deliverSlots_ok ih react hr { k with emitting := p :: k.emitting } p (by omega) hk m _ x hx

/-! ### what must not be done -/

theorem performAll_allowed {emit : Stack → Objects V → Nat → V → Result V} (k : Stack) (os : List (Op V)) : ∀ (w w' : Objects V) (t : List (Event V)),
    performAll emit k os w = .ok (w', t) → ∀ o ∈ os, (∀ c ∈ k.inside, ends c o = false) ∧ ∀ p ∈ k.emitting, o ≠ .destroyProducer p := by
  induction os with
  | nil => intro w w' t _ o ho; simp at ho
  | cons o os ih =>
    intro w w' t h
    rw [performAll] at h
    split at h
    · cases h
    rename_i w1 t1 h1
    split at h
    · cases h
    rename_i w2 t2 h2
    cases h
    intro o' ho'
    rcases List.mem_cons.1 ho' with rfl | ho'
    · have hf : quiet o' = true → k.forbids w o' = false := by
        intro hq
        rw [quiet_perform _ _ _ _ hq] at h1
        split at h1
        · cases h1
        · rename_i hx; simpa using hx
      refine ⟨fun c hc => ?_, fun p hp e => ?_⟩
      · by_contra hcon
        simp only [Bool.not_eq_false] at hcon
        cases o' <;> simp [ends] at hcon <;> subst hcon <;> simp [Stack.forbids, quiet, hc] at hf
      · subst e; simp [Stack.forbids, quiet, hp] at hf
    · exact ih _ _ _ h2 o' ho'

theorem deliverSlots_allowed {emit : Stack → Objects V → Nat → V → Result V} (he : EmitGood emit) (hn : EmitNoIssue emit) (react : Slot → V → List (Op V)) (k : Stack) (p : Nat) (hp : p ∈ k.emitting) (m : V)
    (w0 : Objects V) (I0 : Inv w0) (slots : List Slot) :
    ∀ (pre : List (Event V)) (w w' : Objects V) (t : List (Event V)), (∀ s ∈ slots, s ∈ (w0.prod p).issue) → replay pre w0 = .ok w → NoIssue pre → .destroyProducer p ∉ operations pre →
      deliverSlots emit react k p m slots w = .ok (w', t) → ∀ s ∈ slots, s.mode = 1 → ¬ ended s.cons (pre ++ t) → ∀ o ∈ react s m, ends s.cons o = false ∧ ∀ q ∈ k.emitting, o ≠ .destroyProducer q := by
  induction slots with
  | nil => intro pre w w' t _ _ _ _ h s hs; simp at hs
  | cons s slots ih =>
    intro pre w w' t hsl hw hpre hd h
    have hs0 := hsl s (by simp)
    have key := replay_slots pre w0 w I0 hw hpre p s (I0.fresh p s hs0)
    have I := (replay_inv pre w0 w I0 hw).1
    rw [deliverSlots] at h
    split at h
    · rename_i hin
      split at h
      · cases h
      rename_i w1 t1 h1
      split at h
      · cases h
      rename_i w2 t2 h2
      cases h
      have g := receive_good he react k w s m w1 _ h1
      intro s' hs' hm hend
      rcases List.mem_cons.1 hs' with rfl | hs'
      · rw [receive_eq react k I hin] at h1
        split at h1
        · cases h1
        split at h1
        · cases h1
        rename_i w3 t3 h3
        intro o ho
        obtain ⟨g1, g2⟩ := performAll_allowed _ _ _ _ _ h3 o ho
        exact ⟨g1 s'.cons (by simp), g2⟩
      · refine ih (pre ++ t1) w1 w' t2 (fun s' h' => hsl s' (by simp [h'])) ?_ ?_ ?_ h2 s' hs' hm (by rw [List.append_assoc]; exact hend)
        · rw [replay_append, hw]; exact g.replay
        · exact hpre.append (receive_noIssue hn react k w s m w1 _ h1)
        · rw [operations_append, List.mem_append]
          rintro (h | h)
          · exact hd h
          · exact g.emitting p hp h
    · rename_i hin
      have hend : ended s.cons pre := by
        by_contra hcon
        exact hin (key.2 ⟨hs0, hcon, hd⟩)
      intro s' hs' hm hend'
      rcases List.mem_cons.1 hs' with rfl | hs'
      · exact absurd ((ended_append _ _ _).2 (Or.inl hend)) hend'
      · exact ih pre w w' t (fun s' h' => hsl s' (by simp [h'])) hw hpre hd h s' hs' hm hend'

theorem emit_allowed (react : Slot → V → List (Op V)) (depth : Nat) (k : Stack) (w : Objects V) (I : Inv w) (p : Nat) (m : V) (w' : Objects V) (t : List (Event V))
    (h : emit react depth k w p m = .ok (w', t)) (s : Slot) (hs : s ∈ (w.prod p).issue) (hm : s.mode = 1) (hend : ¬ ended s.cons t) : ∀ o ∈ react s m, ends s.cons o = false ∧ o ≠ .destroyProducer p := by
  cases depth with
  | zero => rw [emit] at h; cases h
  | succ depth =>
    rw [emit] at h
    split at h
    · cases h
    intro o ho
    obtain ⟨h1, h2⟩ := deliverSlots_allowed (emit_good react depth) (emit_noIssue react depth) react _ p (by simp) m w I _ [] w w' t (fun s hs => hs) rfl NoIssue.nil (by simp [operations]) h s hs hm hend o ho
    exact ⟨h1, h2 p (by simp)⟩

theorem run_inv (sup : Nat → Nat) (depth : Nat) (os : List ((Slot → V → List (Op V)) × Op V)) (w : Objects V) (t : List (Event V)) (h : run depth os (Objects.init sup) = .ok (w, t)) : Inv w :=
  (replay_inv t _ w (Inv.init sup) (run_good depth os _ w t h).replay).1

end SampleFlow.Reentrant
