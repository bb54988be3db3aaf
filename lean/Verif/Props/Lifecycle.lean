import Verif.Proofs.Lifecycle
import Mathlib.Data.List.Induction

/-!
# Properties C09, C10, C11: connections over time
-/

namespace SampleFlow
open Spec

variable {V : Type}

/-- C09: after any history of operations (that has not stopped with a fault), the consumer's map has
as many entries for producer `p` as there are connections in force, and so has each of the three
signals of the producer; the connection numbers agree, in order. -/
theorem C09_bookkeeping (sup : Nat → Nat) (os : List (Op V)) (w : Objects V)
    (h : (Objects.init sup).run os = .ok w) (c p : Nat) :
    (w.cons c).conns.countP (fun e => e.1 = p) = liveConnections c p 0 os ∧
    (w.prod p).issue.countP (fun s => s.cons = c) = liveConnections c p 0 os ∧
    (w.prod p).flush = (w.prod p).issue ∧ (w.prod p).disc = (w.prod p).issue ∧
    ((w.prod p).issue.filter (fun s => s.cons = c)).map Slot.conn =
      ((w.cons c).conns.filter (fun e => e.1 = p)).map Prod.snd := by
  obtain ⟨I, h1, -⟩ := run_spec (Inv.init sup) os h
  have h0 : (slotsOf (Objects.init (V := V) sup) p c).length = 0 := by simp [Objects.init, slotsOf]
  have h1 := h1 c p
  rw [h0] at h1
  refine ⟨by rw [← length_link I, h1], ?_, I.flush_eq p, I.disc_eq p, I.link p c⟩
  rw [← h1, slotsOf, List.length_map, List.countP_eq_length_filter]

/-- C09: a destroyed producer has no slots, a destroyed consumer has no connections, and no producer
has a slot of a destroyed consumer. -/
theorem C09_destroyed (sup : Nat → Nat) (os : List (Op V)) (w : Objects V)
    (h : (Objects.init sup).run os = .ok w) :
    (∀ p ∈ destroyedProducers os, (w.prod p).issue = []) ∧
    (∀ c ∈ destroyedConsumers os, (w.cons c).conns = [] ∧
      ∀ p, ∀ s ∈ (w.prod p).issue, s.cons ≠ c) := by
  obtain ⟨I, -, -, -, h4, h5⟩ := run_spec (Inv.init sup) os h
  constructor
  · intro p hp
    exact I.deadP p (by rw [h5 p]; simp [hp])
  · intro c hc
    have hd : (w.cons c).alive = false := by rw [h4 c]; simp [hc]
    refine ⟨I.deadC c hd, ?_⟩
    rintro p s hs rfl
    rw [I.alive hs] at hd
    cases hd

/-- C09: a program that follows the rules never meets a failing assertion or undefined behaviour in
connecting, disconnecting, destroying, issuing and flushing. In particular the assertions in the
destructors of producers and consumers hold. -/
theorem C09_no_fault (sup : Nat → Nat) (os : List (Op V)) (hl : LegalHistory sup os) :
    ∃ w, (Objects.init sup).run os = .ok w ∧ ∀ c, (w.cons c).mode = 1 ∨ (w.cons c).mode = 2 := by
  induction os using List.reverseRecOn with
  | nil => exact ⟨_, rfl, fun c => Or.inl rfl⟩
  | append_singleton os o ih =>
    obtain ⟨w, h, hm⟩ := ih (by
      intro pre o' post e
      exact hl pre o' (post ++ [o]) (by rw [e]; simp))
    have hlo := hl os o [] rfl
    obtain ⟨I, g1, g2, g3, g4, g5⟩ := run_spec (Inv.init sup) os h
    have aliveC : ∀ c, c ∉ destroyedConsumers os → (w.cons c).alive = true := by
      intro c hc; rw [g4 c]; simp [hc, Objects.init]
    have aliveP : ∀ p, p ∉ destroyedProducers os → (w.prod p).alive = true := by
      intro p hp; rw [g5 p]; simp [hp, Objects.init]
    have step : ∃ w', w.step o = .ok w' := by
      cases o with
      | connect c p =>
        simp only [legal] at hlo
        rw [Objects.step, Objects.connect, if_neg (by simp [aliveC c hlo.1, aliveP p hlo.2]),
          if_neg (by have := hm c; omega)]
        exact ⟨_, rfl⟩
      | disconnectAndFlush c =>
        obtain ⟨w', e, -⟩ := disconnectAndFlush_spec I c (aliveC c hlo)
        exact ⟨w', e⟩
      | destroyConsumer c =>
        obtain ⟨w', e, -⟩ := destroyConsumer_spec I c (aliveC c hlo)
        exact ⟨w', e⟩
      | destroyProducer p =>
        obtain ⟨w', e, -⟩ := destroyProducer_spec I p (aliveP p hlo)
        exact ⟨w', e⟩
      | setParallelMode c m =>
        simp only [legal] at hlo
        obtain ⟨l1, l2, l3, l4⟩ := hlo
        have hconns : (w.cons c).conns = [] := by
          by_contra hne
          obtain ⟨⟨p, k⟩, he⟩ := List.exists_mem_of_ne_nil _ hne
          apply l2
          refine ⟨p, ?_⟩
          have := (C09_bookkeeping sup os w h c p).1
          rw [← this]
          intro h0
          rw [List.countP_eq_zero] at h0
          exact h0 _ he (by simp)
        have hs : (w.cons c).supported = sup c := by rw [g3 c]; rfl
        rw [Objects.step, Objects.setParallelMode, if_neg (by simp [aliveC c l1]),
          if_neg (by simp [hconns]), if_neg (by rw [hs]; exact l4)]
        exact ⟨_, rfl⟩
      | issue p m =>
        obtain ⟨w', e, -⟩ := issue_spec I p m (aliveP p hlo)
        exact ⟨w', e⟩
      | flush p =>
        obtain ⟨w', e, -⟩ := flush_spec I p (aliveP p hlo)
        exact ⟨w', e⟩
    obtain ⟨w', hw'⟩ := step
    refine ⟨w', ?_, ?_⟩
    · rw [run_append, h]; simp only [Objects.run, hw']
    · intro c
      obtain ⟨-, -, k2, -⟩ := step_spec I o hw'
      rw [k2 c]
      cases o with
      | setParallelMode c' m =>
        simp only [legal] at hlo
        rw [lastMode, lastMode]
        split
        · exact hlo.2.2.1
        · exact hm c
      | _ => exact hm c

/-- Instances of C09: a mode is set, connections are made, a sample is issued, a producer is destroyed. -/
example : ∃ w, (Objects.init (V := Nat) (fun _ => 3)).run [.setParallelMode 0 2, .connect 0 1, .issue 1 42, .destroyProducer 1, .setParallelMode 0 1, .connect 0 2] = .ok w ∧ ∀ c, (w.cons c).mode = 1 ∨ (w.cons c).mode = 2 := by
  apply C09_no_fault
  intro pre o post h
  match pre, h with
  | [], h => simp at h; obtain ⟨rfl, _⟩ := h; simp [legal, destroyedConsumers, liveConnections]
  | [a], h => simp at h; obtain ⟨rfl, rfl, _⟩ := h; simp [legal, destroyedConsumers, destroyedProducers]
  | [a, b], h => simp at h; obtain ⟨rfl, rfl, rfl, _⟩ := h; simp [legal, destroyedProducers]
  | [a, b, c], h => simp at h; obtain ⟨rfl, rfl, rfl, rfl, _⟩ := h; simp [legal, destroyedProducers]
  | [a, b, c, d], h => simp at h; obtain ⟨rfl, rfl, rfl, rfl, rfl, _⟩ := h; simp [legal, destroyedConsumers, liveConnections]
  | [a, b, c, d, e], h => simp at h; obtain ⟨rfl, rfl, rfl, rfl, rfl, rfl, _⟩ := h; simp [legal, destroyedConsumers, destroyedProducers]
  | a :: b :: c :: d :: e :: f :: g, h => have := congrArg List.length h; simp at this

/-- Instances of C09: consumer 0 is connected twice to producer 1 and once to producer 2; producer 1 and consumer 3 are destroyed. -/
example := C09_bookkeeping (V := Nat) (fun _ => 3) [.connect 0 1, .connect 0 1, .connect 0 2, .connect 3 2, .issue 1 42, .destroyProducer 1, .destroyConsumer 3] _ rfl 0 2
example := C09_destroyed (V := Nat) (fun _ => 3) [.connect 0 1, .connect 0 1, .connect 0 2, .connect 3 2, .issue 1 42, .destroyProducer 1, .destroyConsumer 3] _ rfl

/-- The premise is satisfiable: consumer 0 is connected twice to producer 1, receives a sample, the
producer is destroyed, the consumer is switched to asynchronous mode. -/
example : ∃ w, (Objects.init (V := Nat) (fun _ => 3)).run
    [.connect 0 1, .connect 0 1, .issue 1 42, .destroyProducer 1, .setParallelMode 0 2] = .ok w ∧
    (w.cons 0).log = [.sample 42, .sample 42] ∧ (w.cons 0).conns = [] := by
  exact ⟨_, rfl, rfl, rfl⟩

/-- C10: a sample issued by producer `p` after the history `os` is delivered to consumer `c` exactly as
often as there are connections in force. -/
theorem C10_delivery (sup : Nat → Nat) (os : List (Op V)) (w w' : Objects V) (p : Nat) (m : V)
    (h : (Objects.init sup).run os = .ok w) (h' : (Objects.init sup).run (os ++ [.issue p m]) = .ok w')
    (c : Nat) :
    (w'.cons c).log =
      (w.cons c).log ++ List.replicate (liveConnections c p 0 os) (.sample m) := by
  obtain ⟨I, g1, -, -, -, -⟩ := run_spec (Inv.init sup) os h
  rw [run_append, h] at h'
  simp only [Objects.run] at h'
  split at h'
  · cases h'
  rename_i w1 hs
  cases h'
  rw [Objects.step] at hs
  have ha : (w.prod p).alive = true := by
    by_contra hcon
    rw [Objects.issue, if_pos (by simpa using hcon)] at hs
    cases hs
  obtain ⟨w2, e, -, -, hc⟩ := issue_spec I p m ha
  rw [e] at hs; cases hs
  have h0 : (slotsOf (Objects.init (V := V) sup) p c).length = 0 := by simp [Objects.init, slotsOf]
  rw [hc c, g1 c p, h0]

theorem liveConnections_no_connect (c p n : Nat) (os : List (Op V))
    (h : ∀ q, Op.connect c q ∉ os) : liveConnections c p n os ≤ n := by
  induction os generalizing n with
  | nil => exact Nat.le_refl n
  | cons o os ih =>
    have ih := fun n => ih n (fun q hq => h q (by simp [hq]))
    have ho := fun q => fun e : Op.connect c q = o => h q (by simp [e])
    cases o with
    | connect c' p' =>
      rw [liveConnections]
      have : ¬ (c' = c ∧ p' = p) := by rintro ⟨rfl, rfl⟩; exact ho p' rfl
      rw [if_neg this]; exact ih n
    | disconnectAndFlush c' =>
      rw [liveConnections]; split
      · exact Nat.le_trans (ih 0) (Nat.zero_le n)
      · exact ih n
    | destroyConsumer c' =>
      rw [liveConnections]; split
      · exact Nat.le_trans (ih 0) (Nat.zero_le n)
      · exact ih n
    | destroyProducer p' =>
      rw [liveConnections]; split
      · exact Nat.le_trans (ih 0) (Nat.zero_le n)
      · exact ih n
    | setParallelMode => exact ih n
    | issue => exact ih n
    | flush => exact ih n

theorem liveConnections_append (c p n : Nat) (a b : List (Op V)) :
    liveConnections c p n (a ++ b) = liveConnections c p (liveConnections c p n a) b := by
  induction a generalizing n with
  | nil => rfl
  | cons o os ih => rw [List.cons_append, liveConnections_cons, ih, ← liveConnections_cons]

/-- C10: after `disconnect_and_flush()` a consumer that has not been connected again receives nothing. -/
theorem C10_nothing_after_disconnect (sup : Nat → Nat) (os₁ os₂ : List (Op V)) (c p : Nat) (m : V)
    (hno : ∀ q, Op.connect c q ∉ os₂) (w w' : Objects V)
    (h : (Objects.init sup).run (os₁ ++ .disconnectAndFlush c :: os₂) = .ok w)
    (h' : (Objects.init sup).run ((os₁ ++ .disconnectAndFlush c :: os₂) ++ [.issue p m]) = .ok w') :
    (w'.cons c).log = (w.cons c).log := by
  rw [C10_delivery sup _ w w' p m h h' c, liveConnections_append, liveConnections, if_pos rfl]
  have := liveConnections_no_connect c p 0 os₂ hno
  have h0 : liveConnections c p 0 os₂ = 0 := Nat.le_zero.mp this
  rw [h0]; simp

/-- C10: a flush by producer `p` reaches consumer `c` once per connection. -/
theorem C10_flush (sup : Nat → Nat) (os : List (Op V)) (w w' : Objects V) (p : Nat)
    (h : (Objects.init sup).run os = .ok w) (h' : (Objects.init sup).run (os ++ [.flush p]) = .ok w')
    (c : Nat) :
    (w'.cons c).log = (w.cons c).log ++ List.replicate (liveConnections c p 0 os) .flush := by
  obtain ⟨I, g1, -, -, -, -⟩ := run_spec (Inv.init sup) os h
  rw [run_append, h] at h'
  simp only [Objects.run] at h'
  split at h'
  · cases h'
  rename_i w1 hs
  cases h'
  rw [Objects.step] at hs
  have ha : (w.prod p).alive = true := by
    by_contra hcon
    rw [Objects.flush, if_pos (by simpa using hcon)] at hs
    cases hs
  obtain ⟨w2, e, -, -, hc⟩ := flush_spec I p ha
  rw [e] at hs; cases hs
  have h0 : (slotsOf (Objects.init (V := V) sup) p c).length = 0 := by simp [Objects.init, slotsOf]
  rw [hc c, g1 c p, h0]

/-- Instances of C10. -/
example := C10_delivery (V := Nat) (fun _ => 3) [.connect 0 1, .connect 0 1, .connect 0 2] _ _ 1 42 rfl rfl 0
example := C10_flush (V := Nat) (fun _ => 3) [.connect 0 1, .connect 0 1, .connect 0 2] _ _ 1 rfl rfl 0
example := C10_nothing_after_disconnect (V := Nat) (fun _ => 3) [.connect 0 1, .issue 1 41] [.connect 2 1] 0 1 42 (by simp) _ _ rfl rfl

example : ∃ w, (Objects.init (V := Nat) (fun _ => 1)).run
    ([.connect 0 0, .issue 0 5] ++ .disconnectAndFlush 0 :: [.connect 1 0, .issue 0 6]) = .ok w ∧
    (w.cons 0).log = [.sample 5, .flush] ∧ (w.cons 1).log = [.sample 6] := ⟨_, rfl, rfl, rfl⟩

/-- C11: while a consumer has a connection, `set_parallel_mode` stops with an assertion. -/
theorem C11_no_change_while_connected (sup : Nat → Nat) (os : List (Op V)) (w : Objects V)
    (h : (Objects.init sup).run os = .ok w) (c p m : Nat) (hc : liveConnections c p 0 os ≠ 0) :
    w.setParallelMode c m = .error .assertion := by
  have hcount := (C09_bookkeeping sup os w h c p).1
  have hne : (w.cons c).conns ≠ [] := by
    intro e; rw [e] at hcount; simp at hcount; exact hc hcount.symm
  obtain ⟨I, -⟩ := run_spec (Inv.init sup) os h
  have ha : (w.cons c).alive = true := by
    by_contra hcon
    exact hne (I.deadC c (by simpa using hcon))
  rw [Objects.setParallelMode, if_neg (by simp [ha]), if_pos (by simpa using hne)]

/-- C11: every connection in force was made in the mode the consumer is in now, and that is one of the
two modes. -/
theorem C11_connections_in_current_mode (sup : Nat → Nat) (os : List (Op V)) (w : Objects V)
    (h : (Objects.init sup).run os = .ok w) (p : Nat) (s : Slot) (hs : s ∈ (w.prod p).issue) :
    s.mode = lastMode s.cons 1 os ∧ (s.mode = 1 ∨ s.mode = 2) := by
  obtain ⟨I, -, g2, -⟩ := run_spec (Inv.init sup) os h
  obtain ⟨h1, h2⟩ := I.modes p s hs
  refine ⟨?_, h2⟩
  rw [h1, g2 s.cons]; rfl

theorem mode_supported {w w' : Objects V} (os : List (Op V)) (I : Inv w) (h : w.run os = .ok w')
    (c : Nat) (h0 : (w.cons c).mode &&& (w.cons c).supported ≠ 0) :
    (w'.cons c).mode &&& (w'.cons c).supported ≠ 0 := by
  induction os generalizing w with
  | nil => rw [Objects.run] at h; cases h; exact h0
  | cons o os ih =>
    rw [Objects.run] at h
    split at h
    · cases h
    rename_i w1 h1
    obtain ⟨I1, -, a2, a3, -⟩ := step_spec I o h1
    apply ih I1 h
    rw [a2 c, a3 c]
    cases o with
    | setParallelMode c' m =>
      rw [Objects.step] at h1
      obtain ⟨-, -, h3, -⟩ := setParallelMode_spec w c' m w1 h1
      rw [lastMode, lastMode]
      split
      · rename_i e; subst e; exact h3
      · exact h0
    | _ => exact h0

/-- C11: a consumer that supports synchronous mode (all consumers and filters of the library do) is only
ever connected in a mode it supports. -/
theorem C11_only_supported_modes_partial (sup : Nat → Nat) (os : List (Op V)) (w : Objects V)
    (h : (Objects.init sup).run os = .ok w) (p : Nat) (s : Slot) (hs : s ∈ (w.prod p).issue)
    (hsync : 1 &&& sup s.cons ≠ 0) : s.mode &&& sup s.cons ≠ 0 := by
  obtain ⟨I, -, g2, g3, -⟩ := run_spec (Inv.init sup) os h
  have := mode_supported os (Inv.init sup) h s.cons hsync
  rw [g3 s.cons] at this
  rw [(I.modes p s hs).1]
  exact this

/-- C11: a consumer or filter that declares only the synchronous mode is never connected
asynchronously. -/
theorem C11_synchronous_only (sup : Nat → Nat) (os : List (Op V)) (w : Objects V)
    (h : (Objects.init sup).run os = .ok w) (p : Nat) (s : Slot) (hs : s ∈ (w.prod p).issue)
    (hsup : sup s.cons = 1) : s.mode = 1 := by
  have h1 := C11_only_supported_modes_partial sup os w h p s hs (by rw [hsup]; decide)
  have h2 := (C11_connections_in_current_mode sup os w h p s hs).2
  rcases h2 with h2 | h2
  · exact h2
  · rw [hsup, h2] at h1; exact absurd rfl h1

/-- Instances of C11. -/
example := C11_no_change_while_connected (V := Nat) (fun _ => 3) [.setParallelMode 0 2, .connect 0 1] _ rfl 0 1 1 (by decide)
example := C11_connections_in_current_mode (V := Nat) (fun _ => 3) [.setParallelMode 0 2, .connect 0 1] _ rfl 1 ⟨0, 0, 2⟩ (by decide)
example := C11_only_supported_modes_partial (V := Nat) (fun _ => 3) [.setParallelMode 0 2, .connect 0 1] _ rfl 1 ⟨0, 0, 2⟩ (by decide) (by decide)
example := C11_synchronous_only (V := Nat) (fun _ => 1) [.connect 0 1] _ rfl 1 ⟨0, 0, 1⟩ (by decide) rfl

/-- C11, finding: a consumer that declares only asynchronous mode (possible for `Action` and for user
classes) starts out in synchronous mode and is connected that way without complaint. -/
theorem C11_violation_async_only_consumer :
    ∃ w : Objects Nat, (Objects.init (fun _ => 2)).run [.connect 0 0] = .ok w ∧
      ∃ s ∈ (w.prod 0).issue, s.cons = 0 ∧ s.mode &&& 2 = 0 :=
  ⟨_, rfl, ⟨0, 0, 1⟩, by decide, rfl, rfl⟩

/-- C11, finding: `set_parallel_mode` accepts the combination `synchronous | asynchronous` even from a
consumer that supports only one of them; the next `connect_to_producer` then aborts. -/
theorem C11_violation_combined_mode :
    ∃ w : Objects Nat, (Objects.init (fun _ => 1)).run [.setParallelMode 0 3] = .ok w ∧
      w.connect 0 0 = .error .assertion := ⟨_, rfl, rfl⟩

end SampleFlow
