import Verif.Proofs.Reentrant

/-!
# Property C84: consume() functions that change connections

A sample is being delivered, and `consume()` of a consumer (say, the function of an `Action`) connects, disconnects,
destroys or issues.
-/

namespace SampleFlow.Reentrant
open Spec

variable {V : Type}

/-- C84: whatever consume() functions do during deliveries, nested to any depth: if the program comes through, then the state of all objects is the one that results from doing the same things one after the other. -/
theorem C84_replay (sup : Nat → Nat) (depth : Nat) (os : List ((Slot → V → List (Op V)) × Op V)) (w : Objects V) (t : List (Event V))
    (h : run depth os (Objects.init sup) = .ok (w, t)) : replay t (Objects.init sup) = .ok w ∧ ∀ p m, .issue p m ∉ operations t :=
  ⟨(run_good depth os _ w t h).replay, run_noIssue depth os _ w t h⟩

/-- C84: the connections of a consumer and the slots of a producer are those that the connections made and ended, at whatever moment, leave in force. -/
theorem C84_bookkeeping (sup : Nat → Nat) (depth : Nat) (os : List ((Slot → V → List (Op V)) × Op V)) (w : Objects V) (t : List (Event V))
    (h : run depth os (Objects.init sup) = .ok (w, t)) (c p : Nat) :
    (w.cons c).conns.countP (fun e => e.1 = p) = liveConnections c p 0 (operations t) ∧
    (w.prod p).issue.countP (fun s => s.cons = c) = liveConnections c p 0 (operations t) ∧
    (w.prod p).flush = (w.prod p).issue ∧ (w.prod p).disc = (w.prod p).issue := by
  obtain ⟨I, h1, -⟩ := replay_inv t _ w (Inv.init sup) (run_good depth os _ w t h).replay
  have h0 : (slotsOf (Objects.init (V := V) sup) p c).length = 0 := by simp [Objects.init, slotsOf]
  have h1 := h1 c p
  rw [h0] at h1
  refine ⟨by rw [← length_link I, h1], ?_, I.flush_eq p, I.disc_eq p⟩
  rw [← h1, slotsOf, List.length_map, List.countP_eq_length_filter]

/-- C84: the samples that a consumer has seen are those of the calls of its consume(), in that order. -/
theorem C84_samples (sup : Nat → Nat) (depth : Nat) (os : List ((Slot → V → List (Op V)) × Op V)) (w : Objects V) (t : List (Event V))
    (h : run depth os (Objects.init sup) = .ok (w, t)) (c : Nat) : samples (w.cons c).log = consumedBy c t := by
  have := replay_samples t _ w (Inv.init sup) (run_good depth os _ w t h).replay (run_noIssue depth os _ w t h) c
  simpa [Objects.init, samples] using this

/-- C84: a sample issued at any moment -- also from inside consume() -- is delivered in order to the connections that existed when it was issued, except to consumers that were disconnected (or destroyed) before
their turn came; a connection made during the delivery does not receive it. -/
theorem C84_delivery (sup : Nat → Nat) (depth : Nat) (os : List ((Slot → V → List (Op V)) × Op V)) (w : Objects V) (t0 : List (Event V))
    (h0 : run depth os (Objects.init sup) = .ok (w, t0)) (react : Slot → V → List (Op V)) (d : Nat) (k : Stack) (p : Nat) (m : V) (w' : Objects V) (t : List (Event V))
    (h : emit react d k w p m = .ok (w', t)) : Delivery m (w.prod p).issue [] t :=
  emit_delivery react d k w (run_inv sup depth os w t0 h0) p m w' t h

/-- C84: the same for samples issued while others are being delivered: from any point of any course of events. -/
theorem C84_delivery_nested (sup : Nat → Nat) (t0 : List (Event V)) (w : Objects V) (h0 : replay t0 (Objects.init sup) = .ok w)
    (react : Slot → V → List (Op V)) (d : Nat) (k : Stack) (p : Nat) (m : V) (w' : Objects V) (t : List (Event V))
    (h : emit react d k w p m = .ok (w', t)) : Delivery m (w.prod p).issue [] t ∧ replay t w = .ok w' :=
  ⟨emit_delivery react d k w (replay_inv t0 _ w (Inv.init sup) h0).1 p m w' t h, (emit_good react d k w p m w' t h).replay⟩

/-- C84: if consume() functions issue nothing themselves, this determines everything that happens, and consumer `c` receives the sample as often as it has connections among `receivers`. -/
theorem C84_receivers (sup : Nat → Nat) (depth : Nat) (os : List ((Slot → V → List (Op V)) × Op V)) (w : Objects V) (t0 : List (Event V))
    (h0 : run depth os (Objects.init sup) = .ok (w, t0)) (react : Slot → V → List (Op V)) (d : Nat) (k : Stack) (p : Nat) (m : V) (hq : ∀ s, ∀ o ∈ react s m, quiet o = true)
    (w' : Objects V) (t : List (Event V)) (h : emit react d k w p m = .ok (w', t)) :
    t = (receivers react m [] (w.prod p).issue).flatMap (fun s => .consumed s m :: (during react s m).map .did) ∧
    ∀ c, samples (w'.cons c).log = samples (w.cons c).log ++ List.replicate ((receivers react m [] (w.prod p).issue).countP (fun s => s.cons = c)) m := by
  have I := run_inv sup depth os w t0 h0
  have e := emit_quiet react d k w I p m hq w' t h
  refine ⟨e, fun c => ?_⟩
  rw [replay_samples t w w' I (emit_good react d k w p m w' t h).replay (emit_noIssue react d k w p m w' t h) c, e, consumedBy_flat]

/-- C84: a consumer (in synchronous mode) that disconnects or destroys itself from inside its consume(), or destroys the producer whose sample it is consuming, does not come through. -/
theorem C84_no_self_disconnect (sup : Nat → Nat) (depth : Nat) (os : List ((Slot → V → List (Op V)) × Op V)) (w : Objects V) (t0 : List (Event V))
    (h0 : run depth os (Objects.init sup) = .ok (w, t0)) (react : Slot → V → List (Op V)) (d : Nat) (k : Stack) (p : Nat) (m : V)
    (w' : Objects V) (t : List (Event V)) (h : emit react d k w p m = .ok (w', t)) (s : Slot) (hs : s ∈ (w.prod p).issue) (hm : s.mode = 1) (hend : ¬ ended s.cons t) :
    .disconnectAndFlush s.cons ∉ react s m ∧ .destroyConsumer s.cons ∉ react s m ∧ .destroyProducer p ∉ react s m := by
  have key := emit_allowed react d k w (run_inv sup depth os w t0 h0) p m w' t h s hs hm hend
  refine ⟨fun h => ?_, fun h => ?_, fun h => (key _ h).2 rfl⟩
  · have := (key _ h).1; simp [ends] at this
  · have := (key _ h).1; simp [ends] at this

/-- C84, violated: an `Action` that disconnects itself on its first sample ("I have seen enough") hangs: it waits for the lock that it holds itself. -/
theorem C84_violation_self_disconnect (sup : Nat → Nat) (c p : Nat) (m : V) (react : Slot → V → List (Op V)) (rest : List (Op V))
    (hr : ∀ s, s.cons = c → react s m = .disconnectAndFlush c :: rest) (depth : Nat) :
    run depth [(react, .connect c p), (react, .issue p m)] (Objects.init sup) = .error .ub := by
  cases depth with
  | zero => simp [run, perform, emit, Stack.forbids, Objects.step, Objects.connect, Objects.init]
  | succ depth =>
    simp [run, perform, emit, Stack.forbids, Objects.step, Objects.connect, Objects.init, Objects.setCons, Objects.setProd, deliverSlots, receive, hr, performAll]

/-- C84, violated: a filter (consumer `c` and producer `p`) whose output is connected to itself hangs or overflows at the first sample. -/
theorem C84_violation_cycle (sup : Nat → Nat) (c p : Nat) (m : V) (react : Slot → V → List (Op V)) (out : V) (rest : List (Op V))
    (hr : ∀ s, s.cons = c → react s m = .issue p out :: rest) (depth : Nat) :
    run depth [(react, .connect c p), (react, .issue p m)] (Objects.init sup) = .error .ub := by
  cases depth with
  | zero => simp [run, perform, emit, Stack.forbids, Objects.step, Objects.connect, Objects.init]
  | succ depth =>
    cases depth with
    | zero => simp [run, perform, emit, Stack.forbids, Objects.step, Objects.connect, Objects.init, Objects.setCons, Objects.setProd, deliverSlots, receive, hr, performAll]
    | succ depth =>
      simp [run, perform, emit, Stack.forbids, Objects.step, Objects.connect, Objects.init, Objects.setCons, Objects.setProd, deliverSlots, receive, hr, performAll]

/-- C84: in a network arranged in layers, in which consume() functions only connect downstream, disconnect others than themselves and those upstream, and issue downstream, every sample comes through: no deadlock, no failing assertion. `D`
bounds the layers (and the depth of nesting). -/
theorem C84_ok_partial (sup : Nat → Nat) (depth : Nat) (os : List ((Slot → V → List (Op V)) × Op V)) (w : Objects V) (t0 : List (Event V))
    (h0 : run depth os (Objects.init sup) = .ok (w, t0)) (pl lv : Nat → Nat) (D : Nat) (hD : ∀ q, pl q ≤ D)
    (hmode : ∀ c, (w.cons c).mode = 1 ∨ (w.cons c).mode = 2) (hlayer : ∀ q, ∀ s ∈ (w.prod q).issue, pl q ≤ lv s.cons)
    (react : Slot → V → List (Op V)) (hr : ∀ s m, ∀ o ∈ react s m, harmless w pl lv s.cons o) (p : Nat) (hp : (w.prod p).alive = true) (m : V) :
    ∃ w' t, emit react (D + 1) ⟨[], []⟩ w p m = .ok (w', t) := by
  have hs : Sound w pl lv w := ⟨run_inv sup depth os w t0 h0, fun _ => rfl, fun _ => rfl, hmode, hlayer⟩
  obtain ⟨w', t, e, -⟩ := emit_ok D hD react hr (D + 1) ⟨[], []⟩ w p m hs hp (by omega) (fun c hc => by simp at hc)
  exact ⟨w', t, e⟩

/-- Consumer 0 reacts to sample 7 by disconnecting consumer 1 and connecting consumer 2. -/
def controller (s : Slot) (m : Nat) : List (Op Nat) := if s.cons = 0 ∧ m = 7 then [.disconnectAndFlush 1, .connect 2 0] else []

/-- Consumer 1 does not get sample 7, consumer 2 gets only the next one. -/
example : ∃ w t, run 1 [(controller, .connect 0 0), (controller, .connect 1 0), (controller, .issue 0 6), (controller, .issue 0 7), (controller, .issue 0 8)] (Objects.init (fun _ => 1)) = .ok (w, t) ∧
    samples (w.cons 0).log = [6, 7, 8] ∧ samples (w.cons 1).log = [6] ∧ samples (w.cons 2).log = [8] := ⟨_, _, rfl, rfl, rfl, rfl⟩

/-- Consumer 0 together with producer 1 is a filter that doubles samples; consumer 1 behind it connects consumer 2 to the filter. -/
def doubler (s : Slot) (m : Nat) : List (Op Nat) := if s.cons = 0 then [.issue 1 (2 * m)] else if s.cons = 1 ∧ m = 14 then [.connect 2 1] else []

example : ∃ w t, run 2 [(doubler, .connect 0 0), (doubler, .connect 1 1), (doubler, .issue 0 7), (doubler, .issue 0 8)] (Objects.init (fun _ => 1)) = .ok (w, t) ∧
    samples (w.cons 0).log = [7, 8] ∧ samples (w.cons 1).log = [14, 16] ∧ samples (w.cons 2).log = [16] := ⟨_, _, rfl, rfl, rfl, rfl⟩

/-- The premises of `C84_ok_partial` hold for this network: producer 0 in layer 0, the filter's consumer in layer 0, its producer and all others in layer 1. -/
example : ∃ w t, run 2 [(doubler, .connect 0 0), (doubler, .connect 1 1)] (Objects.init (fun _ => 1)) = .ok (w, t) ∧ (∀ c, (w.cons c).mode = 1 ∨ (w.cons c).mode = 2) ∧
    (∀ q, ∀ s ∈ (w.prod q).issue, min q 1 ≤ min s.cons 1) ∧ (∀ s m, ∀ o ∈ doubler s m, harmless w (fun q => min q 1) (fun c => min c 1) s.cons o) := by
  refine ⟨_, _, rfl, ?_, ?_, ?_⟩
  · intro c; left
    simp only [Objects.setCons, Objects.setProd, Objects.init]
    split
    · rename_i h; simp
    · split <;> rfl
  · intro q s hs
    simp only [Objects.setCons, Objects.setProd, Objects.init] at hs
    split at hs
    · rename_i h; subst h; simp at hs; subst hs; simp
    · split at hs
      · rename_i h; subst h; simp
      · simp at hs
  · intro s m o ho
    unfold doubler at ho
    split at ho
    · rename_i h; simp at ho; subst ho; simp [harmless, h, Objects.setCons, Objects.setProd, Objects.init]
    · split at ho
      · rename_i h; simp at ho; subst ho; simp [harmless, Objects.setCons, Objects.setProd, Objects.init]
      · simp at ho

end SampleFlow.Reentrant
