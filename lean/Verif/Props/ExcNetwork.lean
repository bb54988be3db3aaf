import Verif.Proofs.ExcNetwork

/-!
# C61: exceptions thrown by consumers and filters
-/

namespace SampleFlow.Exc
open Spec

variable {V E : Type}

theorem flushConsumers_get (ns : List (Node V E)) (i : Nat) : (flushConsumers ns)[i]? = ns[i]?.map Node.flush := by
  induction ns generalizing i with
  | nil => simp [flushConsumers]
  | cons a as ih =>
    rw [flushConsumers]
    match i with
    | 0 => simp
    | i + 1 => simpa using ih i

theorem flush_path (ns : List (Node V E)) (p : List Nat) (n : Node V E) (hn : nodeAt ns p = some n) :
    ∃ n', nodeAt (flushConsumers ns) p = some n' ∧ n'.log = n.log ++ [.flush] ∧ n'.comp = n.comp := by
  induction p generalizing ns with
  | nil => simp [nodeAt] at hn
  | cons i p ih =>
    cases p with
    | nil =>
      rw [nodeAt] at hn
      refine ⟨n.flush, by rw [nodeAt, flushConsumers_get, hn]; rfl, ?_⟩
      obtain ⟨c, a, log, cs⟩ := n
      rw [Node.flush]; exact ⟨rfl, rfl⟩
    | cons j p =>
      rw [nodeAt] at hn
      cases hi : ns[i]? with
      | none => rw [hi] at hn; cases hn
      | some a =>
        obtain ⟨c, a, log, cs⟩ := a
        rw [hi] at hn
        simp only at hn
        obtain ⟨n', e1, e2⟩ := ih cs hn
        refine ⟨n', ?_, e2⟩
        rw [nodeAt, flushConsumers_get, hi]
        simp only [Option.map_some, Node.flush]
        exact e1

/-- **C61**: if `sample()` on a synchronous network ends with the exception `e`, then there is a sample, number `k`, and a component, at
path `t`, that threw `e` for it, and it is the first one to throw: no component throws for an earlier sample, and none that comes before `t` in
the order of calls throws for sample `k`.  Everything that comes after `t` in the order of calls has received what its filters pass of the samples
before number `k`; everything else also what they pass of sample number `k`.  All components have been flushed, and their states are those after the
messages received. -/
theorem C61_exception (net : List (Node V E)) (hs : ∀ n ∈ net, n.Sync) (xs : List V) (e : E) (net' : List (Node V E))
    (h : sampleRange net xs = (some e, net')) :
    ∃ (k : Nat) (x : V) (t : List Nat), xs[k]? = some x ∧ ThrowsAt net (xs.take k) x t e ∧
      (∀ k' x', k' < k → xs[k']? = some x' → ∀ t' e', ¬ ThrowsAt net (xs.take k') x' t' e') ∧
      (∀ t' e', ThrowsAt net (xs.take k) x t' e' → t' = t ∨ ComesAfter t' t) ∧
      ∀ p n, nodeAt net p = some n → ∃ n', nodeAt net' p = some n' ∧
        (¬ ComesAfter p t → n'.log = n.log ++ (through (above net p) (xs.take (k + 1))).map .sample ++ [.flush] ∧
          n'.comp = after n.comp (through (above net p) (xs.take (k + 1)))) ∧
        (ComesAfter p t → n'.log = n.log ++ (through (above net p) (xs.take k)).map .sample ++ [.flush] ∧
          n'.comp = after n.comp (through (above net p) (xs.take k))) := by
  unfold sampleRange at h
  have hr := produce_run xs net hs
  rcases hp : produce net xs with ⟨(_ | e'), mid⟩
  · rw [hp] at h; cases h
  · rw [hp] at h hr
    cases h
    obtain ⟨k, x, t, h1, h2, h3, h4, h5⟩ := hr
    refine ⟨k, x, t, h1, h2, h3, h4, ?_⟩
    intro p n hn
    by_cases hc : ComesAfter p t
    · obtain ⟨m, g1, g2, g3⟩ := (h5 p).2 hc n hn
      obtain ⟨n', f1, f2, f3⟩ := flush_path mid p m g1
      exact ⟨n', f1, fun h => absurd hc h, fun _ => ⟨by rw [f2, g2], by rw [f3, g3]⟩⟩
    · obtain ⟨m, g1, g2, g3⟩ := (h5 p).1 hc n hn
      obtain ⟨n', f1, f2, f3⟩ := flush_path mid p m g1
      exact ⟨n', f1, fun _ => ⟨by rw [f2, g2], by rw [f3, g3]⟩, fun h => absurd h hc⟩

/-- **C61**: if `sample()` ends without exception, no component has thrown and everything has received all its messages and the flush. -/
theorem C61_no_exception (net : List (Node V E)) (hs : ∀ n ∈ net, n.Sync) (xs : List V) (net' : List (Node V E))
    (h : sampleRange net xs = (none, net')) :
    (∀ k x, xs[k]? = some x → ∀ t e, ¬ ThrowsAt net (xs.take k) x t e) ∧
    ∀ p n, nodeAt net p = some n → ∃ n', nodeAt net' p = some n' ∧
      n'.log = n.log ++ (through (above net p) xs).map .sample ++ [.flush] ∧
      n'.comp = after n.comp (through (above net p) xs) := by
  unfold sampleRange at h
  have hr := produce_run xs net hs
  rcases hp : produce net xs with ⟨(_ | e'), mid⟩
  · rw [hp] at h hr
    cases h
    obtain ⟨h1, h2, h3⟩ := hr
    refine ⟨h3, ?_⟩
    intro p n hn
    obtain ⟨m, g1, g2, g3, -⟩ := h1 p n hn
    obtain ⟨n', f1, f2, f3⟩ := flush_path mid p m g1
    exact ⟨n', f1, by rw [f2, g2], by rw [f3, g3]⟩
  · rw [hp] at h; cases h

/-- **C61**: `sample()` on a synchronous network ends with an exception exactly if some component throws for what it receives. -/
theorem C61_exception_iff (net : List (Node V E)) (hs : ∀ n ∈ net, n.Sync) (xs : List V) :
    (sampleRange net xs).1 ≠ none ↔ ∃ k x t e, xs[k]? = some x ∧ ThrowsAt net (xs.take k) x t e := by
  constructor
  · intro h
    rcases hp : sampleRange net xs with ⟨(_ | e), net'⟩
    · rw [hp] at h; exact absurd rfl h
    · obtain ⟨k, x, t, h1, h2, -⟩ := C61_exception net hs xs e net' hp
      exact ⟨k, x, t, e, h1, h2⟩
  · rintro ⟨k, x, t, e, h1, h2⟩ h
    rcases hp : sampleRange net xs with ⟨(_ | e'), net'⟩
    · exact (C61_no_exception net hs xs net' hp).1 k x h1 t e h2
    · rw [hp] at h; cases h

/-- A component in asynchronous mode. -/
def Node.IsAsync : Node V E → Prop
  | .mk _ a _ _ => a = true

/-- **C61**, asynchronous consumers: exceptions of consumers in asynchronous mode are lost: if everything connected to the
producer is asynchronous, `sample()` never ends with an exception, whatever the consumers do, and each of them is called with all samples. -/
theorem C61_asynchronous_lost (net : List (Node V E)) (ha : ∀ n ∈ net, n.IsAsync) (xs : List V) :
    (sampleRange net xs).1 = none ∧
    ∀ (i : Nat) (n : Node V E), nodeAt net [i] = some n →
      ∃ n', nodeAt (sampleRange net xs).2 [i] = some n' ∧ n'.log = n.log ++ xs.map .sample ++ [.flush] := by
  have one : ∀ (net : List (Node V E)) (m : V), (∀ n ∈ net, n.IsAsync) →
      (issueSample net m).1 = none ∧ (issueSample net m).2 = net.map (fun n => (n.consume m).2) := by
    intro net m
    induction net with
    | nil => intro _; rw [issueSample]; simp
    | cons n ns ih =>
      intro h
      have ih := ih (fun n hn => h n (by simp [hn]))
      have h1 := h n (by simp)
      obtain ⟨c, a, l, cs⟩ := n
      cases (show a = true from h1)
      rw [issueSample_async]
      simpa using ih
  have hcons : ∀ (n : Node V E) (m : V), n.IsAsync → (n.consume m).2.IsAsync ∧ (n.consume m).2.log = n.log ++ [.sample m] := by
    intro n m h
    obtain ⟨c, a, l, cs⟩ := n
    rw [Node.consume]
    rcases c.step c.state m with ⟨(e | (_ | y)), s⟩ <;> exact ⟨h, rfl⟩
  have run : ∀ (xs : List V) (net : List (Node V E)), (∀ n ∈ net, n.IsAsync) →
      (produce net xs).1 = none ∧ ∀ (i : Nat) (n : Node V E), net[i]? = some n →
        ∃ n', (produce net xs).2[i]? = some n' ∧ n'.log = n.log ++ xs.map .sample := by
    intro xs
    induction xs with
    | nil => intro net _; rw [produce]; exact ⟨rfl, fun i n hn => ⟨n, hn, by simp⟩⟩
    | cons x xs ih =>
      intro net hn
      obtain ⟨h1, h2⟩ := one net x hn
      rw [produce]
      rcases hi : issueSample net x with ⟨o, net1⟩
      rw [hi] at h1 h2
      simp only at h1 h2
      subst h1
      simp only
      have h3 : ∀ n ∈ net1, n.IsAsync := by
        rw [h2]
        intro n hn'
        obtain ⟨n0, h0, rfl⟩ := List.mem_map.mp hn'
        exact (hcons n0 x (hn n0 h0)).1
      obtain ⟨g1, g2⟩ := ih net1 h3
      refine ⟨g1, fun i n hi' => ?_⟩
      obtain ⟨n', e1, e2⟩ := g2 i (n.consume x).2 (by rw [h2, List.getElem?_map, hi']; rfl)
      refine ⟨n', e1, ?_⟩
      rw [e2, (hcons n x (hn n (List.mem_of_getElem? hi'))).2]
      simp
  obtain ⟨h1, h2⟩ := run xs net ha
  refine ⟨h1, fun i n hn => ?_⟩
  rw [nodeAt] at hn
  obtain ⟨m, e1, e2⟩ := h2 i n hn
  obtain ⟨n', f1, f2, -⟩ := flush_path (produce net xs).2 [i] m (by rw [nodeAt]; exact e1)
  exact ⟨n', f1, by rw [f2, e2]⟩

/-! ### examples -/

/-- A consumer that throws for the number `bad`. -/
def throwsFor (bad : Nat) : Component Nat String := ⟨Unit, fun _ m => (if m = bad then .error "bad" else .ok none, ()), ()⟩

/-- A consumer that counts. -/
def counter : Component Nat String := ⟨Nat, fun s _ => (.ok none, s + 1), 0⟩

/-- A filter that passes every second message, starting with the second. -/
def everySecond : Component Nat String := ⟨Nat, fun s m => (.ok (if s % 2 = 1 then some m else none), s + 1), 0⟩

/-- producer >> everySecond >> (counter, throwsFor 4, counter), producer >> counter -/
def exampleNet (a : Bool) : List (Node Nat String) :=
  [.mk everySecond false [] [.mk counter false [] [], .mk (throwsFor 4) a [] [], .mk counter false [] []], .mk counter false [] []]

theorem exampleNet_sync : ∀ n ∈ exampleNet false, n.Sync := by
  intro n hn
  simp only [exampleNet, List.mem_cons, List.not_mem_nil, or_false] at hn
  rcases hn with rfl | rfl
  · refine .mk _ _ _ ?_
    intro n hn
    simp only [List.mem_cons, List.not_mem_nil, or_false] at hn
    rcases hn with rfl | rfl | rfl <;> exact .mk _ _ _ (by simp)
  · exact .mk _ _ _ (by simp)

/-- The exception of the second consumer for 4: the first one has received 2 and 4, the third one only 2, the last one has not received
4, and nothing has received 5. -/
example : (sampleRange (exampleNet false) [1, 2, 3, 4, 5]).1 = some "bad" ∧
    (nodeAt (sampleRange (exampleNet false) [1, 2, 3, 4, 5]).2 [0, 0]).map Node.log = some [.sample 2, .sample 4, .flush] ∧
    (nodeAt (sampleRange (exampleNet false) [1, 2, 3, 4, 5]).2 [0, 1]).map Node.log = some [.sample 2, .sample 4, .flush] ∧
    (nodeAt (sampleRange (exampleNet false) [1, 2, 3, 4, 5]).2 [0, 2]).map Node.log = some [.sample 2, .flush] ∧
    (nodeAt (sampleRange (exampleNet false) [1, 2, 3, 4, 5]).2 [1]).map Node.log =
      some [.sample 1, .sample 2, .sample 3, .flush] := by
  decide +kernel

/-- With the throwing consumer in asynchronous mode nothing is reported and the others receive everything. -/
example : (sampleRange (exampleNet true) [1, 2, 3, 4, 5]).1 = none ∧
    (nodeAt (sampleRange (exampleNet true) [1, 2, 3, 4, 5]).2 [0, 2]).map Node.log = some [.sample 2, .sample 4, .flush] := by
  decide +kernel

example : ComesAfter [0, 2] [0, 1] ∧ ComesAfter [1] [0, 1] ∧ ComesAfter [0, 1, 5] [0, 1] ∧ ¬ ComesAfter [0] [0, 1] ∧
    ¬ ComesAfter [0, 0, 3] [0, 1] ∧ ¬ ComesAfter [0, 1] [0, 1] := by
  simp [ComesAfter]

/-! ### Instances: concrete cases that meet the hypotheses of the theorems above -/

example (net' : List (Node Nat String)) (h : sampleRange (exampleNet false) [1, 2, 3, 4, 5] = (some "bad", net')) := C61_exception (exampleNet false) exampleNet_sync [1, 2, 3, 4, 5] "bad" net' h
example (net' : List (Node Nat String)) (h : sampleRange (exampleNet false) [1, 2] = (none, net')) := C61_no_exception (exampleNet false) exampleNet_sync [1, 2] net' h
example : (sampleRange (exampleNet false) [1, 2]).1 = none := by decide
example := C61_exception_iff (exampleNet false) exampleNet_sync [1, 2, 3, 4, 5]

end SampleFlow.Exc
