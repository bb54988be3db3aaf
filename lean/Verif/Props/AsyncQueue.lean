import Verif.Props.AsyncNet
import Verif.Proofs.AsyncQueue

/-!
# C16: what does bound the number of samples in the background queue
-/

namespace SampleFlow.Async

open Spec

variable {V : Type}

/-- **C16**, what does hold: at any time of any schedule, the samples of node `n` that have been accepted but not
completely processed are all in its queue; the queue has at most one entry for each sample that has been sent to
the node (not `queue_size`); and a synchronous node has nothing in its queue. -/
theorem C16_queue_at_most_samples_sent_partial (N : Net V) (K : Nat) (hK : Finite N K) (progs : List (List (Call V)))
    (hf : Flushes progs) (s : State V) (h : Reachable N progs s) (n : Nat) :
    unfinished s n ≤ (s.queue n).length ∧
    (s.queue n).length ≤ (fromProducers progs n ++ fromNodes N K s.log n).length ∧
    (N.isAsync n = false → s.queue n = []) := by
  refine ⟨?_, ?_, Queue.queue_sync h n⟩
  · refine Queue.countP_le_of_mem _ s.threads 0 _ ?_
    intro i t hi ht
    rw [Nat.zero_add]
    simp only [Bool.and_eq_true, beq_iff_eq, Bool.not_eq_true', List.isEmpty_eq_false_iff] at ht
    obtain ⟨h1, h2⟩ := ht
    obtain ⟨⟨n', d⟩, h3, h4⟩ := Option.map_eq_some_iff.mp h1
    cases h4
    exact C14_unfinished_in_queue N progs hf s h i t hi _ d h3 h2
  · rw [List.length_append]
    have h1 := Queue.queue_le h n
    have h2 := Queue.tasks_le hK h n
    omega

/-- The bound is attained: see `C16_violation_unbounded_queue`, where `k` samples have been sent and `k` are in the
queue. -/
example (q k : Nat) (v : V) : ∃ s, Reachable (oneConsumer q) [[⟨[0], List.replicate k v, 1⟩]] s ∧
    (s.queue 0).length = (fromProducers [[⟨[0], List.replicate k v, 1⟩]] 0 ++ fromNodes (oneConsumer q) 1 s.log 0).length := by
  obtain ⟨s, h, h1, -⟩ := C16_violation_unbounded_queue q k v
  refine ⟨s, h, ?_⟩
  rw [h1]
  have e1 : fromNodes (oneConsumer q) 1 s.log 0 = [] := by
    simp [fromNodes, oneConsumer]
  have e2 : (fromProducers [[⟨[0], List.replicate k v, 1⟩]] 0).length = k := by
    simp [fromProducers, List.length_flatMap]
  rw [e1, List.append_nil, e2]

/-! ### Instances: concrete cases that meet the hypotheses of the theorems above -/

example (s : State Nat) (h : Reachable exampleNet exampleCalls s) := C16_queue_at_most_samples_sent_partial exampleNet 1 example_finite exampleCalls example_flushes s h 2

end SampleFlow.Async
