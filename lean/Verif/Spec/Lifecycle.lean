import Verif.Model.Lifecycle

namespace SampleFlow.Spec

/-- Number of connections of consumer `c` to producer `p` in force after a history, given the number
`n` before it: each `connect` adds one, disconnecting or destroying the consumer or destroying the
producer removes all. -/
def liveConnections {V : Type} (c p : Nat) : Nat → List (Op V) → Nat
  | n, [] => n
  | n, .connect c' p' :: os => liveConnections c p (if c' = c ∧ p' = p then n + 1 else n) os
  | n, .disconnectAndFlush c' :: os => liveConnections c p (if c' = c then 0 else n) os
  | n, .destroyConsumer c' :: os => liveConnections c p (if c' = c then 0 else n) os
  | n, .destroyProducer p' :: os => liveConnections c p (if p' = p then 0 else n) os
  | n, _ :: os => liveConnections c p n os

/-- Which objects a history has destroyed. -/
def destroyedConsumers {V : Type} : List (Op V) → List Nat
  | [] => []
  | .destroyConsumer c :: os => c :: destroyedConsumers os
  | _ :: os => destroyedConsumers os

def destroyedProducers {V : Type} : List (Op V) → List Nat
  | [] => []
  | .destroyProducer c :: os => c :: destroyedProducers os
  | _ :: os => destroyedProducers os

/-- The parallel mode last set for consumer `c`. -/
def lastMode {V : Type} (c : Nat) : Nat → List (Op V) → Nat
  | n, [] => n
  | n, .setParallelMode c' m :: os => lastMode c (if c' = c then m else n) os
  | n, _ :: os => lastMode c n os

/-- The operation respects the documented rules in a situation where `dc`, `dp` are the destroyed
consumers and producers, `modes` the modes, `sup` the supported modes and `conn c` tells whether
consumer `c` has connections: no destroyed object is used, `set_parallel_mode` is called only on
unconnected consumers and with exactly one supported mode. -/
def legal {V : Type} (dc dp : List Nat) (sup : Nat → Nat) (conn : Nat → Prop) : Op V → Prop
  | .connect c p => c ∉ dc ∧ p ∉ dp
  | .disconnectAndFlush c => c ∉ dc
  | .destroyConsumer c => c ∉ dc
  | .destroyProducer p => p ∉ dp
  | .setParallelMode c m => c ∉ dc ∧ ¬ conn c ∧ (m = 1 ∨ m = 2) ∧ m &&& sup c ≠ 0
  | .issue p _ => p ∉ dp
  | .flush p => p ∉ dp

/-- A history all of whose operations respect the documented rules. -/
def LegalHistory {V : Type} (sup : Nat → Nat) (os : List (Op V)) : Prop :=
  ∀ pre o post, os = pre ++ o :: post →
    legal (destroyedConsumers pre) (destroyedProducers pre) sup
      (fun c => ∃ p, liveConnections c p 0 pre ≠ 0) o

end SampleFlow.Spec
