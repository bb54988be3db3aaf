import Verif.Model.Temporaries
import Verif.Spec.Lifecycle
import Verif.Spec.Chains

namespace SampleFlow.Spec

variable {V T : Type}

/-- The consumers (consumers and filters) that a chain owns: those made from temporaries. -/
def ownedConsumers : {i o : Option T} → Chained T i o → List Nat
  | _, _, .producer _ _ _ => []
  | _, _, .filter id src _ _ => if src.isSome then [id] else []
  | _, _, .consumer id src _ => if src.isSome then [id] else []
  | _, _, .chain _ _ l r => ownedConsumers l ++ ownedConsumers r

/-- The producers (producers and filters) that a chain owns. -/
def ownedProducers : {i o : Option T} → Chained T i o → List Nat
  | _, _, .producer id src _ => if src.isSome then [id] else []
  | _, _, .filter id src _ _ => if src.isSome then [id] else []
  | _, _, .consumer _ _ _ => []
  | _, _, .chain _ _ l r => ownedProducers l ++ ownedProducers r

/-- The objects in an expression that are not temporaries. -/
def namedObjects : {i o : Option T} → Chained T i o → List Nat
  | _, _, .producer id src _ => if src.isSome then [] else [id]
  | _, _, .filter id src _ _ => if src.isSome then [] else [id]
  | _, _, .consumer id src _ => if src.isSome then [] else [id]
  | _, _, .chain _ _ l r => namedObjects l ++ namedObjects r

/-- Temporary objects that are moved from, and the `Chain` objects. -/
def anonymous : {i o : Option T} → Chained T i o → List Nat
  | _, _, .producer _ src _ => src.toList
  | _, _, .filter _ src _ _ => src.toList
  | _, _, .consumer _ src _ => src.toList
  | _, _, .chain id src l r => id :: src :: (anonymous l ++ anonymous r)

/-- The objects (as consumer, as producer) that an operation of the program refers to. -/
def mentions : Op V → List Nat
  | .connect c p => [c, p]
  | .disconnectAndFlush c => [c]
  | .destroyConsumer c => [c]
  | .destroyProducer p => [p]
  | .setParallelMode c _ => [c]
  | .issue p _ => [p]
  | .flush p => [p]

/-- What the expression means to somebody who does not care about temporaries: each object is connected to its neighbour. -/
def connectNeighbours (objects : List Nat) : List (Op V) := (neighbours objects).map (fun e => .connect e.2 e.1)

/-- The objects a chain owns are destroyed. -/
def releaseOwned {i o : Option T} (e : Chained T i o) : List (Op V) :=
  (ownedConsumers e).map .destroyConsumer ++ (ownedProducers e).map .destroyProducer

/-- A program that does `before`, then evaluates the expression, then does `after` treats the temporaries and the objects the chain owns as C++ makes it do: all objects are different; named objects exist, temporaries and owned objects are not
used before, temporaries and `Chain` objects not after, owned objects are not destroyed and their parallel mode not changed by the program. -/
structure UsesChain {i o : Option T} (e : Chained T i o) (before after : List (Op V)) : Prop where
  distinct : (objects e.toExpr ++ anonymous e).Nodup
  exist : ∀ x ∈ objects e.toExpr, x ∉ destroyedConsumers before ∧ x ∉ destroyedProducers before
  unusedBefore : ∀ o ∈ before, ∀ x ∈ mentions o, x ∉ anonymous e ∧ (x ∈ objects e.toExpr → x ∈ namedObjects e)
  unusedAfter : ∀ o ∈ after, ∀ x ∈ mentions o, x ∉ anonymous e
  kept : ∀ x ∈ objects e.toExpr, x ∉ namedObjects e → x ∉ destroyedConsumers after ∧ x ∉ destroyedProducers after ∧ ∀ m, Op.setParallelMode x m ∉ after

end SampleFlow.Spec
