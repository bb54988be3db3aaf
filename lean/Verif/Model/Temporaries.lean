import Verif.Model.Chains
import Verif.Model.Lifecycle

/-!
# Chains that own their objects

include/sampleflow/connections.impl.h 42-529: a `Chain` stores a reference to an operand that is a named object, and moves an operand that is a temporary
object into an object of its own (57-70, and the same lines of the three specialisations).  Intermediate results of `operator>>` are temporary `Chain` objects and
are moved, too.  At the end of the full expression the (moved-from) temporaries are destroyed; the objects a chain owns are destroyed with the chain.

One thread; assertions are enabled.  As in Model/Lifecycle all objects have numbers, and storage for them is taken to exist from the beginning.  A filter has the same number as consumer
and as producer.  The state of derived classes is not modelled (only classes without a mutex can be moved: `PassThrough`, `Condition`, and `Chain` itself, or user classes).
-/

namespace SampleFlow

variable {V : Type}

/-- What the evaluation and the destruction of chains does to objects, in addition to what programs do themselves.
(connections.impl.h 42-165, 193-298, 327-422, 451-529.) -/
inductive ChainOp (V : Type) where
  /-- an operation of Model/Lifecycle -/
  | op (o : Op V)
  /-- move constructor `Consumer(Consumer &&)` of object `dst` with argument `src` -/
  | moveConsumer (src dst : Nat)
  /-- move constructor `Producer(Producer &&)` -/
  | moveProducer (src dst : Nat)
  /-- destructor `~Consumer` of the base class alone -/
  | endConsumer (c : Nat)

/-- One operation.  `moveConsumer`: consumer.impl.h 309-322 (mode and supported modes are copied, the source must not have connections; `queue_size`, which is never used,
becomes 0).  `moveProducer`: producer.impl.h 193-208 (the three signals of the source must be empty).  `endConsumer`: consumer.impl.h 328-333. -/
def Objects.chainStep (w : Objects V) : ChainOp V → Except Fault (Objects V)
  | .op o => w.step o
  | .moveConsumer src dst =>
    if (w.cons src).alive = false then .error .ub
    else if (w.cons src).conns.length ≠ 0 then .error .assertion
    else .ok (w.setCons dst ⟨true, [], (w.cons src).mode, (w.cons src).supported, []⟩)
  | .moveProducer src dst =>
    if (w.prod src).alive = false then .error .ub
    else if (w.prod src).issue ≠ [] ∨ (w.prod src).flush ≠ [] ∨ (w.prod src).disc ≠ [] then .error .assertion
    else .ok (w.setProd dst ⟨true, [], [], []⟩)
  | .endConsumer c =>
    if (w.cons c).alive = false then .error .ub
    else if (w.cons c).conns.length ≠ 0 then .error .assertion
    else .ok (w.setCons c { w.cons c with alive := false })

/-- A sequence of operations.
(Scaffolding; no lines of its own in the code.) -/
def Objects.chainRun (w : Objects V) : List (ChainOp V) → Except Fault (Objects V)
  | [] => .ok w
  | o :: os =>
    match w.chainStep o with
    | .error e => .error e
    | .ok w' => w'.chainRun os

/-- An expression built with `operator>>`, with the objects involved.  `src = none`: the operand is the named object `id`.  `src = some s`: the operand is the temporary object `s`, and `id`
is the object the chain moves it into.  `chain id src l r`: the object that `operator>>` returns; if it is itself an operand, it is the temporary `src` and moved into `id`; if it
is the value of the whole expression, it is `id` (597-635: the returned object is not moved). -/
inductive Chained (T : Type) : Option T → Option T → Type where
  | producer (id : Nat) (src : Option Nat) (o : T) : Chained T none (some o)
  | filter (id : Nat) (src : Option Nat) (i o : T) : Chained T (some i) (some o)
  | consumer (id : Nat) (src : Option Nat) (i : T) : Chained T (some i) none
  | chain {i o : Option T} {m : T} (id src : Nat) (left : Chained T i (some m)) (right : Chained T (some m) o) : Chained T i o

variable {T : Type}

/-- The expression without the information about temporaries.
(Scaffolding; no lines of its own in the code.) -/
def Chained.toExpr : {i o : Option T} → Chained T i o → Expr T i o
  | _, _, .producer id _ o => .producer id o
  | _, _, .filter id _ i o => .filter id i o
  | _, _, .consumer id _ i => .consumer id i
  | _, _, .chain _ _ l r => .chain l.toExpr r.toExpr

/-- Something done only for objects that are moved.
(connections.impl.h 598-635.) -/
def ifMoved (src : Option Nat) (f : Nat → List (ChainOp V)) : List (ChainOp V) :=
  match src with
  | none => []
  | some s => f s

/-- The base classes of a `Chain` with the given types: `Filter`, which is `Consumer` and `Producer`, in this order (filter.impl.h 61); only one of them, or none, if a type is
`void` (lines 43, 194, 328, 452). -/
def chainBases (i o : Option T) (consumer producer : ChainOp V) : List (ChainOp V) :=
  (if i.isSome then [consumer] else []) ++ (if o.isSome then [producer] else [])

/-- Storing an operand in a chain, lines 57-70: a reference, or a moved object.  Moving a chain moves its base classes and its pointers. -/
def Chained.store : {i o : Option T} → Chained T i o → List (ChainOp V)
  | _, _, .producer id src _ => ifMoved src (fun s => [.moveProducer s id])
  | _, _, .filter id src _ _ => ifMoved src (fun s => [.moveConsumer s id, .moveProducer s id])
  | _, _, .consumer id src _ => ifMoved src (fun s => [.moveConsumer s id])
  | i, o, .chain id src _ _ => chainBases i o (.moveConsumer src id) (.moveProducer src id)

/-- Evaluation of an expression: operands from left to right, then the constructor of `Chain`, lines 57-73. -/
def Chained.eval : {i o : Option T} → Chained T i o → List (ChainOp V)
  | _, _, .producer _ _ _ => []
  | _, _, .filter _ _ _ _ => []
  | _, _, .consumer _ _ _ => []
  | _, _, .chain _ _ l r => l.eval ++ r.eval ++ l.store ++ r.store ++ [.op (.connect (r.toExpr.receiver rfl) (l.toExpr.signalSource rfl))]

/-- The destructor of a filter (pass_through.impl.h 92-96: `disconnect_and_flush()`, whose flush reaches the consumers of the filter, filter.impl.h 192-205), then the base classes in
reverse order. -/
def destroyFilter (id : Nat) : List (ChainOp V) :=
  [.op (.disconnectAndFlush id), .op (.flush id), .op (.destroyProducer id), .endConsumer id]

/-- The destructor of a consumer (e.g. mean_value.impl.h 165-169). -/
def destroyOnlyConsumer (id : Nat) : List (ChainOp V) := [.op (.disconnectAndFlush id), .endConsumer id]

/-- Destruction of the moved-from temporaries at the end of the full expression, in the reverse order of their creation; the operand itself included.
(C++ lifetime rules; the temporaries of connections.impl.h 598-635.) -/
def Chained.leftovers : {i o : Option T} → Chained T i o → List (ChainOp V)
  | _, _, .producer _ src _ => ifMoved src (fun s => [.op (.destroyProducer s)])
  | _, _, .filter _ src _ _ => ifMoved src destroyFilter
  | _, _, .consumer _ src _ => ifMoved src destroyOnlyConsumer
  | i, o, .chain _ src l r => (chainBases i o (.endConsumer src) (.op (.destroyProducer src))).reverse ++ r.leftovers ++ l.leftovers

/-- The same for the whole expression: its value is not moved.
(C++ lifetime rules; the temporaries of connections.impl.h 598-635.) -/
def Chained.leftoversOfOperands : {i o : Option T} → Chained T i o → List (ChainOp V)
  | _, _, .chain _ _ l r => r.leftovers ++ l.leftovers
  | _, _, _ => []

/-- The destructor of a chain: `~Chain` is defaulted (line 85), so that first the members `right_object` and `left_object`, in this order, are destroyed, then the base classes.  Only objects that
are owned are destroyed with it. -/
def Chained.destroy : {i o : Option T} → Chained T i o → List (ChainOp V)
  | _, _, .producer id src _ => ifMoved src (fun _ => [.op (.destroyProducer id)])
  | _, _, .filter id src _ _ => ifMoved src (fun _ => destroyFilter id)
  | _, _, .consumer id src _ => ifMoved src (fun _ => destroyOnlyConsumer id)
  | i, o, .chain id _ l r => r.destroy ++ l.destroy ++ (chainBases i o (.endConsumer id) (.op (.destroyProducer id))).reverse

end SampleFlow
