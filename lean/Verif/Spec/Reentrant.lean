import Verif.Model.Reentrant
import Verif.Spec.Lifecycle

/-! # Specification: consume() functions that change connections -/

namespace SampleFlow.Spec

open Reentrant

variable {V : Type}

/-- What would have happened if the same things had been done one after the other instead of inside each other. -/
def replay : List (Event V) → Objects V → Except Fault (Objects V)
  | [], w => .ok w
  | .consumed s m :: t, w => replay t (w.setCons s.cons { w.cons s.cons with log := (w.cons s.cons).log ++ [.sample m] })
  | .did o :: t, w =>
    match w.step o with
    | .error e => .error e
    | .ok w' => replay t w'

/-- The operations among events. -/
def operations : List (Event V) → List (Op V)
  | [] => []
  | .did o :: t => o :: operations t
  | .consumed _ _ :: t => operations t

/-- The operation ends all connections of consumer `c`. -/
def ends (c : Nat) : Op V → Bool
  | .disconnectAndFlush c' => c' == c
  | .destroyConsumer c' => c' == c
  | _ => false

/-- Some event ends all connections of consumer `c`. -/
def ended (c : Nat) (t : List (Event V)) : Prop := ∃ o ∈ operations t, ends c o = true

/-- How a sample `m` must be delivered to the connections `slots` that exist when it is issued: in order, to each that has not been ended by then; `pre` is what has happened since the sample was
issued, the last argument what happens from then on.  What happens inside `consume()` is left open. -/
inductive Delivery (m : V) : List Slot → (pre t : List (Event V)) → Prop where
  | done (pre) : Delivery m [] pre []
  | skip (s slots pre t) (h : ended s.cons pre) (ht : Delivery m slots pre t) : Delivery m (s :: slots) pre t
  | call (s slots pre u t) (h : ¬ ended s.cons pre) (ht : Delivery m slots (pre ++ .consumed s m :: u) t) : Delivery m (s :: slots) pre (.consumed s m :: u ++ t)

/-- The operations that the calling thread executes inside `consume()` called through connection `s` (none in asynchronous mode). -/
def during (react : Slot → V → List (Op V)) (s : Slot) (m : V) : List (Op V) := if s.mode = 1 then react s m else []

/-- The connections through which `m` is delivered, if `consume()` functions issue no samples themselves: `react s m` are the operations that `consume()` executes when it is
called through connection `s`; `gone` are the consumers whose connections have been ended since `m` was issued. -/
def receivers (react : Slot → V → List (Op V)) (m : V) : (gone : List Nat) → List Slot → List Slot
  | _, [] => []
  | gone, s :: rest =>
    if s.cons ∈ gone then receivers react m gone rest
    else s :: receivers react m (gone ++ (during react s m).filterMap (fun | .disconnectAndFlush c => some c | .destroyConsumer c => some c | _ => none)) rest

/-- The operation does not issue a sample. -/
def quiet : Op V → Bool
  | .issue _ _ => false
  | _ => true

/-- The samples that a consumer has consumed. -/
def samples : List (NetEvent V) → List V
  | [] => []
  | .sample m :: l => m :: samples l
  | .flush :: l => samples l

/-- The samples that consumer `c` consumes in the course of events. -/
def consumedBy (c : Nat) : List (Event V) → List V
  | [] => []
  | .consumed s m :: t => if s.cons = c then m :: consumedBy c t else consumedBy c t
  | .did _ :: t => consumedBy c t

/-- What `consume()` of consumer `c` may do without harm in a network arranged in layers, with producers in layer `pl` and consumers in layer `lv`: connect, upstream to downstream, objects that exist; disconnect other
consumers that are not upstream; issue samples and flush downstream (as a filter does). -/
def harmless (w : Objects V) (pl lv : Nat → Nat) (c : Nat) : Op V → Prop
  | .connect d q => (w.cons d).alive = true ∧ (w.prod q).alive = true ∧ pl q ≤ lv d
  | .disconnectAndFlush d => (w.cons d).alive = true ∧ d ≠ c ∧ lv c ≤ lv d
  | .issue q _ => (w.prod q).alive = true ∧ lv c < pl q
  | .flush q => (w.prod q).alive = true
  | _ => False

end SampleFlow.Spec
