import Verif.Model.GraphNet

/-!
# Specification: streams and paths in a network with shared components (C94)
-/

namespace SampleFlow.Graph.Spec

variable {V : Type}

/-- The events of a list of calls. -/
def events (l : List (Entry V)) : List (NetEvent V) := l.map Entry.event

/-- What came through one connection. -/
def through (l : List (Entry V)) (s : Source) (slot : Nat) : List (NetEvent V) := events (l.filter (fun e => e.src = s ∧ e.slot = slot))

/-- What a filter that has consumed `hist` passes on of a call: the sample it makes of a sample, if any; every flush. -/
def passes (N : Net V) (n : Nat) (hist : List V) : NetEvent V → Option (NetEvent V)
  | .sample m => (N.behave n hist m).map .sample
  | .flush => some .flush

/-- What a filter passes on if it receives `evs` one after the other, having consumed `hist` before. -/
def passedOn (N : Net V) (n : Nat) : (hist : List V) → List (NetEvent V) → List (NetEvent V)
  | _, [] => []
  | hist, ev :: evs => (passes N n hist ev).toList ++ passedOn N n (hist ++ (sample? ev).toList) evs

/-- What a producer sends in a program. -/
def sentBy (p : Nat) (ops : List (Op V)) : List (NetEvent V) := (ops.filter (fun o => o.producer = p)).map Op.event

/-- There are no circles, and no path has more than `depth` connections: components have levels below `depth` that decrease along connections. -/
def Acyclic (N : Net V) (level : Nat → Nat) (depth : Nat) : Prop := (∀ n, level n < depth) ∧ ∀ n, ∀ c ∈ N.outs (.node n), level c < level n

/-- `A` contains everything upstream of its members in both networks, and there the two networks agree: the same filters, connected to the same sources in the same order.  Everything else may differ. -/
structure Agree (A : Nat → Bool) (N₁ N₂ : Net V) : Prop where
  behave : ∀ n, A n = true → N₁.behave n = N₂.behave n
  outs : ∀ n, A n = true → (N₁.outs (.node n)).filter A = (N₂.outs (.node n)).filter A
  producers : ∀ p, (N₁.outs (.producer p)).filter A = (N₂.outs (.producer p)).filter A
  up₁ : ∀ a, ∀ c ∈ N₁.outs (.node a), A c = true → A a = true
  up₂ : ∀ a, ∀ c ∈ N₂.outs (.node a), A c = true → A a = true

/-- The filters have no memory. -/
def Stateless (N : Net V) : Prop := ∀ n hist m, N.behave n hist m = N.behave n [] m

/-- A path is given by the numbers of the connections to follow. -/
def IsPath (N : Net V) : Source → List Nat → Prop
  | _, [] => True
  | s, k :: ks => ∃ c, (N.outs s)[k]? = some c ∧ IsPath N (.node c) ks

/-- What happens to an event on a path: where it arrives, and as what, if all filters on the way let it pass. -/
def follow (N : Net V) : Source → NetEvent V → List Nat → Option (Nat × NetEvent V)
  | _, _, [] => none
  | s, ev, [k] => ((N.outs s)[k]?).map (fun c => (c, ev))
  | s, ev, k :: k' :: ks =>
    match (N.outs s)[k]? with
    | none => none
    | some c =>
      match passes N c [] ev with
      | none => none
      | some y => follow N (.node c) y (k' :: ks)

/-- The event that arrives at `n` at the end of a path, if it is a path to `n`. -/
def arrival (N : Net V) (s : Source) (ev : NetEvent V) (n : Nat) (path : List Nat) : Option (NetEvent V) :=
  match follow N s ev path with
  | some (c, y) => if c = n then some y else none
  | none => none

/-- All paths with at most `depth` connections. -/
def paths (N : Net V) : (depth : Nat) → Source → List (List Nat)
  | 0, _ => []
  | d + 1, s => (N.outs s).zipIdx.flatMap (fun ck => [ck.2] :: (paths N d (.node ck.1)).map (ck.2 :: ·))

end SampleFlow.Graph.Spec
