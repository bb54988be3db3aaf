import Verif.Model.ExcNetwork

/-!
# Specification: who gets a sample when a consumer throws
-/

namespace SampleFlow.Exc.Spec

/-- What a component issues for a sequence of messages (nothing for a message for which it throws). -/
def outputs {V E : Type} (c : Component V E) : List V → List V
  | [] => []
  | m :: ms =>
    match (c.step c.state m).1 with
    | .ok (some y) => y :: outputs (c.next m) ms
    | _ => outputs (c.next m) ms

/-- What comes out at the end of a row of components, each receiving what its predecessor issues. -/
def through {V E : Type} : List (Component V E) → List V → List V
  | [], xs => xs
  | c :: cs, xs => through cs (outputs c xs)

/-- The state of a component after a sequence of messages. -/
def after {V E : Type} (c : Component V E) (xs : List V) : Component V E := xs.foldl Component.next c

/-- In the order in which the signals call the slots, depth first, the component at path `p` comes after the one at
path `t`: at the place where the paths separate `p` takes a later connection, or `p` is downstream of `t`. -/
def ComesAfter : (p t : List Nat) → Prop
  | [], _ => False
  | _ :: _, [] => True
  | j :: p, i :: t => i < j ∨ (i = j ∧ ComesAfter p t)

/-- If the messages `xs` and then `x` are sent into the network `ns`, the component at the path `t` throws `e` for `x`: it receives a
message `y` for `x`, and throws in the state in which the messages received for `xs` have left it. -/
def ThrowsAt {V E : Type} (ns : List (Node V E)) (xs : List V) (x : V) (t : List Nat) (e : E) : Prop :=
  ∃ n y, nodeAt ns t = some n ∧ through (above ns t) (xs ++ [x]) = through (above ns t) xs ++ [y] ∧
    ((after n.comp (through (above ns t) xs)).step (after n.comp (through (above ns t) xs)).state y).1 = .error e

end SampleFlow.Exc.Spec
