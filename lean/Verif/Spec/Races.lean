import Verif.Model.Races

/-!
# Specification: data races

The C++ standard, [intro.races]: an unlock of a mutex synchronizes with the later lock operations of the same mutex (of a shared mutex,
`unlock` with later `lock` and `lock_shared`, and `unlock_shared` with later `lock`, [thread.sharedmutex.requirements]); *happens before* is the
transitive closure of this and of the order of the actions of each thread; an execution has a data race if there are two conflicting
actions in different threads neither of which happens before the other.
-/

namespace SampleFlow.Races.Spec

open SampleFlow.Races

/-- The operations on mutexes that synchronize with each other. -/
def Synchronizes (x y : Act) : Prop :=
  ∃ m, (x = .unlock m ∧ y = .lock m) ∨ (x = .unlock m ∧ y = .lockShared m) ∨ (x = .unlockShared m ∧ y = .lock m)

/-- Event number `a` of the execution happens before event number `b`. -/
inductive HappensBefore (t : List (Nat × Act)) : Nat → Nat → Prop
  | sameThread (a b i : Nat) (x y : Act) (ha : t[a]? = some (i, x)) (hb : t[b]? = some (i, y)) (hlt : a < b) : HappensBefore t a b
  | mutex (a b i j : Nat) (x y : Act) (ha : t[a]? = some (i, x)) (hb : t[b]? = some (j, y)) (hlt : a < b) (hs : Synchronizes x y) :
      HappensBefore t a b
  | trans (a b c : Nat) : HappensBefore t a b → HappensBefore t b c → HappensBefore t a c

/-- Both access the same location, and at least one of them modifies it. -/
def Conflict (x y : Act) : Prop :=
  ∃ l, (x = .write l ∧ (y = .write l ∨ y = .read l)) ∨ (x = .read l ∧ y = .write l)

/-- The execution has a data race. -/
def DataRace (t : List (Nat × Act)) : Prop :=
  ∃ (a b i j : Nat) (x y : Act), t[a]? = some (i, x) ∧ t[b]? = some (j, y) ∧ i ≠ j ∧ Conflict x y ∧ ¬ HappensBefore t a b ∧ ¬ HappensBefore t b a

/-- Functions that may be called concurrently: all but copy constructors, `connect_to_producer`, the assertions on the map of the connections
(absent if `NDEBUG` is defined), and `Action` with `allow_concurrent_action`, where the user function is responsible. -/
def Concurrent : Fn → Prop
  | .histCopy _ => False
  | .pairCopy _ _ => False
  | .actionConsume allow => allow = false
  | .connect => False
  | .disconnectFrom assertions => assertions = false
  | .setParallelMode assertions => assertions = false
  | _ => True

end SampleFlow.Races.Spec
