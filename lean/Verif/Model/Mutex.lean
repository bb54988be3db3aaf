import Mathlib.Logic.Relation

/-!
# Concurrent calls of member functions that lock the object's mutex

All consumers (and the filters TakeEveryNth and DiscardFirstN) protect their member variables by
`std::lock_guard<std::mutex> lock(mutex)` in `consume`/`filter` and in `get`
(e.g. mean_value.impl.h 179, 210; count_samples.impl.h 124, 136; histogram.impl.h 339, 365;
take_every_nth.impl.h 131; action.impl.h 177-186).  Here the body of such a function is a sequence of small
steps that other threads may interleave with; nothing but the mutex keeps them apart.
-/

namespace SampleFlow.Mutex

/-- An object with members `σ` whose member functions are called with `Op`. `body op` are the small steps
executed after locking the mutex: each reads and writes the members and the local variables `R` of the call
(at the end they contain the return value).  `locks = false`: the function does not take the lock
(Action with `allow_concurrent_action`, action.impl.h 179-180). -/
structure Object (σ Op R : Type) where
  locks : Bool
  local0 : Op → R
  body : Op → List (σ → R → σ × R)

/-- A thread: the call in progress (inside the critical section) with the steps still to be done and its
local variables, and the calls that it is going to make.
(Any function with `std::lock_guard<std::mutex> lock(mutex)`, e.g. mean_value.impl.h 173-200.) -/
structure Thread (σ Op R : Type) where
  current : Option (Op × List (σ → R → σ × R) × R)
  todo : List Op

/-- Members of the object, holder of the mutex, threads, and the calls completed so far in the order of
completion: thread, call, return value.
(The member `mutex` and the members it protects, e.g. mean_value.impl.h 134-145.) -/
structure State (σ Op R : Type) where
  members : σ
  lock : Option Nat
  threads : List (Thread σ Op R)
  history : List (Nat × Op × R)

variable {σ Op R : Type}

/-- One atomic action of thread `i`.
(E.g. mean_value.impl.h 173-213.) -/
inductive Step (o : Object σ Op R) (s : State σ Op R) : State σ Op R → Prop
  /-- construct the `lock_guard` and start the body -/
  | acquire (i : Nat) (op : Op) (todo : List Op) (hi : s.threads[i]? = some ⟨none, op :: todo⟩)
      (hl : o.locks = true → s.lock = none) :
      Step o s { s with
        lock := if o.locks then some i else s.lock
        threads := s.threads.set i ⟨some (op, o.body op, o.local0 op), todo⟩ }
  /-- one small step of the body -/
  | micro (i : Nat) (op : Op) (f : σ → R → σ × R) (fs : List (σ → R → σ × R)) (r : R) (todo : List Op)
      (hi : s.threads[i]? = some ⟨some (op, f :: fs, r), todo⟩) :
      Step o s { s with
        members := (f s.members r).1
        threads := s.threads.set i ⟨some (op, fs, (f s.members r).2), todo⟩ }
  /-- end of the body; the `lock_guard` is destroyed -/
  | release (i : Nat) (op : Op) (r : R) (todo : List Op)
      (hi : s.threads[i]? = some ⟨some (op, [], r), todo⟩) :
      Step o s { s with
        lock := if o.locks then none else s.lock
        threads := s.threads.set i ⟨none, todo⟩
        history := s.history ++ [(i, op, r)] }

/-- All threads are about to make their calls.
(Scaffolding; no lines of its own in the code.) -/
def initial (members : σ) (programs : List (List Op)) : State σ Op R where
  members := members
  lock := none
  threads := programs.map (fun p => ⟨none, p⟩)
  history := []

/-- States that some schedule can reach.
(Scaffolding: all schedules.) -/
def Reachable (o : Object σ Op R) (members : σ) (programs : List (List Op)) (s : State σ Op R) : Prop :=
  Relation.ReflTransGen (Step o) (initial members programs) s

/-- All threads have made all their calls.
(Scaffolding; no lines of its own in the code.) -/
def State.AllDone (s : State σ Op R) : Prop := ∀ t ∈ s.threads, t.current = none ∧ t.todo = []

end SampleFlow.Mutex
