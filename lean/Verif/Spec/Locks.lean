import Verif.Model.Locks

/-! # Specification: networks without deadlocks -/

namespace SampleFlow.Locks

/-- A network in layers: `consume()` and `flush()` of a consumer only make calls to consumers in layers further down (a filter issues samples to
and flushes what is connected to it; an `Action` may disconnect consumers further down). -/
structure Layered (may : Nat → Call → Prop) (layer : Nat → Nat) (layers : Nat) : Prop where
  bounded : ∀ c, layer c < layers
  downwards : ∀ c k, may c k → layer c < layer k.target

/-- Some thread waits for the exclusive lock of `synchronous_mode_mutex` of `c`. -/
def State.WriterWaits (s : State) (c : Nat) : Prop := ∃ t ∈ s.threads, ∃ fl, t.head? = some (.one c fl)

/-- What the next action of a thread waits for has happened, whatever implementation of the mutexes: `std::shared_mutex` may
give priority to threads waiting for the exclusive lock. -/
def State.Free (s : State) : Item → Prop
  | .call (.receive c) => s.NoWriter c ∧ ¬ s.WriterWaits c
  | .call (.launch c) => s.AsyncFree c
  | .call (.flush c) => s.AsyncFree c
  | .call (.disconnect c) => s.AsyncFree c
  | .call (.sever c) => s.AsyncFree c
  | .trim c => s.AsyncFree c
  | .one c _ => s.NoWriter c ∧ s.NoReader c
  | .flushing c => (∀ j ∈ s.queue c, s.done j = true) ∨
      ∃ before j after, s.queue c = before ++ j :: after ∧ (∀ k ∈ before, s.done k = true) ∧ (c, j) ∈ s.deferred
  | .clearing _ => True
  | .reading _ => True
  | .both _ _ => True
  | .run _ _ => True
  | .finish _ _ => True

/-- Thread `i` has something to do and does not have to wait. -/
def State.Ready (s : State) (i : Nat) : Prop := ∃ x rest, s.threads[i]? = some (x :: rest) ∧ s.Free x

/-- All threads have done everything. -/
def State.Finished (s : State) : Prop := ∀ t ∈ s.threads, t = []

end SampleFlow.Locks
