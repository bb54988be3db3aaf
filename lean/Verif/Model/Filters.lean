import Verif.Model.Basic

/-!
# The filters

A `Filter` object is modelled as a state machine.  `types::sample_index` is `std::size_t`
(types.impl.h 38), 64 bits, modelled by `UInt64` with its wrap-around arithmetic.
The `std::lock_guard` in the filters is irrelevant here: one call runs at a time (see the
concurrency models for the mutex).
-/

namespace SampleFlow

/-- A filter object with internal state `σ`, input messages `X` and output messages `Y`.
`init` is the state after construction, `filter` models the virtual function
`Filter::filter` (include/sampleflow/filter.impl.h 153-155): it returns nothing or one
message, or fails. -/
structure FilterObj (σ X Y : Type) where
  init : σ
  filter : σ → X → Except Fault (Option Y × σ)

/-- Feed messages one after the other to a filter.  Models repeated calls of
`Filter::consume` (include/sampleflow/filter.impl.h 170-188): call `filter`, and if it returned
something, call `issue_sample` with it.  The result is the list of messages issued downstream
and either the final state or the fault that stopped the program. -/
def FilterObj.runFrom {σ X Y : Type} (F : FilterObj σ X Y) : σ → List X → List Y × Except Fault σ
  | s, [] => ([], .ok s)
  | s, x :: xs =>
    match F.filter s x with
    | .error e => ([], .error e)
    | .ok (none, s') => F.runFrom s' xs
    | .ok (some y, s') => (y :: (F.runFrom s' xs).1, (F.runFrom s' xs).2)

/-- The messages a freshly constructed filter issues when it receives `xs`.
(Repeated filter.impl.h 170-188.) -/
def FilterObj.issued {σ X Y : Type} (F : FilterObj σ X Y) (xs : List X) : List Y :=
  (F.runFrom F.init xs).1

/-- How the processing of `xs` ends: normally or with a fault.
(Repeated filter.impl.h 170-188.) -/
def FilterObj.outcome {σ X Y : Type} (F : FilterObj σ X Y) (xs : List X) : Except Fault Unit :=
  (F.runFrom F.init xs).2.map (fun _ => ())

/-- `Filters::TakeEveryNth` - include/sampleflow/filters/take_every_nth.impl.h 107-112
(constructor: counter = 0) and 125-143 (`filter`).  `counter % every_nth` with
`every_nth == 0` is undefined behaviour. -/
def takeEveryNth (α A : Type) (everyNth : UInt64) : FilterObj UInt64 (Msg α A) (Msg α A) where
  init := 0
  filter := fun counter m =>
    if everyNth = 0 then .error .ub
    else if counter % everyNth = 0 then .ok (some m, 1)
    else .ok (none, counter + 1)

/-- `Filters::DiscardFirstN` - include/sampleflow/filters/discard_first_n.impl.h 100-105
(constructor: counter = 0) and 118-133 (`filter`). -/
def discardFirstN (α A : Type) (initialN : UInt64) : FilterObj UInt64 (Msg α A) (Msg α A) where
  init := 0
  filter := fun counter m =>
    let counter := counter + 1
    if counter > initialN then .ok (some m, counter) else .ok (none, counter)

/-- `Filters::Condition` - include/sampleflow/filters/condition.impl.h 142-152.  The predicate is
the two-argument form (sample, aux data), 123-128; the constructor for one-argument predicates
ignores the auxiliary data.  Predicates that throw are not modelled. -/
def condition (α A : Type) (predicate : α → A → Bool) : FilterObj Unit (Msg α A) (Msg α A) where
  init := ()
  filter := fun _ m => if predicate m.1 m.2 then .ok (some (m.1, m.2), ()) else .ok (none, ())

/-- `Filters::Conversion` - include/sampleflow/filters/conversion.impl.h 132-139. -/
def conversion (α β A : Type) (f : α → β) : FilterObj Unit (Msg α A) (Msg β A) where
  init := ()
  filter := fun _ m => .ok (some (f m.1, m.2), ())

/-- `Filters::PassThrough` - include/sampleflow/filters/pass_through.impl.h 101-108. -/
def passThrough (α A : Type) : FilterObj Unit (Msg α A) (Msg α A) where
  init := ()
  filter := fun _ m => .ok (some (m.1, m.2), ())

/-- `Filters::ComponentSplitter` - include/sampleflow/filters/component_splitter.impl.h 129-141.
Vector-valued samples are lists.  The assertion in line 137 (`selected_component <
sample.size()`) is the modelled outcome for a missing component. -/
def componentSplitter (α A : Type) (selected : Nat) : FilterObj Unit (Msg (List α) A) (Msg α A) where
  init := ()
  filter := fun _ m =>
    match m.1[selected]? with
    | some c => .ok (some (c, m.2), ())
    | none => .error .assertion

/-- Two filters connected in series: everything the first issues is consumed by the second
(synchronous connection; consumer.impl.h 384-397 and filter.impl.h 170-188). -/
def FilterObj.andThen {σ τ X Y Z : Type} (F : FilterObj σ X Y) (G : FilterObj τ Y Z) :
    FilterObj (σ × τ) X Z where
  init := (F.init, G.init)
  filter := fun st x =>
    match F.filter st.1 x with
    | .error e => .error e
    | .ok (none, s') => .ok (none, (s', st.2))
    | .ok (some y, s') =>
      match G.filter st.2 y with
      | .error e => .error e
      | .ok (out, t') => .ok (out, (s', t'))

end SampleFlow
