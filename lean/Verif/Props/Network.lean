import Verif.Proofs.Network

/-!
# Properties C06, C07: synchronous networks
-/

namespace SampleFlow
open Spec

/-- C06: after a producer has issued `xs` into any (finite) tree of filters and consumers, the node at
any position has received, after what it had received before, exactly the messages that come out of
the filters on its path applied one after the other; nothing else in the network matters. -/
theorem C06_path_stream {V : Type} (net : List (Node V)) (xs : List V) (net' : List (Node V))
    (hrun : produce net xs = .ok net') (p : List Nat) (n : Node V) (hn : nodeAt net p = some n) :
    ∃ n', nodeAt net' p = some n' ∧
      n'.log = n.log ++ (throughFilters (above net p) xs).map .sample :=
  produce_path net p xs net' n hrun hn

/-- C06: two networks that agree on the components along a path deliver the same messages at its
end, whatever else is connected. -/
theorem C06_siblings_irrelevant {V : Type} (net₁ net₂ : List (Node V)) (xs : List V)
    (out₁ out₂ : List (Node V)) (h₁ : produce net₁ xs = .ok out₁) (h₂ : produce net₂ xs = .ok out₂)
    (p q : List Nat) (n₁ n₂ : Node V) (hn₁ : nodeAt net₁ p = some n₁) (hn₂ : nodeAt net₂ q = some n₂)
    (hlog : n₁.log = n₂.log) (habove : above net₁ p = above net₂ q) :
    (nodeAt out₁ p).map Node.log = (nodeAt out₂ q).map Node.log := by
  obtain ⟨m₁, a1, a2⟩ := C06_path_stream net₁ xs out₁ h₁ p n₁ hn₁
  obtain ⟨m₂, b1, b2⟩ := C06_path_stream net₂ xs out₂ h₂ q n₂ hn₂
  rw [a1, b1]
  simp [a2, b2, hlog, habove]

/-- C06: if no component can fail, the run succeeds (so the premises of the theorems here hold). -/
theorem C06_succeeds {V : Type} (net : List (Node V)) (xs : List V) (h : ∀ n ∈ net, n.Total) :
    ∃ net', produce net xs = .ok net' := produce_total net xs h

/-- C07: a producer that issues `xs` and then flushes `k` times: every node of the tree has received
the messages of its path and then exactly `k` flushes, so the last flush comes after the last
message everywhere. -/
theorem C07_flush_reaches_all {V : Type} (net : List (Node V)) (xs : List V) (k : Nat)
    (net' : List (Node V)) (hrun : sampleRun net xs k = .ok net') (p : List Nat) (n : Node V)
    (hn : nodeAt net p = some n) :
    ∃ n', nodeAt net' p = some n' ∧
      n'.log = n.log ++ (throughFilters (above net p) xs).map .sample ++ List.replicate k .flush := by
  rw [sampleRun] at hrun
  cases hp : produce net xs with
  | error e => rw [hp] at hrun; cases hrun
  | ok mid =>
    rw [hp] at hrun
    cases hrun
    obtain ⟨m, e1, e2⟩ := C06_path_stream net xs mid hp p n hn
    obtain ⟨n', e3, e4⟩ := flush_path_iter k mid p m e1
    exact ⟨n', e3, by rw [e4, e2]⟩

/-- A component that issues nothing. -/
def exampleRecorder : Component (Msg Nat Unit) := ⟨Unit, ⟨(), fun _ _ => .ok (none, ())⟩, ()⟩

/-- The filter "take every second sample". -/
def exampleThin : Component (Msg Nat Unit) := ⟨UInt64, takeEveryNth Nat Unit 2, 0⟩

/-- Two networks for the instances below: a filter with a recorder behind it and, in the first network, another recorder beside it. -/
def exampleNet : List (Node (Msg Nat Unit)) := [.mk exampleThin [] [.mk exampleRecorder [] []], .mk exampleRecorder [] []]

/-- The same path at another place, with other neighbours. -/
def exampleNet' : List (Node (Msg Nat Unit)) := [.mk exampleThin [] [], .mk exampleThin [] [.mk exampleThin [] [], .mk exampleRecorder [] []]]

/-- Instances of C06 and C07: the recorder behind the filter. -/
example := C06_path_stream exampleNet [(1,()), (2,()), (3,())] _ rfl [0, 0] _ rfl
example : ∃ net', produce exampleNet [(1,()), (2,()), (3,())] = .ok net' := by
  have hr : ∀ cs : List (Node (Msg Nat Unit)), (∀ n ∈ cs, n.Total) → (Node.mk exampleRecorder [] cs).Total := fun cs h => .mk _ _ _ (fun _ _ => ⟨_, rfl⟩) h
  have ht : ∀ cs : List (Node (Msg Nat Unit)), (∀ n ∈ cs, n.Total) → (Node.mk exampleThin [] cs).Total := fun cs h => by
    refine .mk _ _ _ (fun s m => ?_) h
    simp only [exampleThin, takeEveryNth]
    split
    · rename_i h0; exact absurd h0 (by decide)
    · split <;> exact ⟨_, rfl⟩
  refine C06_succeeds exampleNet _ ?_
  simp only [exampleNet, List.mem_cons, List.not_mem_nil, or_false]
  rintro n (rfl | rfl)
  · exact ht _ (by simpa using hr [] (by simp))
  · exact hr _ (by simp)
example := C06_siblings_irrelevant exampleNet exampleNet' [(1,()), (2,()), (3,())] _ _ rfl rfl [0, 0] [1, 1] _ _ rfl rfl rfl rfl
example := C07_flush_reaches_all exampleNet [(1,()), (2,()), (3,())] 2 _ rfl [0, 0] _ rfl

/-- A concrete tree: the producer feeds a "take every 2nd" filter with a recorder behind it and,
beside it, another recorder; the recorder behind the filter gets samples 1, 3, 5 and two flushes. -/
example :
    let recorder : Component (Msg Nat Unit) := ⟨Unit, ⟨(), fun _ _ => .ok (none, ())⟩, ()⟩
    let thin : Component (Msg Nat Unit) := ⟨UInt64, takeEveryNth Nat Unit 2, 0⟩
    let net := [Node.mk thin [] [.mk recorder [] []], .mk recorder [] []]
    ∃ net', sampleRun net [(1,()), (2,()), (3,()), (4,()), (5,())] 2 = .ok net' ∧
      (nodeAt net' [0, 0]).map Node.log =
        some [.sample (1,()), .sample (3,()), .sample (5,()), .flush, .flush] := by
  exact ⟨_, rfl, rfl⟩

end SampleFlow
