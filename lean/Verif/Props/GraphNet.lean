import Verif.Proofs.GraphNet
import Verif.Proofs.GraphPaths
import Verif.Spec.GraphNet

/-!
# C94: synchronous networks with shared components
-/

namespace SampleFlow.Graph

open Spec

variable {V : Type}

/-- C94: in a network without circles, whatever is connected to whatever how often, every program runs to its end, if calls can be nested as deep as the longest path. -/
theorem C94_terminates (N : Net V) (level : Nat → Nat) (depth : Nat) (h : Acyclic N level depth) (ops : List (Op V)) : ∃ L, N.run depth ops = .ok L :=
  run_succeeds N level depth h ops

/-- C94: in a network without circles, what has come through each connection to a producer are the samples and flushes that the producer has sent, all of them, in order; what has come through each connection to a filter is
what the filter passes on of all the calls *it* has received (from all its sources, in the order in which they came), all of it, in order; and no calls have come from anywhere else. -/
theorem C94_connection_streams (N : Net V) (level : Nat → Nat) (depth : Nat) (h : Acyclic N level depth) (ops : List (Op V)) (L : Log V) (hL : N.run depth ops = .ok L) :
    (∀ p slot c, (N.outs (.producer p))[slot]? = some c → through (L c) (.producer p) slot = sentBy p ops) ∧
    (∀ a slot c, (N.outs (.node a))[slot]? = some c → through (L c) (.node a) slot = passedOn N a [] (events (L a))) ∧
    ∀ c, ∀ e ∈ L c, (N.outs e.src)[e.slot]? = some c := by
  obtain ⟨h1, h2, h3⟩ := run_facts N level depth h ops L hL
  exact ⟨h2, h1, h3⟩

/-- C94: what a component receives, and in which order, depends only on what is upstream of it: everything else (consumers connected elsewhere, before or after it, what they do, and the rest of the network) may be changed. -/
theorem C94_upstream_only {A : Nat → Bool} {N₁ N₂ : Net V} (hA : Agree A N₁ N₂) (d₁ d₂ : Nat) (ops : List (Op V)) (L₁ L₂ : Log V) (h₁ : N₁.run d₁ ops = .ok L₁) (h₂ : N₂.run d₂ ops = .ok L₂) (n : Nat) (hn : A n = true) :
    events (L₁ n) = events (L₂ n) :=
  run_sim hA d₁ d₂ ops _ _ L₁ L₂ (fun _ _ => rfl) h₁ h₂ n hn

/-- C94: if the filters have no memory, every component receives, for every sample and every flush that a producer sends, one copy for each path from the producer to the component on which all filters let it pass, changed by the
filters on the path; the copies for one sample before those for the next, and within one sample in the lexicographic order of the paths. -/
theorem C94_one_copy_per_path (N : Net V) (hst : Stateless N) (level : Nat → Nat) (depth : Nat) (h : Acyclic N level depth) (ops : List (Op V)) (L : Log V) (hL : N.run depth ops = .ok L) :
    (∀ n, events (L n) = ops.flatMap (fun o => (paths N depth (.producer o.producer)).filterMap (arrival N (.producer o.producer) o.event n))) ∧
    (∀ p path, path ∈ paths N depth (.producer p) ↔ path ≠ [] ∧ IsPath N (.producer p) path) ∧
    ∀ p, (paths N depth (.producer p)).Pairwise (· < ·) := by
  refine ⟨fun n => ?_, fun p path => ⟨fun hp => ?_, fun hp => ?_⟩, fun p => paths_sorted N depth _⟩
  · have := run_copies N hst depth n ops _ L hL
    simpa [events] using this
  · exact ⟨((mem_paths N depth _ path).mp hp).1, ((mem_paths N depth _ path).mp hp).2.2⟩
  · refine (mem_paths N depth _ path).mpr ⟨hp.1, ?_, hp.2⟩
    cases path with
    | nil => exact Nat.zero_le _
    | cons k ks =>
      obtain ⟨-, c, -, hc⟩ := hp
      have h1 := path_length h.2 ks c hc
      have h2 := h.1 c
      simp only [List.length_cons]
      omega

theorem run_fails (N : Net V) (depth : Nat) (ops : List (Op V)) (L : Log V) (o : Op V) (ho : o ∈ ops) (n : Nat) (hn : n ∈ N.outs (.producer o.producer))
    (h : ∀ (L L' : Log V) (k : Nat), N.call depth [] L (.producer o.producer) k n o.event ≠ .ok L') : N.run depth ops ≠ .ok L := by
  refine foldlM_fails _ _ _ ⟨o, ho, fun b b' => ?_⟩
  obtain ⟨j, hj⟩ := List.mem_iff_getElem?.mp hn
  exact foldlM_fails _ _ _ ⟨(n, j), (zipIdx_mem_iff _ n j).mpr hj, fun L L' => h L L' j⟩

/-- C94: circles.  If filters that let every sample pass are connected in a circle (`C` contains at least one more member downstream of each of its members) and a producer is connected to one of them, then no program in which this
producer issues a sample runs to its end, however large the stack: the thread locks a mutex that it has locked already. -/
theorem C94_circle_sample (N : Net V) (C : Nat → Prop) (hC : ∀ n, C n → ∃ c ∈ N.outs (.node n), C c) (hpass : ∀ n hist m, C n → (N.behave n hist m).isSome) (depth : Nat) (ops : List (Op V)) (p n : Nat) (m : V)
    (hn : n ∈ N.outs (.producer p)) (hCn : C n) (ho : ⟨p, .sample m⟩ ∈ ops) (L : Log V) : N.run depth ops ≠ .ok L := by
  refine run_fails N depth ops L _ ho n hn (fun L L' k => call_circle N C hC (fun ev => (sample? ev).isSome) (fun n hist ev hn' hev => ?_) depth [] L _ k n _ L' hCn rfl)
  cases ev with
  | flush => cases hev
  | sample m =>
    obtain ⟨y, hy⟩ := Option.isSome_iff_exists.mp (hpass n hist m hn')
    exact ⟨.sample y, by simp [Net.reaction, hy], rfl⟩

/-- C94: circles.  If filters of any kind are connected in a circle and a producer is connected to one of them, then no program in which this producer flushes runs to its end, however large the stack.  All producers flush at the end of
`sample()` (C36, C40). -/
theorem C94_circle_flush (N : Net V) (C : Nat → Prop) (hC : ∀ n, C n → ∃ c ∈ N.outs (.node n), C c) (depth : Nat) (ops : List (Op V)) (p n : Nat) (hn : n ∈ N.outs (.producer p)) (hCn : C n) (ho : ⟨p, .flush⟩ ∈ ops) (L : Log V) :
    N.run depth ops ≠ .ok L := by
  refine run_fails N depth ops L _ ho n hn (fun L L' k => call_circle N C hC (fun ev => ev = .flush) (fun n hist ev hn' hev => ?_) depth [] L _ k n _ L' hCn rfl)
  subst hev
  exact ⟨.flush, rfl, rfl⟩

/-! ### Instances -/

/-- Producers 0 and 1.  Filter 0 takes every second sample (it has memory), filter 1 doubles; consumer 2 is connected to both producers (twice to producer 1), to filter 0 and to filter 1; filter 1 is connected to filter 0 and to producer 0. -/
def diamond : Net Nat where
  outs := fun
    | .producer 0 => [0, 2, 1]
    | .producer 1 => [2, 2]
    | .node 0 => [1, 2]
    | .node 1 => [2]
    | _ => []
  behave := fun n hist m => if n = 0 then (if hist.length % 2 = 1 then some m else none) else if n = 1 then some (2 * m) else none

theorem diamond_acyclic : Acyclic diamond (fun n => 2 - n) 3 := by
  refine ⟨fun n => by dsimp only; omega, fun n c hc => ?_⟩
  match n, hc with
  | 0, hc => simp [diamond] at hc; rcases hc with rfl | rfl <;> dsimp only <;> omega
  | 1, hc => simp [diamond] at hc; subst hc; dsimp only; omega
  | n + 2, hc => simp [diamond] at hc

def diamondOps : List (Op Nat) := [⟨0, .sample 5⟩, ⟨0, .sample 6⟩, ⟨1, .sample 7⟩, ⟨1, .flush⟩]

example : ∃ L, diamond.run 3 diamondOps = .ok L := C94_terminates diamond _ 3 diamond_acyclic diamondOps

/-- what consumer 2 receives -/
example : (match diamond.run 3 diamondOps with | .ok L => (L 2).map Entry.event | .error _ => []) =
    [.sample 5, .sample 10, .sample 12, .sample 6, .sample 6, .sample 12, .sample 7, .sample 7, .flush, .flush] := by decide +kernel

example (L : Log Nat) (hL : diamond.run 3 diamondOps = .ok L) : through (L 2) (.node 0) 1 = passedOn diamond 0 [] (events (L 0)) :=
  (C94_connection_streams diamond _ 3 diamond_acyclic diamondOps L hL).2.1 0 1 2 rfl

example (L : Log Nat) (hL : diamond.run 3 diamondOps = .ok L) : through (L 2) (.producer 1) 1 = [.sample 7, .flush] :=
  (C94_connection_streams diamond _ 3 diamond_acyclic diamondOps L hL).1 1 1 2 rfl

/-- the same network without consumer 2 -/
def noConsumer : Net Nat where
  outs := fun s => (diamond.outs s).filter (fun n => n < 2)
  behave := diamond.behave

example : Agree (fun n => decide (n < 2)) noConsumer diamond where
  behave := fun _ _ => rfl
  outs := fun n _ => by simp [noConsumer, List.filter_filter]
  producers := fun p => by simp [noConsumer, List.filter_filter]
  up₁ := fun a c hc h => by
    match a, hc with
    | 0, _ => rfl
    | 1, _ => rfl
    | a + 2, hc => simp [noConsumer, diamond] at hc
  up₂ := fun a c hc h => by
    match a, hc with
    | 0, _ => rfl
    | 1, _ => rfl
    | a + 2, hc => simp [diamond] at hc

/-- The same network with a filter 0 that has no memory: it lets even numbers pass. -/
def diamond' : Net Nat where
  outs := diamond.outs
  behave := fun n _ m => if n = 0 then (if m % 2 = 0 then some m else none) else if n = 1 then some (2 * m) else none

example : Stateless diamond' := fun _ _ _ => rfl

example : Acyclic diamond' (fun n => 2 - n) 3 := diamond_acyclic

/-- a sample that is even comes to consumer 2 on four paths -/
example : (paths diamond' 3 (.producer 0)).filterMap (arrival diamond' (.producer 0) (.sample 6) 2) = [.sample 12, .sample 6, .sample 6, .sample 12] := by decide +kernel

/-- a filter connected to itself -/
def selfLoop : Net Nat where
  outs := fun | .producer 0 => [0] | .node 0 => [0] | _ => []
  behave := fun _ _ m => some m

example (depth : Nat) (L : Log Nat) : selfLoop.run depth [⟨0, .sample 1⟩] ≠ .ok L :=
  C94_circle_sample selfLoop (· = 0) (fun n hn => by subst hn; exact ⟨0, by simp [selfLoop], rfl⟩) (fun _ _ _ _ => rfl) depth _ 0 0 1 (by simp [selfLoop]) rfl (List.mem_singleton_self _) L

example (depth : Nat) (L : Log Nat) : selfLoop.run depth [⟨0, .flush⟩] ≠ .ok L :=
  C94_circle_flush selfLoop (· = 0) (fun n hn => by subst hn; exact ⟨0, by simp [selfLoop], rfl⟩) depth _ 0 0 (by simp [selfLoop]) rfl (List.mem_singleton_self _) L

end SampleFlow.Graph
