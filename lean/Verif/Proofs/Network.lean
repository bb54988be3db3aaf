import Verif.Spec.Network
import Mathlib.Logic.Function.Iterate

set_option linter.unusedSimpArgs false

namespace SampleFlow
open Spec

variable {V : Type}

theorem issueSample_get (ns : List (Node V)) (m : V) (ns' : List (Node V))
    (h : issueSample ns m = .ok ns') :
    ns'.length = ns.length ∧
    ∀ (i : Nat) (n : Node V), ns[i]? = some n → ∃ n', ns'[i]? = some n' ∧ n.consume m = .ok n' := by
  induction ns generalizing ns' with
  | nil => rw [issueSample] at h; cases h; simp
  | cons a as ih =>
    rw [issueSample] at h
    split at h
    · cases h
    rename_i a' ha
    split at h
    · cases h
    rename_i as' has
    cases h
    obtain ⟨h1, h2⟩ := ih as' has
    refine ⟨by simp [h1], ?_⟩
    intro i n hn
    match i with
    | 0 => simp at hn; subst hn; exact ⟨a', by simp, ha⟩
    | i + 1 => simp at hn; simpa using h2 i n hn

/-- A node's own messages. -/
def Node.consumeAll (n : Node V) : List V → Except Fault (Node V)
  | [] => .ok n
  | x :: xs =>
    match n.consume x with
    | .error e => .error e
    | .ok n' => n'.consumeAll xs

theorem produce_get (ns : List (Node V)) (xs : List V) (ns' : List (Node V))
    (h : produce ns xs = .ok ns') :
    ns'.length = ns.length ∧
    ∀ (i : Nat) (n : Node V), ns[i]? = some n → ∃ n', ns'[i]? = some n' ∧ n.consumeAll xs = .ok n' := by
  induction xs generalizing ns with
  | nil => rw [produce] at h; cases h; exact ⟨rfl, fun i n hn => ⟨n, hn, rfl⟩⟩
  | cons x xs ih =>
    rw [produce] at h
    split at h
    · cases h
    rename_i ns1 h1
    obtain ⟨g1, g2⟩ := issueSample_get ns x ns1 h1
    obtain ⟨k1, k2⟩ := ih ns1 h
    refine ⟨by omega, ?_⟩
    intro i n hn
    obtain ⟨n1, e1, e2⟩ := g2 i n hn
    obtain ⟨n2, e3, e4⟩ := k2 i n1 e1
    exact ⟨n2, e3, by rw [Node.consumeAll, e2]; exact e4⟩

theorem consumeAll_spec (c : Component V) (log : List (NetEvent V)) (cs : List (Node V)) (xs : List V)
    (n' : Node V) (h : (Node.mk c log cs).consumeAll xs = .ok n') :
    ∃ s cs', n' = .mk { c with state := s } (log ++ xs.map .sample) cs' ∧
      produce cs (c.obj.runFrom c.state xs).1 = .ok cs' := by
  induction xs generalizing c log cs with
  | nil =>
    rw [Node.consumeAll] at h; cases h
    exact ⟨c.state, cs, by simp, rfl⟩
  | cons x xs ih =>
    rw [Node.consumeAll, Node.consume] at h
    cases hf : c.obj.filter c.state x with
    | error e => rw [hf] at h; cases h
    | ok r =>
      obtain ⟨o, s1⟩ := r
      rw [hf] at h
      cases o with
      | none =>
        simp only at h
        obtain ⟨s, cs', e1, e2⟩ := ih { c with state := s1 } _ cs h
        refine ⟨s, cs', ?_, ?_⟩
        · rw [e1]; simp
        · simp only [FilterObj.runFrom, hf]; exact e2
      | some y =>
        simp only at h
        cases hi : issueSample cs y with
        | error e => rw [hi] at h; cases h
        | ok cs1 =>
          rw [hi] at h
          simp only at h
          obtain ⟨s, cs', e1, e2⟩ := ih { c with state := s1 } _ cs1 h
          refine ⟨s, cs', ?_, ?_⟩
          · rw [e1]; simp
          · simp only [FilterObj.runFrom, hf, produce, hi]; exact e2

theorem produce_path (ns : List (Node V)) (p : List Nat) (xs : List V) (ns' : List (Node V))
    (n : Node V) (h : produce ns xs = .ok ns') (hn : nodeAt ns p = some n) :
    ∃ n', nodeAt ns' p = some n' ∧
      n'.log = n.log ++ (throughFilters (above ns p) xs).map .sample := by
  induction p generalizing ns ns' xs with
  | nil => simp [nodeAt] at hn
  | cons i p ih =>
    obtain ⟨-, g2⟩ := produce_get ns xs ns' h
    cases p with
    | nil =>
      rw [nodeAt] at hn
      obtain ⟨n', e1, e2⟩ := g2 i n hn
      obtain ⟨c, log, cs⟩ := n
      obtain ⟨s, cs', e3, -⟩ := consumeAll_spec c log cs xs n' e2
      refine ⟨n', e1, ?_⟩
      rw [e3]
      simp [Node.log, above, throughFilters]
    | cons j p =>
      rw [nodeAt] at hn
      cases hi : ns[i]? with
      | none => rw [hi] at hn; cases hn
      | some a =>
        obtain ⟨c, log, cs⟩ := a
        rw [hi] at hn
        simp only at hn
        obtain ⟨a', e1, e2⟩ := g2 i _ hi
        obtain ⟨s, cs', e3, e4⟩ := consumeAll_spec c log cs xs a' e2
        obtain ⟨n', e5, e6⟩ := ih cs _ cs' e4 hn
        refine ⟨n', ?_, ?_⟩
        · rw [nodeAt, e1, e3]; exact e5
        · rw [e6, above, hi]; rfl

theorem flushConsumers_get (ns : List (Node V)) (i : Nat) :
    (flushConsumers ns)[i]? = ns[i]?.map Node.flush := by
  induction ns generalizing i with
  | nil => simp [flushConsumers]
  | cons a as ih =>
    rw [flushConsumers]
    match i with
    | 0 => simp
    | i + 1 => simpa using ih i

theorem flush_path (ns : List (Node V)) (p : List Nat) (n : Node V) (hn : nodeAt ns p = some n) :
    ∃ n', nodeAt (flushConsumers ns) p = some n' ∧ n'.log = n.log ++ [.flush] := by
  induction p generalizing ns with
  | nil => simp [nodeAt] at hn
  | cons i p ih =>
    cases p with
    | nil =>
      rw [nodeAt] at hn
      refine ⟨n.flush, by rw [nodeAt, flushConsumers_get, hn]; rfl, ?_⟩
      obtain ⟨c, log, cs⟩ := n
      rw [Node.flush]; rfl
    | cons j p =>
      rw [nodeAt] at hn
      cases hi : ns[i]? with
      | none => rw [hi] at hn; cases hn
      | some a =>
        obtain ⟨c, log, cs⟩ := a
        rw [hi] at hn
        simp only at hn
        obtain ⟨n', e1, e2⟩ := ih cs hn
        refine ⟨n', ?_, e2⟩
        rw [nodeAt, flushConsumers_get, hi]
        simp only [Option.map_some, Node.flush]
        exact e1

theorem flush_path_iter (k : Nat) (ns : List (Node V)) (p : List Nat) (n : Node V)
    (hn : nodeAt ns p = some n) :
    ∃ n', nodeAt (flushConsumers^[k] ns) p = some n' ∧ n'.log = n.log ++ List.replicate k .flush := by
  induction k generalizing ns n with
  | zero => exact ⟨n, hn, by simp⟩
  | succ k ih =>
    obtain ⟨n1, e1, e2⟩ := flush_path ns p n hn
    obtain ⟨n2, e3, e4⟩ := ih _ n1 e1
    refine ⟨n2, by rw [Function.iterate_succ_apply]; exact e3, ?_⟩
    rw [e4, e2, List.replicate_succ]
    simp

/-- A network none of whose components can fail. -/
inductive Node.Total : Node V → Prop
  | mk (c : Component V) (log : List (NetEvent V)) (cs : List (Node V))
      (hc : ∀ s m, ∃ r, c.obj.filter s m = .ok r) (hcs : ∀ n ∈ cs, Node.Total n) :
      Node.Total (.mk c log cs)

theorem issueSample_total (ns : List (Node V)) (m : V)
    (h : ∀ n ∈ ns, ∃ n', n.consume m = .ok n' ∧ n'.Total) :
    ∃ ns', issueSample ns m = .ok ns' ∧ ∀ n ∈ ns', n.Total := by
  induction ns with
  | nil => exact ⟨[], by rw [issueSample], by simp⟩
  | cons a as ih =>
    obtain ⟨a', h1, h2⟩ := h a (by simp)
    obtain ⟨as', h3, h4⟩ := ih (fun n hn => h n (by simp [hn]))
    refine ⟨a' :: as', by rw [issueSample, h1]; simp [h3], ?_⟩
    intro n hn
    rcases List.mem_cons.mp hn with rfl | hn
    · exact h2
    · exact h4 n hn

theorem Node.Total.consume {n : Node V} (h : n.Total) (m : V) :
    ∃ n', n.consume m = .ok n' ∧ n'.Total := by
  induction h generalizing m with
  | mk c log cs hc hcs ih =>
    obtain ⟨⟨o, s⟩, hr⟩ := hc c.state m
    rw [Node.consume]
    cases o with
    | none =>
      rw [hr]
      exact ⟨_, rfl, .mk _ _ _ hc hcs⟩
    | some y =>
      obtain ⟨cs', e1, e2⟩ := issueSample_total cs y (fun n hn => ih n hn y)
      rw [hr]
      simp only [e1]
      exact ⟨_, rfl, .mk _ _ _ hc e2⟩

theorem produce_total (ns : List (Node V)) (xs : List V) (h : ∀ n ∈ ns, n.Total) :
    ∃ ns', produce ns xs = .ok ns' := by
  induction xs generalizing ns with
  | nil => exact ⟨ns, rfl⟩
  | cons x xs ih =>
    obtain ⟨ns1, e1, e2⟩ := issueSample_total ns x (fun n hn => (h n hn).consume x)
    rw [produce, e1]
    exact ih ns1 e2

end SampleFlow
