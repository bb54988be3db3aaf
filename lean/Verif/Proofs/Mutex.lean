import Verif.Spec.Mutex
import Mathlib.Data.List.Basic
import Mathlib.Data.List.Count
import Mathlib.Data.List.Perm.Basic

set_option linter.unusedSimpArgs false

namespace SampleFlow.Mutex

open Mutex.Spec

variable {σ Op R : Type}

theorem get_set {α : Type} {l : List α} {i : Nat} {t t' : α} (hi : l[i]? = some t) (j : Nat) :
    (l.set i t')[j]? = if j = i then some t' else l[j]? := by
  have hlt : i < l.length := by
    by_contra h
    rw [List.getElem?_eq_none (by omega)] at hi
    cases hi
  rw [List.getElem?_set]
  by_cases h : j = i
  · subst h; simp [hlt]
  · simp [h, Ne.symm h]

theorem membersAfter_snoc (o : Object σ Op R) (m : σ) (calls : List Op) (op : Op) :
    membersAfter o m (calls ++ [op]) = (call o (membersAfter o m calls) op).1 := by
  simp [membersAfter]

/-- the calls of thread `i`: made, current, to be made -/
structure ProgInv (programs : List (List Op)) (s : State σ Op R) : Prop where
  len : s.threads.length = programs.length
  prog : ∀ (i : Nat) (t : Thread σ Op R) (p : List Op), s.threads[i]? = some t → programs[i]? = some p →
    callsOf s.history i ++ (match t.current with | some (op, _, _) => [op] | none => []) ++ t.todo = p
  hist : ∀ e ∈ s.history, e.1 < programs.length

theorem ProgInv.step {o : Object σ Op R} {programs : List (List Op)} {s s' : State σ Op R}
    (I : ProgInv programs s) (h : Step o s s') : ProgInv programs s' := by
  have lt : ∀ (i : Nat) (t : Thread σ Op R), s.threads[i]? = some t → i < programs.length := by
    intro i t hi
    rw [← I.len]
    by_contra hc
    rw [List.getElem?_eq_none (by omega)] at hi; cases hi
  cases h with
  | acquire i op todo hi hl =>
    refine ⟨by simpa using I.len, ?_, I.hist⟩
    intro j t p hj hp
    simp only at hj
    rw [get_set hi] at hj
    split at hj
    · rename_i e; subst e; cases hj
      simpa using I.prog j _ p hi hp
    · exact I.prog j t p hj hp
  | micro i op f fs r todo hi =>
    refine ⟨by simpa using I.len, ?_, I.hist⟩
    intro j t p hj hp
    simp only at hj
    rw [get_set hi] at hj
    split at hj
    · rename_i e; subst e; cases hj
      simpa using I.prog j _ p hi hp
    · exact I.prog j t p hj hp
  | release i op r todo hi =>
    refine ⟨by simpa using I.len, ?_, ?_⟩
    · intro j t p hj hp
      simp only at hj
      rw [get_set hi] at hj
      split at hj
      · rename_i e; subst e; cases hj
        have := I.prog j _ p hi hp
        simpa [callsOf] using this
      · rename_i hne
        have := I.prog j t p hj hp
        have e : callsOf (s.history ++ [(i, op, r)]) j = callsOf s.history j := by
          have : (i == j) = false := by simpa using fun h : i = j => hne h.symm
          simp [callsOf, this]
        simp only [e]; exact this
    · intro e he
      rcases List.mem_append.mp he with he | he
      · exact I.hist e he
      · simp only [List.mem_singleton] at he
        subst he
        exact lt i _ hi

theorem Reachable.progInv {o : Object σ Op R} {m : σ} {programs : List (List Op)} {s : State σ Op R}
    (h : Reachable o m programs s) : ProgInv programs s := by
  induction h with
  | refl =>
    refine ⟨by simp [initial], ?_, by simp [initial]⟩
    intro i t p hi hp
    simp only [initial, List.getElem?_map, Option.map_eq_some_iff] at hi
    obtain ⟨q, h1, rfl⟩ := hi
    rw [h1] at hp; cases hp
    simp [callsOf, initial]
  | tail _ hs ih => exact ih.step hs

/-- mutual exclusion and the contents of the members -/
structure LockInv (o : Object σ Op R) (m : σ) (s : State σ Op R) : Prop where
  excl : ∀ (i : Nat) (t : Thread σ Op R), s.threads[i]? = some t → t.current ≠ none → s.lock = some i
  free : s.lock = none → s.members = membersAfter o m (s.history.map (fun e => e.2.1))
  busy : ∀ (i : Nat), s.lock = some i → ∃ (t : Thread σ Op R) (op : Op) (done rest : List (σ → R → σ × R)) (r : R),
    s.threads[i]? = some t ∧ t.current = some (op, rest, r) ∧ o.body op = done ++ rest ∧
    done.foldl (fun p f => f p.1 p.2) (membersAfter o m (s.history.map (fun e => e.2.1)), o.local0 op) =
      (s.members, r)
  seq : Sequential o m s.history

theorem LockInv.step {o : Object σ Op R} {m : σ} {s s' : State σ Op R} (hlocks : o.locks = true)
    (I : LockInv o m s) (h : Step o s s') : LockInv o m s' := by
  cases h with
  | acquire i op todo hi hl =>
    have hfree := hl hlocks
    have none' : ∀ (j : Nat) (t : Thread σ Op R), s.threads[j]? = some t → t.current = none := by
      intro j t hj
      by_contra hc
      have := I.excl j t hj hc
      rw [hfree] at this; cases this
    simp only [hlocks, if_true]
    constructor
    · intro j t hj hc
      simp only at hj ⊢
      rw [get_set hi] at hj
      split at hj
      · rename_i e; subst e; rfl
      · exact absurd (none' j t hj) hc
    · intro h; cases h
    · intro j hj
      simp only [Option.some.injEq] at hj
      subst hj
      refine ⟨⟨some (op, o.body op, o.local0 op), todo⟩, op, [], o.body op, o.local0 op, ?_, rfl, rfl, ?_⟩
      · simp only; rw [get_set hi, if_pos rfl]
      · simp only [List.foldl_nil]; rw [I.free hfree]
    · exact I.seq
  | micro i op f fs r todo hi =>
    have hlk := I.excl i _ hi (by simp)
    obtain ⟨t, op', done, rest, r', h1, h2, h3, h4⟩ := I.busy i hlk
    rw [hi] at h1; cases h1
    simp only [Option.some.injEq, Prod.mk.injEq] at h2
    obtain ⟨rfl, rfl, rfl⟩ := h2
    constructor
    · intro j t hj hc
      simp only at hj ⊢
      rw [get_set hi] at hj
      split at hj
      · rename_i e; subst e; exact hlk
      · exact I.excl j t hj hc
    · intro h; simp only at h; rw [hlk] at h; cases h
    · intro j hj
      simp only at hj
      rw [hlk] at hj; cases hj
      refine ⟨⟨some (op, fs, (f s.members r).2), todo⟩, op, done ++ [f], fs, (f s.members r).2, ?_, rfl, ?_, ?_⟩
      · simp only; rw [get_set hi, if_pos rfl]
      · rw [h3]; simp
      · rw [List.foldl_append, h4]; rfl
    · exact I.seq
  | release i op r todo hi =>
    have hlk := I.excl i _ hi (by simp)
    obtain ⟨t, op', done, rest, r', h1, h2, h3, h4⟩ := I.busy i hlk
    rw [hi] at h1; cases h1
    simp only [Option.some.injEq, Prod.mk.injEq] at h2
    obtain ⟨rfl, rfl, rfl⟩ := h2
    have hcall : call o (membersAfter o m (s.history.map (fun e => e.2.1))) op = (s.members, r) := by
      unfold call; rw [h3, List.append_nil]; exact h4
    simp only [hlocks, if_true]
    constructor
    · intro j t hj hc
      simp only at hj
      rw [get_set hi] at hj
      split at hj
      · cases hj; exact absurd rfl hc
      · rename_i hne
        have := I.excl j t hj hc
        rw [hlk] at this
        simp only [Option.some.injEq] at this
        exact absurd this.symm hne
    · intro _
      simp only [List.map_append, List.map_cons, List.map_nil]
      rw [membersAfter_snoc, hcall]
    · intro j hj; cases hj
    · intro pre j op' r' post heq
      simp only at heq
      rcases List.eq_nil_or_concat post with hp | ⟨post', x, hp⟩
      · subst hp
        obtain ⟨e1, e2⟩ := List.append_inj' heq rfl
        simp only [List.cons.injEq, Prod.mk.injEq, and_true] at e2
        obtain ⟨-, e3, e4⟩ := e2
        subst e1 e3 e4
        rw [hcall]
      · subst hp
        have : s.history ++ [(i, op, r)] = (pre ++ (j, op', r') :: post') ++ [x] := by
          rw [heq]; simp
        obtain ⟨e1, -⟩ := List.append_inj' this rfl
        exact I.seq pre j op' r' post' e1

theorem Reachable.lockInv {o : Object σ Op R} {m : σ} {programs : List (List Op)} {s : State σ Op R}
    (hlocks : o.locks = true) (h : Reachable o m programs s) : LockInv o m s := by
  induction h with
  | refl =>
    refine ⟨?_, fun _ => rfl, ?_, ?_⟩
    · intro i t hi hc
      simp only [initial, List.getElem?_map, Option.map_eq_some_iff] at hi
      obtain ⟨q, h1, rfl⟩ := hi
      exact absurd rfl hc
    · intro i h; cases h
    · intro pre i op r post h
      simp [initial] at h
  | tail _ hs ih => exact ih.step hlocks hs

/-- a list is, up to order, the concatenation of its parts with labels 0..n-1 -/
theorem perm_of_callsOf (h : List (Nat × Op × R)) (n : Nat) (hn : ∀ e ∈ h, e.1 < n) :
    (h.map (fun e => e.2.1)).Perm ((List.range n).flatMap (callsOf h)) := by
  induction h with
  | nil =>
    have : (List.range n).flatMap (callsOf ([] : List (Nat × Op × R))) = [] := by
      simp [callsOf]
    rw [this]; exact List.Perm.refl _
  | cons e h ih =>
    have ih := ih (fun e' he => hn e' (by simp [he]))
    have hlt := hn e (by simp)
    rw [List.map_cons]
    refine (ih.cons _).trans ?_
    have key : ∀ n, e.1 < n → (e.2.1 :: (List.range n).flatMap (callsOf h)).Perm
        ((List.range n).flatMap (callsOf (e :: h))) := by
      intro n
      induction n with
      | zero => intro h; omega
      | succ n ih =>
        intro hlt
        rw [List.range_succ, List.flatMap_append, List.flatMap_append]
        simp only [List.flatMap_cons, List.flatMap_nil, List.append_nil]
        by_cases he : e.1 = n
        · have h1 : (List.range n).flatMap (callsOf (e :: h)) = (List.range n).flatMap (callsOf h) := by
            have hc : ∀ l : List Nat, (∀ i ∈ l, i < n) →
                l.flatMap (callsOf (e :: h)) = l.flatMap (callsOf h) := by
              intro l hl
              induction l with
              | nil => rfl
              | cons i l ih2 =>
                have hi : i < n := hl i (by simp)
                have e0 : callsOf (e :: h) i = callsOf h i := by
                  have : (e.1 == i) = false := by simp; omega
                  simp [callsOf, List.filter_cons, this]
                rw [List.flatMap_cons, List.flatMap_cons, ih2 (fun i hi => hl i (by simp [hi])), e0]
            exact hc _ (fun i hi => List.mem_range.mp hi)
          have h2 : callsOf (e :: h) n = e.2.1 :: callsOf h n := by
            simp [callsOf, List.filter_cons, he]
          rw [h1, h2]
          exact List.perm_middle.symm
        · have h2 : callsOf (e :: h) n = callsOf h n := by
            have : (e.1 == n) = false := by simpa using he
            simp [callsOf, List.filter_cons, this]
          rw [h2, ← List.cons_append]
          exact (ih (by omega)).append_right _
    exact key n hlt

end SampleFlow.Mutex
