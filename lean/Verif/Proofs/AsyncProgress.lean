import Verif.Proofs.AsyncCount

set_option linter.unusedSimpArgs false
set_option linter.unusedSectionVars false

namespace SampleFlow.Async

open Spec

variable {V : Type}

theorem below_rank {N : Net V} {rank : Nat → Nat} (hr : ∀ n, ∀ c ∈ N.outs n, rank c < rank n)
    {n k : Nat} (h : N.Below n k) : rank k < rank n := by
  induction h with
  | single h => exact hr _ _ h
  | tail _ h ih => exact lt_trans (hr _ _ h) ih

theorem Inv.runnable_of_first {N : Net V} {s : State V} (I : Inv N s) {n j : Nat} (hl : (s.lock n).isSome)
    (hj : (s.queue n).find? (fun j => !s.isDone j) = some j) :
    ∃ t : Thread V, s.threads[j]? = some t ∧ s.runnable j t ∧ t.stack ≠ [] ∧ ∃ d, t.task = some (n, d) := by
  have hmem := List.mem_of_find?_eq_some hj
  have hnd := List.find?_some hj
  obtain ⟨t, d, h1, h2⟩ := I.queueTask n j hmem
  refine ⟨t, h1, ?_, ?_, d, h2⟩
  · unfold State.runnable
    rw [h2]
    cases d
    · trivial
    · exact ⟨hl, hj⟩
  · intro h
    rw [(isDone_iff s j t h1).mpr h] at hnd
    simp at hnd

/-- If some node's lock is held then some thread can move. -/
theorem Inv.step_of_lock {N : Net V} {s : State V} (I : Inv N s) {rank : Nat → Nat}
    (hr : ∀ n, ∀ c ∈ N.outs n, rank c < rank n) :
    ∀ (r n : Nat), rank n = r → s.lock n ≠ none → ∃ s', Step N s s' := by
  intro r
  induction r using Nat.strong_induction_on with
  | _ r ih =>
    intro n hn hl
    obtain ⟨a, ha⟩ := Option.ne_none_iff_exists'.mp hl
    obtain ⟨ta, rest, g1, g2, g3⟩ := I.lockTop n a ha
    by_cases hd : ∀ j ∈ s.queue n, s.isDone j = true
    · exact ⟨_, Step.waitDone a ta n rest g1 (by simp [State.runnable, g2]) g3 hd⟩
    · have hex : ∃ j, (s.queue n).find? (fun j => !s.isDone j) = some j := by
        rw [← Option.ne_none_iff_exists']
        intro hnone
        apply hd
        intro j hj
        have := List.find?_eq_none.mp hnone j hj
        simpa using this
      obtain ⟨j, hj⟩ := hex
      obtain ⟨t, h1, h2, h3, d, h4⟩ := I.runnable_of_first (by rw [ha]; rfl) hj
      obtain ⟨ins, st, hst⟩ := List.exists_cons_of_ne_nil h3
      have hok := I.taskOK j t n d h1 h4 ins (by rw [hst]; simp)
      cases ins with
      | deliver c m =>
        cases hc : N.isAsync c with
        | false => exact ⟨_, Step.deliverSync j t c m st h1 h2 hst hc⟩
        | true =>
          by_cases hlc : s.lock c = none
          · exact ⟨_, Step.deliverAsync j t c m st false h1 h2 hst hc hlc⟩
          · exact ih (rank c) (by rw [← hn]; exact below_rank hr hok) c rfl hlc
      | consume c m => exact ⟨_, Step.consume j t c m st h1 h2 hst⟩
      | trim c =>
        by_cases hlc : s.lock c = none
        · exact ⟨_, Step.trim j t c st (fun _ => false) h1 h2 hst hlc (by simp)⟩
        · exact ih (rank c) (by rw [← hn]; exact below_rank hr hok) c rfl hlc
      | flush c => exact absurd hok (by simp [TaskInstrOK])
      | wait c => exact absurd hok (by simp [TaskInstrOK])
      | ret => exact absurd hok (by simp [TaskInstrOK])

theorem Inv.step_of_unlocked {N : Net V} {s : State V} (I : Inv N s) (hl : ∀ n, s.lock n = none)
    {i : Nat} {t : Thread V} (hi : s.threads[i]? = some t) (hs : t.stack ≠ []) (hr : s.runnable i t) :
    ∃ s', Step N s s' := by
  obtain ⟨ins, st, hst⟩ := List.exists_cons_of_ne_nil hs
  cases ins with
  | deliver c m =>
    cases hc : N.isAsync c with
    | false => exact ⟨_, Step.deliverSync i t c m st hi hr hst hc⟩
    | true => exact ⟨_, Step.deliverAsync i t c m st false hi hr hst hc (hl c)⟩
  | consume c m => exact ⟨_, Step.consume i t c m st hi hr hst⟩
  | trim c => exact ⟨_, Step.trim i t c st (fun _ => false) hi hr hst (hl c) (by simp)⟩
  | flush c => exact ⟨_, Step.flush i t c st hi hr hst (hl c)⟩
  | wait c =>
    have := I.topLock i t c st hi hst
    rw [hl c] at this; cases this
  | ret => exact ⟨_, Step.ret i t st hi hr hst⟩

theorem Inv.progress {N : Net V} {s : State V} (I : Inv N s) {rank : Nat → Nat}
    (hr : ∀ n, ∀ c ∈ N.outs n, rank c < rank n) (h : ¬ AllDone s) : ∃ s', Step N s s' := by
  by_cases hl : ∀ n, s.lock n = none
  · unfold AllDone at h
    push Not at h
    obtain ⟨t, ht, hs⟩ := h
    obtain ⟨i, hi⟩ := List.mem_iff_getElem?.mp ht
    cases hm : t.task with
    | none => exact I.step_of_unlocked hl hi hs (by simp [State.runnable, hm])
    | some ud =>
      obtain ⟨u, d⟩ := ud
      obtain ⟨ta, h1, k, h2, -⟩ := I.cover i t u d hi hm hs
      obtain ⟨tb, h3, h4⟩ := I.ownIsMain i t hi
      rw [h1] at h3; cases h3
      refine I.step_of_unlocked hl h1 ?_ (by simp [State.runnable, h4])
      intro he
      rw [he] at h2
      simp at h2
  · push Not at hl
    obtain ⟨n, hn⟩ := hl
    exact I.step_of_lock hr (rank n) n rfl hn

/-! ### termination -/

/-- cost of `consume` at depth at most `k` -/
def wC (N : Net V) : Nat → Nat → Nat
  | 0, _ => 1
  | k + 1, n => 1 + ((N.outs n).map (fun c => wC N k c + 2)).sum

/-- cost of `wait` at depth at most `k` -/
def wW (N : Net V) : Nat → Nat → Nat
  | 0, _ => 1
  | k + 1, n => 1 + ((N.outs n).map (fun c => wW N k c + 1)).sum

theorem sum_le {l : List Nat} {f g : Nat → Nat} (h : ∀ c ∈ l, f c ≤ g c) :
    (l.map f).sum ≤ (l.map g).sum := by
  induction l with
  | nil => simp
  | cons a l ih =>
    have := ih (fun c hc => h c (by simp [hc]))
    have := h a (by simp)
    simp only [List.map_cons, List.sum_cons]; omega

theorem wC_mono (N : Net V) (k n : Nat) : wC N k n ≤ wC N (k + 1) n := by
  induction k generalizing n with
  | zero => simp [wC]
  | succ k ih =>
    have := sum_le (l := N.outs n) (f := fun c => wC N k c + 2) (g := fun c => wC N (k + 1) c + 2)
      (fun c _ => by have := ih c; omega)
    rw [wC, wC]; omega

theorem wW_mono (N : Net V) (k n : Nat) : wW N k n ≤ wW N (k + 1) n := by
  induction k generalizing n with
  | zero => simp [wW]
  | succ k ih =>
    have := sum_le (l := N.outs n) (f := fun c => wW N k c + 1) (g := fun c => wW N (k + 1) c + 1)
      (fun c _ => by have := ih c; omega)
    rw [wW, wW]; omega

theorem le_of_mono {f : Nat → Nat} (h : ∀ k, f k ≤ f (k + 1)) {a b : Nat} (hab : a ≤ b) : f a ≤ f b := by
  induction b, hab using Nat.le_induction with
  | base => exact le_rfl
  | succ b _ ih => exact ih.trans (h b)

/-- the cost of an instruction -/
def weight (N : Net V) (rank : Nat → Nat) : Instr V → Nat
  | .deliver n _ => wC N (rank n + 1) n + 2
  | .consume n _ => wC N (rank n + 1) n
  | .trim _ => 1
  | .flush n => wW N (rank n + 1) n + 1
  | .wait n => wW N (rank n + 1) n
  | .ret => 1

theorem weight_emit {N : Net V} {rank : Nat → Nat} (hr : ∀ n, ∀ c ∈ N.outs n, rank c < rank n)
    (n : Nat) (h : List V) (m : V) :
    stackSum (weight N rank) (N.emit n h m) < weight N rank (.consume n m) := by
  have h1 : stackSum (weight N rank) (N.emit n h m) ≤
      ((N.outs n).map (fun c => wC N (rank c + 1) c + 2)).sum := by
    unfold Net.emit
    split
    · simp only [stackSum, List.map_map]
      exact le_of_eq rfl
    · simp
  have h2 : ((N.outs n).map (fun c => wC N (rank c + 1) c + 2)).sum ≤
      ((N.outs n).map (fun c => wC N (rank n) c + 2)).sum := by
    apply sum_le
    intro c hc
    have := le_of_mono (f := fun k => wC N k c) (fun k => wC_mono N k c)
      (show rank c + 1 ≤ rank n from hr n c hc)
    omega
  show _ < wC N (rank n + 1) n
  rw [wC]; omega

theorem weight_flushes {N : Net V} {rank : Nat → Nat} (hr : ∀ n, ∀ c ∈ N.outs n, rank c < rank n)
    (n : Nat) :
    stackSum (weight N rank) ((N.outs n).map (Instr.flush (V := V))) < weight N rank (.wait n : Instr V) := by
  have h1 : stackSum (weight N rank) ((N.outs n).map (Instr.flush (V := V))) =
      ((N.outs n).map (fun c => wW N (rank c + 1) c + 1)).sum := by
    simp only [stackSum, List.map_map]
    rfl
  have h2 : ((N.outs n).map (fun c => wW N (rank c + 1) c + 1)).sum ≤
      ((N.outs n).map (fun c => wW N (rank n) c + 1)).sum := by
    apply sum_le
    intro c hc
    have := le_of_mono (f := fun k => wW N k c) (fun k => wW_mono N k c)
      (show rank c + 1 ≤ rank n from hr n c hc)
    omega
  show _ < wW N (rank n + 1) n
  rw [wW]; omega

theorem Step.decreases {N : Net V} {rank : Nat → Nat} (hr : ∀ n, ∀ c ∈ N.outs n, rank c < rank n)
    {s s' : State V} (h : Step N s s') :
    total (weight N rank) s'.threads < total (weight N rank) s.threads := by
  cases h with
  | deliverSync i t k m rest hi hr' ht ha =>
    have := total_set (weight N rank) (t' := { t with stack := .consume k m :: rest }) hi
    rw [ht] at this
    simp only [stackSum_cons, weight] at this
    simp only [State.setStack]; omega
  | deliverAsync i t k m rest deferred hi hr' ht ha hl =>
    have := total_set (weight N rank) (t' := { t with stack := .trim k :: rest }) hi
    rw [ht] at this
    simp only [stackSum_cons, weight] at this
    simp only [total_append]
    have h2 : total (weight N rank) [⟨some (k, deferred), t.owner, [Instr.consume k m]⟩] =
        wC N (rank k + 1) k := by simp [total, weight]
    rw [h2]; omega
  | trim i t k rest ready hi hr' ht hl hready =>
    have := total_set (weight N rank) (t' := { t with stack := rest }) hi
    rw [ht] at this
    simp only [stackSum_cons, weight] at this
    simp only [State.setStack]; omega
  | consume i t k m rest hi hr' ht =>
    have h1 := total_set (weight N rank) (t' := { t with stack := N.emit k (s.log k) m ++ rest }) hi
    have h2 := weight_emit hr k (s.log k) m
    rw [ht] at h1
    simp only [stackSum_cons, stackSum_append] at h1
    simp only [State.setStack]; omega
  | flush i t k rest hi hr' ht hl =>
    have := total_set (weight N rank) (t' := { t with stack := .wait k :: rest }) hi
    rw [ht] at this
    simp only [stackSum_cons, weight] at this
    simp only [State.setStack]; omega
  | waitDone i t k rest hi hr' ht hd =>
    have h1 := total_set (weight N rank) (t' := { t with stack := (N.outs k).map .flush ++ rest }) hi
    have h2 := weight_flushes hr k
    rw [ht] at h1
    simp only [stackSum_cons, stackSum_append] at h1
    simp only [State.setStack]; omega
  | ret i t rest hi hr' ht =>
    have := total_set (weight N rank) (t' := { t with stack := rest }) hi
    rw [ht] at this
    simp only [stackSum_cons, weight] at this
    simp only [State.setStack]; omega

theorem Steps.bound {N : Net V} {rank : Nat → Nat} (hr : ∀ n, ∀ c ∈ N.outs n, rank c < rank n)
    {k : Nat} {s s' : State V} (h : Steps N k s s') :
    total (weight N rank) s'.threads + k ≤ total (weight N rank) s.threads := by
  induction h with
  | zero s => simp
  | succ _ hs ih => have := hs.decreases hr; omega

theorem Steps.reach {N : Net V} {k : Nat} {s s' : State V} (h : Steps N k s s') :
    Relation.ReflTransGen (Step N) s s' := by
  induction h with
  | zero s => exact .refl
  | succ _ hs ih => exact ih.tail hs

end SampleFlow.Async
