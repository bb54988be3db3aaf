import Verif.Proofs.AsyncProgress

/-!
# Cutting off the calls that have not been made yet

A single user thread that makes the calls `done ++ todo` and has just returned from the last call in `done` has done exactly
what a thread that only makes the calls `done` does.
-/

namespace SampleFlow.Async

open Spec

variable {V : Type}

/-- `c` is `s` without the final part `T` of the program of thread 0. -/
structure Cut (T : List (Instr V)) (s c : State V) : Prop where
  queue : c.queue = s.queue
  lock : c.lock = s.lock
  log : c.log = s.log
  threads : ∃ (o : Nat) (pre : List (Instr V)) (tail : List (Thread V)), pre ≠ [] ∧
    s.threads = ⟨none, o, pre ++ T⟩ :: tail ∧ c.threads = ⟨none, o, pre⟩ :: tail

def rets (st : List (Instr V)) : Nat := st.countP Instr.isRet

theorem Cut.isDone {T : List (Instr V)} {s c : State V} (h : Cut T s c) (j : Nat) : c.isDone j = s.isDone j := by
  obtain ⟨o, pre, tail, hne, h1, h2⟩ := h.threads
  unfold State.isDone
  rw [h1, h2]
  cases j with
  | zero => cases pre with
    | nil => exact absurd rfl hne
    | cons a pre => rfl
  | succ j => rfl

theorem Cut.runnable {T : List (Instr V)} {s c : State V} (h : Cut T s c) (i : Nat) (t : Thread V)
    (hr : s.runnable i t) : c.runnable i t := by
  have : c.isDone = s.isDone := funext h.isDone
  unfold State.runnable at hr ⊢
  rw [h.lock, h.queue, this]
  exact hr

theorem runnable_main (s : State V) (i o : Nat) (st : List (Instr V)) : s.runnable i ⟨none, o, st⟩ := trivial

/-- The state after a step of thread 0. -/
theorem Cut.main {T : List (Instr V)} {o : Nat} {tail : List (Thread V)} (st : List (Instr V))
    {s c : State V} (hq : c.queue = s.queue) (hl : c.lock = s.lock) (hg : c.log = s.log)
    (h1 : s.threads = ⟨none, o, st ++ T⟩ :: tail) (h2 : c.threads = ⟨none, o, st⟩ :: tail) :
    Cut T s c ∨ ∃ (t : Thread V), s.threads[0]? = some t ∧ rets t.stack ≤ rets T := by
  by_cases h : st = []
  · right
    subst h
    exact ⟨_, by rw [h1]; rfl, by simp⟩
  · left
    exact ⟨hq, hl, hg, o, st, tail, h, h1, h2⟩

theorem rets_append (a b : List (Instr V)) : rets (a ++ b) = rets a + rets b := by simp [rets]

theorem rets_map_deliver (m : V) (l : List Nat) : rets (l.map (fun c => Instr.deliver c m)) = 0 := by
  unfold rets
  rw [List.countP_eq_zero]
  intro a ha
  obtain ⟨c, -, rfl⟩ := List.mem_map.mp ha
  simp [Instr.isRet]

theorem rets_emit (N : Net V) (n : Nat) (h : List V) (m : V) : rets (N.emit n h m) = 0 := by
  unfold Net.emit
  cases N.behave n h m with
  | none => rfl
  | some y => exact rets_map_deliver y _

theorem rets_flush (l : List Nat) : rets (l.map (Instr.flush (V := V))) = 0 := by
  unfold rets
  rw [List.countP_eq_zero]
  intro a ha
  obtain ⟨c, -, rfl⟩ := List.mem_map.mp ha
  simp [Instr.isRet]

/-- The number of calls still to return from never grows. -/
theorem Step.rets {N : Net V} {s s' : State V} (h : Step N s s') (t : Thread V) (ht : s.threads[0]? = some t) :
    ∃ t' : Thread V, s'.threads[0]? = some t' ∧ rets t'.stack ≤ rets t.stack := by
  have key : ∀ (i : Nat) (t0 : Thread V) (st : List (Instr V)), s.threads[i]? = some t0 →
      Async.rets st ≤ Async.rets t0.stack →
      ∃ t' : Thread V, (s.threads.set i { t0 with stack := st })[0]? = some t' ∧ Async.rets t'.stack ≤ Async.rets t.stack := by
    intro i t0 st h0 hle
    rw [get_set h0]
    by_cases e : 0 = i
    · subst e
      rw [ht] at h0; cases h0
      exact ⟨{ t with stack := st }, by simp, hle⟩
    · exact ⟨t, by simp [e, ht], Nat.le_refl _⟩
  cases h with
  | deliverAsync i t0 n m rest deferred hi hr hst ha hl =>
    obtain ⟨t', h1, h2⟩ := key i t0 (.trim n :: rest) hi (by rw [hst]; simp [Async.rets, Instr.isRet])
    refine ⟨t', ?_, h2⟩
    show ((s.threads.set i _) ++ _)[0]? = _
    rw [List.getElem?_append_left]
    · exact h1
    · by_contra hc; rw [List.getElem?_eq_none (by omega)] at h1; cases h1
  | deliverSync i t0 n m rest hi hr hst ha =>
    exact key i t0 _ hi (by rw [hst]; simp [Async.rets, Instr.isRet])
  | trim i t0 n rest ready hi hr hst hl hready =>
    exact key i t0 _ hi (by rw [hst]; simp [Async.rets, Instr.isRet])
  | consume i t0 n m rest hi hr hst =>
    exact key i t0 _ hi (by rw [hst, rets_append, rets_emit]; simp [Async.rets, Instr.isRet])
  | flush i t0 n rest hi hr hst hl =>
    exact key i t0 _ hi (by rw [hst]; simp [Async.rets, Instr.isRet])
  | waitDone i t0 n rest hi hr hst hd =>
    exact key i t0 _ hi (by rw [hst, rets_append, rets_flush]; simp [Async.rets, Instr.isRet])
  | ret i t0 rest hi hr hst =>
    exact key i t0 _ hi (by rw [hst]; simp [Async.rets, List.countP_cons])

theorem cons_of_append {α : Type} {pre T rest : List α} {a : α} (hne : pre ≠ []) (h : pre ++ T = a :: rest) :
    ∃ pre', pre = a :: pre' ∧ rest = pre' ++ T := by
  cases pre with
  | nil => exact absurd rfl hne
  | cons b pre => simp at h; exact ⟨pre, by simp [h.1], h.2.symm⟩

theorem Cut.step {N : Net V} {T : List (Instr V)} {s c s' : State V} (h : Cut T s c) (hs : Step N s s') :
    (∃ c', Step N c c' ∧ Cut T s' c') ∨ ∃ t : Thread V, s'.threads[0]? = some t ∧ rets t.stack ≤ rets T := by
  have hdone : c.isDone = s.isDone := funext h.isDone
  obtain ⟨o, pre, tail, hne, h1, h2⟩ := id h.threads
  -- one thread, the same step in both
  have other : ∀ (k : Nat) (t : Thread V) (st : List (Instr V)) (new : List (Thread V)), s.threads[k + 1]? = some t →
      c.threads[k + 1]? = some t ∧
      (s.threads.set (k + 1) { t with stack := st } ++ new = ⟨none, o, pre ++ T⟩ :: (tail.set k { t with stack := st } ++ new)) ∧
      (c.threads.set (k + 1) { t with stack := st } ++ new = ⟨none, o, pre⟩ :: (tail.set k { t with stack := st } ++ new)) := by
    intro k t st new hk
    rw [h1] at hk
    refine ⟨by rw [h2]; simpa using hk, by rw [h1]; simp, by rw [h2]; simp⟩
  have other' : ∀ (k : Nat) (t : Thread V) (st : List (Instr V)), s.threads[k + 1]? = some t →
      c.threads[k + 1]? = some t ∧
      (s.threads.set (k + 1) { t with stack := st } = ⟨none, o, pre ++ T⟩ :: tail.set k { t with stack := st }) ∧
      (c.threads.set (k + 1) { t with stack := st } = ⟨none, o, pre⟩ :: tail.set k { t with stack := st }) := by
    intro k t st hk
    have := other k t st [] hk
    simpa using this
  have main : ∀ (t : Thread V), s.threads[0]? = some t → t = ⟨none, o, pre ++ T⟩ := by
    intro t ht; rw [h1] at ht; simpa using ht.symm
  have hc0 : c.threads[0]? = some ⟨none, o, pre⟩ := by rw [h2]; rfl
  -- a result for thread 0
  have fin : ∀ (st : List (Instr V)) (s1 c1 : State V), Step N c c1 → c1.queue = s1.queue → c1.lock = s1.lock → c1.log = s1.log →
      ∀ tail', s1.threads = ⟨none, o, st ++ T⟩ :: tail' → c1.threads = ⟨none, o, st⟩ :: tail' →
      (∃ c', Step N c c' ∧ Cut T s1 c') ∨ ∃ t : Thread V, s1.threads[0]? = some t ∧ rets t.stack ≤ rets T := by
    intro st s1 c1 hst hq hl hg tail' e1 e2
    rcases Cut.main st hq hl hg e1 e2 with hh | hh
    · exact .inl ⟨c1, hst, hh⟩
    · exact .inr hh
  cases hs with
  | deliverSync i t n m rest hi hr ht ha =>
    cases i with
    | zero =>
      obtain rfl := main t hi
      obtain ⟨pre', rfl, rfl⟩ := cons_of_append hne ht
      exact fin (.consume n m :: pre') _ _ (.deliverSync 0 _ n m pre' hc0 trivial rfl ha)
        h.queue h.lock h.log tail (by simp [State.setStack, h1]) (by simp only [State.setStack, h2, List.set_cons_zero])
    | succ k =>
      obtain ⟨e1, e2, e3⟩ := other' k t (.consume n m :: rest) hi
      exact .inl ⟨_, .deliverSync (k+1) t n m rest e1 (h.runnable _ _ hr) ht ha, h.queue, h.lock, h.log, o, pre, _, hne, e2, e3⟩
  | deliverAsync i t n m rest deferred hi hr ht ha hl =>
    have hlen : c.threads.length = s.threads.length := by rw [h1, h2]; simp
    cases i with
    | zero =>
      obtain rfl := main t hi
      obtain ⟨pre', rfl, rfl⟩ := cons_of_append hne ht
      refine fin (.trim n :: pre') _ _ (.deliverAsync 0 _ n m pre' deferred hc0 trivial rfl ha (by rw [h.lock]; exact hl))
        ?_ h.lock h.log _ (by simp [h1]; rfl) ?_
      · simp only [h.queue, hlen]
      · simp only [h2, List.set_cons_zero, List.cons_append]
    | succ k =>
      obtain ⟨e1, e2, e3⟩ := other k t (.trim n :: rest) [⟨some (n, deferred), t.owner, [.consume n m]⟩] hi
      refine .inl ⟨_, .deliverAsync (k+1) t n m rest deferred e1 (h.runnable _ _ hr) ht ha (by rw [h.lock]; exact hl),
        ?_, h.lock, h.log, o, pre, _, hne, e2, e3⟩
      simp only [h.queue, hlen]
  | trim i t n rest ready hi hr ht hl hready =>
    cases i with
    | zero =>
      obtain rfl := main t hi
      obtain ⟨pre', rfl, rfl⟩ := cons_of_append hne ht
      refine fin pre' _ _ (.trim 0 _ n pre' ready hc0 trivial rfl (by rw [h.lock]; exact hl) (by rw [hdone]; exact hready))
        ?_ h.lock h.log tail (by simp [State.setStack, h1]) ?_
      · simp only [h.queue]
      · simp only [State.setStack, h2, List.set_cons_zero]
    | succ k =>
      obtain ⟨e1, e2, e3⟩ := other' k t rest hi
      refine .inl ⟨_, .trim (k+1) t n rest ready e1 (h.runnable _ _ hr) ht (by rw [h.lock]; exact hl) (by rw [hdone]; exact hready),
        ?_, h.lock, h.log, o, pre, _, hne, e2, e3⟩
      simp only [h.queue]
  | consume i t n m rest hi hr ht =>
    cases i with
    | zero =>
      obtain rfl := main t hi
      obtain ⟨pre', rfl, rfl⟩ := cons_of_append hne ht
      refine fin (N.emit n (s.log n) m ++ pre') _ _ (.consume 0 _ n m pre' hc0 trivial rfl)
        h.queue h.lock ?_ tail (by simp [State.setStack, h1]) ?_
      · simp only [h.log]
      · simp only [State.setStack, h2, List.set_cons_zero, h.log]
    | succ k =>
      obtain ⟨e1, e2, e3⟩ := other' k t (N.emit n (s.log n) m ++ rest) hi
      refine .inl ⟨_, .consume (k+1) t n m rest e1 (h.runnable _ _ hr) ht,
        h.queue, h.lock, ?_, o, pre, _, hne, e2, ?_⟩
      · simp only [h.log]
      · simp only [State.setStack, h.log]; exact e3
  | flush i t n rest hi hr ht hl =>
    cases i with
    | zero =>
      obtain rfl := main t hi
      obtain ⟨pre', rfl, rfl⟩ := cons_of_append hne ht
      refine fin (.wait n :: pre') _ _ (.flush 0 _ n pre' hc0 trivial rfl (by rw [h.lock]; exact hl))
        h.queue ?_ h.log tail (by simp [State.setStack, h1]) ?_
      · simp only [h.lock]
      · simp only [State.setStack, h2, List.set_cons_zero]
    | succ k =>
      obtain ⟨e1, e2, e3⟩ := other' k t (.wait n :: rest) hi
      refine .inl ⟨_, .flush (k+1) t n rest e1 (h.runnable _ _ hr) ht (by rw [h.lock]; exact hl),
        h.queue, ?_, h.log, o, pre, _, hne, e2, e3⟩
      simp only [h.lock]
  | waitDone i t n rest hi hr ht hd =>
    cases i with
    | zero =>
      obtain rfl := main t hi
      obtain ⟨pre', rfl, rfl⟩ := cons_of_append hne ht
      refine fin ((N.outs n).map .flush ++ pre') _ _ (.waitDone 0 _ n pre' hc0 trivial rfl (by rw [hdone, h.queue]; exact hd))
        ?_ ?_ h.log tail (by simp [State.setStack, h1]) ?_
      · simp only [h.queue]
      · simp only [h.lock]
      · simp only [State.setStack, h2, List.set_cons_zero]
    | succ k =>
      obtain ⟨e1, e2, e3⟩ := other' k t ((N.outs n).map .flush ++ rest) hi
      refine .inl ⟨_, .waitDone (k+1) t n rest e1 (h.runnable _ _ hr) ht (by rw [hdone, h.queue]; exact hd),
        ?_, ?_, h.log, o, pre, _, hne, e2, e3⟩
      · simp only [h.queue]
      · simp only [h.lock]
  | ret i t rest hi hr ht =>
    cases i with
    | zero =>
      obtain rfl := main t hi
      obtain ⟨pre', rfl, rfl⟩ := cons_of_append hne ht
      exact fin pre' _ _ (.ret 0 _ pre' hc0 trivial rfl)
        h.queue h.lock h.log tail (by simp [State.setStack, h1]) (by simp only [State.setStack, h2, List.set_cons_zero])
    | succ k =>
      obtain ⟨e1, e2, e3⟩ := other' k t rest hi
      exact .inl ⟨_, .ret (k+1) t rest e1 (h.runnable _ _ hr) ht, h.queue, h.lock, h.log, o, pre, _, hne, e2, e3⟩

theorem program_ne_nil (c : Call V) : c.program ≠ [] := by simp [Call.program]

theorem Reachable.cut {N : Net V} {done todo : List (Call V)} (hne : done ≠ []) {s : State V}
    (h : Reachable N [done ++ todo] s) :
    (∃ c, Reachable N [done] c ∧ Cut (todo.flatMap Call.program) s c) ∨
      ∃ t : Thread V, s.threads[0]? = some t ∧ rets t.stack ≤ rets (todo.flatMap Call.program) := by
  induction h with
  | refl =>
    refine .inl ⟨initial [done], .refl, rfl, rfl, rfl, 0, done.flatMap Call.program, [], ?_, ?_, ?_⟩
    · intro h0
      rw [List.flatMap_eq_nil_iff] at h0
      obtain ⟨c, hc⟩ := List.exists_mem_of_ne_nil _ hne
      exact program_ne_nil c (h0 c hc)
    · simp [initial]
    · simp [initial]
  | tail _ hs ih =>
    rcases ih with ⟨c, hr, hc⟩ | ⟨t, h1, h2⟩
    · rcases hc.step hs with ⟨c', h3, h4⟩ | h3
      · exact .inl ⟨c', hr.tail h3, h4⟩
      · exact .inr h3
    · obtain ⟨t', h3, h4⟩ := hs.rets t h1
      exact .inr ⟨t', h3, Nat.le_trans h4 h2⟩

/-- Threads beyond the users' threads are tasks. -/
theorem Reachable.mainIndex {N : Net V} {progs : List (List (Call V))} {s : State V} (h : Reachable N progs s) :
    ∀ (i : Nat) (t : Thread V), s.threads[i]? = some t → t.task = none → i < progs.length := by
  induction h with
  | refl =>
    intro i t hi _
    by_contra hc
    rw [List.getElem?_eq_none (by simp [initial]; omega)] at hi
    cases hi
  | tail _ hs ih =>
    rename_i s1 s2 _
    have key : ∀ (i0 : Nat) (t0 : Thread V) (st : List (Instr V)), s1.threads[i0]? = some t0 →
        ∀ (i : Nat) (t : Thread V), (s1.threads.set i0 { t0 with stack := st })[i]? = some t → t.task = none →
          i < progs.length := by
      intro i0 t0 st h0 i t hi ht
      rw [get_set h0] at hi
      by_cases e : i = i0
      · subst e
        simp only [if_true, Option.some.injEq] at hi
        subst hi
        exact ih _ t0 h0 ht
      · simp only [e, if_false] at hi
        exact ih _ t hi ht
    cases hs with
    | deliverAsync i0 t0 n m rest deferred h0 hr hst ha hl =>
      intro i t hi ht
      by_cases hlt : i < s1.threads.length
      · refine key i0 t0 (.trim n :: rest) h0 i t ?_ ht
        change ((s1.threads.set i0 _) ++ _)[i]? = _ at hi
        rwa [List.getElem?_append_left (by simpa using hlt)] at hi
      · change ((s1.threads.set i0 _) ++ _)[i]? = _ at hi
        rw [List.getElem?_append_right (by simpa using hlt)] at hi
        cases hk : i - (s1.threads.set i0 { t0 with stack := .trim n :: rest }).length with
        | zero => rw [hk] at hi; simp at hi; subst hi; simp at ht
        | succ k => rw [hk] at hi; simp at hi
    | deliverSync i t n m rest hi hr ht ha => exact key i t _ hi
    | trim i t n rest ready hi hr ht hl hready => exact key i t _ hi
    | consume i t n m rest hi hr ht => exact key i t _ hi
    | flush i t n rest hi hr ht hl => exact key i t _ hi
    | waitDone i t n rest hi hr ht hd => exact key i t _ hi
    | ret i t rest hi hr ht => exact key i t _ hi

end SampleFlow.Async
