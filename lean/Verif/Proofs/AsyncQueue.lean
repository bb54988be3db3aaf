import Verif.Proofs.AsyncCount
import Mathlib.Data.List.Nodup
import Mathlib.Data.List.Perm.Subperm

/-!
# Proofs for C16: what does bound the queue
-/

namespace SampleFlow.Async.Queue

open SampleFlow.Async SampleFlow.Async.Spec

variable {V : Type}

/-- Is this instruction a delivery to node `n`? -/
def deliv (n : Nat) : Instr V → Nat
  | .deliver k _ => if k = n then 1 else 0
  | _ => 0

/-- deliveries are deliveries or pending calls of consume -/
theorem deliv_le (n : Nat) (ins : Instr V) : deliv n ins ≤ pend (fun _ => true) n ins := by
  cases ins <;> simp [deliv, pend]

theorem stackSum_le {f g : Instr V → Nat} (h : ∀ ins, f ins ≤ g ins) (st : List (Instr V)) :
    stackSum f st ≤ stackSum g st := by
  induction st with
  | nil => exact Nat.le_refl _
  | cons a st ih => rw [stackSum_cons, stackSum_cons]; exact Nat.add_le_add (h a) ih

theorem total_le {f g : Instr V → Nat} (h : ∀ ins, f ins ≤ g ins) (ts : List (Thread V)) :
    total f ts ≤ total g ts := by
  induction ts with
  | nil => exact Nat.le_refl _
  | cons a ts ih =>
    show total f ([a] ++ ts) ≤ total g ([a] ++ ts)
    rw [total_append, total_append]
    refine Nat.add_le_add ?_ ih
    have := stackSum_le h a.stack
    simpa [total] using this

theorem stackSum_deliv_eq (n : Nat) (st : List (Instr V)) (h : ∀ k m, Instr.consume k m ∉ st) :
    stackSum (deliv n) st = stackSum (pend (fun _ => true) n) st := by
  induction st with
  | nil => rfl
  | cons a st ih =>
    rw [stackSum_cons, stackSum_cons, ih (fun k m hm => h k m (List.mem_cons_of_mem _ hm))]
    congr 1
    cases a with
    | consume k m => exact absurd (List.mem_cons_self ..) (h k m)
    | deliver k m => simp [deliv, pend]
    | trim k => rfl
    | flush k => rfl
    | wait k => rfl
    | ret => rfl

theorem stackSum_deliv_emit (N : Net V) (n k : Nat) (h : List V) (m : V) :
    stackSum (deliv n) (N.emit k h m) = (N.outs k).count n * (N.behave k h m).toList.countP (fun _ => true) := by
  rw [stackSum_deliv_eq, stackSum_emit]
  intro k' m' hm
  unfold Net.emit at hm
  cases hb : N.behave k h m with
  | none => rw [hb] at hm; cases hm
  | some y =>
    rw [hb] at hm
    obtain ⟨c, -, hc⟩ := List.mem_map.mp hm
    cases hc

/-- the number of background tasks ever created for node `n` -/
def tasks (n : Nat) (ts : List (Thread V)) : Nat := ts.countP (fun t => t.task.map Prod.fst == some n)

theorem tasks_set (n : Nat) {ts : List (Thread V)} {i : Nat} {t : Thread V} (hi : ts[i]? = some t) (st : List (Instr V)) :
    tasks n (ts.set i { t with stack := st }) = tasks n ts := by
  induction ts generalizing i with
  | nil => simp at hi
  | cons a ts ih =>
    cases i with
    | zero =>
      simp only [List.getElem?_cons_zero, Option.some.injEq] at hi
      subst hi
      simp [tasks, List.countP_cons]
    | succ i =>
      simp only [List.getElem?_cons_succ] at hi
      have := ih hi
      simp only [tasks, List.set_cons_succ, List.countP_cons] at this ⊢
      omega

theorem tasks_append (n : Nat) (a b : List (Thread V)) : tasks n (a ++ b) = tasks n a + tasks n b := by
  simp [tasks, List.countP_append]

theorem Step.tasks_count {N : Net V} {K : Nat} (hK : Finite N K) {s s' : State V} (h : Step N s s') (n : Nat) :
    tasks n s'.threads + total (deliv n) s'.threads + nodeSum N K (fun _ => true) s.log n ≤
      tasks n s.threads + total (deliv n) s.threads + nodeSum N K (fun _ => true) s'.log n := by
  cases h with
  | deliverSync i t k m rest hi hr ht ha =>
    have := total_set (deliv n) (t' := { t with stack := .consume k m :: rest }) hi
    rw [ht] at this
    simp only [stackSum_cons, deliv] at this
    simp only [State.setStack, tasks_set n hi]; omega
  | deliverAsync i t k m rest deferred hi hr ht ha hl =>
    have := total_set (deliv n) (t' := { t with stack := .trim k :: rest }) hi
    rw [ht] at this
    simp only [stackSum_cons, deliv] at this
    simp only [total_append, tasks_append, tasks_set n hi]
    have h2 : total (deliv n) [⟨some (k, deferred), t.owner, [Instr.consume k m]⟩] = 0 := by simp [total, deliv]
    have h3 : tasks n [(⟨some (k, deferred), t.owner, [Instr.consume k m]⟩ : Thread V)] = if k = n then 1 else 0 := by
      by_cases hk : k = n <;> simp [tasks, hk]
    rw [h2, h3]; omega
  | trim i t k rest ready hi hr ht hl hready =>
    have := total_set (deliv n) (t' := { t with stack := rest }) hi
    rw [ht] at this
    simp only [stackSum_cons, deliv] at this
    simp only [State.setStack, tasks_set n hi]; omega
  | consume i t k m rest hi hr ht =>
    have h1 := total_set (deliv n) (t' := { t with stack := N.emit k (s.log k) m ++ rest }) hi
    rw [ht] at h1
    simp only [stackSum_cons, stackSum_append, deliv, stackSum_deliv_emit] at h1
    simp only [State.setStack, tasks_set n hi]
    have h2 : nodeSum N K (fun _ => true) (fun j => if j = k then s.log k ++ [m] else s.log j) n =
        nodeSum N K (fun _ => true) s.log n + (N.outs k).count n * (N.behave k (s.log k) m).toList.countP (fun _ => true) := by
      by_cases hkK : k < K
      · unfold nodeSum
        have := sum_range_update K k hkK
          (fun p => (N.outs p).count n *
            (issued N p (if p = k then s.log k ++ [m] else s.log p)).countP (fun _ => true))
          (fun p => (N.outs p).count n * (issued N p (s.log p)).countP (fun _ => true))
          (by intro p hp; simp [hp])
        simp only [if_true, issued_snoc, List.countP_append, Nat.mul_add] at this
        beta_reduce
        omega
      · rw [hK k (by omega)]
        simp only [List.count_nil, Nat.zero_mul, Nat.add_zero]
        unfold nodeSum
        congr 1
        apply List.map_congr_left
        intro p hp
        have : p ≠ k := by have := List.mem_range.mp hp; omega
        simp [this]
    rw [h2]; omega
  | flush i t k rest hi hr ht hl =>
    have := total_set (deliv n) (t' := { t with stack := .wait k :: rest }) hi
    rw [ht] at this
    simp only [stackSum_cons, deliv] at this
    simp only [State.setStack, tasks_set n hi]; omega
  | waitDone i t k rest hi hr ht hd =>
    have := total_set (deliv n) (t' := { t with stack := (N.outs k).map .flush ++ rest }) hi
    rw [ht] at this
    have h0 : stackSum (deliv n) ((N.outs k).map (Instr.flush (V := V))) = 0 := by
      unfold stackSum
      apply List.sum_eq_zero
      intro x hx
      simp only [List.map_map, List.mem_map] at hx
      obtain ⟨c, -, rfl⟩ := hx
      rfl
    simp only [stackSum_cons, stackSum_append, deliv, h0] at this
    simp only [State.setStack, tasks_set n hi]; omega
  | ret i t rest hi hr ht =>
    have := total_set (deliv n) (t' := { t with stack := rest }) hi
    rw [ht] at this
    simp only [stackSum_cons, deliv] at this
    simp only [State.setStack, tasks_set n hi]; omega

theorem tasks_initial (n : Nat) (progs : List (List (Call V))) : tasks n (initial progs).threads = 0 := by
  unfold tasks initial
  rw [List.countP_eq_zero]
  intro t ht
  obtain ⟨i, h, rfl⟩ := List.mem_mapIdx.mp ht
  simp

/-- at most one task per message that has been sent to the node -/
theorem tasks_le {N : Net V} {K : Nat} (hK : Finite N K) {progs : List (List (Call V))} {s : State V}
    (h : Reachable N progs s) (n : Nat) :
    tasks n s.threads + total (deliv n) s.threads ≤ (fromProducers progs n).length + (fromNodes N K s.log n).length := by
  have key : tasks n s.threads + total (deliv n) s.threads ≤
      (fromProducers progs n).countP (fun _ => true) + nodeSum N K (fun _ => true) s.log n := by
    induction h with
    | refl =>
      have h1 := total_le (V := V) (deliv_le n) (initial progs).threads
      rw [total_initial] at h1
      rw [tasks_initial]
      omega
    | tail _ hs ih =>
      have := Step.tasks_count hK hs n
      omega
  rw [← countP_fromNodes, List.countP_true] at key
  exact key

/-- every entry of the queue is a task of its own -/
theorem queue_le {N : Net V} {progs : List (List (Call V))} {s : State V} (h : Reachable N progs s) (n : Nat) :
    (s.queue n).length ≤ tasks n s.threads := by
  induction h with
  | refl => simp [initial]
  | tail _ hs ih =>
    cases hs with
    | deliverSync i t k m rest hi hr ht ha => simp only [State.setStack, tasks_set n hi]; exact ih
    | deliverAsync i t k m rest deferred hi hr ht ha hl =>
      simp only [tasks_append, tasks_set n hi]
      by_cases hk : n = k
      · subst hk
        have h3 : tasks n [(⟨some (n, deferred), t.owner, [Instr.consume n m]⟩ : Thread V)] = 1 := by simp [tasks]
        rw [if_pos rfl, h3, List.length_append, List.length_singleton]
        omega
      · rw [if_neg hk]; omega
    | trim i t k rest ready hi hr ht hl hready =>
      simp only [State.setStack, tasks_set n hi]
      by_cases hk : n = k
      · subst hk
        rw [if_pos rfl]
        exact Nat.le_trans (trimQueue_suffix ready _).length_le ih
      · rw [if_neg hk]; exact ih
    | consume i t k m rest hi hr ht => simp only [State.setStack, tasks_set n hi]; exact ih
    | flush i t k rest hi hr ht hl => simp only [State.setStack, tasks_set n hi]; exact ih
    | waitDone i t k rest hi hr ht hd =>
      simp only [State.setStack, tasks_set n hi]
      by_cases hk : n = k
      · rw [if_pos hk]; simp
      · rw [if_neg hk]; exact ih
    | ret i t rest hi hr ht => simp only [State.setStack, tasks_set n hi]; exact ih

/-- a synchronous node has no tasks -/
theorem queue_sync {N : Net V} {progs : List (List (Call V))} {s : State V} (h : Reachable N progs s) (n : Nat)
    (hn : N.isAsync n = false) : s.queue n = [] := by
  induction h with
  | refl => rfl
  | tail _ hs ih =>
    cases hs with
    | deliverSync i t k m rest hi hr ht ha => exact ih
    | deliverAsync i t k m rest deferred hi hr ht ha hl =>
      show (if n = k then _ else _) = _
      rw [if_neg (by rintro rfl; rw [hn] at ha; cases ha)]
      exact ih
    | trim i t k rest ready hi hr ht hl hready =>
      show (if n = k then _ else _) = _
      by_cases hk : n = k
      · subst hk; rw [if_pos rfl, ih]; rfl
      · rw [if_neg hk]; exact ih
    | consume i t k m rest hi hr ht => exact ih
    | flush i t k rest hi hr ht hl => exact ih
    | waitDone i t k rest hi hr ht hd =>
      show (if n = k then _ else _) = _
      by_cases hk : n = k
      · rw [if_pos hk]
      · rw [if_neg hk]; exact ih
    | ret i t rest hi hr ht => exact ih

/-- positions at which a predicate holds -/
theorem countP_le_of_mem {A : Type} (p : A → Bool) (l : List A) (off : Nat) (q : List Nat)
    (h : ∀ (i : Nat) (a : A), l[i]? = some a → p a = true → off + i ∈ q) : l.countP p ≤ q.length := by
  classical
  have e : l.countP p = ((List.range l.length).filter (fun i => (l[i]?).any p)).length := by
    clear h
    induction l with
    | nil => rfl
    | cons a l ih =>
      rw [List.countP_cons, ih, List.length_cons, List.range_succ_eq_map, List.filter_cons]
      have : (List.filter (fun i => ((a :: l)[i]?).any p) (List.map Nat.succ (List.range l.length))).length =
          ((List.range l.length).filter (fun i => (l[i]?).any p)).length := by
        rw [List.filter_map, List.length_map]
        rfl
      by_cases hp : p a = true
      · simp [hp, this]
      · simp [hp, this]
  rw [e]
  have hn : (((List.range l.length).filter (fun i => (l[i]?).any p)).map (off + ·)).Nodup :=
    List.Nodup.map (fun a b h => Nat.add_left_cancel h) (List.Nodup.filter _ List.nodup_range)
  have hs : (((List.range l.length).filter (fun i => (l[i]?).any p)).map (off + ·)) ⊆ q := by
    intro x hx
    obtain ⟨i, hi, rfl⟩ := List.mem_map.mp hx
    obtain ⟨-, hi⟩ := List.mem_filter.mp hi
    rw [Option.any_eq_true] at hi
    obtain ⟨a, ha, hp⟩ := hi
    exact h i a ha hp
  have := (List.subperm_of_subset hn hs).length_le
  rwa [List.length_map] at this

end SampleFlow.Async.Queue
