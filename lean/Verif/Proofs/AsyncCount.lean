import Verif.Proofs.AsyncNet
import Verif.Spec.AsyncNet
import Mathlib.Data.List.Perm.Basic
import Mathlib.Data.List.Perm.Subperm
import Mathlib.Data.List.Count
import Mathlib.Algebra.BigOperators.Group.List.Basic
import Mathlib.Tactic.Ring

set_option linter.unusedSimpArgs false
set_option linter.unusedSectionVars false

namespace SampleFlow.Async

open Spec

variable {V : Type}

def stackSum (f : Instr V → Nat) (st : List (Instr V)) : Nat := (st.map f).sum
def total (f : Instr V → Nat) (ts : List (Thread V)) : Nat :=
  (ts.map (fun t => stackSum f t.stack)).sum

@[simp] theorem stackSum_nil (f : Instr V → Nat) : stackSum f [] = 0 := rfl
@[simp] theorem stackSum_cons (f : Instr V → Nat) (a st) :
    stackSum f (a :: st) = f a + stackSum f st := by simp [stackSum]
@[simp] theorem stackSum_append (f : Instr V → Nat) (a b) :
    stackSum f (a ++ b) = stackSum f a + stackSum f b := by simp [stackSum]

theorem total_set (f : Instr V → Nat) {ts : List (Thread V)} {i : Nat} {t t' : Thread V}
    (hi : ts[i]? = some t) :
    total f (ts.set i t') + stackSum f t.stack = total f ts + stackSum f t'.stack := by
  induction ts generalizing i with
  | nil => simp at hi
  | cons a ts ih =>
    cases i with
    | zero =>
      simp only [List.getElem?_cons_zero, Option.some.injEq] at hi
      subst hi
      simp [total]; omega
    | succ i =>
      simp only [List.getElem?_cons_succ] at hi
      have := ih hi
      simp only [total, List.set_cons_succ, List.map_cons, List.sum_cons] at this ⊢
      omega

theorem total_append (f : Instr V → Nat) (a b : List (Thread V)) :
    total f (a ++ b) = total f a + total f b := by simp [total]

theorem total_eq_zero (f : Instr V → Nat) (s : State V) (h : AllDone s) : total f s.threads = 0 := by
  unfold total
  apply List.sum_eq_zero
  intro x hx
  obtain ⟨t, ht, rfl⟩ := List.mem_map.mp hx
  rw [h t ht]; rfl

/-- Is this instruction a delivery of a message with `P` to node `n`? -/
def pend (P : V → Bool) (n : Nat) : Instr V → Nat
  | .deliver k m => if k = n ∧ P m = true then 1 else 0
  | .consume k m => if k = n ∧ P m = true then 1 else 0
  | _ => 0

theorem issuedFrom_append (N : Net V) (n : Nat) (past h h' : List V) :
    issuedFrom N n past (h ++ h') = issuedFrom N n past h ++ issuedFrom N n (past ++ h) h' := by
  induction h generalizing past with
  | nil => simp [issuedFrom]
  | cons m h ih => simp [issuedFrom, ih]

theorem issued_snoc (N : Net V) (n : Nat) (h : List V) (m : V) :
    issued N n (h ++ [m]) = issued N n h ++ (N.behave n h m).toList := by
  simp [issued, issuedFrom_append, issuedFrom]

theorem stackSum_map_deliver (P : V → Bool) (n : Nat) (y : V) (l : List Nat) :
    stackSum (pend P n) (l.map (fun c => Instr.deliver c y)) =
      l.count n * (if P y = true then 1 else 0) := by
  induction l with
  | nil => simp [stackSum]
  | cons a l ih =>
    rw [List.map_cons, stackSum_cons, ih, List.count_cons]
    simp only [pend]
    by_cases h1 : a = n <;> by_cases h2 : P y = true <;> simp [h1, h2] <;> omega

theorem stackSum_emit (N : Net V) (P : V → Bool) (n k : Nat) (h : List V) (m : V) :
    stackSum (pend P n) (N.emit k h m) = (N.outs k).count n * (N.behave k h m).toList.countP P := by
  unfold Net.emit
  cases N.behave k h m with
  | none => simp
  | some y =>
    simp only [Option.toList_some]
    rw [stackSum_map_deliver, List.countP_singleton]

theorem sum_range_update (K k : Nat) (hk : k < K) (f g : Nat → Nat) (h : ∀ p, p ≠ k → f p = g p) :
    ((List.range K).map f).sum + g k = ((List.range K).map g).sum + f k := by
  induction K with
  | zero => omega
  | succ K ih =>
    rw [List.range_succ]
    simp only [List.map_append, List.map_cons, List.map_nil, List.sum_append, List.sum_cons,
      List.sum_nil]
    by_cases hkK : k = K
    · subst hkK
      have : (List.range k).map f = (List.range k).map g := by
        apply List.map_congr_left
        intro p hp
        exact h p (by have := List.mem_range.mp hp; omega)
      rw [this]; omega
    · have := ih (by omega)
      have := h K (by omega)
      omega

/-- deliveries of nodes to nodes -/
def nodeSum (N : Net V) (K : Nat) (P : V → Bool) (hist : Nat → List V) (n : Nat) : Nat :=
  ((List.range K).map (fun p => (N.outs p).count n * (issued N p (hist p)).countP P)).sum

theorem Step.count {N : Net V} {K : Nat} (hK : Finite N K) {s s' : State V} (h : Step N s s')
    (P : V → Bool) (n : Nat) :
    (s'.log n).countP P + total (pend P n) s'.threads + nodeSum N K P s.log n =
      (s.log n).countP P + total (pend P n) s.threads + nodeSum N K P s'.log n := by
  cases h with
  | deliverSync i t k m rest hi hr ht ha =>
    have := total_set (pend P n) (t' := { t with stack := .consume k m :: rest }) hi
    rw [ht] at this
    simp only [stackSum_cons, pend] at this
    simp only [State.setStack]; omega
  | deliverAsync i t k m rest deferred hi hr ht ha hl =>
    have := total_set (pend P n) (t' := { t with stack := .trim k :: rest }) hi
    rw [ht] at this
    simp only [stackSum_cons, pend] at this
    simp only [total_append]
    have h2 : total (pend P n) [⟨some (k, deferred), t.owner, [Instr.consume k m]⟩] =
        if k = n ∧ P m = true then 1 else 0 := by simp [total, pend]
    rw [h2]; omega
  | trim i t k rest ready hi hr ht hl hready =>
    have := total_set (pend P n) (t' := { t with stack := rest }) hi
    rw [ht] at this
    simp only [stackSum_cons, pend] at this
    simp only [State.setStack]; omega
  | consume i t k m rest hi hr ht =>
    have h1 := total_set (pend P n) (t' := { t with stack := N.emit k (s.log k) m ++ rest }) hi
    rw [ht] at h1
    simp only [stackSum_cons, stackSum_append, pend, stackSum_emit] at h1
    simp only [State.setStack]
    have h3 : ((if n = k then s.log k ++ [m] else s.log n).countP P) =
        (s.log n).countP P + if k = n ∧ P m = true then 1 else 0 := by
      by_cases hkn : n = k
      · subst hkn
        by_cases hp : P m = true <;> simp [hp, List.countP_append, List.countP_singleton]
      · have : ¬ (k = n) := fun e => hkn e.symm
        simp [hkn, this]
    rw [h3]
    have h2 : nodeSum N K P (fun j => if j = k then s.log k ++ [m] else s.log j) n =
        nodeSum N K P s.log n + (N.outs k).count n * (N.behave k (s.log k) m).toList.countP P := by
      by_cases hkK : k < K
      · unfold nodeSum
        have := sum_range_update K k hkK
          (fun p => (N.outs p).count n *
            (issued N p (if p = k then s.log k ++ [m] else s.log p)).countP P)
          (fun p => (N.outs p).count n * (issued N p (s.log p)).countP P)
          (by intro p hp; simp [hp])
        simp only [if_true, issued_snoc, List.countP_append, Nat.mul_add] at this
        beta_reduce
        omega
      · rw [hK k (by omega)]
        simp only [List.count_nil, Nat.zero_mul, Nat.add_zero]
        unfold nodeSum
        congr 1
        apply List.map_congr_left
        intro p hp
        have : p ≠ k := by have := List.mem_range.mp hp; omega
        simp [this]
    rw [h2]; omega
  | flush i t k rest hi hr ht hl =>
    have := total_set (pend P n) (t' := { t with stack := .wait k :: rest }) hi
    rw [ht] at this
    simp only [stackSum_cons, pend] at this
    simp only [State.setStack]; omega
  | waitDone i t k rest hi hr ht hd =>
    have := total_set (pend P n) (t' := { t with stack := (N.outs k).map .flush ++ rest }) hi
    rw [ht] at this
    have h0 : stackSum (pend P n) ((N.outs k).map Instr.flush) = 0 := by
      unfold stackSum
      apply List.sum_eq_zero
      intro x hx
      simp only [List.map_map, List.mem_map] at hx
      obtain ⟨c, -, rfl⟩ := hx
      rfl
    simp only [stackSum_cons, stackSum_append, pend, h0] at this
    simp only [State.setStack]; omega
  | ret i t rest hi hr ht =>
    have := total_set (pend P n) (t' := { t with stack := rest }) hi
    rw [ht] at this
    simp only [stackSum_cons, pend] at this
    simp only [State.setStack]; omega

theorem countP_replicate' (P : V → Bool) (k : Nat) (m : V) :
    (List.replicate k m).countP P = k * (if P m = true then 1 else 0) := by
  rw [List.countP_replicate]; split <;> simp

theorem stackSum_program (P : V → Bool) (n : Nat) (c : Call V) :
    stackSum (pend P n) c.program =
      (c.msgs.flatMap (fun m => List.replicate (c.roots.count n) m)).countP P := by
  have hz : ∀ l : List (Instr V), (∀ ins ∈ l, ∃ k, ins = .flush k) → stackSum (pend P n) l = 0 := by
    intro l hl
    unfold stackSum
    apply List.sum_eq_zero
    intro x hx
    obtain ⟨ins, hi, rfl⟩ := List.mem_map.mp hx
    obtain ⟨k, rfl⟩ := hl ins hi
    rfl
  have h2 : stackSum (pend P n) (List.replicate c.flushes (c.roots.map Instr.flush)).flatten = 0 := by
    apply hz
    intro ins hi
    obtain ⟨l, hl, hi⟩ := List.mem_flatten.mp hi
    rw [List.eq_of_mem_replicate hl] at hi
    obtain ⟨k, -, rfl⟩ := List.mem_map.mp hi
    exact ⟨k, rfl⟩
  rw [Call.program, stackSum_append, stackSum_append, h2]
  simp only [stackSum_cons, stackSum_nil, pend, Nat.add_zero]
  induction c.msgs with
  | nil => rfl
  | cons m ms ih =>
    rw [List.flatMap_cons, List.flatMap_cons, stackSum_append, List.countP_append, ih,
      stackSum_map_deliver, countP_replicate']

theorem total_initial (P : V → Bool) (n : Nat) (progs : List (List (Call V))) :
    total (pend P n) (initial progs).threads = (fromProducers progs n).countP P := by
  have h1 : ∀ calls : List (Call V), stackSum (pend P n) (calls.flatMap Call.program) =
      (calls.flatMap (fun c => c.msgs.flatMap (fun m => List.replicate (c.roots.count n) m))).countP P := by
    intro calls
    induction calls with
    | nil => rfl
    | cons c cs ih =>
      rw [List.flatMap_cons, List.flatMap_cons, stackSum_append, List.countP_append, ih,
        stackSum_program]
  unfold total initial
  have h2 : (progs.mapIdx (fun a calls => (⟨none, a, calls.flatMap Call.program⟩ : Thread V))).map
      (fun t => stackSum (pend P n) t.stack) =
      progs.map (fun calls => stackSum (pend P n) (calls.flatMap Call.program)) := by
    apply List.ext_getElem?
    intro i
    simp only [List.getElem?_map, List.getElem?_mapIdx, Option.map_map]
    rfl
  rw [h2]
  clear h2
  unfold fromProducers
  induction progs with
  | nil => rfl
  | cons c cs ih =>
    rw [List.map_cons, List.sum_cons, ih,
      List.flatten_cons, List.flatMap_append, List.countP_append, h1]

theorem Reachable.count {N : Net V} {K : Nat} (hK : Finite N K) {progs : List (List (Call V))}
    {s : State V} (h : Reachable N progs s) (P : V → Bool) (n : Nat) :
    (s.log n).countP P + total (pend P n) s.threads =
      (fromProducers progs n).countP P + nodeSum N K P s.log n := by
  induction h with
  | refl =>
    rw [total_initial]
    have : nodeSum N K P (initial progs).log n = 0 := by
      unfold nodeSum
      apply List.sum_eq_zero
      intro x hx
      obtain ⟨p, -, rfl⟩ := List.mem_map.mp hx
      simp [initial, issued, issuedFrom]
    rw [this]; simp [initial]
  | tail _ hs ih =>
    have := hs.count hK P n
    omega

theorem countP_fromNodes (N : Net V) (K : Nat) (P : V → Bool) (hist : Nat → List V) (n : Nat) :
    (fromNodes N K hist n).countP P = nodeSum N K P hist n := by
  unfold fromNodes nodeSum
  rw [List.countP_flatMap]
  congr 1
  apply List.map_congr_left
  intro p _
  simp only [Function.comp]
  induction issued N p (hist p) with
  | nil => simp
  | cons y ys ih =>
    rw [List.flatMap_cons, List.countP_append, ih, countP_replicate', List.countP_cons]
    ring

/-! ### two networks with asynchronous leaves -/

/-- the visible instructions: deliveries to nodes outside `A` -/
def vis (A : Nat → Bool) : Instr V → Bool
  | .deliver k _ => !A k
  | .consume k _ => !A k
  | _ => false

/-- the sequential machine on visible instructions -/
inductive Abs (outs : Nat → List Nat) (behave : Nat → List V → V → Option V) (A : Nat → Bool) :
    List (Instr V) × (Nat → List V) → List (Instr V) × (Nat → List V) → Prop
  | deliver (n m rest log) : Abs outs behave A (.deliver n m :: rest, log) (.consume n m :: rest, log)
  | consume (n m rest log) (hn : A n = false) : Abs outs behave A (.consume n m :: rest, log)
      ((match behave n (log n) m with
        | some y => ((outs n).map (fun c => Instr.deliver c y)).filter (vis A)
        | none => []) ++ rest, fun k => if k = n then log n ++ [m] else log k)

theorem Abs.det {outs : Nat → List Nat} {behave : Nat → List V → V → Option V} {A : Nat → Bool} :
    Relator.RightUnique (Abs outs behave A) := by
  intro a b c h1 h2
  cases h1 <;> cases h2 <;> rfl

def visLog (A : Nat → Bool) (log : Nat → List V) : Nat → List V := fun n => if A n then [] else log n

structure Sim (N : Net V) (A : Nat → Bool) (a : Nat) (start : List (Instr V) × (Nat → List V)) (s : State V) :
    Prop where
  main : ∃ t : Thread V, s.threads[a]? = some t ∧
    Relation.ReflTransGen (Abs N.outs N.behave A) start (t.stack.filter (vis A), visLog A s.log)
  others : ∀ (i : Nat) (t : Thread V), i ≠ a → s.threads[i]? = some t → t.stack.filter (vis A) = []

theorem Sim.quiet {N : Net V} {A : Nat → Bool} {a : Nat} {start : List (Instr V) × (Nat → List V)}
    {s s' : State V} (S : Sim N A a start s) {i : Nat} {t : Thread V} {st : List (Instr V)}
    (hi : s.threads[i]? = some t) (hthr : s'.threads = s.threads.set i { t with stack := st })
    (hst : st.filter (vis A) = t.stack.filter (vis A)) (hlog : visLog A s'.log = visLog A s.log) :
    Sim N A a start s' := by
  constructor
  · obtain ⟨t0, h1, h2⟩ := S.main
    by_cases h : i = a
    · subst h
      rw [hi] at h1; cases h1
      refine ⟨{ t with stack := st }, by rw [hthr, get_set hi, if_pos rfl], ?_⟩
      simp only
      rw [hst, hlog]; exact h2
    · exact ⟨t0, by rw [hthr, get_set hi, if_neg (Ne.symm h)]; exact h1, by rw [hlog]; exact h2⟩
  · intro j x hj hx
    rw [hthr, get_set hi] at hx
    split at hx
    · rename_i e; subst e; cases hx
      simp only
      rw [hst]; exact S.others j t hj hi
    · exact S.others j x hj hx

theorem Sim.step {N : Net V} {A : Nat → Bool} {a : Nat} {start : List (Instr V) × (Nat → List V)}
    {s s' : State V} (hA : ∀ n, N.isAsync n = true → A n = true)
    (hA' : ∀ n, A n = true → ∀ c ∈ N.outs n, A c = true) (S : Sim N A a start s) (h : Step N s s') :
    Sim N A a start s' := by
  cases h with
  | deliverSync i t n m rest hi hr ht ha =>
    cases hAn : A n with
    | true => exact S.quiet hi rfl (by rw [ht]; simp [List.filter_cons, vis, hAn]) rfl
    | false =>
      have hi0 : i = a := by
        by_contra h
        have := S.others i t h hi
        rw [ht] at this
        simp [List.filter_cons, vis, hAn] at this
      subst hi0
      obtain ⟨t0, h1, h2⟩ := S.main
      rw [hi] at h1; cases h1
      constructor
      · refine ⟨{ t with stack := .consume n m :: rest },
          by show (s.threads.set i _)[i]? = _; rw [get_set hi, if_pos rfl], h2.tail ?_⟩
        rw [ht]
        simp only [List.filter_cons, vis, hAn, Bool.not_false, if_true, State.setStack]
        exact Abs.deliver _ _ _ _
      · intro j x hj hx
        replace hx : (s.threads.set i _)[j]? = some x := hx
        rw [get_set hi, if_neg hj] at hx
        exact S.others j x hj hx
  | deliverAsync i t n m rest deferred hi hr ht ha hl =>
    have hAn := hA n ha
    have S1 : Sim N A a start (s.setStack i t (.trim n :: rest)) :=
      S.quiet hi rfl (by rw [ht]; simp [List.filter_cons, vis, hAn]) rfl
    constructor
    · obtain ⟨t0, h1, h2⟩ := S1.main
      refine ⟨t0, ?_, h2⟩
      show ((s.threads.set i _) ++ _)[a]? = _
      rw [List.getElem?_append_left]
      · exact h1
      · rcases Nat.lt_or_ge a (s.setStack i t (.trim n :: rest)).threads.length with h | h
        · exact h
        · rw [List.getElem?_eq_none h] at h1; cases h1
    · intro j x hj hx
      replace hx : ((s.threads.set i { t with stack := .trim n :: rest }) ++ _)[j]? = some x := hx
      by_cases hlt : j < (s.threads.set i { t with stack := .trim n :: rest }).length
      · rw [List.getElem?_append_left hlt] at hx
        exact S1.others j x hj hx
      · have := List.mem_of_getElem? (by rw [List.getElem?_append_right (by omega)] at hx; exact hx)
        simp only [List.mem_singleton] at this
        subst this
        simp [vis, hAn]
  | trim i t n rest ready hi hr ht hl hready =>
    exact S.quiet hi rfl (by rw [ht]; simp [List.filter_cons, vis]) rfl
  | consume i t n m rest hi hr ht =>
    cases hAn : A n with
    | true =>
      have he : (N.emit n (s.log n) m).filter (vis A) = [] := by
        unfold Net.emit
        split
        · rw [List.filter_eq_nil_iff]
          intro ins hins
          obtain ⟨c, hc, rfl⟩ := List.mem_map.mp hins
          simp [vis, hA' n hAn c hc]
        · rfl
      refine S.quiet hi rfl ?_ ?_
      · rw [ht, List.filter_append, he]; simp [List.filter_cons, vis, hAn]
      · funext k
        simp only [visLog]
        by_cases hk : k = n
        · subst hk; simp [hAn]
        · simp [hk, State.setStack]
    | false =>
      have hi0 : i = a := by
        by_contra h
        have := S.others i t h hi
        rw [ht] at this
        simp [List.filter_cons, vis, hAn] at this
      subst hi0
      obtain ⟨t0, h1, h2⟩ := S.main
      rw [hi] at h1; cases h1
      constructor
      · refine ⟨{ t with stack := N.emit n (s.log n) m ++ rest },
          by show (s.threads.set i _)[i]? = _; rw [get_set hi, if_pos rfl], h2.tail ?_⟩
        rw [ht]
        simp only [List.filter_cons, vis, hAn, Bool.not_false, if_true, List.filter_append]
        have := Abs.consume (outs := N.outs) (behave := N.behave) (A := A) n m (rest.filter (vis A))
          (visLog A s.log) hAn
        have e1 : visLog A s.log n = s.log n := by simp [visLog, hAn]
        rw [e1] at this
        have e2 : (N.emit n (s.log n) m).filter (vis A) =
            (match N.behave n (s.log n) m with
              | some y => ((N.outs n).map (fun c => Instr.deliver c y)).filter (vis A)
              | none => []) := by
          unfold Net.emit
          cases N.behave n (s.log n) m <;> rfl
        have e3 : visLog A (fun k => if k = n then s.log n ++ [m] else s.log k) =
            fun k => if k = n then s.log n ++ [m] else visLog A s.log k := by
          funext k
          by_cases hk : k = n
          · subst hk; simp [visLog, hAn]
          · simp [visLog, hk]
        rw [e2]
        show Abs N.outs N.behave A _ (_, visLog A (fun k => if k = n then s.log n ++ [m] else s.log k))
        rw [e3]
        exact this
      · intro j x hj hx
        replace hx : (s.threads.set i _)[j]? = some x := hx
        rw [get_set hi, if_neg hj] at hx
        exact S.others j x hj hx
  | flush i t n rest hi hr ht hl =>
    exact S.quiet hi rfl (by rw [ht]; simp [List.filter_cons, vis]) rfl
  | waitDone i t n rest hi hr ht hd =>
    refine S.quiet hi rfl ?_ rfl
    rw [ht]
    have : ((N.outs n).map Instr.flush).filter (vis (V := V) A) = [] := by
      rw [List.filter_eq_nil_iff]
      intro ins hi
      obtain ⟨c, -, rfl⟩ := List.mem_map.mp hi
      simp [vis]
    rw [List.filter_append, this]
    simp [List.filter_cons, vis]
  | ret i t rest hi hr ht =>
    exact S.quiet hi rfl (by rw [ht]; simp [List.filter_cons, vis]) rfl

theorem Reachable.sim {N : Net V} {A : Nat → Bool} {progs : List (List (Call V))} {s : State V} {a : Nat}
    {calls : List (Call V)} (hc : progs[a]? = some calls)
    (ho : ∀ (b : Nat) (cs : List (Call V)), b ≠ a → progs[b]? = some cs → ∀ c ∈ cs, ∀ r ∈ c.roots, A r = true)
    (hA : ∀ n, N.isAsync n = true → A n = true)
    (hA' : ∀ n, A n = true → ∀ c ∈ N.outs n, A c = true) (h : Reachable N progs s) :
    Sim N A a ((calls.flatMap Call.program).filter (vis A), fun _ => []) s := by
  induction h with
  | refl =>
    constructor
    · refine ⟨⟨none, a, calls.flatMap Call.program⟩, by simp [initial, hc], ?_⟩
      have : visLog A (initial progs).log = fun _ => ([] : List V) := by
        funext k; simp [visLog, initial]
      rw [this]
    · intro i t hi ht
      simp only [initial, List.getElem?_mapIdx, Option.map_eq_some_iff] at ht
      obtain ⟨cs, hcs, rfl⟩ := ht
      rw [List.filter_eq_nil_iff]
      intro ins hins
      obtain ⟨c, hcc, hins⟩ := List.mem_flatMap.mp hins
      have hroots := ho i cs hi hcs c hcc
      simp only [Call.program, List.mem_append, List.mem_flatMap, List.mem_map, List.mem_flatten,
        List.mem_singleton] at hins
      rcases hins with (⟨m, -, r, hr, rfl⟩ | ⟨l, hl, hins⟩) | rfl
      · simp [vis, hroots r hr]
      · rw [List.eq_of_mem_replicate hl] at hins
        obtain ⟨k, -, rfl⟩ := List.mem_map.mp hins
        simp [vis]
      · simp [vis]
  | tail _ hs ih => exact ih.step hA hA' hs

theorem sim_logs_eq {N₁ N₂ : Net V} {A : Nat → Bool} {calls : List (Call V)} {s₁ s₂ : State V}
    (ho : N₁.outs = N₂.outs) (hb : N₁.behave = N₂.behave)
    (hA₁ : ∀ n, N₁.isAsync n = true → A n = true) (hA₂ : ∀ n, N₂.isAsync n = true → A n = true)
    (hA' : ∀ n, A n = true → ∀ c ∈ N₁.outs n, A c = true)
    (h₁ : Reachable N₁ [calls] s₁) (h₂ : Reachable N₂ [calls] s₂) (d₁ : AllDone s₁) (d₂ : AllDone s₂)
    (n : Nat) (hn : A n = false) : s₁.log n = s₂.log n := by
  obtain ⟨t₁, a1, b1⟩ := (Reachable.sim (a := 0) (calls := calls) rfl
    (by intro b cs hb h; cases b with | zero => exact absurd rfl hb | succ b => simp at h) hA₁ hA' h₁).main
  obtain ⟨t₂, a2, b2⟩ := (Reachable.sim (a := 0) (calls := calls) rfl
    (by intro b cs hb h; cases b with | zero => exact absurd rfl hb | succ b => simp at h) hA₂ (by rw [← ho]; exact hA') h₂).main
  rw [d₁ t₁ (List.mem_of_getElem? a1)] at b1
  rw [d₂ t₂ (List.mem_of_getElem? a2)] at b2
  rw [← ho, ← hb] at b2
  have key : visLog A s₁.log = visLog A s₂.log := by
    rcases Relation.ReflTransGen.total_of_right_unique Abs.det b1 b2 with h | h
    · rcases Relation.ReflTransGen.cases_head h with h | ⟨c, h, -⟩
      · exact (Prod.mk.inj h).2
      · cases h
    · rcases Relation.ReflTransGen.cases_head h with h | ⟨c, h, -⟩
      · exact (Prod.mk.inj h).2.symm
      · cases h
  have := congrFun key n
  simpa [visLog, hn] using this

end SampleFlow.Async
