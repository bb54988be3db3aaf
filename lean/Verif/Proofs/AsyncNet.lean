import Verif.Model.AsyncNet
import Mathlib.Logic.Relation
import Mathlib.Data.List.Basic
import Mathlib.Tactic.Push

set_option linter.unusedSimpArgs false
set_option linter.unusedSectionVars false

namespace SampleFlow.Async

variable {V : Type}

/-- `c` is connected to `n`. -/
def Net.Edge (N : Net V) (n c : Nat) : Prop := c ∈ N.outs n

abbrev Net.Reach (N : Net V) := Relation.ReflTransGen N.Edge
abbrev Net.Below (N : Net V) := Relation.TransGen N.Edge

def Instr.isRet : Instr V → Bool
  | .ret => true
  | _ => false

/-- The part of the stack before the next return from `sample()`. -/
def seg (st : List (Instr V)) : List (Instr V) := st.takeWhile (fun ins => !ins.isRet)

@[simp] theorem seg_nil : seg ([] : List (Instr V)) = [] := rfl
@[simp] theorem seg_deliver (n m) (st : List (Instr V)) : seg (.deliver n m :: st) = .deliver n m :: seg st := rfl
@[simp] theorem seg_consume (n m) (st : List (Instr V)) : seg (.consume n m :: st) = .consume n m :: seg st := rfl
@[simp] theorem seg_trim (n) (st : List (Instr V)) : seg (.trim n :: st) = .trim n :: seg st := rfl
@[simp] theorem seg_flush (n) (st : List (Instr V)) : seg (.flush n :: st) = .flush n :: seg st := rfl
@[simp] theorem seg_wait (n) (st : List (Instr V)) : seg (.wait n :: st) = .wait n :: seg st := rfl
@[simp] theorem seg_ret (st : List (Instr V)) : seg (.ret :: st) = [] := rfl

theorem seg_append (pre st : List (Instr V)) (h : ∀ ins ∈ pre, ins ≠ .ret) :
    seg (pre ++ st) = pre ++ seg st := by
  induction pre with
  | nil => rfl
  | cons a pre ih =>
    have h2 : ∀ ins ∈ pre, ins ≠ .ret := fun ins hi => h ins (by simp [hi])
    cases a
    case ret => exact absurd rfl (h .ret (by simp))
    all_goals simp [ih h2]

def Covers (N : Net V) (st : List (Instr V)) (n : Nat) : Prop :=
  ∃ k, (Instr.flush k ∈ seg st ∨ Instr.wait k ∈ seg st) ∧ N.Reach k n

def NeedsCover : Instr V → Option Nat
  | .deliver n _ => some n
  | .consume n _ => some n
  | _ => none

def MainOK (N : Net V) : List (Instr V) → Prop
  | [] => True
  | ins :: rest => MainOK N rest ∧ (∀ k, Instr.wait k ∉ rest) ∧
      ∀ n, NeedsCover ins = some n → Covers N rest n

def TaskInstrOK (N : Net V) (u : Nat) : Instr V → Prop
  | .deliver n _ => N.Below u n
  | .consume n _ => N.Reach u n
  | .trim n => N.Below u n
  | .flush _ => False
  | .wait _ => False
  | .ret => False

structure Inv (N : Net V) (s : State V) : Prop where
  ownMain : ∀ (i : Nat) (t : Thread V), s.threads[i]? = some t → t.task = none → t.owner = i
  ownIsMain : ∀ (i : Nat) (t : Thread V), s.threads[i]? = some t → ∃ (ta : Thread V), s.threads[t.owner]? = some ta ∧ ta.task = none
  inQueue : ∀ (j : Nat) (t : Thread V) (n : Nat) (d : Bool), s.threads[j]? = some t → t.task = some (n, d) → t.stack ≠ [] → j ∈ s.queue n
  queueTask : ∀ n j, j ∈ s.queue n → ∃ (t : Thread V) (d : Bool), s.threads[j]? = some t ∧ t.task = some (n, d)
  lockTop : ∀ n a, s.lock n = some a → ∃ (t : Thread V) (rest : List (Instr V)), s.threads[a]? = some t ∧ t.task = none ∧
    t.stack = .wait n :: rest
  topLock : ∀ (i : Nat) (t : Thread V) (n : Nat) (rest : List (Instr V)), s.threads[i]? = some t → t.stack = .wait n :: rest → s.lock n = some i
  mainOK : ∀ (i : Nat) (t : Thread V), s.threads[i]? = some t → t.task = none → MainOK N t.stack
  taskOK : ∀ (i : Nat) (t : Thread V) (n : Nat) (d : Bool), s.threads[i]? = some t → t.task = some (n, d) →
    ∀ ins ∈ t.stack, TaskInstrOK N n ins
  cover : ∀ (i : Nat) (t : Thread V) (n : Nat) (d : Bool), s.threads[i]? = some t → t.task = some (n, d) → t.stack ≠ [] →
    ∃ (ta : Thread V), s.threads[t.owner]? = some ta ∧ Covers N ta.stack n

theorem get_set {α : Type} {l : List α} {i : Nat} {t t' : α} (hi : l[i]? = some t) (j : Nat) :
    (l.set i t')[j]? = if j = i then some t' else l[j]? := by
  have hlt : i < l.length := by
    by_contra h
    rw [List.getElem?_eq_none (by omega)] at hi
    cases hi
  rw [List.getElem?_set]
  by_cases h : j = i
  · subst h; simp [hlt]
  · simp [h, Ne.symm h]

theorem isDone_iff (s : State V) (j : Nat) (t : Thread V) (h : s.threads[j]? = some t) :
    s.isDone j = true ↔ t.stack = [] := by
  simp [State.isDone, h]

theorem trimQueue_suffix (ready : Nat → Bool) (q : List Nat) : trimQueue ready q <:+ q := by
  induction q with
  | nil => exact List.suffix_rfl
  | cons j q ih =>
    rw [trimQueue]
    split
    · exact ih.trans (List.suffix_cons j q)
    · exact List.suffix_rfl

theorem trimQueue_removed (ready : Nat → Bool) (q : List Nat) (j : Nat) (h1 : j ∈ q)
    (h2 : j ∉ trimQueue ready q) : ready j = true := by
  induction q with
  | nil => simp at h1
  | cons a q ih =>
    rw [trimQueue] at h2
    split at h2
    · rename_i hp
      rcases List.mem_cons.mp h1 with rfl | h1
      · exact hp
      · exact ih h1 h2
    · exact absurd h1 h2

/-- One thread changes its stack. -/
theorem Inv.update {N : Net V} {s s' : State V} (I : Inv N s) {i : Nat} {t : Thread V}
    {st : List (Instr V)} (hi : s.threads[i]? = some t) (hne : t.stack ≠ [])
    (hthr : s'.threads = s.threads.set i { t with stack := st })
    (hq : ∀ n j, j ∈ s'.queue n → j ∈ s.queue n)
    (hq' : ∀ n j, j ∈ s.queue n → j ∉ s'.queue n → s'.isDone j = true)
    (hd : ∀ n a, s'.lock n = some a → ∃ (t : Thread V) (rest : List (Instr V)), s'.threads[a]? = some t ∧ t.task = none ∧
      t.stack = .wait n :: rest)
    (he : ∀ (k : Nat) (t : Thread V) (n : Nat) (rest : List (Instr V)), s'.threads[k]? = some t → t.stack = .wait n :: rest → s'.lock n = some k)
    (hf : t.task = none → MainOK N st)
    (hg : ∀ n d, t.task = some (n, d) → ∀ ins ∈ st, TaskInstrOK N n ins)
    (hh : t.task = none → ∀ (j u : Nat) (x : Thread V) (d : Bool), s'.threads[j]? = some x → x.task = some (u, d) → x.stack ≠ [] →
      Covers N t.stack u → Covers N st u) : Inv N s' := by
  have g : ∀ (j : Nat), s'.threads[j]? = if j = i then some { t with stack := st } else s.threads[j]? := by
    intro j; rw [hthr]; exact get_set hi j
  have gi : s'.threads[i]? = some { t with stack := st } := by rw [g, if_pos rfl]
  have gn : ∀ (j : Nat), j ≠ i → s'.threads[j]? = s.threads[j]? := by intro j h; rw [g, if_neg h]
  have back : ∀ (j : Nat) (x : Thread V), s'.threads[j]? = some x → ∃ (y : Thread V), s.threads[j]? = some y ∧ y.task = x.task ∧
      y.owner = x.owner ∧ (j ≠ i → y = x) ∧ (x.stack ≠ [] → y.stack ≠ []) := by
    intro j x hx
    by_cases h : j = i
    · subst h
      rw [gi] at hx; cases hx
      exact ⟨t, hi, rfl, rfl, fun h => absurd rfl h, fun _ => hne⟩
    · rw [gn j h] at hx
      exact ⟨x, hx, rfl, rfl, fun _ => rfl, id⟩
  have fwd : ∀ (j : Nat) (y : Thread V), s.threads[j]? = some y → ∃ (x : Thread V), s'.threads[j]? = some x ∧ y.task = x.task ∧
      y.owner = x.owner ∧ (j ≠ i → y = x) := by
    intro j y hy
    by_cases h : j = i
    · subst h
      rw [hi] at hy; cases hy
      exact ⟨_, gi, rfl, rfl, fun h => absurd rfl h⟩
    · exact ⟨y, by rw [gn j h]; exact hy, rfl, rfl, fun _ => rfl⟩
  constructor
  · intro j x hx hm
    obtain ⟨y, h1, h2, h3, -, -⟩ := back j x hx
    rw [← h3]; exact I.ownMain j y h1 (by rw [h2]; exact hm)
  · intro j x hx
    obtain ⟨y, h1, h2, h3, -, -⟩ := back j x hx
    obtain ⟨ta, h5, h6⟩ := I.ownIsMain j y h1
    obtain ⟨ta', h7, h8, -⟩ := fwd _ ta h5
    exact ⟨ta', by rw [← h3]; exact h7, by rw [← h8]; exact h6⟩
  · intro j x n d hx ht hs
    obtain ⟨y, h1, h2, h3, h4, h5⟩ := back j x hx
    have hjq := I.inQueue j y n d h1 (by rw [h2]; exact ht) (h5 hs)
    by_contra hcon
    have := hq' n j hjq hcon
    rw [isDone_iff s' j x hx] at this
    exact hs this
  · intro n j hj
    obtain ⟨y, d, h1, h2⟩ := I.queueTask n j (hq n j hj)
    obtain ⟨x, h3, h4, -⟩ := fwd j y h1
    exact ⟨x, d, h3, by rw [← h4]; exact h2⟩
  · exact hd
  · exact he
  · intro j x hx hm
    by_cases h : j = i
    · subst h; rw [gi] at hx; cases hx; exact hf hm
    · rw [gn j h] at hx; exact I.mainOK j x hx hm
  · intro j x n d hx hm
    by_cases h : j = i
    · subst h; rw [gi] at hx; cases hx; exact hg n d hm
    · rw [gn j h] at hx; exact I.taskOK j x n d hx hm
  · intro j x n d hx hm hs
    obtain ⟨y, h1, h2, h3, h4, h5⟩ := back j x hx
    obtain ⟨ta, h6, h7⟩ := I.cover j y n d h1 (by rw [h2]; exact hm) (h5 hs)
    obtain ⟨tb, h8, h9⟩ := I.ownIsMain j y h1
    rw [h6] at h8; cases h8
    rw [← h3]
    by_cases h : y.owner = i
    · rw [h] at h6 ⊢
      rw [hi] at h6; cases h6
      exact ⟨_, gi, hh h9 j n x d hx hm hs h7⟩
    · exact ⟨ta, by rw [gn _ h]; exact h6, h7⟩

/-- A new task is created. -/
theorem Inv.spawn {N : Net V} {s s' : State V} (I : Inv N s) {n owner : Nat} {d : Bool} {m : V}
    (hthr : s'.threads = s.threads ++ [⟨some (n, d), owner, [.consume n m]⟩])
    (hq : s'.queue = fun k => if k = n then s.queue n ++ [s.threads.length] else s.queue k)
    (hl : s'.lock = s.lock)
    (hown : ∃ (ta : Thread V), s.threads[owner]? = some ta ∧ ta.task = none ∧ Covers N ta.stack n) : Inv N s' := by
  have len := s.threads.length
  have gl : ∀ (j : Nat) (x : Thread V), s.threads[j]? = some x → s'.threads[j]? = some x := by
    intro j x hx
    rw [hthr, List.getElem?_append_left]
    · exact hx
    · by_contra h; rw [List.getElem?_eq_none (by omega)] at hx; cases hx
  have gr : s'.threads[s.threads.length]? = some ⟨some (n, d), owner, [.consume n m]⟩ := by
    rw [hthr, List.getElem?_append_right (by omega)]; simp
  have back : ∀ (j : Nat) (x : Thread V), s'.threads[j]? = some x → s.threads[j]? = some x ∨
      (j = s.threads.length ∧ x = ⟨some (n, d), owner, [.consume n m]⟩) := by
    intro j x hx
    rcases Nat.lt_trichotomy j s.threads.length with h | h | h
    · rw [hthr, List.getElem?_append_left h] at hx; exact Or.inl hx
    · subst h; rw [gr] at hx; cases hx; exact Or.inr ⟨rfl, rfl⟩
    · rw [hthr, List.getElem?_eq_none (by simp; omega)] at hx; cases hx
  have qmem : ∀ k j, j ∈ s.queue k → j ∈ s'.queue k := by
    intro k j hj
    rw [hq]; simp only
    split
    · rename_i e; subst e; simp [hj]
    · exact hj
  obtain ⟨ta, ha1, ha2, ha3⟩ := hown
  constructor
  · intro i t ht hm
    rcases back i t ht with h | ⟨-, rfl⟩
    · exact I.ownMain i t h hm
    · cases hm
  · intro i t ht
    rcases back i t ht with h | ⟨-, rfl⟩
    · obtain ⟨tb, h1, h2⟩ := I.ownIsMain i t h
      exact ⟨tb, gl _ _ h1, h2⟩
    · exact ⟨ta, gl _ _ ha1, ha2⟩
  · intro j t k e ht hm hs
    rcases back j t ht with h | ⟨rfl, rfl⟩
    · exact qmem _ _ (I.inQueue j t k e h hm hs)
    · cases hm; rw [hq]; simp
  · intro k j hj
    have : j ∈ s.queue k ∨ (k = n ∧ j = s.threads.length) := by
      rw [hq] at hj
      simp only at hj
      split at hj
      · rename_i e; subst e
        rcases List.mem_append.mp hj with h | h
        · exact Or.inl h
        · exact Or.inr ⟨rfl, by simpa using h⟩
      · exact Or.inl hj
    rcases this with h | ⟨rfl, rfl⟩
    · obtain ⟨t, e, h1, h2⟩ := I.queueTask k j h
      exact ⟨t, e, gl _ _ h1, h2⟩
    · exact ⟨_, d, gr, rfl⟩
  · intro k a hk
    rw [hl] at hk
    obtain ⟨t, rest, h1, h2, h3⟩ := I.lockTop k a hk
    exact ⟨t, rest, gl _ _ h1, h2, h3⟩
  · intro i t k rest ht hs
    rw [hl]
    rcases back i t ht with h | ⟨-, rfl⟩
    · exact I.topLock i t k rest h hs
    · simp at hs
  · intro i t ht hm
    rcases back i t ht with h | ⟨-, rfl⟩
    · exact I.mainOK i t h hm
    · cases hm
  · intro i t k e ht hm ins hins
    rcases back i t ht with h | ⟨-, rfl⟩
    · exact I.taskOK i t k e h hm ins hins
    · cases hm
      simp only [List.mem_singleton] at hins
      subst hins
      exact Relation.ReflTransGen.refl
  · intro i t k e ht hm hs
    rcases back i t ht with h | ⟨-, rfl⟩
    · obtain ⟨tb, h1, h2⟩ := I.cover i t k e h hm hs
      exact ⟨tb, gl _ _ h1, h2⟩
    · cases hm
      exact ⟨ta, gl _ _ ha1, ha3⟩

theorem Covers.mono {N : Net V} {st st' : List (Instr V)} {n : Nat} (h : Covers N st n)
    (hsub : ∀ ins : Instr V, (∃ k, ins = .flush k ∨ ins = .wait k) → ins ∈ seg st → ins ∈ seg st') :
    Covers N st' n := by
  obtain ⟨k, h1, h2⟩ := h
  exact ⟨k, h1.imp (hsub _ ⟨k, Or.inl rfl⟩) (hsub _ ⟨k, Or.inr rfl⟩), h2⟩

theorem MainOK.append_cons {N : Net V} (pre : List (Instr V)) (rest : List (Instr V))
    (h : MainOK N rest) (hw : ∀ k, Instr.wait k ∉ rest)
    (hpre : ∀ ins ∈ pre, (∀ k, ins ≠ .wait k) ∧ ins ≠ .ret ∧ ∀ n, NeedsCover ins = some n → Covers N rest n) :
    MainOK N (pre ++ rest) := by
  induction pre with
  | nil => exact h
  | cons a pre ih =>
    refine ⟨ih (fun ins hi => hpre ins (by simp [hi])), ?_, ?_⟩
    · intro k hk
      rcases List.mem_append.mp hk with hk | hk
      · exact (hpre _ (by simp [hk])).1 k rfl
      · exact hw k hk
    · intro n hn
      refine ((hpre a (by simp)).2.2 n hn).mono (fun ins _ hi => ?_)
      show ins ∈ seg (pre ++ rest)
      rw [seg_append pre rest (fun ins hi => (hpre ins (List.mem_cons_of_mem _ hi)).2.1)]
      exact List.mem_append_right _ hi

/-- lock conditions survive if the thread that moves is not at a `wait` before or after. -/
theorem Inv.lock_keep {N : Net V} {s s' : State V} (I : Inv N s) {i : Nat} {t : Thread V}
    {st : List (Instr V)} (hi : s.threads[i]? = some t)
    (hthr : s'.threads = s.threads.set i { t with stack := st }) (hl : s'.lock = s.lock)
    (h1 : ∀ k rest, t.stack ≠ .wait k :: rest) (h2 : ∀ k rest, st ≠ .wait k :: rest) :
    (∀ n a, s'.lock n = some a → ∃ (t : Thread V) (rest : List (Instr V)), s'.threads[a]? = some t ∧ t.task = none ∧
      t.stack = .wait n :: rest) ∧
    (∀ k t n rest, s'.threads[k]? = some t → t.stack = .wait n :: rest → s'.lock n = some k) := by
  have g : ∀ (j : Nat), s'.threads[j]? = if j = i then some { t with stack := st } else s.threads[j]? := by
    intro j; rw [hthr]; exact get_set hi j
  constructor
  · intro n a hn
    rw [hl] at hn
    obtain ⟨x, rest, e1, e2, e3⟩ := I.lockTop n a hn
    have hne : a ≠ i := by
      rintro rfl
      rw [hi] at e1; cases e1
      exact h1 n rest e3
    exact ⟨x, rest, by rw [g, if_neg hne]; exact e1, e2, e3⟩
  · intro k x n rest hx hs
    rw [hl]
    rw [g] at hx
    split at hx
    · cases hx; exact absurd hs (h2 n rest)
    · exact I.topLock k x n rest hx hs

theorem Inv.step {N : Net V} {s s' : State V} (I : Inv N s) (h : Step N s s') : Inv N s' := by
  cases h with
  | deliverSync i t n m rest hi hr ht ha =>
    obtain ⟨l1, l2⟩ := I.lock_keep (s' := s.setStack i t (.consume n m :: rest)) hi rfl rfl
      (by rw [ht]; simp) (by simp)
    refine I.update hi (by rw [ht]; simp) rfl (fun _ _ h => h) (fun _ _ h h' => absurd h h') l1 l2
      ?_ ?_ ?_
    · intro hm
      have := I.mainOK i t hi hm
      rw [ht] at this
      exact this
    · intro u d hm ins hins
      have := I.taskOK i t u d hi hm
      rw [ht] at this
      rcases List.mem_cons.mp hins with rfl | hins
      · have := this (.deliver n m) (by simp)
        exact Relation.TransGen.to_reflTransGen this
      · exact this ins (by simp [hins])
    · intro hm j u x d _ _ _ hc
      rw [ht] at hc
      exact hc.mono (by rintro ins ⟨k, rfl | rfl⟩ hin <;> simp at hin <;> simp [hin])
  | deliverAsync i t n m rest deferred hi hr ht ha hl =>
    -- first the delivering thread moves on, then the task is added
    let s1 : State V := s.setStack i t (.trim n :: rest)
    have I1 : Inv N s1 := by
      obtain ⟨l1, l2⟩ := I.lock_keep (s' := s1) hi rfl rfl (by rw [ht]; simp) (by simp)
      refine I.update hi (by rw [ht]; simp) rfl (fun _ _ h => h) (fun _ _ h h' => absurd h h') l1 l2
        ?_ ?_ ?_
      · intro hm
        have := I.mainOK i t hi hm
        rw [ht] at this
        exact ⟨this.1, this.2.1, by intro n h; simp [NeedsCover] at h⟩
      · intro u d hm ins hins
        have := I.taskOK i t u d hi hm
        rw [ht] at this
        rcases List.mem_cons.mp hins with rfl | hins
        · exact this (.deliver n m) (by simp)
        · exact this ins (by simp [hins])
      · intro hm j u x d _ _ _ hc
        rw [ht] at hc
        exact hc.mono (by rintro ins ⟨k, rfl | rfl⟩ hin <;> simp at hin <;> simp [hin])
    have g1 : s1.threads[i]? = some { t with stack := .trim n :: rest } := by
      show (s.threads.set i _)[i]? = _
      rw [get_set hi, if_pos rfl]
    refine I1.spawn (n := n) (owner := t.owner) (d := deferred) (m := m) rfl ?_ rfl ?_
    · funext k
      simp only [s1, State.setStack, List.length_set]
    · cases hm : t.task with
      | none =>
        have ho := I.ownMain i t hi hm
        have g2 : s1.threads[t.owner]? = some { t with stack := .trim n :: rest } := by
          have e : s1.threads[t.owner]? = s1.threads[i]? := congrArg (fun z => s1.threads[z]?) ho
          rw [e]; exact g1
        refine ⟨{ t with stack := .trim n :: rest }, g2, hm, ?_⟩
        have := I.mainOK i t hi hm
        rw [ht] at this
        exact (this.2.2 n rfl).mono (fun ins _ hin => by simp [hin])
      | some ud =>
        obtain ⟨u, d⟩ := ud
        obtain ⟨ta, c1, c2⟩ := I1.cover i _ u d g1 hm (by simp)
        obtain ⟨tb, c3, c4⟩ := I1.ownIsMain i _ g1
        simp only at c1 c3
        rw [c1] at c3; cases c3
        refine ⟨ta, c1, c4, ?_⟩
        obtain ⟨k, e1, e2⟩ := c2
        have := I.taskOK i t u d hi hm (.deliver n m) (by rw [ht]; simp)
        exact ⟨k, e1, e2.trans (Relation.TransGen.to_reflTransGen this)⟩
  | trim i t n rest ready hi hr ht hl hready =>
    have hw : ∀ k r, rest ≠ .wait k :: r := by
      intro k r hr'
      cases hm : t.task with
      | none =>
        have := I.mainOK i t hi hm
        rw [ht] at this
        exact this.2.1 k (by rw [hr']; simp)
      | some ud =>
        obtain ⟨u, d⟩ := ud
        have := I.taskOK i t u d hi hm (.wait k) (by rw [ht, hr']; simp)
        exact this
    obtain ⟨l1, l2⟩ := I.lock_keep (s' := { s.setStack i t rest with
        queue := fun k => if k = n then trimQueue ready (s.queue n) else s.queue k })
      hi rfl rfl (by rw [ht]; simp) hw
    refine I.update hi (by rw [ht]; simp) rfl ?_ ?_ l1 l2 ?_ ?_ ?_
    · intro k j hj
      simp only at hj
      split at hj
      · rename_i e; subst e; exact (trimQueue_suffix _ _).subset hj
      · exact hj
    · intro k j hj hnj
      simp only at hnj
      split at hnj
      · rename_i e; subst e
        have hdone : s.isDone j = true := by
          exact hready j (trimQueue_removed _ _ _ hj hnj)
        obtain ⟨x, d, e1, e2⟩ := I.queueTask k j hj
        have hji : j ≠ i := by
          rintro rfl
          rw [isDone_iff s j t hi, ht] at hdone
          simp at hdone
        have : ({ s.setStack i t rest with
            queue := fun k' => if k' = k then trimQueue ready (s.queue k) else s.queue k' } :
            State V).threads[j]? = some x := by
          show (s.threads.set i _)[j]? = _
          rw [get_set hi, if_neg hji]; exact e1
        rw [isDone_iff _ j x this]
        exact (isDone_iff s j x e1).mp hdone
      · exact absurd hj hnj
    · intro hm
      have := I.mainOK i t hi hm
      rw [ht] at this
      exact this.1
    · intro u d hm ins hins
      exact I.taskOK i t u d hi hm ins (by rw [ht]; simp [hins])
    · intro hm j u x d _ _ _ hc
      rw [ht] at hc
      exact hc.mono (by rintro ins ⟨k, rfl | rfl⟩ hin <;> simpa using hin)
  | consume i t n m rest hi hr ht =>
    generalize hpre : N.emit n (s.log n) m = pre
    have hp : ∀ ins ∈ pre, ∃ c y, ins = .deliver c y ∧ N.Edge n c := by
      intro ins hins
      rw [← hpre] at hins
      unfold Net.emit at hins
      split at hins
      · rename_i y _
        obtain ⟨c, hc, rfl⟩ := List.mem_map.mp hins
        exact ⟨c, y, rfl, hc⟩
      · simp at hins
    have hw : ∀ k r, pre ++ rest ≠ .wait k :: r := by
      intro k r hr'
      have hk : Instr.wait k ∈ pre ++ rest := by rw [hr']; simp
      rcases List.mem_append.mp hk with hk | hk
      · obtain ⟨c, y, e, -⟩ := hp _ hk; cases e
      · cases hm : t.task with
        | none =>
          have := I.mainOK i t hi hm
          rw [ht] at this
          exact this.2.1 k hk
        | some ud =>
          obtain ⟨u, d⟩ := ud
          exact I.taskOK i t u d hi hm (.wait k) (by rw [ht]; simp [hk])
    obtain ⟨l1, l2⟩ := I.lock_keep (s' := { s.setStack i t (pre ++ rest) with
        log := fun k => if k = n then s.log n ++ [m] else s.log k })
      hi rfl rfl (by rw [ht]; simp) hw
    refine I.update hi (by rw [ht]; simp) rfl (fun _ _ h => h) (fun _ _ h h' => absurd h h') l1 l2
      ?_ ?_ ?_
    · intro hm
      have := I.mainOK i t hi hm
      rw [ht] at this
      refine MainOK.append_cons pre rest this.1 this.2.1 ?_
      intro ins hins
      obtain ⟨c, y, rfl, hc⟩ := hp ins hins
      refine ⟨by simp, by simp, ?_⟩
      intro k hk
      simp only [NeedsCover, Option.some.injEq] at hk
      subst hk
      obtain ⟨k, e1, e2⟩ := this.2.2 n rfl
      exact ⟨k, e1, e2.tail hc⟩
    · intro u d hm ins hins
      rcases List.mem_append.mp hins with hins | hins
      · obtain ⟨c, y, rfl, hc⟩ := hp ins hins
        have := I.taskOK i t u d hi hm (.consume n m) (by rw [ht]; simp)
        exact Relation.TransGen.tail' this hc
      · exact I.taskOK i t u d hi hm ins (by rw [ht]; simp [hins])
    · intro hm j u x d _ _ _ hc
      rw [ht] at hc
      refine hc.mono ?_
      have hs : seg (pre ++ rest) = pre ++ seg rest := seg_append _ _ (by
        intro ins hins
        obtain ⟨c, y, rfl, -⟩ := hp ins hins
        simp)
      rw [hs]
      rintro ins ⟨k, rfl | rfl⟩ hin <;> simp at hin <;> simp [hin]
  | flush i t n rest hi hr ht hl =>
    have hmain : t.task = none := by
      cases hm : t.task with
      | none => rfl
      | some ud =>
        obtain ⟨u, d⟩ := ud
        exact absurd (I.taskOK i t u d hi hm (.flush n) (by rw [ht]; simp)) (by simp [TaskInstrOK])
    have g : ∀ (j : Nat), (s.threads.set i { t with stack := .wait n :: rest })[j]? =
        if j = i then some { t with stack := .wait n :: rest } else s.threads[j]? := get_set hi
    refine I.update hi (by rw [ht]; simp) rfl (fun _ _ h => h) (fun _ _ h h' => absurd h h') ?_ ?_
      ?_ ?_ ?_
    · intro k a hk
      simp only at hk
      split at hk
      · rename_i e; subst e; cases hk
        refine ⟨{ t with stack := .wait k :: rest }, rest, ?_, hmain, rfl⟩
        show (s.threads.set i _)[i]? = _
        rw [g, if_pos rfl]
      · obtain ⟨x, r, e1, e2, e3⟩ := I.lockTop k a hk
        have hne : a ≠ i := by
          rintro rfl
          rw [hi] at e1; cases e1
          rw [ht] at e3; cases e3
        refine ⟨x, r, ?_, e2, e3⟩
        show (s.threads.set i _)[a]? = _
        rw [g, if_neg hne]; exact e1
    · intro k x n' r hx hs
      replace hx : (s.threads.set i { t with stack := .wait n :: rest })[k]? = some x := hx
      rw [g] at hx
      simp only
      split at hx
      · rename_i e; subst e; cases hx
        simp only [List.cons.injEq, Instr.wait.injEq] at hs
        rw [if_pos hs.1.symm]
      · have := I.topLock k x n' r hx hs
        split
        · rename_i e; subst e; rw [hl] at this; cases this
        · exact this
    · intro hm
      have := I.mainOK i t hi hm
      rw [ht] at this
      exact ⟨this.1, this.2.1, by intro n h; simp [NeedsCover] at h⟩
    · intro u d hm; rw [hmain] at hm; cases hm
    · intro hm j u x d _ _ _ hc
      rw [ht] at hc
      obtain ⟨k, e1, e2⟩ := hc
      rcases e1 with e1 | e1
      · simp at e1
        rcases e1 with rfl | e1
        · exact ⟨k, by simp, e2⟩
        · exact ⟨k, by simp [e1], e2⟩
      · simp at e1
        exact ⟨k, by simp [e1], e2⟩
  | waitDone i t n rest hi hr ht hd =>
    have hmain : t.task = none := by
      cases hm : t.task with
      | none => rfl
      | some ud =>
        obtain ⟨u, d⟩ := ud
        exact absurd (I.taskOK i t u d hi hm (.wait n) (by rw [ht]; simp)) (by simp [TaskInstrOK])
    have hlk := I.topLock i t n rest hi ht
    have hM := I.mainOK i t hi hmain
    rw [ht] at hM
    have g : ∀ (j : Nat), (s.threads.set i { t with stack := (N.outs n).map .flush ++ rest })[j]? =
        if j = i then some { t with stack := (N.outs n).map .flush ++ rest }
        else s.threads[j]? := get_set hi
    have hdone' : ∀ j ∈ s.queue n, ∀ x, (s.threads.set i { t with
        stack := (N.outs n).map .flush ++ rest })[j]? = some x → x.stack = [] := by
      intro j hj x hx
      obtain ⟨y, d, e1, e2⟩ := I.queueTask n j hj
      have hji : j ≠ i := by
        rintro rfl
        rw [hi] at e1; cases e1
        rw [hmain] at e2; cases e2
      rw [g, if_neg hji, e1] at hx
      cases hx
      exact (isDone_iff s j _ e1).mp (hd j hj)
    refine I.update hi (by rw [ht]; simp) rfl ?_ ?_ ?_ ?_ ?_ ?_ ?_
    · intro k j hj
      simp only at hj
      split at hj
      · simp at hj
      · exact hj
    · intro k j hj hnj
      simp only at hnj
      split at hnj
      · rename_i e; subst e
        obtain ⟨y, d, e1, e2⟩ := I.queueTask k j hj
        have hji : j ≠ i := by
          rintro rfl
          rw [hi] at e1; cases e1
          rw [hmain] at e2; cases e2
        have : (s.threads.set i { t with stack := (N.outs k).map .flush ++ rest })[j]? = some y := by
          rw [g, if_neg hji]; exact e1
        rw [isDone_iff _ j y this]
        exact hdone' j hj y this
      · exact absurd hj hnj
    · intro k a hk
      simp only at hk
      split at hk
      · cases hk
      · rename_i hkn
        obtain ⟨x, r, e1, e2, e3⟩ := I.lockTop k a hk
        have hne : a ≠ i := by
          rintro rfl
          rw [hi] at e1; cases e1
          rw [ht] at e3; cases e3
          exact hkn rfl
        refine ⟨x, r, ?_, e2, e3⟩
        show (s.threads.set i _)[a]? = _
        rw [g, if_neg hne]; exact e1
    · intro k x n' r hx hs
      replace hx : (s.threads.set i { t with stack := (N.outs n).map .flush ++ rest })[k]? = some x := hx
      rw [g] at hx
      simp only
      split at hx
      · cases hx
        simp only at hs
        have hk : Instr.wait n' ∈ (N.outs n).map Instr.flush ++ rest := by rw [hs]; simp
        rcases List.mem_append.mp hk with hk | hk
        · obtain ⟨c, -, e⟩ := List.mem_map.mp hk; cases e
        · exact absurd hk (hM.2.1 n')
      · rename_i hki
        have := I.topLock k x n' r hx hs
        split
        · rename_i e; subst e
          rw [hlk] at this
          simp only [Option.some.injEq] at this
          exact absurd this.symm hki
        · exact this
    · intro _
      refine MainOK.append_cons _ rest hM.1 hM.2.1 ?_
      intro ins hins
      obtain ⟨c, -, rfl⟩ := List.mem_map.mp hins
      exact ⟨by simp, by simp, by intro n h; simp [NeedsCover] at h⟩
    · intro u d hm; rw [hmain] at hm; cases hm
    · intro _ j u x d hx hxt hxs hc
      replace hx : (s.threads.set i { t with stack := (N.outs n).map .flush ++ rest })[j]? = some x := hx
      rw [ht] at hc
      obtain ⟨k, e1, e2⟩ := hc
      have hsg : seg ((N.outs n).map Instr.flush ++ rest) = (N.outs n).map Instr.flush ++ seg rest :=
        seg_append _ _ (by
          intro ins hins
          obtain ⟨c, -, rfl⟩ := List.mem_map.mp hins
          simp)
      unfold Covers
      rw [hsg]
      by_cases hk : Instr.flush k ∈ seg rest ∨ Instr.wait k ∈ seg rest
      · exact ⟨k, hk.imp (by intro h; simp [h]) (by intro h; simp [h]), e2⟩
      · -- covered by `wait n` itself
        have hkn : k = n := by
          rcases e1 with e1 | e1
          · simp at e1; exact absurd (Or.inl e1) hk
          · simp at e1
            rcases e1 with e1 | e1
            · exact e1
            · exact absurd (Or.inr e1) hk
        subst hkn
        rcases Relation.ReflTransGen.cases_head e2 with e2 | ⟨c, hc1, hc2⟩
        · subst e2
          -- a task of node k that is not done
          exfalso
          have hji : j ≠ i := by
            rintro rfl
            rw [g, if_pos rfl] at hx
            cases hx
            simp only at hxt
            rw [hmain] at hxt; cases hxt
          have hx' := hx
          rw [g, if_neg hji] at hx'
          have hjq := I.inQueue j x k d hx' hxt hxs
          exact hxs (hdone' j hjq x hx)
        · refine ⟨c, Or.inl ?_, hc2⟩
          simp only [List.mem_append, List.mem_map]
          exact Or.inl ⟨c, hc1, rfl⟩
  | ret i t rest hi hr ht =>
    have hmain : t.task = none := by
      cases hm : t.task with
      | none => rfl
      | some ud =>
        obtain ⟨u, d⟩ := ud
        exact absurd (I.taskOK i t u d hi hm .ret (by rw [ht]; simp)) (by simp [TaskInstrOK])
    have hM := I.mainOK i t hi hmain
    rw [ht] at hM
    obtain ⟨l1, l2⟩ := I.lock_keep (s' := s.setStack i t rest) hi rfl rfl (by rw [ht]; simp)
      (by intro k r hr'; exact hM.2.1 k (by rw [hr']; simp))
    refine I.update hi (by rw [ht]; simp) rfl (fun _ _ h => h) (fun _ _ h h' => absurd h h') l1 l2
      ?_ ?_ ?_
    · intro _; exact hM.1
    · intro u d hm; rw [hmain] at hm; cases hm
    · intro hm j u x d _ _ _ hc
      rw [ht] at hc
      obtain ⟨k, e1, -⟩ := hc
      simp at e1

theorem Call.flushPart_nowait (roots : List Nat) (k j : Nat) :
    (Instr.wait j : Instr V) ∉ (List.replicate k (roots.map Instr.flush)).flatten := by
  intro hj
  simp only [List.mem_flatten] at hj
  obtain ⟨l, hl, hj⟩ := hj
  rw [List.eq_of_mem_replicate hl] at hj
  obtain ⟨c, -, e⟩ := List.mem_map.mp hj
  cases e

theorem Call.nowait (c : Call V) (j : Nat) : Instr.wait j ∉ c.program := by
  intro h
  simp only [Call.program, List.mem_append, List.mem_flatMap, List.mem_map] at h
  rcases h with (⟨m, -, r, -, e⟩ | h) | h
  · cases e
  · exact Call.flushPart_nowait _ _ _ h
  · simp at h

theorem Call.program_ok (N : Net V) (c : Call V) (hk : 1 ≤ c.flushes) (rest : List (Instr V))
    (h : MainOK N rest) (hw : ∀ k, Instr.wait k ∉ rest) : MainOK N (c.program ++ rest) := by
  have h1 : MainOK N (Instr.ret :: rest) := ⟨h, hw, by intro n h; simp [NeedsCover] at h⟩
  have hw1 : ∀ k, Instr.wait k ∉ Instr.ret :: rest := by intro k; simp [hw k]
  have hfl : ∀ k, MainOK N ((List.replicate k (c.roots.map (Instr.flush (V := V)))).flatten ++
      Instr.ret :: rest) := by
    intro k
    induction k with
    | zero => exact h1
    | succ k ih =>
      rw [List.replicate_succ, List.flatten_cons, List.append_assoc]
      refine MainOK.append_cons _ _ ih ?_ ?_
      · intro j hj
        rcases List.mem_append.mp hj with hj | hj
        · exact Call.flushPart_nowait _ _ _ hj
        · exact hw1 j hj
      · intro ins hins
        obtain ⟨r, -, rfl⟩ := List.mem_map.mp hins
        exact ⟨by simp, by simp, by intro n h; simp [NeedsCover] at h⟩
  rw [Call.program, List.append_assoc, List.append_assoc]
  refine MainOK.append_cons _ _ (hfl _) ?_ ?_
  · intro j hj
    rcases List.mem_append.mp hj with hj | hj
    · exact Call.flushPart_nowait _ _ _ hj
    · exact hw1 j hj
  intro ins hins
  obtain ⟨m, hm, h2⟩ := List.mem_flatMap.mp hins
  obtain ⟨r, hr, rfl⟩ := List.mem_map.mp h2
  refine ⟨by simp, by simp, ?_⟩
  intro n hn
  simp only [NeedsCover, Option.some.injEq] at hn
  subst hn
  refine ⟨r, Or.inl ?_, Relation.ReflTransGen.refl⟩
  obtain ⟨k', hk'⟩ : ∃ k', c.flushes = k' + 1 := ⟨c.flushes - 1, by omega⟩
  rw [hk', List.replicate_succ, List.flatten_cons, List.append_assoc, seg_append]
  · simp [hr]
  · intro ins hi
    obtain ⟨c, -, rfl⟩ := List.mem_map.mp hi
    simp

theorem calls_ok (N : Net V) (calls : List (Call V)) (hk : ∀ c ∈ calls, 1 ≤ c.flushes) :
    MainOK N (calls.flatMap Call.program) ∧ ∀ j, Instr.wait j ∉ calls.flatMap Call.program := by
  induction calls with
  | nil => exact ⟨trivial, by simp⟩
  | cons c calls ih =>
    obtain ⟨h1, h2⟩ := ih (fun c hc => hk c (by simp [hc]))
    rw [List.flatMap_cons]
    refine ⟨Call.program_ok N c (hk c (by simp)) _ h1 h2, ?_⟩
    intro j hj
    rcases List.mem_append.mp hj with hj | hj
    · exact Call.nowait c j hj
    · exact h2 j hj

theorem Inv.initial (N : Net V) (progs : List (List (Call V)))
    (hk : ∀ calls ∈ progs, ∀ c ∈ calls, 1 ≤ c.flushes) : Inv N (initial progs) := by
  have g : ∀ (i : Nat) (t : Thread V), (Async.initial progs).threads[i]? = some t →
      t.task = none ∧ t.owner = i ∧ ∃ calls ∈ progs, t.stack = calls.flatMap Call.program := by
    intro i t h
    simp only [Async.initial, List.getElem?_mapIdx, Option.map_eq_some_iff] at h
    obtain ⟨src, h1, rfl⟩ := h
    exact ⟨rfl, rfl, src, List.mem_of_getElem? h1, rfl⟩
  constructor
  · intro i t h _; exact (g i t h).2.1
  · intro i t h; exact ⟨t, by rw [(g i t h).2.1]; exact h, (g i t h).1⟩
  · intro j t n d h hm; rw [(g j t h).1] at hm; cases hm
  · intro n j hj; simp [Async.initial] at hj
  · intro n a h; simp [Async.initial] at h
  · intro i t n rest h hs
    obtain ⟨-, -, src, h1, h2⟩ := g i t h
    exact absurd (by rw [← h2, hs]; simp) ((calls_ok N src (hk src h1)).2 n)
  · intro i t h _
    obtain ⟨-, -, src, h1, h2⟩ := g i t h
    rw [h2]; exact (calls_ok N src (hk src h1)).1
  · intro i t n d h hm; rw [(g i t h).1] at hm; cases hm
  · intro i t n d h hm; rw [(g i t h).1] at hm; cases hm

theorem Reachable.inv {N : Net V} {progs : List (List (Call V))} {s : State V}
    (hk : ∀ calls ∈ progs, ∀ c ∈ calls, 1 ≤ c.flushes) (h : Reachable N progs s) : Inv N s := by
  induction h with
  | refl => exact Inv.initial N progs hk
  | tail _ hs ih => exact ih.step hs

end SampleFlow.Async
