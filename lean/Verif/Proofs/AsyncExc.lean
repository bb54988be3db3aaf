import Verif.Spec.AsyncExc
import Verif.Proofs.AsyncProgress

set_option linter.unusedSimpArgs false
set_option linter.unusedSectionVars false

namespace SampleFlow.Async

open Spec

variable {V E : Type}

/-! ### unwinding -/

theorem unwind_suffix (st : List (Instr V)) : unwind st <:+ st := List.dropWhile_suffix _

theorem beforeRet_eq_seg (st : List (Instr V)) : beforeRet st = seg st := by
  induction st with
  | nil => rfl
  | cons a st ih => cases a <;> simp [beforeRet, ih]

theorem MainOK.suffix {N : Net V} {st st' : List (Instr V)} (h : MainOK N st) (hs : st' <:+ st) : MainOK N st' := by
  obtain ⟨pre, rfl⟩ := hs
  induction pre with
  | nil => exact h
  | cons a pre ih => exact ih h.1

theorem final_mem_seg_unwind (st : List (Instr V)) (k : Nat) (h : Instr.flush k ∈ seg st) : Instr.flush k ∈ seg (unwind st) := by
  induction st with
  | nil => simp at h
  | cons a st ih =>
    unfold unwind
    rw [List.dropWhile_cons]
    cases a <;> simp [Instr.isFinal] at h ⊢
    case deliver => exact ih h
    case consume => exact ih h
    case trim => exact ih h
    case wait => exact ih h
    case flush => exact h

theorem ret_not_mem_seg (st : List (Instr V)) : Instr.ret ∉ seg st := by
  induction st with
  | nil => simp
  | cons a st ih => cases a <;> simp [ih]

theorem seg_skip {skipped rest' : List (Instr V)} (hs : ∀ ins ∈ skipped, ins ∈ beforeRet rest') (ins : Instr V)
    (h : ins ∈ seg (skipped ++ rest')) : ins ∈ seg rest' := by
  rw [beforeRet_eq_seg] at hs
  have hne : ∀ ins ∈ skipped, ins ≠ Instr.ret := by
    intro x hx e
    have := hs x hx
    rw [e] at this
    exact ret_not_mem_seg _ this
  rw [seg_append _ _ hne] at h
  rcases List.mem_append.mp h with h | h
  · exact hs _ h
  · exact h

/-! ### the invariant -/

theorem Inv.excThrow {N : ExcNet V E} {s : State V} (I : Inv N.quiet s) (i : Nat) (t : Thread V) (n : Nat) (m : V)
    (rest skipped rest' : List (Instr V)) (hi : s.threads[i]? = some t) (ht : t.stack = .consume n m :: rest)
    (hu : unwind rest = skipped ++ rest') (hs : ∀ ins ∈ skipped, ins ∈ beforeRet rest') :
    Inv N.quiet { s.setStack i t rest' with log := fun k => if k = n then s.log n ++ [m] else s.log k } := by
  have hsuf : rest' <:+ rest := (show rest' <:+ unwind rest from ⟨skipped, hu.symm⟩).trans (unwind_suffix rest)
  have hw : ∀ k r, rest' ≠ .wait k :: r := by
    intro k r hr'
    have hk : Instr.wait k ∈ rest := hsuf.subset (by rw [hr']; simp)
    cases hm : t.task with
    | none =>
      have := I.mainOK i t hi hm
      rw [ht] at this
      exact this.2.1 k hk
    | some ud =>
      obtain ⟨u, d⟩ := ud
      exact I.taskOK i t u d hi hm (.wait k) (by rw [ht]; simp [hk])
  obtain ⟨l1, l2⟩ := I.lock_keep (s' := { s.setStack i t rest' with
      log := fun k => if k = n then s.log n ++ [m] else s.log k }) hi rfl rfl (by rw [ht]; simp) hw
  refine I.update hi (by rw [ht]; simp) rfl (fun _ _ h => h) (fun _ _ h h' => absurd h h') l1 l2 ?_ ?_ ?_
  · intro hm
    have := I.mainOK i t hi hm
    rw [ht] at this
    exact this.1.suffix hsuf
  · intro u d hm ins hins
    exact I.taskOK i t u d hi hm ins (by rw [ht]; simp [hsuf.subset hins])
  · intro hm j u x d _ _ _ hc
    have hM := I.mainOK i t hi hm
    rw [ht] at hc hM
    refine hc.mono ?_
    rintro ins ⟨k, rfl | rfl⟩ hin
    · simp at hin
      exact seg_skip hs _ (by rw [← hu]; exact final_mem_seg_unwind rest k hin)
    · simp at hin
      exact absurd ((List.takeWhile_prefix _).subset hin) (hM.2.1 k)

theorem ExcStep.inv {N : ExcNet V E} {s s' : ExcState V E} (I : Inv N.quiet s.base) (h : ExcStep N s s') : Inv N.quiet s'.base := by
  cases h with
  | quiet b h hn => exact I.step h
  | throw i t n m rest skipped rest' e hi hr ht he hu hs => exact I.excThrow i t n m rest skipped rest' hi ht hu hs

theorem ExcReachable.inv {N : ExcNet V E} {progs : List (List (Call V))} {s : ExcState V E} (hk : Flushes progs)
    (h : ExcReachable N progs s) : Inv N.quiet s.base := by
  induction h with
  | refl => exact Inv.initial _ progs hk
  | tail _ hs ih => exact hs.inv ih

/-! ### progress and termination -/

/-- `n.consume(m)` without an exception. -/
theorem ExcStep.consumeOk {N : ExcNet V E} {s : ExcState V E} (i : Nat) (t : Thread V) (n : Nat) (m : V) (rest : List (Instr V)) (o : Option V)
    (hi : s.base.threads[i]? = some t) (hr : s.base.runnable i t) (ht : t.stack = .consume n m :: rest) (hb : N.behave n (s.base.log n) m = .ok o) :
    ExcStep N s ⟨{ s.base.setStack i t (N.quiet.emit n (s.base.log n) m ++ rest) with
      log := fun k => if k = n then s.base.log n ++ [m] else s.base.log k }, s.reported⟩ := by
  refine ExcStep.quiet _ (Step.consume i t n m rest hi hr ht) ?_
  intro k m' hm
  by_cases hk : k = n
  · subst hk
    simp only [if_true] at hm
    have := List.append_cancel_left hm
    simp only [List.cons.injEq, and_true] at this
    subst this
    exact ⟨o, hb⟩
  · simp only [hk, if_false] at hm
    have := congrArg List.length hm
    simp at this

/-- An action that consumes nothing. -/
theorem ExcStep.other {N : ExcNet V E} {s : ExcState V E} {b : State V} (h : Step N.quiet s.base b) (hl : b.log = s.base.log) :
    ExcStep N s ⟨b, s.reported⟩ := by
  refine ExcStep.quiet b h ?_
  intro n m hm
  rw [hl] at hm
  have := congrArg List.length hm
  simp at this

theorem Step.exc {N : ExcNet V E} {b b' : State V} {rep : List (Nat × E)} (h : Step N.quiet b b') :
    ∃ s', ExcStep N ⟨b, rep⟩ s' := by
  have keep : b'.log = b.log → ∃ s', ExcStep N ⟨b, rep⟩ s' := by
    exact fun hl => ⟨_, ExcStep.other (s := ⟨b, rep⟩) h hl⟩
  cases h with
  | deliverSync => exact keep rfl
  | deliverAsync => exact keep rfl
  | trim => exact keep rfl
  | flush => exact keep rfl
  | waitDone => exact keep rfl
  | ret => exact keep rfl
  | consume i t n m rest hi hr ht =>
    cases hb : N.behave n (b.log n) m with
    | error e => exact ⟨_, ExcStep.throw i t n m rest [] (unwind rest) e hi hr ht hb rfl (by simp)⟩
    | ok o => exact ⟨_, ExcStep.consumeOk (s := ⟨b, rep⟩) i t n m rest o hi hr ht hb⟩

theorem stackSum_suffix (f : Instr V → Nat) {st st' : List (Instr V)} (h : st' <:+ st) : stackSum f st' ≤ stackSum f st := by
  obtain ⟨pre, rfl⟩ := h
  simp

theorem ExcStep.decreases {N : ExcNet V E} {rank : Nat → Nat} (hr : ∀ n, ∀ c ∈ N.quiet.outs n, rank c < rank n)
    {s s' : ExcState V E} (h : ExcStep N s s') :
    total (weight N.quiet rank) s'.base.threads < total (weight N.quiet rank) s.base.threads := by
  cases h with
  | quiet b h hn => exact h.decreases hr
  | throw i t n m rest skipped rest' e hi hr' ht he hu hs =>
    have h1 := total_set (weight N.quiet rank) (t' := { t with stack := rest' }) hi
    have h2 := weight_emit hr n (s.base.log n) m
    have h3 := stackSum_suffix (weight N.quiet rank)
      ((show rest' <:+ unwind rest from ⟨skipped, hu.symm⟩).trans (unwind_suffix rest))
    rw [ht] at h1
    simp only [stackSum_cons] at h1
    simp only [State.setStack]; omega

theorem ExcSteps.bound {N : ExcNet V E} {rank : Nat → Nat} (hr : ∀ n, ∀ c ∈ N.quiet.outs n, rank c < rank n)
    {k : Nat} {s s' : ExcState V E} (h : ExcSteps N k s s') :
    total (weight N.quiet rank) s'.base.threads + k ≤ total (weight N.quiet rank) s.base.threads := by
  induction h with
  | zero s => simp
  | succ _ hs ih => have := hs.decreases hr; omega

theorem exc_completes {N : ExcNet V E} {rank : Nat → Nat} (hr : ∀ n, ∀ c ∈ N.quiet.outs n, rank c < rank n) :
    ∀ (w : Nat) (s : ExcState V E), Inv N.quiet s.base → total (weight N.quiet rank) s.base.threads = w →
      ∃ s', Relation.ReflTransGen (ExcStep N) s s' ∧ AllDone s'.base := by
  intro w
  induction w using Nat.strong_induction_on with
  | _ w ih =>
    intro s I hw
    by_cases hd : AllDone s.base
    · exact ⟨s, .refl, hd⟩
    · obtain ⟨b, hb⟩ := I.progress hr hd
      obtain ⟨s1, h1⟩ := hb.exc (rep := s.reported)
      have hlt := h1.decreases hr
      obtain ⟨s2, h2, h3⟩ := ih _ (by rw [← hw]; exact hlt) s1 (ExcStep.inv I h1) rfl
      exact ⟨s2, Relation.ReflTransGen.head h1 h2, h3⟩

/-! ### counting -/

theorem ExcStep.count {N : ExcNet V E} {K : Nat} (hK : Finite N.quiet K) {s s' : ExcState V E} (h : ExcStep N s s')
    (P : V → Bool) (n : Nat) :
    (s'.base.log n).countP P + total (pend P n) s'.base.threads + nodeSum N.quiet K P s.base.log n ≤
      (s.base.log n).countP P + total (pend P n) s.base.threads + nodeSum N.quiet K P s'.base.log n := by
  cases h with
  | quiet b h hn => exact Nat.le_of_eq (h.count hK P n)
  | throw i t k m rest skipped rest' e hi hr ht he hu hs =>
    have h1 := (Step.consume (N := N.quiet) i t k m rest hi hr ht).count hK P n
    have hb : N.quiet.behave k (s.base.log k) m = none := by simp [ExcNet.quiet, he]
    have hem : N.quiet.emit k (s.base.log k) m = [] := by unfold Net.emit; rw [hb]
    rw [hem] at h1
    have h2 := total_set (pend P n) (t' := { t with stack := rest' }) hi
    have h3 := total_set (pend P n) (t' := { t with stack := rest }) hi
    have h4 := stackSum_suffix (pend P n)
      ((show rest' <:+ unwind rest from ⟨skipped, hu.symm⟩).trans (unwind_suffix rest))
    have h5 : total (pend P n) (s.base.threads.set i { t with stack := rest' }) ≤
        total (pend P n) (s.base.threads.set i { t with stack := rest }) := by
      have h2' : total (pend P n) (s.base.threads.set i { t with stack := rest' }) + stackSum (pend P n) t.stack =
        total (pend P n) s.base.threads + stackSum (pend P n) rest' := h2
      have h3' : total (pend P n) (s.base.threads.set i { t with stack := rest }) + stackSum (pend P n) t.stack =
        total (pend P n) s.base.threads + stackSum (pend P n) rest := h3
      omega
    simp only [List.nil_append] at h1
    simp only [State.setStack] at h1 ⊢
    omega

theorem ExcReachable.count {N : ExcNet V E} {K : Nat} (hK : Finite N.quiet K) {progs : List (List (Call V))}
    {s : ExcState V E} (h : ExcReachable N progs s) (P : V → Bool) (n : Nat) :
    (s.base.log n).countP P + total (pend P n) s.base.threads ≤
      (fromProducers progs n).countP P + nodeSum N.quiet K P s.base.log n := by
  induction h with
  | refl => exact Nat.le_of_eq (Reachable.count (N := N.quiet) hK (progs := progs) .refl P n)
  | tail _ hs ih =>
    have := hs.count hK P n
    omega

/-! ### exceptions of asynchronous consumers -/

/-- asynchronous nodes consume only in their own tasks -/
def Isolated (N : ExcNet V E) (s : State V) : Prop :=
  ∀ (i : Nat) (t : Thread V), s.threads[i]? = some t → ∀ n m, Instr.consume n m ∈ t.stack → N.isAsync n = true →
    t.task ≠ none ∧ t.stack = [.consume n m]

theorem Isolated.update {N : ExcNet V E} {s s' : State V} (I : Isolated N s) {i : Nat} {t : Thread V}
    {st : List (Instr V)} (hi : s.threads[i]? = some t) (hthr : s'.threads = s.threads.set i { t with stack := st })
    (hst : ∀ n m, Instr.consume n m ∈ st → N.isAsync n = false) : Isolated N s' := by
  intro j x hx n m hm ha
  rw [hthr, get_set hi] at hx
  split at hx
  · cases hx
    rw [hst n m hm] at ha; cases ha
  · exact I j x hx n m hm ha

theorem Isolated.rest {N : ExcNet V E} {s : State V} (I : Isolated N s) {i : Nat} {t : Thread V}
    (hi : s.threads[i]? = some t) {ins : Instr V} {rest : List (Instr V)} (ht : t.stack = ins :: rest) :
    ∀ n m, Instr.consume n m ∈ rest → N.isAsync n = false := by
  intro n m hm
  by_contra hc
  have ha : N.isAsync n = true := by simpa using hc
  have := (I i t hi n m (by rw [ht]; simp [hm]) ha).2
  rw [ht] at this
  simp only [List.cons.injEq] at this
  rw [this.2] at hm
  simp at hm

theorem Isolated.step {N : ExcNet V E} {s s' : State V} (I : Isolated N s) (h : Step N.quiet s s') : Isolated N s' := by
  cases h with
  | deliverSync i t n m rest hi hr ht ha =>
    refine I.update hi rfl ?_
    intro k x hk
    rcases List.mem_cons.mp hk with hk | hk
    · cases hk; exact ha
    · exact I.rest hi ht k x hk
  | deliverAsync i t n m rest deferred hi hr ht ha hl =>
    intro j x hx k y hy hk
    replace hx : (s.threads.set i { t with stack := .trim n :: rest } ++ [⟨some (n, deferred), t.owner, [.consume n m]⟩])[j]? = some x := hx
    have I1 : Isolated N (s.setStack i t (.trim n :: rest)) := by
      refine I.update hi rfl ?_
      intro k x hk
      rcases List.mem_cons.mp hk with hk | hk
      · cases hk
      · exact I.rest hi ht k x hk
    by_cases hj : j < (s.threads.set i { t with stack := .trim n :: rest }).length
    · rw [List.getElem?_append_left hj] at hx
      exact I1 j x hx k y hy hk
    · rw [List.getElem?_append_right (by omega)] at hx
      have := List.mem_of_getElem? hx
      simp only [List.mem_singleton] at this
      subst this
      simp only [List.mem_singleton, Instr.consume.injEq] at hy
      obtain ⟨rfl, rfl⟩ := hy
      exact ⟨by simp, rfl⟩
  | trim i t n rest ready hi hr ht hl hready => exact I.update hi rfl (I.rest hi ht)
  | consume i t n m rest hi hr ht =>
    refine I.update hi rfl ?_
    intro k x hk
    rcases List.mem_append.mp hk with hk | hk
    · unfold Net.emit at hk
      split at hk
      · obtain ⟨c, -, e⟩ := List.mem_map.mp hk; cases e
      · simp at hk
    · exact I.rest hi ht k x hk
  | flush i t n rest hi hr ht hl =>
    refine I.update hi rfl ?_
    intro k x hk
    rcases List.mem_cons.mp hk with hk | hk
    · cases hk
    · exact I.rest hi ht k x hk
  | waitDone i t n rest hi hr ht hd =>
    refine I.update hi rfl ?_
    intro k x hk
    rcases List.mem_append.mp hk with hk | hk
    · obtain ⟨c, -, e⟩ := List.mem_map.mp hk; cases e
    · exact I.rest hi ht k x hk
  | ret i t rest hi hr ht => exact I.update hi rfl (I.rest hi ht)

theorem ExcStep.isolated {N : ExcNet V E} {s s' : ExcState V E} (I : Isolated N s.base) (h : ExcStep N s s') : Isolated N s'.base := by
  cases h with
  | quiet b h hn => exact I.step h
  | throw i t n m rest skipped rest' e hi hr ht he hu hs =>
    have hsuf : rest' <:+ rest := (show rest' <:+ unwind rest from ⟨skipped, hu.symm⟩).trans (unwind_suffix rest)
    exact I.update hi rfl (fun k x hk => I.rest hi ht k x (hsuf.subset hk))

theorem Call.program_noconsume (c : Call V) (n : Nat) (m : V) : Instr.consume n m ∉ c.program := by
  intro h
  simp only [Call.program, List.mem_append, List.mem_flatMap, List.mem_map, List.mem_flatten] at h
  rcases h with (⟨m, -, r, -, e⟩ | ⟨l, hl, h⟩) | h
  · cases e
  · rw [List.eq_of_mem_replicate hl] at h
    obtain ⟨c, -, e⟩ := List.mem_map.mp h
    cases e
  · simp at h

theorem initial_threads {progs : List (List (Call V))} {i : Nat} {t : Thread V} (h : (initial progs).threads[i]? = some t) :
    t.task = none ∧ t.owner = i ∧ ∃ calls ∈ progs, t.stack = calls.flatMap Call.program := by
  simp only [Async.initial, List.getElem?_mapIdx, Option.map_eq_some_iff] at h
  obtain ⟨src, h1, rfl⟩ := h
  exact ⟨rfl, rfl, src, List.mem_of_getElem? h1, rfl⟩

theorem Isolated.initial (N : ExcNet V E) (progs : List (List (Call V))) : Isolated N (initial progs) := by
  intro i t ht n m hm
  obtain ⟨-, -, calls, -, h⟩ := initial_threads ht
  rw [h] at hm
  obtain ⟨c, -, hm⟩ := List.mem_flatMap.mp hm
  exact absurd hm (Call.program_noconsume c n m)

theorem ExcReachable.isolated {N : ExcNet V E} {progs : List (List (Call V))} {s : ExcState V E}
    (h : ExcReachable N progs s) : Isolated N s.base := by
  induction h with
  | refl => exact Isolated.initial N progs
  | tail _ hs ih => exact hs.isolated ih

/-- An exception in a task whose only action this is, is the same as consuming and issuing nothing. -/
theorem ExcStep.as_quiet {N : ExcNet V E} {s s' : ExcState V E} (I : Isolated N s.base) (ho : OnlyAsyncThrows N)
    (h : ExcStep N s s') : Step N.quiet s.base s'.base := by
  cases h with
  | quiet b h hn => exact h
  | throw i t n m rest skipped rest' e hi hr ht he hu hs =>
    have hal := I i t hi n m (by rw [ht]; simp) (ho n _ m e he)
    have hrest : rest = [] := by
      have := hal.2
      rw [ht] at this
      simpa using this
    subst hrest
    have hr' : rest' = [] := by
      have h0 : skipped ++ rest' = [] := by rw [← hu]; rfl
      exact (List.append_eq_nil_iff.mp h0).2
    subst hr'
    have hem : N.quiet.emit n (s.base.log n) m = [] := by unfold Net.emit; simp [ExcNet.quiet, he]
    have := Step.consume (N := N.quiet) i t n m [] hi hr ht
    rw [hem] at this
    exact this

theorem ExcReachable.as_quiet {N : ExcNet V E} {progs : List (List (Call V))} {s : ExcState V E} (ho : OnlyAsyncThrows N)
    (h : ExcReachable N progs s) : Reachable N.quiet progs s.base := by
  induction h with
  | refl => exact .refl
  | tail h0 hs ih => exact ih.tail (hs.as_quiet (ExcReachable.isolated h0) ho)

/-- Conversely, every execution of the quiet network is one of the network with exceptions. -/
theorem Step.as_exc {N : ExcNet V E} {s : ExcState V E} {b : State V} (I : Isolated N s.base) (ho : OnlyAsyncThrows N)
    (h : Step N.quiet s.base b) : ExcStep N s ⟨b, s.reported⟩ := by
  have keep : b.log = s.base.log → ExcStep N s ⟨b, s.reported⟩ := by
    exact fun hl => ExcStep.other h hl
  cases h with
  | deliverSync => exact keep rfl
  | deliverAsync => exact keep rfl
  | trim => exact keep rfl
  | flush => exact keep rfl
  | waitDone => exact keep rfl
  | ret => exact keep rfl
  | consume i t n m rest hi hr ht =>
    cases hb : N.behave n (s.base.log n) m with
    | error e =>
      have hal := I i t hi n m (by rw [ht]; simp) (ho n _ m e hb)
      have hrest : rest = [] := by
        have := hal.2
        rw [ht] at this
        simpa using this
      subst hrest
      have hem : N.quiet.emit n (s.base.log n) m = [] := by unfold Net.emit; simp [ExcNet.quiet, hb]
      have := ExcStep.throw (N := N) i t n m [] [] [] e hi hr ht hb rfl (by simp)
      rw [if_neg hal.1] at this
      rw [hem]
      exact this
    | ok o => exact ExcStep.consumeOk i t n m rest o hi hr ht hb

/-! ### what `sample()` reports -/

/-- user threads never consume anything themselves, and have nothing to deliver to synchronous nodes -/
def UsersOnlyQueue (N : ExcNet V E) (s : State V) : Prop :=
  ∀ (i : Nat) (t : Thread V), s.threads[i]? = some t → t.task = none → ∀ ins ∈ t.stack,
    ∀ n, NeedsCover ins = some n → N.isAsync n = true ∧ ∀ m, ins ≠ .consume n m

theorem UsersOnlyQueue.update {N : ExcNet V E} {s s' : State V} (I : UsersOnlyQueue N s) {i : Nat} {t : Thread V}
    {st : List (Instr V)} (hi : s.threads[i]? = some t) (hthr : s'.threads = s.threads.set i { t with stack := st })
    (hst : t.task = none → ∀ ins ∈ st, ∀ n, NeedsCover ins = some n → N.isAsync n = true ∧ ∀ m, ins ≠ .consume n m) :
    UsersOnlyQueue N s' := by
  intro j x hx hm
  rw [hthr, get_set hi] at hx
  split at hx
  · cases hx; exact hst hm
  · exact I j x hx hm

theorem UsersOnlyQueue.step {N : ExcNet V E} {s s' : State V} (I : UsersOnlyQueue N s) (h : Step N.quiet s s') :
    UsersOnlyQueue N s' := by
  cases h with
  | deliverSync i t n m rest hi hr ht ha =>
    refine I.update hi rfl ?_
    intro hm
    have := (I i t hi hm (.deliver n m) (by rw [ht]; simp) n rfl).1
    rw [show N.isAsync n = false from ha] at this; cases this
  | deliverAsync i t n m rest deferred hi hr ht ha hl =>
    have I1 : UsersOnlyQueue N (s.setStack i t (.trim n :: rest)) := by
      refine I.update hi rfl ?_
      intro hm ins hins k hk
      rcases List.mem_cons.mp hins with rfl | hins
      · simp [NeedsCover] at hk
      · exact I i t hi hm ins (by rw [ht]; simp [hins]) k hk
    intro j x hx hm
    replace hx : (s.threads.set i { t with stack := .trim n :: rest } ++ [⟨some (n, deferred), t.owner, [.consume n m]⟩])[j]? = some x := hx
    by_cases hj : j < (s.threads.set i { t with stack := .trim n :: rest }).length
    · rw [List.getElem?_append_left hj] at hx
      exact I1 j x hx hm
    · rw [List.getElem?_append_right (by omega)] at hx
      have := List.mem_of_getElem? hx
      simp only [List.mem_singleton] at this
      subst this
      cases hm
  | trim i t n rest ready hi hr ht hl hready =>
    exact I.update hi rfl (fun hm ins hins => I i t hi hm ins (by rw [ht]; simp [hins]))
  | consume i t n m rest hi hr ht =>
    refine I.update hi rfl ?_
    intro hm
    exact absurd rfl ((I i t hi hm (.consume n m) (by rw [ht]; simp) n rfl).2 m)
  | flush i t n rest hi hr ht hl =>
    refine I.update hi rfl ?_
    intro hm ins hins k hk
    rcases List.mem_cons.mp hins with rfl | hins
    · simp [NeedsCover] at hk
    · exact I i t hi hm ins (by rw [ht]; simp [hins]) k hk
  | waitDone i t n rest hi hr ht hd =>
    refine I.update hi rfl ?_
    intro hm ins hins k hk
    rcases List.mem_append.mp hins with hins | hins
    · obtain ⟨c, -, rfl⟩ := List.mem_map.mp hins
      simp [NeedsCover] at hk
    · exact I i t hi hm ins (by rw [ht]; simp [hins]) k hk
  | ret i t rest hi hr ht =>
    exact I.update hi rfl (fun hm ins hins => I i t hi hm ins (by rw [ht]; simp [hins]))

theorem UsersOnlyQueue.initial {N : ExcNet V E} {progs : List (List (Call V))} (hra : RootsAsync N progs) :
    UsersOnlyQueue N (initial progs) := by
  intro i t ht _ ins hins n hn
  obtain ⟨-, -, calls, hc, h⟩ := initial_threads ht
  rw [h] at hins
  obtain ⟨c, hcc, hins⟩ := List.mem_flatMap.mp hins
  have hnc := Call.program_noconsume c
  refine ⟨?_, fun m e => hnc n m (e ▸ hins)⟩
  simp only [Call.program, List.mem_append, List.mem_flatMap, List.mem_map, List.mem_flatten] at hins
  rcases hins with (⟨m, -, r, hr, rfl⟩ | ⟨l, hl, h⟩) | h
  · simp only [NeedsCover, Option.some.injEq] at hn
    subst hn
    exact hra calls hc c hcc r hr
  · rw [List.eq_of_mem_replicate hl] at h
    obtain ⟨c, -, rfl⟩ := List.mem_map.mp h
    simp [NeedsCover] at hn
  · simp only [List.mem_singleton] at h
    subst h
    simp [NeedsCover] at hn

theorem ExcReachable.unreported {N : ExcNet V E} {progs : List (List (Call V))} {s : ExcState V E} (hra : RootsAsync N progs)
    (h : ExcReachable N progs s) : UsersOnlyQueue N s.base ∧ s.reported = [] := by
  induction h with
  | refl => exact ⟨UsersOnlyQueue.initial hra, rfl⟩
  | tail _ hs ih =>
    obtain ⟨I, hrep⟩ := ih
    cases hs with
    | quiet b h hn => exact ⟨I.step h, hrep⟩
    | throw i t n m rest skipped rest' e hi hr ht he hu hs =>
      have hsuf : rest' <:+ rest := (show rest' <:+ unwind rest from ⟨skipped, hu.symm⟩).trans (unwind_suffix rest)
      refine ⟨I.update hi rfl (fun hm ins hins => I i t hi hm ins (by rw [ht]; simp [hsuf.subset hins])), ?_⟩
      by_cases hm : t.task = none
      · exact absurd rfl ((I i t hi hm (.consume n m) (by rw [ht]; simp) n rfl).2 m)
      · show (if t.task = none then _ else _) = _
        rw [if_neg hm]; exact hrep

/-! ### all exceptions are reported -/

def TasksAsync (N : ExcNet V E) (s : State V) : Prop :=
  ∀ (i : Nat) (t : Thread V) (u : Nat) (d : Bool), s.threads[i]? = some t → t.task = some (u, d) → N.isAsync u = true

theorem TasksAsync.update {N : ExcNet V E} {s s' : State V} (I : TasksAsync N s) {i : Nat} {t : Thread V}
    {st : List (Instr V)} (hi : s.threads[i]? = some t) (hthr : s'.threads = s.threads.set i { t with stack := st }) : TasksAsync N s' := by
  intro j x u d hx hm
  rw [hthr, get_set hi] at hx
  split at hx
  · cases hx; exact I i t u d hi hm
  · exact I j x u d hx hm

theorem TasksAsync.step {N : ExcNet V E} {s s' : State V} (I : TasksAsync N s) (h : Step N.quiet s s') : TasksAsync N s' := by
  cases h with
  | deliverSync i t n m rest hi hr ht ha => exact I.update hi rfl
  | deliverAsync i t n m rest deferred hi hr ht ha hl =>
    have I1 : TasksAsync N (s.setStack i t (.trim n :: rest)) := I.update hi rfl
    intro j x u d hx hm
    replace hx : (s.threads.set i { t with stack := .trim n :: rest } ++ [⟨some (n, deferred), t.owner, [.consume n m]⟩])[j]? = some x := hx
    by_cases hj : j < (s.threads.set i { t with stack := .trim n :: rest }).length
    · rw [List.getElem?_append_left hj] at hx
      exact I1 j x u d hx hm
    · rw [List.getElem?_append_right (by omega)] at hx
      have := List.mem_of_getElem? hx
      simp only [List.mem_singleton] at this
      subst this
      cases hm
      exact ha
  | trim i t n rest ready hi hr ht hl hready => exact I.update hi rfl
  | consume i t n m rest hi hr ht => exact I.update hi rfl
  | flush i t n rest hi hr ht hl => exact I.update hi rfl
  | waitDone i t n rest hi hr ht hd => exact I.update hi rfl
  | ret i t rest hi hr ht => exact I.update hi rfl

theorem ExcReachable.tasksAsync {N : ExcNet V E} {progs : List (List (Call V))} {s : ExcState V E}
    (h : ExcReachable N progs s) : TasksAsync N s.base := by
  induction h with
  | refl =>
    intro i t u d ht hm
    rw [(initial_threads ht).1] at hm; cases hm
  | tail _ hs ih =>
    cases hs with
    | quiet b h hn => exact ih.step h
    | throw i t n m rest skipped rest' e hi hr ht he hu hs => exact ih.update hi rfl

theorem thrownFrom_append (N : ExcNet V E) (n : Nat) (past h h' : List V) :
    thrownFrom N n past (h ++ h') = thrownFrom N n past h ++ thrownFrom N n (past ++ h) h' := by
  induction h generalizing past with
  | nil => simp [thrownFrom]
  | cons m h ih => simp [thrownFrom, ih]

theorem thrown_snoc (N : ExcNet V E) (n : Nat) (h : List V) (m : V) :
    thrown N n (h ++ [m]) = thrown N n h ++ errorOf (N.behave n h m) := by
  simp [thrown, thrownFrom_append, thrownFrom]

theorem thrown_update (N : ExcNet V E) (K n : Nat) (hn : n < K) (log : Nat → List V) (m : V) (x : List E)
    (hx : thrown N n (log n ++ [m]) = thrown N n (log n) ++ x) :
    ((List.range K).flatMap (fun k => thrown N k (if k = n then log n ++ [m] else log k))).Perm
      ((List.range K).flatMap (fun k => thrown N k (log k)) ++ x) := by
  induction K with
  | zero => omega
  | succ K ih =>
    rw [List.range_succ]
    simp only [List.flatMap_append, List.flatMap_cons, List.flatMap_nil, List.append_nil]
    by_cases hnK : n = K
    · subst hnK
      have : (List.range n).flatMap (fun k => thrown N k (if k = n then log n ++ [m] else log k)) =
          (List.range n).flatMap (fun k => thrown N k (log k)) := by
        apply List.flatMap_congr
        intro k hk
        have := List.mem_range.mp hk
        rw [if_neg (by omega)]
      rw [this, if_pos rfl, hx, List.append_assoc]
    · rw [if_neg (fun h => hnK h.symm)]
      refine ((ih (by omega)).append_right _).trans ?_
      rw [List.append_assoc, List.append_assoc]
      exact List.Perm.append_left _ List.perm_append_comm

theorem Step.log_cases {N : Net V} {s s' : State V} (h : Step N s s') :
    s'.log = s.log ∨ ∃ n m, s'.log = fun k => if k = n then s.log n ++ [m] else s.log k := by
  cases h with
  | consume i t n m rest hi hr ht => exact Or.inr ⟨n, m, rfl⟩
  | _ => exact Or.inl rfl

theorem ExcReachable.reports {N : ExcNet V E} {progs : List (List (Call V))} {s : ExcState V E} {K : Nat} (hf : Flushes progs)
    (hc : ThrowersInCallingThread N) (hK : ThrowersBelow N K) (h : ExcReachable N progs s) :
    (s.reported.map Prod.snd).Perm ((List.range K).flatMap (fun n => thrown N n (s.base.log n))) := by
  induction h with
  | refl =>
    have : (List.range K).flatMap (fun n => thrown N n ((initial progs).log n)) = [] := by
      rw [List.flatMap_eq_nil_iff]
      intro n _
      rfl
    rw [this]
    exact .refl _
  | tail h0 hs ih =>
    cases hs with
    | quiet b h hn =>
      refine ih.trans (List.Perm.of_eq ?_)
      apply List.flatMap_congr
      intro k _
      rcases h.log_cases with hl | ⟨n, m, hl⟩
      · simp only [hl]
      · simp only [hl]
        by_cases hk : k = n
        · subst hk
          obtain ⟨o, ho⟩ := hn k m (by simp [hl])
          rw [if_pos rfl, thrown_snoc, ho]
          simp [errorOf]
        · rw [if_neg hk]
    | throw i t n m rest skipped rest' e hi hr ht he hu hs =>
      have hmain : t.task = none := by
        cases hm : t.task with
        | none => rfl
        | some ud =>
          obtain ⟨u, d⟩ := ud
          have h1 := ExcReachable.tasksAsync h0 i t u d hi hm
          have h2 := (ExcReachable.inv hf h0).taskOK i t u d hi hm (.consume n m) (by rw [ht]; simp)
          exact absurd h2 (hc n _ m e he u h1)
      show (List.map Prod.snd (if t.task = none then _ else _)).Perm ((List.range K).flatMap (fun k => thrown N k (if k = n then _ else _)))
      rw [if_pos hmain, List.map_append]
      refine (ih.append_right _).trans ?_
      refine (thrown_update N K n (hK n _ m e he) _ m [e] ?_).symm
      rw [thrown_snoc, he]
      rfl

end SampleFlow.Async
