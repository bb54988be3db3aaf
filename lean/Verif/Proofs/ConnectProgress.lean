import Verif.Proofs.Connect

/-! Every schedule of Model/Connect.lean comes to an end, and only when all threads have finished. -/

namespace SampleFlow.Connect

variable {V : Type}

/-- how many actions a thread still has to do, at most -/
def Pc.weight : Pc V → Nat
  | .sIdle _ msgs => 4 * msgs.length
  | .sSlot _ _ msgs => 4 * msgs.length + 3
  | .sRead _ _ msgs => 4 * msgs.length + 2
  | .sConsume _ _ msgs => 4 * msgs.length + 1
  | .cStart _ => 3
  | .cUp _ => 2
  | .cInsert _ => 1
  | .cDone _ => 0

def State.weight (s : State V) : Nat := (s.threads.map Pc.weight).sum

theorem sum_set_lt (l : List (Pc V)) (i : Nat) (pc pc' : Pc V) (h : l[i]? = some pc) (hw : pc'.weight < pc.weight) :
    ((l.set i pc').map Pc.weight).sum < (l.map Pc.weight).sum := by
  induction l generalizing i with
  | nil => simp at h
  | cons a l ih =>
    cases i with
    | zero =>
      simp only [List.getElem?_cons_zero, Option.some.injEq] at h
      subst h
      simp only [List.set_cons_zero, List.map_cons, List.sum_cons]
      omega
    | succ i =>
      have := ih i (by simpa using h)
      simp only [List.set_cons_succ, List.map_cons, List.sum_cons]
      omega

theorem Step.weight_lt {s s' : State V} (h : Step s s') : s'.weight < s.weight := by
  cases h with
  | emit i c m msgs hi => exact sum_set_lt _ i _ _ hi (by simp [Pc.weight]; omega)
  | emitNot i c m msgs hi => exact sum_set_lt _ i _ _ hi (by simp [Pc.weight])
  | lockSync i c m msgs hi => exact sum_set_lt _ i _ _ hi (by simp [Pc.weight])
  | lockAsync i c m msgs hi => exact sum_set_lt _ i _ _ hi (by simp [Pc.weight])
  | skip i c m msgs hi => exact sum_set_lt _ i _ _ hi (by simp [Pc.weight])
  | consume i c m msgs hi => exact sum_set_lt _ i _ _ hi (by simp [Pc.weight])
  | leave i c m msgs hi => exact sum_set_lt _ i _ _ hi (by simp [Pc.weight])
  | launch i c m msgs hi => exact sum_set_lt _ i _ _ hi (by simp [Pc.weight])
  | connect i c hi => exact sum_set_lt _ i _ _ hi (by simp [Pc.weight])
  | insertBegin i c hi => exact sum_set_lt _ i _ _ hi (by simp [Pc.weight])
  | insertEnd i c hi => exact sum_set_lt _ i _ _ hi (by simp [Pc.weight])

/-- the holder of the lock is looking at the list of connections -/
def LockInv (s : State V) : Prop := ∀ i, s.asyncLock = some i → s.isAsync = true ∧ Reads s i

theorem LockInv.step {s s' : State V} (h : LockInv s) (hs : Step s s') : LockInv s' := by
  have keep : ∀ (i : Nat) (pc pc' : Pc V), s.threads[i]? = some pc → (∀ c m msgs, pc ≠ .sRead c m msgs) →
      ∀ k, s.asyncLock = some k → s.isAsync = true ∧ ∃ c m msgs, (s.goto i pc').threads[k]? = some (.sRead c m msgs) := by
    intro i pc pc' hi hn k hk
    obtain ⟨ha, c, m, msgs, hr⟩ := h k hk
    refine ⟨ha, c, m, msgs, ?_⟩
    rw [get_goto s i k _ _ hi, if_neg, hr]
    rintro rfl
    rw [hi] at hr
    exact hn c m msgs (Option.some.inj hr)
  cases hs with
  | emit i c m msgs hi => exact fun k hk => keep i _ _ hi (by simp) k hk
  | emitNot i c m msgs hi => exact fun k hk => keep i _ _ hi (by simp) k hk
  | lockSync i c m msgs hi => exact fun k hk => keep i _ _ hi (by simp) k hk
  | lockAsync i c m msgs hi hm =>
    intro k hk
    have : i = k := Option.some.inj hk
    subst this
    refine ⟨hm, c, m, msgs, ?_⟩
    show (s.goto i (.sRead c m msgs)).threads[i]? = _
    rw [get_goto s i i _ _ hi, if_pos rfl]
  | skip i c m msgs hi => intro k hk; cases hk
  | consume i c m msgs hi hm =>
    intro k hk
    rw [(h k hk).1] at hm
    cases hm
  | leave i c m msgs hi => exact fun k hk => keep i _ _ hi (by simp) k hk
  | launch i c m msgs hi => intro k hk; cases hk
  | connect i c hi => exact fun k hk => keep i _ _ hi (by simp) k hk
  | insertBegin i c hi => exact fun k hk => keep i _ _ hi (by simp) k hk
  | insertEnd i c hi => exact fun k hk => keep i _ _ hi (by simp) k hk

theorem reachable_lock {isAsync : Bool} {conns : List Nat} {threads : List (Pc V)} {s : State V}
    (hs : Steps (initial isAsync conns threads) s) : LockInv s := by
  induction hs with
  | refl => intro i hi; cases hi
  | tail _ st ih => exact ih.step st

/-- a state in which nothing can happen -/
theorem stuck_finished {s : State V} (hl : LockInv s) (hst : ∀ s', ¬ Step s s') :
    ∀ pc ∈ s.threads, (∃ c, pc = .sIdle c []) ∨ ∃ c, pc = .cDone c := by
  have read : ∀ (i c : Nat) (m : V) (msgs : List V), s.threads[i]? ≠ some (.sRead c m msgs) := by
    intro i c m msgs hi
    by_cases hc : s.conns = []
    · exact hst _ (.skip i c m msgs hi hc)
    · cases hm : s.isAsync with
      | false => exact hst _ (.consume i c m msgs hi hm hc)
      | true => exact hst _ (.launch i c m msgs hi hm hc)
  have free : s.asyncLock = none := by
    cases h : s.asyncLock with
    | none => rfl
    | some i =>
      obtain ⟨-, c, m, msgs, hr⟩ := hl i h
      exact absurd hr (read i c m msgs)
  intro pc hpc
  obtain ⟨i, hi⟩ := List.mem_iff_getElem?.mp hpc
  cases pc with
  | sIdle c msgs =>
    cases msgs with
    | nil => exact .inl ⟨c, rfl⟩
    | cons m msgs =>
      cases hu : s.up c with
      | true => exact absurd (.emit i c m msgs hi hu) (hst _)
      | false => exact absurd (.emitNot i c m msgs hi hu) (hst _)
  | sSlot c m msgs =>
    cases hm : s.isAsync with
    | false => exact absurd (.lockSync i c m msgs hi hm) (hst _)
    | true => exact absurd (.lockAsync i c m msgs hi hm free) (hst _)
  | sRead c m msgs => exact absurd hi (read i c m msgs)
  | sConsume c m msgs => exact absurd (.leave i c m msgs hi) (hst _)
  | cStart c => exact absurd (.connect i c hi) (hst _)
  | cUp c => exact absurd (.insertBegin i c hi) (hst _)
  | cInsert c => exact absurd (.insertEnd i c hi) (hst _)
  | cDone c => exact .inr ⟨c, rfl⟩

end SampleFlow.Connect
