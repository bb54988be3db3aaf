import Verif.Model.Disconnect
import Mathlib.Data.List.Basic
import Mathlib.Tactic.Push

set_option linter.unusedSimpArgs false

namespace SampleFlow.Disconnect

variable {V : Type}

def Pc.holdsA : Pc V → Bool
  | .fWait .. | .pOne .. | .pBoth .. | .dOne | .dBoth | .dWait => true
  | _ => false
def Pc.holdsS : Pc V → Bool
  | .pBoth .. | .dBoth => true
  | _ => false
def Pc.pastClear : Pc V → Bool
  | .dFlush | .dWait | .dReturned | .dDestroyed => true
  | _ => false
def Pc.pending : Pc V → Bool
  | .wReady .. | .wConsume .. => true
  | _ => false
def Pc.returned : Pc V → Bool
  | .dReturned | .dDestroyed => true
  | _ => false

theorem get_set {α : Type} {l : List α} {i : Nat} {t t' : α} (hi : l[i]? = some t) (j : Nat) :
    (l.set i t')[j]? = if j = i then some t' else l[j]? := by
  have hlt : i < l.length := by
    by_contra h
    rw [List.getElem?_eq_none (by omega)] at hi
    cases hi
  rw [List.getElem?_set]
  by_cases h : j = i
  · subst h; simp [hlt]
  · simp [h, Ne.symm h]

/-- thread number `i` is at `pc` -/
def State.at (s : State V) (i : Nat) (pc : Pc V) : Prop := s.threads[i]? = some pc

structure Inv (s : State V) : Prop where
  a : ∀ i pc, s.at i pc → pc.holdsA = true → s.asyncLock = some i
  b : ∀ i pc, s.at i pc → pc.holdsS = true → s.syncLock = some i
  c : s.syncLock ≠ none → ∀ i pc, s.at i pc → pc.reader = false
  d : s.conns = [] → ∀ i pc, s.at i pc → pc.reader = false
  e : ∀ i pc, s.at i pc → pc.pastClear = true → s.conns = []
  f : ∀ i pc, s.at i pc → pc.pending = true → i ∈ s.queue
  h : ∀ i pc, s.at i pc → pc.returned = true → ∀ j pc', s.at j pc' → pc'.pending = false
  k : s.destroyed = true → s.conns = []
  l : ∀ c, s.slotUp c = true → c ∈ s.conns

theorem reader_at {s : State V} (hr : ∀ pc ∈ s.threads, pc.reader = false) :
    ∀ i pc, s.at i pc → pc.reader = false := fun _ _ h => hr _ (List.mem_of_getElem? h)

theorem done_at {s : State V} {j : Nat} (h : s.isDone j = true) {pc : Pc V} (hj : s.at j pc) :
    pc.pending = false := by
  unfold State.isDone at h
  unfold State.at at hj
  rw [hj] at h
  cases pc <;> simp_all [Pc.pending]

theorem at_goto {s : State V} {i : Nat} {pc pc' : Pc V} (hi : s.threads[i]? = some pc) (s' : State V)
    (hs : s'.threads = s.threads.set i pc') (j : Nat) (q : Pc V) :
    s'.at j q ↔ (j = i ∧ q = pc') ∨ (j ≠ i ∧ s.at j q) := by
  unfold State.at
  rw [hs, get_set hi]
  by_cases h : j = i
  · simp [h, eq_comm]
  · simp [h]

theorem at_launch {s : State V} {i : Nat} {pc pc' w : Pc V} (hi : s.threads[i]? = some pc) (s' : State V)
    (hs : s'.threads = s.threads.set i pc' ++ [w]) (j : Nat) (q : Pc V) (hq : s'.at j q) :
    (j = i ∧ q = pc') ∨ (j ≠ i ∧ s.at j q) ∨ (j = s.threads.length ∧ q = w) := by
  unfold State.at at hq
  rw [hs] at hq
  have hlen : (s.threads.set i pc').length = s.threads.length := by simp
  by_cases hlt : j < s.threads.length
  · rw [List.getElem?_append_left (by omega), get_set hi] at hq
    by_cases h : j = i
    · subst h; simp at hq; exact Or.inl ⟨rfl, hq.symm⟩
    · simp [h] at hq; exact Or.inr (Or.inl ⟨h, hq⟩)
  · rw [List.getElem?_append_right (by omega), hlen] at hq
    have : j - s.threads.length = 0 := by
      by_contra hne
      rw [List.getElem?_eq_none (by simp; omega)] at hq; cases hq
    rw [this] at hq
    simp only [List.getElem?_cons_zero, Option.some.injEq] at hq
    exact Or.inr (Or.inr ⟨by omega, hq.symm⟩)

theorem returned_past {pc : Pc V} (h : pc.returned = true) : pc.pastClear = true := by
  cases pc <;> simp_all [Pc.returned, Pc.pastClear]

/-- One thread moves, the rest of the state changes in a way compatible with the invariant. -/
theorem Inv.move {s s' : State V} (I : Inv s) {i : Nat} {pc pc' : Pc V} (hi : s.threads[i]? = some pc)
    (hs : s'.threads = s.threads.set i pc')
    (hA : ∀ j, s.asyncLock = some j → j ≠ i → s'.asyncLock = some j)
    (hA' : pc'.holdsA = true → s'.asyncLock = some i)
    (hS : ∀ j, s.syncLock = some j → j ≠ i → s'.syncLock = some j)
    (hS' : pc'.holdsS = true → s'.syncLock = some i)
    (hc : s'.syncLock ≠ none → (∀ j q, s.at j q → q.reader = false) ∧ pc'.reader = false)
    (hd : s'.conns = [] → (∀ j q, s.at j q → q.reader = false) ∧ pc'.reader = false)
    (he : s.conns = [] → s'.conns = []) (he' : pc'.pastClear = true → s'.conns = [])
    (hf : ∀ j q, j ≠ i → s.at j q → q.pending = true → j ∈ s.queue → j ∈ s'.queue)
    (hf' : pc'.pending = true → pc.pending = true ∧ (i ∈ s.queue → i ∈ s'.queue))
    (hh : pc'.returned = true → pc.returned = true ∨
      (∀ j q, s.at j q → q.pending = false) ∧ pc'.pending = false)
    (hk : s'.destroyed = true → s'.conns = [])
    (hl : ∀ c, s'.slotUp c = true → c ∈ s'.conns) : Inv s' := by
  have hat := at_goto hi s' hs
  have hpc : s.at i pc := hi
  obtain ⟨Ia, Ib, Ic, Id, Ie, If, Ih, Ik, Il⟩ := I
  constructor
  · intro j q hq h
    rcases (hat j q).mp hq with ⟨rfl, rfl⟩ | ⟨hne, hq⟩
    · exact hA' h
    · exact hA j (Ia j q hq h) hne
  · intro j q hq h
    rcases (hat j q).mp hq with ⟨rfl, rfl⟩ | ⟨hne, hq⟩
    · exact hS' h
    · exact hS j (Ib j q hq h) hne
  · intro h j q hq
    rcases (hat j q).mp hq with ⟨rfl, rfl⟩ | ⟨hne, hq⟩
    · exact (hc h).2
    · exact (hc h).1 j q hq
  · intro h j q hq
    rcases (hat j q).mp hq with ⟨rfl, rfl⟩ | ⟨hne, hq⟩
    · exact (hd h).2
    · exact (hd h).1 j q hq
  · intro j q hq h
    rcases (hat j q).mp hq with ⟨rfl, rfl⟩ | ⟨hne, hq⟩
    · exact he' h
    · exact he (Ie j q hq h)
  · intro j q hq h
    rcases (hat j q).mp hq with ⟨rfl, rfl⟩ | ⟨hne, hq⟩
    · exact (hf' h).2 (If j pc hpc (hf' h).1)
    · exact hf j q hne hq h (If j q hq h)
  · intro j q hq h k r hr
    have hpend : (∀ j q, s.at j q → q.pending = false) → ∀ k r, s'.at k r → r.pending = false := by
      intro hall k r hr
      rcases (hat k r).mp hr with ⟨rfl, rfl⟩ | ⟨hne, hr⟩
      · by_contra hp
        have := (hf' (by simpa using hp)).1
        rw [hall k pc hpc] at this; cases this
      · exact hall k r hr
    rcases (hat j q).mp hq with ⟨rfl, rfl⟩ | ⟨hne, hq⟩
    · rcases hh h with h | h
      · exact hpend (Ih j pc hpc h) k r hr
      · exact hpend h.1 k r hr
    · exact hpend (Ih j q hq h) k r hr
  · exact hk
  · exact hl

theorem Inv.keepA {s : State V} {i : Nat} (h : s.asyncLock = none) {x : Option Nat} :
    ∀ j, s.asyncLock = some j → j ≠ i → x = some j := by intro j hj; rw [h] at hj; cases hj

theorem Inv.step {s s' : State V} (I : Inv s) (h : Step s s') : Inv s' := by
  have Ic := I.c
  have Id := I.d
  cases h with
  | emit i c m msgs hi hu =>
    exact I.move hi rfl (fun _ h _ => h) (by simp [Pc.holdsA]) (fun _ h _ => h) (by simp [Pc.holdsS])
      (fun h => ⟨Ic h, rfl⟩) (fun h => ⟨Id h, rfl⟩) id (by simp [Pc.pastClear]) (fun _ _ _ _ _ h => h)
      (by simp [Pc.pending]) (by simp [Pc.returned]) I.k I.l
  | emitNot i c m msgs hi hu =>
    exact I.move hi rfl (fun _ h _ => h) (by simp [Pc.holdsA]) (fun _ h _ => h) (by simp [Pc.holdsS])
      (fun h => ⟨Ic h, rfl⟩) (fun h => ⟨Id h, rfl⟩) id (by simp [Pc.pastClear]) (fun _ _ _ _ _ h => h)
      (by simp [Pc.pending]) (by simp [Pc.returned]) I.k I.l
  | syncEnter i c m msgs hi hm hd hl hc =>
    exact I.move hi rfl (fun _ h _ => h) (by simp [Pc.holdsA]) (fun _ h _ => h) (by simp [Pc.holdsS])
      (fun h => absurd hl h) (fun h => absurd h hc) id (by simp [Pc.pastClear]) (fun _ _ _ _ _ h => h)
      (by simp [Pc.pending]) (by simp [Pc.returned]) I.k I.l
  | syncSkip i c m msgs hi hm hd hl hc =>
    exact I.move hi rfl (fun _ h _ => h) (by simp [Pc.holdsA]) (fun _ h _ => h) (by simp [Pc.holdsS])
      (fun h => ⟨Ic h, rfl⟩) (fun h => ⟨Id h, rfl⟩) id (by simp [Pc.pastClear]) (fun _ _ _ _ _ h => h)
      (by simp [Pc.pending]) (by simp [Pc.returned]) I.k I.l
  | syncLeave i c m msgs hi =>
    exact I.move hi rfl (fun _ h _ => h) (by simp [Pc.holdsA]) (fun _ h _ => h) (by simp [Pc.holdsS])
      (fun h => ⟨Ic h, rfl⟩) (fun h => ⟨Id h, rfl⟩) id (by simp [Pc.pastClear]) (fun _ _ _ _ _ h => h)
      (by simp [Pc.pending]) (by simp [Pc.returned]) I.k I.l
  | asyncLaunch i c m msgs hi hm hd hl hc =>
    have hat := at_launch hi { s with
        threads := s.threads.set i (.sTrim c msgs) ++ [.wReady m]
        queue := s.queue ++ [s.threads.length] } rfl
    constructor
    · intro j q hq h
      rcases hat j q hq with ⟨rfl, rfl⟩ | ⟨hne, hq⟩ | ⟨rfl, rfl⟩
      · cases h
      · exact I.a j q hq h
      · cases h
    · intro j q hq h
      rcases hat j q hq with ⟨rfl, rfl⟩ | ⟨hne, hq⟩ | ⟨rfl, rfl⟩
      · cases h
      · exact I.b j q hq h
      · cases h
    · intro h j q hq
      rcases hat j q hq with ⟨rfl, rfl⟩ | ⟨hne, hq⟩ | ⟨rfl, rfl⟩
      · rfl
      · exact I.c h j q hq
      · rfl
    · intro h j q hq
      exact absurd h hc
    · intro j q hq h
      rcases hat j q hq with ⟨rfl, rfl⟩ | ⟨hne, hq⟩ | ⟨rfl, rfl⟩
      · cases h
      · exact I.e j q hq h
      · cases h
    · intro j q hq h
      show j ∈ s.queue ++ [s.threads.length]
      rcases hat j q hq with ⟨rfl, rfl⟩ | ⟨hne, hq⟩ | ⟨rfl, rfl⟩
      · cases h
      · exact List.mem_append_left _ (I.f j q hq h)
      · simp
    · intro j q hq h
      rcases hat j q hq with ⟨rfl, rfl⟩ | ⟨hne, hq⟩ | ⟨rfl, rfl⟩
      · cases h
      · exact absurd (I.e j q hq (returned_past h)) hc
      · cases h
    · exact I.k
    · exact I.l
  | asyncSkip i c m msgs hi hm hd hl hc =>
    exact I.move hi rfl (fun _ h _ => h) (by simp [Pc.holdsA]) (fun _ h _ => h) (by simp [Pc.holdsS])
      (fun h => ⟨Ic h, rfl⟩) (fun h => ⟨Id h, rfl⟩) id (by simp [Pc.pastClear]) (fun _ _ _ _ _ h => h)
      (by simp [Pc.pending]) (by simp [Pc.returned]) I.k I.l
  | trim i c msgs removed rest hi hd hl hq hr =>
    refine I.move hi rfl (fun _ h _ => h) (by simp [Pc.holdsA]) (fun _ h _ => h) (by simp [Pc.holdsS])
      (fun h => ⟨Ic h, rfl⟩) (fun h => ⟨Id h, rfl⟩) id (by simp [Pc.pastClear]) ?_
      (by simp [Pc.pending]) (by simp [Pc.returned]) I.k I.l
    intro j q _ hj hp hjq
    rw [hq] at hjq
    rcases List.mem_append.mp hjq with h | h
    · rw [done_at (hr j h) hj] at hp; cases hp
    · exact h
  | taskStart i m hi =>
    exact I.move hi rfl (fun _ h _ => h) (by simp [Pc.holdsA]) (fun _ h _ => h) (by simp [Pc.holdsS])
      (fun h => ⟨Ic h, rfl⟩) (fun h => ⟨Id h, rfl⟩) id (by simp [Pc.pastClear]) (fun _ _ _ _ _ h => h)
      (fun _ => ⟨rfl, id⟩) (by simp [Pc.returned]) I.k I.l
  | taskEnd i m hi =>
    exact I.move hi rfl (fun _ h _ => h) (by simp [Pc.holdsA]) (fun _ h _ => h) (by simp [Pc.holdsS])
      (fun h => ⟨Ic h, rfl⟩) (fun h => ⟨Id h, rfl⟩) id (by simp [Pc.pastClear]) (fun _ _ _ _ _ h => h)
      (by simp [Pc.pending]) (by simp [Pc.returned]) I.k I.l
  | flushEmit i c hi hu =>
    exact I.move hi rfl (fun _ h _ => h) (by simp [Pc.holdsA]) (fun _ h _ => h) (by simp [Pc.holdsS])
      (fun h => ⟨Ic h, rfl⟩) (fun h => ⟨Id h, rfl⟩) id (by simp [Pc.pastClear]) (fun _ _ _ _ _ h => h)
      (by simp [Pc.pending]) (by simp [Pc.returned]) I.k I.l
  | flushEmitNot i c hi hu =>
    exact I.move hi rfl (fun _ h _ => h) (by simp [Pc.holdsA]) (fun _ h _ => h) (by simp [Pc.holdsS])
      (fun h => ⟨Ic h, rfl⟩) (fun h => ⟨Id h, rfl⟩) id (by simp [Pc.pastClear]) (fun _ _ _ _ _ h => h)
      (by simp [Pc.pending]) (by simp [Pc.returned]) I.k I.l
  | flushLock i c hi hd hl =>
    exact I.move hi rfl (Inv.keepA hl) (fun _ => rfl) (fun _ h _ => h) (by simp [Pc.holdsS])
      (fun h => ⟨Ic h, rfl⟩) (fun h => ⟨Id h, rfl⟩) id (by simp [Pc.pastClear]) (fun _ _ _ _ _ h => h)
      (by simp [Pc.pending]) (by simp [Pc.returned]) I.k I.l
  | flushWait i c hi hq =>
    have hlk := I.a i _ hi rfl
    refine I.move hi rfl ?_ (by simp [Pc.holdsA]) (fun _ h _ => h) (by simp [Pc.holdsS])
      (fun h => ⟨Ic h, rfl⟩) (fun h => ⟨Id h, rfl⟩) id (by simp [Pc.pastClear]) ?_
      (by simp [Pc.pending]) (by simp [Pc.returned]) I.k I.l
    · intro j hj hne; rw [hlk] at hj; cases hj; exact absurd rfl hne
    · intro j q _ hj hp hjq
      rw [done_at (hq j hjq) hj] at hp; cases hp
  | prodEmit i c hi hu =>
    exact I.move hi rfl (fun _ h _ => h) (by simp [Pc.holdsA]) (fun _ h _ => h) (by simp [Pc.holdsS])
      (fun h => ⟨Ic h, rfl⟩) (fun h => ⟨Id h, rfl⟩) id (by simp [Pc.pastClear]) (fun _ _ _ _ _ h => h)
      (by simp [Pc.pending]) (by simp [Pc.returned]) I.k I.l
  | prodEmitNot i c hi hu =>
    exact I.move hi rfl (fun _ h _ => h) (by simp [Pc.holdsA]) (fun _ h _ => h) (by simp [Pc.holdsS])
      (fun h => ⟨Ic h, rfl⟩) (fun h => ⟨Id h, rfl⟩) id (by simp [Pc.pastClear]) (fun _ _ _ _ _ h => h)
      (by simp [Pc.pending]) (by simp [Pc.returned]) I.k I.l
  | prodLock1 i c hi hd hl =>
    exact I.move hi rfl (Inv.keepA hl) (fun _ => rfl) (fun _ h _ => h) (by simp [Pc.holdsS])
      (fun h => ⟨Ic h, rfl⟩) (fun h => ⟨Id h, rfl⟩) id (by simp [Pc.pastClear]) (fun _ _ _ _ _ h => h)
      (by simp [Pc.pending]) (by simp [Pc.returned]) I.k I.l
  | prodLock2 i c hi hl hr =>
    have hlk := I.a i _ hi rfl
    refine I.move hi rfl (fun _ h _ => h) (fun _ => hlk) ?_ (fun _ => rfl)
      (fun _ => ⟨reader_at hr, rfl⟩) (fun _ => ⟨reader_at hr, rfl⟩) id (by simp [Pc.pastClear])
      (fun _ _ _ _ _ h => h) (by simp [Pc.pending]) (by simp [Pc.returned]) I.k I.l
    intro j hj; rw [hl] at hj; cases hj
  | prodErase i c hi hc =>
    have hlk := I.a i _ hi rfl
    have hlk2 := I.b i _ hi rfl
    have hnr := Ic (by rw [hlk2]; simp)
    refine I.move hi rfl ?_ (by simp [Pc.holdsA]) ?_ (by simp [Pc.holdsS])
      (fun _ => ⟨hnr, rfl⟩) (fun _ => ⟨hnr, rfl⟩) ?_ (by simp [Pc.pastClear])
      (fun _ _ _ _ _ h => h) (by simp [Pc.pending]) (by simp [Pc.returned]) ?_ ?_
    · intro j hj hne; rw [hlk] at hj; cases hj; exact absurd rfl hne
    · intro j hj hne; rw [hlk2] at hj; cases hj; exact absurd rfl hne
    · intro h; show s.conns.filter _ = []; rw [h]; rfl
    · intro h; show s.conns.filter _ = []; rw [I.k h]; rfl
    · intro k hk
      simp only at hk ⊢
      split at hk
      · cases hk
      · rename_i hne
        exact List.mem_filter.mpr ⟨I.l k hk, by simpa using hne⟩
  | prodEnd i c hi hc =>
    have hlk := I.a i _ hi rfl
    have hlk2 := I.b i _ hi rfl
    refine I.move hi rfl ?_ (by simp [Pc.holdsA]) ?_ (by simp [Pc.holdsS])
      (fun h => absurd rfl h) (fun h => ⟨Id h, rfl⟩) id (by simp [Pc.pastClear])
      (fun _ _ _ _ _ h => h) (by simp [Pc.pending]) (by simp [Pc.returned]) I.k I.l
    · intro j hj hne; rw [hlk] at hj; cases hj; exact absurd rfl hne
    · intro j hj hne; rw [hlk2] at hj; cases hj; exact absurd rfl hne
  | discLock1 i hi hl =>
    exact I.move hi rfl (Inv.keepA hl) (fun _ => rfl) (fun _ h _ => h) (by simp [Pc.holdsS])
      (fun h => ⟨Ic h, rfl⟩) (fun h => ⟨Id h, rfl⟩) id (by simp [Pc.pastClear]) (fun _ _ _ _ _ h => h)
      (by simp [Pc.pending]) (by simp [Pc.returned]) I.k I.l
  | discLock2 i hi hl hr =>
    have hlk := I.a i _ hi rfl
    refine I.move hi rfl (fun _ h _ => h) (fun _ => hlk) ?_ (fun _ => rfl)
      (fun _ => ⟨reader_at hr, rfl⟩) (fun _ => ⟨reader_at hr, rfl⟩) id (by simp [Pc.pastClear])
      (fun _ _ _ _ _ h => h) (by simp [Pc.pending]) (by simp [Pc.returned]) I.k I.l
    intro j hj; rw [hl] at hj; cases hj
  | discSlot i c hi hc hu =>
    refine ⟨I.a, I.b, I.c, I.d, I.e, I.f, I.h, I.k, ?_⟩
    intro k hk
    simp only at hk
    split at hk
    · cases hk
    · exact I.l k hk
  | discClear i hi hc =>
    have hlk := I.a i _ hi rfl
    have hlk2 := I.b i _ hi rfl
    have hnr := Ic (by rw [hlk2]; simp)
    refine I.move hi rfl ?_ (by simp [Pc.holdsA]) ?_ (by simp [Pc.holdsS])
      (fun _ => ⟨hnr, rfl⟩) (fun _ => ⟨hnr, rfl⟩) (fun _ => rfl) (fun _ => rfl)
      (fun _ _ _ _ _ h => h) (by simp [Pc.pending]) (by simp [Pc.returned]) (fun _ => rfl) ?_
    · intro j hj hne; rw [hlk] at hj; cases hj; exact absurd rfl hne
    · intro j hj hne; rw [hlk2] at hj; cases hj; exact absurd rfl hne
    · intro k hk
      have := hc k (I.l k hk)
      rw [show s.slotUp k = true from hk] at this; cases this
  | discFlush i hi hl =>
    have hconn := I.e i _ hi rfl
    exact I.move hi rfl (Inv.keepA hl) (fun _ => rfl) (fun _ h _ => h) (by simp [Pc.holdsS])
      (fun h => ⟨Ic h, rfl⟩) (fun h => ⟨Id h, rfl⟩) id (fun _ => hconn) (fun _ _ _ _ _ h => h)
      (by simp [Pc.pending]) (by simp [Pc.returned]) I.k I.l
  | discWait i hi hq =>
    have hlk := I.a i _ hi rfl
    have hconn := I.e i _ hi rfl
    refine I.move hi rfl ?_ (by simp [Pc.holdsA]) (fun _ h _ => h) (by simp [Pc.holdsS])
      (fun h => ⟨Ic h, rfl⟩) (fun h => ⟨Id h, rfl⟩) id (fun _ => hconn) ?_
      (by simp [Pc.pending]) ?_ I.k I.l
    · intro j hj hne; rw [hlk] at hj; cases hj; exact absurd rfl hne
    · intro j q _ hj hp hjq
      rw [done_at (hq j hjq) hj] at hp; cases hp
    · intro _
      refine Or.inr ⟨?_, rfl⟩
      intro j q hj
      by_contra hp
      have hp' : q.pending = true := by simpa using hp
      rw [done_at (hq j (I.f j q hj hp')) hj] at hp'; cases hp'
  | destroy i hi =>
    have hconn := I.e i _ hi rfl
    exact I.move hi rfl (fun _ h _ => h) (by simp [Pc.holdsA]) (fun _ h _ => h) (by simp [Pc.holdsS])
      (fun h => ⟨Ic h, rfl⟩) (fun h => ⟨Id h, rfl⟩) id (fun _ => hconn) (fun _ _ _ _ _ h => h)
      (by simp [Pc.pending]) (fun _ => Or.inl rfl) (fun _ => hconn) I.l
  | useAfterFree i pc hi hp hd =>
    exact I.move hi rfl (fun _ h _ => h) (by simp [Pc.holdsA]) (fun _ h _ => h) (by simp [Pc.holdsS])
      (fun h => ⟨Ic h, rfl⟩) (fun h => ⟨Id h, rfl⟩) id (by simp [Pc.pastClear]) (fun _ _ _ _ _ h => h)
      (by simp [Pc.pending]) (by simp [Pc.returned]) I.k I.l

theorem Inv.initial (isAsync : Bool) (conns : List Nat) (threads : List (Pc V))
    (hf : ∀ pc ∈ threads, pc.fresh = true) : Inv (initial isAsync conns threads) := by
  have key : ∀ i (pc : Pc V), (Disconnect.initial isAsync conns threads).at i pc → pc.fresh = true :=
    fun _ _ h => hf _ (List.mem_of_getElem? h)
  have fr : ∀ pc : Pc V, pc.fresh = true → pc.holdsA = false ∧ pc.holdsS = false ∧ pc.reader = false ∧
      pc.pastClear = false ∧ pc.pending = false ∧ pc.returned = false := by
    intro pc h
    cases pc <;> simp_all [Pc.fresh, Pc.holdsA, Pc.holdsS, Pc.reader, Pc.pastClear, Pc.pending, Pc.returned]
  constructor
  · intro i pc h h'; rw [(fr pc (key i pc h)).1] at h'; cases h'
  · intro i pc h h'; rw [(fr pc (key i pc h)).2.1] at h'; cases h'
  · intro _ i pc h; exact (fr pc (key i pc h)).2.2.1
  · intro _ i pc h; exact (fr pc (key i pc h)).2.2.1
  · intro i pc h h'; rw [(fr pc (key i pc h)).2.2.2.1] at h'; cases h'
  · intro i pc h h'; rw [(fr pc (key i pc h)).2.2.2.2.1] at h'; cases h'
  · intro i pc h h'; rw [(fr pc (key i pc h)).2.2.2.2.2] at h'; cases h'
  · intro h; cases h
  · intro c hc; simpa [Disconnect.initial] using hc

theorem Reachable.inv {isAsync : Bool} {conns : List Nat} {threads : List (Pc V)}
    (hf : ∀ pc ∈ threads, pc.fresh = true) {s : State V} (h : Reachable isAsync conns threads s) :
    Inv s := by
  induction h with
  | refl => exact Inv.initial _ _ _ hf
  | tail _ hs ih => exact ih.step hs

/-! ### locks are held by somebody; queues contain tasks -/

def Pc.isTask : Pc V → Bool
  | .wReady .. | .wConsume .. | .wDone => true
  | _ => false

structure Inv2 (s : State V) : Prop where
  a : ∀ i, s.asyncLock = some i → ∃ pc, s.at i pc ∧ pc.holdsA = true
  b : ∀ i, s.syncLock = some i → ∃ pc, s.at i pc ∧ pc.holdsS = true
  q : ∀ j ∈ s.queue, ∃ pc, s.at j pc ∧ pc.isTask = true

theorem Inv2.move {s s' : State V} (I : Inv2 s) {i : Nat} {pc pc' : Pc V} (hi : s.threads[i]? = some pc)
    (hs : s'.threads = s.threads.set i pc')
    (ha : ∀ j, s'.asyncLock = some j → (j = i ∧ pc'.holdsA = true) ∨ (j ≠ i ∧ s.asyncLock = some j))
    (hb : ∀ j, s'.syncLock = some j → (j = i ∧ pc'.holdsS = true) ∨ (j ≠ i ∧ s.syncLock = some j))
    (hq : ∀ j ∈ s'.queue, j ∈ s.queue) (ht : pc.isTask = pc'.isTask) : Inv2 s' := by
  have hat := at_goto hi s' hs
  constructor
  · intro j hj
    rcases ha j hj with ⟨rfl, h⟩ | ⟨hne, h⟩
    · exact ⟨pc', (hat _ _).mpr (Or.inl ⟨rfl, rfl⟩), h⟩
    · obtain ⟨q, h1, h2⟩ := I.a j h
      exact ⟨q, (hat _ _).mpr (Or.inr ⟨hne, h1⟩), h2⟩
  · intro j hj
    rcases hb j hj with ⟨rfl, h⟩ | ⟨hne, h⟩
    · exact ⟨pc', (hat _ _).mpr (Or.inl ⟨rfl, rfl⟩), h⟩
    · obtain ⟨q, h1, h2⟩ := I.b j h
      exact ⟨q, (hat _ _).mpr (Or.inr ⟨hne, h1⟩), h2⟩
  · intro j hj
    obtain ⟨q, h1, h2⟩ := I.q j (hq j hj)
    by_cases hne : j = i
    · subst hne
      have : q = pc := by have : s.at j pc := hi; unfold State.at at h1 this; rw [this] at h1; cases h1; rfl
      exact ⟨pc', (hat _ _).mpr (Or.inl ⟨rfl, rfl⟩), by rw [← ht, ← this]; exact h2⟩
    · exact ⟨q, (hat _ _).mpr (Or.inr ⟨hne, h1⟩), h2⟩

theorem Inv2.keep {s : State V} (I : Inv2 s) {i : Nat} {pc : Pc V} (hi : s.threads[i]? = some pc)
    (h1 : pc.holdsA = false) (pc' : Pc V) : ∀ j, s.asyncLock = some j →
      (j = i ∧ pc'.holdsA = true) ∨ (j ≠ i ∧ s.asyncLock = some j) := by
  intro j hj
  refine Or.inr ⟨?_, hj⟩
  rintro rfl
  obtain ⟨q, h2, h3⟩ := I.a j hj
  unfold State.at at h2
  rw [hi] at h2; cases h2
  rw [h1] at h3; cases h3

theorem Inv2.keepS {s : State V} (I : Inv2 s) {i : Nat} {pc : Pc V} (hi : s.threads[i]? = some pc)
    (h1 : pc.holdsS = false) (pc' : Pc V) : ∀ j, s.syncLock = some j →
      (j = i ∧ pc'.holdsS = true) ∨ (j ≠ i ∧ s.syncLock = some j) := by
  intro j hj
  refine Or.inr ⟨?_, hj⟩
  rintro rfl
  obtain ⟨q, h2, h3⟩ := I.b j hj
  unfold State.at at h2
  rw [hi] at h2; cases h2
  rw [h1] at h3; cases h3

theorem take {i : Nat} {p : Bool} {x : Option Nat} (h : p = true) :
    ∀ j, (some i : Option Nat) = some j → (j = i ∧ p = true) ∨ (j ≠ i ∧ x = some j) := by
  intro j hj; cases hj; exact Or.inl ⟨rfl, h⟩

theorem drop {i : Nat} {p : Bool} {x : Option Nat} :
    ∀ j, (none : Option Nat) = some j → (j = i ∧ p = true) ∨ (j ≠ i ∧ x = some j) := by
  intro j hj; cases hj

theorem Inv2.step {s s' : State V} (I : Inv2 s) (h : Step s s') : Inv2 s' := by
  cases h with
  | emit i c m msgs hi hu => exact I.move hi rfl (I.keep hi rfl _) (I.keepS hi rfl _) (fun _ h => h) rfl
  | emitNot i c m msgs hi hu => exact I.move hi rfl (I.keep hi rfl _) (I.keepS hi rfl _) (fun _ h => h) rfl
  | syncEnter i c m msgs hi hm hd hl hc =>
    exact I.move hi rfl (I.keep hi rfl _) (I.keepS hi rfl _) (fun _ h => h) rfl
  | syncSkip i c m msgs hi hm hd hl hc =>
    exact I.move hi rfl (I.keep hi rfl _) (I.keepS hi rfl _) (fun _ h => h) rfl
  | syncLeave i c m msgs hi => exact I.move hi rfl (I.keep hi rfl _) (I.keepS hi rfl _) (fun _ h => h) rfl
  | asyncLaunch i c m msgs hi hm hd hl hc =>
    have I1 : Inv2 (s.goto i (.sTrim c msgs)) :=
      I.move hi rfl (I.keep hi rfl _) (I.keepS hi rfl _) (fun _ h => h) rfl
    have up : ∀ j q, (s.goto i (.sTrim c msgs)).at j q → ({ s with
        threads := s.threads.set i (.sTrim c msgs) ++ [.wReady m]
        queue := s.queue ++ [s.threads.length] } : State V).at j q := by
      intro j q hq
      replace hq : (s.threads.set i (.sTrim c msgs))[j]? = some q := hq
      show (s.threads.set i (.sTrim c msgs) ++ [.wReady m])[j]? = some q
      rw [List.getElem?_append_left]
      · exact hq
      · by_contra h; rw [List.getElem?_eq_none (by omega)] at hq; cases hq
    constructor
    · intro j hj
      obtain ⟨q, h1, h2⟩ := I1.a j hj
      exact ⟨q, up j q h1, h2⟩
    · intro j hj
      obtain ⟨q, h1, h2⟩ := I1.b j hj
      exact ⟨q, up j q h1, h2⟩
    · intro j hj
      rcases List.mem_append.mp hj with hj | hj
      · obtain ⟨q, h1, h2⟩ := I1.q j hj
        exact ⟨q, up j q h1, h2⟩
      · simp only [List.mem_singleton] at hj
        subst hj
        refine ⟨.wReady m, ?_, rfl⟩
        show (s.threads.set i (.sTrim c msgs) ++ [.wReady m])[s.threads.length]? = _
        rw [List.getElem?_append_right (by simp)]
        simp
  | asyncSkip i c m msgs hi hm hd hl hc =>
    exact I.move hi rfl (I.keep hi rfl _) (I.keepS hi rfl _) (fun _ h => h) rfl
  | trim i c msgs removed rest hi hd hl hq hr =>
    exact I.move hi rfl (I.keep hi rfl _) (I.keepS hi rfl _) (fun j h => by rw [hq]; simp [h]) rfl
  | taskStart i m hi => exact I.move hi rfl (I.keep hi rfl _) (I.keepS hi rfl _) (fun _ h => h) rfl
  | taskEnd i m hi => exact I.move hi rfl (I.keep hi rfl _) (I.keepS hi rfl _) (fun _ h => h) rfl
  | flushEmit i c hi hu => exact I.move hi rfl (I.keep hi rfl _) (I.keepS hi rfl _) (fun _ h => h) rfl
  | flushEmitNot i c hi hu => exact I.move hi rfl (I.keep hi rfl _) (I.keepS hi rfl _) (fun _ h => h) rfl
  | flushLock i c hi hd hl => exact I.move hi rfl (take rfl) (I.keepS hi rfl _) (fun _ h => h) rfl
  | flushWait i c hi hq => exact I.move hi rfl drop (I.keepS hi rfl _) (fun _ h => absurd h (by simp)) rfl
  | prodEmit i c hi hu => exact I.move hi rfl (I.keep hi rfl _) (I.keepS hi rfl _) (fun _ h => h) rfl
  | prodEmitNot i c hi hu => exact I.move hi rfl (I.keep hi rfl _) (I.keepS hi rfl _) (fun _ h => h) rfl
  | prodLock1 i c hi hd hl => exact I.move hi rfl (take rfl) (I.keepS hi rfl _) (fun _ h => h) rfl
  | prodLock2 i c hi hl hr =>
    refine I.move hi rfl ?_ (take rfl) (fun _ h => h) rfl
    intro j hj
    by_cases e : j = i
    · exact Or.inl ⟨e, rfl⟩
    · exact Or.inr ⟨e, hj⟩
  | prodErase i c hi hc => exact I.move hi rfl drop drop (fun _ h => h) rfl
  | prodEnd i c hi hc => exact I.move hi rfl drop drop (fun _ h => h) rfl
  | discLock1 i hi hl => exact I.move hi rfl (take rfl) (I.keepS hi rfl _) (fun _ h => h) rfl
  | discLock2 i hi hl hr =>
    refine I.move hi rfl ?_ (take rfl) (fun _ h => h) rfl
    intro j hj
    by_cases e : j = i
    · exact Or.inl ⟨e, rfl⟩
    · exact Or.inr ⟨e, hj⟩
  | discSlot i c hi hc hu => exact ⟨I.a, I.b, I.q⟩
  | discClear i hi hc => exact I.move hi rfl drop drop (fun _ h => h) rfl
  | discFlush i hi hl => exact I.move hi rfl (take rfl) (I.keepS hi rfl _) (fun _ h => h) rfl
  | discWait i hi hq => exact I.move hi rfl drop (I.keepS hi rfl _) (fun _ h => absurd h (by simp)) rfl
  | destroy i hi => exact I.move hi rfl (I.keep hi rfl _) (I.keepS hi rfl _) (fun _ h => h) rfl
  | useAfterFree i pc hi hp hd =>
    have h1 : pc.holdsA = false := by cases pc <;> simp_all [Pc.inSlot, Pc.holdsA]
    have h2 : pc.holdsS = false := by cases pc <;> simp_all [Pc.inSlot, Pc.holdsS]
    have h3 : pc.isTask = false := by cases pc <;> simp_all [Pc.inSlot, Pc.isTask]
    exact I.move hi rfl (I.keep hi h1 _) (I.keepS hi h2 _) (fun _ h => h) h3

theorem Reachable.inv2 {isAsync : Bool} {conns : List Nat} {threads : List (Pc V)}
    {s : State V} (h : Reachable isAsync conns threads s) : Inv2 s := by
  induction h with
  | refl =>
    constructor
    · intro i h; cases h
    · intro i h; cases h
    · intro j h; cases h
  | tail _ hs ih => exact ih.step hs

theorem task_moves {s : State V} {j : Nat} {pc : Pc V} (hj : s.at j pc) (ht : pc.isTask = true)
    (hnd : s.isDone j = false) : ∃ s', Step s s' := by
  unfold State.isDone at hnd
  have hj' : s.threads[j]? = some pc := hj
  rw [hj'] at hnd
  cases pc <;> simp [Pc.isTask] at ht hnd
  · exact ⟨_, .taskStart j _ hj⟩
  · exact ⟨_, .taskEnd j _ hj⟩

theorem reader_moves {s : State V} {pc : Pc V} (h : pc ∈ s.threads) (hr : pc.reader = true) :
    ∃ s', Step s s' := by
  obtain ⟨i, hi⟩ := List.mem_iff_getElem?.mp h
  cases pc <;> simp [Pc.reader] at hr
  exact ⟨_, .syncLeave i _ _ _ hi⟩

/-- whoever holds a lock can move, or is waiting for somebody who can move -/
theorem holder_moves {s : State V} (I : Inv s) (I2 : Inv2 s) {i : Nat} {pc : Pc V}
    (hi : s.threads[i]? = some pc) (h : pc.holdsA = true) : ∃ s', Step s s' := by
  have waitQ : (∀ j ∈ s.queue, s.isDone j = true) ∨ ∃ s', Step s s' := by
    by_cases hq : ∀ j ∈ s.queue, s.isDone j = true
    · exact Or.inl hq
    · push Not at hq
      obtain ⟨j, h1, h2⟩ := hq
      obtain ⟨pc', h3, h4⟩ := I2.q j h1
      exact Or.inr (task_moves h3 h4 (by simpa using h2))
  have hown := I.a i pc hi h
  have lock2 : pc.holdsS = false → s.syncLock = none := by
    intro hS
    by_contra hne
    obtain ⟨k, hk⟩ := Option.ne_none_iff_exists'.mp hne
    obtain ⟨q, h1, h2⟩ := I2.b k hk
    have hqA : q.holdsA = true := by cases q <;> simp_all [Pc.holdsS, Pc.holdsA]
    have := I.a k q h1 hqA
    rw [hown] at this; cases this
    unfold State.at at h1
    rw [hi] at h1; cases h1
    rw [hS] at h2; cases h2
  have readers : (∀ q ∈ s.threads, q.reader = false) ∨ ∃ s', Step s s' := by
    by_cases hr : ∀ q ∈ s.threads, q.reader = false
    · exact Or.inl hr
    · push Not at hr
      obtain ⟨q, h1, h2⟩ := hr
      exact Or.inr (reader_moves h1 (by simpa using h2))
  cases pc <;> simp [Pc.holdsA] at h
  case fWait c => exact waitQ.elim (fun hq => ⟨_, .flushWait i c hi hq⟩) id
  case pOne c => exact readers.elim (fun hr => ⟨_, .prodLock2 i c hi (lock2 rfl) hr⟩) id
  case pBoth c =>
    by_cases hc : c ∈ s.conns
    · exact ⟨_, .prodErase i c hi hc⟩
    · exact ⟨_, .prodEnd i c hi hc⟩
  case dOne => exact readers.elim (fun hr => ⟨_, .discLock2 i hi (lock2 rfl) hr⟩) id
  case dBoth =>
    by_cases hc : ∀ c ∈ s.conns, s.slotUp c = false
    · exact ⟨_, .discClear i hi hc⟩
    · push Not at hc
      obtain ⟨c, h1, h2⟩ := hc
      exact ⟨_, .discSlot i c hi h1 (by simpa using h2)⟩
  case dWait => exact waitQ.elim (fun hq => ⟨_, .discWait i hi hq⟩) id

theorem progress {s : State V} (I : Inv s) (I2 : Inv2 s) (h : ∃ pc ∈ s.threads, pc.ended = false) :
    ∃ s', Step s s' := by
  by_cases hl : s.asyncLock = none
  swap
  · obtain ⟨k, hk⟩ := Option.ne_none_iff_exists'.mp hl
    obtain ⟨q, h1, h2⟩ := I2.a k hk
    exact holder_moves I I2 h1 h2
  have hl2 : s.syncLock = none := by
    by_contra hne
    obtain ⟨k, hk⟩ := Option.ne_none_iff_exists'.mp hne
    obtain ⟨q, h1, h2⟩ := I2.b k hk
    have hqA : q.holdsA = true := by cases q <;> simp_all [Pc.holdsS, Pc.holdsA]
    have := I.a k q h1 hqA
    rw [hl] at this; cases this
  obtain ⟨pc, hmem, he⟩ := h
  obtain ⟨i, hi⟩ := List.mem_iff_getElem?.mp hmem
  have slot : pc.inSlot = true → s.destroyed = true → ∃ s', Step s s' :=
    fun h1 h2 => ⟨_, .useAfterFree i pc hi h1 h2⟩
  cases hdes : s.destroyed with
  | true =>
    cases pc
    case sIdle c msgs =>
      cases msgs with
      | nil => simp [Pc.ended] at he
      | cons m msgs =>
        cases hu : s.slotUp c with
        | true => exact ⟨_, .emit i c m msgs hi hu⟩
        | false => exact ⟨_, .emitNot i c m msgs hi hu⟩
    case sSlot => exact slot rfl hdes
    case sTrim => exact slot rfl hdes
    case fSlot => exact slot rfl hdes
    case pSlot => exact slot rfl hdes
    case sConsume c m msgs => exact ⟨_, .syncLeave i c m msgs hi⟩
    case wReady m => exact ⟨_, .taskStart i m hi⟩
    case wConsume m => exact ⟨_, .taskEnd i m hi⟩
    case fIdle c =>
      cases hu : s.slotUp c with
      | true => exact ⟨_, .flushEmit i c hi hu⟩
      | false => exact ⟨_, .flushEmitNot i c hi hu⟩
    case pIdle c =>
      cases hu : s.slotUp c with
      | true => exact ⟨_, .prodEmit i c hi hu⟩
      | false => exact ⟨_, .prodEmitNot i c hi hu⟩
    case dStart => exact ⟨_, .discLock1 i hi hl⟩
    case dFlush => exact ⟨_, .discFlush i hi hl⟩
    case dReturned => exact ⟨_, .destroy i hi⟩
    case fWait => exact holder_moves I I2 hi rfl
    case pOne => exact holder_moves I I2 hi rfl
    case pBoth => exact holder_moves I I2 hi rfl
    case dOne => exact holder_moves I I2 hi rfl
    case dBoth => exact holder_moves I I2 hi rfl
    case dWait => exact holder_moves I I2 hi rfl
    all_goals simp [Pc.ended] at he
  | false =>
    cases pc
    case sIdle c msgs =>
      cases msgs with
      | nil => simp [Pc.ended] at he
      | cons m msgs =>
        cases hu : s.slotUp c with
        | true => exact ⟨_, .emit i c m msgs hi hu⟩
        | false => exact ⟨_, .emitNot i c m msgs hi hu⟩
    case sSlot c m msgs =>
      by_cases hc : s.conns = [] <;> cases hm : s.isAsync
      · exact ⟨_, .syncSkip i c m msgs hi hm hdes hl2 hc⟩
      · exact ⟨_, .asyncSkip i c m msgs hi hm hdes hl hc⟩
      · exact ⟨_, .syncEnter i c m msgs hi hm hdes hl2 hc⟩
      · exact ⟨_, .asyncLaunch i c m msgs hi hm hdes hl hc⟩
    case sTrim c msgs => exact ⟨_, .trim i c msgs [] s.queue hi hdes hl rfl (by simp)⟩
    case fSlot c => exact ⟨_, .flushLock i c hi hdes hl⟩
    case pSlot c => exact ⟨_, .prodLock1 i c hi hdes hl⟩
    case sConsume c m msgs => exact ⟨_, .syncLeave i c m msgs hi⟩
    case wReady m => exact ⟨_, .taskStart i m hi⟩
    case wConsume m => exact ⟨_, .taskEnd i m hi⟩
    case fIdle c =>
      cases hu : s.slotUp c with
      | true => exact ⟨_, .flushEmit i c hi hu⟩
      | false => exact ⟨_, .flushEmitNot i c hi hu⟩
    case pIdle c =>
      cases hu : s.slotUp c with
      | true => exact ⟨_, .prodEmit i c hi hu⟩
      | false => exact ⟨_, .prodEmitNot i c hi hu⟩
    case dStart => exact ⟨_, .discLock1 i hi hl⟩
    case dFlush => exact ⟨_, .discFlush i hi hl⟩
    case dReturned => exact ⟨_, .destroy i hi⟩
    case fWait => exact holder_moves I I2 hi rfl
    case pOne => exact holder_moves I I2 hi rfl
    case pBoth => exact holder_moves I I2 hi rfl
    case dOne => exact holder_moves I I2 hi rfl
    case dBoth => exact holder_moves I I2 hi rfl
    case dWait => exact holder_moves I I2 hi rfl
    all_goals simp [Pc.ended] at he

/-! ### termination -/

def Pc.weight : Pc V → Nat
  | .sIdle _ msgs => 6 * msgs.length
  | .sSlot _ _ msgs => 6 * msgs.length + 5
  | .sConsume _ _ msgs => 6 * msgs.length + 1
  | .sTrim _ msgs => 6 * msgs.length + 1
  | .wReady _ => 2
  | .wConsume _ => 1
  | .wDone => 0
  | .fIdle _ => 3
  | .fSlot _ => 2
  | .fWait _ => 1
  | .fDone => 0
  | .pIdle _ => 4
  | .pSlot _ => 3
  | .pOne _ => 2
  | .pBoth _ => 1
  | .pDone => 0
  | .dStart => 6
  | .dOne => 5
  | .dBoth => 4
  | .dFlush => 3
  | .dWait => 2
  | .dReturned => 1
  | .dDestroyed => 0
  | .crashed => 0

def State.weight (s : State V) : Nat :=
  (s.threads.map Pc.weight).sum + (s.conns.filter s.slotUp).length

theorem sum_set {l : List (Pc V)} {i : Nat} {pc pc' : Pc V} (hi : l[i]? = some pc) :
    ((l.set i pc').map Pc.weight).sum + pc.weight = (l.map Pc.weight).sum + pc'.weight := by
  induction l generalizing i with
  | nil => simp at hi
  | cons a l ih =>
    cases i with
    | zero =>
      simp only [List.getElem?_cons_zero, Option.some.injEq] at hi
      subst hi
      simp; omega
    | succ i =>
      simp only [List.getElem?_cons_succ] at hi
      have := ih hi
      simp only [List.set_cons_succ, List.map_cons, List.sum_cons] at this ⊢
      omega

theorem move_weight {s s' : State V} {i : Nat} {pc pc' : Pc V} (hi : s.threads[i]? = some pc)
    (hs : s'.threads = s.threads.set i pc')
    (hc : (s'.conns.filter s'.slotUp).length ≤ (s.conns.filter s.slotUp).length)
    (hw : pc'.weight < pc.weight) : s'.weight < s.weight := by
  have := sum_set (pc' := pc') hi
  unfold State.weight
  rw [hs]; omega

theorem Step.decreases {s s' : State V} (h : Step s s') : s'.weight < s.weight := by
  cases h with
  | asyncLaunch i c m msgs hi hm hd hl hc =>
    have := sum_set (pc' := .sTrim c msgs) hi
    simp only [State.weight, List.map_append, List.sum_append, List.map_cons, List.map_nil,
      List.sum_cons, List.sum_nil]
    simp only [Pc.weight] at this ⊢
    omega
  | discSlot i c hi hc hu =>
    unfold State.weight
    have : ((s.conns.filter (fun k => if k = c then false else s.slotUp k))).length <
        (s.conns.filter s.slotUp).length := by
      have e : s.conns.filter (fun k => if k = c then false else s.slotUp k) =
          (s.conns.filter s.slotUp).filter (fun k => decide (k ≠ c)) := by
        rw [List.filter_filter]
        congr 1
        funext k
        by_cases hk : k = c <;> simp [hk]
      rw [e]
      apply List.length_filter_lt_length_iff_exists.mpr
      exact ⟨c, List.mem_filter.mpr ⟨hc, hu⟩, by simp⟩
    simp only
    omega
  | prodErase i c hi hc =>
    refine move_weight hi rfl ?_ (by simp [Pc.weight])
    simp only [List.filter_filter]
    have : (s.conns.filter fun a => (if a = c then false else s.slotUp a) && decide (a ≠ c)) =
        (s.conns.filter s.slotUp).filter (fun a => decide (a ≠ c)) := by
      rw [List.filter_filter]
      congr 1
      funext k
      by_cases hk : k = c <;> simp [hk]
    rw [this]
    exact List.length_filter_le _ _
  | discClear i hi hc => exact move_weight hi rfl (by simp) (by simp [Pc.weight])
  | useAfterFree i pc hi hp hd =>
    refine move_weight hi rfl (Nat.le_refl _) ?_
    cases pc <;> simp_all [Pc.inSlot, Pc.weight]
  | emit i c m msgs hi hu => exact move_weight hi rfl (Nat.le_refl _) (by simp [Pc.weight]; omega)
  | emitNot i c m msgs hi hu => exact move_weight hi rfl (Nat.le_refl _) (by simp [Pc.weight])
  | syncEnter i c m msgs hi hm hd hl hc => exact move_weight hi rfl (Nat.le_refl _) (by simp [Pc.weight])
  | syncSkip i c m msgs hi hm hd hl hc => exact move_weight hi rfl (Nat.le_refl _) (by simp [Pc.weight])
  | syncLeave i c m msgs hi => exact move_weight hi rfl (Nat.le_refl _) (by simp [Pc.weight])
  | asyncSkip i c m msgs hi hm hd hl hc => exact move_weight hi rfl (Nat.le_refl _) (by simp [Pc.weight])
  | trim i c msgs removed rest hi hd hl hq hr => exact move_weight hi rfl (Nat.le_refl _) (by simp [Pc.weight])
  | taskStart i m hi => exact move_weight hi rfl (Nat.le_refl _) (by simp [Pc.weight])
  | taskEnd i m hi => exact move_weight hi rfl (Nat.le_refl _) (by simp [Pc.weight])
  | flushEmit i c hi hu => exact move_weight hi rfl (Nat.le_refl _) (by simp [Pc.weight])
  | flushEmitNot i c hi hu => exact move_weight hi rfl (Nat.le_refl _) (by simp [Pc.weight])
  | flushLock i c hi hd hl => exact move_weight hi rfl (Nat.le_refl _) (by simp [Pc.weight])
  | flushWait i c hi hq => exact move_weight hi rfl (Nat.le_refl _) (by simp [Pc.weight])
  | prodEmit i c hi hu => exact move_weight hi rfl (Nat.le_refl _) (by simp [Pc.weight])
  | prodEmitNot i c hi hu => exact move_weight hi rfl (Nat.le_refl _) (by simp [Pc.weight])
  | prodLock1 i c hi hd hl => exact move_weight hi rfl (Nat.le_refl _) (by simp [Pc.weight])
  | prodLock2 i c hi hl hr => exact move_weight hi rfl (Nat.le_refl _) (by simp [Pc.weight])
  | prodEnd i c hi hc => exact move_weight hi rfl (Nat.le_refl _) (by simp [Pc.weight])
  | discLock1 i hi hl => exact move_weight hi rfl (Nat.le_refl _) (by simp [Pc.weight])
  | discLock2 i hi hl hr => exact move_weight hi rfl (Nat.le_refl _) (by simp [Pc.weight])
  | discFlush i hi hl => exact move_weight hi rfl (Nat.le_refl _) (by simp [Pc.weight])
  | discWait i hi hq => exact move_weight hi rfl (Nat.le_refl _) (by simp [Pc.weight])
  | destroy i hi => exact move_weight hi rfl (Nat.le_refl _) (by simp [Pc.weight])

end SampleFlow.Disconnect
