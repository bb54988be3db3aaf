import Verif.Model.Connect
import Mathlib.Data.List.Basic

namespace SampleFlow.Connect

variable {V : Type}

/-- the connection used by a sending thread -/
def Pc.conn : Pc V → Option Nat
  | .sIdle c _ => some c
  | .sSlot c _ _ => some c
  | .sRead c _ _ => some c
  | .sConsume c _ _ => some c
  | _ => none

/-- the message in the slot that has not been received yet -/
def Pc.inSlot : Pc V → List V
  | .sSlot _ m _ => [m]
  | .sRead _ m _ => [m]
  | _ => []

theorem record_same (l : Nat → List V) (i : Nat) (m : V) : record l i m i = l i ++ [m] := by simp [record]

theorem record_other (l : Nat → List V) {i k : Nat} (h : k ≠ i) (m : V) : record l i m k = l k := by simp [record, h]

/-- what holds for every sending thread -/
def Inv (s : State V) : Prop :=
  ∀ (i : Nat) (pc : Pc V) (c : Nat), s.threads[i]? = some pc → pc.conn = some c →
    (s.got i ≠ [] → s.conns ≠ [] ∧ s.up c = true) ∧
    (∃ early, s.sent i = early ++ s.got i ++ pc.inSlot) ∧ (pc.inSlot ≠ [] → s.up c = true)

theorem get_goto (s : State V) (i k : Nat) (pc pc' : Pc V) (hi : s.threads[i]? = some pc') :
    (s.goto i pc).threads[k]? = if k = i then some pc else s.threads[k]? := by
  have hlt := (List.getElem?_eq_some_iff.mp hi).1
  unfold State.goto
  simp only [List.getElem?_set]
  by_cases h : i = k
  · subst h; simp [hlt]
  · rw [if_neg h, if_neg (fun h' => h h'.symm)]

theorem Inv.step {s s' : State V} (h : Inv s) (hs : Step s s') : Inv s' := by
  cases hs with
  | emit i c m msgs hi hu =>
    intro k pc c' hk hc
    rw [show ({ s.goto i (.sSlot c m msgs) with sent := record s.sent i m } : State V).threads = (s.goto i (.sSlot c m msgs)).threads from rfl,
      get_goto s i k _ _ hi] at hk
    by_cases hki : k = i
    · rw [if_pos hki] at hk; cases hk; cases hc; subst hki
      obtain ⟨h1, ⟨e, h2⟩, h3⟩ := h k _ c hi rfl
      refine ⟨h1, ⟨e, ?_⟩, fun _ => hu⟩
      show record s.sent k m k = e ++ s.got k ++ [m]
      rw [record_same, h2]; simp [Pc.inSlot]
    · rw [if_neg hki] at hk
      obtain ⟨h1, ⟨e, h2⟩, h3⟩ := h k pc c' hk hc
      exact ⟨h1, ⟨e, by show record s.sent i m k = _; rw [record_other _ hki]; exact h2⟩, h3⟩
  | emitNot i c m msgs hi hu =>
    intro k pc c' hk hc
    rw [show ({ s.goto i (.sIdle c msgs) with sent := record s.sent i m } : State V).threads = (s.goto i (.sIdle c msgs)).threads from rfl,
      get_goto s i k _ _ hi] at hk
    by_cases hki : k = i
    · rw [if_pos hki] at hk; cases hk; cases hc; subst hki
      obtain ⟨h1, ⟨e, h2⟩, h3⟩ := h k _ c hi rfl
      have hg : s.got k = [] := by
        by_contra hne
        have := (h1 hne).2
        rw [hu] at this; cases this
      refine ⟨h1, ⟨s.sent k ++ [m], ?_⟩, fun hne => absurd rfl hne⟩
      show record s.sent k m k = _ ++ s.got k ++ []
      rw [record_same, hg]; simp
    · rw [if_neg hki] at hk
      obtain ⟨h1, ⟨e, h2⟩, h3⟩ := h k pc c' hk hc
      exact ⟨h1, ⟨e, by show record s.sent i m k = _; rw [record_other _ hki]; exact h2⟩, h3⟩
  | lockSync i c m msgs hi hm =>
    intro k pc c' hk hc
    rw [get_goto s i k _ _ hi] at hk
    by_cases hki : k = i
    · rw [if_pos hki] at hk; cases hk; cases hc; subst hki
      exact h k (.sSlot c m msgs) c hi rfl
    · rw [if_neg hki] at hk
      exact h k pc c' hk hc
  | lockAsync i c m msgs hi hm hl =>
    intro k pc c' hk hc
    rw [show ({ s.goto i (.sRead c m msgs) with asyncLock := some i } : State V).threads = (s.goto i (.sRead c m msgs)).threads from rfl,
      get_goto s i k _ _ hi] at hk
    by_cases hki : k = i
    · rw [if_pos hki] at hk; cases hk; cases hc; subst hki
      exact h k (.sSlot c m msgs) c hi rfl
    · rw [if_neg hki] at hk
      exact h k pc c' hk hc
  | skip i c m msgs hi hcs =>
    intro k pc c' hk hc
    rw [show ({ s.goto i (.sIdle c msgs) with asyncLock := none } : State V).threads = (s.goto i (.sIdle c msgs)).threads from rfl,
      get_goto s i k _ _ hi] at hk
    by_cases hki : k = i
    · rw [if_pos hki] at hk; cases hk; cases hc; subst hki
      obtain ⟨h1, ⟨e, h2⟩, h3⟩ := h k _ c hi rfl
      have hg : s.got k = [] := by
        by_contra hne
        exact (h1 hne).1 hcs
      refine ⟨h1, ⟨s.sent k, ?_⟩, fun hne => absurd rfl hne⟩
      show s.sent k = s.sent k ++ s.got k ++ []
      rw [hg]; simp
    · rw [if_neg hki] at hk
      exact h k pc c' hk hc
  | consume i c m msgs hi hm hcs =>
    intro k pc c' hk hc
    rw [show ({ s.goto i (.sConsume c m msgs) with got := record s.got i m } : State V).threads = (s.goto i (.sConsume c m msgs)).threads from rfl,
      get_goto s i k _ _ hi] at hk
    by_cases hki : k = i
    · rw [if_pos hki] at hk; cases hk; cases hc; subst hki
      obtain ⟨h1, ⟨e, h2⟩, h3⟩ := h k _ c hi rfl
      refine ⟨fun _ => ⟨hcs, h3 (by simp [Pc.inSlot])⟩, ⟨e, ?_⟩, fun hne => absurd rfl hne⟩
      show s.sent k = e ++ record s.got k m k ++ []
      rw [record_same, h2]; simp [Pc.inSlot]
    · rw [if_neg hki] at hk
      obtain ⟨h1, ⟨e, h2⟩, h3⟩ := h k pc c' hk hc
      have : record s.got i m k = s.got k := record_other _ hki _
      refine ⟨?_, ⟨e, ?_⟩, h3⟩
      · show record s.got i m k ≠ [] → _
        rw [this]; exact h1
      · show s.sent k = e ++ record s.got i m k ++ _
        rw [this]; exact h2
  | leave i c m msgs hi =>
    intro k pc c' hk hc
    rw [get_goto s i k _ _ hi] at hk
    by_cases hki : k = i
    · rw [if_pos hki] at hk; cases hk; cases hc; subst hki
      exact h k (.sConsume c m msgs) c hi rfl
    · rw [if_neg hki] at hk
      exact h k pc c' hk hc
  | launch i c m msgs hi hm hcs =>
    intro k pc c' hk hc
    rw [show ({ s.goto i (.sIdle c msgs) with asyncLock := none, got := record s.got i m } : State V).threads =
        (s.goto i (.sIdle c msgs)).threads from rfl,
      get_goto s i k _ _ hi] at hk
    by_cases hki : k = i
    · rw [if_pos hki] at hk; cases hk; cases hc; subst hki
      obtain ⟨h1, ⟨e, h2⟩, h3⟩ := h k _ c hi rfl
      refine ⟨fun _ => ⟨hcs, h3 (by simp [Pc.inSlot])⟩, ⟨e, ?_⟩, fun hne => absurd rfl hne⟩
      show s.sent k = e ++ record s.got k m k ++ []
      rw [record_same, h2]; simp [Pc.inSlot]
    · rw [if_neg hki] at hk
      obtain ⟨h1, ⟨e, h2⟩, h3⟩ := h k pc c' hk hc
      have : record s.got i m k = s.got k := record_other _ hki _
      refine ⟨?_, ⟨e, ?_⟩, h3⟩
      · show record s.got i m k ≠ [] → _
        rw [this]; exact h1
      · show s.sent k = e ++ record s.got i m k ++ _
        rw [this]; exact h2
  | connect i c hi =>
    intro k pc c' hk hc
    rw [show ({ s.goto i (.cUp c) with up := fun k => if k = c then true else s.up k } : State V).threads = (s.goto i (.cUp c)).threads from rfl,
      get_goto s i k _ _ hi] at hk
    by_cases hki : k = i
    · rw [if_pos hki] at hk; cases hk; cases hc
    · rw [if_neg hki] at hk
      obtain ⟨h1, ⟨e, h2⟩, h3⟩ := h k pc c' hk hc
      have hup : ∀ c', s.up c' = true → (if c' = c then true else s.up c') = true := by
        intro c' h; by_cases h' : c' = c <;> simp [h', h]
      exact ⟨fun hne => ⟨(h1 hne).1, hup _ (h1 hne).2⟩, ⟨e, h2⟩, fun hne => hup _ (h3 hne)⟩
  | insertBegin i c hi =>
    intro k pc c' hk hc
    rw [get_goto s i k _ _ hi] at hk
    by_cases hki : k = i
    · rw [if_pos hki] at hk; cases hk; cases hc
    · rw [if_neg hki] at hk
      exact h k pc c' hk hc
  | insertEnd i c hi =>
    intro k pc c' hk hc
    rw [show ({ s.goto i (.cDone c) with conns := s.conns ++ [c] } : State V).threads = (s.goto i (.cDone c)).threads from rfl,
      get_goto s i k _ _ hi] at hk
    by_cases hki : k = i
    · rw [if_pos hki] at hk; cases hk; cases hc
    · rw [if_neg hki] at hk
      obtain ⟨h1, h2, h3⟩ := h k pc c' hk hc
      exact ⟨fun hne => ⟨by simp, (h1 hne).2⟩, h2, h3⟩

theorem Inv.start (isAsync : Bool) (conns : List Nat) (threads : List (Pc V)) (hf : ∀ pc ∈ threads, pc.fresh = true) :
    Inv (initial isAsync conns threads) := by
  intro i pc c hi hc
  have := hf pc (List.mem_of_getElem? hi)
  refine ⟨fun h => absurd rfl h, ⟨[], ?_⟩, ?_⟩
  · cases pc <;> simp_all [Pc.fresh, Pc.inSlot, initial]
  · cases pc <;> simp_all [Pc.fresh, Pc.inSlot]

theorem Inv.steps {s s' : State V} (h : Inv s) (hs : Steps s s') : Inv s' := by
  induction hs with
  | refl => exact h
  | tail _ hs ih => exact ih.step hs

/-- connected, and known to be: every message is received -/
def Complete (s : State V) (c : Nat) : Prop := s.up c = true ∧ s.conns ≠ []

/-- between `s1` and `s` thread `i` has received what it has sent, except what is in its slot -/
def Following (s1 s : State V) (i : Nat) (c : Nat) : Prop :=
  ∃ (pc : Pc V) (l : List V), s.threads[i]? = some pc ∧ pc.conn = some c ∧ s.sent i = s1.sent i ++ l ++ pc.inSlot ∧ s.got i = s1.got i ++ l

theorem Complete.step {s s' : State V} {c : Nat} (h : Complete s c) (hs : Step s s') : Complete s' c := by
  obtain ⟨h1, h2⟩ := h
  cases hs with
  | connect i c' hi => exact ⟨by show (if c = c' then true else s.up c) = true; split <;> simp_all, h2⟩
  | insertEnd i c' hi => exact ⟨h1, by show s.conns ++ [c'] ≠ []; simp⟩
  | _ => exact ⟨h1, h2⟩

theorem Following.step {s1 s s' : State V} {i c : Nat} (hc : Complete s c) (h : Following s1 s i c) (hs : Step s s') :
    Following s1 s' i c := by
  obtain ⟨pc, l, h1, h2, h3, h4⟩ := h
  -- a step of another thread
  have other : ∀ (k : Nat) (pc' pk : Pc V) (s'' : State V), k ≠ i → s.threads[k]? = some pk → s''.threads = (s.goto k pc').threads →
      s''.sent i = s.sent i → s''.got i = s.got i → Following s1 s'' i c := by
    intro k pc' pk s'' hk hpk e1 e2 e3
    refine ⟨pc, l, ?_, h2, by rw [e2, h3], by rw [e3, h4]⟩
    rw [e1, get_goto s k i _ _ hpk, if_neg (fun h => hk h.symm)]
    exact h1
  have same : ∀ (pc' pk : Pc V) (s'' : State V), s.threads[i]? = some pk → s''.threads = (s.goto i pc').threads →
      s''.threads[i]? = some pc' := by
    intro pc' pk s'' hpk e1
    rw [e1, get_goto s i i _ _ hpk, if_pos rfl]
  cases hs with
  | emit k c' m msgs hi hu =>
    by_cases hk : k = i
    · subst hk
      rw [hi] at h1; cases h1; cases h2
      refine ⟨.sSlot c m msgs, l, same _ _ _ hi rfl, rfl, ?_, h4⟩
      show record s.sent k m k = s1.sent k ++ l ++ [m]
      rw [record_same, h3]; simp [Pc.inSlot]
    · exact other k _ _ _ hk hi rfl (record_other _ (fun h => hk h.symm) _) rfl
  | emitNot k c' m msgs hi hu =>
    by_cases hk : k = i
    · subst hk
      rw [hi] at h1; cases h1; cases h2
      rw [hc.1] at hu; cases hu
    · exact other k _ _ _ hk hi rfl (record_other _ (fun h => hk h.symm) _) rfl
  | lockSync k c' m msgs hi hm =>
    by_cases hk : k = i
    · subst hk
      rw [hi] at h1; cases h1; cases h2
      exact ⟨.sRead c m msgs, l, same _ _ _ hi rfl, rfl, h3, h4⟩
    · exact other k _ _ _ hk hi rfl rfl rfl
  | lockAsync k c' m msgs hi hm hl =>
    by_cases hk : k = i
    · subst hk
      rw [hi] at h1; cases h1; cases h2
      exact ⟨.sRead c m msgs, l, same _ _ _ hi rfl, rfl, h3, h4⟩
    · exact other k _ _ _ hk hi rfl rfl rfl
  | skip k c' m msgs hi hcs => exact absurd hcs hc.2
  | consume k c' m msgs hi hm hcs =>
    by_cases hk : k = i
    · subst hk
      rw [hi] at h1; cases h1; cases h2
      refine ⟨.sConsume c m msgs, l ++ [m], same _ _ _ hi rfl, rfl, ?_, ?_⟩
      · show s.sent k = s1.sent k ++ (l ++ [m]) ++ []
        rw [h3]; simp [Pc.inSlot]
      · show record s.got k m k = _
        rw [record_same, h4]; simp
    · exact other k _ _ _ hk hi rfl rfl (record_other _ (fun h => hk h.symm) _)
  | leave k c' m msgs hi =>
    by_cases hk : k = i
    · subst hk
      rw [hi] at h1; cases h1; cases h2
      exact ⟨.sIdle c msgs, l, same _ _ _ hi rfl, rfl, h3, h4⟩
    · exact other k _ _ _ hk hi rfl rfl rfl
  | launch k c' m msgs hi hm hcs =>
    by_cases hk : k = i
    · subst hk
      rw [hi] at h1; cases h1; cases h2
      refine ⟨.sIdle c msgs, l ++ [m], same _ _ _ hi rfl, rfl, ?_, ?_⟩
      · show s.sent k = s1.sent k ++ (l ++ [m]) ++ []
        rw [h3]; simp [Pc.inSlot]
      · show record s.got k m k = _
        rw [record_same, h4]; simp
    · exact other k _ _ _ hk hi rfl rfl (record_other _ (fun h => hk h.symm) _)
  | connect k c' hi =>
    by_cases hk : k = i
    · subst hk; rw [hi] at h1; cases h1; cases h2
    · exact other k _ _ _ hk hi rfl rfl rfl
  | insertBegin k c' hi =>
    by_cases hk : k = i
    · subst hk; rw [hi] at h1; cases h1; cases h2
    · exact other k _ _ _ hk hi rfl rfl rfl
  | insertEnd k c' hi =>
    by_cases hk : k = i
    · subst hk; rw [hi] at h1; cases h1; cases h2
    · exact other k _ _ _ hk hi rfl rfl rfl

theorem Following.steps {s1 s2 : State V} {i c : Nat} (hs : Steps s1 s2) (hc : Complete s1 c) (pc : Pc V) (h1 : s1.threads[i]? = some pc)
    (h2 : pc.conn = some c) (h3 : pc.inSlot = []) : Following s1 s2 i c := by
  suffices h : Complete s2 c ∧ Following s1 s2 i c from h.2
  induction hs with
  | refl => exact ⟨hc, pc, [], h1, h2, by simp [h3], by simp⟩
  | tail _ hs ih => exact ⟨ih.1.step hs, Following.step ih.1 ih.2 hs⟩

/-- connections that have been made stay, and those whose `connect_to_producer` has returned are there -/
def DoneInv (s : State V) : Prop :=
  (∀ c ∈ s.conns, s.up c = true) ∧
  (∀ (i : Nat) (pc : Pc V), s.threads[i]? = some pc → ∀ c, (pc = .cUp c ∨ pc = .cInsert c → s.up c = true) ∧ (pc = .cDone c → c ∈ s.conns))

theorem DoneInv.step {s s' : State V} (h : DoneInv s) (hs : Step s s') : DoneInv s' := by
  obtain ⟨h0, h1⟩ := h
  -- a thread moves to a place that is not a connecting one
  have move : ∀ (k : Nat) (pc' pk : Pc V) (s'' : State V), s.threads[k]? = some pk → s''.threads = (s.goto k pc').threads →
      s''.up = s.up → s''.conns = s.conns → (∀ c, (pc' = .cUp c ∨ pc' = .cInsert c → s.up c = true) ∧ (pc' = .cDone c → c ∈ s.conns)) →
      DoneInv s'' := by
    intro k pc' pk s'' hpk e1 e2 e3 e4
    refine ⟨by rw [e2, e3]; exact h0, ?_⟩
    intro i pc hi c
    rw [e1, get_goto s k i _ _ hpk] at hi
    rw [e2, e3]
    by_cases hik : i = k
    · rw [if_pos hik] at hi; cases hi; exact e4 c
    · rw [if_neg hik] at hi; exact h1 i pc hi c
  cases hs with
  | emit k c' m msgs hi hu => exact move k _ _ _ hi rfl rfl rfl (by simp)
  | emitNot k c' m msgs hi hu => exact move k _ _ _ hi rfl rfl rfl (by simp)
  | lockSync k c' m msgs hi hm => exact move k _ _ _ hi rfl rfl rfl (by simp)
  | lockAsync k c' m msgs hi hm hl => exact move k _ _ _ hi rfl rfl rfl (by simp)
  | skip k c' m msgs hi hcs => exact move k _ _ _ hi rfl rfl rfl (by simp)
  | consume k c' m msgs hi hm hcs => exact move k _ _ _ hi rfl rfl rfl (by simp)
  | leave k c' m msgs hi => exact move k _ _ _ hi rfl rfl rfl (by simp)
  | launch k c' m msgs hi hm hcs => exact move k _ _ _ hi rfl rfl rfl (by simp)
  | insertBegin k c' hi =>
    refine move k _ _ _ hi rfl rfl rfl (fun c => ⟨?_, by simp⟩)
    rintro (h | h)
    · cases h
    · cases h; exact (h1 k _ hi c').1 (.inl rfl)
  | connect k c' hi =>
    have hup : ∀ c, s.up c = true → (if c = c' then true else s.up c) = true := by
      intro c h; by_cases h' : c = c' <;> simp [h', h]
    refine ⟨fun c hc => hup c (h0 c hc), ?_⟩
    intro i pc hi' c
    rw [show ({ s.goto k (.cUp c') with up := fun k => if k = c' then true else s.up k } : State V).threads = (s.goto k (.cUp c')).threads from rfl,
      get_goto s k i _ _ hi] at hi'
    by_cases hik : i = k
    · rw [if_pos hik] at hi'; cases hi'
      refine ⟨?_, by simp⟩
      rintro (h | h)
      · cases h; show (if c' = c' then true else s.up c') = true; simp
      · cases h
    · rw [if_neg hik] at hi'
      exact ⟨fun h => hup c ((h1 i pc hi' c).1 h), (h1 i pc hi' c).2⟩
  | insertEnd k c' hi =>
    refine ⟨?_, ?_⟩
    · intro c hc
      rcases List.mem_append.mp hc with hc | hc
      · exact h0 c hc
      · cases List.mem_singleton.mp hc
        exact (h1 k _ hi c').1 (.inr rfl)
    · intro i pc hi' c
      rw [show ({ s.goto k (.cDone c') with conns := s.conns ++ [c'] } : State V).threads = (s.goto k (.cDone c')).threads from rfl,
        get_goto s k i _ _ hi] at hi'
      by_cases hik : i = k
      · rw [if_pos hik] at hi'; cases hi'
        refine ⟨by simp, fun h => ?_⟩
        cases h
        show c' ∈ s.conns ++ [c']
        simp
      · rw [if_neg hik] at hi'
        exact ⟨(h1 i pc hi' c).1, fun h => List.mem_append_left _ ((h1 i pc hi' c).2 h)⟩

theorem DoneInv.start (isAsync : Bool) (conns : List Nat) (threads : List (Pc V)) (hf : ∀ pc ∈ threads, pc.fresh = true) :
    DoneInv (initial isAsync conns threads) := by
  refine ⟨fun c hc => by simpa [initial] using hc, ?_⟩
  intro i pc hi c
  have := hf pc (List.mem_of_getElem? hi)
  constructor
  · rintro (rfl | rfl) <;> simp [Pc.fresh] at this
  · rintro rfl; simp [Pc.fresh] at this

theorem DoneInv.steps {s s' : State V} (h : DoneInv s) (hs : Steps s s') : DoneInv s' := by
  induction hs with
  | refl => exact h
  | tail _ hs ih => exact ih.step hs

end SampleFlow.Connect
