import Verif.Proofs.Connect
import Verif.Proofs.ConnectProgress

/-!
# C81: connecting a consumer while producers are sampling
-/

namespace SampleFlow.Connect

variable {V : Type}

/-- what a sending thread has still to issue -/
def Pc.left : Pc V → List V
  | .sIdle _ l => l
  | .sSlot _ _ l => l
  | .sRead _ _ l => l
  | .sConsume _ _ l => l
  | _ => []

/-- nothing is issued twice or left out -/
theorem sent_left {s0 s : State V} (hs : Steps s0 s) (h0 : ∀ i, s0.sent i = []) (i c : Nat) (all : List V)
    (hi : s0.threads[i]? = some (.sIdle c all)) :
    ∃ pc, s.threads[i]? = some pc ∧ pc.conn = some c ∧ all = s.sent i ++ pc.left := by
  induction hs with
  | refl => exact ⟨_, hi, rfl, by rw [h0]; rfl⟩
  | @tail s s' _ hs ih =>
    obtain ⟨pc, h1, h2, h3⟩ := ih
    have move : ∀ (k : Nat) (pc' pk : Pc V) (s'' : State V), s.threads[k]? = some pk → s''.threads = (s.goto k pc').threads →
        (k = i → pc'.conn = pk.conn ∧ s''.sent i ++ pc'.left = s.sent i ++ pk.left) → (k ≠ i → s''.sent i = s.sent i) →
        ∃ pc, s''.threads[i]? = some pc ∧ pc.conn = some c ∧ all = s''.sent i ++ pc.left := by
      intro k pc' pk s'' hpk e1 e2 e3
      rw [e1, get_goto s k i _ _ hpk]
      by_cases hk : i = k
      · rw [if_pos hk]
        subst hk
        rw [h1] at hpk; cases hpk
        obtain ⟨e4, e5⟩ := e2 rfl
        exact ⟨pc', rfl, by rw [e4, h2], by rw [h3, e5]⟩
      · rw [if_neg hk]
        exact ⟨pc, h1, h2, by rw [e3 (fun h => hk h.symm)]; exact h3⟩
    cases hs with
    | emit k c' m msgs hi hu =>
      refine move k _ _ _ hi rfl (fun h => ⟨rfl, ?_⟩) (fun h => record_other _ (fun h' => h h'.symm) _)
      subst h
      show record s.sent k m k ++ msgs = s.sent k ++ (m :: msgs)
      rw [record_same]; simp
    | emitNot k c' m msgs hi hu =>
      refine move k _ _ _ hi rfl (fun h => ⟨rfl, ?_⟩) (fun h => record_other _ (fun h' => h h'.symm) _)
      subst h
      show record s.sent k m k ++ msgs = s.sent k ++ (m :: msgs)
      rw [record_same]; simp
    | lockSync k c' m msgs hi hm => exact move k _ _ _ hi rfl (fun _ => ⟨rfl, rfl⟩) (fun _ => rfl)
    | lockAsync k c' m msgs hi hm hl => exact move k _ _ _ hi rfl (fun _ => ⟨rfl, rfl⟩) (fun _ => rfl)
    | skip k c' m msgs hi hcs => exact move k _ _ _ hi rfl (fun _ => ⟨rfl, rfl⟩) (fun _ => rfl)
    | consume k c' m msgs hi hm hcs => exact move k _ _ _ hi rfl (fun _ => ⟨rfl, rfl⟩) (fun _ => rfl)
    | leave k c' m msgs hi => exact move k _ _ _ hi rfl (fun _ => ⟨rfl, rfl⟩) (fun _ => rfl)
    | launch k c' m msgs hi hm hcs => exact move k _ _ _ hi rfl (fun _ => ⟨rfl, rfl⟩) (fun _ => rfl)
    | connect k c' hi => exact move k _ _ _ hi rfl (fun _ => ⟨rfl, rfl⟩) (fun _ => rfl)
    | insertBegin k c' hi => exact move k _ _ _ hi rfl (fun _ => ⟨rfl, rfl⟩) (fun _ => rfl)
    | insertEnd k c' hi => exact move k _ _ _ hi rfl (fun _ => ⟨rfl, rfl⟩) (fun _ => rfl)

/-- **C81**, as far as the order of events is concerned (see `C81_violation_race` for what is missing): if a consumer is connected to a
producer while threads issue samples, then, under every schedule, of the samples `all` that a thread issues the consumer receives, in order, all from
some moment on and none before. -/
theorem C81_suffix_partial (isAsync : Bool) (conns : List Nat) (threads : List (Pc V)) (hf : ∀ pc ∈ threads, pc.fresh = true)
    (s : State V) (hs : Steps (initial isAsync conns threads) s) (i c : Nat) (all msgs : List V)
    (h0 : threads[i]? = some (.sIdle c all)) (hi : s.threads[i]? = some (.sIdle c msgs)) :
    ∃ early, all = early ++ s.got i ++ msgs := by
  obtain ⟨-, ⟨early, h2⟩, -⟩ := (Inv.start isAsync conns threads hf).steps hs i _ c hi rfl
  obtain ⟨pc, h3, -, h4⟩ := sent_left hs (fun _ => rfl) i c all h0
  rw [hi] at h3; cases h3
  exact ⟨early, by rw [h4, h2]; simp [Pc.inSlot, Pc.left]⟩

/-- **C81**, likewise: after a call of `connect_to_producer` has returned, the consumer receives everything that is issued through this
connection: if `msgs1` are the samples a thread has yet to issue then, and `msgs2` at a later moment, the consumer has received those in between. -/
theorem C81_after_return_partial (isAsync : Bool) (conns : List Nat) (threads : List (Pc V)) (hf : ∀ pc ∈ threads, pc.fresh = true)
    (s1 s2 : State V) (h1 : Steps (initial isAsync conns threads) s1) (h2 : Steps s1 s2) (j c : Nat)
    (hj : s1.threads[j]? = some (.cDone c)) (i : Nat) (all msgs1 msgs2 : List V) (h0 : threads[i]? = some (.sIdle c all))
    (hi1 : s1.threads[i]? = some (.sIdle c msgs1)) (hi2 : s2.threads[i]? = some (.sIdle c msgs2)) :
    ∃ l, msgs1 = l ++ msgs2 ∧ s2.got i = s1.got i ++ l := by
  obtain ⟨d1, d2⟩ := (DoneInv.start isAsync conns threads hf).steps h1
  have hc := (d2 j _ hj c).2 rfl
  have hcomp : Complete s1 c := ⟨d1 c hc, fun h => by rw [h] at hc; cases hc⟩
  obtain ⟨pc, l, f1, f2, f3, f4⟩ := Following.steps h2 hcomp _ hi1 rfl rfl
  rw [hi2] at f1; cases f1
  obtain ⟨pc1, a1, -, a3⟩ := sent_left h1 (fun _ => rfl) i c all h0
  rw [hi1] at a1; cases a1
  obtain ⟨pc2, b1, -, b3⟩ := sent_left (h1.trans h2) (fun _ => rfl) i c all h0
  rw [hi2] at b1; cases b1
  refine ⟨l, ?_, f4⟩
  rw [a3, f3] at b3
  simp only [Pc.left, Pc.inSlot, List.append_nil, List.append_assoc] at b3
  exact List.append_cancel_left b3

/-- **C81**: no data race on the list of connections if nothing is being connected while samples are issued. -/
theorem C81_no_race_partial (isAsync : Bool) (conns : List Nat) (threads : List (Pc V))
    (hf : ∀ pc ∈ threads, ∃ c msgs, pc = .sIdle c msgs) (s : State V) (hs : Steps (initial isAsync conns threads) s) : ¬ Race s := by
  have inv : ∀ (i : Nat) (pc : Pc V), s.threads[i]? = some pc → pc.conn ≠ none := by
    induction hs with
    | refl =>
      intro i pc hi
      obtain ⟨c, msgs, rfl⟩ := hf pc (List.mem_of_getElem? hi)
      simp [Pc.conn]
    | @tail s s' _ hs ih =>
      have move : ∀ (k : Nat) (pc' pk : Pc V) (s'' : State V), s.threads[k]? = some pk → s''.threads = (s.goto k pc').threads →
          pc'.conn ≠ none → ∀ (i : Nat) (pc : Pc V), s''.threads[i]? = some pc → pc.conn ≠ none := by
        intro k pc' pk s'' hpk e1 e2 i pc hi
        rw [e1, get_goto s k i _ _ hpk] at hi
        by_cases hk : i = k
        · rw [if_pos hk] at hi; cases hi; exact e2
        · rw [if_neg hk] at hi; exact ih i pc hi
      cases hs with
      | emit k c' m msgs hi hu => exact move k _ _ _ hi rfl (by simp [Pc.conn])
      | emitNot k c' m msgs hi hu => exact move k _ _ _ hi rfl (by simp [Pc.conn])
      | lockSync k c' m msgs hi hm => exact move k _ _ _ hi rfl (by simp [Pc.conn])
      | lockAsync k c' m msgs hi hm hl => exact move k _ _ _ hi rfl (by simp [Pc.conn])
      | skip k c' m msgs hi hcs => exact move k _ _ _ hi rfl (by simp [Pc.conn])
      | consume k c' m msgs hi hm hcs => exact move k _ _ _ hi rfl (by simp [Pc.conn])
      | leave k c' m msgs hi => exact move k _ _ _ hi rfl (by simp [Pc.conn])
      | launch k c' m msgs hi hm hcs => exact move k _ _ _ hi rfl (by simp [Pc.conn])
      | connect k c' hi => exact absurd rfl (ih k _ hi)
      | insertBegin k c' hi => exact absurd rfl (ih k _ hi)
      | insertEnd k c' hi => exact absurd rfl (ih k _ hi)
  rintro ⟨i, -, -, ⟨c, hi⟩, -⟩
  exact inv i _ hi rfl

/-- one step of the lock, in either mode -/
theorem lock_step (s : State V) (i c : Nat) (m : V) (msgs : List V) (hi : s.threads[i]? = some (.sSlot c m msgs)) (hl : s.asyncLock = none) :
    ∃ s', Step s s' ∧ s'.threads = (s.goto i (.sRead c m msgs)).threads := by
  cases hm : s.isAsync with
  | false => exact ⟨_, .lockSync i c m msgs hi hm, rfl⟩
  | true => exact ⟨_, .lockAsync i c m msgs hi hm hl, rfl⟩

/-- **C81**: there is no deadlock and no endless loop: no schedule goes on for ever, and when nothing can happen any more all samples have been issued and
all calls of `connect_to_producer` have returned. -/
theorem C81_terminates_partial (isAsync : Bool) (conns : List Nat) (threads : List (Pc V)) :
    (¬ ∃ run : Nat → State V, run 0 = initial isAsync conns threads ∧ ∀ n, Step (run n) (run (n+1))) ∧
    ∀ s, Steps (initial isAsync conns threads) s → (∀ s', ¬ Step s s') → ∀ pc ∈ s.threads, (∃ c, pc = .sIdle c []) ∨ ∃ c, pc = .cDone c := by
  refine ⟨?_, fun s hs hst => stuck_finished (reachable_lock hs) hst⟩
  rintro ⟨run, -, h⟩
  have dec : ∀ n, (run n).weight + n ≤ (run 0).weight := by
    intro n
    induction n with
    | zero => exact Nat.le_refl _
    | succ n ih => have := (h n).weight_lt; omega
  have := dec ((run 0).weight + 1)
  omega

/-- **C81, violation**: a consumer (in either mode) that receives samples from one producer is connected to a second one: the insertion into the
list of connections and the look at its size in the slot can happen at the same time, a data race. -/
theorem C81_violation_race (isAsync : Bool) (m : V) :
    ∃ s, Steps (initial isAsync [0] [.sIdle 0 [m], .cStart 1]) s ∧ Race s := by
  let s0 : State V := initial isAsync [0] [.sIdle 0 [m], .cStart 1]
  let s1 : State V := { s0.goto 1 (.cUp 1) with up := fun k => if k = 1 then true else s0.up k }
  let s2 : State V := s1.goto 1 (.cInsert 1)
  let s3 : State V := { s2.goto 0 (.sSlot 0 m []) with sent := record s2.sent 0 m }
  have e1 : Step s0 s1 := .connect 1 1 rfl
  have e2 : Step s1 s2 := .insertBegin 1 1 rfl
  have e3 : Step s2 s3 := .emit 0 0 m [] rfl (by simp [s2, s1, s0, State.goto, initial])
  obtain ⟨s4, e4, h4⟩ := lock_step s3 0 0 m [] rfl rfl
  refine ⟨s4, (((Relation.ReflTransGen.single e1).tail e2).tail e3).tail e4, 1, 0, by decide, ⟨1, ?_⟩, .inr ⟨0, m, [], ?_⟩⟩
  · rw [h4]; rfl
  · rw [h4]; rfl

/-- **C81, violation**: the same when a consumer without connections is connected to a producer that is sampling. -/
theorem C81_violation_race_first (isAsync : Bool) (m : V) :
    ∃ s, Steps (initial isAsync [] [.sIdle 0 [m], .cStart 0]) s ∧ Race s := by
  let s0 : State V := initial isAsync [] [.sIdle 0 [m], .cStart 0]
  let s1 : State V := { s0.goto 1 (.cUp 0) with up := fun k => if k = 0 then true else s0.up k }
  let s2 : State V := s1.goto 1 (.cInsert 0)
  let s3 : State V := { s2.goto 0 (.sSlot 0 m []) with sent := record s2.sent 0 m }
  have e1 : Step s0 s1 := .connect 1 0 rfl
  have e2 : Step s1 s2 := .insertBegin 1 0 rfl
  have e3 : Step s2 s3 := .emit 0 0 m [] rfl (by simp [s2, s1, State.goto])
  obtain ⟨s4, e4, h4⟩ := lock_step s3 0 0 m [] rfl rfl
  refine ⟨s4, (((Relation.ReflTransGen.single e1).tail e2).tail e3).tail e4, 1, 0, by decide, ⟨0, ?_⟩, .inr ⟨0, m, [], ?_⟩⟩
  · rw [h4]; rfl
  · rw [h4]; rfl

/-- **C81, violation**: and when two threads connect the consumer to two producers. -/
theorem C81_violation_two_connections (isAsync : Bool) :
    ∃ s : State V, Steps (initial isAsync [] [.cStart 0, .cStart 1]) s ∧ Race s := by
  let s0 : State V := initial isAsync [] [.cStart 0, .cStart 1]
  let s1 : State V := { s0.goto 0 (.cUp 0) with up := fun k => if k = 0 then true else s0.up k }
  let s2 : State V := s1.goto 0 (.cInsert 0)
  let s3 : State V := { s2.goto 1 (.cUp 1) with up := fun k => if k = 1 then true else s2.up k }
  let s4 : State V := s3.goto 1 (.cInsert 1)
  have e1 : Step s0 s1 := .connect 0 0 rfl
  have e2 : Step s1 s2 := .insertBegin 0 0 rfl
  have e3 : Step s2 s3 := .connect 1 1 rfl
  have e4 : Step s3 s4 := .insertBegin 1 1 rfl
  exact ⟨s4, (((Relation.ReflTransGen.single e1).tail e2).tail e3).tail e4, 1, 0, by decide, ⟨1, rfl⟩, .inl ⟨0, rfl⟩⟩

/-! ### example -/

/-- A consumer that is connected between the first and the second of three samples: the first one is issued before, the second one reaches the slot
before the insertion and is dropped, the third one is received. -/
example : ∃ s : State Nat, Steps (initial false [] [.sIdle 0 [1, 2, 3], .cStart 0]) s ∧ s.threads[0]? = some (.sIdle 0 []) ∧ s.got 0 = [3] := by
  let s0 : State Nat := initial false [] [.sIdle 0 [1, 2, 3], .cStart 0]
  let s1 : State Nat := { s0.goto 0 (.sIdle 0 [2, 3]) with sent := record s0.sent 0 1 }
  let s2 : State Nat := { s1.goto 1 (.cUp 0) with up := fun k => if k = 0 then true else s1.up k }
  let s3 : State Nat := { s2.goto 0 (.sSlot 0 2 [3]) with sent := record s2.sent 0 2 }
  let s4 : State Nat := s3.goto 0 (.sRead 0 2 [3])
  let s5 : State Nat := { s4.goto 0 (.sIdle 0 [3]) with asyncLock := none }
  let s6 : State Nat := s5.goto 1 (.cInsert 0)
  let s7 : State Nat := { s6.goto 1 (.cDone 0) with conns := s6.conns ++ [0] }
  let s8 : State Nat := { s7.goto 0 (.sSlot 0 3 []) with sent := record s7.sent 0 3 }
  let s9 : State Nat := s8.goto 0 (.sRead 0 3 [])
  let s10 : State Nat := { s9.goto 0 (.sConsume 0 3 []) with got := record s9.got 0 3 }
  let s11 : State Nat := s10.goto 0 (.sIdle 0 [])
  have e1 : Step s0 s1 := .emitNot 0 0 1 [2, 3] rfl rfl
  have e2 : Step s1 s2 := .connect 1 0 rfl
  have e3 : Step s2 s3 := .emit 0 0 2 [3] rfl rfl
  have e4 : Step s3 s4 := .lockSync 0 0 2 [3] rfl rfl
  have e5 : Step s4 s5 := .skip 0 0 2 [3] rfl rfl
  have e6 : Step s5 s6 := .insertBegin 1 0 rfl
  have e7 : Step s6 s7 := .insertEnd 1 0 rfl
  have e8 : Step s7 s8 := .emit 0 0 3 [] rfl rfl
  have e9 : Step s8 s9 := .lockSync 0 0 3 [] rfl rfl
  have e10 : Step s9 s10 := .consume 0 0 3 [] rfl rfl (by simp [s9, s8, s7, State.goto])
  have e11 : Step s10 s11 := .leave 0 0 3 [] rfl
  exact ⟨s11, ((((((((((Relation.ReflTransGen.single e1).tail e2).tail e3).tail e4).tail e5).tail e6).tail e7).tail e8).tail e9).tail e10).tail e11,
    rfl, rfl⟩

/-! ### Instances: concrete cases that meet the hypotheses of the theorems above -/

example (s : State Nat) (hs : Steps (initial false [] [.sIdle 0 [1, 2, 3], .cStart 0]) s) (msgs : List Nat) :=
  C81_suffix_partial false [] [.sIdle 0 [1, 2, 3], .cStart 0] (by simp [Pc.fresh]) s hs 0 0 [1, 2, 3] msgs rfl
example (s1 s2 : State Nat) (h1 : Steps (initial false [] [.sIdle 0 [1, 2, 3], .cStart 0]) s1) (h2 : Steps s1 s2) (hj : s1.threads[1]? = some (.cDone 0)) (msgs1 msgs2 : List Nat) :=
  C81_after_return_partial false [] [.sIdle 0 [1, 2, 3], .cStart 0] (by simp [Pc.fresh]) s1 s2 h1 h2 1 0 hj 0 [1, 2, 3] msgs1 msgs2 rfl
example (s : State Nat) (hs : Steps (initial true [0, 1] [.sIdle 0 [1, 2, 3], .sIdle 1 [4]]) s) := C81_no_race_partial true [0, 1] [.sIdle 0 [1, 2, 3], .sIdle 1 [4]] (by simp) s hs

end SampleFlow.Connect
