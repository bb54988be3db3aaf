import Verif.Spec.GraphNet
import Mathlib.Tactic.ByContra
import Mathlib.Order.Basic
import Mathlib.Order.Defs.LinearOrder
import Mathlib.Algebra.Order.Group.Nat
import Mathlib.Tactic.Push
import Mathlib.Data.List.Nodup
import Mathlib.Data.List.Induction

/-! Networks with shared components (C94): proofs. -/

namespace SampleFlow.Graph

open Spec

variable {V : Type}

theorem foldlM_cons_ok {α β : Type} {f : β → α → Except Fault β} {a : α} {l : List α} {b b' : β} (h : (a :: l).foldlM f b = .ok b') :
    ∃ m, f b a = .ok m ∧ l.foldlM f m = .ok b' := by
  rw [List.foldlM_cons] at h
  cases hb : f b a with
  | error e => rw [hb] at h; cases h
  | ok m => rw [hb] at h; exact ⟨m, rfl, h⟩

theorem foldlM_append_ok' {α β : Type} {f : β → α → Except Fault β} {l l' : List α} {b b' : β} (h : (l ++ l').foldlM f b = .ok b') :
    ∃ m, l.foldlM f b = .ok m ∧ l'.foldlM f m = .ok b' := by
  rw [List.foldlM_append] at h
  cases hb : l.foldlM f b with
  | error e => rw [hb] at h; cases h
  | ok m => rw [hb] at h; exact ⟨m, rfl, h⟩

theorem call_succ_ok {N : Net V} {d : Nat} {stack : List Nat} {L L' : Log V} {src : Source} {k n : Nat} {ev : NetEvent V} (h : N.call (d + 1) stack L src k n ev = .ok L') :
    (N.reaction n (samplesOf (L n)) ev = none ∧ L' = addEntry L n ⟨src, k, ev⟩) ∨
    ∃ y, N.reaction n (samplesOf (L n)) ev = some y ∧
      (N.outs (.node n)).zipIdx.foldlM (fun L ck => N.call d (n :: stack) L (.node n) ck.2 ck.1 y) (addEntry L n ⟨src, k, ev⟩) = .ok L' := by
  rw [Net.call] at h
  split at h
  · cases h
  · split at h
    · rename_i h1
      injection h with h
      exact .inl ⟨h1, h.symm⟩
    · rename_i y h1
      exact .inr ⟨y, h1, h⟩

theorem addEntry_self (L : Log V) (n : Nat) (e : Entry V) : addEntry L n e n = L n ++ [e] := if_pos rfl

theorem addEntry_ne (L : Log V) (n : Nat) (e : Entry V) {x : Nat} (h : x ≠ n) : addEntry L n e x = L x := if_neg h

theorem through_append (l l' : List (Entry V)) (s : Source) (j : Nat) : through (l ++ l') s j = through l s j ++ through l' s j := by
  simp [through, events]

theorem through_one (e : Entry V) (s : Source) (j : Nat) : through [e] s j = if e.src = s ∧ e.slot = j then [e.event] else [] := by
  unfold through events
  rw [List.filter_cons]
  by_cases h : e.src = s ∧ e.slot = j <;> simp [h]

theorem events_append (l l' : List (Entry V)) : events (l ++ l') = events l ++ events l' := by simp [events]

theorem samplesOf_events (l : List (Entry V)) : samplesOf l = (events l).filterMap sample? := by
  unfold samplesOf events
  rw [List.filterMap_map]
  rfl

theorem passes_eq (N : Net V) (n : Nat) (hist : List V) (ev : NetEvent V) : passes N n hist ev = N.reaction n hist ev := by
  cases ev <;> rfl

theorem passedOn_append (N : Net V) (n : Nat) (evs : List (NetEvent V)) (ev : NetEvent V) : ∀ hist : List V,
    passedOn N n hist (evs ++ [ev]) = passedOn N n hist evs ++ (N.reaction n (hist ++ evs.filterMap sample?) ev).toList := by
  induction evs with
  | nil => intro hist; simp [passedOn, passes_eq]
  | cons e evs ih =>
    intro hist
    rw [List.cons_append, passedOn, passedOn, ih, List.append_assoc, List.append_assoc]
    cases h : sample? e <;> simp [h]

theorem passedOn_log (N : Net V) (n : Nat) (l : List (Entry V)) (e : Entry V) :
    passedOn N n [] (events (l ++ [e])) = passedOn N n [] (events l) ++ (N.reaction n (samplesOf l) e.event).toList := by
  rw [events_append, show events [e] = [e.event] from rfl, passedOn_append, List.nil_append, samplesOf_events]

/-- what came through the connection is what the source passed on -/
def Bal (N : Net V) (L : Log V) (a j c : Nat) : Prop := through (L c) (.node a) j = passedOn N a [] (events (L a))

/-- the facts about a call -/
structure CallFacts (N : Net V) (r : Nat → Nat) (L : Log V) (src : Source) (k n : Nat) (ev : NetEvent V) (L' : Log V) : Prop where
  self : L' n = L n ++ [⟨src, k, ev⟩]
  frame : ∀ x, x ≠ n → ¬ r x < r n → L' x = L x
  same : ∀ c s j, (∀ a, s = .node a → r n < r a) → (¬ (s = src ∧ j = k) ∨ c ≠ n) → through (L' c) s j = through (L c) s j
  bal : ∀ a, r a ≤ r n → ∀ j c, (N.outs (.node a))[j]? = some c → Bal N L a j c → Bal N L' a j c

/-- the facts about calls of several slots -/
structure FoldFacts (N : Net V) (r : Nat → Nat) (R : Nat) (L : Log V) (s0 : Source) (l : List (Nat × Nat)) (y : NetEvent V) (L' : Log V) : Prop where
  frame : ∀ x, ¬ r x < R → L' x = L x
  same : ∀ c s j, (∀ a, s = .node a → R ≤ r a) → ¬ (s = s0 ∧ (c, j) ∈ l) → through (L' c) s j = through (L c) s j
  new : ∀ c j, (c, j) ∈ l → through (L' c) s0 j = through (L c) s0 j ++ [y]
  bal : ∀ a, r a ≤ R → s0 ≠ .node a → ∀ j c, (N.outs (.node a))[j]? = some c → Bal N L a j c → Bal N L' a j c

theorem fold_facts (N : Net V) (r : Nat → Nat) (d : Nat) (stack : List Nat) (y : NetEvent V) (R : Nat) (s0 : Source)
    (IH : ∀ L k n L', (∀ a, s0 = .node a → r n < r a) → N.call d stack L s0 k n y = .ok L' → CallFacts N r L s0 k n y L') (hs0 : ∀ a, s0 = .node a → R ≤ r a) :
    ∀ (l : List (Nat × Nat)) (L L' : Log V), (∀ ck ∈ l, r ck.1 < R) → (l.map Prod.snd).Nodup →
      l.foldlM (fun L ck => N.call d stack L s0 ck.2 ck.1 y) L = .ok L' → FoldFacts N r R L s0 l y L' := by
  intro l
  induction l with
  | nil =>
    intro L L' _ _ h
    injection h with h
    subst h
    exact ⟨fun _ _ => rfl, fun _ _ _ _ _ => rfl, fun _ _ h => by simp at h, fun _ _ _ _ _ _ h => h⟩
  | cons ck l ih =>
    obtain ⟨c0, k0⟩ := ck
    intro L L' hR hnd h
    obtain ⟨Lm, h1, h2⟩ := foldlM_cons_ok h
    have hc0 : r c0 < R := hR (c0, k0) (by simp)
    have C := IH L k0 c0 Lm (fun a ha => lt_of_lt_of_le hc0 (hs0 a ha)) h1
    rw [List.map_cons, List.nodup_cons] at hnd
    have F := ih Lm L' (fun ck hck => hR ck (by simp [hck])) hnd.2 h2
    have hk : ∀ c, (c, k0) ∉ l := fun c hc => hnd.1 (List.mem_map.mpr ⟨(c, k0), hc, rfl⟩)
    refine ⟨?_, ?_, ?_, ?_⟩
    · intro x hx
      rw [F.frame x hx]
      exact C.frame x (by rintro rfl; exact hx hc0) (by omega)
    · intro c s j hs hn
      rw [F.same c s j hs (fun hc => hn ⟨hc.1, by simp [hc.2]⟩)]
      refine C.same c s j (fun a ha => lt_of_lt_of_le hc0 (hs a ha)) ?_
      by_contra hcon
      push Not at hcon
      obtain ⟨⟨rfl, rfl⟩, rfl⟩ := hcon
      exact hn ⟨rfl, by simp⟩
    · intro c j hcj
      rw [List.mem_cons] at hcj
      rcases hcj with hcj | hcj
      · injection hcj with e1 e2
        subst e1 e2
        rw [F.same c s0 j (fun a ha => hs0 a ha) (fun hc => hk c hc.2), C.self, through_append, through_one, if_pos ⟨rfl, rfl⟩]
      · rw [F.new c j hcj]
        congr 1
        refine C.same c s0 j (fun a ha => lt_of_lt_of_le hc0 (hs0 a ha)) (.inl ?_)
        rintro ⟨-, rfl⟩
        exact hk c hcj
    · intro a ha hsa j c hc hb
      refine F.bal a ha hsa j c hc ?_
      by_cases hle : r a ≤ r c0
      · exact C.bal a hle j c hc hb
      · push Not at hle
        unfold Bal
        rw [C.frame a (by rintro rfl; omega) (by omega), C.same c (.node a) j (fun a' ha' => by cases ha'; exact hle) (.inl (fun hc => hsa hc.1.symm))]
        exact hb

theorem zipIdx_mem_iff (l : List Nat) (c j : Nat) : (c, j) ∈ l.zipIdx ↔ l[j]? = some c := by
  rw [List.mem_zipIdx_iff_getElem?]

theorem zipIdx_snd_nodup (l : List Nat) : (l.zipIdx.map Prod.snd).Nodup := by
  rw [List.zipIdx_map_snd]
  exact List.nodup_range'

theorem add_bal {N : Net V} {r : Nat → Nat} {L : Log V} {src : Source} {k n : Nat} {ev : NetEvent V}
    (hsrc : ∀ a, src = .node a → r n < r a) (a : Nat) (ha : r a ≤ r n) (hne : a ≠ n) (j c : Nat) (hb : Bal N L a j c) :
    Bal N (addEntry L n ⟨src, k, ev⟩) a j c := by
  unfold Bal
  rw [addEntry_ne L n _ hne]
  by_cases hc : c = n
  · subst hc
    rw [addEntry_self, through_append, through_one, if_neg, List.append_nil]
    · exact hb
    · rintro ⟨h1, -⟩
      have := hsrc a h1
      omega
  · rw [addEntry_ne L n _ hc]
    exact hb

theorem call_facts (N : Net V) (r : Nat → Nat) (hdec : ∀ n, ∀ c ∈ N.outs (.node n), r c < r n) : ∀ (d : Nat) (stack : List Nat) (L : Log V) (src : Source) (k n : Nat) (ev : NetEvent V) (L' : Log V),
    (∀ a, src = .node a → r n < r a) → N.call d stack L src k n ev = .ok L' → CallFacts N r L src k n ev L' := by
  intro d
  induction d with
  | zero => intro stack L src k n ev L' _ h; cases h
  | succ d ih =>
    intro stack L src k n ev L' hsrc h
    have add_same : ∀ c s j, (¬ (s = src ∧ j = k) ∨ c ≠ n) → through (addEntry L n ⟨src, k, ev⟩ c) s j = through (L c) s j := by
      intro c s j hh
      by_cases hc : c = n
      · subst hc
        rw [addEntry_self, through_append, through_one, if_neg, List.append_nil]
        rintro ⟨h1, h2⟩
        rcases hh with hh | hh
        · exact hh ⟨h1.symm, h2.symm⟩
        · exact hh rfl
      · rw [addEntry_ne L n _ hc]
    have hout : ∀ (j c : Nat), (N.outs (.node n))[j]? = some c → c ≠ n := by
      intro j c hc e
      have := hdec n c (List.mem_of_getElem? hc)
      rw [e] at this
      omega
    rcases call_succ_ok h with ⟨hy, rfl⟩ | ⟨y, hy, hf⟩
    · refine ⟨addEntry_self L n _, fun x hx _ => addEntry_ne L n _ hx, fun c s j _ hh => add_same c s j hh, ?_⟩
      intro a ha j c hc hb
      by_cases han : a = n
      · subst han
        unfold Bal
        rw [addEntry_ne L a _ (hout j c hc), addEntry_self, passedOn_log, hy]
        simpa [Bal] using hb
      · exact add_bal hsrc a ha han j c hb
    · have F := fold_facts N r d (n :: stack) y (r n) (.node n) (fun L k n' L' hs hc => ih (n :: stack) L (.node n) k n' y L' hs hc) (fun a ha => by cases ha; exact le_rfl)
        _ _ _ (fun ck hck => hdec n ck.1 (List.mem_of_getElem? ((zipIdx_mem_iff _ ck.1 ck.2).mp hck))) (zipIdx_snd_nodup _) hf
      refine ⟨?_, ?_, ?_, ?_⟩
      · rw [F.frame n (lt_irrefl _), addEntry_self]
      · intro x hx hr
        rw [F.frame x hr, addEntry_ne L n _ hx]
      · intro c s j hs hh
        rw [F.same c s j (fun a ha => (hs a ha).le) (fun hc => absurd (hs n hc.1) (lt_irrefl _))]
        exact add_same c s j hh
      · intro a ha j c hc hb
        by_cases han : a = n
        · subst han
          unfold Bal
          rw [F.new c j ((zipIdx_mem_iff _ c j).mpr hc), F.frame a (lt_irrefl _), addEntry_ne L a _ (hout j c hc), addEntry_self, passedOn_log, hy]
          simpa [Bal] using hb
        · exact F.bal a ha (by intro e; cases e; exact han rfl) j c hc (add_bal hsrc a ha han j c hb)

theorem call_valid (N : Net V) : ∀ (d : Nat) (stack : List Nat) (L : Log V) (src : Source) (k n : Nat) (ev : NetEvent V) (L' : Log V), (N.outs src)[k]? = some n →
    N.call d stack L src k n ev = .ok L' → ∀ x, ∀ e ∈ L' x, e ∈ L x ∨ (N.outs e.src)[e.slot]? = some x := by
  intro d
  induction d with
  | zero => intro stack L src k n ev L' _ h; cases h
  | succ d ih =>
    intro stack L src k n ev L' hk h
    have hadd : ∀ x, ∀ e ∈ addEntry L n ⟨src, k, ev⟩ x, e ∈ L x ∨ (N.outs e.src)[e.slot]? = some x := by
      intro x e he
      by_cases hx : x = n
      · subst hx
        rw [addEntry_self, List.mem_append, List.mem_singleton] at he
        rcases he with he | rfl
        · exact .inl he
        · exact .inr hk
      · rw [addEntry_ne L n _ hx] at he
        exact .inl he
    rcases call_succ_ok h with ⟨-, rfl⟩ | ⟨y, -, hf⟩
    · exact hadd
    · have hl : ∀ ck ∈ (N.outs (.node n)).zipIdx, (N.outs (.node n))[ck.2]? = some ck.1 := fun ck hck => (zipIdx_mem_iff _ ck.1 ck.2).mp hck
      generalize (N.outs (.node n)).zipIdx = l at hf hl
      generalize addEntry L n ⟨src, k, ev⟩ = L1 at hf hadd
      induction l generalizing L1 with
      | nil => injection hf with hf; subst hf; exact hadd
      | cons ck l ihl =>
        obtain ⟨Lm, h1, h2⟩ := foldlM_cons_ok hf
        refine ihl (fun ck' h' => hl ck' (by simp [h'])) Lm h2 ?_
        intro x e he
        rcases ih _ _ _ _ _ _ _ (hl ck (by simp)) h1 x e he with h3 | h3
        · exact hadd x e h3
        · exact .inr h3

/-- the state after a program -/
theorem run_facts (N : Net V) (r : Nat → Nat) (depth : Nat) (hr : Acyclic N r depth) (ops : List (Op V)) (L : Log V) (h : N.run depth ops = .ok L) :
    (∀ a j c, (N.outs (.node a))[j]? = some c → Bal N L a j c) ∧
    (∀ p j c, (N.outs (.producer p))[j]? = some c → through (L c) (.producer p) j = sentBy p ops) ∧
    ∀ x, ∀ e ∈ L x, (N.outs e.src)[e.slot]? = some x := by
  induction ops using List.reverseRecOn generalizing L with
  | nil =>
    injection h with h
    subst h
    exact ⟨fun _ _ _ _ => rfl, fun _ _ _ _ => rfl, fun _ _ he => by simp at he⟩
  | append_singleton ops o ih =>
    obtain ⟨Lm, h1, h2⟩ := foldlM_append_ok' h
    obtain ⟨i1, i2, i3⟩ := ih Lm h1
    obtain ⟨L2, h3, h4⟩ := foldlM_cons_ok h2
    injection h4 with h4
    subst h4
    unfold Net.step at h3
    have F := fold_facts N r depth [] o.event depth (.producer o.producer) (fun L k n L' hs hc => call_facts N r hr.2 depth [] L _ k n _ L' hs hc) (fun a ha => by cases ha)
        _ _ _ (fun ck _ => hr.1 ck.1) (zipIdx_snd_nodup _) h3
    refine ⟨fun a j c hc => F.bal a (hr.1 a).le (by intro e; cases e) j c hc (i1 a j c hc), ?_, ?_⟩
    · intro p j c hc
      unfold sentBy
      rw [List.filter_append, List.map_append]
      by_cases hp : o.producer = p
      · rw [← hp] at hc ⊢
        rw [F.new c j ((zipIdx_mem_iff _ c j).mpr hc), i2 _ j c hc]
        simp [sentBy]
      · rw [F.same c (.producer p) j (fun a ha => by cases ha) (by rintro ⟨e, -⟩; injection e with e; exact hp e.symm), i2 p j c hc]
        simp [sentBy, hp]
    · have hl : ∀ ck ∈ (N.outs (.producer o.producer)).zipIdx, (N.outs (.producer o.producer))[ck.2]? = some ck.1 := fun ck hck => (zipIdx_mem_iff _ ck.1 ck.2).mp hck
      clear F h1 h2 i1 i2
      generalize (N.outs (.producer o.producer)).zipIdx = l at h3 hl
      induction l generalizing Lm with
      | nil => injection h3 with h3; subst h3; exact i3
      | cons ck l ihl =>
        obtain ⟨Lk, h5, h6⟩ := foldlM_cons_ok h3
        refine ihl Lk ?_ h6 (fun ck' h' => hl ck' (by simp [h']))
        intro x e he
        rcases call_valid N _ _ _ _ _ _ _ _ (hl ck (by simp)) h5 x e he with h7 | h7
        · exact i3 x e h7
        · exact h7

/-- no failure -/
theorem call_succeeds (N : Net V) (r : Nat → Nat) (hdec : ∀ n, ∀ c ∈ N.outs (.node n), r c < r n) : ∀ (d : Nat) (stack : List Nat) (L : Log V) (src : Source) (k n : Nat) (ev : NetEvent V),
    r n < d → (∀ a ∈ stack, r n < r a) → ∃ L', N.call d stack L src k n ev = .ok L' := by
  intro d
  induction d with
  | zero => intro _ _ _ _ _ _ h; omega
  | succ d ih =>
    intro stack L src k n ev hn hs
    rw [Net.call, if_neg (by rintro ⟨-, h⟩; have := hs n h; omega)]
    split
    · exact ⟨_, rfl⟩
    · rename_i y hy
      have hl : ∀ ck ∈ (N.outs (.node n)).zipIdx, r ck.1 < r n := fun ck hck => hdec n ck.1 (List.mem_of_getElem? ((zipIdx_mem_iff _ ck.1 ck.2).mp hck))
      generalize (N.outs (.node n)).zipIdx = l at hl
      generalize addEntry L n ⟨src, k, ev⟩ = L1
      induction l generalizing L1 with
      | nil => exact ⟨_, rfl⟩
      | cons ck l ihl =>
        have h1 := hl ck (by simp)
        obtain ⟨Lm, hm⟩ := ih (n :: stack) L1 (.node n) ck.2 ck.1 y (by omega) (by
          intro a ha
          rw [List.mem_cons] at ha
          rcases ha with rfl | ha
          · exact h1
          · exact h1.trans (hs a ha))
        rw [List.foldlM_cons, hm]
        exact ihl (fun ck' h' => hl ck' (by simp [h'])) Lm

theorem run_succeeds (N : Net V) (r : Nat → Nat) (depth : Nat) (hr : Acyclic N r depth) (ops : List (Op V)) : ∃ L, N.run depth ops = .ok L := by
  unfold Net.run
  generalize (fun _ => [] : Log V) = L0
  induction ops generalizing L0 with
  | nil => exact ⟨_, rfl⟩
  | cons o ops ih =>
    have : ∃ L1, N.step depth L0 o = .ok L1 := by
      unfold Net.step
      generalize (N.outs (.producer o.producer)).zipIdx = l
      induction l generalizing L0 with
      | nil => exact ⟨_, rfl⟩
      | cons ck l ihl =>
        obtain ⟨Lm, hm⟩ := call_succeeds N r hr.2 depth [] L0 (.producer o.producer) ck.2 ck.1 o.event (hr.1 _) (by simp)
        rw [List.foldlM_cons, hm]
        exact ihl Lm
    obtain ⟨L1, h1⟩ := this
    rw [List.foldlM_cons, h1]
    exact ih L1

end SampleFlow.Graph
