import Verif.Spec.Lifecycle
import Mathlib.Data.List.Basic
import Mathlib.Data.List.Nodup

set_option linter.unusedSimpArgs false
set_option linter.unusedSectionVars false

namespace SampleFlow
open Spec

variable {V : Type}

def slotsOf (w : Objects V) (p c : Nat) : List Nat :=
  ((w.prod p).issue.filter (fun s => s.cons = c)).map Slot.conn

def connsOf (w : Objects V) (c p : Nat) : List Nat :=
  ((w.cons c).conns.filter (fun e => e.1 = p)).map Prod.snd

structure Inv (w : Objects V) : Prop where
  flush_eq : ∀ p, (w.prod p).flush = (w.prod p).issue
  disc_eq : ∀ p, (w.prod p).disc = (w.prod p).issue
  link : ∀ p c, slotsOf w p c = connsOf w c p
  fresh : ∀ p, ∀ s ∈ (w.prod p).issue, s.conn < w.next
  nodup : ∀ p, ((w.prod p).issue.map Slot.conn).Nodup
  deadP : ∀ p, (w.prod p).alive = false → (w.prod p).issue = []
  deadC : ∀ c, (w.cons c).alive = false → (w.cons c).conns = []
  modes : ∀ p, ∀ s ∈ (w.prod p).issue, s.mode = (w.cons s.cons).mode ∧ (s.mode = 1 ∨ s.mode = 2)

theorem Inv.init (sup : Nat → Nat) : Inv (Objects.init (V := V) sup) := by
  constructor <;> simp [Objects.init, slotsOf, connsOf]

theorem Inv.mem_conns {w : Objects V} (I : Inv w) {p : Nat} {s : Slot} (hs : s ∈ (w.prod p).issue) :
    (p, s.conn) ∈ (w.cons s.cons).conns := by
  have h : s.conn ∈ slotsOf w p s.cons := by
    simp only [slotsOf, List.mem_map, List.mem_filter, decide_eq_true_eq]
    exact ⟨s, ⟨hs, rfl⟩, rfl⟩
  rw [I.link] at h
  simp only [connsOf, List.mem_map, List.mem_filter, decide_eq_true_eq] at h
  obtain ⟨⟨a, b⟩, ⟨h1, h2⟩, h3⟩ := h
  simp only at h2 h3
  subst h2; subst h3
  exact h1

theorem Inv.mem_slots {w : Objects V} (I : Inv w) {c p k : Nat} (h : (p, k) ∈ (w.cons c).conns) :
    ∃ s ∈ (w.prod p).issue, s.conn = k ∧ s.cons = c := by
  have h' : k ∈ connsOf w c p := by
    simp only [connsOf, List.mem_map, List.mem_filter, decide_eq_true_eq]
    exact ⟨(p, k), ⟨h, rfl⟩, rfl⟩
  rw [← I.link] at h'
  simp only [slotsOf, List.mem_map, List.mem_filter, decide_eq_true_eq] at h'
  obtain ⟨s, ⟨h1, h2⟩, h3⟩ := h'
  exact ⟨s, h1, h3, h2⟩

theorem slot_inj {l : List Slot} (h : (l.map Slot.conn).Nodup) {s t : Slot} (hs : s ∈ l) (ht : t ∈ l)
    (e : s.conn = t.conn) : s = t := List.inj_on_of_nodup_map h hs ht e

theorem Inv.cons_iff {w : Objects V} (I : Inv w) {p c : Nat} {s : Slot} (hs : s ∈ (w.prod p).issue) :
    (p, s.conn) ∈ (w.cons c).conns ↔ s.cons = c := by
  constructor
  · intro h
    obtain ⟨t, h1, h2, h3⟩ := I.mem_slots h
    rw [← slot_inj (I.nodup p) h1 hs h2]; exact h3
  · rintro rfl
    exact I.mem_conns hs

theorem Inv.alive {w : Objects V} (I : Inv w) {p : Nat} {s : Slot} (hs : s ∈ (w.prod p).issue) :
    (w.cons s.cons).alive = true := by
  by_contra h
  have := I.deadC s.cons (by simpa using h)
  have h2 := I.mem_conns hs
  rw [this] at h2
  simp at h2

theorem Inv.conns_ne {w : Objects V} (I : Inv w) {p : Nat} {s : Slot} (hs : s ∈ (w.prod p).issue) :
    (w.cons s.cons).conns.length ≠ 0 := by
  have h2 := I.mem_conns hs
  intro h
  rw [List.length_eq_zero_iff] at h
  rw [h] at h2
  simp at h2

/-! ### disconnect_and_flush -/

theorem disconnectList_cons (w : Objects V) (l : List (Nat × Nat)) :
    (w.disconnectList l).cons = w.cons ∧ (w.disconnectList l).next = w.next := by
  induction l generalizing w with
  | nil => exact ⟨rfl, rfl⟩
  | cons e l ih =>
    rw [Objects.disconnectList]
    exact ih _

theorem disconnectList_prod (w : Objects V) (l : List (Nat × Nat)) (q : Nat) :
    ((w.disconnectList l).prod q).alive = (w.prod q).alive ∧
    ((w.disconnectList l).prod q).issue = (w.prod q).issue.filter (fun x => (q, x.conn) ∉ l) ∧
    ((w.disconnectList l).prod q).flush = (w.prod q).flush.filter (fun x => (q, x.conn) ∉ l) ∧
    ((w.disconnectList l).prod q).disc = (w.prod q).disc.filter (fun x => (q, x.conn) ∉ l) := by
  induction l generalizing w with
  | nil => simp [Objects.disconnectList]
  | cons e l ih =>
    obtain ⟨p, k⟩ := e
    rw [Objects.disconnectList]
    obtain ⟨i0, i1, i2, i3⟩ := ih (w.disconnectSlots p k)
    rw [i0, i1, i2, i3]
    by_cases hq : q = p
    · subst hq
      simp only [Objects.disconnectSlots, Objects.setProd, if_true, List.filter_filter]
      refine ⟨trivial, ?_, ?_, ?_⟩ <;>
      · apply List.filter_congr
        intro x _
        simp only [List.mem_cons, Prod.mk.injEq, true_and, not_or, ne_eq, decide_not]
        by_cases h1 : x.conn = k <;> by_cases h2 : (q, x.conn) ∈ l <;> simp [h1, h2]
    · simp only [Objects.disconnectSlots, Objects.setProd, hq, if_false]
      refine ⟨trivial, ?_, ?_, ?_⟩ <;>
      · apply List.filter_congr
        intro x _
        simp [hq]

/-- Effect of `disconnect_and_flush` in a consistent state. -/
theorem disconnectAndFlush_spec {w : Objects V} (I : Inv w) (c : Nat) (ha : (w.cons c).alive = true) :
    ∃ w', w.disconnectAndFlush c = .ok w' ∧ w'.next = w.next ∧
      (∀ q, (w'.prod q).alive = (w.prod q).alive ∧
        (w'.prod q).issue = (w.prod q).issue.filter (fun x => x.cons ≠ c) ∧
        (w'.prod q).flush = (w'.prod q).issue ∧ (w'.prod q).disc = (w'.prod q).issue) ∧
      (∀ d, d ≠ c → w'.cons d = w.cons d) ∧
      w'.cons c = { w.cons c with conns := [], log := (w.cons c).log ++ [.flush] } := by
  unfold Objects.disconnectAndFlush
  rw [if_neg (by simp [ha])]
  obtain ⟨hc, hn⟩ := disconnectList_cons w (w.cons c).conns
  refine ⟨_, rfl, hn, ?_, ?_, ?_⟩
  · intro q
    obtain ⟨i0, i1, i2, i3⟩ := disconnectList_prod w (w.cons c).conns q
    have e : (w.prod q).issue.filter (fun x => (q, x.conn) ∉ (w.cons c).conns)
        = (w.prod q).issue.filter (fun x => x.cons ≠ c) := by
      apply List.filter_congr
      intro x hx
      simp [I.cons_iff hx]
    simp only [Objects.setCons]
    refine ⟨i0, i1.trans e, ?_, ?_⟩
    · rw [i2, I.flush_eq, i1]
    · rw [i3, I.disc_eq, i1]
  · intro d hd
    simp only [Objects.setCons, hd, if_false, hc]
  · simp only [Objects.setCons, if_true, hc]

theorem Inv.disconnectAndFlush {w w' : Objects V} (I : Inv w) (c : Nat)
    (h : w.disconnectAndFlush c = .ok w') : Inv w' := by
  have ha : (w.cons c).alive = true := by
    by_contra hcon
    rw [Objects.disconnectAndFlush, if_pos (by simpa using hcon)] at h
    cases h
  obtain ⟨w2, e, hn, hp, hc, hcc⟩ := disconnectAndFlush_spec I c ha
  rw [e] at h; cases h
  constructor
  · intro p; exact (hp p).2.2.1
  · intro p; exact (hp p).2.2.2
  · intro p d
    rw [slotsOf, connsOf, (hp p).2.1, List.filter_filter]
    by_cases hd : d = c
    · subst hd
      rw [hcc]
      simp only [List.filter_nil, List.map_nil, List.map_eq_nil_iff, List.filter_eq_nil_iff]
      intro x _
      by_cases hx : x.cons = d <;> simp [hx]
    · rw [hc d hd]
      have := I.link p d
      rw [slotsOf, connsOf] at this
      rw [← this]
      congr 1
      apply List.filter_congr
      intro x _
      by_cases hx : x.cons = d
      · simp [hx, hd]
      · simp [hx]
  · intro p s hs
    rw [(hp p).2.1] at hs
    rw [hn]; exact I.fresh p s (List.mem_filter.mp hs).1
  · intro p
    rw [(hp p).2.1]
    exact (I.nodup p).sublist (List.filter_sublist.map _)
  · intro p hd
    rw [(hp p).1] at hd
    rw [(hp p).2.1, I.deadP p hd]; rfl
  · intro d hd
    by_cases hdc : d = c
    · subst hdc; rw [hcc]
    · rw [hc d hdc] at hd ⊢; exact I.deadC d hd
  · intro p s hs
    rw [(hp p).2.1] at hs
    obtain ⟨h1, h2⟩ := List.mem_filter.mp hs
    have hne : s.cons ≠ c := by simpa using h2
    rw [hc _ hne]
    exact I.modes p s h1

/-! ### connect -/

theorem connect_spec (w : Objects V) (c p : Nat) (w' : Objects V) (h : w.connect c p = .ok w') :
    (w.cons c).alive = true ∧ (w.prod p).alive = true ∧ ((w.cons c).mode = 1 ∨ (w.cons c).mode = 2) ∧
    w'.next = w.next + 1 ∧
    (∀ q, q ≠ p → w'.prod q = w.prod q) ∧
    w'.prod p = { w.prod p with
      issue := (w.prod p).issue ++ [⟨w.next, c, (w.cons c).mode⟩]
      flush := (w.prod p).flush ++ [⟨w.next, c, (w.cons c).mode⟩]
      disc := (w.prod p).disc ++ [⟨w.next, c, (w.cons c).mode⟩] } ∧
    (∀ d, d ≠ c → w'.cons d = w.cons d) ∧
    w'.cons c = { w.cons c with conns := (w.cons c).conns ++ [(p, w.next)] } := by
  unfold Objects.connect at h
  split at h
  · cases h
  rename_i h1
  split at h
  · cases h
  rename_i h2
  cases h
  have ha : (w.cons c).alive = true ∧ (w.prod p).alive = true := by
    constructor <;> (by_contra hc; simp at hc; exact h1 (by simp [hc]))
  refine ⟨ha.1, ha.2, by omega, rfl, ?_, ?_, ?_, ?_⟩
  · intro q hq; simp [Objects.setProd, Objects.setCons, hq]
  · simp [Objects.setProd, Objects.setCons]
  · intro d hd; simp [Objects.setProd, Objects.setCons, hd]
  · simp [Objects.setProd, Objects.setCons]

theorem Inv.connect {w w' : Objects V} (I : Inv w) (c p : Nat) (h : w.connect c p = .ok w') :
    Inv w' := by
  obtain ⟨ha, hb, hm, hn, hq, hp, hd, hc⟩ := connect_spec w c p w' h
  clear h
  have key : ∀ q, ∀ s ∈ (w'.prod q).issue, s ∈ (w.prod q).issue ∨
      (q = p ∧ s = ⟨w.next, c, (w.cons c).mode⟩) := by
    intro q s hs
    by_cases hqp : q = p
    · subst hqp
      rw [hp] at hs
      simp only [List.mem_append, List.mem_singleton] at hs
      exact hs.imp id (fun e => ⟨rfl, e⟩)
    · rw [hq q hqp] at hs; exact Or.inl hs
  have consmode : ∀ d, (w'.cons d).mode = (w.cons d).mode := by
    intro d
    by_cases h : d = c
    · subst h; rw [hc]
    · rw [hd d h]
  constructor
  · intro q
    by_cases h : q = p
    · subst h; rw [hp]; simp [I.flush_eq]
    · rw [hq q h]; exact I.flush_eq q
  · intro q
    by_cases h : q = p
    · subst h; rw [hp]; simp [I.disc_eq]
    · rw [hq q h]; exact I.disc_eq q
  · intro q d
    have il := I.link q d
    rw [slotsOf, connsOf] at il ⊢
    by_cases h : q = p
    · subst h
      rw [hp]
      simp only [List.filter_append, List.map_append, il]
      by_cases h2 : d = c
      · subst h2; rw [hc]; simp
      · rw [hd d h2]; simp [Ne.symm h2]
    · rw [hq q h, il]
      by_cases h2 : d = c
      · subst h2; rw [hc]; simp [Ne.symm h]
      · rw [hd d h2]
  · intro q s hs
    rcases key q s hs with h | ⟨-, h⟩
    · have := I.fresh q s h; omega
    · subst h; simp only; omega
  · intro q
    by_cases h : q = p
    · subst h
      rw [hp]
      simp only [List.map_append, List.map_cons, List.map_nil]
      rw [List.nodup_append]
      refine ⟨I.nodup q, by simp, ?_⟩
      intro a ha' b hb'
      simp only [List.mem_singleton] at hb'
      simp only [List.mem_map] at ha'
      obtain ⟨s, hs, rfl⟩ := ha'
      have := I.fresh q s hs
      omega
    · rw [hq q h]; exact I.nodup q
  · intro q hdead
    by_cases h : q = p
    · subst h; rw [hp] at hdead; simp [hb] at hdead
    · rw [hq q h] at hdead ⊢; exact I.deadP q hdead
  · intro d hdead
    by_cases h : d = c
    · subst h; rw [hc] at hdead; simp [ha] at hdead
    · rw [hd d h] at hdead ⊢; exact I.deadC d hdead
  · intro q s hs
    rw [consmode]
    rcases key q s hs with h | ⟨-, h⟩
    · exact I.modes q s h
    · subst h; exact ⟨rfl, hm⟩

/-! ### destroying a producer -/

theorem callDisconnect_spec (p : Nat) (l : List Slot) {w : Objects V} (I : Inv w)
    (hl : (w.prod p).issue = l) :
    ∃ w', w.callDisconnect p l = .ok w' ∧ Inv w' ∧ w'.next = w.next ∧
      (w'.prod p).issue = [] ∧ (w'.prod p).alive = (w.prod p).alive ∧
      (∀ q, q ≠ p → w'.prod q = w.prod q) ∧
      (∀ c, w'.cons c = { w.cons c with conns := (w.cons c).conns.filter (fun e => e.1 ≠ p) }) := by
  induction l generalizing w with
  | nil =>
    refine ⟨w, rfl, I, rfl, hl, rfl, fun _ _ => rfl, ?_⟩
    intro c
    have : (w.cons c).conns.filter (fun e => e.1 ≠ p) = (w.cons c).conns := by
      rw [List.filter_eq_self]
      rintro ⟨a, b⟩ he
      simp only [ne_eq, decide_not, Bool.not_eq_eq_eq_not, Bool.not_true, decide_eq_false_iff_not]
      rintro rfl
      obtain ⟨s, hs, -⟩ := I.mem_slots he
      rw [hl] at hs; simp at hs
    rw [this]
  | cons s rest ih =>
    have hs : s ∈ (w.prod p).issue := by rw [hl]; simp
    have hal := I.alive hs
    -- the entry found
    have hlink := I.link p s.cons
    have hfilt : ∃ tl, (w.cons s.cons).conns.filter (fun e => e.1 = p) = (p, s.conn) :: tl ∧
        tl.map Prod.snd = (rest.filter (fun x => x.cons = s.cons)).map Slot.conn := by
      rw [slotsOf, connsOf, hl] at hlink
      simp only [List.filter_cons, decide_true, if_true, List.map_cons] at hlink
      cases hf : (w.cons s.cons).conns.filter (fun e => decide (e.1 = p)) with
      | nil => rw [hf] at hlink; simp at hlink
      | cons e tl =>
        rw [hf] at hlink
        simp only [List.map_cons, List.cons.injEq] at hlink
        have he : e ∈ (w.cons s.cons).conns.filter (fun e => decide (e.1 = p)) := by rw [hf]; simp
        have he1 : e.1 = p := by simpa using (List.mem_filter.mp he).2
        obtain ⟨e1, e2⟩ := e
        simp only at he1 hlink
        subst he1
        exact ⟨tl, by rw [hlink.1], hlink.2.symm⟩
    obtain ⟨tl, hf, htl⟩ := hfilt
    have hfind : (w.cons s.cons).conns.find? (fun e => decide (e.1 = p)) = some (p, s.conn) := by
      rw [← List.head?_filter, hf]; rfl
    -- state after this slot
    let w1 := w.disconnectSlots p s.conn
    let w2 := w1.setCons s.cons { w1.cons s.cons with conns := (w1.cons s.cons).conns.erase (p, s.conn) }
    have hstep : w.disconnectFromProducer s.cons p = .ok w2 := by
      unfold Objects.disconnectFromProducer
      rw [if_neg (by simp [hal]), hfind]
    have hrest : (w.prod p).issue.filter (fun x => decide (x.conn ≠ s.conn)) = rest := by
      rw [hl, List.filter_cons]
      simp only [ne_eq, not_true_eq_false, decide_false, Bool.false_eq_true, if_false]
      rw [List.filter_eq_self]
      intro x hx
      have hnd := I.nodup p
      rw [hl, List.map_cons, List.nodup_cons] at hnd
      simp only [decide_not, Bool.not_eq_eq_eq_not, Bool.not_true, decide_eq_false_iff_not]
      intro hxs
      exact hnd.1 (List.mem_map.mpr ⟨x, hx, hxs⟩)
    have p2 : w2.prod p = ⟨(w.prod p).alive, rest, rest, rest⟩ := by
      show w1.prod p = _
      simp only [w1, Objects.disconnectSlots, Objects.setProd, if_true]
      rw [I.flush_eq, I.disc_eq, hrest]
    have q2 : ∀ q, q ≠ p → w2.prod q = w.prod q := by
      intro q hq
      show w1.prod q = _
      simp only [w1, Objects.disconnectSlots, Objects.setProd, hq, if_false]
    have c2 : w2.cons s.cons = { w.cons s.cons with
        conns := (w.cons s.cons).conns.erase (p, s.conn) } := by
      simp only [w2, w1, Objects.setCons, if_true, Objects.disconnectSlots, Objects.setProd]
    have d2 : ∀ d, d ≠ s.cons → w2.cons d = w.cons d := by
      intro d hd
      simp only [w2, w1, Objects.setCons, hd, if_false, Objects.disconnectSlots, Objects.setProd]
    have n2 : w2.next = w.next := rfl
    -- the erased list
    have herase_p : ((w.cons s.cons).conns.erase (p, s.conn)).filter (fun e => decide (e.1 = p)) = tl := by
      have : ∀ (l : List (Nat × Nat)) (tl : List (Nat × Nat)),
          l.filter (fun e => decide (e.1 = p)) = (p, s.conn) :: tl →
          (l.erase (p, s.conn)).filter (fun e => decide (e.1 = p)) = tl := by
        intro l
        induction l with
        | nil => intro tl h; simp at h
        | cons a as iha =>
          intro tl h
          rw [List.filter_cons] at h
          by_cases ha : a.1 = p
          · simp only [ha, decide_true, if_true, List.cons.injEq] at h
            rw [h.1, List.erase_cons_head]; exact h.2
          · simp only [ha, decide_false, Bool.false_eq_true, if_false] at h
            rw [List.erase_cons_tail, List.filter_cons]
            · simp only [ha, decide_false, Bool.false_eq_true, if_false]; exact iha tl h
            · simp only [beq_iff_eq]; rintro rfl; exact ha rfl
      exact this _ _ hf
    have herase_np : ∀ r, r ≠ p → ((w.cons s.cons).conns.erase (p, s.conn)).filter
        (fun e => decide (e.1 = r)) = (w.cons s.cons).conns.filter (fun e => decide (e.1 = r)) := by
      intro r hr
      generalize (w.cons s.cons).conns = l
      induction l with
      | nil => rfl
      | cons a as iha =>
        by_cases ha : a = (p, s.conn)
        · subst ha; rw [List.erase_cons_head, List.filter_cons]; simp [Ne.symm hr]
        · rw [List.erase_cons_tail (by simpa using ha), List.filter_cons, List.filter_cons, iha]
    have herase_ne : ((w.cons s.cons).conns.erase (p, s.conn)).filter
        (fun e => decide (e.1 ≠ p)) = (w.cons s.cons).conns.filter (fun e => decide (e.1 ≠ p)) := by
      generalize (w.cons s.cons).conns = l
      induction l with
      | nil => rfl
      | cons a as iha =>
        by_cases ha : a = (p, s.conn)
        · subst ha; rw [List.erase_cons_head, List.filter_cons]; simp
        · rw [List.erase_cons_tail (by simpa using ha), List.filter_cons, List.filter_cons, iha]
    have sub : ∀ q, ∀ x ∈ (w2.prod q).issue, x ∈ (w.prod q).issue := by
      intro q x hx
      by_cases hq : q = p
      · subst hq; rw [p2] at hx; rw [hl]; exact List.mem_cons_of_mem _ hx
      · rw [q2 q hq] at hx; exact hx
    have I2 : Inv w2 := by
      constructor
      · intro q
        by_cases hq : q = p
        · subst hq; rw [p2]
        · rw [q2 q hq]; exact I.flush_eq q
      · intro q
        by_cases hq : q = p
        · subst hq; rw [p2]
        · rw [q2 q hq]; exact I.disc_eq q
      · intro q d
        have il := I.link q d
        rw [slotsOf, connsOf] at il ⊢
        by_cases hq : q = p
        · subst hq
          rw [p2]
          by_cases hd : d = s.cons
          · subst hd
            rw [c2]
            simp only
            rw [herase_p, htl]
          · rw [d2 d hd, ← il, hl, List.filter_cons]
            simp [Ne.symm hd]
        · rw [q2 q hq, il]
          by_cases hd : d = s.cons
          · subst hd; rw [c2]; simp only; rw [herase_np q hq]
          · rw [d2 d hd]
      · intro q x hx; rw [n2]; exact I.fresh q x (sub q x hx)
      · intro q
        by_cases hq : q = p
        · subst hq
          have hnd := I.nodup q
          rw [hl, List.map_cons, List.nodup_cons] at hnd
          rw [p2]; exact hnd.2
        · rw [q2 q hq]; exact I.nodup q
      · intro q hdead
        by_cases hq : q = p
        · subst hq
          rw [p2] at hdead
          have := I.deadP q hdead
          rw [hl] at this; simp at this
        · rw [q2 q hq] at hdead ⊢; exact I.deadP q hdead
      · intro d hdead
        by_cases hd : d = s.cons
        · subst hd; rw [c2] at hdead; simp [hal] at hdead
        · rw [d2 d hd] at hdead ⊢; exact I.deadC d hdead
      · intro q x hx
        have := I.modes q x (sub q x hx)
        by_cases hd : x.cons = s.cons
        · rw [hd, c2]; rw [hd] at this; exact this
        · rw [d2 _ hd]; exact this
    obtain ⟨w', e1, e2, e3, e4, e5, e6, e7⟩ := ih I2 (by rw [p2])
    refine ⟨w', ?_, e2, by rw [e3, n2], e4, by rw [e5, p2], ?_, ?_⟩
    · rw [Objects.callDisconnect, if_pos (by rw [I.disc_eq]; exact hs), hstep]
      exact e1
    · intro q hq; rw [e6 q hq, q2 q hq]
    · intro d
      rw [e7 d]
      by_cases hd : d = s.cons
      · subst hd; rw [c2]; simp only; rw [herase_ne]
      · rw [d2 d hd]

theorem destroyProducer_spec {w : Objects V} (I : Inv w) (p : Nat) (ha : (w.prod p).alive = true) :
    ∃ w', w.destroyProducer p = .ok w' ∧ Inv w' ∧ w'.prod p = ⟨false, [], [], []⟩ ∧
      (∀ q, q ≠ p → w'.prod q = w.prod q) ∧
      (∀ c, w'.cons c = { w.cons c with conns := (w.cons c).conns.filter (fun e => e.1 ≠ p) }) := by
  obtain ⟨w1, e1, I1, e3, e4, e5, e6, e7⟩ := callDisconnect_spec p (w.prod p).issue I rfl
  have hp : (w1.setProd p ⟨false, [], [], []⟩).prod p = ⟨false, [], [], []⟩ := by
    simp [Objects.setProd]
  have hq : ∀ q, q ≠ p → (w1.setProd p ⟨false, [], [], []⟩).prod q = w1.prod q := by
    intro q h; simp [Objects.setProd, h]
  refine ⟨w1.setProd p ⟨false, [], [], []⟩, ?_, ?_, hp, ?_, ?_⟩
  · unfold Objects.destroyProducer
    rw [if_neg (by simp [ha]), I.disc_eq, e1]
  · constructor
    · intro q
      by_cases h : q = p
      · subst h; rw [hp]
      · rw [hq q h]; exact I1.flush_eq q
    · intro q
      by_cases h : q = p
      · subst h; rw [hp]
      · rw [hq q h]; exact I1.disc_eq q
    · intro q d
      have il := I1.link q d
      rw [slotsOf, connsOf] at il ⊢
      by_cases h : q = p
      · subst h; rw [hp]; rw [e4] at il; exact il
      · rw [hq q h]; exact il
    · intro q s hs
      by_cases h : q = p
      · subst h; rw [hp] at hs; simp at hs
      · rw [hq q h] at hs; exact I1.fresh q s hs
    · intro q
      by_cases h : q = p
      · subst h; rw [hp]; simp
      · rw [hq q h]; exact I1.nodup q
    · intro q hd
      by_cases h : q = p
      · subst h; rw [hp]
      · rw [hq q h] at hd ⊢; exact I1.deadP q hd
    · intro d hd; exact I1.deadC d hd
    · intro q s hs
      by_cases h : q = p
      · subst h; rw [hp] at hs; simp at hs
      · rw [hq q h] at hs; exact I1.modes q s hs
  · intro q h; rw [hq q h, e6 q h]
  · intro c; exact e7 c

/-! ### other operations -/

/-- Changing only logs preserves the invariant. -/
theorem Inv.logs {w w' : Objects V} (I : Inv w) (hp : w'.prod = w.prod) (hn : w'.next = w.next)
    (hc : ∀ d, (w'.cons d).alive = (w.cons d).alive ∧ (w'.cons d).conns = (w.cons d).conns ∧
      (w'.cons d).mode = (w.cons d).mode) : Inv w' := by
  constructor
  · intro p; rw [hp]; exact I.flush_eq p
  · intro p; rw [hp]; exact I.disc_eq p
  · intro p c
    have := I.link p c
    rw [slotsOf, connsOf] at this ⊢
    rw [hp, (hc c).2.1]; exact this
  · intro p; rw [hp, hn]; exact I.fresh p
  · intro p; rw [hp]; exact I.nodup p
  · intro p; rw [hp]; exact I.deadP p
  · intro c h; rw [(hc c).1] at h; rw [(hc c).2.1]; exact I.deadC c h
  · intro p s hs; rw [hp] at hs; rw [(hc _).2.2]; exact I.modes p s hs

theorem callIssue_spec (m : V) (l : List Slot) (w : Objects V)
    (h : ∀ s ∈ l, (w.cons s.cons).alive = true ∧ (w.cons s.cons).conns.length ≠ 0) :
    ∃ w', w.callIssue m l = .ok w' ∧ w'.prod = w.prod ∧ w'.next = w.next ∧
      ∀ d, w'.cons d = { w.cons d with
        log := (w.cons d).log ++ List.replicate (l.countP (fun s => s.cons = d)) (.sample m) } := by
  induction l generalizing w with
  | nil => exact ⟨w, rfl, rfl, rfl, fun d => by simp⟩
  | cons s rest ih =>
    obtain ⟨h1, h2⟩ := h s (by simp)
    rw [Objects.callIssue]
    simp only
    rw [if_neg (by simp [h1]), if_neg h2]
    have hc : ∀ d, (w.setCons s.cons { w.cons s.cons with
          log := (w.cons s.cons).log ++ [.sample m] }).cons d
        = if d = s.cons then { w.cons s.cons with log := (w.cons s.cons).log ++ [.sample m] }
          else w.cons d := fun d => rfl
    obtain ⟨w', e1, e2, e3, e4⟩ := ih (w.setCons s.cons { w.cons s.cons with
      log := (w.cons s.cons).log ++ [.sample m] }) (by
        intro t ht
        obtain ⟨a, b⟩ := h t (by simp [ht])
        rw [hc]
        split
        · exact ⟨h1, h2⟩
        · exact ⟨a, b⟩)
    refine ⟨w', e1, e2, e3, ?_⟩
    intro d
    rw [e4 d, hc d, List.countP_cons]
    by_cases hd : d = s.cons
    · subst hd
      simp [List.replicate_succ]
    · simp [hd, Ne.symm hd]

theorem callFlush_spec (l : List Slot) (w : Objects V)
    (h : ∀ s ∈ l, (w.cons s.cons).alive = true) :
    ∃ w', w.callFlush l = .ok w' ∧ w'.prod = w.prod ∧ w'.next = w.next ∧
      ∀ d, w'.cons d = { w.cons d with
        log := (w.cons d).log ++ List.replicate (l.countP (fun s => s.cons = d)) .flush } := by
  induction l generalizing w with
  | nil => exact ⟨w, rfl, rfl, rfl, fun d => by simp⟩
  | cons s rest ih =>
    have h1 := h s (by simp)
    rw [Objects.callFlush]
    simp only
    rw [if_neg (by simp [h1])]
    have hc : ∀ d, (w.setCons s.cons { w.cons s.cons with
          log := (w.cons s.cons).log ++ [.flush] }).cons d
        = if d = s.cons then { w.cons s.cons with log := (w.cons s.cons).log ++ [.flush] }
          else w.cons d := fun d => rfl
    obtain ⟨w', e1, e2, e3, e4⟩ := ih (w.setCons s.cons { w.cons s.cons with
      log := (w.cons s.cons).log ++ [.flush] }) (by
        intro t ht
        have a := h t (by simp [ht])
        rw [hc]
        split
        · exact h1
        · exact a)
    refine ⟨w', e1, e2, e3, ?_⟩
    intro d
    rw [e4 d, hc d, List.countP_cons]
    by_cases hd : d = s.cons
    · subst hd
      simp [List.replicate_succ]
    · simp [hd, Ne.symm hd]

theorem issue_spec {w : Objects V} (I : Inv w) (p : Nat) (m : V) (ha : (w.prod p).alive = true) :
    ∃ w', w.issue p m = .ok w' ∧ Inv w' ∧ w'.prod = w.prod ∧
      ∀ d, w'.cons d = { w.cons d with
        log := (w.cons d).log ++ List.replicate (slotsOf w p d).length (.sample m) } := by
  obtain ⟨w', e1, e2, e3, e4⟩ := callIssue_spec m (w.prod p).issue w
    (fun s hs => ⟨I.alive hs, I.conns_ne hs⟩)
  refine ⟨w', by rw [Objects.issue, if_neg (by simp [ha])]; exact e1, ?_, e2, ?_⟩
  · exact I.logs e2 e3 (fun d => by rw [e4 d]; exact ⟨rfl, rfl, rfl⟩)
  · intro d
    rw [e4 d, List.countP_eq_length_filter, slotsOf, List.length_map]

theorem flush_spec {w : Objects V} (I : Inv w) (p : Nat) (ha : (w.prod p).alive = true) :
    ∃ w', w.flush p = .ok w' ∧ Inv w' ∧ w'.prod = w.prod ∧
      ∀ d, w'.cons d = { w.cons d with
        log := (w.cons d).log ++ List.replicate (slotsOf w p d).length .flush } := by
  obtain ⟨w', e1, e2, e3, e4⟩ := callFlush_spec (w.prod p).flush w
    (fun s hs => I.alive (by rwa [I.flush_eq] at hs))
  refine ⟨w', by rw [Objects.flush, if_neg (by simp [ha])]; exact e1, ?_, e2, ?_⟩
  · exact I.logs e2 e3 (fun d => by rw [e4 d]; exact ⟨rfl, rfl, rfl⟩)
  · intro d
    rw [e4 d, List.countP_eq_length_filter, slotsOf, List.length_map, I.flush_eq]

theorem destroyConsumer_spec {w : Objects V} (I : Inv w) (c : Nat) (ha : (w.cons c).alive = true) :
    ∃ w', w.destroyConsumer c = .ok w' ∧ Inv w' ∧
      (∀ q, (w'.prod q).alive = (w.prod q).alive ∧
        (w'.prod q).issue = (w.prod q).issue.filter (fun x => x.cons ≠ c)) ∧
      (∀ d, d ≠ c → w'.cons d = w.cons d) ∧
      w'.cons c = ⟨false, [], (w.cons c).mode, (w.cons c).supported, (w.cons c).log ++ [.flush]⟩ := by
  obtain ⟨w1, e, hn, hp, hc, hcc⟩ := disconnectAndFlush_spec I c ha
  have I1 := I.disconnectAndFlush c e
  have h2c : (w1.setCons c { w1.cons c with alive := false }).cons c
      = { w1.cons c with alive := false } := by simp [Objects.setCons]
  have h2d : ∀ d, d ≠ c → (w1.setCons c { w1.cons c with alive := false }).cons d = w1.cons d := by
    intro d hd; simp [Objects.setCons, hd]
  refine ⟨w1.setCons c { w1.cons c with alive := false }, ?_, ?_, ?_, ?_, ?_⟩
  · rw [Objects.destroyConsumer, e]
    simp only
    rw [if_pos (by rw [hcc]; rfl)]
  · constructor
    · exact I1.flush_eq
    · exact I1.disc_eq
    · intro p d
      have il := I1.link p d
      rw [slotsOf, connsOf] at il ⊢
      by_cases hd : d = c
      · subst hd; rw [h2c]; exact il
      · rw [h2d d hd]; exact il
    · exact I1.fresh
    · exact I1.nodup
    · exact I1.deadP
    · intro d hdead
      by_cases hd : d = c
      · subst hd; rw [h2c]; simp only; rw [hcc]
      · rw [h2d d hd] at hdead ⊢; exact I1.deadC d hdead
    · intro p s hs
      have := I1.modes p s hs
      by_cases hd : s.cons = c
      · rw [hd, h2c]; rw [hd] at this; exact this
      · rw [h2d _ hd]; exact this
  · intro q; exact ⟨(hp q).1, (hp q).2.1⟩
  · intro d hd; rw [h2d d hd, hc d hd]
  · rw [h2c, hcc]

theorem setParallelMode_spec (w : Objects V) (c m : Nat) (w' : Objects V)
    (h : w.setParallelMode c m = .ok w') :
    (w.cons c).alive = true ∧ (w.cons c).conns = [] ∧ m &&& (w.cons c).supported ≠ 0 ∧
    w'.prod = w.prod ∧ w'.next = w.next ∧ (∀ d, d ≠ c → w'.cons d = w.cons d) ∧
    w'.cons c = { w.cons c with mode := m } := by
  unfold Objects.setParallelMode at h
  split at h
  · cases h
  rename_i h1
  split at h
  · cases h
  rename_i h2
  split at h
  · cases h
  rename_i h3
  cases h
  refine ⟨by simpa using h1, by simpa using h2, h3, rfl, rfl, ?_, ?_⟩
  · intro d hd; simp [Objects.setCons, hd]
  · simp [Objects.setCons]

theorem Inv.setParallelMode {w w' : Objects V} (I : Inv w) (c m : Nat)
    (h : w.setParallelMode c m = .ok w') : Inv w' := by
  obtain ⟨h1, h2, h3, hp, hn, hd, hc⟩ := setParallelMode_spec w c m w' h
  constructor
  · intro p; rw [hp]; exact I.flush_eq p
  · intro p; rw [hp]; exact I.disc_eq p
  · intro p d
    have il := I.link p d
    rw [slotsOf, connsOf] at il ⊢
    rw [hp, il]
    by_cases h : d = c
    · subst h; rw [hc]
    · rw [hd d h]
  · intro p; rw [hp, hn]; exact I.fresh p
  · intro p; rw [hp]; exact I.nodup p
  · intro p; rw [hp]; exact I.deadP p
  · intro d hdead
    by_cases h : d = c
    · subst h; rw [hc]; exact h2
    · rw [hd d h] at hdead ⊢; exact I.deadC d hdead
  · intro p s hs
    rw [hp] at hs
    have hne : s.cons ≠ c := by
      rintro rfl
      have := I.mem_conns hs
      rw [h2] at this; simp at this
    rw [hd _ hne]; exact I.modes p s hs

/-! ### histories -/

theorem length_link {w : Objects V} (I : Inv w) (p c : Nat) :
    (slotsOf w p c).length = (w.cons c).conns.countP (fun e => e.1 = p) := by
  rw [I.link, connsOf, List.length_map, List.countP_eq_length_filter]

/-- Everything one operation does to the quantities of the specification. -/
theorem step_spec {w w' : Objects V} (I : Inv w) (o : Op V) (h : w.step o = .ok w') :
    Inv w' ∧
    (∀ c p, (slotsOf w' p c).length = liveConnections c p (slotsOf w p c).length [o]) ∧
    (∀ c, (w'.cons c).mode = lastMode c (w.cons c).mode [o]) ∧
    (∀ c, (w'.cons c).supported = (w.cons c).supported) ∧
    (∀ c, (w'.cons c).alive = ((w.cons c).alive && decide (c ∉ destroyedConsumers [o]))) ∧
    (∀ p, (w'.prod p).alive = ((w.prod p).alive && decide (p ∉ destroyedProducers [o]))) := by
  cases o with
  | connect c p =>
    rw [Objects.step] at h
    have I' := I.connect c p h
    obtain ⟨ha, hb, hm, hn, hq, hp, hd, hc⟩ := connect_spec w c p w' h
    refine ⟨I', ?_, ?_, ?_, ?_, ?_⟩
    · intro d q
      rw [length_link I', length_link I, liveConnections, liveConnections]
      by_cases h1 : d = c
      · subst h1
        rw [hc]
        simp only [List.countP_append, List.countP_singleton]
        by_cases h2 : p = q <;> simp [h2]
      · rw [hd d h1]; simp [Ne.symm h1]
    · intro d
      by_cases h1 : d = c
      · subst h1; rw [hc]; rfl
      · rw [hd d h1]; rfl
    · intro d
      by_cases h1 : d = c
      · subst h1; rw [hc]
      · rw [hd d h1]
    · intro d
      by_cases h1 : d = c
      · subst h1; rw [hc]; simp [destroyedConsumers]
      · rw [hd d h1]; simp [destroyedConsumers]
    · intro q
      by_cases h1 : q = p
      · subst h1; rw [hp]; simp [destroyedProducers]
      · rw [hq q h1]; simp [destroyedProducers]
  | disconnectAndFlush c =>
    rw [Objects.step] at h
    have I' := I.disconnectAndFlush c h
    have ha : (w.cons c).alive = true := by
      by_contra hcon
      rw [Objects.disconnectAndFlush, if_pos (by simpa using hcon)] at h
      cases h
    obtain ⟨w2, e, hn, hp, hd, hc⟩ := disconnectAndFlush_spec I c ha
    rw [e] at h; cases h
    refine ⟨I', ?_, ?_, ?_, ?_, ?_⟩
    · intro d q
      rw [length_link I', length_link I, liveConnections, liveConnections]
      by_cases h1 : d = c
      · subst h1; rw [hc]; simp
      · rw [hd d h1]; simp [Ne.symm h1]
    · intro d
      by_cases h1 : d = c
      · subst h1; rw [hc]; rfl
      · rw [hd d h1]; rfl
    · intro d
      by_cases h1 : d = c
      · subst h1; rw [hc]
      · rw [hd d h1]
    · intro d
      by_cases h1 : d = c
      · subst h1; rw [hc]; simp [destroyedConsumers]
      · rw [hd d h1]; simp [destroyedConsumers]
    · intro q; rw [(hp q).1]; simp [destroyedProducers]
  | destroyConsumer c =>
    rw [Objects.step] at h
    have ha : (w.cons c).alive = true := by
      by_contra hcon
      rw [Objects.destroyConsumer, Objects.disconnectAndFlush, if_pos (by simpa using hcon)] at h
      cases h
    obtain ⟨w2, e, I', hp, hd, hc⟩ := destroyConsumer_spec I c ha
    rw [e] at h; cases h
    refine ⟨I', ?_, ?_, ?_, ?_, ?_⟩
    · intro d q
      rw [length_link I', length_link I, liveConnections, liveConnections]
      by_cases h1 : d = c
      · subst h1; rw [hc]; simp
      · rw [hd d h1]; simp [Ne.symm h1]
    · intro d
      by_cases h1 : d = c
      · subst h1; rw [hc]; rfl
      · rw [hd d h1]; rfl
    · intro d
      by_cases h1 : d = c
      · subst h1; rw [hc]
      · rw [hd d h1]
    · intro d
      by_cases h1 : d = c
      · subst h1; rw [hc]; simp [destroyedConsumers]
      · rw [hd d h1]; simp [destroyedConsumers, h1]
    · intro q; rw [(hp q).1]; simp [destroyedProducers]
  | destroyProducer p =>
    rw [Objects.step] at h
    have ha : (w.prod p).alive = true := by
      by_contra hcon
      rw [Objects.destroyProducer, if_pos (by simpa using hcon)] at h
      cases h
    obtain ⟨w2, e, I', hp, hq, hc⟩ := destroyProducer_spec I p ha
    rw [e] at h; cases h
    refine ⟨I', ?_, ?_, ?_, ?_, ?_⟩
    · intro d q
      rw [liveConnections, liveConnections, slotsOf, slotsOf]
      by_cases h1 : p = q
      · subst h1; rw [hp]; simp
      · rw [hq q (Ne.symm h1)]; simp [h1]
    · intro d; rw [hc d]; rfl
    · intro d; rw [hc d]
    · intro d; rw [hc d]; simp [destroyedConsumers]
    · intro q
      by_cases h1 : q = p
      · subst h1; rw [hp]; simp [destroyedProducers]
      · rw [hq q h1]; simp [destroyedProducers, h1]
  | setParallelMode c m =>
    rw [Objects.step] at h
    have I' := I.setParallelMode c m h
    obtain ⟨h1, h2, h3, hp, hn, hd, hc⟩ := setParallelMode_spec w c m w' h
    refine ⟨I', ?_, ?_, ?_, ?_, ?_⟩
    · intro d q; rw [slotsOf, slotsOf, hp]; rfl
    · intro d
      rw [lastMode, lastMode]
      by_cases h1 : d = c
      · subst h1; rw [hc]; simp
      · rw [hd d h1]; simp [Ne.symm h1]
    · intro d
      by_cases h1 : d = c
      · subst h1; rw [hc]
      · rw [hd d h1]
    · intro d
      by_cases h1 : d = c
      · subst h1; rw [hc]; simp [destroyedConsumers]
      · rw [hd d h1]; simp [destroyedConsumers]
    · intro q; rw [hp]; simp [destroyedProducers]
  | issue p m =>
    rw [Objects.step] at h
    have ha : (w.prod p).alive = true := by
      by_contra hcon
      rw [Objects.issue, if_pos (by simpa using hcon)] at h
      cases h
    obtain ⟨w2, e, I', hp, hc⟩ := issue_spec I p m ha
    rw [e] at h; cases h
    refine ⟨I', ?_, ?_, ?_, ?_, ?_⟩
    · intro d q; rw [slotsOf, slotsOf, hp]; rfl
    · intro d; rw [hc d]; rfl
    · intro d; rw [hc d]
    · intro d; rw [hc d]; simp [destroyedConsumers]
    · intro q; rw [hp]; simp [destroyedProducers]
  | flush p =>
    rw [Objects.step] at h
    have ha : (w.prod p).alive = true := by
      by_contra hcon
      rw [Objects.flush, if_pos (by simpa using hcon)] at h
      cases h
    obtain ⟨w2, e, I', hp, hc⟩ := flush_spec I p ha
    rw [e] at h; cases h
    refine ⟨I', ?_, ?_, ?_, ?_, ?_⟩
    · intro d q; rw [slotsOf, slotsOf, hp]; rfl
    · intro d; rw [hc d]; rfl
    · intro d; rw [hc d]
    · intro d; rw [hc d]; simp [destroyedConsumers]
    · intro q; rw [hp]; simp [destroyedProducers]

theorem liveConnections_cons (c p n : Nat) (o : Op V) (os : List (Op V)) :
    liveConnections c p n (o :: os) = liveConnections c p (liveConnections c p n [o]) os := by
  cases o <;> rfl

theorem lastMode_cons (c n : Nat) (o : Op V) (os : List (Op V)) :
    lastMode c n (o :: os) = lastMode c (lastMode c n [o]) os := by
  cases o <;> rfl

theorem destroyedConsumers_cons (o : Op V) (os : List (Op V)) :
    destroyedConsumers (o :: os) = destroyedConsumers [o] ++ destroyedConsumers os := by
  cases o <;> rfl

theorem destroyedProducers_cons (o : Op V) (os : List (Op V)) :
    destroyedProducers (o :: os) = destroyedProducers [o] ++ destroyedProducers os := by
  cases o <;> rfl

theorem run_spec {w w' : Objects V} (I : Inv w) (os : List (Op V)) (h : w.run os = .ok w') :
    Inv w' ∧
    (∀ c p, (slotsOf w' p c).length = liveConnections c p (slotsOf w p c).length os) ∧
    (∀ c, (w'.cons c).mode = lastMode c (w.cons c).mode os) ∧
    (∀ c, (w'.cons c).supported = (w.cons c).supported) ∧
    (∀ c, (w'.cons c).alive = ((w.cons c).alive && decide (c ∉ destroyedConsumers os))) ∧
    (∀ p, (w'.prod p).alive = ((w.prod p).alive && decide (p ∉ destroyedProducers os))) := by
  induction os generalizing w with
  | nil =>
    rw [Objects.run] at h; cases h
    refine ⟨I, fun _ _ => rfl, fun _ => rfl, fun _ => rfl, ?_, ?_⟩ <;> intro c <;>
      simp [destroyedConsumers, destroyedProducers]
  | cons o os ih =>
    rw [Objects.run] at h
    split at h
    · cases h
    rename_i w1 h1
    obtain ⟨I1, a1, a2, a3, a4, a5⟩ := step_spec I o h1
    obtain ⟨I2, b1, b2, b3, b4, b5⟩ := ih I1 h
    refine ⟨I2, ?_, ?_, ?_, ?_, ?_⟩
    · intro c p; rw [b1, a1]; exact (liveConnections_cons _ _ _ o os).symm
    · intro c; rw [b2, a2]; exact (lastMode_cons _ _ o os).symm
    · intro c; rw [b3, a3]
    · intro c; rw [b4, a4, destroyedConsumers_cons o os]; simp [not_or, Bool.and_assoc]
    · intro c; rw [b5, a5, destroyedProducers_cons o os]; simp [not_or, Bool.and_assoc]

theorem run_append (w : Objects V) (a b : List (Op V)) :
    w.run (a ++ b) = match w.run a with
      | .error e => .error e
      | .ok w' => w'.run b := by
  induction a generalizing w with
  | nil => rfl
  | cons o os ih =>
    rw [List.cons_append, Objects.run, Objects.run]
    cases w.step o with
    | error e => rfl
    | ok w1 => exact ih w1

end SampleFlow
