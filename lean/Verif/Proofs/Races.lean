import Verif.Spec.Races
import Mathlib.Tactic.ByContra
import Mathlib.Tactic.Convert
import Mathlib.Data.Option.Basic

/-!
# Lock discipline implies freedom from data races
-/

namespace SampleFlow.Races

open Spec

/-- Ways to hold a mutex. -/
inductive Mode where
  | exclusive
  | shared
deriving DecidableEq

def acquire : Mode → Mutex → Act
  | .exclusive, m => .lock m
  | .shared, m => .lockShared m

def release : Mode → Mutex → Act
  | .exclusive, m => .unlock m
  | .shared, m => .unlockShared m

def addHeld (md : Mode) (m : Mutex) (held : Mode → Mutex → Prop) : Mode → Mutex → Prop :=
  fun md' k => (md' = md ∧ k = m) ∨ held md' k

def removeHeld (md : Mode) (m : Mutex) (held : Mode → Mutex → Prop) : Mode → Mutex → Prop :=
  fun md' k => ¬ (md' = md ∧ k = m) ∧ held md' k

/-- The rest of a thread's actions, beginning with the mutexes `held`, keeps the discipline: locations without guards are never
modified; the others are read only while one of the guards is held, and modified only while all guards are held exclusively. -/
def Disciplined (guard : Loc → List Mutex) : (Mode → Mutex → Prop) → List Act → Prop
  | _, [] => True
  | held, .lock m :: rest => (¬ held .exclusive m → ¬ held .shared m → Disciplined guard (addHeld .exclusive m held) rest)
  | held, .unlock m :: rest => held .exclusive m ∧ Disciplined guard (removeHeld .exclusive m held) rest
  | held, .lockShared m :: rest => (¬ held .exclusive m → ¬ held .shared m → Disciplined guard (addHeld .shared m held) rest)
  | held, .unlockShared m :: rest => held .shared m ∧ Disciplined guard (removeHeld .shared m held) rest
  | held, .read l :: rest => (guard l = [] ∨ ∃ m ∈ guard l, ∃ md, held md m) ∧ Disciplined guard held rest
  | held, .write l :: rest => (guard l ≠ [] ∧ ∀ m ∈ guard l, held .exclusive m) ∧ Disciplined guard held rest

/-- `prot a md m`: while event `a` took place, its thread held `m` in mode `md`. -/
structure Inv (guard : Loc → List Mutex) (holds : Nat → Mode → Mutex → Prop) (threads : List (List Act)) (tr : List (Nat × Act))
    (prot : Nat → Mode → Mutex → Prop) : Prop where
  disc : ∀ (i : Nat) (acts : List Act), threads[i]? = some acts → Disciplined guard (holds i) acts
  excl : ∀ i j md md' m, holds i md m → holds j md' m → (md = .exclusive ∨ md' = .exclusive) → i = j
  known : ∀ a md m, prot a md m → a < tr.length
  reads : ∀ (a i : Nat) (l : Loc), tr[a]? = some (i, Act.read l) → guard l = [] ∨ ∃ m ∈ guard l, ∃ md, prot a md m
  writes : ∀ (a i : Nat) (l : Loc), tr[a]? = some (i, Act.write l) → guard l ≠ [] ∧ ∀ m ∈ guard l, prot a .exclusive m
  released : ∀ (a i : Nat) (x : Act) (md : Mode) (m : Mutex), tr[a]? = some (i, x) → prot a md m →
    holds i md m ∨ ∃ u, a < u ∧ tr[u]? = some (i, release md m)
  acquired : ∀ (j : Nat) (md : Mode) (m : Mutex), holds j md m → ∃ k, tr[k]? = some (j, acquire md m) ∧
    ∀ (a i : Nat) (x : Act) (md' : Mode), tr[a]? = some (i, x) → prot a md' m → (md = .exclusive ∨ md' = .exclusive) →
      i = j ∨ ∃ u, a < u ∧ u < k ∧ tr[u]? = some (i, release md' m)
  ordered : ∀ (a b i j : Nat) (x y : Act), a < b → tr[a]? = some (i, x) → tr[b]? = some (j, y) → Conflict x y →
    HappensBefore tr a b

theorem lt_of_getElem? {α : Type*} {t : List α} {a : Nat} {x : α} (h : t[a]? = some x) : a < t.length := by
  by_contra hc
  rw [List.getElem?_eq_none (by omega)] at h
  cases h

theorem getElem?_append_of_some {α : Type*} {t : List α} {a : Nat} {x : α} (e : α) (h : t[a]? = some x) : (t ++ [e])[a]? = some x := by
  rw [List.getElem?_append_left (lt_of_getElem? h), h]

theorem getElem?_append_cases {α : Type*} {t : List α} {a : Nat} {x e : α} (h : (t ++ [e])[a]? = some x) :
    (a < t.length ∧ t[a]? = some x) ∨ (a = t.length ∧ x = e) := by
  by_cases ha : a < t.length
  · rw [List.getElem?_append_left ha] at h
    exact .inl ⟨ha, h⟩
  · rw [List.getElem?_append_right (by omega)] at h
    rcases Nat.eq_zero_or_pos (a - t.length) with h0 | h0
    · rw [h0] at h
      simp at h
      exact .inr ⟨by omega, h.symm⟩
    · rw [List.getElem?_eq_none (by simpa using Nat.succ_le_of_lt h0)] at h
      cases h

theorem getElem?_append_last {α : Type*} (t : List α) (e : α) : (t ++ [e])[t.length]? = some e := by simp

theorem hb_append {t : List (Nat × Act)} {a b : Nat} (e : Nat × Act) (h : HappensBefore t a b) : HappensBefore (t ++ [e]) a b := by
  induction h with
  | sameThread a b i x y ha hb hlt =>
    exact .sameThread a b i x y (getElem?_append_of_some e ha) (getElem?_append_of_some e hb) hlt
  | mutex a b i j x y ha hb hlt hs => exact .mutex a b i j x y (getElem?_append_of_some e ha) (getElem?_append_of_some e hb) hlt hs
  | trans a b c _ _ h1 h2 => exact .trans a b c h1 h2

/-- The threads other than `i` in a list in which thread `i` has been replaced. -/
theorem set_cases {threads : List (List Act)} {i j : Nat} {rest acts : List Act} (h : (threads.set i rest)[j]? = some acts) :
    (j = i ∧ acts = rest) ∨ (j ≠ i ∧ threads[j]? = some acts) := by
  by_cases hj : j = i
  · subst hj
    left
    refine ⟨rfl, ?_⟩
    rw [List.getElem?_set] at h
    simp only [if_true] at h
    split at h
    · exact (Option.some.inj h).symm
    · cases h
  · right
    rw [List.getElem?_set_ne (Ne.symm hj)] at h
    exact ⟨hj, h⟩

theorem synchronizes_release_acquire (md md' : Mode) (m : Mutex) (h : md' = .exclusive ∨ md = .exclusive) :
    Synchronizes (release md m) (acquire md' m) := by
  refine ⟨m, ?_⟩
  cases md <;> cases md' <;> simp_all [release, acquire]

theorem not_access_acquire (md : Mode) (m : Mutex) (l : Loc) : acquire md m ≠ .read l ∧ acquire md m ≠ .write l := by
  cases md <;> exact ⟨by simp [acquire], by simp [acquire]⟩

theorem not_access_release (md : Mode) (m : Mutex) (l : Loc) : release md m ≠ .read l ∧ release md m ≠ .write l := by
  cases md <;> exact ⟨by simp [release], by simp [release]⟩

/-- The parts that do not change when something other than an access is appended. -/
theorem ordered_append {tr : List (Nat × Act)} {e : Nat × Act}
    (h : ∀ (a b i j : Nat) (x y : Act), a < b → tr[a]? = some (i, x) → tr[b]? = some (j, y) → Conflict x y → HappensBefore tr a b)
    (he : ∀ l, e.2 ≠ .read l ∧ e.2 ≠ .write l) (a b i j : Nat) (x y : Act) (hab : a < b) (ha : (tr ++ [e])[a]? = some (i, x))
    (hb : (tr ++ [e])[b]? = some (j, y)) (hc : Conflict x y) : HappensBefore (tr ++ [e]) a b := by
  rcases getElem?_append_cases hb with ⟨hb1, hb'⟩ | ⟨hb1, hb'⟩
  · rcases getElem?_append_cases ha with ⟨_, ha'⟩ | ⟨ha1, _⟩
    · exact hb_append _ (h a b i j x y hab ha' hb' hc)
    · omega
  · rw [← hb'] at he
    obtain ⟨l, hl⟩ := hc
    have := he l
    rcases hl with ⟨_, h2 | h2⟩ | ⟨_, h2⟩
    · exact absurd h2 this.2
    · exact absurd h2 this.1
    · exact absurd h2 this.2

theorem Inv.acquire {guard : Loc → List Mutex} {holds : Nat → Mode → Mutex → Prop} {threads : List (List Act)} {tr : List (Nat × Act)}
    {prot : Nat → Mode → Mutex → Prop} (h : Inv guard holds threads tr prot) {i : Nat} {md : Mode} {m : Mutex} {rest : List Act}
    {holds' : Nat → Mode → Mutex → Prop} (hholds : ∀ j md' k, holds' j md' k ↔ (j = i ∧ md' = md ∧ k = m) ∨ holds j md' k)
    (hdisc : Disciplined guard (addHeld md m (holds i)) rest)
    (hfree : ∀ j md', (md = .exclusive ∨ md' = .exclusive) → ¬ holds j md' m) :
    Inv guard holds' (threads.set i rest) (tr ++ [(i, Races.acquire md m)]) prot := by
  have hno := not_access_acquire md m
  constructor
  · intro j acts hj
    rcases set_cases hj with ⟨rfl, rfl⟩ | ⟨hne, hj⟩
    · convert hdisc using 1
      funext md' k
      simp [hholds, addHeld]
    · convert h.disc j acts hj using 1
      funext md' k
      simp [hholds, hne]
  · intro j j' md1 md2 k h1 h2 hx
    rcases (hholds _ _ _).mp h1 with ⟨rfl, rfl, rfl⟩ | h1 <;> rcases (hholds _ _ _).mp h2 with ⟨rfl, rfl, h2⟩ | h2
    · rfl
    · exact absurd h2 (hfree _ _ hx)
    · exact absurd (h2 ▸ h1) (hfree _ _ hx.symm)
    · exact h.excl j j' md1 md2 k h1 h2 hx
  · intro a md' k ha
    have := h.known a md' k ha
    simp
    omega
  · intro a j l ha
    rcases getElem?_append_cases ha with ⟨_, ha⟩ | ⟨_, ha⟩
    · exact h.reads a j l ha
    · injection ha with h1 h2
      exact absurd h2.symm (hno l).1
  · intro a j l ha
    rcases getElem?_append_cases ha with ⟨_, ha⟩ | ⟨_, ha⟩
    · exact h.writes a j l ha
    · injection ha with h1 h2
      exact absurd h2.symm (hno l).2
  · intro a j x md' k ha hp
    rcases getElem?_append_cases ha with ⟨_, ha⟩ | ⟨ha1, _⟩
    · rcases h.released a j x md' k ha hp with h1 | ⟨u, hu, h1⟩
      · exact .inl ((hholds _ _ _).mpr (.inr h1))
      · exact .inr ⟨u, hu, getElem?_append_of_some _ h1⟩
    · have := h.known a md' k hp
      omega
  · intro j md1 k hj
    rcases (hholds _ _ _).mp hj with ⟨rfl, rfl, rfl⟩ | hj
    · refine ⟨tr.length, getElem?_append_last _ _, ?_⟩
      intro a i' x md' ha hp hx
      rcases getElem?_append_cases ha with ⟨_, ha⟩ | ⟨ha1, _⟩
      · rcases h.released a i' x md' k ha hp with h1 | ⟨u, hu, h1⟩
        · exact absurd h1 (hfree _ _ hx)
        · exact .inr ⟨u, hu, lt_of_getElem? h1, getElem?_append_of_some _ h1⟩
      · have := h.known a md' k hp
        omega
    · obtain ⟨k', hk', hall⟩ := h.acquired j md1 k hj
      refine ⟨k', getElem?_append_of_some _ hk', ?_⟩
      intro a i' x md' ha hp hx
      rcases getElem?_append_cases ha with ⟨_, ha⟩ | ⟨ha1, _⟩
      · rcases hall a i' x md' ha hp hx with h1 | ⟨u, h1, h2, h3⟩
        · exact .inl h1
        · exact .inr ⟨u, h1, h2, getElem?_append_of_some _ h3⟩
      · have := h.known a md' k hp
        omega
  · exact ordered_append h.ordered hno

theorem Inv.release {guard : Loc → List Mutex} {holds : Nat → Mode → Mutex → Prop} {threads : List (List Act)} {tr : List (Nat × Act)}
    {prot : Nat → Mode → Mutex → Prop} (h : Inv guard holds threads tr prot) {i : Nat} {md : Mode} {m : Mutex} {rest : List Act}
    {holds' : Nat → Mode → Mutex → Prop} (hholds : ∀ j md' k, holds' j md' k ↔ ¬ (j = i ∧ md' = md ∧ k = m) ∧ holds j md' k)
    (hdisc : Disciplined guard (removeHeld md m (holds i)) rest) :
    Inv guard holds' (threads.set i rest) (tr ++ [(i, Races.release md m)]) prot := by
  have hno := not_access_release md m
  constructor
  · intro j acts hj
    rcases set_cases hj with ⟨rfl, rfl⟩ | ⟨hne, hj⟩
    · convert hdisc using 1
      funext md' k
      simp [hholds, removeHeld]
    · convert h.disc j acts hj using 1
      funext md' k
      simp [hholds, hne]
  · intro j j' md1 md2 k h1 h2 hx
    exact h.excl j j' md1 md2 k ((hholds _ _ _).mp h1).2 ((hholds _ _ _).mp h2).2 hx
  · intro a md' k ha
    have := h.known a md' k ha
    simp
    omega
  · intro a j l ha
    rcases getElem?_append_cases ha with ⟨_, ha⟩ | ⟨_, ha⟩
    · exact h.reads a j l ha
    · injection ha with h1 h2
      exact absurd h2.symm (hno l).1
  · intro a j l ha
    rcases getElem?_append_cases ha with ⟨_, ha⟩ | ⟨_, ha⟩
    · exact h.writes a j l ha
    · injection ha with h1 h2
      exact absurd h2.symm (hno l).2
  · intro a j x md' k ha hp
    rcases getElem?_append_cases ha with ⟨hlt, ha⟩ | ⟨ha1, _⟩
    · rcases h.released a j x md' k ha hp with h1 | ⟨u, hu, h1⟩
      · by_cases hsame : j = i ∧ md' = md ∧ k = m
        · obtain ⟨rfl, rfl, rfl⟩ := hsame
          exact .inr ⟨tr.length, hlt, getElem?_append_last _ _⟩
        · exact .inl ((hholds _ _ _).mpr ⟨hsame, h1⟩)
      · exact .inr ⟨u, hu, getElem?_append_of_some _ h1⟩
    · have := h.known a md' k hp
      omega
  · intro j md1 k hj
    obtain ⟨k', hk', hall⟩ := h.acquired j md1 k ((hholds _ _ _).mp hj).2
    refine ⟨k', getElem?_append_of_some _ hk', ?_⟩
    intro a i' x md' ha hp hx
    rcases getElem?_append_cases ha with ⟨_, ha⟩ | ⟨ha1, _⟩
    · rcases hall a i' x md' ha hp hx with h1 | ⟨u, h1, h2, h3⟩
      · exact .inl h1
      · exact .inr ⟨u, h1, h2, getElem?_append_of_some _ h3⟩
    · have := h.known a md' k hp
      omega
  · exact ordered_append h.ordered hno

theorem Inv.access {guard : Loc → List Mutex} {holds : Nat → Mode → Mutex → Prop} {threads : List (List Act)} {tr : List (Nat × Act)}
    {prot : Nat → Mode → Mutex → Prop} (h : Inv guard holds threads tr prot) {i : Nat} {e : Act} {l : Loc} {rest : List Act}
    (hdisc : Disciplined guard (holds i) rest) (he : e = .read l ∨ e = .write l)
    (hread : e = .read l → guard l = [] ∨ ∃ m ∈ guard l, ∃ md, holds i md m)
    (hwrite : e = .write l → guard l ≠ [] ∧ ∀ m ∈ guard l, holds i .exclusive m) :
    Inv guard holds (threads.set i rest) (tr ++ [(i, e)]) (fun a md m => prot a md m ∨ (a = tr.length ∧ holds i md m)) := by
  constructor
  · intro j acts hj
    rcases set_cases hj with ⟨rfl, rfl⟩ | ⟨hne, hj⟩
    · exact hdisc
    · exact h.disc j acts hj
  · exact h.excl
  · intro a md' k ha
    rcases ha with ha | ⟨ha, _⟩
    · have := h.known a md' k ha
      simp
      omega
    · simp
      omega
  · intro a j l' ha
    rcases getElem?_append_cases ha with ⟨_, ha⟩ | ⟨ha1, ha⟩
    · rcases h.reads a j l' ha with h1 | ⟨m, hm, md, h1⟩
      · exact .inl h1
      · exact .inr ⟨m, hm, md, .inl h1⟩
    · injection ha with h1 h2
      have hl : l' = l := by
        rcases he with he | he <;> rw [he] at h2 <;> first | (injection h2) | cases h2
      subst hl
      rcases hread h2.symm with h1 | ⟨m, hm, md, h1⟩
      · exact .inl h1
      · exact .inr ⟨m, hm, md, .inr ⟨ha1, h1⟩⟩
  · intro a j l' ha
    rcases getElem?_append_cases ha with ⟨_, ha⟩ | ⟨ha1, ha⟩
    · exact ⟨(h.writes a j l' ha).1, fun m hm => .inl ((h.writes a j l' ha).2 m hm)⟩
    · injection ha with h1 h2
      have hl : l' = l := by
        rcases he with he | he <;> rw [he] at h2 <;> first | (injection h2) | cases h2
      subst hl
      exact ⟨(hwrite h2.symm).1, fun m hm => .inr ⟨ha1, (hwrite h2.symm).2 m hm⟩⟩
  · intro a j x md' k ha hp
    rcases getElem?_append_cases ha with ⟨hlt, ha⟩ | ⟨ha1, ha⟩
    · rcases hp with hp | ⟨hp, _⟩
      · rcases h.released a j x md' k ha hp with h1 | ⟨u, hu, h1⟩
        · exact .inl h1
        · exact .inr ⟨u, hu, getElem?_append_of_some _ h1⟩
      · omega
    · rcases hp with hp | ⟨_, hp⟩
      · have := h.known a md' k hp
        omega
      · injection ha with h1 _
        exact .inl (h1 ▸ hp)
  · intro j md1 k hj
    obtain ⟨k', hk', hall⟩ := h.acquired j md1 k hj
    refine ⟨k', getElem?_append_of_some _ hk', ?_⟩
    intro a i' x md' ha hp hx
    rcases getElem?_append_cases ha with ⟨hlt, ha⟩ | ⟨ha1, ha⟩
    · rcases hp with hp | ⟨hp, _⟩
      · rcases hall a i' x md' ha hp hx with h1 | ⟨u, h1, h2, h3⟩
        · exact .inl h1
        · exact .inr ⟨u, h1, h2, getElem?_append_of_some _ h3⟩
      · omega
    · rcases hp with hp | ⟨_, hp⟩
      · have := h.known a md' k hp
        omega
      · injection ha with h1 _
        exact .inl (h1.trans (h.excl i j md' md1 k hp hj hx.symm))
  · intro a b i' j x y hab ha hb hc
    rcases getElem?_append_cases hb with ⟨hb1, hb'⟩ | ⟨hb1, hb'⟩
    · rcases getElem?_append_cases ha with ⟨_, ha'⟩ | ⟨ha1, _⟩
      · exact hb_append _ (h.ordered a b i' j x y hab ha' hb' hc)
      · omega
    · rcases getElem?_append_cases ha with ⟨_, ha'⟩ | ⟨ha1, _⟩
      swap
      · omega
      injection hb' with h1 h2
      subst h1 h2 hb1
      -- a mutex that both held, one of them exclusively
      have hcommon : ∃ (m : Mutex) (md md' : Mode), prot a md' m ∧ holds j md m ∧ (md = .exclusive ∨ md' = .exclusive) := by
        obtain ⟨l', hl'⟩ := hc
        have hl : l' = l := by
          rcases hl' with ⟨_, h2 | h2⟩ | ⟨_, h2⟩ <;> rcases he with he | he <;> rw [he] at h2 <;>
            first | (injection h2 with h2; exact h2.symm) | cases h2
        subst hl
        rcases hl' with ⟨h1, h2 | h2⟩ | ⟨h1, h2⟩
        · subst h1
          obtain ⟨hg, hall⟩ := h.writes a i' l' ha'
          obtain ⟨m, hm⟩ := List.exists_mem_of_ne_nil _ hg
          exact ⟨m, .exclusive, .exclusive, hall m hm, (hwrite h2).2 m hm, .inl rfl⟩
        · subst h1
          obtain ⟨hg, hall⟩ := h.writes a i' l' ha'
          rcases hread h2 with h3 | ⟨m, hm, md, h3⟩
          · exact absurd h3 hg
          · exact ⟨m, md, .exclusive, hall m hm, h3, .inr rfl⟩
        · subst h1
          obtain ⟨hg, hall⟩ := hwrite h2
          rcases h.reads a i' l' ha' with h3 | ⟨m, hm, md, h3⟩
          · exact absurd h3 hg
          · exact ⟨m, .exclusive, md, h3, hall m hm, .inl rfl⟩
      obtain ⟨m, md, md', hp, hh, hx⟩ := hcommon
      obtain ⟨k, hk, hall⟩ := h.acquired j md m hh
      rcases hall a i' x md' ha' hp hx with h1 | ⟨u, h1, h2, h3⟩
      · subst h1
        exact .sameThread _ _ i' x y (getElem?_append_of_some _ ha') (getElem?_append_last _ _) hab
      · refine .trans _ u _ (.sameThread _ _ i' x _ (getElem?_append_of_some _ ha') (getElem?_append_of_some _ h3) h1) ?_
        refine .trans _ k _ (.mutex _ _ i' j _ _ (getElem?_append_of_some _ h3) (getElem?_append_of_some _ hk) h2
          (synchronizes_release_acquire md' md m hx)) ?_
        exact .sameThread _ _ j _ y (getElem?_append_of_some _ hk) (getElem?_append_last _ _) (lt_of_getElem? hk)

/-- Who holds what. -/
def Holds (s : State) (i : Nat) : Mode → Mutex → Prop
  | .exclusive, m => s.holder m = some i
  | .shared, m => i ∈ s.readers m

theorem Inv.step {guard : Loc → List Mutex} {s t : State} {prot : Nat → Mode → Mutex → Prop}
    (h : Inv guard (Holds s) s.threads s.trace prot) (hst : Step s t) : ∃ prot', Inv guard (Holds t) t.threads t.trace prot' := by
  cases hst with
  | lock i m rest hi hfree hreaders =>
    have hfree' : ∀ j md', ¬ Holds s j md' m := by
      intro j md'
      cases md' <;> simp [Holds, hfree, hreaders]
    refine ⟨prot, h.acquire (md := .exclusive) ?_ ?_ (fun j md' _ => hfree' j md')⟩
    · intro j md' k
      cases md'
      · by_cases hk : k = m
        · subst hk
          simp [Holds, hfree, eq_comm]
        · simp [Holds, hk]
      · simp [Holds]
    · have := h.disc i _ hi
      simp only [Disciplined] at this
      exact this (hfree' i _) (hfree' i _)
  | unlock i m rest hi =>
    have hd := h.disc i _ hi
    simp only [Disciplined] at hd
    have hown : s.holder m = some i := hd.1
    refine ⟨prot, h.release (md := .exclusive) ?_ hd.2⟩
    intro j md' k
    cases md'
    · by_cases hk : k = m
      · subst hk
        simp only [Holds, if_true, hown]
        constructor
        · intro hc
          cases hc
        · rintro ⟨h1, h2⟩
          injection h2 with h2
          exact absurd ⟨h2.symm, trivial, trivial⟩ h1
      · simp [Holds, hk]
    · simp [Holds]
  | lockShared i m rest hi hfree hnew =>
    refine ⟨prot, h.acquire (md := .shared) ?_ ?_ ?_⟩
    · intro j md' k
      cases md'
      · simp [Holds]
      · by_cases hk : k = m
        · subst hk
          simp [Holds]
        · simp [Holds, hk]
    · have := h.disc i _ hi
      simp only [Disciplined] at this
      exact this (by simp [Holds, hfree]) hnew
    · rintro j md' (hx | hx)
      · cases hx
      · subst hx
        simp [Holds, hfree]
  | unlockShared i m rest hi =>
    have hd := h.disc i _ hi
    simp only [Disciplined] at hd
    refine ⟨prot, h.release (md := .shared) ?_ hd.2⟩
    intro j md' k
    cases md'
    · simp [Holds]
    · by_cases hk : k = m
      · subst hk
        simp [Holds, and_comm]
      · simp [Holds, hk]
  | read i l rest hi =>
    have hd := h.disc i _ hi
    simp only [Disciplined] at hd
    exact ⟨_, h.access hd.2 (.inl rfl) (fun _ => hd.1) (by intro hc; cases hc)⟩
  | write i l rest hi =>
    have hd := h.disc i _ hi
    simp only [Disciplined] at hd
    exact ⟨_, h.access hd.2 (.inr rfl) (by intro hc; cases hc) (fun _ => hd.1)⟩

/-- Disciplined threads: no data race, for every schedule. -/
theorem no_race {guard : Loc → List Mutex} {threads : List (List Act)} {t : List (Nat × Act)}
    (hdisc : ∀ (i : Nat) (acts : List Act), threads[i]? = some acts → Disciplined guard (fun _ _ => False) acts)
    (ht : Execution threads t) : ¬ DataRace t := by
  obtain ⟨s, hrun, rfl⟩ := ht
  have hinit : Inv guard (Holds (initial threads)) (initial threads).threads (initial threads).trace (fun _ _ _ => False) := by
    constructor
    · intro i acts hi
      convert hdisc i acts hi using 1
      funext md m
      cases md <;> simp [Holds, initial]
    · intro i j md md' m h
      cases md <;> simp [Holds, initial] at h
    · intro a md m h
      exact h.elim
    · intro a i l ha
      simp [initial] at ha
    · intro a i l ha
      simp [initial] at ha
    · intro a i x md m _ h
      exact h.elim
    · intro j md m h
      cases md <;> simp [Holds, initial] at h
    · intro a b i j x y _ ha
      simp [initial] at ha
  have hinv : ∃ prot, Inv guard (Holds s) s.threads s.trace prot := by
    induction hrun with
    | refl => exact ⟨_, hinit⟩
    | tail _ hst ih =>
      obtain ⟨prot, ih⟩ := ih
      exact ih.step hst
  obtain ⟨prot, hinv⟩ := hinv
  rintro ⟨a, b, i, j, x, y, ha, hb, hij, hc, h1, h2⟩
  rcases Nat.lt_trichotomy a b with hab | hab | hab
  · exact h1 (hinv.ordered a b i j x y hab ha hb hc)
  · subst hab
    rw [ha] at hb
    injection hb with hb
    injection hb with hb
    exact hij hb
  · refine h2 (hinv.ordered b a j i y x hab hb ha ?_)
    obtain ⟨l, hc⟩ := hc
    rcases hc with ⟨hx, hy | hy⟩ | ⟨hx, hy⟩
    · exact ⟨l, .inl ⟨hy, .inl hx⟩⟩
    · exact ⟨l, .inr ⟨hy, hx⟩⟩
    · exact ⟨l, .inl ⟨hy, .inr hx⟩⟩

/-- Code that keeps the discipline and gives back what it has locked. -/
def Good (guard : Loc → List Mutex) (p : List Act) : Prop :=
  ∀ held q, Disciplined guard held q → Disciplined guard held (p ++ q)

theorem Good.append {guard : Loc → List Mutex} {p q : List Act} (hp : Good guard p) (hq : Good guard q) : Good guard (p ++ q) := by
  intro held r hr
  rw [List.append_assoc]
  exact hp _ _ (hq _ _ hr)

theorem remove_add {md : Mode} {m : Mutex} {held : Mode → Mutex → Prop} (h : ¬ held md m) : removeHeld md m (addHeld md m held) = held := by
  funext md' k
  simp only [removeHeld, addHeld, eq_iff_iff]
  constructor
  · rintro ⟨h1, h2 | h2⟩
    · exact absurd h2 h1
    · exact h2
  · intro h1
    refine ⟨?_, .inr h1⟩
    rintro ⟨rfl, rfl⟩
    exact h h1

/-- A sequence of accesses that is allowed while `m` is held in mode `md`, and its lock. -/
def Body (guard : Loc → List Mutex) (held : Mode → Mutex → Prop) (p : List Act) : Prop :=
  ∀ held' q, (∀ md m, held md m → held' md m) → Disciplined guard held' q → Disciplined guard held' (p ++ q)

theorem Body.append {guard : Loc → List Mutex} {held : Mode → Mutex → Prop} {p q : List Act} (hp : Body guard held p)
    (hq : Body guard held q) : Body guard held (p ++ q) := by
  intro held' r hsub hr
  rw [List.append_assoc]
  exact hp _ _ hsub (hq _ _ hsub hr)

theorem Body.cons {guard : Loc → List Mutex} {held : Mode → Mutex → Prop} {x : Act} {q : List Act} (hp : Body guard held [x])
    (hq : Body guard held q) : Body guard held (x :: q) := Body.append (p := [x]) hp hq

theorem Body.nil {guard : Loc → List Mutex} {held : Mode → Mutex → Prop} : Body guard held [] := fun _ _ _ h => h

theorem Body.read {guard : Loc → List Mutex} {held : Mode → Mutex → Prop} {l : Loc} (h : guard l = [] ∨ ∃ m ∈ guard l, ∃ md, held md m) :
    Body guard held [.read l] := by
  intro held' q hsub hq
  refine ⟨?_, hq⟩
  rcases h with h | ⟨m, hm, md, h⟩
  · exact .inl h
  · exact .inr ⟨m, hm, md, hsub _ _ h⟩

theorem Body.write {guard : Loc → List Mutex} {held : Mode → Mutex → Prop} {l : Loc} (h : guard l ≠ [] ∧ ∀ m ∈ guard l, held .exclusive m) :
    Body guard held [.write l] := by
  intro held' q hsub hq
  exact ⟨⟨h.1, fun m hm => hsub _ _ (h.2 m hm)⟩, hq⟩

theorem Body.reads {guard : Loc → List Mutex} {held : Mode → Mutex → Prop} {l : Nat → Loc} (ks : List Nat)
    (h : ∀ k, guard (l k) = [] ∨ ∃ m ∈ guard (l k), ∃ md, held md m) : Body guard held (ks.map (fun k => Act.read (l k))) := by
  induction ks with
  | nil => exact Body.nil
  | cons k ks ih => exact Body.cons (Body.read (h k)) ih

theorem Body.good {guard : Loc → List Mutex} {p : List Act} (h : Body guard (fun _ _ => False) p) : Good guard p :=
  fun held q hq => h held q (fun _ _ hc => hc.elim) hq

theorem Body.mono {guard : Loc → List Mutex} {held held' : Mode → Mutex → Prop} {p : List Act} (h : Body guard held p)
    (hsub : ∀ md m, held md m → held' md m) : Body guard held' p :=
  fun held'' q hs hq => h held'' q (fun _ _ hm => hs _ _ (hsub _ _ hm)) hq

/-- Lock, do something, unlock. -/
theorem Body.guarded {guard : Loc → List Mutex} {held : Mode → Mutex → Prop} {p : List Act} (md : Mode) (m : Mutex)
    (h : Body guard (addHeld md m held) p) : Body guard held ([acquire md m] ++ p ++ [release md m]) := by
  intro held' q hsub hq
  have key : ¬ held' .exclusive m → ¬ held' .shared m → Disciplined guard (addHeld md m held') (p ++ ([release md m] ++ q)) := by
    intro h1 h2
    have hno : ¬ held' md m := by
      cases md
      · exact h1
      · exact h2
    refine h _ _ ?_ ?_
    · rintro md' k (h3 | h3)
      · exact .inl h3
      · exact .inr (hsub _ _ h3)
    · have : Disciplined guard (removeHeld md m (addHeld md m held')) q := by
        rw [remove_add hno]
        exact hq
      cases md
      · exact ⟨.inl ⟨rfl, rfl⟩, this⟩
      · exact ⟨.inl ⟨rfl, rfl⟩, this⟩
  rw [List.append_assoc, List.append_assoc]
  cases md
  · exact key
  · exact key

end SampleFlow.Races
