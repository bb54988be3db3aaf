import Verif.Proofs.AsyncCount
import Verif.Spec.AsyncOrder

set_option linter.unusedSimpArgs false

namespace SampleFlow.Async

open Spec

variable {V : Type}

/-- message of a delivery to `n` -/
def msgTo (n : Nat) : Instr V → Option V
  | .deliver k m => if k = n then some m else none
  | .consume k m => if k = n then some m else none
  | _ => none

def pendTo (n : Nat) (st : List (Instr V)) : List V := st.filterMap (msgTo n)

/-- the target of an instruction -/
def target : Instr V → Nat
  | .deliver k _ => k
  | .consume k _ => k
  | .trim k => k
  | .flush k => k
  | .wait k => k
  | .ret => 0

theorem pendTo_append (n : Nat) (a b : List (Instr V)) : pendTo n (a ++ b) = pendTo n a ++ pendTo n b := by
  simp [pendTo]

theorem pendTo_eq_nil (n : Nat) (st : List (Instr V)) (h : ∀ ins ∈ st, target ins ≠ n) : pendTo n st = [] := by
  unfold pendTo
  rw [List.filterMap_eq_nil_iff]
  intro ins hi
  have := h ins hi
  cases ins <;> simp_all [msgTo, target]

theorem pendTo_vis {A : Nat → Bool} {n : Nat} (hn : A n = false) (st : List (Instr V)) :
    pendTo n (st.filter (vis A)) = pendTo n st := by
  unfold pendTo
  induction st with
  | nil => rfl
  | cons ins st ih =>
    rw [List.filter_cons]
    by_cases h : vis A ins = true
    · rw [if_pos h, List.filterMap_cons, List.filterMap_cons, ih]
    · rw [if_neg h, ih, List.filterMap_cons]
      have : msgTo n ins = none := by
        cases ins with
        | deliver k m => simp only [vis] at h; simp only [msgTo]; rw [if_neg]; rintro rfl; simp [hn] at h
        | consume k m => simp only [vis] at h; simp only [msgTo]; rw [if_neg]; rintro rfl; simp [hn] at h
        | _ => rfl
      rw [this]

theorem pendTo_deliver (n : Nat) (y : V) (l : List Nat) :
    pendTo n (l.map (fun c => Instr.deliver c y)) = List.replicate (l.count n) y := by
  induction l with
  | nil => rfl
  | cons c l ih =>
    rw [List.map_cons, pendTo, List.filterMap_cons]
    simp only [msgTo]
    by_cases h : c = n
    · subst h
      simp only [if_true, List.count_cons_self, List.replicate_succ]
      rw [← ih]; rfl
    · simp only [h, if_false]
      rw [List.count_cons_of_ne h, ← ih]; rfl

/-- what the abstract machine pushes -/
def absEmit (outs : Nat → List Nat) (b : Option V) (A : Nat → Bool) (n : Nat) : List (Instr V) :=
  match b with
  | some y => ((outs n).map (fun c => Instr.deliver c y)).filter (vis A)
  | none => []

theorem pendTo_absEmit {outs : Nat → List Nat} {A : Nat → Bool} {k : Nat} (hk : A k = false) (b : Option V) (n : Nat) :
    pendTo k (absEmit outs b A n) = b.toList.flatMap (fun y => List.replicate ((outs n).count k) y) := by
  cases b with
  | none => rfl
  | some y =>
    simp only [absEmit, Option.toList_some, List.flatMap_cons, List.flatMap_nil, List.append_nil]
    rw [pendTo_vis hk, pendTo_deliver]

structure PathInv (N : Net V) (path : List Nat) (T : List V) (x : List (Instr V) × (Nat → List V)) : Prop where
  mem : ∀ ins ∈ x.1, target ins ∈ path
  sorted : x.1.Pairwise (fun a b => path.idxOf (target b) ≤ path.idxOf (target a))
  root : ∀ r, path[0]? = some r → x.2 r ++ pendTo r x.1 = T
  link : ∀ (i p c : Nat), path[i]? = some p → path[i + 1]? = some c →
    x.2 c ++ pendTo c x.1 = (issued N p (x.2 p)).flatMap (fun y => List.replicate ((N.outs p).count c) y)

theorem idx_unique {path : List Nat} (h : path.Nodup) {i n : Nat} (hi : path[i]? = some n) : path.idxOf n = i := by
  obtain ⟨hlt, rfl⟩ := List.getElem?_eq_some_iff.mp hi
  exact h.idxOf_getElem i hlt

theorem PathInv.step {N : Net V} {path : List Nat} (P : SyncPath N path) {A : Nat → Bool}
    (hA : ∀ n, A n = false ↔ n ∈ path) {T : List V} {x y : List (Instr V) × (Nat → List V)} (I : PathInv N path T x)
    (h : Abs N.outs N.behave A x y) : PathInv N path T y := by
  cases h with
  | deliver n m rest log =>
    have e : ∀ k, pendTo k (Instr.consume n m :: rest) = pendTo k (Instr.deliver n m :: rest) := by
      intro k; simp [pendTo, List.filterMap_cons, msgTo]
    constructor
    · intro ins hi
      rcases List.mem_cons.mp hi with rfl | hi
      · exact I.mem (Instr.deliver n m) List.mem_cons_self
      · exact I.mem _ (List.mem_cons_of_mem _ hi)
    · have := I.sorted
      simp only [List.pairwise_cons] at this ⊢
      exact ⟨this.1, this.2⟩
    · intro r hr; simp only [e]; exact I.root r hr
    · intro i p c hp hc; simp only [e]; exact I.link i p c hp hc
  | consume n m rest log hn =>
    have hnp : n ∈ path := (hA n).mp hn
    obtain ⟨k, hk⟩ := List.mem_iff_getElem?.mp hnp
    have hkn := idx_unique P.nodup hk
    have hrest := List.pairwise_cons.mp I.sorted
    show PathInv N path T (absEmit N.outs (N.behave n (log n) m) A n ++ rest, _)
    have hself : ∀ (c q : Nat), c ∈ path → c ∈ N.outs q → ∃ j, path[j + 1]? = some c ∧ path[j]? = some q := by
      intro c q hc hcq
      obtain ⟨i, hi⟩ := List.mem_iff_getElem?.mp hc
      obtain ⟨j, rfl, hj⟩ := P.feeds i c hi q hcq
      exact ⟨j, hi, hj⟩
    have hem : ∀ ins ∈ absEmit N.outs (N.behave n (log n) m) A n,
        target ins ∈ path ∧ path.idxOf (target ins) = k + 1 := by
      intro ins hi
      unfold absEmit at hi
      split at hi
      · obtain ⟨h1, h2⟩ := List.mem_filter.mp hi
        obtain ⟨c, hc, rfl⟩ := List.mem_map.mp h1
        have hcp : c ∈ path := (hA c).mp (by simpa [vis] using h2)
        obtain ⟨j, hj, hj'⟩ := hself c n hcp hc
        have := idx_unique P.nodup hj'
        refine ⟨hcp, ?_⟩
        show path.idxOf c = _
        rw [idx_unique P.nodup hj]; omega
      · cases hi
    -- nothing is emitted to nodes that are not the successor of `n`
    have hnone : ∀ c ∈ path, (∀ j, path[j + 1]? = some c → path[j]? ≠ some n) →
        pendTo c (absEmit N.outs (N.behave n (log n) m) A n) = [] := by
      intro c hc hj
      rw [pendTo_absEmit ((hA c).mpr hc), List.count_eq_zero_of_not_mem]
      · simp [List.flatMap_eq_nil_iff.mpr]
      · intro hcn
        obtain ⟨j, h1, h2⟩ := hself c n hc hcn
        exact hj j h1 h2
    constructor
    · intro ins hi
      rcases List.mem_append.mp hi with hi | hi
      · exact (hem ins hi).1
      · exact I.mem _ (List.mem_cons_of_mem _ hi)
    · rw [List.pairwise_append]
      refine ⟨?_, hrest.2, ?_⟩
      · refine List.Pairwise.imp_of_mem (R := fun _ _ => True) ?_ (List.pairwise_of_forall (fun _ _ => trivial))
        intro a b ha hb _
        rw [(hem a ha).2, (hem b hb).2]
      · intro a ha b hb
        have : path.idxOf (target b) ≤ path.idxOf n := hrest.1 b hb
        rw [(hem a ha).2]
        omega
    · intro r hr
      have I0 := I.root r hr
      have hrp : r ∈ path := List.mem_of_getElem? hr
      simp only [pendTo_append]
      rw [hnone r hrp (by
        intro j h1 _
        have := idx_unique P.nodup h1
        have := idx_unique P.nodup hr
        omega)]
      simp only [pendTo, List.filterMap_cons, msgTo] at I0
      by_cases hrn : n = r
      · subst hrn
        simp only [if_true] at I0 ⊢
        rw [← I0]; simp [pendTo]
      · simp only [hrn, if_false] at I0
        rw [if_neg (Ne.symm hrn), ← I0]; simp [pendTo]
    · intro i p c hp hc
      have I0 := I.link i p c hp hc
      have hcp : c ∈ path := List.mem_of_getElem? hc
      have hip := idx_unique P.nodup hp
      have hic := idx_unique P.nodup hc
      have hne : p ≠ c := by rintro rfl; omega
      simp only [pendTo_append]
      simp only [pendTo, List.filterMap_cons, msgTo] at I0
      by_cases hnc : n = c
      · subst hnc
        rw [hnone n hcp (by
          intro j h1 h2
          have := idx_unique P.nodup h1
          have := idx_unique P.nodup h2
          omega)]
        simp only [if_true] at I0 ⊢
        rw [if_neg hne, ← I0]; simp [pendTo]
      · rw [if_neg (Ne.symm hnc)]
        by_cases hnp' : n = p
        · subst hnp'
          have hz : pendTo c rest = [] := by
            apply pendTo_eq_nil
            intro ins hi he
            have := hrest.1 ins hi
            rw [he] at this
            simp only [target] at this
            omega
          rw [pendTo_absEmit ((hA c).mpr hcp), hz]
          simp only [hnc, if_false] at I0
          replace I0 : log c ++ pendTo c rest = _ := I0
          rw [hz, List.append_nil] at I0
          simp only [if_true, issued_snoc, List.flatMap_append, List.append_nil]
          rw [← I0]
        · rw [hnone c hcp (by
            intro j h1 h2
            have := idx_unique P.nodup h1
            have : j = i := by omega
            subst this
            rw [hp] at h2
            cases h2
            exact hnp' rfl)]
          rw [if_neg (Ne.symm hnp'), ← I0]
          simp [hnc, pendTo]

theorem PathInv.steps {N : Net V} {path : List Nat} (P : SyncPath N path) {A : Nat → Bool}
    (hA : ∀ n, A n = false ↔ n ∈ path) {T : List V} {x y : List (Instr V) × (Nat → List V)} (I : PathInv N path T x)
    (h : Relation.ReflTransGen (Abs N.outs N.behave A) x y) : PathInv N path T y := by
  induction h with
  | refl => exact I
  | tail _ h ih => exact ih.step P hA h

theorem pendTo_program (n : Nat) (c : Call V) :
    pendTo n c.program = c.msgs.flatMap (fun m => List.replicate (c.roots.count n) m) := by
  have hz : ∀ l : List (Instr V), (∀ ins ∈ l, ∃ k, ins = .flush k) → pendTo n l = [] := by
    intro l hl
    unfold pendTo
    rw [List.filterMap_eq_nil_iff]
    intro ins hi
    obtain ⟨k, rfl⟩ := hl ins hi
    rfl
  have h2 : pendTo n (List.replicate c.flushes (c.roots.map (Instr.flush (V := V)))).flatten = [] := by
    apply hz
    intro ins hi
    obtain ⟨l, hl, hi⟩ := List.mem_flatten.mp hi
    rw [List.eq_of_mem_replicate hl] at hi
    obtain ⟨k, -, rfl⟩ := List.mem_map.mp hi
    exact ⟨k, rfl⟩
  rw [Call.program, pendTo_append, pendTo_append, h2]
  have h3 : pendTo n [(Instr.ret : Instr V)] = [] := rfl
  rw [h3, List.append_nil, List.append_nil]
  induction c.msgs with
  | nil => rfl
  | cons m ms ih => rw [List.flatMap_cons, List.flatMap_cons, pendTo_append, ih, pendTo_deliver]

theorem pendTo_programs (n : Nat) (calls : List (Call V)) :
    pendTo n (calls.flatMap Call.program) = fromProducers [calls] n := by
  have : fromProducers [calls] n = calls.flatMap (fun c => c.msgs.flatMap (fun m => List.replicate (c.roots.count n) m)) := by
    simp [fromProducers]
  rw [this]
  induction calls with
  | nil => rfl
  | cons c cs ih =>
    rw [List.flatMap_cons, List.flatMap_cons, pendTo_append, pendTo_program]
    congr 1
    exact ih (by simp [fromProducers])

theorem vis_program {A : Nat → Bool} {calls : List (Call V)} {ins : Instr V}
    (h : ins ∈ (calls.flatMap Call.program).filter (vis A)) :
    ∃ c ∈ calls, target ins ∈ c.roots ∧ A (target ins) = false := by
  obtain ⟨h1, h2⟩ := List.mem_filter.mp h
  obtain ⟨c, hc, hins⟩ := List.mem_flatMap.mp h1
  simp only [Call.program, List.mem_append, List.mem_flatMap, List.mem_map, List.mem_flatten,
    List.mem_singleton] at hins
  rcases hins with (⟨m, -, r, hr, rfl⟩ | ⟨l, hl, hins⟩) | rfl
  · exact ⟨c, hc, hr, by simpa [vis, target] using h2⟩
  · rw [List.eq_of_mem_replicate hl] at hins
    obtain ⟨k, -, rfl⟩ := List.mem_map.mp hins
    simp [vis] at h2
  · simp [vis] at h2

theorem PathInv.start {N : Net V} {path : List Nat} (P : SyncPath N path) {A : Nat → Bool}
    (hA : ∀ n, A n = false ↔ n ∈ path) (calls : List (Call V)) (r : Nat) (hr : path[0]? = some r)
    (hroot : ∀ c ∈ calls, ∀ k ∈ c.roots, k ∈ path → k = r) :
    PathInv N path (fromProducers [calls] r) ((calls.flatMap Call.program).filter (vis A), fun _ => []) := by
  have ht : ∀ ins ∈ (calls.flatMap Call.program).filter (vis A), target ins = r := by
    intro ins hi
    obtain ⟨c, hc, h1, h2⟩ := vis_program hi
    exact hroot c hc _ h1 ((hA _).mp h2)
  have hrp : r ∈ path := List.mem_of_getElem? hr
  constructor
  · intro ins hi
    rw [ht ins hi]; exact hrp
  · refine List.Pairwise.imp_of_mem (R := fun _ _ => True) ?_ (List.pairwise_of_forall (fun _ _ => trivial))
    intro a b ha hb _
    rw [ht a ha, ht b hb]
  · intro r' hr'
    rw [hr] at hr'; cases hr'
    simp only [List.nil_append]
    rw [pendTo_vis ((hA r).mpr hrp), pendTo_programs]
  · intro i p c hp hc
    rw [pendTo_eq_nil]
    · simp [issued, issuedFrom]
    · intro ins hi he
      rw [ht ins hi] at he
      subst he
      have := idx_unique P.nodup hr
      have := idx_unique P.nodup hc
      omega

theorem along_of_links (N : Net V) (log : Nat → List V) : ∀ (path : List Nat) (r : Nat), path[0]? = some r →
    (∀ (i p c : Nat), path[i]? = some p → path[i + 1]? = some c →
      log c = (issued N p (log p)).flatMap (fun y => List.replicate ((N.outs p).count c) y)) →
    ∀ n, path.getLast? = some n → log n = along N path (log r)
  | [], _, h, _, _, _ => by simp at h
  | [a], r, h, _, n, hn => by
    simp only [List.getElem?_cons_zero, Option.some.injEq] at h
    simp only [List.getLast?_singleton, Option.some.injEq] at hn
    subst h; subst hn; rfl
  | p :: c :: rest, r, h, hl, n, hn => by
    simp only [List.getElem?_cons_zero, Option.some.injEq] at h
    subst h
    have h1 := hl 0 p c rfl rfl
    have := along_of_links N log (c :: rest) c rfl (fun i p' c' hp hc => hl (i + 1) p' c' (by simpa using hp) (by simpa using hc))
      n (by rw [List.getLast?_cons_cons] at hn; exact hn)
    rw [this, along, ← h1]

end SampleFlow.Async
