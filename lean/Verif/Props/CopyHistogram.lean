import Verif.Model.CopyHistogram
import Verif.Proofs.Mutex
import Verif.Proofs.MutexObjects
import Mathlib.Tactic.ClearExcept
import Mathlib.Data.List.Chain

/-!
# Property C75: copies of histograms
-/

namespace SampleFlow
open Mutex Mutex.Spec

/-- **C75** (nothing else is going on): the copy of a histogram reports the same, and continues as if it had consumed itself everything that the original has consumed. -/
theorem C75_copy_partial {D : Type} [LinearOrder D] (debug : Bool) (h h' : Hist D) (xs ys : List (Fl D)) (hx : histAfter debug h xs = .ok h') :
    h'.copy.get = h'.get ∧ histAfter debug h'.copy ys = histAfter debug h (xs ++ ys) := by
  refine ⟨rfl, ?_⟩
  unfold histAfter at *
  rw [List.foldlM_append, hx]
  rfl

/-- **C75** (nothing else is going on): the same for PairHistogram. -/
theorem C75_copy_pair_partial {D : Type} [LinearOrder D] (debug : Bool) (h h' : PairHist D) (xs ys : List (List (Fl D))) (hx : pairHistAfter debug h xs = .ok h') :
    h'.copy.get = h'.get ∧ pairHistAfter debug h'.copy ys = pairHistAfter debug h (xs ++ ys) := by
  refine ⟨rfl, ?_⟩
  unfold pairHistAfter at *
  rw [List.foldlM_append, hx]
  rfl

namespace CopyHist

abbrev S := State (List Nat) (ConsumerCall (Option Nat)) (Nat × List Nat)
abbrev CS := CopyState (List Nat) (ConsumerCall (Option Nat)) (Nat × List Nat)

theorem body_mono (nBins : Nat) (op : ConsumerCall (Option Nat)) (done fs : List (List Nat → Nat × List Nat → List Nat × (Nat × List Nat))) (f : List Nat → Nat × List Nat → List Nat × (Nat × List Nat))
    (hb : (binsObject nBins).body op = done ++ f :: fs) (m : List Nat) (r0 : Nat × List Nat) (k : Nat) :
    (done.foldl (fun p f => f p.1 p.2) (m, r0)).1.getD k 0 ≤ (f (done.foldl (fun p f => f p.1 p.2) (m, r0)).1 (done.foldl (fun p f => f p.1 p.2) (m, r0)).2).1.getD k 0 := by
  cases op with
  | get =>
    have hf : f ∈ (binsObject nBins).body .get := by rw [hb]; simp
    simp only [binsObject, List.mem_map] at hf
    obtain ⟨j, -, rfl⟩ := hf
    exact le_refl _
  | consume o =>
    cases o with
    | none => simp [binsObject] at hb
    | some j =>
      simp only [binsObject] at hb
      match done, hb with
      | [], hb =>
        simp only [List.nil_append, List.cons.injEq] at hb
        obtain ⟨rfl, -⟩ := hb
        exact le_refl _
      | [a], hb =>
        simp only [List.cons_append, List.nil_append, List.cons.injEq] at hb
        obtain ⟨-, rfl, -⟩ := hb
        exact le_refl _
      | [a, b], hb =>
        simp only [List.cons_append, List.nil_append, List.cons.injEq] at hb
        obtain ⟨rfl, rfl, rfl, -⟩ := hb
        simp only [List.foldl_cons, List.foldl_nil, List.getD_eq_getElem?_getD, List.getElem?_set]
        split
        · rename_i h; subst h
          split
          · simp
          · rename_i h; rw [List.getElem?_eq_none (by omega)]
        · exact le_refl _
      | a :: b :: c :: d, hb =>
        simp only [List.cons_append, List.cons.injEq] at hb
        have := hb.2.2.2
        simp at this

theorem step_mono (nBins : Nat) (b : List Nat) (s s' : S) (I : LockInv (binsObject nBins) b s) (h : Step (binsObject nBins) s s') (k : Nat) :
    s.members.getD k 0 ≤ s'.members.getD k 0 := by
  cases h with
  | acquire => exact le_refl _
  | release => exact le_refl _
  | micro i op f fs r todo hi =>
    have hlk := I.excl i _ hi (by simp)
    obtain ⟨t, op', done, rest, r', h1, h2, h3, h4⟩ := I.busy i hlk
    rw [hi] at h1; cases h1
    simp only [Option.some.injEq, Prod.mk.injEq] at h2
    obtain ⟨rfl, rfl, rfl⟩ := h2
    have := body_mono nBins op done fs f h3 (membersAfter (binsObject nBins) b (s.history.map (fun e => e.2.1))) ((binsObject nBins).local0 op) k
    rw [h4] at this
    exact this

structure Inv (nBins : Nat) (b : List Nat) (programs : List (List (ConsumerCall (Option Nat)))) (o0 : S) (s : CS) : Prop where
  reach : Reachable (binsObject nBins) b programs s.original
  short : s.copied.length ≤ nBins
  mono : ∀ k, o0.members.getD k 0 ≤ s.original.members.getD k 0
  between : ∀ k (hk : k < s.copied.length), o0.members.getD k 0 ≤ s.copied[k] ∧ s.copied[k] ≤ s.original.members.getD k 0

theorem inv (nBins : Nat) (b : List Nat) (programs : List (List (ConsumerCall (Option Nat)))) (o0 : S) (h0 : Reachable (binsObject nBins) b programs o0) (s : CS)
    (h : Relation.ReflTransGen (CopyStep nBins) ⟨o0, []⟩ s) : Inv nBins b programs o0 s := by
  induction h with
  | refl => exact ⟨h0, by simp, fun k => le_refl _, fun k hk => by simp at hk⟩
  | tail _ hs ih =>
    obtain ⟨i1, i2, i3, i4⟩ := ih
    cases hs with
    | original o' h =>
      have m := step_mono nBins b _ _ (i1.lockInv rfl) h
      exact ⟨i1.tail h, i2, fun k => (i3 k).trans (m k), fun k hk => ⟨(i4 k hk).1, (i4 k hk).2.trans (m k)⟩⟩
    | read h =>
      refine ⟨i1, by simpa using h, i3, ?_⟩
      intro k hk
      simp only [List.length_append, List.length_singleton] at hk
      simp only [List.getElem_append]
      split
      · exact i4 k (by assumption)
      · have e : k = _ := Nat.le_antisymm (Nat.lt_succ_iff.mp hk) (Nat.le_of_not_lt (by assumption))
        simp only [List.getElem_singleton]
        rw [← e]
        exact ⟨i3 k, le_refl _⟩

end CopyHist

/-- **C75** (copying while other threads use the original, every schedule): each count in the copy is a number between the count when copying begins and the count when it ends. -/
theorem C75_between_partial (nBins : Nat) (b : List Nat) (programs : List (List (ConsumerCall (Option Nat)))) (o0 : State (List Nat) (ConsumerCall (Option Nat)) (Nat × List Nat))
    (h0 : Reachable (binsObject nBins) b programs o0) (s : CopyState (List Nat) (ConsumerCall (Option Nat)) (Nat × List Nat))
    (h : Relation.ReflTransGen (CopyStep nBins) ⟨o0, []⟩ s) (k : Nat) (hk : k < s.copied.length) :
    o0.members.getD k 0 ≤ s.copied[k] ∧ s.copied[k] ≤ s.original.members.getD k 0 :=
  (CopyHist.inv nBins b programs o0 h0 s h).between k hk

/-- **C75**: in particular, if the original's counts are the same before and after copying, the copy has these counts. -/
theorem C75_quiet_partial (b : List Nat) (programs : List (List (ConsumerCall (Option Nat)))) (o0 : State (List Nat) (ConsumerCall (Option Nat)) (Nat × List Nat))
    (h0 : Reachable (binsObject b.length) b programs o0) (s : CopyState (List Nat) (ConsumerCall (Option Nat)) (Nat × List Nat))
    (h : Relation.ReflTransGen (CopyStep b.length) ⟨o0, []⟩ s) (hdone : s.copied.length = b.length) (hsame : s.original.members = o0.members) (hlen : o0.members.length = b.length) :
    s.copied = o0.members := by
  apply List.ext_getElem (by omega)
  intro k h1 h2
  obtain ⟨a1, a2⟩ := C75_between_partial b.length b programs o0 h0 s h k h1
  rw [hsame] at a2
  have := Nat.le_antisymm a2 a1
  rw [this, List.getD_eq_getElem?_getD, List.getElem?_eq_getElem h2]
  rfl

/-- A case of `C75_quiet_partial`: nobody else uses the histogram with the counts 3 and 5. -/
example : ∃ s : CopyState (List Nat) (ConsumerCall (Option Nat)) (Nat × List Nat),
    Relation.ReflTransGen (CopyStep 2) ⟨initial [3, 5] [[]], []⟩ s ∧ s.copied.length = 2 ∧ s.copied = [3, 5] :=
  ⟨⟨initial [3, 5] [[]], [3, 5]⟩, (Relation.ReflTransGen.single (.read (by decide))).tail (.read (by decide)), rfl, rfl⟩

/-- **C75 is violated**: a schedule in which one thread consumes a sample of bin 0 and then one of bin 1 while the histogram is copied.  The copy has counted the second sample but not the first; the original never had these counts. -/
theorem C75_violation_torn_copy :
    ∃ trace : List (CopyState (List Nat) (ConsumerCall (Option Nat)) (Nat × List Nat)),
      trace.head? = some ⟨initial [0, 0] [[.consume (some 0), .consume (some 1)]], []⟩ ∧ trace.IsChain (CopyStep 2) ∧
      (∃ s, trace.getLast? = some s ∧ s.copied = [0, 1] ∧ s.original.AllDone) ∧ ∀ s ∈ trace, s.original.members ≠ [0, 1] := by
  let c0 : ConsumerCall (Option Nat) := .consume (some 0)
  let c1 : ConsumerCall (Option Nat) := .consume (some 1)
  let f1 (k : Nat) : List Nat → Nat × List Nat → List Nat × (Nat × List Nat) := fun b _ => (b, (b.getD k 0, []))
  let f2 : List Nat → Nat × List Nat → List Nat × (Nat × List Nat) := fun b r => (b, (r.1 + 1, []))
  let f3 (k : Nat) : List Nat → Nat × List Nat → List Nat × (Nat × List Nat) := fun b r => (b.set k r.1, r)
  let mk (m : List Nat) (l : Option Nat) (t : Thread (List Nat) (ConsumerCall (Option Nat)) (Nat × List Nat)) (h : List (Nat × ConsumerCall (Option Nat) × (Nat × List Nat))) (c : List Nat) : CopyHist.CS := ⟨⟨m, l, [t], h⟩, c⟩
  let s0 := mk [0,0] none ⟨none, [c0, c1]⟩ [] []
  let s1 := mk [0,0] none ⟨none, [c0, c1]⟩ [] [0]
  let s2 := mk [0,0] (some 0) ⟨some (c0, [f1 0, f2, f3 0], (0, [])), [c1]⟩ [] [0]
  let s3 := mk [0,0] (some 0) ⟨some (c0, [f2, f3 0], (0, [])), [c1]⟩ [] [0]
  let s4 := mk [0,0] (some 0) ⟨some (c0, [f3 0], (1, [])), [c1]⟩ [] [0]
  let s5 := mk [1,0] (some 0) ⟨some (c0, [], (1, [])), [c1]⟩ [] [0]
  let s6 := mk [1,0] none ⟨none, [c1]⟩ [(0, c0, (1, []))] [0]
  let s7 := mk [1,0] (some 0) ⟨some (c1, [f1 1, f2, f3 1], (0, [])), []⟩ [(0, c0, (1, []))] [0]
  let s8 := mk [1,0] (some 0) ⟨some (c1, [f2, f3 1], (0, [])), []⟩ [(0, c0, (1, []))] [0]
  let s9 := mk [1,0] (some 0) ⟨some (c1, [f3 1], (1, [])), []⟩ [(0, c0, (1, []))] [0]
  let s10 := mk [1,1] (some 0) ⟨some (c1, [], (1, [])), []⟩ [(0, c0, (1, []))] [0]
  let s11 := mk [1,1] none ⟨none, []⟩ [(0, c0, (1, [])), (0, c1, (1, []))] [0]
  let s12 := mk [1,1] none ⟨none, []⟩ [(0, c0, (1, [])), (0, c1, (1, []))] [0,1]
  refine ⟨[s0,s1,s2,s3,s4,s5,s6,s7,s8,s9,s10,s11,s12], rfl, ?_, ⟨s12, rfl, rfl, ?_⟩, ?_⟩
  · have h1 : CopyStep 2 s0 s1 := .read (by decide)
    have h2 : CopyStep 2 s1 s2 := .original _ (.acquire 0 c0 [c1] rfl (fun _ => rfl))
    have h3 : CopyStep 2 s2 s3 := .original _ (.micro 0 c0 (f1 0) [f2, f3 0] (0, []) [c1] rfl)
    have h4 : CopyStep 2 s3 s4 := .original _ (.micro 0 c0 f2 [f3 0] (0, []) [c1] rfl)
    have h5 : CopyStep 2 s4 s5 := .original _ (.micro 0 c0 (f3 0) [] (1, []) [c1] rfl)
    have h6 : CopyStep 2 s5 s6 := .original _ (.release 0 c0 (1, []) [c1] rfl)
    have h7 : CopyStep 2 s6 s7 := .original _ (.acquire 0 c1 [] rfl (fun _ => rfl))
    have h8 : CopyStep 2 s7 s8 := .original _ (.micro 0 c1 (f1 1) [f2, f3 1] (0, []) [] rfl)
    have h9 : CopyStep 2 s8 s9 := .original _ (.micro 0 c1 f2 [f3 1] (0, []) [] rfl)
    have h10 : CopyStep 2 s9 s10 := .original _ (.micro 0 c1 (f3 1) [] (1, []) [] rfl)
    have h11 : CopyStep 2 s10 s11 := .original _ (.release 0 c1 (1, []) [] rfl)
    have h12 : CopyStep 2 s11 s12 := .read (by decide)
    simp only [List.isChain_cons_cons, List.isChain_singleton, and_true]
    exact ⟨h1, h2, h3, h4, h5, h6, h7, h8, h9, h10, h11, h12⟩
  · intro t ht
    have : t = ⟨none, []⟩ := by simpa [s12, mk] using ht
    subst this; exact ⟨rfl, rfl⟩
  · intro s hs
    have h2 : ∀ s ∈ [s0,s1,s2,s3,s4,s5,s6,s7,s8,s9,s10,s11,s12], s.original.members ∈ [[0,0],[1,0],[1,1]] := by
      simp [s0,s1,s2,s3,s4,s5,s6,s7,s8,s9,s10,s11,s12,mk]
    have := h2 s hs
    intro e
    rw [e] at this
    simp at this

/-! ### Instances: concrete cases that meet the hypotheses of the theorems above -/

deriving instance DecidableEq for Hist
example := C75_copy_partial true (⟨[0, 1, 2], [0, 0]⟩ : Hist Int) ⟨[0, 1, 2], [1, 0]⟩ [.num 1] [.num 2, .num 0] (by decide +kernel)
example := C75_between_partial 2 [3, 5] [[]] (initial [3, 5] [[]]) .refl ⟨initial [3, 5] [[]], [3, 5]⟩ ((Relation.ReflTransGen.single (.read (by decide))).tail (.read (by decide))) 1 (by decide)
example := C75_quiet_partial [3, 5] [[]] (initial [3, 5] [[]]) .refl ⟨initial [3, 5] [[]], [3, 5]⟩ ((Relation.ReflTransGen.single (.read (by decide))).tail (.read (by decide))) rfl rfl rfl

end SampleFlow
