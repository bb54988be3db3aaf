import Verif.Proofs.Mutex
import Verif.Model.MutexObjects
import Verif.Proofs.Moments
import Verif.Proofs.Filters
import Mathlib.Data.List.ProdSigma
import Mathlib.Data.Prod.Basic

set_option linter.unusedSimpArgs false

namespace SampleFlow.Mutex

open Mutex.Spec

theorem call_count_consume {α : Type} (n : UInt64) (x : α) :
    call (countObject α) n (.consume x) = (n + 1, n + 1) := rfl

theorem call_count_get {α : Type} (n : UInt64) : call (countObject α) n .get = (n, n) := rfl

theorem call_mean_consume {K ι : Type} [Field K] (G : ι → K) (s : MeanState (ι → K)) (x : ι → K) :
    (call (meanObject G) s (.consume x)).1 = s.consume x := by
  by_cases h : s.n = 0
  · simp [call, meanObject, MeanState.consume, h]
  · simp [call, meanObject, MeanState.consume, h]

theorem call_mean_get {K ι : Type} [Field K] (G : ι → K) (s : MeanState (ι → K)) :
    (call (meanObject G) s .get).1 = s ∧ (call (meanObject G) s .get).2.ret = s.get := ⟨rfl, rfl⟩

/-- the loop over distinct entries updates each of them once from its old value -/
theorem covEntries {K : Type} [Field K] [Star K] {d : Nat} (n : Nat) (delta : Fin d → K)
    (ps : List (Fin d × Fin d)) (hn : ps.Nodup) (C : Fin d → Fin d → K) (a b : Fin d) :
    ps.foldl (covEntry n delta) C a b =
      if (a, b) ∈ ps then C a b + ((delta a * star (delta b)) / (n : K) - C a b / ((n : K) - 1))
      else C a b := by
  induction ps generalizing C with
  | nil => simp
  | cons p ps ih =>
    rw [List.nodup_cons] at hn
    rw [List.foldl_cons, ih hn.2]
    by_cases h : (a, b) = p
    · subst h
      simp [hn.1, covEntry]
    · by_cases h2 : (a, b) ∈ ps <;> simp [h, h2, covEntry]

theorem covLoop_run {K : Type} [Field K] [Star K] {d : Nat} (ps : List (Fin d × Fin d))
    (s : CovState K (Fin d)) (r : CovLocals K (Fin d)) :
    (ps.map (fun p => fun (s : CovState K (Fin d)) (r : CovLocals K (Fin d)) =>
      (if r.first then s else { s with C := covEntry s.n r.delta s.C p }, r))).foldl
        (fun p f => f p.1 p.2) (s, r) =
      (if r.first then s else { s with C := ps.foldl (covEntry s.n r.delta) s.C }, r) := by
  induction ps generalizing s with
  | nil => by_cases h : r.first <;> simp [h]
  | cons p ps ih =>
    rw [List.map_cons, List.foldl_cons, ih]
    by_cases h : r.first <;> simp [h]

theorem call_cov_consume {K : Type} [Field K] [Star K] {d : Nat} (G : Fin d → Fin d → K)
    (s : CovState K (Fin d)) (x : Fin d → K) :
    (call (covObject d G) s (.consume x)).1 = s.consume G x := by
  have hnd : ((List.finRange d).product (List.finRange d)).Nodup :=
    (List.nodup_finRange d).product (List.nodup_finRange d)
  have hmem : ∀ a b : Fin d, (a, b) ∈ (List.finRange d).product (List.finRange d) := by
    intro a b; exact List.mem_product.mpr ⟨List.mem_finRange a, List.mem_finRange b⟩
  simp only [call, covObject, List.foldl_append, List.foldl_cons, List.foldl_nil, covLoop]
  rw [covLoop_run]
  by_cases h : s.n = 0
  · simp [h, CovState.consume]
  · simp only [h, decide_false, Bool.false_eq_true, if_false, CovState.consume]
    congr 1
    funext a b
    rw [covEntries _ _ _ hnd, if_pos (hmem a b)]

theorem call_cov_get {K : Type} [Field K] [Star K] {d : Nat} (G : Fin d → Fin d → K)
    (s : CovState K (Fin d)) :
    (call (covObject d G) s .get).1 = s ∧ (call (covObject d G) s .get).2.ret = s.get := ⟨rfl, rfl⟩

theorem call_bins_some (nBins k : Nat) (b : List Nat) :
    (call (binsObject nBins) b (.consume (some k))).1 = b.modify k (· + 1) := by
  simp only [call, binsObject, List.foldl_cons, List.foldl_nil]
  apply List.ext_getElem?
  intro j
  rw [List.getElem?_set, List.getElem?_modify]
  by_cases h : k = j
  · subst h
    by_cases hk : k < b.length
    · simp [hk]
    · simp [hk]
  · simp [h]

theorem call_bins_get_aux (b : List Nat) (ks : List Nat) (r : Nat × List Nat) :
    ((ks.map (fun k => fun (b : List Nat) (r : Nat × List Nat) => (b, ((0 : Nat), r.2 ++ [b.getD k 0])))).foldl
      (fun p f => f p.1 p.2) (b, r)).1 = b ∧
    ((ks.map (fun k => fun (b : List Nat) (r : Nat × List Nat) => (b, ((0 : Nat), r.2 ++ [b.getD k 0])))).foldl
      (fun p f => f p.1 p.2) (b, r)).2.2 = r.2 ++ ks.map (fun k => b.getD k 0) := by
  induction ks generalizing r with
  | nil => simp
  | cons k ks ih =>
    rw [List.map_cons, List.foldl_cons]
    obtain ⟨h1, h2⟩ := ih (0, r.2 ++ [b.getD k 0])
    refine ⟨h1, ?_⟩
    simp only
    rw [h2]; simp

theorem call_bins_get (nBins : Nat) (b : List Nat) :
    (call (binsObject nBins) b .get).1 = b ∧
    (call (binsObject nBins) b .get).2.2 = (List.range nBins).map (fun k => b.getD k 0) := by
  have := call_bins_get_aux b (List.range nBins) (0, [])
  simpa [call, binsObject] using this

/-- sequential calls of `consume` and `get`: only `consume` changes the members -/
theorem membersAfter_consumer {σ α R : Type} (o : Object σ (ConsumerCall α) R) (consume : σ → α → σ)
    (h1 : ∀ s x, (call o s (.consume x)).1 = consume s x) (h2 : ∀ s, (call o s .get).1 = s) (m : σ)
    (calls : List (ConsumerCall α)) :
    membersAfter o m calls = (samplesOf calls).foldl consume m := by
  unfold membersAfter
  induction calls generalizing m with
  | nil => rfl
  | cons c cs ih =>
    rw [List.foldl_cons]
    cases c with
    | consume x => simp only [h1]; rw [ih]; rfl
    | get => simp only [h2]; rw [ih]; rfl

theorem call_take {α A : Type} (n counter : UInt64) (m : Msg α A) (hn : n ≠ 0) :
    (takeEveryNth α A n).filter counter m =
      .ok ((call (takeObject α A n) counter m).2.2, (call (takeObject α A n) counter m).1) := by
  simp only [takeEveryNth, hn, if_false, call, takeObject, List.foldl_cons, List.foldl_nil]
  by_cases h : counter % n = 0 <;> simp [h]

theorem take_run {α A : Type} (n : UInt64) (hn : n ≠ 0) (counter : UInt64)
    (h : List (Nat × Msg α A × UInt64 × Option (Msg α A)))
    (hs : ∀ pre i op r post, h = pre ++ (i, op, r) :: post →
      r = (call (takeObject α A n) (membersAfter (takeObject α A n) counter (pre.map (fun e => e.2.1))) op).2) :
    h.filterMap (fun e => e.2.2.2) =
      ((takeEveryNth α A n).runFrom counter (h.map (fun e => e.2.1))).1 := by
  induction h generalizing counter with
  | nil => rfl
  | cons e h ih =>
    obtain ⟨i, m, r⟩ := e
    have hr : r = (call (takeObject α A n) counter m).2 := hs [] i m r h rfl
    have ih := ih (call (takeObject α A n) counter m).1 (by
      intro pre i' op r' post heq
      have := hs ((i, m, r) :: pre) i' op r' post (by rw [heq]; rfl)
      simpa [membersAfter] using this)
    rw [List.map_cons, List.filterMap_cons, FilterObj.runFrom, call_take _ _ _ hn]
    simp only [hr]
    cases hc : (call (takeObject α A n) counter m).2.2 with
    | none => simp only; exact ih
    | some y => simp only; rw [ih]

end SampleFlow.Mutex
