import Verif.Props.Moments
import Verif.Props.SimpleConsumers
import Verif.Props.Histogram
import Mathlib.Algebra.BigOperators.Group.List.Basic

/-!
# Property C22: consumers that may run asynchronously do not depend on the order of the samples

`Perm` is permutation of lists.  Together with the linearizability theorem (C19) and exactly-once
delivery (C13) this means that asynchronous processing returns the synchronous result.
-/

namespace SampleFlow
open Spec

theorem vmean_perm {K ι : Type} [Field K] {xs ys : List (ι → K)} (h : xs.Perm ys) :
    vmean xs = vmean ys := by
  funext i
  rw [vmean, vmean, mean, mean, (h.map _).sum_eq, (h.map (fun x => x i)).length_eq]

/-- C22 for MeanValue: the whole state after consuming permuted samples is the same. -/
theorem C22_mean {K ι : Type} [Field K] [CharZero K] (G : ι → K) (xs ys : List (ι → K))
    (h : xs.Perm ys) : (meanAfter G xs).get = (meanAfter G ys).get := by
  by_cases hx : xs = []
  · subst hx
    have : ys = [] := List.nil_perm.mp h
    rw [this]
  · have hy : ys ≠ [] := by rintro rfl; exact hx (List.perm_nil.mp h)
    funext i
    rw [C21_mean G xs hx, C21_mean G ys hy, (h.map _).sum_eq, h.length_eq]

/-- C22 for CovarianceMatrix (at least one sample; with none the object is empty). -/
theorem C22_covariance {K ι : Type} [Field K] [CharZero K] [StarRing K]
    (M : ι → K) (C₀ G : ι → ι → K) (xs ys : List (ι → K)) (hx : xs ≠ []) (h : xs.Perm ys) :
    (covAfter M C₀ G xs).get = (covAfter M C₀ G ys).get := by
  have hy : ys ≠ [] := by rintro rfl; exact hx (List.perm_nil.mp h)
  have e1 := (covAfter_eq M C₀ G xs hx).2.2
  have e2 := (covAfter_eq M C₀ G ys hy).2.2
  rw [CovState.get, CovState.get, e1, e2, h.length_eq]
  split
  · rfl
  · funext i j
    rw [cov, cov, vmean_perm h, (h.map _).sum_eq, h.length_eq]

/-- C22 for CountSamples. -/
theorem C22_count {α : Type} (xs ys : List α) (h : xs.Perm ys) : countAfter xs = countAfter ys := by
  apply UInt64.toNat.inj
  rw [C34_countSamples, C34_countSamples, h.length_eq]

/-- C22 for Histogram. -/
theorem C22_histogram {D : Type} [LinearOrder D] (debug : Bool) (pts : List D) (S : Subdivision pts)
    (xs ys : List D) (h : xs.Perm ys) :
    histAfter debug ⟨pts, List.replicate (pts.length - 1) 0⟩ (xs.map .num) =
      histAfter debug ⟨pts, List.replicate (pts.length - 1) 0⟩ (ys.map .num) := by
  obtain ⟨b1, h1, h2, h3⟩ := histAfter_spec debug pts S (List.replicate (pts.length - 1) 0) (by simp) xs
  obtain ⟨b2, g1, g2, g3⟩ := histAfter_spec debug pts S (List.replicate (pts.length - 1) 0) (by simp) ys
  rw [h1, g1]
  have : b1 = b2 := by
    apply List.ext_getElem (by rw [h2, g2])
    intro k hk hk'
    rw [h3 k (by omega) hk, g3 k (by omega) hk', h.countP_eq]
  rw [this]

/-- C22 for PairHistogram. -/
theorem C22_pairHistogram {D : Type} [LinearOrder D] (debug : Bool) (xp yp : List D)
    (Sx : Subdivision xp) (Sy : Subdivision yp) (G : Nat → Nat → Nat) (xs ys : List (D × D))
    (h : xs.Perm ys) :
    pairHistAfter debug ⟨xp, yp, G⟩ (xs.map (fun p => [.num p.1, .num p.2])) =
      pairHistAfter debug ⟨xp, yp, G⟩ (ys.map (fun p => [.num p.1, .num p.2])) := by
  obtain ⟨b1, h1, h2⟩ := pairHistAfter_spec debug xp yp Sx Sy G xs
  obtain ⟨b2, g1, g2⟩ := pairHistAfter_spec debug xp yp Sx Sy G ys
  rw [h1, g1]
  have : b1 = b2 := by
    funext i j
    rw [h2, g2, h.countP_eq]
  rw [this]

/-- C22 for MaximumProbabilitySample: the likelihood of the sample returned is the same (which of
several equally likely samples is returned depends on the order). -/
theorem C22_maxProb {S D : Type} [LinearOrder D] (lowest : D) (S₀ : S)
    (xs ys : List (S × LLEntry D)) (h : xs.Perm ys) (hw : ∀ m ∈ xs, m.2 ≠ .wrongType)
    (hl : ∀ s d, (s, LLEntry.val d) ∈ xs → lowest ≤ d) (hne : llVals xs ≠ []) :
    ∃ b1 b2 ll,
      maxProbAfter (fun d => decide (d = lowest)) (fun a b => decide (a > b)) lowest S₀ xs
        = .ok ⟨b1, ll⟩ ∧
      maxProbAfter (fun d => decide (d = lowest)) (fun a b => decide (a > b)) lowest S₀ ys
        = .ok ⟨b2, ll⟩ := by
  have hne' : llVals ys ≠ [] := by
    intro e
    obtain ⟨p, hp⟩ := List.exists_mem_of_ne_nil _ hne
    have := (mem_llVals xs p.1 p.2).mp hp
    have := (mem_llVals ys p.1 p.2).mpr (h.mem_iff.mp this)
    rw [e] at this
    simp at this
  obtain ⟨b1, l1, e1, m1, u1⟩ := C33_maximumProbabilitySample_finite lowest S₀ xs hw hl hne
  obtain ⟨b2, l2, e2, m2, u2⟩ := C33_maximumProbabilitySample_finite lowest S₀ ys
    (fun m hm => hw m (h.mem_iff.mpr hm)) (fun s d hm => hl s d (h.mem_iff.mpr hm)) hne'
  have : l1 = l2 := le_antisymm (u2 b1 l1 (h.mem_iff.mp m1)) (u1 b2 l2 (h.mem_iff.mpr m2))
  subst this
  exact ⟨b1, b2, l1, e1, e2⟩

/-- The premises are satisfiable. -/
example : ([(0, .val 3), (1, .val 5)] : List (Nat × LLEntry Int)).Perm [(1, .val 5), (0, .val 3)] ∧
    (∀ m ∈ ([(0, .val 3), (1, .val 5)] : List (Nat × LLEntry Int)), m.2 ≠ .wrongType) ∧
    llVals ([(0, .val 3), (1, .val 5)] : List (Nat × LLEntry Int)) ≠ [] := by
  refine ⟨List.Perm.swap _ _ _, ?_, by simp [llVals]⟩
  intro m hm; simp at hm; rcases hm with rfl | rfl <;> simp

/-- C22, converse: consumers that allow only synchronous mode do depend on the order: LastSample ... -/
theorem C22_lastSample_depends_on_order :
    ∃ xs ys : List Nat, xs.Perm ys ∧ lastAfter 0 xs ≠ lastAfter 0 ys :=
  ⟨[1, 2], [2, 1], List.Perm.swap _ _ _, by decide⟩

/-- ... and AcceptanceRatio. -/
theorem C22_acceptanceRatio_depends_on_order :
    ∃ xs ys : List Nat, xs.Perm ys ∧
      ((arAfter (· == ·) 0 xs).get : ℚ) ≠ (arAfter (· == ·) 0 ys).get := by
  refine ⟨[1, 1, 2], [1, 2, 1], List.Perm.cons _ (List.Perm.swap _ _ _), ?_⟩
  norm_num [arAfter, ARState.consume, ARState.get]

/-! ### Instances: concrete cases that meet the hypotheses of the theorems above -/

example := C22_mean (K := ℚ) (fun _ : Unit => 7) [fun _ => 1, fun _ => 2, fun _ => 4] [fun _ => 4, fun _ => 1, fun _ => 2] (List.perm_append_comm (l₁ := [_, _]) (l₂ := [_]))
example := C22_covariance (K := ℝ) (fun _ : Unit => 7) (fun _ _ => 5) (fun _ _ => 3) [fun _ => 1, fun _ => 2, fun _ => 4] [fun _ => 4, fun _ => 1, fun _ => 2] (by simp)
  (List.perm_append_comm (l₁ := [_, _]) (l₂ := [_]))
example := C22_count [1, 2, 4] [4, 1, 2] (by decide)
example := C22_histogram (D := Int) true [0, 2, 5] ⟨by decide, by decide⟩ [1, 2, 4] [4, 1, 2] (by decide)
example := C22_pairHistogram (D := Int) true [0, 2, 5] [0, 1, 7] ⟨by decide, by decide⟩ ⟨by decide, by decide⟩ (fun _ _ => 3) [(1, 0), (2, 6), (4, 1)] [(4, 1), (1, 0), (2, 6)] (by decide)
example := C22_maxProb (D := Int) (-100) 17 [(0, .val 3), (1, .val 5), (2, .absent)] [(1, .val 5), (2, .absent), (0, .val 3)]
  (List.perm_append_comm (l₁ := [_]) (l₂ := [_, _])) (by simp) (by simp; omega) (by simp [llVals])

end SampleFlow
