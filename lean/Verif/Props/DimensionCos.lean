import Verif.Proofs.DimensionCos
import Verif.Props.SimpleConsumers

/-!
# C79 for AverageCosineBetweenSuccessiveSamples
-/

namespace SampleFlow.Dim

open Spec

/-- **C79**, AverageCosineBetweenSuccessiveSamples: consuming succeeds (no access out of bounds) if and only if no sample is larger than the first one. -/
theorem C79_averageCosine_fault_iff (bits H : Nat) (hH : 1 ≤ H) (hb : H < 2^bits) (G1 G2 : Nat → Nat → ℝ) (x : List ℝ) (xs : List (List ℝ)) :
    (∃ s, cosRun bits H G1 G2 (x :: xs) = .ok s) ↔ ∀ y ∈ xs, y.length ≤ x.length :=
  run_iff bits H hH hb G1 G2 x xs

/-- **C79**, AverageCosineBetweenSuccessiveSamples: if all samples have the same size, the result has `H` entries, entry `i` the average of the cosine
of the angle of all samples at distance `i+1`, whatever the uninitialised memory contained.  (Nonzero samples: the code computes NaN for others.) -/
theorem C79_averageCosine_value (bits H : Nat) (hH : 1 ≤ H) (hb : H < 2^bits) (G1 G2 : Nat → Nat → ℝ) (xs : List (List ℝ)) (hne : xs ≠ [])
    (hlen : xs.length ≤ 2^bits) (d : Nat) (hd : ∀ x ∈ xs, x.length = d) (hz : ∀ x ∈ xs, ∃ i, x.getD i 0 ≠ 0) :
    ∃ s, cosRun bits H G1 G2 xs = .ok s ∧ s.avg.length = H ∧ ∀ i, i < H →
      s.avg.getD i 0 = if xs.length ≤ i + 1 then 0
        else ((lagPairs (i+1) (xs.map (fn id d))).map (fun p => cosAngle p.1 p.2)).sum / ((xs.length : ℝ) - i - 1) := by
  obtain ⟨s, t, h1, h2, h3⟩ := run_rep bits H hH hb G1 G2 d (fun _ => 0) xs hne hd
  obtain ⟨t', h4, h5⟩ := C28_averageCosinus bits H hH (fun _ => 0) (fun i (j : Fin d) => G1 i j) (fun i j => G2 i j) (xs.map (fn id d))
    (by simpa using hne) (by simpa using hlen) (by
      intro x hx h0
      obtain ⟨y, hy, rfl⟩ := List.mem_map.mp hx
      obtain ⟨i, hi⟩ := hz y hy
      have hlt : i < d := by
        by_contra hc
        apply hi
        rw [List.getD_eq_getElem?_getD, List.getElem?_eq_none (by rw [hd y hy]; omega)]
        rfl
      exact hi (congrFun h0 ⟨i, hlt⟩))
  rw [h2] at h4
  cases h4
  refine ⟨s, h1, h3.shape.avg, fun i hi => ?_⟩
  rw [h3.avg i hi, h5 i hi, List.length_map]

/-- **C79**, finding: a sample that is smaller than the first one is accepted, and then uninitialised memory enters the result: after samples with
2, 1 and 2 elements the result depends on the content of the memory. -/
theorem C79_averageCosine_smaller_sample :
    ∃ G2 G2' : Nat → Nat → ℝ, ∀ G1, ∃ s s', cosRun 32 1 G1 G2 [[1, 2], [3], [1, 1]] = .ok s ∧ cosRun 32 1 G1 G2' [[1, 2], [3], [1, 1]] = .ok s' ∧
      s.avg = [1] ∧ s'.avg = [1/2] := by
  have run : ∀ (g : ℝ) (G1 : Nat → Nat → ℝ), ∃ s, cosRun 32 1 G1 (fun _ _ => g) [[1, 2], [3], [1, 1]] = .ok s ∧
      s.avg = [1 + ((3 + g) / Real.sqrt (2 * (9 + g * g)) - 1) / 2] := by
    intro g G1
    obtain ⟨s1, a1, a2, a3, a4, a5, a6⟩ := first_ok 32 1 le_rfl G1 (fun _ _ => g) ⟨0, [], ⟨0, 0, G1⟩, ⟨0, 0, fun _ _ => g⟩⟩ rfl [1, 2]
    obtain ⟨s2, b1, b2, b3, b4, b5, b6, b7⟩ := next_ok 32 1 le_rfl (by norm_num) G1 (fun _ _ => g) s1 a2 [3] (by simp)
    obtain ⟨s3, c1, c2, c3, c4, -⟩ := next_ok 32 1 le_rfl (by norm_num) G1 (fun _ _ => g) s2 b2 [1, 1] (by simp)
    refine ⟨s3, ?_, ?_⟩
    · unfold cosRun
      rw [List.foldlM_cons, bind_ok _ a1, List.foldlM_cons, bind_ok _ b1, List.foldlM_cons, bind_ok _ c1]
      rfl
    · have e2 : s2.avg.getD 0 0 = 1 := by
        rw [b4 0 (by norm_num), a3, if_pos (by norm_num), newAvg, a4]
        simp [a5]
      have p0 : s2.prev.entry 0 0 = 3 := by rw [b5, b6 0 0 (by norm_num) (by simp)]; simp
      have p1 : s2.prev.entry 0 1 = g := by rw [b5, b7 0 1 (by simp), a6]
      have e3 := c4 0 (by norm_num)
      rw [b3, a3, if_pos (by norm_num), e2, newAvg] at e3
      simp [Finset.sum_range_succ, p0, p1] at e3
      have hl := c2.avg
      match hs : s3.avg, hl with
      | [a], _ =>
        rw [hs] at e3
        simp at e3
        rw [e3]
        norm_num
  refine ⟨fun _ _ => 3, fun _ _ => -3, fun G1 => ?_⟩
  obtain ⟨s, h1, h2⟩ := run 3 G1
  obtain ⟨s', h3, h4⟩ := run (-3) G1
  refine ⟨s, s', h1, h3, ?_, ?_⟩
  · rw [h2, show (2:ℝ) * (9 + 3 * 3) = 6 ^ 2 by norm_num, Real.sqrt_sq (by norm_num)]
    norm_num
  · rw [h4]
    norm_num

/-- The hypotheses are met: three samples with two elements, history length 1. -/
example (G1 G2 : Nat → Nat → ℝ) : ∃ s, cosRun 32 1 G1 G2 [[1, 0], [0, 1], [1, 1]] = .ok s ∧ s.avg.length = 1 := by
  obtain ⟨s, h1, h2, -⟩ := C79_averageCosine_value 32 1 le_rfl (by norm_num) G1 G2 [[1, 0], [0, 1], [1, 1]] (by simp) (by simp) 2 (by simp) (by
    intro x hx
    simp only [List.mem_cons, List.not_mem_nil, or_false] at hx
    rcases hx with rfl | rfl | rfl
    · exact ⟨0, by simp⟩
    · exact ⟨1, by simp⟩
    · exact ⟨0, by simp⟩)
  exact ⟨s, h1, h2⟩

/-! ### Instances: concrete cases that meet the hypotheses of the theorems above -/

example (G1 G2 : Nat → Nat → ℝ) := C79_averageCosine_fault_iff 32 10 (by norm_num) (by norm_num) G1 G2 [1, 2] [[3], [4, 5, 6]]

end SampleFlow.Dim
