import Verif.Proofs.Dimension
import Verif.Props.Moments

/-!
# C79: the numerical consumers at the level of elements

`E` is the sample type (`std::valarray`, scalars, or anything that behaves like an array: `Lawful`), `els x` the elements of sample `x`,
`fn els d x` the same as a function on `0..d-1`.  A run is `.error` as soon as an element outside of a sample or matrix is accessed or
two objects of different sizes are combined.
-/

namespace SampleFlow.Dim

open Spec

variable {S K : Type} [Field K]

/-- `std::valarray` is a lawful sample type. -/
theorem valarray_lawful : Lawful (valarray K) (id : List K → List K) where
  size _ := rfl
  nth _ _ := rfl
  set s i x := by simp only [valarray, id]; cases writeAt s i x <;> rfl
  sub a b := by simp only [id]; cases (valarray K).sub a b <;> rfl
  add a b := by simp only [id]; cases (valarray K).add a b <;> rfl
  scale _ _ := rfl

/-- Scalars are a lawful sample type: they behave like arrays with one element. -/
theorem scalar_lawful : Lawful (scalar K) (fun x : K => [x]) where
  size _ := rfl
  nth x i := by
    cases i with
    | zero => rfl
    | succ i => simp [scalar, readAt]
  set x i y := by
    cases i with
    | zero => rfl
    | succ i => simp [scalar, writeAt, Except.map]
  sub _ _ := rfl
  add _ _ := rfl
  scale _ _ := rfl

/-- **C79**: `std::valarray` and scalars behave like arrays; a scalar like an array with one element. -/
theorem C79_sample_types : Lawful (valarray K) (id : List K → List K) ∧ Lawful (scalar K) (fun x : K => [x]) :=
  ⟨valarray_lawful, scalar_lawful⟩

variable {E : Elements S K} {els : S → List K}

/-- **C79**, MeanValue: consuming the samples succeeds if and only if they all have the same size. -/
theorem C79_mean_fault_iff (L : Lawful E els) (G : S) (xs : List S) :
    (∃ s, meanRun E G xs = .ok s) ↔ SameSize els xs := by
  refine iff_sameSize (meanConsume E) ⟨0, G⟩ (fun s => s.mean) (fun s => s.n) ?_ (fun s x h0 h => meanConsume_err L h0 h) xs
  intro d xs hd
  obtain ⟨s, h1, h2, h3⟩ := meanRun_ok L G xs hd
  exact ⟨s, h1, fun hne => ⟨(h3 hne).2.length, by rw [h2]; exact (h3 hne).1⟩⟩

/-- **C79**, CovarianceMatrix. -/
theorem C79_covariance_fault_iff [Star K] (L : Lawful E els) (M : S) (G : Nat → Nat → K) (xs : List S) :
    (∃ s, covRun E M G xs = .ok s) ↔ SameSize els xs := by
  refine iff_sameSize (covConsume E G) ⟨0, M, ⟨0, 0, G⟩⟩ (fun s => s.mean) (fun s => s.n) ?_
    (fun s x h0 h => covConsume_err L G h0 h) xs
  intro d xs hd
  obtain ⟨s, h1, h2, h3⟩ := covRun_ok L M G xs hd
  exact ⟨s, h1, fun hne => ⟨(h2.mean (h3 hne)).length, by rw [h2.n]; exact h3 hne⟩⟩

theorem actAfter_total [CharZero K] {d : Nat} (maxLag : Nat) (ys : List (Fin d → K)) : ∃ t, actAfter maxLag (fun _ => 0) ys = .ok t := by
  by_cases h : ys = []
  · subst h; exact ⟨_, rfl⟩
  · exact ⟨_, actAfter_eq maxLag _ ys h⟩

theorem acmAfter_total [CharZero K] {d : Nat} (maxLag : Nat) (G : Nat → Fin d → Fin d → K) (ys : List (Fin d → K)) :
    ∃ t, acmAfter maxLag G (fun _ => 0) ys = .ok t := by
  by_cases h : ys = []
  · subst h; exact ⟨_, rfl⟩
  · exact ⟨_, acmAfter_eq maxLag G _ ys h⟩

/-- **C79**, AutoCovarianceTrace. -/
theorem C79_autoCovarianceTrace_fault_iff [CharZero K] (L : Lawful E els) (maxLag : Nat) (M : S) (xs : List S) :
    (∃ s, actRun E maxLag M xs = .ok s) ↔ SameSize els xs := by
  refine iff_sameSize (actConsume E maxLag) ⟨0, M, [], [], []⟩ (fun s => s.mean) (fun s => s.n) ?_
    (fun s x h0 h => actConsume_err L maxLag h0 h) xs
  intro d xs hd
  obtain ⟨s, t, h1, -, h2, h3⟩ := actRun_ok L maxLag M xs hd (actAfter_total maxLag)
  exact ⟨s, h1, fun hne => ⟨(h2.mean (h3 hne)).length, by rw [h2.n]; exact h3 hne⟩⟩

/-- **C79**, AutoCovarianceMatrix. -/
theorem C79_autoCovarianceMatrix_fault_iff [CharZero K] (L : Lawful E els) (maxLag : Nat) (G : Nat → Nat → Nat → K) (M : S)
    (xs : List S) : (∃ s, acmRun E maxLag G M xs = .ok s) ↔ SameSize els xs := by
  refine iff_sameSize (acmConsume E maxLag G) ⟨0, M, [], [], [], []⟩ (fun s => s.mean) (fun s => s.n) ?_
    (fun s x h0 h => acmConsume_err L maxLag G h0 h) xs
  intro d xs hd
  obtain ⟨s, t, h1, -, h2, h3⟩ := acmRun_ok L maxLag G M xs hd (acmAfter_total maxLag _)
  exact ⟨s, h1, fun hne => ⟨(h2.mean (h3 hne)).length, by rw [h2.n]; exact h3 hne⟩⟩

/-- **C79**, the results, MeanValue: the mean has the size of the samples, and every element is the mean of the elements of the
samples. -/
theorem C79_mean_value [CharZero K] (L : Lawful E els) (G : S) (xs : List S) (hne : xs ≠ []) (d : Nat)
    (hd : ∀ x ∈ xs, (els x).length = d) :
    ∃ s, meanRun E G xs = .ok s ∧ (els s.mean).length = d ∧
      ∀ i < d, (els s.mean).getD i 0 = (xs.map (fun x => (els x).getD i 0)).sum / (xs.length : K) := by
  obtain ⟨s, h1, -, h3⟩ := meanRun_ok L G xs hd
  obtain ⟨-, hr⟩ := h3 hne
  refine ⟨s, h1, hr.length, ?_⟩
  intro i hi
  have := C21_mean (fun _ => (0 : K)) (xs.map (fn els d)) (by simpa using hne) ⟨i, hi⟩
  rw [MeanState.get] at this
  rw [hr, List.getD_eq_getElem?_getD, List.getElem?_ofFn, dif_pos hi]
  simp only [Option.getD_some]
  rw [this, List.map_map, List.length_map]
  rfl

/-- **C79**, CovarianceMatrix: a square matrix of the size of the samples; with at least two samples every entry is the sample
covariance of the elements. -/
theorem C79_covariance_value [CharZero K] [StarRing K] (L : Lawful E els) (M : S) (G : Nat → Nat → K) (xs : List S)
    (hlen : 2 ≤ xs.length) (d : Nat) (hd : ∀ x ∈ xs, (els x).length = d) :
    ∃ s, covRun E M G xs = .ok s ∧ s.C.rows = d ∧ s.C.cols = d ∧
      ∀ (i j : Nat) (hi : i < d) (hj : j < d), s.C.entry i j = cov (xs.map (fn els d)) ⟨i, hi⟩ ⟨j, hj⟩ := by
  obtain ⟨s, h1, h2, h3⟩ := covRun_ok L M G xs hd
  have hn := h3 (by rintro rfl; simp at hlen)
  obtain ⟨r1, r2, r3⟩ := h2.C hn
  refine ⟨s, h1, r1, r2, ?_⟩
  intro i j hi hj
  rw [r3 i j hi hj]
  exact C23_covariance _ _ _ _ (by simpa using hlen) _ _

/-- **C79**, AutoCovarianceTrace: `get()` succeeds and gives the traces of the auto-covariance matrices. -/
theorem C79_autoCovarianceTrace_value [CharZero K] (L : Lawful E els) (maxLag : Nat) (M : S) (xs : List S) (hne : xs ≠ []) (d : Nat)
    (hd : ∀ x ∈ xs, (els x).length = d) :
    (do let s ← actRun E maxLag M xs; actGet E maxLag s) =
      .ok ((List.range (maxLag+1)).map (fun l =>
        if xs.length ≤ l + 1 then 0 else autoCovTrace l (xs.map (fn els d)))) := by
  obtain ⟨s, t, h1, h2, h3, h4⟩ := actRun_ok L maxLag M xs hd (actAfter_total maxLag)
  have hg := C25_autoCovarianceTrace maxLag (fun _ => (0 : K)) (xs.map (fn els d)) (by simpa using hne)
  rw [bind_ok _ h2] at hg
  rw [bind_ok _ h1, actGet_ok L maxLag h3 (h4 hne) hg]
  simp only [List.length_map, autoCovTrace]

/-- **C79**, AutoCovarianceMatrix: `get()` succeeds; square matrices with the auto-covariances, up to the uninitialised memory `G`
(see C26). -/
theorem C79_autoCovarianceMatrix_value [CharZero K] (L : Lawful E els) (maxLag : Nat) (G : Nat → Nat → Nat → K) (M : S)
    (xs : List S) (hne : xs ≠ []) (d : Nat) (hd : ∀ x ∈ xs, (els x).length = d) :
    ∃ ms, (do let s ← acmRun E maxLag G M xs; acmGet E maxLag s) = .ok ms ∧ ms.length = maxLag + 1 ∧
      ∀ l, l + 1 < xs.length → l ≤ maxLag → ∃ m, ms[l]? = some m ∧ m.rows = d ∧ m.cols = d ∧
        ∀ (i j : Nat) (hi : i < d) (hj : j < d),
          m.entry i j = autoCov l (xs.map (fn els d)) ⟨i, hi⟩ ⟨j, hj⟩ + G l i j / ((xs.length : K) - l - 1) := by
  obtain ⟨s, t, h1, h2, h3, h4⟩ := acmRun_ok L maxLag G M xs hd (acmAfter_total maxLag _)
  have hg := C26_autoCovarianceMatrix maxLag (fun l (i j : Fin d) => G l i j) (fun _ => (0 : K)) (xs.map (fn els d))
    (by simpa using hne)
  rw [bind_ok _ h2] at hg
  obtain ⟨ms, g1, g2, g3⟩ := acmGet_ok L maxLag h3 (h4 hne) hg
  refine ⟨ms, by rw [bind_ok _ h1]; exact g1, by rw [g2]; simp, ?_⟩
  intro l hl hl'
  obtain ⟨m, hm, r1, r2, r3⟩ := g3 l _ (by rw [List.getElem?_map, List.getElem?_range (by omega)]; rfl)
  refine ⟨m, hm, r1, r2, ?_⟩
  intro i j hi hj
  rw [r3 i j hi hj]
  simp only [List.length_map]
  rw [if_neg (by omega)]
  simp only [autoCov, List.length_map]

/-- The hypotheses are met: two samples with two elements, a change of size, and scalar samples. -/
example : (∃ s, meanRun (valarray ℚ) [] [[1, 2], [3, 6]] = .ok s ∧ s.mean = [2, 4]) ∧
    (¬ ∃ s, meanRun (valarray ℚ) [] [[1, 2], [3]] = .ok s) ∧ (∃ s, meanRun (scalar ℚ) 0 [1, 2, 6] = .ok s ∧ s.mean = 3) := by
  refine ⟨?_, ?_, ?_⟩
  · refine ⟨_, rfl, ?_⟩
    norm_num [valarray]
  · rw [C79_mean_fault_iff valarray_lawful]
    rintro ⟨d, hd⟩
    have h1 := hd [1, 2] (by simp)
    have h2 := hd [3] (by simp)
    simp at h1 h2
    omega
  · obtain ⟨s, h1, -, h3⟩ := C79_mean_value (scalar_lawful (K := ℚ)) 0 [1, 2, 6] (by simp) 1 (by simp)
    refine ⟨s, h1, ?_⟩
    have := h3 0 (by norm_num)
    simp at this
    rw [this]; norm_num

/-- The covariance matrix of the samples (1,2), (3,6), with arbitrary memory content 7. -/
example : ∃ s, covRun (valarray ℝ) [] (fun _ _ => 7) [[1, 2], [3, 6]] = .ok s ∧ s.C.rows = 2 ∧ s.C.entry 0 1 = 4 := by
  obtain ⟨s, h1, h2, -, h4⟩ := C79_covariance_value (valarray_lawful (K := ℝ)) [] (fun _ _ => 7) [[1, 2], [3, 6]] (by simp) 2
    (by simp)
  refine ⟨s, h1, h2, ?_⟩
  rw [h4 0 1 (by norm_num) (by norm_num)]
  simp [cov, vmean, mean, fn]
  norm_num

/-- Auto-covariances of the samples 1, 2, 4, given as scalars. -/
example : (do let s ← actRun (scalar ℚ) 1 99 [1, 2, 4]; actGet (scalar ℚ) 1 s) = .ok [7/3, -1/9] := by
  rw [C79_autoCovarianceTrace_value scalar_lawful 1 99 [1, 2, 4] (by simp) 1 (by simp)]
  congr 1
  simp [List.range_succ, autoCovTrace, lagPairs, vmean, mean, fn]
  norm_num

/-! ### Instances: concrete cases that meet the hypotheses of the theorems above -/

example (xs : List (List ℚ)) := C79_autoCovarianceTrace_fault_iff C79_sample_types.1 3 [] xs
example (xs : List (List ℚ)) := C79_autoCovarianceMatrix_fault_iff C79_sample_types.1 3 (fun _ _ _ => 7) [] xs
example (xs : List (List ℝ)) := C79_covariance_fault_iff C79_sample_types.1 [] (fun _ _ => 7) xs
example := C79_autoCovarianceMatrix_value (K := ℚ) C79_sample_types.1 3 (fun _ _ _ => 7) [] [[1, 2], [3, 6], [5, 5]] (by simp) 2 (by simp)

end SampleFlow.Dim
