import Verif.Proofs.AutoCov
import Mathlib.Data.Real.Basic
import Mathlib.Data.Real.Star
import Mathlib.Tactic.NormNum
import Mathlib.Tactic.Linarith
import Mathlib.Algebra.Order.BigOperators.Group.List
import Mathlib.Tactic.Positivity
import Mathlib.Tactic.FinCases

/-!
# Properties C21, C23-C27: mean, covariance, auto-covariance
-/

namespace SampleFlow

open Spec

/-! ## C21 MeanValue -/

/-- C21: after at least one sample, `MeanValue::get()` is the arithmetic mean in every component,
whatever the uninitialised memory `G` contained. -/
theorem C21_mean {K ι : Type} [Field K] [CharZero K] (G : ι → K) (xs : List (ι → K))
    (h : xs ≠ []) (i : ι) :
    (meanAfter G xs).get i = (xs.map (fun x => x i)).sum / (xs.length : K) := by
  rw [meanAfter_eq G xs h]
  simp [MeanState.get, vmean, mean]

/-- The premise is satisfiable. -/
example : (meanAfter (K := ℚ) (fun _ : Unit => 17) [fun _ => 1, fun _ => 2, fun _ => 6]).get () = 3 := by
  rw [C21_mean _ _ (by simp)]; norm_num

/-- C21, the case without samples: the caller sees whatever memory contained (documented: a
default-constructed object). -/
theorem C21_mean_no_samples {K ι : Type} [Field K] (G : ι → K) :
    (meanAfter G []).get = G := rfl

/-! ## C23 CovarianceMatrix -/

/-- C23: after at least two samples every entry is the sample covariance, independent of all
uninitialised memory. -/
theorem C23_covariance {K ι : Type} [Field K] [CharZero K] [StarRing K]
    (M : ι → K) (C₀ G : ι → ι → K) (xs : List (ι → K)) (h : 2 ≤ xs.length) (i j : ι) :
    (covAfter M C₀ G xs).get i j =
      (xs.map (fun x => (x i - vmean xs i) * star (x j - vmean xs j))).sum
        / ((xs.length : K) - 1) := by
  have hx : xs ≠ [] := by intro h'; rw [h'] at h; simp at h
  have := (covAfter_eq M C₀ G xs hx).2.2
  rw [CovState.get, this, if_neg (by omega)]
  rfl

example : (covAfter (K := ℚ) (fun _ : Unit => 5) (fun _ _ => 6) (fun _ _ => 7)
    [fun _ => 1, fun _ => 3]).get () () = 2 := by
  rw [C23_covariance _ _ _ _ (by simp)]
  simp [vmean, mean]
  norm_num

/-- C23, finding: after exactly one sample the returned matrix is uninitialised memory (the comment
in the code, covariance_matrix.impl.h 163-165, says it is zero). -/
theorem C23_covariance_one_sample {K ι : Type} [Field K] [CharZero K] [StarRing K]
    (M : ι → K) (C₀ G : ι → ι → K) (x : ι → K) :
    (covAfter M C₀ G [x]).get = G := by
  have := (covAfter_eq M C₀ G [x] (by simp)).2.2
  rw [CovState.get, this]; rfl

/-! ## C24 symmetric positive semidefinite -/

/-- C24: the matrix is Hermitian. -/
theorem C24_hermitian {K ι : Type} [Field K] [CharZero K] [StarRing K]
    (M : ι → K) (C₀ G : ι → ι → K) (xs : List (ι → K)) (h : 2 ≤ xs.length) (i j : ι) :
    (covAfter M C₀ G xs).get j i = star ((covAfter M C₀ G xs).get i j) := by
  rw [C23_covariance M C₀ G xs h, C23_covariance M C₀ G xs h]
  rw [star_div₀, star_sub, star_natCast, star_one]
  congr 1
  generalize vmean xs = m
  clear h
  induction xs with
  | nil => simp
  | cons x xs ih => simp only [List.map_cons, List.sum_cons, star_add, ih, star_mul, star_star]

/-- C24: for real samples the matrix is symmetric and positive semidefinite: `vᵀ C v ≥ 0`. -/
theorem C24_psd {ι : Type} [Fintype ι] (M : ι → ℝ) (C₀ G : ι → ι → ℝ) (xs : List (ι → ℝ))
    (h : 2 ≤ xs.length) (v : ι → ℝ) :
    (∀ i j, (covAfter M C₀ G xs).get i j = (covAfter M C₀ G xs).get j i) ∧
    0 ≤ ∑ i, ∑ j, v i * (covAfter M C₀ G xs).get i j * v j := by
  refine ⟨fun i j => by rw [C24_hermitian M C₀ G xs h j i]; simp, ?_⟩
  have hC : ∀ i j, v i * (covAfter M C₀ G xs).get i j * v j =
      ((xs.map (fun x => v i * (x i - vmean xs i) * (v j * (x j - vmean xs j)))).sum)
        / ((xs.length : ℝ) - 1) := by
    intro i j
    rw [C23_covariance M C₀ G xs h]
    simp only [star_trivial]
    rw [mul_div_assoc', div_mul_eq_mul_div]
    congr 1
    rw [← List.sum_map_mul_left, ← List.sum_map_mul_right]
    congr 1
    apply List.map_congr_left
    intro x _
    ring
  simp only [hC]
  have hpos : (0:ℝ) < (xs.length : ℝ) - 1 := by
    have : (2:ℝ) ≤ xs.length := by exact_mod_cast h
    linarith
  simp only [← Finset.sum_div]
  apply div_nonneg _ hpos.le
  generalize vmean xs = m
  clear h hC hpos
  induction xs with
  | nil => simp
  | cons x xs ih =>
    simp only [List.map_cons, List.sum_cons, Finset.sum_add_distrib]
    have e : ∑ i, ∑ j, v i * (x i - m i) * (v j * (x j - m j)) =
        (∑ i, v i * (x i - m i)) * (∑ j, v j * (x j - m j)) := by
      rw [Finset.sum_mul_sum]
    rw [e]
    have := mul_self_nonneg (∑ i, v i * (x i - m i))
    linarith

/-- C24: diagonal entries (variances) are nonnegative. -/
theorem C24_variance_nonneg {ι : Type} (M : ι → ℝ) (C₀ G : ι → ι → ℝ) (xs : List (ι → ℝ))
    (h : 2 ≤ xs.length) (i : ι) : 0 ≤ (covAfter M C₀ G xs).get i i := by
  rw [C23_covariance M C₀ G xs h]
  have hpos : (0:ℝ) < (xs.length : ℝ) - 1 := by
    have : (2:ℝ) ≤ xs.length := by exact_mod_cast h
    linarith
  apply div_nonneg _ hpos.le
  apply List.sum_nonneg
  intro y hy
  simp only [List.mem_map] at hy
  obtain ⟨x, _, rfl⟩ := hy
  simpa using mul_self_nonneg _

/-! ## C25 AutoCovarianceTrace -/

/-- C25: after `n ≥ 1` samples `get()` succeeds and entry `l` (for all `l ≤ max_lag`) is 0 for
`n ≤ l+1` and otherwise `1/(n-l-1) ∑_{t=1}^{n-l} (x_{t+l} - x̄)ᵀ(x_t - x̄)`. -/
theorem C25_autoCovarianceTrace {K ι : Type} [Field K] [CharZero K] [Fintype ι] (maxLag : Nat)
    (M : ι → K) (xs : List (ι → K)) (h : xs ≠ []) :
    (do let s ← actAfter maxLag M xs; s.get maxLag) =
      .ok ((List.range (maxLag+1)).map (fun l =>
        if xs.length ≤ l + 1 then 0
        else ((lagPairs l xs).map (fun p => ∑ j, (p.1 j - vmean xs j) * (p.2 j - vmean xs j))).sum
          / ((xs.length : K) - l - 1))) := by
  rw [actAfter_eq maxLag M xs h]
  change (actSpec maxLag xs).get maxLag = _
  rw [ACTState.get, mapM_ok _ _ _ (fun l hl => act_getLag maxLag l (by simp at hl; omega) xs)]
  rfl

/-- A concrete run: samples 1, 2, 4 (scalar), lags 0 and 1. -/
example : (do let s ← actAfter (K := ℚ) 1 (fun _ : Unit => 99) [fun _ => 1, fun _ => 2, fun _ => 4]
              s.get 1) = .ok [7/3, -1/9] := by
  rw [C25_autoCovarianceTrace _ _ _ (by simp)]
  simp [List.range_succ, lagPairs, vmean, mean]
  norm_num

/-- C25, the excluded case: `get()` before any sample reads `alpha[0]` of an empty vector. -/
theorem C25_autoCovarianceTrace_no_samples_ub {K ι : Type} [Field K] [Fintype ι] (maxLag : Nat)
    (M : ι → K) :
    (do let s ← actAfter maxLag M []; s.get maxLag) = .error .ub := by
  change (ACTState.init M).get maxLag = _
  rw [ACTState.get, List.range_succ_eq_map, List.mapM_cons]
  rfl

/-! ## C26 AutoCovarianceMatrix -/

/-- C26: after `n ≥ 1` samples `get()` succeeds; for `n > l+1` entry `l` is the auto-covariance plus
`G_l/(n-l-1)`, where `G_l` is the uninitialised content of the matrix; for `n ≤ l+1` it is `G_l`
itself. -/
theorem C26_autoCovarianceMatrix {K ι : Type} [Field K] [CharZero K] (maxLag : Nat)
    (G : Nat → ι → ι → K) (M : ι → K) (xs : List (ι → K)) (h : xs ≠ []) :
    (do let s ← acmAfter maxLag G M xs; s.get maxLag) =
      .ok ((List.range (maxLag+1)).map (fun l =>
        if xs.length ≤ l + 1 then G l
        else fun i j => ((lagPairs l xs).map
            (fun p => (p.1 i - vmean xs i) * (p.2 j - vmean xs j))).sum
          / ((xs.length : K) - l - 1) + G l i j / ((xs.length : K) - l - 1))) := by
  rw [acmAfter_eq maxLag G M xs h]
  change (acmSpec maxLag G xs).get maxLag = _
  rw [ACMState.get, mapM_ok _ _ _ (fun l hl => acm_getLag maxLag l G (by simp at hl; omega) xs)]
  rfl

/-- C26: the documented result holds iff the memory happened to be zero: for a lag `l` with
`n > l+1`, entry `(i,j)` of matrix `l` equals the auto-covariance iff `G_l(i,j) = 0`. -/
theorem C26_correct_iff_memory_zero {K ι : Type} [Field K] [CharZero K] (maxLag l : Nat)
    (hl : l ≤ maxLag) (G : Nat → ι → ι → K) (M : ι → K) (xs : List (ι → K))
    (h : l + 1 < xs.length) (i j : ι) :
    ∃ ms, (do let s ← acmAfter maxLag G M xs; s.get maxLag) = .ok ms ∧
      ∃ m, ms[l]? = some m ∧ (m i j = autoCov l xs i j ↔ G l i j = 0) := by
  have hx : xs ≠ [] := by intro h'; rw [h'] at h; simp at h
  refine ⟨_, C26_autoCovarianceMatrix maxLag G M xs hx, ?_⟩
  have hr : (List.range (maxLag+1))[l]? = some l := by
    rw [List.getElem?_range (by omega)]
  refine ⟨_, by rw [List.getElem?_map, hr]; rfl, ?_⟩
  have hn : ¬ xs.length ≤ l + 1 := by omega
  obtain ⟨-, d2⟩ := cast_lag (K := K) xs.length l (by omega)
  simp only [if_neg hn, autoCov]
  constructor
  · intro e
    have : G l i j / ((xs.length : K) - l - 1) = 0 := by
      linear_combination e
    rcases div_eq_zero_iff.mp this with h | h
    · exact h
    · exact absurd h d2
  · intro e
    rw [e]; simp

/-- C26, finding: with nonzero memory (here 1) the result is wrong: variance of 1, 3 is 2, the class
returns 3. -/
theorem C26_uninitialised_memory_shows :
    (do let s ← acmAfter (K := ℚ) 0 (fun _ _ _ => 1) (fun _ : Unit => 0) [fun _ => 1, fun _ => 3]
        s.get 0) = .ok [fun _ _ => 3] ∧ cov (K := ℝ) [fun _ : Unit => 1, fun _ => 3] () () = 2 := by
  constructor
  · rw [C26_autoCovarianceMatrix _ _ _ _ (by simp)]
    congr 1
    simp [List.range_succ, lagPairs, vmean, mean]
    norm_num
  · simp [cov, vmean, mean]
    norm_num

/-! ## C27 consistency between the three -/

/-- C27: lag 0 of AutoCovarianceTrace is the trace of CovarianceMatrix (real samples, `n ≥ 2`). -/
theorem C27_trace_of_covariance {ι : Type} [Fintype ι] (maxLag : Nat) (M M' : ι → ℝ)
    (C₀ G : ι → ι → ℝ) (xs : List (ι → ℝ)) (h : 2 ≤ xs.length) :
    ∃ rs, (do let s ← actAfter maxLag M xs; s.get maxLag) = .ok rs ∧
      rs[0]? = some (∑ i, (covAfter M' C₀ G xs).get i i) := by
  have hx : xs ≠ [] := by intro h'; rw [h'] at h; simp at h
  refine ⟨_, C25_autoCovarianceTrace maxLag M xs hx, ?_⟩
  have hr : (List.range (maxLag+1))[0]? = some 0 := by
    rw [List.getElem?_range (by omega)]
  rw [List.getElem?_map, hr]
  have hn : ¬ xs.length ≤ 0 + 1 := by omega
  simp only [Option.map_some, if_neg hn, C23_covariance M' C₀ G xs h, star_trivial,
    ← Finset.sum_div]
  congr 2
  · have hp : lagPairs 0 xs = xs.map (fun x => (x, x)) := by
      unfold lagPairs
      rw [List.drop_zero]
      clear h hx hn hr
      induction xs with
      | nil => rfl
      | cons x xs ih => simp [ih]
    rw [hp, List.map_map]
    generalize vmean xs = m
    clear h hx hn hp hr
    induction xs with
    | nil => simp
    | cons x xs ih => simp [Finset.sum_add_distrib, ih]
  · simp

/-- C27: every lag of AutoCovarianceTrace is the trace of that lag of AutoCovarianceMatrix if the
latter's memory was zero. -/
theorem C27_trace_of_autoCovariance {K ι : Type} [Field K] [CharZero K] [Fintype ι]
    (maxLag : Nat) (M M' : ι → K) (xs : List (ι → K)) (h : xs ≠ []) :
    ∃ rs ms, (do let s ← actAfter maxLag M xs; s.get maxLag) = .ok rs ∧
      (do let s ← acmAfter maxLag (fun _ _ _ => 0) M' xs; s.get maxLag) = .ok ms ∧
      rs = ms.map (fun m => ∑ i, m i i) ∧ rs.length = maxLag + 1 := by
  refine ⟨_, _, C25_autoCovarianceTrace maxLag M xs h, C26_autoCovarianceMatrix maxLag _ M' xs h,
    ?_, by simp⟩
  rw [List.map_map]
  apply List.map_congr_left
  intro l _
  simp only [Function.comp]
  split
  · simp
  · simp only [zero_div, add_zero, ← Finset.sum_div]
    congr 1
    generalize vmean xs = m
    generalize lagPairs l xs = ps
    induction ps with
    | nil => simp
    | cons p ps ih => simp [Finset.sum_add_distrib, ih]

example : 2 ≤ ([fun _ => 1, fun _ => 2] : List (Unit → ℝ)).length := by simp

/-! ### Instances: concrete cases that meet the hypotheses of the theorems above -/

/-- three samples with two components -/
def threeSamples : List (Fin 2 → ℝ) := [fun i => if i = 0 then 1 else 2, fun i => if i = 0 then 3 else 5, fun i => if i = 0 then 4 else -1]

example := C24_hermitian (fun _ => 7) (fun _ _ => 5) (fun _ _ => 3) threeSamples (by decide) 0 1
example := C24_psd (fun _ => 7) (fun _ _ => 5) (fun _ _ => 3) threeSamples (by decide) (fun i => if i = 0 then 1 else -2)
example := C24_variance_nonneg (fun _ => 7) (fun _ _ => 5) (fun _ _ => 3) threeSamples (by decide) 1
example := C26_autoCovarianceMatrix 1 (fun _ _ _ => 3) (fun _ => 7) threeSamples (by simp [threeSamples])
example := C26_correct_iff_memory_zero 1 1 (by decide) (fun _ _ _ => 3) (fun _ => 7) threeSamples (by decide) 0 1
example := C27_trace_of_covariance 1 (fun _ => 7) (fun _ => 8) (fun _ _ => 5) (fun _ _ => 3) threeSamples (by decide)
example := C27_trace_of_autoCovariance 1 (fun _ => 7) (fun _ => 8) threeSamples (by simp [threeSamples])

end SampleFlow
