import Verif.Proofs.RoundingAutoMatrix
import Verif.Proofs.RoundingAutoMatrixExamples
import Mathlib.Data.Fin.VecNotation
import Mathlib.Tactic.FinCases

/-!
# C92: AutoCovarianceMatrix in floating point arithmetic

For every arithmetic in which each operation returns the rounded exact result (`Spec.Rounding`, no overflow and underflow).
-/

namespace SampleFlow

open Spec RoundingAuto

variable {u : ℝ} {fl : ℝ → ℝ}

/-- **C92**: without rounding, the machine program is the program of C26. -/
theorem C92_exact {K ι : Type} [Field K] [Star K] (maxLag : Nat) (G : Nat → ι → ι → K) (M : ι → K) (xs : List (ι → K)) :
    @acmMachineGet K ι (exactArith K) maxLag G M xs = (do let s ← acmAfter maxLag G M xs; s.get maxLag) :=
  RoundingAutoMatrix.get_exact maxLag G M xs

/-- **C92**, partial: if the memory that the code leaves uninitialised happens to contain zeros, then entry `(i, j)` of the computed autocovariance
matrix of `n` samples whose components `i` and `j` are of size at most `B i` and `B j` differs, for every lag, from the exact entry by at most `u max(B i, B j)² (8n + 120)`,
as long as `u n ≤ 1/256`.  (The error is relative to the size of the samples, not to the autocovariance.) -/
theorem C92_error_partial {ι : Type} (h : Rounding u fl) (hu0 : 0 ≤ u) (maxLag : Nat) (G : Nat → ι → ι → ℝ) (hG : ∀ l i j, G l i j = 0) (M₀ : ι → ℝ)
    (xs : List (ι → ℝ)) (hne : xs ≠ []) (hun : u * (xs.length : ℝ) ≤ 1/256) (hx : ∀ x ∈ xs, ∀ i, Machine fl (x i))
    (hcount : ∀ n : Nat, n ≤ xs.length → Machine fl n) (B : ι → ℝ) (hB : ∀ x ∈ xs, ∀ i, |x i| ≤ B i) :
    ∃ result : List (ι → ι → ℝ), @acmMachineGet ℝ ι (roundedArith fl) maxLag G M₀ xs = .ok result ∧ result.length = maxLag + 1 ∧
      ∀ (l : Nat) (r : ι → ι → ℝ), result[l]? = some r → ∀ i j,
        (xs.length ≤ l + 1 → r i j = 0) ∧
        (l + 2 ≤ xs.length → |r i j - autoCov l xs i j| ≤ u * max (B i) (B j) ^ 2 * (8 * xs.length + 120)) := by
  let _ := roundedArith fl
  obtain ⟨s, e1, -, -, e2⟩ := RoundingAutoMatrix.state_lags maxLag G M₀ xs hne
  have key : ∀ l ≤ maxLag, ∃ r, acmMachineGetLag s l = .ok r := by
    intro l hl
    obtain ⟨e, he⟩ := e2 l hl
    unfold acmMachineGetLag
    rw [he]
    exact ⟨_, rfl⟩
  choose! f hf using key
  refine ⟨(List.range (maxLag+1)).map f, ?_, by simp, ?_⟩
  · unfold acmMachineGet
    rw [e1]
    exact mapM_ok _ f _ (fun l hl => hf l (by rw [List.mem_range] at hl; omega))
  · intro l r hr i j
    rw [List.getElem?_map] at hr
    by_cases hl : l < maxLag + 1
    · rw [List.getElem?_range hl] at hr
      cases hr
      obtain ⟨r, h1, h2⟩ := RoundingAutoMatrix.getLag_error h hu0 maxLag l (by omega) G M₀ xs hne hun (max (B i) (B j)) i j (fun l => hG l i j) hx
        (fun x hx => (hB x hx i).trans (le_max_left _ _)) (fun x hx => (hB x hx j).trans (le_max_right _ _)) hcount s e1
      rw [hf l (by omega)] at h1
      cases h1
      rwa [pow_two]
    · rw [List.getElem?_eq_none (by simp; omega)] at hr
      cases hr

/-- **C92**, violation: four equal samples, whose variance is zero, have the computed variance (lag 0) `-8`, with zeros in the uninitialised memory. -/
theorem C92_violation_negative (M₀ : Unit → ℝ) :
    @acmMachineGet ℝ Unit (roundedArith (nearest 53)) 0 (fun _ _ _ => 0) M₀
        [fun _ => 134217733, fun _ => 134217733, fun _ => 134217733, fun _ => 134217733] = .ok [fun _ _ => -8] ∧
    autoCov 0 [fun _ : Unit => (134217733 : ℝ), fun _ => 134217733, fun _ => 134217733, fun _ => 134217733] () () = 0 := by
  let _ := roundedArith (nearest 53)
  constructor
  · have h0 : acmMachineConsume 0 (fun _ _ _ => 0) (ACMState.init M₀) (fun _ => (134217733 : ℝ)) =
        .ok ⟨1, fun _ => 134217733, [⟨fun _ _ => 0, fun _ => 0, fun _ => 0⟩], [fun _ => 134217733]⟩ := by
      unfold acmMachineConsume ACMState.init
      rw [if_pos rfl]
      have z : nearest 53 0 = 0 := (nearest_rounding 53 (by norm_num)).zero
      simp [r_nat, z]
    unfold acmMachineGet acmMachine
    simp only [List.foldlM_cons, List.foldlM_nil, h0, mc_step1, mc_step2, mc_step3, bind, Except.bind, pure, Except.pure]
    show (List.range 1).mapM _ = _
    simp only [List.range_one, List.mapM_cons, List.mapM_nil, mc_get, bind, Except.bind, pure, Except.pure]
  · simp [autoCov, lagPairs, vmean, mean]
    try norm_num

/-- **C92**, violation: for the samples `2^27` and `2^27 + 1` the computed variance is zero, although the exact one is `1/2`. -/
theorem C92_violation_cancellation (M₀ : Unit → ℝ) :
    @acmMachineGet ℝ Unit (roundedArith (nearest 53)) 0 (fun _ _ _ => 0) M₀ [fun _ => 134217728, fun _ => 134217729] = .ok [fun _ _ => 0] ∧
    autoCov 0 [fun _ : Unit => (134217728 : ℝ), fun _ => 134217729] () () = 1/2 := by
  let _ := roundedArith (nearest 53)
  constructor
  · have h0 : acmMachineConsume 0 (fun _ _ _ => 0) (ACMState.init M₀) (fun _ => (134217728 : ℝ)) =
        .ok ⟨1, fun _ => 134217728, [⟨fun _ _ => 0, fun _ => 0, fun _ => 0⟩], [fun _ => 134217728]⟩ := by
      unfold acmMachineConsume ACMState.init
      rw [if_pos rfl]
      have z : nearest 53 0 = 0 := (nearest_rounding 53 (by norm_num)).zero
      simp [r_nat, z]
    unfold acmMachineGet acmMachine
    simp only [List.foldlM_cons, List.foldlM_nil, h0, me_step1, bind, Except.bind, pure, Except.pure]
    show (List.range 1).mapM _ = _
    simp only [List.range_one, List.mapM_cons, List.mapM_nil, me_get, bind, Except.bind, pure, Except.pure]
  · simp [autoCov, lagPairs, vmean, mean]
    try norm_num

/-- The hypotheses are met by doubles: three samples with two components, two lags. -/
example (M₀ : Fin 2 → ℝ) : ∃ result : List (Fin 2 → Fin 2 → ℝ),
    @acmMachineGet ℝ (Fin 2) (roundedArith (nearest 53)) 1 (fun _ _ _ => 0) M₀ [![1, 2], ![3, 4], ![4, 4]] = .ok result ∧ result.length = 2 ∧
    ∀ r, result[1]? = some r → |r 0 1 - autoCov 1 [![1, 2], ![3, 4], ![4, 4]] 0 1| ≤ 2304 / 2 ^ 53 := by
  have hr := nearest_rounding 53 (by norm_num)
  have nat : ∀ n : Nat, n ≤ 4 → nearest 53 n = n := fun n hn => nearest_nat 53 (by norm_num) n (hn.trans (by norm_num))
  obtain ⟨result, h1, h2, h3⟩ := C92_error_partial hr (by positivity) 1 (fun _ _ _ => 0) (fun _ _ _ => rfl) M₀ [![1, 2], ![3, 4], ![4, 4]] (by simp)
    (by norm_num)
    (by
      have h1 := nat 1 (by norm_num); have h2 := nat 2 (by norm_num); have h3 := nat 3 (by norm_num); have h4 := nat 4 (by norm_num)
      push_cast at h1 h2 h3 h4
      intro x hx i
      simp only [List.mem_cons, List.not_mem_nil, or_false] at hx
      rcases hx with rfl | rfl | rfl <;> fin_cases i <;> simp [Machine, h1, h2, h3, h4])
    (fun n hn => nat n (by simp at hn; omega)) (fun _ => 4)
    (by
      intro x hx i
      simp only [List.mem_cons, List.not_mem_nil, or_false] at hx
      rcases hx with rfl | rfl | rfl <;> fin_cases i <;> simp <;> norm_num)
  refine ⟨result, h1, h2, fun r hr => ((h3 1 r hr 0 1).2 (by simp)).trans ?_⟩
  norm_num

end SampleFlow
