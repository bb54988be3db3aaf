import Verif.Proofs.RoundingAuto
import Verif.Proofs.RoundingAutoExamples
import Mathlib.Data.Fin.VecNotation
import Mathlib.Tactic.FinCases

/-!
# C83: AutoCovarianceTrace in floating point arithmetic

For every arithmetic in which each operation returns the rounded exact result (`Spec.Rounding`, no overflow and underflow).
-/

namespace SampleFlow

open Spec RoundingAuto

variable {u : ℝ} {fl : ℝ → ℝ} {d : Nat}

/-- **C83**: without rounding, the machine program is the program of C25. -/
theorem C83_exact {K : Type} [Field K] [Star K] (maxLag : Nat) (M : Fin d → K) (xs : List (Fin d → K)) :
    @actMachineGet K (exactArith K) d maxLag M xs = (do let s ← actAfter maxLag M xs; s.get maxLag) :=
  get_exact maxLag M xs

/-- **C83**, partial: the computed autocovariance of `n` samples with `d` components of size at most `M` differs, for every lag, from the exact
one by at most `u d M² (8n + 25d + 100)`, as long as `u (n + d) ≤ 1/256`.  (The error is relative to the size of the samples, not to the
autocovariance.) -/
theorem C83_error_partial (h : Rounding u fl) (hu0 : 0 ≤ u) (maxLag : Nat) (M₀ : Fin d → ℝ) (xs : List (Fin d → ℝ)) (hne : xs ≠ [])
    (hun : u * ((xs.length : ℝ) + d) ≤ 1/256) (M : ℝ) (hx : ∀ x ∈ xs, ∀ i, Machine fl (x i)) (hM : ∀ x ∈ xs, ∀ i, |x i| ≤ M)
    (hcount : ∀ n : Nat, n ≤ xs.length → Machine fl n) :
    ∃ result : List ℝ, @actMachineGet ℝ (roundedArith fl) d maxLag M₀ xs = .ok result ∧ result.length = maxLag + 1 ∧
      ∀ (l : Nat) (r : ℝ), result[l]? = some r →
        (xs.length ≤ l + 1 → r = 0) ∧
        (l + 2 ≤ xs.length → |r - autoCovTrace l xs| ≤ u * (d * M ^ 2) * (8 * xs.length + 25 * d + 100)) := by
  let _ := roundedArith fl
  obtain ⟨lags, e1, -⟩ := state_rel h hu0 maxLag M₀ xs hne hun M hM hcount
  have key := fun (l : Nat) (hl : l ≤ maxLag) => getLag_error h hu0 maxLag l hl M₀ xs hne hun M hx hM hcount _ e1
  choose! f hf using key
  refine ⟨(List.range (maxLag+1)).map f, ?_, by simp, ?_⟩
  · unfold actMachineGet
    rw [e1]
    have : ∀ ls : List Nat, (∀ l ∈ ls, l ≤ maxLag) →
        ls.mapM (actMachineGetLag ⟨xs.length, (machineMean M₀ xs).mean, lags, xs.reverse.take (maxLag+1)⟩) = .ok (ls.map f) := by
      intro ls
      induction ls with
      | nil => intro _; rfl
      | cons a ls ih =>
        intro h
        rw [List.mapM_cons, (hf a (h a (by simp))).1, ih (fun l hl => h l (by simp [hl]))]
        rfl
    exact this _ (fun l hl => by rw [List.mem_range] at hl; omega)
  · intro l r hr
    rw [List.getElem?_map] at hr
    by_cases hl : l < maxLag + 1
    · rw [List.getElem?_range hl] at hr
      cases hr
      have := (hf l (by omega)).2
      rwa [show M ^ 2 = M * M by ring]
    · rw [List.getElem?_eq_none (by simp; omega)] at hr
      cases hr

/-- **C83**, violation: four equal samples, whose variance is zero, have the computed variance (lag 0) `-8`. -/
theorem C83_violation_negative (M₀ : Fin 1 → ℝ) :
    @actMachineGet ℝ (roundedArith (nearest 53)) 1 0 M₀ [fun _ => 134217733, fun _ => 134217733, fun _ => 134217733, fun _ => 134217733] =
      .ok [-8] ∧
    autoCovTrace 0 [fun _ : Fin 1 => (134217733 : ℝ), fun _ => 134217733, fun _ => 134217733, fun _ => 134217733] = 0 := by
  let _ := roundedArith (nearest 53)
  constructor
  · have h0 : actMachineConsume 0 (ACTState.init M₀) (fun _ => (134217733 : ℝ)) =
        .ok ⟨1, fun _ => 134217733, [(0, fun _ => 0)], [fun _ => 134217733]⟩ := by
      unfold actMachineConsume ACTState.init
      rw [if_pos rfl]
      have z : (Arith.ofNat 0 : ℝ) = 0 := by
        show nearest 53 ((0 : ℕ) : ℝ) = 0
        have := nearest_nat 53 (by norm_num) 0 (by norm_num)
        simpa using this
      simp [z]
    unfold actMachineGet actMachine
    simp only [List.foldlM_cons, List.foldlM_nil, h0, c_step1, c_step2, c_step3, bind, Except.bind, pure, Except.pure]
    show (List.range 1).mapM _ = _
    simp only [List.range_one, List.mapM_cons, List.mapM_nil, c_get, bind, Except.bind, pure, Except.pure]
  · simp [autoCovTrace, lagPairs, vmean, mean]
    try norm_num

/-- **C83**, violation: for the samples `2^27` and `2^27 + 1`, which differ by one, the computed variance is zero, although the exact one is `1/2` and
CovarianceMatrix computes it without any error. -/
theorem C83_violation_cancellation (M₀ : Fin 1 → ℝ) (C₀ : Fin 1 → Fin 1 → ℝ) :
    @actMachineGet ℝ (roundedArith (nearest 53)) 1 0 M₀ [fun _ => 134217728, fun _ => 134217729] = .ok [0] ∧
    autoCovTrace 0 [fun _ : Fin 1 => (134217728 : ℝ), fun _ => 134217729] = 1/2 ∧
    (@machineCov ℝ (Fin 1) (roundedArith (nearest 53)) M₀ C₀ (fun _ _ => 0) [fun _ => 134217728, fun _ => 134217729]).get 0 0 = 1/2 := by
  let _ := roundedArith (nearest 53)
  have z : (Arith.ofNat 0 : ℝ) = 0 := by
    show nearest 53 ((0 : ℕ) : ℝ) = 0
    have := nearest_nat 53 (by norm_num) 0 (by norm_num)
    simpa using this
  refine ⟨?_, ?_, ?_⟩
  · have h0 : actMachineConsume 0 (ACTState.init M₀) (fun _ => (134217728 : ℝ)) =
        .ok ⟨1, fun _ => 134217728, [(0, fun _ => 0)], [fun _ => 134217728]⟩ := by
      unfold actMachineConsume ACTState.init
      rw [if_pos rfl]
      simp [z]
    unfold actMachineGet actMachine
    simp only [List.foldlM_cons, List.foldlM_nil, h0, e_step1, bind, Except.bind, pure, Except.pure]
    show (List.range 1).mapM _ = _
    simp only [List.range_one, List.mapM_cons, List.mapM_nil, e_get, bind, Except.bind, pure, Except.pure]
  · simp [autoCovTrace, lagPairs, vmean, mean]
    try norm_num
  · have hr := nearest_rounding 53 (by norm_num)
    have n1 : nearest 53 ((1 : ℕ) : ℝ) = 1 := by rw [Nat.cast_one]; exact_mod_cast nearest_nat 53 (by norm_num) 1 (by norm_num)
    have n2 : nearest 53 ((2 : ℕ) : ℝ) = 2 := by rw [Nat.cast_ofNat]; exact_mod_cast nearest_nat 53 (by norm_num) 2 (by norm_num)
    have hh : nearest 53 (1 / 2) = 1 / 2 := nearest_eval _ _ 4503599627370496 (-53) (by norm_num) (by norm_num) (by norm_num) (by norm_num)
    show nearest 53 (0 + nearest 53 (nearest 53 (nearest 53 (nearest 53 (134217729 - 134217728) * nearest 53 (134217729 - 134217728)) / nearest 53 ((2 : ℕ) : ℝ))
      - nearest 53 (0 / nearest 53 (nearest 53 ((2 : ℕ) : ℝ) - nearest 53 ((1 : ℕ) : ℝ))))) = 1 / 2
    rw [show (134217729 : ℝ) - 134217728 = ((1 : ℕ) : ℝ) by norm_num, n1, n2, zero_div, hr.zero, sub_zero, zero_add, one_mul]
    have n1' : nearest 53 1 = 1 := by simpa using n1
    rw [n1', hh, hh, hh]

/-- The hypotheses are met by doubles: three samples with two components, two lags. -/
example (M₀ : Fin 2 → ℝ) : ∃ result : List ℝ,
    @actMachineGet ℝ (roundedArith (nearest 53)) 2 1 M₀ [![1, 2], ![3, 4], ![4, 4]] = .ok result ∧ result.length = 2 ∧
    ∀ r, result[1]? = some r → |r - autoCovTrace 1 [![1, 2], ![3, 4], ![4, 4]]| ≤ 5568 / 2 ^ 53 := by
  have hr := nearest_rounding 53 (by norm_num)
  have nat : ∀ n : Nat, n ≤ 4 → nearest 53 n = n := fun n hn => nearest_nat 53 (by norm_num) n (hn.trans (by norm_num))
  obtain ⟨result, h1, h2, h3⟩ := C83_error_partial hr (by positivity) 1 M₀ [![1, 2], ![3, 4], ![4, 4]] (by simp)
    (by norm_num) 4
    (by
      have h1 := nat 1 (by norm_num); have h2 := nat 2 (by norm_num); have h3 := nat 3 (by norm_num); have h4 := nat 4 (by norm_num)
      push_cast at h1 h2 h3 h4
      intro x hx i
      simp only [List.mem_cons, List.not_mem_nil, or_false] at hx
      rcases hx with rfl | rfl | rfl <;> fin_cases i <;> simp [Machine, h1, h2, h3, h4])
    (by
      intro x hx i
      simp only [List.mem_cons, List.not_mem_nil, or_false] at hx
      rcases hx with rfl | rfl | rfl <;> fin_cases i <;> simp <;> norm_num)
    (fun n hn => nat n (by simp at hn; omega))
  refine ⟨result, h1, h2, fun r hr => ((h3 1 r hr).2 (by simp)).trans ?_⟩
  norm_num

end SampleFlow
