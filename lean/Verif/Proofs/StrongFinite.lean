import Verif.Proofs.StrongLaw
import Verif.Props.LargeNumbers

/-! The strong law for Metropolis-Hastings on finite sets. -/

namespace SampleFlow

open Spec MeasureTheory Ergodic StrongLaw

variable {S : Type}

theorem pathFrom_take (max : ℝ) (π : S → ℝ) (q : S → S → ℝ) (n : Nat) : ∀ (x : S) (l : List (Chance S)), pathFrom max π q x (l.take n) = (pathFrom max π q x l).take n := by
  induction n with
  | zero => intro x l; simp [pathFrom]
  | succ n ih =>
    intro x l
    cases l with
    | nil => simp [pathFrom]
    | cons d l => simp only [List.take_succ_cons, pathFrom, ih]

theorem samplesIssued_take {C : Type} (max : ℝ) (π : S → ℝ) (q : S → S → ℝ) (step : C → S × Aux XR → C) (c : C) (start : S) (script : List (Chance S)) (n : Nat) :
    samplesIssued max π q step c start (script.take n) = (samplesIssued max π q step c start script).take n := by
  rw [(scriptRun_eq max π q step c start _).1, (scriptRun_eq max π q step c start _).1, pathFrom_take]

variable [Fintype S]

theorem expectPath_take {P : S → S → ℝ} (h : Stochastic P) (n : Nat) : ∀ (N : Nat), n ≤ N → ∀ (g : List S → ℝ) (x : S),
    expectPath P N (fun l => g (l.take n)) x = expectPath P n g x := by
  induction n with
  | zero => intro N _ g x; simp only [List.take_zero, expectPath]; exact expectPath_const h N _ x
  | succ n ih =>
    intro N hN g x
    obtain ⟨M, rfl⟩ : ∃ M, N = M + 1 := ⟨N - 1, by omega⟩
    simp only [expectPath, List.take_succ_cons]
    refine Finset.sum_congr rfl (fun y _ => ?_)
    rw [ih M (by omega) (fun l => g (y :: l)) y]

theorem expectPath_sum {P : S → S → ℝ} (N : Nat) {κ : Type} [DecidableEq κ] (s : Finset κ) (g : κ → List S → ℝ) (x : S) :
    expectPath P N (fun l => ∑ k ∈ s, g k l) x = ∑ k ∈ s, expectPath P N (g k) x := by
  induction s using Finset.induction_on with
  | empty => 
    simp only [Finset.sum_empty]
    have := expectPath_mul (P := P) N 0 (fun _ => 0) x
    simpa using this
  | insert a s ha ih =>
    simp only [Finset.sum_insert ha]
    rw [expectPath_add, ih]

variable {max : ℝ} {π : S → ℝ} {q : S → S → ℝ}

/-- the strong law for averages of a function of the samples -/
theorem strong_finite (h : FiniteTarget max π q) (hc : Connected π q) (f : S → ℝ) :
    ∃ K : ℝ, 0 ≤ K ∧ ∀ (C : Type) (step : C → S × Aux XR → C) (c : C) (start : S) (N : Nat) (g : List (Chance S) → ℝ),
      (∀ script, 1 ≤ script.length → g script = ((samplesIssued max π q step c start script).map f).sum / script.length) →
      ∀ (ε : ℝ), 0 < ε → ∀ m, 1 ≤ m →
        probability max π q step c start N (fun script => ∃ n, m ≤ n ∧ n ≤ N ∧ ε ≤ |g (script.take n) - targetMean π f|) ≤ K / (ε ^ 2 * √m) := by
  classical
  obtain ⟨y0, hr⟩ := connected_transition h hc
  obtain ⟨K, hK⟩ := mean_square (stochastic_transition h) π h.nonzero
    (C42_stationary max π q h.nonneg h.proposals_nonneg h.proposals_total h.no_marker) y0 hr f
  have hS := stochastic_transition h
  set t := targetMean π f with ht
  have hK : ∀ (n : Nat) (x : S), 1 ≤ n → expectPath (transition max π q) n (fun l => (dev f t l / n) ^ 2) x ≤ K / n := by
    intro n x hn
    refine le_trans (le_of_eq (expectPath_congr n _ _ x (fun l hl => ?_))) (hK n x hn)
    rw [← dev_eq f t l n hl hn]; rfl
  have hK0 : 0 ≤ K := by
    have h1 := hK 1 y0 (le_refl 1)
    have h2 := expectPath_mono hS 1 (fun _ => 0) (fun l => (dev f t l / (1:ℕ)) ^ 2) y0 (fun l _ => by positivity)
    rw [expectPath_const hS] at h2
    have := h2.trans h1
    simpa using this
  set D := ∑ x, |f x - t| with hDdef
  have hD : ∀ x, |f x - t| ≤ D := fun x => Finset.single_le_sum (f := fun x => |f x - t|) (fun x _ => abs_nonneg _) (Finset.mem_univ x)
  have hD0 : 0 ≤ D := Finset.sum_nonneg (fun x _ => abs_nonneg _)
  refine ⟨16 * K + 8 * D ^ 2, by positivity, fun C step c start N g hg ε hε m hm => ?_⟩
  have hP : probability max π q step c start N (fun script => ∃ n, m ≤ n ∧ n ≤ N ∧ ε ≤ |g (script.take n) - t|) =
      expectPath (transition max π q) N (fun l => if ∃ n, m ≤ n ∧ n ≤ l.length ∧ ε ≤ |dev f t (l.take n) / n| then 1 else 0) start := by
    unfold probability
    refine expected_eq max π q step c start N _ _ (fun script hs => ?_)
    have hl := samplesIssued_length (max := max) (π := π) (q := q) step c start script
    refine if_congr ?_ rfl rfl
    constructor
    · rintro ⟨n, h1, h2, h3⟩
      refine ⟨n, h1, by omega, ?_⟩
      have hlt : (script.take n).length = n := by rw [List.length_take]; omega
      rw [hg _ (by omega), samplesIssued_take, hlt, dev_eq f t _ n (by rw [List.length_take]; omega) (by omega)] at h3
      exact h3
    · rintro ⟨n, h1, h2, h3⟩
      refine ⟨n, h1, by omega, ?_⟩
      have hlt : (script.take n).length = n := by rw [List.length_take]; omega
      rw [hg _ (by omega), samplesIssued_take, hlt, dev_eq f t _ n (by rw [List.length_take]; omega) (by omega)]
      exact h3
  rw [hP]
  refine bound D K ε hD0 hK0 hε m N hm _ ?_ ?_ ?_
  · refine (expectPath_mono hS N _ (fun _ => 1) start (fun l _ => ?_)).trans (le_of_eq (expectPath_const hS N 1 start))
    split <;> norm_num
  · intro hDε
    refine (expectPath_mono hS N _ (fun _ => 0) start (fun l _ => ?_)).trans (le_of_eq (expectPath_const hS N 0 start))
    rw [if_neg]
    rintro ⟨n, h1, h2, h3⟩
    have b := dev_bound f t D hD (l.take n)
    rw [List.length_take, min_eq_left h2] at b
    have hn0 : (0:ℝ) < n := by exact_mod_cast (by omega : 0 < n)
    rw [abs_div, abs_of_pos hn0, le_div_iff₀ hn0] at h3
    nlinarith
  · intro k₀ hk0 hkm hkD
    refine (expectPath_mono hS N _ (fun l => ∑ n ∈ Finset.Icc 1 N, if ∃ k, k₀ ≤ k ∧ k ^ 2 = n then 4 / ε ^ 2 * (dev f t (l.take n) / n) ^ 2 else 0) start (fun l hl => ?_)).trans ?_
    · split
      · rename_i hex
        have := indicator_le f t D hD hD0 l ε hε m k₀ hk0 hkm hkD hex
        rwa [hl] at this
      · refine Finset.sum_nonneg (fun n _ => ?_)
        split
        · positivity
        · exact le_refl _
    · rw [expectPath_sum]
      refine Finset.sum_le_sum (fun n hn => ?_)
      rw [Finset.mem_Icc] at hn
      split
      · rw [expectPath_take hS n N hn.2 (fun l => 4 / ε ^ 2 * (dev f t l / n) ^ 2) start, expectPath_mul]
        exact mul_le_mul_of_nonneg_left (hK n start hn.1) (by positivity)
      · rw [expectPath_const hS]

end SampleFlow
