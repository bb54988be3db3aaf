import Verif.Proofs.StrongFinite

/-! The strong law for the averages along a path of a Markov chain on a finite set. -/

namespace SampleFlow

open Spec MeasureTheory Ergodic StrongLaw

variable {S : Type} [Fintype S]

theorem strong_path {P : S → S → ℝ} (hS : Stochastic P) (μ : S → ℝ) (hμ : 0 < ∑ x, μ x) (hst : ∀ y, ∑ x, μ x * P x y = μ y) (y0 : S)
    (hr : ∀ x, Relation.ReflTransGen (fun a b => 0 < P a b) x y0) (f : S → ℝ) :
    ∃ K : ℝ, 0 ≤ K ∧ ∀ (start : S) (N : Nat) (ε : ℝ), 0 < ε → ∀ m, 1 ≤ m → ∀ (A : List S → Prop) [DecidablePred A],
        (∀ l, A l → ∃ n, m ≤ n ∧ n ≤ l.length ∧ ε ≤ |dev f ((∑ x, μ x * f x) / ∑ x, μ x) (l.take n) / n|) →
        expectPath P N (fun l => if A l then 1 else 0) start ≤ K / (ε ^ 2 * √m) := by
  classical
  obtain ⟨K, hK⟩ := mean_square hS μ hμ hst y0 hr f
  set t := (∑ x, μ x * f x) / ∑ x, μ x with ht
  have hK : ∀ (n : Nat) (x : S), 1 ≤ n → expectPath P n (fun l => (dev f t l / n) ^ 2) x ≤ K / n := by
    intro n x hn
    refine le_trans (le_of_eq (expectPath_congr n _ _ x (fun l hl => ?_))) (hK n x hn)
    rw [← dev_eq f t l n hl hn]
  have hK0 : 0 ≤ K := by
    have h1 := hK 1 y0 (le_refl 1)
    have h2 := expectPath_mono hS 1 (fun _ => 0) (fun l => (dev f t l / (1:ℕ)) ^ 2) y0 (fun l _ => by positivity)
    rw [expectPath_const hS] at h2
    have := h2.trans h1
    simpa using this
  set D := ∑ x, |f x - t| with hDdef
  have hD : ∀ x, |f x - t| ≤ D := fun x => Finset.single_le_sum (f := fun x => |f x - t|) (fun x _ => abs_nonneg _) (Finset.mem_univ x)
  have hD0 : 0 ≤ D := Finset.sum_nonneg (fun x _ => abs_nonneg _)
  refine ⟨16 * K + 8 * D ^ 2, by positivity, fun start N ε hε m hm A _ hA => ?_⟩
  refine (expectPath_mono hS N _ (fun l => if ∃ n, m ≤ n ∧ n ≤ l.length ∧ ε ≤ |dev f t (l.take n) / n| then 1 else 0) start (fun l _ => ?_)).trans ?_
  · by_cases h1 : A l
    · rw [if_pos h1, if_pos (hA l h1)]
    · rw [if_neg h1]; split <;> norm_num
  refine bound D K ε hD0 hK0 hε m N hm _ ?_ ?_ ?_
  · refine (expectPath_mono hS N _ (fun _ => 1) start (fun l _ => ?_)).trans (le_of_eq (expectPath_const hS N 1 start))
    split <;> norm_num
  · intro hDε
    refine (expectPath_mono hS N _ (fun _ => 0) start (fun l _ => ?_)).trans (le_of_eq (expectPath_const hS N 0 start))
    rw [if_neg]
    rintro ⟨n, h1, h2, h3⟩
    have b := dev_bound f t D hD (l.take n)
    rw [List.length_take, min_eq_left h2] at b
    have hn0 : (0:ℝ) < n := by exact_mod_cast (by omega : 0 < n)
    rw [abs_div, abs_of_pos hn0, le_div_iff₀ hn0] at h3
    nlinarith
  · intro k₀ hk0 hkm hkD
    refine (expectPath_mono hS N _ (fun l => ∑ n ∈ Finset.Icc 1 N, if ∃ k, k₀ ≤ k ∧ k ^ 2 = n then 4 / ε ^ 2 * (dev f t (l.take n) / n) ^ 2 else 0) start (fun l hl => ?_)).trans ?_
    · split
      · rename_i hex
        have := indicator_le f t D hD hD0 l ε hε m k₀ hk0 hkm hkD hex
        rwa [hl] at this
      · refine Finset.sum_nonneg (fun n _ => ?_)
        split
        · positivity
        · exact le_refl _
    · rw [expectPath_sum]
      refine Finset.sum_le_sum (fun n hn => ?_)
      rw [Finset.mem_Icc] at hn
      split
      · rw [expectPath_take hS n N hn.2 (fun l => 4 / ε ^ 2 * (dev f t l / n) ^ 2) start, expectPath_mul]
        exact mul_le_mul_of_nonneg_left (hK n start hn.1) (by positivity)
      · rw [expectPath_const hS]

end SampleFlow
