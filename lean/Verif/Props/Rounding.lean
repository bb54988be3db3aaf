import Verif.Proofs.RoundingCov
import Verif.Proofs.Nearest
import Mathlib.Tactic.FinCases
import Mathlib.Data.Fin.VecNotation

/-!
# C63, C64: MeanValue and CovarianceMatrix in floating point arithmetic

For every arithmetic in which each operation returns the rounded exact result (`Spec.Rounding`, no overflow and underflow).
-/

namespace SampleFlow

open Spec

variable {ι : Type} {u : ℝ} {fl : ℝ → ℝ}

/-- **C63**: without rounding, the machine programs are the programs of C21 and C23. -/
theorem C63_exact {K : Type} [Field K] [Star K] (G : ι → K) (M : ι → K) (C₀ G' : ι → ι → K) (xs : List (ι → K)) :
    @machineMean K ι (exactArith K) G xs = meanAfter G xs ∧ @machineCov K ι (exactArith K) M C₀ G' xs = covAfter M C₀ G' xs :=
  ⟨machineMean_exact G xs, machineCov_exact M C₀ G' xs⟩

/-- **C63**: every component of the computed mean lies between the smallest and the largest sample value of that component, for any number of
samples the machine can count. -/
theorem C63_mean_in_range (h : Rounding u fl) (hu : u ≤ 1/4) (G : ι → ℝ) (xs : List (ι → ℝ)) (hne : xs ≠ [])
    (hx : ∀ x ∈ xs, ∀ i, Machine fl (x i)) (hcount : ∀ n : Nat, n ≤ xs.length → Machine fl n) (i : ι) (lo hi : ℝ)
    (hlo : ∀ x ∈ xs, lo ≤ x i) (hhi : ∀ x ∈ xs, x i ≤ hi) :
    lo ≤ (@machineMean ℝ ι (roundedArith fl) G xs).get i ∧ (@machineMean ℝ ι (roundedArith fl) G xs).get i ≤ hi := by
  obtain ⟨-, -, ⟨a, ha, h1⟩, ⟨b, hb, h2⟩⟩ := machineMean_inv h hu G xs hne hx hcount i
  exact ⟨(hlo a ha).trans h1, h2.trans (hhi b hb)⟩

/-- **C63**: if all samples agree in a component, the mean is exactly that value. -/
theorem C63_mean_constant (h : Rounding u fl) (hu : u ≤ 1/4) (G : ι → ℝ) (xs : List (ι → ℝ)) (hne : xs ≠ [])
    (hx : ∀ x ∈ xs, ∀ i, Machine fl (x i)) (hcount : ∀ n : Nat, n ≤ xs.length → Machine fl n) (i : ι) (c : ℝ)
    (hc : ∀ x ∈ xs, x i = c) : (@machineMean ℝ ι (roundedArith fl) G xs).get i = c := by
  obtain ⟨h1, h2⟩ := C63_mean_in_range h hu G xs hne hx hcount i c c (fun x hx => (hc x hx).ge) (fun x hx => (hc x hx).le)
  exact le_antisymm h2 h1

/-- **C63**: the computed mean of `n` samples of size at most `M` differs from the exact one by at most `u M ((n-1)/2 + 6)`. -/
theorem C63_mean_error (h : Rounding u fl) (hu0 : 0 ≤ u) (hu : u ≤ 1/4) (G : ι → ℝ) (xs : List (ι → ℝ)) (hne : xs ≠ []) (M : ℝ) (i : ι)
    (hx : ∀ x ∈ xs, ∀ i, Machine fl (x i)) (hM : ∀ x ∈ xs, |x i| ≤ M) (hcount : ∀ n : Nat, n ≤ xs.length → Machine fl n) :
    |(@machineMean ℝ ι (roundedArith fl) G xs).get i - vmean xs i| ≤ u * M * (((xs.length : ℝ) - 1) / 2 + 6) := by
  have hpos : 0 < xs.length := List.length_pos_iff.mpr hne
  have hN : (1:ℝ) ≤ xs.length := by exact_mod_cast hpos
  have e := machineMean_error h hu0 hu G xs hne M i hx hM hcount
  have hv : vmean xs i = (xs.map (fun x => x i)).sum / xs.length := by simp [vmean, mean]
  rw [hv]
  have hM0 : 0 ≤ M := by
    obtain ⟨x, hx⟩ := List.exists_mem_of_ne_nil xs hne
    exact (abs_nonneg _).trans (hM x hx)
  have huM : 0 ≤ u * M := mul_nonneg hu0 hM0
  refine le_of_mul_le_mul_left ((show _ ≤ _ from e).trans ?_) (by linarith : (0:ℝ) < xs.length)
  have : u * M * (((xs.length : ℝ) - 1) * xs.length / 2 + 6 * (xs.length - 1)) =
      xs.length * (u * M * ((xs.length - 1) / 2 + 6)) - 6 * (u * M) := by ring
  linarith

/-- **C63**: the computed variances are never negative, whatever the samples were and whatever the memory of the matrix contained. -/
theorem C63_variance_nonneg (h : Rounding u fl) (M : ι → ℝ) (C₀ G : ι → ι → ℝ) (xs : List (ι → ℝ)) (i : ι)
    (hcount : ∀ n : Nat, n ≤ xs.length → Machine fl n) (hlen : 2 ≤ xs.length) (hG : Machine fl (G i i)) :
    0 ≤ (@machineCov ℝ ι (roundedArith fl) M C₀ G xs).get i i :=
  machineCov_nonneg h M C₀ G xs i hcount hlen hG

/-- **C63**: the computed covariance matrix is exactly symmetric if the memory it is stored in was. -/
theorem C63_covariance_symmetric (fl : ℝ → ℝ) (M : ι → ℝ) (C₀ G : ι → ι → ℝ) (hC₀ : ∀ i j, C₀ i j = C₀ j i) (hG : ∀ i j, G i j = G j i)
    (xs : List (ι → ℝ)) (i j : ι) :
    (@machineCov ℝ ι (roundedArith fl) M C₀ G xs).get i j = (@machineCov ℝ ι (roundedArith fl) M C₀ G xs).get j i := by
  let _ := roundedArith fl
  show (machineCov M C₀ G xs).C i j = (machineCov M C₀ G xs).C j i
  induction xs using List.reverseRecOn with
  | nil => exact hC₀ i j
  | append_singleton xs x ih =>
    have hs : machineCov M C₀ G (xs ++ [x]) = covConsume G (machineCov M C₀ G xs) x := by simp [machineCov]
    rw [hs]
    unfold covConsume
    split
    · exact hG i j
    · show fl (_ + fl (fl (fl (_ * _) / _) - fl (_ / _))) = fl (_ + fl (fl (fl (_ * _) / _) - fl (_ / _)))
      rw [ih, mul_comm]
      rfl

/-- **C63**: if the memory of the matrix contained zeros, the covariances computed from `n` samples of size at most `M` differ from the exact ones
by at most `u M² (9n/2 + 60)`, as long as `n u ≤ 1/64` (`n < 1.4·10^14` for doubles). -/
theorem C63_covariance_error (h : Rounding u fl) (hu0 : 0 ≤ u) (M₀ : ι → ℝ) (C₀ G : ι → ι → ℝ) (xs : List (ι → ℝ)) (hlen : 2 ≤ xs.length)
    (M : ℝ) (i j : ι) (hG : G i j = 0) (hun : u * xs.length ≤ 1/64)
    (hx : ∀ x ∈ xs, ∀ i, Machine fl (x i)) (hMi : ∀ x ∈ xs, |x i| ≤ M) (hMj : ∀ x ∈ xs, |x j| ≤ M)
    (hcount : ∀ n : Nat, n ≤ xs.length → Machine fl n) :
    |(@machineCov ℝ ι (roundedArith fl) M₀ C₀ G xs).get i j - cov xs i j| ≤ u * M ^ 2 * (9 / 2 * xs.length + 60) := by
  have e := (machineCov_error h hu0 M₀ C₀ G xs (by rintro rfl; simp at hlen) M i j hG hun hx hMi hMj hcount).2
  have hN : (2:ℝ) ≤ xs.length := by exact_mod_cast hlen
  refine le_of_mul_le_mul_left ((show _ ≤ _ from e).trans (le_of_eq ?_)) (by linarith : (0:ℝ) < (xs.length : ℝ) - 1)
  ring

/-! ## The hypotheses are met by doubles -/

/-- Doubles rounded to nearest (with unlimited exponents): three samples of two components. -/
example (G : Fin 2 → ℝ) :
    |(@machineMean ℝ (Fin 2) (roundedArith (nearest 53)) G [![1, 2], ![3, 4], ![4, 4]]).get 0 - 8/3| ≤ 28 / 2 ^ 53 := by
  have hr := nearest_rounding 53 (by norm_num)
  have nat : ∀ n : Nat, n ≤ 4 → nearest 53 n = n := fun n hn => nearest_nat 53 (by norm_num) n (hn.trans (by norm_num))
  have := C63_mean_error hr (by positivity) (by norm_num) G [![1, 2], ![3, 4], ![4, 4]] (by simp) 4 0
    (by
      have h1 := nat 1 (by norm_num); have h2 := nat 2 (by norm_num); have h3 := nat 3 (by norm_num); have h4 := nat 4 (by norm_num)
      push_cast at h1 h2 h3 h4
      intro x hx i
      simp only [List.mem_cons, List.not_mem_nil, or_false] at hx
      rcases hx with rfl | rfl | rfl <;> fin_cases i <;> simp [Machine, h1, h2, h3, h4])
    (by
      intro x hx
      simp only [List.mem_cons, List.not_mem_nil, or_false] at hx
      rcases hx with rfl | rfl | rfl <;> simp <;> norm_num)
    (fun n hn => nat n (by simp at hn; omega))
  have hv : vmean [![(1:ℝ), 2], ![3, 4], ![4, 4]] 0 = 8/3 := by simp [vmean, mean]; norm_num
  rw [hv] at this
  refine this.trans ?_
  norm_num

/-! ## C64: uninitialised memory -/

/-- **C64**, partial: the result after two or more samples does not depend on what the memory contained, if the difference of the first product and
the content is a machine number (so always in exact arithmetic). -/
theorem C64_memory_irrelevant_partial (h : Rounding u fl) (M₀ : ι → ℝ) (C₀ C₀' G : ι → ι → ℝ) (x y : ι → ℝ) (rest : List (ι → ℝ)) (i j : ι)
    (h1 : Machine fl 1) (h2 : Machine fl 2) (hG : Machine fl (G i j))
    (hrep : Machine fl (fl (fl (fl (y i - x i) * fl (y j - x j)) / 2) - G i j)) :
    (@machineCov ℝ ι (roundedArith fl) M₀ C₀ G (x :: y :: rest)).get i j =
    (@machineCov ℝ ι (roundedArith fl) M₀ C₀' (fun _ _ => 0) (x :: y :: rest)).get i j := by
  let _ := roundedArith fl
  have base : ∀ (D : ι → ι → ℝ) (C : ι → ι → ℝ), (machineCov M₀ C D [x, y]).C i j =
      fl (D i j + fl (fl (fl (fl (y i - x i) * fl (y j - x j)) / fl ((2 : ℕ) : ℝ)) - fl (D i j / fl (fl ((2 : ℕ) : ℝ) - fl ((1 : ℕ) : ℝ))))) :=
    fun _ _ => rfl
  have n1 : fl ((1 : ℕ) : ℝ) = 1 := by rw [Nat.cast_one]; exact h1
  have n2 : fl ((2 : ℕ) : ℝ) = 2 := by rw [Nat.cast_ofNat]; exact h2
  have n3 : fl ((2 : ℝ) - 1) = 1 := by rw [show (2:ℝ) - 1 = 1 by norm_num]; exact h1
  have b1 : (machineCov M₀ C₀ G [x, y]).C i j = (machineCov M₀ C₀' (fun _ _ => 0) [x, y]).C i j := by
    rw [base, base, n1, n2, n3, div_one, hG, hrep, zero_div, h.zero, sub_zero, h.idempotent, zero_add, h.idempotent]
    rw [show G i j + (fl (fl (fl (y i - x i) * fl (y j - x j)) / 2) - G i j) = fl (fl (fl (y i - x i) * fl (y j - x j)) / 2) by ring,
      h.idempotent]
  have main : ∀ rest : List (ι → ℝ), (machineCov M₀ C₀ G (x :: y :: rest)).C i j = (machineCov M₀ C₀' (fun _ _ => 0) (x :: y :: rest)).C i j := by
    intro rest
    induction rest using List.reverseRecOn with
    | nil => exact b1
    | append_singleton rest z ih =>
      have hs : ∀ C D, machineCov M₀ C D (x :: y :: (rest ++ [z])) = covConsume D (machineCov M₀ C D (x :: y :: rest)) z := by
        intro C D; simp [machineCov]
      have hm : ∀ C D, (machineCov M₀ C D (x :: y :: rest)).mean = (machineMean M₀ (x :: y :: rest)).mean := fun C D => (machineCov_mean M₀ C D _).1
      have hn : ∀ C D, (machineCov M₀ C D (x :: y :: rest)).n = rest.length + 2 := fun C D => by rw [machineCov_n]; simp
      rw [hs, hs]
      unfold covConsume
      rw [if_neg (by rw [hn]; omega), if_neg (by rw [hn]; omega), hn, hn, hm, hm]
      show Arith.add _ (Arith.sub _ (Arith.div _ _)) = Arith.add _ (Arith.sub _ (Arith.div _ _))
      rw [ih]
  exact main rest

/-- **C64** is violated for doubles: from the samples 0 and 1 the variance 1/2 is computed if the memory contained 0, but 0 if it contained `2^60`. -/
theorem C64_violation_memory_visible :
    ∃ (fl : ℝ → ℝ) (G : Unit → Unit → ℝ), Rounding (2 ^ (-(53 : ℤ))) fl ∧ Machine fl (G () ()) ∧
      (@machineCov ℝ Unit (roundedArith fl) (fun _ => 0) (fun _ _ => 0) (fun _ _ => 0) [fun _ => 0, fun _ => 1]).get () () = 1/2 ∧
      (@machineCov ℝ Unit (roundedArith fl) (fun _ => 0) (fun _ _ => 0) G [fun _ => 0, fun _ => 1]).get () () = 0 ∧
      cov [fun _ : Unit => (0:ℝ), fun _ => 1] () () = 1/2 := by
  have hr := nearest_rounding 53 (by norm_num)
  have nat : ∀ n : Nat, n ≤ 2 → nearest 53 n = n := fun n hn => nearest_nat 53 (by norm_num) n (hn.trans (by norm_num))
  have n1 : nearest 53 1 = 1 := by simpa using nat 1 (by norm_num)
  have n2 : nearest 53 2 = 2 := by simpa using nat 2 (by norm_num)
  have nh : nearest 53 (1/2) = 1/2 := by
    have := nearest_rep 53 (by norm_num) 1 (by norm_num) (-1)
    norm_num at this ⊢; exact this
  have nbig : nearest 53 (2 ^ 60) = 2 ^ 60 := by
    have := nearest_rep 53 (by norm_num) 1 (by norm_num) 60
    simp only [Nat.cast_one, one_mul] at this
    exact_mod_cast this
  have nabs : nearest 53 (1/2 - 2 ^ 60) = - 2 ^ 60 := by
    rw [show (1:ℝ)/2 - 2 ^ 60 = -(2 ^ 60 - 1/2) by ring, hr.odd]
    congr 1
    have hlog : Int.log 2 ((2:ℝ) ^ 60 - 1/2) = 59 := by
      have hpos : (0:ℝ) < 2 ^ 60 - 1/2 := by norm_num
      refine le_antisymm ?_ ?_
      · have : Int.log 2 ((2:ℝ) ^ 60 - 1/2) < 60 := by
          rw [← Int.lt_zpow_iff_log_lt (by norm_num) hpos]; norm_num
        omega
      · rw [← Int.zpow_le_iff_le_log (by norm_num) hpos]; norm_num
    unfold nearest
    rw [if_pos (by norm_num)]
    unfold roundPos ulp
    rw [hlog]
    have : roundInt (((2:ℝ) ^ 60 - 1/2) / 2 ^ ((59:ℤ) - (53:ℕ) + 1)) = 2 ^ 53 := by
      apply roundInt_eq <;> norm_num
    rw [this]; norm_num
  refine ⟨nearest 53, fun _ _ => 2 ^ 60, hr, nbig, ?_, ?_, ?_⟩
  · show nearest 53 (0 + nearest 53 (nearest 53 (nearest 53 (nearest 53 (1 - 0) * nearest 53 (1 - 0)) / nearest 53 ((2 : ℕ) : ℝ)) -
      nearest 53 (0 / nearest 53 (nearest 53 ((2 : ℕ) : ℝ) - nearest 53 ((1 : ℕ) : ℝ))))) = 1/2
    rw [nat 2 (by norm_num), nat 1 (by norm_num)]
    simp only [sub_zero, n1, mul_one, zero_div, hr.zero, zero_add, Nat.cast_ofNat, nh]
  · show nearest 53 (2 ^ 60 + nearest 53 (nearest 53 (nearest 53 (nearest 53 (1 - 0) * nearest 53 (1 - 0)) / nearest 53 ((2 : ℕ) : ℝ)) -
      nearest 53 (2 ^ 60 / nearest 53 (nearest 53 ((2 : ℕ) : ℝ) - nearest 53 ((1 : ℕ) : ℝ))))) = 0
    rw [nat 2 (by norm_num), nat 1 (by norm_num)]
    have : nearest 53 (((2:ℕ) : ℝ) - ((1 : ℕ) : ℝ)) = 1 := by
      rw [show ((2:ℕ) : ℝ) - ((1 : ℕ) : ℝ) = 1 by norm_num]; exact n1
    rw [this, div_one, nbig]
    simp only [sub_zero, n1, mul_one, Nat.cast_ofNat, nh, nabs]
    rw [add_neg_cancel, hr.zero]
  · simp [cov, vmean, mean]; norm_num

/-- **C64** is violated for every floating point type with NaN: if the memory contained a NaN, that entry of the covariance matrix is NaN for ever. -/
theorem C64_violation_nan {D : Type} [Arith D] (nan : D → Prop) (hadd : ∀ a b, nan a → nan (Arith.add a b))
    (M : ι → D) (C₀ G : ι → ι → D) (xs : List (ι → D)) (hne : xs ≠ []) (i j : ι) (hG : nan (G i j)) :
    nan ((machineCov M C₀ G xs).get i j) := by
  show nan ((machineCov M C₀ G xs).C i j)
  induction xs using List.reverseRecOn with
  | nil => exact absurd rfl hne
  | append_singleton xs x ih =>
    have hs : machineCov M C₀ G (xs ++ [x]) = covConsume G (machineCov M C₀ G xs) x := by simp [machineCov]
    rw [hs]
    by_cases h0 : xs = []
    · subst h0; exact hG
    · unfold covConsume
      split
      · exact hG
      · exact hadd _ _ (ih h0)

/-- Non-vacuity: `none` as NaN. -/
example : let _ : Arith (Option ℝ) := ⟨Option.map₂ (· + ·), Option.map₂ (· - ·), Option.map₂ (· * ·), Option.map₂ (· / ·), fun n => some n, id⟩
    (machineCov (ι := Unit) (fun _ => some 0) (fun _ _ => some 0) (fun _ _ => none) [fun _ => some 0, fun _ => some 1, fun _ => some (2:ℝ)]).get () () = none := by
  intro _
  exact C64_violation_nan (fun a => a = none) (by rintro _ b rfl; rfl) _ _ _ _ (by simp) _ _ rfl

/-! ### Instances: concrete cases that meet the hypotheses of the theorems above -/

section
theorem exampleMachine (n : Nat) (hn : n ≤ 4) : Machine (nearest 53) n := nearest_nat 53 (by norm_num) n (hn.trans (by norm_num))

theorem exampleSamples_machine : ∀ x ∈ ([![1, 2], ![3, 4], ![4, 4]] : List (Fin 2 → ℝ)), ∀ i, Machine (nearest 53) (x i) := by
  have h1 := exampleMachine 1 (by norm_num); have h2 := exampleMachine 2 (by norm_num); have h3 := exampleMachine 3 (by norm_num); have h4 := exampleMachine 4 (by norm_num)
  push_cast [Machine] at h1 h2 h3 h4
  intro x hx i
  simp only [List.mem_cons, List.not_mem_nil, or_false] at hx
  rcases hx with rfl | rfl | rfl <;> fin_cases i <;> simp [Machine, h1, h2, h3, h4]

theorem exampleSamples_bounded (i : Fin 2) : ∀ x ∈ ([![1, 2], ![3, 4], ![4, 4]] : List (Fin 2 → ℝ)), 1 ≤ x i ∧ x i ≤ 4 ∧ |x i| ≤ 4 := by
  intro x hx
  simp only [List.mem_cons, List.not_mem_nil, or_false] at hx
  rcases hx with rfl | rfl | rfl <;> fin_cases i <;> simp <;> norm_num

example (G : Fin 2 → ℝ) (i : Fin 2) := C63_mean_in_range (nearest_rounding 53 (by norm_num)) (by norm_num) G [![1, 2], ![3, 4], ![4, 4]] (by simp) exampleSamples_machine
  (fun n hn => exampleMachine n (hn.trans (by norm_num))) i 1 4 (fun x hx => (exampleSamples_bounded i x hx).1) (fun x hx => (exampleSamples_bounded i x hx).2.1)
example (G : Unit → ℝ) := C63_mean_constant (nearest_rounding 53 (by norm_num)) (by norm_num) G [fun _ => 3, fun _ => 3, fun _ => 3] (by simp)
  (fun x hx i => by
    have h3 := exampleMachine 3 (by norm_num)
    have e : x i = 3 := by simp at hx; rw [hx]
    rw [e]; exact_mod_cast h3)
  (fun n hn => exampleMachine n (hn.trans (by norm_num))) () 3 (fun x hx => by simp at hx; rw [hx])
example (M : Fin 2 → ℝ) (C₀ : Fin 2 → Fin 2 → ℝ) (i : Fin 2) := C63_variance_nonneg (nearest_rounding 53 (by norm_num)) M C₀ (fun _ _ => 3) [![1, 2], ![3, 4], ![4, 4]] i
  (fun n hn => exampleMachine n (hn.trans (by norm_num))) (by norm_num) (by exact_mod_cast exampleMachine 3 (by norm_num))
example := C63_covariance_symmetric (nearest 53) (fun _ : Fin 2 => 0) (fun _ _ => 5) (fun _ _ => 6) (fun _ _ => rfl) (fun _ _ => rfl) [![1, 2], ![3, 4], ![4, 4]] 0 1
example (M : Fin 2 → ℝ) (C₀ : Fin 2 → Fin 2 → ℝ) (i j : Fin 2) := C63_covariance_error (nearest_rounding 53 (by norm_num)) (by positivity) M C₀ (fun _ _ => 0) [![1, 2], ![3, 4], ![4, 4]] (by norm_num) 4 i j
  rfl (by norm_num) exampleSamples_machine (fun x hx => (exampleSamples_bounded i x hx).2.2) (fun x hx => (exampleSamples_bounded j x hx).2.2)
  (fun n hn => exampleMachine n (hn.trans (by norm_num)))
end

end SampleFlow
