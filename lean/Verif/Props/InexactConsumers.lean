import Verif.Props.InexactExamples
import Verif.Props.Rounding

/-!
# Property C95, continued: rounding errors in the sampler and in the consumers
-/

namespace SampleFlow

open Spec MeasureTheory Ergodic StrongLaw

variable {S : Type} [Fintype S] {max : ℝ} {π : S → ℝ} {q : S → S → ℝ}

/-- A `MeanValue` in floating-point arithmetic with rounding `fl`, connected to the sampler through a `Conversion` filter that applies `f`. -/
noncomputable def Spec.Computer.roundedMeanStep {S D ι : Type} (fl : ℝ → ℝ) (f : S → ι → ℝ) (s : MeanState (ι → ℝ)) (m : S × Aux D) : MeanState (ι → ℝ) :=
  @meanConsume ℝ ι (roundedArith fl) s (f m.1)

/-- A `CovarianceMatrix` in floating-point arithmetic with rounding `fl`, connected to the sampler through a `Conversion` filter that applies `f`; `G` is uninitialised memory. -/
noncomputable def Spec.Computer.roundedCovarianceStep {S D ι : Type} (fl : ℝ → ℝ) (f : S → ι → ℝ) (G : ι → ι → ℝ) (s : CovState ℝ ι) (m : S × Aux D) : CovState ℝ ι :=
  @covConsume ℝ ι (roundedArith fl) G s (f m.1)

namespace Inexact

omit [Fintype S] in
theorem roundedMeanState {D ι : Type} (M : Computer S D) (fl : ℝ → ℝ) (f : S → ι → ℝ) (G : ι → ℝ) (start : S) (script : List M.Chance) :
    M.consumerState (Computer.roundedMeanStep fl f) (MeanState.init G) start script =
      @machineMean ℝ ι (roundedArith fl) G ((M.samplesIssued (Computer.roundedMeanStep fl f) (MeanState.init G) start script).map f) := by
  rw [consumerState_eq, Computer.samplesIssued]; unfold machineMean; rw [List.foldl_map, List.foldl_map]
  rfl

omit [Fintype S] in
theorem roundedCovState {D ι : Type} (M : Computer S D) (fl : ℝ → ℝ) (f : S → ι → ℝ) (M₀ : ι → ℝ) (C₀ G : ι → ι → ℝ) (start : S) (script : List M.Chance) :
    M.consumerState (Computer.roundedCovarianceStep fl f G) (CovState.init M₀ C₀) start script =
      @machineCov ℝ ι (roundedArith fl) M₀ C₀ G ((M.samplesIssued (Computer.roundedCovarianceStep fl f G) (CovState.init M₀ C₀) start script).map f) := by
  rw [consumerState_eq, Computer.samplesIssued]; unfold machineCov; rw [List.foldl_map, List.foldl_map]
  rfl

omit [Fintype S] in
/-- the rounding error of the mean of samples -/
theorem mean_close {u : ℝ} {fl : ℝ → ℝ} (hfl : Rounding u fl) (hu0 : 0 ≤ u) (hu : u ≤ 1 / 4) {ι : Type} (f : S → ι → ℝ) (i : ι) (B : ℝ) (hm : ∀ x i, Machine fl (f x i)) (hB : ∀ x, |f x i| ≤ B) (G : ι → ℝ)
    (l : List S) (hl : 1 ≤ l.length) (hcount : ∀ n : Nat, n ≤ l.length → Machine fl n) :
    |(@machineMean ℝ ι (roundedArith fl) G (l.map f)).get i - (l.map (fun x => f x i)).sum / l.length| ≤ u * B * (((l.length : ℝ) - 1) / 2 + 6) := by
  have h := C63_mean_error hfl hu0 hu G (l.map f) (by intro h; rw [List.map_eq_nil_iff] at h; subst h; simp at hl) B i
    (by intro x hx; obtain ⟨y, -, rfl⟩ := List.mem_map.mp hx; exact hm y)
    (by intro x hx; obtain ⟨y, -, rfl⟩ := List.mem_map.mp hx; exact hB y) (by simpa using hcount)
  rw [List.length_map] at h
  have e : vmean (l.map f) i = (l.map (fun x => f x i)).sum / l.length := by simp [vmean, mean, Function.comp_def]
  rwa [e] at h

end Inexact

/-- **C95** (everything in floating point): rounding errors and finite resolution in the sampler (acceptance probabilities wrong by at most `ε`) and rounding errors in `MeanValue` (unit roundoff `u`), for values of size at most `B`
that are machine numbers, and as many samples as the machine can count: the mean square error after `n` samples is at most `K/n + K ε² + 2 (u B ((n-1)/2 + 6))²`. -/
theorem C95_rounded_mean {ι : Type} (h : FiniteTarget max π q) (hc : Connected π q) (f : S → ι → ℝ) (G : ι → ℝ) (i : ι) (B : ℝ) (hB : ∀ x, |f x i| ≤ B) :
    ∃ K : ℝ, ∀ (D : Type) (M : Computer S D) (ε u : ℝ) (fl : ℝ → ℝ), M.Accurate max π q ε → Rounding u fl → 0 ≤ u → u ≤ 1 / 4 → (∀ x i, Machine fl (f x i)) →
      ∀ (n : Nat) (start : S), 1 ≤ n → (∀ m : Nat, m ≤ n → Machine fl m) →
      M.expected (Computer.roundedMeanStep fl f) (MeanState.init G) start q n (fun script =>
        ((M.consumerState (Computer.roundedMeanStep fl f) (MeanState.init G) start script).get i - targetMean π (fun x => f x i)) ^ 2) ≤
          K / n + K * ε ^ 2 + 2 * (u * B * (((n : ℝ) - 1) / 2 + 6)) ^ 2 := by
  obtain ⟨K, hK0, hK⟩ := Inexact.averages h hc (fun x => f x i)
  refine ⟨2 * K, fun D M ε u fl hM hfl hu0 hu hm n start hn hcount => ?_⟩
  obtain ⟨hS, h1, -⟩ := hK D M ε hM
  rw [Inexact.expected_eq M q _ _ start n _ (fun l => ((@machineMean ℝ ι (roundedArith fl) G (l.map f)).get i - targetMean π (fun x => f x i)) ^ 2)
    (fun script hs => by rw [Inexact.roundedMeanState])]
  refine (expectPath_mono hS n _ (fun l => 2 * ((l.map (fun x => f x i)).sum / n - targetMean π (fun x => f x i)) ^ 2 + 2 * (u * B * (((n : ℝ) - 1) / 2 + 6)) ^ 2) start (fun l hl => ?_)).trans ?_
  · have := Inexact.mean_close hfl hu0 hu f i B hm hB G l (by omega) (by rw [hl]; exact hcount)
    rw [hl] at this
    generalize (@machineMean ℝ ι (roundedArith fl) G (l.map f)).get i = a at *
    generalize (l.map (fun x => f x i)).sum / (n : ℝ) = b at *
    generalize targetMean π (fun x => f x i) = c at *
    generalize u * B * (((n : ℝ) - 1) / 2 + 6) = d at *
    have h2 : (a - b) ^ 2 ≤ d ^ 2 := by
      rw [← sq_abs (a - b)]
      exact pow_le_pow_left₀ (abs_nonneg _) this 2
    nlinarith [sq_nonneg ((a - b) - (b - c))]
  · rw [expectPath_add, expectPath_mul, expectPath_const hS]
    have := h1 n start hn
    have e : 2 * K / n + 2 * K * ε ^ 2 = 2 * (K / n + K * ε ^ 2) := by ring
    rw [e]
    linarith

/-- **C95** (everything in floating point, at all times): the probability that `MeanValue::get()` is wrong by `K ε + e + u B ((n-1)/2 + 6)` or more at any time `n` between `m` and `N` is at most `K/(e²√m)`. -/
theorem C95_rounded_mean_strong {ι : Type} (h : FiniteTarget max π q) (hc : Connected π q) (f : S → ι → ℝ) (G : ι → ℝ) (i : ι) (B : ℝ) (hB : ∀ x, |f x i| ≤ B) :
    ∃ K : ℝ, ∀ (D : Type) (M : Computer S D) (ε u : ℝ) (fl : ℝ → ℝ), M.Accurate max π q ε → Rounding u fl → 0 ≤ u → u ≤ 1 / 4 → (∀ x i, Machine fl (f x i)) →
      ∀ (start : S) (e : ℝ), 0 < e → ∀ m, 1 ≤ m → ∀ N : Nat, (∀ m : Nat, m ≤ N → Machine fl m) →
      M.probability (Computer.roundedMeanStep fl f) (MeanState.init G) start q N (fun script => ∃ n, m ≤ n ∧ n ≤ N ∧
        K * ε + e + u * B * (((n : ℝ) - 1) / 2 + 6) ≤
          |(M.consumerState (Computer.roundedMeanStep fl f) (MeanState.init G) start (script.take n)).get i - targetMean π (fun x => f x i)|) ≤ K / (e ^ 2 * √m) := by
  classical
  obtain ⟨K, hK0, hK⟩ := Inexact.averages h hc (fun x => f x i)
  refine ⟨K, fun D M ε u fl hM hfl hu0 hu hm start e he m hm1 N hcount => ?_⟩
  obtain ⟨hS, -, h2⟩ := hK D M ε hM
  unfold Computer.probability
  rw [Inexact.expected_eq M q _ _ start N _ (fun l => if ∃ n, m ≤ n ∧ n ≤ N ∧ K * ε + e + u * B * (((n : ℝ) - 1) / 2 + 6) ≤
      |(@machineMean ℝ ι (roundedArith fl) G ((l.take n).map f)).get i - targetMean π (fun x => f x i)| then 1 else 0) (fun script hs => ?_)]
  · refine (expectPath_mono hS N _ _ start (fun l hl => ?_)).trans (h2 start N e he m hm1)
    by_cases hx : ∃ n, m ≤ n ∧ n ≤ N ∧ K * ε + e + u * B * (((n : ℝ) - 1) / 2 + 6) ≤
      |(@machineMean ℝ ι (roundedArith fl) G ((l.take n).map f)).get i - targetMean π (fun x => f x i)|
    · rw [if_pos hx]
      obtain ⟨n, a1, a2, a3⟩ := hx
      rw [if_pos]
      refine ⟨n, a1, by omega, ?_⟩
      have hlt : (l.take n).length = n := by rw [List.length_take]; omega
      have := Inexact.mean_close hfl hu0 hu f i B hm hB G (l.take n) (by omega) (by rw [hlt]; exact fun k hk => hcount k (hk.trans a2))
      rw [hlt] at this
      have h3 := abs_sub_le ((@machineMean ℝ ι (roundedArith fl) G ((l.take n).map f)).get i) (((l.take n).map (fun x => f x i)).sum / n) (targetMean π (fun x => f x i))
      linarith
    · rw [if_neg hx]; split <;> norm_num
  · refine if_congr ?_ rfl rfl
    refine exists_congr (fun n => and_congr_right (fun h1 => and_congr_right (fun h2 => ?_)))
    rw [Inexact.roundedMeanState, Inexact.samples_take]

/-- **C95** (everything in floating point, CovarianceMatrix): if the memory of the matrix contained zero, and `n u ≤ 1/64`. -/
theorem C95_rounded_covariance {ι : Type} (h : FiniteTarget max π q) (hc : Connected π q) (f : S → ι → ℝ) (M₀ : ι → ℝ) (C₀ G : ι → ι → ℝ) (i j : ι) (B : ℝ) (hBi : ∀ x, |f x i| ≤ B) (hBj : ∀ x, |f x j| ≤ B) (hG : G i j = 0) :
    ∃ K : ℝ, ∀ (D : Type) (M : Computer S D) (ε u : ℝ) (fl : ℝ → ℝ), M.Accurate max π q ε → Rounding u fl → 0 ≤ u → (∀ x i, Machine fl (f x i)) →
      ∀ (n : Nat) (start : S), 2 ≤ n → u * n ≤ 1 / 64 → (∀ m : Nat, m ≤ n → Machine fl m) →
      M.expected (Computer.roundedCovarianceStep fl f G) (CovState.init M₀ C₀) start q n (fun script =>
        ((M.consumerState (Computer.roundedCovarianceStep fl f G) (CovState.init M₀ C₀) start script).get i j - targetCovariance π (fun x => f x i) (fun x => f x j)) ^ 2) ≤
          K / n + K * ε ^ 2 + 2 * (u * B ^ 2 * (9 / 2 * n + 60)) ^ 2 := by
  obtain ⟨K, hK⟩ := C95_covariance h hc f M₀ C₀ G i j
  obtain ⟨K1, -, hK1⟩ := Inexact.averages h hc (fun x => f x i)
  refine ⟨2 * K, fun D M ε u fl hM hfl hu0 hm n start hn hun hcount => ?_⟩
  obtain ⟨hS, -, -⟩ := hK1 D M ε hM
  have h1 := hK D M ε hM n start hn
  rw [Inexact.expected_eq M q _ _ start n _ (fun l => ((covAfter M₀ C₀ G (l.map f)).get i j - targetCovariance π (fun x => f x i) (fun x => f x j)) ^ 2)
    (fun script hs => by
      congr 2
      rw [Inexact.consumerState_eq, Computer.samplesIssued, covAfter, List.foldl_map, List.foldl_map]
      rfl)] at h1
  rw [Inexact.expected_eq M q _ _ start n _ (fun l => ((@machineCov ℝ ι (roundedArith fl) M₀ C₀ G (l.map f)).get i j - targetCovariance π (fun x => f x i) (fun x => f x j)) ^ 2)
    (fun script hs => by rw [Inexact.roundedCovState])]
  refine (expectPath_mono hS n _ (fun l => 2 * ((covAfter M₀ C₀ G (l.map f)).get i j - targetCovariance π (fun x => f x i) (fun x => f x j)) ^ 2 + 2 * (u * B ^ 2 * (9 / 2 * n + 60)) ^ 2) start (fun l hl => ?_)).trans ?_
  · have := C63_covariance_error hfl hu0 M₀ C₀ G (l.map f) (by rw [List.length_map, hl]; exact hn) B i j hG (by rw [List.length_map, hl]; exact hun)
      (by intro x hx; obtain ⟨y, -, rfl⟩ := List.mem_map.mp hx; exact hm y)
      (by intro x hx; obtain ⟨y, -, rfl⟩ := List.mem_map.mp hx; exact hBi y)
      (by intro x hx; obtain ⟨y, -, rfl⟩ := List.mem_map.mp hx; exact hBj y) (by rw [List.length_map, hl]; exact hcount)
    rw [List.length_map, hl, ← show (covAfter M₀ C₀ G (l.map f)).get i j = cov (l.map f) i j from by
      rw [C23_covariance M₀ C₀ G _ (by rw [List.length_map, hl]; exact hn) i j]; simp [cov]] at this
    generalize (@machineCov ℝ ι (roundedArith fl) M₀ C₀ G (l.map f)).get i j = a at *
    generalize (covAfter M₀ C₀ G (l.map f)).get i j = b at *
    generalize targetCovariance π (fun x => f x i) (fun x => f x j) = c at *
    generalize u * B ^ 2 * (9 / 2 * (n : ℝ) + 60) = d at *
    have h2 : (a - b) ^ 2 ≤ d ^ 2 := by
      rw [← sq_abs (a - b)]
      exact pow_le_pow_left₀ (abs_nonneg _) this 2
    nlinarith [sq_nonneg ((a - b) - (b - c))]
  · rw [expectPath_add, expectPath_mul, expectPath_const hS]
    have e : 2 * K / n + 2 * K * ε ^ 2 = 2 * (K / n + K * ε ^ 2) := by ring
    rw [e]
    linarith

/-! ### Instances: concrete cases that meet the hypotheses of the theorems above -/

theorem example_values : ∀ x : Fin 3, |(x.val : ℝ)| ≤ 2 := by
  intro x; fin_cases x <;> norm_num

/-- The machine of `double_example`, a `MeanValue` in doubles, a million samples. -/
example : ∃ K : ℝ, (Inexact.double 1000 (fun x : Fin 3 => if x = 0 then 0 else if x = 1 then 1 else 2)
    (fun x y : Fin 3 => if x = y then 0 else if (x = 0 ∧ y = 1) ∨ (x = 1 ∧ y = 2) ∨ (x = 2 ∧ y = 0) then 1/4 else 3/4)).expected
      (Computer.roundedMeanStep (nearest 53) (fun x (_ : Unit) => (x.val : ℝ))) (MeanState.init (fun _ => 5)) 0
      (fun x y : Fin 3 => if x = y then 0 else if (x = 0 ∧ y = 1) ∨ (x = 1 ∧ y = 2) ∨ (x = 2 ∧ y = 0) then 1/4 else 3/4) 1000000 (fun script =>
        (((Inexact.double 1000 (fun x : Fin 3 => if x = 0 then 0 else if x = 1 then 1 else 2)
    (fun x y : Fin 3 => if x = y then 0 else if (x = 0 ∧ y = 1) ∨ (x = 1 ∧ y = 2) ∨ (x = 2 ∧ y = 0) then 1/4 else 3/4)).consumerState
      (Computer.roundedMeanStep (nearest 53) (fun x (_ : Unit) => (x.val : ℝ))) (MeanState.init (fun _ => 5)) 0 script).get () -
        targetMean (fun x : Fin 3 => if x = 0 then (0:ℝ) else if x = 1 then 1 else 2) (fun x => (x.val : ℝ))) ^ 2) ≤ K := by
  obtain ⟨K, hK⟩ := C95_rounded_mean exampleTarget exampleConnected (fun x (_ : Unit) => (x.val : ℝ)) (fun _ => 5) () 2 example_values
  exact ⟨_, hK XR _ _ _ _ (C95_accuracy exampleTarget _ _ _ _ (by rw [zpow_neg]; norm_num) (by norm_num) (by positivity) double_example)
    (nearest_rounding 53 (by norm_num)) (by positivity) (by rw [zpow_neg]; norm_num)
    (fun x _ => nearest_nat 53 (by norm_num) x.val (by have := x.isLt; omega)) 1000000 0 (by norm_num)
    (fun m hm => nearest_nat 53 (by norm_num) m (hm.trans (by norm_num)))⟩

example := C95_rounded_mean_strong exampleTarget exampleConnected (fun x (_ : Unit) => (x.val : ℝ)) (fun _ => 5) () 2 example_values
example := C95_rounded_covariance exampleTarget exampleConnected (fun x (_ : Unit) => (x.val : ℝ)) (fun _ => 5) (fun _ _ => 6) (fun _ _ => 0) () () 2 example_values example_values rfl

end SampleFlow
