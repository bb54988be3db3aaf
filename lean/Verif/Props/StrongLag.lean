import Verif.Proofs.StrongLag
import Verif.Props.StrongLaw
import Verif.Props.LagNumbers

/-!
# Property C82, with probability one

The theorems bound the probability that a consumer that looks at successive samples reports a result that is off by `ε` or more at *any* time between the `m`-th and the `N`-th sample; the bounds do not
depend on `N` and tend to zero as `m` grows.  `script.take n` are the first `n` steps of a run.
-/

namespace SampleFlow.LagNumbers

open Spec MeasureTheory Ergodic StrongLag

variable {S : Type} [Fintype S] {max : ℝ} {π : S → ℝ} {q : S → S → ℝ}

theorem rare_lag (h : FiniteTarget max π q) (hc : Connected π q) (l : Nat) (g : S → S → ℝ) :
    Rare (transition max π q) 1 (fun xs => ((lagPairs l xs).map (fun p => g p.2 p.1)).sum / xs.length - stationaryLag max π q l g) := by
  obtain ⟨y0, hr⟩ := connected_transition h hc
  have := rare_pairs (stochastic_transition h) π h.nonzero
    (C42_stationary max π q h.nonneg h.proposals_nonneg h.proposals_total h.no_marker) y0 hr l g
  simp only [lagSum_eq] at this
  rwa [stationaryLag_eq]

theorem rare_autocov_lag (h : FiniteTarget max π q) (hc : Connected π q) (l : Nat) (F G : S → ℝ) :
    Rare (transition max π q) (l + 2) (fun xs => autoCovOf F G l xs - stationaryLag max π q l (fun x y => (F y - targetMean π F) * (G x - targetMean π G))) := by
  obtain ⟨y0, hr⟩ := connected_transition h hc
  have := rare_autocov (stochastic_transition h) π h.nonzero
    (C42_stationary max π q h.nonneg h.proposals_nonneg h.proposals_total h.no_marker) y0 hr l F G
  rw [stationaryLag_eq]
  exact this

/-- from paths to runs of the sampler -/
theorem rare_run {m₀ : Nat} {V : List S → ℝ} (hV : Rare (transition max π q) m₀ V) : ∃ K : ℝ, 0 ≤ K ∧ ∀ (C : Type) (step : C → S × Aux XR → C) (c : C) (start : S) (N : Nat)
      (r : List (Chance S) → ℝ) (t : ℝ), (∀ script, 1 ≤ script.length → m₀ ≤ script.length → script.length ≤ N → r script - t = V (samplesIssued max π q step c start script)) →
      ∀ (ε : ℝ), 0 < ε → ∀ m, 1 ≤ m → m₀ ≤ m →
        probability max π q step c start N (fun script => ∃ n, m ≤ n ∧ n ≤ N ∧ ε ≤ |r (script.take n) - t|) ≤ K / (ε ^ 2 * √m) := by
  classical
  obtain ⟨K, hK0, hK⟩ := hV
  refine ⟨K, hK0, fun C step c start N r t hr ε hε m hm hm0 => ?_⟩
  refine le_trans (le_of_eq ?_) (hK start N ε hε m hm hm0)
  refine probability_eq step c start N _ _ (fun script hs => ?_)
  have hl := samplesIssued_length (max := max) (π := π) (q := q) step c start script
  rw [hl, hs]
  refine exists_congr (fun n => and_congr_right (fun h1 => and_congr_right (fun h2 => ?_)))
  have hlt : (script.take n).length = n := by rw [List.length_take]; omega
  rw [hr _ (by omega) (by omega) (by omega), samplesIssued_take]

/-- **C82** (AcceptanceRatio, with probability one): the probability that `AcceptanceRatio::get()` is off by `ε` or more at any time between `m` and `N` samples is at most `K/(ε²√m)`. -/
theorem C82_acceptance_ratio_strong (h : FiniteTarget max π q) (hc : Connected π q) (eq : S → S → Bool)
    (hsymm : ∀ a b, eq a b = true → eq b a = true) (htrans : ∀ a b c, eq a b = true → eq b c = true → eq a c = true) (G : S) :
    ∃ K : ℝ, ∀ (start : S) (ε : ℝ), 0 < ε → ∀ m, 1 ≤ m → ∀ N,
      probability max π q (ratioStep eq) ⟨0, 0, G⟩ start N (fun script => ∃ n, m ≤ n ∧ n ≤ N ∧
        ε ≤ |(consumerState max π q (ratioStep eq) ⟨0, 0, G⟩ start (script.take n)).get (K := ℝ)
          - (∑ x, π x * probability max π q (fun _ _ => ()) () x 1 (fun script => eq (currentSample max π q (fun _ _ => ()) () x script) x = false)) / ∑ x, π x|) ≤ K / (ε ^ 2 * √m) := by
  have hS := stochastic_transition h
  have hlim : (∑ x, π x * probability max π q (fun _ _ => ()) () x 1 (fun script => eq (currentSample max π q (fun _ _ => ()) () x script) x = false)) / ∑ x, π x =
      stationaryLag max π q 1 (fun x y => if eq y x then (0:ℝ) else 1) := by
    unfold stationaryLag probability
    congr 1
    refine Finset.sum_congr rfl (fun x _ => ?_)
    refine congrArg (fun t => π x * t) (congrArg (expected max π q (fun _ _ => ()) () x 1) (funext fun script => ?_))
    beta_reduce
    by_cases he : eq (currentSample max π q (fun _ _ => ()) () x script) x = true
    · rw [if_pos he, if_neg (by rw [he]; simp)]
    · rw [if_neg he, if_pos (by simpa using he)]
  rw [hlim]
  obtain ⟨μ, hμ⟩ : ∃ μ, μ = stationaryLag max π q 1 (fun x y => if eq y x then (0:ℝ) else 1) := ⟨_, rfl⟩
  have r1 := rare_lag h hc 1 (fun x y => if eq y x then (0:ℝ) else 1)
  rw [← hμ] at r1 ⊢
  have r2 : Rare (transition max π q) 1 (fun xs => (1 + ((lagPairs 1 xs).map (fun p => if eq p.1 p.2 then (0:ℝ) else 1)).sum) / xs.length - μ) := by
    refine r1.one hS 2 2 (by norm_num) (by norm_num) (le_refl 1) (fun xs hxs => ?_)
    have hn' : (1:ℝ) ≤ xs.length := by exact_mod_cast hxs
    generalize ((lagPairs 1 xs).map (fun p => if eq p.1 p.2 then (0:ℝ) else 1)).sum = s
    generalize (xs.length : ℝ) = n at *
    have hpos : (0:ℝ) < n := by linarith
    have e1 : (1 + s) / n - μ = (s / n - μ) + 1 / n := by ring
    have e2 : ∀ u v : ℝ, (u + v) ^ 2 ≤ 2 * u ^ 2 + 2 * v ^ 2 := fun u v => by nlinarith [sq_nonneg (u - v)]
    rw [e1]
    refine (e2 _ _).trans ?_
    have e3 : (1 / n) ^ 2 ≤ 1 / n := by
      rw [div_pow, one_pow]
      exact div_le_div_of_nonneg_left one_pos.le hpos (by nlinarith)
    have e4 : 2 / n = 2 * (1 / n) := by ring
    rw [e4]
    linarith
  obtain ⟨K, -, hK⟩ := rare_run r2
  refine ⟨K, fun start ε hε m hm N => hK _ _ _ start N (fun script => (consumerState max π q (ratioStep eq) ⟨0, 0, G⟩ start script).get (K := ℝ)) μ (fun script hs _ _ => ?_) ε hε m hm hm⟩
  rw [ratio_of_run eq hsymm htrans G start script (by intro h'; rw [h'] at hs; simp at hs)]
  rw [samplesIssued_length]

/-- **C82** (AverageCosineBetweenSuccessiveSamples, with probability one): the same for entry `i`, for up to `2^bits` samples; `K` does not depend on `bits`. -/
theorem C82_average_cosine_strong {ι : Type} [Fintype ι] (h : FiniteTarget max π q) (hc : Connected π q) (f : S → ι → ℝ) (hf : ∀ x, f x ≠ 0) (i : Nat) :
    ∃ K : ℝ, ∀ (bits H : Nat) (A₀ : Nat → ℝ) (G1 G2 : Nat → ι → ℝ) (start : S) (ε : ℝ), i < H → 0 < ε → ∀ m, i + 2 ≤ m → ∀ N, N ≤ 2^bits →
      probability max π q (cosineStep bits H G1 G2 f) (.ok ⟨0, A₀, G1, G2⟩) start N (fun script => ∃ n, m ≤ n ∧ n ≤ N ∧
        ε ≤ |cosineEntry (consumerState max π q (cosineStep bits H G1 G2 f) (.ok ⟨0, A₀, G1, G2⟩) start (script.take n)) i
          - stationaryLag max π q (i+1) (fun x y => cosAngle (f y) (f x))|) ≤ K / (ε ^ 2 * √m) := by
  have hS := stochastic_transition h
  obtain ⟨μ, hμ⟩ : ∃ μ, μ = stationaryLag max π q (i+1) (fun x y => cosAngle (f y) (f x)) := ⟨_, rfl⟩
  have r1 := rare_lag h hc (i+1) (fun x y => cosAngle (f y) (f x))
  rw [← hμ] at r1 ⊢
  have r2 : Rare (transition max π q) (i+2) (fun xs => ((lagPairs (i+1) xs).map (fun p => cosAngle (f p.1) (f p.2))).sum / ((xs.length : ℝ) - i - 1) - μ) := by
    refine r1.one hS (2 * (i + 2) ^ 2) (2 * ((i + 1) * (i + 2) * μ) ^ 2) (by positivity) (by positivity) (by omega) (fun xs hxs => ?_)
    have hn' : (i:ℝ) + 2 ≤ xs.length := by exact_mod_cast hxs
    generalize ((lagPairs (i+1) xs).map (fun p => cosAngle (f p.1) (f p.2))).sum = s
    generalize (xs.length : ℝ) = n at *
    have hi0 : (0:ℝ) ≤ i := Nat.cast_nonneg i
    have hpos : (0:ℝ) < n := by linarith
    have hm : (0:ℝ) < n - i - 1 := by linarith
    obtain ⟨r, hr⟩ : ∃ r, r = n / (n - i - 1) := ⟨_, rfl⟩
    have hr0 : 0 ≤ r := by rw [hr]; positivity
    have hr1 : r ≤ i + 2 := by
      rw [hr, div_le_iff₀ hm]
      nlinarith
    have hr2 : r - 1 = (i + 1) / (n - i - 1) := by rw [hr]; field_simp; ring
    have hr3 : 0 ≤ r - 1 := by rw [hr2]; positivity
    have hr4 : r - 1 ≤ (i + 1) * (i + 2) / n := by
      have : r - 1 = (i + 1) * r / n := by rw [hr2, hr]; field_simp
      rw [this]
      exact div_le_div_of_nonneg_right (mul_le_mul_of_nonneg_left hr1 (by positivity)) hpos.le
    have e1 : s / (n - i - 1) - μ = r * (s / n - μ) + (r - 1) * μ := by rw [hr]; field_simp; ring
    have e2 : ∀ u v : ℝ, (u + v) ^ 2 ≤ 2 * u ^ 2 + 2 * v ^ 2 := fun u v => by nlinarith [sq_nonneg (u - v)]
    rw [e1]
    refine (e2 _ _).trans ?_
    have t1 : (r * (s / n - μ)) ^ 2 ≤ (i + 2) ^ 2 * (s / n - μ) ^ 2 := by
      rw [mul_pow]
      exact mul_le_mul_of_nonneg_right (pow_le_pow_left₀ hr0 hr1 2) (sq_nonneg _)
    have t5 : ((r - 1) * μ) ^ 2 ≤ ((i + 1) * (i + 2) * μ) ^ 2 / n := by
      have : (r - 1) ^ 2 ≤ ((i + 1) * (i + 2)) ^ 2 / n := by
        refine (pow_le_pow_left₀ hr3 hr4 2).trans ?_
        rw [div_pow]
        exact div_le_div_of_nonneg_left (by positivity) hpos (by nlinarith)
      rw [mul_pow, mul_pow, mul_div_right_comm]
      exact mul_le_mul_of_nonneg_right this (sq_nonneg _)
    have e6 : 2 * ((i + 1) * (i + 2) * μ) ^ 2 / n = 2 * (((i + 1) * (i + 2) * μ) ^ 2 / n) := by ring
    rw [e6]
    linarith
  obtain ⟨K, -, hK⟩ := rare_run r2
  refine ⟨K, fun bits H A₀ G1 G2 start ε hi hε m hm N hN => hK _ _ _ start N
    (fun script => cosineEntry (consumerState max π q (cosineStep bits H G1 G2 f) (.ok ⟨0, A₀, G1, G2⟩) start script) i) μ (fun script _ h2 h3 => ?_) ε hε m (by omega) hm⟩
  rw [(cosine_of_run bits H (by omega) A₀ G1 G2 f hf start script i hi h2 (by omega)).2, samplesIssued_length]

/-- **C82** (AutoCovarianceMatrix, with probability one): the same for entry `(i,j)` of the matrix for lag `l`, whatever uninitialised memory contains. -/
theorem C82_auto_covariance_matrix_strong {ι : Type} (h : FiniteTarget max π q) (hc : Connected π q) (maxLag : Nat) (G : Nat → ι → ι → ℝ) (M : ι → ℝ) (f : S → ι → ℝ)
    (l : Nat) (hl : l ≤ maxLag) (i j : ι) :
    ∃ K : ℝ, ∀ (start : S) (ε : ℝ), 0 < ε → ∀ m, l + 2 ≤ m → ∀ N,
      probability max π q (matrixStep maxLag G f) (.ok (ACMState.init M)) start N (fun script => ∃ n, m ≤ n ∧ n ≤ N ∧
        ε ≤ |matrixEntry ((consumerState max π q (matrixStep maxLag G f) (.ok (ACMState.init M)) start (script.take n)).bind (fun s => s.get maxLag)) l i j
          - stationaryLag max π q l (fun x y => (f y i - targetMean π (fun x => f x i)) * (f x j - targetMean π (fun x => f x j)))|) ≤ K / (ε ^ 2 * √m) := by
  have hS := stochastic_transition h
  have r1 := rare_autocov_lag h hc l (fun x => f x i) (fun x => f x j)
  obtain ⟨γ, hγ⟩ : ∃ γ, γ = stationaryLag max π q l (fun x y => (f y i - targetMean π (fun x => f x i)) * (f x j - targetMean π (fun x => f x j))) := ⟨_, rfl⟩
  rw [← hγ] at r1 ⊢
  have r2 : Rare (transition max π q) (l+2) (fun xs => autoCovOf (fun x => f x i) (fun x => f x j) l xs + G l i j / ((xs.length : ℝ) - l - 1) - γ) := by
    refine r1.one hS 2 (2 * (G l i j * (l + 2)) ^ 2) (by norm_num) (by positivity) (le_refl _) (fun xs hxs => ?_)
    have hn' : (l:ℝ) + 2 ≤ xs.length := by exact_mod_cast hxs
    generalize autoCovOf (fun x => f x i) (fun x => f x j) l xs = a
    generalize (xs.length : ℝ) = n at *
    have hl0 : (0:ℝ) ≤ l := Nat.cast_nonneg l
    have hpos : (0:ℝ) < n := by linarith
    have hm : (0:ℝ) < n - l - 1 := by linarith
    have e2 : ∀ u v : ℝ, (u + v) ^ 2 ≤ 2 * u ^ 2 + 2 * v ^ 2 := fun u v => by nlinarith [sq_nonneg (u - v)]
    have e1 : a + G l i j / (n - l - 1) - γ = (a - γ) + G l i j / (n - l - 1) := by ring
    rw [e1]
    refine (e2 _ _).trans ?_
    have e3 : (1 / (n - l - 1)) ^ 2 ≤ (l + 2) ^ 2 / n := by
      have : 1 / (n - l - 1) ≤ (l + 2) / n := by
        rw [div_le_div_iff₀ hm hpos]
        nlinarith
      refine (pow_le_pow_left₀ (by positivity) this 2).trans ?_
      rw [div_pow]
      exact div_le_div_of_nonneg_left (by positivity) hpos (by nlinarith)
    have e4 : (G l i j / (n - l - 1)) ^ 2 = (G l i j) ^ 2 * (1 / (n - l - 1)) ^ 2 := by ring
    have e5 := mul_le_mul_of_nonneg_left e3 (sq_nonneg (G l i j))
    have e6 : 2 * (G l i j * (l + 2)) ^ 2 / n = 2 * ((G l i j) ^ 2 * ((l + 2) ^ 2 / n)) := by ring
    rw [e4, e6]
    linarith
  obtain ⟨K, -, hK⟩ := rare_run r2
  refine ⟨K, fun start ε hε m hm N => hK _ _ _ start N
    (fun script => matrixEntry ((consumerState max π q (matrixStep maxLag G f) (.ok (ACMState.init M)) start script).bind (fun s => s.get maxLag)) l i j) γ (fun script _ h2 _ => ?_) ε hε m (by omega) hm⟩
  rw [(matrix_of_run maxLag G M f start script l hl h2 i j).2, samplesIssued_length]

/-- **C82** (AutoCovarianceTrace, with probability one): the same for entry `l`. -/
theorem C82_auto_covariance_trace_strong {ι : Type} [Fintype ι] (h : FiniteTarget max π q) (hc : Connected π q) (maxLag : Nat) (M : ι → ℝ) (f : S → ι → ℝ)
    (l : Nat) (hl : l ≤ maxLag) :
    ∃ K : ℝ, ∀ (start : S) (ε : ℝ), 0 < ε → ∀ m, l + 2 ≤ m → ∀ N,
      probability max π q (traceStep maxLag f) (.ok (ACTState.init M)) start N (fun script => ∃ n, m ≤ n ∧ n ≤ N ∧
        ε ≤ |entry ((consumerState max π q (traceStep maxLag f) (.ok (ACTState.init M)) start (script.take n)).bind (fun s => s.get maxLag)) l
          - stationaryLag max π q l (fun x y => ∑ j, (f y j - targetMean π (fun x => f x j)) * (f x j - targetMean π (fun x => f x j)))|) ≤ K / (ε ^ 2 * √m) := by
  classical
  have hS := stochastic_transition h
  have hlin : stationaryLag max π q l (fun x y => ∑ j, (f y j - targetMean π (fun x => f x j)) * (f x j - targetMean π (fun x => f x j))) =
      ∑ j, stationaryLag max π q l (fun x y => (f y j - targetMean π (fun x => f x j)) * (f x j - targetMean π (fun x => f x j))) := by
    simp only [stationaryLag_eq, ← Finset.sum_div]
    congr 1
    rw [Finset.sum_comm]
    refine Finset.sum_congr rfl (fun x _ => ?_)
    rw [← Finset.mul_sum]
    congr 1
    simp only [← expectPath_last]
    exact expectPath_sum l Finset.univ _ x
  rw [hlin]
  have r := Rare.sum hS Finset.univ _ (fun j => rare_autocov_lag h hc l (fun x => f x j) (fun x => f x j))
  obtain ⟨K, -, hK⟩ := rare_run r
  refine ⟨K, fun start ε hε m hm N => hK _ _ _ start N
    (fun script => entry ((consumerState max π q (traceStep maxLag f) (.ok (ACTState.init M)) start script).bind (fun s => s.get maxLag)) l) _ (fun script _ h2 _ => ?_) ε hε m (by omega) hm⟩
  beta_reduce
  rw [(trace_of_run maxLag M f start script l hl h2).2, Finset.sum_sub_distrib]

/-- The premises can be met: three states, one of them of probability zero, compared with `==`, and the two-dimensional samples (1,0), (1,1), (1,2). -/
example : ∃ (π : Fin 3 → ℝ) (q : Fin 3 → Fin 3 → ℝ) (eq : Fin 3 → Fin 3 → Bool) (f : Fin 3 → Fin 2 → ℝ), FiniteTarget 1000 π q ∧ Connected π q ∧
    (∀ a b, eq a b = true → eq b a = true) ∧ (∀ a b c, eq a b = true → eq b c = true → eq a c = true) ∧ eq 0 1 = false ∧ ∀ x, f x ≠ 0 := by
  refine ⟨_, _, fun a b => a == b, fun x j => if j = 0 then 1 else (x : ℕ), exampleTarget, exampleConnected, by decide, by decide, by decide, fun x hx => ?_⟩
  have := congrFun hx 0
  simp at this

/-! ### Instances: concrete cases that meet the hypotheses of the theorems above -/

example := C82_acceptance_ratio_strong exampleTarget exampleConnected (fun a b => a == b) (by decide) (by decide) 0
example := C82_average_cosine_strong exampleTarget exampleConnected (fun x (j : Fin 2) => if j = 0 then 1 else (x : ℕ)) example_nonzero 3
example := C82_auto_covariance_matrix_strong exampleTarget exampleConnected 5 (fun _ _ _ => 7) (fun _ => 8) (fun x (j : Fin 2) => if j = 0 then 1 else (x : ℕ)) 3 (by norm_num) 0 1
example := C82_auto_covariance_trace_strong exampleTarget exampleConnected 5 (fun _ => 8) (fun x (j : Fin 2) => if j = 0 then 1 else (x : ℕ)) 3 (by norm_num)

end SampleFlow.LagNumbers
