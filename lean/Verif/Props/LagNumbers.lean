import Verif.Spec.LagNumbers
import Verif.Proofs.LagCovariance
import Verif.Proofs.StrongFinite
import Verif.Props.LargeNumbers
import Verif.Props.SimpleConsumers
import Verif.Proofs.MutexMore

/-!
# Property C82: what the consumers that look at successive samples compute from Metropolis-Hastings samples converges to the truth

The target is a density `π` on a finite set of samples, not necessarily normalised; the proposals have probabilities
`q`; the assumptions are in `FiniteTarget` and `Connected` (Spec/LargeNumbers.lean).  Arithmetic is exact.  `stationaryLag l g` (Spec/LagNumbers.lean) is the expected value of
`g x y` where `x` is distributed according to the target and `y` is the sample `l` steps later.
-/

namespace SampleFlow.LagNumbers

open Spec MeasureTheory Ergodic

variable {S : Type} [Fintype S] {max : ℝ} {π : S → ℝ} {q : S → S → ℝ}

theorem stationaryLag_eq (l : Nat) (g : S → S → ℝ) :
    stationaryLag max π q l g = (∑ x, π x * power (transition max π q) l (g x) x) / ∑ x, π x := by
  unfold stationaryLag
  congr 1
  refine Finset.sum_congr rfl (fun x _ => ?_)
  rw [expected_eq max π q _ _ x l _ (fun l => g x (lastOf x l)) (fun script _ => by
    obtain ⟨e1, e2⟩ := scriptRun_eq max π q (fun (_ : Unit) _ => ()) () x script
    rw [e1, e2]), expectPath_last]

theorem pairs_converge (h : FiniteTarget max π q) (hc : Connected π q) (l : Nat) (g : S → S → ℝ) :
    ∃ K : ℝ, ∀ (n : Nat) (x : S), 1 ≤ n →
      expectPath (transition max π q) n (fun xs => (((lagPairs l xs).map (fun p => g p.2 p.1)).sum / n - stationaryLag max π q l g) ^ 2) x ≤ K / n := by
  obtain ⟨y0, hr⟩ := connected_transition h hc
  obtain ⟨K, hK⟩ := mean_square_pairs (stochastic_transition h) π h.nonzero
    (C42_stationary max π q h.nonneg h.proposals_nonneg h.proposals_total h.no_marker) y0 hr l g
  refine ⟨K, fun n x hn => ?_⟩
  rw [stationaryLag_eq]
  simp only [← lagSum_eq]
  exact hK n x hn

/-! ### AcceptanceRatio -/

theorem ratio_of_run (eq : S → S → Bool) (hsymm : ∀ a b, eq a b = true → eq b a = true) (htrans : ∀ a b c, eq a b = true → eq b c = true → eq a c = true)
    (G start : S) (script : List (Chance S)) (hs : script ≠ []) :
    (consumerState max π q (ratioStep eq) ⟨0, 0, G⟩ start script).get (K := ℝ) =
      (1 + ((lagPairs 1 (samplesIssued max π q (ratioStep eq) ⟨0, 0, G⟩ start script)).map (fun p => if eq p.1 p.2 then (0:ℝ) else 1)).sum) / script.length := by
  have hlen := samplesIssued_length (max := max) (π := π) (q := q) (ratioStep eq) ⟨0, 0, G⟩ start script
  have e : consumerState max π q (ratioStep eq) ⟨0, 0, G⟩ start script =
      arAfter eq G (samplesIssued max π q (ratioStep eq) ⟨0, 0, G⟩ start script) := by
    rw [consumerState_eq, samplesIssued, arAfter, List.foldl_map]
    rfl
  have hne : samplesIssued max π q (ratioStep eq) ⟨0, 0, G⟩ start script ≠ [] := by
    intro h
    have : script.length = 0 := by rw [← hlen, h]; rfl
    exact hs (List.length_eq_zero_iff.mp this)
  rw [e, C29_acceptanceRatio eq hsymm htrans G _ hne, hlen]
  congr 1
  push_cast
  congr 1
  generalize lagPairs 1 (samplesIssued max π q (ratioStep eq) ⟨0, 0, G⟩ start script) = ps
  induction ps with
  | nil => simp
  | cons p ps ih =>
    rw [List.countP_cons, List.map_cons, List.sum_cons, ← ih]
    cases eq p.1 p.2 <;> simp [add_comm]

/-- **C82** (AcceptanceRatio): the mean square difference between `AcceptanceRatio::get()` after `n` samples and the probability that one step from a sample
distributed according to the target changes the sample is at most `K/n`, whatever the starting point.  `eq` is the comparison that the consumer uses. -/
theorem C82_acceptance_ratio (h : FiniteTarget max π q) (hc : Connected π q) (eq : S → S → Bool)
    (hsymm : ∀ a b, eq a b = true → eq b a = true) (htrans : ∀ a b c, eq a b = true → eq b c = true → eq a c = true) (G : S) :
    ∃ K : ℝ, ∀ (n : Nat) (start : S), 1 ≤ n →
      expected max π q (ratioStep eq) ⟨0, 0, G⟩ start n (fun script =>
        ((consumerState max π q (ratioStep eq) ⟨0, 0, G⟩ start script).get (K := ℝ)
          - (∑ x, π x * probability max π q (fun _ _ => ()) () x 1 (fun script => eq (currentSample max π q (fun _ _ => ()) () x script) x = false)) / ∑ x, π x) ^ 2) ≤ K / n := by
  obtain ⟨K, hK⟩ := pairs_converge h hc 1 (fun x y => if eq y x then (0:ℝ) else 1)
  have hst := stochastic_transition h
  have hlim : (∑ x, π x * probability max π q (fun _ _ => ()) () x 1 (fun script => eq (currentSample max π q (fun _ _ => ()) () x script) x = false)) / ∑ x, π x =
      stationaryLag max π q 1 (fun x y => if eq y x then (0:ℝ) else 1) := by
    unfold stationaryLag probability
    congr 1
    refine Finset.sum_congr rfl (fun x _ => ?_)
    refine congrArg (fun t => π x * t) (congrArg (expected max π q (fun _ _ => ()) () x 1) (funext fun script => ?_))
    beta_reduce
    by_cases he : eq (currentSample max π q (fun _ _ => ()) () x script) x = true
    · rw [if_pos he, if_neg (by rw [he]; simp)]
    · rw [if_neg he, if_pos (by simpa using he)]
  rw [hlim]
  obtain ⟨μ, hμ⟩ : ∃ μ, μ = stationaryLag max π q 1 (fun x y => if eq y x then (0:ℝ) else 1) := ⟨_, rfl⟩
  rw [← hμ] at hK ⊢
  refine ⟨2 * K + 2, fun n start hn => ?_⟩
  have hn' : (1:ℝ) ≤ n := by exact_mod_cast hn
  have hpos : (0:ℝ) < n := by linarith
  rw [expected_eq max π q _ _ start n _ (fun xs => ((1 + ((lagPairs 1 xs).map (fun p => if eq p.1 p.2 then (0:ℝ) else 1)).sum) / n - μ) ^ 2)
    (fun script hs => by
      rw [ratio_of_run eq hsymm htrans G start script (by intro h'; rw [h'] at hs; simp at hs; omega), hs])]
  refine (expectPath_mono hst n _ (fun xs => 2 * (((lagPairs 1 xs).map (fun p => if eq p.1 p.2 then (0:ℝ) else 1)).sum / n - μ) ^ 2 + 2 / n) start (fun xs _ => ?_)).trans ?_
  · generalize ((lagPairs 1 xs).map (fun p => if eq p.1 p.2 then (0:ℝ) else 1)).sum = s
    have e1 : (1 + s) / n - μ = (s / n - μ) + 1 / n := by ring
    have e2 : ∀ u v : ℝ, (u + v) ^ 2 ≤ 2 * u ^ 2 + 2 * v ^ 2 := fun u v => by nlinarith [sq_nonneg (u - v)]
    rw [e1]
    refine (e2 _ _).trans ?_
    have e3 : (1 / (n:ℝ)) ^ 2 ≤ 1 / n := by
      rw [div_pow, one_pow]
      exact div_le_div_of_nonneg_left one_pos.le hpos (by nlinarith)
    have e4 : 2 / (n:ℝ) = 2 * (1 / n) := by ring
    rw [e4]
    linarith
  · rw [expectPath_add, expectPath_mul, expectPath_const hst]
    have := hK n start hn
    have e : (2 * K + 2) / (n:ℝ) = 2 * (K / n) + 2 / n := by ring
    rw [e]
    linarith

/-! ### AverageCosineBetweenSuccessiveSamples -/

theorem bind_ok_eq {X Y : Type} (x : X) (f : X → Except Fault Y) : (Except.ok x : Except Fault X).bind f = f x := rfl

theorem cosine_of_run {ι : Type} [Fintype ι] (bits H : Nat) (hH : 1 ≤ H) (A₀ : Nat → ℝ) (G1 G2 : Nat → ι → ℝ) (f : S → ι → ℝ) (hf : ∀ x, f x ≠ 0)
    (start : S) (script : List (Chance S)) (i : Nat) (hi : i < H) (hs : i + 2 ≤ script.length) (hb : script.length ≤ 2^bits) :
    (∃ s, consumerState max π q (cosineStep bits H G1 G2 f) (.ok ⟨0, A₀, G1, G2⟩) start script = .ok s) ∧
    cosineEntry (consumerState max π q (cosineStep bits H G1 G2 f) (.ok ⟨0, A₀, G1, G2⟩) start script) i =
      ((lagPairs (i+1) (samplesIssued max π q (cosineStep bits H G1 G2 f) (.ok ⟨0, A₀, G1, G2⟩) start script)).map (fun p => cosAngle (f p.1) (f p.2))).sum
        / ((script.length : ℝ) - i - 1) := by
  have hlen := samplesIssued_length (max := max) (π := π) (q := q) (cosineStep bits H G1 G2 f) (.ok ⟨0, A₀, G1, G2⟩) start script
  have e : consumerState max π q (cosineStep bits H G1 G2 f) (.ok ⟨0, A₀, G1, G2⟩) start script =
      cosAfter bits H A₀ G1 G2 ((samplesIssued max π q (cosineStep bits H G1 G2 f) (.ok ⟨0, A₀, G1, G2⟩) start script).map f) := by
    rw [consumerState_eq, samplesIssued, cosAfter, List.foldlM_map, List.foldlM_map]
    exact Mutex.foldl_bind_eq (fun s (m : S × Aux XR) => CosState.consume bits H G1 G2 s (f m.1)) _ _
  generalize samplesIssued max π q (cosineStep bits H G1 G2 f) (.ok ⟨0, A₀, G1, G2⟩) start script = xs at *
  have hne : xs.map f ≠ [] := by
    intro h
    have : xs.length = 0 := by rw [← List.length_map (f := f), h]; rfl
    omega
  obtain ⟨s, h1, h2⟩ := C28_averageCosinus bits H hH A₀ G1 G2 (xs.map f) hne (by rw [List.length_map, hlen]; exact hb) (by
    intro x hx
    obtain ⟨y, -, rfl⟩ := List.mem_map.mp hx
    exact hf y)
  rw [e, h1]
  refine ⟨⟨s, rfl⟩, ?_⟩
  show s.avg i = _
  rw [h2 i hi, List.length_map, hlen, if_neg (by omega)]
  congr 2
  unfold lagPairs
  rw [← List.map_drop, List.zip_map, List.map_map]
  rfl

/-- **C82** (AverageCosineBetweenSuccessiveSamples): the mean square difference between entry `i` (lag `i+1`) after `n` samples and the expected cosine of the angle between a
sample distributed according to the target and the sample `i+1` steps later is at most `K/n`.  `bits` is the width of `unsigned int`: the consumer is correct for up to `2^bits` samples (C28); `K` does not depend on it. -/
theorem C82_average_cosine {ι : Type} [Fintype ι] (h : FiniteTarget max π q) (hc : Connected π q) (f : S → ι → ℝ) (hf : ∀ x, f x ≠ 0) (i : Nat) :
    ∃ K : ℝ, ∀ (bits H : Nat) (A₀ : Nat → ℝ) (G1 G2 : Nat → ι → ℝ) (n : Nat) (start : S), i < H → i + 2 ≤ n → n ≤ 2^bits →
      (∀ script, script.length = n → ∃ s, consumerState max π q (cosineStep bits H G1 G2 f) (.ok ⟨0, A₀, G1, G2⟩) start script = .ok s) ∧
      expected max π q (cosineStep bits H G1 G2 f) (.ok ⟨0, A₀, G1, G2⟩) start n (fun script =>
        (cosineEntry (consumerState max π q (cosineStep bits H G1 G2 f) (.ok ⟨0, A₀, G1, G2⟩) start script) i
          - stationaryLag max π q (i+1) (fun x y => cosAngle (f y) (f x))) ^ 2) ≤ K / n := by
  obtain ⟨K, hK⟩ := pairs_converge h hc (i+1) (fun x y => cosAngle (f y) (f x))
  have hst := stochastic_transition h
  obtain ⟨μ, hμ⟩ : ∃ μ, μ = stationaryLag max π q (i+1) (fun x y => cosAngle (f y) (f x)) := ⟨_, rfl⟩
  rw [← hμ] at hK ⊢
  refine ⟨2 * (i + 2) ^ 2 * K + 2 * ((i + 1) * (i + 2) * μ) ^ 2, fun bits H A₀ G1 G2 n start hi hn hb => ⟨fun script hs => ?_, ?_⟩⟩
  · exact (cosine_of_run bits H (by omega) A₀ G1 G2 f hf start script i hi (by omega) (by omega)).1
  have hn' : (i:ℝ) + 2 ≤ n := by exact_mod_cast hn
  have hi0 : (0:ℝ) ≤ i := Nat.cast_nonneg i
  have hpos : (0:ℝ) < n := by linarith
  have hm : (0:ℝ) < (n:ℝ) - i - 1 := by linarith
  rw [expected_eq max π q _ _ start n _ (fun xs => (((lagPairs (i+1) xs).map (fun p => cosAngle (f p.1) (f p.2))).sum / ((n:ℝ) - i - 1) - μ) ^ 2)
    (fun script hs => by
      rw [(cosine_of_run bits H (by omega) A₀ G1 G2 f hf start script i hi (by omega) (by omega)).2, hs])]
  refine (expectPath_mono hst n _ (fun xs => 2 * (i + 2) ^ 2 * (((lagPairs (i+1) xs).map (fun p => cosAngle (f p.1) (f p.2))).sum / n - μ) ^ 2
      + 2 * ((i + 1) * (i + 2) * μ) ^ 2 / n) start (fun xs _ => ?_)).trans ?_
  · generalize ((lagPairs (i+1) xs).map (fun p => cosAngle (f p.1) (f p.2))).sum = s
    obtain ⟨r, hr⟩ : ∃ r, r = (n : ℝ) / (n - i - 1) := ⟨_, rfl⟩
    have hr0 : 0 ≤ r := by rw [hr]; positivity
    have hr1 : r ≤ i + 2 := by
      rw [hr, div_le_iff₀ hm]
      nlinarith
    have hr2 : r - 1 = (i + 1) / ((n : ℝ) - i - 1) := by rw [hr]; field_simp; ring
    have hr3 : 0 ≤ r - 1 := by rw [hr2]; positivity
    have hr4 : r - 1 ≤ (i + 1) * (i + 2) / n := by
      have : r - 1 = (i + 1) * r / n := by rw [hr2, hr]; field_simp
      rw [this]
      exact div_le_div_of_nonneg_right (mul_le_mul_of_nonneg_left hr1 (by positivity)) hpos.le
    have e1 : s / ((n:ℝ) - i - 1) - μ = r * (s / n - μ) + (r - 1) * μ := by rw [hr]; field_simp; ring
    have e2 : ∀ u v : ℝ, (u + v) ^ 2 ≤ 2 * u ^ 2 + 2 * v ^ 2 := fun u v => by nlinarith [sq_nonneg (u - v)]
    rw [e1]
    refine (e2 _ _).trans ?_
    have R2 : r ^ 2 ≤ (i + 2) ^ 2 := pow_le_pow_left₀ hr0 hr1 2
    have t1 : (r * (s / n - μ)) ^ 2 ≤ (i + 2) ^ 2 * (s / n - μ) ^ 2 := by
      rw [mul_pow]; exact mul_le_mul_of_nonneg_right R2 (sq_nonneg _)
    have t5 : ((r - 1) * μ) ^ 2 ≤ ((i + 1) * (i + 2) * μ) ^ 2 / n := by
      have : (r - 1) ^ 2 ≤ ((i + 1) * (i + 2)) ^ 2 / n := by
        refine (pow_le_pow_left₀ hr3 hr4 2).trans ?_
        rw [div_pow]
        exact div_le_div_of_nonneg_left (by positivity) hpos (by nlinarith)
      rw [mul_pow, mul_pow, mul_div_right_comm]
      exact mul_le_mul_of_nonneg_right this (sq_nonneg _)
    have e6 : 2 * ((i + 1) * (i + 2) * μ) ^ 2 / n = 2 * (((i + 1) * (i + 2) * μ) ^ 2 / n) := by ring
    rw [e6]
    linarith
  · rw [expectPath_add, expectPath_mul, expectPath_const hst]
    have := mul_le_mul_of_nonneg_left (hK n start (by omega)) (by positivity : (0:ℝ) ≤ 2 * (i + 2) ^ 2)
    have e : (2 * (i + 2) ^ 2 * K + 2 * ((i + 1) * (i + 2) * μ) ^ 2) / (n:ℝ) = 2 * (i + 2) ^ 2 * (K / n) + 2 * ((i + 1) * (i + 2) * μ) ^ 2 / n := by ring
    rw [e]
    linarith

/-! ### AutoCovarianceTrace and AutoCovarianceMatrix -/

theorem autocov_converges (h : FiniteTarget max π q) (hc : Connected π q) (l : Nat) (F G : S → ℝ) :
    ∃ K : ℝ, ∀ (n : Nat) (x : S), l + 2 ≤ n →
      expectPath (transition max π q) n (fun xs => (autoCovOf F G l xs - stationaryLag max π q l (fun x y => (F y - targetMean π F) * (G x - targetMean π G))) ^ 2) x ≤ K / n := by
  obtain ⟨y0, hr⟩ := connected_transition h hc
  obtain ⟨K, hK⟩ := autocov_path (stochastic_transition h) π h.nonzero
    (C42_stationary max π q h.nonneg h.proposals_nonneg h.proposals_total h.no_marker) y0 hr l F G
  exact ⟨K, fun n x hn => by rw [stationaryLag_eq]; exact hK n x hn⟩

omit [Fintype S] in
theorem lagPairs_map {X Y : Type} (f : X → Y) (l : Nat) (xs : List X) : lagPairs l (xs.map f) = (lagPairs l xs).map (fun p => (f p.1, f p.2)) := by
  unfold lagPairs
  rw [← List.map_drop, List.zip_map]
  rfl

omit [Fintype S] in
theorem matrix_of_run {ι : Type} (maxLag : Nat) (G : Nat → ι → ι → ℝ) (M : ι → ℝ) (f : S → ι → ℝ) (start : S) (script : List (Chance S)) (l : Nat) (hl : l ≤ maxLag)
    (hs : l + 2 ≤ script.length) (i j : ι) :
    (∃ ms, (consumerState max π q (matrixStep maxLag G f) (.ok (ACMState.init M)) start script).bind (fun s => s.get maxLag) = .ok ms ∧ ms.length = maxLag + 1) ∧
    matrixEntry ((consumerState max π q (matrixStep maxLag G f) (.ok (ACMState.init M)) start script).bind (fun s => s.get maxLag)) l i j =
      autoCovOf (fun x => f x i) (fun x => f x j) l (samplesIssued max π q (matrixStep maxLag G f) (.ok (ACMState.init M)) start script)
        + G l i j / ((script.length : ℝ) - l - 1) := by
  have hlen := samplesIssued_length (max := max) (π := π) (q := q) (matrixStep maxLag G f) (.ok (ACMState.init M)) start script
  have e : consumerState max π q (matrixStep maxLag G f) (.ok (ACMState.init M)) start script =
      acmAfter maxLag G M ((samplesIssued max π q (matrixStep maxLag G f) (.ok (ACMState.init M)) start script).map f) := by
    rw [consumerState_eq, samplesIssued, acmAfter, List.foldlM_map, List.foldlM_map]
    exact Mutex.foldl_bind_eq (fun s (m : S × Aux XR) => ACMState.consume maxLag G s (f m.1)) _ _
  generalize samplesIssued max π q (matrixStep maxLag G f) (.ok (ACMState.init M)) start script = xs at *
  have hne : xs.map f ≠ [] := by
    intro h
    have : xs.length = 0 := by rw [← List.length_map (f := f), h]; rfl
    omega
  have key : (acmAfter maxLag G M (xs.map f)).bind (fun s => s.get maxLag) = _ := C26_autoCovarianceMatrix maxLag G M (xs.map f) hne
  rw [e, key]
  refine ⟨⟨_, rfl, by simp⟩, ?_⟩
  have hr : (List.range (maxLag+1))[l]? = some l := List.getElem?_range (by omega)
  simp only [matrixEntry, List.getElem?_map, hr, Option.map_some, Option.getD_some, List.length_map, hlen]
  rw [if_neg (by omega)]
  unfold autoCovOf
  rw [lagPairs_map, List.map_map, hlen]
  congr 3
  refine List.map_congr_left (fun p _ => ?_)
  simp only [Function.comp_def, vmean, mean, List.map_map, List.length_map, hlen]

/-- **C82** (AutoCovarianceMatrix): the mean square difference between entry `(i,j)` of the matrix for lag `l` after `n` samples and the auto-covariance
`E[(f(X_l)_i - m_i)(f(X_0)_j - m_j)]` of the sampler in equilibrium (`m` is the mean under the target distribution) is at most `K/n`; the contents of uninitialised memory (C26) wear off. -/
theorem C82_auto_covariance_matrix {ι : Type} (h : FiniteTarget max π q) (hc : Connected π q) (maxLag : Nat) (G : Nat → ι → ι → ℝ) (M : ι → ℝ) (f : S → ι → ℝ)
    (l : Nat) (hl : l ≤ maxLag) (i j : ι) :
    ∃ K : ℝ, ∀ (n : Nat) (start : S), l + 2 ≤ n →
      (∀ script, script.length = n → ∃ ms, (consumerState max π q (matrixStep maxLag G f) (.ok (ACMState.init M)) start script).bind (fun s => s.get maxLag) = .ok ms ∧ ms.length = maxLag + 1) ∧
      expected max π q (matrixStep maxLag G f) (.ok (ACMState.init M)) start n (fun script =>
        (matrixEntry ((consumerState max π q (matrixStep maxLag G f) (.ok (ACMState.init M)) start script).bind (fun s => s.get maxLag)) l i j
          - stationaryLag max π q l (fun x y => (f y i - targetMean π (fun x => f x i)) * (f x j - targetMean π (fun x => f x j)))) ^ 2) ≤ K / n := by
  obtain ⟨K, hK⟩ := autocov_converges h hc l (fun x => f x i) (fun x => f x j)
  have hst := stochastic_transition h
  obtain ⟨γ, hγ⟩ : ∃ γ, γ = stationaryLag max π q l (fun x y => (f y i - targetMean π (fun x => f x i)) * (f x j - targetMean π (fun x => f x j))) := ⟨_, rfl⟩
  rw [← hγ] at hK ⊢
  refine ⟨2 * K + 2 * (G l i j * (l + 2)) ^ 2, fun n start hn => ⟨fun script hs => ?_, ?_⟩⟩
  · exact (matrix_of_run maxLag G M f start script l hl (by omega) i j).1
  have hn' : (l:ℝ) + 2 ≤ n := by exact_mod_cast hn
  have hl0 : (0:ℝ) ≤ l := Nat.cast_nonneg l
  have hpos : (0:ℝ) < n := by linarith
  have hm : (0:ℝ) < (n:ℝ) - l - 1 := by linarith
  rw [expected_eq max π q _ _ start n _ (fun xs => (autoCovOf (fun x => f x i) (fun x => f x j) l xs + G l i j / ((n:ℝ) - l - 1) - γ) ^ 2)
    (fun script hs => by rw [(matrix_of_run maxLag G M f start script l hl (by omega) i j).2, hs])]
  refine (expectPath_mono hst n _ (fun xs => 2 * (autoCovOf (fun x => f x i) (fun x => f x j) l xs - γ) ^ 2 + 2 * (G l i j * (l + 2)) ^ 2 / n) start (fun xs _ => ?_)).trans ?_
  · generalize autoCovOf (fun x => f x i) (fun x => f x j) l xs = a
    have e2 : ∀ u v : ℝ, (u + v) ^ 2 ≤ 2 * u ^ 2 + 2 * v ^ 2 := fun u v => by nlinarith [sq_nonneg (u - v)]
    have e1 : a + G l i j / ((n:ℝ) - l - 1) - γ = (a - γ) + G l i j / ((n:ℝ) - l - 1) := by ring
    rw [e1]
    refine (e2 _ _).trans ?_
    have e3 : (1 / ((n:ℝ) - l - 1)) ^ 2 ≤ (l + 2) ^ 2 / n := by
      have : 1 / ((n:ℝ) - l - 1) ≤ (l + 2) / n := by
        rw [div_le_div_iff₀ hm hpos]
        nlinarith
      refine (pow_le_pow_left₀ (by positivity) this 2).trans ?_
      rw [div_pow]
      exact div_le_div_of_nonneg_left (by positivity) hpos (by nlinarith)
    have e4 : (G l i j / ((n:ℝ) - l - 1)) ^ 2 = (G l i j) ^ 2 * (1 / ((n:ℝ) - l - 1)) ^ 2 := by ring
    have e5 := mul_le_mul_of_nonneg_left e3 (sq_nonneg (G l i j))
    have e6 : 2 * (G l i j * (l + 2)) ^ 2 / (n:ℝ) = 2 * ((G l i j) ^ 2 * ((l + 2) ^ 2 / n)) := by ring
    rw [e4, e6]
    linarith
  · rw [expectPath_add, expectPath_mul, expectPath_const hst]
    have := hK n start hn
    have e : (2 * K + 2 * (G l i j * (l + 2)) ^ 2) / (n:ℝ) = 2 * (K / n) + 2 * (G l i j * (l + 2)) ^ 2 / n := by ring
    rw [e]
    linarith

omit [Fintype S] in
theorem sum_finset {X ι : Type} [Fintype ι] (ps : List X) (F : X → ι → ℝ) : (ps.map (fun p => ∑ j, F p j)).sum = ∑ j, (ps.map (fun p => F p j)).sum := by
  induction ps with
  | nil => simp
  | cons p ps ih => simp only [List.map_cons, List.sum_cons, ih, Finset.sum_add_distrib]

omit [Fintype S] in
theorem trace_of_run {ι : Type} [Fintype ι] (maxLag : Nat) (M : ι → ℝ) (f : S → ι → ℝ) (start : S) (script : List (Chance S)) (l : Nat) (hl : l ≤ maxLag)
    (hs : l + 2 ≤ script.length) :
    (∃ rs, (consumerState max π q (traceStep maxLag f) (.ok (ACTState.init M)) start script).bind (fun s => s.get maxLag) = .ok rs ∧ rs.length = maxLag + 1) ∧
    entry ((consumerState max π q (traceStep maxLag f) (.ok (ACTState.init M)) start script).bind (fun s => s.get maxLag)) l =
      ∑ j, autoCovOf (fun x => f x j) (fun x => f x j) l (samplesIssued max π q (traceStep maxLag f) (.ok (ACTState.init M)) start script) := by
  have hlen := samplesIssued_length (max := max) (π := π) (q := q) (traceStep maxLag f) (.ok (ACTState.init M)) start script
  have e : consumerState max π q (traceStep maxLag f) (.ok (ACTState.init M)) start script =
      actAfter maxLag M ((samplesIssued max π q (traceStep maxLag f) (.ok (ACTState.init M)) start script).map f) := by
    rw [consumerState_eq, samplesIssued, actAfter, List.foldlM_map, List.foldlM_map]
    exact Mutex.foldl_bind_eq (fun s (m : S × Aux XR) => ACTState.consume maxLag s (f m.1)) _ _
  generalize samplesIssued max π q (traceStep maxLag f) (.ok (ACTState.init M)) start script = xs at *
  have hne : xs.map f ≠ [] := by
    intro h
    have : xs.length = 0 := by rw [← List.length_map (f := f), h]; rfl
    omega
  have key : (actAfter maxLag M (xs.map f)).bind (fun s => s.get maxLag) = _ := C25_autoCovarianceTrace maxLag M (xs.map f) hne
  rw [e, key]
  refine ⟨⟨_, rfl, by simp⟩, ?_⟩
  have hr : (List.range (maxLag+1))[l]? = some l := List.getElem?_range (by omega)
  simp only [entry, List.getElem?_map, hr, Option.map_some, Option.getD_some, List.length_map, hlen]
  rw [if_neg (by omega)]
  unfold autoCovOf
  rw [sum_finset, Finset.sum_div]
  refine Finset.sum_congr rfl (fun j _ => ?_)
  rw [lagPairs_map, List.map_map, hlen]
  congr 2
  refine List.map_congr_left (fun p _ => ?_)
  simp only [Function.comp_def, vmean, mean, List.map_map, List.length_map, hlen]

/-- **C82** (AutoCovarianceTrace): the mean square difference between entry `l` of `get()` after `n` samples and the trace of the auto-covariance
`∑ⱼ E[(f(X_l)_j - m_j)(f(X_0)_j - m_j)]` of the sampler in equilibrium is at most `K/n`. -/
theorem C82_auto_covariance_trace {ι : Type} [Fintype ι] (h : FiniteTarget max π q) (hc : Connected π q) (maxLag : Nat) (M : ι → ℝ) (f : S → ι → ℝ)
    (l : Nat) (hl : l ≤ maxLag) :
    ∃ K : ℝ, ∀ (n : Nat) (start : S), l + 2 ≤ n →
      (∀ script, script.length = n → ∃ rs, (consumerState max π q (traceStep maxLag f) (.ok (ACTState.init M)) start script).bind (fun s => s.get maxLag) = .ok rs ∧ rs.length = maxLag + 1) ∧
      expected max π q (traceStep maxLag f) (.ok (ACTState.init M)) start n (fun script =>
        (entry ((consumerState max π q (traceStep maxLag f) (.ok (ACTState.init M)) start script).bind (fun s => s.get maxLag)) l
          - stationaryLag max π q l (fun x y => ∑ j, (f y j - targetMean π (fun x => f x j)) * (f x j - targetMean π (fun x => f x j)))) ^ 2) ≤ K / n := by
  classical
  have hst := stochastic_transition h
  choose K hK using fun j => autocov_converges h hc l (fun x => f x j) (fun x => f x j)
  have hlin : stationaryLag max π q l (fun x y => ∑ j, (f y j - targetMean π (fun x => f x j)) * (f x j - targetMean π (fun x => f x j))) =
      ∑ j, stationaryLag max π q l (fun x y => (f y j - targetMean π (fun x => f x j)) * (f x j - targetMean π (fun x => f x j))) := by
    simp only [stationaryLag_eq, ← Finset.sum_div]
    congr 1
    rw [Finset.sum_comm]
    refine Finset.sum_congr rfl (fun x _ => ?_)
    rw [← Finset.mul_sum]
    congr 1
    simp only [← expectPath_last]
    exact expectPath_sum l Finset.univ _ x
  rw [hlin]
  refine ⟨Fintype.card ι * ∑ j, K j, fun n start hn => ⟨fun script hs => ?_, ?_⟩⟩
  · exact (trace_of_run maxLag M f start script l hl (by omega)).1
  rw [expected_eq max π q _ _ start n _ (fun xs => (∑ j, autoCovOf (fun x => f x j) (fun x => f x j) l xs -
      ∑ j, stationaryLag max π q l (fun x y => (f y j - targetMean π (fun x => f x j)) * (f x j - targetMean π (fun x => f x j)))) ^ 2)
    (fun script hs => by rw [(trace_of_run maxLag M f start script l hl (by omega)).2])]
  refine (expectPath_mono hst n _ (fun xs => (Fintype.card ι : ℝ) * ∑ j, (autoCovOf (fun x => f x j) (fun x => f x j) l xs -
      stationaryLag max π q l (fun x y => (f y j - targetMean π (fun x => f x j)) * (f x j - targetMean π (fun x => f x j)))) ^ 2) start (fun xs _ => ?_)).trans ?_
  · rw [← Finset.sum_sub_distrib]
    have := sq_sum_le_card_mul_sum_sq (s := (Finset.univ : Finset ι)) (f := fun j => autoCovOf (fun x => f x j) (fun x => f x j) l xs -
      stationaryLag max π q l (fun x y => (f y j - targetMean π (fun x => f x j)) * (f x j - targetMean π (fun x => f x j))))
    simpa using this
  · rw [expectPath_mul, expectPath_sum, mul_div_assoc, Finset.sum_div]
    exact mul_le_mul_of_nonneg_left (Finset.sum_le_sum (fun j _ => hK j n start hn)) (Nat.cast_nonneg _)

/-- The premises can be met: three states, one of them of probability zero, with the two-dimensional samples (1,0), (1,1), (1,2). -/
example : ∃ (π : Fin 3 → ℝ) (q : Fin 3 → Fin 3 → ℝ) (f : Fin 3 → Fin 2 → ℝ), FiniteTarget 1000 π q ∧ Connected π q ∧ ∀ x, f x ≠ 0 := by
  refine ⟨_, _, fun x j => if j = 0 then 1 else (x : ℕ), exampleTarget, exampleConnected, fun x hx => ?_⟩
  have := congrFun hx 0
  simp at this

/-! ### Instances: concrete cases that meet the hypotheses of the theorems above -/

theorem example_nonzero (x : Fin 3) : (fun (x : Fin 3) (j : Fin 2) => if j = 0 then (1:ℝ) else (x : ℕ)) x ≠ 0 := fun h => by
  have := congrFun h 0
  simp at this

example := C82_acceptance_ratio exampleTarget exampleConnected (fun a b => a == b) (by decide) (by decide) 0
example := C82_average_cosine exampleTarget exampleConnected (fun x (j : Fin 2) => if j = 0 then 1 else (x : ℕ)) example_nonzero 3
example := C82_auto_covariance_matrix exampleTarget exampleConnected 5 (fun _ _ _ => 7) (fun _ => 8) (fun x (j : Fin 2) => if j = 0 then 1 else (x : ℕ)) 3 (by norm_num) 0 1
example := C82_auto_covariance_trace exampleTarget exampleConnected 5 (fun _ => 8) (fun x (j : Fin 2) => if j = 0 then 1 else (x : ℕ)) 3 (by norm_num)

end SampleFlow.LagNumbers
