import Verif.Proofs.InexactAccuracy
import Verif.Proofs.Nearest
import Verif.Props.DelayedCovariance

/-!
# Property C95: the Metropolis-Hastings sampler with rounding errors and a random number generator of finite resolution

Samples from a finite set.  The sampler runs on a machine with floating-point numbers of some type, on which it accepts proposals with probabilities that differ by at most `ε` from the right ones
(`Computer.Accurate`); `C95_accuracy` says how large `ε` is.  What the consumers do is exact here.
-/

namespace SampleFlow

open Spec MeasureTheory Ergodic StrongLaw

variable {S : Type} [Fintype S] {max : ℝ} {π : S → ℝ} {q : S → S → ℝ}

namespace Inexact

open Classical in
/-- averages over the samples of an accurate machine -/
theorem averages (h : FiniteTarget max π q) (hc : Connected π q) (f : S → ℝ) :
    ∃ K : ℝ, 0 ≤ K ∧ ∀ (D : Type) (M : Computer S D) (ε : ℝ), M.Accurate max π q ε → Stochastic (transition M q) ∧
      (∀ (n : Nat) (x : S), 1 ≤ n → expectPath (transition M q) n (fun l => ((l.map f).sum / n - targetMean π f) ^ 2) x ≤ K / n + K * ε ^ 2) ∧
      ∀ (start : S) (N : Nat) (e : ℝ), 0 < e → ∀ m, 1 ≤ m →
        expectPath (transition M q) N (fun l => if ∃ n, m ≤ n ∧ n ≤ l.length ∧ K * ε + e ≤ |((l.take n).map f).sum / n - targetMean π f| then 1 else 0) start ≤ K / (e ^ 2 * √m) := by
  obtain ⟨y0, hr⟩ := connected_transition h hc
  obtain ⟨K, hK0, hK⟩ := Perturbed.perturbed (stochastic_transition h) π h.nonzero
    (C42_stationary max π q h.nonneg h.proposals_nonneg h.proposals_total h.no_marker) y0 hr f
  refine ⟨4 * K, by positivity, fun D M ε hM => ?_⟩
  have hS := stochastic M h.proposals_nonneg h.proposals_total
  obtain ⟨h1, h2⟩ := hK _ _ hS (close M h.proposals_nonneg h.proposals_total hM)
  have hε : 0 ≤ ε := by
    obtain ⟨z, hz⟩ : ∃ z, 0 < q y0 z := by
      by_contra hn
      push Not at hn
      have := h.proposals_total y0
      rw [Finset.sum_eq_zero (fun z _ => le_antisymm (hn z) (h.proposals_nonneg y0 z))] at this
      norm_num at this
    exact (abs_nonneg _).trans (hM y0 z hz)
  refine ⟨hS, fun n x hn => ?_, fun start N e he m hm => ?_⟩
  · have hn0 : (0:ℝ) < n := by exact_mod_cast hn
    refine le_trans (le_of_eq (expectPath_congr n _ _ x (fun l hl => ?_))) ((h1 n x hn).trans ?_)
    · rw [dev_eq f _ l n hl hn]; rfl
    · have e1 : K * (2 * ε) ^ 2 = 4 * K * ε ^ 2 := by ring
      have e2 : K / n ≤ 4 * K / n := div_le_div_of_nonneg_right (by linarith) hn0.le
      linarith
  · refine (expectPath_mono hS N _ _ start (fun l _ => ?_)).trans ((h2 start N e he m hm).trans ?_)
    · by_cases hx : ∃ n, m ≤ n ∧ n ≤ l.length ∧ 4 * K * ε + e ≤ |((l.take n).map f).sum / n - targetMean π f|
      · rw [if_pos hx]
        obtain ⟨n, a1, a2, a3⟩ := hx
        rw [if_pos]
        refine ⟨n, a1, a2, ?_⟩
        rw [← dev_eq f _ (l.take n) n (by rw [List.length_take]; omega) (by omega)]
        refine le_trans ?_ a3
        nlinarith [mul_nonneg hK0 hε]
      · rw [if_neg hx]; split <;> norm_num
    · have : (0:ℝ) < √m := Real.sqrt_pos.mpr (by exact_mod_cast hm)
      exact div_le_div_of_nonneg_right (by linarith) (by positivity)

omit [Fintype S] in
theorem samples_length {C D : Type} (M : Computer S D) (step : C → S × Aux D → C) (c : C) (start : S) (script : List M.Chance) : (M.samplesIssued step c start script).length = script.length := by
  rw [(run_eq M step c start script).1, pathFrom_length]

omit [Fintype S] in
theorem samples_take {C D : Type} (M : Computer S D) (step : C → S × Aux D → C) (c : C) (start : S) (script : List M.Chance) (n : Nat) :
    M.samplesIssued step c start (script.take n) = (M.samplesIssued step c start script).take n := by
  rw [(run_eq M step c start _).1, (run_eq M step c start _).1, pathFrom_take]

/-- what is an average over the samples of an accurate machine -/
theorem observed (h : FiniteTarget max π q) (hc : Connected π q) (f : S → ℝ) :
    ∃ K : ℝ, 0 ≤ K ∧ ∀ (D : Type) (M : Computer S D) (ε : ℝ), M.Accurate max π q ε → ∀ (C : Type) (step : C → S × Aux D → C) (c : C) (start : S) (g : List M.Chance → ℝ),
      (∀ script, 1 ≤ script.length → g script = ((M.samplesIssued step c start script).map f).sum / script.length) →
      (∀ n, 1 ≤ n → M.expected step c start q n (fun script => (g script - targetMean π f) ^ 2) ≤ K / n + K * ε ^ 2) ∧
      ∀ (e : ℝ), 0 < e → ∀ m, 1 ≤ m → ∀ N,
        M.probability step c start q N (fun script => ∃ n, m ≤ n ∧ n ≤ N ∧ K * ε + e ≤ |g (script.take n) - targetMean π f|) ≤ K / (e ^ 2 * √m) := by
  classical
  obtain ⟨K, hK0, hK⟩ := averages h hc f
  refine ⟨K, hK0, fun D M ε hM C step c start g hg => ?_⟩
  obtain ⟨hS, h1, h2⟩ := hK D M ε hM
  constructor
  · intro n hn
    rw [expected_eq M q step c start n _ (fun l => ((l.map f).sum / n - targetMean π f) ^ 2) (fun script hs => by rw [hg script (by omega), hs])]
    exact h1 n start hn
  · intro e he m hm N
    unfold Computer.probability
    rw [expected_eq M q step c start N _ (fun l => if ∃ n, m ≤ n ∧ n ≤ l.length ∧ K * ε + e ≤ |((l.take n).map f).sum / n - targetMean π f| then 1 else 0) (fun script hs => ?_)]
    · exact h2 start N e he m hm
    · have hl := samples_length M step c start script
      refine if_congr ?_ rfl rfl
      refine exists_congr (fun n => and_congr_right (fun h1 => ?_))
      rw [hl, hs]
      refine and_congr_right (fun h2 => ?_)
      have hlt : (script.take n).length = n := by rw [List.length_take]; omega
      rw [hg _ (by omega), samples_take, hlt]

omit [Fintype S] in
theorem meanState {D ι : Type} (M : Computer S D) (f : S → ι → ℝ) (G : ι → ℝ) (start : S) (script : List M.Chance) (hs : 1 ≤ script.length) (i : ι) :
    (M.consumerState (Computer.meanStep f) (MeanState.init G) start script).get i =
      ((M.samplesIssued (Computer.meanStep f) (MeanState.init G) start script).map (fun x => f x i)).sum / script.length := by
  have hlen := samples_length M (Computer.meanStep f) (MeanState.init G) start script
  have e : M.consumerState (Computer.meanStep f) (MeanState.init G) start script = meanAfter G ((M.samplesIssued (Computer.meanStep f) (MeanState.init G) start script).map f) := by
    rw [consumerState_eq, Computer.samplesIssued, meanAfter, List.foldl_map, List.foldl_map]
    rfl
  have hne : (M.samplesIssued (Computer.meanStep f) (MeanState.init G) start script).map f ≠ [] := by
    intro h
    have : script.length = 0 := by rw [← hlen]; simpa using h
    omega
  rw [e, C21_mean G _ hne i, List.map_map, List.length_map, hlen]
  rfl

omit [Fintype S] in
theorem histState {D : Type} (M : Computer S D) (debug : Bool) (pts : List ℝ) (sub : Subdivision pts) (f : S → ℝ) (k : Nat) (hk : k + 1 < pts.length) (start : S) (script : List M.Chance) :
    (binCount (M.consumerState (Computer.histogramStep debug f) (.ok ⟨pts, List.replicate (pts.length - 1) 0⟩) start script) k : ℝ) =
      ((M.samplesIssued (Computer.histogramStep debug f) (.ok ⟨pts, List.replicate (pts.length - 1) 0⟩) start script).map (fun x => if inBin pts k (f x) then (1:ℝ) else 0)).sum := by
  obtain ⟨hist, rows, h1, h2, h3, h4⟩ := C30_counts debug pts sub
    ((M.samplesIssued (Computer.histogramStep debug f) (.ok ⟨pts, List.replicate (pts.length - 1) 0⟩) start script).map f)
  have h1' : M.consumerState (Computer.histogramStep debug f) (.ok ⟨pts, List.replicate (pts.length - 1) 0⟩) start script = .ok hist := by
    rw [← h1, consumerState_eq, Computer.samplesIssued]
    generalize issuedOf (M.run (Computer.histogramStep debug f) (.ok ⟨pts, List.replicate (pts.length - 1) 0⟩) start script).1 = l
    generalize (⟨pts, List.replicate (pts.length - 1) 0⟩ : Hist ℝ) = h0
    induction l generalizing h0 with
    | nil => rfl
    | cons m ms ih =>
      simp only [List.foldl_cons, List.map_cons, histAfter, List.foldlM_cons]
      have : Computer.histogramStep debug f (.ok h0) m = Hist.consume debug h0 (.num (f m.1)) := rfl
      rw [this]
      cases hh : Hist.consume debug h0 (.num (f m.1)) with
      | ok h' => exact ih h'
      | error e =>
        have : ∀ l : List (S × Aux D), l.foldl (Computer.histogramStep debug f) (.error e) = .error e := by
          intro l
          induction l with
          | nil => rfl
          | cons a l ih => exact ih
        rw [this]; rfl
  have hk2 : k < rows.length := by omega
  have hb : binCount (M.consumerState (Computer.histogramStep debug f) (.ok ⟨pts, List.replicate (pts.length - 1) 0⟩) start script) k =
      ((M.samplesIssued (Computer.histogramStep debug f) (.ok ⟨pts, List.replicate (pts.length - 1) 0⟩) start script).map f).countP (inBin pts k) := by
    rw [h1']
    simp only [binCount, h2, List.getElem?_eq_getElem hk2, h4 k hk2 hk, Option.map_some, Option.getD_some]
  rw [hb]
  generalize M.samplesIssued (Computer.histogramStep debug f) (.ok ⟨pts, List.replicate (pts.length - 1) 0⟩) start script = l
  induction l with
  | nil => simp
  | cons a l ih =>
    simp only [List.map_cons, List.countP_cons, List.sum_cons, ← ih]
    push_cast
    rw [add_comm]

omit [Fintype S] in
theorem covState {D ι : Type} (M : Computer S D) (f : S → ι → ℝ) (M₀ : ι → ℝ) (C₀ G : ι → ι → ℝ) (start : S) (script : List M.Chance) (hs : 2 ≤ script.length) (i j : ι) :
    (M.consumerState (Computer.covarianceStep f G) (CovState.init M₀ C₀) start script).get i j =
      DelayedCov.covOf (fun x => f x i) (fun x => f x j) (M.samplesIssued (Computer.covarianceStep f G) (CovState.init M₀ C₀) start script) := by
  have hlen := samples_length M (Computer.covarianceStep f G) (CovState.init M₀ C₀) start script
  have e : M.consumerState (Computer.covarianceStep f G) (CovState.init M₀ C₀) start script =
      covAfter M₀ C₀ G ((M.samplesIssued (Computer.covarianceStep f G) (CovState.init M₀ C₀) start script).map f) := by
    rw [consumerState_eq, Computer.samplesIssued, covAfter, List.foldl_map, List.foldl_map]
    rfl
  unfold DelayedCov.covOf
  rw [e, C23_covariance M₀ C₀ G _ (by rw [List.length_map, hlen]; exact hs) i j]
  generalize M.samplesIssued (Computer.covarianceStep f G) (CovState.init M₀ C₀) start script = l at hlen
  rw [List.length_map, hlen]
  have hn : (2 : ℝ) ≤ script.length := by exact_mod_cast hs
  simp only [vmean, mean, List.map_map, Function.comp_def, List.length_map, hlen, star_trivial]
  have aux : ∀ (a b : ℝ) (l : List S), (l.map (fun x => (f x i - a) * (f x j - b))).sum =
      (l.map (fun x => f x i * f x j)).sum - b * (l.map (fun x => f x i)).sum - a * (l.map (fun x => f x j)).sum + l.length * (a * b) := by
    intro a b l
    induction l with
    | nil => simp
    | cons x l ih => simp only [List.map_cons, List.sum_cons, ih, List.length_cons]; push_cast; ring
  rw [aux, hlen]
  have h1 : (script.length : ℝ) ≠ 0 := by linarith
  have h2 : (script.length : ℝ) - 1 ≠ 0 := by linarith
  field_simp
  ring

theorem covariance_path (h : FiniteTarget max π q) (hc : Connected π q) (f g : S → ℝ) :
    ∃ K : ℝ, ∀ (D : Type) (M : Computer S D) (ε : ℝ), M.Accurate max π q ε → ∀ (n : Nat) (start : S), 2 ≤ n →
      expectPath (transition M q) n (fun l => (DelayedCov.covOf f g l - targetCovariance π f g) ^ 2) start ≤ K / n + K * ε ^ 2 := by
  obtain ⟨y0, -⟩ := connected_transition h hc
  obtain ⟨K1, k1, hK1⟩ := averages h hc (fun x => f x * g x)
  obtain ⟨K2, k2, hK2⟩ := averages h hc f
  obtain ⟨K3, k3, hK3⟩ := averages h hc g
  have : Nonempty S := ⟨y0⟩
  obtain ⟨b1, hb1⟩ := Finite.exists_max (fun x : S => |f x|)
  obtain ⟨F1, hF1⟩ : ∃ F1, F1 = |f b1| := ⟨_, rfl⟩
  rw [DelayedCov.targetCovariance_eq π h.nonzero f g]
  obtain ⟨a, ha⟩ : ∃ a, a = targetMean π (fun x => f x * g x) := ⟨_, rfl⟩
  obtain ⟨b, hb⟩ : ∃ b, b = targetMean π f := ⟨_, rfl⟩
  obtain ⟨c, hc'⟩ : ∃ c, c = targetMean π g := ⟨_, rfl⟩
  rw [← ha, ← hb, ← hc']
  refine ⟨24 * (K1 + F1 ^ 2 * K3 + c ^ 2 * K2) + 8 * (a - b * c) ^ 2, fun D M ε hM n start hn => ?_⟩
  have hn1 : 1 ≤ n := by omega
  have hn' : (2:ℝ) ≤ n := by exact_mod_cast hn
  obtain ⟨hS, l1, -⟩ := hK1 D M ε hM
  obtain ⟨-, l2, -⟩ := hK2 D M ε hM
  obtain ⟨-, l3, -⟩ := hK3 D M ε hM
  have l1 := l1 n start hn1
  have l2 := l2 n start hn1
  have l3 := l3 n start hn1
  rw [← ha] at l1
  rw [← hb] at l2
  rw [← hc'] at l3
  refine (expectPath_mono hS n _ (fun l => 24 * (((l.map (fun x => f x * g x)).sum / n - a) ^ 2 + (F1 ^ 2 * ((l.map g).sum / n - c) ^ 2 +
      c ^ 2 * ((l.map f).sum / n - b) ^ 2)) + 8 * (a - b * c) ^ 2 / n) start (fun l hl => ?_)).trans ?_
  · have hB : |(l.map f).sum / n| ≤ F1 := by
      have : |(l.map f).sum| ≤ l.length * F1 := by
        clear hl
        induction l with
        | nil => simp
        | cons x l ih =>
          simp only [List.map_cons, List.sum_cons, List.length_cons]
          refine (abs_add_le _ _).trans ?_
          have := hb1 x
          push_cast
          linarith
      rw [hl] at this
      rw [abs_div, Nat.abs_cast, div_le_iff₀ (by linarith)]
      linarith
    unfold DelayedCov.covOf
    rw [hl]
    exact covariance_estimate a b c F1 n hn' _ _ _ hB
  · rw [expectPath_add, expectPath_mul, expectPath_add, expectPath_add, expectPath_mul, expectPath_mul, expectPath_const hS]
    have e : (24 * (K1 + F1 ^ 2 * K3 + c ^ 2 * K2) + 8 * (a - b * c) ^ 2) / n + (24 * (K1 + F1 ^ 2 * K3 + c ^ 2 * K2) + 8 * (a - b * c) ^ 2) * ε ^ 2 =
        24 * ((K1 / n + K1 * ε ^ 2) + (F1 ^ 2 * (K3 / n + K3 * ε ^ 2) + c ^ 2 * (K2 / n + K2 * ε ^ 2))) + 8 * (a - b * c) ^ 2 / n + 8 * (a - b * c) ^ 2 * ε ^ 2 := by ring
    rw [e]
    have m1 := mul_le_mul_of_nonneg_left l3 (sq_nonneg F1)
    have m2 := mul_le_mul_of_nonneg_left l2 (sq_nonneg c)
    have m3 : 0 ≤ 8 * (a - b * c) ^ 2 * ε ^ 2 := by positivity
    linarith

end Inexact

/-- **C95** (MeanValue): on every machine that accepts proposals with probabilities that are wrong by at most `ε`, the mean square difference between `MeanValue::get()` after `n` samples and the expected value under the
target distribution is at most `K/n + K ε²`; `K` depends neither on the machine nor on the starting point. -/
theorem C95_mean {ι : Type} (h : FiniteTarget max π q) (hc : Connected π q) (f : S → ι → ℝ) (G : ι → ℝ) (i : ι) :
    ∃ K : ℝ, ∀ (D : Type) (M : Computer S D) (ε : ℝ), M.Accurate max π q ε → ∀ (n : Nat) (start : S), 1 ≤ n →
      M.expected (Computer.meanStep f) (MeanState.init G) start q n (fun script =>
        ((M.consumerState (Computer.meanStep f) (MeanState.init G) start script).get i - targetMean π (fun x => f x i)) ^ 2) ≤ K / n + K * ε ^ 2 := by
  obtain ⟨K, -, hK⟩ := Inexact.observed h hc (fun x => f x i)
  exact ⟨K, fun D M ε hM n start hn => (hK D M ε hM _ _ _ start _ (fun script hs => Inexact.meanState M f G start script hs i)).1 n hn⟩

/-- **C95** (MeanValue, with probability one): the probability that `MeanValue::get()` is off by `K ε + e` or more at any time between `m` and `N` samples is at most `K/(e²√m)`: in the long run the error is at most `K ε`. -/
theorem C95_mean_strong {ι : Type} (h : FiniteTarget max π q) (hc : Connected π q) (f : S → ι → ℝ) (G : ι → ℝ) (i : ι) :
    ∃ K : ℝ, ∀ (D : Type) (M : Computer S D) (ε : ℝ), M.Accurate max π q ε → ∀ (start : S) (e : ℝ), 0 < e → ∀ m, 1 ≤ m → ∀ N,
      M.probability (Computer.meanStep f) (MeanState.init G) start q N (fun script => ∃ n, m ≤ n ∧ n ≤ N ∧
        K * ε + e ≤ |(M.consumerState (Computer.meanStep f) (MeanState.init G) start (script.take n)).get i - targetMean π (fun x => f x i)|) ≤ K / (e ^ 2 * √m) := by
  obtain ⟨K, -, hK⟩ := Inexact.observed h hc (fun x => f x i)
  exact ⟨K, fun D M ε hM start e he m hm N =>
    (hK D M ε hM _ _ _ start (fun script => (M.consumerState (Computer.meanStep f) (MeanState.init G) start script).get i) (fun script hs => Inexact.meanState M f G start script hs i)).2 e he m hm N⟩

/-- **C95** (Histogram): the same for the fraction of the samples counted in bin `k`. -/
theorem C95_histogram (h : FiniteTarget max π q) (hc : Connected π q) (debug : Bool) (pts : List ℝ) (sub : Subdivision pts) (f : S → ℝ) (k : Nat) (hk : k + 1 < pts.length) :
    ∃ K : ℝ, ∀ (D : Type) (M : Computer S D) (ε : ℝ), M.Accurate max π q ε → ∀ (start : S),
      (∀ n, 1 ≤ n → M.expected (Computer.histogramStep debug f) (.ok ⟨pts, List.replicate (pts.length - 1) 0⟩) start q n (fun script =>
        ((binCount (M.consumerState (Computer.histogramStep debug f) (.ok ⟨pts, List.replicate (pts.length - 1) 0⟩) start script) k : ℝ) / script.length
          - targetMean π (fun x => if inBin pts k (f x) then 1 else 0)) ^ 2) ≤ K / n + K * ε ^ 2) ∧
      ∀ (e : ℝ), 0 < e → ∀ m, 1 ≤ m → ∀ N,
        M.probability (Computer.histogramStep debug f) (.ok ⟨pts, List.replicate (pts.length - 1) 0⟩) start q N (fun script => ∃ n, m ≤ n ∧ n ≤ N ∧
          K * ε + e ≤ |(binCount (M.consumerState (Computer.histogramStep debug f) (.ok ⟨pts, List.replicate (pts.length - 1) 0⟩) start (script.take n)) k : ℝ) / (script.take n).length
            - targetMean π (fun x => if inBin pts k (f x) then 1 else 0)|) ≤ K / (e ^ 2 * √m) := by
  obtain ⟨K, -, hK⟩ := Inexact.observed h hc (fun x => if inBin pts k (f x) then 1 else 0)
  refine ⟨K, fun D M ε hM start => ?_⟩
  exact hK D M ε hM _ _ _ start (fun script => (binCount (M.consumerState (Computer.histogramStep debug f) (.ok ⟨pts, List.replicate (pts.length - 1) 0⟩) start script) k : ℝ) / script.length)
    (fun script _ => by rw [Inexact.histState M debug pts sub f k hk start script])

/-- **C95** (CovarianceMatrix): the same for the entries of the covariance matrix, after `n ≥ 2` samples. -/
theorem C95_covariance {ι : Type} (h : FiniteTarget max π q) (hc : Connected π q) (f : S → ι → ℝ) (M₀ : ι → ℝ) (C₀ G : ι → ι → ℝ) (i j : ι) :
    ∃ K : ℝ, ∀ (D : Type) (M : Computer S D) (ε : ℝ), M.Accurate max π q ε → ∀ (n : Nat) (start : S), 2 ≤ n →
      M.expected (Computer.covarianceStep f G) (CovState.init M₀ C₀) start q n (fun script =>
        ((M.consumerState (Computer.covarianceStep f G) (CovState.init M₀ C₀) start script).get i j - targetCovariance π (fun x => f x i) (fun x => f x j)) ^ 2) ≤ K / n + K * ε ^ 2 := by
  obtain ⟨K, hK⟩ := Inexact.covariance_path h hc (fun x => f x i) (fun x => f x j)
  refine ⟨K, fun D M ε hM n start hn => ?_⟩
  rw [Inexact.expected_eq M q _ _ start n _ (fun l => (DelayedCov.covOf (fun x => f x i) (fun x => f x j) l - targetCovariance π (fun x => f x i) (fun x => f x j)) ^ 2)
    (fun script hs => by rw [Inexact.covState M f M₀ C₀ G start script (by omega) i j])]
  exact hK D M ε hM n start hn

/-- **C95** (how accurate the acceptance probabilities are): log likelihoods between `-L` and `L` computed with an error of at most `η`, proposal ratios between `e^-L` and `e^L`, floating-point operations with relative errors of
at most `δ`, and `N` equally probable random numbers `0, 1/N, ..., (N-1)/N`: the acceptance probability is wrong by at most `2 η + (4 L + 6) δ + 1/N`. -/
theorem C95_accuracy (h : FiniteTarget max π q) (M : Computer S XR) (δ η L : ℝ) (hδ : δ ≤ 1 / 2) (hL : 1 ≤ L) (hη : 0 ≤ η) (hM : M.Faithful π q δ η L) :
    M.Accurate max π q (2 * η + (4 * L + 6) * δ + 1 / M.count) :=
  Inexact.accurate M h.nonneg h.no_marker hδ hL hη hM

/-- **C95**, everything together: the error that remains in the long run is proportional to the errors of the arithmetic and to the resolution of the random number generator. -/
theorem C95_rounding {ι : Type} (h : FiniteTarget max π q) (hc : Connected π q) (f : S → ι → ℝ) (G : ι → ℝ) (i : ι) :
    ∃ K : ℝ, ∀ (M : Computer S XR) (δ η L : ℝ), δ ≤ 1 / 2 → 1 ≤ L → 0 ≤ η → M.Faithful π q δ η L → ∀ (start : S) (e : ℝ), 0 < e → ∀ m, 1 ≤ m → ∀ N,
      M.probability (Computer.meanStep f) (MeanState.init G) start q N (fun script => ∃ n, m ≤ n ∧ n ≤ N ∧
        K * (2 * η + (4 * L + 6) * δ + 1 / M.count) + e ≤
          |(M.consumerState (Computer.meanStep f) (MeanState.init G) start (script.take n)).get i - targetMean π (fun x => f x i)|) ≤ K / (e ^ 2 * √m) := by
  obtain ⟨K, hK⟩ := C95_mean_strong h hc f G i
  exact ⟨K, fun M δ η L hδ hL hη hM start e he m hm N => hK XR M _ (C95_accuracy h M δ η L hδ hL hη hM) start e he m hm N⟩

end SampleFlow
