import Verif.Proofs.LargeNumbers
import Verif.Proofs.MHChain
import Verif.Props.Moments
import Verif.Props.Histogram
import Mathlib.Topology.Algebra.Order.LiminfLimsup
import Mathlib.Analysis.SpecificLimits.Basic
import Mathlib.Tactic.FinCases

/-!
# Property C62: what consumers compute from Metropolis-Hastings samples converges to the truth

The target is a density `π` on a finite set of samples, not necessarily normalised; the proposals have probabilities
`q`; the assumptions are in `FiniteTarget` and `Connected` (Spec/LargeNumbers.lean).  Arithmetic is exact.  Expected values and probabilities are
over the proposals and random numbers of a run of `MetropolisHastings::sample` from an arbitrary starting point; the
consumer is connected to the sampler during this run.
-/

namespace SampleFlow

open Spec MeasureTheory Ergodic

variable {S : Type} [Fintype S] {max : ℝ} {π : S → ℝ} {q : S → S → ℝ}

section
variable {C : Type} (step : C → S × Aux XR → C) (c : C)

/-- everything that is a mean over the samples converges -/
theorem mean_converges (h : FiniteTarget max π q) (hc : Connected π q) (f : S → ℝ) :
    ∃ K : ℝ, ∀ (C : Type) (step : C → S × Aux XR → C) (c : C) (start : S) (n : Nat) (g : List (Chance S) → ℝ), 1 ≤ n →
      (∀ script, script.length = n → g script = ((samplesIssued max π q step c start script).map f).sum / n) →
      expected max π q step c start n (fun script => (g script - targetMean π f) ^ 2) ≤ K / n := by
  obtain ⟨y0, hr⟩ := connected_transition h hc
  obtain ⟨K, hK⟩ := mean_square (stochastic_transition h) π h.nonzero
    (C42_stationary max π q h.nonneg h.proposals_nonneg h.proposals_total h.no_marker) y0 hr f
  refine ⟨K, fun C step c start n g hn hg => ?_⟩
  rw [expected_eq max π q step c start n _ (fun l => ((l.map f).sum / n - targetMean π f) ^ 2)
    (fun script hs => by simp only [hg script hs])]
  exact hK n start hn

omit [Fintype S] in
theorem samplesIssued_length (start : S) (script : List (Chance S)) :
    (samplesIssued max π q step c start script).length = script.length := by
  rw [(scriptRun_eq max π q step c start script).1, pathFrom_length]

theorem expected_mono (h : FiniteTarget max π q) (start : S) (n : Nat) (g g' : List (Chance S) → ℝ) (k k' : List S → ℝ)
    (hk : ∀ script, script.length = n → g script = k (samplesIssued max π q step c start script))
    (hk' : ∀ script, script.length = n → g' script = k' (samplesIssued max π q step c start script))
    (hle : ∀ l, l.length = n → k l ≤ k' l) :
    expected max π q step c start n g ≤ expected max π q step c start n g' := by
  rw [expected_eq max π q step c start n g k hk, expected_eq max π q step c start n g' k' hk']
  exact expectPath_mono (stochastic_transition h) n k k' start hle

/-- **C62** (sanity): the certain event has probability one. -/
theorem C62_total_probability (h : FiniteTarget max π q) (start : S) (n : Nat) :
    probability max π q step c start n (fun _ => True) = 1 := by
  unfold probability
  rw [expected_eq max π q step c start n _ (fun _ => 1) (fun _ _ => by simp)]
  exact expectPath_const (stochastic_transition h) n 1 start

end

/-! ### MeanValue -/

omit [Fintype S] in
theorem meanState_of_run {ι : Type} (f : S → ι → ℝ) (G : ι → ℝ) (start : S) (script : List (Chance S)) (hs : script ≠ []) (i : ι) :
    (consumerState max π q (meanStep f) (MeanState.init G) start script).get i =
      ((samplesIssued max π q (meanStep f) (MeanState.init G) start script).map (fun x => f x i)).sum / script.length := by
  have hlen := samplesIssued_length (max := max) (π := π) (q := q) (meanStep f) (MeanState.init G) start script
  have e : consumerState max π q (meanStep f) (MeanState.init G) start script =
      meanAfter G ((samplesIssued max π q (meanStep f) (MeanState.init G) start script).map f) := by
    rw [consumerState_eq, samplesIssued, meanAfter, List.foldl_map, List.foldl_map]
    rfl
  have hne : (samplesIssued max π q (meanStep f) (MeanState.init G) start script).map f ≠ [] := by
    intro h
    have : script.length = 0 := by rw [← hlen]; simpa using h
    exact hs (List.length_eq_zero_iff.mp this)
  rw [e, C21_mean G _ hne i, List.map_map, List.length_map, hlen]
  rfl

/-- **C62** (law of large numbers for MeanValue): whatever the starting point, the mean square difference between `MeanValue::get()` after `n` samples and
the expected value under the target distribution is at most `K/n`, where `K` does not depend on `n` or on the starting point. -/
theorem C62_mean_square {ι : Type} (h : FiniteTarget max π q) (hc : Connected π q) (f : S → ι → ℝ) (G : ι → ℝ) (i : ι) :
    ∃ K : ℝ, ∀ (n : Nat) (start : S), 1 ≤ n →
      expected max π q (meanStep f) (MeanState.init G) start n (fun script =>
        ((consumerState max π q (meanStep f) (MeanState.init G) start script).get i - targetMean π (fun x => f x i)) ^ 2)
        ≤ K / n := by
  obtain ⟨K, hK⟩ := mean_converges h hc (fun x => f x i)
  refine ⟨K, fun n start hn => hK _ _ _ start n _ hn (fun script hs => ?_)⟩
  rw [meanState_of_run f G start script (by intro h'; rw [h'] at hs; simp at hs; omega) i, hs]

/-- **C62** (convergence in probability): the probability that `MeanValue::get()` after `n` samples differs from the
expected value under the target distribution by `ε` or more tends to zero as `n` grows. -/
theorem C62_mean_in_probability {ι : Type} (h : FiniteTarget max π q) (hc : Connected π q) (f : S → ι → ℝ) (G : ι → ℝ) (i : ι)
    (start : S) (ε : ℝ) (hε : 0 < ε) :
    Filter.Tendsto (fun n => probability max π q (meanStep f) (MeanState.init G) start n (fun script =>
        ε ≤ |(consumerState max π q (meanStep f) (MeanState.init G) start script).get i - targetMean π (fun x => f x i)|))
      Filter.atTop (nhds 0) := by
  classical
  obtain ⟨K, hK⟩ := C62_mean_square h hc f G i
  have hlim : Filter.Tendsto (fun n : Nat => (K / ε ^ 2) / n) Filter.atTop (nhds 0) := tendsto_const_div_atTop_nhds_zero_nat _
  have hrep : ∀ n : Nat, 1 ≤ n → ∀ script : List (Chance S), script.length = n →
      (consumerState max π q (meanStep f) (MeanState.init G) start script).get i =
      ((samplesIssued max π q (meanStep f) (MeanState.init G) start script).map (fun x => f x i)).sum / n := by
    intro n hn script hs
    rw [meanState_of_run f G start script (by intro h'; rw [h'] at hs; simp at hs; omega) i, hs]
  refine squeeze_zero' ?_ ?_ hlim
  · filter_upwards [Filter.eventually_ge_atTop 1] with n hn
    have := expected_mono (meanStep f) (MeanState.init G) h start n (fun _ => 0)
      (fun script => if ε ≤ |(consumerState max π q (meanStep f) (MeanState.init G) start script).get i - targetMean π (fun x => f x i)| then 1 else 0)
      (fun _ => 0) (fun l => if ε ≤ |(l.map (fun x => f x i)).sum / n - targetMean π (fun x => f x i)| then 1 else 0)
      (fun _ _ => rfl) (fun script hs => by rw [hrep n hn script hs]) (fun l _ => by split <;> norm_num)
    rw [expected_eq max π q _ _ start n (fun _ => 0) (fun _ => 0) (fun _ _ => rfl), expectPath_const (stochastic_transition h)] at this
    unfold probability
    convert this using 2
  · filter_upwards [Filter.eventually_ge_atTop 1] with n hn
    have h1 := hK n start hn
    have h2 := expected_mono (meanStep f) (MeanState.init G) h start n
      (fun script => if ε ≤ |(consumerState max π q (meanStep f) (MeanState.init G) start script).get i - targetMean π (fun x => f x i)| then 1 else 0)
      (fun script => (1 / ε ^ 2) * ((consumerState max π q (meanStep f) (MeanState.init G) start script).get i - targetMean π (fun x => f x i)) ^ 2)
      (fun l => if ε ≤ |(l.map (fun x => f x i)).sum / n - targetMean π (fun x => f x i)| then 1 else 0)
      (fun l => (1 / ε ^ 2) * ((l.map (fun x => f x i)).sum / n - targetMean π (fun x => f x i)) ^ 2)
      (fun script hs => by rw [hrep n hn script hs]) (fun script hs => by rw [hrep n hn script hs]) (fun l _ => by
        split
        · rename_i hle
          rw [one_div, ← div_eq_inv_mul, le_div_iff₀ (by positivity), one_mul, ← sq_abs ((l.map (fun x => f x i)).sum / (n : ℝ) - targetMean π (fun x => f x i))]
          exact pow_le_pow_left₀ hε.le hle 2
        · positivity)
    have h3 : expected max π q (meanStep f) (MeanState.init G) start n (fun script =>
        (1 / ε ^ 2) * ((consumerState max π q (meanStep f) (MeanState.init G) start script).get i - targetMean π (fun x => f x i)) ^ 2) =
        (1 / ε ^ 2) * expected max π q (meanStep f) (MeanState.init G) start n (fun script =>
          ((consumerState max π q (meanStep f) (MeanState.init G) start script).get i - targetMean π (fun x => f x i)) ^ 2) := by
      rw [expected_eq max π q _ _ start n _ (fun l => (1 / ε ^ 2) * ((l.map (fun x => f x i)).sum / n - targetMean π (fun x => f x i)) ^ 2)
          (fun script hs => by rw [hrep n hn script hs]),
        expected_eq max π q _ _ start n _ (fun l => ((l.map (fun x => f x i)).sum / n - targetMean π (fun x => f x i)) ^ 2)
          (fun script hs => by rw [hrep n hn script hs]), expectPath_mul]
    rw [h3] at h2
    have h4 : (1 / ε ^ 2) * (K / n) = (K / ε ^ 2) / n := by ring
    unfold probability
    refine le_trans ?_ (h4 ▸ (h2.trans (mul_le_mul_of_nonneg_left h1 (by positivity))))
    apply le_of_eq
    congr 1

/-! ### Histogram -/

omit [Fintype S] in
theorem histogram_of_run (debug : Bool) (pts : List ℝ) (sub : Subdivision pts) (f : S → ℝ) (start : S) (script : List (Chance S)) :
    ∃ hist rows, consumerState max π q (histogramStep debug f) (.ok ⟨pts, List.replicate (pts.length - 1) 0⟩) start script = .ok hist ∧
      hist.get = .ok rows ∧ rows.length = pts.length - 1 ∧ ∀ k (hk : k < rows.length) (hk' : k + 1 < pts.length),
        rows[k] = (pts[k], pts[k+1], ((samplesIssued max π q (histogramStep debug f) (.ok ⟨pts, List.replicate (pts.length - 1) 0⟩) start script).map
          f).countP (inBin pts k)) := by
  obtain ⟨hist, rows, h1, h2, h3, h4⟩ := C30_counts debug pts sub
    ((samplesIssued max π q (histogramStep debug f) (.ok ⟨pts, List.replicate (pts.length - 1) 0⟩) start script).map f)
  refine ⟨hist, rows, ?_, h2, h3, h4⟩
  rw [← h1, consumerState_eq, samplesIssued]
  generalize issuedOf (scriptRun max π q (histogramStep debug f) (.ok ⟨pts, List.replicate (pts.length - 1) 0⟩) start script).1 = l
  generalize (⟨pts, List.replicate (pts.length - 1) 0⟩ : Hist ℝ) = h0
  induction l generalizing h0 with
  | nil => rfl
  | cons m ms ih =>
    simp only [List.foldl_cons, List.map_cons, histAfter, List.foldlM_cons]
    have : histogramStep debug f (.ok h0) m = Hist.consume debug h0 (.num (f m.1)) := rfl
    rw [this]
    cases hh : Hist.consume debug h0 (.num (f m.1)) with
    | ok h' => exact ih h'
    | error e =>
      have : ∀ l : List (S × Aux XR), l.foldl (histogramStep debug f) (.error e) = .error e := by
        intro l
        induction l with
        | nil => rfl
        | cons a l ih => exact ih
      rw [this]; rfl

/-- **C62** (histograms): the fraction of the `n` samples that a Histogram has counted in bin `k` converges to the probability of this bin
under the target distribution, with a mean square difference of at most `K/n`. -/
theorem C62_histogram (h : FiniteTarget max π q) (hc : Connected π q) (debug : Bool) (pts : List ℝ) (sub : Subdivision pts)
    (f : S → ℝ) (k : Nat) (hk : k + 1 < pts.length) :
    ∃ K : ℝ, ∀ (n : Nat) (start : S), 1 ≤ n →
      expected max π q (histogramStep debug f) (.ok ⟨pts, List.replicate (pts.length - 1) 0⟩) start n (fun script =>
        ((binCount (consumerState max π q (histogramStep debug f) (.ok ⟨pts, List.replicate (pts.length - 1) 0⟩) start script) k : ℝ) / n
          - targetMean π (fun x => if inBin pts k (f x) then 1 else 0)) ^ 2) ≤ K / n := by
  obtain ⟨K, hK⟩ := mean_converges h hc (fun x => if inBin pts k (f x) then 1 else 0)
  refine ⟨K, fun n start hn => hK _ _ _ start n _ hn (fun script hs => ?_)⟩
  obtain ⟨hist, rows, h1, h2, h3, h4⟩ := histogram_of_run (max := max) (π := π) (q := q) debug pts sub f start script
  have hk2 : k < rows.length := by omega
  have hb : binCount (consumerState max π q (histogramStep debug f) (.ok ⟨pts, List.replicate (pts.length - 1) 0⟩) start script) k =
      ((samplesIssued max π q (histogramStep debug f) (.ok ⟨pts, List.replicate (pts.length - 1) 0⟩) start script).map f).countP (inBin pts k) := by
    rw [h1]
    simp only [binCount, h2, List.getElem?_eq_getElem hk2, h4 k hk2 hk, Option.map_some, Option.getD_some]
  rw [hb]
  congr 1
  generalize samplesIssued max π q (histogramStep debug f) (.ok ⟨pts, List.replicate (pts.length - 1) 0⟩) start script = l
  induction l with
  | nil => simp
  | cons a l ih =>
    simp only [List.map_cons, List.countP_cons, List.sum_cons, ← ih]
    push_cast
    rw [add_comm]

/-! ### CovarianceMatrix -/

omit [Fintype S] in
theorem covState_of_run {ι : Type} (f : S → ι → ℝ) (M : ι → ℝ) (C₀ G : ι → ι → ℝ) (start : S) (script : List (Chance S))
    (hs : 2 ≤ script.length) (i j : ι) :
    (consumerState max π q (covarianceStep f G) (CovState.init M C₀) start script).get i j =
      (script.length : ℝ) / ((script.length : ℝ) - 1) *
      (((samplesIssued max π q (covarianceStep f G) (CovState.init M C₀) start script).map (fun x => f x i * f x j)).sum / script.length -
       ((samplesIssued max π q (covarianceStep f G) (CovState.init M C₀) start script).map (fun x => f x i)).sum / script.length *
       (((samplesIssued max π q (covarianceStep f G) (CovState.init M C₀) start script).map (fun x => f x j)).sum / script.length)) := by
  have hlen := samplesIssued_length (max := max) (π := π) (q := q) (covarianceStep f G) (CovState.init M C₀) start script
  have e : consumerState max π q (covarianceStep f G) (CovState.init M C₀) start script =
      covAfter M C₀ G ((samplesIssued max π q (covarianceStep f G) (CovState.init M C₀) start script).map f) := by
    rw [consumerState_eq, samplesIssued, covAfter, List.foldl_map, List.foldl_map]
    rfl
  rw [e, C23_covariance M C₀ G _ (by rw [List.length_map, hlen]; exact hs) i j]
  generalize samplesIssued max π q (covarianceStep f G) (CovState.init M C₀) start script = l at hlen
  rw [List.length_map, hlen]
  have hn : (2 : ℝ) ≤ script.length := by exact_mod_cast hs
  simp only [vmean, mean, List.map_map, Function.comp_def, List.length_map, hlen, star_trivial]
  have aux : ∀ (a b : ℝ) (l : List S), (l.map (fun x => (f x i - a) * (f x j - b))).sum =
      (l.map (fun x => f x i * f x j)).sum - b * (l.map (fun x => f x i)).sum - a * (l.map (fun x => f x j)).sum + l.length * (a * b) := by
    intro a b l
    induction l with
    | nil => simp
    | cons x l ih => simp only [List.map_cons, List.sum_cons, ih, List.length_cons]; push_cast; ring
  rw [aux, hlen]
  have h1 : (script.length : ℝ) ≠ 0 := by linarith
  have h2 : (script.length : ℝ) - 1 ≠ 0 := by linarith
  field_simp
  ring

/-- **C62** (law of large numbers for CovarianceMatrix): the mean square difference between an entry of `CovarianceMatrix::get()` after
`n ≥ 2` samples and the covariance under the target distribution is at most `K/n`. -/
theorem C62_covariance {ι : Type} (h : FiniteTarget max π q) (hc : Connected π q) (f : S → ι → ℝ) (M : ι → ℝ) (C₀ G : ι → ι → ℝ) (i j : ι) :
    ∃ K : ℝ, ∀ (n : Nat) (start : S), 2 ≤ n →
      expected max π q (covarianceStep f G) (CovState.init M C₀) start n (fun script =>
        ((consumerState max π q (covarianceStep f G) (CovState.init M C₀) start script).get i j
          - targetCovariance π (fun x => f x i) (fun x => f x j)) ^ 2) ≤ K / n := by
  obtain ⟨K1, hK1⟩ := mean_converges h hc (fun x => f x i * f x j)
  obtain ⟨K2, hK2⟩ := mean_converges h hc (fun x => f x i)
  obtain ⟨K3, hK3⟩ := mean_converges h hc (fun x => f x j)
  obtain ⟨y0, -⟩ := hc
  have : Nonempty S := ⟨y0⟩
  obtain ⟨b1, hb1⟩ := Finite.exists_max (fun x : S => |f x i|)
  obtain ⟨b2, hb2⟩ := Finite.exists_max (fun x : S => |f x j|)
  obtain ⟨F1, hF1⟩ : ∃ F1, F1 = |f b1 i| := ⟨_, rfl⟩
  obtain ⟨a, ha⟩ : ∃ a, a = targetMean π (fun x => f x i * f x j) := ⟨_, rfl⟩
  obtain ⟨b, hb⟩ : ∃ b, b = targetMean π (fun x => f x i) := ⟨_, rfl⟩
  obtain ⟨c, hcc⟩ : ∃ c, c = targetMean π (fun x => f x j) := ⟨_, rfl⟩
  have hcov : targetCovariance π (fun x => f x i) (fun x => f x j) = a - b * c := by
    rw [ha, hb, hcc]
    simp only [targetCovariance, targetMean]
    have hz := h.nonzero.ne'
    generalize hZ : ∑ x, π x = Z at *
    have : ∀ u v : ℝ, ∑ x, π x * ((f x i - u) * (f x j - v)) =
        ∑ x, π x * (f x i * f x j) - v * ∑ x, π x * f x i - u * ∑ x, π x * f x j + u * v * Z := by
      intro u v
      rw [← hZ]
      simp only [Finset.mul_sum, ← Finset.sum_sub_distrib, ← Finset.sum_add_distrib]
      refine Finset.sum_congr rfl (fun x _ => by ring)
    rw [this]
    field_simp
    ring
  refine ⟨24 * (K1 + F1 ^ 2 * K3 + c ^ 2 * K2) + 8 * (a - b * c) ^ 2, fun n start hn => ?_⟩
  have hn1 : 1 ≤ n := by omega
  have hn' : (2:ℝ) ≤ n := by exact_mod_cast hn
  have k1 := hK1 _ (covarianceStep f G) (CovState.init M C₀) start n _ hn1 (fun _ _ => rfl)
  have k2 := hK2 _ (covarianceStep f G) (CovState.init M C₀) start n _ hn1 (fun _ _ => rfl)
  have k3 := hK3 _ (covarianceStep f G) (CovState.init M C₀) start n _ hn1 (fun _ _ => rfl)
  rw [expected_eq max π q _ _ start n _ (fun l => ((l.map (fun x => f x i * f x j)).sum / n - targetMean π (fun x => f x i * f x j)) ^ 2) (fun _ _ => rfl), ← ha] at k1
  rw [expected_eq max π q _ _ start n _ (fun l => ((l.map (fun x => f x i)).sum / n - targetMean π (fun x => f x i)) ^ 2) (fun _ _ => rfl), ← hb] at k2
  rw [expected_eq max π q _ _ start n _ (fun l => ((l.map (fun x => f x j)).sum / n - targetMean π (fun x => f x j)) ^ 2) (fun _ _ => rfl), ← hcc] at k3
  rw [hcov]
  rw [expected_eq max π q _ _ start n _ (fun l => ((n : ℝ) / ((n : ℝ) - 1) *
      ((l.map (fun x => f x i * f x j)).sum / n - (l.map (fun x => f x i)).sum / n * ((l.map (fun x => f x j)).sum / n)) - (a - b * c)) ^ 2)
    (fun script hs => by rw [covState_of_run f M C₀ G start script (by omega) i j, hs])]
  have hst := stochastic_transition h
  refine (expectPath_mono hst n _ (fun l => 24 * (((l.map (fun x => f x i * f x j)).sum / n - a) ^ 2 + (F1 ^ 2 * ((l.map (fun x => f x j)).sum / n - c) ^ 2 +
      c ^ 2 * ((l.map (fun x => f x i)).sum / n - b) ^ 2)) + 8 * (a - b * c) ^ 2 / n) start (fun l hl => ?_)).trans ?_
  · have hB : |(l.map (fun x => f x i)).sum / n| ≤ F1 := by
      have : |(l.map (fun x => f x i)).sum| ≤ l.length * F1 := by
        clear hl
        induction l with
        | nil => simp
        | cons x l ih =>
          simp only [List.map_cons, List.sum_cons, List.length_cons]
          refine (abs_add_le _ _).trans ?_
          have := hb1 x
          push_cast
          linarith
      rw [hl] at this
      rw [abs_div, Nat.abs_cast, div_le_iff₀ (by linarith)]
      linarith
    generalize (l.map (fun x => f x i * f x j)).sum / (n:ℝ) = A
    generalize (l.map (fun x => f x i)).sum / (n:ℝ) = B at hB
    generalize (l.map (fun x => f x j)).sum / (n:ℝ) = D
    have hB2 : B ^ 2 ≤ F1 ^ 2 := by
      rw [← sq_abs B]
      exact pow_le_pow_left₀ (abs_nonneg B) hB 2
    have hr0 : (n:ℝ) / (n - 1) = 1 + 1 / (n - 1) := by
      have : (n:ℝ) - 1 ≠ 0 := by linarith
      field_simp; ring
    have ht0 : 0 ≤ 1 / ((n:ℝ) - 1) := by apply div_nonneg <;> linarith
    have ht1 : 1 / ((n:ℝ) - 1) ≤ 1 := by rw [div_le_one (by linarith)]; linarith
    have ht2 : (1 / ((n:ℝ) - 1)) ^ 2 ≤ 4 / n := by
      rw [div_pow, one_pow, div_le_div_iff₀ (by nlinarith) (by linarith)]
      nlinarith
    rw [hr0]
    generalize 1 / ((n:ℝ) - 1) = t at *
    have e1 : (1 + t) * (A - B * D) - (a - b * c) = (1 + t) * ((A - a) - B * (D - c) - c * (B - b)) + t * (a - b * c) := by ring
    rw [e1]
    have e2 : ∀ u v : ℝ, (u + v) ^ 2 ≤ 2 * u ^ 2 + 2 * v ^ 2 := fun u v => by nlinarith [sq_nonneg (u - v)]
    refine (e2 _ _).trans ?_
    have e3 : ((A - a) - B * (D - c) - c * (B - b)) ^ 2 ≤ 3 * ((A - a) ^ 2 + (F1 ^ 2 * (D - c) ^ 2 + c ^ 2 * (B - b) ^ 2)) := by
      have : (B * (D - c)) ^ 2 ≤ F1 ^ 2 * (D - c) ^ 2 := by
        rw [mul_pow]; exact mul_le_mul_of_nonneg_right hB2 (sq_nonneg _)
      nlinarith [sq_nonneg ((A - a) + B * (D - c)), sq_nonneg ((A - a) + c * (B - b)), sq_nonneg (B * (D - c) - c * (B - b))]
    have e4 : ((1 + t) * ((A - a) - B * (D - c) - c * (B - b))) ^ 2 ≤ 4 * (3 * ((A - a) ^ 2 + (F1 ^ 2 * (D - c) ^ 2 + c ^ 2 * (B - b) ^ 2))) := by
      rw [mul_pow]
      exact mul_le_mul (by nlinarith) e3 (sq_nonneg _) (by norm_num)
    have e5 : (t * (a - b * c)) ^ 2 ≤ 4 / n * (a - b * c) ^ 2 := by
      rw [mul_pow]; exact mul_le_mul_of_nonneg_right ht2 (sq_nonneg _)
    have e6 : 8 * (a - b * c) ^ 2 / n = 2 * (4 / n * (a - b * c) ^ 2) := by ring
    rw [e6]
    linarith
  · rw [expectPath_add, expectPath_mul, expectPath_add, expectPath_add, expectPath_mul, expectPath_mul, expectPath_const hst]
    have : (24 * (K1 + F1 ^ 2 * K3 + c ^ 2 * K2) + 8 * (a - b * c) ^ 2) / n =
        24 * (K1 / n + (F1 ^ 2 * (K3 / n) + c ^ 2 * (K2 / n))) + 8 * (a - b * c) ^ 2 / n := by ring
    rw [this]
    have m1 := mul_le_mul_of_nonneg_left k3 (sq_nonneg F1)
    have m2 := mul_le_mul_of_nonneg_left k2 (sq_nonneg c)
    linarith

/-! ### the distribution of the samples -/

/-- **C62** (convergence to the target distribution): if one state can be reached from everywhere in exactly `k` steps,
then the expected value of every function `f` of the sample after `n` steps converges to the one under the target distribution, geometrically and
uniformly in the starting point: the difference is at most `ρ^⌊n/k⌋` times the length of an interval that contains the values of `f`. -/
theorem C62_distribution_converges (h : FiniteTarget max π q) (k : Nat) (hc : ConnectedIn π q k) {C : Type} (step : C → S × Aux XR → C) (c : C) :
    ∃ ρ : ℝ, 0 ≤ ρ ∧ ρ < 1 ∧ ∀ (f : S → ℝ) (a d : ℝ), (∀ x, a ≤ f x ∧ f x ≤ a + d) → ∀ (n : Nat) (start : S),
      |expected max π q step c start n (fun script => f (currentSample max π q step c start script)) - targetMean π f| ≤ ρ ^ (n / k) * d := by
  obtain ⟨y0, hk⟩ := connectedIn_transition h k hc
  obtain ⟨ρ, h0, h1, h2⟩ := converges (stochastic_transition h) π h.nonneg h.nonzero
    (C42_stationary max π q h.nonneg h.proposals_nonneg h.proposals_total h.no_marker) k y0 hk
  refine ⟨ρ, h0, h1, fun f a d hf n start => ?_⟩
  rw [expected_eq max π q step c start n _ (fun l => f (lastOf start l)) (fun script _ => by
    obtain ⟨e1, e2⟩ := scriptRun_eq max π q step c start script
    rw [e1, e2]), expectPath_last]
  exact h2 f a d hf n start

/-- **C62**: the probability that the sample after `n` steps is `y` converges to the target probability of `y`. -/
theorem C62_probability_converges (h : FiniteTarget max π q) (k : Nat) (hk : 0 < k) (hc : ConnectedIn π q k) {C : Type} (step : C → S × Aux XR → C) (c : C)
    (start y : S) :
    Filter.Tendsto (fun n => probability max π q step c start n (fun script => currentSample max π q step c start script = y))
      Filter.atTop (nhds (π y / ∑ x, π x)) := by
  classical
  obtain ⟨ρ, h0, h1, h2⟩ := C62_distribution_converges h k hc step c
  have h3 := fun n => h2 (fun x => if x = y then 1 else 0) 0 1 (fun x => by by_cases hx : x = y <;> simp [hx]) n start
  have hp : targetMean π (fun x => if x = y then 1 else 0) = π y / ∑ x, π x := by simp [targetMean]
  rw [hp] at h3
  rw [tendsto_iff_dist_tendsto_zero]
  have hlim : Filter.Tendsto (fun n => ρ ^ (n / k)) Filter.atTop (nhds 0) :=
    (tendsto_pow_atTop_nhds_zero_of_lt_one h0 h1).comp (Nat.tendsto_div_const_atTop hk.ne')
  refine squeeze_zero (fun n => dist_nonneg) (fun n => ?_) hlim
  rw [Real.dist_eq]
  have := h3 n
  rw [mul_one] at this
  unfold probability
  convert this using 3

/-! ### MaximumProbabilitySample -/

theorem ltb_logOf (a b : ℝ) (ha : 0 ≤ a) (hb : 0 ≤ b) : XR.ltb (logOf a) (logOf b) = true ↔ a < b := by
  unfold logOf
  by_cases h1 : a = 0
  · by_cases h2 : b = 0
    · simp [h1, h2, XR.ltb]
    · simp [h1, h2, XR.ltb, lt_of_le_of_ne hb (Ne.symm h2)]
  · have ha' : 0 < a := lt_of_le_of_ne ha (Ne.symm h1)
    by_cases h2 : b = 0
    · simp [h1, h2, XR.ltb, ha]
    · have hb' : 0 < b := lt_of_le_of_ne hb (Ne.symm h2)
      simp [h1, h2, XR.ltb, Real.log_lt_log_iff ha' hb']

omit [Fintype S] in
/-- what MaximumProbabilitySample holds after samples with their log likelihoods -/
theorem bestOf_messages (hπ : ∀ x, 0 ≤ π x) (hm : ∀ x, Real.log (π x) ≠ -max) (S₀ : S) (l : List (S × Aux XR))
    (hl : ∀ m ∈ l, llEntry m.2 = .val (logOf (π m.1))) (hne : l ≠ []) :
    ∃ b, l.foldl (bestStep max) (.ok ⟨S₀, .fin (-max)⟩) = .ok ⟨b, logOf (π b)⟩ ∧ b ∈ l.map Prod.fst ∧
      ∀ x ∈ l.map Prod.fst, π x ≤ π b := by
  have hlow : ∀ x, XR.eqb (logOf (π x)) (.fin (-max)) = false := by
    intro x
    unfold logOf
    split
    · rfl
    · simp [XR.eqb, hm x]
  induction l using List.reverseRecOn with
  | nil => exact absurd rfl hne
  | append_singleton l m ih =>
    have hmm := hl m (by simp)
    rw [List.foldl_append, List.foldl_cons, List.foldl_nil]
    by_cases hl0 : l = []
    · subst hl0
      refine ⟨m.1, ?_, by simp, by simp⟩
      simp only [List.foldl_nil, bestStep, Except.bind, MaxProbState.consume, hmm]
      simp [XR.eqb]
    · obtain ⟨b, h1, h2, h3⟩ := ih (fun m' hm' => hl m' (by simp [hm'])) hl0
      rw [h1]
      simp only [bestStep, Except.bind, MaxProbState.consume, hmm, hlow, Bool.false_eq_true, if_false]
      by_cases hgt : XR.ltb (logOf (π b)) (logOf (π m.1)) = true
      · rw [if_pos hgt]
        rw [ltb_logOf _ _ (hπ _) (hπ _)] at hgt
        refine ⟨m.1, rfl, by simp, ?_⟩
        intro x hx
        simp only [List.map_append, List.map_cons, List.map_nil, List.mem_append, List.mem_singleton] at hx
        rcases hx with hx | rfl
        · exact (h3 x hx).trans hgt.le
        · exact le_rfl
      · rw [if_neg hgt]
        rw [ltb_logOf _ _ (hπ _) (hπ _), not_lt] at hgt
        refine ⟨b, rfl, by simp only [List.map_append, List.mem_append]; exact Or.inl h2, ?_⟩
        intro x hx
        simp only [List.map_append, List.map_cons, List.map_nil, List.mem_append, List.mem_singleton] at hx
        rcases hx with hx | rfl
        · exact h3 x hx
        · exact hgt

omit [Fintype S] in
theorem messages_have_likelihood {C : Type} (step : C → S × Aux XR → C) (c : C) (start : S) (script : List (Chance S)) :
    ∀ m ∈ issuedOf (scriptRun max π q step c start script).1, llEntry m.2 = .val (logOf (π m.1)) := by
  let _ := idealOps max
  have hL : LikelihoodIs (attach (scriptWorld π q) step) (fun x => logOf (π x)) := by
    intro x w d w' hx
    simp only [attach, scriptWorld, Prod.mk.injEq, Except.ok.injEq] at hx
    exact hx.1.symm
  obtain ⟨moves, -, -, -, h4, -⟩ := mhSample_issued (attach (scriptWorld π q) step) (fun x => logOf (π x)) hL start
    script.length (([], script), c)
  intro m hm
  unfold scriptRun at hm
  rw [h4] at hm
  obtain ⟨m', -, rfl⟩ := List.mem_map.mp hm
  simp [llEntry, List.lookup]

/-- **C62** (finding the most likely sample): the probability that `MaximumProbabilitySample` holds, after `n` samples, a sample
that maximises the target density is at least `1 - K/n`. -/
theorem C62_finds_maximum (h : FiniteTarget max π q) (hc : Connected π q) (S₀ : S) :
    ∃ K : ℝ, ∀ (n : Nat) (start : S), 1 ≤ n →
      1 - K / n ≤ probability max π q (bestStep max) (.ok ⟨S₀, .fin (-max)⟩) start n (fun script =>
        ∃ s, consumerState max π q (bestStep max) (.ok ⟨S₀, .fin (-max)⟩) start script = .ok s ∧ ∀ y, π y ≤ π s.best) := by
  classical
  have : Nonempty S := ⟨S₀⟩
  obtain ⟨y, hy⟩ := Finite.exists_max π
  have hypos : 0 < π y := by
    by_contra hcon
    have : ∑ x, π x ≤ 0 := Finset.sum_nonpos (fun x _ => (hy x).trans (not_lt.mp hcon))
    linarith [h.nonzero]
  obtain ⟨K, hK⟩ := mean_converges h hc (fun x => if x = y then 1 else 0)
  have hp : targetMean π (fun x => if x = y then 1 else 0) = π y / ∑ x, π x := by simp [targetMean]
  have hppos : 0 < π y / ∑ x, π x := div_pos hypos h.nonzero
  refine ⟨K / (π y / ∑ x, π x) ^ 2, fun n start hn => ?_⟩
  obtain ⟨c0, hc0⟩ : ∃ c0 : Except Fault (MaxProbState S XR), c0 = .ok ⟨S₀, .fin (-max)⟩ := ⟨_, rfl⟩
  rw [← hc0]
  have key := hK _ (bestStep max) c0 start n (fun script => ((samplesIssued max π q (bestStep max) c0 start script).map (fun x => if x = y then (1:ℝ) else 0)).sum / n)
    hn (fun _ _ => rfl)
  have hstate : ∀ script : List (Chance S), script.length = n → ∃ b,
      consumerState max π q (bestStep max) c0 start script = .ok ⟨b, logOf (π b)⟩ ∧ b ∈ samplesIssued max π q (bestStep max) c0 start script ∧
      ∀ x ∈ samplesIssued max π q (bestStep max) c0 start script, π x ≤ π b := by
    intro script hs
    rw [consumerState_eq]
    unfold samplesIssued
    have hne : issuedOf (scriptRun max π q (bestStep max) c0 start script).1 ≠ [] := by
      intro he
      have h1 := samplesIssued_length (max := max) (π := π) (q := q) (bestStep max) c0 start script
      unfold samplesIssued at h1
      rw [he] at h1
      simp at h1
      omega
    have := bestOf_messages h.nonneg h.no_marker S₀ _ (messages_have_likelihood (bestStep max) c0 start script) hne
    rw [← hc0] at this
    exact this
  have hevent : ∀ script : List (Chance S), script.length = n →
      ((∃ s, consumerState max π q (bestStep max) c0 start script = .ok s ∧ ∀ y, π y ≤ π s.best) ↔
        ∃ b ∈ samplesIssued max π q (bestStep max) c0 start script, ∀ x, π x ≤ π b) := by
    intro script hs
    obtain ⟨b, h1, h2, h3⟩ := hstate script hs
    constructor
    · rintro ⟨s, hs1, hs2⟩
      rw [h1] at hs1
      cases hs1
      exact ⟨b, h2, hs2⟩
    · rintro ⟨b', hb', hmax⟩
      exact ⟨_, h1, fun x => (hmax x).trans (h3 b' hb')⟩
  unfold probability
  rw [expected_eq max π q (bestStep max) c0 start n _ (fun l => ((l.map (fun x => if x = y then (1:ℝ) else 0)).sum / n - targetMean π (fun x => if x = y then 1 else 0)) ^ 2)
    (fun script _ => rfl)] at key
  rw [expected_eq max π q (bestStep max) c0 start n _ (fun l => if ∃ b ∈ l, ∀ x, π x ≤ π b then 1 else 0) (fun script hs => by
    simp only [hevent script hs])]
  have hle := expectPath_mono (stochastic_transition h) n
    (fun l => 1 + (- (1 / (π y / ∑ x, π x) ^ 2)) * ((l.map (fun x => if x = y then (1:ℝ) else 0)).sum / n - targetMean π (fun x => if x = y then 1 else 0)) ^ 2)
    (fun l => if ∃ b ∈ l, ∀ x, π x ≤ π b then 1 else 0) start (fun l _ => by
      by_cases hb : ∃ b ∈ l, ∀ x, π x ≤ π b
      · rw [if_pos hb]
        have : 0 ≤ (1 / (π y / ∑ x, π x) ^ 2) * ((l.map (fun x => if x = y then (1:ℝ) else 0)).sum / n - targetMean π (fun x => if x = y then 1 else 0)) ^ 2 := by positivity
        linarith
      · rw [if_neg hb]
        have hz : (l.map (fun x => if x = y then (1:ℝ) else 0)).sum = 0 := by
          have : ∀ x ∈ l, (if x = y then (1:ℝ) else 0) = 0 := by
            intro x hx
            rw [if_neg]
            rintro rfl
            exact hb ⟨x, hx, hy⟩
          rw [List.map_congr_left this]; simp
        rw [hz, hp]
        have : (0 / (n:ℝ) - π y / ∑ x, π x) ^ 2 = (π y / ∑ x, π x) ^ 2 := by ring
        rw [this]
        have h2 : (1 / (π y / ∑ x, π x) ^ 2) * (π y / ∑ x, π x) ^ 2 = 1 := by
          rw [one_div, inv_mul_cancel₀ (by positivity)]
        linarith)
  refine le_trans ?_ hle
  rw [expectPath_add, expectPath_const (stochastic_transition h), expectPath_mul]
  have e : K / (π y / ∑ x, π x) ^ 2 / n = (1 / (π y / ∑ x, π x) ^ 2) * (K / n) := by ring
  rw [e]
  have : (1 / (π y / ∑ x, π x) ^ 2) * expectPath (transition max π q) n (fun l => ((l.map (fun x => if x = y then (1:ℝ) else 0)).sum / n - targetMean π (fun x => if x = y then 1 else 0)) ^ 2) start
      ≤ (1 / (π y / ∑ x, π x) ^ 2) * (K / n) := mul_le_mul_of_nonneg_left key (by positivity)
  linarith

/-! ### the premises can be met: three states, one of them of probability zero, and proposals that are not symmetric -/

theorem exampleTarget : FiniteTarget 1000 (fun x : Fin 3 => if x = 0 then 0 else if x = 1 then 1 else 2)
    (fun x y : Fin 3 => if x = y then 0 else if (x = 0 ∧ y = 1) ∨ (x = 1 ∧ y = 2) ∨ (x = 2 ∧ y = 0) then 1/4 else 3/4) where
  nonneg := by intro x; fin_cases x <;> simp
  nonzero := by simp [Fin.sum_univ_three]; norm_num
  proposals_nonneg := by intro x y; split <;> [norm_num; (split <;> norm_num)]
  proposals_total := by intro x; fin_cases x <;> simp [Fin.sum_univ_three] <;> norm_num
  no_marker := by
    intro x
    have : -(1000:ℝ) < 0 := by norm_num
    fin_cases x
    · simp
    · simp
    · simp only [Fin.reduceFinMk, Fin.reduceEq, if_false]
      have : 0 ≤ Real.log 2 := Real.log_nonneg (by norm_num)
      linarith

theorem exampleConnected : Connected (fun x : Fin 3 => if x = 0 then (0:ℝ) else if x = 1 then 1 else 2)
    (fun x y : Fin 3 => if x = y then 0 else if (x = 0 ∧ y = 1) ∨ (x = 1 ∧ y = 2) ∨ (x = 2 ∧ y = 0) then 1/4 else 3/4) := by
  refine ⟨2, fun x => ?_⟩
  by_cases hx : x = 2
  · rw [hx]
  · refine Relation.ReflTransGen.single ?_
    fin_cases x
    · simp
    · simp
    · simp at hx

/-- one step leads from every state to state 2: from state 2 itself by the rejection of the proposal 1 -/
theorem exampleConnectedIn : ConnectedIn (fun x : Fin 3 => if x = 0 then (0:ℝ) else if x = 1 then 1 else 2)
    (fun x y : Fin 3 => if x = y then 0 else if (x = 0 ∧ y = 1) ∨ (x = 1 ∧ y = 2) ∨ (x = 2 ∧ y = 0) then 1/4 else 3/4) 1 := by
  refine ⟨2, fun x => ?_⟩
  fin_cases x
  · exact ⟨2, Or.inl (by simp), rfl⟩
  · exact ⟨2, Or.inl (by simp), rfl⟩
  · exact ⟨2, Or.inr ⟨rfl, 1, by simp, by simp; norm_num⟩, rfl⟩

/-! ### Instances: concrete cases that meet the hypotheses of the theorems above -/

/-- a subdivision of the real line into two bins -/
theorem exampleSubdivision : Subdivision ([-1, 1/2, 3] : List ℝ) := ⟨by norm_num, by simp⟩

example := C62_total_probability (meanStep (fun (x : Fin 3) (_ : Unit) => (x.val : ℝ))) (MeanState.init (fun _ => 0)) exampleTarget 0 7
example := C62_mean_square exampleTarget exampleConnected (fun x (_ : Unit) => (x.val : ℝ)) (fun _ => 5) ()
example := C62_mean_in_probability exampleTarget exampleConnected (fun x (_ : Unit) => (x.val : ℝ)) (fun _ => 5) () 0 (1/10) (by norm_num)
example := C62_histogram exampleTarget exampleConnected true [-1, 1/2, 3] exampleSubdivision (fun x => (x.val : ℝ)) 1 (by simp)
example := C62_covariance exampleTarget exampleConnected (fun x (i : Bool) => if i then (x.val : ℝ) else 1) (fun _ => 5) (fun _ _ => 6) (fun _ _ => 7) true false
example := C62_distribution_converges exampleTarget 1 exampleConnectedIn (meanStep (fun (x : Fin 3) (_ : Unit) => (x.val : ℝ))) (MeanState.init (fun _ => 0))
example := C62_probability_converges exampleTarget 1 one_pos exampleConnectedIn (meanStep (fun (x : Fin 3) (_ : Unit) => (x.val : ℝ))) (MeanState.init (fun _ => 0)) 0 2
example := C62_finds_maximum exampleTarget exampleConnected 0

end SampleFlow
