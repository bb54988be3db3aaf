import Verif.Proofs.GeneralNumbers
import Verif.Props.LargeNumbers
import Mathlib.MeasureTheory.Constructions.UnitInterval

/-!
# Property C73: the law of large numbers for Metropolis-Hastings on general sample spaces

The samples are elements of a measurable space with a measure `μ`, for example ℝⁿ; `π` is the target density, not necessarily normalised, `q x` the density of the proposals from `x`: see
`GeneralTarget`.  The chain is assumed to forget where it was, to some extent (`Forgets`), within `k` steps; `C73_forgets` is a criterion that implies this.  Arithmetic is exact.  Expected values and
probabilities are over the proposals and random numbers of a run of `MetropolisHastings::sample` from any start of positive probability; the consumer is connected to the sampler during this run.
-/

namespace SampleFlow

open Spec MeasureTheory ProbabilityTheory Ergodic Doeblin General
open scoped ENNReal

variable {S : Type} [MeasurableSpace S] {μ : Measure S} [SFinite μ] {max : ℝ} {π : S → ℝ} {q : S → S → ℝ}

section
variable {C : Type} (step : C → S × Aux XR → C) (c : C)

/-- **C73** (sanity): the certain event has probability one. -/
theorem C73_total_probability (h : GeneralTarget μ max π q) (start : S) (hs : GoodStart max π start) (n : Nat) :
    probOf μ max π q step c start n (fun _ => True) = 1 := by
  have := markov h
  unfold probOf
  rw [meanOf_W (σ := Unit) (φ := fun u _ => u) (F := fun _ => 1) measurable_fst measurable_const () h step c start hs _ n (fun _ _ => by simp)]
  exact W_const 1 n _

/-- **C73** (convergence to the target distribution): the probability that the sample after `n` steps is in `B` differs from the target probability of `B` by at most `(1-ε)^⌊n/k⌋`, whatever the starting point
and the set `B`. -/
theorem C73_distribution_converges (h : GeneralTarget μ max π q) (k : Nat) (hk : 1 ≤ k) (ε : ℝ) (hε : 0 < ε) (hf : Forgets μ max π q k ε) (B : Set S) (hB : MeasurableSet B)
    (start : S) (hs : GoodStart max π start) (n : Nat) :
    |(probOf μ max π q step c start n (fun script => currentSample max π q step c start script ∈ B)).toReal - (targetProb μ π B).toReal| ≤ (1 - ε) ^ (n / k) := by
  classical
  have hM := markov h
  have hP := target_prob h
  set ind : S → ℝ := B.indicator 1 with hind
  have hmi : Measurable ind := measurable_one.indicator hB
  have e1 : probOf μ max π q step c start n (fun script => currentSample max π q step c start script ∈ B) =
      ENNReal.ofReal ((T (mhKernel h.toDensities))^[n] ind start) ∧ 0 ≤ (T (mhKernel h.toDensities))^[n] ind start := by
    have hb1 : BM ind 1 := ⟨hmi, fun x => by by_cases hx : x ∈ B <;> simp [hind, hx]⟩
    obtain ⟨e2, e3⟩ := TL_ofReal (mhKernel h.toDensities) n ind 1 hb1 (fun x => by by_cases hx : x ∈ B <;> simp [hind, hx]) start
    refine ⟨?_, e3⟩
    rw [← e2, ← W_iterate]
    unfold probOf
    refine meanOf_W (σ := Unit) (φ := fun u _ => u) measurable_fst (hmi.ennreal_ofReal.comp measurable_snd) () h step c start hs _ n (fun script _ => ?_)
    by_cases hx : currentSample max π q step c start script ∈ B <;> simp [hind, hx]
  have e4 : (targetProb μ π B).toReal = ∫ x, ind x ∂(target μ π) := by
    rw [← target_apply _ hB, hind, integral_indicator_one hB]; rfl
  set t := (targetProb μ π B).toReal with ht
  have ht0 : 0 ≤ t := ENNReal.toReal_nonneg
  have ht1 : t ≤ 1 := by
    rw [ht, ← target_apply _ hB]
    have := prob_le_one (μ := target μ π) (s := B)
    exact ENNReal.toReal_le_of_le_ofReal zero_le_one (by simpa using this)
  have hbi : BM ind 1 := ⟨hmi, fun x => by by_cases hx : x ∈ B <;> simp [hind, hx]⟩
  have hbm : BM (fun x => ind x + -t) 1 := by
    refine ⟨hmi.add_const _, fun x => ?_⟩
    by_cases hx : x ∈ B
    · simp only [hind, Set.indicator_of_mem hx, Pi.one_apply]; rw [abs_le]; constructor <;> linarith
    · simp only [hind, Set.indicator_of_notMem hx, zero_add]; rw [abs_le]; constructor <;> linarith
  have h0 : ∫ x, (ind x + -t) ∂(target μ π) = 0 := by
    rw [integral_add (hbi.integrable _) (integrable_const _), ← e4]; simp
  have hc := ((minorised h k hk ε hε.le hf start hs).converges (invariant h) hbm h0 n).2 start
  rw [iter_add hbi (show BM (fun _ : S => -t) 1 from ⟨measurable_const, fun _ => by rw [abs_neg, abs_of_nonneg ht0]; exact ht1⟩), iter_const, mul_one] at hc
  rw [e1.1, ENNReal.toReal_ofReal e1.2]
  exact hc

end

/-! ### MeanValue -/

/-- **C73** (law of large numbers for MeanValue): let `f` be measurable and bounded by `b` (for component `i`).  Then the mean square difference between `MeanValue::get()` after `n` samples and the expected value under
the target distribution is at most `(4 b² + 8 k b²/ε)/n`. -/
theorem C73_mean_square {ι : Type} (h : GeneralTarget μ max π q) (k : Nat) (hk : 1 ≤ k) (ε : ℝ) (hε : 0 < ε) (hf : Forgets μ max π q k ε) (f : S → ι → ℝ) (G : ι → ℝ) (i : ι)
    (hm : Measurable (fun x => f x i)) (b : ℝ) (hb : ∀ x, |f x i| ≤ b) (start : S) (hs : GoodStart max π start) (n : Nat) (hn : 1 ≤ n) :
    meanOf μ max π q (meanStep f) (MeanState.init G) start n (fun script => ENNReal.ofReal
        (((consumerState max π q (meanStep f) (MeanState.init G) start script).get i - targetExpectation μ π (fun x => f x i)) ^ 2)) ≤
      ENNReal.ofReal ((4 * b ^ 2 + 8 * k * b ^ 2 / ε) / n) := by
  refine General.mean_square h k hk ε hε hf (fun x => f x i) hm b hb _ _ start hs n hn
    (fun script => (consumerState max π q (meanStep f) (MeanState.init G) start script).get i) (fun script hl => ?_)
  rw [meanState_of_run f G start script (by intro h'; rw [h'] at hl; simp at hl; omega) i, hl]

/-- **C73** (convergence in probability): the probability that `MeanValue::get()` after `n` samples differs from the expected value under the target distribution by `δ` or more tends to zero as `n` grows. -/
theorem C73_mean_in_probability {ι : Type} (h : GeneralTarget μ max π q) (k : Nat) (hk : 1 ≤ k) (ε : ℝ) (hε : 0 < ε) (hf : Forgets μ max π q k ε) (f : S → ι → ℝ) (G : ι → ℝ)
    (i : ι) (hm : Measurable (fun x => f x i)) (b : ℝ) (hb : ∀ x, |f x i| ≤ b) (start : S) (hs : GoodStart max π start) (δ : ℝ) (hδ : 0 < δ) :
    Filter.Tendsto (fun n => probOf μ max π q (meanStep f) (MeanState.init G) start n (fun script =>
        δ ≤ |(consumerState max π q (meanStep f) (MeanState.init G) start script).get i - targetExpectation μ π (fun x => f x i)|))
      Filter.atTop (nhds 0) := by
  classical
  set K := 4 * b ^ 2 + 8 * k * b ^ 2 / ε with hK
  have hlim : Filter.Tendsto (fun n : Nat => ENNReal.ofReal ((K / δ ^ 2) / n)) Filter.atTop (nhds 0) := by
    have := ENNReal.tendsto_ofReal (tendsto_const_div_atTop_nhds_zero_nat (K / δ ^ 2))
    simpa using this
  refine tendsto_of_tendsto_of_tendsto_of_le_of_le' tendsto_const_nhds hlim (Filter.Eventually.of_forall (fun _ => zero_le)) ?_
  filter_upwards [Filter.eventually_ge_atTop 1] with n hn
  have h1 := C73_mean_square h k hk ε hε hf f G i hm b hb start hs n hn
  have h2 : probOf μ max π q (meanStep f) (MeanState.init G) start n (fun script =>
        δ ≤ |(consumerState max π q (meanStep f) (MeanState.init G) start script).get i - targetExpectation μ π (fun x => f x i)|) ≤
      meanOf μ max π q (meanStep f) (MeanState.init G) start n (fun script => ENNReal.ofReal (1 / δ ^ 2) * ENNReal.ofReal
        (((consumerState max π q (meanStep f) (MeanState.init G) start script).get i - targetExpectation μ π (fun x => f x i)) ^ 2)) := by
    unfold probOf meanOf
    refine meanGiven_mono _ _ _ _ _ _ _ (fun script _ => ?_)
    split
    · rename_i hle
      rw [← ENNReal.ofReal_mul (by positivity), ← ENNReal.ofReal_one]
      refine ENNReal.ofReal_le_ofReal ?_
      rw [one_div, ← div_eq_inv_mul, le_div_iff₀ (by positivity), one_mul]
      refine (pow_le_pow_left₀ hδ.le hle 2).trans (le_of_eq (sq_abs _))
    · exact zero_le
  refine h2.trans ?_
  unfold meanOf at h1 ⊢
  rw [meanGiven_mul _ _ _ _ _ ENNReal.ofReal_ne_top]
  refine (mul_le_mul_right h1 _).trans (le_of_eq ?_)
  rw [← ENNReal.ofReal_mul (by positivity)]
  congr 1
  ring

/-! ### Histogram -/

theorem measurableSet_inBin (pts : List ℝ) (f : S → ℝ) (hm : Measurable f) (j : Nat) (hj : j + 1 < pts.length) : MeasurableSet {x | inBin pts j (f x) = true} := by
  have : MeasurableSet {y : ℝ | inBin pts j y = true} := by
    have e : {y : ℝ | inBin pts j y = true} =
        ((Set.Ioi (pts[j]'(by omega)) ∪ (if j = 0 then {pts[j]'(by omega)} else ∅)) ∩ Set.Iic pts[j+1]) ∩ (if j + 2 = pts.length then Set.Iio pts[j+1] else Set.univ) := by
      ext y
      simp only [inBin, List.getElem?_eq_getElem (show j < pts.length by omega), List.getElem?_eq_getElem hj, Set.mem_setOf_eq]
      generalize pts[j]'(by omega) = lo
      generalize pts[j+1] = hi
      by_cases h0 : j = 0 <;> by_cases h1 : j + 2 = pts.length <;>
        simp [h0, h1, le_iff_lt_or_eq, eq_comm (a := y)] <;> clear * - <;> tauto
    rw [e]
    refine ((measurableSet_Ioi.union ?_).inter measurableSet_Iic).inter ?_
    · split
      · exact measurableSet_singleton _
      · exact MeasurableSet.empty
    · split
      · exact measurableSet_Iio
      · exact MeasurableSet.univ
  exact hm this

omit [SFinite μ] in
theorem targetProb_inBin (h : GeneralTarget μ max π q) (pts : List ℝ) (f : S → ℝ) (hm : Measurable f) (j : Nat) (hj : j + 1 < pts.length) :
    (targetProb μ π {x | inBin pts j (f x)}).toReal = targetExpectation μ π (fun x => if inBin pts j (f x) then 1 else 0) := by
  have hset := measurableSet_inBin pts f hm j hj
  rw [← target_apply _ hset, ← integral_target h]
  have : (fun x => if inBin pts j (f x) = true then (1:ℝ) else 0) = {x | inBin pts j (f x) = true}.indicator 1 := by
    funext x; by_cases hx : inBin pts j (f x) = true <;> simp [hx]
  rw [this, integral_indicator_one hset]; rfl

/-- **C73** (histograms): the fraction of the `n` samples that a Histogram has counted in bin `j` converges to the probability of this bin under the target distribution, with a mean square difference of at
most `(4 + 8 k/ε)/n`. -/
theorem C73_histogram (h : GeneralTarget μ max π q) (k : Nat) (hk : 1 ≤ k) (ε : ℝ) (hε : 0 < ε) (hf : Forgets μ max π q k ε) (debug : Bool) (pts : List ℝ) (sub : Subdivision pts)
    (f : S → ℝ) (hm : Measurable f) (j : Nat) (hj : j + 1 < pts.length) (start : S) (hs : GoodStart max π start) (n : Nat) (hn : 1 ≤ n) :
    meanOf μ max π q (histogramStep debug f) (.ok ⟨pts, List.replicate (pts.length - 1) 0⟩) start n (fun script => ENNReal.ofReal
        (((binCount (consumerState max π q (histogramStep debug f) (.ok ⟨pts, List.replicate (pts.length - 1) 0⟩) start script) j : ℝ) / n
          - (targetProb μ π {x | inBin pts j (f x)}).toReal) ^ 2)) ≤ ENNReal.ofReal ((4 + 8 * k / ε) / n) := by
  have hP := target_prob h
  have hset := measurableSet_inBin pts f hm j hj
  have hprob := targetProb_inBin h pts f hm j hj
  rw [hprob]
  have := General.mean_square h k hk ε hε hf (fun x => if inBin pts j (f x) then 1 else 0) (Measurable.ite hset measurable_const measurable_const) 1
    (fun x => by split <;> simp) (histogramStep debug f) (.ok ⟨pts, List.replicate (pts.length - 1) 0⟩) start hs n hn
    (fun script => (binCount (consumerState max π q (histogramStep debug f) (.ok ⟨pts, List.replicate (pts.length - 1) 0⟩) start script) j : ℝ) / n)
    (fun script hl => ?_)
  · simpa using this
  obtain ⟨hist, rows, h1, h2, h3, h4⟩ := histogram_of_run (max := max) (π := π) (q := q) debug pts sub f start script
  have hk2 : j < rows.length := by omega
  have hb : binCount (consumerState max π q (histogramStep debug f) (.ok ⟨pts, List.replicate (pts.length - 1) 0⟩) start script) j =
      ((samplesIssued max π q (histogramStep debug f) (.ok ⟨pts, List.replicate (pts.length - 1) 0⟩) start script).map f).countP (inBin pts j) := by
    rw [h1]
    simp only [binCount, h2, List.getElem?_eq_getElem hk2, h4 j hk2 hj, Option.map_some, Option.getD_some]
  rw [hb]
  congr 1
  generalize samplesIssued max π q (histogramStep debug f) (.ok ⟨pts, List.replicate (pts.length - 1) 0⟩) start script = l
  induction l with
  | nil => simp
  | cons a l ih =>
    simp only [List.map_cons, List.countP_cons, List.sum_cons, ← ih]
    push_cast
    rw [add_comm]

/-! ### CovarianceMatrix -/

theorem covariance_estimate (a b c F1 : ℝ) (n : Nat) (hn' : (2:ℝ) ≤ n) (A B D : ℝ) (hB : |B| ≤ F1) :
    ((n:ℝ) / ((n:ℝ) - 1) * (A - B * D) - (a - b * c)) ^ 2 ≤ 24 * ((A - a) ^ 2 + (F1 ^ 2 * (D - c) ^ 2 + c ^ 2 * (B - b) ^ 2)) + 8 * (a - b * c) ^ 2 / n := by
  have hB2 : B ^ 2 ≤ F1 ^ 2 := by
    rw [← sq_abs B]
    exact pow_le_pow_left₀ (abs_nonneg B) hB 2
  have hr0 : (n:ℝ) / (n - 1) = 1 + 1 / (n - 1) := by
    have : (n:ℝ) - 1 ≠ 0 := by linarith
    field_simp; ring
  have ht0 : 0 ≤ 1 / ((n:ℝ) - 1) := by apply div_nonneg <;> linarith
  have ht1 : 1 / ((n:ℝ) - 1) ≤ 1 := by rw [div_le_one (by linarith)]; linarith
  have ht2 : (1 / ((n:ℝ) - 1)) ^ 2 ≤ 4 / n := by
    rw [div_pow, one_pow, div_le_div_iff₀ (by nlinarith) (by linarith)]
    nlinarith
  rw [hr0]
  generalize 1 / ((n:ℝ) - 1) = t at *
  have e1 : (1 + t) * (A - B * D) - (a - b * c) = (1 + t) * ((A - a) - B * (D - c) - c * (B - b)) + t * (a - b * c) := by ring
  rw [e1]
  have e2 : ∀ u v : ℝ, (u + v) ^ 2 ≤ 2 * u ^ 2 + 2 * v ^ 2 := fun u v => by nlinarith [sq_nonneg (u - v)]
  refine (e2 _ _).trans ?_
  have e3 : ((A - a) - B * (D - c) - c * (B - b)) ^ 2 ≤ 3 * ((A - a) ^ 2 + (F1 ^ 2 * (D - c) ^ 2 + c ^ 2 * (B - b) ^ 2)) := by
    have : (B * (D - c)) ^ 2 ≤ F1 ^ 2 * (D - c) ^ 2 := by
      rw [mul_pow]; exact mul_le_mul_of_nonneg_right hB2 (sq_nonneg _)
    nlinarith [sq_nonneg ((A - a) + B * (D - c)), sq_nonneg ((A - a) + c * (B - b)), sq_nonneg (B * (D - c) - c * (B - b))]
  have e4 : ((1 + t) * ((A - a) - B * (D - c) - c * (B - b))) ^ 2 ≤ 4 * (3 * ((A - a) ^ 2 + (F1 ^ 2 * (D - c) ^ 2 + c ^ 2 * (B - b) ^ 2))) := by
    rw [mul_pow]
    exact mul_le_mul (by nlinarith) e3 (sq_nonneg _) (by norm_num)
  have e5 : (t * (a - b * c)) ^ 2 ≤ 4 / n * (a - b * c) ^ 2 := by
    rw [mul_pow]; exact mul_le_mul_of_nonneg_right ht2 (sq_nonneg _)
  have e6 : 8 * (a - b * c) ^ 2 / n = 2 * (4 / n * (a - b * c) ^ 2) := by ring
  rw [e6]
  linarith

omit [SFinite μ] in
theorem targetCov_eq (h : GeneralTarget μ max π q) (f g : S → ℝ) (hf : Measurable f) (hg : Measurable g) (bf bg : ℝ) (hbf : ∀ x, |f x| ≤ bf) (hbg : ∀ x, |g x| ≤ bg) :
    targetCov μ π f g = targetExpectation μ π (fun x => f x * g x) - targetExpectation μ π f * targetExpectation μ π g := by
  have hP := target_prob h
  unfold targetCov
  simp only [← integral_target h]
  have h1 : Integrable f (target μ π) := BM.integrable (⟨hf, hbf⟩ : BM f bf) _
  have h2 : Integrable g (target μ π) := BM.integrable (⟨hg, hbg⟩ : BM g bg) _
  have h3 : Integrable (fun x => f x * g x) (target μ π) :=
    BM.integrable (⟨hf.mul hg, fun x => by
      rw [abs_mul]; exact mul_le_mul (hbf x) (hbg x) (abs_nonneg _) ((abs_nonneg _).trans (hbf x))⟩ : BM (fun x => f x * g x) (bf * bg)) _
  generalize hu : ∫ x, f x ∂(target μ π) = u
  have e : ∀ v : ℝ, (fun x => (f x - u) * (g x - v)) = fun x => (f x * g x - v * f x) - (u * g x - u * v) := by
    intro v; funext x; ring
  generalize hv : ∫ x, g x ∂(target μ π) = v
  rw [e, integral_sub (f := fun x => f x * g x - v * f x) (g := fun x => u * g x - u * v) (h3.sub (h1.const_mul _)) ((h2.const_mul _).sub (integrable_const _)),
    integral_sub h3 (h1.const_mul _), integral_sub (h2.const_mul _) (integrable_const _), integral_const_mul, integral_const_mul, hu, hv]
  simp only [integral_const, probReal_univ, smul_eq_mul, one_mul]
  ring

/-- **C73** (law of large numbers for CovarianceMatrix): for components `i`, `j` that are measurable and bounded, the mean square difference between an entry of `CovarianceMatrix::get()` after `n ≥ 2` samples and
the covariance under the target distribution is at most `K/n`, where `K` does not depend on `n` or on the starting point. -/
theorem C73_covariance {ι : Type} (h : GeneralTarget μ max π q) (k : Nat) (hk : 1 ≤ k) (ε : ℝ) (hε : 0 < ε) (hf : Forgets μ max π q k ε) (f : S → ι → ℝ) (M : ι → ℝ) (C₀ G : ι → ι → ℝ)
    (i j : ι) (hmi : Measurable (fun x => f x i)) (hmj : Measurable (fun x => f x j)) (b1 b2 : ℝ) (hb1 : ∀ x, |f x i| ≤ b1) (hb2 : ∀ x, |f x j| ≤ b2) :
    ∃ K : ℝ, ∀ (n : Nat) (start : S), 2 ≤ n → GoodStart max π start →
      meanOf μ max π q (covarianceStep f G) (CovState.init M C₀) start n (fun script => ENNReal.ofReal
        (((consumerState max π q (covarianceStep f G) (CovState.init M C₀) start script).get i j
          - targetCov μ π (fun x => f x i) (fun x => f x j)) ^ 2)) ≤ ENNReal.ofReal (K / n) := by
  have hM := markov h
  rw [targetCov_eq h _ _ hmi hmj b1 b2 hb1 hb2]
  have hmij : Measurable (fun x => f x i * f x j) := hmi.mul hmj
  have hb12 : ∀ x, |f x i * f x j| ≤ b1 * b2 := fun x => by
      rw [abs_mul]; exact mul_le_mul (hb1 x) (hb2 x) (abs_nonneg _) ((abs_nonneg _).trans (hb1 x))
  obtain ⟨a, ha⟩ : ∃ a, a = targetExpectation μ π (fun x => f x i * f x j) := ⟨_, rfl⟩
  obtain ⟨b, hb⟩ : ∃ b, b = targetExpectation μ π (fun x => f x i) := ⟨_, rfl⟩
  obtain ⟨c, hc⟩ : ∃ c, c = targetExpectation μ π (fun x => f x j) := ⟨_, rfl⟩
  rw [← ha, ← hb, ← hc]
  obtain ⟨K1, hK1⟩ : ∃ K1, K1 = 4 * (b1 * b2) ^ 2 + 8 * k * (b1 * b2) ^ 2 / ε := ⟨_, rfl⟩
  obtain ⟨K2, hK2⟩ : ∃ K2, K2 = 4 * b1 ^ 2 + 8 * k * b1 ^ 2 / ε := ⟨_, rfl⟩
  obtain ⟨K3, hK3⟩ : ∃ K3, K3 = 4 * b2 ^ 2 + 8 * k * b2 ^ 2 / ε := ⟨_, rfl⟩
  have hK1' : 0 ≤ K1 := by rw [hK1]; positivity
  have hK2' : 0 ≤ K2 := by rw [hK2]; positivity
  have hK3' : 0 ≤ K3 := by rw [hK3]; positivity
  refine ⟨24 * (K1 + b1 ^ 2 * K3 + c ^ 2 * K2) + 8 * (a - b * c) ^ 2, fun n start hn hs => ?_⟩
  have hn1 : 1 ≤ n := by omega
  have hn' : (2:ℝ) ≤ n := by exact_mod_cast hn
  have hn0 : (0:ℝ) < n := by linarith
  have k1 := General.mean_square h k hk ε hε hf _ hmij (b1 * b2) hb12 (covarianceStep f G) (CovState.init M C₀) start hs n hn1 _ (fun _ _ => rfl)
  have k2 := General.mean_square h k hk ε hε hf _ hmi b1 hb1 (covarianceStep f G) (CovState.init M C₀) start hs n hn1 _ (fun _ _ => rfl)
  have k3 := General.mean_square h k hk ε hε hf _ hmj b2 hb2 (covarianceStep f G) (CovState.init M C₀) start hs n hn1 _ (fun _ _ => rfl)
  rw [← ha, ← hK1] at k1
  rw [← hb, ← hK2] at k2
  rw [← hc, ← hK3] at k3
  set st := covarianceStep f G with hst
  set c0 := CovState.init M C₀ with hc0
  -- the three sums
  let φ : (ℝ × ℝ × ℝ) → S → (ℝ × ℝ × ℝ) := fun s y => (s.1 + f y i * f y j, s.2.1 + f y i, s.2.2 + f y j)
  have hφ : Measurable (Function.uncurry φ) := by
    have m1 : Measurable fun p : (ℝ × ℝ × ℝ) × S => f p.2 i := hmi.comp measurable_snd
    have m2 : Measurable fun p : (ℝ × ℝ × ℝ) × S => f p.2 j := hmj.comp measurable_snd
    exact (measurable_fst.fst.add (m1.mul m2)).prodMk ((measurable_fst.snd.fst.add m1).prodMk (measurable_fst.snd.snd.add m2))
  have hfold : ∀ (l : List S) (s : ℝ × ℝ × ℝ), l.foldl φ s =
      (s.1 + (l.map (fun x => f x i * f x j)).sum, s.2.1 + (l.map (fun x => f x i)).sum, s.2.2 + (l.map (fun x => f x j)).sum) := by
    intro l
    induction l with
    | nil => intro s; simp
    | cons x l ih => intro s; rw [List.foldl_cons, ih]; simp only [φ, List.map_cons, List.sum_cons, add_assoc]
  have hrep : ∀ F : (ℝ × ℝ × ℝ) × S → ℝ≥0∞, Measurable F → meanOf μ max π q st c0 start n
      (fun script => F ((((samplesIssued max π q st c0 start script).map (fun x => f x i * f x j)).sum, ((samplesIssued max π q st c0 start script).map (fun x => f x i)).sum,
        ((samplesIssued max π q st c0 start script).map (fun x => f x j)).sum), currentSample max π q st c0 start script)) =
      W (mhKernel h.toDensities) φ F n ((0, 0, 0), start) := by
    intro F hF
    refine meanOf_W hφ hF (0, 0, 0) h st c0 start hs _ n (fun script _ => ?_)
    rw [hfold]
    simp only [zero_add]
  let F1 : (ℝ × ℝ × ℝ) × S → ℝ≥0∞ := fun p => ENNReal.ofReal ((p.1.1 / n - a) ^ 2)
  let F2 : (ℝ × ℝ × ℝ) × S → ℝ≥0∞ := fun p => ENNReal.ofReal ((p.1.2.1 / n - b) ^ 2)
  let F3 : (ℝ × ℝ × ℝ) × S → ℝ≥0∞ := fun p => ENNReal.ofReal ((p.1.2.2 / n - c) ^ 2)
  have hF1 : Measurable F1 := by simp only [F1]; fun_prop
  have hF2 : Measurable F2 := by simp only [F2]; fun_prop
  have hF3 : Measurable F3 := by simp only [F3]; fun_prop
  have w1 := (le_of_eq (hrep F1 hF1).symm).trans k1
  have w2 := (le_of_eq (hrep F2 hF2).symm).trans k2
  have w3 := (le_of_eq (hrep F3 hF3).symm).trans k3
  let F : (ℝ × ℝ × ℝ) × S → ℝ≥0∞ := fun p => ENNReal.ofReal 24 * F1 p + (ENNReal.ofReal (24 * b1 ^ 2) * F3 p + (ENNReal.ofReal (24 * c ^ 2) * F2 p + ENNReal.ofReal (8 * (a - b * c) ^ 2 / n)))
  have hF : Measurable F := by simp only [F]; fun_prop
  have hle : meanOf μ max π q st c0 start n (fun script => ENNReal.ofReal (((consumerState max π q st c0 start script).get i j - (a - b * c)) ^ 2)) ≤
      W (mhKernel h.toDensities) φ F n ((0, 0, 0), start) := by
    rw [← hrep F hF]
    unfold meanOf
    refine meanGiven_mono _ _ _ _ _ _ _ (fun script hl => ?_)
    have hl' : script.length = n := by simpa using hl
    rw [covState_of_run f M C₀ G start script (by omega) i j, hl']
    have hlen := samplesIssued_length (max := max) (π := π) (q := q) st c0 start script
    rw [hl'] at hlen
    simp only [F, F1, F2, F3]
    generalize hgl : samplesIssued max π q st c0 start script = l at *
    rw [← ENNReal.ofReal_mul (by norm_num), ← ENNReal.ofReal_mul (by positivity), ← ENNReal.ofReal_mul (by positivity), ← ENNReal.ofReal_add (by positivity) (by positivity),
      ← ENNReal.ofReal_add (by positivity) (by positivity), ← ENNReal.ofReal_add (by positivity) (by positivity)]
    refine ENNReal.ofReal_le_ofReal ?_
    have hB : |(l.map (fun x => f x i)).sum / n| ≤ b1 := by
      have : |(l.map (fun x => f x i)).sum| ≤ l.length * b1 := by
        clear hlen hgl
        induction l with
        | nil => simp
        | cons x l ih =>
          simp only [List.map_cons, List.sum_cons, List.length_cons]
          refine (abs_add_le _ _).trans ?_
          have := hb1 x
          push_cast
          linarith
      rw [hlen] at this
      rw [abs_div, Nat.abs_cast, div_le_iff₀ (by linarith)]
      linarith
    refine (covariance_estimate a b c b1 n hn' ((l.map (fun x => f x i * f x j)).sum / n) ((l.map (fun x => f x i)).sum / n) ((l.map (fun x => f x j)).sum / n) hB).trans (le_of_eq ?_)
    ring
  refine hle.trans ?_
  simp only [F]
  rw [W_add hφ (hF1.const_mul _), W_add hφ (hF3.const_mul _), W_add hφ (hF2.const_mul _), W_const, W_mul _ ENNReal.ofReal_ne_top, W_mul _ ENNReal.ofReal_ne_top,
    W_mul _ ENNReal.ofReal_ne_top]
  refine (add_le_add (mul_le_mul_right w1 _) (add_le_add (mul_le_mul_right w3 _) (add_le_add (mul_le_mul_right w2 _) le_rfl))).trans (le_of_eq ?_)
  rw [← ENNReal.ofReal_mul (by norm_num), ← ENNReal.ofReal_mul (by positivity), ← ENNReal.ofReal_mul (by positivity), ← ENNReal.ofReal_add (by positivity) (by positivity),
      ← ENNReal.ofReal_add (by positivity) (by positivity), ← ENNReal.ofReal_add (by positivity) (by positivity)]
  congr 1
  ring

/-! ### a criterion, and an example -/

/-- **C73** (a criterion): if the density of the proposals is, wherever the chain is, at least `ε` times the density of the (normalised) target, then after every single step the distribution has a part of
weight `ε` that is the target distribution. -/
theorem C73_forgets (h : GeneralTarget μ max π q) (ε : ℝ) (hq : ∀ x z, ε * (π z / ∫ y, π y ∂μ) ≤ q x z) : Forgets μ max π q 1 ε := by
  intro x hx B hB
  show _ ≤ expectNext μ max π q (B.indicator 1) x
  have hm1 : Measurable (B.indicator (1 : S → ℝ≥0∞)) := measurable_one.indicator hB
  rw [lintegral_mhKernel h.toDensities _ _ hm1 (fun _ _ => rfl) x hx, mhKernel_good _ x hx, lintegral_moved h.toDensities _ hm1]
  unfold stepVersion
  have hx0 : ENNReal.ofReal (π x) ≠ 0 := by simpa using hx.1
  rw [ENNReal.le_div_iff_mul_le (Or.inl hx0) (Or.inl ENNReal.ofReal_ne_top)]
  have hZ := h.nonzero
  have hw : ∫⁻ y, ENNReal.ofReal (π y) ∂μ = ENNReal.ofReal (∫ y, π y ∂μ) :=
    (ofReal_integral_eq_lintegral_ofReal h.integrable (Filter.Eventually.of_forall h.nonneg)).symm
  have h1 : ENNReal.ofReal ε * targetProb μ π B * ENNReal.ofReal (π x) = ∫⁻ z, ENNReal.ofReal (π x * (ε * (π z / ∫ y, π y ∂μ))) * B.indicator 1 z ∂μ := by
    have e : ∀ z, ENNReal.ofReal (π x * (ε * (π z / ∫ y, π y ∂μ))) * B.indicator 1 z =
        ENNReal.ofReal ε * ENNReal.ofReal (π x) * (ENNReal.ofReal (∫ y, π y ∂μ))⁻¹ * B.indicator (fun z => ENNReal.ofReal (π z)) z := by
      intro z
      by_cases hz : z ∈ B
      · rw [Set.indicator_of_mem hz, Set.indicator_of_mem hz, Pi.one_apply, mul_one, ← ENNReal.ofReal_inv_of_pos hZ,
          ENNReal.ofReal_mul (h.nonneg x), ENNReal.ofReal_mul' (div_nonneg (h.nonneg z) hZ.le), div_eq_mul_inv, ENNReal.ofReal_mul (h.nonneg z)]
        ring
      · rw [Set.indicator_of_notMem hz, Set.indicator_of_notMem hz, mul_zero, mul_zero]
    simp only [e]
    rw [lintegral_const_mul' _ _ (ENNReal.mul_ne_top (ENNReal.mul_ne_top ENNReal.ofReal_ne_top ENNReal.ofReal_ne_top) (ENNReal.inv_ne_top.mpr (by simpa using hZ))),
      lintegral_indicator hB]
    unfold targetProb
    rw [hw, ENNReal.div_eq_inv_mul]
    ring
  rw [h1]
  refine lintegral_mono (fun z => ?_)
  refine le_trans ?_ le_self_add
  refine mul_le_mul_left ?_ _
  unfold mFlow
  refine ENNReal.ofReal_le_ofReal (le_min (mul_le_mul_of_nonneg_left (hq x z) (h.nonneg x)) ?_)
  have := mul_le_mul_of_nonneg_left (hq z x) (h.nonneg z)
  refine le_trans (le_of_eq ?_) this
  ring

/-- An example on the unit interval: the target density is `1 + x`, proposals are uniformly distributed. -/
theorem example_target (max : ℝ) (hmax : 0 < max) : GeneralTarget (volume : Measure unitInterval) max (fun x => 1 + (x : ℝ)) (fun _ _ => 1) where
  nonneg x := by have := x.2.1; linarith
  proposals_nonneg _ _ := zero_le_one
  measurable := measurable_const.add measurable_subtype_coe
  proposals_measurable := measurable_const
  proposals_total _ := by simp
  no_marker := Filter.Eventually.of_forall (fun x => by
    have := Real.log_nonneg (show (1:ℝ) ≤ 1 + x by have := x.2.1; linarith)
    linarith)
  integrable := Integrable.of_bound (C := 2) (measurable_const.add measurable_subtype_coe).aestronglyMeasurable
    (Filter.Eventually.of_forall (fun x => by
      have h0 := x.2.1
      have h1 := x.2.2
      rw [Real.norm_eq_abs, abs_of_nonneg (by linarith)]; linarith))
  nonzero := by
    have h1 : Integrable (fun x : unitInterval => 1 + (x : ℝ)) volume := Integrable.of_bound (C := 2) (measurable_const.add measurable_subtype_coe).aestronglyMeasurable
      (Filter.Eventually.of_forall (fun x => by
        have h0 := x.2.1
        have h1 := x.2.2
        rw [Real.norm_eq_abs, abs_of_nonneg (by linarith)]; linarith))
    have := integral_mono (integrable_const 1) h1 (fun x => by have := x.2.1; show (1:ℝ) ≤ 1 + x; linarith)
    simp only [integral_const, probReal_univ, smul_eq_mul, one_mul] at this
    linarith

/-- The chain of this example forgets half of where it was in every step. -/
theorem example_forgets (max : ℝ) (hmax : 0 < max) : Forgets (volume : Measure unitInterval) max (fun x => 1 + (x : ℝ)) (fun _ _ => 1) 1 (1/2) := by
  refine C73_forgets (example_target max hmax) _ (fun x z => ?_)
  have h1 : (1:ℝ) ≤ ∫ y : unitInterval, 1 + (y : ℝ) := by
    have := integral_mono (integrable_const (1:ℝ)) (example_target max hmax).integrable (fun x => by have := x.2.1; show (1:ℝ) ≤ 1 + x; linarith)
    simpa using this
  have h0 := z.2.1
  have h2 := z.2.2
  have : (1 + (z:ℝ)) / ∫ y : unitInterval, 1 + (y : ℝ) ≤ 2 := by
    rw [div_le_iff₀ (by linarith)]; linarith
  linarith

/-- A concrete case: the mean of the samples themselves, in this example, from any starting point. -/
example (start : unitInterval) (n : Nat) (hn : 1 ≤ n) :
    meanOf (volume : Measure unitInterval) 10 (fun x => 1 + (x : ℝ)) (fun _ _ => 1) (meanStep (fun (x : unitInterval) (_ : Unit) => (x : ℝ))) (MeanState.init (fun _ => 0)) start n
      (fun script => ENNReal.ofReal (((consumerState 10 (fun x : unitInterval => 1 + (x : ℝ)) (fun _ _ => 1) (meanStep (fun (x : unitInterval) (_ : Unit) => (x : ℝ)))
        (MeanState.init (fun _ => 0)) start script).get () - targetExpectation (volume : Measure unitInterval) (fun x => 1 + (x : ℝ)) (fun x => (x : ℝ))) ^ 2))
      ≤ ENNReal.ofReal (20 / n) := by
  have := C73_mean_square (example_target 10 (by norm_num)) 1 le_rfl (1/2) (by norm_num) (example_forgets 10 (by norm_num)) (fun (x : unitInterval) (_ : Unit) => (x : ℝ)) (fun _ => 0) ()
    measurable_subtype_coe 1 (fun x => by rw [abs_of_nonneg x.2.1]; exact x.2.2) start
    ⟨by have := start.2.1; show (0:ℝ) < 1 + start; linarith, by
      have := Real.log_nonneg (show (1:ℝ) ≤ 1 + start by have := start.2.1; linarith)
      linarith⟩ n hn
  norm_num at this ⊢
  exact this

/-! ### Instances: concrete cases that meet the hypotheses of the theorems above -/

theorem example_start (start : unitInterval) : GoodStart 10 (fun x : unitInterval => 1 + (x : ℝ)) start :=
  ⟨by have := start.2.1; show (0:ℝ) < 1 + start; linarith, by
      have := Real.log_nonneg (show (1:ℝ) ≤ 1 + start by have := start.2.1; linarith)
      linarith⟩

theorem example_bounded (x : unitInterval) : |(x : ℝ)| ≤ 1 := by rw [abs_of_nonneg x.2.1]; exact x.2.2

theorem example_subdivision : Subdivision ([0, 1/2, 2] : List ℝ) := ⟨by norm_num, by simp⟩

example (start : unitInterval) := C73_total_probability (meanStep (fun (x : unitInterval) (_ : Unit) => (x : ℝ))) (MeanState.init (fun _ => 0)) (example_target 10 (by norm_num)) start
  (example_start start) 7
example (start : unitInterval) := C73_distribution_converges (meanStep (fun (x : unitInterval) (_ : Unit) => (x : ℝ))) (MeanState.init (fun _ => 0)) (example_target 10 (by norm_num)) 1 le_rfl (1/2)
  (by norm_num) (example_forgets 10 (by norm_num)) {x | (x : ℝ) < 1/3} (measurableSet_lt measurable_subtype_coe measurable_const) start (example_start start) 7
example (start : unitInterval) := C73_mean_in_probability (example_target 10 (by norm_num)) 1 le_rfl (1/2) (by norm_num) (example_forgets 10 (by norm_num))
  (fun (x : unitInterval) (_ : Unit) => (x : ℝ)) (fun _ => 0) () measurable_subtype_coe 1 example_bounded start (example_start start) (1/10) (by norm_num)
example (start : unitInterval) := C73_histogram (example_target 10 (by norm_num)) 1 le_rfl (1/2) (by norm_num) (example_forgets 10 (by norm_num)) true [0, 1/2, 2]
  example_subdivision (fun x : unitInterval => (x : ℝ)) measurable_subtype_coe 1 (by simp) start (example_start start) 7 (by norm_num)
example := C73_covariance (example_target 10 (by norm_num)) 1 le_rfl (1/2) (by norm_num) (example_forgets 10 (by norm_num))
  (fun (x : unitInterval) (_ : Bool) => (x : ℝ)) (fun _ => 0) (fun _ _ => 5) (fun _ _ => 6) true false measurable_subtype_coe measurable_subtype_coe 1 1 example_bounded example_bounded

end SampleFlow
