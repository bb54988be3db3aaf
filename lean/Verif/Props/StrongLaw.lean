import Verif.Proofs.StrongGeneral

/-!
# Property C76: the strong law of large numbers

Probabilities are those of C62 and C73.  The theorems bound the probability that a consumer connected to a Metropolis-Hastings sampler reports a wrong result at *any* time between the `m`-th and the `N`-th sample; the
bounds do not depend on `N`, and tend to zero as `m` grows: with probability one, the reported results converge.  `script.take n` are the first `n` steps of a run.
-/

namespace SampleFlow

open Spec MeasureTheory ProbabilityTheory Ergodic Doeblin General StrongLaw StrongGeneral
open scoped ENNReal

section finite
variable {S : Type} [Fintype S] {max : ℝ} {π : S → ℝ} {q : S → S → ℝ}

/-- **C76** (MeanValue, finite sample spaces): the probability that `MeanValue::get()` is off by `ε` or more at any time between `m` and `N` samples is at most `K/(ε²√m)`. -/
theorem C76_mean {ι : Type} (h : FiniteTarget max π q) (hc : Connected π q) (f : S → ι → ℝ) (G : ι → ℝ) (i : ι) :
    ∃ K : ℝ, ∀ (start : S) (ε : ℝ), 0 < ε → ∀ m, 1 ≤ m → ∀ N,
      probability max π q (meanStep f) (MeanState.init G) start N (fun script => ∃ n, m ≤ n ∧ n ≤ N ∧
        ε ≤ |(consumerState max π q (meanStep f) (MeanState.init G) start (script.take n)).get i - targetMean π (fun x => f x i)|) ≤ K / (ε ^ 2 * √m) := by
  obtain ⟨K, -, hK⟩ := strong_finite h hc (fun x => f x i)
  exact ⟨K, fun start ε hε m hm N => hK _ _ _ start N (fun script => (consumerState max π q (meanStep f) (MeanState.init G) start script).get i)
    (fun script hs => meanState_of_run f G start script (by intro h'; rw [h'] at hs; simp at hs) i) ε hε m hm⟩

omit [Fintype S] in
theorem binCount_of_run (debug : Bool) (pts : List ℝ) (sub : Subdivision pts) (f : S → ℝ) (k : Nat) (hk : k + 1 < pts.length) (start : S) (script : List (Chance S)) :
    (binCount (consumerState max π q (histogramStep debug f) (.ok ⟨pts, List.replicate (pts.length - 1) 0⟩) start script) k : ℝ) =
      ((samplesIssued max π q (histogramStep debug f) (.ok ⟨pts, List.replicate (pts.length - 1) 0⟩) start script).map (fun x => if inBin pts k (f x) then (1:ℝ) else 0)).sum := by
  obtain ⟨hist, rows, h1, h2, h3, h4⟩ := histogram_of_run (max := max) (π := π) (q := q) debug pts sub f start script
  have hb : binCount (consumerState max π q (histogramStep debug f) (.ok ⟨pts, List.replicate (pts.length - 1) 0⟩) start script) k =
      ((samplesIssued max π q (histogramStep debug f) (.ok ⟨pts, List.replicate (pts.length - 1) 0⟩) start script).map f).countP (inBin pts k) := by
    simp only [binCount, h1, h2]
    rw [List.getElem?_eq_getElem (show k < rows.length by omega), h4 k (by omega) hk]
    rfl
  rw [hb]
  generalize samplesIssued max π q (histogramStep debug f) (.ok ⟨pts, List.replicate (pts.length - 1) 0⟩) start script = l
  induction l with
  | nil => simp
  | cons a l ih =>
    rw [List.map_cons, List.countP_cons, List.map_cons, List.sum_cons, ← ih]
    by_cases hx : inBin pts k (f a) <;> simp [hx, add_comm]

/-- **C76** (Histogram, finite sample spaces): the same for the fraction of the samples counted in a bin. -/
theorem C76_histogram (h : FiniteTarget max π q) (hc : Connected π q) (debug : Bool) (pts : List ℝ) (sub : Subdivision pts) (f : S → ℝ) (k : Nat) (hk : k + 1 < pts.length) :
    ∃ K : ℝ, ∀ (start : S) (ε : ℝ), 0 < ε → ∀ m, 1 ≤ m → ∀ N,
      probability max π q (histogramStep debug f) (.ok ⟨pts, List.replicate (pts.length - 1) 0⟩) start N (fun script => ∃ n, m ≤ n ∧ n ≤ N ∧
        ε ≤ |(binCount (consumerState max π q (histogramStep debug f) (.ok ⟨pts, List.replicate (pts.length - 1) 0⟩) start (script.take n)) k : ℝ) / (script.take n).length
          - targetMean π (fun x => if inBin pts k (f x) then 1 else 0)|) ≤ K / (ε ^ 2 * √m) := by
  obtain ⟨K, -, hK⟩ := strong_finite h hc (fun x => if inBin pts k (f x) then 1 else 0)
  refine ⟨K, fun start ε hε m hm N => hK _ _ _ start N (fun script =>
    (binCount (consumerState max π q (histogramStep debug f) (.ok ⟨pts, List.replicate (pts.length - 1) 0⟩) start script) k : ℝ) / script.length)
    (fun script _ => ?_) ε hε m hm⟩
  rw [binCount_of_run debug pts sub f k hk start script]

open Classical in
theorem probability_eq {C : Type} (step : C → S × Aux XR → C) (c : C) (start : S) (N : Nat) (A : List (Chance S) → Prop) (A' : List S → Prop)
    (hA : ∀ script, script.length = N → (A script ↔ A' (samplesIssued max π q step c start script))) :
    probability max π q step c start N A = expectPath (transition max π q) N (fun l => if A' l then 1 else 0) start := by
  unfold probability
  exact expected_eq max π q step c start N _ _ (fun script hs => if_congr (hA script hs) rfl rfl)

/-- deterministic part -/
theorem cov_near (α β γ a b c η ε B x : ℝ) (hη : 0 < η) (h1 : η ≤ 1) (hα : |α| ≤ B) (hβ : |β| ≤ B) (hγ : |γ| ≤ B) (hε : 0 < ε) (hηε : η * (2 * B + 2) ≤ ε / 4)
    (ha : |a - α| < η) (hb : |b - β| < η) (hc : |c - γ| < η) (hx : 1 ≤ x) (hxε : 4 * (B + B ^ 2 + ε) ≤ ε * x) :
    |(x + 1) / x * (a - b * c) - (α - β * γ)| < ε := by
  have hB0 : 0 ≤ B := (abs_nonneg _).trans hα
  have hc' : |c| ≤ B + 1 := by
    have : |c| ≤ |c - γ| + |γ| := by simpa using abs_add_le (c - γ) γ
    linarith
  have e1 : (a - b * c) - (α - β * γ) = (a - α) - ((b - β) * c + β * (c - γ)) := by ring
  have b1 : |(b - β) * c + β * (c - γ)| ≤ η * (B + 1) + B * η := by
    refine (abs_add_le _ _).trans ?_
    rw [abs_mul, abs_mul]
    exact add_le_add (mul_le_mul hb.le hc' (abs_nonneg _) hη.le) (mul_le_mul hβ hc.le (abs_nonneg _) hB0)
  have b2 : |(a - b * c) - (α - β * γ)| ≤ ε / 4 := by
    rw [e1]
    refine (abs_sub _ _).trans ?_
    nlinarith
  have b3 : |α - β * γ| ≤ B + B ^ 2 := by
    refine (abs_sub _ _).trans ?_
    rw [abs_mul]
    have := mul_le_mul hβ hγ (abs_nonneg _) hB0
    nlinarith
  have b4 : |a - b * c| ≤ B + B ^ 2 + ε := by
    have : |a - b * c| ≤ |(a - b * c) - (α - β * γ)| + |α - β * γ| := by simpa using abs_add_le ((a - b * c) - (α - β * γ)) (α - β * γ)
    linarith
  have hx0 : 0 < x := by linarith
  have e2 : (x + 1) / x * (a - b * c) - (α - β * γ) = ((a - b * c) - (α - β * γ)) + (a - b * c) / x := by field_simp; ring
  have b5 : |(a - b * c) / x| ≤ ε / 4 := by
    rw [abs_div, abs_of_pos hx0, div_le_iff₀ hx0]
    nlinarith
  rw [e2]
  refine (abs_add_le _ _).trans_lt ?_
  linarith

/-- **C76** (CovarianceMatrix, finite sample spaces): for every `ε` and `δ` there is an `m` such that, whatever `N`, with a probability of at least `1-δ` every entry reported between `m` and `N` samples is within `ε` of
the covariance under the target distribution. -/
theorem C76_covariance {ι : Type} (h : FiniteTarget max π q) (hc : Connected π q) (f : S → ι → ℝ) (M : ι → ℝ) (C₀ G : ι → ι → ℝ) (i j : ι) (ε δ : ℝ) (hε : 0 < ε) (hδ : 0 < δ) :
    ∃ m : Nat, ∀ (start : S) (N : Nat),
      probability max π q (covarianceStep f G) (CovState.init M C₀) start N (fun script => ∃ n, m ≤ n ∧ n ≤ N ∧
        ε ≤ |(consumerState max π q (covarianceStep f G) (CovState.init M C₀) start (script.take n)).get i j - targetCovariance π (fun x => f x i) (fun x => f x j)|) ≤ δ := by
  classical
  have hS := stochastic_transition h
  obtain ⟨K1, k1, hK1⟩ := strong_finite h hc (fun x => f x i * f x j)
  obtain ⟨K2, k2, hK2⟩ := strong_finite h hc (fun x => f x i)
  obtain ⟨K3, k3, hK3⟩ := strong_finite h hc (fun x => f x j)
  set α := targetMean π (fun x => f x i * f x j) with hα
  set β := targetMean π (fun x => f x i) with hβ
  set γ := targetMean π (fun x => f x j) with hγ
  have hcov : targetCovariance π (fun x => f x i) (fun x => f x j) = α - β * γ := by
    have hz : (∑ x, π x) ≠ 0 := h.nonzero.ne'
    unfold targetCovariance
    have e : ∀ x, π x * ((f x i - (∑ y, π y * f y i) / ∑ y, π y) * (f x j - (∑ y, π y * f y j) / ∑ y, π y)) =
        π x * (f x i * f x j) - γ * (π x * f x i) - β * (π x * f x j) + β * γ * π x := by
      intro x
      rw [hβ, hγ]; unfold targetMean
      ring
    rw [Finset.sum_congr rfl (fun x _ => e x), Finset.sum_add_distrib, Finset.sum_sub_distrib, Finset.sum_sub_distrib, ← Finset.mul_sum, ← Finset.mul_sum, ← Finset.mul_sum, hα, hβ, hγ]
    unfold targetMean
    field_simp
    ring
  set B := |α| + |β| + |γ| with hB
  have hB0 : 0 ≤ B := by positivity
  set η := min 1 (ε / (4 * (2 * B + 2))) with hηdef
  have hη : 0 < η := lt_min one_pos (by positivity)
  have hη1 : η ≤ 1 := min_le_left _ _
  have hηε : η * (2 * B + 2) ≤ ε / 4 := by
    have : η ≤ ε / (4 * (2 * B + 2)) := min_le_right _ _
    rw [le_div_iff₀ (by positivity)] at this
    linarith
  have hlim : Filter.Tendsto (fun m : Nat => (K1 + K2 + K3) / (η ^ 2 * √m)) Filter.atTop (nhds 0) := by
    have : Filter.Tendsto (fun m : Nat => η ^ 2 * √(m : ℝ)) Filter.atTop Filter.atTop :=
      Filter.Tendsto.const_mul_atTop (by positivity) (Real.tendsto_sqrt_atTop.comp tendsto_natCast_atTop_atTop)
    exact Filter.Tendsto.const_div_atTop this _
  obtain ⟨m0, hm0⟩ := Filter.eventually_atTop.mp ((hlim.eventually (gt_mem_nhds hδ)))
  obtain ⟨m1, hm1⟩ := exists_nat_ge (4 * (B + B ^ 2 + ε) / ε)
  refine ⟨m0 + m1 + 2, fun start N => ?_⟩
  set m := m0 + m1 + 2 with hm
  let step := covarianceStep f G
  let c := CovState.init M C₀
  let A (g : S → ℝ) (t : ℝ) (l : List S) : Prop := ∃ n, m ≤ n ∧ n ≤ l.length ∧ η ≤ |((l.take n).map g).sum / (l.take n).length - t|
  have hev : ∀ (g : S → ℝ) (t : ℝ), probability max π q step c start N (fun script => ∃ n, m ≤ n ∧ n ≤ N ∧
      η ≤ |((samplesIssued max π q step c start (script.take n)).map g).sum / (script.take n).length - t|) = expectPath (transition max π q) N (fun l => if A g t l then 1 else 0) start := by
    intro g t
    refine probability_eq step c start N _ _ (fun script hs => ?_)
    have hl := samplesIssued_length (max := max) (π := π) (q := q) step c start script
    simp only [A, samplesIssued_take, List.length_take, hl, hs]
  have p1 := hK1 _ step c start N (fun script => ((samplesIssued max π q step c start script).map (fun x => f x i * f x j)).sum / script.length) (fun _ _ => rfl) η hη m (by omega)
  have p2 := hK2 _ step c start N (fun script => ((samplesIssued max π q step c start script).map (fun x => f x i)).sum / script.length) (fun _ _ => rfl) η hη m (by omega)
  have p3 := hK3 _ step c start N (fun script => ((samplesIssued max π q step c start script).map (fun x => f x j)).sum / script.length) (fun _ _ => rfl) η hη m (by omega)
  rw [hev] at p1 p2 p3
  let cov (l : List S) : ℝ := (l.length : ℝ) / ((l.length : ℝ) - 1) * ((l.map (fun x => f x i * f x j)).sum / l.length -
      (l.map (fun x => f x i)).sum / l.length * ((l.map (fun x => f x j)).sum / l.length))
  rw [probability_eq step c start N _ (fun l => ∃ n, m ≤ n ∧ n ≤ l.length ∧ ε ≤ |cov (l.take n) - (α - β * γ)|) (fun script hs => by
    have hl := samplesIssued_length (max := max) (π := π) (q := q) step c start script
    constructor
    · rintro ⟨n, h1, h2, h3⟩
      refine ⟨n, h1, by omega, ?_⟩
      have hlt : (script.take n).length = n := by rw [List.length_take]; omega
      rw [covState_of_run f M C₀ G start _ (by omega) i j, samplesIssued_take, hcov] at h3
      have hlt2 : ((samplesIssued max π q step c start script).take n).length = n := by rw [List.length_take]; omega
      simp only [cov]
      rw [hlt2]
      rw [hlt] at h3
      exact h3
    · rintro ⟨n, h1, h2, h3⟩
      refine ⟨n, h1, by omega, ?_⟩
      have hlt : (script.take n).length = n := by rw [List.length_take]; omega
      have hlt2 : ((samplesIssued max π q step c start script).take n).length = n := by rw [List.length_take]; omega
      rw [covState_of_run f M C₀ G start _ (by omega) i j, samplesIssued_take, hcov, hlt]
      simp only [cov] at h3
      rw [hlt2] at h3
      exact h3)]
  have hsum : expectPath (transition max π q) N (fun l => if ∃ n, m ≤ n ∧ n ≤ l.length ∧ ε ≤ |cov (l.take n) - (α - β * γ)| then 1 else 0) start ≤
      expectPath (transition max π q) N (fun l => if A (fun x => f x i * f x j) α l then 1 else 0) start +
      (expectPath (transition max π q) N (fun l => if A (fun x => f x i) β l then 1 else 0) start + expectPath (transition max π q) N (fun l => if A (fun x => f x j) γ l then 1 else 0) start) := by
    rw [← expectPath_add, ← expectPath_add]
    refine expectPath_mono hS N _ _ start (fun l _ => ?_)
    have n1 : (0:ℝ) ≤ if A (fun x => f x i * f x j) α l then 1 else 0 := by split <;> norm_num
    have n2 : (0:ℝ) ≤ if A (fun x => f x i) β l then 1 else 0 := by split <;> norm_num
    have n3 : (0:ℝ) ≤ if A (fun x => f x j) γ l then 1 else 0 := by split <;> norm_num
    split
    · rename_i hex
      obtain ⟨n, h1, h2, h3⟩ := hex
      by_cases c1 : A (fun x => f x i * f x j) α l
      · rw [if_pos c1]; linarith
      by_cases c2 : A (fun x => f x i) β l
      · rw [if_pos c2]; linarith
      by_cases c3 : A (fun x => f x j) γ l
      · rw [if_pos c3]; linarith
      exfalso
      simp only [A, not_exists, not_and, not_le] at c1 c2 c3
      have d1 := c1 n h1 h2
      have d2 := c2 n h1 h2
      have d3 := c3 n h1 h2
      have hlt : (l.take n).length = n := by rw [List.length_take]; omega
      simp only [cov] at h3
      rw [hlt] at d1 d2 d3 h3
      have hn2 : (2:ℝ) + m1 ≤ n := by exact_mod_cast (by omega : 2 + m1 ≤ n)
      have hm1' : 4 * (B + B ^ 2 + ε) ≤ m1 * ε := by rwa [div_le_iff₀ hε] at hm1
      have hm1n : (0:ℝ) ≤ m1 := by positivity
      have x1 : (1:ℝ) ≤ (n:ℝ) - 1 := by linarith
      have x2 : 4 * (B + B ^ 2 + ε) ≤ ε * ((n:ℝ) - 1) := by nlinarith
      have := cov_near α β γ _ _ _ η ε B ((n:ℝ) - 1) hη hη1 (by rw [hB]; linarith [abs_nonneg β, abs_nonneg γ]) (by rw [hB]; linarith [abs_nonneg α, abs_nonneg γ])
        (by rw [hB]; linarith [abs_nonneg α, abs_nonneg β]) hε hηε d1 d2 d3 x1 x2
      rw [sub_add_cancel] at this
      linarith
    · positivity
  refine hsum.trans ?_
  have hm0' := hm0 m (by omega)
  have : K1 / (η ^ 2 * √m) + (K2 / (η ^ 2 * √m) + K3 / (η ^ 2 * √m)) = (K1 + K2 + K3) / (η ^ 2 * √m) := by ring
  linarith

end finite

section general
variable {S : Type} [MeasurableSpace S] {μ : Measure S} [SFinite μ] {max : ℝ} {π : S → ℝ} {q : S → S → ℝ}

/-- **C76** (MeanValue, general sample spaces): if the chain forgets (C73), the probability that `MeanValue::get()` is off by `ε` or more at any time between `m` and `N` samples is at most a constant divided by `ε²√m`. -/
theorem C76_general_mean {ι : Type} (h : GeneralTarget μ max π q) (k : Nat) (hk : 1 ≤ k) (η : ℝ) (hη : 0 < η) (hf : Forgets μ max π q k η) (f : S → ι → ℝ) (G : ι → ℝ) (i : ι)
    (hm : Measurable (fun x => f x i)) (b : ℝ) (hb : ∀ x, |f x i| ≤ b) (start : S) (hs : GoodStart max π start) (ε : ℝ) (hε : 0 < ε) (m : Nat) (hm1 : 1 ≤ m) (N : Nat) :
    probOf μ max π q (meanStep f) (MeanState.init G) start N (fun script => ∃ n, m ≤ n ∧ n ≤ N ∧
        ε ≤ |(consumerState max π q (meanStep f) (MeanState.init G) start (script.take n)).get i - targetExpectation μ π (fun x => f x i)|) ≤
      ENNReal.ofReal ((16 * (4 * b ^ 2 + 8 * k * b ^ 2 / η) + 8 * (2 * b) ^ 2) / (ε ^ 2 * √m)) :=
  strong_general h k hk η hη hf (fun x => f x i) hm b hb _ _ start hs N (fun script => (consumerState max π q (meanStep f) (MeanState.init G) start script).get i)
    (fun script hs => meanState_of_run f G start script (by intro h'; rw [h'] at hs; simp at hs) i) ε hε m hm1

/-- **C76** (Histogram, general sample spaces): the same for the fraction of the samples counted in a bin. -/
theorem C76_general_histogram (h : GeneralTarget μ max π q) (k : Nat) (hk : 1 ≤ k) (η : ℝ) (hη : 0 < η) (hf : Forgets μ max π q k η) (debug : Bool) (pts : List ℝ) (sub : Subdivision pts)
    (f : S → ℝ) (hm : Measurable f) (j : Nat) (hj : j + 1 < pts.length) (start : S) (hs : GoodStart max π start) (ε : ℝ) (hε : 0 < ε) (m : Nat) (hm1 : 1 ≤ m) (N : Nat) :
    probOf μ max π q (histogramStep debug f) (.ok ⟨pts, List.replicate (pts.length - 1) 0⟩) start N (fun script => ∃ n, m ≤ n ∧ n ≤ N ∧
        ε ≤ |(binCount (consumerState max π q (histogramStep debug f) (.ok ⟨pts, List.replicate (pts.length - 1) 0⟩) start (script.take n)) j : ℝ) / (script.take n).length
          - (targetProb μ π {x | inBin pts j (f x)}).toReal|) ≤
      ENNReal.ofReal ((16 * (4 + 8 * k / η) + 32) / (ε ^ 2 * √m)) := by
  rw [targetProb_inBin h pts f hm j hj]
  have := strong_general h k hk η hη hf (fun x => if inBin pts j (f x) then 1 else 0) (Measurable.ite (measurableSet_inBin pts f hm j hj) measurable_const measurable_const) 1
    (fun x => by split <;> simp) (histogramStep debug f) (.ok ⟨pts, List.replicate (pts.length - 1) 0⟩) start hs N (fun script =>
      (binCount (consumerState max π q (histogramStep debug f) (.ok ⟨pts, List.replicate (pts.length - 1) 0⟩) start script) j : ℝ) / script.length)
    (fun script _ => by rw [binCount_of_run debug pts sub f j hj start script]) ε hε m hm1
  refine this.trans (le_of_eq ?_)
  norm_num

end general

/-- A concrete case: the three-state example of C62. -/
example : ∃ K : ℝ, ∀ (start : Fin 3) (ε : ℝ), 0 < ε → ∀ m, 1 ≤ m → ∀ N,
      probability 1000 (fun x : Fin 3 => if x = 0 then (0:ℝ) else if x = 1 then 1 else 2)
        (fun x y : Fin 3 => if x = y then 0 else if (x = 0 ∧ y = 1) ∨ (x = 1 ∧ y = 2) ∨ (x = 2 ∧ y = 0) then 1/4 else 3/4)
        (meanStep (fun x (_ : Unit) => (x.val : ℝ))) (MeanState.init (fun _ => 0)) start N (fun script => ∃ n, m ≤ n ∧ n ≤ N ∧
        ε ≤ |(consumerState 1000 (fun x : Fin 3 => if x = 0 then (0:ℝ) else if x = 1 then 1 else 2)
        (fun x y : Fin 3 => if x = y then 0 else if (x = 0 ∧ y = 1) ∨ (x = 1 ∧ y = 2) ∨ (x = 2 ∧ y = 0) then 1/4 else 3/4)
        (meanStep (fun x (_ : Unit) => (x.val : ℝ))) (MeanState.init (fun _ => 0)) start (script.take n)).get () - 5/3|) ≤ K / (ε ^ 2 * √m) := by
  have := C76_mean exampleTarget exampleConnected (fun x (_ : Unit) => (x.val : ℝ)) (fun _ => 0) ()
  have e : targetMean (fun x : Fin 3 => if x = 0 then (0:ℝ) else if x = 1 then 1 else 2) (fun x => (x.val : ℝ)) = 5 / 3 := by
    simp [targetMean, Fin.sum_univ_three]; norm_num
  rw [e] at this
  exact this

/-! ### Instances: concrete cases that meet the hypotheses of the theorems above -/

example := C76_histogram exampleTarget exampleConnected true [-1, 1/2, 3] exampleSubdivision (fun x => (x.val : ℝ)) 1 (by simp)
example := C76_covariance exampleTarget exampleConnected (fun x (i : Bool) => if i then (x.val : ℝ) else 1) (fun _ => 5) (fun _ _ => 6) (fun _ _ => 7) true false (1/10) (1/100)
  (by norm_num) (by norm_num)
example (start : unitInterval) := C76_general_mean (example_target 10 (by norm_num)) 1 le_rfl (1/2) (by norm_num) (example_forgets 10 (by norm_num))
  (fun (x : unitInterval) (_ : Unit) => (x : ℝ)) (fun _ => 0) () measurable_subtype_coe 1 example_bounded start (example_start start) (1/10) (by norm_num) 5 (by norm_num) 1000
example (start : unitInterval) := C76_general_histogram (example_target 10 (by norm_num)) 1 le_rfl (1/2) (by norm_num) (example_forgets 10 (by norm_num)) true [0, 1/2, 2]
  example_subdivision (fun x : unitInterval => (x : ℝ)) measurable_subtype_coe 1 (by simp) start (example_start start) (1/10) (by norm_num) 5 (by norm_num) 1000

end SampleFlow
