import Verif.Spec.GeneralNumbers
import Verif.Proofs.Doeblin
import Verif.Proofs.LargeNumbers
import Verif.Props.GeneralChain

/-! The Metropolis-Hastings chain on a general sample space as a Markov kernel. -/

namespace SampleFlow

open Spec MeasureTheory ProbabilityTheory Ergodic Doeblin
open scoped ENNReal

namespace General

variable {S C : Type} [MeasurableSpace S] {μ : Measure S} [SFinite μ] {max : ℝ} {π : S → ℝ} {q : S → S → ℝ}

/-- the good states -/
def good (max : ℝ) (π : S → ℝ) : Set S := {x | GoodStart max π x}

omit [SFinite μ] in
theorem measurableSet_good (h : Densities μ max π q) : MeasurableSet (good max π) := by
  have h1 := h.measurable
  exact (measurableSet_lt measurable_const h1).inter (measurableSet_eq_fun (Real.measurable_log.comp h1) measurable_const).compl

/-- the total weight of the target -/
noncomputable def weight (μ : Measure S) (π : S → ℝ) : ℝ≥0∞ := ∫⁻ x, ENNReal.ofReal (π x) ∂μ

/-- the target distribution -/
noncomputable def target (μ : Measure S) (π : S → ℝ) : Measure S := (weight μ π)⁻¹ • μ.withDensity (fun x => ENNReal.ofReal (π x))

omit [SFinite μ] in
theorem weight_pos (h : GeneralTarget μ max π q) : weight μ π ≠ 0 := by
  unfold weight
  rw [← ofReal_integral_eq_lintegral_ofReal h.integrable (Filter.Eventually.of_forall h.nonneg)]
  simpa using h.nonzero

omit [SFinite μ] in
theorem weight_finite (h : GeneralTarget μ max π q) : weight μ π ≠ ⊤ := by
  unfold weight
  rw [← ofReal_integral_eq_lintegral_ofReal h.integrable (Filter.Eventually.of_forall h.nonneg)]
  exact ENNReal.ofReal_ne_top

omit [SFinite μ] in
theorem target_apply (B : Set S) (hB : MeasurableSet B) : target μ π B = targetProb μ π B := by
  unfold target targetProb
  rw [Measure.smul_apply, withDensity_apply _ hB, smul_eq_mul, ENNReal.div_eq_inv_mul]
  rfl

omit [SFinite μ] in
theorem target_prob (h : GeneralTarget μ max π q) : IsProbabilityMeasure (target μ π) := by
  constructor
  rw [target_apply _ MeasurableSet.univ]
  unfold targetProb
  rw [setLIntegral_univ]
  exact ENNReal.div_self (weight_pos h) (weight_finite h)

omit [SFinite μ] in
theorem lintegral_target (h : Densities μ max π q) (f : S → ℝ≥0∞) (hf : Measurable f) :
    ∫⁻ x, f x ∂(target μ π) = (weight μ π)⁻¹ * ∫⁻ x, ENNReal.ofReal (π x) * f x ∂μ := by
  unfold target
  rw [lintegral_smul_measure, lintegral_withDensity_eq_lintegral_mul _ h.measurable.ennreal_ofReal hf]
  rfl

/-- where a step from a good state leads -/
noncomputable def moved (μ : Measure S) (π : S → ℝ) (q : S → S → ℝ) (x : S) : Measure S :=
  (ENNReal.ofReal (π x))⁻¹ • (μ.withDensity (mFlow π q x) + (∫⁻ z, rFlow π q x z ∂μ) • Measure.dirac x)

omit [SFinite μ] in
theorem lintegral_moved (h : Densities μ max π q) (f : S → ℝ≥0∞) (hf : Measurable f) (x : S) :
    ∫⁻ y, f y ∂(moved μ π q x) = stepVersion μ π q f x := by
  have mm := measurable_mFlow h.measurable h.proposals_measurable
  have mr := measurable_rFlow h.measurable h.proposals_measurable
  have e : ∫⁻ z, (mFlow π q x z * f z + rFlow π q x z * f x) ∂μ = (∫⁻ z, mFlow π q x z * f z ∂μ) + (∫⁻ z, rFlow π q x z ∂μ) * f x := by
    rw [lintegral_add_left (f := fun z => mFlow π q x z * f z) (mm.of_uncurry_left.mul hf), lintegral_mul_const _ mr.of_uncurry_left]
  unfold moved stepVersion
  rw [lintegral_smul_measure, lintegral_add_measure, lintegral_withDensity_eq_lintegral_mul _ mm.of_uncurry_left hf, lintegral_smul_measure,
    lintegral_dirac' _ hf, e, smul_eq_mul, smul_eq_mul, ENNReal.div_eq_inv_mul]
  rfl

open Classical in
/-- the kernel: outside of the good states (which are never left) anything will do -/
noncomputable def kernelAt (μ : Measure S) (max : ℝ) (π : S → ℝ) (q : S → S → ℝ) (x : S) : Measure S :=
  if x ∈ good max π then moved μ π q x else target μ π

theorem measurable_kernelAt (h : Densities μ max π q) : Measurable (kernelAt μ max π q) := by
  classical
  refine Measure.measurable_of_measurable_coe _ (fun B hB => ?_)
  have e : (fun x => kernelAt μ max π q x B) = fun x => if x ∈ good max π then stepVersion μ π q (B.indicator 1) x else target μ π B := by
    funext x
    unfold kernelAt
    split
    · rw [← lintegral_moved h _ (measurable_one.indicator hB), lintegral_indicator_one hB]
    · rfl
  rw [e]
  exact Measurable.ite (measurableSet_good h) (measurable_stepVersion μ h.measurable h.proposals_measurable _ (measurable_one.indicator hB)) measurable_const

/-- the kernel -/
noncomputable def mhKernel (h : Densities μ max π q) : Kernel S S := ⟨kernelAt μ max π q, measurable_kernelAt h⟩

theorem mhKernel_good (h : Densities μ max π q) (x : S) (hx : GoodStart max π x) : mhKernel h x = moved μ π q x := by
  show kernelAt μ max π q x = _
  unfold kernelAt
  exact if_pos hx

theorem mhKernel_bad (h : Densities μ max π q) (x : S) (hx : ¬ GoodStart max π x) : mhKernel h x = target μ π := by
  show kernelAt μ max π q x = _
  unfold kernelAt
  exact if_neg hx

/-- a step -/
theorem lintegral_mhKernel (h : Densities μ max π q) (f f' : S → ℝ≥0∞) (hf : Measurable f') (hff : ∀ x, GoodStart max π x → f x = f' x)
    (x : S) (hx : GoodStart max π x) : expectNext μ max π q f x = ∫⁻ y, f' y ∂(mhKernel h x) := by
  rw [mhKernel_good h x hx, lintegral_moved h f' hf]
  refine expectNext_version μ max h.nonneg h.proposals_nonneg h.no_marker f f' (fun y h1 h2 => ?_) x hx.1.ne' hx.2
  exact hff y ⟨lt_of_le_of_ne (h.nonneg y) (Ne.symm h1), h2⟩

theorem markov (h : GeneralTarget μ max π q) : IsMarkovKernel (mhKernel h.toDensities) := by
  constructor
  intro x
  by_cases hx : GoodStart max π x
  · constructor
    rw [← lintegral_one, ← lintegral_mhKernel h.toDensities (fun _ => 1) (fun _ => 1) measurable_const (fun _ _ => rfl) x hx]
    exact expectNext_one μ max h.proposals_total x
  · rw [mhKernel_bad _ x hx]
    exact target_prob h

theorem invariant (h : GeneralTarget μ max π q) : (mhKernel h.toDensities).Invariant (target μ π) := by
  refine Measure.ext (fun B hB => ?_)
  rw [Measure.bind_apply hB (mhKernel h.toDensities).aemeasurable]
  have hm : Measurable fun x => mhKernel h.toDensities x B := Kernel.measurable_coe _ hB
  rw [lintegral_target h.toDensities _ hm, target_apply _ hB]
  unfold targetProb
  rw [ENNReal.div_eq_inv_mul]
  congr 1
  rw [← C42_general_stationary μ max π q h.toDensities B hB]
  refine lintegral_congr_ae (h.no_marker.mono (fun x hmx => ?_))
  simp only
  by_cases h0 : π x = 0
  · simp [h0]
  · have hx : GoodStart max π x := ⟨lt_of_le_of_ne (h.nonneg x) (Ne.symm h0), hmx⟩
    unfold probNext
    rw [lintegral_mhKernel h.toDensities _ _ (measurable_one.indicator hB) (fun _ _ => rfl) x hx, lintegral_indicator_one hB]

/-- iterated steps -/
theorem measurable_TL (K : Kernel S S) [IsMarkovKernel K] (f : S → ℝ≥0∞) (hf : Measurable f) : Measurable (TL K f) := hf.lintegral_kernel

theorem measurable_TL_iter (K : Kernel S S) [IsMarkovKernel K] (n : Nat) : ∀ (f : S → ℝ≥0∞), Measurable f → Measurable ((TL K)^[n] f) := by
  induction n with
  | zero => intro f hf; exact hf
  | succ n ih => intro f hf; rw [Function.iterate_succ_apply]; exact ih _ (measurable_TL K f hf)

theorem expectAfter_eq (h : GeneralTarget μ max π q) (f : S → ℝ≥0∞) (hf : Measurable f) (n : Nat) :
    ∀ x, GoodStart max π x → expectAfter μ max π q n f x = (TL (mhKernel h.toDensities))^[n] f x := by
  have := markov h
  induction n with
  | zero => intro x _; rfl
  | succ n ih =>
    intro x hx
    rw [Function.iterate_succ_apply']
    exact lintegral_mhKernel h.toDensities _ _ (measurable_TL_iter _ n f hf) ih x hx

omit [SFinite μ] in
/-- iterated steps are integrals over a measure -/
theorem exists_measure (K : Kernel S S) (n : Nat) (x : S) : ∃ ρ : Measure S, ∀ f : S → ℝ≥0∞, Measurable f → (TL K)^[n] f x = ∫⁻ y, f y ∂ρ := by
  induction n with
  | zero => exact ⟨Measure.dirac x, fun f hf => by rw [lintegral_dirac' _ hf]; rfl⟩
  | succ n ih =>
    obtain ⟨ρ, hρ⟩ := ih
    refine ⟨ρ.bind K, fun f hf => ?_⟩
    rw [Function.iterate_succ_apply, hρ (TL K f) (hf.lintegral_kernel), Measure.lintegral_bind K.aemeasurable hf.aemeasurable]
    rfl

omit [SFinite μ] in
theorem TL_ofReal (K : Kernel S S) [IsMarkovKernel K] (n : Nat) : ∀ (h : S → ℝ) (b : ℝ), BM h b → (∀ x, 0 ≤ h x) → ∀ x,
    (TL K)^[n] (fun y => ENNReal.ofReal (h y)) x = ENNReal.ofReal ((T K)^[n] h x) ∧ 0 ≤ (T K)^[n] h x := by
  induction n with
  | zero => intro h b _ h0 x; exact ⟨rfl, h0 x⟩
  | succ n ih =>
    intro h b hb h0 x
    simp only [Function.iterate_succ_apply]
    have e : TL K (fun y => ENNReal.ofReal (h y)) = fun y => ENNReal.ofReal (T K h y) := by
      funext y
      exact (ofReal_integral_eq_lintegral_ofReal (hb.integrable _) (Filter.Eventually.of_forall h0)).symm
    rw [e]
    exact ih _ b hb.T (fun y => integral_nonneg h0) x

theorem minorised (h : GeneralTarget μ max π q) (k : Nat) (hk : 1 ≤ k) (ε : ℝ) (hε : 0 ≤ ε) (hf : Forgets μ max π q k ε) (x₀ : S) (hx₀ : GoodStart max π x₀) :
    Minorised (mhKernel h.toDensities) (target μ π) k ε := by
  have hM := markov h
  have hP := target_prob h
  have hle : ε ≤ 1 := by
    have := hf x₀ hx₀ Set.univ MeasurableSet.univ
    rw [expectAfter_eq h _ (measurable_one.indicator MeasurableSet.univ) k x₀ hx₀, ← target_apply _ MeasurableSet.univ, measure_univ, mul_one] at this
    have e1 : (Set.univ.indicator 1 : S → ℝ≥0∞) = fun _ => ENNReal.ofReal 1 := by funext x; simp
    rw [e1, (TL_ofReal _ k (fun _ => 1) 1 ⟨measurable_const, fun x => by simp⟩ (fun _ => zero_le_one) x₀).1, iter_const] at this
    exact (ENNReal.ofReal_le_ofReal_iff zero_le_one).mp this
  intro g b hb h0 x
  by_cases hx : GoodStart max π x
  · obtain ⟨ρ, hρ⟩ := exists_measure (mhKernel h.toDensities) k x
    have hmeas : ENNReal.ofReal ε • target μ π ≤ ρ := by
      refine Measure.le_iff.mpr (fun B hB => ?_)
      have := hf x hx B hB
      rw [expectAfter_eq h _ (measurable_one.indicator hB) k x hx, hρ _ (measurable_one.indicator hB), lintegral_indicator_one hB, ← target_apply _ hB] at this
      simpa using this
    obtain ⟨e1, e2⟩ := TL_ofReal (mhKernel h.toDensities) k g b hb h0 x
    rw [hρ _ hb.1.ennreal_ofReal] at e1
    have := lintegral_mono' hmeas (le_refl fun y => ENNReal.ofReal (g y))
    rw [lintegral_smul_measure, e1, ← ofReal_integral_eq_lintegral_ofReal (hb.integrable _) (Filter.Eventually.of_forall h0), smul_eq_mul,
      ← ENNReal.ofReal_mul hε] at this
    exact (ENNReal.ofReal_le_ofReal_iff e2).mp this
  · obtain ⟨m, rfl⟩ : ∃ m, k = m + 1 := ⟨k - 1, by omega⟩
    rw [Function.iterate_succ_apply']
    have : T (mhKernel h.toDensities) ((T (mhKernel h.toDensities))^[m] g) x = ∫ y, (T (mhKernel h.toDensities))^[m] g y ∂(target μ π) := by
      unfold T; rw [mhKernel_bad _ x hx]
    rw [this, integral_iter (invariant h) hb]
    have : 0 ≤ ∫ y, g y ∂(target μ π) := integral_nonneg h0
    nlinarith

/-! ### the script -/

omit [SFinite μ] [MeasurableSpace S] in
theorem stepTo_good (hπ : ∀ x, 0 ≤ π x) (x z : S) (u : ℝ × ℝ) (hx : GoodStart max π x) (hz : Real.log (π z) ≠ -max) : GoodStart max π (stepTo max π q x (z, u)) := by
  unfold stepTo
  split
  · rename_i hacc
    refine ⟨?_, hz⟩
    rcases (hπ z).eq_or_lt with h0 | h0
    · exfalso
      have e1 : logOf (π z) = .negInf := by simp [logOf, ← h0]
      have e2 : logOf (π x) = .fin (Real.log (π x)) := by simp [logOf, hx.1.ne']
      simp only [e1, e2] at hacc
      unfold accB at hacc
      simp only [hasZero_fin max _ hx.2, hasZero_negInf] at hacc
      simp at hacc
    · exact h0
  · exact hx

omit [SFinite μ] in
theorem expectNext_stepTo (f : S → ℝ≥0∞) (x : S) :
    expectNext μ max π q f x = ∫⁻ z, ENNReal.ofReal (q x z) * (∫⁻ u in unitSquare, f (stepTo max π q x (z, u))) ∂μ := by
  unfold expectNext
  refine lintegral_congr (fun z => ?_)
  congr 1
  refine lintegral_congr (fun u => ?_)
  rw [mhSample_fixed]
  unfold stepTo
  cases accB max (logOf (π z)) (logOf (π x)) (XR.div (.fin (q x z)) (.fin (q z x))) u.1 u.2 <;> rfl

/-- what is computed sample by sample from the samples issued (`φ`, beginning with `s₀`) and from the current sample -/
theorem meanGiven_W {σ : Type} [MeasurableSpace σ] {φ : σ → S → σ} (hφ : Measurable (Function.uncurry φ)) {F : σ × S → ℝ≥0∞} (hF : Measurable F) (s₀ : σ)
    (h : GeneralTarget μ max π q) (step : C → S × Aux XR → C) (c : C) (start : S)
    (g : List (Chance S) → ℝ≥0∞) (n : Nat) : ∀ (past : List (Chance S)),
    (∀ script, script.length = past.length + n → g script = F ((pathFrom max π q start script).foldl φ s₀, lastOf start (pathFrom max π q start script))) →
    GoodStart max π (lastOf start (pathFrom max π q start past)) →
    meanGiven μ max π q step c start g n past =
      W (mhKernel h.toDensities) φ F n ((pathFrom max π q start past).foldl φ s₀, lastOf start (pathFrom max π q start past)) := by
  have := markov h
  induction n with
  | zero => intro past hg _; exact hg past rfl
  | succ n ih =>
    intro past hg hx
    simp only [meanGiven, W]
    rw [(scriptRun_eq max π q step c start past).2]
    set x := lastOf start (pathFrom max π q start past) with hxdef
    set s := (pathFrom max π q start past).foldl φ s₀ with hs
    have hmV : Measurable fun y => W (mhKernel h.toDensities) φ F n (φ s y, y) :=
      (measurable_W hφ hF n).comp ((hφ.comp (measurable_const.prodMk measurable_id)).prodMk measurable_id)
    rw [← lintegral_mhKernel h.toDensities _ _ hmV (fun _ _ => rfl) x hx, expectNext_stepTo]
    refine lintegral_congr_ae (h.no_marker.mono (fun z hz => ?_))
    simp only
    congr 1
    refine lintegral_congr (fun u => ?_)
    have hlast : lastOf start (pathFrom max π q start (past ++ [(z, u)])) = stepTo max π q x (z, u) := by
      rw [pathFrom_append, hxdef]
      generalize stepTo max π q (lastOf start (pathFrom max π q start past)) (z, u) = y
      unfold lastOf; simp
    have hsum : (pathFrom max π q start (past ++ [(z, u)])).foldl φ s₀ = φ s (stepTo max π q x (z, u)) := by
      rw [pathFrom_append, List.foldl_append, hs, hxdef]; rfl
    rw [ih _ (fun script hs => hg script (by rw [hs, List.length_append]; simp; omega))
      (by rw [hlast]; exact stepTo_good h.nonneg x z u hx hz), hlast, hsum]

theorem meanOf_W {σ : Type} [MeasurableSpace σ] {φ : σ → S → σ} (hφ : Measurable (Function.uncurry φ)) {F : σ × S → ℝ≥0∞} (hF : Measurable F) (s₀ : σ)
    (h : GeneralTarget μ max π q) (step : C → S × Aux XR → C) (c : C) (start : S) (hs : GoodStart max π start)
    (g : List (Chance S) → ℝ≥0∞) (n : Nat)
    (hg : ∀ script, script.length = n → g script = F ((samplesIssued max π q step c start script).foldl φ s₀, currentSample max π q step c start script)) :
    meanOf μ max π q step c start n g = W (mhKernel h.toDensities) φ F n (s₀, start) := by
  unfold meanOf
  rw [meanGiven_W hφ hF s₀ h step c start g n [] (fun script hl => by
    obtain ⟨e1, e2⟩ := scriptRun_eq max π q step c start script
    rw [hg script (by simpa using hl), e1, e2]) (by simpa [pathFrom, lastOf] using hs)]
  simp only [pathFrom, lastOf, List.getLastD_nil, List.foldl_nil]

theorem foldl_sum (f : S → ℝ) (l : List S) : ∀ s : ℝ, l.foldl (fun s y => s + f y) s = s + (l.map f).sum := by
  induction l with
  | nil => intro s; simp
  | cons a l ih => intro s; simp only [List.foldl_cons, ih, List.map_cons, List.sum_cons]; ring

/-! ### expected values of scripts -/

omit [SFinite μ] in
theorem meanGiven_mono (step : C → S × Aux XR → C) (c : C) (start : S) (g g' : List (Chance S) → ℝ≥0∞) (n : Nat) : ∀ (past : List (Chance S)),
    (∀ script, script.length = past.length + n → g script ≤ g' script) →
    meanGiven μ max π q step c start g n past ≤ meanGiven μ max π q step c start g' n past := by
  induction n with
  | zero => intro past hg; exact hg past rfl
  | succ n ih =>
    intro past hg
    simp only [meanGiven]
    refine lintegral_mono (fun z => mul_le_mul_right (lintegral_mono (fun u => ih _ (fun script hs => hg script ?_))) _)
    rw [hs, List.length_append]; simp; omega

omit [SFinite μ] in
theorem meanGiven_mul (step : C → S × Aux XR → C) (c : C) (start : S) (g : List (Chance S) → ℝ≥0∞) (r : ℝ≥0∞) (hr : r ≠ ⊤) (n : Nat) :
    ∀ (past : List (Chance S)),
    meanGiven μ max π q step c start (fun s => r * g s) n past = r * meanGiven μ max π q step c start g n past := by
  induction n with
  | zero => intro past; rfl
  | succ n ih =>
    intro past
    simp only [meanGiven, ih, lintegral_const_mul' _ _ hr, mul_left_comm]

omit [SFinite μ] in
theorem integral_target (h : GeneralTarget μ max π q) (f : S → ℝ) : ∫ x, f x ∂(target μ π) = targetExpectation μ π f := by
  unfold target targetExpectation
  rw [integral_smul_measure, integral_withDensity_eq_integral_toReal_smul h.measurable.ennreal_ofReal
    (Filter.Eventually.of_forall (fun _ => ENNReal.ofReal_lt_top))]
  have e : (weight μ π)⁻¹.toReal = (∫ x, π x ∂μ)⁻¹ := by
    unfold weight
    rw [← ofReal_integral_eq_lintegral_ofReal h.integrable (Filter.Eventually.of_forall h.nonneg), ENNReal.toReal_inv,
      ENNReal.toReal_ofReal h.nonzero.le]
  rw [e, smul_eq_mul, div_eq_inv_mul]
  congr 1
  refine integral_congr_ae (Filter.Eventually.of_forall (fun x => ?_))
  simp only [smul_eq_mul, ENNReal.toReal_ofReal (h.nonneg x)]

/-- the law of large numbers for means of functions of the samples -/
theorem mean_square (h : GeneralTarget μ max π q) (k : Nat) (hk : 1 ≤ k) (ε : ℝ) (hε : 0 < ε) (hf : Forgets μ max π q k ε)
    (f : S → ℝ) (hm : Measurable f) (b : ℝ) (hb : ∀ x, |f x| ≤ b) (step : C → S × Aux XR → C) (c : C) (start : S) (hs : GoodStart max π start)
    (n : Nat) (hn : 1 ≤ n) (g : List (Chance S) → ℝ)
    (hg : ∀ script, script.length = n → g script = ((samplesIssued max π q step c start script).map f).sum / n) :
    meanOf μ max π q step c start n (fun script => ENNReal.ofReal ((g script - targetExpectation μ π f) ^ 2)) ≤
      ENNReal.ofReal ((4 * b ^ 2 + 8 * k * b ^ 2 / ε) / n) := by
  have hM := markov h
  have hP := target_prob h
  have hn0 : (0:ℝ) < n := by exact_mod_cast hn
  have hfb : BM f b := ⟨hm, hb⟩
  set t := targetExpectation μ π f with ht
  have htt : ∫ x, f x ∂(target μ π) = t := integral_target h f
  have htb : |t| ≤ b := by
    rw [← htt]
    have := norm_integral_le_of_norm_le_const (μ := target μ π) (f := f) (C := b) (Filter.Eventually.of_forall (fun x => by rw [Real.norm_eq_abs]; exact hb x))
    simpa using this
  set f' : S → ℝ := fun x => (f x - t) / n with hf'
  have hbm : BM f' (2 * b / n) := by
    refine ⟨(hm.sub_const _).div_const _, fun x => ?_⟩
    rw [hf']
    simp only
    rw [abs_div, abs_of_pos hn0]
    refine div_le_div_of_nonneg_right ?_ hn0.le
    refine (abs_sub _ _).trans ?_
    linarith [hb x]
  have h0 : ∫ x, f' x ∂(target μ π) = 0 := by
    simp only [hf']
    rw [integral_div, integral_sub (hfb.integrable _) (integrable_const _), htt]
    simp
  have hmin := minorised h k hk ε hε.le hf start hs
  have hA := fun n => hmin.A_bound (invariant h) hε hbm h0 hk n
  have hV := V_le hbm hA n 0 start
  rw [meanOf_W (φ := fun s y => s + f' y) (F := fun p => ENNReal.ofReal (p.1 ^ 2)) (measurable_fst.add (hbm.1.comp measurable_snd))
    ((measurable_fst.pow_const 2).ennreal_ofReal) 0 h step c start hs _ n, W_V]
  · refine hV.trans (ENNReal.ofReal_le_ofReal (le_of_eq ?_))
    field_simp
    ring
  · intro script hl
    have hl' : script.length = n := hl
    rw [hg script hl', (scriptRun_eq max π q step c start script).1, foldl_sum, zero_add]
    congr 2
    have : ∀ l : List S, (l.map f').sum = ((l.map f).sum - l.length * t) / n := by
      intro l
      induction l with
      | nil => simp
      | cons a l ih => 
        have e : f' a = (f a - t) / n := rfl
        rw [List.map_cons, List.map_cons, List.sum_cons, List.sum_cons, ih, List.length_cons, e]
        push_cast
        field_simp
        ring
    rw [this, pathFrom_length, hl']
    field_simp

end General

end SampleFlow
