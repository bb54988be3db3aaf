import Verif.Spec.GeneralChain
import Verif.Props.MarkovChain
import Mathlib.MeasureTheory.Measure.Prod

/-! Metropolis-Hastings on a general state space. -/

namespace SampleFlow

open Spec MeasureTheory
open scoped ENNReal

variable {S : Type} [MeasurableSpace S]

/-- flow from `x` to `z` -/
noncomputable def mFlow (π : S → ℝ) (q : S → S → ℝ) (x z : S) : ℝ≥0∞ := ENNReal.ofReal (min (π x * q x z) (π z * q z x))

/-- what stays at `x` after the proposal `z` -/
noncomputable def rFlow (π : S → ℝ) (q : S → S → ℝ) (x z : S) : ℝ≥0∞ :=
  ENNReal.ofReal (π x * q x z - min (π x * q x z) (π z * q z x))

omit [MeasurableSpace S] in
theorem mFlow_symm (π : S → ℝ) (q : S → S → ℝ) (x z : S) : mFlow π q x z = mFlow π q z x := by
  unfold mFlow; rw [min_comm]

theorem lintegral_accB (max : ℝ) (a b ratio : XR) (c d : ℝ≥0∞) :
    ∫⁻ u in unitSquare, (if accB max a b ratio u.1 u.2 = true then c else d) =
      ENNReal.ofReal (accProb max a b ratio) * c + ENNReal.ofReal (1 - accProb max a b ratio) * d := by
  have hm := measurable_accB max a b ratio
  have hf : volume unitSquare ≠ ⊤ := by rw [volume_unitSquare]; simp
  rw [← lintegral_add_compl _ hm]
  have e1 : ∫⁻ u in {u : ℝ × ℝ | accB max a b ratio u.1 u.2 = true}, (if accB max a b ratio u.1 u.2 = true then c else d)
      ∂(volume.restrict unitSquare) = c * volume ({u : ℝ × ℝ | accB max a b ratio u.1 u.2 = true} ∩ unitSquare) := by
    rw [setLIntegral_congr_fun (g := fun _ => c) hm (fun u hu => by simp only [Set.mem_setOf_eq] at hu; simp [hu])]
    rw [setLIntegral_const, Measure.restrict_apply hm]
  have e2 : ∫⁻ u in {u : ℝ × ℝ | accB max a b ratio u.1 u.2 = true}ᶜ, (if accB max a b ratio u.1 u.2 = true then c else d)
      ∂(volume.restrict unitSquare) = d * volume ({u : ℝ × ℝ | accB max a b ratio u.1 u.2 = true}ᶜ ∩ unitSquare) := by
    rw [setLIntegral_congr_fun (g := fun _ => d) hm.compl (fun u hu => by
      simp only [Set.mem_compl_iff, Set.mem_setOf_eq] at hu; simp [hu])]
    rw [setLIntegral_const, Measure.restrict_apply hm.compl]
  rw [e1, e2]
  have h1 : volume ({u : ℝ × ℝ | accB max a b ratio u.1 u.2 = true} ∩ unitSquare) = ENNReal.ofReal (accProb max a b ratio) := by
    unfold accProb
    rw [ENNReal.ofReal_toReal]
    · congr 1; ext u; simp [and_comm]
    · exact ne_top_of_le_ne_top hf (measure_mono (fun u hu => hu.1))
  have h2 : volume ({u : ℝ × ℝ | accB max a b ratio u.1 u.2 = true}ᶜ ∩ unitSquare) = ENNReal.ofReal (1 - accProb max a b ratio) := by
    rw [← rejProb]
    rw [ENNReal.ofReal_toReal]
    · congr 1; ext u; simp [and_comm]
    · exact ne_top_of_le_ne_top hf (measure_mono (fun u hu => hu.1))
  rw [h1, h2, mul_comm c, mul_comm d]

theorem accProb_range (max : ℝ) (a b ratio : XR) : 0 ≤ accProb max a b ratio ∧ accProb max a b ratio ≤ 1 := by
  refine ⟨ENNReal.toReal_nonneg, ?_⟩
  have := rejProb max a b ratio
  have h : 0 ≤ (volume {u : ℝ × ℝ | u ∈ unitSquare ∧ accB max a b ratio u.1 u.2 = false}).toReal := ENNReal.toReal_nonneg
  linarith

/-- one step, in terms of the flows -/
theorem expectNext_eq (μ : Measure S) (max : ℝ) (π : S → ℝ) (q : S → S → ℝ) (hπ : ∀ x, 0 ≤ π x) (hq : ∀ x y, 0 ≤ q x y)
    (hm : ∀ᵐ x ∂μ, Real.log (π x) ≠ -max) (f : S → ℝ≥0∞) (x : S) (hx : Real.log (π x) ≠ -max) :
    ENNReal.ofReal (π x) * expectNext μ max π q f x = ∫⁻ z, (mFlow π q x z * f z + rFlow π q x z * f x) ∂μ := by
  unfold expectNext
  rw [← lintegral_const_mul' _ _ ENNReal.ofReal_ne_top]
  refine lintegral_congr_ae (hm.mono (fun z hz => ?_))
  simp only
  have e : ∀ u : ℝ × ℝ, f (resultOf (@mhSample (List ℝ) S XR Empty (fixedWorld (fun s => logOf (π s)) z
      (XR.div (.fin (q x z)) (.fin (q z x)))) (idealOps max) x 1 [u.1, u.2]).2.1) =
      (if accB max (logOf (π z)) (logOf (π x)) (XR.div (.fin (q x z)) (.fin (q z x))) u.1 u.2 = true then f z else f x) := by
    intro u
    rw [mhSample_fixed]
    cases accB max (logOf (π z)) (logOf (π x)) (XR.div (.fin (q x z)) (.fin (q z x))) u.1 u.2 <;> rfl
  simp only [e]
  rw [lintegral_accB]
  obtain ⟨h0, h1⟩ := accProb_range max (logOf (π z)) (logOf (π x)) (XR.div (.fin (q x z)) (.fin (q z x)))
  have hfl := flow_eq_at max π q hπ hq x z hx hz
  generalize accProb max (logOf (π z)) (logOf (π x)) (XR.div (.fin (q x z)) (.fin (q z x))) = a at *
  rw [← mul_assoc, ← ENNReal.ofReal_mul (hπ x), mul_add, ← mul_assoc, ← mul_assoc, ← ENNReal.ofReal_mul (mul_nonneg (hπ x) (hq x z)),
    ← ENNReal.ofReal_mul (mul_nonneg (hπ x) (hq x z))]
  unfold mFlow rFlow
  rw [← hfl]
  congr 3
  · ring_nf
  · ring_nf

section
variable {π : S → ℝ} {q : S → S → ℝ}

theorem measurable_mFlow (hπ : Measurable π) (hq : Measurable (Function.uncurry q)) :
    Measurable (Function.uncurry (mFlow π q)) := by
  unfold mFlow
  have h1 : Measurable fun p : S × S => π p.1 * q p.1 p.2 := (hπ.comp measurable_fst).mul hq
  have h2 : Measurable fun p : S × S => π p.2 * q p.2 p.1 := (hπ.comp measurable_snd).mul (hq.comp measurable_swap)
  exact (h1.min h2).ennreal_ofReal

theorem measurable_rFlow (hπ : Measurable π) (hq : Measurable (Function.uncurry q)) :
    Measurable (Function.uncurry (rFlow π q)) := by
  unfold rFlow
  have h1 : Measurable fun p : S × S => π p.1 * q p.1 p.2 := (hπ.comp measurable_fst).mul hq
  have h2 : Measurable fun p : S × S => π p.2 * q p.2 p.1 := (hπ.comp measurable_snd).mul (hq.comp measurable_swap)
  exact (h1.sub (h1.min h2)).ennreal_ofReal

/-- self-adjointness of a step -/
theorem expectNext_selfAdjoint (μ : Measure S) [SFinite μ] (max : ℝ) (hπ : ∀ x, 0 ≤ π x) (hq : ∀ x y, 0 ≤ q x y)
    (hπm : Measurable π) (hqm : Measurable (Function.uncurry q))
    (hm : ∀ᵐ x ∂μ, Real.log (π x) ≠ -max) (f g : S → ℝ≥0∞) (hf : Measurable f) (hg : Measurable g) :
    ∫⁻ x, g x * (ENNReal.ofReal (π x) * expectNext μ max π q f x) ∂μ =
      ∫⁻ x, f x * (ENNReal.ofReal (π x) * expectNext μ max π q g x) ∂μ := by
  have mm := measurable_mFlow hπm hqm
  have mr := measurable_rFlow hπm hqm
  have split : ∀ (f g : S → ℝ≥0∞), Measurable f → Measurable g →
      ∫⁻ x, g x * (ENNReal.ofReal (π x) * expectNext μ max π q f x) ∂μ =
        (∫⁻ x, ∫⁻ z, mFlow π q x z * (g x * f z) ∂μ ∂μ) + ∫⁻ x, ∫⁻ z, rFlow π q x z * (g x * f x) ∂μ ∂μ := by
    intro f g hf hg
    rw [← lintegral_add_left]
    · refine lintegral_congr_ae (hm.mono (fun x hx => ?_))
      simp only
      rw [expectNext_eq μ max π q hπ hq hm f x hx, ← lintegral_const_mul]
      · rw [← lintegral_add_left]
        · refine lintegral_congr (fun z => ?_)
          ring
        · exact (mm.of_uncurry_left).mul (hf.const_mul _)
      · exact ((mm.of_uncurry_left).mul hf).add ((mr.of_uncurry_left).mul_const _)
    · exact Measurable.lintegral_prod_right (mm.mul ((hg.comp measurable_fst).mul (hf.comp measurable_snd)))
  rw [split f g hf hg, split g f hg hf]
  congr 1
  · rw [lintegral_lintegral_swap]
    · refine lintegral_congr (fun x => lintegral_congr (fun z => ?_))
      rw [mFlow_symm]; ring
    · exact (mm.mul ((hg.comp measurable_fst).mul (hf.comp measurable_snd))).aemeasurable
  · refine lintegral_congr (fun x => lintegral_congr (fun z => ?_))
    ring

/-- A measurable function that agrees with the expected value after one step where `π` is not zero. -/
noncomputable def stepVersion (μ : Measure S) (π : S → ℝ) (q : S → S → ℝ) (f : S → ℝ≥0∞) (x : S) : ℝ≥0∞ :=
  (∫⁻ z, (mFlow π q x z * f z + rFlow π q x z * f x) ∂μ) / ENNReal.ofReal (π x)

theorem measurable_stepVersion (μ : Measure S) [SFinite μ] (hπm : Measurable π) (hqm : Measurable (Function.uncurry q))
    (f : S → ℝ≥0∞) (hf : Measurable f) : Measurable (stepVersion μ π q f) := by
  have mm := measurable_mFlow hπm hqm
  have mr := measurable_rFlow hπm hqm
  refine Measurable.div ?_ hπm.ennreal_ofReal
  exact Measurable.lintegral_prod_right ((mm.mul (hf.comp measurable_snd)).add (mr.mul (hf.comp measurable_fst)))

theorem expectNext_version (μ : Measure S) (max : ℝ) (hπ : ∀ x, 0 ≤ π x) (hq : ∀ x y, 0 ≤ q x y)
    (hm : ∀ᵐ x ∂μ, Real.log (π x) ≠ -max) (f f' : S → ℝ≥0∞) (hff : ∀ x, π x ≠ 0 → Real.log (π x) ≠ -max → f x = f' x) (x : S) (hx : π x ≠ 0)
    (hmx : Real.log (π x) ≠ -max) :
    expectNext μ max π q f x = stepVersion μ π q f' x := by
  have hpos : 0 < π x := lt_of_le_of_ne (hπ x) (Ne.symm hx)
  have e := expectNext_eq μ max π q hπ hq hm f x hmx
  unfold stepVersion
  rw [ENNReal.eq_div_iff (by simpa using hpos) ENNReal.ofReal_ne_top, e]
  refine lintegral_congr_ae (hm.mono (fun z hmz => ?_))
  simp only
  rw [hff x hx hmx]
  by_cases hz : π z = 0
  · have : mFlow π q x z = 0 := by
      unfold mFlow
      rw [hz, zero_mul, min_eq_right (mul_nonneg (hπ x) (hq x z))]; simp
    rw [this]; simp
  · rw [hff z hz hmz]

theorem expectNext_one (μ : Measure S) (max : ℝ) (hq1 : ∀ x, ∫⁻ z, ENNReal.ofReal (q x z) ∂μ = 1) (x : S) :
    expectNext μ max π q (fun _ => 1) x = 1 := by
  unfold expectNext
  simp only [setLIntegral_const, volume_unitSquare, mul_one]
  exact hq1 x

/-- `expectAfter` has a measurable version, and its integral over `π` is that of `f`. -/
theorem expectAfter_integral (μ : Measure S) [SFinite μ] (max : ℝ) (hπ : ∀ x, 0 ≤ π x) (hq : ∀ x y, 0 ≤ q x y)
    (hq1 : ∀ x, ∫⁻ z, ENNReal.ofReal (q x z) ∂μ = 1)
    (hπm : Measurable π) (hqm : Measurable (Function.uncurry q))
    (hm : ∀ᵐ x ∂μ, Real.log (π x) ≠ -max) (f : S → ℝ≥0∞) (hf : Measurable f) (n : Nat) :
    ∃ f', Measurable f' ∧ (∀ x, π x ≠ 0 → Real.log (π x) ≠ -max → expectAfter μ max π q n f x = f' x) ∧
      ∫⁻ x, ENNReal.ofReal (π x) * f' x ∂μ = ∫⁻ x, ENNReal.ofReal (π x) * f x ∂μ := by
  induction n with
  | zero => exact ⟨f, hf, fun _ _ _ => rfl, rfl⟩
  | succ n ih =>
    obtain ⟨f', h1, h2, h3⟩ := ih
    refine ⟨stepVersion μ π q f', measurable_stepVersion μ hπm hqm f' h1, ?_, ?_⟩
    · intro x hx hmx
      exact expectNext_version μ max hπ hq hm _ f' h2 x hx hmx
    · rw [← h3]
      have := expectNext_selfAdjoint μ max hπ hq hπm hqm hm f' (fun _ => 1) h1 measurable_const
      simp only [one_mul, expectNext_one μ max hq1, mul_one] at this
      calc ∫⁻ x, ENNReal.ofReal (π x) * stepVersion μ π q f' x ∂μ
          = ∫⁻ x, ENNReal.ofReal (π x) * expectNext μ max π q f' x ∂μ := by
            refine lintegral_congr_ae (hm.mono (fun x hmx => ?_))
            simp only
            by_cases hx : π x = 0
            · simp [hx]
            · rw [expectNext_version μ max hπ hq hm f' f' (fun _ _ _ => rfl) x hx hmx]
        _ = ∫⁻ x, f' x * ENNReal.ofReal (π x) ∂μ := this
        _ = _ := lintegral_congr (fun x => mul_comm _ _)

end

end SampleFlow
