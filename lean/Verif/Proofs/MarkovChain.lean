import Verif.Spec.MarkovChain
import Verif.Proofs.Producers
import Mathlib.Tactic.FieldSimp
import Mathlib.Tactic.Linarith
import Mathlib.Algebra.Order.Star.Basic

set_option linter.unusedSimpArgs false

namespace SampleFlow

open Spec MeasureTheory

variable {S : Type}

/-- the decision of the sampler as a function of the two random numbers -/
noncomputable def accB (max : ℝ) (a b ratio : XR) (u1 u2 : ℝ) : Bool :=
  letI := idealOps max
  let tz := hasZeroProbability a
  let cz := hasZeroProbability b
  !(tz && !cz) && ((tz && cz && XR.leb (.fin u1) (XR.div (.fin 1) ratio)) ||
    (XR.ltb b (a.add (XR.log ratio).neg) ||
      XR.leb (.fin (if tz && cz then u2 else u1)) (XR.div (XR.exp (a.add b.neg)) ratio)))

theorem mhAccept_fixed (max : ℝ) (L : S → XR) (z : S) (r0 a b ratio : XR) (u1 u2 : ℝ) :
    (@mhAccept (List ℝ) S XR Empty (fixedWorld L z r0) (idealOps max) a b ratio [u1, u2]).2.1 =
      .ok (accB max a b ratio u1 u2) := by
  letI := idealOps max
  unfold accB mhAccept
  cases h1 : hasZeroProbability a
  · cases h3 : XR.ltb b (a.add (XR.log ratio).neg)
    · simp only [Bool.false_and, Bool.not_false, if_true, Bool.true_and, Bool.false_or]
      have : FloatOps.lt b (FloatOps.sub a (FloatOps.log ratio)) = false := h3
      simp only [this, h3, Bool.false_eq_true, if_false]
      rfl
    · have : FloatOps.lt b (FloatOps.sub a (FloatOps.log ratio)) = true := h3
      simp [this, bind, Prog.bind, Prog.pure_run]
  · cases h2 : hasZeroProbability b
    · simp [Prog.pure_run]
    · simp only [Bool.not_true, Bool.and_false, Bool.not_false, if_true, Bool.and_self, Bool.true_and]
      cases h4 : XR.leb (.fin u1) (XR.div (.fin 1) ratio)
      · have h4' : FloatOps.le (XR.fin u1) (FloatOps.div FloatOps.one ratio) = false := h4
        cases h3 : XR.ltb b (a.add (XR.log ratio).neg)
        · have : FloatOps.lt b (FloatOps.sub a (FloatOps.log ratio)) = false := h3
          simp [bind, Prog.bind, draw, fixedWorld, Prog.pure_run, h4', this]
          rfl
        · have : FloatOps.lt b (FloatOps.sub a (FloatOps.log ratio)) = true := h3
          simp [bind, Prog.bind, draw, fixedWorld, Prog.pure_run, h4', this]
      · have h4' : FloatOps.le (XR.fin u1) (FloatOps.div FloatOps.one ratio) = true := h4
        simp [bind, Prog.bind, draw, fixedWorld, Prog.pure_run, h4']

theorem mhSample_fixed (max : ℝ) (L : S → XR) (x z : S) (ratio : XR) (u1 u2 : ℝ) :
    (@mhSample (List ℝ) S XR Empty (fixedWorld L z ratio) (idealOps max) x 1 [u1, u2]).2.1 =
      .ok (if accB max (L z) (L x) ratio u1 u2 then z else x) := by
  letI := idealOps max
  unfold mhSample Prog.withScopeExit mhLoop
  have e1 : callLogLikelihood (fixedWorld L z ratio) x [u1, u2] =
      ([.logLikelihood x (L x)], .ok (L x), [u1, u2]) := rfl
  rw [Prog.bind_ok e1]
  have e2 : callPropose (fixedWorld L z ratio) x [] [u1, u2] =
      ([.proposed x [] z ratio], .ok (z, ratio), [u1, u2]) := rfl
  have e3 : callLogLikelihood (fixedWorld L z ratio) z [u1, u2] =
      ([.logLikelihood z (L z)], .ok (L z), [u1, u2]) := rfl
  have e4 := mhAccept_fixed max L z ratio (L z) (L x) ratio u1 u2
  rcases h : mhAccept (fixedWorld L z ratio) (L z) (L x) ratio [u1, u2] with ⟨tr, res, w'⟩
  rw [h] at e4
  simp only at e4
  subst e4
  simp only [bind, Prog.bind, e2, e3, h]
  cases accB max (L z) (L x) ratio u1 u2 <;> rfl

theorem volume_unitSquare : volume unitSquare = 1 := by
  unfold unitSquare
  rw [Measure.volume_eq_prod, Measure.prod_prod]
  simp

theorem measurableSet_unitSquare : MeasurableSet unitSquare :=
  measurableSet_Ico.prod measurableSet_Ico

theorem measurable_leb (c : XR) : MeasurableSet {t : ℝ | XR.leb (.fin t) c = true} := by
  cases c with
  | nan => simp [XR.leb, XR.ltb, XR.eqb]
  | negInf => simp [XR.leb, XR.ltb, XR.eqb]
  | posInf => simp [XR.leb, XR.ltb, XR.eqb]
  | fin a =>
    have : {t : ℝ | XR.leb (.fin t) (.fin a) = true} = Set.Iic a := by
      ext t; simp [XR.leb, XR.ltb, XR.eqb, le_iff_lt_or_eq]
    rw [this]; exact measurableSet_Iic

theorem measurable_accB (max : ℝ) (a b ratio : XR) :
    MeasurableSet {u : ℝ × ℝ | accB max a b ratio u.1 u.2 = true} := by
  unfold accB
  letI := idealOps max
  have m1 : ∀ c, MeasurableSet {u : ℝ × ℝ | XR.leb (.fin u.1) c = true} := fun c =>
    (measurable_leb c).preimage measurable_fst
  have m2 : ∀ c, MeasurableSet {u : ℝ × ℝ | XR.leb (.fin u.2) c = true} := fun c =>
    (measurable_leb c).preimage measurable_snd
  cases hasZeroProbability a <;> cases hasZeroProbability b <;>
    cases XR.ltb b (a.add (XR.log ratio).neg) <;>
    simp only [Bool.false_and, Bool.true_and, Bool.not_false, Bool.not_true, Bool.false_or, Bool.true_or,
      Bool.and_false, Bool.and_true, Bool.or_true, Bool.or_false, if_true, if_false, Bool.false_eq_true,
      Bool.or_eq_true, Bool.and_eq_true, Bool.and_self, Set.ofPred_false, Set.ofPred_true, MeasurableSet.empty,
      MeasurableSet.univ, Set.ofPred_or, m1, m2]
  exact (m1 _).union (m2 _)

/-- probability of acceptance -/
noncomputable def accProb (max : ℝ) (a b ratio : XR) : ℝ :=
  (volume {u : ℝ × ℝ | u ∈ unitSquare ∧ accB max a b ratio u.1 u.2 = true}).toReal

theorem rejProb (max : ℝ) (a b ratio : XR) :
    (volume {u : ℝ × ℝ | u ∈ unitSquare ∧ accB max a b ratio u.1 u.2 = false}).toReal =
      1 - accProb max a b ratio := by
  have h1 : {u : ℝ × ℝ | u ∈ unitSquare ∧ accB max a b ratio u.1 u.2 = false} =
      unitSquare \ {u : ℝ × ℝ | accB max a b ratio u.1 u.2 = true} := by
    ext u; simp
  have h2 : {u : ℝ × ℝ | u ∈ unitSquare ∧ accB max a b ratio u.1 u.2 = true} =
      unitSquare ∩ {u : ℝ × ℝ | accB max a b ratio u.1 u.2 = true} := rfl
  have hf : volume unitSquare ≠ ⊤ := by rw [volume_unitSquare]; simp
  have := measure_sdiff_add_inter (μ := volume) unitSquare (measurable_accB max a b ratio)
  rw [volume_unitSquare] at this
  unfold accProb
  rw [h1, h2]
  have h3 : volume (unitSquare \ {u : ℝ × ℝ | accB max a b ratio u.1 u.2 = true}) ≠ ⊤ :=
    ne_top_of_le_ne_top hf (measure_mono Set.sdiff_subset)
  have h4 : volume (unitSquare ∩ {u : ℝ × ℝ | accB max a b ratio u.1 u.2 = true}) ≠ ⊤ :=
    ne_top_of_le_ne_top hf (measure_mono Set.inter_subset_left)
  have h5 := congrArg ENNReal.toReal this
  rw [ENNReal.toReal_add h3 h4, ENNReal.toReal_one] at h5
  linarith

open Classical in
theorem stepProbGiven_eq (max : ℝ) (L : S → XR) (ratio : XR) (x z y : S) :
    stepProbGiven max L ratio x z y =
      (if z = y then accProb max (L z) (L x) ratio else 0) +
      (if x = y then 1 - accProb max (L z) (L x) ratio else 0) := by
  unfold stepProbGiven
  simp only [mhSample_fixed]
  have conv : ∀ u : ℝ × ℝ, (Except.ok (if accB max (L z) (L x) ratio u.1 u.2 = true then z else x) =
      (Except.ok y : Except Empty S)) ↔
      ((accB max (L z) (L x) ratio u.1 u.2 = true ∧ z = y) ∨
        (accB max (L z) (L x) ratio u.1 u.2 = false ∧ x = y)) := by
    intro u
    cases accB max (L z) (L x) ratio u.1 u.2 <;> simp
  simp only [conv]
  by_cases hz : z = y <;> by_cases hx : x = y
  · have : {u : ℝ × ℝ | u ∈ unitSquare ∧ (accB max (L z) (L x) ratio u.1 u.2 = true ∧ z = y ∨
        accB max (L z) (L x) ratio u.1 u.2 = false ∧ x = y)} = unitSquare := by
      ext u
      cases h : accB max (L z) (L x) ratio u.1 u.2 <;> simp [h, hz, hx]
    rw [this, volume_unitSquare]
    simp [hz, hx]
  · simp only [hz, hx, and_true, and_false, or_false, if_true, if_false, add_zero]
    subst hz
    rfl
  · simp only [hz, hx, and_true, and_false, false_or, if_true, if_false, zero_add]
    subst hx
    exact rejProb max _ _ ratio
  · simp [hz, hx]

/-! ## the acceptance probability -/

theorem volume_le_square (a : ℝ) (ha : 0 ≤ a) :
    (volume {u : ℝ × ℝ | u ∈ unitSquare ∧ u.1 ≤ a}).toReal = min 1 a := by
  have h1 : {u : ℝ × ℝ | u ∈ unitSquare ∧ u.1 ≤ a} = (Set.Ico 0 1 ∩ Set.Iic a) ×ˢ Set.Ico 0 1 := by
    ext u
    simp only [unitSquare, Set.mem_ofPred_eq, Set.mem_prod, Set.mem_inter_iff, Set.mem_Iic]
    tauto
  rw [h1, Measure.volume_eq_prod, Measure.prod_prod]
  simp only [Real.volume_Ico, sub_zero, ENNReal.ofReal_one, mul_one]
  by_cases h : 1 ≤ a
  · have : Set.Ico (0:ℝ) 1 ∩ Set.Iic a = Set.Ico 0 1 := by
      ext t; simp only [Set.mem_inter_iff, Set.mem_Ico, Set.mem_Iic]; constructor
      · exact fun h => h.1
      · exact fun h' => ⟨h', by linarith [h'.2]⟩
    rw [this]; simp [h]
  · have : Set.Ico (0:ℝ) 1 ∩ Set.Iic a = Set.Icc 0 a := by
      ext t; simp only [Set.mem_inter_iff, Set.mem_Ico, Set.mem_Iic, Set.mem_Icc]; constructor
      · exact fun h => ⟨h.1.1, h.2⟩
      · exact fun h' => ⟨⟨h'.1, by linarith [h'.2]⟩, h'.2⟩
    rw [this, Real.volume_Icc, sub_zero, ENNReal.toReal_ofReal ha, min_eq_right (by linarith)]

theorem hasZero_fin (max l : ℝ) (h : l ≠ -max) : @hasZeroProbability XR (idealOps max) (.fin l) = false := by
  simp [hasZeroProbability, FloatOps.eq, FloatOps.negMax, FloatOps.negInf, XR.eqb, h]

theorem hasZero_negInf (max : ℝ) : @hasZeroProbability XR (idealOps max) .negInf = true := by
  simp [hasZeroProbability, FloatOps.eq, FloatOps.negMax, FloatOps.negInf, XR.eqb]

theorem accProb_fin (max la lb r : ℝ) (ha : la ≠ -max) (hb : lb ≠ -max) (hr : 0 < r) :
    accProb max (.fin la) (.fin lb) (.fin r) = min 1 (Real.exp (la - lb) / r) := by
  have hpos : 0 < Real.exp (la - lb) / r := div_pos (Real.exp_pos _) hr
  rw [← volume_le_square _ hpos.le]
  unfold accProb
  congr 2
  ext u
  simp only [Set.mem_ofPred_eq]
  refine and_congr_right ?_
  intro hu
  have hu1 : u.1 < 1 := hu.1.2
  unfold accB
  simp only [hasZero_fin max la ha, hasZero_fin max lb hb]
  have hlog : XR.log (.fin r) = .fin (Real.log r) := by
    simp [XR.log, not_lt.mpr hr.le, hr.ne']
  have hr0 : ¬ r = 0 := hr.ne'
  simp only [hlog, XR.neg, XR.add, XR.exp, XR.div, hr0, if_false, XR.ltb, XR.leb, XR.eqb, Bool.false_and,
    Bool.not_false, Bool.true_and, Bool.false_or, Bool.false_eq_true, Bool.or_eq_true, decide_eq_true_eq]
  rw [← le_iff_lt_or_eq, ← sub_eq_add_neg, ← sub_eq_add_neg]
  constructor
  · rintro (h | h)
    · have : 1 < Real.exp (la - lb) / r := by
        rw [lt_div_iff₀ hr, one_mul]
        calc r = Real.exp (Real.log r) := (Real.exp_log hr).symm
          _ < Real.exp (la - lb) := Real.exp_lt_exp.mpr (by linarith)
      linarith
    · exact h
  · exact Or.inr

theorem accProb_posInf (max la lb : ℝ) (ha : la ≠ -max) (hb : lb ≠ -max) :
    accProb max (.fin la) (.fin lb) .posInf = 0 := by
  have : (volume {u : ℝ × ℝ | u ∈ unitSquare ∧ u.1 ≤ 0}).toReal = 0 := by
    rw [volume_le_square 0 le_rfl]; simp
  rw [← this]
  unfold accProb
  congr 2
  ext u
  simp only [Set.mem_ofPred_eq]
  refine and_congr_right ?_
  intro hu
  unfold accB
  simp only [hasZero_fin max la ha, hasZero_fin max lb hb]
  simp only [XR.log, XR.neg, XR.add, XR.exp, XR.div, if_false, XR.ltb, XR.leb, XR.eqb, Bool.false_and,
    Bool.not_false, Bool.true_and, Bool.false_or, Bool.false_eq_true, Bool.or_eq_true, decide_eq_true_eq]
  rw [← le_iff_lt_or_eq]

theorem accProb_into_zero (max lb : ℝ) (ratio : XR) (hb : lb ≠ -max) :
    accProb max .negInf (.fin lb) ratio = 0 := by
  unfold accProb accB
  simp [hasZero_fin max lb hb, hasZero_negInf]

end SampleFlow
