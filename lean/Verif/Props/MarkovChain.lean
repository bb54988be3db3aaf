import Verif.Proofs.MarkovChain
import Mathlib.Algebra.BigOperators.Field
import Mathlib.Algebra.Order.BigOperators.Ring.Finset
import Mathlib.Tactic.Ring
import Mathlib.Tactic.Positivity
import Mathlib.Tactic.NormNum

/-!
# Properties C42 and C43: the Markov chain simulated by MetropolisHastings

Exact arithmetic with infinities and NaN (`idealOps max`); `stepProbGiven` and `transition` (Spec/MarkovChain)
are the probabilities, over independent uniformly distributed random numbers, of where one step of
`MetropolisHastings::sample` ends.
-/

namespace SampleFlow

open Spec MeasureTheory

set_option linter.unusedSimpArgs false

/-- C42 (acceptance probability): with log likelihoods `la = log π(z)` of the proposal and `lb = log π(x)` of
the current sample (neither being the marker `-max` for zero probability), and proposal ratio `r`, the step
moves to the proposal with probability `min(1, π(z)/(π(x) r))`. -/
theorem C42_acceptance_probability {S : Type} (max la lb r : ℝ) (L : S → XR) (x z : S) (hxz : x ≠ z)
    (hz : L z = .fin la) (hx : L x = .fin lb) (ha : la ≠ -max) (hb : lb ≠ -max) (hr : 0 < r) :
    stepProbGiven max L (.fin r) x z z = min 1 (Real.exp la / (Real.exp lb * r)) ∧
    stepProbGiven max L (.fin r) x z x = 1 - min 1 (Real.exp la / (Real.exp lb * r)) := by
  have e : Real.exp (la - lb) / r = Real.exp la / (Real.exp lb * r) := by
    rw [Real.exp_sub, div_div]
  rw [stepProbGiven_eq, stepProbGiven_eq, hz, hx, accProb_fin max la lb r ha hb hr, e]
  simp [hxz, Ne.symm hxz]

/-- The condition of `C38_uphill_accepted` on the arithmetic holds for exact arithmetic with infinities and NaN. -/
example (max : ℝ) (a : XR) : (idealOps max).sub a ((idealOps max).log (idealOps max).one) = a := by
  have hlog : XR.log (.fin 1) = .fin 0 := by simp [XR.log, show ¬ ((1:ℝ) < 0) by norm_num]
  show a.add (XR.log (.fin 1)).neg = a
  rw [hlog]
  cases a <;> simp [XR.neg, XR.add]

/-- C42: a proposal with ratio 1 and a larger likelihood is accepted for all random numbers. -/
theorem C42_uphill_always_accepted {S : Type} (max la lb : ℝ) (L : S → XR) (x z : S)
    (hz : L z = .fin la) (hx : L x = .fin lb) (ha : la ≠ -max) (hb : lb ≠ -max) (hup : lb < la) (u1 u2 : ℝ) :
    (@mhSample (List ℝ) S XR Empty (fixedWorld L z (.fin 1)) (idealOps max) x 1 [u1, u2]).2.1 = .ok z := by
  rw [mhSample_fixed, hz, hx]
  have : accB max (.fin la) (.fin lb) (.fin 1) u1 u2 = true := by
    have hlog : XR.log (.fin 1) = .fin 0 := by simp [XR.log, show ¬ ((1:ℝ) < 0) by norm_num]
    unfold accB
    simp [hasZero_fin max la ha, hasZero_fin max lb hb, hlog, XR.neg, XR.add, XR.ltb, hup]
  rw [this]; rfl

section
variable {S : Type} [Fintype S]

open Classical in
theorem transition_off (max : ℝ) (π : S → ℝ) (q : S → S → ℝ) (x y : S) (hxy : x ≠ y) :
    transition max π q x y =
      q x y * accProb max (logOf (π y)) (logOf (π x)) (XR.div (.fin (q x y)) (.fin (q y x))) := by
  unfold transition
  rw [Finset.sum_eq_single y]
  · rw [stepProbGiven_eq]; simp [hxy]
  · intro z _ hz
    rw [stepProbGiven_eq]; simp [hxy, hz]
  · intro h; exact absurd (Finset.mem_univ y) h

omit [Fintype S] in
/-- `min(1, a/b)` version of the flow between two states of positive probability -/
theorem flow_eq_at (max : ℝ) (π : S → ℝ) (q : S → S → ℝ) (hπ : ∀ x, 0 ≤ π x) (hq : ∀ x y, 0 ≤ q x y)
    (x y : S) (hmx : Real.log (π x) ≠ -max) (hmy : Real.log (π y) ≠ -max) :
    π x * (q x y * accProb max (logOf (π y)) (logOf (π x)) (XR.div (.fin (q x y)) (.fin (q y x)))) =
      min (π x * q x y) (π y * q y x) := by
  rcases (hπ x).eq_or_lt with hx | hx
  · rw [← hx]; simp [mul_nonneg (hπ y) (hq y x)]
  rcases (hq x y).eq_or_lt with hq0 | hq0
  · rw [← hq0]; simp [mul_nonneg (hπ y) (hq y x)]
  have lx : logOf (π x) = .fin (Real.log (π x)) := by simp [logOf, hx.ne']
  rcases (hπ y).eq_or_lt with hy | hy
  · have ly : logOf (π y) = .negInf := by simp [logOf, ← hy]
    rw [lx, ly, accProb_into_zero max _ _ hmx, ← hy]
    simp [mul_nonneg hx.le hq0.le]
  have ly : logOf (π y) = .fin (Real.log (π y)) := by simp [logOf, hy.ne']
  rcases (hq y x).eq_or_lt with hr0 | hr0
  · have : XR.div (.fin (q x y)) (.fin (q y x)) = .posInf := by
      simp [XR.div, ← hr0, hq0, hq0.ne']
    rw [this, lx, ly, accProb_posInf max _ _ hmy hmx, ← hr0]
    simp [mul_nonneg hx.le hq0.le]
  · have : XR.div (.fin (q x y)) (.fin (q y x)) = .fin (q x y / q y x) := by
      simp [XR.div, hr0.ne']
    rw [this, lx, ly, accProb_fin max _ _ _ hmy hmx (div_pos hq0 hr0), Real.exp_sub, Real.exp_log hx,
      Real.exp_log hy]
    rw [← mul_assoc, mul_min_of_nonneg _ _ (mul_nonneg hx.le hq0.le), mul_one]
    congr 1
    field_simp

omit [Fintype S] in
theorem flow_eq (max : ℝ) (π : S → ℝ) (q : S → S → ℝ) (hπ : ∀ x, 0 ≤ π x) (hq : ∀ x y, 0 ≤ q x y)
    (hm : ∀ x, Real.log (π x) ≠ -max) (x y : S) :
    π x * (q x y * accProb max (logOf (π y)) (logOf (π x)) (XR.div (.fin (q x y)) (.fin (q y x)))) =
      min (π x * q x y) (π y * q y x) := flow_eq_at max π q hπ hq x y (hm x) (hm y)

/-- C42 (detailed balance): for every target density `π` and every proposal distribution `q` - not necessarily
symmetric, possibly with moves that have no reverse - the chain is reversible with respect to `π`.  (`hm`: no
log likelihood is the number `-max`, which the sampler takes for zero probability.) -/
theorem C42_detailed_balance (max : ℝ) (π : S → ℝ) (q : S → S → ℝ) (hπ : ∀ x, 0 ≤ π x)
    (hq : ∀ x y, 0 ≤ q x y) (hm : ∀ x, Real.log (π x) ≠ -max) (x y : S) :
    π x * transition max π q x y = π y * transition max π q y x := by
  by_cases hxy : x = y
  · rw [hxy]
  · rw [transition_off max π q x y hxy, transition_off max π q y x (Ne.symm hxy),
      flow_eq max π q hπ hq hm, flow_eq max π q hπ hq hm, min_comm]

open Classical in
/-- C42: the transition probabilities from any state sum to one. -/
theorem C42_transition_sum (max : ℝ) (π : S → ℝ) (q : S → S → ℝ) (hq1 : ∀ x, ∑ z, q x z = 1) (x : S) :
    ∑ y, transition max π q x y = 1 := by
  unfold transition
  rw [Finset.sum_comm]
  rw [← hq1 x]
  refine Finset.sum_congr rfl (fun z _ => ?_)
  rw [← Finset.mul_sum]
  have : ∑ y, stepProbGiven max (fun s => logOf (π s)) (XR.div (.fin (q x z)) (.fin (q z x))) x z y = 1 := by
    simp only [stepProbGiven_eq, Finset.sum_add_distrib, Finset.sum_ite_eq, Finset.mem_univ, if_true]
    ring
  rw [this, mul_one]

/-- C42 (stationarity): if the current sample is distributed according to `π`, so is the next one. -/
theorem C42_stationary (max : ℝ) (π : S → ℝ) (q : S → S → ℝ) (hπ : ∀ x, 0 ≤ π x)
    (hq : ∀ x y, 0 ≤ q x y) (hq1 : ∀ x, ∑ z, q x z = 1) (hm : ∀ x, Real.log (π x) ≠ -max) (y : S) :
    ∑ x, π x * transition max π q x y = π y := by
  have : ∀ x, π x * transition max π q x y = π y * transition max π q y x :=
    fun x => C42_detailed_balance max π q hπ hq hm x y
  simp only [this]
  rw [← Finset.mul_sum, C42_transition_sum max π q hq1 y, mul_one]

end

/-- Two states with probabilities 1/4, 3/4 and proposals that always suggest the other state: the chain moves
from the likely to the unlikely state with probability 1/3. -/
example : transition 1000 (fun b : Bool => if b then 3/4 else 1/4) (fun x y => if x = y then 0 else 1) true false
    = 1/3 := by
  have hl : ∀ p : ℝ, (1:ℝ)/4 ≤ p → Real.log p ≠ -1000 := by
    intro p hp h
    have h1 : Real.log (1/4) ≤ Real.log p := Real.log_le_log (by norm_num) hp
    have h2 : 1 - (1/4 : ℝ)⁻¹ ≤ Real.log (1/4) := Real.one_sub_inv_le_log_of_pos (by norm_num)
    norm_num at h2
    rw [h] at h1
    norm_num at h1
    linarith
  have h := flow_eq 1000 (fun b : Bool => if b then (3/4:ℝ) else 1/4) (fun x y => if x = y then 0 else 1)
    (by intro x; cases x <;> norm_num) (by intro x y; split <;> norm_num)
    (by intro x; cases x <;> exact hl _ (by norm_num)) true false
  have h2 := transition_off 1000 (fun b : Bool => if b then (3/4:ℝ) else 1/4) (fun x y => if x = y then 0 else 1)
    true false (by decide)
  rw [← h2] at h
  norm_num at h
  linarith

/-! ## C43 -/

theorem volume_le_or (a : ℝ) (h0 : 0 ≤ a) (h1 : a ≤ 1) :
    (volume {u : ℝ × ℝ | u ∈ unitSquare ∧ (u.1 ≤ a ∨ u.2 ≤ a)}).toReal = 1 - (1 - a) ^ 2 := by
  have e : {u : ℝ × ℝ | u ∈ unitSquare ∧ (u.1 ≤ a ∨ u.2 ≤ a)} =
      unitSquare \ (Set.Ioo a 1 ×ˢ Set.Ioo a 1) := by
    ext ⟨s, t⟩
    simp only [unitSquare, Set.mem_ofPred_eq, Set.mem_prod, Set.mem_Ico, Set.mem_sdiff, Set.mem_Ioo]
    constructor
    · rintro ⟨h, h'⟩
      refine ⟨h, ?_⟩
      rintro ⟨⟨h2, -⟩, ⟨h3, -⟩⟩
      rcases h' with h' | h' <;> linarith
    · rintro ⟨h, h'⟩
      refine ⟨h, ?_⟩
      by_contra hc
      rw [not_or, not_le, not_le] at hc
      exact h' ⟨⟨hc.1, h.1.2⟩, ⟨hc.2, h.2.2⟩⟩
  have hsub : Set.Ioo a 1 ×ˢ Set.Ioo a 1 ⊆ unitSquare := by
    rintro ⟨s, t⟩ ⟨⟨h2, h3⟩, ⟨h4, h5⟩⟩
    exact ⟨⟨by linarith, h3⟩, ⟨by linarith, h5⟩⟩
  have hv : volume (Set.Ioo a 1 ×ˢ Set.Ioo a 1) = ENNReal.ofReal ((1 - a) ^ 2) := by
    rw [Measure.volume_eq_prod, Measure.prod_prod, Real.volume_Ioo, ← ENNReal.ofReal_mul (by linarith)]
    congr 1; ring
  rw [e, measure_sdiff hsub (measurableSet_Ioo.prod measurableSet_Ioo).nullMeasurableSet (by rw [hv]; simp),
    volume_unitSquare, hv, ENNReal.toReal_sub_of_le]
  · simp [sq_nonneg]
  · rw [← ENNReal.ofReal_one]
    exact ENNReal.ofReal_le_ofReal (by nlinarith)
  · simp

/-- C43 (violated): between two states of zero probability, with proposal ratio `r ≥ 1`, a step moves to the
proposal with probability `1/r` if zero probability is expressed by `-inf`, but with probability
`1-(1-1/r)²` if it is expressed by `-max`: the sampler draws a second random number. -/
theorem C43_violation {S : Type} (max r : ℝ) (hr : 1 ≤ r) (x z : S) (hxz : x ≠ z) :
    stepProbGiven max (fun _ => .negInf) (.fin r) x z z = 1 / r ∧
    stepProbGiven max (fun _ => .fin (-max)) (.fin r) x z z = 1 - (1 - 1 / r) ^ 2 := by
  have hpos : 0 < r := by linarith
  have hr0 : ¬ r = 0 := hpos.ne'
  have hinv0 : 0 ≤ 1 / r := by positivity
  have hinv1 : 1 / r ≤ 1 := by rw [div_le_one hpos]; exact hr
  have hlog0 : 0 ≤ Real.log r := Real.log_nonneg hr
  have hlog : XR.log (.fin r) = .fin (Real.log r) := by
    simp [XR.log, not_lt.mpr hpos.le, hr0]
  rw [stepProbGiven_eq, stepProbGiven_eq]
  simp only [hxz, if_true, if_false, add_zero]
  constructor
  · have := volume_le_square (1 / r) hinv0
    rw [min_eq_right hinv1] at this
    rw [← this]
    unfold accProb
    congr 2
    ext u
    simp only [Set.mem_ofPred_eq]
    refine and_congr_right (fun hu => ?_)
    unfold accB
    simp only [hasZero_negInf]
    simp only [hlog, XR.neg, XR.add, XR.exp, XR.div, hr0, if_false, XR.ltb, XR.leb, XR.eqb, Bool.and_self,
      Bool.not_true, Bool.and_false, Bool.not_false, Bool.true_and, Bool.or_false, Bool.or_eq_true,
      decide_eq_true_eq, Bool.false_or, le_iff_lt_or_eq]
  · rw [← volume_le_or (1 / r) hinv0 hinv1]
    unfold accProb
    congr 2
    ext u
    simp only [Set.mem_ofPred_eq]
    refine and_congr_right (fun hu => ?_)
    unfold accB
    have hz : @hasZeroProbability XR (idealOps max) (.fin (-max)) = true := by
      simp [hasZeroProbability, FloatOps.eq, FloatOps.negMax, FloatOps.negInf, XR.eqb]
    have hnl : ¬ (-max < -max + -Real.log r) := by linarith
    simp only [hz]
    simp only [hlog, XR.neg, XR.add, XR.exp, XR.div, hr0, if_false, XR.ltb, XR.leb, XR.eqb, Bool.and_self,
      Bool.not_true, Bool.and_false, Bool.not_false, Bool.true_and, Bool.or_false, Bool.or_eq_true, if_true,
      decide_eq_true_eq, Bool.false_or, hnl, false_or, decide_false]
    rw [← le_iff_lt_or_eq, ← le_iff_lt_or_eq]
    simp

/-- The two encodings agree for symmetric proposals (`ratio = 1`): the move is always made. -/
theorem C43_symmetric_proposals_agree_partial {S : Type} (max : ℝ) (x z : S) (hxz : x ≠ z) :
    stepProbGiven max (fun _ => .negInf) (.fin 1) x z z = 1 ∧
    stepProbGiven max (fun _ => .fin (-max)) (.fin 1) x z z = 1 := by
  have := C43_violation max 1 le_rfl x z hxz
  norm_num at this
  exact this

/-! ### Instances: concrete cases that meet the hypotheses of the theorems above -/

example := C42_acceptance_probability 1000 (-2) 1 (1/2) (fun x : Nat => if x = 0 then .fin 1 else .fin (-2)) 0 1 (by decide) rfl rfl (by norm_num) (by norm_num) (by norm_num)
example := C42_uphill_always_accepted 1000 1 (-2) (fun x : Nat => if x = 0 then .fin (-2) else .fin 1) 0 1 rfl rfl (by norm_num) (by norm_num) (by norm_num) (1/2) (1/3)

/-- the logarithms of the densities 1/4 and 3/4 are not the marker -/
theorem quarters_no_marker (b : Bool) : Real.log (if b then (3/4 : ℝ) else 1/4) ≠ -1000 := by
  have h1 : Real.exp (-1000) < 1/4 := by
    have := Real.add_one_le_exp (1000 : ℝ)
    rw [Real.exp_neg, inv_lt_comm₀ (Real.exp_pos _) (by norm_num)]
    linarith
  intro h
  have h2 := congrArg Real.exp h
  cases b <;> simp only [if_true, Bool.false_eq_true, if_false] at h2 <;> rw [Real.exp_log (by norm_num)] at h2 <;> linarith

example := C42_detailed_balance 1000 (fun b : Bool => if b then 3/4 else 1/4) (fun x y => if x = y then 0 else 1) (fun b => by cases b <;> norm_num)
  (fun x y => by split <;> norm_num) quarters_no_marker true false
example := C42_transition_sum 1000 (fun b : Bool => if b then 3/4 else 1/4) (fun x y => if x = y then 0 else 1) (fun b => by cases b <;> simp) true
example := C42_stationary 1000 (fun b : Bool => if b then 3/4 else 1/4) (fun x y => if x = y then 0 else 1) (fun b => by cases b <;> norm_num)
  (fun x y => by split <;> norm_num) (fun b => by cases b <;> simp) quarters_no_marker true
example := C43_violation 1000 2 (by norm_num) (0 : Nat) 1 (by decide)
example := C43_symmetric_proposals_agree_partial 1000 (0 : Nat) 1 (by decide)

end SampleFlow
