import Verif.Props.MarkovChain

/-!
# C43: which encodings of zero probability agree, for all four combinations
-/

namespace SampleFlow

open MeasureTheory Spec

/-- The two ways to express zero probability as a log likelihood, metropolis_hastings.impl.h 653-660. -/
def IsZeroEncoding (max : ℝ) (l : XR) : Prop := l = .negInf ∨ l = .fin (-max)

theorem IsZeroEncoding.hasZero {max : ℝ} {l : XR} (h : IsZeroEncoding max l) : @hasZeroProbability XR (idealOps max) l = true := by
  rcases h with rfl | rfl
  · exact hasZero_negInf max
  · simp [hasZeroProbability, FloatOps.eq, FloatOps.negMax, FloatOps.negInf, XR.eqb]

theorem accB_zero {max : ℝ} {a b : XR} (ha : IsZeroEncoding max a) (hb : IsZeroEncoding max b) (ratio : XR) (u1 u2 : ℝ) :
    accB max a b ratio u1 u2 = (XR.leb (.fin u1) (XR.div (.fin 1) ratio) || (XR.ltb b (a.add (XR.log ratio).neg) || XR.leb (.fin u2) (XR.div (XR.exp (a.add b.neg)) ratio))) := by
  unfold accB
  simp only [ha.hasZero, hb.hasZero]
  simp

theorem accProb_zero_small {max r : ℝ} {a b : XR} (ha : IsZeroEncoding max a) (hb : IsZeroEncoding max b) (hr : 0 < r) (hr1 : r ≤ 1) : accProb max a b (.fin r) = 1 := by
  unfold accProb
  have : {u : ℝ × ℝ | u ∈ unitSquare ∧ accB max a b (.fin r) u.1 u.2 = true} = unitSquare := by
    ext u
    simp only [Set.mem_ofPred_eq]
    refine ⟨fun h => h.1, fun h => ⟨h, ?_⟩⟩
    have h1 : u.1 < 1 := h.1.2
    have h2 : 1 ≤ 1 / r := by rw [le_div_iff₀ hr]; linarith
    rw [accB_zero ha hb]
    simp [XR.div, hr.ne', XR.leb, XR.ltb, show u.1 < r⁻¹ by rw [← one_div]; linarith]
  rw [this, volume_unitSquare]
  rfl

/-- C43: the encodings agree (whichever of them is used for the current and for the proposed sample) exactly for the proposals with ratio at most 1; then the move is always made. -/
theorem C43_agree_iff_partial {S : Type} (max r : ℝ) (hr : 0 < r) (x z : S) (hxz : x ≠ z) :
    ((∀ L L' : S → XR, (∀ s, IsZeroEncoding max (L s)) → (∀ s, IsZeroEncoding max (L' s)) →
        stepProbGiven max L (.fin r) x z z = stepProbGiven max L' (.fin r) x z z) ↔ r ≤ 1) ∧
    (r ≤ 1 → ∀ L : S → XR, (∀ s, IsZeroEncoding max (L s)) → stepProbGiven max L (.fin r) x z z = 1) := by
  have hone : r ≤ 1 → ∀ L : S → XR, (∀ s, IsZeroEncoding max (L s)) → stepProbGiven max L (.fin r) x z z = 1 := by
    intro h L hL
    rw [stepProbGiven_eq, accProb_zero_small (hL z) (hL x) hr h]
    simp
  refine ⟨⟨fun h => ?_, fun h L L' hL hL' => by rw [hone h L hL, hone h L' hL']⟩, hone⟩
  by_contra hr1
  push Not at hr1
  obtain ⟨h1, h2⟩ := C43_violation max r hr1.le x z hxz
  have h3 := h (fun _ => .negInf) (fun _ => .fin (-max)) (fun _ => .inl rfl) (fun _ => .inr rfl)
  rw [h1, h2] at h3
  have h4 : 0 < 1 / r := by positivity
  have h5 : 1 / r < 1 := by rw [div_lt_one hr]; exact hr1
  nlinarith

/-- C43 (violated): if the encodings are mixed, a move from a state with log likelihood `-inf` to one with `-max` is always made, whatever the ratio; in the other direction it is made with probability `1/r`. -/
theorem C43_violation_mixed {S : Type} (max r : ℝ) (hr : 1 ≤ r) (x z : S) (hxz : x ≠ z) (L : S → XR) :
    (L x = .negInf → L z = .fin (-max) → stepProbGiven max L (.fin r) x z z = 1) ∧
    (L x = .fin (-max) → L z = .negInf → stepProbGiven max L (.fin r) x z z = 1 / r) := by
  have hpos : 0 < r := by linarith
  have hr0 : ¬ r = 0 := hpos.ne'
  have hinv0 : 0 ≤ 1 / r := by positivity
  have hinv1 : 1 / r ≤ 1 := by rw [div_le_one hpos]; exact hr
  have hlog : XR.log (.fin r) = .fin (Real.log r) := by
    simp [XR.log, not_lt.mpr hpos.le, hr0]
  refine ⟨fun hx hz => ?_, fun hx hz => ?_⟩
  · rw [stepProbGiven_eq, hx, hz]
    simp only [hxz, if_true, if_false, add_zero]
    unfold accProb
    have : {u : ℝ × ℝ | u ∈ unitSquare ∧ accB max (.fin (-max)) .negInf (.fin r) u.1 u.2 = true} = unitSquare := by
      ext u
      simp only [Set.mem_ofPred_eq]
      refine ⟨fun h => h.1, fun h => ⟨h, ?_⟩⟩
      rw [accB_zero (.inr rfl) (.inl rfl)]
      simp [hlog, XR.neg, XR.add, XR.ltb]
    rw [this, volume_unitSquare]
    rfl
  · rw [stepProbGiven_eq, hx, hz]
    simp only [hxz, if_true, if_false, add_zero]
    have hv := volume_le_square (1 / r) hinv0
    rw [min_eq_right hinv1] at hv
    have hnull : (volume {u : ℝ × ℝ | u ∈ unitSquare ∧ (u.1 ≤ 1 / r ∨ u.2 = 0)}) = volume {u : ℝ × ℝ | u ∈ unitSquare ∧ u.1 ≤ 1 / r} := by
      apply measure_congr
      have h0 : volume {u : ℝ × ℝ | u.2 = 0} = 0 := by
        have : {u : ℝ × ℝ | u.2 = 0} = (Set.univ : Set ℝ) ×ˢ ({0} : Set ℝ) := by ext u; simp
        rw [this, Measure.volume_eq_prod, Measure.prod_prod]
        simp
      have h0' : ∀ᵐ u : ℝ × ℝ ∂volume, u.2 ≠ 0 := by
        rw [ae_iff]
        simpa using h0
      filter_upwards [h0'] with u hu
      simp only [eq_iff_iff]
      constructor
      · rintro ⟨h1, h2 | h2⟩
        · exact ⟨h1, h2⟩
        · exact absurd h2 hu
      · rintro ⟨h1, h2⟩
        exact ⟨h1, .inl h2⟩
    rw [← hv, ← hnull]
    unfold accProb
    congr 2
    ext u
    simp only [Set.mem_ofPred_eq]
    refine and_congr_right (fun hu => ?_)
    have hu2 : 0 ≤ u.2 := hu.2.1
    rw [accB_zero (.inl rfl) (.inr rfl)]
    simp only [hlog, XR.neg, XR.add, XR.exp, XR.div, hr0, if_false, XR.ltb, XR.leb, XR.eqb, Bool.or_eq_true, decide_eq_true_eq, Bool.false_or, zero_div, ← le_iff_lt_or_eq]
    constructor
    · rintro (h | h)
      · exact .inl h
      · exact .inr (le_antisymm h hu2)
    · rintro (h | h)
      · exact .inl h
      · exact .inr h.le

/-! ### Instances -/

example := C43_agree_iff_partial 1000 2 (by norm_num) (0 : Nat) 1 (by decide)
example := (C43_violation_mixed 1000 2 (by norm_num) (0 : Nat) 1 (by decide) (fun s => if s = 0 then .negInf else .fin (-1000))).1 rfl rfl
example := (C43_violation_mixed 1000 2 (by norm_num) (0 : Nat) 1 (by decide) (fun s => if s = 0 then .fin (-1000) else .negInf)).2 rfl rfl

end SampleFlow
