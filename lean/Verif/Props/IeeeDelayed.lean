import Verif.Model.IeeeOps
import Verif.Props.IeeeAccuracy
import Mathlib.Analysis.SpecialFunctions.Exp
import Mathlib.MeasureTheory.Measure.Lebesgue.Basic

/-!
# Property C99: the delayed rejection sampler in IEEE double precision

`alphaFn false k x ys` is the acceptance ratio `alpha_fn` of the last of the proposals with the log likelihoods `ys`, where `x` is the log likelihood of the current sample (the vector `num_yvec` that is never used is not constructed, see C46).
`ieeeOps fl Ω fexp flog`: arithmetic with rounding `fl`, underflow, overflow, infinities and NaN.
-/

namespace SampleFlow

open Spec Ieee

/-- What the theorems assume about `std::exp`: it is monotone, not negative, and `exp(0) = 1`. -/
structure Spec.ExpLike (fexp : ℝ → ℝ) : Prop where
  mono : ∀ x y, x ≤ y → fexp x ≤ fexp y
  nonneg : ∀ x, 0 ≤ fexp x
  zero : fexp 0 = 1

/-- Line 256: `acceptance_ratio > 1 || acceptance_ratio >= u`. -/
noncomputable def Spec.accepts (ratio : XR) (u : ℝ) : Bool := XR.ltb (.fin 1) ratio || XR.leb (.fin u) ratio

namespace IeeeDR

variable {u tiny Ω : ℝ} {fl fexp flog : ℝ → ℝ}

/-- not smaller than one -/
def Big (fl : ℝ → ℝ) (v : XR) : Prop := v = .posInf ∨ ∃ r, v = .fin r ∧ 1 ≤ r ∧ Machine fl r

/-- not positive -/
def NonPos (v : XR) : Prop := v = .negInf ∨ ∃ r, v = .fin r ∧ r ≤ 0

theorem big_round (h : Format u tiny fl) (hΩ1 : 1 ≤ Ω) {x : ℝ} (hx : 1 ≤ x) : Big fl (roundResult fl Ω (.fin x)) := by
  have h1 : 1 ≤ fl x := le_fl h h.one hx
  simp only [roundResult]
  split
  · exact .inl rfl
  · rw [if_neg (by linarith)]
    exact .inr ⟨_, rfl, h1, machine_fl h _⟩

theorem nonpos_round (h : Format u tiny fl) (hΩ1 : 1 ≤ Ω) {x : ℝ} (hx : x ≤ 0) : NonPos (roundResult fl Ω (.fin x)) := by
  have h1 : fl x ≤ 0 := fl_le h (fl_zero h) hx
  simp only [roundResult]
  rw [if_neg (by linarith)]
  split
  · exact .inl rfl
  · exact .inr ⟨_, rfl, h1⟩

theorem unit_round (h : Format u tiny fl) (hΩ1 : 1 ≤ Ω) {x : ℝ} (h0 : 0 ≤ x) (h1 : x ≤ 1) : roundResult fl Ω (.fin x) = .fin (fl x) ∧ 0 ≤ fl x ∧ fl x ≤ 1 := by
  have a := le_fl h (fl_zero h) h0
  have b := fl_le h h.one h1
  refine ⟨?_, a, b⟩
  simp only [roundResult]
  rw [if_neg (by linarith), if_neg (by linarith)]

theorem exp_big (h : Format u tiny fl) (he : ExpLike fexp) (hΩ1 : 1 ≤ Ω) {d : ℝ} (hd : 0 ≤ d) : Big fl (ieeeExp fl Ω fexp (roundResult fl Ω (.fin d))) := by
  have hf : 0 ≤ fl d := le_fl h (fl_zero h) hd
  simp only [roundResult]
  split
  · exact .inl rfl
  · rw [if_neg (by linarith)]
    exact big_round h hΩ1 (by rw [← he.zero]; exact he.mono _ _ hf)

/-- the value of the exponential of a difference that is not positive -/
noncomputable def small (fl : ℝ → ℝ) (Ω : ℝ) (fexp : ℝ → ℝ) (d : ℝ) : ℝ := if fl d < -Ω then 0 else fl (fexp (fl d))

theorem exp_small (h : Format u tiny fl) (he : ExpLike fexp) (hΩ1 : 1 ≤ Ω) {d : ℝ} (hd : d ≤ 0) :
    ieeeExp fl Ω fexp (roundResult fl Ω (.fin d)) = .fin (small fl Ω fexp d) ∧ 0 ≤ small fl Ω fexp d ∧ small fl Ω fexp d ≤ 1 ∧ Machine fl (small fl Ω fexp d) := by
  have hf : fl d ≤ 0 := fl_le h (fl_zero h) hd
  unfold small
  simp only [roundResult]
  rw [if_neg (by linarith)]
  split
  · exact ⟨rfl, le_rfl, by norm_num, fl_zero h⟩
  · obtain ⟨a, b, c⟩ := unit_round (Ω := Ω) h hΩ1 (he.nonneg (fl d)) (by rw [← he.zero]; exact he.mono _ _ hf)
    exact ⟨a, b, c, machine_fl h _⟩

theorem small_mono (h : Format u tiny fl) (he : ExpLike fexp) {d d' : ℝ} (hdd : d ≤ d') : small fl Ω fexp d ≤ small fl Ω fexp d' := by
  have := h.mono _ _ hdd
  unfold small
  split
  · split
    · exact le_rfl
    · exact le_fl h (fl_zero h) (he.nonneg _)
  · rw [if_neg (by linarith)]
    exact h.mono _ _ (he.mono _ _ this)

theorem one_sub (h : Format u tiny fl) (hΩ1 : 1 ≤ Ω) {a : ℝ} (h0 : 0 ≤ a) (h1 : a ≤ 1) :
    roundResult fl Ω ((XR.fin 1).add (XR.fin a).neg) = .fin (fl (1 - a)) ∧ 0 ≤ fl (1 - a) ∧ fl (1 - a) ≤ 1 := by
  have e : (XR.fin 1).add (XR.fin a).neg = .fin (1 - a) := by simp only [XR.neg, XR.add]; rw [sub_eq_add_neg]
  rw [e]
  exact unit_round h hΩ1 (by linarith) (by linarith)

theorem one_sub_pos (h : Format u tiny fl) (hu0 : 0 ≤ u) (hu : u ≤ 1/8) (ht : 0 ≤ tiny) {a : ℝ} (ha : Machine fl a) (h1 : a < 1) : 0 < fl (1 - a) := by
  have := diff_error h hu0 ht h.one ha
  rw [abs_of_pos (by linarith : 0 < 1 - a)] at this
  have h2 := (abs_le.mp this).1
  nlinarith

theorem alpha_one (x y : XR) : @alphaFn XR (ieeeOps fl Ω fexp flog) false 1 x [y] = .ok (ieeeExp fl Ω fexp (roundResult fl Ω (y.add x.neg))) := rfl

theorem alpha_two (x y₁ y₂ : XR) : @alphaFn XR (ieeeOps fl Ω fexp flog) false 2 x [y₁, y₂] =
    .ok (roundResult fl Ω ((ieeeExp fl Ω fexp (roundResult fl Ω (y₂.add x.neg))).mul (roundResult fl Ω
      ((roundResult fl Ω ((XR.fin 1).add (ieeeExp fl Ω fexp (roundResult fl Ω (y₁.add y₂.neg))).neg)).div
        (roundResult fl Ω ((XR.fin 1).add (ieeeExp fl Ω fexp (roundResult fl Ω (y₁.add x.neg))).neg)))))) := rfl

theorem sub_eq (x y : ℝ) : (XR.fin x).add (XR.fin y).neg = .fin (x - y) := by
  simp only [XR.neg, XR.add]; rw [sub_eq_add_neg]

theorem big_accepts {v : XR} (hv : Big fl v) {r : ℝ} (hr : r ≤ 1) : accepts v r = true := by
  unfold accepts XR.leb
  rcases hv with rfl | ⟨q, rfl, hq, -⟩
  · simp [XR.ltb]
  · simp only [XR.ltb, XR.eqb]
    rcases lt_or_eq_of_le (hr.trans hq) with h | h <;> simp [h]

theorem nonpos_rejects {v : XR} (hv : NonPos v ∨ v = .nan) {r : ℝ} (hr : 0 < r) : accepts v r = false := by
  unfold accepts XR.leb
  rcases hv with (rfl | ⟨q, rfl, hq⟩) | rfl
  · simp [XR.ltb, XR.eqb]
  · simp only [XR.ltb, XR.eqb]
    have h1 : ¬ (1 < q) := by linarith
    have h2 : ¬ (r < q) := by linarith
    have h3 : ¬ (r = q) := by linarith
    simp [h1, h2, h3]
  · simp [XR.ltb, XR.eqb]

theorem big_mul (h : Format u tiny fl) (hΩ1 : 1 ≤ Ω) {v w : XR} (hv : Big fl v) (hw : Big fl w) : Big fl (roundResult fl Ω (v.mul w)) := by
  have hinf : ∀ r : ℝ, 1 ≤ r → XR.infTimes true r = .posInf := by
    intro r hr
    unfold XR.infTimes
    rw [if_neg (by linarith), if_pos]
    have : 0 < r := by linarith
    simp [this]
  rcases hv with rfl | ⟨a, rfl, ha, -⟩ <;> rcases hw with rfl | ⟨b, rfl, hb, -⟩
  · exact .inl rfl
  · simp only [XR.mul]; rw [hinf b hb]; exact .inl rfl
  · simp only [XR.mul]; rw [hinf a ha]; exact .inl rfl
  · simp only [XR.mul]
    exact big_round h hΩ1 (by nlinarith)

/-- a rejected first proposal -/
theorem rejected (h : Format u tiny fl) (he : ExpLike fexp) (hΩ1 : 1 ≤ Ω) {x y r : ℝ} (hr : r ≤ 1) (hrej : accepts (ieeeExp fl Ω fexp (roundResult fl Ω (.fin (y - x)))) r = false) :
    y < x ∧ small fl Ω fexp (y - x) < 1 := by
  have hyx : y < x := by
    by_contra hc
    push Not at hc
    rw [big_accepts (exp_big h he hΩ1 (by linarith)) hr] at hrej
    exact absurd hrej (by simp)
  obtain ⟨e, -, h1, hm⟩ := exp_small (Ω := Ω) h he hΩ1 (by linarith : y - x ≤ 0)
  refine ⟨hyx, lt_of_le_of_ne h1 (fun hb => ?_)⟩
  rw [e, hb, big_accepts (.inr ⟨1, rfl, le_rfl, h.one⟩ : Big fl (.fin 1)) hr] at hrej
  exact absurd hrej (by simp)

end IeeeDR

open IeeeDR

variable {u tiny Ω : ℝ} {fl fexp flog : ℝ → ℝ}

/-- **C99** (first proposal): a proposal at least as likely as the current sample is accepted, whatever the random number `r`. -/
theorem C99_first_stage (h : Format u tiny fl) (he : ExpLike fexp) (hΩ1 : 1 ≤ Ω) (x y r : ℝ) (hxy : x ≤ y) (hr : r ≤ 1) :
    ∃ α, @alphaFn XR (ieeeOps fl Ω fexp flog) false 1 (.fin x) [.fin y] = .ok α ∧ accepts α r = true := by
  refine ⟨_, alpha_one _ _, ?_⟩
  rw [sub_eq]
  exact big_accepts (exp_big h he hΩ1 (by linarith)) hr

/-- **C99** (second proposal, sure acceptance): if the first proposal has been rejected, a second proposal at least as likely as the current sample is accepted, whatever the random number. -/
theorem C99_second_stage_accepted (h : Format u tiny fl) (hu0 : 0 ≤ u) (hu : u ≤ 1/8) (ht : 0 ≤ tiny) (he : ExpLike fexp) (hΩ1 : 1 ≤ Ω) (x y₁ y₂ r₁ r₂ : ℝ) (hr₁ : r₁ ≤ 1) (hr₂ : r₂ ≤ 1) (α₁ : XR)
    (h₁ : @alphaFn XR (ieeeOps fl Ω fexp flog) false 1 (.fin x) [.fin y₁] = .ok α₁) (hrej : accepts α₁ r₁ = false) (hxy : x ≤ y₂) :
    ∃ α₂, @alphaFn XR (ieeeOps fl Ω fexp flog) false 2 (.fin x) [.fin y₁, .fin y₂] = .ok α₂ ∧ accepts α₂ r₂ = true := by
  rw [alpha_one, sub_eq] at h₁
  cases h₁
  obtain ⟨hlt, hb1⟩ := rejected h he hΩ1 hr₁ hrej
  refine ⟨_, alpha_two _ _ _, ?_⟩
  rw [sub_eq, sub_eq, sub_eq]
  obtain ⟨ea, a0, a1, am⟩ := exp_small (Ω := Ω) h he hΩ1 (by linarith : y₁ - y₂ ≤ 0)
  obtain ⟨eb, b0, -, bm⟩ := exp_small (Ω := Ω) h he hΩ1 (by linarith : y₁ - x ≤ 0)
  have hab := small_mono (Ω := Ω) h he (by linarith : y₁ - y₂ ≤ y₁ - x)
  rw [ea, eb, (one_sub h hΩ1 a0 a1).1, (one_sub h hΩ1 b0 hb1.le).1]
  have hden := one_sub_pos h hu0 hu ht bm hb1
  have hnum : fl (1 - small fl Ω fexp (y₁ - x)) ≤ fl (1 - small fl Ω fexp (y₁ - y₂)) := h.mono _ _ (by linarith)
  refine big_accepts (big_mul h hΩ1 (exp_big h he hΩ1 (by linarith)) ?_) hr₂
  simp only [XR.div]
  rw [if_neg hden.ne']
  exact big_round h hΩ1 ((one_le_div hden).mpr hnum)

/-- **C99** (second proposal, sure rejection): if the first proposal has been rejected, a second proposal that is not more likely than the first is rejected, whatever the random number `r₂ > 0`; also if the acceptance ratio is NaN. -/
theorem C99_second_stage_rejected (h : Format u tiny fl) (hu0 : 0 ≤ u) (hu : u ≤ 1/8) (ht : 0 ≤ tiny) (he : ExpLike fexp) (hΩ1 : 1 ≤ Ω) (x y₁ y₂ r₁ r₂ : ℝ) (hr₁ : r₁ ≤ 1) (hr₂ : 0 < r₂) (α₁ : XR)
    (h₁ : @alphaFn XR (ieeeOps fl Ω fexp flog) false 1 (.fin x) [.fin y₁] = .ok α₁) (hrej : accepts α₁ r₁ = false) (hy : y₂ ≤ y₁) :
    ∃ α₂, @alphaFn XR (ieeeOps fl Ω fexp flog) false 2 (.fin x) [.fin y₁, .fin y₂] = .ok α₂ ∧ accepts α₂ r₂ = false := by
  rw [alpha_one, sub_eq] at h₁
  cases h₁
  obtain ⟨hlt, hb1⟩ := rejected h he hΩ1 hr₁ hrej
  refine ⟨_, alpha_two _ _ _, ?_⟩
  rw [sub_eq, sub_eq, sub_eq]
  obtain ⟨el, l0, l1, lm⟩ := exp_small (Ω := Ω) h he hΩ1 (by linarith : y₂ - x ≤ 0)
  obtain ⟨eb, b0, -, bm⟩ := exp_small (Ω := Ω) h he hΩ1 (by linarith : y₁ - x ≤ 0)
  rw [el, eb, (one_sub h hΩ1 b0 hb1.le).1]
  have hden := one_sub_pos h hu0 hu ht bm hb1
  generalize fl (1 - small fl Ω fexp (y₁ - x)) = D at *
  generalize small fl Ω fexp (y₂ - x) = L at *
  have hnum : NonPos (roundResult fl Ω ((XR.fin 1).add (ieeeExp fl Ω fexp (roundResult fl Ω (.fin (y₁ - y₂)))).neg)) := by
    rcases exp_big (Ω := Ω) h he hΩ1 (by linarith : 0 ≤ y₁ - y₂) with e | ⟨a, e, ha, -⟩ <;> rw [e]
    · exact .inl rfl
    · rw [sub_eq]; exact nonpos_round h hΩ1 (by linarith)
  have hq : NonPos (roundResult fl Ω ((roundResult fl Ω ((XR.fin 1).add (ieeeExp fl Ω fexp (roundResult fl Ω (.fin (y₁ - y₂)))).neg)).div (.fin D))) := by
    rcases hnum with e | ⟨a, e, ha⟩ <;> rw [e]
    · simp only [XR.div]; rw [if_pos hden.le]; exact .inl rfl
    · simp only [XR.div]; rw [if_neg hden.ne']; exact nonpos_round h hΩ1 (div_nonpos_of_nonpos_of_nonneg ha hden.le)
  refine nonpos_rejects ?_ hr₂
  rcases hq with e | ⟨a, e, ha⟩ <;> rw [e]
  · simp only [XR.mul, XR.infTimes]
    split
    · exact .inr rfl
    · rw [if_neg (by
        have : 0 < L := lt_of_le_of_ne l0 (Ne.symm (by assumption))
        simp [this])]
      exact .inl (.inl rfl)
  · simp only [XR.mul]
    exact .inl (nonpos_round h hΩ1 (mul_nonpos_of_nonneg_of_nonpos l0 ha))

/-! ### the probability of a move in the second stage -/

/-- The probability that a random number `r`, uniformly distributed in `[0,1)`, leads to the acceptance of a proposal with the acceptance ratio `α`. -/
noncomputable def Spec.acceptProb (α : XR) : ℝ := (MeasureTheory.volume {r : ℝ | 0 ≤ r ∧ r < 1 ∧ accepts α r = true}).toReal

/-- The probability that it does not. -/
noncomputable def Spec.rejectProb (α : XR) : ℝ := (MeasureTheory.volume {r : ℝ | 0 ≤ r ∧ r < 1 ∧ accepts α r = false}).toReal

/-- The probability of the delayed rejection algorithm (Tierney, Mira 1999; symmetric proposals) that the first proposal is rejected and the second accepted, where `x`, `y₁`, `y₂` are the log likelihoods of the current sample and
of the proposals. -/
noncomputable def Spec.secondMove (x y₁ y₂ : ℝ) : ℝ := min (1 - min 1 (Real.exp (y₁ - x))) (Real.exp (y₂ - x) * (1 - min 1 (Real.exp (y₁ - y₂))))

namespace IeeeDR

theorem accept_fin {p r : ℝ} (hp1 : p ≤ 1) : accepts (.fin p) r = true ↔ r ≤ p := by
  unfold accepts XR.leb
  simp only [XR.ltb, XR.eqb]
  have : ¬ (1 < p) := by linarith
  simp only [this, decide_false, Bool.false_or, Bool.or_eq_true, decide_eq_true_eq]
  exact le_iff_lt_or_eq.symm

theorem acceptProb_fin {p : ℝ} (hp0 : 0 ≤ p) (hp1 : p ≤ 1) : acceptProb (.fin p) = p := by
  unfold acceptProb
  rcases lt_or_eq_of_le hp1 with h | rfl
  · have : {r : ℝ | 0 ≤ r ∧ r < 1 ∧ accepts (.fin p) r = true} = Set.Icc 0 p := by
      ext r
      simp only [Set.mem_ofPred_eq, accept_fin hp1, Set.mem_Icc]
      exact ⟨fun ⟨a, _, c⟩ => ⟨a, c⟩, fun ⟨a, c⟩ => ⟨a, by linarith, c⟩⟩
    rw [this, Real.volume_Icc, sub_zero, ENNReal.toReal_ofReal hp0]
  · have : {r : ℝ | 0 ≤ r ∧ r < 1 ∧ accepts (.fin 1) r = true} = Set.Ico 0 1 := by
      ext r
      simp only [Set.mem_ofPred_eq, accept_fin hp1, Set.mem_Ico]
      exact ⟨fun ⟨a, b, _⟩ => ⟨a, b⟩, fun ⟨a, b⟩ => ⟨a, b, b.le⟩⟩
    rw [this, Real.volume_Ico]
    simp

theorem rejectProb_fin {p : ℝ} (hp0 : 0 ≤ p) (hp1 : p ≤ 1) : rejectProb (.fin p) = 1 - p := by
  unfold rejectProb
  have : {r : ℝ | 0 ≤ r ∧ r < 1 ∧ accepts (.fin p) r = false} = Set.Ioo p 1 := by
    ext r
    simp only [Set.mem_ofPred_eq, Set.mem_Ioo, ← Bool.not_eq_true, accept_fin hp1, not_le]
    exact ⟨fun ⟨_, b, c⟩ => ⟨c, b⟩, fun ⟨c, b⟩ => ⟨by linarith, b, c⟩⟩
  rw [this, Real.volume_Ioo, ENNReal.toReal_ofReal (by linarith)]

theorem rejectProb_big {v : XR} (hv : Big fl v) : rejectProb v = 0 := by
  unfold rejectProb
  have : {r : ℝ | 0 ≤ r ∧ r < 1 ∧ accepts v r = false} = ∅ := by
    ext r
    simp only [Set.mem_ofPred_eq, Set.mem_empty_iff_false, iff_false, not_and]
    intro _ h1 h2
    rw [big_accepts hv h1.le] at h2
    exact absurd h2 (by simp)
  rw [this]
  simp

theorem acceptProb_all {v : XR} (hv : ∀ r ≤ 1, accepts v r = true) : acceptProb v = 1 := by
  unfold acceptProb
  have : {r : ℝ | 0 ≤ r ∧ r < 1 ∧ accepts v r = true} = Set.Ico 0 1 := by
    ext r
    simp only [Set.mem_ofPred_eq, Set.mem_Ico]
    exact ⟨fun ⟨a, b, _⟩ => ⟨a, b⟩, fun ⟨a, b⟩ => ⟨a, b, hv r b.le⟩⟩
  rw [this, Real.volume_Ico]
  simp

theorem acceptProb_none {v : XR} (hv : ∀ r, 0 < r → accepts v r = false) : acceptProb v = 0 := by
  unfold acceptProb
  have h0 : MeasureTheory.volume {r : ℝ | 0 ≤ r ∧ r < 1 ∧ accepts v r = true} ≤ MeasureTheory.volume ({0} : Set ℝ) := by
    refine MeasureTheory.measure_mono ?_
    rintro r ⟨h1, h2, h3⟩
    by_contra hc
    have : 0 < r := lt_of_le_of_ne h1 (fun e => hc (by rw [← e]; rfl))
    rw [hv r this] at h3
    exact absurd h3 (by simp)
  rw [Real.volume_singleton] at h0
  rw [le_antisymm h0 zero_le]
  rfl

theorem exp_close {u d d' : ℝ} (hu0 : 0 ≤ u) (hu : u ≤ 1/8) (hd : d ≤ 0) (h : |d' - d| ≤ u * |d|) : |Real.exp d' - Real.exp d| ≤ 2 * u := by
  rw [abs_of_nonpos hd] at h
  obtain ⟨h1, h2⟩ := abs_le.mp h
  -- all values are below `exp ((1-u) d)`
  have key : ∀ a b : ℝ, a ≤ b → b - a ≤ u * -d → b ≤ (1 - u) * d → Real.exp b - Real.exp a ≤ 2 * u := by
    intro a b hab hba hb
    have e1 : Real.exp b - Real.exp a ≤ (b - a) * Real.exp b := by
      have := Real.add_one_le_exp (a - b)
      have e : Real.exp a = Real.exp (a - b) * Real.exp b := by rw [← Real.exp_add]; congr 1; ring
      rw [e]
      nlinarith [Real.exp_pos b]
    have e2 : Real.exp b ≤ Real.exp ((1 - u) * d) := Real.exp_le_exp.mpr hb
    have e3 : (1 - u) * -d * Real.exp ((1 - u) * d) ≤ 1 := by
      have := Real.add_one_le_exp (-((1 - u) * d))
      have e : Real.exp (-((1 - u) * d)) * Real.exp ((1 - u) * d) = 1 := by rw [← Real.exp_add]; simp
      have hp := Real.exp_pos ((1 - u) * d)
      nlinarith
    have e4 : (b - a) * Real.exp b ≤ u * -d * Real.exp ((1 - u) * d) :=
      mul_le_mul hba e2 (Real.exp_pos b).le (mul_nonneg hu0 (by linarith))
    have hX : 0 ≤ -d * Real.exp ((1 - u) * d) := mul_nonneg (by linarith) (Real.exp_pos _).le
    have e5 : -d * Real.exp ((1 - u) * d) ≤ 2 := by nlinarith
    nlinarith
  rcases le_total d d' with hdd | hdd
  · rw [abs_of_nonneg (by linarith [Real.exp_le_exp.mpr hdd])]
    exact key d d' hdd (by linarith) (by linarith)
  · rw [abs_of_nonpos (by linarith [Real.exp_le_exp.mpr hdd])]
    have := key d' d hdd (by linarith) (by nlinarith)
    linarith

end IeeeDR

theorem IeeeDR.small_close {η δ : ℝ} (h : Format u tiny fl) (hu0 : 0 ≤ u) (hu : u ≤ 1/8) (ht : 0 ≤ tiny) (hη : ∀ x, |fl x - x| ≤ u * |x| + η) (he : ExpLike fexp) (hδ : ∀ d ≤ 0, |fexp d - Real.exp d| ≤ δ)
    (hΩ : Machine fl Ω) (s t : ℝ) (ms : Machine fl s) (mt : Machine fl t) (bs : |s| ≤ Ω / 2) (bt : |t| ≤ Ω / 2) (hst : s - t ≤ 0) :
    |small fl Ω fexp (s - t) - Real.exp (s - t)| ≤ 3 * u + η + δ := by
  have hno : ¬ fl (s - t) < -Ω := by
    have : -Ω ≤ fl (s - t) := le_fl h (machine_neg h hΩ) (by have := (abs_le.mp bs).1; have := (abs_le.mp bt).2; linarith)
    linarith
  unfold small
  rw [if_neg hno]
  have hf0 : fl (s - t) ≤ 0 := fl_le h (fl_zero h) hst
  have e1 := hη (fexp (fl (s - t)))
  have f0 := he.nonneg (fl (s - t))
  have f1 : fexp (fl (s - t)) ≤ 1 := by rw [← he.zero]; exact he.mono _ _ hf0
  rw [abs_of_nonneg f0] at e1
  have e2 := hδ _ hf0
  have e3 := exp_close hu0 hu hst (diff_error h hu0 ht ms mt)
  have e4 : u * fexp (fl (s - t)) ≤ u := mul_le_of_le_one_right hu0 f1
  rw [abs_le] at *
  constructor <;> linarith
/-- **C99** (probability of the first stage): the first proposal is accepted with the probability `min(1, exp(y-x))` of the Metropolis algorithm, up to `3 u + η + δ`. -/
theorem C99_first_probability {η δ : ℝ} (h : Format u tiny fl) (hu0 : 0 ≤ u) (hu : u ≤ 1/8) (ht : 0 ≤ tiny) (hη : ∀ x, |fl x - x| ≤ u * |x| + η) (he : ExpLike fexp) (hδ : ∀ d ≤ 0, |fexp d - Real.exp d| ≤ δ)
    (hΩ : Machine fl Ω) (hΩ1 : 1 ≤ Ω) (x y : ℝ) (mx : Machine fl x) (my : Machine fl y) (bx : |x| ≤ Ω / 2) (by' : |y| ≤ Ω / 2) :
    ∃ α, @alphaFn XR (ieeeOps fl Ω fexp flog) false 1 (.fin x) [.fin y] = .ok α ∧ |acceptProb α - min 1 (Real.exp (y - x))| ≤ 3 * u + η + δ := by
  have hη0 : 0 ≤ η := by have := (abs_nonneg _).trans (hη 0); simpa using this
  have hδ0 : 0 ≤ δ := (abs_nonneg _).trans (hδ 0 le_rfl)
  refine ⟨_, alpha_one _ _, ?_⟩
  rw [sub_eq]
  rcases le_or_gt x y with hxy | hxy
  · rw [acceptProb_all (fun r hr => big_accepts (exp_big (Ω := Ω) h he hΩ1 (by linarith : 0 ≤ y - x)) hr), min_eq_left (Real.one_le_exp_iff.mpr (by linarith)), sub_self, abs_zero]
    positivity
  · obtain ⟨e, p0, p1, -⟩ := exp_small (Ω := Ω) h he hΩ1 (by linarith : y - x ≤ 0)
    rw [e, acceptProb_fin p0 p1, min_eq_right (Real.exp_le_one_iff.mpr (by linarith))]
    exact small_close h hu0 hu ht hη he hδ hΩ y x my mx by' bx (by linarith)

/-- **C99** (probability of a move): for all log likelihoods up to half of the largest number, the probability that the first proposal is rejected and the second accepted differs from that of the exact algorithm by at most
`10 u + 4 η + 2 δ`, if rounding has a relative error of `u` plus an absolute error (underflow) of `η`, and `std::exp` an absolute error of `δ` for negative arguments.  (The probability for the acceptance of the second
proposal alone is not accurate: its denominator, the probability to reject the first, can be as small as the rounding errors.) -/
theorem C99_move_probability {η δ : ℝ} (h : Format u tiny fl) (hu0 : 0 ≤ u) (hu : u ≤ 1/8) (ht : 0 ≤ tiny) (hη : ∀ x, |fl x - x| ≤ u * |x| + η) (he : ExpLike fexp) (hδ : ∀ d ≤ 0, |fexp d - Real.exp d| ≤ δ)
    (hΩ : Machine fl Ω) (hΩ1 : 1 ≤ Ω) (x y₁ y₂ : ℝ) (mx : Machine fl x) (m1 : Machine fl y₁) (m2 : Machine fl y₂) (bx : |x| ≤ Ω / 2) (b1 : |y₁| ≤ Ω / 2) (b2 : |y₂| ≤ Ω / 2) :
    ∃ α₁ α₂, @alphaFn XR (ieeeOps fl Ω fexp flog) false 1 (.fin x) [.fin y₁] = .ok α₁ ∧ @alphaFn XR (ieeeOps fl Ω fexp flog) false 2 (.fin x) [.fin y₁, .fin y₂] = .ok α₂ ∧
      |rejectProb α₁ * acceptProb α₂ - secondMove x y₁ y₂| ≤ 10 * u + 4 * η + 2 * δ := by
  have hη0 : 0 ≤ η := by have := (abs_nonneg _).trans (hη 0); simpa using this
  have hδ0 : 0 ≤ δ := (abs_nonneg _).trans (hδ 0 le_rfl)
  refine ⟨_, _, alpha_one _ _, alpha_two _ _ _, ?_⟩
  rw [sub_eq, sub_eq, sub_eq]
  -- the computed exponentials
  have close : ∀ s t : ℝ, Machine fl s → Machine fl t → |s| ≤ Ω / 2 → |t| ≤ Ω / 2 → s - t ≤ 0 → |small fl Ω fexp (s - t) - Real.exp (s - t)| ≤ 3 * u + η + δ :=
    fun s t ms mt bs bt hst => small_close h hu0 hu ht hη he hδ hΩ s t ms mt bs bt hst
  have hmove : ∀ w : ℝ, 0 ≤ w → |(0:ℝ) - w| = w := by intro w hw; rw [zero_sub, abs_neg, abs_of_nonneg hw]
  have hsm0 : 0 ≤ secondMove x y₁ y₂ := by
    unfold secondMove
    refine le_min (by linarith [min_le_left 1 (Real.exp (y₁ - x))]) (mul_nonneg (Real.exp_pos _).le (by linarith [min_le_left 1 (Real.exp (y₁ - y₂))]))
  rcases le_or_gt x y₁ with hxy | hxy
  · -- the first proposal is always accepted
    rw [rejectProb_big (exp_big (Ω := Ω) h he hΩ1 (by linarith : 0 ≤ y₁ - x)), zero_mul, hmove _ hsm0]
    have : secondMove x y₁ y₂ ≤ 0 := by
      unfold secondMove
      refine (min_le_left _ _).trans ?_
      rw [min_eq_left (by rw [Real.one_le_exp_iff]; linarith)]
      linarith
    linarith [mul_nonneg (by norm_num : (0:ℝ) ≤ 10) hu0]
  obtain ⟨eb, p0, p1, bm⟩ := exp_small (Ω := Ω) h he hΩ1 (by linarith : y₁ - x ≤ 0)
  have cb := close y₁ x m1 mx b1 bx (by linarith)
  have hb0 : Real.exp (y₁ - x) ≤ 1 := Real.exp_le_one_iff.mpr (by linarith)
  have hsm1 : secondMove x y₁ y₂ ≤ 1 - Real.exp (y₁ - x) := by
    unfold secondMove
    refine (min_le_left _ _).trans ?_
    rw [min_eq_right hb0]
  rw [eb, rejectProb_fin p0 p1]
  rcases eq_or_lt_of_le p1 with hb1 | hb1
  · -- rounded to one
    rw [hb1, sub_self, zero_mul, hmove _ hsm0]
    rw [hb1] at cb
    have := (abs_le.mp cb).2
    linarith
  have hden := one_sub_pos h hu0 hu ht bm hb1
  -- the first proposal can be rejected
  have hrej : accepts (ieeeExp fl Ω fexp (roundResult fl Ω (.fin (y₁ - x)))) 1 = false := by
    rw [eb, ← Bool.not_eq_true, accept_fin p1]; linarith
  have h₁ : @alphaFn XR (ieeeOps fl Ω fexp flog) false 1 (.fin x) [.fin y₁] = .ok (ieeeExp fl Ω fexp (roundResult fl Ω (.fin (y₁ - x)))) := by rw [alpha_one, sub_eq]
  rcases le_or_gt x y₂ with hx2 | hx2
  · -- the second proposal is always accepted
    have hall : acceptProb (roundResult fl Ω ((ieeeExp fl Ω fexp (roundResult fl Ω (.fin (y₂ - x)))).mul (roundResult fl Ω
        ((roundResult fl Ω ((XR.fin 1).add (ieeeExp fl Ω fexp (roundResult fl Ω (.fin (y₁ - y₂)))).neg)).div (roundResult fl Ω ((XR.fin 1).add (XR.fin (small fl Ω fexp (y₁ - x))).neg)))))) = 1 := by
      refine acceptProb_all (fun r hr => ?_)
      obtain ⟨α₂, e, ha⟩ := C99_second_stage_accepted (flog := flog) h hu0 hu ht he hΩ1 x y₁ y₂ 1 r le_rfl hr _ h₁ hrej hx2
      rw [alpha_two, sub_eq, sub_eq, sub_eq, eb] at e
      cases e
      exact ha
    rw [hall, mul_one]
    have hL : 1 ≤ Real.exp (y₂ - x) := Real.one_le_exp_iff.mpr (by linarith)
    have hprod : Real.exp (y₂ - x) * Real.exp (y₁ - y₂) = Real.exp (y₁ - x) := by rw [← Real.exp_add]; congr 1; ring
    have hs : secondMove x y₁ y₂ = 1 - Real.exp (y₁ - x) := by
      unfold secondMove
      rw [min_eq_right hb0, min_eq_right (Real.exp_le_one_iff.mpr (by linarith)), min_eq_left]
      rw [mul_sub, mul_one, hprod]
      linarith
    rw [hs]
    obtain ⟨c1, c2⟩ := abs_le.mp cb
    rw [abs_le]
    constructor <;> linarith
  rcases le_or_gt y₂ y₁ with hy | hy
  · -- the second proposal is never accepted
    have hnone : acceptProb (roundResult fl Ω ((ieeeExp fl Ω fexp (roundResult fl Ω (.fin (y₂ - x)))).mul (roundResult fl Ω
        ((roundResult fl Ω ((XR.fin 1).add (ieeeExp fl Ω fexp (roundResult fl Ω (.fin (y₁ - y₂)))).neg)).div (roundResult fl Ω ((XR.fin 1).add (XR.fin (small fl Ω fexp (y₁ - x))).neg)))))) = 0 := by
      refine acceptProb_none (fun r hr => ?_)
      obtain ⟨α₂, e, ha⟩ := C99_second_stage_rejected (flog := flog) h hu0 hu ht he hΩ1 x y₁ y₂ 1 r le_rfl hr _ h₁ hrej hy
      rw [alpha_two, sub_eq, sub_eq, sub_eq, eb] at e
      cases e
      exact ha
    rw [hnone, mul_zero, hmove _ hsm0]
    have : secondMove x y₁ y₂ ≤ 0 := by
      unfold secondMove
      refine (min_le_right _ _).trans ?_
      rw [min_eq_left (Real.one_le_exp_iff.mpr (by linarith)), sub_self, mul_zero]
    linarith
  -- the general case
  obtain ⟨ea, a0, a1, am⟩ := exp_small (Ω := Ω) h he hΩ1 (by linarith : y₁ - y₂ ≤ 0)
  obtain ⟨el, l0, l1, lm⟩ := exp_small (Ω := Ω) h he hΩ1 (by linarith : y₂ - x ≤ 0)
  have ca := close y₁ y₂ m1 m2 b1 b2 (by linarith)
  have cl := close y₂ x m2 mx b2 bx (by linarith)
  have hab := small_mono (Ω := Ω) h he (by linarith : y₁ - x ≤ y₁ - y₂)
  obtain ⟨en, n0, n1⟩ := one_sub h hΩ1 a0 a1
  obtain ⟨ed, d0, d1⟩ := one_sub h hΩ1 p0 p1
  have hND : fl (1 - small fl Ω fexp (y₁ - y₂)) ≤ fl (1 - small fl Ω fexp (y₁ - x)) := h.mono _ _ (by linarith)
  have en' := diff_error h hu0 ht h.one am
  have ed' := diff_error h hu0 ht h.one bm
  have hs : secondMove x y₁ y₂ = Real.exp (y₂ - x) * (1 - Real.exp (y₁ - y₂)) := by
    have hprod : Real.exp (y₂ - x) * Real.exp (y₁ - y₂) = Real.exp (y₁ - x) := by rw [← Real.exp_add]; congr 1; ring
    have hL : Real.exp (y₂ - x) ≤ 1 := Real.exp_le_one_iff.mpr (by linarith)
    unfold secondMove
    rw [min_eq_right hb0, min_eq_right (Real.exp_le_one_iff.mpr (by linarith)), min_eq_right]
    rw [mul_sub, mul_one, hprod]
    linarith
  have hL0 : 0 ≤ Real.exp (y₂ - x) := (Real.exp_pos _).le
  have hL1 : Real.exp (y₂ - x) ≤ 1 := Real.exp_le_one_iff.mpr (by linarith)
  rw [ea, el, en, ed, hs]
  clear hs hsm0 hsm1 hrej h₁ eb ea el en ed cb hb0 hmove close
  generalize Real.exp (y₂ - x) = L₀ at *
  generalize Real.exp (y₁ - y₂) = A₀ at *
  generalize small fl Ω fexp (y₁ - y₂) = a at *
  generalize small fl Ω fexp (y₂ - x) = L at *
  generalize small fl Ω fexp (y₁ - x) = b at *
  generalize fl (1 - a) = N at *
  generalize fl (1 - b) = D at *
  have hq0 : 0 ≤ N / D := div_nonneg n0 d0
  have hq1 : N / D ≤ 1 := (div_le_one hden).mpr hND
  obtain ⟨eq, q0, q1⟩ := unit_round (Ω := Ω) h hΩ1 hq0 hq1
  rw [show (XR.fin N).div (XR.fin D) = .fin (N / D) by simp only [XR.div]; rw [if_neg hden.ne'], eq]
  have hLQ0 : 0 ≤ L * fl (N / D) := mul_nonneg l0 q0
  have hLQ1 : L * fl (N / D) ≤ 1 := mul_le_one₀ l1 q0 q1
  obtain ⟨ep, r0, r1⟩ := unit_round (Ω := Ω) h hΩ1 hLQ0 hLQ1
  rw [show (XR.fin L).mul (XR.fin (fl (N / D))) = .fin (L * fl (N / D)) from rfl, ep, acceptProb_fin r0 r1]
  have g1 : |fl (N / D) - N / D| ≤ u + η := (hη _).trans (by rw [abs_of_nonneg hq0]; linarith [mul_le_of_le_one_right hu0 hq1])
  have g2 : |fl (L * fl (N / D)) - L * fl (N / D)| ≤ u + η := (hη _).trans (by rw [abs_of_nonneg hLQ0]; linarith [mul_le_of_le_one_right hu0 hLQ1])
  generalize fl (L * fl (N / D)) = P at *
  generalize fl (N / D) = Q at *
  have hw0 : 0 ≤ 1 - b := by linarith
  have hw1 : 1 - b ≤ 1 := by linarith
  rw [abs_of_nonneg (by linarith : 0 ≤ 1 - a)] at en'
  rw [abs_of_nonneg hw0] at ed'
  have t1 : |(1 - b) * (P - L * Q)| ≤ u + η := by
    rw [abs_mul, abs_of_nonneg hw0]
    exact (mul_le_of_le_one_left (abs_nonneg _) hw1).trans g2
  have t2 : |(1 - b) * (L * (Q - N / D))| ≤ u + η := by
    rw [abs_mul, abs_of_nonneg hw0, abs_mul, abs_of_nonneg l0]
    exact (mul_le_of_le_one_left (by positivity) hw1).trans ((mul_le_of_le_one_left (abs_nonneg _) l1).trans g1)
  have t3 : |L * (N / D * ((1 - b) - D))| ≤ u := by
    rw [abs_mul, abs_of_nonneg l0, abs_mul, abs_of_nonneg hq0, abs_sub_comm]
    exact (mul_le_of_le_one_left (by positivity) l1).trans ((mul_le_of_le_one_left (abs_nonneg _) hq1).trans (ed'.trans (mul_le_of_le_one_right hu0 hw1)))
  have t4 : |L * (N - (1 - a))| ≤ u := by
    rw [abs_mul, abs_of_nonneg l0]
    exact (mul_le_of_le_one_left (abs_nonneg _) l1).trans (en'.trans (mul_le_of_le_one_right hu0 (by linarith)))
  have t5 : |(L - L₀) * (1 - a)| ≤ 3 * u + η + δ := by
    rw [abs_mul, abs_of_nonneg (by linarith : 0 ≤ 1 - a)]
    exact (mul_le_of_le_one_right (abs_nonneg _) (by linarith)).trans cl
  have t6 : |L₀ * (A₀ - a)| ≤ 3 * u + η + δ := by
    rw [abs_mul, abs_of_nonneg hL0, abs_sub_comm]
    exact (mul_le_of_le_one_left (abs_nonneg _) hL1).trans ca
  have hid : (1 - b) * P - L₀ * (1 - A₀) = (1 - b) * (P - L * Q) + (1 - b) * (L * (Q - N / D)) + L * (N / D * ((1 - b) - D)) + L * (N - (1 - a)) + (L - L₀) * (1 - a) + L₀ * (A₀ - a) := by
    field_simp
    ring
  rw [hid]
  clear hid hη hδ
  rw [abs_le] at *
  constructor <;> linarith

theorem IeeeDR.exp_like : ExpLike Real.exp := ⟨fun _ _ h => Real.exp_le_exp.mpr h, fun _ => (Real.exp_pos _).le, Real.exp_zero⟩

/-- **C99** (double precision): with a correctly rounded `std::exp`, the probability of a move in the second stage is that of the exact algorithm up to `11·2^-53 ≈ 1.2·10^-15`. -/
theorem C99_double (x y₁ y₂ : ℝ) (mx : Machine double x) (m1 : Machine double y₁) (m2 : Machine double y₂) (bx : |x| ≤ maxDouble / 2) (b1 : |y₁| ≤ maxDouble / 2) (b2 : |y₂| ≤ maxDouble / 2) :
    ∃ α₁ α₂, @alphaFn XR (ieeeOps double maxDouble Real.exp flog) false 1 (.fin x) [.fin y₁] = .ok α₁ ∧
      @alphaFn XR (ieeeOps double maxDouble Real.exp flog) false 2 (.fin x) [.fin y₁, .fin y₂] = .ok α₂ ∧
      |rejectProb α₁ * acceptProb α₂ - secondMove x y₁ y₂| ≤ 11 * 2 ^ (-53 : ℤ) := by
  have h1 : (1:ℝ) ≤ maxDouble := by exact_mod_cast nat_le_max 1 (by norm_num)
  obtain ⟨α₁, α₂, e1, e2, e3⟩ := C99_move_probability (flog := flog) (δ := 0) double_format (by positivity) unit_small (by positivity) double_error exp_like (fun d _ => by simp) maxDouble_machine h1 x y₁ y₂ mx m1 m2 bx b1 b2
  refine ⟨α₁, α₂, e1, e2, e3.trans ?_⟩
  have : (2:ℝ) ^ (-1075 : ℤ) ≤ 2 ^ (-55 : ℤ) := zpow_le_zpow_right₀ (by norm_num) (by norm_num)
  have e : (2:ℝ) ^ (-53 : ℤ) = 4 * 2 ^ (-55 : ℤ) := by norm_num
  linarith

/-! ### instances of the theorems -/

/-- the log likelihoods 0, -1 (rejected), 2^-1074: the second proposal is accepted with certainty -/
example (r₂ : ℝ) (hr : r₂ ≤ 1) : ∃ α₂, @alphaFn XR (ieeeOps double maxDouble Real.exp flog) false 2 (.fin 0) [.fin (-1), .fin (2 ^ (-1074 : ℤ))] = .ok α₂ ∧ accepts α₂ r₂ = true := by
  have h1 : (1:ℝ) ≤ maxDouble := by exact_mod_cast nat_le_max 1 (by norm_num)
  refine C99_second_stage_accepted double_format (by positivity) unit_small (by positivity) exp_like h1 0 (-1) _ 1 r₂ le_rfl hr _ (alpha_one _ _) ?_ (by positivity)
  obtain ⟨e, h0, h1', -⟩ := exp_small (Ω := maxDouble) double_format exp_like h1 (by norm_num : (-1:ℝ) - 0 ≤ 0)
  rw [sub_eq, e, ← Bool.not_eq_true, accept_fin h1', not_le]
  unfold small
  have hm1 : double ((-1:ℝ) - 0) = -1 := by rw [sub_zero, double_format.odd, double_format.one]
  rw [hm1, if_neg (by linarith)]
  have hhalf : Machine double (1 / 2) := by
    have := double_machine 1 (by norm_num) (-1) (by norm_num)
    norm_num at this ⊢
    exact this
  refine lt_of_le_of_lt (fl_le double_format hhalf ?_) (by norm_num)
  have h2 : (2:ℝ) ≤ Real.exp 1 := by have := Real.add_one_le_exp (1:ℝ); linarith
  rw [Real.exp_neg, inv_eq_one_div, div_le_div_iff₀ (Real.exp_pos _) (by norm_num)]
  linarith

/-- the log likelihoods 0, -1, -1000 (underflow of `exp`) -/
example := C99_double (flog := Real.log) 0 (-1) (-1000) (fl_zero double_format) (machine_neg double_format double_format.one) (machine_neg double_format (by simpa using double_nat 1000 (by norm_num)))
  (by rw [abs_zero]; have := nat_le_max 0 (by norm_num); push_cast at this; linarith)
  (by rw [abs_neg, abs_one]; have := nat_le_max 2 (by norm_num); push_cast at this; linarith)
  (by rw [abs_neg, abs_of_pos (by norm_num)]; have := nat_le_max 2000 (by norm_num); push_cast at this; linarith)

/-- first stage, log likelihoods 3 and -1000 -/
example := C99_first_probability (flog := Real.log) (δ := 0) double_format (by positivity) unit_small (by positivity) double_error exp_like (fun d _ => by simp) maxDouble_machine (by exact_mod_cast nat_le_max 1 (by norm_num)) 3 (-1000) three_machine (machine_neg double_format (by simpa using double_nat 1000 (by norm_num)))
  (by rw [abs_of_pos (by norm_num)]; have := nat_le_max 6 (by norm_num); push_cast at this; linarith)
  (by rw [abs_neg, abs_of_pos (by norm_num)]; have := nat_le_max 2000 (by norm_num); push_cast at this; linarith)

/-- exact value for the log likelihoods `0`, `-2`, `-1`: `e^-1 (1 - e^-1)` -/
example : secondMove 0 (-2) (-1) = Real.exp (-1) * (1 - Real.exp (-1)) := by
  have hprod : Real.exp (-1) * Real.exp (-1) = Real.exp (-2) := by rw [← Real.exp_add]; norm_num
  have h1 : Real.exp (-1) ≤ 1 := Real.exp_le_one_iff.mpr (by norm_num)
  have h2 : Real.exp (-2) ≤ 1 := Real.exp_le_one_iff.mpr (by norm_num)
  unfold secondMove
  rw [show (-2:ℝ) - 0 = -2 by norm_num, show (-1:ℝ) - 0 = -1 by norm_num, show (-2:ℝ) - -1 = -1 by norm_num, min_eq_right h2, min_eq_right h1, min_eq_right]
  rw [mul_sub, hprod]
  linarith

end SampleFlow
