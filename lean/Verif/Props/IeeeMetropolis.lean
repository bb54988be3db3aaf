import Verif.Props.IeeeDelayed
import Verif.Props.InexactExamples

/-!
# Property C100: MetropolisHastings in IEEE double precision

`Computer S XR` (Spec/Inexact.lean): a machine with its operations on floating point numbers, what the user's functions return, and a random number generator with finitely many values.  Here the operations are those of
IEEE 754 arithmetic (`ieeeOps`, Model/IeeeOps.lean), with rounding `fl`, underflow and overflow (largest number `Ω`); unlike in C95, the log likelihoods may be any numbers except `±Ω`.
-/

namespace SampleFlow

open Spec Ieee

/-- A machine with IEEE arithmetic.  The log likelihood function returns a floating point number with an absolute error of at most `e` (minus infinity if the density is zero), the proposal function a ratio
`q(x,z)/q(z,x)` with a relative error of at most `ρ`; the computed ratios are between `1/R` and `Ω`, with logarithms up to `Λ`; the random numbers are 0, 1/N, ..., (N-1)/N. -/
structure Spec.Computer.Ieee {S : Type} (M : Computer S XR) (π : S → ℝ) (q : S → S → ℝ) (fl : ℝ → ℝ) (Ω : ℝ) (fexp flog : ℝ → ℝ) (e ρ Λ R : ℝ) : Prop where
  ops : M.ops = ieeeOps fl Ω fexp flog
  likelihood : ∀ x, 0 < π x → ∃ l : ℝ, M.logLikelihood x = .fin l ∧ Machine fl l ∧ |l| < Ω ∧ |l - Real.log (π x)| ≤ e
  zero : ∀ x, π x = 0 → M.logLikelihood x = .negInf
  ratio : ∀ x z, 0 < q x z → 0 < q z x ∧ ∃ r : ℝ, M.ratio x z = .fin r ∧ 0 < r ∧ r ≤ Ω ∧ |Real.log r| ≤ Λ ∧ 1 / r ≤ R ∧ |r - q x z / q z x| ≤ ρ * (q x z / q z x)
  random : ∀ i, M.random i = .fin ((i : ℝ) / (M.count : ℝ))

/-- `std::exp` and `std::log` before the final rounding: relative error at most `δ`, `exp` is not negative. -/
structure Spec.GoodFunctions (fexp flog : ℝ → ℝ) (δ : ℝ) : Prop where
  exp_nonneg : ∀ t, 0 ≤ fexp t
  exp : ∀ t, |fexp t - Real.exp t| ≤ δ * Real.exp t
  log : ∀ t, 0 < t → |flog t - Real.log t| ≤ δ * |Real.log t|

namespace IeeeMH

variable {u tiny Ω η δ Λ R : ℝ} {fl fexp flog : ℝ → ℝ}

theorem min_close {f e δ κ : ℝ} (he : 0 ≤ e) (hδ : δ ≤ 1/4) (hδ0 : 0 ≤ δ) (hκ0 : 0 ≤ κ) (hκ : κ ≤ 1/2) (h : |f - e| ≤ δ * e + κ) : |min 1 f - min 1 e| ≤ 2 * δ + κ := by
  obtain ⟨h1, h2⟩ := abs_le.mp h
  rcases le_total e 2 with h3 | h3
  · have : |min 1 f - min 1 e| ≤ |f - e| := by
      rcases le_total 1 f with a | a <;> rcases le_total 1 e with b | b
      · rw [min_eq_left a, min_eq_left b, sub_self, abs_zero]; exact abs_nonneg _
      · rw [min_eq_left a, min_eq_right b, abs_of_nonneg (by linarith), abs_of_nonneg (by linarith)]; linarith
      · rw [min_eq_right a, min_eq_left b, abs_of_nonpos (by linarith), abs_of_nonpos (by linarith)]; linarith
      · rw [min_eq_right a, min_eq_right b]
    have h4 : δ * e ≤ δ * 2 := mul_le_mul_of_nonneg_left h3 hδ0
    linarith
  · have h5 : δ * e ≤ 1/4 * e := mul_le_mul_of_nonneg_right hδ he
    have hf : 1 ≤ f := by linarith
    rw [min_eq_left hf, min_eq_left (by linarith), sub_self, abs_zero]
    linarith

/-- the effect of rounding the exponent -/
theorem exponent_close {d d' lam : ℝ} (hu0 : 0 ≤ u) (hu : u ≤ 1/8) (hl : |lam| ≤ Λ) (h : |d' - d| ≤ u * |d|) :
    |min 1 (Real.exp (d' - lam)) - min 1 (Real.exp (d - lam))| ≤ u * (2 * Λ + 3) := by
  obtain ⟨l1, l2⟩ := abs_le.mp hl
  have hΛ : 0 ≤ Λ := (abs_nonneg _).trans hl
  have hd0 := abs_nonneg d
  have hud : u * |d| ≤ 1/8 * |d| := mul_le_mul_of_nonneg_right hu hd0
  obtain ⟨h1, h2⟩ := abs_le.mp h
  have hb : |d' - lam - (d - lam)| = |d' - d| := by congr 1; ring
  rcases le_total |d| (2 * Λ + 2) with hd | hd
  · have := Inexact.min_exp_diff (d' - lam) (d - lam)
    rw [hb] at this
    have h3 : u * |d| ≤ u * (2 * Λ + 2) := mul_le_mul_of_nonneg_left hd hu0
    linarith
  rcases le_total 0 d with hs | hs
  · rw [abs_of_nonneg hs] at *
    rw [min_eq_left (Real.one_le_exp (by linarith)), min_eq_left (Real.one_le_exp (by linarith)), sub_self, abs_zero]
    positivity
  · rw [abs_of_nonpos hs] at *
    have hP : |min 1 (Real.exp (d' - lam)) - min 1 (Real.exp (d - lam))| ≤ |d' - d| * Real.exp (3/8 * d - 1) := by
      have key : ∀ a b : ℝ, a ≤ b → b ≤ 3/8 * d - 1 → |min 1 (Real.exp b) - min 1 (Real.exp a)| ≤ (b - a) * Real.exp (3/8 * d - 1) := by
        intro a b hab hbd
        have hb1 : Real.exp b ≤ 1 := Real.exp_le_one_iff.mpr (by linarith)
        have ha1 : Real.exp a ≤ Real.exp b := Real.exp_le_exp.mpr hab
        rw [min_eq_right hb1, min_eq_right (by linarith), abs_of_nonneg (by linarith)]
        have e1 : Real.exp b - Real.exp a ≤ (b - a) * Real.exp b := by
          have := Real.add_one_le_exp (a - b)
          have e : Real.exp a = Real.exp (a - b) * Real.exp b := by rw [← Real.exp_add]; congr 1; ring
          rw [e]
          nlinarith [Real.exp_pos b]
        exact e1.trans (mul_le_mul_of_nonneg_left (Real.exp_le_exp.mpr hbd) (by linarith))
      rcases le_total d d' with hdd | hdd
      · have := key (d - lam) (d' - lam) (by linarith) (by linarith)
        rw [abs_of_nonneg (by linarith : 0 ≤ d' - d)]
        refine this.trans (le_of_eq ?_)
        congr 1; ring
      · have := key (d' - lam) (d - lam) (by linarith) (by linarith)
        rw [abs_sub_comm, abs_of_nonpos (by linarith : d' - d ≤ 0)]
        refine this.trans (le_of_eq ?_)
        congr 1; ring
    have hE : -d * Real.exp (3/8 * d - 1) ≤ 3 := by
      have := Real.add_one_le_exp (-(3/8 * d - 1))
      have e : Real.exp (-(3/8 * d - 1)) * Real.exp (3/8 * d - 1) = 1 := by rw [← Real.exp_add]; simp
      have hp := Real.exp_pos (3/8 * d - 1)
      nlinarith
    have h3 : |d' - d| * Real.exp (3/8 * d - 1) ≤ u * -d * Real.exp (3/8 * d - 1) := mul_le_mul_of_nonneg_right h (Real.exp_pos _).le
    have h4 : u * (-d * Real.exp (3/8 * d - 1)) ≤ u * 3 := mul_le_mul_of_nonneg_left hE hu0
    have h5 : 0 ≤ u * Λ := mul_nonneg hu0 hΛ
    linarith

/-- a threshold close to one -/
theorem near_one {s e : ℝ} (he : 0 ≤ e) (h : -e ≤ s) : |1 - min 1 (Real.exp s)| ≤ e := by
  have h0 := Real.add_one_le_exp s
  have h1 : 1 - e ≤ min 1 (Real.exp s) := le_min (by linarith) (by linarith)
  have h2 := min_le_left 1 (Real.exp s)
  rw [abs_of_nonneg (by linarith)]
  linarith

/-- rounding an acceptance ratio -/
theorem round_close (h : Format u tiny fl) (hu0 : 0 ≤ u) (hu : u ≤ 1/8) (hη0 : 0 ≤ η) (hη1 : η ≤ 1/2) (hη : ∀ x, |fl x - x| ≤ u * |x| + η) (hΩ1 : 1 ≤ Ω) {t : ℝ} (ht : 0 ≤ t) :
    (roundResult fl Ω (.fin t) = .posInf ∧ min 1 t = 1) ∨ ∃ v, roundResult fl Ω (.fin t) = .fin v ∧ 0 ≤ v ∧ |min 1 v - min 1 t| ≤ 2 * u + η := by
  have h0 : 0 ≤ fl t := le_fl h (fl_zero h) ht
  simp only [roundResult]
  split
  · left
    refine ⟨rfl, min_eq_left ?_⟩
    by_contra hc
    push Not at hc
    have := fl_le h h.one hc.le
    linarith
  · right
    rw [if_neg (by linarith)]
    refine ⟨_, rfl, h0, min_close ht (by linarith) hu0 hη0 hη1 ?_⟩
    have := hη t
    rwa [abs_of_nonneg ht] at this

/-- The quotient `exp(lz-lx)/r` as the machine computes it, compared with the exact one. -/
theorem quotient_close (h : Format u tiny fl) (hu0 : 0 ≤ u) (hu : u ≤ 1/8) (ht : 0 ≤ tiny) (hη0 : 0 ≤ η) (hη : ∀ x, |fl x - x| ≤ u * |x| + η) (hf : GoodFunctions fexp flog δ) (hδ0 : 0 ≤ δ) (hδ : δ ≤ 1/8)
    (hΩ : Machine fl Ω) (hΛ : 0 ≤ Λ) (hΩΛ : 1 ≤ u * (Ω - 2 * Λ)) (hR : η * (1 + R) ≤ 1/2) {lz lx r : ℝ} (mz : Machine fl lz) (mx : Machine fl lx)
    (hr : 0 < r) (hrΩ : r ≤ Ω) (hrΛ : |Real.log r| ≤ Λ) (hrR : 1 / r ≤ R) :
    (roundResult fl Ω ((ieeeExp fl Ω fexp (roundResult fl Ω (XR.add (.fin lz) (XR.fin lx).neg))).div (.fin r)) = .posInf ∧
          |1 - min 1 (Real.exp (lz - lx - Real.log r))| ≤ 2 * δ + u * (2 * Λ + 7) + η * (1 + R)) ∨
       ∃ v, roundResult fl Ω ((ieeeExp fl Ω fexp (roundResult fl Ω (XR.add (.fin lz) (XR.fin lx).neg))).div (.fin r)) = .fin v ∧ 0 ≤ v ∧
          |min 1 v - min 1 (Real.exp (lz - lx - Real.log r))| ≤ 2 * δ + u * (2 * Λ + 7) + η * (1 + R) := by
  have hΩ8 : 8 ≤ Ω - 2 * Λ := by
    by_contra hc
    push Not at hc
    have : u * (Ω - 2 * Λ) < 1 := by
      rcases le_total (Ω - 2 * Λ) 0 with h0 | h0
      · have := mul_nonpos_of_nonneg_of_nonpos hu0 h0; linarith
      · have := mul_le_mul_of_nonneg_right hu h0; linarith
    linarith
  have hR0 : 0 ≤ R := le_trans (by positivity) hrR
  have hηR0 : 0 ≤ η * R := mul_nonneg hη0 hR0
  have huΛ : 0 ≤ u * Λ := mul_nonneg hu0 hΛ
  have hu1 : 0 < u := by
    rcases hu0.eq_or_lt with h0 | h0
    · rw [← h0, zero_mul] at hΩΛ; linarith
    · exact h0
  obtain ⟨r1, r2⟩ := abs_le.mp hrΛ
  rw [IeeeDR.sub_eq]
  have hde := diff_error h hu0 ht mz mx
  have hexp : Real.exp (lz - lx - Real.log r) = Real.exp (lz - lx) / r := by rw [Real.exp_sub, Real.exp_log hr]
  generalize lz - lx = d at *
  clear mz
  by_cases ho : Ω < fl d
  · -- the difference overflows
    left
    have hd : Ω < d := by
      by_contra hc
      push Not at hc
      linarith [fl_le h hΩ hc]
    have e : roundResult fl Ω (.fin d) = .posInf := by simp only [roundResult]; rw [if_pos ho]
    rw [e]
    refine ⟨by simp only [ieeeExp, XR.div]; rw [if_pos hr.le]; rfl, near_one (by nlinarith) (by nlinarith)⟩
  by_cases hn : fl d < -Ω
  · right
    have hd : d < -Ω := by
      by_contra hc
      push Not at hc
      linarith [le_fl h (machine_neg h hΩ) hc]
    have e : roundResult fl Ω (.fin d) = .negInf := by simp only [roundResult]; rw [if_neg ho, if_pos hn]
    rw [e]
    refine ⟨0, ?_, le_rfl, ?_⟩
    · simp only [ieeeExp, XR.div]
      rw [if_neg hr.ne', zero_div]
      simp only [roundResult]
      rw [fl_zero h, if_neg (by linarith), if_neg (by linarith)]
    · have hs : d - Real.log r ≤ -(Ω - 2 * Λ) := by linarith
      have h1 : Real.exp (d - Real.log r) ≤ u := by
        refine (Real.exp_le_exp.mpr hs).trans ?_
        rw [Real.exp_neg, inv_eq_one_div, div_le_iff₀ (Real.exp_pos _)]
        have := Real.add_one_le_exp (Ω - 2 * Λ)
        nlinarith
      have h0 := (Real.exp_pos (d - Real.log r)).le
      rw [min_eq_right (by norm_num : (0:ℝ) ≤ 1), min_eq_right (by linarith), zero_sub, abs_neg, abs_of_nonneg h0]
      nlinarith
  -- no overflow of the difference
  have e : roundResult fl Ω (.fin d) = .fin (fl d) := by simp only [roundResult]; rw [if_neg ho, if_neg hn]
  rw [e]
  have hc1 := exponent_close hu0 hu hrΛ hde
  have hexp' : Real.exp (fl d - Real.log r) = Real.exp (fl d) / r := by rw [Real.exp_sub, Real.exp_log hr]
  have hE := hf.exp (fl d)
  have hF0 := hf.exp_nonneg (fl d)
  have hEp := Real.exp_pos (fl d)
  have hc2 : |min 1 (fexp (fl d) / r) - min 1 (Real.exp (fl d - Real.log r))| ≤ 2 * δ + 0 := by
    rw [hexp']
    refine min_close (by positivity) (by linarith) hδ0 le_rfl (by norm_num) ?_
    rw [← sub_div, abs_div, abs_of_pos hr, add_zero, ← mul_div_assoc]
    exact div_le_div_of_nonneg_right hE hr.le
  simp only [ieeeExp]
  generalize fexp (fl d) = F at *
  have hη1 : η ≤ 1/2 := by linarith
  rw [abs_le] at hc1 hc2
  by_cases hov : Ω < fl F
  · -- the exponential overflows
    left
    have hF : Ω < F := by
      by_contra hc
      push Not at hc
      linarith [fl_le h hΩ hc]
    have e2 : roundResult fl Ω (.fin F) = .posInf := by simp only [roundResult]; rw [if_pos hov]
    rw [e2]
    refine ⟨by simp only [XR.div]; rw [if_pos hr.le]; rfl, ?_⟩
    have h1 : 1 ≤ F / r := by rw [one_le_div hr]; linarith
    rw [min_eq_left h1] at hc2
    rw [abs_le]
    constructor <;> linarith
  · have hF1 : 0 ≤ fl F := le_fl h (fl_zero h) hF0
    have e2 : roundResult fl Ω (.fin F) = .fin (fl F) := by simp only [roundResult]; rw [if_neg hov, if_neg (by linarith)]
    rw [e2]
    have hc3 : |min 1 (fl F / r) - min 1 (F / r)| ≤ 2 * u + η * R := by
      refine min_close (by positivity) (by linarith) hu0 hηR0 (by linarith) ?_
      rw [← sub_div, abs_div, abs_of_pos hr]
      have a := hη F
      rw [abs_of_nonneg hF0] at a
      refine (div_le_div_of_nonneg_right a hr.le).trans ?_
      rw [add_div, mul_div_assoc]
      have : η / r ≤ η * R := by rw [div_eq_mul_one_div]; exact mul_le_mul_of_nonneg_left hrR hη0
      linarith
    rw [abs_le] at hc3
    rw [show (XR.fin (fl F)).div (XR.fin r) = .fin (fl F / r) by simp only [XR.div]; rw [if_neg hr.ne']]
    rcases round_close h hu0 hu hη0 hη1 hη (by linarith : 1 ≤ Ω) (t := fl F / r) (by positivity) with ⟨e3, h3⟩ | ⟨v, e3, v0, h3⟩
    · left
      refine ⟨e3, ?_⟩
      rw [h3] at hc3
      rw [abs_le]
      constructor <;> linarith
    · right
      refine ⟨v, e3, v0, ?_⟩
      rw [abs_le] at h3 ⊢
      constructor <;> linarith

/-- What the machine computes, compared with the exact acceptance probability for the same log likelihoods and ratio. -/
theorem core (h : Format u tiny fl) (hu0 : 0 ≤ u) (hu : u ≤ 1/8) (ht : 0 ≤ tiny) (hη0 : 0 ≤ η) (hη : ∀ x, |fl x - x| ≤ u * |x| + η) (hf : GoodFunctions fexp flog δ) (hδ0 : 0 ≤ δ) (hδ : δ ≤ 1/8)
    (hΩ : Machine fl Ω) (hΛ : 0 ≤ Λ) (hΩΛ : 1 ≤ u * (Ω - 2 * Λ)) (hR : η * (1 + R) ≤ 1/2) {lz lx r : ℝ} (mz : Machine fl lz) (mx : Machine fl lx) (bx : |lx| < Ω)
    (hr : 0 < r) (hrΩ : r ≤ Ω) (hrΛ : |Real.log r| ≤ Λ) (hrR : 1 / r ≤ R) :
    (XR.ltb (.fin lx) (roundResult fl Ω (XR.add (.fin lz) (ieeeLog fl Ω flog (.fin r)).neg)) = true ∧
      |1 - min 1 (Real.exp (lz - lx - Real.log r))| ≤ δ * Λ + 2 * u * Λ + η) ∨
    (XR.ltb (.fin lx) (roundResult fl Ω (XR.add (.fin lz) (ieeeLog fl Ω flog (.fin r)).neg)) = false ∧
      ((roundResult fl Ω ((ieeeExp fl Ω fexp (roundResult fl Ω (XR.add (.fin lz) (XR.fin lx).neg))).div (.fin r)) = .posInf ∧
          |1 - min 1 (Real.exp (lz - lx - Real.log r))| ≤ 2 * δ + u * (2 * Λ + 7) + η * (1 + R)) ∨
       ∃ v, roundResult fl Ω ((ieeeExp fl Ω fexp (roundResult fl Ω (XR.add (.fin lz) (XR.fin lx).neg))).div (.fin r)) = .fin v ∧ 0 ≤ v ∧
          |min 1 v - min 1 (Real.exp (lz - lx - Real.log r))| ≤ 2 * δ + u * (2 * Λ + 7) + η * (1 + R))) := by
  have hq := quotient_close h hu0 hu ht hη0 hη hf hδ0 hδ hΩ hΛ hΩΛ hR mz mx hr hrΩ hrΛ hrR
  have hΩ8 : 8 ≤ Ω - 2 * Λ := by
    by_contra hc
    push Not at hc
    have : u * (Ω - 2 * Λ) < 1 := by
      rcases le_total (Ω - 2 * Λ) 0 with h0 | h0
      · have := mul_nonpos_of_nonneg_of_nonpos hu0 h0; linarith
      · have := mul_le_mul_of_nonneg_right hu h0; linarith
    linarith
  have hR0 : 0 ≤ R := le_trans (by positivity) hrR
  have hηR0 : 0 ≤ η * R := mul_nonneg hη0 hR0
  have huΛ : 0 ≤ u * Λ := mul_nonneg hu0 hΛ
  have hu1 : 0 < u := by
    rcases hu0.eq_or_lt with h0 | h0
    · rw [← h0, zero_mul] at hΩΛ; linarith
    · exact h0
  obtain ⟨r1, r2⟩ := abs_le.mp hrΛ
  -- the logarithm
  have hlog0 := hf.log r hr
  have hlog1 : |flog r - Real.log r| ≤ δ * Λ := hlog0.trans (mul_le_mul_of_nonneg_left hrΛ hδ0)
  have hδΛ : δ * Λ ≤ 1/8 * Λ := mul_le_mul_of_nonneg_right hδ hΛ
  obtain ⟨g1, g2⟩ := abs_le.mp hlog1
  have hflog : |flog r| ≤ 2 * Λ := abs_le.mpr ⟨by linarith, by linarith⟩
  obtain ⟨g3, g4⟩ := abs_le.mp hflog
  have hlogv : ieeeLog fl Ω flog (.fin r) = .fin (fl (flog r)) := by
    have a := fl_le h hΩ (by linarith : flog r ≤ Ω)
    have b := le_fl h (machine_neg h hΩ) (by linarith : -Ω ≤ flog r)
    simp only [ieeeLog, roundResult]
    rw [if_neg (by linarith), if_neg hr.ne', if_neg (by linarith), if_neg (by linarith)]
  have hlam : |fl (flog r) - Real.log r| ≤ δ * Λ + 2 * u * Λ + η := by
    have a := hη (flog r)
    have b : u * |flog r| ≤ u * (2 * Λ) := mul_le_mul_of_nonneg_left hflog hu0
    have := abs_sub_le (fl (flog r)) (flog r) (Real.log r)
    linarith
  rw [hlogv]
  generalize fl (flog r) = lam at *
  rw [IeeeDR.sub_eq]
  obtain ⟨c1, c2⟩ := abs_le.mp hlam
  by_cases hsure : XR.ltb (.fin lx) (roundResult fl Ω (.fin (lz - lam))) = true
  · left
    refine ⟨hsure, near_one (by linarith) ?_⟩
    have : lx < lz - lam := by
      by_contra hc
      push Not at hc
      have h1 := fl_le h mx hc
      have h2 := (abs_lt.mp bx).2
      simp only [roundResult] at hsure
      rw [if_neg (by linarith)] at hsure
      split at hsure
      · simp [XR.ltb] at hsure
      · simp only [XR.ltb, decide_eq_true_eq] at hsure
        linarith
    linarith
  exact Or.inr ⟨by rw [← Bool.not_eq_true]; exact hsure, hq⟩


variable {S : Type} (M : Computer S XR)

theorem zero_negInf (hops : M.ops = ieeeOps fl Ω fexp flog) : @hasZeroProbability XR M.ops .negInf = true := by
  rw [hops]; simp [hasZeroProbability, FloatOps.eq, FloatOps.negMax, FloatOps.negInf, XR.eqb]

theorem zero_fin (hops : M.ops = ieeeOps fl Ω fexp flog) {l : ℝ} (hl : |l| < Ω) : @hasZeroProbability XR M.ops (.fin l) = false := by
  have : l ≠ -Ω := by rintro rfl; rw [abs_neg] at hl; linarith [le_abs_self Ω]
  rw [hops]; simp [hasZeroProbability, FloatOps.eq, FloatOps.negMax, FloatOps.negInf, XR.eqb, this]

theorem acc_fin (hops : M.ops = ieeeOps fl Ω fexp flog) {a b : ℝ} (ha : |a| < Ω) (hb : |b| < Ω) (r w1 w2 : XR) :
    Inexact.acc M (.fin a) (.fin b) r w1 w2 = (XR.ltb (.fin b) (roundResult fl Ω (XR.add (.fin a) (ieeeLog fl Ω flog r).neg)) ||
      XR.leb w1 (roundResult fl Ω ((ieeeExp fl Ω fexp (roundResult fl Ω (XR.add (.fin a) (XR.fin b).neg))).div r))) := by
  unfold Inexact.acc
  rw [zero_fin M hops ha, zero_fin M hops hb, hops]
  rfl

theorem leb_fin (a b : ℝ) : XR.leb (.fin a) (.fin b) = true ↔ a ≤ b := by
  simp [XR.leb, XR.ltb, XR.eqb, le_iff_lt_or_eq]

end IeeeMH

open IeeeMH Inexact

variable {S : Type} {u tiny Ω η δ e ρ Λ R : ℝ} {fl fexp flog : ℝ → ℝ} {max : ℝ} {π : S → ℝ} {q : S → S → ℝ}

/-- **C100** (accuracy): each proposal is accepted with the probability of the exact algorithm up to the errors of the user's functions, some rounding errors and the resolution of the random number generator. -/
theorem C100_accuracy (M : Computer S XR) (h : Format u tiny fl) (hu0 : 0 ≤ u) (hu : u ≤ 1/8) (ht : 0 ≤ tiny) (hη0 : 0 ≤ η) (hη : ∀ x, |fl x - x| ≤ u * |x| + η) (hf : GoodFunctions fexp flog δ) (hδ0 : 0 ≤ δ)
    (hδ : δ ≤ 1/8) (hΩ : Machine fl Ω) (hΛ : 0 ≤ Λ) (hΩΛ : 1 ≤ u * (Ω - 2 * Λ)) (hR : η * (1 + R) ≤ 1/2) (hρ1 : ρ ≤ 1/2) (he : 0 ≤ e)
    (hπ : ∀ x, 0 ≤ π x) (hmax : ∀ x, Real.log (π x) ≠ -max) (hM : M.Ieee π q fl Ω fexp flog e ρ Λ R) :
    M.Accurate max π q (2 * e + 2 * ρ + δ * (Λ + 2) + u * (2 * Λ + 7) + η * (1 + R) + 1 / M.count) := by
  intro x z hxz
  obtain ⟨hzx, r, hr, hr0, hrΩ, hrΛ, hrR, hr3⟩ := hM.ratio x z hxz
  have hN0 : (0:ℝ) ≤ 1 / (M.count : ℝ) := by positivity
  have hρ : 0 < q x z / q z x := div_pos hxz hzx
  obtain ⟨-, hr4⟩ := log_rel hρ hρ1 hr3
  have hρ0 : 0 ≤ ρ := by have := (abs_nonneg _).trans hr4; linarith
  have hR0 : 0 ≤ R := le_trans (by positivity) hrR
  have hηR0 : 0 ≤ η * R := mul_nonneg hη0 hR0
  have huΛ : 0 ≤ u * Λ := mul_nonneg hu0 hΛ
  have hδΛ : 0 ≤ δ * Λ := mul_nonneg hδ0 hΛ
  have hΩ1 : 1 ≤ Ω := by
    by_contra hc
    push Not at hc
    nlinarith
  have hη1 : η ≤ 1/2 := by linarith
  have hdiv : XR.div (.fin (q x z)) (.fin (q z x)) = .fin (q x z / q z x) := by simp [XR.div, hzx.ne']
  rw [exactAcceptance_eq, hdiv]
  rcases (hπ z).eq_or_lt with hz | hz
  · have hlz := hM.zero z hz.symm
    have hz' : logOf (π z) = .negInf := by simp [logOf, ← hz]
    have tz := zero_negInf M hM.ops
    rcases (hπ x).eq_or_lt with hx | hx
    · -- both have zero probability
      have hlx := hM.zero x hx.symm
      have hx' : logOf (π x) = .negInf := by simp [logOf, ← hx]
      have hex : accProb max (logOf (π z)) (logOf (π x)) (.fin (q x z / q z x)) = min 1 (1 / (q x z / q z x)) := by
        rw [hz', hx', ← volume_le_square _ (by positivity)]
        unfold accProb
        congr 2
        ext w
        simp only [Set.mem_ofPred_eq]
        refine and_congr_right (fun _ => ?_)
        unfold accB
        have hlog : XR.log (.fin (q x z / q z x)) = .fin (Real.log (q x z / q z x)) := by simp [XR.log, not_lt.mpr hρ.le, hρ.ne']
        simp only [hasZero_negInf, hlog, XR.neg, XR.add, XR.exp, XR.div, hρ.ne', if_false, XR.ltb, XR.leb, XR.eqb, Bool.true_and, Bool.not_true, Bool.and_false, Bool.not_false,
          Bool.or_eq_true, decide_eq_true_eq, Bool.or_false, Bool.and_true]
        rw [← le_iff_lt_or_eq]
      have hlogr : |Real.log (1 / r) - Real.log (1 / (q x z / q z x))| ≤ 2 * ρ := by
        rw [Real.log_div one_ne_zero hρ.ne', Real.log_div one_ne_zero hr0.ne', abs_sub_comm]
        rw [show Real.log 1 - Real.log (q x z / q z x) - (Real.log 1 - Real.log r) = Real.log r - Real.log (q x z / q z x) by ring]
        exact hr4
      have h2 := min_exp_diff (Real.log (1 / r)) (Real.log (1 / (q x z / q z x)))
      rw [Real.exp_log (by positivity), Real.exp_log (by positivity)] at h2
      replace h2 := h2.trans hlogr
      have hdr : (XR.fin 1).div (XR.fin r) = .fin (1 / r) := by simp only [XR.div]; rw [if_neg hr0.ne']
      obtain ⟨v, hv⟩ : ∃ v, v = roundResult fl Ω (.fin (1 / r)) := ⟨_, rfl⟩
      have hnan : ∀ w : ℝ, XR.leb (.fin w) .nan = false := fun w => rfl
      have hacc : ∀ w, Inexact.accepts M x z w = XR.leb (.fin (((w.1 : ℕ) : ℝ) / M.count)) v := by
        intro w
        unfold Inexact.accepts acc
        rw [hlz, hlx, hr, tz, hM.random, hM.random, hM.ops, hv, ← hdr]
        have hl : ∀ y : XR, XR.ltb .negInf (roundResult fl Ω (XR.add .negInf y)) = false := by
          intro y; cases y <;> rfl
        show (true && ((true && XR.leb _ _) || XR.ltb .negInf (roundResult fl Ω (XR.add .negInf _)) || XR.leb _ .nan)) = _
        rw [hl, if_pos (by rfl : (true && true) = true), hnan, Bool.or_false, Bool.or_false]
        rfl
      rw [hex]
      rcases round_close h hu0 hu hη0 hη1 hη hΩ1 (t := 1 / r) (by positivity) with ⟨e3, h3⟩ | ⟨w, e3, w0, h3⟩
      · rw [always M x z (fun w => by rw [hacc, hv, e3]; rfl)]
        rw [h3] at h2
        linarith
      · have h1 := fraction M x z w w0 (fun y => by rw [hacc, hv, e3]; exact leb_fin _ _)
        rw [abs_le] at *
        constructor <;> linarith
    · obtain ⟨lx, hlx, -, hlx1, -⟩ := hM.likelihood x hx
      have hx' : logOf (π x) = .fin (Real.log (π x)) := by simp [logOf, hx.ne']
      have cz := zero_fin M hM.ops hlx1
      rw [hz', hx', accProb_into_zero max _ _ (hmax x), never M x z (fun w => by simp [Inexact.accepts, acc, hlz, hlx, tz, cz])]
      simp only [sub_self, abs_zero]
      linarith
  · obtain ⟨lz, hlz, mz, bz, ez⟩ := hM.likelihood z hz
    have hz' : logOf (π z) = .fin (Real.log (π z)) := by simp [logOf, hz.ne']
    have tz := zero_fin M hM.ops bz
    rcases (hπ x).eq_or_lt with hx | hx
    · -- always accepted
      have hlx := hM.zero x hx.symm
      have hx' : logOf (π x) = .negInf := by simp [logOf, ← hx]
      have hex : accProb max (logOf (π z)) (logOf (π x)) (.fin (q x z / q z x)) = 1 := by
        rw [hz', hx']
        have : {w : ℝ × ℝ | w ∈ unitSquare ∧ accB max (.fin (Real.log (π z))) .negInf (.fin (q x z / q z x)) w.1 w.2 = true} = unitSquare := by
          ext w
          have hlog : XR.log (.fin (q x z / q z x)) = .fin (Real.log (q x z / q z x)) := by simp [XR.log, not_lt.mpr hρ.le, hρ.ne']
          simp [accB, hasZero_fin max _ (hmax z), hlog, XR.neg, XR.add, XR.ltb]
        unfold accProb
        rw [this, volume_unitSquare]; simp
      rw [hex, always M x z (fun w => by
        unfold Inexact.accepts acc
        rw [hlz, hlx, hr, tz, hM.ops]
        have hI : roundResult fl Ω ((ieeeExp fl Ω fexp (roundResult fl Ω (XR.add (.fin lz) (XR.neg .negInf)))).div (.fin r)) = .posInf := by
          show roundResult fl Ω (XR.div .posInf (.fin r)) = .posInf
          simp only [XR.div]; rw [if_pos hr0.le]; rfl
        show (true && (_ || _ || XR.leb _ (roundResult fl Ω ((ieeeExp fl Ω fexp (roundResult fl Ω (XR.add (.fin lz) (XR.neg .negInf)))).div (.fin r))))) = true
        rw [hI, hM.random]
        simp [XR.leb, XR.ltb])]
      simp only [sub_self, abs_zero]
      linarith
    · obtain ⟨lx, hlx, mx, bx, ex⟩ := hM.likelihood x hx
      have hx' : logOf (π x) = .fin (Real.log (π x)) := by simp [logOf, hx.ne']
      rw [hz', hx', accProb_fin max _ _ _ (hmax z) (hmax x) hρ]
      have hes : Real.exp (Real.log (π z) - Real.log (π x)) / (q x z / q z x) = Real.exp (Real.log (π z) - Real.log (π x) - Real.log (q x z / q z x)) := by
        rw [Real.exp_sub _ (Real.log (q x z / q z x)), Real.exp_log hρ]
      rw [hes]
      have hd := min_exp_diff (lz - lx - Real.log r) (Real.log (π z) - Real.log (π x) - Real.log (q x z / q z x))
      have hd2 : |lz - lx - Real.log r - (Real.log (π z) - Real.log (π x) - Real.log (q x z / q z x))| ≤ 2 * e + 2 * ρ := by
        rw [abs_le] at *
        constructor <;> linarith
      have hd3 := hd.trans hd2
      clear hd hd2 hes
      have hacc : ∀ w, Inexact.accepts M x z w = (XR.ltb (.fin lx) (roundResult fl Ω (XR.add (.fin lz) (ieeeLog fl Ω flog (.fin r)).neg)) ||
          XR.leb (.fin (((w.1 : ℕ) : ℝ) / M.count)) (roundResult fl Ω ((ieeeExp fl Ω fexp (roundResult fl Ω (XR.add (.fin lz) (XR.fin lx).neg))).div (.fin r)))) := by
        intro w
        unfold Inexact.accepts
        rw [hlz, hlx, hr, acc_fin M hM.ops bz bx, hM.random]
      rcases core h hu0 hu ht hη0 hη hf hδ0 hδ hΩ hΛ hΩΛ hR mz mx bx hr0 hrΩ hrΛ hrR with ⟨h1, h2⟩ | ⟨h1, ⟨h2, h3⟩ | ⟨v, h2, v0, h3⟩⟩
      · rw [always M x z (fun w => by rw [hacc, h1]; rfl)]
        rw [abs_le] at *
        constructor <;> linarith
      · rw [always M x z (fun w => by rw [hacc, h1, h2]; rfl)]
        rw [abs_le] at *
        constructor <;> linarith
      · have h4 := fraction M x z v v0 (fun y => by rw [hacc, h1, h2, Bool.false_or]; exact leb_fin _ _)
        rw [abs_le] at *
        constructor <;> linarith

/-- **C100** (sure acceptance): if the proposal ratio is 1 and `std::exp` is monotone with `exp(0) = 1`, a proposal whose computed log likelihood is not smaller than that of the current sample is always accepted. -/
theorem C100_uphill (M : Computer S XR) (h : Format u tiny fl) (he : ExpLike fexp) (hΩ1 : 1 ≤ Ω) (hM : M.Ieee π q fl Ω fexp flog e ρ Λ R) (x z : S) (hr : M.ratio x z = .fin 1)
    (lx lz : ℝ) (hlx : M.logLikelihood x = .fin lx) (hlz : M.logLikelihood z = .fin lz) (bx : |lx| < Ω) (bz : |lz| < Ω) (hle : lx ≤ lz) : M.acceptance x z = 1 := by
  refine always M x z (fun w => ?_)
  unfold Inexact.accepts
  rw [hlx, hlz, hr, acc_fin M hM.ops bz bx, hM.random, IeeeDR.sub_eq]
  have hw : ((w.1 : ℕ) : ℝ) / M.count ≤ 1 := by
    rw [div_le_one (by exact_mod_cast M.count_pos)]
    exact_mod_cast w.1.2.le
  have hb : IeeeDR.Big fl (roundResult fl Ω ((ieeeExp fl Ω fexp (roundResult fl Ω (.fin (lz - lx)))).div (.fin 1))) := by
    rcases IeeeDR.exp_big (Ω := Ω) h he hΩ1 (by linarith : 0 ≤ lz - lx) with e1 | ⟨a, e1, ha, -⟩ <;> rw [e1]
    · left; simp only [XR.div]; rw [if_pos (by norm_num)]; rfl
    · simp only [XR.div]
      rw [if_neg one_ne_zero, div_one]
      exact IeeeDR.big_round h hΩ1 ha
  have h2 : XR.leb (.fin (((w.1 : ℕ) : ℝ) / M.count)) (roundResult fl Ω ((ieeeExp fl Ω fexp (roundResult fl Ω (.fin (lz - lx)))).div (.fin 1))) = true := by
    rcases hb with e1 | ⟨a, e1, ha, -⟩ <;> rw [e1]
    · rfl
    · rw [leb_fin]; linarith
  rw [h2, Bool.or_true]

/-- **C100** (sure rejection): proposals of zero probability are never accepted from a sample of positive probability. -/
theorem C100_into_zero (M : Computer S XR) (hM : M.Ieee π q fl Ω fexp flog e ρ Λ R) (x z : S) (hx : 0 < π x) (hz : π z = 0) : M.acceptance x z = 0 := by
  obtain ⟨lx, hlx, -, b, -⟩ := hM.likelihood x hx
  exact never M x z (fun w => by simp [Inexact.accepts, acc, hM.zero z hz, hlx, zero_negInf M hM.ops, zero_fin M hM.ops b])

/-- **C100** (in the long run): `MeanValue::get()` converges to the mean of the target up to an error proportional to the errors of the machine: the probability that it is off by `K ε + d` or more at any time between `m` and
`N` samples is at most `K/(d²√m)`; the constant `K` depends on the target only. -/
theorem C100_mean [Fintype S] [DecidableEq S] {ι : Type} (hT : FiniteTarget max π q) (hc : Connected π q) (f : S → ι → ℝ) (G : ι → ℝ) (i : ι) :
    ∃ K : ℝ, ∀ (M : Computer S XR) (u tiny Ω η δ e ρ Λ R : ℝ) (fl fexp flog : ℝ → ℝ), Format u tiny fl → 0 ≤ u → u ≤ 1/8 → 0 ≤ tiny → 0 ≤ η → (∀ x, |fl x - x| ≤ u * |x| + η) → GoodFunctions fexp flog δ → 0 ≤ δ → δ ≤ 1/8 →
      Machine fl Ω → 0 ≤ Λ → 1 ≤ u * (Ω - 2 * Λ) → η * (1 + R) ≤ 1/2 → ρ ≤ 1/2 → 0 ≤ e → M.Ieee π q fl Ω fexp flog e ρ Λ R → ∀ (start : S) (d : ℝ), 0 < d → ∀ m, 1 ≤ m → ∀ N,
      M.probability (Computer.meanStep f) (MeanState.init G) start q N (fun script => ∃ n, m ≤ n ∧ n ≤ N ∧
        K * (2 * e + 2 * ρ + δ * (Λ + 2) + u * (2 * Λ + 7) + η * (1 + R) + 1 / M.count) + d ≤
          |(M.consumerState (Computer.meanStep f) (MeanState.init G) start (script.take n)).get i - targetMean π (fun x => f x i)|) ≤ K / (d ^ 2 * √m) := by
  obtain ⟨K, hK⟩ := C95_mean_strong hT hc f G i
  exact ⟨K, fun M u tiny Ω η δ e ρ Λ R fl fexp flog h hu0 hu ht hη0 hη hf hδ0 hδ hΩ hΛ hΩΛ hR hρ1 he hM start d hd m hm N =>
    hK XR M _ (C100_accuracy M h hu0 hu ht hη0 hη hf hδ0 hδ hΩ hΛ hΩΛ hR hρ1 he hT.nonneg hT.no_marker hM) start d hd m hm N⟩

theorem IeeeMH.exact_functions : GoodFunctions Real.exp Real.log 0 := ⟨fun t => (Real.exp_pos t).le, fun t => by simp, fun t _ => by simp⟩

theorem IeeeMH.maxDouble_big : 2 ^ 53 + 2000 ≤ maxDouble := by
  have h : (2:ℝ) ^ (0:ℕ) ≤ 2 ^ 971 := pow_le_pow_right₀ (by norm_num) (by norm_num)
  unfold maxDouble
  have h2 : (2:ℝ) ^ (2:ℕ) ≤ 2 ^ 971 := pow_le_pow_right₀ (by norm_num) (by norm_num)
  generalize (2:ℝ) ^ 971 = t at *
  norm_num at *
  linarith

/-- **C100** (double precision, symmetric proposals): with correctly rounded `std::exp` and `std::log`, proposal ratios 1 and 2^53 random numbers, the acceptance probability is exact up to twice the error of the log likelihood
function and `9·2^-53 ≈ 10^-15`, whatever the size of the log likelihoods. -/
theorem C100_double (M : Computer S XR) (hπ : ∀ x, 0 ≤ π x) (hmax : ∀ x, Real.log (π x) ≠ -max) (he : 0 ≤ e) (hN : M.count = 2 ^ 53)
    (hM : M.Ieee π q double maxDouble Real.exp Real.log e 0 0 1) : M.Accurate max π q (2 * e + 9 * 2 ^ (-53 : ℤ)) := by
  have hb := maxDouble_big
  have hη : (2:ℝ) ^ (-1075 : ℤ) ≤ 2 ^ (-55 : ℤ) := zpow_le_zpow_right₀ (by norm_num) (by norm_num)
  have e5 : (2:ℝ) ^ (-53 : ℤ) = 4 * 2 ^ (-55 : ℤ) := by norm_num
  have e6 : (2:ℝ) ^ (-55 : ℤ) ≤ 1/8 := by norm_num
  have hΩ : 1 ≤ (2:ℝ) ^ (-53 : ℤ) * (maxDouble - 2 * 0) := by
    have : (2:ℝ) ^ (-53 : ℤ) * 2 ^ 53 = 1 := by norm_num
    have hp : (0:ℝ) < 2 ^ (-53 : ℤ) := by positivity
    nlinarith
  have := C100_accuracy M double_format (by positivity) unit_small (by positivity) (η := 2 ^ (-1075 : ℤ)) (by positivity) double_error exact_functions le_rfl (by norm_num) maxDouble_machine le_rfl hΩ (by
    refine le_trans (mul_le_mul_of_nonneg_right hη (by norm_num)) (by norm_num)) (by norm_num) he hπ hmax hM
  intro x z hxz
  refine (this x z hxz).trans ?_
  rw [hN]
  have e7 : (1:ℝ) / ((2 ^ 53 : ℕ) : ℝ) = 2 ^ (-53 : ℤ) := by norm_num
  rw [e7]
  have hp : (0:ℝ) < 2 ^ (-55 : ℤ) := by positivity
  rw [e5]
  generalize (2:ℝ) ^ (-1075 : ℤ) = a at *
  generalize (2:ℝ) ^ (-55 : ℤ) = b at *
  linarith

/-- **C100** (double precision, general proposals): for ratios of normal numbers (2^-1022 to the largest double). -/
theorem C100_double_ratio (M : Computer S XR) (hπ : ∀ x, 0 ≤ π x) (hmax : ∀ x, Real.log (π x) ≠ -max) (he : 0 ≤ e) (hρ : ρ ≤ 1/2) (hN : M.count = 2 ^ 53)
    (hM : M.Ieee π q double maxDouble Real.exp Real.log e ρ 710 (2 ^ (1022 : ℤ))) : M.Accurate max π q (2 * e + 2 * ρ + 1430 * 2 ^ (-53 : ℤ)) := by
  have hb := maxDouble_big
  have hη : (2:ℝ) ^ (-1075 : ℤ) ≤ 2 ^ (-55 : ℤ) := zpow_le_zpow_right₀ (by norm_num) (by norm_num)
  have hR : (2:ℝ) ^ (-1075 : ℤ) * (1 + 2 ^ (1022 : ℤ)) ≤ 2 * 2 ^ (-53 : ℤ) := by
    rw [mul_add, ← zpow_add₀ (by norm_num), mul_one, show (-1075 + 1022 : ℤ) = -53 by norm_num]
    have : (2:ℝ) ^ (-1075 : ℤ) ≤ 2 ^ (-53 : ℤ) := zpow_le_zpow_right₀ (by norm_num) (by norm_num)
    linarith
  have e5 : (2:ℝ) ^ (-53 : ℤ) = 4 * 2 ^ (-55 : ℤ) := by norm_num
  have e6 : (2:ℝ) ^ (-55 : ℤ) ≤ 1/8 := by norm_num
  have hΩ : 1 ≤ (2:ℝ) ^ (-53 : ℤ) * (maxDouble - 2 * 710) := by
    have : (2:ℝ) ^ (-53 : ℤ) * 2 ^ 53 = 1 := by norm_num
    have hp : (0:ℝ) < 2 ^ (-53 : ℤ) := by positivity
    nlinarith
  have := C100_accuracy M double_format (by positivity) unit_small (by positivity) (η := 2 ^ (-1075 : ℤ)) (by positivity) double_error exact_functions le_rfl (by norm_num) maxDouble_machine (by norm_num) hΩ
    (hR.trans (by norm_num)) hρ he hπ hmax hM
  intro x z hxz
  refine (this x z hxz).trans ?_
  rw [hN]
  have e7 : (1:ℝ) / ((2 ^ 53 : ℕ) : ℝ) = 2 ^ (-53 : ℤ) := by norm_num
  rw [e7]
  have hp : (0:ℝ) < 2 ^ (-53 : ℤ) := by positivity
  clear hb hη hΩ this e5 e6 e7
  generalize (2:ℝ) ^ (-1075 : ℤ) * (1 + 2 ^ (1022 : ℤ)) = a at *
  generalize (2:ℝ) ^ (-53 : ℤ) = b at *
  linarith

/-! ### An instance: three states with the weights 0, 1 and `exp(-1000)` (which is less than the smallest positive double) -/

namespace IeeeMH

/-- the weights -/
noncomputable def weight (x : Fin 3) : ℝ := if x = 0 then 0 else if x = 1 then 1 else Real.exp (-1000)

/-- the proposals: one of the other two states -/
noncomputable def other (x y : Fin 3) : ℝ := if x = y then 0 else 1 / 2

/-- the machine -/
noncomputable def doubleMachine : Computer (Fin 3) XR where
  ops := ieeeOps double maxDouble Real.exp Real.log
  logLikelihood := fun x => if x = 0 then .negInf else if x = 1 then .fin 0 else .fin (-1000)
  ratio := fun _ _ => .fin 1
  count := 2 ^ 53
  count_pos := by positivity
  random := fun i => .fin ((i : ℝ) / ((2 ^ 53 : ℕ) : ℝ))

theorem doubleMachine_ieee : doubleMachine.Ieee weight other double maxDouble Real.exp Real.log 0 0 0 1 where
  ops := rfl
  likelihood := by
    have hb := maxDouble_big
    intro x hx
    fin_cases x
    · simp [weight] at hx
    · exact ⟨0, rfl, fl_zero double_format, by rw [abs_zero]; linarith, by simp [weight]⟩
    · refine ⟨-1000, rfl, machine_neg double_format (by simpa using double_nat 1000 (by norm_num)), by rw [abs_neg, abs_of_pos (by norm_num)]; linarith, ?_⟩
      simp [weight]
  zero := by
    intro x hx
    fin_cases x
    · rfl
    · simp [weight] at hx
    · simp [weight, (Real.exp_pos _).ne'] at hx
  ratio := by
    intro x z hxz
    have hne : x ≠ z := by rintro rfl; simp [other] at hxz
    have h1 : other x z = 1 / 2 := by simp [other, hne]
    have h2 : other z x = 1 / 2 := by simp [other, Ne.symm hne]
    rw [h1, h2]
    refine ⟨by norm_num, 1, rfl, by norm_num, by linarith [maxDouble_big], by simp, by norm_num, by norm_num⟩
  random := fun i => rfl

theorem target : FiniteTarget maxDouble weight other where
  nonneg := by intro x; fin_cases x <;> simp [weight, (Real.exp_pos _).le]
  nonzero := by
    have := Real.exp_pos (-1000)
    simp [Fin.sum_univ_three, weight]
    linarith
  proposals_nonneg := by intro x y; unfold other; split <;> norm_num
  proposals_total := by intro x; fin_cases x <;> simp [other, Fin.sum_univ_three] <;> norm_num
  no_marker := by
    have hb := maxDouble_big
    intro x
    fin_cases x <;> simp [weight] <;> intro h <;> linarith

theorem target_connected : Connected weight other := by
  refine ⟨1, fun x => ?_⟩
  fin_cases x
  · exact Relation.ReflTransGen.single (by simp [other, weight])
  · exact Relation.ReflTransGen.refl
  · exact Relation.ReflTransGen.single (by simp [other, weight])

end IeeeMH

/-- the acceptance probability from the likely to the unlikely state is `exp(-1000)` up to `10^-15`; all others are as accurate -/
example : doubleMachine.Accurate maxDouble weight other (2 * 0 + 9 * 2 ^ (-53 : ℤ)) := C100_double doubleMachine target.nonneg target.no_marker le_rfl rfl doubleMachine_ieee

/-- from the unlikely to the likely state the move is certain -/
example : doubleMachine.acceptance 2 1 = 1 := C100_uphill doubleMachine double_format IeeeDR.exp_like (by linarith [maxDouble_big]) doubleMachine_ieee 2 1 rfl (-1000) 0 rfl rfl
  (by rw [abs_neg, abs_of_pos (by norm_num)]; linarith [maxDouble_big]) (by rw [abs_zero]; linarith [maxDouble_big]) (by norm_num)

/-- and never into the state of zero probability -/
example : doubleMachine.acceptance 1 0 = 0 := C100_into_zero doubleMachine doubleMachine_ieee 1 0 (by simp [weight]) (by simp [weight])

/-- the mean of the sample index -/
example := C100_mean target target_connected (fun x (_ : Unit) => ((x : ℕ) : ℝ)) (fun _ => 0) ()

/-! ### An instance with proposals that are not symmetric -/

namespace IeeeMH

/-- from `false` to `true` with probability 1/2, back with probability 1/4 -/
noncomputable def skew (x y : Bool) : ℝ := if x then (if y then 3 / 4 else 1 / 4) else 1 / 2

/-- the machine; both states have the density `e^5` -/
noncomputable def skewMachine : Computer Bool XR where
  ops := ieeeOps double maxDouble Real.exp Real.log
  logLikelihood := fun _ => .fin 5
  ratio := fun x y => .fin (if x = y then 1 else if x then 1 / 2 else 2)
  count := 2 ^ 53
  count_pos := by positivity
  random := fun i => .fin ((i : ℝ) / ((2 ^ 53 : ℕ) : ℝ))

theorem skewMachine_ieee : skewMachine.Ieee (fun _ => Real.exp 5) skew double maxDouble Real.exp Real.log 0 0 710 (2 ^ (1022 : ℤ)) where
  ops := rfl
  likelihood := fun x _ => ⟨5, rfl, by simpa using double_nat 5 (by norm_num), by rw [abs_of_pos (by norm_num)]; linarith [maxDouble_big], by simp⟩
  zero := fun x hx => absurd hx (Real.exp_pos 5).ne'
  ratio := by
    have h2 : (2:ℝ) ≤ 2 ^ (1022 : ℤ) := by
      have : (2:ℝ) ^ (1:ℤ) ≤ 2 ^ (1022 : ℤ) := zpow_le_zpow_right₀ (by norm_num) (by norm_num)
      simpa using this
    have l0 : 0 ≤ Real.log 2 := Real.log_nonneg (by norm_num)
    have l1 : Real.log 2 ≤ 710 := (Real.log_le_sub_one_of_pos (by norm_num)).trans (by norm_num)
    have hb := maxDouble_big
    generalize (2:ℝ) ^ (1022 : ℤ) = t at *
    intro x z _
    cases x <;> cases z
    · exact ⟨by norm_num [skew], 1, by simp [skewMachine], by norm_num, by linarith, by norm_num, by linarith, by norm_num [skew]⟩
    · exact ⟨by norm_num [skew], 2, by simp [skewMachine], by norm_num, by linarith, by rw [abs_of_nonneg l0]; exact l1, by linarith, by norm_num [skew]⟩
    · exact ⟨by norm_num [skew], 1 / 2, by simp [skewMachine], by norm_num, by linarith, by rw [Real.log_div one_ne_zero two_ne_zero, Real.log_one, zero_sub, abs_neg, abs_of_nonneg l0]; exact l1, by norm_num; exact h2, by norm_num [skew]⟩
    · exact ⟨by norm_num [skew], 1, by simp [skewMachine], by norm_num, by linarith, by norm_num, by linarith, by norm_num [skew]⟩
  random := fun i => rfl

end IeeeMH

example : skewMachine.Accurate maxDouble (fun _ => Real.exp 5) skew (2 * 0 + 2 * 0 + 1430 * 2 ^ (-53 : ℤ)) :=
  C100_double_ratio skewMachine (fun _ => (Real.exp_pos 5).le) (fun _ => by rw [Real.log_exp]; linarith [maxDouble_big]) le_rfl (by norm_num) rfl skewMachine_ieee

end SampleFlow
