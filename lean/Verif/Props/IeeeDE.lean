import Verif.Model.DifferentialEvaluation
import Verif.Model.Toy
import Verif.Props.IeeeMetropolis

/-!
# Property C102: the acceptance decision of DifferentialEvaluationMetropolisHastings in IEEE double precision

The task of a chain (`deRunTask`, Model/DifferentialEvaluation.lean) is run with the operations of IEEE 754 arithmetic (`ieeeOps`, Model/IeeeOps.lean), for each of the `N` random numbers 0, 1/N, ..., (N-1)/N.
-/

universe v

namespace SampleFlow

open Spec Ieee

variable {W : Type v} {S E : Type}

/-- The task of chain number `chain` accepts its trial sample. -/
def Spec.deTaskAccepts (ops : FloatOps XR) (env : World W S XR (Stop E)) (chain : Nat) (t : DETask S XR) (st : DEState S XR) (w : W) : Prop :=
  ∃ st', (@deRunTask W S XR E ops env chain t st w).2.1 = .ok (true, st')

open Classical in
/-- The probability of this, for a random number generator with `N` values. -/
noncomputable def Spec.deTaskProbability (ops : FloatOps XR) (env : World W S XR (Stop E)) (chain : Nat) (trial : S) (ratio : XR) (N : Nat) (st : DEState S XR) (w : W) : ℝ :=
  ((Finset.univ.filter (fun k : Fin N => deTaskAccepts ops env chain ⟨trial, ratio, .fin (((k : ℕ) : ℝ) / N)⟩ st w)).card : ℝ) / N

/-- The situation of a task: the user's function returns `lz` for the trial sample, and `lx` is stored for the chain. -/
structure Spec.DETaskCase (env : World W S XR (Stop E)) (chain : Nat) (trial : S) (lz lx : XR) (st : DEState S XR) (w : W) : Prop where
  trial : ∃ w', env.logLikelihood trial w = (.ok lz, w')
  stored : st.lls[chain]? = some lx
  present : ∃ x, st.cur[chain]? = some x

namespace IeeeDE

variable {u tiny Ω η δ Λ R : ℝ} {fl fexp flog : ℝ → ℝ}

theorem accepts_iff (ops : FloatOps XR) (env : World W S XR (Stop E)) (chain : Nat) (t : DETask S XR) (lz lx : XR) (st : DEState S XR) (w : W)
    (hc : DETaskCase env chain t.trial lz lx st w) : deTaskAccepts ops env chain t st w ↔ @deAccept S XR ops t lz lx = true := by
  obtain ⟨⟨w', h1⟩, h2, ⟨x, h3⟩⟩ := hc
  unfold deTaskAccepts deRunTask
  have e1 : (callLogLikelihood env t.trial : Prog W S XR (Stop E) XR) w = ([.logLikelihood t.trial lz], .ok lz, w') := by
    unfold callLogLikelihood; rw [h1]
  rw [Prog.bind_ok e1, Prog.bind_ok (atIndex_ok h2 w')]
  by_cases ha : @deAccept S XR ops t lz lx = true
  · rw [if_pos ha]
    exact ⟨fun _ => ha, fun _ => ⟨_, rfl⟩⟩
  · rw [if_neg ha, Prog.bind_ok (atIndex_ok h3 w')]
    refine ⟨?_, fun h => absurd h ha⟩
    rintro ⟨st', h⟩
    simp [Prog.pure_run] at h

theorem prob_threshold (ops : FloatOps XR) (env : World W S XR (Stop E)) (chain : Nat) (trial : S) (ratio lz lx : XR) (st : DEState S XR) (w : W) (N : Nat)
    (hc : DETaskCase env chain trial lz lx st w) (p : Fin N → Prop) [DecidablePred p]
    (hp : ∀ k : Fin N, @deAccept S XR ops ⟨trial, ratio, .fin (((k : ℕ) : ℝ) / N)⟩ lz lx = true ↔ p k) :
    deTaskProbability ops env chain trial ratio N st w = ((Finset.univ.filter p).card : ℝ) / N := by
  unfold deTaskProbability
  congr 2
  apply congrArg
  ext k
  simp only [Finset.mem_filter, Finset.mem_univ, true_and]
  rw [accepts_iff ops env chain _ lz lx st w hc, hp]

theorem accept_eq (trial : S) (r lz lx y : XR) : @deAccept S XR (ieeeOps fl Ω fexp flog) ⟨trial, r, y⟩ lz lx =
    XR.leb y (roundResult fl Ω ((ieeeExp fl Ω fexp (roundResult fl Ω (XR.add lz lx.neg))).div r)) := rfl

theorem one_of_all (N : Nat) (hN : 0 < N) : ((Finset.univ.filter (fun _ : Fin N => True)).card : ℝ) / N = 1 := by
  simp only [Finset.filter_true, Finset.card_univ, Fintype.card_fin]
  exact div_self (by exact_mod_cast hN.ne')

end IeeeDE

open IeeeDE IeeeMH

variable {u tiny Ω η δ Λ R : ℝ} {fl fexp flog : ℝ → ℝ}

/-- **C102** (accuracy): for log likelihoods that are floating point numbers of any size, the trial sample is accepted with probability `min(1, exp(lz - lx)/r)` up to the errors of `std::exp`, some rounding errors, and the
resolution of the random numbers. -/
theorem C102_accuracy (h : Format u tiny fl) (hu0 : 0 ≤ u) (hu : u ≤ 1/8) (ht : 0 ≤ tiny) (hη0 : 0 ≤ η) (hη : ∀ x, |fl x - x| ≤ u * |x| + η) (hf : GoodFunctions fexp flog δ) (hδ0 : 0 ≤ δ) (hδ : δ ≤ 1/8)
    (hΩ : Machine fl Ω) (hΛ : 0 ≤ Λ) (hΩΛ : 1 ≤ u * (Ω - 2 * Λ)) (hR : η * (1 + R) ≤ 1/2) {lz lx r : ℝ} (mz : Machine fl lz) (mx : Machine fl lx)
    (hr : 0 < r) (hrΩ : r ≤ Ω) (hrΛ : |Real.log r| ≤ Λ) (hrR : 1 / r ≤ R)
    (env : World W S XR (Stop E)) (chain : Nat) (trial : S) (N : Nat) (hN : 0 < N) (st : DEState S XR) (w : W) (hc : DETaskCase env chain trial (.fin lz) (.fin lx) st w) :
    |deTaskProbability (ieeeOps fl Ω fexp flog) env chain trial (.fin r) N st w - min 1 (Real.exp (lz - lx) / r)| ≤ 2 * δ + u * (2 * Λ + 7) + η * (1 + R) + 1 / N := by
  have hexp : Real.exp (lz - lx - Real.log r) = Real.exp (lz - lx) / r := by rw [Real.exp_sub, Real.exp_log hr]
  have hN0 : (0:ℝ) ≤ 1 / (N : ℝ) := by positivity
  rw [← hexp]
  rcases quotient_close h hu0 hu ht hη0 hη hf hδ0 hδ hΩ hΛ hΩΛ hR mz mx hr hrΩ hrΛ hrR with ⟨e, h1⟩ | ⟨v, e, hv, h1⟩
  · rw [prob_threshold _ env chain trial _ _ _ st w N hc (fun _ => True) (fun k => by rw [accept_eq, e]; exact iff_of_true rfl trivial), one_of_all N hN]
    linarith
  · rw [prob_threshold _ env chain trial _ _ _ st w N hc (fun k : Fin N => ((k : ℕ) : ℝ) / N ≤ v) (fun k => by rw [accept_eq, e]; exact leb_fin _ _)]
    have h2 := Inexact.count_le N hN v hv
    rw [abs_le] at *
    constructor <;> linarith

/-- **C102** (into zero density): a trial sample of log likelihood minus infinity is accepted exactly if the random number is 0, hence with probability `1/N`.  (The exact algorithm never accepts it.) -/
theorem C102_into_zero (h : Format u tiny fl) (hΩ0 : 0 ≤ Ω) {lx r : ℝ} (hr : 0 < r) (env : World W S XR (Stop E)) (chain : Nat) (trial : S) (N : Nat) (hN : 0 < N) (st : DEState S XR) (w : W)
    (hc : DETaskCase env chain trial .negInf (.fin lx) st w) :
    deTaskProbability (ieeeOps fl Ω fexp flog) env chain trial (.fin r) N st w = 1 / N := by
  have hN0 : (0:ℝ) < N := by exact_mod_cast hN
  have e : roundResult fl Ω ((ieeeExp fl Ω fexp (roundResult fl Ω (XR.add .negInf (XR.fin lx).neg))).div (.fin r)) = .fin 0 := by
    show roundResult fl Ω ((XR.fin 0).div (.fin r)) = .fin 0
    simp only [XR.div]
    rw [if_neg hr.ne', zero_div]
    simp only [roundResult]
    rw [fl_zero h, if_neg (by linarith), if_neg (by linarith)]
  rw [prob_threshold _ env chain trial _ _ _ st w N hc (fun k : Fin N => k = ⟨0, hN⟩) (fun k => by
    rw [accept_eq, e, leb_fin, div_le_iff₀ hN0, zero_mul]
    constructor
    · intro hk
      have : (k : ℕ) ≤ 0 := by exact_mod_cast hk
      exact Fin.ext (by simpa using this)
    · rintro rfl; simp)]
  rw [Finset.filter_eq', if_pos (Finset.mem_univ _), Finset.card_singleton, Nat.cast_one]

/-- **C102** (out of zero density): from a sample of log likelihood minus infinity, every trial sample of finite log likelihood is accepted. -/
theorem C102_out_of_zero {lz r : ℝ} (hr : 0 < r) (env : World W S XR (Stop E)) (chain : Nat) (trial : S) (N : Nat) (hN : 0 < N) (st : DEState S XR) (w : W)
    (hc : DETaskCase env chain trial (.fin lz) .negInf st w) :
    deTaskProbability (ieeeOps fl Ω fexp flog) env chain trial (.fin r) N st w = 1 := by
  have e : roundResult fl Ω ((ieeeExp fl Ω fexp (roundResult fl Ω (XR.add (.fin lz) XR.negInf.neg))).div (.fin r)) = .posInf := by
    show roundResult fl Ω (XR.posInf.div (.fin r)) = .posInf
    simp only [XR.div]
    rw [if_pos hr.le]; rfl
  rw [prob_threshold _ env chain trial _ _ _ st w N hc (fun _ => True) (fun k => by rw [accept_eq, e]; exact iff_of_true rfl trivial), one_of_all N hN]

/-- **C102** (within zero density): if both log likelihoods are minus infinity, their difference is not a number, and the trial sample is rejected whatever the random number: a chain started
outside the support does not move until it hits the support by a single proposal. -/
theorem C102_within_zero (r : XR) (env : World W S XR (Stop E)) (chain : Nat) (trial : S) (N : Nat) (st : DEState S XR) (w : W)
    (hc : DETaskCase env chain trial .negInf .negInf st w) :
    deTaskProbability (ieeeOps fl Ω fexp flog) env chain trial r N st w = 0 := by
  have e : roundResult fl Ω ((ieeeExp fl Ω fexp (roundResult fl Ω (XR.add .negInf XR.negInf.neg))).div r) = .nan := by
    cases r <;> rfl
  rw [prob_threshold _ env chain trial _ _ _ st w N hc (fun _ => False) (fun k => by rw [accept_eq, e]; simp [XR.leb, XR.ltb, XR.eqb])]
  simp

/-- **C102** (double precision, ratio 1): with correctly rounded `std::exp` and 2^53 random numbers, exact up to `8·2^-53 + 2^-1074`. -/
theorem C102_double {lz lx : ℝ} (mz : Machine double lz) (mx : Machine double lx)
    (env : World W S XR (Stop E)) (chain : Nat) (trial : S) (st : DEState S XR) (w : W) (hc : DETaskCase env chain trial (.fin lz) (.fin lx) st w) :
    |deTaskProbability (ieeeOps double maxDouble Real.exp Real.log) env chain trial (.fin 1) (2 ^ 53) st w - min 1 (Real.exp (lz - lx))| ≤ 8 * 2 ^ (-53 : ℤ) + 2 ^ (-1074 : ℤ) := by
  have hb := maxDouble_big
  have hΩ : 1 ≤ (2:ℝ) ^ (-53 : ℤ) * (maxDouble - 2 * 0) := by
    have : (2:ℝ) ^ (-53 : ℤ) * 2 ^ 53 = 1 := by norm_num
    have hp : (0:ℝ) < 2 ^ (-53 : ℤ) := by positivity
    nlinarith
  have hη : (2:ℝ) ^ (-1075 : ℤ) ≤ 2 ^ (-55 : ℤ) := zpow_le_zpow_right₀ (by norm_num) (by norm_num)
  have e4 : (2:ℝ) ^ (-1074 : ℤ) = 2 * 2 ^ (-1075 : ℤ) := by
    rw [show (-1074 : ℤ) = 1 + -1075 by norm_num, zpow_add₀ (by norm_num), zpow_one]
  have := C102_accuracy (fexp := Real.exp) (flog := Real.log) double_format (by positivity) unit_small (by positivity) (η := 2 ^ (-1075 : ℤ)) (Λ := 0) (R := 1) (r := 1) (by positivity) double_error exact_functions le_rfl (by norm_num) maxDouble_machine le_rfl hΩ (by
    refine le_trans (mul_le_mul_of_nonneg_right hη (by norm_num)) (by norm_num)) mz mx one_pos (by linarith) (by simp) (by norm_num) env chain trial (2 ^ 53) (by norm_num) st w hc
  rw [div_one] at this
  refine this.trans ?_
  have e7 : (1:ℝ) / ((2 ^ 53 : ℕ) : ℝ) = 2 ^ (-53 : ℤ) := by norm_num
  rw [e7, e4]
  generalize (2:ℝ) ^ (-1075 : ℤ) = a at *
  generalize (2:ℝ) ^ (-53 : ℤ) = b at *
  linarith

/-! ### An instance -/

namespace IeeeDE

/-- A world whose log likelihood is `-x^2` for natural numbers `x` below 10, and minus infinity for the others. -/
noncomputable def squares : World Unit Nat XR (Stop Empty) where
  logLikelihood := fun x w => (.ok (if x < 10 then .fin (-(x * x : ℕ)) else .negInf), w)
  propose := fun x _ w => (.ok (x, .fin 1), w)
  crossover := fun x _ _ w => (.ok x, w)
  uniform := fun w => (.fin 0, w)
  uniformInt := fun _ w => (0, w)
  issue := fun _ _ w => (.ok (), w)
  flush := fun w => w

/-- three chains at 1, 2 and 20 -/
noncomputable def threeChains : DEState Nat XR := ⟨[1, 2, 20], [1, 2, 20], [.fin (-1), .fin (-4), .negInf]⟩

/-- Chain 1 moves from 2 to 3 with probability exp(-5) up to rounding; the premises about zero density can be met as well. -/
example : |deTaskProbability (ieeeOps double maxDouble Real.exp Real.log) squares 1 3 (.fin 1) (2 ^ 53) threeChains () - min 1 (Real.exp (-9 - -4))| ≤ 8 * 2 ^ (-53 : ℤ) + 2 ^ (-1074 : ℤ) ∧
    deTaskProbability (ieeeOps double maxDouble Real.exp Real.log) squares 1 15 (.fin 1) (2 ^ 53) threeChains () = 1 / (2 ^ 53 : ℕ) ∧
    deTaskProbability (ieeeOps double maxDouble Real.exp Real.log) squares 2 3 (.fin 1) (2 ^ 53) threeChains () = 1 ∧
    deTaskProbability (ieeeOps double maxDouble Real.exp Real.log) squares 2 15 (.fin 1) (2 ^ 53) threeChains () = 0 := by
  have m : ∀ k : Nat, k ≤ 2 ^ 53 → Machine double (-(k : ℝ)) := by
    intro k hk
    refine machine_neg double_format ?_
    have := double_machine k hk 0 (by norm_num)
    simpa using this
  have hb := maxDouble_big
  refine ⟨C102_double (by simpa using m 9 (by norm_num)) (by simpa using m 4 (by norm_num)) squares 1 3 threeChains () ⟨⟨(), ?_⟩, rfl, ⟨2, rfl⟩⟩,
    C102_into_zero (lx := -4) double_format (by linarith) one_pos squares 1 15 (2 ^ 53) (by norm_num) threeChains () ⟨⟨(), ?_⟩, rfl, ⟨2, rfl⟩⟩,
    C102_out_of_zero (lz := -9) one_pos squares 2 3 (2 ^ 53) (by norm_num) threeChains () ⟨⟨(), ?_⟩, rfl, ⟨20, rfl⟩⟩,
    C102_within_zero _ squares 2 15 (2 ^ 53) threeChains () ⟨⟨(), ?_⟩, rfl, ⟨20, rfl⟩⟩⟩ <;> norm_num [squares]

end IeeeDE

end SampleFlow
