import Verif.Proofs.DelayedChain
import Verif.Props.DelayedRejection
import Mathlib.Data.Fintype.BigOperators
import Mathlib.Algebra.BigOperators.Fin
import Mathlib.Tactic.NormNum

/-!
# Properties C45, C46, C47: delayed rejection with exact arithmetic
-/

namespace SampleFlow

open Spec MeasureTheory

set_option linter.unusedSimpArgs false

variable {S : Type}

/-! ## C45 -/

/-- C45: with `max_delays = 0`, proposals with ratio 1 and finite log likelihoods, the delayed rejection sampler
does exactly what the Metropolis-Hastings sampler does: the same events in the same order (evaluations,
proposals, random numbers, samples with their auxiliary data, flushes), the same result or exception, and the
same final state of the world. -/
theorem C45_same_as_metropolisHastings {W E : Type} (max : ℝ) (checked : Bool) (env : World W S XR (Stop E))
    (hL : ∀ x w d w', env.logLikelihood x w = (.ok d, w') → ∃ l, d = .fin l ∧ l ≠ -max)
    (hR : ∀ x rej w y r w', env.propose x rej w = (.ok (y, r), w') → r = .fin 1) (start : S) (n : Nat) (w : W) :
    @drSample W S XR (idealOps max) E checked env start 0 n w =
      @mhSample W S XR (Stop E) env (idealOps max) start n w := by
  letI := idealOps max
  have key : ∀ w, (callLogLikelihood env start >>= fun ll => drLoop checked env 0 n start ll >>= fun last =>
        callFlush env >>= fun _ => (pure last : Prog W S XR (Stop E) S)) w =
      (callLogLikelihood env start >>= fun ll => mhLoop env n start ll >>= fun last =>
        callFlush env >>= fun _ => (pure last : Prog W S XR (Stop E) S)) w := by
    intro w
    rcases h1 : env.logLikelihood start w with ⟨(e | d), w1⟩
    · have e1 : callLogLikelihood env start w = ([], .error e, w1) := by simp [callLogLikelihood, h1]
      rw [Prog.bind_error e1, Prog.bind_error e1]
    · have e1 : callLogLikelihood env start w = ([.logLikelihood start d], .ok d, w1) := by
        simp [callLogLikelihood, h1]
      obtain ⟨l, rfl, hl⟩ := hL _ _ _ _ h1
      rw [Prog.bind_ok e1, Prog.bind_ok e1]
      have h2 := dr_mh_loop max checked env hL hR n start l w1 hl
      rcases h3 : mhLoop env n start (.fin l) w1 with ⟨tr, (e | last), w2⟩
      · rw [h3] at h2
        rw [Prog.bind_error h2, Prog.bind_error h3]
      · rw [h3] at h2
        rw [Prog.bind_ok h2, Prog.bind_ok h3]
  unfold drSample mhSample Prog.withScopeExit
  simp only [key]

/-- A world to which C45 applies: any two-stage world with finite log likelihoods. -/
example (L : S → ℝ) (y1 y2 x : S) (n : Nat) (us : List ℝ) (h : ∀ x, L x ≠ -1000) :
    @drSample (List ℝ) S XR (idealOps 1000) Empty true (twoStageWorld (fun x => .fin (L x)) y1 y2) x 0 n us =
      @mhSample (List ℝ) S XR (Stop Empty) (twoStageWorld (fun x => .fin (L x)) y1 y2) (idealOps 1000) x n us :=
  C45_same_as_metropolisHastings 1000 true _
    (by intro x w d w' h'; simp only [twoStageWorld, Prod.mk.injEq, Except.ok.injEq] at h'
        exact ⟨L x, h'.1.symm, h x⟩)
    (by intro x rej w y r w' h'; simp only [twoStageWorld, Prod.mk.injEq, Except.ok.injEq] at h'
        exact h'.1.2.symm) x n us

/-- C45 (violated for zero probabilities): started at a sample of zero probability (`-inf`) with a
proposal of zero probability, Metropolis-Hastings always moves and delayed rejection never does - contrary to the
documentation ("if max_delays==0, then this class functions the same as a regular Metropolis-Hastings
producer"). -/
theorem C45_violation_zero_probability (max : ℝ) (x z : S) (u1 u2 : ℝ) (h1 : u1 < 1) :
    (@mhSample (List ℝ) S XR (Stop Empty) (twoStageWorld (fun _ => .negInf) z z) (idealOps max) x 1 [u1, u2]).2.1
      = .ok z ∧
    (@drSample (List ℝ) S XR (idealOps max) Empty true (twoStageWorld (fun _ => .negInf) z z) x 0 1 [u1, u2]).2.1
      = .ok x := by
  letI := idealOps max
  constructor
  · have hz := hasZero_negInf max
    have hu : FloatOps.le (XR.fin u1) (FloatOps.div FloatOps.one (XR.fin 1)) = true := by
      show XR.leb (.fin u1) (XR.div (.fin 1) (.fin 1)) = true
      simp [XR.div, XR.leb, XR.ltb, h1]
    have e : (mhAccept (twoStageWorld (fun _ : S => .negInf) z z) .negInf .negInf (.fin 1) [u1, u2] :
        List (Event S XR) × Except (Stop Empty) Bool × List ℝ) = ([.drew (.fin u1)], .ok true, [u2]) := by
      unfold mhAccept
      simp [hz, bind, Prog.bind, draw, Prog.pure_run, twoStageWorld, hu]
    unfold mhSample Prog.withScopeExit mhLoop
    have e1 : callLogLikelihood (twoStageWorld (fun _ : S => .negInf) z z) x [u1, u2] =
      ([.logLikelihood x .negInf], .ok .negInf, [u1, u2]) := rfl
    have e2 : callPropose (twoStageWorld (fun _ : S => .negInf) z z) x [] [u1, u2] =
      ([.proposed x [] z (.fin 1)], .ok (z, .fin 1), [u1, u2]) := rfl
    have e3 : callLogLikelihood (twoStageWorld (fun _ : S => .negInf) z z) z [u1, u2] =
      ([.logLikelihood z .negInf], .ok .negInf, [u1, u2]) := rfl
    simp only [bind, Prog.bind, e1, e2, e3, e]
    rfl
  · have a1 := alphaFn_single true 0 XR.negInf XR.negInf
    rw [Nat.zero_add] at a1
    have e4 : (liftFault (alphaFn true 1 XR.negInf [XR.negInf]) : Prog (List ℝ) S XR (Stop Empty) XR) [u1, u2] =
        ([], .ok .nan, [u1, u2]) := by rw [a1]; rfl
    have e5 := accept_run (max := max) (fun _ : S => .negInf) z z .nan u1 [u2]
    have h0 : accD .nan u1 = false := rfl
    have h0' : XR.ltb (.fin 1) .nan = false := rfl
    rw [h0, h0'] at e5
    simp only [Bool.false_eq_true, if_false] at e5
    unfold drSample Prog.withScopeExit drLoop
    have e1 : callLogLikelihood (twoStageWorld (fun _ : S => .negInf) z z) x [u1, u2] =
      ([.logLikelihood x .negInf], .ok .negInf, [u1, u2]) := rfl
    have e2 : callPropose (twoStageWorld (fun _ : S => .negInf) z z) x [] [u1, u2] =
      ([.proposed x [] z (.fin 1)], .ok (z, .fin 1), [u1, u2]) := rfl
    have e3 : callLogLikelihood (twoStageWorld (fun _ : S => .negInf) z z) z [u1, u2] =
      ([.logLikelihood z .negInf], .ok .negInf, [u1, u2]) := rfl
    simp only [drStages, bind, Prog.bind] at e5 ⊢
    simp only [List.map_nil, e1, e2, e3, List.nil_append, List.length_singleton, List.map_cons, e4, e5,
      Bool.false_eq_true, if_false]
    rfl

/-! ## C46 -/

/-- C46 (violated): a concrete run of the sampler with `max_delays = 1`: whenever the first proposal is
rejected, the sampler reads outside of a vector. -/
theorem C46_violation_concrete (max : ℝ) (L : S → XR) (x y1 y2 : S) (u1 u2 : ℝ)
    (hrej : accD (alpha1 (L x) (L y1)) u1 = false) :
    (@drSample (List ℝ) S XR (idealOps max) Empty true (twoStageWorld L y1 y2) x 1 1 [u1, u2]).2.1 =
      .error (.fault .ub) := by
  letI := idealOps max
  have hlt : XR.ltb (.fin 1) (alpha1 (L x) (L y1)) = false := by
    unfold accD at hrej; simp at hrej; exact hrej.1
  have e2 : callPropose (twoStageWorld L y1 y2) x (List.map Prod.fst ([] : List (S × XR))) [u1, u2] =
      ([.proposed x [] y1 (.fin 1)], .ok (y1, .fin 1), [u1, u2]) := rfl
  have e3 : callLogLikelihood (twoStageWorld L y1 y2) y1 [u1, u2] =
      ([.logLikelihood y1 (L y1)], .ok (L y1), [u1, u2]) := rfl
  have a1 := alphaFn_single true 0 (L x) (L y1)
  rw [Nat.zero_add] at a1
  have e4 : (liftFault (alphaFn true ([] ++ [(y1, L y1)]).length (L x) (([] ++ [(y1, L y1)]).map Prod.snd)) :
      Prog (List ℝ) S XR (Stop Empty) XR) [u1, u2] = ([], .ok (alpha1 (L x) (L y1)), [u1, u2]) := by
    simp only [List.nil_append, List.length_singleton, List.map_cons, List.map_nil]
    rw [a1]; rfl
  have e5 := accept_run (max := max) L y1 y2 (alpha1 (L x) (L y1)) u1 [u2]
  rw [hrej, hlt] at e5
  simp only [Bool.false_eq_true, if_false] at e5
  have st : ∃ tr w', drStages true (twoStageWorld L y1 y2) x (L x) 2 [] [u1, u2] =
      (tr, .error (.fault .ub), w') := by
    rw [drStages, Prog.bind_ok e2]
    simp only
    rw [Prog.bind_ok e3]
    simp only
    rw [Prog.bind_ok e4]
    simp only
    rw [Prog.bind_ok e5]
    simp only [Bool.false_eq_true, if_false]
    have e6 : callPropose (twoStageWorld L y1 y2) x (List.map Prod.fst ([] ++ [(y1, L y1)])) [u2] =
      ([.proposed x [y1] y2 (.fin 1)], .ok (y2, .fin 1), [u2]) := rfl
    have e7 : callLogLikelihood (twoStageWorld L y1 y2) y2 [u2] =
      ([.logLikelihood y2 (L y2)], .ok (L y2), [u2]) := rfl
    have e8 : (liftFault (alphaFn true ([] ++ [(y1, L y1)] ++ [(y2, L y2)]).length (L x)
        (([] ++ [(y1, L y1)] ++ [(y2, L y2)]).map Prod.snd)) : Prog (List ℝ) S XR (Stop Empty) XR) [u2] =
      ([], .error (.fault .ub), [u2]) := by
      rw [alphaFn_ub _ _ _ (by simp)]; rfl
    rw [drStages, Prog.bind_ok e6]
    simp only
    rw [Prog.bind_ok e7]
    simp only
    rw [Prog.bind_error e8]
    exact ⟨_, _, rfl⟩
  obtain ⟨tr, w', st⟩ := st
  unfold drSample Prog.withScopeExit
  have e1 : callLogLikelihood (twoStageWorld L y1 y2) x [u1, u2] =
      ([.logLikelihood x (L x)], .ok (L x), [u1, u2]) := rfl
  rw [Prog.bind_ok e1]
  simp only
  have e3 : drLoop true (twoStageWorld L y1 y2) 1 1 x (L x) [u1, u2] = (tr, .error (.fault .ub), w') := by
    unfold drLoop
    rw [Prog.bind_error st]
  rw [Prog.bind_error e3]

/-- The hypothesis is met: a proposal of zero probability is rejected by any positive random number. -/
example : accD (alpha1 (.fin 0) .negInf) (1/2) = false := by
  simp [accD, alpha1, XR.neg, XR.add, XR.exp, XR.ltb, XR.leb, XR.eqb]

/-! ## C47 -/

section
variable [Fintype S]

open Classical in
/-- C47: the transition probabilities of the sampler with `max_delays = 1` sum to one. -/
theorem C47_transition_sum (max : ℝ) (π : S → ℝ) (q1 : S → S → ℝ) (q2 : S → S → S → ℝ)
    (hq1 : ∀ x, ∑ y, q1 x y = 1) (hq2 : ∀ x y1, ∑ y2, q2 x y1 y2 = 1) (x : S) :
    ∑ y, drTransition max π q1 q2 x y = 1 := by
  unfold drTransition
  rw [Finset.sum_comm, ← hq1 x]
  refine Finset.sum_congr rfl (fun y1 _ => ?_)
  rw [Finset.sum_comm]
  have : ∀ y2, ∑ y, q1 x y1 * q2 x y1 y2 * drStepProb max (fun s => logOf (π s)) x y1 y2 y = q1 x y1 * q2 x y1 y2 := by
    intro y2
    rw [← Finset.mul_sum]
    have : ∑ y, drStepProb max (fun s => logOf (π s)) x y1 y2 y = 1 := by
      simp only [drStepProb_split, Finset.sum_add_distrib, ← Finset.mul_sum, Finset.sum_ite_eq, Finset.mem_univ,
        if_true]
      ring
    rw [this, mul_one]
  simp only [this]
  rw [← Finset.mul_sum, hq2, mul_one]

/-- C47 (partial): for every target `π` (also with zero probabilities) the chain with `max_delays = 1` is reversible
with respect to `π` if the first-stage proposal is symmetric and the proposal densities of the two stages satisfy
`q1(x,y1) q2(x,y1,y) = q1(y,y1) q2(y,y1,x)`.  What is missing: symmetry of the proposals, as the comments in
the code assume, is not enough, see `C47_violation`; and more than one delay. -/
theorem C47_detailed_balance_partial (max : ℝ) (π : S → ℝ) (hπ : ∀ x, 0 ≤ π x) (q1 : S → S → ℝ)
    (q2 : S → S → S → ℝ) (hq2 : ∀ x y1, ∑ y2, q2 x y1 y2 = 1) (hs : ∀ x y, q1 x y = q1 y x)
    (hb : ∀ x y1 y, q1 x y1 * q2 x y1 y = q1 y y1 * q2 y y1 x) (x y : S) :
    π x * drTransition max π q1 q2 x y = π y * drTransition max π q1 q2 y x := by
  by_cases hxy : x = y
  · rw [hxy]
  · rw [dr_flow max π hπ q1 q2 hq2 x y hxy, dr_flow max π hπ q1 q2 hq2 y x (Ne.symm hxy), min_comm (π y), hs x y]
    congr 1
    refine Finset.sum_congr rfl (fun y1 _ => ?_)
    rw [hb x y1 y]

/-- C47 (partial): hence `π` is stationary. -/
theorem C47_stationary_partial (max : ℝ) (π : S → ℝ) (hπ : ∀ x, 0 ≤ π x) (q1 : S → S → ℝ)
    (q2 : S → S → S → ℝ) (hq1 : ∀ x, ∑ y, q1 x y = 1) (hq2 : ∀ x y1, ∑ y2, q2 x y1 y2 = 1)
    (hs : ∀ x y, q1 x y = q1 y x) (hb : ∀ x y1 y, q1 x y1 * q2 x y1 y = q1 y y1 * q2 y y1 x) (y : S) :
    ∑ x, π x * drTransition max π q1 q2 x y = π y := by
  have : ∀ x, π x * drTransition max π q1 q2 x y = π y * drTransition max π q1 q2 y x :=
    fun x => C47_detailed_balance_partial max π hπ q1 q2 hq2 hs hb x y
  simp only [this]
  rw [← Finset.mul_sum, C47_transition_sum max π q1 q2 hq1 hq2 y, mul_one]

end

/-- The premises of C47 are met: uniform proposals on three states. -/
example (π : Fin 3 → ℝ) (hπ : ∀ x, 0 ≤ π x) (y : Fin 3) :
    ∑ x, π x * drTransition 1000 π (fun _ _ => 1/3) (fun _ _ _ => 1/3) x y = π y :=
  C47_stationary_partial 1000 π hπ _ _ (by intro x; simp) (by intro x y; simp) (by simp) (by simp) y

/-- the target of the counterexample -/
noncomputable def badTarget : Fin 3 → ℝ := ![2/5, 2/5, 1/5]

/-- a symmetric first-stage proposal -/
noncomputable def badProposal : Fin 3 → Fin 3 → ℝ := ![![0, 1/2, 1/2], ![1/2, 1/2, 0], ![1/2, 0, 1/2]]

/-- C47 (violated): with a symmetric first-stage proposal and a uniform (symmetric) second-stage proposal on three
states, the target is not stationary: starting from the target distribution, state 1 has probability
`2/5 + 1/30` after one step. -/
theorem C47_violation (max : ℝ) :
    (∀ x y, badProposal x y = badProposal y x) ∧ (∀ x, ∑ y, badProposal x y = 1) ∧
    (∀ x, 0 < badTarget x) ∧ ∑ x, badTarget x = 1 ∧
    ∑ x, badTarget x * drTransition max badTarget badProposal (fun _ _ _ => 1/3) x 1 = badTarget 1 + 1/30 := by
  have hs : ∀ x y, badProposal x y = badProposal y x := by
    intro x y; fin_cases x <;> fin_cases y <;> simp [badProposal]
  have hq1 : ∀ x, ∑ y, badProposal x y = 1 := by
    intro x; fin_cases x <;> simp [badProposal, Fin.sum_univ_three] <;> norm_num
  have hpos : ∀ x, 0 < badTarget x := by
    intro x; fin_cases x <;> simp [badTarget]
  have hq2 : ∀ x y1 : Fin 3, ∑ y2 : Fin 3, (fun _ _ _ => (1/3 : ℝ)) x y1 y2 = 1 := by intro x y; simp
  refine ⟨hs, hq1, hpos, by simp [badTarget, Fin.sum_univ_three]; norm_num, ?_⟩
  have flow := fun x y h => dr_flow max badTarget (fun x => (hpos x).le) badProposal (fun _ _ _ => (1/3 : ℝ)) hq2 x y h
  have f01 := flow 0 1 (by decide)
  have f21 := flow 2 1 (by decide)
  have f10 := flow 1 0 (by decide)
  have f12 := flow 1 2 (by decide)
  have tot := C47_transition_sum max badTarget badProposal (fun _ _ _ => (1/3 : ℝ)) hq1 hq2 1
  rw [Fin.sum_univ_three] at f01 f21 f10 f12 tot ⊢
  rw [f01, f21]
  have f11 : badTarget 1 * drTransition max badTarget badProposal (fun _ _ _ => (1/3 : ℝ)) 1 1 =
      badTarget 1 - badTarget 1 * drTransition max badTarget badProposal (fun _ _ _ => (1/3 : ℝ)) 1 0 -
        badTarget 1 * drTransition max badTarget badProposal (fun _ _ _ => (1/3 : ℝ)) 1 2 := by
    have : drTransition max badTarget badProposal (fun _ _ _ => (1/3 : ℝ)) 1 1 =
      1 - drTransition max badTarget badProposal (fun _ _ _ => (1/3 : ℝ)) 1 0 -
        drTransition max badTarget badProposal (fun _ _ _ => (1/3 : ℝ)) 1 2 := by linarith
    rw [this]; ring
  rw [f11, f10, f12]
  simp [badTarget, badProposal]
  norm_num

/-! ### the third stage -/

theorem alpha1_log (px p1 : ℝ) (hx : 0 < px) (h1 : 0 < p1) : alpha1 (logOf px) (logOf p1) = .fin (p1 / px) := by
  rw [alpha1, logOf, logOf, if_neg hx.ne', if_neg h1.ne']
  simp [XR.neg, XR.add, XR.exp, ← sub_eq_add_neg, Real.exp_sub, Real.exp_log hx, Real.exp_log h1]

/-- C47 (partial): for constant proposal densities the second stage accepts with the probability given in the
literature, for all likelihoods with which the stage is reached. -/
theorem C47_second_stage_partial (px p1 p2 : ℝ) (h1 : 0 < p1) (h1x : p1 < px) (h2 : 0 < p2) :
    ∃ a, @alphaFn XR (idealOps 0) false 2 (logOf px) [logOf p1, logOf p2] = .ok a ∧
      pr a = referenceAlpha 2 px [p1, p2] := by
  have hx : 0 < px := by linarith
  refine ⟨_, alphaFn_two 0 _ _ _, ?_⟩
  have hne : (1:ℝ) + -(p1 / px) ≠ 0 := by
    have : p1 / px < 1 := by rw [div_lt_one hx]; exact h1x
    linarith
  have hd : p1 / px < 1 := by rw [div_lt_one hx]; exact h1x
  rw [alpha2, alpha1_log px p1 hx h1, alpha1_log px p2 hx h2, alpha1_log p2 p1 h2 h1]
  simp only [XR.neg, XR.add, XR.div, hne, if_false, XR.mul, pr_fin]
  simp only [referenceAlpha, List.getLast?_cons_cons, List.getLast?_singleton, List.length_cons, List.length_nil,
    Nat.zero_add, Nat.reduceAdd, Nat.add_one_sub_one, List.range_one, List.map_cons, List.map_nil, List.prod_cons,
    List.prod_nil, mul_one, List.dropLast, List.reverse_cons, List.reverse_nil, List.nil_append, List.take_succ_cons,
    List.take_zero, Nat.sub_self, List.range_zero]
  rw [min_eq_right hd.le]
  have hpos : 0 < 1 - p1 / px := by linarith
  have hq : 0 < p2 / px := div_pos h2 hx
  rw [← sub_eq_add_neg, ← sub_eq_add_neg]
  rcases le_or_gt (p1 / p2) 1 with h | h
  · rw [min_eq_right h, max_eq_right]
    exact le_min zero_le_one (mul_nonneg hq.le (div_nonneg (by linarith) hpos.le))
  · rw [min_eq_left h.le, sub_self, zero_div, mul_zero, min_eq_right zero_le_one]
    apply max_eq_left
    apply (min_le_right _ _).trans
    exact mul_nonpos_of_nonneg_of_nonpos hq.le (div_nonpos_of_nonpos_of_nonneg (by linarith) hpos.le)

/-- C47 (violated in the third stage even for constant proposal densities): with likelihoods 4 of the current
sample and 1, 3, 2 of the three proposals, the acceptance probability of the literature is 0, but the code
accepts always: it does not limit the recursive probabilities to 1, and it passes the rejected samples to the
recursion in the wrong order.  (The reversed vector that should be passed is the one that is constructed with
the out-of-bounds read and not used.)  -/
theorem C47_violation_third_stage (max : ℝ) :
    @alphaFn XR (idealOps max) false 3 (logOf 4) [logOf 1, logOf 3, logOf 2] = .ok (.fin 1) ∧
    pr (.fin 1) = 1 ∧ referenceAlpha 3 4 [1, 3, 2] = 0 := by
  refine ⟨?_, by rw [pr_fin]; simp, ?_⟩
  · letI := idealOps max
    have s1 : ∀ x y : ℝ, 0 < x → 0 < y → alphaFn false 2 (logOf x) [logOf y] = .ok (.fin (y / x)) := by
      intro x y hx hy
      rw [alphaFn_single, ← alpha1_log x y hx hy]; rfl
    have s2 : ∀ x y z : ℝ, alphaFn false 2 (logOf x) [logOf y, logOf z] = .ok (alpha2 (logOf x) (logOf y) (logOf z)) :=
      fun x y z => alphaFn_two max _ _ _
    have v1 : alpha2 (logOf 2) (logOf 1) (logOf 3) = .fin 2 := by
      rw [alpha2, alpha1_log 2 1 (by norm_num) (by norm_num), alpha1_log 2 3 (by norm_num) (by norm_num),
        alpha1_log 3 1 (by norm_num) (by norm_num)]
      have h0 : ¬ (1 + -(1 / 2) = (0:ℝ)) := by norm_num
      simp only [XR.neg, XR.add, XR.div, h0, if_false, XR.mul, XR.fin.injEq]
      norm_num
    have v2 : alpha2 (logOf 4) (logOf 1) (logOf 3) = .fin (2/3) := by
      rw [alpha2, alpha1_log 4 1 (by norm_num) (by norm_num), alpha1_log 4 3 (by norm_num) (by norm_num),
        alpha1_log 3 1 (by norm_num) (by norm_num)]
      have h0 : ¬ (1 + -(1 / 4) = (0:ℝ)) := by norm_num
      simp only [XR.neg, XR.add, XR.div, h0, if_false, XR.mul, XR.fin.injEq]
      norm_num
    rw [alphaFn]
    simp only [List.getLast?_cons_cons, List.getLast?_singleton, List.length_cons, List.length_nil]
    have : (List.range (0 + 1 + 1 + 1 - 1)) = [0, 1] := rfl
    rw [this]
    have d1 : List.take (0 + 1) (List.drop (0 + 1 + 1 + 1 - 1 - (0 + 1)) [logOf 1, logOf 3, logOf 2]) = [logOf 3] := rfl
    have d2 : List.take (1 + 1) (List.drop (0 + 1 + 1 + 1 - 1 - (1 + 1)) [logOf 1, logOf 3, logOf 2]) =
      [logOf 1, logOf 3] := rfl
    have d3 : List.take (0 + 1) [logOf 1, logOf 3, logOf 2] = [logOf 1] := rfl
    have d4 : List.take (1 + 1) [logOf 1, logOf 3, logOf 2] = [logOf 1, logOf 3] := rfl
    have r1 : FloatOps.exp (FloatOps.sub (logOf 2) (logOf 4)) = .fin (2 / 4) :=
      alpha1_log 4 2 (by norm_num) (by norm_num)
    simp only [List.foldlM_cons, List.foldlM_nil, d1, d2, d3, d4, s1 2 3 (by norm_num) (by norm_num),
      s1 4 1 (by norm_num) (by norm_num), s2, v1, v2, r1]
    have h1 : ¬ (1 + -(1 / 4) = (0:ℝ)) := by norm_num
    have h2 : ¬ (1 + -(2 / 3) = (0:ℝ)) := by norm_num
    simp only [bind, Except.bind, pure, Except.pure, Bool.false_eq_true, if_false]
    show Except.ok (XR.mul (XR.mul _ (XR.div (XR.add _ (XR.neg _)) (XR.add _ (XR.neg _))))
      (XR.div (XR.add _ (XR.neg _)) (XR.add _ (XR.neg _)))) = _
    simp only [FloatOps.one, XR.neg, XR.add, XR.div, h1, h2, if_false, XR.mul, Except.ok.injEq, XR.fin.injEq]
    norm_num
  · simp only [referenceAlpha, List.getLast?_cons_cons, List.getLast?_singleton, List.length_cons, List.length_nil,
      Nat.zero_add, Nat.reduceAdd, Nat.add_one_sub_one, List.range_succ, List.range_zero, List.nil_append,
      List.map_append, List.map_cons, List.map_nil, List.prod_append, List.prod_cons, List.prod_nil, mul_one,
      List.dropLast, List.reverse_cons, List.reverse_nil, List.take_succ_cons, List.take_zero, List.cons_append,
      Nat.sub_self]
    norm_num

/-! ### Instances: concrete cases that meet the hypotheses of the theorems above -/

example := C45_violation_zero_probability 1000 (0 : Nat) 1 (1/2) (1/3) (by norm_num)
example := C46_violation_concrete 1000 (fun x : Nat => if x = 0 then .fin 0 else .negInf) 0 1 2 (1/2) (1/3)
  (by simp [accD, alpha1, XR.neg, XR.add, XR.exp, XR.ltb, XR.leb, XR.eqb])
example := C47_transition_sum 1000 (fun x : Fin 3 => (x : ℝ) + 1) (fun _ _ => 1/3) (fun _ _ _ => 1/3) (by intro x; simp) (by intro x y; simp) 1
example := C47_detailed_balance_partial 1000 (fun x : Fin 3 => (x : ℝ) + 1) (fun x => by positivity) (fun _ _ => 1/3) (fun _ _ _ => 1/3) (by intro x y; simp) (fun _ _ => rfl) (fun _ _ _ => rfl) 1 2
example := C47_second_stage_partial 4 1 3 (by norm_num) (by norm_num) (by norm_num)

end SampleFlow
