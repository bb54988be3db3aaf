import Verif.Proofs.DelayedNumbers
import Verif.Proofs.StrongPath

/-!
# Property C77: what consumers compute from delayed rejection samples

The sampler is `DelayedRejectionMetropolisHastings` with `max_delays = 1` on a finite sample space, with exact arithmetic; expected values and probabilities are over the
proposals and random numbers of a run from an arbitrary starting point (Spec/DelayedNumbers.lean).
-/

namespace SampleFlow

open Spec MeasureTheory Ergodic StrongLaw

namespace Delayed

variable {S : Type} {max : ℝ} {π : S → ℝ} {q1 : S → S → ℝ} {q2 : S → S → S → ℝ}

theorem samplesIssued_length {C : Type} (step : C → S × Aux XR → C) (c : C) (start : S) (script : List (Spec.Delayed.Chance S)) :
    (Spec.Delayed.samplesIssued max π step c start script).length = script.length := by
  rw [(run_eq max π step c start script).2, pathFrom_length]

theorem samplesIssued_take {C : Type} (step : C → S × Aux XR → C) (c : C) (start : S) (script : List (Spec.Delayed.Chance S)) (n : Nat) :
    Spec.Delayed.samplesIssued max π step c start (script.take n) = (Spec.Delayed.samplesIssued max π step c start script).take n := by
  rw [(run_eq max π step c start _).2, (run_eq max π step c start _).2, pathFrom_take]

theorem meanState_of_run {ι : Type} (f : S → ι → ℝ) (G : ι → ℝ) (start : S) (script : List (Spec.Delayed.Chance S)) (hs : script ≠ []) (i : ι) :
    (Spec.Delayed.consumerState max π (meanStep f) (MeanState.init G) start script).get i =
      ((Spec.Delayed.samplesIssued max π (meanStep f) (MeanState.init G) start script).map (fun x => f x i)).sum / script.length := by
  have hlen := samplesIssued_length (max := max) (π := π) (meanStep f) (MeanState.init G) start script
  have e : Spec.Delayed.consumerState max π (meanStep f) (MeanState.init G) start script =
      meanAfter G ((Spec.Delayed.samplesIssued max π (meanStep f) (MeanState.init G) start script).map f) := by
    rw [Delayed.consumerState_eq, Spec.Delayed.samplesIssued, meanAfter, List.foldl_map, List.foldl_map]
    rfl
  have hne : (Spec.Delayed.samplesIssued max π (meanStep f) (MeanState.init G) start script).map f ≠ [] := by
    intro h
    have : script.length = 0 := by rw [← hlen]; simpa using h
    exact hs (List.length_eq_zero_iff.mp this)
  rw [e, C21_mean G _ hne i, List.map_map, List.length_map, hlen]
  rfl

theorem histogram_of_run (debug : Bool) (pts : List ℝ) (sub : Subdivision pts) (f : S → ℝ) (k : Nat) (hk : k + 1 < pts.length) (start : S) (script : List (Spec.Delayed.Chance S)) :
    (binCount (Spec.Delayed.consumerState max π (histogramStep debug f) (.ok ⟨pts, List.replicate (pts.length - 1) 0⟩) start script) k : ℝ) =
      ((Spec.Delayed.samplesIssued max π (histogramStep debug f) (.ok ⟨pts, List.replicate (pts.length - 1) 0⟩) start script).map (fun x => if inBin pts k (f x) then (1:ℝ) else 0)).sum := by
  obtain ⟨hist, rows, h1, h2, h3, h4⟩ := C30_counts debug pts sub
    ((Spec.Delayed.samplesIssued max π (histogramStep debug f) (.ok ⟨pts, List.replicate (pts.length - 1) 0⟩) start script).map f)
  have e : Spec.Delayed.consumerState max π (histogramStep debug f) (.ok ⟨pts, List.replicate (pts.length - 1) 0⟩) start script = .ok hist := by
    rw [← h1, Delayed.consumerState_eq, Spec.Delayed.samplesIssued]
    generalize issuedOf (Spec.Delayed.run max π (histogramStep debug f) (.ok ⟨pts, List.replicate (pts.length - 1) 0⟩) start script).1 = l
    generalize (⟨pts, List.replicate (pts.length - 1) 0⟩ : Hist ℝ) = h0
    induction l generalizing h0 with
    | nil => rfl
    | cons m ms ih =>
      simp only [List.foldl_cons, List.map_cons, histAfter, List.foldlM_cons]
      have : histogramStep debug f (.ok h0) m = Hist.consume debug h0 (.num (f m.1)) := rfl
      rw [this]
      cases hh : Hist.consume debug h0 (.num (f m.1)) with
      | ok h' => exact ih h'
      | error e =>
        have : ∀ l : List (S × Aux XR), l.foldl (histogramStep debug f) (.error e) = .error e := by
          intro l
          induction l with
          | nil => rfl
          | cons a l ih => exact ih
        rw [this]; rfl
  have hb : binCount (Spec.Delayed.consumerState max π (histogramStep debug f) (.ok ⟨pts, List.replicate (pts.length - 1) 0⟩) start script) k =
      ((Spec.Delayed.samplesIssued max π (histogramStep debug f) (.ok ⟨pts, List.replicate (pts.length - 1) 0⟩) start script).map f).countP (inBin pts k) := by
    simp only [binCount, e, h2]
    rw [List.getElem?_eq_getElem (show k < rows.length by omega), h4 k (by omega) hk]
    rfl
  rw [hb]
  generalize Spec.Delayed.samplesIssued max π (histogramStep debug f) (.ok ⟨pts, List.replicate (pts.length - 1) 0⟩) start script = l
  induction l with
  | nil => simp
  | cons a l ih =>
    rw [List.map_cons, List.countP_cons, List.map_cons, List.sum_cons, ← ih]
    by_cases hx : inBin pts k (f a) <;> simp [hx, add_comm]

variable [Fintype S]

/-- everything that is a mean over the samples converges to the mean under the stationary distribution -/
theorem mean_converges (h : Spec.Delayed.Target π q1 q2) (μ : S → ℝ) (hμ : 0 < ∑ x, μ x) (hst : ∀ y, ∑ x, μ x * drTransition max π q1 q2 x y = μ y) (f : S → ℝ) :
    ∃ K : ℝ, ∀ (C : Type) (step : C → S × Aux XR → C) (c : C) (start : S) (n : Nat) (g : List (Spec.Delayed.Chance S) → ℝ), 1 ≤ n →
      (∀ script, script.length = n → g script = ((Spec.Delayed.samplesIssued max π step c start script).map f).sum / n) →
      Spec.Delayed.expected max π q1 q2 step c start n (fun script => (g script - targetMean μ f) ^ 2) ≤ K / n := by
  obtain ⟨y0, hr⟩ := connected max h
  obtain ⟨K, hK⟩ := mean_square (stochastic max h) μ hμ hst y0 hr f
  refine ⟨K, fun C step c start n g hn hg => ?_⟩
  rw [expected_eq max π q1 q2 step c start n _ (fun l => ((l.map f).sum / n - targetMean μ f) ^ 2)
    (fun script hs => by simp only [hg script hs])]
  exact hK n start hn

/-- the strong law -/
theorem strong_law (h : Spec.Delayed.Target π q1 q2) (μ : S → ℝ) (hμ : 0 < ∑ x, μ x) (hst : ∀ y, ∑ x, μ x * drTransition max π q1 q2 x y = μ y) (f : S → ℝ) :
    ∃ K : ℝ, 0 ≤ K ∧ ∀ (C : Type) (step : C → S × Aux XR → C) (c : C) (start : S) (N : Nat) (g : List (Spec.Delayed.Chance S) → ℝ),
      (∀ script, 1 ≤ script.length → g script = ((Spec.Delayed.samplesIssued max π step c start script).map f).sum / script.length) →
      ∀ (ε : ℝ), 0 < ε → ∀ m, 1 ≤ m →
        Spec.Delayed.probability max π q1 q2 step c start N (fun script => ∃ n, m ≤ n ∧ n ≤ N ∧ ε ≤ |g (script.take n) - targetMean μ f|) ≤ K / (ε ^ 2 * √m) := by
  classical
  obtain ⟨y0, hr⟩ := connected max h
  obtain ⟨K, hK0, hK⟩ := strong_path (stochastic max h) μ hμ hst y0 hr f
  refine ⟨K, hK0, fun C step c start N g hg ε hε m hm => ?_⟩
  unfold Spec.Delayed.probability
  rw [expected_eq max π q1 q2 step c start N _ (fun l => if ∃ n, m ≤ n ∧ n ≤ l.length ∧ ε ≤ |dev f (targetMean μ f) (l.take n) / n| then 1 else 0) (fun script hs => ?_)]
  · exact hK start N ε hε m hm _ (fun l hl => hl)
  · have hl := samplesIssued_length (max := max) (π := π) step c start script
    refine if_congr ?_ rfl rfl
    have key : ∀ n, m ≤ n → n ≤ N → g (script.take n) - targetMean μ f =
        dev f (targetMean μ f) ((Spec.Delayed.samplesIssued max π step c start script).take n) / n := by
      intro n h1 h2
      have hlt : (script.take n).length = n := by rw [List.length_take]; omega
      rw [hg _ (by omega), samplesIssued_take, hlt, dev_eq f _ _ n (by rw [List.length_take]; omega) (by omega)]
    constructor
    · rintro ⟨n, h1, h2, h3⟩
      exact ⟨n, h1, by omega, by rw [← key n h1 h2]; exact h3⟩
    · rintro ⟨n, h1, h2, h3⟩
      exact ⟨n, h1, by omega, by rw [key n h1 (by omega)]; exact h3⟩

end Delayed

variable {S : Type} [Fintype S] {max : ℝ} {π : S → ℝ} {q1 : S → S → ℝ} {q2 : S → S → S → ℝ}

omit [Fintype S] in
/-- **C77** (sanity): no run fails, and a run issues one sample for every step. -/
theorem C77_no_failure {C : Type} (step : C → S × Aux XR → C) (c : C) (start : S) (script : List (Spec.Delayed.Chance S)) :
    (∃ y, (Spec.Delayed.run max π step c start script).2.1 = .ok y) ∧
    (Spec.Delayed.samplesIssued max π step c start script).length = script.length :=
  ⟨⟨_, (Delayed.run_eq max π step c start script).1⟩, Delayed.samplesIssued_length step c start script⟩

/-- **C77** (sanity): the certain event has probability one. -/
theorem C77_total_probability {C : Type} (step : C → S × Aux XR → C) (c : C) (h : Spec.Delayed.Target π q1 q2) (start : S) (n : Nat) :
    Spec.Delayed.probability max π q1 q2 step c start n (fun _ => True) = 1 := by
  unfold Spec.Delayed.probability
  rw [Delayed.expected_eq max π q1 q2 step c start n _ (fun _ => 1) (fun _ _ => by simp)]
  exact expectPath_const (Delayed.stochastic max h) n 1 start

/-- **C77** (MeanValue, partial): if the proposals are balanced, the mean square difference between `MeanValue::get()` after `n` samples and the expected value under
the target distribution is at most `K/n`.  Missing: proposals that are only symmetric, as the comments in the code assume, see `C77_violation`; more than one delay. -/
theorem C77_mean_square_partial {ι : Type} (h : Spec.Delayed.Target π q1 q2) (hb : Spec.Delayed.Balanced q1 q2) (f : S → ι → ℝ) (G : ι → ℝ) (i : ι) :
    ∃ K : ℝ, ∀ (n : Nat) (start : S), 1 ≤ n →
      Spec.Delayed.expected max π q1 q2 (meanStep f) (MeanState.init G) start n (fun script =>
        ((Spec.Delayed.consumerState max π (meanStep f) (MeanState.init G) start script).get i - targetMean π (fun x => f x i)) ^ 2) ≤ K / n := by
  obtain ⟨K, hK⟩ := Delayed.mean_converges (max := max) h π h.nonzero
    (C47_stationary_partial max π h.nonneg q1 q2 h.first_total h.second_total hb.symmetric hb.exchange) (fun x => f x i)
  refine ⟨K, fun n start hn => hK _ _ _ start n _ hn (fun script hs => ?_)⟩
  rw [Delayed.meanState_of_run f G start script (by intro h'; rw [h'] at hs; simp at hs; omega) i, hs]

/-- **C77** (Histogram, partial): the same for the fraction of the samples counted in a bin. -/
theorem C77_histogram_partial (h : Spec.Delayed.Target π q1 q2) (hb : Spec.Delayed.Balanced q1 q2) (debug : Bool) (pts : List ℝ) (sub : Subdivision pts)
    (f : S → ℝ) (k : Nat) (hk : k + 1 < pts.length) :
    ∃ K : ℝ, ∀ (n : Nat) (start : S), 1 ≤ n →
      Spec.Delayed.expected max π q1 q2 (histogramStep debug f) (.ok ⟨pts, List.replicate (pts.length - 1) 0⟩) start n (fun script =>
        ((binCount (Spec.Delayed.consumerState max π (histogramStep debug f) (.ok ⟨pts, List.replicate (pts.length - 1) 0⟩) start script) k : ℝ) / n
          - targetMean π (fun x => if inBin pts k (f x) then 1 else 0)) ^ 2) ≤ K / n := by
  obtain ⟨K, hK⟩ := Delayed.mean_converges (max := max) h π h.nonzero
    (C47_stationary_partial max π h.nonneg q1 q2 h.first_total h.second_total hb.symmetric hb.exchange) (fun x => if inBin pts k (f x) then 1 else 0)
  refine ⟨K, fun n start hn => hK _ _ _ start n _ hn (fun script hs => ?_)⟩
  rw [Delayed.histogram_of_run debug pts sub f k hk start script]

/-- **C77** (strong law for MeanValue, partial): if the proposals are balanced, the probability that `MeanValue::get()` is off by `ε` or more at any time between `m` and
`N` samples is at most `K/(ε²√m)`. -/
theorem C77_strong_mean_partial {ι : Type} (h : Spec.Delayed.Target π q1 q2) (hb : Spec.Delayed.Balanced q1 q2) (f : S → ι → ℝ) (G : ι → ℝ) (i : ι) :
    ∃ K : ℝ, ∀ (start : S) (ε : ℝ), 0 < ε → ∀ m, 1 ≤ m → ∀ N,
      Spec.Delayed.probability max π q1 q2 (meanStep f) (MeanState.init G) start N (fun script => ∃ n, m ≤ n ∧ n ≤ N ∧
        ε ≤ |(Spec.Delayed.consumerState max π (meanStep f) (MeanState.init G) start (script.take n)).get i - targetMean π (fun x => f x i)|) ≤ K / (ε ^ 2 * √m) := by
  obtain ⟨K, -, hK⟩ := Delayed.strong_law (max := max) h π h.nonzero
    (C47_stationary_partial max π h.nonneg q1 q2 h.first_total h.second_total hb.symmetric hb.exchange) (fun x => f x i)
  exact ⟨K, fun start ε hε m hm N => hK _ _ _ start N (fun script => (Spec.Delayed.consumerState max π (meanStep f) (MeanState.init G) start script).get i)
    (fun script hs => Delayed.meanState_of_run f G start script (by intro h'; rw [h'] at hs; simp at hs) i) ε hε m hm⟩

/-! ### The assumptions are met, and what happens if the proposals are only symmetric -/

/-- uniform proposals on three states, one of which has zero probability -/
theorem delayedExample : Spec.Delayed.Target (![1, 0, 2] : Fin 3 → ℝ) (fun _ _ => 1/3) (fun _ _ _ => 1/3) where
  nonneg := by intro x; fin_cases x <;> simp
  nonzero := by simp [Fin.sum_univ_three]; norm_num
  first_nonneg := by intro x y; norm_num
  first_total := by intro x; simp
  second_nonneg := by intro x y z; norm_num
  second_total := by intro x y; simp
  connected := ⟨0, fun x => Relation.ReflTransGen.single ⟨by norm_num, by simp⟩⟩

example : ∃ K : ℝ, ∀ (n : Nat) (start : Fin 3), 1 ≤ n →
      Spec.Delayed.expected 1000 ![1, 0, 2] (fun _ _ => 1/3) (fun _ _ _ => 1/3) (meanStep (fun x (_ : Unit) => (x.val : ℝ))) (MeanState.init (fun _ => 0)) start n (fun script =>
        ((Spec.Delayed.consumerState 1000 ![1, 0, 2] (meanStep (fun x (_ : Unit) => (x.val : ℝ))) (MeanState.init (fun _ => 0)) start script).get ()
          - targetMean ![1, 0, 2] (fun x => (x.val : ℝ))) ^ 2) ≤ K / n :=
  C77_mean_square_partial delayedExample ⟨by simp, by simp⟩ _ _ ()

/-- the proposals of `C47_violation` -/
theorem badExample : Spec.Delayed.Target badTarget badProposal (fun _ _ _ => 1/3) where
  nonneg := by intro x; fin_cases x <;> simp [badTarget] <;> norm_num
  nonzero := by simp [badTarget, Fin.sum_univ_three]; norm_num
  first_nonneg := by intro x y; fin_cases x <;> fin_cases y <;> simp [badProposal]
  first_total := by intro x; fin_cases x <;> simp [badProposal, Fin.sum_univ_three] <;> norm_num
  second_nonneg := by intro x y z; norm_num
  second_total := by intro x y; simp
  connected := by
    refine ⟨0, fun x => ?_⟩
    fin_cases x
    · exact Relation.ReflTransGen.refl
    · exact Relation.ReflTransGen.single ⟨by simp [badProposal], by simp [badTarget]⟩
    · exact Relation.ReflTransGen.single ⟨by simp [badProposal], by simp [badTarget]⟩

/-- the distribution that the sampler really samples from -/
noncomputable def realDistribution : Fin 3 → ℝ := ![3/8, 7/16, 3/16]

theorem realDistribution_stationary (max : ℝ) (y : Fin 3) :
    ∑ x, realDistribution x * drTransition max badTarget badProposal (fun _ _ _ => 1/3) x y = realDistribution y := by
  have flow := fun x y h => dr_flow max badTarget badExample.nonneg badProposal (fun _ _ _ => (1/3 : ℝ)) badExample.second_total x y h
  have f01 := flow 0 1 (by decide)
  have f02 := flow 0 2 (by decide)
  have f10 := flow 1 0 (by decide)
  have f12 := flow 1 2 (by decide)
  have f20 := flow 2 0 (by decide)
  have f21 := flow 2 1 (by decide)
  have t0 := C47_transition_sum max badTarget badProposal (fun _ _ _ => (1/3 : ℝ)) badExample.first_total badExample.second_total 0
  have t1 := C47_transition_sum max badTarget badProposal (fun _ _ _ => (1/3 : ℝ)) badExample.first_total badExample.second_total 1
  have t2 := C47_transition_sum max badTarget badProposal (fun _ _ _ => (1/3 : ℝ)) badExample.first_total badExample.second_total 2
  rw [Fin.sum_univ_three] at f01 f02 f10 f12 f20 f21 t0 t1 t2 ⊢
  generalize drTransition max badTarget badProposal (fun _ _ _ => (1/3 : ℝ)) = P at *
  simp [badTarget, badProposal] at f01 f02 f10 f12 f20 f21
  norm_num at f01 f02 f10 f12 f20 f21
  fin_cases y
  · simp [realDistribution]; linarith
  · simp [realDistribution]; linarith
  · simp [realDistribution]; linarith

/-- **C77** (violated): with a symmetric first-stage proposal and a uniform second-stage proposal on three states the probability of state 1 under the target
distribution is 2/5, but the fraction of the samples that are in state 1 converges to 7/16. -/
theorem C77_violation (max : ℝ) :
    (∀ x y, badProposal x y = badProposal y x) ∧ targetMean badTarget (fun x => if x = 1 then 1 else 0) = 2/5 ∧
    ∃ K : ℝ, ∀ (n : Nat) (start : Fin 3), 1 ≤ n →
      Spec.Delayed.expected max badTarget badProposal (fun _ _ _ => 1/3) (meanStep (fun x (_ : Unit) => if x = 1 then 1 else 0)) (MeanState.init (fun _ => 0)) start n (fun script =>
        ((Spec.Delayed.consumerState max badTarget (meanStep (fun x (_ : Unit) => if x = 1 then 1 else 0)) (MeanState.init (fun _ => 0)) start script).get () - 7/16) ^ 2) ≤ K / n := by
  refine ⟨(C47_violation max).1, by simp [targetMean, badTarget, Fin.sum_univ_three]; norm_num, ?_⟩
  obtain ⟨K, hK⟩ := Delayed.mean_converges (max := max) badExample realDistribution (by simp [realDistribution, Fin.sum_univ_three]; norm_num)
    (realDistribution_stationary max) (fun x => if x = 1 then 1 else 0)
  have e : targetMean realDistribution (fun x => if x = 1 then 1 else 0) = 7/16 := by
    simp [targetMean, realDistribution, Fin.sum_univ_three]; norm_num
  rw [e] at hK
  refine ⟨K, fun n start hn => hK _ _ _ start n _ hn (fun script hs => ?_)⟩
  rw [Delayed.meanState_of_run _ _ start script (by intro h'; rw [h'] at hs; simp at hs; omega) (), hs]

/-! ### Instances: concrete cases that meet the hypotheses of the theorems above -/

example := C77_total_probability (max := 1000) (meanStep (fun (x : Fin 3) (_ : Unit) => (x.val : ℝ))) (MeanState.init (fun _ => 0)) delayedExample 0 7
example := C77_histogram_partial (max := 1000) delayedExample ⟨by simp, by simp⟩ true [-1, 1/2, 3] ⟨by norm_num, by simp⟩ (fun x => (x.val : ℝ)) 1 (by simp)
example := C77_strong_mean_partial (max := 1000) delayedExample ⟨by simp, by simp⟩ (fun x (_ : Unit) => (x.val : ℝ)) (fun _ => 0) ()

end SampleFlow
