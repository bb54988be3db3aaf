import Verif.Spec.AsyncNumbers
import Verif.Props.StrongLaw
import Verif.Props.AsyncStatistics

/-!
# Property C88: the laws of large numbers hold for consumers that work asynchronously, whatever the scheduler does

`net` is any network (finitely many nodes) connected to a Metropolis-Hastings sampler, `node` a consumer connected to the sampler, in any mode.  `final` decides, for every possible run of the sampler, how
the threads are scheduled, even with knowledge of all samples (`Schedule`).  Whenever `sample()` has returned, what the consumer reports has the same distribution as in the synchronous case, hence the same
laws of large numbers hold; the constants do not depend on network and scheduler.  (That concurrent executions of `consume` may be regarded as one after the other is C19.)
-/

namespace SampleFlow

open Spec MeasureTheory Ergodic Doeblin General StrongLaw StrongGeneral SampleFlow.Async SampleFlow.Async.Spec
open scoped ENNReal

namespace AsyncNumbers

/-! ### every schedule leads to a permutation of the messages -/

theorem perm {V : Type} (net : Net V) (B : Nat) (hB : Async.Spec.Finite net B) (node : Nat) (msgs : List V) (s : State V) (h : SampledAll net node msgs s) : (s.log node).Perm msgs := by
  obtain ⟨h2, calls, todo, hne, hf, h1, hm, hr, hb⟩ := h
  rw [← hm]
  exact C58_consumed_everything net B hB calls todo hne hf s hr hb node h1 h2

section
variable {S : Type} {max : ℝ} {π : S → ℝ} {q : S → S → ℝ}

theorem messages_samples {C : Type} (step : C → S × Aux XR → C) (c : C) (start : S) (script : List (Chance S)) :
    (messages max π q start script).map Prod.fst = (issuedOf (scriptRun max π q step c start script).1).map Prod.fst := by
  have h1 := (scriptRun_eq max π q step c start script).1
  have h2 := (scriptRun_eq max π q nobody () start script).1
  exact h2.trans h1.symm

theorem currentSample_eq {C C' : Type} (step : C → S × Aux XR → C) (c : C) (step' : C' → S × Aux XR → C') (c' : C') (start : S) (script : List (Chance S)) :
    currentSample max π q step c start script = currentSample max π q step' c' start script := by
  rw [(scriptRun_eq max π q step c start script).2, (scriptRun_eq max π q step' c' start script).2]

theorem expected_congr [Fintype S] {C C' : Type} (step : C → S × Aux XR → C) (c : C) (step' : C' → S × Aux XR → C') (c' : C') (start : S) (n : Nat) (g g' : List (Chance S) → ℝ)
    (h : ∀ script, script.length = n → g script = g' script) : expected max π q step c start n g = expected max π q step' c' start n g' := by
  have key : ∀ (n : Nat) (past : List (Chance S)), (∀ script, script.length = past.length + n → g script = g' script) →
      expectGiven max π q step c start g n past = expectGiven max π q step' c' start g' n past := by
    intro n
    induction n with
    | zero => intro past hp; exact hp past (by simp)
    | succ n ih =>
      intro past hp
      simp only [expectGiven, currentSample_eq step c step' c' start past]
      refine Finset.sum_congr rfl (fun z _ => ?_)
      congr 2
      funext u
      exact ih _ (fun script hs => hp script (by simp at hs; omega))
  exact key n [] (fun script hs => h script (by simpa using hs))

theorem probability_congr [Fintype S] {C C' : Type} (step : C → S × Aux XR → C) (c : C) (step' : C' → S × Aux XR → C') (c' : C') (start : S) (n : Nat) (A A' : List (Chance S) → Prop)
    (h : ∀ script, script.length = n → (A script ↔ A' script)) : probability max π q step c start n A = probability max π q step' c' start n A' := by
  classical
  exact expected_congr step c step' c' start n _ _ (fun script hs => if_congr (h script hs) rfl rfl)

theorem meanOf_congr [MeasurableSpace S] (μ : Measure S) {C C' : Type} (step : C → S × Aux XR → C) (c : C) (step' : C' → S × Aux XR → C') (c' : C') (start : S) (n : Nat) (g g' : List (Chance S) → ℝ≥0∞)
    (h : ∀ script, script.length = n → g script = g' script) : meanOf μ max π q step c start n g = meanOf μ max π q step' c' start n g' := by
  have key : ∀ (n : Nat) (past : List (Chance S)), (∀ script, script.length = past.length + n → g script = g' script) →
      meanGiven μ max π q step c start g n past = meanGiven μ max π q step' c' start g' n past := by
    intro n
    induction n with
    | zero => intro past hp; exact hp past (by simp)
    | succ n ih =>
      intro past hp
      simp only [meanGiven, currentSample_eq step c step' c' start past]
      congr 1
      funext z
      congr 2
      funext u
      exact ih _ (fun script hs => hp script (by simp at hs; omega))
  exact key n [] (fun script hs => h script (by simpa using hs))

theorem probOf_congr [MeasurableSpace S] (μ : Measure S) {C C' : Type} (step : C → S × Aux XR → C) (c : C) (step' : C' → S × Aux XR → C') (c' : C') (start : S) (n : Nat) (A A' : List (Chance S) → Prop)
    (h : ∀ script, script.length = n → (A script ↔ A' script)) : probOf μ max π q step c start n A = probOf μ max π q step' c' start n A' := by
  classical
  exact meanOf_congr μ step c step' c' start n _ _ (fun script hs => if_congr (h script hs) rfl rfl)

/-! ### what the consumer reports does not depend on the schedule -/

variable {start : S} {net : Net (S × Aux XR)} {B node : Nat} {final : List (Chance S) → State (S × Aux XR)}

/-- a consumer whose result depends on the samples only, not on their order -/
theorem held {C R : Type} (step : C → S × Aux XR → C) (c : C) (result : C → R) (after : List S → R)
    (h1 : ∀ l : List (S × Aux XR), result (l.foldl step c) = after (l.map Prod.fst)) (h2 : ∀ l l', l.Perm l' → after l = after l')
    (hB : Async.Spec.Finite net B) (hf : Schedule max π q start net node final) (script : List (Chance S)) :
    result (heldBy step c node (final script)) = result (consumerState max π q step c start script) := by
  have hp := perm net B hB node _ _ (hf script)
  rw [heldBy, h1, consumerState_eq, h1, ← messages_samples step c]
  exact h2 _ _ (hp.map _)

theorem mean_held {ι : Type} (hB : Async.Spec.Finite net B) (hf : Schedule max π q start net node final) (f : S → ι → ℝ) (G : ι → ℝ) (script : List (Chance S)) :
    (heldBy (meanStep f) (MeanState.init G) node (final script)).get = (consumerState max π q (meanStep f) (MeanState.init G) start script).get := by
  refine held (meanStep f) (MeanState.init G) MeanState.get (fun l => (meanAfter G (l.map f)).get) (fun l => ?_) (fun l l' h => C22_mean G _ _ (h.map f)) hB hf script
  simp only [meanAfter, List.foldl_map]; rfl

theorem cov_held {ι : Type} (hB : Async.Spec.Finite net B) (hf : Schedule max π q start net node final) (f : S → ι → ℝ) (M : ι → ℝ) (C₀ G : ι → ι → ℝ) (script : List (Chance S)) :
    (heldBy (covarianceStep f G) (CovState.init M C₀) node (final script)).get = (consumerState max π q (covarianceStep f G) (CovState.init M C₀) start script).get := by
  refine held (covarianceStep f G) (CovState.init M C₀) CovState.get (fun l => (covAfter M C₀ G (l.map f)).get) (fun l => ?_) (fun l l' h => ?_) hB hf script
  · simp only [covAfter, List.foldl_map]; rfl
  · by_cases hl : l = []
    · subst hl; rw [List.nil_perm.mp h]
    · exact C22_covariance M C₀ G _ _ (by simpa using hl) (h.map f)

theorem foldl_hist (debug : Bool) (f : S → ℝ) (l : List (S × Aux XR)) (h0 : Hist ℝ) :
    l.foldl (histogramStep debug f) (.ok h0) = histAfter debug h0 (((l.map Prod.fst).map f).map .num) := by
  induction l generalizing h0 with
  | nil => rfl
  | cons m ms ih =>
    simp only [List.foldl_cons, List.map_cons, histAfter, List.foldlM_cons]
    have : histogramStep debug f (.ok h0) m = Hist.consume debug h0 (.num (f m.1)) := rfl
    rw [this]
    cases hh : Hist.consume debug h0 (.num (f m.1)) with
    | ok h' => exact ih h'
    | error e =>
      have : ∀ l : List (S × Aux XR), l.foldl (histogramStep debug f) (.error e) = .error e := by
        intro l
        induction l with
        | nil => rfl
        | cons a l ih => exact ih
      rw [this]; rfl

theorem hist_held (hB : Async.Spec.Finite net B) (hf : Schedule max π q start net node final) (debug : Bool) (pts : List ℝ) (sub : Subdivision pts) (f : S → ℝ) (script : List (Chance S)) :
    heldBy (histogramStep debug f) (.ok ⟨pts, List.replicate (pts.length - 1) 0⟩) node (final script) =
      consumerState max π q (histogramStep debug f) (.ok ⟨pts, List.replicate (pts.length - 1) 0⟩) start script :=
  held (histogramStep debug f) (.ok ⟨pts, List.replicate (pts.length - 1) 0⟩) id (fun l => histAfter debug ⟨pts, List.replicate (pts.length - 1) 0⟩ ((l.map f).map .num))
    (fun l => foldl_hist debug f l _) (fun _ _ h => C22_histogram debug pts sub _ _ (h.map f)) hB hf script

/-- the samples that asynchronous and synchronous consumers hold have the same likelihood -/
theorem best_held (hπ : ∀ x, 0 ≤ π x) (hm : ∀ x, Real.log (π x) ≠ -max) (S₀ : S) (hB : Async.Spec.Finite net B) (hf : Schedule max π q start net node final) (script : List (Chance S)) (hs : script ≠ []) :
    ∃ b b', heldBy (bestStep max) (.ok ⟨S₀, .fin (-max)⟩) node (final script) = .ok ⟨b, logOf (π b)⟩ ∧
      consumerState max π q (bestStep max) (.ok ⟨S₀, .fin (-max)⟩) start script = .ok ⟨b', logOf (π b')⟩ ∧ π b = π b' := by
  have hp := perm net B hB node _ _ (hf script)
  have hlen : (messages max π q start script).length = script.length := by
    have := samplesIssued_length (max := max) (π := π) (q := q) nobody () start script
    rwa [samplesIssued, List.length_map] at this
  have hlen' : (issuedOf (scriptRun max π q (bestStep max) (.ok ⟨S₀, .fin (-max)⟩) start script).1).length = script.length := by
    have := samplesIssued_length (max := max) (π := π) (q := q) (bestStep max) (.ok ⟨S₀, .fin (-max)⟩) start script
    rwa [samplesIssued, List.length_map] at this
  have hpos := List.length_pos_iff.mpr hs
  obtain ⟨b, h1, h2, h3⟩ := bestOf_messages (max := max) hπ hm S₀ ((final script).log node)
    (fun m hm => messages_have_likelihood nobody () start script m (hp.mem_iff.mp hm)) (by
      intro h0
      have := hp.length_eq
      rw [h0, hlen] at this
      simp at this; omega)
  obtain ⟨b', h1', h2', h3'⟩ := bestOf_messages (max := max) hπ hm S₀ (issuedOf (scriptRun max π q (bestStep max) (.ok ⟨S₀, .fin (-max)⟩) start script).1)
    (messages_have_likelihood (bestStep max) _ start script) (by
      intro h0
      rw [h0] at hlen'
      simp at hlen'; omega)
  refine ⟨b, b', h1, by rw [consumerState_eq]; exact h1', ?_⟩
  have hq := hp.map Prod.fst
  rw [messages_samples (bestStep max) (.ok ⟨S₀, .fin (-max)⟩)] at hq
  exact le_antisymm (h3' b (hq.mem_iff.mp h2)) (h3 b' (hq.mem_iff.mpr h2'))

end
end AsyncNumbers

open AsyncNumbers

section finite
variable {S : Type} [Fintype S] {max : ℝ} {π : S → ℝ} {q : S → S → ℝ}

/-- **C88** (MeanValue): the mean square difference between what an asynchronous `MeanValue` reports after `n` samples and the expected value under the target distribution is at most `K/n`; `K` does not depend on
the starting point, on what else is connected to the sampler, on the modes and queue sizes, or on the scheduler. -/
theorem C88_mean {ι : Type} (h : FiniteTarget max π q) (hc : Connected π q) (f : S → ι → ℝ) (G : ι → ℝ) (i : ι) :
    ∃ K : ℝ, ∀ (n : Nat) (start : S) (net : Net (S × Aux XR)) (B node : Nat) (final : List (Chance S) → State (S × Aux XR)), 1 ≤ n → Async.Spec.Finite net B →
      Schedule max π q start net node final →
      expected max π q nobody () start n (fun script =>
        ((heldBy (meanStep f) (MeanState.init G) node (final script)).get i - targetMean π (fun x => f x i)) ^ 2) ≤ K / n := by
  obtain ⟨K, hK⟩ := C62_mean_square h hc f G i
  refine ⟨K, fun n start net B node final hn hB hf => le_trans (le_of_eq ?_) (hK n start hn)⟩
  exact expected_congr _ _ _ _ start n _ _ (fun script _ => by rw [mean_held hB hf])

/-- **C88** (CovarianceMatrix): the same for the entries of the covariance matrix, after `n ≥ 2` samples. -/
theorem C88_covariance {ι : Type} (h : FiniteTarget max π q) (hc : Connected π q) (f : S → ι → ℝ) (M : ι → ℝ) (C₀ G : ι → ι → ℝ) (i j : ι) :
    ∃ K : ℝ, ∀ (n : Nat) (start : S) (net : Net (S × Aux XR)) (B node : Nat) (final : List (Chance S) → State (S × Aux XR)), 2 ≤ n → Async.Spec.Finite net B →
      Schedule max π q start net node final →
      expected max π q nobody () start n (fun script =>
        ((heldBy (covarianceStep f G) (CovState.init M C₀) node (final script)).get i j - targetCovariance π (fun x => f x i) (fun x => f x j)) ^ 2) ≤ K / n := by
  obtain ⟨K, hK⟩ := C62_covariance h hc f M C₀ G i j
  refine ⟨K, fun n start net B node final hn hB hf => le_trans (le_of_eq ?_) (hK n start hn)⟩
  exact expected_congr _ _ _ _ start n _ _ (fun script _ => by rw [cov_held hB hf])

/-- **C88** (Histogram): the same for the fraction of the samples counted in bin `k`. -/
theorem C88_histogram (h : FiniteTarget max π q) (hc : Connected π q) (debug : Bool) (pts : List ℝ) (sub : Subdivision pts) (f : S → ℝ) (k : Nat) (hk : k + 1 < pts.length) :
    ∃ K : ℝ, ∀ (n : Nat) (start : S) (net : Net (S × Aux XR)) (B node : Nat) (final : List (Chance S) → State (S × Aux XR)), 1 ≤ n → Async.Spec.Finite net B →
      Schedule max π q start net node final →
      expected max π q nobody () start n (fun script =>
        ((binCount (heldBy (histogramStep debug f) (.ok ⟨pts, List.replicate (pts.length - 1) 0⟩) node (final script)) k : ℝ) / n
          - targetMean π (fun x => if inBin pts k (f x) then 1 else 0)) ^ 2) ≤ K / n := by
  obtain ⟨K, hK⟩ := C62_histogram h hc debug pts sub f k hk
  refine ⟨K, fun n start net B node final hn hB hf => le_trans (le_of_eq ?_) (hK n start hn)⟩
  exact expected_congr _ _ _ _ start n _ _ (fun script _ => by rw [hist_held hB hf debug pts sub f])

/-- **C88** (MaximumProbabilitySample): with a probability of at least `1 - K/n`, the consumer holds a sample that maximises the target density. -/
theorem C88_finds_maximum (h : FiniteTarget max π q) (hc : Connected π q) (S₀ : S) :
    ∃ K : ℝ, ∀ (n : Nat) (start : S) (net : Net (S × Aux XR)) (B node : Nat) (final : List (Chance S) → State (S × Aux XR)), 1 ≤ n → Async.Spec.Finite net B →
      Schedule max π q start net node final →
      1 - K / n ≤ probability max π q nobody () start n (fun script =>
        ∃ s, heldBy (bestStep max) (.ok ⟨S₀, .fin (-max)⟩) node (final script) = .ok s ∧ ∀ y, π y ≤ π s.best) := by
  obtain ⟨K, hK⟩ := C62_finds_maximum h hc S₀
  refine ⟨K, fun n start net B node final hn hB hf => le_trans (hK n start hn) (le_of_eq ?_)⟩
  refine probability_congr _ _ _ _ start n _ _ (fun script hs => ?_)
  obtain ⟨b, b', h1, h2, h3⟩ := best_held h.nonneg h.no_marker S₀ hB hf script (by rintro rfl; simp at hs; omega)
  rw [h1, h2]
  constructor
  · rintro ⟨s, hs1, hs2⟩
    cases hs1
    exact ⟨_, rfl, fun y => by show π y ≤ π b; rw [h3]; exact hs2 y⟩
  · rintro ⟨s, hs1, hs2⟩
    cases hs1
    exact ⟨_, rfl, fun y => by show π y ≤ π b'; rw [← h3]; exact hs2 y⟩

/-- **C88** (strong law for MeanValue): the probability that the mean reported is off by `ε` or more at any of the times between `m` and `N` samples at which `sample()` has returned is at most `K/(ε²√m)`.
`script.take n` are the first `n` steps of a run. -/
theorem C88_mean_strong {ι : Type} (h : FiniteTarget max π q) (hc : Connected π q) (f : S → ι → ℝ) (G : ι → ℝ) (i : ι) :
    ∃ K : ℝ, ∀ (start : S) (net : Net (S × Aux XR)) (B node : Nat) (final : List (Chance S) → State (S × Aux XR)), Async.Spec.Finite net B → Schedule max π q start net node final →
      ∀ (ε : ℝ), 0 < ε → ∀ m, 1 ≤ m → ∀ N,
      probability max π q nobody () start N (fun script => ∃ n, m ≤ n ∧ n ≤ N ∧
        ε ≤ |(heldBy (meanStep f) (MeanState.init G) node (final (script.take n))).get i - targetMean π (fun x => f x i)|) ≤ K / (ε ^ 2 * √m) := by
  obtain ⟨K, hK⟩ := C76_mean h hc f G i
  refine ⟨K, fun start net B node final hB hf ε hε m hm N => le_trans (le_of_eq ?_) (hK start ε hε m hm N)⟩
  exact probability_congr _ _ _ _ start N _ _ (fun script _ => by simp only [mean_held hB hf])

/-- **C88** (strong law for Histogram). -/
theorem C88_histogram_strong (h : FiniteTarget max π q) (hc : Connected π q) (debug : Bool) (pts : List ℝ) (sub : Subdivision pts) (f : S → ℝ) (k : Nat) (hk : k + 1 < pts.length) :
    ∃ K : ℝ, ∀ (start : S) (net : Net (S × Aux XR)) (B node : Nat) (final : List (Chance S) → State (S × Aux XR)), Async.Spec.Finite net B → Schedule max π q start net node final →
      ∀ (ε : ℝ), 0 < ε → ∀ m, 1 ≤ m → ∀ N,
      probability max π q nobody () start N (fun script => ∃ n, m ≤ n ∧ n ≤ N ∧
        ε ≤ |(binCount (heldBy (histogramStep debug f) (.ok ⟨pts, List.replicate (pts.length - 1) 0⟩) node (final (script.take n))) k : ℝ) / (script.take n).length
          - targetMean π (fun x => if inBin pts k (f x) then 1 else 0)|) ≤ K / (ε ^ 2 * √m) := by
  obtain ⟨K, hK⟩ := C76_histogram h hc debug pts sub f k hk
  refine ⟨K, fun start net B node final hB hf ε hε m hm N => le_trans (le_of_eq ?_) (hK start ε hε m hm N)⟩
  exact probability_congr _ _ _ _ start N _ _ (fun script _ => by simp only [hist_held hB hf debug pts sub f])

/-- **C88** (strong law for CovarianceMatrix). -/
theorem C88_covariance_strong {ι : Type} (h : FiniteTarget max π q) (hc : Connected π q) (f : S → ι → ℝ) (M : ι → ℝ) (C₀ G : ι → ι → ℝ) (i j : ι) (ε δ : ℝ) (hε : 0 < ε) (hδ : 0 < δ) :
    ∃ m : Nat, ∀ (start : S) (net : Net (S × Aux XR)) (B node : Nat) (final : List (Chance S) → State (S × Aux XR)), Async.Spec.Finite net B → Schedule max π q start net node final → ∀ (N : Nat),
      probability max π q nobody () start N (fun script => ∃ n, m ≤ n ∧ n ≤ N ∧
        ε ≤ |(heldBy (covarianceStep f G) (CovState.init M C₀) node (final (script.take n))).get i j - targetCovariance π (fun x => f x i) (fun x => f x j)|) ≤ δ := by
  obtain ⟨m, hm⟩ := C76_covariance h hc f M C₀ G i j ε δ hε hδ
  refine ⟨m, fun start net B node final hB hf N => le_trans (le_of_eq ?_) (hm start N)⟩
  exact probability_congr _ _ _ _ start N _ _ (fun script _ => by simp only [cov_held hB hf])

end finite

section general
variable {S : Type} [MeasurableSpace S] {μ : Measure S} [SFinite μ] {max : ℝ} {π : S → ℝ} {q : S → S → ℝ}

/-- **C88** (MeanValue, general sample spaces): the bound of C73 holds for every network and scheduler. -/
theorem C88_general_mean {ι : Type} (h : GeneralTarget μ max π q) (k : Nat) (hk : 1 ≤ k) (ε : ℝ) (hε : 0 < ε) (hf : Forgets μ max π q k ε) (f : S → ι → ℝ) (G : ι → ℝ) (i : ι)
    (hm : Measurable (fun x => f x i)) (b : ℝ) (hb : ∀ x, |f x i| ≤ b) (start : S) (hs : GoodStart max π start) (n : Nat) (hn : 1 ≤ n)
    (net : Net (S × Aux XR)) (B node : Nat) (hB : Async.Spec.Finite net B) (final : List (Chance S) → State (S × Aux XR)) (hF : Schedule max π q start net node final) :
    meanOf μ max π q nobody () start n (fun script => ENNReal.ofReal
        (((heldBy (meanStep f) (MeanState.init G) node (final script)).get i - targetExpectation μ π (fun x => f x i)) ^ 2)) ≤
      ENNReal.ofReal ((4 * b ^ 2 + 8 * k * b ^ 2 / ε) / n) := by
  refine le_trans (le_of_eq ?_) (C73_mean_square h k hk ε hε hf f G i hm b hb start hs n hn)
  exact meanOf_congr μ _ _ _ _ start n _ _ (fun script _ => by rw [mean_held hB hF])

/-- **C88** (strong law for MeanValue, general sample spaces). -/
theorem C88_general_mean_strong {ι : Type} (h : GeneralTarget μ max π q) (k : Nat) (hk : 1 ≤ k) (η : ℝ) (hη : 0 < η) (hf : Forgets μ max π q k η) (f : S → ι → ℝ) (G : ι → ℝ) (i : ι)
    (hm : Measurable (fun x => f x i)) (b : ℝ) (hb : ∀ x, |f x i| ≤ b) (start : S) (hs : GoodStart max π start)
    (net : Net (S × Aux XR)) (B node : Nat) (hB : Async.Spec.Finite net B) (final : List (Chance S) → State (S × Aux XR)) (hF : Schedule max π q start net node final)
    (ε : ℝ) (hε : 0 < ε) (m : Nat) (hm1 : 1 ≤ m) (N : Nat) :
    probOf μ max π q nobody () start N (fun script => ∃ n, m ≤ n ∧ n ≤ N ∧
        ε ≤ |(heldBy (meanStep f) (MeanState.init G) node (final (script.take n))).get i - targetExpectation μ π (fun x => f x i)|) ≤
      ENNReal.ofReal ((16 * (4 * b ^ 2 + 8 * k * b ^ 2 / η) + 8 * (2 * b) ^ 2) / (ε ^ 2 * √m)) := by
  refine le_trans (le_of_eq ?_) (C76_general_mean h k hk η hη hf f G i hm b hb start hs ε hε m hm1 N)
  exact probOf_congr μ _ _ _ _ start N _ _ (fun script _ => by simp only [mean_held hB hF])

/-- **C88** (strong law for Histogram, general sample spaces). -/
theorem C88_general_histogram_strong (h : GeneralTarget μ max π q) (k : Nat) (hk : 1 ≤ k) (η : ℝ) (hη : 0 < η) (hf : Forgets μ max π q k η) (debug : Bool) (pts : List ℝ) (sub : Subdivision pts)
    (f : S → ℝ) (hm : Measurable f) (j : Nat) (hj : j + 1 < pts.length) (start : S) (hs : GoodStart max π start)
    (net : Net (S × Aux XR)) (B node : Nat) (hB : Async.Spec.Finite net B) (final : List (Chance S) → State (S × Aux XR)) (hF : Schedule max π q start net node final)
    (ε : ℝ) (hε : 0 < ε) (m : Nat) (hm1 : 1 ≤ m) (N : Nat) :
    probOf μ max π q nobody () start N (fun script => ∃ n, m ≤ n ∧ n ≤ N ∧
        ε ≤ |(binCount (heldBy (histogramStep debug f) (.ok ⟨pts, List.replicate (pts.length - 1) 0⟩) node (final (script.take n))) j : ℝ) / (script.take n).length
          - (targetProb μ π {x | inBin pts j (f x)}).toReal|) ≤
      ENNReal.ofReal ((16 * (4 + 8 * k / η) + 32) / (ε ^ 2 * √m)) := by
  refine le_trans (le_of_eq ?_) (C76_general_histogram h k hk η hη hf debug pts sub f hm j hj start hs ε hε m hm1 N)
  exact probOf_congr μ _ _ _ _ start N _ _ (fun script _ => by simp only [hist_held hB hF debug pts sub f])

/-- **C88** (CovarianceMatrix, general sample spaces). -/
theorem C88_general_covariance {ι : Type} (h : GeneralTarget μ max π q) (k : Nat) (hk : 1 ≤ k) (ε : ℝ) (hε : 0 < ε) (hf : Forgets μ max π q k ε) (f : S → ι → ℝ) (M : ι → ℝ) (C₀ G : ι → ι → ℝ)
    (i j : ι) (hmi : Measurable (fun x => f x i)) (hmj : Measurable (fun x => f x j)) (b1 b2 : ℝ) (hb1 : ∀ x, |f x i| ≤ b1) (hb2 : ∀ x, |f x j| ≤ b2) :
    ∃ K : ℝ, ∀ (n : Nat) (start : S) (net : Net (S × Aux XR)) (B node : Nat) (final : List (Chance S) → State (S × Aux XR)), 2 ≤ n → GoodStart max π start →
      Async.Spec.Finite net B → Schedule max π q start net node final →
      meanOf μ max π q nobody () start n (fun script => ENNReal.ofReal
        (((heldBy (covarianceStep f G) (CovState.init M C₀) node (final script)).get i j
          - targetCov μ π (fun x => f x i) (fun x => f x j)) ^ 2)) ≤ ENNReal.ofReal (K / n) := by
  obtain ⟨K, hK⟩ := C73_covariance h k hk ε hε hf f M C₀ G i j hmi hmj b1 b2 hb1 hb2
  refine ⟨K, fun n start net B node final hn hs hB hF => le_trans (le_of_eq ?_) (hK n start hn hs)⟩
  exact meanOf_congr μ _ _ _ _ start n _ _ (fun script _ => by rw [cov_held hB hF])

end general

/-! ### schedules exist -/

namespace AsyncNumbers

theorem returns_step {V : Type} {net : Net V} {s s' : State V} (h : Step net s s')
    (hs : ∃ t : Thread V, s.threads[0]? = some t ∧ t.stack.getLast? = some .ret) :
    ReturnedBefore s [] ∨ ∃ t : Thread V, s'.threads[0]? = some t ∧ t.stack.getLast? = some .ret := by
  obtain ⟨t0, h0, hl⟩ := hs
  have key : ∀ (i : Nat) (t : Thread V) (x : Instr V) (pre rest : List (Instr V)) (extra : List (Thread V)), s.threads[i]? = some t → t.stack = x :: rest →
      ReturnedBefore s [] ∨ ∃ t' : Thread V, (s.threads.set i { t with stack := pre ++ rest } ++ extra)[0]? = some t' ∧ t'.stack.getLast? = some .ret := by
    intro i t x pre rest extra hi ht
    have hlen : 0 < s.threads.length := by
      by_contra hc
      rw [List.getElem?_eq_none (by omega)] at h0
      cases h0
    by_cases h : i = 0
    · subst h
      rw [h0] at hi
      cases hi
      rw [ht] at hl
      by_cases hr : rest = []
      · subst hr
        left
        refine ⟨t0, h0, ?_⟩
        rw [ht]
        simp only [List.getLast?_singleton, Option.some.injEq] at hl
        rw [hl]
        rfl
      · right
        refine ⟨{ t0 with stack := pre ++ rest }, ?_, ?_⟩
        · rw [List.getElem?_append_left (by simpa using hlen), List.getElem?_set_self hlen]
        · show (pre ++ rest).getLast? = some .ret
          obtain ⟨y, ys, rfl⟩ := List.exists_cons_of_ne_nil hr
          rw [List.getLast?_append]
          rw [List.getLast?_cons_cons] at hl
          rw [hl]
          rfl
    · right
      refine ⟨t0, ?_, hl⟩
      rw [List.getElem?_append_left (by simpa using hlen), List.getElem?_set_ne h, h0]
  cases h with
  | deliverSync i t n m rest hi hr ht ha =>
    have := key i t _ [.consume n m] rest [] hi ht
    simpa [State.setStack] using this
  | deliverAsync i t n m rest deferred hi hr ht ha hl' =>
    exact key i t _ [.trim n] rest [⟨some (n, deferred), t.owner, [.consume n m]⟩] hi ht
  | trim i t n rest ready hi hr ht hl' hready =>
    have := key i t _ [] rest [] hi ht
    simpa [State.setStack] using this
  | consume i t n m rest hi hr ht =>
    have := key i t _ (net.emit n (s.log n) m) rest [] hi ht
    simpa [State.setStack] using this
  | flush i t n rest hi hr ht hl' =>
    have := key i t _ [.wait n] rest [] hi ht
    simpa [State.setStack] using this
  | waitDone i t n rest hi hr ht hd =>
    have := key i t _ ((net.outs n).map .flush) rest [] hi ht
    simpa [State.setStack] using this
  | ret i t rest hi hr ht =>
    have := key i t _ [] rest [] hi ht
    simpa [State.setStack] using this

theorem returns {V : Type} {net : Net V} {calls : List (Call V)} {s : State V} (hne : calls ≠ []) (h : Reachable net [calls] s) (hd : AllDone s) :
    ∃ s', Reachable net [calls] s' ∧ ReturnedBefore s' [] := by
  have key : ∀ s, Reachable net [calls] s → (∃ s', Reachable net [calls] s' ∧ ReturnedBefore s' []) ∨
      ∃ t : Thread V, s.threads[0]? = some t ∧ t.stack.getLast? = some .ret := by
    intro s h
    induction h with
    | refl =>
      right
      refine ⟨⟨none, 0, calls.flatMap Call.program⟩, rfl, ?_⟩
      obtain ⟨init, last, rfl⟩ : ∃ init last, calls = init ++ [last] := ⟨calls.dropLast, calls.getLast hne, (List.dropLast_append_getLast hne).symm⟩
      show (List.flatMap Call.program (init ++ [last])).getLast? = some .ret
      rw [List.flatMap_append, List.getLast?_append]
      simp [Call.program]
    | tail hr hstep ih =>
      rcases ih with ih | ih
      · exact Or.inl ih
      · rcases returns_step hstep ih with h1 | h1
        · exact Or.inl ⟨_, hr, h1⟩
        · exact Or.inr h1
  rcases key s h with h1 | ⟨t, h1, h2⟩
  · exact h1
  · rw [hd t (List.mem_of_getElem? h1)] at h2
    cases h2

end AsyncNumbers

/-- **C88** (the premise can be met): every network without cycles, however it is connected to the sampler (`roots`), has schedules. -/
theorem C88_schedules_exist {S : Type} (max : ℝ) (π : S → ℝ) (q : S → S → ℝ) (start : S) (net : Net (S × Aux XR)) (hac : Acyclic net) (roots : List Nat) (node : Nat)
    (h1 : roots.count node = 1) (h2 : ∀ p, node ∉ net.outs p) : ∃ final, Schedule max π q start net node final := by
  have key : ∀ script : List (Chance S), ∃ s, SampledAll net node (messages max π q start script) s := by
    intro script
    have hf : Flushes [[(⟨roots, messages max π q start script, 1⟩ : Call (S × Aux XR))]] := by simp [Flushes]
    obtain ⟨s, hs, hd⟩ := (C15_always_completes net hac [[⟨roots, messages max π q start script, 1⟩]] hf _ .refl).1
    obtain ⟨s', hs', hr⟩ := returns (by simp) hs hd
    exact ⟨s', h2, [⟨roots, messages max π q start script, 1⟩], [], by simp, hf, by simpa using h1, by simp, by simpa using hs', hr⟩
  exact ⟨fun script => (key script).choose, fun script => (key script).choose_spec⟩

/-- Two asynchronous consumers (nodes 0 and 1) with queues of size 1 and 3. -/
def twoConsumers (V : Type) : Net V := ⟨fun _ => [], fun _ => true, fun n => if n = 0 then 1 else 3, fun _ _ _ => none⟩

/-- The three-state example of C62, observed by an asynchronous MeanValue next to another asynchronous consumer. -/
example : ∃ K : ℝ, ∃ final : List (Chance (Fin 3)) → State (Fin 3 × Aux XR),
    Schedule 1000 (fun x : Fin 3 => if x = 0 then (0:ℝ) else if x = 1 then 1 else 2)
      (fun x y : Fin 3 => if x = y then 0 else if (x = 0 ∧ y = 1) ∨ (x = 1 ∧ y = 2) ∨ (x = 2 ∧ y = 0) then 1/4 else 3/4) 0 (twoConsumers _) 1 final ∧
    ∀ n, 1 ≤ n → expected 1000 (fun x : Fin 3 => if x = 0 then (0:ℝ) else if x = 1 then 1 else 2)
      (fun x y : Fin 3 => if x = y then 0 else if (x = 0 ∧ y = 1) ∨ (x = 1 ∧ y = 2) ∨ (x = 2 ∧ y = 0) then 1/4 else 3/4) nobody () 0 n (fun script =>
        ((heldBy (meanStep (fun (x : Fin 3) (_ : Unit) => (x.val : ℝ))) (MeanState.init (fun _ => 7)) 1 (final script)).get () -
          targetMean (fun x : Fin 3 => if x = 0 then (0:ℝ) else if x = 1 then 1 else 2) (fun x => (x.val : ℝ))) ^ 2) ≤ K / n := by
  obtain ⟨K, hK⟩ := C88_mean exampleTarget exampleConnected (fun x (_ : Unit) => (x.val : ℝ)) (fun _ => 7) ()
  obtain ⟨final, hf⟩ := C88_schedules_exist 1000 (fun x : Fin 3 => if x = 0 then (0:ℝ) else if x = 1 then 1 else 2)
    (fun x y : Fin 3 => if x = y then 0 else if (x = 0 ∧ y = 1) ∨ (x = 1 ∧ y = 2) ∨ (x = 2 ∧ y = 0) then 1/4 else 3/4) 0 (twoConsumers _)
    ⟨fun _ => 0, fun n c hc => by simp [twoConsumers] at hc⟩ [0, 1] 1 (by decide) (by simp [twoConsumers])
  exact ⟨K, final, hf, fun n hn => hK n 0 _ 2 1 final hn (fun _ _ => rfl) hf⟩

/-! ### Instances: concrete cases that meet the hypotheses of the theorems above -/

example := C88_covariance exampleTarget exampleConnected (fun x (i : Bool) => if i then (x.val : ℝ) else 1) (fun _ => 5) (fun _ _ => 6) (fun _ _ => 7) true false
example := C88_histogram exampleTarget exampleConnected true [-1, 1/2, 3] exampleSubdivision (fun x => (x.val : ℝ)) 1 (by simp)
example := C88_finds_maximum exampleTarget exampleConnected 0
example := C88_mean_strong exampleTarget exampleConnected (fun x (_ : Unit) => (x.val : ℝ)) (fun _ => 5) ()
example := C88_histogram_strong exampleTarget exampleConnected true [-1, 1/2, 3] exampleSubdivision (fun x => (x.val : ℝ)) 1 (by simp)
example := C88_covariance_strong exampleTarget exampleConnected (fun x (i : Bool) => if i then (x.val : ℝ) else 1) (fun _ => 5) (fun _ _ => 6) (fun _ _ => 7) true false (1/10) (1/100)
  (by norm_num) (by norm_num)
example (start : unitInterval) := C88_general_mean (example_target 10 (by norm_num)) 1 le_rfl (1/2) (by norm_num) (example_forgets 10 (by norm_num))
  (fun (x : unitInterval) (_ : Unit) => (x : ℝ)) (fun _ => 0) () measurable_subtype_coe 1 example_bounded start (example_start start) 5 (by norm_num) (twoConsumers _) 2 1 (fun _ _ => rfl)
example (start : unitInterval) := C88_general_mean_strong (example_target 10 (by norm_num)) 1 le_rfl (1/2) (by norm_num) (example_forgets 10 (by norm_num))
  (fun (x : unitInterval) (_ : Unit) => (x : ℝ)) (fun _ => 0) () measurable_subtype_coe 1 example_bounded start (example_start start) (twoConsumers _) 2 1 (fun _ _ => rfl)
example (start : unitInterval) := C88_general_histogram_strong (example_target 10 (by norm_num)) 1 le_rfl (1/2) (by norm_num) (example_forgets 10 (by norm_num)) true [0, 1/2, 2]
  example_subdivision (fun x : unitInterval => (x : ℝ)) measurable_subtype_coe 1 (by simp) start (example_start start) (twoConsumers _) 2 1 (fun _ _ => rfl)
example := C88_general_covariance (example_target 10 (by norm_num)) 1 le_rfl (1/2) (by norm_num) (example_forgets 10 (by norm_num))
  (fun (x : unitInterval) (_ : Unit) => (x : ℝ)) (fun _ => 5) (fun _ _ => 6) (fun _ _ => 7) () () measurable_subtype_coe measurable_subtype_coe 1 1 example_bounded example_bounded

end SampleFlow
