import Verif.Spec.Equilibrium
import Verif.Proofs.Equilibrium
import Verif.Props.LagNumbers
import Verif.Props.Thinning

/-!
# Property C85: what the auto-covariances say about the samples of the Metropolis-Hastings sampler

Users connect `AutoCovarianceTrace` in order to learn how correlated samples are, and how good the mean value is.  Assumptions as in C62 and C82.
-/

namespace SampleFlow.Equilibrium

open Spec Ergodic LagNumbers

variable {S ι : Type} [Fintype S] {max : ℝ} {π : S → ℝ} {q : S → S → ℝ}

/-- deviation from the mean under the target -/
noncomputable def dev (π : S → ℝ) (f : S → ι → ℝ) (i : ι) (x : S) : ℝ := f x i - targetMean π (fun x => f x i)

theorem dev_mean (h : FiniteTarget max π q) (f : S → ι → ℝ) (i : ι) : ∑ x, π x * dev π f i x = 0 := by
  have := h.nonzero
  unfold dev targetMean
  simp only [mul_sub, Finset.sum_sub_distrib, ← Finset.sum_mul]
  field_simp
  ring

theorem reversible (h : FiniteTarget max π q) : Reversible (transition max π q) π :=
  fun x y => C42_detailed_balance max π q h.nonneg h.proposals_nonneg h.no_marker x y

theorem autoCovariance_eq (h : FiniteTarget max π q) (f : S → ι → ℝ) (l : Nat) (i j : ι) :
    autoCovariance max π q f l i j = cor (transition max π q) π (dev π f j) (dev π f i) l / ∑ x, π x := by
  unfold autoCovariance
  rw [stationaryLag_eq]
  congr 1
  refine Finset.sum_congr rfl (fun x _ => ?_)
  have := power_lin (stochastic_transition h) l (dev π f i) 0 (dev π f j x) x
  simp only [zero_add] at this
  rw [← this]
  congr 2
  funext y
  unfold dev; ring

theorem autoCovarianceTrace_eq_sum [Fintype ι] (f : S → ι → ℝ) (l : Nat) :
    autoCovarianceTrace max π q f l = ∑ j, autoCovariance max π q f l j j := by
  unfold autoCovarianceTrace autoCovariance
  simp only [stationaryLag_eq, ← Finset.sum_div]
  congr 1
  rw [Finset.sum_comm]
  refine Finset.sum_congr rfl (fun x _ => ?_)
  rw [← Finset.mul_sum]
  congr 1
  have : ∀ (n : Nat) (g : ι → S → ℝ) (x : S), power (transition max π q) n (fun y => ∑ j, g j y) x = ∑ j, power (transition max π q) n (g j) x := by
    intro n g
    induction n with
    | zero => intro x; rfl
    | succ n ih =>
      intro x
      rw [power, show power (transition max π q) n (fun y => ∑ j, g j y) = fun y => ∑ j, power (transition max π q) n (g j) y from funext ih, app_sum]
      rfl
  exact this l _ x

theorem autoCovarianceTrace_eq [Fintype ι] (h : FiniteTarget max π q) (f : S → ι → ℝ) (l : Nat) :
    autoCovarianceTrace max π q f l = (∑ j, cor (transition max π q) π (dev π f j) (dev π f j) l) / ∑ x, π x := by
  rw [autoCovarianceTrace_eq_sum, Finset.sum_div]
  exact Finset.sum_congr rfl (fun j _ => autoCovariance_eq h f l j j)

theorem meanError_eq [Fintype ι] (f : S → ι → ℝ) (G : ι → ℝ) (n : Nat) (hn : 1 ≤ n) (start : S) :
    meanError max π q f G n start = (∑ i, meanSq (transition max π q) (dev π f i) n start) / n ^ 2 := by
  have hn0 : (n : ℝ) ≠ 0 := by exact_mod_cast (by omega : n ≠ 0)
  unfold meanError
  rw [expected_eq max π q _ _ start n _ (fun l => (∑ i, (l.map (dev π f i)).sum ^ 2) * (1 / (n:ℝ) ^ 2)) (fun script hs => ?_)]
  · have e1 : ∀ x, expectPath (transition max π q) n (fun l => (∑ i, (l.map (dev π f i)).sum ^ 2) * (1 / (n:ℝ) ^ 2)) x =
        (1 / (n:ℝ) ^ 2) * expectPath (transition max π q) n (fun l => ∑ i, (l.map (dev π f i)).sum ^ 2) x := by
      intro x; rw [← expectPath_mul]; exact expectPath_congr n _ _ x (fun l _ => by ring)
    rw [e1]
    have e2 : ∀ (s : Finset ι), expectPath (transition max π q) n (fun l => ∑ i ∈ s, (l.map (dev π f i)).sum ^ 2) start = ∑ i ∈ s, meanSq (transition max π q) (dev π f i) n start := by
      classical
      intro s
      induction s using Finset.induction_on with
      | empty =>
        simp only [Finset.sum_empty]
        have := expectPath_mul (P := transition max π q) n 0 (fun _ => 0) start
        simpa using this
      | insert i s hi ih =>
        simp only [Finset.sum_insert hi]
        rw [expectPath_add, ih]; rfl
    rw [e2]; ring
  · have hlen := samplesIssued_length (max := max) (π := π) (q := q) (meanStep f) (MeanState.init G) start script
    rw [Finset.sum_mul]
    refine Finset.sum_congr rfl (fun i _ => ?_)
    rw [meanState_of_run f G start script (by intro h'; rw [h'] at hs; simp at hs; omega) i, hs]
    have e3 : ∀ l : List S, (l.map (dev π f i)).sum = (l.map (fun x => f x i)).sum - l.length * targetMean π (fun x => f x i) := by
      intro l
      induction l with
      | nil => simp
      | cons x l ih => simp only [List.map_cons, List.sum_cons, ih, List.length_cons, dev]; push_cast; ring
    rw [e3, hlen, hs]
    field_simp

/-- **C85** (the error of the mean): for a sampler in equilibrium (the starting point is distributed according to the target), the mean square error of what `MeanValue` reports after `n` samples is exactly
`(γ(0) + 2 Σ_{l=1}^{n-1} (1 - l/n) γ(l)) / n`, where `γ(l)` is what `AutoCovarianceTrace` converges to. -/
theorem C85_error_of_mean [Fintype ι] (h : FiniteTarget max π q) (f : S → ι → ℝ) (G : ι → ℝ) (n : Nat) (hn : 1 ≤ n) :
    (∑ start, π start * meanError max π q f G n start) / ∑ x, π x =
      (autoCovarianceTrace max π q f 0 + 2 * ∑ l ∈ Finset.Ico 1 n, (1 - (l:ℝ) / n) * autoCovarianceTrace max π q f l) / n := by
  have hn0 : (n : ℝ) ≠ 0 := by exact_mod_cast (by omega : n ≠ 0)
  have hπ := h.nonzero
  have hst := stochastic_transition h
  have e1 : ∑ start, π start * meanError max π q f G n start = (∑ i, ∑ x, π x * meanSq (transition max π q) (dev π f i) n x) / (n:ℝ)^2 := by
    rw [Finset.sum_comm, Finset.sum_div]
    refine Finset.sum_congr rfl (fun x _ => ?_)
    rw [meanError_eq f G n hn, ← Finset.mul_sum]; ring
  have e2 : ∀ i, ∑ x, π x * meanSq (transition max π q) (dev π f i) n x = n * cor (transition max π q) π (dev π f i) (dev π f i) 0 +
      2 * ∑ l ∈ Finset.Ico 1 n, ((n:ℝ) - l) * cor (transition max π q) π (dev π f i) (dev π f i) l := by
    intro i
    rw [sum_meanSq hst ((reversible h).stationary hst), double_sum]
  rw [e1]
  simp only [e2, autoCovarianceTrace_eq h, Finset.sum_add_distrib, ← Finset.mul_sum]
  rw [Finset.sum_comm]
  simp only [← Finset.mul_sum]
  have e3 : ∑ l ∈ Finset.Ico 1 n, (1 - (l:ℝ) / n) * ((∑ j, cor (transition max π q) π (dev π f j) (dev π f j) l) / ∑ x, π x) =
      (∑ l ∈ Finset.Ico 1 n, ((n:ℝ) - l) * ∑ j, cor (transition max π q) π (dev π f j) (dev π f j) l) / (n * ∑ x, π x) := by
    rw [Finset.sum_div]
    refine Finset.sum_congr rfl (fun l _ => ?_)
    field_simp
  rw [e3]
  field_simp

/-- **C85** (the shape of the auto-covariances): the limits of `AutoCovarianceTrace` for even lags are not negative and do not increase; so are the sums over two successive lags `2l`, `2l+1`; none is larger than that for lag 0, which is the variance. -/
theorem C85_shape [Fintype ι] (h : FiniteTarget max π q) (f : S → ι → ℝ) (l : Nat) :
    0 ≤ autoCovarianceTrace max π q f (2 * l) ∧
    autoCovarianceTrace max π q f (2 * l + 2) ≤ autoCovarianceTrace max π q f (2 * l) ∧
    0 ≤ autoCovarianceTrace max π q f (2 * l) + autoCovarianceTrace max π q f (2 * l + 1) ∧
    autoCovarianceTrace max π q f (2 * l + 2) + autoCovarianceTrace max π q f (2 * l + 3) ≤ autoCovarianceTrace max π q f (2 * l) + autoCovarianceTrace max π q f (2 * l + 1) ∧
    |autoCovarianceTrace max π q f l| ≤ autoCovarianceTrace max π q f 0 ∧
    autoCovarianceTrace max π q f 0 = ∑ j, targetCovariance π (fun x => f x j) (fun x => f x j) := by
  have hst := stochastic_transition h
  have hr := reversible h
  have hπ := h.nonneg
  have h0 := h.nonzero.le
  simp only [autoCovarianceTrace_eq h]
  refine ⟨?_, ?_, ?_, ?_, ?_, ?_⟩
  · exact div_nonneg (Finset.sum_nonneg (fun j _ => even_nonneg hπ hr _ l)) h0
  · exact div_le_div_of_nonneg_right (Finset.sum_le_sum (fun j _ => even_decreasing hπ hst hr _ l)) h0
  · rw [← add_div, ← Finset.sum_add_distrib]
    exact div_nonneg (Finset.sum_nonneg (fun j _ => pair_nonneg hπ hst hr _ l)) h0
  · rw [← add_div, ← add_div, ← Finset.sum_add_distrib, ← Finset.sum_add_distrib]
    exact div_le_div_of_nonneg_right (Finset.sum_le_sum (fun j _ => pair_decreasing hπ hst hr _ l)) h0
  · rw [abs_div, abs_of_nonneg h0]
    refine div_le_div_of_nonneg_right ((Finset.abs_sum_le_sum_abs _ _).trans (Finset.sum_le_sum (fun j _ => abs_cor_le hπ hst hr _ l))) h0
  · rw [Finset.sum_div]
    exact Finset.sum_congr rfl (fun j _ => rfl)

/-- **C85** (the trace suffices): the documentation of `AutoCovarianceTrace` warns that the auto-covariance matrices may be large although their trace is small.  For the Metropolis-Hastings sampler this does not happen at even lags: the trace bounds
every entry.  The matrices are symmetric. -/
theorem C85_trace_bounds_matrix [Fintype ι] (h : FiniteTarget max π q) (f : S → ι → ℝ) (l : Nat) (i j : ι) :
    |autoCovariance max π q f (2 * l) i j| ≤ autoCovarianceTrace max π q f (2 * l) ∧
    autoCovariance max π q f l i j = autoCovariance max π q f l j i := by
  classical
  have hr := reversible h
  have hπ := h.nonneg
  have h0 := h.nonzero.le
  constructor
  · rw [autoCovariance_eq h, autoCovarianceTrace_eq h, abs_div, abs_of_nonneg h0]
    refine div_le_div_of_nonneg_right ?_ h0
    have h1 := cross_le hπ hr (dev π f j) (dev π f i) l
    have h2 : ∀ k, cor (transition max π q) π (dev π f k) (dev π f k) (2 * l) ≤ ∑ k, cor (transition max π q) π (dev π f k) (dev π f k) (2 * l) :=
      fun k => Finset.single_le_sum (f := fun k => cor (transition max π q) π (dev π f k) (dev π f k) (2 * l)) (fun k _ => even_nonneg hπ hr _ l) (Finset.mem_univ k)
    have h3 := h2 i
    have h4 := h2 j
    linarith
  · rw [autoCovariance_eq h, autoCovariance_eq h, cor_symm hr]

/-- **C85** (correlations die out): if from every state one can get to one and the same state in exactly `k` steps, the auto-covariances go to zero exponentially. -/
theorem C85_decay [Fintype ι] (h : FiniteTarget max π q) (k : Nat) (hc : ConnectedIn π q k) (f : S → ι → ℝ) :
    ∃ C ρ : ℝ, 0 ≤ ρ ∧ ρ < 1 ∧ ∀ l i j, |autoCovariance max π q f l i j| ≤ C * ρ ^ (l / k) := by
  obtain ⟨y0, hk⟩ := connectedIn_transition h k hc
  have hst := stochastic_transition h
  obtain ⟨ρ, h0, h1, h2⟩ := converges hst π h.nonneg h.nonzero ((reversible h).stationary hst) k y0 hk
  have : Nonempty S := ⟨y0⟩
  obtain ⟨B, hB⟩ : ∃ B, ∀ (i : ι) x, |dev π f i x| ≤ B := by
    refine ⟨∑ i, ∑ x, |dev π f i x|, fun i x => ?_⟩
    calc |dev π f i x| ≤ ∑ x, |dev π f i x| := Finset.single_le_sum (f := fun x => |dev π f i x|) (fun _ _ => abs_nonneg _) (Finset.mem_univ x)
      _ ≤ _ := Finset.single_le_sum (f := fun i => ∑ x, |dev π f i x|) (fun _ _ => Finset.sum_nonneg (fun _ _ => abs_nonneg _)) (Finset.mem_univ i)
  refine ⟨2 * B * B, ρ, h0, h1, fun l i j => ?_⟩
  have hB0 : 0 ≤ B := (abs_nonneg _).trans (hB i y0)
  have hp : ∀ n x, |power (transition max π q) n (dev π f i) x| ≤ 2 * B * ρ ^ (n / k) := by
    intro n x
    have := h2 (dev π f i) (-B) (2 * B) (fun y => by have := abs_le.1 (hB i y); constructor <;> linarith) n x
    rw [dev_mean h, zero_div, sub_zero] at this
    linarith
  have hd := cor_decay h.nonneg (dev π f j) (dev π f i) _ hp l
  rw [autoCovariance_eq h, abs_div, abs_of_nonneg h.nonzero.le, div_le_iff₀ h.nonzero]
  refine hd.trans ?_
  have hs : ∑ x, π x * |dev π f j x| ≤ (∑ x, π x) * B := by
    rw [Finset.sum_mul]; exact Finset.sum_le_sum (fun x _ => mul_le_mul_of_nonneg_left (hB j x) (h.nonneg x))
  calc (∑ x, π x * |dev π f j x|) * (2 * B * ρ ^ (l / k)) ≤ ((∑ x, π x) * B) * (2 * B * ρ ^ (l / k)) := mul_le_mul_of_nonneg_right hs (by positivity)
    _ = 2 * B * B * ρ ^ (l / k) * ∑ x, π x := by ring

/-- **C85** (the error of the mean, from any starting point): under the same assumption, `n` times the mean square error of `MeanValue` after `n` samples converges to `γ(0) + 2 Σ_{l≥1} γ(l)`, whatever the starting point. -/
theorem C85_error_limit [Fintype ι] (h : FiniteTarget max π q) (k : Nat) (hk1 : 1 ≤ k) (hc : ConnectedIn π q k) (f : S → ι → ℝ) (G : ι → ℝ) (start : S) :
    Summable (fun l => autoCovarianceTrace max π q f (l + 1)) ∧
    Filter.Tendsto (fun n : Nat => n * meanError max π q f G n start) Filter.atTop
      (nhds (autoCovarianceTrace max π q f 0 + 2 * ∑' l, autoCovarianceTrace max π q f (l + 1))) := by
  obtain ⟨y0, hk⟩ := connectedIn_transition h k hc
  have hst := stochastic_transition h
  obtain ⟨ρ, h0, h1, h2⟩ := converges hst π h.nonneg h.nonzero ((reversible h).stationary hst) k y0 hk
  have key := fun i => error_limit hst h.nonneg h.nonzero ((reversible h).stationary hst) ρ h0 h1 k hk1 h2 (dev π f i) (dev_mean h f i) (∑ x, |dev π f i x|)
    (fun x => Finset.single_le_sum (f := fun x => |dev π f i x|) (fun _ _ => abs_nonneg _) (Finset.mem_univ x)) start
  have e : (fun l => autoCovarianceTrace max π q f (l + 1)) = fun l => (∑ j, cor (transition max π q) π (dev π f j) (dev π f j) (l + 1)) / ∑ x, π x :=
    funext fun l => autoCovarianceTrace_eq h f (l + 1)
  have hs : Summable (fun l => ∑ j, cor (transition max π q) π (dev π f j) (dev π f j) (l + 1)) := summable_sum (fun j _ => (key j).1)
  refine ⟨by rw [e]; exact hs.div_const _, ?_⟩
  have hlim := tendsto_finsetSum Finset.univ (fun i (_ : i ∈ Finset.univ) => (key i).2)
  have e2 : autoCovarianceTrace max π q f 0 + 2 * ∑' l, autoCovarianceTrace max π q f (l + 1) =
      ∑ i, (cor (transition max π q) π (dev π f i) (dev π f i) 0 + 2 * ∑' l, cor (transition max π q) π (dev π f i) (dev π f i) (l + 1)) / ∑ x, π x := by
    rw [e, tsum_div_const, Summable.tsum_finsetSum (fun j _ => (key j).1), autoCovarianceTrace_eq h, ← Finset.sum_div, Finset.sum_add_distrib, ← Finset.mul_sum]
    ring
  rw [e2]
  refine hlim.congr' ?_
  filter_upwards [Filter.eventually_ge_atTop 1] with n hn
  have hn0 : (n : ℝ) ≠ 0 := by exact_mod_cast (by omega : n ≠ 0)
  rw [meanError_eq f G n hn, ← Finset.sum_div]
  field_simp

/-! ### thinning -/

theorem thinnedMeanError_eq [Fintype ι] (f : S → ι → ℝ) (m : UInt64) (hm : m ≠ 0) (G : ι → ℝ) (N : Nat) (hN : 1 ≤ N) (start : S) :
    thinnedMeanError max π q f m G (m.toNat * N) start =
      (∑ i, expectPath (transition max π q) (m.toNat * N) (fun l => (wsum (fun k => if k % m.toNat = 0 then (1:ℝ) else 0) (dev π f i) 0 l) ^ 2) start) / N ^ 2 := by
  have hN0 : (N : ℝ) ≠ 0 := by exact_mod_cast (by omega : N ≠ 0)
  have hm0 : 0 < m.toNat := by
    rcases Nat.eq_zero_or_pos m.toNat with h0 | h0
    · exact absurd (UInt64.toNat_inj.mp (by simpa using h0)) hm
    · exact h0
  unfold thinnedMeanError
  have hcount : ∀ l : List S, l.length = m.toNat * N → (keepFrom (fun k => m.toNat ∣ k) 0 l).length = N := by
    intro l hl
    have h1 := keep_length (fun k => m.toNat ∣ k) l 0
    have h2 := sum_mod m.toNat 0 hm0 (fun _ => (1:ℝ)) N
    rw [hl] at h1
    have : ((keepFrom (fun k => m.toNat ∣ k) 0 l).length : ℝ) = N := by
      rw [h1]
      simp only [mul_one, Finset.sum_const, Finset.card_range, nsmul_eq_mul] at h2
      rw [← h2]
      refine Finset.sum_congr rfl (fun i _ => ?_)
      simp only [Nat.zero_add, Nat.dvd_iff_mod_eq_zero]
    exact_mod_cast this
  rw [expected_eq max π q _ _ start (m.toNat * N) _ (fun l => (∑ i, (wsum (fun k => if k % m.toNat = 0 then (1:ℝ) else 0) (dev π f i) 0 l) ^ 2) * (1 / (N:ℝ) ^ 2)) (fun script hs => ?_)]
  · have e1 : ∀ x, expectPath (transition max π q) (m.toNat * N) (fun l => (∑ i, (wsum (fun k => if k % m.toNat = 0 then (1:ℝ) else 0) (dev π f i) 0 l) ^ 2) * (1 / (N:ℝ) ^ 2)) x =
        (1 / (N:ℝ) ^ 2) * expectPath (transition max π q) (m.toNat * N) (fun l => ∑ i, (wsum (fun k => if k % m.toNat = 0 then (1:ℝ) else 0) (dev π f i) 0 l) ^ 2) x := by
      intro x; rw [← expectPath_mul]; exact expectPath_congr _ _ _ x (fun l _ => by ring)
    rw [e1]
    have e2 : ∀ (s : Finset ι), expectPath (transition max π q) (m.toNat * N) (fun l => ∑ i ∈ s, (wsum (fun k => if k % m.toNat = 0 then (1:ℝ) else 0) (dev π f i) 0 l) ^ 2) start =
        ∑ i ∈ s, expectPath (transition max π q) (m.toNat * N) (fun l => (wsum (fun k => if k % m.toNat = 0 then (1:ℝ) else 0) (dev π f i) 0 l) ^ 2) start := by
      classical
      intro s
      induction s using Finset.induction_on with
      | empty =>
        simp only [Finset.sum_empty]
        have := expectPath_mul (P := transition max π q) (m.toNat * N) 0 (fun _ => 0) start
        simpa using this
      | insert i s hi ih => simp only [Finset.sum_insert hi]; rw [expectPath_add, ih]
    rw [e2]; ring
  · have hlen := samplesIssued_length (max := max) (π := π) (q := q) (behindFilter (takeEveryNth S (Aux XR) m) (meanStep f)) (.ok 0, MeanState.init G) start script
    rw [hs] at hlen
    have e : (consumerState max π q (behindFilter (takeEveryNth S (Aux XR) m) (meanStep f)) (.ok 0, MeanState.init G) start script).2 =
        meanAfter G ((keepFrom (fun k => m.toNat ∣ k) 0 (samplesIssued max π q (behindFilter (takeEveryNth S (Aux XR) m) (meanStep f)) (.ok 0, MeanState.init G) start script)).map f) := by
      have e' := C65_consumes_filtered (max := max) (π := π) (q := q) (takeEveryNth S (Aux XR) m) (meanStep f) (MeanState.init G) start script
      rw [(C01_takeEveryNth S (Aux XR) m hm _).1, keepAt_eq] at e'
      refine e'.trans ?_
      rw [samplesIssued, keepFrom_map, meanAfter, List.map_map, List.foldl_map]
      rfl
    have hne : (keepFrom (fun k => m.toNat ∣ k) 0 (samplesIssued max π q (behindFilter (takeEveryNth S (Aux XR) m) (meanStep f)) (.ok 0, MeanState.init G) start script)).map f ≠ [] := by
      intro h'
      have := hcount _ hlen
      rw [List.map_eq_nil_iff] at h'
      rw [h'] at this
      simp at this
      omega
    rw [Finset.sum_mul]
    refine Finset.sum_congr rfl (fun i _ => ?_)
    rw [e, C21_mean G _ hne i, List.map_map, List.length_map, hcount _ hlen]
    have hw : ∀ l : List S, wsum (fun k => if k % m.toNat = 0 then (1:ℝ) else 0) (dev π f i) 0 l = ((keepFrom (fun k => m.toNat ∣ k) 0 l).map (dev π f i)).sum := by
      intro l
      rw [← wsum_keep (fun k => m.toNat ∣ k)]
      simp only [Nat.dvd_iff_mod_eq_zero]
    have e3 : ∀ l : List S, (l.map (dev π f i)).sum = (l.map (fun x => f x i)).sum - l.length * targetMean π (fun x => f x i) := by
      intro l
      induction l with
      | nil => simp
      | cons x l ih => simp only [List.map_cons, List.sum_cons, ih, List.length_cons, dev]; push_cast; ring
    rw [hw, e3, hcount _ hlen, show ((fun x => x i) ∘ f) = fun x => f x i from rfl]
    field_simp

/-- **C85** (the error of the mean of every `m`th sample): for a sampler in equilibrium, the mean square error of `MeanValue` behind `TakeEveryNth(m)` after `m N` samples of the sampler is exactly
`(γ(0) + 2 Σ_{l=1}^{N-1} (1 - l/N) γ(m l)) / N`. -/
theorem C85_error_of_thinned_mean [Fintype ι] (h : FiniteTarget max π q) (f : S → ι → ℝ) (m : UInt64) (hm : m ≠ 0) (G : ι → ℝ) (N : Nat) (hN : 1 ≤ N) :
    (∑ start, π start * thinnedMeanError max π q f m G (m.toNat * N) start) / ∑ x, π x =
      (autoCovarianceTrace max π q f 0 + 2 * ∑ l ∈ Finset.Ico 1 N, (1 - (l:ℝ) / N) * autoCovarianceTrace max π q f (m.toNat * l)) / N := by
  have hN0 : (N : ℝ) ≠ 0 := by exact_mod_cast (by omega : N ≠ 0)
  have hm0 : 0 < m.toNat := by
    rcases Nat.eq_zero_or_pos m.toNat with h0 | h0
    · exact absurd (UInt64.toNat_inj.mp (by simpa using h0)) hm
    · exact h0
  have hπ := h.nonzero
  have hst := stochastic_transition h
  have e1 : ∑ start, π start * thinnedMeanError max π q f m G (m.toNat * N) start =
      (∑ i, ∑ x, π x * expectPath (transition max π q) (m.toNat * N) (fun l => (wsum (fun k => if k % m.toNat = 0 then (1:ℝ) else 0) (dev π f i) 0 l) ^ 2) x) / (N:ℝ)^2 := by
    rw [Finset.sum_comm, Finset.sum_div]
    refine Finset.sum_congr rfl (fun x _ => ?_)
    rw [thinnedMeanError_eq f m hm G N hN, ← Finset.mul_sum]; ring
  have e2 : ∀ i, ∑ x, π x * expectPath (transition max π q) (m.toNat * N) (fun l => (wsum (fun k => if k % m.toNat = 0 then (1:ℝ) else 0) (dev π f i) 0 l) ^ 2) x =
      N * cor (transition max π q) π (dev π f i) (dev π f i) 0 +
      2 * ∑ l ∈ Finset.Ico 1 N, ((N:ℝ) - l) * cor (transition max π q) π (dev π f i) (dev π f i) (m.toNat * l) := by
    intro i
    rw [thinned_sq hst ((reversible h).stationary hst) _ m.toNat 0 hm0 N, dist_sum (fun l => cor (transition max π q) π (dev π f i) (dev π f i) (m.toNat * l))]
    rw [Nat.mul_zero]
  rw [e1]
  simp only [e2, autoCovarianceTrace_eq h, Finset.sum_add_distrib, ← Finset.mul_sum]
  rw [Finset.sum_comm]
  simp only [← Finset.mul_sum]
  have e3 : ∑ l ∈ Finset.Ico 1 N, (1 - (l:ℝ) / N) * ((∑ j, cor (transition max π q) π (dev π f j) (dev π f j) (m.toNat * l)) / ∑ x, π x) =
      (∑ l ∈ Finset.Ico 1 N, ((N:ℝ) - l) * ∑ j, cor (transition max π q) π (dev π f j) (dev π f j) (m.toNat * l)) / (N * ∑ x, π x) := by
    rw [Finset.sum_div]
    refine Finset.sum_congr rfl (fun l _ => ?_)
    field_simp
  rw [e3]
  field_simp

/-- **C85** (thinning does not improve the mean): for a sampler in equilibrium and the same `m N` samples, the mean square error of `MeanValue` connected directly is at most that of `MeanValue` behind `TakeEveryNth(m)`. -/
theorem C85_thinning [Fintype ι] (h : FiniteTarget max π q) (f : S → ι → ℝ) (m : UInt64) (hm : m ≠ 0) (G G' : ι → ℝ) (N : Nat) (hN : 1 ≤ N) :
    (∑ start, π start * meanError max π q f G (m.toNat * N) start) / ∑ x, π x ≤
      (∑ start, π start * thinnedMeanError max π q f m G' (m.toNat * N) start) / ∑ x, π x := by
  have hm0 : 0 < m.toNat := by
    rcases Nat.eq_zero_or_pos m.toNat with h0 | h0
    · exact absurd (UInt64.toNat_inj.mp (by simpa using h0)) hm
    · exact h0
  have hN0 : (0:ℝ) < N := by exact_mod_cast hN
  have hmR : (0:ℝ) < m.toNat := by exact_mod_cast hm0
  refine div_le_div_of_nonneg_right ?_ h.nonzero.le
  have e1 : ∑ start, π start * meanError max π q f G (m.toNat * N) start = (∑ i, ∑ x, π x * meanSq (transition max π q) (dev π f i) (m.toNat * N) x) / ((m.toNat * N : ℕ):ℝ)^2 := by
    rw [Finset.sum_comm, Finset.sum_div]
    refine Finset.sum_congr rfl (fun x _ => ?_)
    rw [meanError_eq f G (m.toNat * N) (Nat.mul_pos hm0 hN), ← Finset.mul_sum]; ring
  have e2 : ∑ start, π start * thinnedMeanError max π q f m G' (m.toNat * N) start =
      (∑ i, ∑ x, π x * expectPath (transition max π q) (m.toNat * N) (fun l => (wsum (fun k => if k % m.toNat = 0 then (1:ℝ) else 0) (dev π f i) 0 l) ^ 2) x) / (N:ℝ)^2 := by
    rw [Finset.sum_comm, Finset.sum_div]
    refine Finset.sum_congr rfl (fun x _ => ?_)
    rw [thinnedMeanError_eq f m hm G' N hN, ← Finset.mul_sum]; ring
  rw [e1, e2, div_le_div_iff₀ (by positivity) (by positivity)]
  have hst := stochastic_transition h
  have key := Finset.sum_le_sum (s := Finset.univ) (fun i _ => meanSq_le_thinned h.nonneg hst ((reversible h).stationary hst) (dev π f i) m.toNat hm0 N)
  rw [← Finset.mul_sum] at key
  have := mul_le_mul_of_nonneg_right key (by positivity : (0:ℝ) ≤ (N:ℝ)^2)
  refine this.trans (le_of_eq ?_)
  push_cast
  ring

/-! ### the premises can be met -/

/-- Three states, one of them of probability zero, with the samples (1,0), (1,1), (1,2): `C85_decay` and `C85_error_limit` apply. -/
example : ∃ (π : Fin 3 → ℝ) (q : Fin 3 → Fin 3 → ℝ), FiniteTarget 1000 π q ∧ ConnectedIn π q 1 ∧
    ∀ start, Filter.Tendsto (fun n : Nat => n * meanError 1000 π q (fun x (j : Fin 2) => if j = 0 then (1:ℝ) else (x : ℕ)) (fun _ => 5) n start) Filter.atTop
      (nhds (autoCovarianceTrace 1000 π q (fun x (j : Fin 2) => if j = 0 then (1:ℝ) else (x : ℕ)) 0 +
        2 * ∑' l, autoCovarianceTrace 1000 π q (fun x (j : Fin 2) => if j = 0 then (1:ℝ) else (x : ℕ)) (l + 1))) :=
  ⟨_, _, exampleTarget, exampleConnectedIn, fun start => (C85_error_limit exampleTarget 1 le_rfl exampleConnectedIn _ _ start).2⟩

/-! ### without the premise of `C85_decay` -/

/-- two states of equal probability; the proposal is always the other one -/
theorem flipTarget : FiniteTarget 1000 (fun _ : Bool => (1:ℝ)) (fun x y => if x = y then 0 else 1) where
  nonneg := by intro x; norm_num
  nonzero := by simp
  proposals_nonneg := by intro x y; split <;> norm_num
  proposals_total := by intro x; cases x <;> simp
  no_marker := by intro x; simp

theorem flip_transition (x y : Bool) : transition 1000 (fun _ : Bool => (1:ℝ)) (fun x y => if x = y then 0 else 1) x y = if x = y then 0 else 1 := by
  have off : ∀ a b : Bool, a ≠ b → transition 1000 (fun _ : Bool => (1:ℝ)) (fun x y => if x = y then 0 else 1) a b = 1 := by
    intro a b hab
    have h1 := transition_off 1000 (fun _ : Bool => (1:ℝ)) (fun x y => if x = y then 0 else 1) a b hab
    have h2 := flow_eq 1000 (fun _ : Bool => (1:ℝ)) (fun x y => if x = y then 0 else 1) flipTarget.nonneg flipTarget.proposals_nonneg flipTarget.no_marker a b
    rw [h1, ← one_mul (_ * _), h2]
    simp [hab, Ne.symm hab]
  by_cases hxy : x = y
  · subst hxy
    have hs := (stochastic_transition flipTarget).sum x
    rw [Fintype.sum_bool] at hs
    cases x
    · rw [off false true (by simp)] at hs; simp; linarith
    · rw [off true false (by simp)] at hs; simp; linarith
  · rw [off x y hxy, if_neg hxy]

/-- **C85** (why the assumption is needed): if the proposal is always the other one of two states of equal probability, every proposal is accepted, and the auto-covariance for lag `l` is `(-1)^l/4`: the correlation does not decrease. (The mean is
nevertheless right: the target is connected.) -/
theorem C85_caveat_no_decay (l : Nat) :
    autoCovarianceTrace 1000 (fun _ : Bool => (1:ℝ)) (fun x y => if x = y then 0 else 1) (fun x (_ : Unit) => if x then 1 else 0) l = (-1) ^ l / 4 := by
  rw [autoCovarianceTrace_eq flipTarget]
  have hdev : ∀ x, dev (fun _ : Bool => (1:ℝ)) (fun x (_ : Unit) => if x then (1:ℝ) else 0) () x = if x then 1/2 else -(1/2) := by
    intro x
    unfold dev targetMean
    cases x <;> simp <;> norm_num
  have hp : ∀ n x, power (transition 1000 (fun _ : Bool => (1:ℝ)) (fun x y => if x = y then 0 else 1)) n (dev (fun _ : Bool => (1:ℝ)) (fun x (_ : Unit) => if x then (1:ℝ) else 0) ()) x =
      (-1) ^ n * dev (fun _ : Bool => (1:ℝ)) (fun x (_ : Unit) => if x then (1:ℝ) else 0) () x := by
    intro n
    induction n with
    | zero => intro x; simp [power]
    | succ n ih =>
      intro x
      simp only [power, app, ih, flip_transition, hdev, Fintype.sum_bool]
      cases x <;> simp [pow_succ]
  simp only [Fintype.sum_unique, cor, ip, Fintype.sum_bool]
  rw [show (default : Unit) = () from rfl]
  simp only [hp, hdev]
  simp
  ring

/-! ### Instances: concrete cases that meet the hypotheses of the theorems above -/

example := C85_error_of_mean exampleTarget (fun x (j : Fin 2) => if j = 0 then (1:ℝ) else (x : ℕ)) (fun _ => 5) 7 (by norm_num)
example := C85_shape exampleTarget (fun x (j : Fin 2) => if j = 0 then (1:ℝ) else (x : ℕ)) 3
example := C85_trace_bounds_matrix exampleTarget (fun x (j : Fin 2) => if j = 0 then (1:ℝ) else (x : ℕ)) 3 0 1
example := C85_decay exampleTarget 1 exampleConnectedIn (fun x (j : Fin 2) => if j = 0 then (1:ℝ) else (x : ℕ))
example := C85_error_of_thinned_mean exampleTarget (fun x (j : Fin 2) => if j = 0 then (1:ℝ) else (x : ℕ)) 10 (by decide) (fun _ => 5) 7 (by norm_num)
example := C85_thinning exampleTarget (fun x (j : Fin 2) => if j = 0 then (1:ℝ) else (x : ℕ)) 10 (by decide) (fun _ => 5) (fun _ => 6) 7 (by norm_num)

end SampleFlow.Equilibrium
