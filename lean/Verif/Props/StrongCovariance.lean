import Verif.Props.StrongLaw

/-!
# Property C76: the strong law for CovarianceMatrix on general sample spaces
-/

namespace SampleFlow

open Spec MeasureTheory ProbabilityTheory Ergodic Doeblin General StrongLaw StrongGeneral
open scoped ENNReal

section general
variable {S : Type} [MeasurableSpace S] {μ : Measure S} [SFinite μ] {max : ℝ} {π : S → ℝ} {q : S → S → ℝ}

namespace StrongCovariance

/-- `g` is a measurable function of a state updated with every sample. -/
def Tracked {C : Type} (max : ℝ) (π : S → ℝ) (q : S → S → ℝ) (step : C → S × Aux XR → C) (c : C) (start : S) (n : Nat) (g : List (Chance S) → ℝ≥0∞) : Prop :=
  ∃ (σ : Type) (_ : MeasurableSpace σ) (φ : σ → S → σ) (F : σ → ℝ≥0∞) (s₀ : σ), Measurable (Function.uncurry φ) ∧ Measurable F ∧
    ∀ script : List (Chance S), script.length = n → g script = F ((samplesIssued max π q step c start script).foldl φ s₀)

omit [MeasurableSpace S] in
theorem foldl_pair {σ τ : Type} (φ : σ → S → σ) (ψ : τ → S → τ) (l : List S) : ∀ s t, l.foldl (fun p y => (φ p.1 y, ψ p.2 y)) (s, t) = (l.foldl φ s, l.foldl ψ t) := by
  induction l with
  | nil => intro s t; rfl
  | cons a l ih => intro s t; exact ih _ _

theorem Tracked.add {C : Type} (h : GeneralTarget μ max π q) {step : C → S × Aux XR → C} {c : C} {start : S} (hs : GoodStart max π start) {n : Nat} {g g' : List (Chance S) → ℝ≥0∞}
    (hg : Tracked max π q step c start n g) (hg' : Tracked max π q step c start n g') :
    Tracked max π q step c start n (fun s => g s + g' s) ∧
    meanOf μ max π q step c start n (fun s => g s + g' s) = meanOf μ max π q step c start n g + meanOf μ max π q step c start n g' := by
  have := markov h
  obtain ⟨σ, mσ, φ, F, s₀, hφ, hF, hgF⟩ := hg
  obtain ⟨τ, mτ, ψ, F', t₀, hψ, hF', hgF'⟩ := hg'
  let Φ : σ × τ → S → σ × τ := fun p y => (φ p.1 y, ψ p.2 y)
  have hΦ : Measurable (Function.uncurry Φ) := by
    have m1 : Measurable fun p : (σ × τ) × S => (p.1.1, p.2) := (measurable_fst.comp measurable_fst).prodMk measurable_snd
    have m2 : Measurable fun p : (σ × τ) × S => (p.1.2, p.2) := (measurable_snd.comp measurable_fst).prodMk measurable_snd
    exact (hφ.comp m1).prodMk (hψ.comp m2)
  have e1 : ∀ script : List (Chance S), script.length = n → g script = F ((samplesIssued max π q step c start script).foldl Φ (s₀, t₀)).1 := fun script hl => by
    rw [hgF script hl, foldl_pair]
  have e2 : ∀ script : List (Chance S), script.length = n → g' script = F' ((samplesIssued max π q step c start script).foldl Φ (s₀, t₀)).2 := fun script hl => by
    rw [hgF' script hl, foldl_pair]
  refine ⟨⟨σ × τ, inferInstance, Φ, fun p => F p.1 + F' p.2, (s₀, t₀), hΦ, (hF.comp measurable_fst).add (hF'.comp measurable_snd), fun script hl => by show g script + g' script = _; rw [e1 script hl, e2 script hl]⟩, ?_⟩
  have mF : Measurable fun p : (σ × τ) × S => F p.1.1 := hF.comp (measurable_fst.comp measurable_fst)
  have mF' : Measurable fun p : (σ × τ) × S => F' p.1.2 := hF'.comp (measurable_snd.comp measurable_fst)
  rw [meanOf_W hΦ (F := fun p => F p.1.1 + F' p.1.2) (mF.add mF') (s₀, t₀) h step c start hs _ n (fun script hl => by show g script + g' script = _; rw [e1 script hl, e2 script hl]),
    meanOf_W hΦ (F := fun p => F p.1.1) mF (s₀, t₀) h step c start hs g n e1, meanOf_W hΦ (F := fun p => F' p.1.2) mF' (s₀, t₀) h step c start hs g' n e2, W_add hΦ mF]

/-- The average of `f` over the first `n` samples is off by `η` or more for some `n ≥ m`. -/
def Off (f : S → ℝ) (t η : ℝ) (m : Nat) (l : List S) : Prop := ∃ n, m ≤ n ∧ n ≤ l.length ∧ η ≤ |((l.take n).map f).sum / (l.take n).length - t|

omit [MeasurableSpace S] in
theorem average_dev (f : S → ℝ) (t : ℝ) (l : List S) (hl : 1 ≤ l.length) : dev f t l / l.length = (l.map f).sum / l.length - t := by
  have h0 : (l.length : ℝ) ≠ 0 := by
    have : (1:ℝ) ≤ l.length := by exact_mod_cast hl
    linarith
  have e : dev f t l = (l.map f).sum - l.length * t := by
    unfold dev
    clear hl h0
    induction l with
    | nil => simp
    | cons a l ih => simp only [List.map_cons, List.sum_cons, ih, List.length_cons]; push_cast; ring
  rw [e]
  field_simp

open Classical in
theorem tracked_off {C : Type} (f : S → ℝ) (hf : Measurable f) (t η : ℝ) (m : Nat) (hm : 1 ≤ m) (step : C → S × Aux XR → C) (c : C) (start : S) (N : Nat) :
    Tracked max π q step c start N (fun script => if Off f t η m (samplesIssued max π q step c start script) then 1 else 0) := by
  let term : ℕ → ℝ → ℝ≥0∞ := fun n s => if m ≤ n ∧ η ≤ |s / n| then 1 else 0
  have mterm : ∀ n, Measurable (term n) := fun n => by
    refine Measurable.ite ?_ measurable_const measurable_const
    by_cases hn : m ≤ n
    · simp only [hn, true_and]
      exact measurableSet_le measurable_const (measurable_norm.comp (measurable_id.div_const _))
    · simp only [hn, false_and]
      exact MeasurableSet.empty
  have h0 : ∀ x, term 0 x = 0 := fun x => if_neg (fun h => by omega)
  refine ⟨Acc, inferInstance, accStep f t term, fun s => min 1 (s.2.2 + term s.1 s.2.1), (0, 0, 0), measurable_accStep hf t mterm,
    measurable_const.min ((measurable_snd.comp measurable_snd).add (measurable_term mterm)), fun script hl => ?_⟩
  obtain ⟨i1, i2, i3⟩ := foldl_acc f t term h0 (samplesIssued max π q step c start script)
  dsimp only
  generalize samplesIssued max π q step c start script = l at *
  simp only [i1, i2]
  rw [i3]
  have key : ∀ n, 1 ≤ n → n ≤ l.length → (term n (dev f t (l.take n)) = 1 ↔ m ≤ n ∧ η ≤ |((l.take n).map f).sum / (l.take n).length - t|) ∧ (term n (dev f t (l.take n)) ≠ 1 → term n (dev f t (l.take n)) = 0) := by
    intro n h1 h2
    have hlt : (l.take n).length = n := by rw [List.length_take]; omega
    have := average_dev f t (l.take n) (by omega)
    rw [← this, hlt]
    by_cases hc : m ≤ n ∧ η ≤ |dev f t (l.take n) / n|
    · simp [term, hc]
    · simp [term, hc]
  by_cases hoff : Off f t η m l
  · rw [if_pos hoff]
    obtain ⟨n, h1, h2, h3⟩ := hoff
    symm
    refine min_eq_left ?_
    have hk := (key n (by omega) h2).1.mpr ⟨h1, h3⟩
    rw [← hk]
    exact Finset.single_le_sum (f := fun n => term n (dev f t (l.take n))) (fun _ _ => zero_le) (Finset.mem_Icc.mpr ⟨by omega, h2⟩)
  · rw [if_neg hoff]
    have : ∑ n ∈ Finset.Icc 1 l.length, term n (dev f t (l.take n)) = 0 := by
      refine Finset.sum_eq_zero (fun n hn => ?_)
      rw [Finset.mem_Icc] at hn
      refine (key n hn.1 hn.2).2 (fun h1 => hoff ?_)
      obtain ⟨a, b⟩ := (key n hn.1 hn.2).1.mp h1
      exact ⟨n, a, hn.2, b⟩
    rw [this]
    simp

end StrongCovariance

open StrongCovariance

/-- **C76** (CovarianceMatrix, general sample spaces): if the chain forgets (C73) and two components are bounded and measurable, for every `ε` and `δ` there is an `m` such that, whatever `N` and the starting point, with a
probability of at least `1-δ` the entry for these components, as reported between `m` and `N` samples, is within `ε` of the covariance under the target distribution. -/
theorem C76_general_covariance {ι : Type} (h : GeneralTarget μ max π q) (k : Nat) (hk : 1 ≤ k) (ζ : ℝ) (hζ : 0 < ζ) (hf : Forgets μ max π q k ζ) (f : S → ι → ℝ) (M : ι → ℝ) (C₀ G : ι → ι → ℝ)
    (i j : ι) (hmi : Measurable (fun x => f x i)) (hmj : Measurable (fun x => f x j)) (b1 b2 : ℝ) (hb1 : ∀ x, |f x i| ≤ b1) (hb2 : ∀ x, |f x j| ≤ b2) (ε δ : ℝ) (hε : 0 < ε) (hδ : 0 < δ) :
    ∃ m : Nat, ∀ (start : S) (N : Nat), GoodStart max π start →
      probOf μ max π q (covarianceStep f G) (CovState.init M C₀) start N (fun script => ∃ n, m ≤ n ∧ n ≤ N ∧
        ε ≤ |(consumerState max π q (covarianceStep f G) (CovState.init M C₀) start (script.take n)).get i j - targetCov μ π (fun x => f x i) (fun x => f x j)|) ≤ ENNReal.ofReal δ := by
  classical
  have hmij : Measurable (fun x => f x i * f x j) := hmi.mul hmj
  have hb12 : ∀ x, |f x i * f x j| ≤ b1 * b2 := fun x => by
    rw [abs_mul]; exact mul_le_mul (hb1 x) (hb2 x) (abs_nonneg _) ((abs_nonneg _).trans (hb1 x))
  have hcov := targetCov_eq h _ _ hmi hmj b1 b2 hb1 hb2
  set α := targetExpectation μ π (fun x => f x i * f x j) with hα
  set β := targetExpectation μ π (fun x => f x i) with hβ
  set γ := targetExpectation μ π (fun x => f x j) with hγ
  obtain ⟨K1, hK1⟩ : ∃ K, K = 16 * (4 * (b1 * b2) ^ 2 + 8 * k * (b1 * b2) ^ 2 / ζ) + 8 * (2 * (b1 * b2)) ^ 2 := ⟨_, rfl⟩
  obtain ⟨K2, hK2⟩ : ∃ K, K = 16 * (4 * b1 ^ 2 + 8 * k * b1 ^ 2 / ζ) + 8 * (2 * b1) ^ 2 := ⟨_, rfl⟩
  obtain ⟨K3, hK3⟩ : ∃ K, K = 16 * (4 * b2 ^ 2 + 8 * k * b2 ^ 2 / ζ) + 8 * (2 * b2) ^ 2 := ⟨_, rfl⟩
  have hK1' : 0 ≤ K1 := by rw [hK1]; positivity
  have hK2' : 0 ≤ K2 := by rw [hK2]; positivity
  have hK3' : 0 ≤ K3 := by rw [hK3]; positivity
  set B := |α| + |β| + |γ| with hB
  have hB0 : 0 ≤ B := by positivity
  set η := min 1 (ε / (4 * (2 * B + 2))) with hηdef
  have hη : 0 < η := lt_min one_pos (by positivity)
  have hη1 : η ≤ 1 := min_le_left _ _
  have hηε : η * (2 * B + 2) ≤ ε / 4 := by
    have : η ≤ ε / (4 * (2 * B + 2)) := min_le_right _ _
    rw [le_div_iff₀ (by positivity)] at this
    linarith
  have hlim : Filter.Tendsto (fun m : Nat => (K1 + K2 + K3) / (η ^ 2 * √m)) Filter.atTop (nhds 0) := by
    have : Filter.Tendsto (fun m : Nat => η ^ 2 * √(m : ℝ)) Filter.atTop Filter.atTop :=
      Filter.Tendsto.const_mul_atTop (by positivity) (Real.tendsto_sqrt_atTop.comp tendsto_natCast_atTop_atTop)
    exact Filter.Tendsto.const_div_atTop this _
  obtain ⟨m0, hm0⟩ := Filter.eventually_atTop.mp ((hlim.eventually (gt_mem_nhds hδ)))
  obtain ⟨m1, hm1⟩ := exists_nat_ge (4 * (B + B ^ 2 + ε) / ε)
  refine ⟨m0 + m1 + 2, fun start N hs => ?_⟩
  set m := m0 + m1 + 2 with hm
  let step := covarianceStep f G
  let c := CovState.init M C₀
  have hev : ∀ (g : S → ℝ) (t : ℝ), probOf μ max π q step c start N (fun script => ∃ n, m ≤ n ∧ n ≤ N ∧
      η ≤ |((samplesIssued max π q step c start (script.take n)).map g).sum / (script.take n).length - t|) =
      meanOf μ max π q step c start N (fun script => if Off g t η m (samplesIssued max π q step c start script) then 1 else 0) := by
    intro g t
    unfold probOf meanOf
    refine le_antisymm (meanGiven_mono _ _ _ _ _ _ _ (fun script hl => le_of_eq ?_)) (meanGiven_mono _ _ _ _ _ _ _ (fun script hl => le_of_eq (Eq.symm ?_)))
    all_goals
      have hl' : script.length = N := by simpa using hl
      have hl2 := samplesIssued_length (max := max) (π := π) (q := q) step c start script
      have : (∃ n, m ≤ n ∧ n ≤ N ∧ η ≤ |((samplesIssued max π q step c start (script.take n)).map g).sum / (script.take n).length - t|) ↔ Off g t η m (samplesIssued max π q step c start script) := by
        simp only [Off, samplesIssued_take, List.length_take, hl2, hl']
      exact if_congr this rfl rfl
  have p1 := strong_general h k hk ζ hζ hf _ hmij (b1 * b2) hb12 step c start hs N (fun script => ((samplesIssued max π q step c start script).map (fun x => f x i * f x j)).sum / script.length) (fun _ _ => rfl) η hη m (by omega)
  have p2 := strong_general h k hk ζ hζ hf _ hmi b1 hb1 step c start hs N (fun script => ((samplesIssued max π q step c start script).map (fun x => f x i)).sum / script.length) (fun _ _ => rfl) η hη m (by omega)
  have p3 := strong_general h k hk ζ hζ hf _ hmj b2 hb2 step c start hs N (fun script => ((samplesIssued max π q step c start script).map (fun x => f x j)).sum / script.length) (fun _ _ => rfl) η hη m (by omega)
  rw [hev, ← hK1] at p1
  rw [hev, ← hK2] at p2
  rw [hev, ← hK3] at p3
  have t1 := tracked_off (max := max) (π := π) (q := q) _ hmij α η m (by omega) step c start N
  have t2 := tracked_off (max := max) (π := π) (q := q) _ hmi β η m (by omega) step c start N
  have t3 := tracked_off (max := max) (π := π) (q := q) _ hmj γ η m (by omega) step c start N
  obtain ⟨t23, e23⟩ := t2.add h hs t3
  obtain ⟨-, e123⟩ := t1.add h hs t23
  refine le_trans (b := meanOf μ max π q step c start N (fun script =>
    (if Off (fun x => f x i * f x j) α η m (samplesIssued max π q step c start script) then 1 else 0) +
    ((if Off (fun x => f x i) β η m (samplesIssued max π q step c start script) then 1 else 0) + if Off (fun x => f x j) γ η m (samplesIssued max π q step c start script) then 1 else 0))) ?_ ?_
  · unfold probOf meanOf
    refine meanGiven_mono _ _ _ _ _ _ _ (fun script hl => ?_)
    have hl' : script.length = N := by simpa using hl
    have hl2 := samplesIssued_length (max := max) (π := π) (q := q) step c start script
    split
    · rename_i hex
      obtain ⟨n, h1, h2, h3⟩ := hex
      have hlt : (script.take n).length = n := by rw [List.length_take]; omega
      rw [covState_of_run f M C₀ G start _ (by omega) i j, samplesIssued_take, hcov, hlt] at h3
      by_cases c1 : Off (fun x => f x i * f x j) α η m (samplesIssued max π q step c start script)
      · rw [if_pos c1]; exact le_self_add
      by_cases c2 : Off (fun x => f x i) β η m (samplesIssued max π q step c start script)
      · rw [if_pos c2]; exact le_add_left le_self_add
      by_cases c3 : Off (fun x => f x j) γ η m (samplesIssued max π q step c start script)
      · rw [if_pos c3]; exact le_add_left (le_add_left le_rfl)
      exfalso
      simp only [Off, not_exists, not_and, not_le] at c1 c2 c3
      have d1 := c1 n h1 (by omega)
      have d2 := c2 n h1 (by omega)
      have d3 := c3 n h1 (by omega)
      have hlt2 : ((samplesIssued max π q step c start script).take n).length = n := by rw [List.length_take]; omega
      rw [hlt2] at d1 d2 d3
      have hn2 : (2:ℝ) + m1 ≤ n := by exact_mod_cast (by omega : 2 + m1 ≤ n)
      have hm1' : 4 * (B + B ^ 2 + ε) ≤ m1 * ε := by rwa [div_le_iff₀ hε] at hm1
      have hm1n : (0:ℝ) ≤ m1 := by positivity
      have x1 : (1:ℝ) ≤ (n:ℝ) - 1 := by linarith
      have x2 : 4 * (B + B ^ 2 + ε) ≤ ε * ((n:ℝ) - 1) := by nlinarith
      have := cov_near α β γ _ _ _ η ε B ((n:ℝ) - 1) hη hη1 (by rw [hB]; linarith [abs_nonneg β, abs_nonneg γ]) (by rw [hB]; linarith [abs_nonneg α, abs_nonneg γ])
        (by rw [hB]; linarith [abs_nonneg α, abs_nonneg β]) hε hηε d1 d2 d3 x1 x2
      rw [sub_add_cancel] at this
      exact absurd h3 (not_le.mpr this)
    · exact zero_le
  · rw [e123, e23]
    refine (add_le_add p1 (add_le_add p2 p3)).trans ?_
    rw [← ENNReal.ofReal_add (by positivity) (by positivity), ← ENNReal.ofReal_add (by positivity) (by positivity)]
    refine ENNReal.ofReal_le_ofReal ?_
    have hm0' := hm0 m (by omega)
    have : K1 / (η ^ 2 * √m) + (K2 / (η ^ 2 * √m) + K3 / (η ^ 2 * √m)) = (K1 + K2 + K3) / (η ^ 2 * √m) := by ring
    linarith

end general

/-- A concrete case: the unit interval. -/
example := C76_general_covariance (example_target 10 (by norm_num)) 1 le_rfl (1/2) (by norm_num) (example_forgets 10 (by norm_num))
  (fun (x : unitInterval) (_ : Bool) => (x : ℝ)) (fun _ => 0) (fun _ _ => 5) (fun _ _ => 6) true false measurable_subtype_coe measurable_subtype_coe 1 1 example_bounded example_bounded (1/10) (1/100)
  (by norm_num) (by norm_num)

end SampleFlow
