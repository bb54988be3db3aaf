import Verif.Props.DelayedNumbers
import Verif.Props.StrongLaw

/-!
# Property C77: CovarianceMatrix, and the strong law for Histogram and CovarianceMatrix, connected to delayed rejection
-/

namespace SampleFlow

open Spec MeasureTheory Ergodic StrongLaw

namespace DelayedCov

section path
variable {S : Type} [Fintype S]

theorem targetCovariance_eq (μ : S → ℝ) (hμ : 0 < ∑ x, μ x) (f g : S → ℝ) : targetCovariance μ f g = targetMean μ (fun x => f x * g x) - targetMean μ f * targetMean μ g := by
  have hz := hμ.ne'
  simp only [targetCovariance, targetMean]
  generalize hZ : ∑ x, μ x = Z at *
  have : ∀ u v : ℝ, ∑ x, μ x * ((f x - u) * (g x - v)) = ∑ x, μ x * (f x * g x) - v * ∑ x, μ x * f x - u * ∑ x, μ x * g x + u * v * Z := by
    intro u v
    rw [← hZ]
    simp only [Finset.mul_sum, ← Finset.sum_sub_distrib, ← Finset.sum_add_distrib]
    refine Finset.sum_congr rfl (fun x _ => by ring)
  rw [this]
  field_simp
  ring

/-- The covariance of `f` and `g` computed from `l` (with the denominator `n-1`). -/
noncomputable def covOf (f g : S → ℝ) (l : List S) : ℝ :=
  (l.length : ℝ) / ((l.length : ℝ) - 1) * ((l.map (fun x => f x * g x)).sum / l.length - (l.map f).sum / l.length * ((l.map g).sum / l.length))

theorem cov_square {P : S → S → ℝ} (hS : Stochastic P) (μ : S → ℝ) (hμ : 0 < ∑ x, μ x) (hst : ∀ y, ∑ x, μ x * P x y = μ y) (y0 : S)
    (hr : ∀ x, Relation.ReflTransGen (fun a b => 0 < P a b) x y0) (f g : S → ℝ) :
    ∃ K : ℝ, ∀ (n : Nat) (start : S), 2 ≤ n → expectPath P n (fun l => (covOf f g l - targetCovariance μ f g) ^ 2) start ≤ K / n := by
  obtain ⟨K1, hK1⟩ := mean_square hS μ hμ hst y0 hr (fun x => f x * g x)
  obtain ⟨K2, hK2⟩ := mean_square hS μ hμ hst y0 hr f
  obtain ⟨K3, hK3⟩ := mean_square hS μ hμ hst y0 hr g
  have : Nonempty S := ⟨y0⟩
  obtain ⟨b1, hb1⟩ := Finite.exists_max (fun x : S => |f x|)
  obtain ⟨F1, hF1⟩ : ∃ F1, F1 = |f b1| := ⟨_, rfl⟩
  rw [targetCovariance_eq μ hμ f g]
  obtain ⟨a, ha⟩ : ∃ a, a = targetMean μ (fun x => f x * g x) := ⟨_, rfl⟩
  obtain ⟨b, hb⟩ : ∃ b, b = targetMean μ f := ⟨_, rfl⟩
  obtain ⟨c, hc⟩ : ∃ c, c = targetMean μ g := ⟨_, rfl⟩
  rw [← ha, ← hb, ← hc]
  refine ⟨24 * (K1 + F1 ^ 2 * K3 + c ^ 2 * K2) + 8 * (a - b * c) ^ 2, fun n start hn => ?_⟩
  have hn1 : 1 ≤ n := by omega
  have hn' : (2:ℝ) ≤ n := by exact_mod_cast hn
  have k1 := hK1 n start hn1
  have k2 := hK2 n start hn1
  have k3 := hK3 n start hn1
  have e1 : (∑ x, μ x * (f x * g x)) / ∑ x, μ x = a := ha.symm
  have e2 : (∑ x, μ x * f x) / ∑ x, μ x = b := hb.symm
  have e3 : (∑ x, μ x * g x) / ∑ x, μ x = c := hc.symm
  rw [e1] at k1
  rw [e2] at k2
  rw [e3] at k3
  refine (expectPath_mono hS n _ (fun l => 24 * (((l.map (fun x => f x * g x)).sum / n - a) ^ 2 + (F1 ^ 2 * ((l.map g).sum / n - c) ^ 2 +
      c ^ 2 * ((l.map f).sum / n - b) ^ 2)) + 8 * (a - b * c) ^ 2 / n) start (fun l hl => ?_)).trans ?_
  · have hB : |(l.map f).sum / n| ≤ F1 := by
      have : |(l.map f).sum| ≤ l.length * F1 := by
        clear hl
        induction l with
        | nil => simp
        | cons x l ih =>
          simp only [List.map_cons, List.sum_cons, List.length_cons]
          refine (abs_add_le _ _).trans ?_
          have := hb1 x
          push_cast
          linarith
      rw [hl] at this
      rw [abs_div, Nat.abs_cast, div_le_iff₀ (by linarith)]
      linarith
    unfold covOf
    rw [hl]
    exact covariance_estimate a b c F1 n hn' _ _ _ hB
  · rw [expectPath_add, expectPath_mul, expectPath_add, expectPath_add, expectPath_mul, expectPath_mul, expectPath_const hS]
    have : (24 * (K1 + F1 ^ 2 * K3 + c ^ 2 * K2) + 8 * (a - b * c) ^ 2) / n =
        24 * (K1 / n + (F1 ^ 2 * (K3 / n) + c ^ 2 * (K2 / n))) + 8 * (a - b * c) ^ 2 / n := by ring
    rw [this]
    have m1 := mul_le_mul_of_nonneg_left k3 (sq_nonneg F1)
    have m2 := mul_le_mul_of_nonneg_left k2 (sq_nonneg c)
    linarith

theorem cov_strong {P : S → S → ℝ} (hS : Stochastic P) (μ : S → ℝ) (hμ : 0 < ∑ x, μ x) (hst : ∀ y, ∑ x, μ x * P x y = μ y) (y0 : S)
    (hr : ∀ x, Relation.ReflTransGen (fun a b => 0 < P a b) x y0) (f g : S → ℝ) (ε δ : ℝ) (hε : 0 < ε) (hδ : 0 < δ) :
    ∃ m : Nat, 2 ≤ m ∧ ∀ (start : S) (N : Nat) (A : List S → Prop) [DecidablePred A],
      (∀ l, A l → ∃ n, m ≤ n ∧ n ≤ l.length ∧ ε ≤ |covOf f g (l.take n) - targetCovariance μ f g|) → expectPath P N (fun l => if A l then 1 else 0) start ≤ δ := by
  classical
  obtain ⟨K1, k1, hK1⟩ := strong_path hS μ hμ hst y0 hr (fun x => f x * g x)
  obtain ⟨K2, k2, hK2⟩ := strong_path hS μ hμ hst y0 hr f
  obtain ⟨K3, k3, hK3⟩ := strong_path hS μ hμ hst y0 hr g
  rw [targetCovariance_eq μ hμ f g]
  obtain ⟨α, hα⟩ : ∃ a, a = targetMean μ (fun x => f x * g x) := ⟨_, rfl⟩
  obtain ⟨β, hβ⟩ : ∃ b, b = targetMean μ f := ⟨_, rfl⟩
  obtain ⟨γ, hγ⟩ : ∃ c, c = targetMean μ g := ⟨_, rfl⟩
  rw [← hα, ← hβ, ← hγ]
  have e1 : (∑ x, μ x * (f x * g x)) / ∑ x, μ x = α := hα.symm
  have e2 : (∑ x, μ x * f x) / ∑ x, μ x = β := hβ.symm
  have e3 : (∑ x, μ x * g x) / ∑ x, μ x = γ := hγ.symm
  rw [e1] at hK1
  rw [e2] at hK2
  rw [e3] at hK3
  set B := |α| + |β| + |γ| with hB
  have hB0 : 0 ≤ B := by positivity
  set η := min 1 (ε / (4 * (2 * B + 2))) with hηdef
  have hη : 0 < η := lt_min one_pos (by positivity)
  have hη1 : η ≤ 1 := min_le_left _ _
  have hηε : η * (2 * B + 2) ≤ ε / 4 := by
    have : η ≤ ε / (4 * (2 * B + 2)) := min_le_right _ _
    rw [le_div_iff₀ (by positivity)] at this
    linarith
  have hlim : Filter.Tendsto (fun m : Nat => (K1 + K2 + K3) / (η ^ 2 * √m)) Filter.atTop (nhds 0) := by
    have : Filter.Tendsto (fun m : Nat => η ^ 2 * √(m : ℝ)) Filter.atTop Filter.atTop :=
      Filter.Tendsto.const_mul_atTop (by positivity) (Real.tendsto_sqrt_atTop.comp tendsto_natCast_atTop_atTop)
    exact Filter.Tendsto.const_div_atTop this _
  obtain ⟨m0, hm0⟩ := Filter.eventually_atTop.mp ((hlim.eventually (gt_mem_nhds hδ)))
  obtain ⟨m1, hm1⟩ := exists_nat_ge (4 * (B + B ^ 2 + ε) / ε)
  refine ⟨m0 + m1 + 2, by omega, fun start N A _ hA => ?_⟩
  set m := m0 + m1 + 2 with hm
  let Dev (f : S → ℝ) (t : ℝ) (l : List S) : Prop := ∃ n, m ≤ n ∧ n ≤ l.length ∧ η ≤ |dev f t (l.take n) / n|
  have p1 := hK1 start N η hη m (by omega) (Dev (fun x => f x * g x) α) (fun l h => h)
  have p2 := hK2 start N η hη m (by omega) (Dev f β) (fun l h => h)
  have p3 := hK3 start N η hη m (by omega) (Dev g γ) (fun l h => h)
  have hsum : expectPath P N (fun l => if A l then 1 else 0) start ≤ expectPath P N (fun l => if Dev (fun x => f x * g x) α l then 1 else 0) start +
      (expectPath P N (fun l => if Dev f β l then 1 else 0) start + expectPath P N (fun l => if Dev g γ l then 1 else 0) start) := by
    rw [← expectPath_add, ← expectPath_add]
    refine expectPath_mono hS N _ _ start (fun l _ => ?_)
    have n1 : (0:ℝ) ≤ if Dev (fun x => f x * g x) α l then 1 else 0 := by split <;> norm_num
    have n2 : (0:ℝ) ≤ if Dev f β l then 1 else 0 := by split <;> norm_num
    have n3 : (0:ℝ) ≤ if Dev g γ l then 1 else 0 := by split <;> norm_num
    split
    · rename_i hex
      obtain ⟨n, h1, h2, h3⟩ := hA l hex
      by_cases c1 : Dev (fun x => f x * g x) α l
      · rw [if_pos c1]; linarith
      by_cases c2 : Dev f β l
      · rw [if_pos c2]; linarith
      by_cases c3 : Dev g γ l
      · rw [if_pos c3]; linarith
      exfalso
      simp only [Dev, not_exists, not_and, not_le] at c1 c2 c3
      have hlt : (l.take n).length = n := by rw [List.length_take]; omega
      have d1 := c1 n h1 h2
      have d2 := c2 n h1 h2
      have d3 := c3 n h1 h2
      rw [← dev_eq _ _ _ n hlt (by omega)] at d1 d2 d3
      simp only [covOf] at h3
      rw [hlt] at h3
      have hn2 : (2:ℝ) + m1 ≤ n := by exact_mod_cast (by omega : 2 + m1 ≤ n)
      have hm1' : 4 * (B + B ^ 2 + ε) ≤ m1 * ε := by rwa [div_le_iff₀ hε] at hm1
      have hm1n : (0:ℝ) ≤ m1 := by positivity
      have x1 : (1:ℝ) ≤ (n:ℝ) - 1 := by linarith
      have x2 : 4 * (B + B ^ 2 + ε) ≤ ε * ((n:ℝ) - 1) := by nlinarith
      have := cov_near α β γ _ _ _ η ε B ((n:ℝ) - 1) hη hη1 (by rw [hB]; linarith [abs_nonneg β, abs_nonneg γ]) (by rw [hB]; linarith [abs_nonneg α, abs_nonneg γ])
        (by rw [hB]; linarith [abs_nonneg α, abs_nonneg β]) hε hηε d1 d2 d3 x1 x2
      rw [sub_add_cancel] at this
      exact absurd h3 (not_le.mpr this)
    · positivity
  refine hsum.trans ?_
  have hm0' := hm0 m (by omega)
  have : K1 / (η ^ 2 * √m) + (K2 / (η ^ 2 * √m) + K3 / (η ^ 2 * √m)) = (K1 + K2 + K3) / (η ^ 2 * √m) := by ring
  linarith

end path

section run
variable {S : Type} {max : ℝ} {π : S → ℝ}

theorem covState_of_run {ι : Type} (f : S → ι → ℝ) (M : ι → ℝ) (C₀ G : ι → ι → ℝ) (start : S) (script : List (Spec.Delayed.Chance S)) (hs : 2 ≤ script.length) (i j : ι) :
    (Spec.Delayed.consumerState max π (covarianceStep f G) (CovState.init M C₀) start script).get i j =
      covOf (fun x => f x i) (fun x => f x j) (Spec.Delayed.samplesIssued max π (covarianceStep f G) (CovState.init M C₀) start script) := by
  have hlen := Delayed.samplesIssued_length (max := max) (π := π) (covarianceStep f G) (CovState.init M C₀) start script
  have e : Spec.Delayed.consumerState max π (covarianceStep f G) (CovState.init M C₀) start script =
      covAfter M C₀ G ((Spec.Delayed.samplesIssued max π (covarianceStep f G) (CovState.init M C₀) start script).map f) := by
    rw [Delayed.consumerState_eq, Spec.Delayed.samplesIssued, covAfter, List.foldl_map, List.foldl_map]
    rfl
  rw [e, C23_covariance M C₀ G _ (by rw [List.length_map, hlen]; exact hs) i j]
  generalize Spec.Delayed.samplesIssued max π (covarianceStep f G) (CovState.init M C₀) start script = l at hlen
  unfold covOf
  rw [List.length_map, hlen]
  have hn : (2 : ℝ) ≤ script.length := by exact_mod_cast hs
  simp only [vmean, mean, List.map_map, Function.comp_def, List.length_map, hlen, star_trivial]
  have aux : ∀ (a b : ℝ) (l : List S), (l.map (fun x => (f x i - a) * (f x j - b))).sum =
      (l.map (fun x => f x i * f x j)).sum - b * (l.map (fun x => f x i)).sum - a * (l.map (fun x => f x j)).sum + l.length * (a * b) := by
    intro a b l
    induction l with
    | nil => simp
    | cons x l ih => simp only [List.map_cons, List.sum_cons, ih, List.length_cons]; push_cast; ring
  rw [aux, hlen]
  have h1 : (script.length : ℝ) ≠ 0 := by linarith
  have h2 : (script.length : ℝ) - 1 ≠ 0 := by linarith
  field_simp
  ring

end run
end DelayedCov

open DelayedCov

variable {S : Type} [Fintype S] {max : ℝ} {π : S → ℝ} {q1 : S → S → ℝ} {q2 : S → S → S → ℝ}

/-- **C77** (CovarianceMatrix, partial): if the proposals are balanced, the mean square difference between an entry of `CovarianceMatrix::get()` after `n ≥ 2` samples and the covariance under the target distribution is
at most `K/n`. -/
theorem C77_covariance_partial {ι : Type} (h : Spec.Delayed.Target π q1 q2) (hb : Spec.Delayed.Balanced q1 q2) (f : S → ι → ℝ) (M : ι → ℝ) (C₀ G : ι → ι → ℝ) (i j : ι) :
    ∃ K : ℝ, ∀ (n : Nat) (start : S), 2 ≤ n →
      Spec.Delayed.expected max π q1 q2 (covarianceStep f G) (CovState.init M C₀) start n (fun script =>
        ((Spec.Delayed.consumerState max π (covarianceStep f G) (CovState.init M C₀) start script).get i j - targetCovariance π (fun x => f x i) (fun x => f x j)) ^ 2) ≤ K / n := by
  obtain ⟨y0, hr⟩ := Delayed.connected max h
  obtain ⟨K, hK⟩ := cov_square (Delayed.stochastic max h) π h.nonzero
    (C47_stationary_partial max π h.nonneg q1 q2 h.first_total h.second_total hb.symmetric hb.exchange) y0 hr (fun x => f x i) (fun x => f x j)
  refine ⟨K, fun n start hn => ?_⟩
  rw [Delayed.expected_eq max π q1 q2 _ _ start n _ (fun l => (covOf (fun x => f x i) (fun x => f x j) l - targetCovariance π (fun x => f x i) (fun x => f x j)) ^ 2)
    (fun script hs => by rw [DelayedCov.covState_of_run f M C₀ G start script (by omega) i j])]
  exact hK n start hn

/-- **C77** (strong law for Histogram, partial): if the proposals are balanced, the probability that the fraction of the samples counted in a bin is off by `ε` or more at any time between `m` and `N` samples is at most
`K/(ε²√m)`. -/
theorem C77_strong_histogram_partial (h : Spec.Delayed.Target π q1 q2) (hb : Spec.Delayed.Balanced q1 q2) (debug : Bool) (pts : List ℝ) (sub : Subdivision pts)
    (f : S → ℝ) (k : Nat) (hk : k + 1 < pts.length) :
    ∃ K : ℝ, ∀ (start : S) (ε : ℝ), 0 < ε → ∀ m, 1 ≤ m → ∀ N,
      Spec.Delayed.probability max π q1 q2 (histogramStep debug f) (.ok ⟨pts, List.replicate (pts.length - 1) 0⟩) start N (fun script => ∃ n, m ≤ n ∧ n ≤ N ∧
        ε ≤ |(binCount (Spec.Delayed.consumerState max π (histogramStep debug f) (.ok ⟨pts, List.replicate (pts.length - 1) 0⟩) start (script.take n)) k : ℝ) / (script.take n).length
          - targetMean π (fun x => if inBin pts k (f x) then 1 else 0)|) ≤ K / (ε ^ 2 * √m) := by
  obtain ⟨K, -, hK⟩ := Delayed.strong_law (max := max) h π h.nonzero
    (C47_stationary_partial max π h.nonneg q1 q2 h.first_total h.second_total hb.symmetric hb.exchange) (fun x => if inBin pts k (f x) then 1 else 0)
  exact ⟨K, fun start ε hε m hm N => hK _ (histogramStep debug f) (.ok ⟨pts, List.replicate (pts.length - 1) 0⟩) start N (fun script =>
      (binCount (Spec.Delayed.consumerState max π (histogramStep debug f) (.ok ⟨pts, List.replicate (pts.length - 1) 0⟩) start script) k : ℝ) / script.length)
    (fun script _ => by rw [Delayed.histogram_of_run debug pts sub f k hk start script]) ε hε m hm⟩

/-- **C77** (strong law for CovarianceMatrix, partial): if the proposals are balanced, for every `ε` and `δ` there is an `m` such that, whatever `N`, with a probability of at least `1-δ` every entry reported between `m`
and `N` samples is within `ε` of the covariance under the target distribution. -/
theorem C77_strong_covariance_partial {ι : Type} (h : Spec.Delayed.Target π q1 q2) (hb : Spec.Delayed.Balanced q1 q2) (f : S → ι → ℝ) (M : ι → ℝ) (C₀ G : ι → ι → ℝ) (i j : ι)
    (ε δ : ℝ) (hε : 0 < ε) (hδ : 0 < δ) :
    ∃ m : Nat, ∀ (start : S) (N : Nat),
      Spec.Delayed.probability max π q1 q2 (covarianceStep f G) (CovState.init M C₀) start N (fun script => ∃ n, m ≤ n ∧ n ≤ N ∧
        ε ≤ |(Spec.Delayed.consumerState max π (covarianceStep f G) (CovState.init M C₀) start (script.take n)).get i j - targetCovariance π (fun x => f x i) (fun x => f x j)|) ≤ δ := by
  classical
  obtain ⟨y0, hr⟩ := Delayed.connected max h
  obtain ⟨m, hm2, hm⟩ := cov_strong (Delayed.stochastic max h) π h.nonzero
    (C47_stationary_partial max π h.nonneg q1 q2 h.first_total h.second_total hb.symmetric hb.exchange) y0 hr (fun x => f x i) (fun x => f x j) ε δ hε hδ
  refine ⟨m, fun start N => ?_⟩
  unfold Spec.Delayed.probability
  rw [Delayed.expected_eq max π q1 q2 _ _ start N _ (fun l => if ∃ n, m ≤ n ∧ n ≤ l.length ∧
    ε ≤ |covOf (fun x => f x i) (fun x => f x j) (l.take n) - targetCovariance π (fun x => f x i) (fun x => f x j)| then 1 else 0) (fun script hs => ?_)]
  · exact hm start N _ (fun l hl => hl)
  · have hl := Delayed.samplesIssued_length (max := max) (π := π) (covarianceStep f G) (CovState.init M C₀) start script
    refine if_congr ?_ rfl rfl
    have key : ∀ n, m ≤ n → n ≤ N → (Spec.Delayed.consumerState max π (covarianceStep f G) (CovState.init M C₀) start (script.take n)).get i j =
        covOf (fun x => f x i) (fun x => f x j) ((Spec.Delayed.samplesIssued max π (covarianceStep f G) (CovState.init M C₀) start script).take n) := by
      intro n h1 h2
      rw [DelayedCov.covState_of_run f M C₀ G start _ (by rw [List.length_take]; omega) i j, Delayed.samplesIssued_take]
    constructor
    · rintro ⟨n, h1, h2, h3⟩
      exact ⟨n, h1, by omega, by rw [← key n h1 h2]; exact h3⟩
    · rintro ⟨n, h1, h2, h3⟩
      exact ⟨n, h1, by omega, by rw [key n h1 (by omega)]; exact h3⟩

/-! ### Instances -/

example := C77_covariance_partial (max := 1000) delayedExample ⟨by simp, by simp⟩ (fun x (i : Bool) => if i then (x.val : ℝ) else 1) (fun _ => 5) (fun _ _ => 6) (fun _ _ => 7) true false
example := C77_strong_histogram_partial (max := 1000) delayedExample ⟨by simp, by simp⟩ true [-1, 1/2, 3] ⟨by norm_num, by simp⟩ (fun x => (x.val : ℝ)) 1 (by simp)
example := C77_strong_covariance_partial (max := 1000) delayedExample ⟨by simp, by simp⟩ (fun x (i : Bool) => if i then (x.val : ℝ) else 1) (fun _ => 5) (fun _ _ => 6) (fun _ _ => 7) true false
  (1/10) (1/100) (by norm_num) (by norm_num)

end SampleFlow
