import Mathlib.Probability.Kernel.Composition.Comp
import Mathlib.Probability.Kernel.MeasurableIntegral
import Mathlib.MeasureTheory.Integral.Bochner.Basic
import Mathlib.Probability.Kernel.Invariance
import Mathlib.Algebra.Order.Field.GeomSum
import Mathlib.Tactic.LinearCombination

/-!
Markov chains on general state spaces under a Doeblin condition: mean square law of large numbers with explicit constants, geometric convergence.
-/

namespace SampleFlow.Doeblin

open MeasureTheory ProbabilityTheory
open scoped ENNReal

variable {S : Type} [MeasurableSpace S]

/-- bounded and measurable -/
def BM (h : S → ℝ) (b : ℝ) : Prop := Measurable h ∧ ∀ x, |h x| ≤ b

variable (K : Kernel S S) [IsMarkovKernel K] (ν : Measure S) [IsProbabilityMeasure ν]

/-- one step, on real functions -/
noncomputable def T (h : S → ℝ) (x : S) : ℝ := ∫ y, h y ∂(K x)

/-- one step, on nonnegative functions -/
noncomputable def TL (f : S → ℝ≥0∞) (x : S) : ℝ≥0∞ := ∫⁻ y, f y ∂(K x)

variable {K ν}

theorem BM.integrable {h : S → ℝ} {b : ℝ} (hb : BM h b) (ρ : Measure S) [IsFiniteMeasure ρ] : Integrable h ρ :=
  Integrable.of_bound hb.1.aestronglyMeasurable b (Filter.Eventually.of_forall (fun x => by simpa using hb.2 x))

theorem BM.T {h : S → ℝ} {b : ℝ} (hb : BM h b) : BM (T K h) b := by
  refine ⟨(hb.1.stronglyMeasurable.integral_kernel (κ := K)).measurable, fun x => ?_⟩
  have h1 := norm_integral_le_of_norm_le_const (μ := K x) (f := h) (C := b) (Filter.Eventually.of_forall (fun y => by simpa using hb.2 y))
  simpa [Doeblin.T] using h1

theorem BM.iter {h : S → ℝ} {b : ℝ} (hb : BM h b) (n : Nat) : BM ((Doeblin.T K)^[n] h) b := by
  induction n generalizing h with
  | zero => exact hb
  | succ n ih => rw [Function.iterate_succ_apply]; exact ih hb.T

theorem BM.add {h h' : S → ℝ} {b b' : ℝ} (hb : BM h b) (hb' : BM h' b') : BM (fun x => h x + h' x) (b + b') :=
  ⟨hb.1.add hb'.1, fun x => (abs_add_le _ _).trans (add_le_add (hb.2 x) (hb'.2 x))⟩

theorem BM.mono {h : S → ℝ} {b b' : ℝ} (hb : BM h b) (h' : b ≤ b') : BM h b' := ⟨hb.1, fun x => (hb.2 x).trans h'⟩

theorem T_add {h h' : S → ℝ} {b b' : ℝ} (hb : BM h b) (hb' : BM h' b') (x : S) : T K (fun y => h y + h' y) x = T K h x + T K h' x :=
  integral_add (hb.integrable _) (hb'.integrable _)

theorem iter_add {h h' : S → ℝ} {b b' : ℝ} (hb : BM h b) (hb' : BM h' b') (n : Nat) :
    (T K)^[n] (fun y => h y + h' y) = fun x => (T K)^[n] h x + (T K)^[n] h' x := by
  induction n generalizing h h' with
  | zero => rfl
  | succ n ih =>
    simp only [Function.iterate_succ_apply]
    rw [show T K (fun y => h y + h' y) = fun x => T K h x + T K h' x from funext (T_add hb hb')]
    exact ih hb.T hb'.T

theorem BM.zero : BM (fun _ : S => (0 : ℝ)) 0 := ⟨measurable_const, fun x => by simp⟩

theorem T_const (c : ℝ) (x : S) : T K (fun _ => c) x = c := by simp [T]

theorem iter_const (c : ℝ) (n : Nat) : (T K)^[n] (fun _ => c) = fun _ => c := by
  induction n with
  | zero => rfl
  | succ n ih => rw [Function.iterate_succ_apply, show T K (fun _ => c) = fun _ => c from funext (T_const c), ih]

/-- the stationary distribution -/
theorem integral_T (hst : K.Invariant ν) {h : S → ℝ} {b : ℝ} (hb : BM h b) : ∫ x, T K h x ∂ν = ∫ x, h x ∂ν := by
  -- reduce to nonnegative functions
  have pos : ∀ g : S → ℝ, ∀ c, BM g c → (∀ x, 0 ≤ g x) → ∫ x, T K g x ∂ν = ∫ x, g x ∂ν := by
    intro g c hg h0
    have hT0 : ∀ x, 0 ≤ T K g x := fun x => integral_nonneg h0
    rw [integral_eq_lintegral_of_nonneg_ae (Filter.Eventually.of_forall h0) hg.1.aestronglyMeasurable,
      integral_eq_lintegral_of_nonneg_ae (Filter.Eventually.of_forall hT0) hg.T.1.aestronglyMeasurable]
    congr 1
    have e : ∀ x, ENNReal.ofReal (T K g x) = ∫⁻ y, ENNReal.ofReal (g y) ∂(K x) := fun x =>
      ofReal_integral_eq_lintegral_ofReal (hg.integrable _) (Filter.Eventually.of_forall h0)
    simp only [e]
    rw [← Measure.lintegral_bind K.aemeasurable hg.1.ennreal_ofReal.aemeasurable]
    have : ν.bind K = ν := hst
    rw [this]
  have hc : BM (fun _ : S => b) |b| := ⟨measurable_const, fun x => le_rfl⟩
  have h1 := pos (fun x => h x + b) _ (hb.add hc) (fun x => by have := (abs_le.mp (hb.2 x)).1; linarith)
  rw [show T K (fun y => h y + b) = fun x => T K h x + b from funext (fun x => by rw [T_add hb hc, T_const])] at h1
  rw [integral_add (hb.T.integrable _) (integrable_const _), integral_add (hb.integrable _) (integrable_const _)] at h1
  linarith

theorem integral_iter (hst : K.Invariant ν) {h : S → ℝ} {b : ℝ} (hb : BM h b) (n : Nat) : ∫ x, (T K)^[n] h x ∂ν = ∫ x, h x ∂ν := by
  induction n generalizing h with
  | zero => rfl
  | succ n ih => rw [Function.iterate_succ_apply, ih hb.T, integral_T hst hb]

/-- The Doeblin condition for `k` steps. -/
def Minorised (K : Kernel S S) (ν : Measure S) (k : Nat) (ε : ℝ) : Prop :=
  ∀ (h : S → ℝ) (b : ℝ), BM h b → (∀ x, 0 ≤ h x) → ∀ x, ε * ∫ y, h y ∂ν ≤ (T K)^[k] h x

theorem Minorised.le_one {k : Nat} {ε : ℝ} (hm : Minorised K ν k ε) [Nonempty S] : ε ≤ 1 := by
  have := hm (fun _ => 1) 1 ⟨measurable_const, fun x => by simp⟩ (fun _ => zero_le_one) (Classical.arbitrary S)
  rw [iter_const] at this
  simpa using this

/-- contraction on functions of mean zero -/
theorem Minorised.contract {k : Nat} {ε : ℝ} (hm : Minorised K ν k ε) {h : S → ℝ} {b : ℝ} (hb : BM h b) (h0 : ∫ x, h x ∂ν = 0) :
    BM ((T K)^[k] h) ((1 - ε) * b) := by
  refine ⟨(hb.iter k).1, fun x => ?_⟩
  have hc : BM (fun _ : S => b) |b| := ⟨measurable_const, fun x => le_rfl⟩
  have hn : BM (fun x => - h x) b := ⟨hb.1.neg, fun x => by rw [abs_neg]; exact hb.2 x⟩
  have h1 := hm (fun y => h y + b) _ (hb.add hc) (fun y => by have := (abs_le.mp (hb.2 y)).1; linarith) x
  have h2 := hm (fun y => - h y + b) _ (hn.add hc) (fun y => by have := (abs_le.mp (hb.2 y)).2; linarith) x
  rw [iter_add hb hc, iter_const, integral_add (hb.integrable _) (integrable_const _), h0] at h1
  rw [iter_add hn hc, iter_const, integral_add (hn.integrable _) (integrable_const _), integral_neg, h0] at h2
  have h3 := congrFun (iter_add hb hn k (K := K)) x
  have h4 : (fun y => h y + -h y) = fun _ => (0:ℝ) := by funext y; ring
  rw [h4, iter_const] at h3
  simp only [integral_const, probReal_univ, smul_eq_mul, one_mul] at h1 h2 h3
  rw [abs_le]
  constructor <;> linarith

/-- geometric convergence -/
theorem Minorised.converges (hst : K.Invariant ν) {k : Nat} {ε : ℝ} (hm : Minorised K ν k ε) {h : S → ℝ} {b : ℝ} (hb : BM h b)
    (h0 : ∫ x, h x ∂ν = 0) (n : Nat) : BM ((T K)^[n] h) ((1 - ε) ^ (n / k) * b) := by
  have key : ∀ m, BM ((T K)^[k * m] h) ((1 - ε) ^ m * b) := by
    intro m
    induction m with
    | zero => simpa using hb
    | succ m ih =>
      rw [Nat.mul_succ, Nat.add_comm, Function.iterate_add_apply, pow_succ, mul_comm ((1 - ε) ^ m), mul_assoc]
      exact hm.contract ih (by rw [integral_iter hst hb, h0])
  have hn : n = n % k + k * (n / k) := (Nat.mod_add_div n k).symm
  rw [hn, Function.iterate_add_apply, ← hn]
  exact (key _).iter _

/-- the sum of the expected values of the next `n` samples -/
noncomputable def A (K : Kernel S S) (f : S → ℝ) (n : Nat) (x : S) : ℝ := ∑ j ∈ Finset.range n, (T K)^[j+1] f x

theorem A_zero (f : S → ℝ) : A K f 0 = fun _ => 0 := by funext x; simp [A]

theorem A_succ (f : S → ℝ) (n : Nat) : A K f (n + 1) = fun x => A K f n x + (T K)^[n+1] f x := by
  funext x; simp [A, Finset.sum_range_succ]

theorem BM.A {f : S → ℝ} {b : ℝ} (hb : BM f b) (n : Nat) : BM (A K f n) (n * b) := by
  induction n with
  | zero => rw [A_zero]; simpa using BM.zero
  | succ n ih =>
    rw [A_succ]
    have := ih.add (hb.iter (K := K) (n+1))
    convert this using 1
    push_cast; ring

theorem iter_A {f : S → ℝ} {b : ℝ} (hb : BM f b) (m n : Nat) : A K f (m + n) = fun x => A K f m x + (T K)^[m] (A K f n) x := by
  induction n with
  | zero => funext x; rw [A_zero, iter_const]; simp
  | succ n ih =>
    rw [← Nat.add_assoc, A_succ, ih, A_succ f n, iter_add (hb.A n) (hb.iter (n+1))]
    funext x
    rw [← Function.iterate_add_apply, add_assoc, ← Nat.add_assoc]

theorem A_step {f : S → ℝ} {b : ℝ} (hb : BM f b) (n : Nat) (x : S) : A K f (n + 1) x = T K (fun y => f y + A K f n y) x := by
  rw [Nat.add_comm, iter_A hb, T_add hb (hb.A n)]
  simp [A]

theorem integral_A (hst : K.Invariant ν) {f : S → ℝ} {b : ℝ} (hb : BM f b) (h0 : ∫ x, f x ∂ν = 0) (n : Nat) : ∫ x, A K f n x ∂ν = 0 := by
  induction n with
  | zero => rw [A_zero]; simp
  | succ n ih => rw [A_succ, integral_add ((hb.A n).integrable _) ((hb.iter _).integrable _), ih, integral_iter hst hb, h0, add_zero]

/-- the sums are bounded -/
theorem Minorised.A_bound (hst : K.Invariant ν) {k : Nat} {ε : ℝ} (hm : Minorised K ν k ε) (hε : 0 < ε) {f : S → ℝ} {b : ℝ} (hb : BM f b)
    (h0 : ∫ x, f x ∂ν = 0) (hk : 1 ≤ k) (n : Nat) : BM (A K f n) (k * b / ε) := by
  by_cases hS : Nonempty S
  swap
  · exact ⟨(hb.A n).1, fun x => absurd ⟨x⟩ hS⟩
  have h1 := hm.le_one
  have hb0 : 0 ≤ b := le_trans (abs_nonneg _) (hb.2 (Classical.arbitrary S))
  induction n using Nat.strong_induction_on with
  | _ n ih =>
    by_cases hnk : n < k
    · refine (hb.A n).mono ?_
      rw [le_div_iff₀ hε]
      have : (n : ℝ) ≤ k := by exact_mod_cast hnk.le
      have hn0 : (0:ℝ) ≤ n := Nat.cast_nonneg n
      have e1 : (n : ℝ) * b ≤ k * b := mul_le_mul_of_nonneg_right this hb0
      nlinarith [mul_nonneg hn0 hb0]
    · have h2 := ih (n - k) (by omega)
      have h3 := hm.contract h2 (integral_A hst hb h0 _)
      have h4 := (hb.A k (K := K)).add h3
      rw [← iter_A hb, Nat.add_sub_cancel' (by omega)] at h4
      refine h4.mono (le_of_eq ?_)
      field_simp
      ring

/-- the expected square of `s` plus the sum of `f` over the next `n` samples -/
noncomputable def V (K : Kernel S S) (f : S → ℝ) : Nat → ℝ × S → ℝ≥0∞
  | 0, p => ENNReal.ofReal (p.1 ^ 2)
  | n + 1, p => ∫⁻ y, V K f n (p.1 + f y, y) ∂(K p.2)

theorem measurable_V {f : S → ℝ} (hf : Measurable f) (n : Nat) : Measurable (V K f n) := by
  induction n with
  | zero => exact (measurable_fst.pow_const 2).ennreal_ofReal
  | succ n ih =>
    have h1 : Measurable (fun p : (ℝ × S) × S => V K f n (p.1.1 + f p.2, p.2)) :=
      ih.comp ((measurable_fst.fst.add (hf.comp measurable_snd)).prodMk measurable_snd)
    have := Measurable.lintegral_kernel_prod_right' (κ := K.comap (Prod.snd : ℝ × S → S) measurable_snd) h1
    exact this

/-- the bound -/
theorem V_le {f : S → ℝ} {b B : ℝ} (hb : BM f b) (hA : ∀ n, BM (A K f n) B) (n : Nat) : ∀ (s : ℝ) (x : S),
    V K f n (s, x) ≤ ENNReal.ofReal (s ^ 2 + 2 * s * A K f n x + n * (b ^ 2 + 2 * b * B)) := by
  induction n with
  | zero =>
    intro s x
    simp only [V, A_zero]
    exact ENNReal.ofReal_le_ofReal (by simp)
  | succ n ih =>
    intro s x
    have hb0 : 0 ≤ b := le_trans (abs_nonneg _) (hb.2 x)
    have hB0 : 0 ≤ B := le_trans (abs_nonneg _) ((hA 0).2 x)
    simp only [V]
    set F : S → ℝ := fun y => (s + f y) ^ 2 + 2 * (s + f y) * A K f n y + n * (b ^ 2 + 2 * b * B) with hF
    have hAb := hb.A n (K := K)
    have sq : ∀ y, (A K f n y) ^ 2 ≤ n * (b ^ 2 + 2 * b * B) := by
      intro y
      have h1 := hAb.2 y
      have h2 := (hA n).2 y
      have hn0 : (0:ℝ) ≤ n := Nat.cast_nonneg n
      rw [← sq_abs]
      have h3 : |A K f n y| ^ 2 ≤ (n * b) * B := by
        rw [pow_two]; exact mul_le_mul h1 h2 (abs_nonneg _) (mul_nonneg hn0 hb0)
      nlinarith [mul_nonneg hn0 (mul_nonneg hb0 hb0), mul_nonneg hn0 (mul_nonneg hb0 hB0)]
    have hF0 : ∀ y, 0 ≤ F y := by
      intro y
      have := sq y
      simp only [hF]
      nlinarith [sq_nonneg (s + f y + A K f n y)]
    -- F is bounded
    have hFm : Measurable F := by
      have := hb.1
      have := (hA n).1
      simp only [hF]
      fun_prop
    have hFb : BM F ((|s| + b) ^ 2 + 2 * (|s| + b) * B + n * (b ^ 2 + 2 * b * B)) := by
      refine ⟨hFm, fun y => ?_⟩
      have h1 : |s + f y| ≤ |s| + b := (abs_add_le _ _).trans (by linarith [hb.2 y])
      have h2 := (hA n).2 y
      rw [abs_of_nonneg (hF0 y)]
      simp only [hF]
      have h3 : (s + f y) ^ 2 ≤ (|s| + b) ^ 2 := by rw [← sq_abs]; exact pow_le_pow_left₀ (abs_nonneg _) h1 2
      have h4 : (s + f y) * A K f n y ≤ (|s| + b) * B :=
        (le_abs_self _).trans (by rw [abs_mul]; exact mul_le_mul h1 h2 (abs_nonneg _) (le_trans (abs_nonneg _) h1))
      linarith
    refine (lintegral_mono (fun y => ih (s + f y) y)).trans ?_
    change ∫⁻ y, ENNReal.ofReal (F y) ∂(K x) ≤ _
    rw [← ofReal_integral_eq_lintegral_ofReal (hFb.integrable _) (Filter.Eventually.of_forall hF0)]
    refine ENNReal.ofReal_le_ofReal ?_
    -- bound F pointwise by a function whose integral is known
    have hle : ∀ y, F y ≤ (s ^ 2 + (n + 1) * (b ^ 2 + 2 * b * B)) + (f y + A K f n y) * (2 * s) := by
      intro y
      simp only [hF]
      have h1 : (f y) ^ 2 ≤ b ^ 2 := by rw [← sq_abs]; exact pow_le_pow_left₀ (abs_nonneg _) (hb.2 y) 2
      have h4 : f y * A K f n y ≤ b * B :=
        (le_abs_self _).trans (by rw [abs_mul]; exact mul_le_mul (hb.2 y) ((hA n).2 y) (abs_nonneg _) hb0)
      nlinarith
    have hint : Integrable (fun y => (s ^ 2 + (n + 1) * (b ^ 2 + 2 * b * B)) + (f y + A K f n y) * (2 * s)) (K x) :=
      (integrable_const _).add (((hb.add (hA n)).integrable _).mul_const _)
    refine (integral_mono (hFb.integrable _) hint hle).trans (le_of_eq ?_)
    rw [integral_add (integrable_const _) (((hb.add (hA n)).integrable _).mul_const _), integral_mul_const, integral_const]
    have : ∫ y, (f y + A K f n y) ∂(K x) = A K f (n + 1) x := (A_step hb n x).symm
    rw [this]
    simp
    ring

/-- the expected value of `F` at the state that results from `s` when the next `n` samples are processed by `φ` -/
noncomputable def W {σ : Type} (K : Kernel S S) (φ : σ → S → σ) (F : σ × S → ℝ≥0∞) : Nat → σ × S → ℝ≥0∞
  | 0, p => F p
  | n + 1, p => ∫⁻ y, W K φ F n (φ p.1 y, y) ∂(K p.2)

section
variable {σ : Type} [MeasurableSpace σ] {φ : σ → S → σ}

theorem measurable_W (hφ : Measurable (Function.uncurry φ)) {F : σ × S → ℝ≥0∞} (hF : Measurable F) (n : Nat) : Measurable (W K φ F n) := by
  induction n with
  | zero => exact hF
  | succ n ih =>
    have h1 : Measurable (fun p : (σ × S) × S => W K φ F n (φ p.1.1 p.2, p.2)) :=
      ih.comp ((hφ.comp (measurable_fst.fst.prodMk measurable_snd)).prodMk measurable_snd)
    have := Measurable.lintegral_kernel_prod_right' (κ := K.comap (Prod.snd : σ × S → S) measurable_snd) h1
    exact this

theorem W_add (hφ : Measurable (Function.uncurry φ)) {F F' : σ × S → ℝ≥0∞} (hF : Measurable F) (n : Nat) :
    ∀ p, W K φ (fun p => F p + F' p) n p = W K φ F n p + W K φ F' n p := by
  induction n with
  | zero => intro p; rfl
  | succ n ih =>
    intro p
    simp only [W, ih]
    rw [lintegral_add_left (f := fun y => W K φ F n (φ p.1 y, y)) ((measurable_W hφ hF n).comp ((hφ.comp (measurable_const.prodMk measurable_id)).prodMk measurable_id))]

theorem W_const (r : ℝ≥0∞) (n : Nat) : ∀ p, W K φ (fun _ => r) n p = r := by
  induction n with
  | zero => intro p; rfl
  | succ n ih => intro p; simp [W, ih]

theorem W_mul {F : σ × S → ℝ≥0∞} (r : ℝ≥0∞) (hr : r ≠ ⊤) (n : Nat) : ∀ p, W K φ (fun p => r * F p) n p = r * W K φ F n p := by
  induction n with
  | zero => intro p; rfl
  | succ n ih => intro p; simp only [W, ih, lintegral_const_mul' _ _ hr]

end

theorem W_iterate (F : S → ℝ≥0∞) (n : Nat) : ∀ x, W K (fun (u : Unit) _ => u) (fun p => F p.2) n ((), x) = (TL K)^[n] F x := by
  induction n with
  | zero => intro x; rfl
  | succ n ih => intro x; rw [Function.iterate_succ_apply']; simp only [W, ih]; rfl

theorem W_V (f : S → ℝ) (n : Nat) : W K (fun s y => s + f y) (fun p => ENNReal.ofReal (p.1 ^ 2)) n = V K f n := by
  induction n with
  | zero => rfl
  | succ n ih => funext p; simp only [W, V, ih]

end SampleFlow.Doeblin
