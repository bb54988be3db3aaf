import Verif.Proofs.Ergodic
import Verif.Proofs.Thinning
import Mathlib.Analysis.Asymptotics.Lemmas
import Mathlib.Analysis.SpecificLimits.Basic
import Mathlib.Analysis.SpecificLimits.Normed
import Mathlib.Analysis.Asymptotics.SpecificAsymptotics
import Mathlib.Tactic.LinearCombination
import Mathlib.Algebra.BigOperators.Field
import Mathlib.Algebra.Order.Chebyshev

/-! Correlations of reversible Markov chains on finite sets. Nothing in this file is about the code. -/

namespace SampleFlow.Equilibrium

open Ergodic

variable {S : Type} [Fintype S] {P : S → S → ℝ} {π : S → ℝ}

/-- inner product with weights -/
def ip (π f g : S → ℝ) : ℝ := ∑ x, π x * (f x * g x)

theorem ip_comm (f g : S → ℝ) : ip π f g = ip π g f := Finset.sum_congr rfl (fun x _ => by rw [mul_comm (f x)])

theorem ip_self (hπ : ∀ x, 0 ≤ π x) (f : S → ℝ) : 0 ≤ ip π f f := Finset.sum_nonneg (fun x _ => mul_nonneg (hπ x) (mul_self_nonneg _))

theorem ip_add (f g h : S → ℝ) : ip π f (fun x => g x + h x) = ip π f g + ip π f h := by
  unfold ip; rw [← Finset.sum_add_distrib]; exact Finset.sum_congr rfl (fun x _ => by ring)

theorem add_ip (f g h : S → ℝ) : ip π (fun x => g x + h x) f = ip π g f + ip π h f := by
  rw [ip_comm, ip_add, ip_comm f g, ip_comm f h]

theorem app_add (f g : S → ℝ) : app P (fun x => f x + g x) = fun x => app P f x + app P g x := by
  funext x; unfold app; rw [← Finset.sum_add_distrib]; exact Finset.sum_congr rfl (fun y _ => by ring)

/-- the chain is reversible -/
def Reversible (P : S → S → ℝ) (π : S → ℝ) : Prop := ∀ x y, π x * P x y = π y * P y x

theorem Reversible.stationary (hr : Reversible P π) (h : Stochastic P) (y : S) : ∑ x, π x * P x y = π y := by
  simp only [hr _ y, ← Finset.mul_sum, h.sum, mul_one]

theorem ip_app (hr : Reversible P π) (f g : S → ℝ) : ip π f (app P g) = ip π (app P f) g := by
  unfold ip app
  simp only [Finset.mul_sum, Finset.sum_mul]
  rw [Finset.sum_comm]
  refine Finset.sum_congr rfl (fun x _ => Finset.sum_congr rfl (fun y _ => ?_))
  have := hr x y
  calc π y * (f y * (P y x * g x)) = (π y * P y x) * (f y * g x) := by ring
    _ = (π x * P x y) * (f y * g x) := by rw [this]
    _ = π x * (P x y * f y * g x) := by ring

theorem ip_power (hr : Reversible P π) (a : Nat) : ∀ (b : Nat) (f g : S → ℝ), ip π (power P a f) (power P b g) = ip π f (power P (a + b) g) := by
  induction a with
  | zero => intro b f g; simp [power]
  | succ a ih =>
    intro b f g
    rw [show power P (a + 1) f = app P (power P a f) from rfl, ← ip_app hr]
    rw [show app P (power P b g) = power P (b + 1) g from rfl, ih (b+1)]
    congr 2; omega

/-- Jensen -/
theorem app_sq (h : Stochastic P) (f : S → ℝ) (x : S) : app P f x * app P f x ≤ app P (fun y => f y * f y) x := by
  have h0 : 0 ≤ ∑ y, P x y * ((f y - app P f x) * (f y - app P f x)) := Finset.sum_nonneg (fun y _ => mul_nonneg (h.nonneg x y) (mul_self_nonneg _))
  have e : ∑ y, P x y * ((f y - app P f x) * (f y - app P f x)) = app P (fun y => f y * f y) x - 2 * app P f x * ∑ y, P x y * f y + app P f x * app P f x * ∑ y, P x y := by
    generalize app P f x = c
    unfold app
    rw [Finset.mul_sum, Finset.mul_sum, ← Finset.sum_sub_distrib, ← Finset.sum_add_distrib]
    exact Finset.sum_congr rfl (fun y _ => by ring)
  rw [e, h.sum, show (∑ y, P x y * f y) = app P f x from rfl] at h0
  linarith

theorem sum_app (hst : ∀ y, ∑ x, π x * P x y = π y) (f : S → ℝ) : ∑ x, π x * app P f x = ∑ x, π x * f x := stationary_power π hst 1 f

theorem ip_contract (hπ : ∀ x, 0 ≤ π x) (h : Stochastic P) (hst : ∀ y, ∑ x, π x * P x y = π y) (f : S → ℝ) : ip π (app P f) (app P f) ≤ ip π f f := by
  calc ip π (app P f) (app P f) ≤ ∑ x, π x * app P (fun y => f y * f y) x := Finset.sum_le_sum (fun x _ => mul_le_mul_of_nonneg_left (app_sq h f x) (hπ x))
    _ = ip π f f := sum_app hst _

/-- the two Dirichlet forms -/
theorem dirichlet (hπ : ∀ x, 0 ≤ π x) (h : Stochastic P) (hst : ∀ y, ∑ x, π x * P x y = π y) (f : S → ℝ) (σ : ℝ) (hσ : σ * σ = 1) : 0 ≤ ip π f f + σ * ip π f (app P f) := by
  have h0 : 0 ≤ ∑ x, π x * ∑ y, P x y * ((f x + σ * f y) * (f x + σ * f y)) :=
    Finset.sum_nonneg (fun x _ => mul_nonneg (hπ x) (Finset.sum_nonneg (fun y _ => mul_nonneg (h.nonneg x y) (mul_self_nonneg _))))
  have e : ∀ x, ∑ y, P x y * ((f x + σ * f y) * (f x + σ * f y)) = f x * f x + 2 * σ * (f x * app P f x) + app P (fun y => f y * f y) x := by
    intro x
    have e1 : f x * f x = f x * f x * ∑ y, P x y := by rw [h.sum, mul_one]
    rw [e1]
    unfold app
    rw [Finset.mul_sum, Finset.mul_sum, Finset.mul_sum, ← Finset.sum_add_distrib, ← Finset.sum_add_distrib]
    refine Finset.sum_congr rfl (fun y _ => ?_)
    linear_combination (P x y * (f y * f y)) * hσ
  simp only [e] at h0
  simp only [mul_add, Finset.sum_add_distrib] at h0
  rw [sum_app hst] at h0
  have e2 : ∑ x, π x * (2 * σ * (f x * app P f x)) = 2 * σ * ip π f (app P f) := by
    unfold ip; rw [Finset.mul_sum]; exact Finset.sum_congr rfl (fun x _ => by ring)
  rw [e2] at h0
  unfold ip at h0 ⊢
  linarith

/-! ### auto-covariances -/

/-- correlation of `f` now and `g` after `l` steps -/
def cor (P : S → S → ℝ) (π f g : S → ℝ) (l : Nat) : ℝ := ip π f (power P l g)

theorem cor_symm (hr : Reversible P π) (f g : S → ℝ) (l : Nat) : cor P π f g l = cor P π g f l := by
  unfold cor
  have := ip_power hr l 0 f g
  simp only [power, Nat.add_zero] at this
  rw [← this, ip_comm]

theorem cor_even (hr : Reversible P π) (f g : S → ℝ) (l : Nat) : cor P π f g (2 * l) = ip π (power P l f) (power P l g) := by
  unfold cor; rw [ip_power hr, two_mul]

theorem cor_odd (hr : Reversible P π) (f g : S → ℝ) (l : Nat) : cor P π f g (2 * l + 1) = ip π (power P l f) (app P (power P l g)) := by
  unfold cor
  rw [show app P (power P l g) = power P (l + 1) g from rfl, ip_power hr]
  congr 2; omega

theorem even_nonneg (hπ : ∀ x, 0 ≤ π x) (hr : Reversible P π) (f : S → ℝ) (l : Nat) : 0 ≤ cor P π f f (2 * l) := by
  rw [cor_even hr]; exact ip_self hπ _

theorem even_decreasing (hπ : ∀ x, 0 ≤ π x) (h : Stochastic P) (hr : Reversible P π) (f : S → ℝ) (l : Nat) : cor P π f f (2 * l + 2) ≤ cor P π f f (2 * l) := by
  rw [show 2 * l + 2 = 2 * (l + 1) by ring, cor_even hr, cor_even hr]
  exact ip_contract hπ h (hr.stationary h) _

theorem pair_nonneg (hπ : ∀ x, 0 ≤ π x) (h : Stochastic P) (hr : Reversible P π) (f : S → ℝ) (l : Nat) : 0 ≤ cor P π f f (2 * l) + cor P π f f (2 * l + 1) := by
  rw [cor_even hr, cor_odd hr]
  have := dirichlet hπ h (hr.stationary h) (power P l f) 1 (by norm_num)
  linarith

theorem odd_le_even (hπ : ∀ x, 0 ≤ π x) (h : Stochastic P) (hr : Reversible P π) (f : S → ℝ) (l : Nat) : cor P π f f (2 * l + 1) ≤ cor P π f f (2 * l) := by
  rw [cor_even hr, cor_odd hr]
  have := dirichlet hπ h (hr.stationary h) (power P l f) (-1) (by norm_num)
  linarith

theorem pair_decreasing (hπ : ∀ x, 0 ≤ π x) (h : Stochastic P) (hr : Reversible P π) (f : S → ℝ) (l : Nat) :
    cor P π f f (2 * l + 2) + cor P π f f (2 * l + 3) ≤ cor P π f f (2 * l) + cor P π f f (2 * l + 1) := by
  have e2 : cor P π f f (2 * l + 2) = ip π (app P (power P l f)) (app P (power P l f)) := by
    rw [show 2 * l + 2 = 2 * (l + 1) by ring, cor_even hr]; rfl
  have e3 : cor P π f f (2 * l + 3) = ip π (app P (power P l f)) (app P (app P (power P l f))) := by
    rw [show 2 * l + 3 = 2 * (l + 1) + 1 by ring, cor_odd hr]; rfl
  rw [e2, e3, cor_even hr, cor_odd hr]
  generalize power P l f = g
  have := dirichlet hπ h (hr.stationary h) (fun x => g x + app P g x) (-1) (by norm_num)
  rw [app_add, ip_add, add_ip, add_ip, ip_add, add_ip, add_ip] at this
  have e4 : ip π g (app P (app P g)) = ip π (app P g) (app P g) := ip_app hr g _
  have e5 := ip_comm (π := π) (app P g) g
  linarith

theorem even_le_zero (hπ : ∀ x, 0 ≤ π x) (h : Stochastic P) (hr : Reversible P π) (f : S → ℝ) (l : Nat) : cor P π f f (2 * l) ≤ cor P π f f 0 := by
  induction l with
  | zero => exact le_refl _
  | succ l ih => exact (even_decreasing hπ h hr f l).trans ih

theorem abs_cor_le (hπ : ∀ x, 0 ≤ π x) (h : Stochastic P) (hr : Reversible P π) (f : S → ℝ) (l : Nat) : |cor P π f f l| ≤ cor P π f f 0 := by
  rcases Nat.even_or_odd' l with ⟨k, rfl | rfl⟩
  · rw [abs_of_nonneg (even_nonneg hπ hr f k)]; exact even_le_zero hπ h hr f k
  · have h1 := pair_nonneg hπ h hr f k
    have h2 := odd_le_even hπ h hr f k
    have h3 := even_le_zero hπ h hr f k
    rw [abs_le]; constructor <;> linarith

/-- at even lags the auto-covariances bound the covariances -/
theorem cross_le (hπ : ∀ x, 0 ≤ π x) (hr : Reversible P π) (f g : S → ℝ) (l : Nat) : 2 * |cor P π f g (2 * l)| ≤ cor P π f f (2 * l) + cor P π g g (2 * l) := by
  rw [cor_even hr, cor_even hr, cor_even hr]
  generalize power P l f = a
  generalize power P l g = b
  have h1 := ip_self hπ (fun x => a x + b x)
  rw [ip_add, add_ip, add_ip, ip_comm b a] at h1
  have h2 := ip_self hπ (fun x => a x + (-1) * b x)
  have e : ip π (fun x => a x + (-1) * b x) (fun x => a x + (-1) * b x) = ip π a a - 2 * ip π a b + ip π b b := by
    unfold ip; rw [Finset.mul_sum, ← Finset.sum_sub_distrib, ← Finset.sum_add_distrib]
    exact Finset.sum_congr rfl (fun x _ => by ring)
  rw [e] at h2
  rcases abs_cases (ip π a b) with ⟨h3, -⟩ | ⟨h3, -⟩ <;> rw [h3] <;> linarith

/-! ### the sum over a path -/

theorem expect_sum (h : Stochastic P) (f : S → ℝ) (n : Nat) : ∀ x, expectPath P n (fun l => (l.map f).sum) x = ∑ k ∈ Finset.range n, power P (k + 1) f x := by
  induction n with
  | zero => intro x; simp [expectPath]
  | succ n ih =>
    intro x
    simp only [expectPath, List.map_cons, List.sum_cons]
    have e : ∀ y, expectPath P n (fun l => f y + (l.map f).sum) y = f y + ∑ k ∈ Finset.range n, power P (k + 1) f y := by
      intro y; rw [expectPath_add, expectPath_const h, ih]
    simp only [e, mul_add, Finset.sum_add_distrib, Finset.mul_sum]
    rw [Finset.sum_range_succ', Finset.sum_comm, add_comm]
    rfl

/-- the mean square of the sum over a path -/
def meanSq (P : S → S → ℝ) (f : S → ℝ) (n : Nat) (x : S) : ℝ := expectPath P n (fun l => (l.map f).sum ^ 2) x

/-- the new terms in the mean square -/
def newTerm (P : S → S → ℝ) (f : S → ℝ) (n : Nat) (y : S) : ℝ := f y * f y + 2 * (f y * ∑ k ∈ Finset.range n, power P (k + 1) f y)

theorem meanSq_succ (h : Stochastic P) (f : S → ℝ) (n : Nat) (x : S) : meanSq P f (n + 1) x = app P (fun y => newTerm P f n y + meanSq P f n y) x := by
  unfold meanSq
  rw [expectPath]
  unfold app
  refine Finset.sum_congr rfl (fun y _ => ?_)
  congr 1
  have e : expectPath P n (fun l => ((y :: l).map f).sum ^ 2) y = expectPath P n (fun l => f y * f y + ((2 * f y) * (l.map f).sum + (l.map f).sum ^ 2)) y :=
    expectPath_congr n _ _ y (fun l _ => by rw [List.map_cons, List.sum_cons]; ring)
  rw [e, expectPath_add, expectPath_const h, expectPath_add, expectPath_mul, expect_sum h]
  unfold newTerm
  ring

theorem sum_newTerm (f : S → ℝ) (n : Nat) : ∑ x, π x * newTerm P f n x = cor P π f f 0 + 2 * ∑ k ∈ Finset.range n, cor P π f f (k + 1) := by
  unfold newTerm cor ip
  simp only [power, mul_add, Finset.sum_add_distrib]
  congr 1
  rw [Finset.sum_comm, Finset.mul_sum]
  refine Finset.sum_congr rfl (fun x _ => ?_)
  rw [← Finset.mul_sum, ← Finset.mul_sum]
  ring

theorem sum_meanSq (h : Stochastic P) (hst : ∀ y, ∑ x, π x * P x y = π y) (f : S → ℝ) (n : Nat) :
    ∑ x, π x * meanSq P f n x = ∑ j ∈ Finset.range n, (cor P π f f 0 + 2 * ∑ k ∈ Finset.range j, cor P π f f (k + 1)) := by
  induction n with
  | zero => simp [meanSq, expectPath]
  | succ n ih =>
    rw [Finset.sum_range_succ, ← ih, ← sum_newTerm]
    simp only [meanSq_succ h]
    rw [sum_app hst]
    simp only [mul_add, Finset.sum_add_distrib]
    ring

theorem double_sum (c : Nat → ℝ) (n : Nat) : ∑ j ∈ Finset.range n, (c 0 + 2 * ∑ k ∈ Finset.range j, c (k + 1)) = n * c 0 + 2 * ∑ l ∈ Finset.Ico 1 n, ((n : ℝ) - l) * c l := by
  induction n with
  | zero => simp
  | succ n ih =>
    rw [Finset.sum_range_succ, ih]
    rcases Nat.eq_zero_or_pos n with rfl | hn
    · simp
    rw [Finset.sum_Ico_succ_top (by omega)]
    have e1 : ∑ k ∈ Finset.range n, c (k + 1) = ∑ l ∈ Finset.Ico 1 n, c l + c n := by
      rw [← Finset.sum_Ico_succ_top (by omega), Finset.sum_Ico_eq_sum_range]
      refine Finset.sum_congr (by simp) (fun k _ => by rw [add_comm])
    rw [e1]
    have e2 : ∑ l ∈ Finset.Ico 1 n, (((n + 1 : ℕ) : ℝ) - l) * c l = ∑ l ∈ Finset.Ico 1 n, ((n : ℝ) - l) * c l + ∑ l ∈ Finset.Ico 1 n, c l := by
      rw [← Finset.sum_add_distrib]
      refine Finset.sum_congr rfl (fun l _ => by push_cast; ring)
    rw [e2]; push_cast; ring

/-! ### any starting point -/

theorem app_power (n : Nat) (g : S → ℝ) : app P (power P n g) = power P (n + 1) g := rfl

theorem app_sum {ι : Type} (s : Finset ι) (f : ι → S → ℝ) (x : S) : app P (fun y => ∑ i ∈ s, f i y) x = ∑ i ∈ s, app P (f i) x := by
  unfold app; simp only [Finset.mul_sum]; rw [Finset.sum_comm]

theorem meanSq_eq (h : Stochastic P) (f : S → ℝ) (n : Nat) : ∀ x, meanSq P f n x = ∑ j ∈ Finset.range n, power P (n - j) (newTerm P f j) x := by
  induction n with
  | zero => intro x; simp [meanSq, expectPath]
  | succ n ih =>
    intro x
    rw [meanSq_succ h]
    have e : (fun y => newTerm P f n y + meanSq P f n y) = fun y => newTerm P f n y + ∑ j ∈ Finset.range n, power P (n - j) (newTerm P f j) y := by
      funext y; rw [ih]
    rw [e, app_add]
    dsimp only
    rw [app_sum, Finset.sum_range_succ (fun j => power P (n + 1 - j) (newTerm P f j) x) n, add_comm]
    refine congrArg₂ (· + ·) ?_ ?_
    · refine Finset.sum_congr rfl (fun j hj => ?_)
      have hj' := Finset.mem_range.1 hj
      rw [app_power]
      congr 2
      omega
    · rw [show n + 1 - n = 1 by omega]; rfl

/-- sums of `ρ^(l/k)` are bounded -/
theorem sum_blocks (ρ : ℝ) (h0 : 0 ≤ ρ) (h1 : ρ < 1) (k : Nat) (hk : 1 ≤ k) (n : Nat) : ∑ l ∈ Finset.range n, ρ ^ (l / k) ≤ k * (1 - ρ)⁻¹ := by
  have hpos : ∀ l, 0 ≤ ρ ^ (l / k) := fun l => pow_nonneg h0 _
  have e : ∀ m, ∑ l ∈ Finset.range (k * m), ρ ^ (l / k) = k * ∑ i ∈ Finset.range m, ρ ^ i := by
    intro m
    induction m with
    | zero => simp
    | succ m ih =>
      rw [Nat.mul_succ, Finset.sum_range_add, ih, Finset.sum_range_succ, mul_add]
      congr 1
      have : ∀ i ∈ Finset.range k, ρ ^ ((k * m + i) / k) = ρ ^ m := by
        intro i hi
        rw [Nat.mul_add_div (by omega), Nat.div_eq_of_lt (Finset.mem_range.1 hi), Nat.add_zero]
      rw [Finset.sum_congr rfl this, Finset.sum_const, Finset.card_range, nsmul_eq_mul]
  calc ∑ l ∈ Finset.range n, ρ ^ (l / k) ≤ ∑ l ∈ Finset.range (k * n), ρ ^ (l / k) :=
        Finset.sum_le_sum_of_subset_of_nonneg (fun x hx => by
          rw [Finset.mem_range] at hx ⊢; exact lt_of_lt_of_le hx (Nat.le_mul_of_pos_left n (by omega))) (fun l _ _ => hpos l)
    _ = k * ∑ i ∈ Finset.range n, ρ ^ i := e n
    _ ≤ k * (1 - ρ)⁻¹ := by
      refine mul_le_mul_of_nonneg_left ?_ (Nat.cast_nonneg k)
      rw [← tsum_geometric_of_lt_one h0 h1]
      exact (summable_geometric_of_lt_one h0 h1).sum_le_tsum _ (fun i _ => pow_nonneg h0 i)

theorem summable_blocks (ρ : ℝ) (h0 : 0 ≤ ρ) (h1 : ρ < 1) (k : Nat) (hk : 1 ≤ k) : Summable (fun l : Nat => ρ ^ (l / k)) :=
  summable_of_sum_range_le (fun l => pow_nonneg h0 _) (sum_blocks ρ h0 h1 k hk)

/-- correlations decay -/
theorem cor_decay (hπ : ∀ x, 0 ≤ π x) (f g : S → ℝ) (r : Nat → ℝ) (hr : ∀ n x, |power P n g x| ≤ r n) (l : Nat) : |cor P π f g l| ≤ (∑ x, π x * |f x|) * r l := by
  unfold cor ip
  refine (Finset.abs_sum_le_sum_abs _ _).trans ?_
  rw [Finset.sum_mul]
  refine Finset.sum_le_sum (fun x _ => ?_)
  rw [abs_mul, abs_mul, abs_of_nonneg (hπ x), mul_assoc]
  exact mul_le_mul_of_nonneg_left (mul_le_mul_of_nonneg_left (hr l x) (abs_nonneg _)) (hπ x)

/-- the mean square error from any starting point -/
theorem error_limit (h : Stochastic P) (hπ : ∀ x, 0 ≤ π x) (hπ1 : 0 < ∑ x, π x) (hst : ∀ y, ∑ x, π x * P x y = π y) (ρ : ℝ) (h0 : 0 ≤ ρ) (h1 : ρ < 1) (k : Nat) (hk : 1 ≤ k)
    (hc : ∀ (g : S → ℝ) (a d : ℝ), Within g a d → ∀ (n : Nat) (x : S), |power P n g x - (∑ x, π x * g x) / ∑ x, π x| ≤ ρ ^ (n / k) * d)
    (f : S → ℝ) (hf : ∑ x, π x * f x = 0) (B : ℝ) (hB : ∀ x, |f x| ≤ B) (x : S) :
    Summable (fun l => cor P π f f (l + 1)) ∧
    Filter.Tendsto (fun n : Nat => meanSq P f n x / n) Filter.atTop (nhds ((cor P π f f 0 + 2 * ∑' l, cor P π f f (l + 1)) / ∑ x, π x)) := by
  have hB0 : 0 ≤ B := (abs_nonneg _).trans (hB x)
  have hw : Within f (-B) (2 * B) := fun y => by have := abs_le.1 (hB y); constructor <;> linarith
  have hp : ∀ n y, |power P n f y| ≤ 2 * B * ρ ^ (n / k) := by
    intro n y
    have := hc f (-B) (2 * B) hw n y
    rw [hf, zero_div, sub_zero] at this
    linarith
  have hsum : Summable (fun l => cor P π f f (l + 1)) := by
    have hs := ((summable_blocks ρ h0 h1 k hk).mul_left ((∑ x, π x * |f x|) * (2 * B)))
    have hs1 := (summable_nat_add_iff 1).2 hs
    refine Summable.of_norm_bounded hs1 (fun l => ?_)
    rw [Real.norm_eq_abs]
    have := cor_decay hπ f f _ hp (l + 1)
    linarith
  refine ⟨hsum, ?_⟩
  -- the new terms are bounded
  obtain ⟨K, hK⟩ : ∃ K, K = (k : ℝ) * (1 - ρ)⁻¹ := ⟨_, rfl⟩
  have hK0 : 0 ≤ K := by rw [hK]; exact mul_nonneg (Nat.cast_nonneg k) (inv_nonneg.2 (by linarith))
  have hKn : ∀ n, ∑ l ∈ Finset.range n, ρ ^ (l / k) ≤ K := by intro n; rw [hK]; exact sum_blocks ρ h0 h1 k hk n
  have hM : ∀ n y, |∑ j ∈ Finset.range n, power P (j + 1) f y| ≤ 2 * B * K := by
    intro n y
    refine (Finset.abs_sum_le_sum_abs _ _).trans ?_
    calc ∑ j ∈ Finset.range n, |power P (j + 1) f y| ≤ ∑ j ∈ Finset.range n, 2 * B * ρ ^ ((j + 1) / k) := Finset.sum_le_sum (fun j _ => hp _ y)
      _ = 2 * B * ∑ j ∈ Finset.range n, ρ ^ ((j + 1) / k) := by rw [Finset.mul_sum]
      _ ≤ 2 * B * K := by
        refine mul_le_mul_of_nonneg_left ?_ (by linarith)
        have := hKn (n + 1)
        rw [Finset.sum_range_succ'] at this
        have h2 : 0 ≤ ρ ^ (0 / k) := pow_nonneg h0 _
        linarith
  obtain ⟨H, hH⟩ : ∃ H, H = B * B + 2 * (B * (2 * B * K)) := ⟨_, rfl⟩
  have hH0 : 0 ≤ H := by rw [hH]; positivity
  have hN : ∀ n y, |newTerm P f n y| ≤ H := by
    intro n y
    rw [hH, newTerm]
    refine (abs_add_le _ _).trans (add_le_add ?_ ?_)
    · rw [abs_mul]; exact mul_le_mul (hB y) (hB y) (abs_nonneg _) hB0
    · rw [abs_mul, abs_two, abs_mul]
      exact mul_le_mul_of_nonneg_left (mul_le_mul (hB y) (hM n y) (abs_nonneg _) hB0) (by norm_num)
  have hwN : ∀ n, Within (newTerm P f n) (-H) (2 * H) := fun n y => by have := abs_le.1 (hN n y); constructor <;> linarith
  -- distance to the stationary value
  have hD : ∀ n, |meanSq P f n x - (∑ y, π y * meanSq P f n y) / ∑ y, π y| ≤ 2 * H * K := by
    intro n
    have e1 : (∑ y, π y * meanSq P f n y) / ∑ y, π y = ∑ j ∈ Finset.range n, (∑ y, π y * newTerm P f j y) / ∑ y, π y := by
      rw [sum_meanSq h hst, Finset.sum_div]
      refine Finset.sum_congr rfl (fun j _ => by rw [sum_newTerm])
    rw [e1, meanSq_eq h, ← Finset.sum_sub_distrib]
    refine (Finset.abs_sum_le_sum_abs _ _).trans ?_
    calc ∑ j ∈ Finset.range n, |power P (n - j) (newTerm P f j) x - (∑ y, π y * newTerm P f j y) / ∑ y, π y|
        ≤ ∑ j ∈ Finset.range n, ρ ^ ((n - j) / k) * (2 * H) := Finset.sum_le_sum (fun j _ => hc _ _ _ (hwN j) _ x)
      _ = (∑ j ∈ Finset.range n, ρ ^ ((n - j) / k)) * (2 * H) := by rw [Finset.sum_mul]
      _ ≤ K * (2 * H) := by
        refine mul_le_mul_of_nonneg_right ?_ (by linarith)
        have e2 : ∑ j ∈ Finset.range n, ρ ^ ((n - j) / k) = ∑ j ∈ Finset.range n, ρ ^ ((j + 1) / k) := by
          rw [← Finset.sum_range_reflect]
          refine Finset.sum_congr rfl (fun j hj => ?_)
          have := Finset.mem_range.1 hj
          congr 2; omega
        rw [e2]
        have := hKn (n + 1)
        rw [Finset.sum_range_succ'] at this
        have h2 : 0 ≤ ρ ^ (0 / k) := pow_nonneg h0 _
        linarith
      _ = 2 * H * K := by ring
  -- the limit in equilibrium
  have hlim1 : Filter.Tendsto (fun n : Nat => (n : ℝ)⁻¹ * ∑ j ∈ Finset.range n, (cor P π f f 0 + 2 * ∑ i ∈ Finset.range j, cor P π f f (i + 1))) Filter.atTop
      (nhds (cor P π f f 0 + 2 * ∑' l, cor P π f f (l + 1))) :=
    Filter.Tendsto.cesaro ((hsum.hasSum.tendsto_sum_nat.const_mul 2).const_add _)
  have hlim2 : Filter.Tendsto (fun n : Nat => ((∑ y, π y * meanSq P f n y) / ∑ y, π y) / n) Filter.atTop (nhds ((cor P π f f 0 + 2 * ∑' l, cor P π f f (l + 1)) / ∑ x, π x)) := by
    refine (hlim1.div_const (∑ x, π x)).congr (fun n => ?_)
    rw [sum_meanSq h hst, inv_mul_eq_div, div_right_comm]
  have hlim3 : Filter.Tendsto (fun n : Nat => (meanSq P f n x - (∑ y, π y * meanSq P f n y) / ∑ y, π y) / n) Filter.atTop (nhds 0) := by
    refine squeeze_zero_norm (fun n => ?_) (tendsto_const_div_atTop_nhds_zero_nat (2 * H * K))
    rw [Real.norm_eq_abs, abs_div, Nat.abs_cast]
    exact div_le_div_of_nonneg_right (hD n) (Nat.cast_nonneg n)
  have := hlim3.add hlim2
  rw [zero_add] at this
  refine this.congr (fun n => ?_)
  rw [← add_div, sub_add_cancel]

/-! ### thinning -/

/-- mean square of a weighted sum in equilibrium -/
theorem sum_wsum_sq (h : Stochastic P) (hst : ∀ y, ∑ x, π x * P x y = π y) (w : Nat → ℝ) (f : S → ℝ) (n : Nat) : ∀ k,
    ∑ x, π x * expectPath P n (fun l => (wsum w f k l) ^ 2) x = ∑ i ∈ Finset.range n, ∑ j ∈ Finset.range n, w (k + i) * w (k + j) * cor P π f f (i - j + (j - i)) := by
  induction n with
  | zero => intro k; simp [expectPath, wsum]
  | succ n ih =>
    intro k
    have e1 : ∀ x, expectPath P (n + 1) (fun l => (wsum w f k l) ^ 2) x =
        app P (fun y => w k * w k * (f y * f y) + 2 * w k * (f y * ∑ i ∈ Finset.range n, w (k + 1 + i) * power P (i + 1) f y) + expectPath P n (fun l => (wsum w f (k + 1) l) ^ 2) y) x := by
      intro x
      rw [expectPath]
      unfold app
      refine Finset.sum_congr rfl (fun y _ => ?_)
      congr 1
      have e : expectPath P n (fun l => (wsum w f k (y :: l)) ^ 2) y = expectPath P n (fun l => w k * w k * (f y * f y) + ((2 * w k * f y) * wsum w f (k + 1) l + (wsum w f (k + 1) l) ^ 2)) y :=
        expectPath_congr n _ _ y (fun l _ => by rw [wsum]; ring)
      rw [e, expectPath_add, expectPath_const h, expectPath_add, expectPath_mul, expect_wsum _ _ _ h]
      ring
    simp only [e1]
    rw [sum_app hst]
    simp only [mul_add, Finset.sum_add_distrib]
    rw [ih (k + 1), Finset.sum_range_succ']
    simp only [Finset.sum_range_succ' _ n, Finset.sum_add_distrib]
    have a1 : ∑ x, π x * (w k * w k * (f x * f x)) = w k * w k * cor P π f f 0 := by
      unfold cor ip; rw [Finset.mul_sum]; exact Finset.sum_congr rfl (fun x _ => by simp only [power]; ring)
    have a2 : ∑ x, π x * (2 * w k * (f x * ∑ i ∈ Finset.range n, w (k + 1 + i) * power P (i + 1) f x)) = 2 * ∑ i ∈ Finset.range n, w k * w (k + 1 + i) * cor P π f f (i + 1) := by
      unfold cor ip
      simp only [Finset.mul_sum]
      rw [Finset.sum_comm]
      exact Finset.sum_congr rfl (fun i _ => Finset.sum_congr rfl (fun x _ => by ring))
    rw [a1, a2]
    have b1 : ∑ i ∈ Finset.range n, ∑ j ∈ Finset.range n, w (k + (i + 1)) * w (k + (j + 1)) * cor P π f f (i + 1 - (j + 1) + (j + 1 - (i + 1))) =
        ∑ i ∈ Finset.range n, ∑ j ∈ Finset.range n, w (k + 1 + i) * w (k + 1 + j) * cor P π f f (i - j + (j - i)) :=
      Finset.sum_congr rfl (fun i _ => Finset.sum_congr rfl (fun j _ => by
        rw [show k + (i + 1) = k + 1 + i by ring, show k + (j + 1) = k + 1 + j by ring, show i + 1 - (j + 1) = i - j by omega, show j + 1 - (i + 1) = j - i by omega]))
    have b2 : ∑ i ∈ Finset.range n, w (k + (i + 1)) * w (k + 0) * cor P π f f (i + 1 - 0 + (0 - (i + 1))) = ∑ i ∈ Finset.range n, w k * w (k + 1 + i) * cor P π f f (i + 1) :=
      Finset.sum_congr rfl (fun i _ => by
        rw [show k + (i + 1) = k + 1 + i by ring, show i + 1 - 0 + (0 - (i + 1)) = i + 1 by omega, Nat.add_zero]; ring)
    have b3 : ∑ j ∈ Finset.range n, w (k + 0) * w (k + (j + 1)) * cor P π f f (0 - (j + 1) + (j + 1 - 0)) = ∑ i ∈ Finset.range n, w k * w (k + 1 + i) * cor P π f f (i + 1) :=
      Finset.sum_congr rfl (fun i _ => by
        rw [show k + (i + 1) = k + 1 + i by ring, show 0 - (i + 1) + (i + 1 - 0) = i + 1 by omega, Nat.add_zero])
    rw [b1, b2, b3]
    simp only [Nat.add_zero, Nat.sub_self]
    ring

/-- sum over the positions with remainder `r` -/
theorem sum_mod (m r : Nat) (hr : r < m) (g : Nat → ℝ) (N : Nat) :
    ∑ i ∈ Finset.range (m * N), (if i % m = r then (1:ℝ) else 0) * g i = ∑ a ∈ Finset.range N, g (m * a + r) := by
  induction N with
  | zero => simp
  | succ N ih =>
    rw [Nat.mul_succ, Finset.sum_range_add, ih, Finset.sum_range_succ]
    congr 1
    rw [Finset.sum_eq_single r]
    · rw [Nat.mul_add_mod, Nat.mod_eq_of_lt hr, if_pos rfl, one_mul]
    · intro b hb hne
      rw [Nat.mul_add_mod, Nat.mod_eq_of_lt (Finset.mem_range.1 hb), if_neg hne, zero_mul]
    · intro hn; exact absurd (Finset.mem_range.2 hr) hn

theorem thinned_sq (h : Stochastic P) (hst : ∀ y, ∑ x, π x * P x y = π y) (f : S → ℝ) (m r : Nat) (hr : r < m) (N : Nat) :
    ∑ x, π x * expectPath P (m * N) (fun l => (wsum (fun i => if i % m = r then (1:ℝ) else 0) f 0 l) ^ 2) x =
      ∑ a ∈ Finset.range N, ∑ b ∈ Finset.range N, cor P π f f (m * (a - b + (b - a))) := by
  rw [sum_wsum_sq h hst]
  have e : ∀ i ∈ Finset.range (m * N), ∑ j ∈ Finset.range (m * N), (if (0 + i) % m = r then (1:ℝ) else 0) * (if (0 + j) % m = r then (1:ℝ) else 0) * cor P π f f (i - j + (j - i)) =
      (if i % m = r then (1:ℝ) else 0) * ∑ b ∈ Finset.range N, cor P π f f (i - (m * b + r) + ((m * b + r) - i)) := by
    intro i _
    rw [← sum_mod m r hr (fun j => cor P π f f (i - j + (j - i))), Finset.mul_sum]
    exact Finset.sum_congr rfl (fun j _ => by simp only [Nat.zero_add]; ring)
  rw [Finset.sum_congr rfl e, sum_mod m r hr]
  refine Finset.sum_congr rfl (fun a _ => Finset.sum_congr rfl (fun b _ => ?_))
  congr 1
  rw [mul_add, Nat.mul_sub, Nat.mul_sub]
  omega

theorem dist_sum (c : Nat → ℝ) (N : Nat) : ∑ a ∈ Finset.range N, ∑ b ∈ Finset.range N, c (a - b + (b - a)) = N * c 0 + 2 * ∑ l ∈ Finset.Ico 1 N, ((N : ℝ) - l) * c l := by
  rw [← double_sum]
  induction N with
  | zero => simp
  | succ N ih =>
    rw [Finset.sum_range_succ (fun j => c 0 + 2 * ∑ k ∈ Finset.range j, c (k + 1)) N, ← ih]
    simp only [Finset.sum_range_succ _ N, Finset.sum_add_distrib]
    have b1 : ∑ a ∈ Finset.range N, c (a - N + (N - a)) = ∑ k ∈ Finset.range N, c (k + 1) := by
      rw [← Finset.sum_range_reflect]
      refine Finset.sum_congr rfl (fun a ha => ?_)
      have := Finset.mem_range.1 ha
      congr 1; omega
    have b2 : ∑ a ∈ Finset.range N, c (N - a + (a - N)) = ∑ k ∈ Finset.range N, c (k + 1) := by
      rw [← Finset.sum_range_reflect]
      refine Finset.sum_congr rfl (fun a ha => ?_)
      have := Finset.mem_range.1 ha
      congr 1; omega
    rw [b1, b2, Nat.sub_self]
    ring

omit [Fintype S] in
theorem wsum_split (f : S → ℝ) (m : Nat) (hm : 0 < m) (l : List S) : ∀ k, (l.map f).sum = ∑ r ∈ Finset.range m, wsum (fun i => if i % m = r then (1:ℝ) else 0) f k l := by
  induction l with
  | nil => intro k; simp [wsum]
  | cons y l ih =>
    intro k
    simp only [List.map_cons, List.sum_cons, wsum, Finset.sum_add_distrib, ← ih (k + 1)]
    congr 1
    rw [Finset.sum_eq_single (k % m)]
    · simp
    · intro b _ hne; rw [if_neg (Ne.symm hne), zero_mul]
    · intro hn; exact absurd (Finset.mem_range.2 (Nat.mod_lt _ hm)) hn

/-- keeping all samples is at least as good as keeping every `m`th -/
theorem meanSq_le_thinned (hπ : ∀ x, 0 ≤ π x) (h : Stochastic P) (hst : ∀ y, ∑ x, π x * P x y = π y) (f : S → ℝ) (m : Nat) (hm : 0 < m) (N : Nat) :
    ∑ x, π x * meanSq P f (m * N) x ≤ (m:ℝ) ^ 2 * ∑ x, π x * expectPath P (m * N) (fun l => (wsum (fun i => if i % m = 0 then (1:ℝ) else 0) f 0 l) ^ 2) x := by
  have e1 : ∀ x, meanSq P f (m * N) x ≤ ∑ r ∈ Finset.range m, (m:ℝ) * expectPath P (m * N) (fun l => (wsum (fun i => if i % m = r then (1:ℝ) else 0) f 0 l) ^ 2) x := by
    intro x
    have e2 : ∀ s : Finset Nat, ∑ r ∈ s, (m:ℝ) * expectPath P (m * N) (fun l => (wsum (fun i => if i % m = r then (1:ℝ) else 0) f 0 l) ^ 2) x =
        expectPath P (m * N) (fun l => ∑ r ∈ s, (m:ℝ) * (wsum (fun i => if i % m = r then (1:ℝ) else 0) f 0 l) ^ 2) x := by
      intro s
      induction s using Finset.induction_on with
      | empty =>
        simp only [Finset.sum_empty]
        have := expectPath_mul (P := P) (m * N) 0 (fun _ => 0) x
        simpa using this.symm
      | insert i s hi ih => simp only [Finset.sum_insert hi]; rw [expectPath_add, ih, expectPath_mul]
    rw [e2]
    refine expectPath_mono h (m * N) _ (fun l => ∑ r ∈ Finset.range m, (m:ℝ) * (wsum (fun i => if i % m = r then (1:ℝ) else 0) f 0 l) ^ 2) x (fun l _ => ?_)
    rw [wsum_split f m hm l 0, ← Finset.mul_sum]
    have := sq_sum_le_card_mul_sum_sq (s := Finset.range m) (f := fun r => wsum (fun i => if i % m = r then (1:ℝ) else 0) f 0 l)
    rwa [Finset.card_range] at this
  have e3 : ∀ r ∈ Finset.range m, ∑ x, π x * ((m:ℝ) * expectPath P (m * N) (fun l => (wsum (fun i => if i % m = r then (1:ℝ) else 0) f 0 l) ^ 2) x) =
      m * ∑ x, π x * expectPath P (m * N) (fun l => (wsum (fun i => if i % m = 0 then (1:ℝ) else 0) f 0 l) ^ 2) x := by
    intro r hr
    rw [thinned_sq h hst f m 0 hm N, ← thinned_sq h hst f m r (Finset.mem_range.1 hr) N, Finset.mul_sum]
    exact Finset.sum_congr rfl (fun x _ => by ring)
  refine (Finset.sum_le_sum (fun x _ => mul_le_mul_of_nonneg_left (e1 x) (hπ x))).trans (le_of_eq ?_)
  simp only [Finset.mul_sum]
  rw [Finset.sum_comm]
  rw [← Finset.mul_sum, Finset.sum_congr rfl e3, Finset.sum_const, Finset.card_range, nsmul_eq_mul]
  ring

end SampleFlow.Equilibrium
