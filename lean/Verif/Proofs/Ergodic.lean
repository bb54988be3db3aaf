import Mathlib.Algebra.BigOperators.Fin
import Mathlib.Data.Real.Basic
import Mathlib.LinearAlgebra.FiniteDimensional.Lemmas
import Mathlib.LinearAlgebra.Dual.Lemmas
import Mathlib.Algebra.Order.BigOperators.Ring.Finset
import Mathlib.Logic.Relation
import Mathlib.Tactic.Linarith
import Mathlib.Tactic.Ring
import Mathlib.Tactic.Positivity

/-! Law of large numbers (in mean square) for Markov chains on finite sets. Nothing in this file is about the
code. -/

namespace SampleFlow.Ergodic

variable {S : Type} [Fintype S]

/-- expected value of a function of the next `n` states -/
def expectPath (P : S → S → ℝ) : Nat → (List S → ℝ) → S → ℝ
  | 0, g, _ => g []
  | n + 1, g, x => ∑ y, P x y * expectPath P n (fun l => g (y :: l)) y

/-- a chain: probabilities that sum to one -/
structure Stochastic (P : S → S → ℝ) : Prop where
  nonneg : ∀ x y, 0 ≤ P x y
  sum : ∀ x, ∑ y, P x y = 1

variable {P : S → S → ℝ}

theorem expectPath_mono (h : Stochastic P) (n : Nat) : ∀ (g g' : List S → ℝ) (x : S),
    (∀ l, l.length = n → g l ≤ g' l) → expectPath P n g x ≤ expectPath P n g' x := by
  induction n with
  | zero => intro g g' x hg; exact hg [] rfl
  | succ n ih =>
    intro g g' x hg
    simp only [expectPath]
    refine Finset.sum_le_sum (fun y _ => mul_le_mul_of_nonneg_left ?_ (h.nonneg x y))
    exact ih _ _ y (fun l hl => hg _ (by simp [hl]))

theorem expectPath_congr (n : Nat) : ∀ (g g' : List S → ℝ) (x : S),
    (∀ l, l.length = n → g l = g' l) → expectPath P n g x = expectPath P n g' x := by
  induction n with
  | zero => intro g g' x hg; exact hg [] rfl
  | succ n ih =>
    intro g g' x hg
    simp only [expectPath]
    refine Finset.sum_congr rfl (fun y _ => ?_)
    rw [ih _ _ y (fun l hl => hg _ (by simp [hl]))]

theorem expectPath_add (n : Nat) : ∀ (g g' : List S → ℝ) (x : S),
    expectPath P n (fun l => g l + g' l) x = expectPath P n g x + expectPath P n g' x := by
  induction n with
  | zero => intro g g' x; rfl
  | succ n ih =>
    intro g g' x
    simp only [expectPath, ih, mul_add, Finset.sum_add_distrib]

theorem expectPath_mul (n : Nat) (c : ℝ) : ∀ (g : List S → ℝ) (x : S),
    expectPath P n (fun l => c * g l) x = c * expectPath P n g x := by
  induction n with
  | zero => intro g x; rfl
  | succ n ih =>
    intro g x
    simp only [expectPath, ih, Finset.mul_sum]
    refine Finset.sum_congr rfl (fun y _ => by ring)

theorem expectPath_const (h : Stochastic P) (n : Nat) (c : ℝ) (x : S) : expectPath P n (fun _ => c) x = c := by
  induction n generalizing x with
  | zero => rfl
  | succ n ih => simp only [expectPath, ih, ← Finset.sum_mul, h.sum, one_mul]

/-- the operator -/
def app (P : S → S → ℝ) (g : S → ℝ) (x : S) : ℝ := ∑ y, P x y * g y

theorem app_le (h : Stochastic P) (g : S → ℝ) (x : S) (c : ℝ) (hg : ∀ y, g y ≤ c) : app P g x ≤ c := by
  calc app P g x ≤ ∑ y, P x y * c := Finset.sum_le_sum (fun y _ => mul_le_mul_of_nonneg_left (hg y) (h.nonneg x y))
    _ = c := by rw [← Finset.sum_mul, h.sum, one_mul]

/-- at a maximum of a harmonic function all successors are maxima -/
theorem harmonic_succ (h : Stochastic P) (g : S → ℝ) (hg : ∀ x, app P g x = g x) (x y : S) (hx : ∀ z, g z ≤ g x) (hP : 0 < P x y) :
    g y = g x := by
  by_contra hne
  have hlt : g y < g x := lt_of_le_of_ne (hx y) hne
  have : app P g x < ∑ y, P x y * g x := by
    refine Finset.sum_lt_sum (fun z _ => mul_le_mul_of_nonneg_left (hx z) (h.nonneg x z)) ⟨y, Finset.mem_univ y, ?_⟩
    exact mul_lt_mul_of_pos_left hlt hP
  rw [← Finset.sum_mul, h.sum, one_mul, hg] at this
  exact lt_irrefl _ this

theorem harmonic_max (h : Stochastic P) (g : S → ℝ) (hg : ∀ x, app P g x = g x) (y0 : S)
    (hr : ∀ x, Relation.ReflTransGen (fun a b => 0 < P a b) x y0) (z : S) : g z ≤ g y0 := by
  have : Nonempty S := ⟨y0⟩
  obtain ⟨x, hx⟩ := Finite.exists_max g
  have : ∀ y, Relation.ReflTransGen (fun a b => 0 < P a b) x y → g y = g x := by
    intro y hy
    induction hy with
    | refl => rfl
    | tail _ hbc ih => rw [← ih]; exact harmonic_succ h g hg _ _ (fun z => by rw [ih]; exact hx z) hbc
  rw [this y0 (hr x)]
  exact hx z

theorem harmonic_const (h : Stochastic P) (g : S → ℝ) (hg : ∀ x, app P g x = g x) (y0 : S)
    (hr : ∀ x, Relation.ReflTransGen (fun a b => 0 < P a b) x y0) (z : S) : g z = g y0 := by
  refine le_antisymm (harmonic_max h g hg y0 hr z) ?_
  have := harmonic_max h (fun x => - g x) (fun x => by
    have := hg x
    simp only [app] at this ⊢
    simp only [mul_neg, Finset.sum_neg_distrib, this]) y0 hr z
  linarith

/-- `g - P g` as a linear map -/
def poissonMap (P : S → S → ℝ) : (S → ℝ) →ₗ[ℝ] (S → ℝ) where
  toFun g := fun x => g x - app P g x
  map_add' g g' := by
    ext x; simp only [app, Pi.add_apply, mul_add, Finset.sum_add_distrib]; ring
  map_smul' c g := by
    ext x
    simp only [app, Pi.smul_apply, smul_eq_mul, RingHom.id_apply, mul_sub, Finset.mul_sum]
    congr 1
    refine Finset.sum_congr rfl (fun y _ => by ring)

/-- `∑ π g` as a linear map -/
def weightMap (π : S → ℝ) : (S → ℝ) →ₗ[ℝ] ℝ where
  toFun g := ∑ x, π x * g x
  map_add' g g' := by simp only [Pi.add_apply, mul_add, Finset.sum_add_distrib]
  map_smul' c g := by
    simp only [Pi.smul_apply, smul_eq_mul, RingHom.id_apply, Finset.mul_sum]
    refine Finset.sum_congr rfl (fun y _ => by ring)

/-- The Poisson equation has a solution for every function of mean zero. -/
theorem poisson (h : Stochastic P) (π : S → ℝ) (hπ : 0 < ∑ x, π x) (hst : ∀ y, ∑ x, π x * P x y = π y) (y0 : S)
    (hr : ∀ x, Relation.ReflTransGen (fun a b => 0 < P a b) x y0) (f : S → ℝ) (hf : ∑ x, π x * f x = 0) :
    ∃ g : S → ℝ, ∀ x, g x - app P g x = f x := by
  have hle : LinearMap.range (poissonMap P) ≤ LinearMap.ker (weightMap π) := by
    rintro _ ⟨g, rfl⟩
    rw [LinearMap.mem_ker]
    show ∑ x, π x * (g x - app P g x) = 0
    simp only [mul_sub, Finset.sum_sub_distrib, app, Finset.mul_sum]
    rw [Finset.sum_comm (f := fun x y => π x * (P x y * g y))]
    simp only [← mul_assoc, ← Finset.sum_mul, hst, sub_self]
  have hker : Module.finrank ℝ (LinearMap.ker (poissonMap P)) ≤ 1 := by
    have : LinearMap.ker (poissonMap P) ≤ Submodule.span ℝ {(fun _ => 1 : S → ℝ)} := by
      intro g hg
      rw [LinearMap.mem_ker] at hg
      have hg' : ∀ x, app P g x = g x := by
        intro x
        have := congrFun hg x
        simp only [poissonMap, LinearMap.coe_mk, AddHom.coe_mk, Pi.zero_apply] at this
        linarith
      rw [Submodule.mem_span_singleton]
      refine ⟨g y0, ?_⟩
      ext z
      simp [harmonic_const h g hg' y0 hr z]
    exact (Submodule.finrank_mono this).trans (finrank_span_le_card _ |>.trans (by simp))
  have h1 := LinearMap.finrank_range_add_finrank_ker (poissonMap P)
  have h2 := LinearMap.finrank_range_add_finrank_ker (weightMap π)
  have hsurj : LinearMap.range (weightMap π) = ⊤ := by
    rw [LinearMap.range_eq_top]
    intro c
    refine ⟨fun _ => c / ∑ x, π x, ?_⟩
    show ∑ x, π x * (c / ∑ x, π x) = c
    rw [← Finset.sum_mul, mul_div_cancel₀ _ hπ.ne']
  rw [hsurj, finrank_top, Module.finrank_self] at h2
  have heq := Submodule.eq_of_le_of_finrank_le hle (by omega)
  have : f ∈ LinearMap.ker (weightMap π) := by rw [LinearMap.mem_ker]; exact hf
  rw [← heq] at this
  obtain ⟨g, hg⟩ := this
  exact ⟨g, fun x => congrFun hg x⟩

/-- the last state -/
def lastOf (x : S) (l : List S) : S := l.getLastD x

/-- the martingale -/
theorem martingale (h : Stochastic P) (f g : S → ℝ) (hfg : ∀ x, g x - app P g x = f x) (C : ℝ)
    (hC : ∀ x y, (g y - app P g x) ^ 2 ≤ C) (n : Nat) : ∀ (s : ℝ) (x : S),
    expectPath P n (fun l => (s + (l.map f).sum + app P g (lastOf x l)) ^ 2) x ≤ (s + app P g x) ^ 2 + n * C := by
  induction n with
  | zero => intro s x; simp [expectPath, lastOf]
  | succ n ih =>
    intro s x
    simp only [expectPath]
    have e : ∀ y, expectPath P n (fun l => (s + ((y :: l).map f).sum + app P g (lastOf x (y :: l))) ^ 2) y ≤
        (s + g y) ^ 2 + n * C := by
      intro y
      have := ih (s + f y) y
      have e2 : s + f y + app P g y = s + g y := by rw [← hfg y]; ring
      rw [e2] at this
      refine le_trans (le_of_eq ?_) this
      refine expectPath_congr n _ _ y (fun l _ => ?_)
      have : lastOf x (y :: l) = lastOf y l := by
        unfold lastOf; rw [List.getLastD_cons]
      rw [this, List.map_cons, List.sum_cons]
      ring
    refine (Finset.sum_le_sum (fun y _ => mul_le_mul_of_nonneg_left (e y) (h.nonneg x y))).trans ?_
    have e3 : ∀ y, P x y * ((s + g y) ^ 2 + n * C) = (s + app P g x) ^ 2 * P x y + 2 * (s + app P g x) * (P x y * g y)
        - 2 * (s + app P g x) * app P g x * P x y + P x y * (g y - app P g x) ^ 2 + (n * C) * P x y := by
      intro y; ring
    simp only [e3, Finset.sum_add_distrib, Finset.sum_sub_distrib, ← Finset.mul_sum, h.sum]
    have e4 : ∑ y, P x y * (g y - app P g x) ^ 2 ≤ C := app_le h _ x C (fun y => hC x y)
    have e5 : ∑ y, P x y * g y = app P g x := rfl
    rw [e5]
    push_cast
    linarith

/-- **Law of large numbers in mean square**: the mean of `f` over the first `n` states. -/
theorem mean_square (h : Stochastic P) (π : S → ℝ) (hπ : 0 < ∑ x, π x) (hst : ∀ y, ∑ x, π x * P x y = π y) (y0 : S)
    (hr : ∀ x, Relation.ReflTransGen (fun a b => 0 < P a b) x y0) (f : S → ℝ) :
    ∃ K : ℝ, ∀ (n : Nat) (x : S), 1 ≤ n →
      expectPath P n (fun l => ((l.map f).sum / n - (∑ x, π x * f x) / ∑ x, π x) ^ 2) x ≤ K / n := by
  have : Nonempty S := ⟨y0⟩
  obtain ⟨m, hm⟩ : ∃ m, m = (∑ x, π x * f x) / ∑ x, π x := ⟨_, rfl⟩
  obtain ⟨g, hg⟩ := poisson h π hπ hst y0 hr (fun x => f x - m) (by
    simp only [mul_sub, Finset.sum_sub_distrib, ← Finset.sum_mul, hm]
    rw [mul_div_cancel₀ _ hπ.ne', sub_self])
  obtain ⟨p, hp⟩ := Finite.exists_max (fun p : S × S => (g p.2 - app P g p.1) ^ 2)
  obtain ⟨b, hb⟩ := Finite.exists_max (fun x : S => (app P g x) ^ 2)
  refine ⟨4 * (app P g b) ^ 2 + 2 * (g p.2 - app P g p.1) ^ 2, fun n x hn => ?_⟩
  have hn' : (1 : ℝ) ≤ n := by exact_mod_cast hn
  have hpos : (0 : ℝ) < n := by linarith
  have key := martingale h (fun x => f x - m) g hg _ (fun x y => hp (x, y)) n 0 x
  rw [← hm]
  have hsum : ∀ l : List S, (l.map (fun x => f x - m)).sum = (l.map f).sum - l.length * m := by
    intro l
    induction l with
    | nil => simp
    | cons a l ih => simp only [List.map_cons, List.sum_cons, ih, List.length_cons]; push_cast; ring
  have hle : expectPath P n (fun l => ((l.map f).sum / n - m) ^ 2) x ≤
      expectPath P n (fun l => (1 / n ^ 2) * (2 * (0 + (l.map (fun x => f x - m)).sum + app P g (lastOf x l)) ^ 2 + 2 * (app P g b) ^ 2)) x := by
    refine expectPath_mono h n _ _ x (fun l hl => ?_)
    have e1 : ((l.map f).sum / n - m) ^ 2 = (1 / n ^ 2) * ((l.map (fun x => f x - m)).sum) ^ 2 := by
      rw [hsum, hl]; field_simp
    rw [e1]
    refine mul_le_mul_of_nonneg_left ?_ (by positivity)
    have e2 := hb (lastOf x l)
    nlinarith [sq_nonneg ((l.map (fun x => f x - m)).sum + 2 * app P g (lastOf x l))]
  refine hle.trans ?_
  rw [expectPath_mul, expectPath_add, expectPath_mul, expectPath_const h]
  have hx := hb x
  simp only [zero_add] at hx key ⊢
  rw [div_mul_eq_mul_div, one_mul, div_le_div_iff₀ (by positivity) hpos]
  have hC0 : 0 ≤ (g p.2 - app P g p.1) ^ 2 := sq_nonneg _
  have hB0 : 0 ≤ (app P g b) ^ 2 := sq_nonneg _
  have e1 : 2 * expectPath P n (fun l => ((l.map (fun x => f x - m)).sum + app P g (lastOf x l)) ^ 2) x + 2 * (app P g b) ^ 2 ≤
      (4 * (app P g b) ^ 2 + 2 * (g p.2 - app P g p.1) ^ 2) * n := by nlinarith
  nlinarith

/-! ### convergence of the distribution -/

/-- `n` steps -/
def power (P : S → S → ℝ) : Nat → (S → ℝ) → S → ℝ
  | 0, g => g
  | n + 1, g => app P (power P n g)

theorem expectPath_last (n : Nat) : ∀ (g : S → ℝ) (x : S), expectPath P n (fun l => g (lastOf x l)) x = power P n g x := by
  induction n with
  | zero => intro g x; rfl
  | succ n ih =>
    intro g x
    simp only [expectPath, power, app]
    refine Finset.sum_congr rfl (fun y _ => ?_)
    have : ∀ l, lastOf x (y :: l) = lastOf y l := by intro l; unfold lastOf; rw [List.getLastD_cons]
    simp only [this, ih]

theorem power_add (m n : Nat) (g : S → ℝ) : power P (m + n) g = power P m (power P n g) := by
  induction m with
  | zero => simp [power]
  | succ m ih => rw [Nat.succ_add]; simp only [power, ih]

/-- all values are within an interval of the given length -/
def Within (g : S → ℝ) (a d : ℝ) : Prop := ∀ x, a ≤ g x ∧ g x ≤ a + d

theorem Within.app (h : Stochastic P) {g : S → ℝ} {a d : ℝ} (hg : Within g a d) : Within (app P g) a d := by
  intro x
  refine ⟨?_, app_le h g x _ (fun y => (hg y).2)⟩
  have := app_le h (fun y => - g y) x (-a) (fun y => by linarith [(hg y).1])
  simp only [Ergodic.app, mul_neg, Finset.sum_neg_distrib] at this
  simp only [Ergodic.app]
  linarith

theorem Within.power (h : Stochastic P) {g : S → ℝ} {a d : ℝ} (hg : Within g a d) (n : Nat) : Within (power P n g) a d := by
  induction n with
  | zero => exact hg
  | succ n ih => exact ih.app h

open Classical in
/-- probability to be in `y` after `n` steps -/
noncomputable def arrive (P : S → S → ℝ) (n : Nat) (x y : S) : ℝ := power P n (fun s => if s = y then 1 else 0) x

theorem power_mono (h : Stochastic P) (n : Nat) (g g' : S → ℝ) (hg : ∀ x, g x ≤ g' x) (x : S) : power P n g x ≤ power P n g' x := by
  induction n generalizing x with
  | zero => exact hg x
  | succ n ih => exact Finset.sum_le_sum (fun y _ => mul_le_mul_of_nonneg_left (ih y) (h.nonneg x y))

theorem power_lin (h : Stochastic P) (n : Nat) (g : S → ℝ) (a b : ℝ) (x : S) :
    power P n (fun y => a + b * g y) x = a + b * power P n g x := by
  induction n generalizing x with
  | zero => rfl
  | succ n ih =>
    simp only [power, app, ih, mul_add, Finset.sum_add_distrib, ← Finset.sum_mul, h.sum, one_mul, Finset.mul_sum]
    congr 1
    refine Finset.sum_congr rfl (fun y _ => by ring)

/-- contraction -/
theorem contract (h : Stochastic P) (k : Nat) (y0 : S) (ε : ℝ) (hk : ∀ x, ε ≤ arrive P k x y0) (g : S → ℝ)
    (a d : ℝ) (hg : Within g a d) : ∃ a', Within (power P k g) a' ((1 - ε) * d) := by
  classical
  have hd : 0 ≤ d := by linarith [(hg y0).1, (hg y0).2]
  refine ⟨a + ε * (g y0 - a), fun x => ?_⟩
  have h0 := (hg y0).1
  have h1 := (hg y0).2
  have hx := hk x
  constructor
  · have := power_mono h k (fun y => a + (g y0 - a) * (if y = y0 then 1 else 0)) g (fun y => by
      by_cases hy : y = y0
      · simp [hy]
      · simp [hy, (hg y).1]) x
    rw [power_lin h] at this
    have e : power P k (fun s => if s = y0 then 1 else 0) x = arrive P k x y0 := by unfold arrive; congr
    rw [e] at this
    nlinarith
  · have := power_mono h k g (fun y => (a + d) + (g y0 - (a + d)) * (if y = y0 then 1 else 0)) (fun y => by
      by_cases hy : y = y0
      · simp [hy]
      · simp [hy, (hg y).2]) x
    rw [power_lin h] at this
    have e : power P k (fun s => if s = y0 then 1 else 0) x = arrive P k x y0 := by unfold arrive; congr
    rw [e] at this
    nlinarith

theorem contract_iter (h : Stochastic P) (k : Nat) (y0 : S) (ε : ℝ) (hk : ∀ x, ε ≤ arrive P k x y0) (g : S → ℝ)
    (a d : ℝ) (hg : Within g a d) (m : Nat) : ∃ a', Within (power P (k * m) g) a' ((1 - ε) ^ m * d) := by
  induction m with
  | zero => exact ⟨a, by simpa [power] using hg⟩
  | succ m ih =>
    obtain ⟨a', h'⟩ := ih
    obtain ⟨a'', h''⟩ := contract h k y0 ε hk _ a' _ h'
    refine ⟨a'', ?_⟩
    rw [Nat.mul_succ, Nat.add_comm, power_add]
    convert h'' using 1
    ring

theorem stationary_power (π : S → ℝ) (hst : ∀ y, ∑ x, π x * P x y = π y) (n : Nat) (g : S → ℝ) :
    ∑ x, π x * power P n g x = ∑ x, π x * g x := by
  induction n with
  | zero => rfl
  | succ n ih =>
    rw [← ih]
    simp only [power, app, Finset.mul_sum]
    rw [Finset.sum_comm]
    simp only [← mul_assoc, ← Finset.sum_mul, hst]

/-- **Convergence to the stationary distribution.** -/
theorem converges (h : Stochastic P) (π : S → ℝ) (hπ0 : ∀ x, 0 ≤ π x) (hπ : 0 < ∑ x, π x) (hst : ∀ y, ∑ x, π x * P x y = π y) (k : Nat) (y0 : S)
    (hk : ∀ x, 0 < arrive P k x y0) :
    ∃ ρ : ℝ, 0 ≤ ρ ∧ ρ < 1 ∧ ∀ (g : S → ℝ) (a d : ℝ), Within g a d → ∀ (n : Nat) (x : S),
      |power P n g x - (∑ x, π x * g x) / ∑ x, π x| ≤ ρ ^ (n / k) * d := by
  have : Nonempty S := ⟨y0⟩
  obtain ⟨x1, hx1⟩ := Finite.exists_min (fun x => arrive P k x y0)
  have hle1 : arrive P k x1 y0 ≤ 1 := by
    classical
    have hw : Within (fun s => if s = y0 then (1:ℝ) else 0) 0 1 := by intro s; by_cases hs : s = y0 <;> simp [hs]
    have := (hw.power h k x1).2
    unfold arrive
    have e : power P k (fun s => if s = y0 then (1:ℝ) else 0) x1 ≤ 1 := by linarith
    convert e using 2
  refine ⟨1 - arrive P k x1 y0, by linarith, by linarith [hk x1], fun g a d hg n x => ?_⟩
  obtain ⟨a', h'⟩ := contract_iter h k y0 _ hx1 g a d hg (n / k)
  have hw : Within (power P n g) a' ((1 - arrive P k x1 y0) ^ (n / k) * d) := by
    have hn : n = n % k + k * (n / k) := (Nat.mod_add_div n k).symm
    have := h'.power h (n % k)
    rw [← power_add, ← hn] at this
    exact this
  generalize (1 - arrive P k x1 y0) ^ (n / k) * d = D at *
  have e1 := stationary_power π hst n g
  have lo : a' ≤ (∑ x, π x * g x) / ∑ x, π x := by
    rw [le_div_iff₀ hπ, ← e1, Finset.mul_sum]
    exact Finset.sum_le_sum (fun x _ => by rw [mul_comm]; exact mul_le_mul_of_nonneg_left (hw x).1 (hπ0 x))
  have hi : (∑ x, π x * g x) / ∑ x, π x ≤ a' + D := by
    rw [div_le_iff₀ hπ, ← e1, Finset.mul_sum]
    exact Finset.sum_le_sum (fun x _ => by rw [mul_comm (a' + D)]; exact mul_le_mul_of_nonneg_left (hw x).2 (hπ0 x))
  have := hw x
  rw [abs_le]
  constructor <;> linarith

end SampleFlow.Ergodic
