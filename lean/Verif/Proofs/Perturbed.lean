import Verif.Proofs.StrongPath

/-! Averages along a Markov chain whose transition probabilities are close to those of a chain with a known stationary distribution.  Nothing in this file is about the code. -/

namespace SampleFlow.Perturbed

open Ergodic StrongLaw

variable {S : Type} [Fintype S] {P Q : S → S → ℝ}

theorem app_abs (hQ : Stochastic Q) (g : S → ℝ) (B : ℝ) (hB : ∀ x, |g x| ≤ B) (x : S) : |app Q g x| ≤ B := by
  rw [abs_le]
  constructor
  · have := app_le hQ (fun y => -g y) x B (fun y => (neg_le_abs _).trans (hB y))
    have e : app Q (fun y => -g y) x = -app Q g x := by
      simp only [app, mul_neg, Finset.sum_neg_distrib, LinearMap.coe_mk, AddHom.coe_mk]
    rw [e] at this; linarith
  · exact app_le hQ g x B (fun y => (le_abs_self _).trans (hB y))

/-- the law of large numbers, with the constant in terms of the solution of the Poisson equation -/
theorem mean_square_of_poisson (hQ : Stochastic Q) (f g : S → ℝ) (m B : ℝ) (hg : ∀ x, g x - app Q g x = f x - m) (hB : ∀ x, |g x| ≤ B) (n : Nat) (x : S) (hn : 1 ≤ n) :
    expectPath Q n (fun l => (dev f m l / n) ^ 2) x ≤ 12 * B ^ 2 / n := by
  have hA := app_abs hQ g B hB
  have hB0 : 0 ≤ B := (abs_nonneg _).trans (hB x)
  have hn0 : (0:ℝ) < n := by exact_mod_cast hn
  have hn1 : (1:ℝ) ≤ n := by exact_mod_cast hn
  have hC : ∀ x y, (g y - app Q g x) ^ 2 ≤ 4 * B ^ 2 := by
    intro x y
    have h1 := abs_le.mp (hB y)
    have h2 := abs_le.mp (hA x)
    have : |g y - app Q g x| ≤ 2 * B := abs_le.mpr ⟨by linarith, by linarith⟩
    calc (g y - app Q g x) ^ 2 = |g y - app Q g x| ^ 2 := (sq_abs _).symm
      _ ≤ (2 * B) ^ 2 := pow_le_pow_left₀ (abs_nonneg _) this 2
      _ = 4 * B ^ 2 := by ring
  have hb : ∀ x, (app Q g x) ^ 2 ≤ B ^ 2 := fun x => by
    rw [← sq_abs]; exact pow_le_pow_left₀ (abs_nonneg _) (hA x) 2
  have key := martingale hQ (fun x => f x - m) g hg _ hC n 0 x
  have hle : expectPath Q n (fun l => (dev f m l / n) ^ 2) x ≤
      expectPath Q n (fun l => (1 / n ^ 2) * (2 * (0 + (l.map (fun x => f x - m)).sum + app Q g (lastOf x l)) ^ 2 + 2 * B ^ 2)) x := by
    refine expectPath_mono hQ n _ _ x (fun l _ => ?_)
    have e1 : (dev f m l / n) ^ 2 = (1 / n ^ 2) * ((l.map (fun x => f x - m)).sum) ^ 2 := by
      unfold dev; field_simp
    rw [e1]
    refine mul_le_mul_of_nonneg_left ?_ (by positivity)
    have e2 := hb (lastOf x l)
    nlinarith [sq_nonneg ((l.map (fun x => f x - m)).sum + 2 * app Q g (lastOf x l))]
  refine hle.trans ?_
  rw [expectPath_mul, expectPath_add, expectPath_mul, expectPath_const hQ]
  have hx := hb x
  simp only [zero_add] at key ⊢
  rw [div_mul_eq_mul_div, one_mul, div_le_div_iff₀ (by positivity) hn0]
  have e1 : 2 * expectPath Q n (fun l => ((l.map (fun x => f x - m)).sum + app Q g (lastOf x l)) ^ 2) x + 2 * B ^ 2 ≤ (12 * B ^ 2) * n := by
    nlinarith [sq_nonneg B]
  nlinarith

open Classical in
/-- from mean squares to probability one -/
theorem strong_of_mean_square (hS : Stochastic Q) (f : S → ℝ) (t K D : ℝ) (hK0 : 0 ≤ K) (hD0 : 0 ≤ D) (hD : ∀ x, |f x - t| ≤ D)
    (hK : ∀ (n : Nat) (x : S), 1 ≤ n → expectPath Q n (fun l => (dev f t l / n) ^ 2) x ≤ K / n) (start : S) (N : Nat) (ε : ℝ) (hε : 0 < ε) (m : Nat) (hm : 1 ≤ m) :
    expectPath Q N (fun l => if ∃ n, m ≤ n ∧ n ≤ l.length ∧ ε ≤ |dev f t (l.take n) / n| then 1 else 0) start ≤ (16 * K + 8 * D ^ 2) / (ε ^ 2 * √m) := by
  refine bound D K ε hD0 hK0 hε m N hm _ ?_ ?_ ?_
  · refine (expectPath_mono hS N _ (fun _ => 1) start (fun l _ => ?_)).trans (le_of_eq (expectPath_const hS N 1 start))
    split <;> norm_num
  · intro hDε
    refine (expectPath_mono hS N _ (fun _ => 0) start (fun l _ => ?_)).trans (le_of_eq (expectPath_const hS N 0 start))
    rw [if_neg]
    rintro ⟨n, h1, h2, h3⟩
    have b := dev_bound f t D hD (l.take n)
    rw [List.length_take, min_eq_left h2] at b
    have hn0 : (0:ℝ) < n := by exact_mod_cast (by omega : 0 < n)
    rw [abs_div, abs_of_pos hn0, le_div_iff₀ hn0] at h3
    nlinarith
  · intro k₀ hk0 hkm hkD
    refine (expectPath_mono hS N _ (fun l => ∑ n ∈ Finset.Icc 1 N, if ∃ k, k₀ ≤ k ∧ k ^ 2 = n then 4 / ε ^ 2 * (dev f t (l.take n) / n) ^ 2 else 0) start (fun l hl => ?_)).trans ?_
    · split
      · rename_i hex
        have := indicator_le f t D hD hD0 l ε hε m k₀ hk0 hkm hkD hex
        rwa [hl] at this
      · refine Finset.sum_nonneg (fun n _ => ?_)
        split
        · positivity
        · exact le_refl _
    · rw [expectPath_sum]
      refine Finset.sum_le_sum (fun n hn => ?_)
      rw [Finset.mem_Icc] at hn
      split
      · rw [expectPath_take hS n N hn.2 (fun l => 4 / ε ^ 2 * (dev f t l / n) ^ 2) start, expectPath_mul]
        exact mul_le_mul_of_nonneg_left (hK n start hn.1) (by positivity)
      · rw [expectPath_const hS]

/-- `Q` is close to `P`: expected values of functions bounded by one, after one step, differ by at most `ε` -/
def Close (P Q : S → S → ℝ) (ε : ℝ) : Prop := ∀ (g : S → ℝ) (B : ℝ), (∀ x, |g x| ≤ B) → ∀ x, |app Q g x - app P g x| ≤ ε * B

/-- another function of the state, close to `f`, whose averages along the chain `Q` converge to the average of `f` for the stationary distribution of `P` -/
theorem corrector (hP : Stochastic P) (μ : S → ℝ) (hμ : 0 < ∑ x, μ x) (hst : ∀ y, ∑ x, μ x * P x y = μ y) (y0 : S)
    (hr : ∀ x, Relation.ReflTransGen (fun a b => 0 < P a b) x y0) (f : S → ℝ) :
    ∃ B : ℝ, 0 ≤ B ∧ ∀ (Q : S → S → ℝ) (ε : ℝ), Stochastic Q → Close P Q ε → ∃ f' : S → ℝ,
      (∀ x, |f' x - f x| ≤ ε * B) ∧ (∀ x, |f' x - (∑ x, μ x * f x) / ∑ x, μ x| ≤ 2 * B) ∧
      ∀ (n : Nat) (x : S), 1 ≤ n → expectPath Q n (fun l => (dev f' ((∑ x, μ x * f x) / ∑ x, μ x) l / n) ^ 2) x ≤ 12 * B ^ 2 / n := by
  obtain ⟨m, hm⟩ : ∃ m, m = (∑ x, μ x * f x) / ∑ x, μ x := ⟨_, rfl⟩
  obtain ⟨g, hg⟩ := poisson hP μ hμ hst y0 hr (fun x => f x - m) (by
    simp only [mul_sub, Finset.sum_sub_distrib, ← Finset.sum_mul, hm]
    rw [mul_div_cancel₀ _ hμ.ne', sub_self])
  rw [← hm]
  have hB : ∀ x, |g x| ≤ ∑ x, |g x| := fun x => Finset.single_le_sum (f := fun x => |g x|) (fun x _ => abs_nonneg _) (Finset.mem_univ x)
  refine ⟨∑ x, |g x|, Finset.sum_nonneg (fun x _ => abs_nonneg _), fun Q ε hQ hc => ⟨fun x => g x - app Q g x + m, fun x => ?_, fun x => ?_, fun n x hn => ?_⟩⟩
  · have h1 := hc g _ hB x
    have h2 := hg x
    have e : g x - app Q g x + m - f x = -(app Q g x - app P g x) := by linarith
    rw [e, abs_neg]; exact h1
  · have h1 := abs_le.mp (hB x)
    have h2 := abs_le.mp (app_abs hQ g _ hB x)
    exact abs_le.mpr ⟨by linarith, by linarith⟩
  · exact mean_square_of_poisson hQ _ g m _ (fun x => by ring) hB n x hn

theorem dev_diff (f f' : S → ℝ) (t d : ℝ) (h : ∀ x, |f' x - f x| ≤ d) (l : List S) : |dev f t l - dev f' t l| ≤ l.length * d := by
  unfold dev
  induction l with
  | nil => simp
  | cons a l ih =>
    simp only [List.map_cons, List.sum_cons, List.length_cons]
    have h1 := abs_le.mp ih
    have h2 := abs_le.mp (h a)
    push_cast
    exact abs_le.mpr ⟨by linarith, by linarith⟩

theorem dev_diff_div (f f' : S → ℝ) (t d : ℝ) (h : ∀ x, |f' x - f x| ≤ d) (l : List S) (n : Nat) (hn : l.length = n) (h1 : 1 ≤ n) : |dev f t l / n - dev f' t l / n| ≤ d := by
  have hn0 : (0:ℝ) < n := by exact_mod_cast h1
  rw [← sub_div, abs_div, abs_of_pos hn0, div_le_iff₀ hn0]
  have := dev_diff f f' t d h l
  rw [hn] at this
  linarith

open Classical in
/-- **Perturbed chains**: averages along a chain close to `P` are close to averages with respect to the stationary distribution of `P` -/
theorem perturbed (hP : Stochastic P) (μ : S → ℝ) (hμ : 0 < ∑ x, μ x) (hst : ∀ y, ∑ x, μ x * P x y = μ y) (y0 : S)
    (hr : ∀ x, Relation.ReflTransGen (fun a b => 0 < P a b) x y0) (f : S → ℝ) :
    ∃ K : ℝ, 0 ≤ K ∧ ∀ (Q : S → S → ℝ) (ε : ℝ), Stochastic Q → Close P Q ε →
      (∀ (n : Nat) (x : S), 1 ≤ n → expectPath Q n (fun l => (dev f ((∑ x, μ x * f x) / ∑ x, μ x) l / n) ^ 2) x ≤ K / n + K * ε ^ 2) ∧
      ∀ (start : S) (N : Nat) (e : ℝ), 0 < e → ∀ m, 1 ≤ m →
        expectPath Q N (fun l => if ∃ n, m ≤ n ∧ n ≤ l.length ∧ K * ε + e ≤ |dev f ((∑ x, μ x * f x) / ∑ x, μ x) (l.take n) / n| then 1 else 0) start ≤ K / (e ^ 2 * √m) := by
  obtain ⟨B, hB0, hB⟩ := corrector hP μ hμ hst y0 hr f
  set t := (∑ x, μ x * f x) / ∑ x, μ x with ht
  refine ⟨B + 224 * B ^ 2, by positivity, fun Q ε hQ hc => ?_⟩
  obtain ⟨f', h1, h2, h3⟩ := hB Q ε hQ hc
  have hε0 : 0 ≤ ε := by
    have := (abs_nonneg _).trans (hc (fun _ => 0) 1 (fun _ => by simp) y0)
    linarith
  constructor
  · intro n x hn
    have hn0 : (0:ℝ) < n := by exact_mod_cast hn
    refine (expectPath_mono hQ n _ (fun l => 2 * (dev f' t l / n) ^ 2 + 2 * (ε * B) ^ 2) x (fun l hl => ?_)).trans ?_
    · have := dev_diff_div f f' t (ε * B) h1 l n hl hn
      have h5 : (dev f t l / n - dev f' t l / n) ^ 2 ≤ (ε * B) ^ 2 := by
        rw [← sq_abs]; exact pow_le_pow_left₀ (abs_nonneg _) this 2
      nlinarith [sq_nonneg (dev f' t l / n - (dev f t l / n - dev f' t l / n))]
    · rw [expectPath_add, expectPath_mul, expectPath_const hQ]
      have h6 := h3 n x hn
      have e : 24 * B ^ 2 / n ≤ (B + 224 * B ^ 2) / n := div_le_div_of_nonneg_right (by nlinarith [sq_nonneg B]) hn0.le
      have e2 : 12 * B ^ 2 / n * 2 = 24 * B ^ 2 / n := by ring
      have e3 : 0 ≤ ε ^ 2 * (B + 222 * B ^ 2) := by positivity
      nlinarith
  · intro start N e he m hm
    refine (expectPath_mono hQ N _ (fun l => if ∃ n, m ≤ n ∧ n ≤ l.length ∧ e ≤ |dev f' t (l.take n) / n| then 1 else 0) start (fun l _ => ?_)).trans ?_
    · by_cases hx : ∃ n, m ≤ n ∧ n ≤ l.length ∧ (B + 224 * B ^ 2) * ε + e ≤ |dev f t (l.take n) / n|
      · rw [if_pos hx]
        obtain ⟨n, ha, hb, hcc⟩ := hx
        rw [if_pos]
        refine ⟨n, ha, hb, ?_⟩
        have := dev_diff_div f f' t (ε * B) h1 (l.take n) n (by rw [List.length_take]; omega) (by omega)
        have h7 := abs_sub_abs_le_abs_sub (dev f t (l.take n) / n) (dev f' t (l.take n) / n)
        nlinarith [mul_nonneg hε0 (sq_nonneg B)]
      · rw [if_neg hx]; split <;> norm_num
    · refine (strong_of_mean_square hQ f' t (12 * B ^ 2) (2 * B) (by positivity) (by positivity) h2 h3 start N e he m hm).trans ?_
      have hs : (0:ℝ) < √m := Real.sqrt_pos.mpr (by exact_mod_cast hm)
      refine div_le_div_of_nonneg_right ?_ (by positivity)
      nlinarith

end SampleFlow.Perturbed
