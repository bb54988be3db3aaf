import Verif.Proofs.StrongFinite
import Verif.Proofs.LagCovariance

/-! The strong law for functions of two samples at a fixed distance, and for the auto-covariance estimator. -/

namespace SampleFlow.StrongLag

open Spec Ergodic StrongLaw

variable {S : Type}

/-- a quantity that changes by at most `D` with every sample -/
structure Slow (A : List S → ℝ) (D : ℝ) : Prop where
  nil : A [] = 0
  step : ∀ l y, |A (l ++ [y]) - A l| ≤ D

theorem Slow.diff {A : List S → ℝ} {D : ℝ} (h : Slow A D) (l l' : List S) : |A (l ++ l') - A l| ≤ l'.length * D := by
  induction l' using List.reverseRecOn with
  | nil => simp
  | append_singleton l' y ih =>
    have e : A (l ++ (l' ++ [y])) - A l = (A ((l ++ l') ++ [y]) - A (l ++ l')) + (A (l ++ l') - A l) := by rw [List.append_assoc]; ring
    rw [e]
    refine (abs_add_le _ _).trans ?_
    have := h.step (l ++ l') y
    rw [List.length_append, List.length_singleton]
    push_cast
    linarith

theorem Slow.bound {A : List S → ℝ} {D : ℝ} (h : Slow A D) (l : List S) : |A l| ≤ l.length * D := by
  have := h.diff [] l
  rwa [List.nil_append, h.nil, sub_zero] at this

theorem near_square {A : List S → ℝ} {D : ℝ} (h : Slow A D) (hD0 : 0 ≤ D) (l : List S) (k n : Nat) (hk : 1 ≤ k) (h1 : k ^ 2 ≤ n) (h2 : n < (k+1) ^ 2) :
    |A (l.take n) / n| ≤ |A (l.take (k^2)) / (k ^ 2 : ℕ)| + 2 * D / k := by
  have hk0 : (0:ℝ) < k := by exact_mod_cast hk
  have hq0 : (0:ℝ) < ((k ^ 2 : ℕ) : ℝ) := by push_cast; positivity
  have hqn : ((k ^ 2 : ℕ) : ℝ) ≤ n := by exact_mod_cast h1
  have hn0 : (0:ℝ) < n := hq0.trans_le hqn
  have e : l.take n = l.take (k^2) ++ (l.drop (k^2)).take (n - k^2) := by
    rw [← List.take_add]
    congr 1
    omega
  have b1 := h.diff (l.take (k^2)) ((l.drop (k^2)).take (n - k^2))
  have hlen : ((l.drop (k^2)).take (n - k^2)).length ≤ 2 * k := by
    rw [List.length_take]
    have : (k+1)^2 = k^2 + 2 * k + 1 := by ring
    omega
  rw [← e] at b1
  have b2 : |A (l.take n) - A (l.take (k^2))| ≤ 2 * k * D :=
    b1.trans (mul_le_mul_of_nonneg_right (by exact_mod_cast hlen) hD0)
  rw [abs_div, abs_div, abs_of_pos hn0, abs_of_pos hq0]
  refine (div_le_div_of_nonneg_left (abs_nonneg _) hq0 hqn).trans ?_
  have : 2 * D / k = 2 * k * D / ((k ^ 2 : ℕ) : ℝ) := by push_cast; field_simp
  rw [this, ← add_div]
  refine div_le_div_of_nonneg_right ?_ hq0.le
  have e2 : A (l.take n) = A (l.take (k^2)) + (A (l.take n) - A (l.take (k^2))) := by ring
  rw [e2]
  exact (abs_add_le _ _).trans (by linarith)

open Classical in
theorem indicator_le {A : List S → ℝ} {D : ℝ} (hA : Slow A D) (hD0 : 0 ≤ D) (l : List S) (ε : ℝ) (hε : 0 < ε) (m k₀ : Nat) (hk0 : 1 ≤ k₀) (hkm : k₀ ^ 2 ≤ m) (hkD : 4 * D / ε ≤ k₀)
    (h : ∃ n, m ≤ n ∧ n ≤ l.length ∧ ε ≤ |A (l.take n) / n|) :
    1 ≤ ∑ n ∈ Finset.Icc 1 l.length, if ∃ k, k₀ ≤ k ∧ k ^ 2 = n then 4 / ε ^ 2 * (A (l.take n) / n) ^ 2 else 0 := by
  obtain ⟨n, h1, h2, h3⟩ := h
  set k := Nat.sqrt n with hk
  have hk1 : k ^ 2 ≤ n := by rw [pow_two]; exact Nat.sqrt_le n
  have hk2 : n < (k+1) ^ 2 := by rw [pow_two]; exact Nat.lt_succ_sqrt n
  have hk3 : k₀ ≤ k := by rw [hk, Nat.le_sqrt, ← pow_two]; omega
  have hkpos : (0:ℝ) < k := by exact_mod_cast (by omega : 0 < k)
  have h4 := near_square hA hD0 l k n (by omega) hk1 hk2
  have h5 : 2 * D / k ≤ ε / 2 := by
    rw [div_le_iff₀ hε] at hkD
    rw [div_le_iff₀ hkpos]
    have : (k₀ : ℝ) ≤ k := by exact_mod_cast hk3
    nlinarith
  have h6 : ε / 2 ≤ |A (l.take (k^2)) / (k ^ 2 : ℕ)| := by linarith
  have h7 : 1 ≤ 4 / ε ^ 2 * (A (l.take (k^2)) / (k ^ 2 : ℕ)) ^ 2 := by
    have := pow_le_pow_left₀ (by positivity) h6 2
    rw [sq_abs] at this
    rw [div_mul_eq_mul_div, le_div_iff₀ (by positivity)]
    nlinarith
  have hmem : k ^ 2 ∈ Finset.Icc 1 l.length := by
    rw [Finset.mem_Icc]
    exact ⟨Nat.one_le_pow _ _ (by omega), by omega⟩
  have hnn : ∀ n ∈ Finset.Icc 1 l.length, 0 ≤ if ∃ k, k₀ ≤ k ∧ k ^ 2 = n then 4 / ε ^ 2 * (A (l.take n) / n) ^ 2 else 0 := by
    intro n _
    split
    · positivity
    · exact le_refl _
  refine le_trans ?_ (Finset.single_le_sum hnn hmem)
  rw [if_pos ⟨k, hk3, rfl⟩]
  exact h7

variable [Fintype S]

/-- the strong law for slowly changing quantities -/
theorem strong_slow {P : S → S → ℝ} (hS : Stochastic P) (A : List S → ℝ) (D K : ℝ) (hA : Slow A D) (hD0 : 0 ≤ D) (hK0 : 0 ≤ K)
    (hK : ∀ (n : Nat) (x : S), 1 ≤ n → expectPath P n (fun l => (A l / n) ^ 2) x ≤ K / n)
    (start : S) (N : Nat) (ε : ℝ) (hε : 0 < ε) (m : Nat) (hm : 1 ≤ m) (E : List S → Prop) [DecidablePred E]
    (hE : ∀ l, l.length = N → E l → ∃ n, m ≤ n ∧ n ≤ l.length ∧ ε ≤ |A (l.take n) / n|) :
    expectPath P N (fun l => if E l then 1 else 0) start ≤ (16 * K + 8 * D ^ 2) / (ε ^ 2 * √m) := by
  classical
  refine (expectPath_mono hS N _ (fun l => if ∃ n, m ≤ n ∧ n ≤ l.length ∧ ε ≤ |A (l.take n) / n| then 1 else 0) start (fun l hl => ?_)).trans ?_
  · by_cases h1 : E l
    · rw [if_pos h1, if_pos (hE l hl h1)]
    · rw [if_neg h1]; split <;> norm_num
  refine StrongLaw.bound D K ε hD0 hK0 hε m N hm _ ?_ ?_ ?_
  · refine (expectPath_mono hS N _ (fun _ => 1) start (fun l _ => ?_)).trans (le_of_eq (expectPath_const hS N 1 start))
    split <;> norm_num
  · intro hDε
    refine (expectPath_mono hS N _ (fun _ => 0) start (fun l _ => ?_)).trans (le_of_eq (expectPath_const hS N 0 start))
    rw [if_neg]
    rintro ⟨n, h1, h2, h3⟩
    have b := hA.bound (l.take n)
    rw [List.length_take, min_eq_left h2] at b
    have hn0 : (0:ℝ) < n := by exact_mod_cast (by omega : 0 < n)
    rw [abs_div, abs_of_pos hn0, le_div_iff₀ hn0] at h3
    nlinarith
  · intro k₀ hk0 hkm hkD
    refine (expectPath_mono hS N _ (fun l => ∑ n ∈ Finset.Icc 1 N, if ∃ k, k₀ ≤ k ∧ k ^ 2 = n then 4 / ε ^ 2 * (A (l.take n) / n) ^ 2 else 0) start (fun l hl => ?_)).trans ?_
    · split
      · rename_i hex
        have := indicator_le hA hD0 l ε hε m k₀ hk0 hkm hkD hex
        rwa [hl] at this
      · refine Finset.sum_nonneg (fun n _ => ?_)
        split
        · positivity
        · exact le_refl _
    · rw [expectPath_sum]
      refine Finset.sum_le_sum (fun n hn => ?_)
      rw [Finset.mem_Icc] at hn
      split
      · rw [expectPath_take hS n N hn.2 (fun l => 4 / ε ^ 2 * (A l / n) ^ 2) start, expectPath_mul]
        exact mul_le_mul_of_nonneg_left (hK n start hn.1) (by positivity)
      · rw [expectPath_const hS]

/-- the sum over the pairs at distance `l` of the differences from `t` -/
noncomputable def lagDev (g : S → S → ℝ) (l : Nat) (t : ℝ) (xs : List S) : ℝ := lagSum g l xs.reverse - xs.length * t

theorem lagDev_slow [Nonempty S] (g : S → S → ℝ) (l : Nat) (t : ℝ) : ∃ D, 0 ≤ D ∧ Slow (lagDev g l t) D := by
  obtain ⟨B, hB0, hB⟩ := exists_bound g
  refine ⟨B + |t|, by positivity, by simp [lagDev, lagSum], fun xs y => ?_⟩
  have e : lagDev g l t (xs ++ [y]) - lagDev g l t xs = lagTerm g l (y :: xs.reverse) y - t := by
    unfold lagDev
    rw [List.reverse_append, List.reverse_singleton, List.singleton_append, lagSum, List.length_append, List.length_singleton]
    push_cast
    ring
  rw [e]
  exact (abs_sub _ _).trans (add_le_add (lagTerm_bound g B hB l _ y) (le_refl _))

theorem lagDev_eq (g : S → S → ℝ) (l : Nat) (t : ℝ) (xs : List S) (n : Nat) (hn : xs.length = n) (h1 : 1 ≤ n) :
    lagDev g l t xs / n = lagSum g l xs.reverse / n - t := by
  have : (n : ℝ) ≠ 0 := by exact_mod_cast (by omega : n ≠ 0)
  unfold lagDev
  rw [hn]
  field_simp

/-- **strong law for pairs** -/
theorem strong_pairs {P : S → S → ℝ} (h : Stochastic P) (π : S → ℝ) (hπ : 0 < ∑ x, π x) (hst : ∀ y, ∑ x, π x * P x y = π y) (y0 : S)
    (hr : ∀ x, Relation.ReflTransGen (fun a b => 0 < P a b) x y0) (l : Nat) (g : S → S → ℝ) :
    ∃ K : ℝ, 0 ≤ K ∧ ∀ (start : S) (N : Nat) (ε : ℝ), 0 < ε → ∀ m, 1 ≤ m → ∀ (E : List S → Prop) [DecidablePred E],
      (∀ xs, xs.length = N → E xs → ∃ n, m ≤ n ∧ n ≤ xs.length ∧ ε ≤ |lagSum g l (xs.take n).reverse / n - (∑ x, π x * power P l (g x) x) / ∑ x, π x|) →
      expectPath P N (fun xs => if E xs then 1 else 0) start ≤ K / (ε ^ 2 * √m) := by
  have : Nonempty S := ⟨y0⟩
  obtain ⟨K, hK⟩ := mean_square_pairs h π hπ hst y0 hr l g
  obtain ⟨t, ht⟩ : ∃ t, t = (∑ x, π x * power P l (g x) x) / ∑ x, π x := ⟨_, rfl⟩
  rw [← ht] at hK ⊢
  obtain ⟨D, hD0, hD⟩ := lagDev_slow g l t
  have hK' : ∀ (n : Nat) (x : S), 1 ≤ n → expectPath P n (fun xs => (lagDev g l t xs / n) ^ 2) x ≤ K / n := by
    intro n x hn
    refine le_trans (le_of_eq (expectPath_congr n _ _ x (fun xs hxs => ?_))) (hK n x hn)
    rw [lagDev_eq g l t xs n hxs hn]
  have hK0 : 0 ≤ K := by
    have h1 := hK' 1 y0 (le_refl 1)
    have h2 := expectPath_mono h 1 (fun _ => 0) (fun xs => (lagDev g l t xs / (1:ℕ)) ^ 2) y0 (fun xs _ => by positivity)
    rw [expectPath_const h] at h2
    have := h2.trans h1
    simpa using this
  refine ⟨16 * K + 8 * D ^ 2, by positivity, fun start N ε hε m hm E _ hE => ?_⟩
  refine strong_slow h (lagDev g l t) D K hD hD0 hK0 hK' start N ε hε m hm E (fun xs hxs he => ?_)
  obtain ⟨n, h1, h2, h3⟩ := hE xs hxs he
  refine ⟨n, h1, h2, ?_⟩
  rwa [lagDev_eq g l t _ n (by rw [List.length_take]; omega) (by omega)]

open Classical in
/-- `X` is rarely large after `m` samples or later -/
def Rare (P : S → S → ℝ) (m₀ : Nat) (X : List S → ℝ) : Prop :=
  ∃ K : ℝ, 0 ≤ K ∧ ∀ (start : S) (N : Nat) (ε : ℝ), 0 < ε → ∀ m, 1 ≤ m → m₀ ≤ m →
    expectPath P N (fun l => if ∃ n, m ≤ n ∧ n ≤ l.length ∧ ε ≤ |X (l.take n)| then 1 else 0) start ≤ K / (ε ^ 2 * √m)

theorem rare_pairs {P : S → S → ℝ} (h : Stochastic P) (π : S → ℝ) (hπ : 0 < ∑ x, π x) (hst : ∀ y, ∑ x, π x * P x y = π y) (y0 : S)
    (hr : ∀ x, Relation.ReflTransGen (fun a b => 0 < P a b) x y0) (l : Nat) (g : S → S → ℝ) :
    Rare P 1 (fun xs => lagSum g l xs.reverse / xs.length - (∑ x, π x * power P l (g x) x) / ∑ x, π x) := by
  classical
  obtain ⟨K, h0, hK⟩ := strong_pairs h π hπ hst y0 hr l g
  refine ⟨K, h0, fun start N ε hε m hm _ => ?_⟩
  refine le_trans (le_of_eq ?_) (hK start N ε hε m hm _ (fun xs _ he => he))
  refine expectPath_congr N _ _ start (fun xs _ => if_congr ?_ rfl rfl)
  refine exists_congr (fun n => and_congr_right (fun _ => and_congr_right (fun h2 => ?_)))
  have : (xs.take n).length = n := by rw [List.length_take]; omega
  simp only [this]

theorem rare_mean {P : S → S → ℝ} (h : Stochastic P) (π : S → ℝ) (hπ : 0 < ∑ x, π x) (hst : ∀ y, ∑ x, π x * P x y = π y) (y0 : S)
    (hr : ∀ x, Relation.ReflTransGen (fun a b => 0 < P a b) x y0) (f : S → ℝ) :
    Rare P 1 (fun xs => (xs.map f).sum / xs.length - (∑ x, π x * f x) / ∑ x, π x) := by
  have := rare_pairs h π hπ hst y0 hr 0 (fun _ y => f y)
  have e : ∀ xs : List S, lagSum (fun _ y => f y) 0 xs.reverse = (xs.map f).sum := by
    intro xs
    rw [lagSum_eq]
    congr 1
    unfold lagPairs
    rw [List.drop_zero]
    induction xs with
    | nil => rfl
    | cons a xs ih => rw [List.zip_cons_cons, List.map_cons, ih, List.map_cons]
  simp only [e] at this
  exact this

/-- what is bounded by rarely large quantities is rarely large -/
theorem Rare.two {P : S → S → ℝ} (hS : Stochastic P) {m₀ m₁ m₂ : Nat} {X Y V : List S → ℝ} (hX : Rare P m₁ X) (hY : Rare P m₂ Y) (a b c : ℝ) (ha : 0 ≤ a) (hb : 0 ≤ b) (hc : 0 ≤ c)
    (h1 : m₁ ≤ m₀) (h2 : m₂ ≤ m₀)
    (hV : ∀ l, m₀ ≤ l.length → V l ^ 2 ≤ a * X l ^ 2 + b * Y l ^ 2 + c / l.length) : Rare P m₀ V := by
  classical
  obtain ⟨K1, k1, hK1⟩ := hX
  obtain ⟨K2, k2, hK2⟩ := hY
  refine ⟨9 * (a + 1) ^ 2 * K1 + 9 * (b + 1) ^ 2 * K2 + 2 * c, by positivity, fun start N ε hε m hm hm0 => ?_⟩
  have hmR : (1:ℝ) ≤ m := by exact_mod_cast hm
  have hs0 : (0:ℝ) < √m := Real.sqrt_pos.mpr (by linarith)
  have hsm : √(m:ℝ) ≤ m := by
    rw [Real.sqrt_le_left (by linarith)]
    nlinarith
  by_cases hcm : ε ^ 2 * m ≤ 2 * c
  · refine (expectPath_mono hS N _ (fun _ => 1) start (fun l _ => by split <;> norm_num)).trans ?_
    rw [expectPath_const hS, le_div_iff₀ (by positivity), one_mul]
    have : ε ^ 2 * √m ≤ ε ^ 2 * m := mul_le_mul_of_nonneg_left hsm (by positivity)
    have : 0 ≤ 9 * (a + 1) ^ 2 * K1 + 9 * (b + 1) ^ 2 * K2 := by positivity
    linarith
  have hcm := not_le.mp hcm
  have p1 := hK1 start N (ε / (3 * (a + 1))) (by positivity) m hm (by omega)
  have p2 := hK2 start N (ε / (3 * (b + 1))) (by positivity) m hm (by omega)
  have e1 : K1 / ((ε / (3 * (a + 1))) ^ 2 * √m) = 9 * (a + 1) ^ 2 * K1 / (ε ^ 2 * √m) := by field_simp; ring
  have e2 : K2 / ((ε / (3 * (b + 1))) ^ 2 * √m) = 9 * (b + 1) ^ 2 * K2 / (ε ^ 2 * √m) := by field_simp; ring
  rw [e1] at p1
  rw [e2] at p2
  refine (expectPath_mono hS N _ (fun l => (if ∃ n, m ≤ n ∧ n ≤ l.length ∧ ε / (3 * (a + 1)) ≤ |X (l.take n)| then 1 else 0) +
      (if ∃ n, m ≤ n ∧ n ≤ l.length ∧ ε / (3 * (b + 1)) ≤ |Y (l.take n)| then 1 else 0)) start (fun l _ => ?_)).trans ?_
  · split
    · rename_i hex
      obtain ⟨n, n1, n2, n3⟩ := hex
      by_cases c1 : ∃ n, m ≤ n ∧ n ≤ l.length ∧ ε / (3 * (a + 1)) ≤ |X (l.take n)|
      · rw [if_pos c1]; split <;> norm_num
      by_cases c2 : ∃ n, m ≤ n ∧ n ≤ l.length ∧ ε / (3 * (b + 1)) ≤ |Y (l.take n)|
      · rw [if_pos c2]; split <;> norm_num
      exfalso
      simp only [not_exists, not_and, not_le] at c1 c2
      have d1 := c1 n n1 n2
      have d2 := c2 n n1 n2
      have hlt : (l.take n).length = n := by rw [List.length_take]; omega
      have hv := hV (l.take n) (by omega)
      rw [hlt] at hv
      have hnm : (m:ℝ) ≤ n := by exact_mod_cast n1
      have key : ∀ (u : ℝ) (x : ℝ), 0 ≤ u → |x| < ε / (3 * (u + 1)) → u * x ^ 2 ≤ ε ^ 2 / 9 := by
        intro u x hu hx
        have : x ^ 2 ≤ (ε / (3 * (u + 1))) ^ 2 := by rw [← sq_abs]; exact pow_le_pow_left₀ (abs_nonneg _) hx.le 2
        refine (mul_le_mul_of_nonneg_left this hu).trans ?_
        rw [div_pow, mul_div_assoc', div_le_div_iff₀ (by positivity) (by norm_num)]
        have : u ≤ (u + 1) ^ 2 := by nlinarith
        have := mul_le_mul_of_nonneg_left this (by positivity : (0:ℝ) ≤ 9 * ε ^ 2)
        nlinarith
      have f1 := key a _ ha d1
      have f2 := key b _ hb d2
      have f3 : c / n ≤ ε ^ 2 / 2 := by
        rw [div_le_iff₀ (by linarith)]
        have := mul_le_mul_of_nonneg_left hnm (sq_nonneg ε)
        linarith
      have f4 : ε ^ 2 ≤ V (l.take n) ^ 2 := by
        rw [← sq_abs (V _)]; exact pow_le_pow_left₀ hε.le n3 2
      have : 0 < ε ^ 2 := by positivity
      linarith
    · positivity
  · rw [expectPath_add]
    have : (9 * (a + 1) ^ 2 * K1 + 9 * (b + 1) ^ 2 * K2 + 2 * c) / (ε ^ 2 * √m) = 9 * (a + 1) ^ 2 * K1 / (ε ^ 2 * √m) + 9 * (b + 1) ^ 2 * K2 / (ε ^ 2 * √m) + 2 * c / (ε ^ 2 * √m) := by ring
    rw [this]
    have : 0 ≤ 2 * c / (ε ^ 2 * √m) := by positivity
    linarith

theorem Rare.one {P : S → S → ℝ} (hS : Stochastic P) {m₀ m₁ : Nat} {X V : List S → ℝ} (hX : Rare P m₁ X) (a c : ℝ) (ha : 0 ≤ a) (hc : 0 ≤ c) (h1 : m₁ ≤ m₀)
    (hV : ∀ l, m₀ ≤ l.length → V l ^ 2 ≤ a * X l ^ 2 + c / l.length) : Rare P m₀ V :=
  hX.two hS hX a 0 c ha (le_refl 0) hc h1 h1 (fun l hl => by rw [zero_mul, add_zero]; exact hV l hl)

theorem Rare.sum {P : S → S → ℝ} (hS : Stochastic P) {m₀ : Nat} {κ : Type} [DecidableEq κ] (s : Finset κ) (X : κ → List S → ℝ) (hX : ∀ k, Rare P m₀ (X k)) :
    Rare P m₀ (fun l => ∑ k ∈ s, X k l) := by
  classical
  induction s using Finset.induction_on with
  | empty =>
    refine ⟨0, le_refl 0, fun start N ε hε m _ _ => ?_⟩
    refine (expectPath_mono hS N _ (fun _ => 0) start (fun l _ => ?_)).trans (by rw [expectPath_const hS]; simp)
    rw [if_neg]
    rintro ⟨n, -, -, h⟩
    beta_reduce at h
    rw [Finset.sum_empty, abs_zero] at h
    linarith
  | insert k s hk ih =>
    refine (hX k).two hS ih 2 2 0 (by norm_num) (by norm_num) (le_refl 0) (le_refl _) (le_refl _) (fun l _ => ?_)
    rw [Finset.sum_insert hk, zero_div, add_zero]
    nlinarith [sq_nonneg (X k l - ∑ k ∈ s, X k l)]

theorem rare_autocov {P : S → S → ℝ} (h : Stochastic P) (π : S → ℝ) (hπ : 0 < ∑ x, π x) (hst : ∀ y, ∑ x, π x * P x y = π y) (y0 : S)
    (hr : ∀ x, Relation.ReflTransGen (fun a b => 0 < P a b) x y0) (l : Nat) (F G : S → ℝ) :
    Rare P (l + 2) (fun xs => autoCovOf F G l xs - (∑ x, π x * power P l (fun y => (F y - (∑ x, π x * F x) / ∑ x, π x) * (G x - (∑ x, π x * G x) / ∑ x, π x)) x) / ∑ x, π x) := by
  have : Nonempty S := ⟨y0⟩
  obtain ⟨u, hu⟩ : ∃ u, u = (∑ x, π x * F x) / ∑ x, π x := ⟨_, rfl⟩
  obtain ⟨v, hv⟩ : ∃ v, v = (∑ x, π x * G x) / ∑ x, π x := ⟨_, rfl⟩
  rw [← hu, ← hv]
  have hF0 : (∑ x, π x * (F x - u)) / ∑ x, π x = 0 := by
    simp only [mul_sub, Finset.sum_sub_distrib, ← Finset.sum_mul]
    rw [hu, mul_div_cancel₀ _ hπ.ne', sub_self, zero_div]
  have hG0 : (∑ x, π x * (G x - v)) / ∑ x, π x = 0 := by
    simp only [mul_sub, Finset.sum_sub_distrib, ← Finset.sum_mul]
    rw [hv, mul_div_cancel₀ _ hπ.ne', sub_self, zero_div]
  have r1 := rare_pairs h π hπ hst y0 hr l (fun x y => (F y - u) * (G x - v))
  have r2 := rare_mean h π hπ hst y0 hr (fun x => F x - u)
  have r3 := rare_mean h π hπ hst y0 hr (fun x => G x - v)
  rw [hF0] at r2
  rw [hG0] at r3
  simp only [sub_zero] at r2 r3
  obtain ⟨γ, hγ⟩ : ∃ γ, γ = (∑ x, π x * power P l (fun y => (F y - u) * (G x - v)) x) / ∑ x, π x := ⟨_, rfl⟩
  rw [← hγ] at r1 ⊢
  obtain ⟨a, ha⟩ := Finite.exists_max (fun x : S => |F x - u|)
  obtain ⟨b, hb⟩ := Finite.exists_max (fun x : S => |G x - v|)
  obtain ⟨B, hB⟩ : ∃ B, B = |F a - u| + |G b - v| := ⟨_, rfl⟩
  have hB0 : 0 ≤ B := by rw [hB]; positivity
  have r23 : Rare P 1 (fun xs => √((10 * (l + 2) ^ 2 * B ^ 2) * ((xs.map (fun x => G x - v)).sum / xs.length) ^ 2 + (5 * (l + 2) ^ 2 * B ^ 2) * ((xs.map (fun x => F x - u)).sum / xs.length) ^ 2)) := by
    refine r3.two h r2 (10 * (l + 2) ^ 2 * B ^ 2) (5 * (l + 2) ^ 2 * B ^ 2) 0 (by positivity) (by positivity) (le_refl 0) (le_refl 1) (le_refl 1) (fun xs _ => ?_)
    rw [Real.sq_sqrt (by positivity), zero_div, add_zero]
  refine r1.two h r23 (5 * (l + 2) ^ 2) 1 (5 * ((l + 1) * (l + 2) * γ) ^ 2) (by positivity) (by norm_num) (by positivity) (by omega) (by omega) (fun xs hxs => ?_)
  have hne : xs ≠ [] := by intro e; rw [e] at hxs; simp at hxs
  rw [autoCovOf_shift F G l xs u v hne, Real.sq_sqrt (by positivity)]
  have := autoCovOf_near (fun x => F x - u) (fun x => G x - v) B hB0 (fun x => (ha x).trans (by rw [hB]; linarith [abs_nonneg (G b - v)]))
      (fun x => (hb x).trans (by rw [hB]; linarith [abs_nonneg (F a - u)])) l xs.length xs rfl hxs γ
  linarith

end SampleFlow.StrongLag
