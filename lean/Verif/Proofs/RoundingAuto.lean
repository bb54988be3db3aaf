import Verif.Model.RoundingAuto
import Verif.Proofs.RoundingCov
import Verif.Proofs.AutoCov
import Mathlib.Algebra.BigOperators.Fin

/-! Rounding errors of AutoCovarianceTrace. -/

namespace SampleFlow.RoundingAuto

open Spec

variable {u : ℝ} {fl : ℝ → ℝ} {d : Nat}

/-- a sum accumulated term by term: `v` are the computed terms, `V` the exact ones -/
theorem acc_error (h : Rounding u fl) (hu0 : 0 ≤ u) {X : Type} (l : List X) (v V : X → ℝ) (s S E R₀ W ε R : ℝ)
    (hs : |s - S| ≤ E) (hS : |S| ≤ R₀) (hV : ∀ j ∈ l, |V j| ≤ W) (hv : ∀ j ∈ l, |v j - V j| ≤ ε) (hW : 0 ≤ W) (hε : 0 ≤ ε) (hR : 0 ≤ R)
    (hbound : R₀ + l.length * W + E + l.length * ε + l.length * (u * R) ≤ R) :
    |l.foldl (fun s j => fl (s + v j)) s - (S + (l.map V).sum)| ≤ E + l.length * (ε + u * R) := by
  induction l generalizing s S E R₀ with
  | nil => simpa using hs
  | cons a l ih =>
    have hVa := hV a (by simp)
    have hva := hv a (by simp)
    have hn : (0:ℝ) ≤ (l.length : ℝ) := Nat.cast_nonneg _
    have huR : 0 ≤ u * R := mul_nonneg hu0 hR
    simp only [List.length_cons, Nat.cast_add, Nat.cast_one] at hbound ⊢
    have p1 : 0 ≤ (l.length : ℝ) * W := mul_nonneg hn hW
    have p2 : 0 ≤ (l.length : ℝ) * ε := mul_nonneg hn hε
    have p3 : 0 ≤ (l.length : ℝ) * (u * R) := mul_nonneg hn huR
    have hsize : |s + v a| ≤ R := by
      have e : s + v a = (s - S) + (S + ((v a - V a) + V a)) := by ring
      rw [e]
      have a1 := abs_add_le (s - S) (S + ((v a - V a) + V a))
      have a2 := abs_add_le S ((v a - V a) + V a)
      have a3 := abs_add_le (v a - V a) (V a)
      linarith
    have hr := h.bound hu0 hsize
    have key := ih (fl (s + v a)) (S + V a) (E + (ε + u * R)) (R₀ + W) ?_ ?_ (fun j hj => hV j (by simp [hj])) (fun j hj => hv j (by simp [hj])) ?_
    · simp only [List.foldl_cons, List.map_cons, List.sum_cons]
      rw [← add_assoc]
      refine key.trans (le_of_eq ?_)
      ring
    · have e : fl (s + v a) - (S + V a) = (fl (s + v a) - (s + v a)) + ((s - S) + (v a - V a)) := by ring
      rw [e]
      have a1 := abs_add_le (fl (s + v a) - (s + v a)) ((s - S) + (v a - V a))
      have a2 := abs_add_le (s - S) (v a - V a)
      linarith
    · exact (abs_add_le S (V a)).trans (by linarith)
    · linarith

theorem sum_finRange (f : Fin d → ℝ) : ((List.finRange d).map f).sum = ∑ j, f j := by
  rw [← List.ofFn_eq_map, List.sum_ofFn]

theorem length_finRange' : ((List.finRange d).length : ℝ) = d := by simp

/-- a scalar product that is added to `s` -/
theorem dot_error (h : Rounding u fl) (hu0 : 0 ≤ u) (hud : u * d ≤ 1/256) (hu : u ≤ 1/256) (s M R₀ : ℝ) (x y : Fin d → ℝ) (hs : |s| ≤ R₀)
    (hx : ∀ j, |x j| ≤ M) (hy : ∀ j, |y j| ≤ M) :
    |@dotFrom ℝ (roundedArith fl) d s x y - (s + ∑ j, x j * y j)| ≤ 3 * (u * d) * (R₀ + d * (M * M)) := by
  have hR₀ : 0 ≤ R₀ := (abs_nonneg s).trans hs
  have hMM : 0 ≤ M * M := mul_self_nonneg M
  have hd : (0:ℝ) ≤ d := Nat.cast_nonneg _
  have hT : 0 ≤ d * (M * M) := mul_nonneg hd hMM
  have hprod : ∀ j, |x j * y j| ≤ M * M := fun j => by
    rw [abs_mul]
    exact mul_le_mul (hx j) (hy j) (abs_nonneg _) ((abs_nonneg _).trans (hx j))
  have huT : u * (d * (M * M)) ≤ 1/256 * (d * (M * M)) := mul_le_mul_of_nonneg_right hu hT
  have hudR : (u * d) * (1.1 * (R₀ + d * (M * M))) ≤ 1/256 * (1.1 * (R₀ + d * (M * M))) := mul_le_mul_of_nonneg_right hud (by linarith)
  have key := acc_error h hu0 (List.finRange d) (fun j => fl (x j * y j)) (fun j => x j * y j) s s 0 R₀ (M * M) (u * (M * M))
    (1.1 * (R₀ + d * (M * M))) (by simp) hs (fun j _ => hprod j) (fun j _ => h.bound hu0 (hprod j)) hMM (mul_nonneg hu0 hMM) (by linarith)
    (by rw [length_finRange']; linarith)
  rw [sum_finRange, length_finRange'] at key
  refine key.trans ?_
  have e : (0:ℝ) + d * (u * (M * M) + u * (1.1 * (R₀ + d * (M * M)))) = u * (d * (M * M)) + u * d * (1.1 * (R₀ + d * (M * M))) := by ring
  rw [e]
  rcases Nat.eq_zero_or_pos d with rfl | hd1
  · simp
  · have hd1' : (1:ℝ) ≤ d := by exact_mod_cast hd1
    have : u * (d * (M * M)) ≤ u * d * (d * (M * M)) := by
      have := mul_le_mul_of_nonneg_left hd1' (mul_nonneg hu0 hT)
      nlinarith
    have hud0 : 0 ≤ u * d := mul_nonneg hu0 hd
    have := mul_nonneg hud0 hR₀
    have := mul_nonneg hud0 hT
    linarith

/-- one step of a running average: `S` is the computed difference between the new term `t` and the average `a` so far -/
theorem avg_step (h : Rounding u fl) (hu0 : 0 ≤ u) (hu : u ≤ 1/256) (a A t S B E σ k : ℝ) (hk : 1 ≤ k)
    (ht : |t| ≤ B) (hA : |A| ≤ B) (hE : |a - A| ≤ E) (hEB : E ≤ 0.05 * B) (hS : |S - (t - a)| ≤ σ) (hσ : σ ≤ 0.05 * B) :
    k * |fl (a + fl (S * fl (1 / k))) - (A + (t - A) / k)| ≤ (k - 1) * E + σ + 4.4 * (u * B) + 1.2 * (u * B) * k := by
  have hB : 0 ≤ B := (abs_nonneg t).trans ht
  have hk0 : 0 < k := by linarith
  have huB0 : 0 ≤ u * B := mul_nonneg hu0 hB
  have huB : u * B ≤ 1/256 * B := mul_le_mul_of_nonneg_right hu hB
  obtain ⟨w, hw⟩ : ∃ w, w = B / k := ⟨_, rfl⟩
  have hkw : k * w = B := by rw [hw]; field_simp
  have hw0 : 0 ≤ w := by rw [hw]; exact div_nonneg hB hk0.le
  have hwB : w ≤ B := by nlinarith
  have huw0 : 0 ≤ u * w := mul_nonneg hu0 hw0
  have huw : u * w ≤ 1/256 * w := mul_le_mul_of_nonneg_right hu hw0
  have ha : |a| ≤ 1.05 * B := by
    have := abs_add_le (a - A) A
    rw [sub_add_cancel] at this
    linarith
  have hσ0 : 0 ≤ σ := (abs_nonneg _).trans hS
  have hta : |t - a| ≤ 2.05 * B := (abs_sub t a).trans (by linarith)
  have hS1 : |S| ≤ 2.1 * B := by
    have := abs_add_le (S - (t - a)) (t - a)
    rw [sub_add_cancel] at this
    linarith
  -- the reciprocal
  have hr : |fl (1 / k) - 1 / k| ≤ u * (1 / k) := by
    have := h.error (1 / k)
    rwa [abs_of_pos (by positivity : 0 < 1 / k)] at this
  generalize fl (1 / k) = r at *
  have hSr : |S * r - (t - a) / k| ≤ σ / k + 2.1 * (u * w) := by
    have e : S * r - (t - a) / k = S * (r - 1 / k) + (S - (t - a)) / k := by ring
    rw [e]
    refine (abs_add_le _ _).trans ?_
    rw [abs_mul, abs_div, abs_of_pos hk0]
    have a1 := mul_le_mul hS1 hr (abs_nonneg _) (by linarith)
    have a2 := div_le_div_of_nonneg_right hS hk0.le
    have a3 : 2.1 * B * (u * (1 / k)) = 2.1 * (u * w) := by rw [hw]; ring
    linarith
  have hσk : σ / k ≤ 0.05 * w := by
    rw [hw, div_le_iff₀ hk0]
    have : 0.05 * (B / k) * k = 0.05 * B := by field_simp
    linarith
  have htak : |(t - a) / k| ≤ 2.05 * w := by
    rw [abs_div, abs_of_pos hk0, hw]
    have := div_le_div_of_nonneg_right hta hk0.le
    rw [mul_div_assoc] at this
    exact this
  have hSr1 : |S * r| ≤ 2.15 * w := by
    have := abs_add_le (S * r - (t - a) / k) ((t - a) / k)
    rw [sub_add_cancel] at this
    linarith
  have hw1 := h.bound hu0 hSr1
  generalize fl (S * r) = p at *
  have hp : |p - (t - a) / k| ≤ σ / k + 4.25 * (u * w) := by
    have := abs_add_le (p - S * r) (S * r - (t - a) / k)
    rw [sub_add_sub_cancel] at this
    linarith
  have hconv : |a + (t - a) / k| ≤ 1.05 * B := by
    have e : a + (t - a) / k = a * ((k - 1) / k) + t * (1 / k) := by field_simp; ring
    rw [e]
    refine (abs_add_le _ _).trans ?_
    rw [abs_mul, abs_mul, abs_of_nonneg (div_nonneg (by linarith) hk0.le : (0:ℝ) ≤ (k - 1) / k), abs_of_pos (by positivity : 0 < 1 / k)]
    have a1 := mul_le_mul_of_nonneg_right ha (div_nonneg (by linarith) hk0.le : (0:ℝ) ≤ (k - 1) / k)
    have a2 := mul_le_mul_of_nonneg_right ht (by positivity : 0 ≤ 1 / k)
    have a3 : 1.05 * B * ((k - 1) / k) + 1.05 * B * (1 / k) = 1.05 * B := by field_simp; ring
    have a4 : B * (1 / k) ≤ 1.05 * B * (1 / k) := mul_le_mul_of_nonneg_right (by linarith) (by positivity)
    linarith
  have hap : |a + p| ≤ 1.2 * B := by
    have e : a + p = (p - (t - a) / k) + (a + (t - a) / k) := by ring
    rw [e]
    have := abs_add_le (p - (t - a) / k) (a + (t - a) / k)
    linarith
  have hfin := h.bound hu0 hap
  have e : fl (a + p) - (A + (t - A) / k) = (fl (a + p) - (a + p)) + ((p - (t - a) / k) + (a - A) * ((k - 1) / k)) := by
    field_simp; ring
  rw [e]
  have a1 := abs_add_le (fl (a + p) - (a + p)) ((p - (t - a) / k) + (a - A) * ((k - 1) / k))
  have a2 := abs_add_le (p - (t - a) / k) ((a - A) * ((k - 1) / k))
  have a3 : k * |(a - A) * ((k - 1) / k)| ≤ (k - 1) * E := by
    rw [abs_mul, abs_of_nonneg (div_nonneg (by linarith) hk0.le : (0:ℝ) ≤ (k - 1) / k)]
    have : k * (|a - A| * ((k - 1) / k)) = (k - 1) * |a - A| := by field_simp
    rw [this]
    exact mul_le_mul_of_nonneg_left hE (by linarith)
  have tot : |fl (a + p) - (a + p) + (p - (t - a) / k + (a - A) * ((k - 1) / k))| ≤
      u * (1.2 * B) + (σ / k + 4.25 * (u * w)) + |(a - A) * ((k - 1) / k)| := by linarith
  have := mul_le_mul_of_nonneg_left tot hk0.le
  have e2 : k * (u * (1.2 * B) + (σ / k + 4.25 * (u * w)) + |(a - A) * ((k - 1) / k)|) =
      1.2 * (u * B) * k + σ + 4.25 * (u * (k * w)) + k * |(a - A) * ((k - 1) / k)| := by field_simp; ring
  rw [e2, hkw] at this
  linarith

/-! ### the exact recursions -/

variable {ι : Type} [Fintype ι]

theorem alphaSpec_init (l : Nat) (xs : List (ι → ℝ)) (s : ι → ℝ) (hn : xs.length = l + 1)
    (h0 : l < (s :: xs.reverse).length) (h1 : l + 1 < (s :: xs.reverse).length) (h2 : 1 < (s :: xs.reverse).length) :
    alphaSpec l (xs ++ [s]) = (0 + ∑ j, s j * (s :: xs.reverse)[l] j) + ∑ j, (s :: xs.reverse)[1] j * (s :: xs.reverse)[l+1] j := by
  rw [alphaSpec_neg l _ (by simp; omega), lagPairs_init l xs s hn _ rfl h0 h1 h2]
  have hden : (((xs ++ [s]).length : ℕ) : ℝ) - l - 1 = 1 := by
    rw [List.length_append, hn]; simp; ring
  rw [hden]
  simp only [List.map_cons, List.map_nil, List.sum_cons, List.sum_nil]
  ring

theorem betaSpec_init (l : Nat) (xs : List (ι → ℝ)) (s : ι → ℝ) (hn : xs.length = l + 1)
    (h0 : l < (s :: xs.reverse).length) (h1 : l + 1 < (s :: xs.reverse).length) (h2 : 1 < (s :: xs.reverse).length) (j : ι) :
    betaSpec l (xs ++ [s]) j = ((s j + (s :: xs.reverse)[1] j) + (s :: xs.reverse)[l] j) + (s :: xs.reverse)[l+1] j := by
  rw [betaSpec_neg l _ (by simp; omega), lagPairs_init l xs s hn _ rfl h0 h1 h2]
  have hden : (((xs ++ [s]).length : ℕ) : ℝ) - l - 1 = 1 := by
    rw [List.length_append, hn]; simp; ring
  rw [hden]
  simp only [List.map_cons, List.map_nil, List.sum_cons, List.sum_nil]
  ring

theorem alphaSpec_next (l : Nat) (xs : List (ι → ℝ)) (s : ι → ℝ) (hn : l + 2 ≤ xs.length) (h0 : l < (s :: xs.reverse).length) :
    alphaSpec l (xs ++ [s]) = alphaSpec l xs + (∑ j, s j * (s :: xs.reverse)[l] j - alphaSpec l xs) / ((xs.length : ℝ) - l) := by
  rw [alphaSpec_neg l _ (by simp; omega), alphaSpec_neg l xs (by omega), lagPairs_append l xs s (by omega) h0]
  obtain ⟨d1, d2⟩ := cast_lag (K := ℝ) xs.length l hn
  simp only [List.map_append, List.sum_append, List.map_cons, List.map_nil, List.sum_cons, List.sum_nil, List.length_append, List.length_cons,
    List.length_nil, zero_add, Nat.cast_add, Nat.cast_one]
  have e : (xs.length : ℝ) + 1 - l - 1 = xs.length - l := by ring
  rw [e]
  field_simp
  ring

theorem betaSpec_next (l : Nat) (xs : List (ι → ℝ)) (s : ι → ℝ) (hn : l + 2 ≤ xs.length) (h0 : l < (s :: xs.reverse).length) (j : ι) :
    betaSpec l (xs ++ [s]) j = betaSpec l xs j + ((s j + (s :: xs.reverse)[l] j) - betaSpec l xs j) / ((xs.length : ℝ) - l) := by
  rw [betaSpec_neg l _ (by simp; omega), betaSpec_neg l xs (by omega), lagPairs_append l xs s (by omega) h0]
  obtain ⟨d1, d2⟩ := cast_lag (K := ℝ) xs.length l hn
  simp only [List.map_append, List.sum_append, List.map_cons, List.map_nil, List.sum_cons, List.sum_nil, List.length_append, List.length_cons,
    List.length_nil, zero_add, Nat.cast_add, Nat.cast_one]
  have e : (xs.length : ℝ) + 1 - l - 1 = xs.length - l := by ring
  rw [e]
  field_simp
  ring

theorem abs_sum_le {X : Type} (l : List X) (f : X → ℝ) (B : ℝ) (h : ∀ x ∈ l, |f x| ≤ B) : |(l.map f).sum| ≤ l.length * B := by
  induction l with
  | nil => simp
  | cons a l ih =>
    have h1 := h a (by simp)
    have h2 := ih (fun x hx => h x (by simp [hx]))
    simp only [List.map_cons, List.sum_cons, List.length_cons, Nat.cast_add, Nat.cast_one]
    have := abs_add_le (f a) ((l.map f).sum)
    linarith

theorem lagPairs_mem {X : Type} {l : Nat} {xs : List X} {p : X × X} (h : p ∈ lagPairs l xs) : p.1 ∈ xs ∧ p.2 ∈ xs := by
  have h1 := List.of_mem_zip (show (p.1, p.2) ∈ (xs.drop l).zip xs from h)
  exact ⟨List.mem_of_mem_drop h1.1, h1.2⟩

/-- an average over `n - l` terms with denominator `n - l - 1` -/
theorem ratio_bound (n l : Nat) (hn : l + 2 ≤ n) (S B : ℝ) (hB : 0 ≤ B) (hS : |S| ≤ ((n - l : ℕ) : ℝ) * B) : |S / ((n : ℝ) - l - 1)| ≤ 2 * B := by
  obtain ⟨k, rfl⟩ := Nat.exists_eq_add_of_le hn
  have e1 : l + 2 + k - l = k + 2 := by omega
  rw [e1] at hS
  have e2 : ((l + 2 + k : ℕ) : ℝ) - l - 1 = k + 1 := by push_cast; ring
  have hk : (0:ℝ) ≤ k := Nat.cast_nonneg k
  rw [e2, abs_div, abs_of_pos (by linarith : (0:ℝ) < k + 1), div_le_iff₀ (by linarith)]
  push_cast at hS
  have := mul_nonneg hk hB
  linarith

theorem dot_bound (x y : Fin d → ℝ) (M : ℝ) (hx : ∀ j, |x j| ≤ M) (hy : ∀ j, |y j| ≤ M) : |∑ j, x j * y j| ≤ d * (M * M) := by
  have := abs_sum_le (List.finRange d) (fun j => x j * y j) (M * M) (fun j _ => by
    rw [abs_mul]; exact mul_le_mul (hx j) (hy j) (abs_nonneg _) ((abs_nonneg _).trans (hx j)))
  rwa [sum_finRange, length_finRange'] at this

theorem alphaSpec_bound (l : Nat) (xs : List (Fin d → ℝ)) (hn : l + 2 ≤ xs.length) (M : ℝ) (hM : ∀ x ∈ xs, ∀ j, |x j| ≤ M) :
    |alphaSpec l xs| ≤ 2 * (d * (M * M)) := by
  rw [alphaSpec_neg l xs (by omega)]
  refine ratio_bound xs.length l hn _ _ (mul_nonneg (Nat.cast_nonneg _) (mul_self_nonneg _)) ?_
  rw [← lagPairs_length]
  exact abs_sum_le _ _ _ (fun p hp => dot_bound _ _ M (hM _ (lagPairs_mem hp).1) (hM _ (lagPairs_mem hp).2))

theorem betaSpec_bound (l : Nat) (xs : List (Fin d → ℝ)) (hn : l + 2 ≤ xs.length) (M : ℝ) (hM : ∀ x ∈ xs, ∀ j, |x j| ≤ M) (j : Fin d) :
    |betaSpec l xs j| ≤ 4 * M := by
  have hM0 : 0 ≤ M := by
    obtain ⟨x, hx⟩ := List.exists_mem_of_ne_nil xs (by intro h; simp [h] at hn)
    exact (abs_nonneg _).trans (hM x hx j)
  rw [betaSpec_neg l xs (by omega)]
  have := ratio_bound xs.length l hn ((lagPairs l xs).map (fun p => p.1 j + p.2 j)).sum (2 * M) (by linarith) (by
    rw [← lagPairs_length]
    refine abs_sum_le _ _ _ (fun p hp => ?_)
    have a1 := hM _ (lagPairs_mem hp).1 j
    have a2 := hM _ (lagPairs_mem hp).2 j
    exact (abs_add_le _ _).trans (by linarith))
  linarith

/-! ### the two accumulators -/

/-- how far the stored values for lag `l` may be from the exact ones -/
def Rel (u M : ℝ) (l : Nat) (xs : List (Fin d → ℝ)) (e : ℝ × (Fin d → ℝ)) : Prop :=
  (xs.length ≤ l + 1 → e.1 = 0 ∧ ∀ j, e.2 j = 0) ∧
  (l + 2 ≤ xs.length →
    |e.1 - alphaSpec l xs| ≤ u * (d * (M * M)) * (1.2 * ((xs.length : ℝ) - l - 1) + 10 * d + 10) ∧
    ∀ j, |e.2 j - betaSpec l xs j| ≤ u * M * (2.4 * ((xs.length : ℝ) - l - 1) + 29))

theorem fl_zero_sub (h : Rounding u fl) (a : ℝ) (ha : fl a = a) : fl (fl ((0:ℕ):ℝ) - a) = -a := by
  rw [Nat.cast_zero, h.zero, zero_sub, h.odd, ha]

theorem dotFrom_machine (h : Rounding u fl) (s : ℝ) (x y : Fin d → ℝ) (hs : fl s = s) :
    fl (@dotFrom ℝ (roundedArith fl) d s x y) = @dotFrom ℝ (roundedArith fl) d s x y := by
  have : ∀ (l : List (Fin d)) (s : ℝ), fl s = s → fl (l.foldl (fun s j => fl (s + fl (x j * y j))) s) = l.foldl (fun s j => fl (s + fl (x j * y j))) s := by
    intro l
    induction l with
    | nil => intro s hs; exact hs
    | cons a l ih => intro s hs; exact ih _ (h.idempotent _)
  exact this _ s hs

theorem lag_rel (h : Rounding u fl) (hu0 : 0 ≤ u) (L l : Nat) (hl : l ≤ L) (xs : List (Fin d → ℝ)) (s : Fin d → ℝ) (hxs : xs ≠ [])
    (hun : u * ((xs.length : ℝ) + 1 + d) ≤ 1/256) (M : ℝ) (hM : ∀ x ∈ xs ++ [s], ∀ j, |x j| ≤ M)
    (hcount : ∀ n : Nat, n ≤ xs.length + 1 → fl n = n) (lags : List (ℝ × (Fin d → ℝ))) (e : ℝ × (Fin d → ℝ)) (he : readAt lags l = .ok e)
    (hma : fl e.1 = e.1) (hrel : Rel u M l xs e) :
    ∃ e', @actMachineLag ℝ (roundedArith fl) d xs.length (s :: xs.reverse.take (L+1)) s lags l = .ok e' ∧ fl e'.1 = e'.1 ∧ Rel u M l (xs ++ [s]) e' := by
  let _ := roundedArith fl
  obtain ⟨a, b⟩ := e
  have hpos : 0 < xs.length := List.length_pos_iff.mpr hxs
  have hn1 : (1:ℝ) ≤ xs.length := by exact_mod_cast hpos
  have hd : (0:ℝ) ≤ d := Nat.cast_nonneg _
  have hud0 : 0 ≤ u * d := mul_nonneg hu0 hd
  have hunn : u * 1 ≤ u * xs.length := mul_le_mul_of_nonneg_left hn1 hu0
  have hun' : u * xs.length + u + u * d ≤ 1/256 := by linarith
  have hu : u ≤ 1/512 := by linarith
  have hud : u * d ≤ 1/256 := by linarith
  have hMs : ∀ j, |s j| ≤ M := hM s (by simp)
  have hMx : ∀ x ∈ xs, ∀ j, |x j| ≤ M := fun x hx => hM x (by simp [hx])
  have hMr : ∀ x ∈ s :: xs.reverse, ∀ j, |x j| ≤ M := fun x hx => hM x (by simp at hx ⊢; tauto)
  have hMM : 0 ≤ M * M := mul_self_nonneg M
  have hT : 0 ≤ d * (M * M) := mul_nonneg hd hMM
  have huT : 0 ≤ u * (d * (M * M)) := mul_nonneg hu0 hT
  have hudT : 0 ≤ u * d * (d * (M * M)) := mul_nonneg hud0 hT
  have hudT' : u * d * (d * (M * M)) ≤ 1/256 * (d * (M * M)) := mul_le_mul_of_nonneg_right hud hT
  have hlen : ((xs ++ [s]).length : ℝ) = xs.length + 1 := by simp
  unfold actMachineLag
  rw [he]
  simp only [bind, Except.bind]
  by_cases h1 : xs.length = l + 1
  · rw [if_pos h1]
    have hr1 : 1 < (s :: xs.reverse).length := by simp; omega
    have hrl : l < (s :: xs.reverse).length := by simp; omega
    have hrl1 : l + 1 < (s :: xs.reverse).length := by simp; omega
    rw [window_read (L+1) xs s 0 (by omega) (by simp), window_read (L+1) xs s 1 (by omega) hr1,
      window_read (L+1) xs s l (by omega) hrl, window_read (L+1) xs s (l+1) (by omega) hrl1]
    have e0 : (s :: xs.reverse)[0]'(by simp) = s := rfl
    simp only [e0]
    have m1 := hMr _ (List.getElem_mem hr1)
    have m2 := hMr _ (List.getElem_mem hrl)
    have m3 := hMr _ (List.getElem_mem hrl1)
    refine ⟨_, rfl, ?_, ?_, ?_⟩
    · exact dotFrom_machine h _ _ _ (dotFrom_machine h _ _ _ (h.idempotent _))
    · intro hc; simp at hc; omega
    · intro _
      rw [alphaSpec_init l xs s h1 hrl hrl1 hr1, hlen]
      have hk : (xs.length : ℝ) + 1 - l - 1 = 1 := by rw [h1]; push_cast; ring
      rw [hk]
      constructor
      · show |dotFrom (dotFrom (fl ((0:ℕ):ℝ)) s _) _ _ - _| ≤ _
        rw [Nat.cast_zero, h.zero]
        have q1 := dot_error h hu0 hud (by linarith) 0 M 0 s _ (by simp) hMs m2
        have b1 := dot_bound s _ M hMs m2
        generalize dotFrom (D := ℝ) 0 s (s :: xs.reverse)[l] = α at *
        generalize ∑ j, s j * (s :: xs.reverse)[l] j = t1 at *
        have hα : |α| ≤ 1.02 * (d * (M * M)) := by
          have := abs_add_le (α - (0 + t1)) t1
          rw [show α - (0 + t1) + t1 = α by ring] at this
          linarith
        have q2 := dot_error h hu0 hud (by linarith) α M _ _ _ hα m1 m3
        generalize dotFrom (D := ℝ) α (s :: xs.reverse)[1] (s :: xs.reverse)[l+1] = α' at *
        generalize ∑ j, (s :: xs.reverse)[1] j * (s :: xs.reverse)[l+1] j = t2 at *
        have e : α' - (0 + t1 + t2) = (α' - (α + t2)) + (α - (0 + t1)) := by ring
        rw [e]
        have := abs_add_le (α' - (α + t2)) (α - (0 + t1))
        linarith
      · intro j
        rw [betaSpec_init l xs s h1 hrl hrl1 hr1 j]
        show |fl (fl (fl (s j + _) + _) + _) - _| ≤ _
        have a0 := hMs j
        have a1 := m1 j
        have a2 := m2 j
        have a3 := m3 j
        generalize s j = x0 at *
        generalize (s :: xs.reverse)[1] j = x1 at *
        generalize (s :: xs.reverse)[l] j = x2 at *
        generalize (s :: xs.reverse)[l+1] j = x3 at *
        have hM0 : 0 ≤ M := (abs_nonneg _).trans a0
        have huM0 : 0 ≤ u * M := mul_nonneg hu0 hM0
        have huM : u * M ≤ 1/512 * M := mul_le_mul_of_nonneg_right hu hM0
        have c1 : |x0 + x1| ≤ 2 * M := (abs_add_le _ _).trans (by linarith)
        have r1 := h.bound hu0 c1
        have g1 := h.size hu0 c1
        generalize fl (x0 + x1) = y1 at *
        have c2 : |y1 + x2| ≤ 3.1 * M := (abs_add_le _ _).trans (by linarith)
        have r2 := h.bound hu0 c2
        have g2 := h.size hu0 c2
        generalize fl (y1 + x2) = y2 at *
        have c3 : |y2 + x3| ≤ 4.2 * M := (abs_add_le _ _).trans (by linarith)
        have r3 := h.bound hu0 c3
        have e : fl (y2 + x3) - (x0 + x1 + x2 + x3) = (fl (y2 + x3) - (y2 + x3)) + ((y2 - (y1 + x2)) + (y1 - (x0 + x1))) := by ring
        rw [e]
        have b1 := abs_add_le (fl (y2 + x3) - (y2 + x3)) ((y2 - (y1 + x2)) + (y1 - (x0 + x1)))
        have b2 := abs_add_le (y2 - (y1 + x2)) (y1 - (x0 + x1))
        linarith
  · rw [if_neg h1]
    by_cases h2 : xs.length ≥ l + 2
    · rw [if_pos h2]
      have hrl : l < (s :: xs.reverse).length := by simp; omega
      rw [window_read (L+1) xs s l (by omega) hrl]
      have m2 := hMr _ (List.getElem_mem hrl)
      have hcast : ((xs.length - l : ℕ) : ℝ) = xs.length - l := by rw [Nat.cast_sub (by omega)]
      have hc1 : fl ((1:ℕ):ℝ) = 1 := by rw [hcount 1 (by omega)]; simp
      have hc2 : fl ((xs.length - l : ℕ) : ℝ) = xs.length - l := by rw [hcount _ (by omega), hcast]
      have hk1 : (2:ℝ) ≤ xs.length - l := by
        rw [← hcast]; exact_mod_cast (by omega : 2 ≤ xs.length - l)
      have hk2 : (xs.length : ℝ) - l ≤ xs.length := by
        have : (0:ℝ) ≤ l := Nat.cast_nonneg l
        linarith
      have huk : u * ((xs.length : ℝ) - l) ≤ u * xs.length := mul_le_mul_of_nonneg_left hk2 hu0
      obtain ⟨ra, rb⟩ := hrel.2 h2
      have hA := alphaSpec_bound l xs h2 M hMx
      refine ⟨_, rfl, h.idempotent _, ?_, ?_⟩
      · intro hc; simp at hc; omega
      · intro _
        rw [alphaSpec_next l xs s h2 hrl, hlen]
        have hk : (xs.length : ℝ) + 1 - l - 1 = xs.length - l := by ring
        rw [hk]
        constructor
        · show |fl (a + fl (dotFrom (fl (fl ((0:ℕ):ℝ) - a)) s _ * fl (fl ((1:ℕ):ℝ) / fl ((xs.length - l : ℕ) : ℝ)))) - _| ≤ _
          rw [fl_zero_sub h a hma, hc1, hc2]
          have bt := dot_bound s _ M hMs m2
          change |a - _| ≤ _ at ra
          have hEsmall : u * (d * (M * M)) * (1.2 * ((xs.length : ℝ) - l - 1) + 10 * d + 10) ≤ 0.05 * (2 * (d * (M * M))) := by
            have : u * (1.2 * ((xs.length : ℝ) - l - 1) + 10 * d + 10) ≤ 0.1 := by linarith
            have := mul_le_mul_of_nonneg_right this hT
            linarith
          have haT : |a| ≤ 2.1 * (d * (M * M)) := by
            have := abs_add_le (a - alphaSpec l xs) (alphaSpec l xs)
            rw [sub_add_cancel] at this
            linarith
          have q := dot_error h hu0 hud (by linarith) (-a) M (2.1 * (d * (M * M))) s _ (by rw [abs_neg]; exact haT) hMs m2
          generalize dotFrom (D := ℝ) (-a) s (s :: xs.reverse)[l] = S at *
          generalize ∑ j, s j * (s :: xs.reverse)[l] j = t at *
          have step := avg_step h hu0 (by linarith) a (alphaSpec l xs) t S (2 * (d * (M * M))) _ (9.3 * (u * d * (d * (M * M)))) ((xs.length : ℝ) - l)
            (by linarith) (by linarith) hA ra hEsmall (by rw [show t - a = -a + t by ring]; linarith) (by linarith)
          generalize fl (a + fl (S * fl (1 / ((xs.length : ℝ) - l)))) = a' at *
          generalize alphaSpec l xs + (t - alphaSpec l xs) / ((xs.length : ℝ) - l) = A' at *
          generalize (xs.length : ℝ) - l = k at *
          have hk0 : 0 < k := by linarith
          refine le_of_mul_le_mul_left (step.trans ?_) hk0
          generalize (d : ℝ) * (M * M) = T at *
          have e1 : k * (u * T * (1.2 * k + 10 * d + 10)) - ((k - 1) * (u * T * (1.2 * (k - 1) + 10 * d + 10)) + 9.3 * (u * d * T) + 4.4 * (u * (2 * T)) +
              1.2 * (u * (2 * T)) * k) = 0.7 * (u * d * T) := by ring
          linarith
        · intro j
          rw [betaSpec_next l xs s h2 hrl j]
          show |fl (b j + fl (fl (fl (s j + _) - b j) * fl (fl ((1:ℕ):ℝ) / fl ((xs.length - l : ℕ) : ℝ)))) - _| ≤ _
          rw [hc1, hc2]
          have hB := betaSpec_bound l xs h2 M hMx j
          have rbj := rb j
          change |b j - _| ≤ _ at rbj
          have a0 := hMs j
          have a2 := m2 j
          generalize s j = x0 at *
          generalize (s :: xs.reverse)[l] j = x2 at *
          generalize b j = bj at *
          generalize betaSpec l xs j = Bj at *
          have hM0 : 0 ≤ M := (abs_nonneg _).trans a0
          have huM0 : 0 ≤ u * M := mul_nonneg hu0 hM0
          have huM : u * M ≤ 1/512 * M := mul_le_mul_of_nonneg_right hu hM0
          have hEsmall : u * M * (2.4 * ((xs.length : ℝ) - l - 1) + 29) ≤ 0.05 * (4 * M) := by
            have : u * (2.4 * ((xs.length : ℝ) - l - 1) + 29) ≤ 0.2 := by linarith
            have := mul_le_mul_of_nonneg_right this hM0
            linarith
          have hb : |bj| ≤ 4.2 * M := by
            have := abs_add_le (bj - Bj) Bj
            rw [sub_add_cancel] at this
            linarith
          have c1 : |x0 + x2| ≤ 2 * M := (abs_add_le _ _).trans (by linarith)
          have r1 := h.bound hu0 c1
          have g1 := h.size hu0 c1
          generalize hy : fl (x0 + x2) = y at *
          have c2 : |y - bj| ≤ 6.3 * M := (abs_sub _ _).trans (by linarith)
          have r2 := h.bound hu0 c2
          generalize fl (y - bj) = S at *
          have hS : |S - (x0 + x2 - bj)| ≤ 8.4 * (u * M) := by
            have e : S - (x0 + x2 - bj) = (S - (y - bj)) + (y - (x0 + x2)) := by ring
            rw [e]
            have := abs_add_le (S - (y - bj)) (y - (x0 + x2))
            linarith
          have step := avg_step h hu0 (by linarith) bj Bj (x0 + x2) S (4 * M) _ (8.4 * (u * M)) ((xs.length : ℝ) - l)
            (by linarith) (by linarith) hB rbj hEsmall hS (by linarith)
          generalize fl (bj + fl (S * fl (1 / ((xs.length : ℝ) - l)))) = a' at *
          generalize Bj + (x0 + x2 - Bj) / ((xs.length : ℝ) - l) = A' at *
          generalize (xs.length : ℝ) - l = k at *
          have hk0 : 0 < k := by linarith
          refine le_of_mul_le_mul_left (step.trans ?_) hk0
          have e1 : k * (u * M * (2.4 * k + 29)) - ((k - 1) * (u * M * (2.4 * (k - 1) + 29)) + 8.4 * (u * M) + 4.4 * (u * (4 * M)) +
              1.2 * (u * (4 * M)) * k) = 0.6 * (u * M) := by ring
          linarith
    · rw [if_neg h2]
      refine ⟨(a, b), rfl, hma, fun _ => hrel.1 (by omega), fun hc => ?_⟩
      simp at hc; omega

theorem machineMean_len [Arith ℝ] {ι : Type} (G : ι → ℝ) (xs : List (ι → ℝ)) : (machineMean G xs).n = xs.length :=
  (machineCov_mean G (fun _ _ => 0) (fun _ _ => 0) xs).2

theorem state_rel (h : Rounding u fl) (hu0 : 0 ≤ u) (L : Nat) (M₀ : Fin d → ℝ) (xs : List (Fin d → ℝ)) (hxs : xs ≠ [])
    (hun : u * ((xs.length : ℝ) + d) ≤ 1/256) (M : ℝ) (hM : ∀ x ∈ xs, ∀ j, |x j| ≤ M)
    (hcount : ∀ n : Nat, n ≤ xs.length → fl n = n) :
    ∃ lags, @actMachine ℝ (roundedArith fl) d L M₀ xs =
        .ok ⟨xs.length, (@machineMean ℝ (Fin d) (roundedArith fl) M₀ xs).mean, lags, xs.reverse.take (L+1)⟩ ∧
      ∀ l ≤ L, ∃ e, readAt lags l = .ok e ∧ fl e.1 = e.1 ∧ Rel u M l xs e := by
  let _ := roundedArith fl
  induction xs using List.reverseRecOn with
  | nil => exact absurd rfl hxs
  | append_singleton xs x ih =>
    by_cases hx : xs = []
    · subst hx
      refine ⟨List.replicate (L+1) (Arith.ofNat 0, fun _ => Arith.ofNat 0), ?_, ?_⟩
      · simp only [actMachine, List.nil_append, List.foldlM_cons, List.foldlM_nil, ACTState.init, actMachineConsume, if_true]
        rw [show List.take (L+1) [x].reverse = [x] by simp]
        rfl
      have hz : (Arith.ofNat 0 : ℝ) = 0 := by
        show fl ((0:ℕ):ℝ) = 0
        rw [Nat.cast_zero, h.zero]
      intro l hl
      refine ⟨(Arith.ofNat 0, fun _ => Arith.ofNat 0), ?_, by rw [hz, h.zero], fun _ => ⟨hz, fun _ => hz⟩, fun hc => ?_⟩
      · rw [readAt_ok _ l (by simp; omega)]
        simp
      · simp at hc
    · have hlen : ((xs ++ [x]).length : ℝ) = xs.length + 1 := by simp
      rw [hlen] at hun
      have hd : (0:ℝ) ≤ d := Nat.cast_nonneg _
      obtain ⟨lags, e1, e2⟩ := ih hx (by linarith) (fun y hy => hM y (by simp [hy])) (fun n hn => hcount n (by simp; omega))
      have hl : xs.length ≠ 0 := by simpa using hx
      have hpos : 0 < xs.length := by omega
      have step : ∀ l ≤ L, ∃ e', actMachineLag xs.length (x :: xs.reverse.take (L+1)) x lags l = .ok e' ∧ fl e'.1 = e'.1 ∧ Rel u M l (xs ++ [x]) e' := by
        intro l hl
        obtain ⟨e, r1, r2, r3⟩ := e2 l hl
        exact lag_rel h hu0 L l hl xs x hx hun M hM (fun n hn => hcount n (by simp; omega)) lags e r1 r2 r3
      choose! g hg using step
      refine ⟨(List.range (L+1)).map g, ?_, ?_⟩
      · unfold actMachine at e1 ⊢
        rw [foldlM_append_ok _ _ _ _ _ e1]
        unfold actMachineConsume
        rw [if_neg hl]
        dsimp only
        rw [mapM_ok _ g _ (fun l hl => (hg l (by simp at hl; omega)).1)]
        simp only [bind, Except.bind, pure, Except.pure]
        have hs : machineMean M₀ (xs ++ [x]) = meanConsume (machineMean M₀ xs) x := by simp [machineMean]
        have hm : (machineMean M₀ (xs ++ [x])).mean = fun i => Arith.add ((machineMean M₀ xs).mean i)
            (Arith.div (Arith.sub (x i) ((machineMean M₀ xs).mean i)) (Arith.ofNat (xs.length + 1))) := by
          rw [hs]
          unfold meanConsume
          rw [if_neg (by rw [machineMean_len]; exact hl), machineMean_len]
        rw [hm, ← window_next, List.length_append, List.length_singleton]
      · intro l hl
        refine ⟨g l, ?_, (hg l hl).2⟩
        rw [readAt_ok _ l (by simp; omega)]
        simp

/-- entry `l` of `get` -/
theorem getLag_error (h : Rounding u fl) (hu0 : 0 ≤ u) (L l : Nat) (hl : l ≤ L) (M₀ : Fin d → ℝ) (xs : List (Fin d → ℝ)) (hxs : xs ≠ [])
    (hun : u * ((xs.length : ℝ) + d) ≤ 1/256) (M : ℝ) (hx : ∀ x ∈ xs, ∀ i, fl (x i) = x i) (hM : ∀ x ∈ xs, ∀ j, |x j| ≤ M)
    (hcount : ∀ n : Nat, n ≤ xs.length → fl n = n) (s : ACTState ℝ (Fin d)) (hs : @actMachine ℝ (roundedArith fl) d L M₀ xs = .ok s) :
    ∃ r, @actMachineGetLag ℝ (roundedArith fl) d s l = .ok r ∧
      (xs.length ≤ l + 1 → r = 0) ∧
      (l + 2 ≤ xs.length → |r - autoCovTrace l xs| ≤ u * (d * (M * M)) * (8 * xs.length + 25 * d + 100)) := by
  let _ := roundedArith fl
  obtain ⟨lags, e1, e2⟩ := state_rel h hu0 L M₀ xs hxs hun M hM hcount
  rw [e1] at hs
  cases hs
  obtain ⟨⟨a, b⟩, r1, r2, r3⟩ := e2 l hl
  unfold actMachineGetLag
  simp only [r1, bind, Except.bind, pure, Except.pure]
  refine ⟨_, rfl, ?_, ?_⟩
  · intro hn
    rw [if_neg (by omega)]
    obtain ⟨z1, z2⟩ := r3.1 hn
    change a = 0 at z1
    change ∀ j, b j = 0 at z2
    have : ∀ (l : List (Fin d)), l.foldl (fun r j => Arith.sub r (Arith.mul ((machineMean M₀ xs).mean j) (b j))) (0:ℝ) = 0 := by
      intro l
      induction l with
      | nil => rfl
      | cons j l ih =>
        have : Arith.sub (0:ℝ) (Arith.mul ((machineMean M₀ xs).mean j) (b j)) = 0 := by
          show fl (0 - fl (_ * b j)) = 0
          rw [z2 j, mul_zero, h.zero, sub_zero, h.zero]
        rw [List.foldl_cons, this]
        exact ih
    rw [z1]
    exact this _
  · intro hn
    rw [if_pos (by omega)]
    obtain ⟨ra, rb⟩ := r3.2 hn
    change |a - _| ≤ _ at ra
    change ∀ j, |b j - _| ≤ _ at rb
    have hd : (0:ℝ) ≤ d := Nat.cast_nonneg _
    have hnn : (2:ℝ) ≤ xs.length := by exact_mod_cast (by omega : 2 ≤ xs.length)
    have hud0 : 0 ≤ u * d := mul_nonneg hu0 hd
    have hunn : u * 2 ≤ u * xs.length := mul_le_mul_of_nonneg_left hnn hu0
    have hun' : u * xs.length + u * d ≤ 1/256 := by linarith
    have hu : u ≤ 1/512 := by linarith
    have hMM : 0 ≤ M * M := mul_self_nonneg M
    have hT : 0 ≤ d * (M * M) := mul_nonneg hd hMM
    have huT : 0 ≤ u * (d * (M * M)) := mul_nonneg hu0 hT
    -- the number of terms
    have hcast : ((xs.length - l - 1 : ℕ) : ℝ) = xs.length - l - 1 := by
      rw [Nat.cast_sub (by omega), Nat.cast_sub (by omega)]; simp
    have hk1 : (1:ℝ) ≤ xs.length - l - 1 := by
      rw [← hcast]; exact_mod_cast (by omega : 1 ≤ xs.length - l - 1)
    have hkn : (xs.length : ℝ) - l - 1 ≤ xs.length - 1 := by
      have : (0:ℝ) ≤ l := Nat.cast_nonneg l
      linarith
    have hc1 : fl ((1:ℕ):ℝ) = 1 := by rw [hcount 1 (by omega)]; simp
    have hc2 : fl ((xs.length - l - 1 : ℕ) : ℝ) = xs.length - l - 1 := by rw [hcount _ (by omega), hcast]
    -- means
    have mean_facts : ∀ j, |(machineMean M₀ xs).mean j| ≤ M ∧ |vmean xs j| ≤ M ∧
        |(machineMean M₀ xs).mean j - vmean xs j| ≤ u * M * (((xs.length : ℝ) - 1) / 2 + 6) := by
      intro j
      obtain ⟨-, -, ⟨y, hy, hy'⟩, ⟨z, hz, hz'⟩⟩ := machineMean_inv h (by linarith) M₀ xs hxs hx hcount j
      have b1 := abs_le.mp (hM y hy j)
      have b2 := abs_le.mp (hM z hz j)
      refine ⟨abs_le.mpr ⟨by linarith, by linarith⟩, ?_, ?_⟩
      · have := abs_sum_le xs (fun x => x j) M (fun x hx => hM x hx j)
        unfold vmean mean
        rw [List.length_map, abs_div, abs_of_pos (by linarith : (0:ℝ) < xs.length), div_le_iff₀ (by linarith)]
        linarith
      · have := machineMean_error h hu0 (by linarith) M₀ xs hxs M j hx (fun x hx => hM x hx j) hcount
        have e : ((xs.map (fun x => x j)).sum / (xs.length : ℝ)) = vmean xs j := by
          unfold vmean mean; rw [List.length_map]
        rw [e] at this
        refine le_of_mul_le_mul_left (this.trans ?_) (by linarith : (0:ℝ) < xs.length)
        have hM0 : 0 ≤ M := (abs_nonneg _).trans (hM y hy j)
        have huM : 0 ≤ u * M := mul_nonneg hu0 hM0
        have : u * M * (((xs.length : ℝ) - 1) * xs.length / 2 + 6 * (xs.length - 1)) =
            xs.length * (u * M * ((xs.length - 1) / 2 + 6)) - 6 * (u * M) := by ring
        linarith
    have hB := betaSpec_bound l xs hn M hM
    have hA := alphaSpec_bound l xs hn M hM
    have exact_value : autoCovTrace l xs = (alphaSpec l xs + ∑ j, -(vmean xs j * betaSpec l xs j)) +
        ∑ j, (1 + 1 / ((xs.length : ℝ) - l - 1)) * vmean xs j * vmean xs j := by
      have g := act_getLag L l hl xs
      rw [if_neg (by omega)] at g
      unfold ACTState.getLag at g
      simp only [actSpec] at g
      rw [readAt_ok _ l (by simp; omega)] at g
      simp only [List.getElem_map, List.getElem_range, bind, Except.bind, pure, Except.pure, gt_iff_lt, if_pos (show l + 1 < xs.length by omega), Except.ok.injEq] at g
      rw [← g, Finset.sum_neg_distrib, sub_eq_add_neg]
    rw [exact_value]
    have eq1 : (fun (r : ℝ) (j : Fin d) => Arith.sub r (Arith.mul ((machineMean M₀ xs).mean j) (b j))) =
        fun r j => fl (r + -fl ((machineMean M₀ xs).mean j * b j)) := by
      funext r j
      show fl (r - fl _) = _
      rw [sub_eq_add_neg]
    have eq2 : (fun (r : ℝ) (j : Fin d) => Arith.add r (Arith.mul (Arith.mul (Arith.add (Arith.ofNat 1) (Arith.div (Arith.ofNat 1) (Arith.ofNat (xs.length - l - 1))))
        ((machineMean M₀ xs).mean j)) ((machineMean M₀ xs).mean j))) =
        fun r j => fl (r + fl (fl (fl (1 + fl (1 / ((xs.length : ℝ) - l - 1))) * (machineMean M₀ xs).mean j) * (machineMean M₀ xs).mean j)) := by
      funext r j
      show fl (r + fl (fl (fl (fl ((1:ℕ):ℝ) + fl (fl ((1:ℕ):ℝ) / fl ((xs.length - l - 1 : ℕ) : ℝ))) * _) * _)) = _
      rw [hc1, hc2]
    simp only [eq1, eq2]
    generalize (machineMean M₀ xs).mean = m at *
    generalize alphaSpec l xs = A at *
    generalize betaSpec l xs = B at *
    generalize vmean xs = μ at *
    generalize hN : (xs.length : ℝ) = N at *
    generalize N - (l : ℝ) - 1 = k at *
    have huk : u * k ≤ u * N := mul_le_mul_of_nonneg_left (by linarith) hu0
    -- the second term
    have t1 : ∀ j, |-fl (m j * b j) - -(μ j * B j)| ≤ u * (M * M) * (2.4 * k + 2 * N + 56) := by
      intro j
      obtain ⟨f1, f2, f3⟩ := mean_facts j
      have rbj := rb j
      have hBj := hB j
      have hM0 : 0 ≤ M := (abs_nonneg _).trans f1
      have huM0 : 0 ≤ u * M := mul_nonneg hu0 hM0
      have hEsmall : u * M * (2.4 * k + 29) ≤ 0.2 * M := by
        have : u * (2.4 * k + 29) ≤ 0.2 := by linarith
        have := mul_le_mul_of_nonneg_right this hM0
        linarith
      have hb : |b j| ≤ 4.2 * M := by
        have := abs_add_le (b j - B j) (B j)
        rw [sub_add_cancel] at this
        linarith
      have hmb : |m j * b j| ≤ 4.2 * (M * M) := by
        rw [abs_mul]
        have := mul_le_mul f1 hb (abs_nonneg _) hM0
        linarith
      have r := h.bound hu0 hmb
      have e : -fl (m j * b j) - -(μ j * B j) = -(fl (m j * b j) - m j * b j) + (-(m j * (b j - B j)) + -((m j - μ j) * B j)) := by ring
      rw [e]
      have a1 := abs_add_le (-(fl (m j * b j) - m j * b j)) (-(m j * (b j - B j)) + -((m j - μ j) * B j))
      have a2 := abs_add_le (-(m j * (b j - B j))) (-((m j - μ j) * B j))
      rw [abs_neg] at a1
      rw [abs_neg, abs_neg, abs_mul, abs_mul] at a2
      have a3 := mul_le_mul f1 rbj (abs_nonneg _) hM0
      have a4 := mul_le_mul f3 hBj (abs_nonneg _) ((abs_nonneg _).trans f3)
      have e3 : M * (u * M * (2.4 * k + 29)) + u * M * ((N - 1) / 2 + 6) * (4 * M) + u * (4.2 * (M * M)) =
          u * (M * M) * (2.4 * k + 2 * N + 55.2) := by ring
      have e4 : u * (M * M) * (2.4 * k + 2 * N + 56) - u * (M * M) * (2.4 * k + 2 * N + 55.2) = 0.8 * (u * (M * M)) := by ring
      have := mul_nonneg hu0 hMM
      linarith
    have t1' : ∀ j, |-(μ j * B j)| ≤ 4 * (M * M) := by
      intro j
      obtain ⟨f1, f2, f3⟩ := mean_facts j
      rw [abs_neg, abs_mul]
      have := mul_le_mul f2 (hB j) (abs_nonneg _) ((abs_nonneg _).trans f2)
      linarith
    -- the third term
    have hr : |fl (1 / k) - 1 / k| ≤ u := by
      have := h.error (1 / k)
      rw [abs_of_pos (by positivity : 0 < 1 / k)] at this
      have h1k : 1 / k ≤ 1 := by rw [div_le_one (by linarith)]; exact hk1
      have := mul_le_mul_of_nonneg_left h1k hu0
      linarith
    have h1k : 1 / k ≤ 1 := by rw [div_le_one (by linarith)]; exact hk1
    have h1k0 : 0 < 1 / k := by positivity
    generalize 1 / k = q at *
    have hsum : |1 + fl q| ≤ 2.01 := by
      have := abs_le.mp hr
      rw [abs_le]; constructor <;> linarith
    have hc := h.bound hu0 hsum
    generalize fl q = q' at *
    have hc' : |fl (1 + q') - (1 + q)| ≤ 3.1 * u := by
      have e : fl (1 + q') - (1 + q) = (fl (1 + q') - (1 + q')) + (q' - q) := by ring
      rw [e]
      have := abs_add_le (fl (1 + q') - (1 + q')) (q' - q)
      linarith
    generalize fl (1 + q') = c at *
    have hcb : |c| ≤ 2.01 := by
      have := abs_le.mp hc'
      rw [abs_le]; constructor <;> linarith
    have t2 : ∀ j, |fl (fl (c * m j) * m j) - (1 + q) * μ j * μ j| ≤ u * (M * M) * (2 * N + 30) := by
      intro j
      obtain ⟨f1, f2, f3⟩ := mean_facts j
      have hM0 : 0 ≤ M := (abs_nonneg _).trans f1
      have huM0 : 0 ≤ u * M := mul_nonneg hu0 hM0
      have huM : u * M ≤ 1/512 * M := mul_le_mul_of_nonneg_right hu hM0
      have p1 : |c * m j| ≤ 2.01 * M := by
        rw [abs_mul]; exact mul_le_mul hcb f1 (abs_nonneg _) (by norm_num)
      have p2 := h.bound hu0 p1
      have p3 := h.size hu0 p1
      generalize fl (c * m j) = z at *
      have p4 : |z * m j| ≤ 2.02 * (M * M) := by
        rw [abs_mul]
        have := mul_le_mul (by linarith : |z| ≤ 2.02 * M) f1 (abs_nonneg _) (by linarith)
        linarith
      have p5 := h.bound hu0 p4
      have e : fl (z * m j) - (1 + q) * μ j * μ j = (fl (z * m j) - z * m j) + ((z - c * m j) * m j + ((c - (1 + q)) * (m j * m j) +
          (1 + q) * ((m j - μ j) * (m j + μ j)))) := by ring
      rw [e]
      have a1 := abs_add_le (fl (z * m j) - z * m j) ((z - c * m j) * m j + ((c - (1 + q)) * (m j * m j) + (1 + q) * ((m j - μ j) * (m j + μ j))))
      have a2 := abs_add_le ((z - c * m j) * m j) ((c - (1 + q)) * (m j * m j) + (1 + q) * ((m j - μ j) * (m j + μ j)))
      have a3 := abs_add_le ((c - (1 + q)) * (m j * m j)) ((1 + q) * ((m j - μ j) * (m j + μ j)))
      have b1 : |(z - c * m j) * m j| ≤ u * (2.01 * M) * M := by
        rw [abs_mul]; exact mul_le_mul p2 f1 (abs_nonneg _) (mul_nonneg hu0 (by linarith))
      have b2 : |(c - (1 + q)) * (m j * m j)| ≤ 3.1 * u * (M * M) := by
        rw [abs_mul]
        have : |m j * m j| ≤ M * M := by rw [abs_mul]; exact mul_le_mul f1 f1 (abs_nonneg _) hM0
        exact mul_le_mul hc' this (abs_nonneg _) (by linarith)
      have b3 : |(1 + q) * ((m j - μ j) * (m j + μ j))| ≤ 2 * (u * M * ((N - 1) / 2 + 6) * (2 * M)) := by
        rw [abs_mul, abs_mul]
        have s1 : |m j + μ j| ≤ 2 * M := (abs_add_le _ _).trans (by linarith)
        have s2 := mul_le_mul f3 s1 (abs_nonneg _) ((abs_nonneg _).trans f3)
        have s3 : |1 + q| ≤ 2 := by rw [abs_of_pos (by linarith)]; linarith
        exact mul_le_mul s3 s2 (mul_nonneg (abs_nonneg _) (abs_nonneg _)) (by norm_num)
      have e3 : u * (2.02 * (M * M)) + u * (2.01 * M) * M + 3.1 * u * (M * M) + 2 * (u * M * ((N - 1) / 2 + 6) * (2 * M)) =
          u * (M * M) * (2 * N + 29.13) := by ring
      have e4 : u * (M * M) * (2 * N + 30) - u * (M * M) * (2 * N + 29.13) = 0.87 * (u * (M * M)) := by ring
      have := mul_nonneg hu0 hMM
      linarith
    have t2' : ∀ j, |(1 + q) * μ j * μ j| ≤ 2 * (M * M) := by
      intro j
      obtain ⟨f1, f2, f3⟩ := mean_facts j
      have hM0 : 0 ≤ M := (abs_nonneg _).trans f1
      rw [abs_mul, abs_mul]
      have s3 : |1 + q| ≤ 2 := by rw [abs_of_pos (by linarith)]; linarith
      have := mul_le_mul (mul_le_mul s3 f2 (abs_nonneg _) (by norm_num)) f2 (abs_nonneg _) (by linarith)
      linarith
    have huMM := mul_nonneg hu0 hMM
    have hN0 : 0 ≤ N := by linarith
    have hk0 : 0 ≤ k := by linarith
    have hudT : u * d * (d * (M * M)) ≤ 1/256 * (d * (M * M)) := mul_le_mul_of_nonneg_right (by linarith) hT
    -- first loop
    have small1 : u * (3.6 * k + 2 * N + 10 * d + 66) ≤ 0.2 := by linarith
    have small1' := mul_le_mul_of_nonneg_right small1 hT
    have L1 := acc_error h hu0 (List.finRange d) (fun j => -fl (m j * b j)) (fun j => -(μ j * B j)) a A _ (2 * (d * (M * M))) (4 * (M * M))
      (u * (M * M) * (2.4 * k + 2 * N + 56)) (6.3 * (d * (M * M))) ra hA (fun j _ => t1' j) (fun j _ => t1 j) (by linarith)
      (mul_nonneg huMM (by linarith)) (by linarith) (by rw [length_finRange']; linarith)
    rw [sum_finRange, length_finRange'] at L1
    generalize (List.finRange d).foldl (fun s j => fl (s + -fl (m j * b j))) a = r₁ at *
    have hS1 : |A + ∑ j, -(μ j * B j)| ≤ 6 * (d * (M * M)) := by
      have b1 := abs_sum_le (List.finRange d) (fun j => -(μ j * B j)) (4 * (M * M)) (fun j _ => t1' j)
      rw [sum_finRange, length_finRange'] at b1
      have := abs_add_le A (∑ j, -(μ j * B j))
      linarith
    generalize A + ∑ j, -(μ j * B j) = S₁ at *
    have L1' : |r₁ - S₁| ≤ u * (d * (M * M)) * (3.6 * k + 2 * N + 16.3 * d + 66) := by
      refine L1.trans (le_of_eq ?_)
      ring
    -- second loop
    have small2 : u * (3.6 * k + 4 * N + 16.3 * d + 96) ≤ 0.4 := by linarith
    have small2' := mul_le_mul_of_nonneg_right small2 hT
    have L2 := acc_error h hu0 (List.finRange d) (fun j => fl (fl (c * m j) * m j)) (fun j => (1 + q) * μ j * μ j) r₁ S₁ _ (6 * (d * (M * M))) (2 * (M * M))
      (u * (M * M) * (2 * N + 30)) (8.5 * (d * (M * M))) L1' hS1 (fun j _ => t2' j) (fun j _ => t2 j) (by linarith)
      (mul_nonneg huMM (by linarith)) (by linarith) (by rw [length_finRange']; linarith)
    rw [sum_finRange, length_finRange'] at L2
    refine L2.trans ?_
    have fin : u * (d * (M * M)) * (8 * N + 25 * d + 100) - (u * (d * (M * M)) * (3.6 * k + 2 * N + 16.3 * d + 66) + d * (u * (M * M) * (2 * N + 30) +
        u * (8.5 * (d * (M * M))))) = u * (d * (M * M)) * (4 * N - 3.6 * k + 0.2 * d + 4) := by ring
    have := mul_nonneg huT (by linarith : 0 ≤ 4 * N - 3.6 * k + 0.2 * d + 4)
    linarith

/-! ### without rounding -/

section exact
variable {K : Type} [Field K] [Star K]

theorem dotFrom_exact (s : K) (x y : Fin d → K) : @dotFrom K (exactArith K) d s x y = s + ∑ j, x j * y j := by
  have : ∀ (l : List (Fin d)) (s : K), l.foldl (fun s j => s + x j * y j) s = s + (l.map (fun j => x j * y j)).sum := by
    intro l
    induction l with
    | nil => intro s; simp
    | cons a l ih => intro s; rw [List.foldl_cons, ih, List.map_cons, List.sum_cons, add_assoc]
  refine (this _ s).trans ?_
  rw [← List.ofFn_eq_map, List.sum_ofFn]

theorem lag_exact (n : Nat) (prev : List (Fin d → K)) (sample : Fin d → K) (lags : List (K × (Fin d → K))) (l : Nat) :
    @actMachineLag K (exactArith K) d n prev sample lags l = ACTState.updateLag n prev sample lags l := by
  let _ := exactArith K
  unfold actMachineLag ACTState.updateLag
  refine bind_congr fun e => ?_
  obtain ⟨a, b⟩ := e
  dsimp only
  by_cases h1 : n = l + 1
  · rw [if_pos h1, if_pos h1]
    refine bind_congr fun p0 => bind_congr fun p1 => bind_congr fun pl => bind_congr fun pl1 => ?_
    rw [dotFrom_exact, dotFrom_exact]
    show pure (((0:ℕ):K) + _ + _, _) = _
    rw [Nat.cast_zero]
    rfl
  · rw [if_neg h1, if_neg h1]
    by_cases h2 : n ≥ l + 2
    · rw [if_pos h2, if_pos h2]
      refine bind_congr fun pl => ?_
      have hc : ((n - l : ℕ) : K) = n - l := by rw [Nat.cast_sub (by omega)]
      rw [dotFrom_exact]
      show pure (a + (((0:ℕ):K) - a + _) * (((1:ℕ):K) / ((n - l : ℕ) : K)), fun j => b j + (sample j + pl j - b j) * (((1:ℕ):K) / ((n - l : ℕ) : K))) = _
      rw [hc, Nat.cast_zero, Nat.cast_one, zero_sub]
    · rw [if_neg h2, if_neg h2]

theorem consume_exact (L : Nat) (s : ACTState K (Fin d)) (x : Fin d → K) :
    @actMachineConsume K (exactArith K) d L s x = ACTState.consume L s x := by
  let _ := exactArith K
  unfold actMachineConsume ACTState.consume
  by_cases h0 : s.n = 0
  · rw [if_pos h0, if_pos h0]
    show Except.ok (⟨1, x, List.replicate (L+1) (((0:ℕ):K), fun _ => ((0:ℕ):K)), _⟩ : ACTState K (Fin d)) = _
    rw [Nat.cast_zero]
  · rw [if_neg h0, if_neg h0]
    have : (actMachineLag s.n (x :: s.previous) x s.lags : Nat → Except Fault (K × (Fin d → K))) = ACTState.updateLag s.n (x :: s.previous) x s.lags :=
      funext fun l => lag_exact _ _ _ _ _
    dsimp only
    rw [this]
    rfl

theorem getLag_exact (s : ACTState K (Fin d)) (l : Nat) : @actMachineGetLag K (exactArith K) d s l = s.getLag l := by
  let _ := exactArith K
  unfold actMachineGetLag ACTState.getLag
  refine bind_congr fun e => ?_
  obtain ⟨a, b⟩ := e
  have f1 : ∀ (l : List (Fin d)) (s : K) (v : Fin d → K), l.foldl (fun s j => s - v j) s = s - (l.map v).sum := by
    intro l
    induction l with
    | nil => intro s v; simp
    | cons a l ih => intro s v; rw [List.foldl_cons, ih, List.map_cons, List.sum_cons, sub_sub]
  have f2 : ∀ (l : List (Fin d)) (s : K) (v : Fin d → K), l.foldl (fun s j => s + v j) s = s + (l.map v).sum := by
    intro l
    induction l with
    | nil => intro s v; simp
    | cons a l ih => intro s v; rw [List.foldl_cons, ih, List.map_cons, List.sum_cons, add_assoc]
  have sum : ∀ v : Fin d → K, ((List.finRange d).map v).sum = ∑ j, v j := fun v => by rw [← List.ofFn_eq_map, List.sum_ofFn]
  have g1 : (List.finRange d).foldl (fun (r : K) j => Arith.sub r (Arith.mul (s.mean j) (b j))) a = a - ∑ j, s.mean j * b j := by
    rw [← sum]; exact f1 _ a _
  dsimp only
  rw [g1]
  by_cases h1 : s.n > l + 1
  · rw [if_pos h1, if_pos h1]
    have hc : ((s.n - l - 1 : ℕ) : K) = s.n - l - 1 := by rw [Nat.cast_sub (by omega), Nat.cast_sub (by omega)]; simp
    congr 1
    have := f2 (List.finRange d) (a - ∑ j, s.mean j * b j) (fun j => (((1:ℕ):K) + ((1:ℕ):K) / ((s.n - l - 1 : ℕ) : K)) * s.mean j * s.mean j)
    rw [sum, hc, Nat.cast_one] at this
    rw [← this]
    show (List.finRange d).foldl (fun r j => r + (((1:ℕ):K) + ((1:ℕ):K) / ((s.n - l - 1 : ℕ) : K)) * s.mean j * s.mean j) _ = _
    rw [hc, Nat.cast_one]
  · rw [if_neg h1, if_neg h1]

theorem get_exact (L : Nat) (M : Fin d → K) (xs : List (Fin d → K)) :
    @actMachineGet K (exactArith K) d L M xs = (do let s ← actAfter L M xs; s.get L) := by
  let _ := exactArith K
  unfold actMachineGet
  have e1 : actMachine L M xs = actAfter L M xs := by
    unfold actMachine actAfter
    congr 1
    funext s x
    exact consume_exact L s x
  rw [e1]
  refine bind_congr fun s => ?_
  unfold ACTState.get
  congr 1
  funext l
  exact getLag_exact s l

end exact

end SampleFlow.RoundingAuto
