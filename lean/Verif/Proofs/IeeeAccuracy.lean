import Verif.Props.Ieee
import Verif.Proofs.RoundingCov

/-! Accuracy of the mean in arithmetic with gradual underflow. -/

namespace SampleFlow

open Spec

namespace Ieee

variable {ι : Type} {u tiny Ω η : ℝ} {fl : ℝ → ℝ}

theorem update_lower (h : Format u tiny fl) (hu0 : 0 ≤ u) (hu : u ≤ 1/8) (ht : 0 ≤ tiny) {m x a n : ℝ} (hm : Machine fl m) (ha : Machine fl a)
    (hma : a ≤ m) (hxa : a ≤ x) (hn : 2 ≤ n) : a - m ≤ fl (fl (x - m) / n) := by
  have := update_upper h hu0 hu ht (machine_neg h hm) (machine_neg h ha) (by linarith : -m ≤ -a) (by linarith : -x ≤ -a) hn
  rw [show -x - -m = -(x - m) by ring, h.odd, neg_div, h.odd] at this
  linarith

theorem machine_max {x y : ℝ} (hx : Machine fl x) (hy : Machine fl y) : Machine fl (max x y) := by
  rcases max_choice x y with e | e <;> rw [e] <;> assumption

theorem machine_min {x y : ℝ} (hx : Machine fl x) (hy : Machine fl y) : Machine fl (min x y) := by
  rcases min_choice x y with e | e <;> rw [e] <;> assumption

theorem diff_error (h : Format u tiny fl) (hu : 0 ≤ u) (ht : 0 ≤ tiny) {x y : ℝ} (hx : Machine fl x) (hy : Machine fl y) : |fl (x - y) - (x - y)| ≤ u * |x - y| := by
  have := sum_error h hu ht hx (machine_neg h hy)
  rwa [← sub_eq_add_neg] at this

/-- local error of one update of the mean -/
theorem mean_local (h : Format u tiny fl) (hu0 : 0 ≤ u) (hu : u ≤ 1/8) (ht : 0 ≤ tiny) (hη : ∀ x, |fl x - x| ≤ u * |x| + η) (m x M : ℝ) (hm : Machine fl m) (hx : Machine fl x) (n : ℝ) (hn : 2 ≤ n)
    (hmM : |m| ≤ M) (hxM : |x| ≤ M) :
    |fl (m + fl (fl (x - m) / n)) - (m + (x - m) / n)| ≤ u * M * (1 + 5 / n) + η := by
  have h1 := update_lower h hu0 hu ht hm (machine_min hm hx) (min_le_left m x) (min_le_right m x) hn
  have h2 := update_upper h hu0 hu ht hm (machine_max hm hx) (le_max_left m x) (le_max_right m x) hn
  have hM : 0 ≤ M := (abs_nonneg m).trans hmM
  rw [abs_le] at hmM hxM
  have hrange : |m + fl (fl (x - m) / n)| ≤ M := by
    rw [abs_le]
    constructor
    · rcases min_choice m x with e | e <;> rw [e] at h1 <;> linarith
    · rcases max_choice m x with e | e <;> rw [e] at h2 <;> linarith
  have e1 := sum_error h hu0 ht hm (machine_fl h (fl (x - m) / n))
  have e2 := hη (fl (x - m) / n)
  have e3 := diff_error h hu0 ht hx hm
  have hd : |x - m| ≤ 2 * M := by rw [abs_le]; constructor <;> linarith
  have hnpos : 0 < n := by linarith
  have e1' : |fl (m + fl (fl (x - m) / n)) - (m + fl (fl (x - m) / n))| ≤ u * M := e1.trans (mul_le_mul_of_nonneg_left hrange hu0)
  have e3' : |fl (x - m)| ≤ (1 + u) * |x - m| := by
    have := abs_sub_abs_le_abs_sub (fl (x - m)) (x - m)
    linarith
  have e2' : |fl (fl (x - m) / n) - fl (x - m) / n| ≤ u * ((1 + u) * (2 * M) / n) + η := by
    refine e2.trans (add_le_add_left (mul_le_mul_of_nonneg_left ?_ hu0) _)
    rw [abs_div, abs_of_pos hnpos]
    refine div_le_div_of_nonneg_right (e3'.trans ?_) hnpos.le
    exact mul_le_mul_of_nonneg_left hd (by linarith)
  have e4 : |fl (x - m) / n - (x - m) / n| ≤ u * (2 * M) / n := by
    rw [← sub_div, abs_div, abs_of_pos hnpos]
    exact div_le_div_of_nonneg_right (e3.trans (mul_le_mul_of_nonneg_left hd hu0)) hnpos.le
  have tri : fl (m + fl (fl (x - m) / n)) - (m + (x - m) / n) =
      (fl (m + fl (fl (x - m) / n)) - (m + fl (fl (x - m) / n))) + ((fl (fl (x - m) / n) - fl (x - m) / n) + (fl (x - m) / n - (x - m) / n)) := by ring
  rw [tri]
  refine (abs_add_le _ _).trans ?_
  have t2 := abs_add_le (fl (fl (x - m) / n) - fl (x - m) / n) (fl (x - m) / n - (x - m) / n)
  have fin : u * ((1 + u) * (2 * M) / n) + u * (2 * M) / n ≤ u * M * (5 / n) := by
    have : u * ((1 + u) * (2 * M) / n) + u * (2 * M) / n = u * M * ((4 + 2 * u) / n) := by ring
    rw [this]
    refine mul_le_mul_of_nonneg_left (div_le_div_of_nonneg_right (by linarith) hnpos.le) (mul_nonneg hu0 hM)
  linarith

/-- the state after at least one sample -/
theorem mean_inv (h : Format u tiny fl) (hu0 : 0 ≤ u) (hu : u ≤ 1/8) (ht : 0 ≤ tiny) (G : ι → ℝ) (xs : List (ι → ℝ)) (hne : xs ≠ [])
    (i : ι) (M : ℝ) (hx : ∀ x ∈ xs, Machine fl (x i)) (hM : ∀ x ∈ xs, |x i| ≤ M) :
    (@machineMean ℝ ι (roundedArith fl) G xs).n = xs.length ∧
    Machine fl ((@machineMean ℝ ι (roundedArith fl) G xs).mean i) ∧ |(@machineMean ℝ ι (roundedArith fl) G xs).mean i| ≤ M := by
  let _ := roundedArith fl
  induction xs using List.reverseRecOn with
  | nil => exact absurd rfl hne
  | append_singleton xs x ih =>
    by_cases h0 : xs = []
    · subst h0
      exact ⟨rfl, hx x (by simp), hM x (by simp)⟩
    · obtain ⟨h1, h2, h3⟩ := ih h0 (fun y hy => hx y (by simp [hy])) (fun y hy => hM y (by simp [hy]))
      have hpos : 0 < xs.length := List.length_pos_iff.mpr h0
      have hs : machineMean G (xs ++ [x]) = meanConsume (machineMean G xs) x := by
        simp [machineMean]
      have hn0 : ¬ (machineMean G xs).n = 0 := by omega
      have hmean : (machineMean G (xs ++ [x])).mean i =
          fl ((machineMean G xs).mean i + fl (fl (x i - (machineMean G xs).mean i) / fl ((xs.length + 1 : ℕ) : ℝ))) := by
        rw [hs]
        unfold meanConsume
        rw [if_neg hn0, h1]
        rfl
      have hn2 : (2 : ℝ) ≤ fl ((xs.length + 1 : ℕ) : ℝ) := two_le_fl h (by omega)
      have hxm := hx x (by simp)
      have l1 := mean_lower h hu0 hu ht h2 (machine_min h2 hxm) (min_le_left _ (x i)) (min_le_right _ _) hn2
      have l2 := mean_upper h hu0 hu ht h2 (machine_max h2 hxm) (le_max_left _ (x i)) (le_max_right _ _) hn2
      refine ⟨?_, ?_, ?_⟩
      · rw [hs]
        unfold meanConsume
        rw [if_neg hn0, h1, List.length_append, List.length_singleton]
      · rw [hmean]; exact machine_fl h _
      · rw [hmean]
        have q := abs_le.mp (hM x (by simp))
        have q' := abs_le.mp h3
        rw [abs_le]
        constructor
        · rcases min_choice ((machineMean G xs).mean i) (x i) with e | e <;> rw [e] at l1 <;> linarith
        · rcases max_choice ((machineMean G xs).mean i) (x i) with e | e <;> rw [e] at l2 <;> linarith

theorem mean_error (h : Format u tiny fl) (hu0 : 0 ≤ u) (hu : u ≤ 1/8) (ht : 0 ≤ tiny) (hη : ∀ x, |fl x - x| ≤ u * |x| + η) (G : ι → ℝ) (xs : List (ι → ℝ)) (hne : xs ≠ []) (M : ℝ) (i : ι)
    (hx : ∀ x ∈ xs, Machine fl (x i)) (hM : ∀ x ∈ xs, |x i| ≤ M) (hcount : ∀ n : Nat, n ≤ xs.length → Machine fl n) :
    (xs.length : ℝ) * |(@machineMean ℝ ι (roundedArith fl) G xs).mean i - (xs.map (fun x => x i)).sum / xs.length| ≤
      u * M * ((xs.length - 1) * xs.length / 2 + 6 * (xs.length - 1)) + η * ((xs.length - 1) * (xs.length + 2) / 2) := by
  let _ := roundedArith fl
  induction xs using List.reverseRecOn with
  | nil => exact absurd rfl hne
  | append_singleton xs x ih =>
    by_cases h0 : xs = []
    · subst h0
      have : (machineMean G ([] ++ [x])).mean i = x i := rfl
      rw [this]
      simp
    · have hpos : 0 < xs.length := List.length_pos_iff.mpr h0
      have hx' : ∀ y ∈ xs, Machine fl (y i) := fun y hy => hx y (by simp [hy])
      have hM' : ∀ y ∈ xs, |y i| ≤ M := fun y hy => hM y (by simp [hy])
      have hc' : ∀ n : Nat, n ≤ xs.length → Machine fl n := fun n hn => hcount n (by simp; omega)
      obtain ⟨h1, h2, hmM⟩ := mean_inv h hu0 hu ht G xs h0 i M hx' hM'
      have IH := ih h0 hx' hM' hc'
      have hs : machineMean G (xs ++ [x]) = meanConsume (machineMean G xs) x := by
        simp [machineMean]
      have hn0 : ¬ (machineMean G xs).n = 0 := by omega
      have hc : fl ((xs.length + 1 : ℕ) : ℝ) = ((xs.length + 1 : ℕ) : ℝ) := hcount (xs.length + 1) (by simp)
      have hmean : (machineMean G (xs ++ [x])).mean i =
          fl ((machineMean G xs).mean i + fl (fl (x i - (machineMean G xs).mean i) / ((xs.length + 1 : ℕ) : ℝ))) := by
        rw [hs]
        unfold meanConsume
        rw [if_neg hn0, h1]
        show fl (_ + fl (fl _ / fl ((xs.length + 1 : ℕ) : ℝ))) = _
        rw [hc]
      have hn2 : (2 : ℝ) ≤ ((xs.length + 1 : ℕ) : ℝ) := by exact_mod_cast (by omega : 2 ≤ xs.length + 1)
      have loc := mean_local h hu0 hu ht hη _ _ M h2 (hx x (by simp)) _ hn2 hmM (hM x (by simp))
      rw [hmean]
      generalize (machineMean G xs).mean i = m at *
      have hlen : ((xs ++ [x]).length : ℝ) = xs.length + 1 := by simp
      rw [hlen, List.map_append, List.sum_append]
      simp only [List.map_cons, List.map_nil, List.sum_cons, List.sum_nil, add_zero]
      push_cast at loc hn2 ⊢
      generalize (xs.map (fun x => x i)).sum = s at *
      have hN : (1:ℝ) ≤ xs.length := by exact_mod_cast hpos
      generalize (xs.length : ℝ) = N at *
      generalize fl (m + fl (fl (x i - m) / (N + 1))) = m' at *
      have hN0 : N + 1 ≠ 0 := by linarith
      have hN1 : N ≠ 0 := by linarith
      have split : m' - (s + x i) / (N + 1) = (m' - (m + (x i - m) / (N + 1))) + (N / (N + 1)) * (m - s / N) := by
        field_simp; ring
      rw [split]
      have t := abs_add_le (m' - (m + (x i - m) / (N + 1))) ((N / (N + 1)) * (m - s / N))
      have e : |(N / (N + 1)) * (m - s / N)| = (N / (N + 1)) * |m - s / N| := by
        rw [abs_mul, abs_of_nonneg (div_nonneg (by linarith) (by linarith))]
      rw [e] at t
      have t2 := mul_le_mul_of_nonneg_left t (by linarith : (0:ℝ) ≤ N + 1)
      have e2 : (N + 1) * (|m' - (m + (x i - m) / (N + 1))| + (N / (N + 1)) * |m - s / N|) =
          (N + 1) * |m' - (m + (x i - m) / (N + 1))| + N * |m - s / N| := by
        field_simp
      rw [e2] at t2
      have t3 := mul_le_mul_of_nonneg_left loc (by linarith : (0:ℝ) ≤ N + 1)
      have e3 : (N + 1) * (u * M * (1 + 5 / (N + 1)) + η) = u * M * (N + 6) + η * (N + 1) := by field_simp; ring
      rw [e3] at t3
      have e4 : u * M * ((N + 1 - 1) * (N + 1) / 2 + 6 * (N + 1 - 1)) + η * ((N + 1 - 1) * (N + 1 + 2) / 2) =
          u * M * (N + 6) + η * (N + 1) + (u * M * ((N - 1) * N / 2 + 6 * (N - 1)) + η * ((N - 1) * (N + 2) / 2)) := by ring
      rw [e4]
      linarith

end Ieee

end SampleFlow
