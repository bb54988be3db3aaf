import Verif.Model.Rounding
import Verif.Spec.Rounding
import Verif.Proofs.Moments
import Mathlib.Tactic.Linarith
import Mathlib.Tactic.Ring
import Mathlib.Tactic.Positivity
import Mathlib.Tactic.FieldSimp

namespace SampleFlow

open Spec

variable {ι : Type}

section exact
variable {K : Type} [Field K] [Star K]

theorem machineMean_exact (G : ι → K) (xs : List (ι → K)) :
    @machineMean K ι (exactArith K) G xs = meanAfter G xs := rfl

theorem machineCov_exact (M : ι → K) (C₀ G : ι → ι → K) (xs : List (ι → K)) :
    @machineCov K ι (exactArith K) M C₀ G xs = covAfter M C₀ G xs := by
  unfold machineCov covAfter
  congr 1
  funext s x
  simp only [covConsume, CovState.consume]
  split
  · rfl
  · rename_i h0
    congr 1
    funext i j
    show s.C i j + ((x i - s.mean i) * star (x j - s.mean j) / ((s.n + 1 : ℕ) : K) - s.C i j / (((s.n + 1 : ℕ) : K) - ((1 : ℕ) : K))) = _
    rw [Nat.cast_one]

end exact

section rounded
variable {u : ℝ} {fl : ℝ → ℝ}

theorem Spec.Rounding.zero (h : Rounding u fl) : fl 0 = 0 := by
  have := h.odd 0
  rw [neg_zero] at this
  linarith

theorem Spec.Rounding.nonneg (h : Rounding u fl) {x : ℝ} (hx : 0 ≤ x) : 0 ≤ fl x := by
  rw [← h.zero]; exact h.mono 0 x hx

theorem Spec.Rounding.le (h : Rounding u fl) {x : ℝ} (hx : 0 ≤ x) : fl x ≤ (1 + u) * x := by
  have := h.error x
  rw [abs_of_nonneg hx] at this
  linarith [(abs_le.mp this).2]

/-- one update, upwards -/
theorem update_up (h : Rounding u fl) (hu : u ≤ 1/4) (m x : ℝ) (hm : fl m = m) (hx : fl x = x) (hmx : m ≤ x) (n : ℝ) (hn : 2 ≤ n) :
    0 ≤ fl (fl (x - m) / n) ∧ m + fl (fl (x - m) / n) ≤ x := by
  have h0 : 0 ≤ x - m := by linarith
  have h1 : 0 ≤ fl (x - m) := h.nonneg h0
  have h2 : 0 ≤ fl (x - m) / n := div_nonneg h1 (by linarith)
  refine ⟨h.nonneg h2, ?_⟩
  have h3 := h.le h2
  have h4 := h.le h0
  have h5 : fl (x - m) / n ≤ fl (x - m) / 2 := div_le_div_of_nonneg_left h1 (by norm_num) hn
  have hu0 : 0 ≤ u ∨ x - m = 0 := by
    rcases eq_or_ne (x - m) 0 with e | e
    · exact Or.inr e
    · left
      have := (abs_nonneg _).trans (h.error (x - m))
      exact nonneg_of_mul_nonneg_left this (abs_pos.mpr e)
  rcases hu0 with hu0 | e
  · have h6 : (1 + u) * (fl (x - m) / n) ≤ (1 + u) * ((1 + u) * (x - m) / 2) := by
      refine mul_le_mul_of_nonneg_left (h5.trans ?_) (by linarith)
      linarith
    have h7 : (1 + u) * ((1 + u) * (x - m) / 2) = ((1 + u) * (1 + u) / 2) * (x - m) := by ring
    have h8 : (1 + u) * (1 + u) / 2 ≤ 1 := by nlinarith
    have h9 := mul_le_mul_of_nonneg_right h8 h0
    linarith
  · rw [e, h.zero] at h3
    simp only [zero_div, mul_zero] at h3
    rw [e, h.zero]
    simp only [zero_div]
    linarith

theorem update_between (h : Rounding u fl) (hu : u ≤ 1/4) (m x : ℝ) (hm : fl m = m) (hx : fl x = x) (n : ℝ) (hn : 2 ≤ n) :
    min m x ≤ m + fl (fl (x - m) / n) ∧ m + fl (fl (x - m) / n) ≤ max m x := by
  rcases le_total m x with hmx | hmx
  · obtain ⟨h1, h2⟩ := update_up h hu m x hm hx hmx n hn
    rw [min_eq_left hmx, max_eq_right hmx]
    exact ⟨by linarith, h2⟩
  · obtain ⟨h1, h2⟩ := update_up h hu (-m) (-x) (by rw [h.odd, hm]) (by rw [h.odd, hx]) (by linarith) n hn
    have e : fl (fl (-x - -m) / n) = - fl (fl (x - m) / n) := by
      rw [show -x - -m = -(x - m) by ring, h.odd, neg_div, h.odd]
    rw [e] at h1 h2
    rw [min_eq_right hmx, max_eq_left hmx]
    constructor <;> linarith

/-- one update stays between the old mean and the sample, and is a machine number -/
theorem step_between (h : Rounding u fl) (hu : u ≤ 1/4) (m x : ℝ) (hm : fl m = m) (hx : fl x = x) (n : ℝ) (hn : 2 ≤ n) :
    min m x ≤ fl (m + fl (fl (x - m) / n)) ∧ fl (m + fl (fl (x - m) / n)) ≤ max m x := by
  obtain ⟨h1, h2⟩ := update_between h hu m x hm hx n hn
  have hmin : fl (min m x) = min m x := by rcases min_choice m x with e | e <;> rw [e] <;> assumption
  have hmax : fl (max m x) = max m x := by rcases max_choice m x with e | e <;> rw [e] <;> assumption
  constructor
  · rw [← hmin]; exact h.mono _ _ h1
  · rw [← hmax]; exact h.mono _ _ h2

theorem Spec.Rounding.ofNat (h : Rounding u fl) (n : Nat) (hn : fl n = n) : (@Arith.ofNat ℝ (roundedArith fl) n) = n := hn

/-- the state after at least one sample -/
theorem machineMean_inv (h : Rounding u fl) (hu : u ≤ 1/4) (G : ι → ℝ) (xs : List (ι → ℝ)) (hne : xs ≠ [])
    (hx : ∀ x ∈ xs, ∀ i, fl (x i) = x i) (hcount : ∀ n : Nat, n ≤ xs.length → fl n = n) (i : ι) :
    (@machineMean ℝ ι (roundedArith fl) G xs).n = xs.length ∧
    fl ((@machineMean ℝ ι (roundedArith fl) G xs).mean i) = (@machineMean ℝ ι (roundedArith fl) G xs).mean i ∧
    (∃ x ∈ xs, x i ≤ (@machineMean ℝ ι (roundedArith fl) G xs).mean i) ∧
    (∃ x ∈ xs, (@machineMean ℝ ι (roundedArith fl) G xs).mean i ≤ x i) := by
  let _ := roundedArith fl
  induction xs using List.reverseRecOn with
  | nil => exact absurd rfl hne
  | append_singleton xs x ih =>
    by_cases h0 : xs = []
    · subst h0
      refine ⟨rfl, hx x (by simp) i, ⟨x, by simp, le_rfl⟩, ⟨x, by simp, le_rfl⟩⟩
    · obtain ⟨h1, h2, ⟨a, ha, h3⟩, ⟨b, hb, h4⟩⟩ := ih h0 (fun y hy => hx y (by simp [hy])) (fun n hn => hcount n (by simp; omega))
      have hpos : 0 < xs.length := List.length_pos_iff.mpr h0
      have hs : machineMean G (xs ++ [x]) = meanConsume (machineMean G xs) x := by
        simp [machineMean]
      have hn0 : ¬ (machineMean G xs).n = 0 := by omega
      have hc := hcount (xs.length + 1) (by simp)
      have hmean : (machineMean G (xs ++ [x])).mean i =
          fl ((machineMean G xs).mean i + fl (fl (x i - (machineMean G xs).mean i) / ((xs.length + 1 : ℕ) : ℝ))) := by
        rw [hs]
        unfold meanConsume
        rw [if_neg hn0, h1]
        show fl (_ + fl (fl _ / fl ((xs.length + 1 : ℕ) : ℝ))) = _
        rw [hc]
      have hn2 : (2 : ℝ) ≤ ((xs.length + 1 : ℕ) : ℝ) := by exact_mod_cast (by omega : 2 ≤ xs.length + 1)
      obtain ⟨h5, h6⟩ := step_between h hu _ _ h2 (hx x (by simp) i) _ hn2
      refine ⟨?_, ?_, ?_, ?_⟩
      · rw [hs]
        unfold meanConsume
        rw [if_neg hn0, h1, List.length_append, List.length_singleton]
      · rw [hmean, h.idempotent]
      · rw [hmean]
        rcases min_choice ((machineMean G xs).mean i) (x i) with e | e
        · exact ⟨a, by simp [ha], by rw [e] at h5; linarith⟩
        · exact ⟨x, by simp, by rw [e] at h5; exact h5⟩
      · rw [hmean]
        rcases max_choice ((machineMean G xs).mean i) (x i) with e | e
        · exact ⟨b, by simp [hb], by rw [e] at h6; linarith⟩
        · exact ⟨x, by simp, by rw [e] at h6; exact h6⟩

/-- local error of one update -/
theorem step_error (h : Rounding u fl) (hu0 : 0 ≤ u) (hu : u ≤ 1/4) (m x M : ℝ) (hm : fl m = m) (hx : fl x = x) (n : ℝ) (hn : 2 ≤ n)
    (hmM : |m| ≤ M) (hxM : |x| ≤ M) :
    |fl (m + fl (fl (x - m) / n)) - (m + (x - m) / n)| ≤ u * M * (1 + 5 / n) := by
  obtain ⟨h1, h2⟩ := update_between h hu m x hm hx n hn
  have hM : 0 ≤ M := (abs_nonneg m).trans hmM
  rw [abs_le] at hmM hxM
  have hrange : |m + fl (fl (x - m) / n)| ≤ M := by
    rw [abs_le]
    constructor
    · rcases min_choice m x with e | e <;> rw [e] at h1 <;> linarith
    · rcases max_choice m x with e | e <;> rw [e] at h2 <;> linarith
  have e1 := h.error (m + fl (fl (x - m) / n))
  have e2 := h.error (fl (x - m) / n)
  have e3 := h.error (x - m)
  have hd : |x - m| ≤ 2 * M := by rw [abs_le]; constructor <;> linarith
  have hnpos : 0 < n := by linarith
  have e1' : |fl (m + fl (fl (x - m) / n)) - (m + fl (fl (x - m) / n))| ≤ u * M := e1.trans (mul_le_mul_of_nonneg_left hrange hu0)
  have e3' : |fl (x - m)| ≤ (1 + u) * |x - m| := by
    have := abs_sub_abs_le_abs_sub (fl (x - m)) (x - m)
    linarith
  have e2' : |fl (fl (x - m) / n) - fl (x - m) / n| ≤ u * ((1 + u) * (2 * M) / n) := by
    refine e2.trans (mul_le_mul_of_nonneg_left ?_ hu0)
    rw [abs_div, abs_of_pos hnpos]
    refine div_le_div_of_nonneg_right (e3'.trans ?_) hnpos.le
    exact mul_le_mul_of_nonneg_left hd (by linarith)
  have e4 : |fl (x - m) / n - (x - m) / n| ≤ u * (2 * M) / n := by
    rw [← sub_div, abs_div, abs_of_pos hnpos]
    exact div_le_div_of_nonneg_right (e3.trans (mul_le_mul_of_nonneg_left hd hu0)) hnpos.le
  have tri : fl (m + fl (fl (x - m) / n)) - (m + (x - m) / n) =
      (fl (m + fl (fl (x - m) / n)) - (m + fl (fl (x - m) / n))) + ((fl (fl (x - m) / n) - fl (x - m) / n) + (fl (x - m) / n - (x - m) / n)) := by ring
  rw [tri]
  refine (abs_add_le _ _).trans ?_
  have t2 := abs_add_le (fl (fl (x - m) / n) - fl (x - m) / n) (fl (x - m) / n - (x - m) / n)
  have fin : u * ((1 + u) * (2 * M) / n) + u * (2 * M) / n ≤ u * M * (5 / n) := by
    have : u * ((1 + u) * (2 * M) / n) + u * (2 * M) / n = u * M * ((4 + 2 * u) / n) := by ring
    rw [this]
    refine mul_le_mul_of_nonneg_left (div_le_div_of_nonneg_right (by linarith) hnpos.le) (mul_nonneg hu0 hM)
  linarith

theorem machineMean_error (h : Rounding u fl) (hu0 : 0 ≤ u) (hu : u ≤ 1/4) (G : ι → ℝ) (xs : List (ι → ℝ)) (hne : xs ≠ []) (M : ℝ) (i : ι)
    (hx : ∀ x ∈ xs, ∀ i, fl (x i) = x i) (hM : ∀ x ∈ xs, |x i| ≤ M) (hcount : ∀ n : Nat, n ≤ xs.length → fl n = n) :
    (xs.length : ℝ) * |(@machineMean ℝ ι (roundedArith fl) G xs).mean i - (xs.map (fun x => x i)).sum / xs.length| ≤
      u * M * ((xs.length - 1) * xs.length / 2 + 6 * (xs.length - 1)) := by
  let _ := roundedArith fl
  induction xs using List.reverseRecOn with
  | nil => exact absurd rfl hne
  | append_singleton xs x ih =>
    by_cases h0 : xs = []
    · subst h0
      have : (machineMean G ([] ++ [x])).mean i = x i := rfl
      rw [this]
      simp
    · have hpos : 0 < xs.length := List.length_pos_iff.mpr h0
      have hx' : ∀ y ∈ xs, ∀ i, fl (y i) = y i := fun y hy => hx y (by simp [hy])
      have hc' : ∀ n : Nat, n ≤ xs.length → fl n = n := fun n hn => hcount n (by simp; omega)
      obtain ⟨h1, h2, ⟨a, ha, h3⟩, ⟨b, hb, h4⟩⟩ := machineMean_inv h hu G xs h0 hx' hc' i
      have IH := ih h0 hx' (fun y hy => hM y (by simp [hy])) hc'
      have hs : machineMean G (xs ++ [x]) = meanConsume (machineMean G xs) x := by
        simp [machineMean]
      have hn0 : ¬ (machineMean G xs).n = 0 := by omega
      have hc := hcount (xs.length + 1) (by simp)
      have hmean : (machineMean G (xs ++ [x])).mean i =
          fl ((machineMean G xs).mean i + fl (fl (x i - (machineMean G xs).mean i) / ((xs.length + 1 : ℕ) : ℝ))) := by
        rw [hs]
        unfold meanConsume
        rw [if_neg hn0, h1]
        show fl (_ + fl (fl _ / fl ((xs.length + 1 : ℕ) : ℝ))) = _
        rw [hc]
      have hn2 : (2 : ℝ) ≤ ((xs.length + 1 : ℕ) : ℝ) := by exact_mod_cast (by omega : 2 ≤ xs.length + 1)
      have hmM : |(machineMean G xs).mean i| ≤ M := by
        have p1 := abs_le.mp (hM a (by simp [ha]))
        have p2 := abs_le.mp (hM b (by simp [hb]))
        rw [abs_le]; constructor <;> linarith
      have loc := step_error h hu0 hu _ _ M h2 (hx x (by simp) i) _ hn2 hmM (hM x (by simp))
      rw [hmean]
      generalize (machineMean G xs).mean i = m at *
      have hlen : ((xs ++ [x]).length : ℝ) = xs.length + 1 := by simp
      rw [hlen, List.map_append, List.sum_append]
      simp only [List.map_cons, List.map_nil, List.sum_cons, List.sum_nil, add_zero]
      push_cast at loc hn2 ⊢
      generalize (xs.map (fun x => x i)).sum = s at *
      have hN : (1:ℝ) ≤ xs.length := by exact_mod_cast hpos
      generalize (xs.length : ℝ) = N at *
      generalize fl (m + fl (fl (x i - m) / (N + 1))) = m' at *
      have hN0 : N + 1 ≠ 0 := by linarith
      have hN1 : N ≠ 0 := by linarith
      have split : m' - (s + x i) / (N + 1) = (m' - (m + (x i - m) / (N + 1))) + (N / (N + 1)) * (m - s / N) := by
        field_simp; ring
      rw [split]
      have t := abs_add_le (m' - (m + (x i - m) / (N + 1))) ((N / (N + 1)) * (m - s / N))
      have e : |(N / (N + 1)) * (m - s / N)| = (N / (N + 1)) * |m - s / N| := by
        rw [abs_mul, abs_of_nonneg (div_nonneg (by linarith) (by linarith))]
      rw [e] at t
      have t2 := mul_le_mul_of_nonneg_left t (by linarith : (0:ℝ) ≤ N + 1)
      have e2 : (N + 1) * (|m' - (m + (x i - m) / (N + 1))| + (N / (N + 1)) * |m - s / N|) =
          (N + 1) * |m' - (m + (x i - m) / (N + 1))| + N * |m - s / N| := by
        field_simp
      rw [e2] at t2
      have t3 := mul_le_mul_of_nonneg_left loc (by linarith : (0:ℝ) ≤ N + 1)
      have e3 : (N + 1) * (u * M * (1 + 5 / (N + 1))) = u * M * (N + 6) := by field_simp; ring
      rw [e3] at t3
      have e4 : u * M * ((N + 1 - 1) * (N + 1) / 2 + 6 * (N + 1 - 1)) = u * M * (N + 6) + u * M * ((N - 1) * N / 2 + 6 * (N - 1)) := by ring
      rw [e4]
      linarith

/-! ### variances -/

theorem machineCov_nonneg (h : Rounding u fl) (M : ι → ℝ) (C₀ G : ι → ι → ℝ) (xs : List (ι → ℝ)) (i : ι)
    (hcount : ∀ n : Nat, n ≤ xs.length → fl n = n) (hlen : 2 ≤ xs.length) (hG : fl (G i i) = G i i) :
    0 ≤ (@machineCov ℝ ι (roundedArith fl) M C₀ G xs).C i i := by
  let _ := roundedArith fl
  have hn : ∀ xs : List (ι → ℝ), (machineCov M C₀ G xs).n = xs.length := by
    intro xs
    induction xs using List.reverseRecOn with
    | nil => rfl
    | append_singleton xs x ih =>
      have hs : machineCov M C₀ G (xs ++ [x]) = covConsume G (machineCov M C₀ G xs) x := by simp [machineCov]
      rw [hs]
      unfold covConsume
      split
      · rename_i h0
        rw [ih] at h0
        simp [h0]
      · simp [ih]
  -- one update
  have upd : ∀ (C a N : ℝ), fl C = C → 0 ≤ a → 1 ≤ N → (0 ≤ C ∨ N = 1) → 0 ≤ fl (C + fl (a - fl (C / N))) := by
    intro C a N hC ha hN hCN
    refine h.nonneg ?_
    have : fl (C / N) ≤ C := by
      rcases hCN with hC0 | rfl
      · calc fl (C / N) ≤ fl C := h.mono _ _ (div_le_self hC0 hN)
          _ = C := hC
      · rw [div_one, hC]
    have : -C ≤ fl (a - fl (C / N)) := by
      calc -C = fl (-C) := by rw [h.odd, hC]
        _ ≤ _ := h.mono _ _ (by linarith)
    linarith
  have key : ∀ xs : List (ι → ℝ), (∀ n : Nat, n ≤ xs.length → fl n = n) → 1 ≤ xs.length → fl ((machineCov M C₀ G xs).C i i) = (machineCov M C₀ G xs).C i i ∧
      (2 ≤ xs.length → 0 ≤ (machineCov M C₀ G xs).C i i) := by
    intro xs
    induction xs using List.reverseRecOn with
    | nil => intro _ h'; simp at h'
    | append_singleton xs x ih =>
      intro hcount _
      have hs : machineCov M C₀ G (xs ++ [x]) = covConsume G (machineCov M C₀ G xs) x := by simp [machineCov]
      by_cases h0 : xs = []
      · subst h0
        refine ⟨hG, fun h' => ?_⟩
        simp at h'
      · have hpos : 0 < xs.length := List.length_pos_iff.mpr h0
        obtain ⟨i1, i2⟩ := ih (fun n hn => hcount n (by simp; omega)) hpos
        have hn0 : ¬ (machineCov M C₀ G xs).n = 0 := by rw [hn]; omega
        have hform : (machineCov M C₀ G (xs ++ [x])).C i i = fl ((machineCov M C₀ G xs).C i i +
            fl (fl (fl (fl (x i - (machineCov M C₀ G xs).mean i) * fl (x i - (machineCov M C₀ G xs).mean i)) / fl ((xs.length + 1 : ℕ) : ℝ)) -
              fl ((machineCov M C₀ G xs).C i i / fl (fl ((xs.length + 1 : ℕ) : ℝ) - fl ((1 : ℕ) : ℝ))))) := by
          rw [hs]
          unfold covConsume
          rw [if_neg hn0, hn]
          rfl
        have hc1 : fl ((1 : ℕ) : ℝ) = ((1 : ℕ) : ℝ) := hcount 1 (by simp)
        have hc2 : fl ((xs.length + 1 : ℕ) : ℝ) = ((xs.length + 1 : ℕ) : ℝ) := hcount _ (by simp)
        have hc3 : fl (xs.length : ℝ) = xs.length := hcount _ (by simp)
        have hc4 : fl (((xs.length + 1 : ℕ) : ℝ) - ((1 : ℕ) : ℝ)) = xs.length := by
          rw [show ((xs.length + 1 : ℕ) : ℝ) - ((1 : ℕ) : ℝ) = xs.length by push_cast; ring]
          exact hc3
        rw [hform, hc1, hc2, hc4]
        refine ⟨h.idempotent _, fun _ => upd _ _ _ i1 ?_ ?_ ?_⟩
        · exact h.nonneg (div_nonneg (h.nonneg (mul_self_nonneg _)) (by positivity))
        · exact_mod_cast hpos
        · by_cases h2 : 2 ≤ xs.length
          · exact Or.inl (i2 h2)
          · right
            have : xs.length = 1 := by omega
            simp [this]
  exact (key xs hcount (by omega)).2 hlen

end rounded

end SampleFlow
