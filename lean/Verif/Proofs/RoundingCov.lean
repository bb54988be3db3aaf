import Verif.Proofs.Rounding
import Mathlib.Data.Real.Star

/-! Rounding errors of the covariance matrix. -/

namespace SampleFlow

open Spec

variable {ι : Type} {u : ℝ} {fl : ℝ → ℝ}

theorem Spec.Rounding.bound (h : Rounding u fl) (hu0 : 0 ≤ u) {x B : ℝ} (hx : |x| ≤ B) : |fl x - x| ≤ u * B :=
  (h.error x).trans (mul_le_mul_of_nonneg_left hx hu0)

theorem Spec.Rounding.size (h : Rounding u fl) (hu0 : 0 ≤ u) {x B : ℝ} (hx : |x| ≤ B) : |fl x| ≤ B + u * B := by
  have h1 := h.bound hu0 hx
  have h2 := abs_sub_abs_le_abs_sub (fl x) x
  linarith

/-- the product term of line 189 -/
theorem product_error (h : Rounding u fl) (hu0 : 0 ≤ u) (hu : u ≤ 1/64) (n m m' μ μ' x y M K : ℝ) (hn : 0 < n) (hK : 0 ≤ K)
    (hx : |x| ≤ M) (hy : |y| ≤ M) (hm : |m| ≤ M) (hm' : |m'| ≤ M) (hμ' : |μ'| ≤ M)
    (he : |m - μ| ≤ u * M * K) (he' : |m' - μ'| ≤ u * M * K) :
    |fl (fl (fl (x - m) * fl (y - m')) / n)| ≤ 4.4 * (M * M) / n ∧
    |fl (fl (fl (x - m) * fl (y - m')) / n) - (x - μ) * (y - μ') / n| ≤ u * (M * M) * (4.5 * K + 18) / n := by
  have hM : 0 ≤ M := (abs_nonneg x).trans hx
  have huM : 0 ≤ u * M := mul_nonneg hu0 hM
  have huM2 : 0 ≤ u * (M * M) := mul_nonneg hu0 (mul_nonneg hM hM)
  have huM' : u * M ≤ 1/64 * M := mul_le_mul_of_nonneg_right hu hM
  have hMM : 0 ≤ M * M := mul_nonneg hM hM
  have huMM : u * (M * M) ≤ 1/64 * (M * M) := mul_le_mul_of_nonneg_right hu hMM
  have dx : |x - m| ≤ 2 * M := (abs_sub x m).trans (by linarith)
  have dy : |y - m'| ≤ 2 * M := (abs_sub y m').trans (by linarith)
  have dy' : |y - μ'| ≤ 2 * M := (abs_sub y μ').trans (by linarith)
  have ax := h.size hu0 dx
  have ay := h.size hu0 dy
  have bx := h.bound hu0 dx
  have by' := h.bound hu0 dy
  generalize fl (x - m) = a at *
  generalize fl (y - m') = b at *
  have ea : |a - (x - μ)| ≤ u * M * (K + 2) := by
    have : a - (x - μ) = (a - (x - m)) + -(m - μ) := by ring
    rw [this]
    refine (abs_add_le _ _).trans ?_
    rw [abs_neg]
    linarith
  have eb : |b - (y - μ')| ≤ u * M * (K + 2) := by
    have : b - (y - μ') = (b - (y - m')) + -(m' - μ') := by ring
    rw [this]
    refine (abs_add_le _ _).trans ?_
    rw [abs_neg]
    linarith
  have ax' : |a| ≤ 65/32 * M := by linarith
  have ay' : |b| ≤ 65/32 * M := by linarith
  have hab : |a * b| ≤ 4.2 * (M * M) := by
    rw [abs_mul]
    have := mul_le_mul ax' ay' (abs_nonneg _) (by linarith)
    nlinarith
  have hprod : |a * b - (x - μ) * (y - μ')| ≤ u * (M * M) * (4.5 * (K + 2)) := by
    have : a * b - (x - μ) * (y - μ') = a * (b - (y - μ')) + (a - (x - μ)) * (y - μ') := by ring
    rw [this]
    refine (abs_add_le _ _).trans ?_
    rw [abs_mul, abs_mul]
    have t1 := mul_le_mul ax' eb (abs_nonneg _) (by linarith)
    have t2 := mul_le_mul ea dy' (abs_nonneg _) (mul_nonneg huM (by linarith))
    have t3 : 0 ≤ u * (M * M) * (K + 2) := mul_nonneg huM2 (by linarith)
    nlinarith
  have g1 := h.bound hu0 hab
  have g2 := h.size hu0 hab
  generalize fl (a * b) = g at *
  have g3 : |g| ≤ 4.3 * (M * M) := by nlinarith
  have g4 : |g / n| ≤ 4.3 * (M * M) / n := by
    rw [abs_div, abs_of_pos hn]; exact div_le_div_of_nonneg_right g3 hn.le
  have p1 := h.bound hu0 g4
  have p2 := h.size hu0 g4
  generalize fl (g / n) = p at *
  constructor
  · refine p2.trans ?_
    have : 4.3 * (M * M) / n + u * (4.3 * (M * M) / n) = (4.3 * (M * M) + 4.3 * (u * (M * M))) / n := by ring
    rw [this]
    exact div_le_div_of_nonneg_right (by linarith) hn.le
  · have e : p - (x - μ) * (y - μ') / n = (p - g / n) + ((g - a * b) + (a * b - (x - μ) * (y - μ'))) / n := by ring
    rw [e]
    refine (abs_add_le _ _).trans ?_
    have e2 : |((g - a * b) + (a * b - (x - μ) * (y - μ'))) / n| ≤ (u * (4.2 * (M * M)) + u * (M * M) * (4.5 * (K + 2))) / n := by
      rw [abs_div, abs_of_pos hn]
      refine div_le_div_of_nonneg_right ((abs_add_le _ _).trans (by linarith)) hn.le
    have e3 : u * (4.3 * (M * M) / n) + (u * (4.2 * (M * M)) + u * (M * M) * (4.5 * (K + 2))) / n = u * (M * M) * (4.5 * K + 17.5) / n := by
      ring
    have e4 : u * (M * M) * (4.5 * K + 17.5) / n ≤ u * (M * M) * (4.5 * K + 18) / n :=
      div_le_div_of_nonneg_right (mul_le_mul_of_nonneg_left (by linarith) huM2) hn.le
    linarith

/-- one entry, one update (line 189); `p` is the product term, `P` its exact value -/
theorem entry_step (h : Rounding u fl) (hu0 : 0 ≤ u) (n C X p P M B E : ℝ) (hn : 1 ≤ n) (hun : u * n ≤ 1/64)
    (hC : |C| ≤ 6 * (M * M)) (hp : |p| ≤ 4.4 * (M * M) / n) (hpP : |p - P| ≤ B) (hE : |C - X| ≤ E) :
    |fl (C + fl (p - fl (C / n)))| ≤ 6 * (M * M) ∧
    n * |fl (C + fl (p - fl (C / n))) - (X + (P - X / n))| ≤ (n - 1) * E + n * B + u * (M * M) * (6 * n + 16.5) := by
  have hn0 : 0 < n := by linarith
  obtain ⟨w, hw⟩ : ∃ w, w = M * M / n := ⟨_, rfl⟩
  have hnw : n * w = M * M := by rw [hw]; field_simp
  have hw0 : 0 ≤ w := by rw [hw]; exact div_nonneg (mul_self_nonneg M) hn0.le
  have huw0 : 0 ≤ u * w := mul_nonneg hu0 hw0
  have hwM : w ≤ M * M := by nlinarith
  have hu : u ≤ 1/64 := by nlinarith
  have huM : u * (M * M) ≤ w / 64 := by
    rw [← hnw]
    have := mul_le_mul_of_nonneg_right hun hw0
    linarith
  have huw : u * w ≤ w / 64 := by nlinarith
  have hp' : |p| ≤ 4.4 * w := by rw [hw]; convert hp using 1; ring
  have hq : |C / n| ≤ 6 * w := by
    rw [abs_div, abs_of_pos hn0, div_le_iff₀ hn0]
    linarith
  have hs1 := h.bound hu0 hq
  have hs2 := h.size hu0 hq
  generalize fl (C / n) = s at *
  have hps : |p - s| ≤ 10.5 * w := (abs_sub p s).trans (by linarith)
  have ht1 := h.bound hu0 hps
  generalize fl (p - s) = t at *
  have hCq : |C - C / n| ≤ 6 * (M * M) - 6 * w := by
    have e : C - C / n = C / n * (n - 1) := by field_simp
    rw [e, abs_mul, abs_of_nonneg (by linarith : (0:ℝ) ≤ n - 1)]
    have := mul_le_mul_of_nonneg_right hq (by linarith : (0:ℝ) ≤ n - 1)
    nlinarith
  have hCt : |C + t| ≤ 6 * (M * M) - 1.3 * w := by
    have e : C + t = (C - C / n) + (p + ((t - (p - s)) + -(s - C / n))) := by ring
    rw [e]
    have a1 := abs_add_le (C - C / n) (p + ((t - (p - s)) + -(s - C / n)))
    have a2 := abs_add_le p ((t - (p - s)) + -(s - C / n))
    have a3 := abs_add_le (t - (p - s)) (-(s - C / n))
    rw [abs_neg] at a3
    linarith
  have hC1 := h.bound hu0 hCt
  have hC2 := h.size hu0 hCt
  generalize fl (C + t) = C' at *
  have hu13 : 0 ≤ u * (1.3 * w) := mul_nonneg hu0 (by linarith)
  constructor
  · have : u * (6 * (M * M) - 1.3 * w) = 6 * (u * (M * M)) - u * (1.3 * w) := by ring
    linarith
  · have e : C' - (X + (P - X / n)) =
        (C' - (C + t)) + ((t - (p - s)) + (-(s - C / n) + ((p - P) + (C - X) * ((n - 1) / n)))) := by
      field_simp; ring
    rw [e]
    have a1 := abs_add_le (C' - (C + t)) ((t - (p - s)) + (-(s - C / n) + ((p - P) + (C - X) * ((n - 1) / n))))
    have a2 := abs_add_le (t - (p - s)) (-(s - C / n) + ((p - P) + (C - X) * ((n - 1) / n)))
    have a3 := abs_add_le (-(s - C / n)) ((p - P) + (C - X) * ((n - 1) / n))
    have a4 := abs_add_le (p - P) ((C - X) * ((n - 1) / n))
    rw [abs_neg] at a3
    have a5 : n * |(C - X) * ((n - 1) / n)| ≤ (n - 1) * E := by
      rw [abs_mul, abs_of_nonneg (div_nonneg (by linarith) hn0.le : (0:ℝ) ≤ (n - 1) / n)]
      have : n * (|C - X| * ((n - 1) / n)) = (n - 1) * |C - X| := by field_simp
      rw [this]
      exact mul_le_mul_of_nonneg_left hE (by linarith)
    have tot : |C' - (C + t) + ((t - (p - s)) + (-(s - C / n) + ((p - P) + (C - X) * ((n - 1) / n))))| ≤
        u * (6 * (M * M)) + u * (10.5 * w) + u * (6 * w) + B + |(C - X) * ((n - 1) / n)| := by
      have : u * (6 * (M * M) - 1.3 * w) = u * (6 * (M * M)) - u * (1.3 * w) := by ring
      linarith
    have := mul_le_mul_of_nonneg_left tot hn0.le
    have e2 : n * (u * (6 * (M * M)) + u * (10.5 * w) + u * (6 * w) + B + |(C - X) * ((n - 1) / n)|) =
        u * (M * M) * (6 * n) + 16.5 * u * (n * w) + n * B + n * |(C - X) * ((n - 1) / n)| := by ring
    rw [e2, hnw] at this
    linarith

theorem machineCov_n [Arith ℝ] (M : ι → ℝ) (C₀ G : ι → ι → ℝ) (xs : List (ι → ℝ)) : (machineCov M C₀ G xs).n = xs.length := by
  induction xs using List.reverseRecOn with
  | nil => rfl
  | append_singleton xs x ih =>
    have hs : machineCov M C₀ G (xs ++ [x]) = covConsume G (machineCov M C₀ G xs) x := by simp [machineCov]
    rw [hs]
    unfold covConsume
    split
    · rename_i h0
      rw [ih] at h0
      simp [h0]
    · simp [ih]

/-- CovarianceMatrix keeps the mean in the same way as MeanValue. -/
theorem machineCov_mean [Arith ℝ] (M : ι → ℝ) (C₀ G : ι → ι → ℝ) (xs : List (ι → ℝ)) :
    (machineCov M C₀ G xs).mean = (machineMean M xs).mean ∧ (machineMean M xs).n = xs.length := by
  induction xs using List.reverseRecOn with
  | nil => exact ⟨rfl, rfl⟩
  | append_singleton xs x ih =>
    have hs : machineCov M C₀ G (xs ++ [x]) = covConsume G (machineCov M C₀ G xs) x := by simp [machineCov]
    have hs' : machineMean M (xs ++ [x]) = meanConsume (machineMean M xs) x := by simp [machineMean]
    have hn := machineCov_n M C₀ G xs
    rw [hs, hs']
    unfold covConsume meanConsume
    rw [hn, ih.2, ih.1]
    by_cases h0 : xs.length = 0
    · rw [if_pos h0, if_pos h0]
      exact ⟨rfl, by simp [h0]⟩
    · rw [if_neg h0, if_neg h0]
      exact ⟨rfl, by simp⟩

/-- the exact covariance when one more sample arrives -/
theorem cov_append (xs : List (ι → ℝ)) (x : ι → ℝ) (hne : xs ≠ []) (i j : ι) :
    cov (xs ++ [x]) i j = cov xs i j + ((x i - vmean xs i) * (x j - vmean xs j) / ((xs.length : ℝ) + 1) - cov xs i j / xs.length) := by
  have e1 := covAfter_eq (fun _ => (0:ℝ)) (fun _ _ => 0) (fun _ _ : ι => 0) xs hne
  have e2 := covAfter_eq (fun _ => (0:ℝ)) (fun _ _ => 0) (fun _ _ : ι => 0) (xs ++ [x]) (by simp)
  have hs : covAfter (fun _ => (0:ℝ)) (fun _ _ => 0) (fun _ _ : ι => 0) (xs ++ [x]) =
      CovState.consume (fun _ _ => 0) (covAfter (fun _ => (0:ℝ)) (fun _ _ => 0) (fun _ _ : ι => 0) xs) x := by simp [covAfter]
  have one : ∀ ys : List (ι → ℝ), (if ys.length = 1 then (fun _ _ : ι => (0:ℝ)) else cov ys) = cov ys := by
    intro ys
    split
    · rename_i h1
      funext i j
      simp [cov, h1]
    · rfl
  rw [one] at e1 e2
  have hl : ¬ xs.length = 0 := by simpa using hne
  rw [← e2.2.2, hs]
  unfold CovState.consume
  rw [if_neg (by rw [e1.1]; exact hl), e1.1, e1.2.1, e1.2.2]
  simp

theorem machineCov_error (h : Rounding u fl) (hu0 : 0 ≤ u) (M₀ : ι → ℝ) (C₀ G : ι → ι → ℝ) (xs : List (ι → ℝ)) (hne : xs ≠ []) (M : ℝ) (i j : ι)
    (hG : G i j = 0) (hun : u * xs.length ≤ 1/64)
    (hx : ∀ x ∈ xs, ∀ i, fl (x i) = x i) (hMi : ∀ x ∈ xs, |x i| ≤ M) (hMj : ∀ x ∈ xs, |x j| ≤ M) (hcount : ∀ n : Nat, n ≤ xs.length → fl n = n) :
    |(@machineCov ℝ ι (roundedArith fl) M₀ C₀ G xs).C i j| ≤ 6 * (M * M) ∧
    ((xs.length : ℝ) - 1) * |(@machineCov ℝ ι (roundedArith fl) M₀ C₀ G xs).C i j - cov xs i j| ≤
      u * (M * M) * (((xs.length : ℝ) - 1) * (9 / 2 * xs.length + 60)) := by
  let _ := roundedArith fl
  induction xs using List.reverseRecOn with
  | nil => exact absurd rfl hne
  | append_singleton xs x ih =>
    by_cases h0 : xs = []
    · subst h0
      have : (machineCov M₀ C₀ G ([] ++ [x])).C i j = G i j := rfl
      rw [this, hG]
      constructor
      · rw [abs_zero]; nlinarith [mul_self_nonneg M]
      · simp
    · have hpos : 0 < xs.length := List.length_pos_iff.mpr h0
      have hx' : ∀ y ∈ xs, ∀ i, fl (y i) = y i := fun y hy => hx y (by simp [hy])
      have hc' : ∀ n : Nat, n ≤ xs.length → fl n = n := fun n hn => hcount n (by simp; omega)
      have hlen : ((xs ++ [x]).length : ℝ) = xs.length + 1 := by simp
      rw [hlen] at hun ⊢
      have hN : (1:ℝ) ≤ xs.length := by exact_mod_cast hpos
      have hun' : u * xs.length ≤ 1/64 := by nlinarith
      have hu64 : u ≤ 1/64 := by nlinarith
      obtain ⟨b1, b2⟩ := ih h0 hun' hx' (fun y hy => hMi y (by simp [hy])) (fun y hy => hMj y (by simp [hy])) hc'
      have hn0 : ¬ (machineCov M₀ C₀ G xs).n = 0 := by rw [machineCov_n]; omega
      have hs : machineCov M₀ C₀ G (xs ++ [x]) = covConsume G (machineCov M₀ C₀ G xs) x := by simp [machineCov]
      have hform : (machineCov M₀ C₀ G (xs ++ [x])).C i j = fl ((machineCov M₀ C₀ G xs).C i j +
          fl (fl (fl (fl (x i - (machineCov M₀ C₀ G xs).mean i) * fl (x j - (machineCov M₀ C₀ G xs).mean j)) / fl ((xs.length + 1 : ℕ) : ℝ)) -
            fl ((machineCov M₀ C₀ G xs).C i j / fl (fl ((xs.length + 1 : ℕ) : ℝ) - fl ((1 : ℕ) : ℝ))))) := by
        rw [hs]
        unfold covConsume
        rw [if_neg hn0, machineCov_n]
        rfl
      have hc1 : fl ((1 : ℕ) : ℝ) = ((1 : ℕ) : ℝ) := hcount 1 (by simp)
      have hc2 : fl ((xs.length + 1 : ℕ) : ℝ) = ((xs.length + 1 : ℕ) : ℝ) := hcount _ (by simp)
      have hc3 : fl (xs.length : ℝ) = xs.length := hcount _ (by simp)
      have hc4 : fl (((xs.length + 1 : ℕ) : ℝ) - ((1 : ℕ) : ℝ)) = xs.length := by
        rw [show ((xs.length + 1 : ℕ) : ℝ) - ((1 : ℕ) : ℝ) = xs.length by push_cast; ring]
        exact hc3
      rw [hform, hc1, hc2, hc4, cov_append xs x h0 i j, (machineCov_mean M₀ C₀ G xs).1]
      have hmean : ∀ k, (∀ y ∈ xs ++ [x], |y k| ≤ M) → |(machineMean M₀ xs).mean k| ≤ M ∧ |vmean xs k| ≤ M ∧
          |(machineMean M₀ xs).mean k - vmean xs k| ≤ u * M * ((xs.length - 1) / 2 + 6) := by
        intro k hk
        obtain ⟨-, -, ⟨a, ha, h3⟩, ⟨b, hb, h4⟩⟩ := machineMean_inv h (by linarith) M₀ xs h0 hx' hc' k
        have p1 := abs_le.mp (hk a (by simp [ha]))
        have p2 := abs_le.mp (hk b (by simp [hb]))
        have hM0 : 0 ≤ M := (abs_nonneg _).trans (hk a (by simp [ha]))
        refine ⟨by rw [abs_le]; constructor <;> linarith, ?_, ?_⟩
        · have hv : vmean xs k = (xs.map (fun x => x k)).sum / xs.length := by simp [vmean, mean]
          rw [hv, abs_div, abs_of_pos (by linarith : (0:ℝ) < xs.length), div_le_iff₀ (by linarith)]
          have : ∀ ys : List (ι → ℝ), (∀ y ∈ ys, |y k| ≤ M) → |(ys.map (fun x => x k)).sum| ≤ M * ys.length := by
            intro ys
            induction ys with
            | nil => intro _; simp
            | cons y ys ihy =>
              intro hy
              simp only [List.map_cons, List.sum_cons, List.length_cons]
              have q1 := ihy (fun z hz => hy z (by simp [hz]))
              have q2 := hy y (by simp)
              have q3 := abs_add_le (y k) (ys.map (fun x => x k)).sum
              push_cast
              linarith
          exact this xs (fun y hy => hk y (by simp [hy]))
        · have e := machineMean_error h hu0 (by linarith) M₀ xs h0 M k hx' (fun y hy => hk y (by simp [hy])) hc'
          have hv : vmean xs k = (xs.map (fun x => x k)).sum / xs.length := by simp [vmean, mean]
          rw [hv]
          have huM : 0 ≤ u * M := mul_nonneg hu0 hM0
          have e' : (xs.length : ℝ) * |(machineMean M₀ xs).mean k - (xs.map (fun x => x k)).sum / xs.length| ≤
              xs.length * (u * M * ((xs.length - 1) / 2 + 6)) := by
            refine e.trans ?_
            have : u * M * ((xs.length - 1) * xs.length / 2 + 6 * (xs.length - 1)) = xs.length * (u * M * ((xs.length - 1) / 2 + 6)) - 6 * (u * M) := by ring
            linarith
          exact le_of_mul_le_mul_left e' (by linarith)
      obtain ⟨mi1, -, mi3⟩ := hmean i hMi
      obtain ⟨mj1, mj2, mj3⟩ := hmean j hMj
      have hN1 : ((xs.length + 1 : ℕ) : ℝ) = xs.length + 1 := by push_cast; ring
      rw [hN1]
      obtain ⟨p1, p2⟩ := product_error h hu0 hu64 ((xs.length : ℝ) + 1) _ _ _ _ (x i) (x j) M _ (by linarith) (by linarith)
        (hMi x (by simp)) (hMj x (by simp)) mi1 mj1 mj2 mi3 mj3
      generalize fl (fl (fl (x i - (machineMean M₀ xs).mean i) * fl (x j - (machineMean M₀ xs).mean j)) / ((xs.length : ℝ) + 1)) = p at *
      have hMM : 0 ≤ M * M := mul_self_nonneg M
      have huMM : 0 ≤ u * (M * M) := mul_nonneg hu0 hMM
      have p1' : |p| ≤ 4.4 * (M * M) / xs.length :=
        p1.trans (div_le_div_of_nonneg_left (by linarith) (by linarith) (by linarith))
      have fin := entry_step h hu0 (xs.length : ℝ) _ (cov xs i j) p _ M _ _ hN hun' b1 p1' p2 le_rfl
      refine ⟨fin.1, ?_⟩
      have f2 := fin.2
      rw [show ((xs.length : ℝ) + 1 - 1) = xs.length by ring]
      refine f2.trans ?_
      refine (add_le_add (add_le_add b2 ?_) le_rfl).trans (b := u * (M * M) * (((xs.length : ℝ) - 1) * (9 / 2 * xs.length + 60)) +
        u * (M * M) * (4.5 * ((xs.length - 1) / 2 + 6) + 18) + u * (M * M) * (6 * xs.length + 16.5)) ?_
      · have : (xs.length : ℝ) * (u * (M * M) * (4.5 * ((xs.length - 1) / 2 + 6) + 18) / (xs.length + 1)) =
            (u * (M * M) * (4.5 * ((xs.length - 1) / 2 + 6) + 18)) * (xs.length / (xs.length + 1)) := by ring
        rw [this]
        refine mul_le_of_le_one_right (mul_nonneg huMM (by linarith)) ?_
        rw [div_le_one (by linarith)]; linarith
      · have : u * (M * M) * (((xs.length : ℝ) - 1) * (9 / 2 * xs.length + 60)) +
            u * (M * M) * (4.5 * ((xs.length - 1) / 2 + 6) + 18) + u * (M * M) * (6 * xs.length + 16.5) =
            u * (M * M) * (((xs.length : ℝ) - 1) * (9 / 2 * xs.length + 60) + (4.5 * ((xs.length - 1) / 2 + 6) + 18) + (6 * xs.length + 16.5)) := by ring
        rw [this]
        refine mul_le_mul_of_nonneg_left ?_ huMM
        nlinarith

end SampleFlow
