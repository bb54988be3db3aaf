import Verif.Proofs.IeeeAccuracy

/-! Accuracy of the covariance matrix in arithmetic with gradual underflow. -/

namespace SampleFlow

open Spec

namespace Ieee

variable {ι : Type} {u tiny Ω η : ℝ} {fl : ℝ → ℝ}

theorem grow {x B : ℝ} (hu0 : 0 ≤ u) (he : |fl x - x| ≤ u * |x|) (hx : |x| ≤ B) : |fl x - x| ≤ u * B ∧ |fl x| ≤ B + u * B := by
  have h1 : |fl x - x| ≤ u * B := he.trans (mul_le_mul_of_nonneg_left hx hu0)
  refine ⟨h1, ?_⟩
  have h2 := abs_sub_abs_le_abs_sub (fl x) x
  linarith

theorem grow_η {x B : ℝ} (hu0 : 0 ≤ u) (hη : ∀ x, |fl x - x| ≤ u * |x| + η) (hx : |x| ≤ B) : |fl x - x| ≤ u * B + η ∧ |fl x| ≤ B + u * B + η := by
  have h1 : |fl x - x| ≤ u * B + η := (hη x).trans (add_le_add_left (mul_le_mul_of_nonneg_left hx hu0) _)
  refine ⟨h1, ?_⟩
  have h2 := abs_sub_abs_le_abs_sub (fl x) x
  linarith

theorem product_error (h : Format u tiny fl) (hu0 : 0 ≤ u) (hu : u ≤ 1/64) (ht : 0 ≤ tiny) (hη0 : 0 ≤ η) (hη : ∀ x, |fl x - x| ≤ u * |x| + η)
    (n m m' μ μ' x y M K κ : ℝ) (hn : 1 ≤ n) (hK : 0 ≤ K) (hκ : 0 ≤ κ) (fx : Machine fl x) (fy : Machine fl y) (fm : Machine fl m) (fm' : Machine fl m')
    (hx : |x| ≤ M) (hy : |y| ≤ M) (hm : |m| ≤ M) (hm' : |m'| ≤ M) (hμ' : |μ'| ≤ M)
    (he : |m - μ| ≤ u * M * K + κ) (he' : |m' - μ'| ≤ u * M * K + κ) :
    |fl (fl (fl (x - m) * fl (y - m')) / n)| ≤ 4.4 * (M * M) / n + 2.1 * η ∧
    |fl (fl (fl (x - m) * fl (y - m')) / n) - (x - μ) * (y - μ') / n| ≤ u * (M * M) * (4.5 * K + 18) / n + 4.5 * (M * κ) / n + 2.1 * η := by
  have hn0 : 0 < n := by linarith
  have hM : 0 ≤ M := (abs_nonneg x).trans hx
  have huM : 0 ≤ u * M := mul_nonneg hu0 hM
  have huM2 : 0 ≤ u * (M * M) := mul_nonneg hu0 (mul_nonneg hM hM)
  have huM' : u * M ≤ 1/64 * M := mul_le_mul_of_nonneg_right hu hM
  have hMM : 0 ≤ M * M := mul_nonneg hM hM
  have huMM : u * (M * M) ≤ 1/64 * (M * M) := mul_le_mul_of_nonneg_right hu hMM
  have dx : |x - m| ≤ 2 * M := (abs_sub x m).trans (by linarith)
  have dy : |y - m'| ≤ 2 * M := (abs_sub y m').trans (by linarith)
  have dy' : |y - μ'| ≤ 2 * M := (abs_sub y μ').trans (by linarith)
  obtain ⟨bx, ax⟩ := grow hu0 (diff_error h hu0 ht fx fm) dx
  obtain ⟨by', ay⟩ := grow hu0 (diff_error h hu0 ht fy fm') dy
  generalize fl (x - m) = a at *
  generalize fl (y - m') = b at *
  have ea : |a - (x - μ)| ≤ u * M * (K + 2) + κ := by
    have : a - (x - μ) = (a - (x - m)) + -(m - μ) := by ring
    rw [this]
    refine (abs_add_le _ _).trans ?_
    rw [abs_neg]
    linarith
  have eb : |b - (y - μ')| ≤ u * M * (K + 2) + κ := by
    have : b - (y - μ') = (b - (y - m')) + -(m' - μ') := by ring
    rw [this]
    refine (abs_add_le _ _).trans ?_
    rw [abs_neg]
    linarith
  have ax' : |a| ≤ 65/32 * M := by linarith
  have ay' : |b| ≤ 65/32 * M := by linarith
  have hab : |a * b| ≤ 4.2 * (M * M) := by
    rw [abs_mul]
    have := mul_le_mul ax' ay' (abs_nonneg _) (by linarith)
    nlinarith
  have hMκ : 0 ≤ M * κ := mul_nonneg hM hκ
  have hprod : |a * b - (x - μ) * (y - μ')| ≤ u * (M * M) * (4.5 * (K + 2)) + 4.5 * (M * κ) := by
    have : a * b - (x - μ) * (y - μ') = a * (b - (y - μ')) + (a - (x - μ)) * (y - μ') := by ring
    rw [this]
    refine (abs_add_le _ _).trans ?_
    rw [abs_mul, abs_mul]
    have hD : 0 ≤ u * M * (K + 2) + κ := add_nonneg (mul_nonneg huM (by linarith)) hκ
    have t1 := mul_le_mul ax' eb (abs_nonneg _) (by linarith)
    have t2 := mul_le_mul ea dy' (abs_nonneg _) hD
    have t3 : 0 ≤ u * (M * M) * (K + 2) := mul_nonneg huM2 (by linarith)
    have t4 : 65/32 * M * (u * M * (K + 2) + κ) = 65/32 * (u * (M * M) * (K + 2)) + 65/32 * (M * κ) := by ring
    have t5 : (u * M * (K + 2) + κ) * (2 * M) = 2 * (u * (M * M) * (K + 2)) + 2 * (M * κ) := by ring
    rw [t4] at t1
    rw [t5] at t2
    have t6 : u * (M * M) * (4.5 * (K + 2)) = 4.5 * (u * (M * M) * (K + 2)) := by ring
    rw [t6]
    linarith
  obtain ⟨g1, g2⟩ := grow_η hu0 hη hab
  generalize fl (a * b) = g at *
  have g3 : |g| ≤ 4.3 * (M * M) + η := by linarith
  have g4 : |g / n| ≤ (4.3 * (M * M) + η) / n := by
    rw [abs_div, abs_of_pos hn0]; exact div_le_div_of_nonneg_right g3 hn0.le
  obtain ⟨p1, p2⟩ := grow_η hu0 hη g4
  generalize fl (g / n) = p at *
  have hηn : η / n ≤ η := div_le_self hη0 hn
  have hηn0 : 0 ≤ η / n := div_nonneg hη0 hn0.le
  have huη : u * (η / n) ≤ 1/64 * η := mul_le_mul hu hηn hηn0 (by norm_num)
  constructor
  · refine p2.trans ?_
    have e1 : (4.3 * (M * M) + η) / n + u * ((4.3 * (M * M) + η) / n) + η = (4.3 * (M * M) + 4.3 * (u * (M * M))) / n + η / n + u * (η / n) + η := by ring
    rw [e1]
    have e2 : (4.3 * (M * M) + 4.3 * (u * (M * M))) / n ≤ 4.4 * (M * M) / n := div_le_div_of_nonneg_right (by linarith) hn0.le
    linarith
  · have e : p - (x - μ) * (y - μ') / n = (p - g / n) + ((g - a * b) + (a * b - (x - μ) * (y - μ'))) / n := by ring
    rw [e]
    refine (abs_add_le _ _).trans ?_
    have e2 : |((g - a * b) + (a * b - (x - μ) * (y - μ'))) / n| ≤ (u * (4.2 * (M * M)) + η + (u * (M * M) * (4.5 * (K + 2)) + 4.5 * (M * κ))) / n := by
      rw [abs_div, abs_of_pos hn0]
      refine div_le_div_of_nonneg_right ((abs_add_le _ _).trans (by linarith)) hn0.le
    have e3 : u * ((4.3 * (M * M) + η) / n) + η + (u * (4.2 * (M * M)) + η + (u * (M * M) * (4.5 * (K + 2)) + 4.5 * (M * κ))) / n =
        u * (M * M) * (4.5 * K + 17.5) / n + 4.5 * (M * κ) / n + u * (η / n) + η / n + η := by
      ring
    have e4 : u * (M * M) * (4.5 * K + 17.5) / n ≤ u * (M * M) * (4.5 * K + 18) / n :=
      div_le_div_of_nonneg_right (mul_le_mul_of_nonneg_left (by linarith) huM2) hn0.le
    linarith

/-- one entry, one update -/
theorem entry_step (h : Format u tiny fl) (hu0 : 0 ≤ u) (ht : 0 ≤ tiny) (hη0 : 0 ≤ η) (hη : ∀ x, |fl x - x| ≤ u * |x| + η) (n C X p P M B E : ℝ) (hn : 1 ≤ n) (hun : u * n ≤ 1/64)
    (fC : Machine fl C) (fp : Machine fl p)
    (hC : |C| ≤ 6 * (M * M) + 4 * n * η) (hp : |p| ≤ 4.4 * (M * M) / n + 2.1 * η) (hpP : |p - P| ≤ B) (hE : |C - X| ≤ E) :
    |fl (C + fl (p - fl (C / n)))| ≤ 6 * (M * M) + 4 * n * η ∧
    n * |fl (C + fl (p - fl (C / n))) - (X + (P - X / n))| ≤ (n - 1) * E + n * B + u * (M * M) * (6 * n + 16.5) + 1.3 * n * η := by
  have hn0 : 0 < n := by linarith
  obtain ⟨w, hw⟩ : ∃ w, w = M * M / n := ⟨_, rfl⟩
  have hnw : n * w = M * M := by rw [hw]; field_simp
  have hw0 : 0 ≤ w := by rw [hw]; exact div_nonneg (mul_self_nonneg M) hn0.le
  have huw0 : 0 ≤ u * w := mul_nonneg hu0 hw0
  have hu : u ≤ 1/64 := by nlinarith
  have huM : u * (M * M) ≤ w / 64 := by
    rw [← hnw]
    have := mul_le_mul_of_nonneg_right hun hw0
    linarith
  have huw : u * w ≤ w / 64 := by nlinarith
  have huη : u * η ≤ η / 64 := by nlinarith
  have huη0 : 0 ≤ u * η := mul_nonneg hu0 hη0
  have hunη : u * (n * η) ≤ η / 64 := by
    have := mul_le_mul_of_nonneg_right hun hη0
    linarith
  have hp' : |p| ≤ 4.4 * w + 2.1 * η := by
    have : 4.4 * (M * M) / n = 4.4 * w := by rw [hw]; ring
    linarith
  have hq : |C / n| ≤ 6 * w + 4 * η := by
    rw [abs_div, abs_of_pos hn0, div_le_iff₀ hn0]
    linarith
  obtain ⟨hs1, hs2⟩ := grow_η hu0 hη hq
  have fs := machine_fl h (C / n)
  generalize fl (C / n) = s at *
  have eq1 : u * (6 * w + 4 * η) = 6 * (u * w) + 4 * (u * η) := by ring
  rw [eq1] at hs1 hs2
  have hps : |p - s| ≤ 10.5 * w + 7.2 * η := (abs_sub p s).trans (by linarith)
  obtain ⟨ht1, -⟩ := grow hu0 (diff_error h hu0 ht fp fs) hps
  have ft := machine_fl h (p - s)
  generalize fl (p - s) = t at *
  have eq2 : u * (10.5 * w + 7.2 * η) = 10.5 * (u * w) + 7.2 * (u * η) := by ring
  rw [eq2] at ht1
  have hCq : |C - C / n| ≤ 6 * (M * M) + 4 * n * η - 6 * w - 4 * η := by
    have e : C - C / n = C / n * (n - 1) := by field_simp
    rw [e, abs_mul, abs_of_nonneg (by linarith : (0:ℝ) ≤ n - 1)]
    have := mul_le_mul_of_nonneg_right hq (by linarith : (0:ℝ) ≤ n - 1)
    have e2 : (6 * w + 4 * η) * (n - 1) = 6 * (n * w) + 4 * n * η - 6 * w - 4 * η := by ring
    rw [e2, hnw] at this
    exact this
  have hCt : |C + t| ≤ 6 * (M * M) + 4 * n * η - 1.3 * w - 0.7 * η := by
    have e : C + t = (C - C / n) + (p + ((t - (p - s)) + -(s - C / n))) := by ring
    rw [e]
    have a1 := abs_add_le (C - C / n) (p + ((t - (p - s)) + -(s - C / n)))
    have a2 := abs_add_le p ((t - (p - s)) + -(s - C / n))
    have a3 := abs_add_le (t - (p - s)) (-(s - C / n))
    rw [abs_neg] at a3
    linarith
  obtain ⟨hC1, hC2⟩ := grow hu0 (sum_error h hu0 ht fC ft) hCt
  generalize fl (C + t) = C' at *
  have eq3 : u * (6 * (M * M) + 4 * n * η - 1.3 * w - 0.7 * η) = 6 * (u * (M * M)) + 4 * (u * (n * η)) - 1.3 * (u * w) - 0.7 * (u * η) := by ring
  rw [eq3] at hC1 hC2
  constructor
  · linarith
  · have e : C' - (X + (P - X / n)) =
        (C' - (C + t)) + ((t - (p - s)) + (-(s - C / n) + ((p - P) + (C - X) * ((n - 1) / n)))) := by
      field_simp; ring
    rw [e]
    have a1 := abs_add_le (C' - (C + t)) ((t - (p - s)) + (-(s - C / n) + ((p - P) + (C - X) * ((n - 1) / n))))
    have a2 := abs_add_le (t - (p - s)) (-(s - C / n) + ((p - P) + (C - X) * ((n - 1) / n)))
    have a3 := abs_add_le (-(s - C / n)) ((p - P) + (C - X) * ((n - 1) / n))
    have a4 := abs_add_le (p - P) ((C - X) * ((n - 1) / n))
    rw [abs_neg] at a3
    have a5 : n * |(C - X) * ((n - 1) / n)| ≤ (n - 1) * E := by
      rw [abs_mul, abs_of_nonneg (div_nonneg (by linarith) hn0.le : (0:ℝ) ≤ (n - 1) / n)]
      have : n * (|C - X| * ((n - 1) / n)) = (n - 1) * |C - X| := by field_simp
      rw [this]
      exact mul_le_mul_of_nonneg_left hE (by linarith)
    have tot : |C' - (C + t) + ((t - (p - s)) + (-(s - C / n) + ((p - P) + (C - X) * ((n - 1) / n))))| ≤
        6 * (u * (M * M)) + 16.5 * (u * w) + 1.3 * η + B + |(C - X) * ((n - 1) / n)| := by
      linarith
    have := mul_le_mul_of_nonneg_left tot hn0.le
    have e2 : n * (6 * (u * (M * M)) + 16.5 * (u * w) + 1.3 * η + B + |(C - X) * ((n - 1) / n)|) =
        u * (M * M) * (6 * n) + 16.5 * u * (n * w) + 1.3 * n * η + n * B + n * |(C - X) * ((n - 1) / n)| := by ring
    rw [e2, hnw] at this
    linarith

theorem vmean_le (k : ι) (M : ℝ) (xs : List (ι → ℝ)) (h0 : xs ≠ []) (hk : ∀ y ∈ xs, |y k| ≤ M) : |vmean xs k| ≤ M := by
  have hpos : (0:ℝ) < xs.length := by exact_mod_cast List.length_pos_iff.mpr h0
  have hv : vmean xs k = (xs.map (fun x => x k)).sum / xs.length := by simp [vmean, mean]
  rw [hv, abs_div, abs_of_pos hpos, div_le_iff₀ hpos]
  have : ∀ ys : List (ι → ℝ), (∀ y ∈ ys, |y k| ≤ M) → |(ys.map (fun x => x k)).sum| ≤ M * ys.length := by
    intro ys
    induction ys with
    | nil => intro _; simp
    | cons y ys ihy =>
      intro hy
      simp only [List.map_cons, List.sum_cons, List.length_cons]
      have q1 := ihy (fun z hz => hy z (by simp [hz]))
      have q2 := hy y (by simp)
      have q3 := abs_add_le (y k) (ys.map (fun x => x k)).sum
      push_cast
      linarith
  exact this xs hk

theorem mean_error' (h : Format u tiny fl) (hu0 : 0 ≤ u) (hu : u ≤ 1/8) (ht : 0 ≤ tiny) (hη : ∀ x, |fl x - x| ≤ u * |x| + η) (G : ι → ℝ) (xs : List (ι → ℝ)) (hne : xs ≠ []) (M : ℝ) (i : ι)
    (hx : ∀ x ∈ xs, Machine fl (x i)) (hM : ∀ x ∈ xs, |x i| ≤ M) (hcount : ∀ n : Nat, n ≤ xs.length → Machine fl n) :
    |(@machineMean ℝ ι (roundedArith fl) G xs).mean i - vmean xs i| ≤ u * M * (((xs.length : ℝ) - 1) / 2 + 6) + η * ((xs.length + 1) / 2) := by
  have hN : (1:ℝ) ≤ xs.length := by exact_mod_cast List.length_pos_iff.mpr hne
  have hη0 : 0 ≤ η := by have := (abs_nonneg _).trans (hη 0); simpa using this
  obtain ⟨a, ha⟩ := List.exists_mem_of_ne_nil xs hne
  have huM : 0 ≤ u * M := mul_nonneg hu0 ((abs_nonneg _).trans (hM a ha))
  have e := mean_error h hu0 hu ht hη G xs hne M i hx hM hcount
  have hv : vmean xs i = (xs.map (fun x => x i)).sum / xs.length := by simp [vmean, mean]
  rw [hv]
  generalize |(@machineMean ℝ ι (roundedArith fl) G xs).mean i - (xs.map (fun x => x i)).sum / xs.length| = d at *
  generalize (xs.length : ℝ) = N at *
  refine le_of_mul_le_mul_left (e.trans ?_) (by linarith : 0 < N)
  have : N * (u * M * ((N - 1) / 2 + 6) + η * ((N + 1) / 2)) =
      u * M * ((N - 1) * N / 2 + 6 * (N - 1)) + η * ((N - 1) * (N + 2) / 2) + 6 * (u * M) + η := by ring
  linarith

theorem machine_cov (h : Format u tiny fl) (M₀ : ι → ℝ) (C₀ G : ι → ι → ℝ) (xs : List (ι → ℝ)) (hne : xs ≠ []) (i j : ι) (hG : Machine fl (G i j)) :
    Machine fl ((@machineCov ℝ ι (roundedArith fl) M₀ C₀ G xs).C i j) := by
  let _ := roundedArith fl
  induction xs using List.reverseRecOn with
  | nil => exact absurd rfl hne
  | append_singleton xs x ih =>
    have hs : machineCov M₀ C₀ G (xs ++ [x]) = covConsume G (machineCov M₀ C₀ G xs) x := by simp [machineCov]
    rw [hs]
    unfold covConsume
    split
    · exact hG
    · exact machine_fl h _

private theorem cov_k1 (u M η N : ℝ) (huMM : 0 ≤ u * (M * M)) (hN : 1 ≤ N) : N * (u * (M * M) * (4.5 * ((N - 1) / 2 + 6) + 18) / (N + 1) + 4.5 * (M * (η * ((N + 1) / 2))) / (N + 1) + 2.1 * η) ≤
    u * (M * M) * (4.5 * ((N - 1) / 2 + 6) + 18) + N * (2.25 * M + 2.1) * η := by
  have e1 : N * (u * (M * M) * (4.5 * ((N - 1) / 2 + 6) + 18) / (N + 1) + 4.5 * (M * (η * ((N + 1) / 2))) / (N + 1) + 2.1 * η) =
      (u * (M * M) * (4.5 * ((N - 1) / 2 + 6) + 18)) * (N / (N + 1)) + N * (2.25 * M + 2.1) * η := by
    field_simp; ring
  rw [e1]
  refine add_le_add_left ?_ _
  refine mul_le_of_le_one_right (mul_nonneg huMM (by linarith)) ?_
  rw [div_le_one (by linarith)]; linarith

private theorem cov_k2 (u M η N : ℝ) (huMM : 0 ≤ u * (M * M)) (hN : 1 ≤ N) : u * (M * M) * ((N - 1) * (9 / 2 * N + 60)) + u * (M * M) * (4.5 * ((N - 1) / 2 + 6) + 18) + u * (M * M) * (6 * N + 16.5) ≤
    u * (M * M) * (N * (9 / 2 * (N + 1) + 60)) := by
  have e1 : u * (M * M) * ((N - 1) * (9 / 2 * N + 60)) + u * (M * M) * (4.5 * ((N - 1) / 2 + 6) + 18) + u * (M * M) * (6 * N + 16.5) =
    u * (M * M) * ((N - 1) * (9 / 2 * N + 60) + (4.5 * ((N - 1) / 2 + 6) + 18) + (6 * N + 16.5)) := by ring
  rw [e1]
  refine mul_le_mul_of_nonneg_left ?_ huMM
  have : (N - 1) * (9 / 2 * N + 60) + (4.5 * ((N - 1) / 2 + 6) + 18) + (6 * N + 16.5) = N * (9 / 2 * (N + 1) + 60) - 0.75 * (N + 1) := by ring
  rw [this]; linarith

theorem cov_error (h : Format u tiny fl) (hu0 : 0 ≤ u) (ht : 0 ≤ tiny) (hη : ∀ x, |fl x - x| ≤ u * |x| + η) (M₀ : ι → ℝ) (C₀ G : ι → ι → ℝ) (xs : List (ι → ℝ)) (hne : xs ≠ []) (M : ℝ) (i j : ι)
    (hG : G i j = 0) (hun : u * xs.length ≤ 1/64)
    (hxi : ∀ x ∈ xs, Machine fl (x i)) (hxj : ∀ x ∈ xs, Machine fl (x j)) (hMi : ∀ x ∈ xs, |x i| ≤ M) (hMj : ∀ x ∈ xs, |x j| ≤ M) (hcount : ∀ n : Nat, n ≤ xs.length → Machine fl n) :
    |(@machineCov ℝ ι (roundedArith fl) M₀ C₀ G xs).C i j| ≤ 6 * (M * M) + 4 * xs.length * η ∧
    ((xs.length : ℝ) - 1) * |(@machineCov ℝ ι (roundedArith fl) M₀ C₀ G xs).C i j - cov xs i j| ≤
      u * (M * M) * (((xs.length : ℝ) - 1) * (9 / 2 * xs.length + 60)) + (2.25 * M + 3.4) * η * (((xs.length : ℝ) - 1) * xs.length / 2) := by
  have hη0 : 0 ≤ η := by have := (abs_nonneg _).trans (hη 0); simpa using this
  let _ := roundedArith fl
  induction xs using List.reverseRecOn with
  | nil => exact absurd rfl hne
  | append_singleton xs x ih =>
    by_cases h0 : xs = []
    · subst h0
      have : (machineCov M₀ C₀ G ([] ++ [x])).C i j = G i j := rfl
      rw [this, hG]
      constructor
      · rw [abs_zero]
        have := mul_self_nonneg M
        positivity
      · simp
    · have hpos : 0 < xs.length := List.length_pos_iff.mpr h0
      have hxi' : ∀ y ∈ xs, Machine fl (y i) := fun y hy => hxi y (by simp [hy])
      have hxj' : ∀ y ∈ xs, Machine fl (y j) := fun y hy => hxj y (by simp [hy])
      have hMi' : ∀ y ∈ xs, |y i| ≤ M := fun y hy => hMi y (by simp [hy])
      have hMj' : ∀ y ∈ xs, |y j| ≤ M := fun y hy => hMj y (by simp [hy])
      have hc' : ∀ n : Nat, n ≤ xs.length → Machine fl n := fun n hn => hcount n (by simp; omega)
      have hlen : ((xs ++ [x]).length : ℝ) = xs.length + 1 := by simp
      rw [hlen] at hun ⊢
      have hN : (1:ℝ) ≤ xs.length := by exact_mod_cast hpos
      have hun' : u * xs.length ≤ 1/64 := by nlinarith
      have hu64 : u ≤ 1/64 := by nlinarith
      obtain ⟨b1, b2⟩ := ih h0 hun' hxi' hxj' hMi' hMj' hc'
      have hn0 : ¬ (machineCov M₀ C₀ G xs).n = 0 := by rw [machineCov_n]; omega
      have hs : machineCov M₀ C₀ G (xs ++ [x]) = covConsume G (machineCov M₀ C₀ G xs) x := by simp [machineCov]
      have hform : (machineCov M₀ C₀ G (xs ++ [x])).C i j = fl ((machineCov M₀ C₀ G xs).C i j +
          fl (fl (fl (fl (x i - (machineCov M₀ C₀ G xs).mean i) * fl (x j - (machineCov M₀ C₀ G xs).mean j)) / fl ((xs.length + 1 : ℕ) : ℝ)) -
            fl ((machineCov M₀ C₀ G xs).C i j / fl (fl ((xs.length + 1 : ℕ) : ℝ) - fl ((1 : ℕ) : ℝ))))) := by
        rw [hs]
        unfold covConsume
        rw [if_neg hn0, machineCov_n]
        rfl
      have hc1 : fl ((1 : ℕ) : ℝ) = ((1 : ℕ) : ℝ) := hcount 1 (by simp)
      have hc2 : fl ((xs.length + 1 : ℕ) : ℝ) = ((xs.length + 1 : ℕ) : ℝ) := hcount _ (by simp)
      have hc3 : fl (xs.length : ℝ) = xs.length := hcount _ (by simp)
      have hc4 : fl (((xs.length + 1 : ℕ) : ℝ) - ((1 : ℕ) : ℝ)) = xs.length := by
        rw [show ((xs.length + 1 : ℕ) : ℝ) - ((1 : ℕ) : ℝ) = xs.length by push_cast; ring]
        exact hc3
      have fC := machine_cov h M₀ C₀ G xs h0 i j (by rw [hG]; exact fl_zero h)
      rw [hform, hc1, hc2, hc4, cov_append xs x h0 i j, (machineCov_mean M₀ C₀ G xs).1]
      obtain ⟨-, fi, mi1⟩ := mean_inv h hu0 (by linarith) ht M₀ xs h0 i M hxi' hMi'
      obtain ⟨-, fj, mj1⟩ := mean_inv h hu0 (by linarith) ht M₀ xs h0 j M hxj' hMj'
      have mi3 := mean_error' h hu0 (by linarith) ht hη M₀ xs h0 M i hxi' hMi' hc'
      have mj3 := mean_error' h hu0 (by linarith) ht hη M₀ xs h0 M j hxj' hMj' hc'
      have hN1 : ((xs.length + 1 : ℕ) : ℝ) = xs.length + 1 := by push_cast; ring
      rw [hN1]
      have hM0 : 0 ≤ M := (abs_nonneg _).trans (hMi x (by simp))
      obtain ⟨p1, p2⟩ := product_error h hu0 hu64 ht hη0 hη ((xs.length : ℝ) + 1) _ _ _ _ (x i) (x j) M _ _ (by linarith) (by linarith) (mul_nonneg hη0 (by linarith))
        (hxi x (by simp)) (hxj x (by simp)) fi fj (hMi x (by simp)) (hMj x (by simp)) mi1 mj1 (vmean_le j M xs h0 hMj') mi3 mj3
      have fp := machine_fl h (fl (fl (x i - (machineMean M₀ xs).mean i) * fl (x j - (machineMean M₀ xs).mean j)) / ((xs.length : ℝ) + 1))
      generalize fl (fl (fl (x i - (machineMean M₀ xs).mean i) * fl (x j - (machineMean M₀ xs).mean j)) / ((xs.length : ℝ) + 1)) = p at *
      have hMM : 0 ≤ M * M := mul_self_nonneg M
      have huMM : 0 ≤ u * (M * M) := mul_nonneg hu0 hMM
      have p1' : |p| ≤ 4.4 * (M * M) / xs.length + 2.1 * η :=
        p1.trans (add_le_add_left (div_le_div_of_nonneg_left (by linarith) (by linarith) (by linarith)) _)
      have fin := entry_step h hu0 ht hη0 hη (xs.length : ℝ) _ (cov xs i j) p _ M _ _ hN hun' fC fp b1 p1' p2 le_rfl
      refine ⟨fin.1.trans (by nlinarith), ?_⟩
      have f2 := fin.2
      rw [show ((xs.length : ℝ) + 1 - 1) = xs.length by ring]
      refine f2.trans ?_
      generalize (xs.length : ℝ) = N at *
      generalize |(machineCov M₀ C₀ G xs).C i j - cov xs i j| = d at *
      have k1 := cov_k1 u M η N huMM hN
      have k2 := cov_k2 u M η N huMM hN
      have k3 : (2.25 * M + 3.4) * η * ((N - 1) * N / 2) + N * (2.25 * M + 2.1) * η + 1.3 * N * η = (2.25 * M + 3.4) * η * (N * (N + 1) / 2) := by ring
      clear hform p1 p2 p1' mi3 mj3 fin
      linarith

end Ieee

end SampleFlow
