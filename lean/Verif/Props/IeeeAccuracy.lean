import Verif.Proofs.IeeeBridge

/-!
# Property C97: MeanValue and CovarianceMatrix are accurate in IEEE double precision, underflow and overflow included

`ieee double maxDouble`: the arithmetic of double precision with gradual underflow, infinities and NaN (Model/Ieee.lean, Spec/Ieee.lean).  `machineMean`, `machineCov`: objects that have consumed the samples in the list.
`vmean`, `cov`: the exact mean and the exact sample covariance (Spec/Statistics.lean).  The components of the samples are finite machine numbers.
-/

namespace SampleFlow

open Spec Ieee

section
variable {ι : Type}

/-- **C97** (MeanValue): for every nonempty sequence of at most `2^53` samples that are not larger than `M`, where `M` is at most half of the largest double, the result is a finite number, and it differs from the exact mean
by at most `2^-53 M ((n-1)/2 + 6)`, plus an absolute error due to underflow of at most `2^-1075 (n+1)/2`. -/
theorem C97_double_mean (G : ι → XR) (i : ι) (xs : List (ι → ℝ)) (hne : xs ≠ []) (hlen : xs.length ≤ 2 ^ 53) (M : ℝ) (hM : M ≤ maxDouble / 2)
    (hx : ∀ x ∈ xs, Machine double (x i)) (hxM : ∀ x ∈ xs, |x i| ≤ M) :
    ∃ m, (@machineMean _ _ (ieee double maxDouble) G (xs.map (fun x k => .fin (x k)))).get i = .fin m ∧
      |m - vmean xs i| ≤ 2 ^ (-53 : ℤ) * M * (((xs.length : ℝ) - 1) / 2 + 6) + 2 ^ (-1075 : ℤ) * ((xs.length + 1) / 2) := by
  have hmax0 : 0 ≤ maxDouble := le_trans (by positivity) (nat_le_max 0 (by norm_num))
  have hhalf : Machine double (maxDouble / 2) := by
    have := double_machine (2 ^ 53 - 1) (by norm_num) 970 (by norm_num)
    have e : ((2 ^ 53 - 1 : ℕ) : ℝ) * 2 ^ (970 : ℤ) = maxDouble / 2 := by
      unfold maxDouble
      rw [show ((2:ℝ) ^ (970 : ℤ)) = 2 ^ 970 from zpow_ofNat 2 970, show (2:ℝ) ^ 971 = 2 * 2 ^ 970 by rw [← pow_succ']]
      rw [Nat.cast_sub (by norm_num)]
      push_cast
      generalize (2:ℝ) ^ 970 = t
      ring
    rwa [e] at this
  have ha : |maxDouble / 2| ≤ maxDouble / 2 := by rw [abs_of_nonneg (by linarith)]
  obtain ⟨m, h1, -, -⟩ := C89_double_mean_partial G i (xs.map (fun x k => XR.fin (x k))) (by simpa using hne) (by rw [List.length_map]; exact lt_of_le_of_lt hlen (by norm_num))
    (-(maxDouble / 2)) (maxDouble / 2) (machine_neg double_format hhalf) hhalf (by rw [abs_neg]; exact ha) ha (by
      intro y hy
      obtain ⟨x, hx', rfl⟩ := List.mem_map.mp hy
      have := abs_le.mp ((hxM x hx').trans hM)
      exact ⟨x i, rfl, hx x hx', this.1, this.2⟩)
  refine ⟨m, h1, ?_⟩
  have hb := mean_bridge double_format maxDouble_machine G (fun _ => 0) xs hne (nat_le_max _ (lt_of_le_of_lt hlen (by norm_num))) i m h1
  rw [hb]
  exact mean_error' double_format (by positivity) unit_small (by positivity) double_error (fun _ => 0) xs hne M i hx hxM (fun n hn => double_nat n (hn.trans hlen))

/-- **C97** (CovarianceMatrix): for every sequence of at least two and at most `2^47` samples that are not larger than `M`, where `M` is at most `2^509 ≈ 1.7·10^153`, every entry of the matrix is a finite number, and it differs from
the exact sample covariance by at most `2^-53 M² (9n/2 + 60)`, plus an absolute error due to underflow of at most `2^-1074 n (M + 1)`.  (The memory of the matrix is zero at the beginning, see C64.) -/
theorem C97_double_covariance (M₀ : ι → XR) (C₀ G : ι → ι → XR) (i j : ι) (hG : G i j = .fin 0) (xs : List (ι → ℝ)) (h2 : 2 ≤ xs.length) (hlen : xs.length ≤ 2 ^ 47) (M : ℝ) (hM : M ≤ 2 ^ 509)
    (hxi : ∀ x ∈ xs, Machine double (x i)) (hxj : ∀ x ∈ xs, Machine double (x j)) (hMi : ∀ x ∈ xs, |x i| ≤ M) (hMj : ∀ x ∈ xs, |x j| ≤ M) :
    ∃ c, (@machineCov _ _ (ieee double maxDouble) M₀ C₀ G (xs.map (fun x k => .fin (x k)))).get i j = .fin c ∧
      |c - cov xs i j| ≤ 2 ^ (-53 : ℤ) * (M * M) * (9 / 2 * xs.length + 60) + 2 ^ (-1074 : ℤ) * xs.length * (M + 1) := by
  have hne : xs ≠ [] := by rintro rfl; simp at h2
  have hlen64 : xs.length < 2 ^ 64 := lt_of_le_of_lt hlen (by norm_num)
  obtain ⟨c, h1, -⟩ := C89_double_covariance_partial M₀ C₀ G i j hG (xs.map (fun x k => XR.fin (x k))) (by simpa using hne) (by rw [List.length_map]; exact hlen64) (by
      intro y hy
      obtain ⟨x, hx', rfl⟩ := List.mem_map.mp hy
      exact ⟨x i, x j, rfl, rfl, hxi x hx', hxj x hx', (hMi x hx').trans hM, (hMj x hx').trans hM⟩)
  refine ⟨c, h1, ?_⟩
  have hb := cov_bridge double_format maxDouble_machine M₀ (fun _ => 0) C₀ G (fun _ _ => 0) (fun _ _ => 0) xs hne (nat_le_max _ hlen64) i j c hG h1
  have hlenR : (xs.length : ℝ) ≤ 2 ^ 47 := by exact_mod_cast hlen
  have hun : (2:ℝ) ^ (-53 : ℤ) * xs.length ≤ 1 / 64 := by
    calc (2:ℝ) ^ (-53 : ℤ) * xs.length ≤ 2 ^ (-53 : ℤ) * 2 ^ 47 := mul_le_mul_of_nonneg_left hlenR (by positivity)
      _ = 1 / 64 := by norm_num
  have e := (cov_error double_format (by positivity) (by positivity) double_error (fun _ => 0) (fun _ _ => 0) (fun _ _ => 0) xs hne M i j rfl hun hxi hxj hMi hMj
    (fun n hn => double_nat n (hn.trans (hlen.trans (by norm_num))))).2
  rw [← hb] at e
  obtain ⟨a, ha⟩ := List.exists_mem_of_ne_nil xs hne
  have hM0 : 0 ≤ M := (abs_nonneg _).trans (hMi a ha)
  have hη : (2:ℝ) ^ (-1074 : ℤ) = 2 * 2 ^ (-1075 : ℤ) := by
    rw [show (-1074 : ℤ) = 1 + -1075 by norm_num, zpow_add₀ (by norm_num), zpow_one]
  have hη0 : (0:ℝ) ≤ 2 ^ (-1075 : ℤ) := by positivity
  rw [hη]
  have hN : (2:ℝ) ≤ xs.length := by exact_mod_cast h2
  generalize (2:ℝ) ^ (-1075 : ℤ) = η at *
  generalize (2:ℝ) ^ (-53 : ℤ) = u at *
  generalize |c - cov xs i j| = d at *
  generalize (xs.length : ℝ) = N at *
  clear hb h1 hMi hMj hxi hxj hun hlenR
  refine le_of_mul_le_mul_left (e.trans ?_) (by linarith : 0 < N - 1)
  have hA : 0 ≤ (N - 1) * N * η := mul_nonneg (mul_nonneg (by linarith) (by linarith)) hη0
  have h3 : (2.25 * M + 3.4) / 2 * ((N - 1) * N * η) ≤ 2 * (M + 1) * ((N - 1) * N * η) := mul_le_mul_of_nonneg_right (by linarith) hA
  have h4 : (2.25 * M + 3.4) * η * ((N - 1) * N / 2) = (2.25 * M + 3.4) / 2 * ((N - 1) * N * η) := by ring
  rw [h4]
  refine (add_le_add_right h3 _).trans (le_of_eq ?_)
  ring

/-! ### instances of the theorems -/

theorem Ieee.three_machine : Machine double 3 := by simpa using double_nat 3 (by norm_num)

/-- C97_double_mean for the samples 3, 1, 2^-1074 (the smallest positive double): the absolute error of the result is at most `2^-53·3·7 + 2^-1074`. -/
example (G : Unit → XR) : ∃ m, (@machineMean _ _ (ieee double maxDouble) G ([fun _ => 3, fun _ => 1, fun _ => 2 ^ (-1074 : ℤ)].map (fun x k => .fin (x k)))).get () = .fin m ∧
    |m - vmean [fun _ => 3, fun _ => 1, fun _ => (2:ℝ) ^ (-1074 : ℤ)] ()| ≤ 2 ^ (-53 : ℤ) * 3 * (((3 : ℕ) - 1 : ℝ) / 2 + 6) + 2 ^ (-1075 : ℤ) * (((3 : ℕ) + 1) / 2) := by
  have hs : (2:ℝ) ^ (-1074 : ℤ) ≤ 1 := zpow_le_one_of_nonpos₀ (by norm_num) (by norm_num)
  have hs0 : (0:ℝ) ≤ 2 ^ (-1074 : ℤ) := by positivity
  have h3 : (3:ℝ) ≤ maxDouble / 2 := by
    have := nat_le_max 6 (by norm_num)
    push_cast at this
    linarith
  refine C97_double_mean G () [fun _ => 3, fun _ => 1, fun _ => 2 ^ (-1074 : ℤ)] (by simp) (by simp) 3 h3 ?_ ?_
  · intro x hx
    simp only [List.mem_cons, List.not_mem_nil, or_false] at hx
    rcases hx with rfl | rfl | rfl
    · exact three_machine
    · exact double_format.one
    · simpa using double_machine 1 (by norm_num) (-1074) le_rfl
  · intro x hx
    simp only [List.mem_cons, List.not_mem_nil, or_false] at hx
    rcases hx with rfl | rfl | rfl
    · norm_num
    · norm_num
    · rw [abs_of_nonneg hs0]; linarith

/-- C97_double_covariance for the samples (3,1) and (0,2^-600): products underflow; the result is still accurate. -/
example (M₀ : Bool → XR) (C₀ : Bool → Bool → XR) (i j : Bool) :
    ∃ c, (@machineCov _ _ (ieee double maxDouble) M₀ C₀ (fun _ _ => .fin 0) ([fun b => if b then 3 else 1, fun b => if b then 0 else 2 ^ (-600 : ℤ)].map (fun x k => .fin (x k)))).get i j = .fin c ∧
    |c - cov [fun b => if b then 3 else 1, fun b => if b then 0 else (2:ℝ) ^ (-600 : ℤ)] i j| ≤ 2 ^ (-53 : ℤ) * (3 * 3) * (9 / 2 * ((2 : ℕ) : ℝ) + 60) + 2 ^ (-1074 : ℤ) * ((2 : ℕ) : ℝ) * (3 + 1) := by
  have hs : (2:ℝ) ^ (-600 : ℤ) ≤ 1 := zpow_le_one_of_nonpos₀ (by norm_num) (by norm_num)
  have hs0 : (0:ℝ) ≤ 2 ^ (-600 : ℤ) := by positivity
  have m0 : Machine double ((2:ℝ) ^ (-600 : ℤ)) := by simpa using double_machine 1 (by norm_num) (-600) (by norm_num)
  have key : ∀ b : Bool, ∀ x ∈ ([fun b => if b then 3 else 1, fun b => if b then 0 else (2:ℝ) ^ (-600 : ℤ)] : List (Bool → ℝ)), Machine double (x b) ∧ |x b| ≤ 3 := by
    intro b x hx
    simp only [List.mem_cons, List.not_mem_nil, or_false] at hx
    rcases hx with rfl | rfl <;> cases b
    · exact ⟨double_format.one, by norm_num⟩
    · exact ⟨three_machine, by norm_num⟩
    · exact ⟨m0, by simp only [Bool.false_eq_true, if_false]; rw [abs_of_nonneg hs0]; linarith⟩
    · exact ⟨fl_zero double_format, by norm_num⟩
  refine C97_double_covariance M₀ C₀ (fun _ _ => .fin 0) i j rfl [fun b => if b then 3 else 1, fun b => if b then 0 else (2:ℝ) ^ (-600 : ℤ)] (by simp) (by simp) 3 ?_ ?_ ?_ ?_ ?_
  · calc (3:ℝ) ≤ 2 ^ 2 := by norm_num
      _ ≤ 2 ^ 509 := pow_le_pow_right₀ (by norm_num) (by norm_num)
  · exact fun x hx => (key i x hx).1
  · exact fun x hx => (key j x hx).1
  · exact fun x hx => (key i x hx).2
  · exact fun x hx => (key j x hx).2

end

end SampleFlow
