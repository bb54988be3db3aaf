import Verif.Props.Ieee
import Verif.Proofs.NearestDouble
import Mathlib.Tactic.NormNum
import Mathlib.Tactic.NormNum.Pow

/-!
# Property C89 for double precision: what is computed correctly, and what is not
-/

namespace SampleFlow

open Spec Ieee

section
variable {ι : Type}

theorem Ieee.nat_le_max (n : Nat) (hn : n < 2 ^ 64) : (n : ℝ) ≤ maxDouble := by
  have h1 : (n : ℝ) ≤ 2 ^ 64 := by exact_mod_cast hn.le
  have h2 : (2:ℝ) ^ 64 ≤ 2 ^ 971 := pow_le_pow_right₀ (by norm_num) (by norm_num)
  have h3 : (2:ℝ) ^ 971 ≤ (2 ^ 53 - 1) * 2 ^ 971 := le_mul_of_one_le_left (by positivity) (by norm_num)
  exact h1.trans (h2.trans h3)

theorem Ieee.double_pow (k : Nat) : Machine double (2 ^ k) := by
  have := double_machine 1 (by norm_num) k (by omega)
  simpa using this

theorem Ieee.pow_le_max (k : Nat) (hk : k ≤ 1023) : (2:ℝ) ^ k ≤ maxDouble := by
  have h1 : (2:ℝ) ^ k ≤ 2 ^ 1023 := pow_le_pow_right₀ (by norm_num) hk
  have h2 : (2:ℝ) ^ 1023 = 2 ^ 52 * 2 ^ 971 := by rw [← pow_add]
  have h3 : (2:ℝ) ^ 52 * 2 ^ 971 ≤ (2 ^ 53 - 1) * 2 ^ 971 := mul_le_mul_of_nonneg_right (by norm_num) (by positivity)
  exact h1.trans (h2.le.trans h3)

theorem Ieee.unit_small : (2:ℝ) ^ (-53 : ℤ) ≤ 1 / 8 := by
  rw [show (1:ℝ) / 8 = 2 ^ (-3 : ℤ) by norm_num]
  exact zpow_le_zpow_right₀ (by norm_num) (by norm_num)

theorem Ieee.double_nonneg (n : Nat) : 0 ≤ double n := le_fl double_format (fl_zero double_format) (by positivity)

/-- The arithmetic of the theorems for double precision is that of IEEE 754 (default rounding mode): the machine numbers are the integer multiples `m 2^k` of powers of two with `|m| ≤ 2^53` and `k ≥ -1074`; a result is rounded to
a nearest machine number, of two equally near ones (which are neighbours) to the one with an even last digit. -/
theorem C89_double_arithmetic (x : ℝ) :
    (Machine double x ↔ ∃ m k : ℤ, |m| ≤ 2 ^ 53 ∧ -1074 ≤ k ∧ x = m * 2 ^ k) ∧
    Machine double (double x) ∧ (∀ y, Machine double y → |double x - x| ≤ |y - x|) ∧
    ∀ y, Machine double y → y ≠ double x → |y - x| = |double x - x| → ∃ m k : ℤ, 2 ∣ m ∧ -1074 ≤ k ∧ double x = m * 2 ^ k ∧ |y - double x| = 2 ^ k :=
  ⟨gradual_machine_iff (by norm_num) x, machine_fl double_format x, fun y hy => gradual_nearest (by norm_num) x y hy, fun y hy hne h => gradual_ties (by norm_num) x y hy hne h⟩

/-- **C89** (double precision, MeanValue): samples of any finite size up to half of the largest double; the mean is a finite number between the smallest and the largest sample. -/
theorem C89_double_mean_partial (G : ι → XR) (i : ι) (xs : List (ι → XR)) (hne : xs ≠ []) (hlen : xs.length < 2 ^ 64) (a b : ℝ) (ha : Machine double a) (hb : Machine double b)
    (ha1 : |a| ≤ maxDouble / 2) (hb1 : |b| ≤ maxDouble / 2) (hxs : ∀ x ∈ xs, ∃ r, x i = .fin r ∧ Machine double r ∧ a ≤ r ∧ r ≤ b) :
    ∃ m, (@machineMean _ _ (ieee double maxDouble) G xs).get i = .fin m ∧ a ≤ m ∧ m ≤ b := by
  have h0 : 0 ≤ maxDouble := le_trans (by positivity) (nat_le_max 0 (by norm_num))
  refine C89_mean_in_range_partial double_format (by positivity) unit_small (by positivity) maxDouble_machine a b ha hb ⟨by linarith, by linarith⟩ ?_ G i xs hne (nat_le_max _ hlen) hxs
  have := (abs_le.mp ha1).1
  have := (abs_le.mp hb1).2
  linarith

/-- **C89** (double precision, CovarianceMatrix): samples up to a size of `2^509 ≈ 1.7·10^153`; the entries of the matrix are finite numbers, and the variances are not negative. -/
theorem C89_double_covariance_partial (M : ι → XR) (C₀ G : ι → ι → XR) (i j : ι) (hG : G i j = .fin 0) (xs : List (ι → XR)) (hne : xs ≠ []) (hlen : xs.length < 2 ^ 64)
    (hxs : ∀ x ∈ xs, ∃ r s, x i = .fin r ∧ x j = .fin s ∧ Machine double r ∧ Machine double s ∧ |r| ≤ 2 ^ 509 ∧ |s| ≤ 2 ^ 509) :
    ∃ c, (@machineCov _ _ (ieee double maxDouble) M C₀ G xs).get i j = .fin c ∧ (i = j → 0 ≤ c) := by
  obtain ⟨c, h1, -, h2⟩ := C89_covariance_finite_partial double_format (by positivity) unit_small (by positivity) maxDouble_machine (2 ^ 509) (2 ^ 510) (2 ^ 1020) (2 ^ 1022)
    (double_pow _) (double_pow _) (double_pow _) (double_pow _) (by positivity) (by rw [← pow_succ']) (by rw [← pow_add])
    (by rw [show (2:ℝ) ^ 1022 = 2 ^ 2 * 2 ^ 1020 by rw [← pow_add]]; exact mul_le_mul_of_nonneg_right (by norm_num) (by positivity))
    (pow_le_max _ (by norm_num)) (by rw [← pow_succ']; exact pow_le_max _ (by norm_num)) M C₀ G i j hG xs hne (nat_le_max _ hlen) hxs
  exact ⟨c, h1, h2⟩

/-- **C89** (double precision, infinite samples) -/
theorem C89_double_infinite (G : ι → XR) (i : ι) (before after : List (ι → XR)) (x y : ι → XR) (hx : x i = .posInf ∨ x i = .negInf) :
    (@machineMean _ _ (ieee double maxDouble) G (before ++ x :: y :: after)).get i = .nan :=
  C89_infinite_then_nan double maxDouble double_nonneg G i before after x y hx

/-! ### what goes wrong -/

/-- **C89** is violated for large samples: `maxDouble` and `-maxDouble` are finite and so is their mean, zero; the object returns minus infinity, and NaN from the third sample on. -/
theorem C89_violation_overflow (G : ι → XR) (i : ι) (x y z : ι → XR) (after : List (ι → XR)) (hx : x i = .fin maxDouble) (hy : y i = .fin (-maxDouble)) :
    (@machineMean _ _ (ieee double maxDouble) G [x, y]).get i = .negInf ∧
    (@machineMean _ _ (ieee double maxDouble) G (x :: y :: z :: after)).get i = .nan := by
  let _ := ieee double maxDouble
  have hpos : 0 < maxDouble := lt_of_lt_of_le (by norm_num : (0:ℝ) < ((1 : ℕ) : ℝ)) (nat_le_max 1 (by norm_num))
  have e0 : meanConsume (MeanState.init G) x = ⟨1, x⟩ := by simp [meanConsume, MeanState.init]
  have big : double (-maxDouble + -maxDouble) = -(2 * maxDouble) := by
    rw [show -maxDouble + -maxDouble = -(2 * maxDouble) by ring, double_format.odd]
    congr 1
    have := double_machine (2 ^ 53 - 1) (by norm_num) 972 (by norm_num)
    have e : ((2 ^ 53 - 1 : ℕ) : ℝ) * 2 ^ (972 : ℤ) = 2 * maxDouble := by
      unfold maxDouble
      rw [show ((2:ℝ) ^ (972 : ℤ)) = 2 ^ 972 from zpow_ofNat 2 972, show (2:ℝ) ^ 972 = 2 * 2 ^ 971 by rw [← pow_succ']]
      rw [Nat.cast_sub (by norm_num)]
      push_cast
      generalize (2:ℝ) ^ 971 = t
      ring
    rw [e] at this
    exact this
  have e1 : (meanConsume (⟨1, x⟩ : MeanState (ι → XR)) y).mean i = .negInf := by
    unfold meanConsume
    rw [if_neg (by norm_num)]
    show roundResult double maxDouble ((x i).add (roundResult double maxDouble ((roundResult double maxDouble ((y i).add (x i).neg)).div (roundResult double maxDouble (.fin ((2 : ℕ) : ℝ)))))) = _
    rw [hx, hy]
    have e2 : roundResult double maxDouble ((XR.fin (-maxDouble)).add (XR.fin maxDouble).neg) = .negInf := by
      simp only [XR.neg, XR.add, roundResult]
      rw [big, if_neg (by linarith), if_pos (by linarith)]
    rw [e2, ofNat_fin double_format maxDouble_machine 2 (nat_le_max 2 (by norm_num))]
    simp only [XR.div, if_pos (double_nonneg 2), roundResult, XR.add]
  refine ⟨?_, ?_⟩
  · show ([x, y].foldl meanConsume (MeanState.init G)).mean i = _
    rw [List.foldl_cons, e0, List.foldl_cons, List.foldl_nil, e1]
  · have step : ∀ (s : MeanState (ι → XR)) (w : ι → XR), s.n ≠ 0 → NotFinite (s.mean i) → (meanConsume s w).n ≠ 0 ∧ (meanConsume s w).mean i = .nan := by
      intro s w hn hs
      unfold meanConsume
      rw [if_neg hn]
      exact ⟨by simp, not_finite_then_nan double_nonneg _ _ _ hs⟩
    show ((x :: y :: z :: after).foldl meanConsume (MeanState.init G)).mean i = _
    rw [List.foldl_cons, e0, List.foldl_cons, List.foldl_cons]
    have hn : (meanConsume (⟨1, x⟩ : MeanState (ι → XR)) y).n ≠ 0 := by simp [meanConsume]
    obtain ⟨h3, h4⟩ := step _ z hn (by rw [e1]; trivial)
    generalize meanConsume (meanConsume (⟨1, x⟩ : MeanState (ι → XR)) y) z = s at h3 h4
    induction after generalizing s with
    | nil => exact h4
    | cons w ws ih =>
      rw [List.foldl_cons]
      obtain ⟨h5, h6⟩ := step s w h3 (by rw [h4]; trivial)
      exact ih _ h5 h6

/-- **C89** is violated by CovarianceMatrix for samples that are not extremely large: of `0` and `2^512 ≈ 1.3·10^154`, MeanValue returns the exact mean `2^511`, CovarianceMatrix an infinite variance, although the
exact variance `2^1023` is a double: an intermediate result overflows. -/
theorem C89_violation_covariance_overflow (M : ι → XR) (C₀ G : ι → ι → XR) (i : ι) (hG : G i i = .fin 0) (x y : ι → XR) (hx : x i = .fin 0) (hy : y i = .fin (2 ^ 512)) :
    (@machineMean _ _ (ieee double maxDouble) M [x, y]).get i = .fin (2 ^ 511) ∧
    (@machineCov _ _ (ieee double maxDouble) M C₀ G [x, y]).get i i = .posInf ∧
    (((0:ℝ) - 2 ^ 511) ^ 2 + (2 ^ 512 - 2 ^ 511) ^ 2) / (2 - 1) = 2 ^ 1023 ∧ Machine double (2 ^ 1023) ∧ (2:ℝ) ^ 1023 ≤ maxDouble := by
  let _ := ieee double maxDouble
  have hd : roundResult double maxDouble ((XR.fin (2 ^ 512)).add (XR.fin 0).neg) = .fin (2 ^ 512) := by
    rw [sub_fin double_format maxDouble_machine]
    · rw [sub_zero, show double (2 ^ 512) = 2 ^ 512 from double_pow 512]
    · rw [sub_zero, abs_of_pos (by positivity)]
      exact pow_le_max _ (by norm_num)
  have h2 : roundResult double maxDouble (.fin ((2 : ℕ) : ℝ)) = .fin 2 := by
    rw [ofNat_fin double_format maxDouble_machine 2 (nat_le_max 2 (by norm_num))]
    push_cast
    rw [double_format.two]
  have h1 : roundResult double maxDouble (.fin ((1 : ℕ) : ℝ)) = .fin 1 := by
    rw [ofNat_fin double_format maxDouble_machine 1 (nat_le_max 1 (by norm_num))]
    push_cast
    rw [double_format.one]
  have h21 : roundResult double maxDouble ((XR.fin 2).add (XR.fin 1).neg) = .fin 1 := by
    rw [sub_fin double_format maxDouble_machine (by
      rw [show (2:ℝ) - 1 = 1 by norm_num, abs_one]; exact_mod_cast nat_le_max 1 (by norm_num)), show (2:ℝ) - 1 = 1 by norm_num, double_format.one]
  have hz : roundResult double maxDouble ((XR.fin 0).div (XR.fin 1)) = .fin 0 := by
    rw [div_fin double_format maxDouble_machine le_rfl (by rw [abs_zero]; exact_mod_cast nat_le_max 0 (by norm_num)), zero_div, fl_zero double_format]
  have hmul : roundResult double maxDouble ((XR.fin (2 ^ 512)).mul (XR.fin (2 ^ 512))) = .posInf := by
    simp only [XR.mul, roundResult]
    rw [show (2 ^ 512 * 2 ^ 512 : ℝ) = 2 ^ 1024 by rw [← pow_add], show double (2 ^ 1024) = 2 ^ 1024 from double_pow 1024, if_pos]
    have e : (2:ℝ) ^ 1024 = 2 ^ 53 * 2 ^ 971 := by rw [← pow_add]
    rw [e]
    exact mul_lt_mul_of_pos_right (by norm_num) (by positivity)
  have e0 : covConsume G (CovState.init M C₀) x = ⟨1, x, G⟩ := by simp [covConsume, CovState.init]
  have e0' : meanConsume (MeanState.init M) x = ⟨1, x⟩ := by simp [meanConsume, MeanState.init]
  have half : (2 ^ 512 / 2 : ℝ) = 2 ^ 511 := by
    rw [pow_succ (2:ℝ) 511]
    generalize (2:ℝ) ^ 511 = t
    ring
  refine ⟨?_, ?_, ?_, double_pow _, pow_le_max _ le_rfl⟩
  · show ([x, y].foldl meanConsume (MeanState.init M)).mean i = _
    rw [List.foldl_cons, e0', List.foldl_cons, List.foldl_nil]
    unfold meanConsume
    rw [if_neg (by norm_num)]
    show roundResult double maxDouble ((x i).add (roundResult double maxDouble ((roundResult double maxDouble ((y i).add (x i).neg)).div (roundResult double maxDouble (.fin ((2 : ℕ) : ℝ)))))) = _
    rw [hx, hy, hd, h2, div_fin double_format maxDouble_machine (by norm_num) (by rw [abs_of_pos (by positivity)]; exact pow_le_max _ (by norm_num)), half,
      show double (2 ^ 511) = 2 ^ 511 from double_pow 511]
    simp only [XR.add]
    rw [zero_add, round_fin double_format maxDouble_machine (by rw [abs_of_pos (by positivity)]; exact pow_le_max _ (by norm_num)), show double (2 ^ 511) = 2 ^ 511 from double_pow 511]
  · show ([x, y].foldl (covConsume G) (CovState.init M C₀)).C i i = _
    rw [List.foldl_cons, e0, List.foldl_cons, List.foldl_nil]
    unfold covConsume
    rw [if_neg (by norm_num)]
    show roundResult double maxDouble ((G i i).add (roundResult double maxDouble ((roundResult double maxDouble ((roundResult double maxDouble ((roundResult double maxDouble ((y i).add (x i).neg)).mul
      (roundResult double maxDouble ((y i).add (x i).neg)))).div (roundResult double maxDouble (.fin ((2 : ℕ) : ℝ))))).add
      (roundResult double maxDouble ((G i i).div (roundResult double maxDouble ((roundResult double maxDouble (.fin ((2 : ℕ) : ℝ))).add (roundResult double maxDouble (.fin ((1 : ℕ) : ℝ))).neg)))).neg))) = _
    rw [hx, hy, hG, hd, hmul, h2, h1, h21, hz]
    simp [XR.div, XR.add, XR.neg, roundResult]
  · rw [show (2:ℝ) ^ 1023 = 2 * 2 ^ 511 * 2 ^ 511 by rw [← pow_succ', ← pow_add], pow_succ (2:ℝ) 511]
    generalize (2:ℝ) ^ 511 = t
    ring

/-- **C89** is violated for small samples: the variance of `0` and `2^(-600)` is zero according to CovarianceMatrix although the samples are different (the exact variance `2^(-1201)` is not a double). -/
theorem C89_violation_covariance_underflow (M : ι → XR) (C₀ G : ι → ι → XR) (i : ι) (hG : G i i = .fin 0) (x y : ι → XR) (hx : x i = .fin 0) (hy : y i = .fin (2 ^ (-600 : ℤ))) :
    (@machineCov _ _ (ieee double maxDouble) M C₀ G [x, y]).get i i = .fin 0 ∧ Machine double (2 ^ (-600 : ℤ)) := by
  let _ := ieee double maxDouble
  have hm : Machine double (2 ^ (-600 : ℤ)) := by simpa using double_machine 1 (by norm_num) (-600) (by norm_num)
  refine ⟨?_, hm⟩
  have hle : (2:ℝ) ^ (-600 : ℤ) ≤ maxDouble := by
    refine le_trans (zpow_le_one_of_nonpos₀ (by norm_num) (by norm_num)) ?_
    exact_mod_cast nat_le_max 1 (by norm_num)
  have h0 : |(0:ℝ)| ≤ maxDouble := by rw [abs_zero]; exact_mod_cast nat_le_max 0 (by norm_num)
  have hd : roundResult double maxDouble ((XR.fin (2 ^ (-600 : ℤ))).add (XR.fin 0).neg) = .fin (2 ^ (-600 : ℤ)) := by
    rw [sub_fin double_format maxDouble_machine]
    · rw [sub_zero, show double (2 ^ (-600 : ℤ)) = 2 ^ (-600 : ℤ) from hm]
    · rw [sub_zero, abs_of_pos (by positivity)]
      exact hle
  have h2 : roundResult double maxDouble (.fin ((2 : ℕ) : ℝ)) = .fin 2 := by
    rw [ofNat_fin double_format maxDouble_machine 2 (nat_le_max 2 (by norm_num))]
    push_cast
    rw [double_format.two]
  have h1 : roundResult double maxDouble (.fin ((1 : ℕ) : ℝ)) = .fin 1 := by
    rw [ofNat_fin double_format maxDouble_machine 1 (nat_le_max 1 (by norm_num))]
    push_cast
    rw [double_format.one]
  have h21 : roundResult double maxDouble ((XR.fin 2).add (XR.fin 1).neg) = .fin 1 := by
    rw [sub_fin double_format maxDouble_machine (by
      rw [show (2:ℝ) - 1 = 1 by norm_num, abs_one]; exact_mod_cast nat_le_max 1 (by norm_num)), show (2:ℝ) - 1 = 1 by norm_num, double_format.one]
  have hz : ∀ n : ℝ, 1 ≤ n → roundResult double maxDouble ((XR.fin 0).div (XR.fin n)) = .fin 0 := by
    intro n hn
    rw [div_fin double_format maxDouble_machine hn h0, zero_div, fl_zero double_format]
  have tiny : double ((2:ℝ) ^ (-600 : ℤ) * 2 ^ (-600 : ℤ)) = 0 := by
    rw [← zpow_add₀ (by norm_num)]
    unfold double gradual gradualPos
    rw [if_pos (by positivity), if_neg]
    · rw [← zpow_sub₀ (by norm_num)]
      have : roundInt ((2:ℝ) ^ ((-600 + -600 : ℤ) - -1074)) = 0 := by
        have hp : (0:ℝ) < (2:ℝ) ^ ((-600 + -600 : ℤ) - -1074) := by positivity
        have : (2:ℝ) ^ ((-600 + -600 : ℤ) - -1074) ≤ 2 ^ (-2 : ℤ) := zpow_le_zpow_right₀ (by norm_num) (by norm_num)
        have e : (2:ℝ) ^ (-2 : ℤ) = 1/4 := by norm_num
        rw [e] at this
        apply roundInt_eq <;> push_cast <;> linarith
      rw [this, Int.cast_zero, zero_mul]
    · rw [not_le]
      exact zpow_lt_zpow_right₀ (by norm_num) (by norm_num)
  have hmul : roundResult double maxDouble ((XR.fin (2 ^ (-600 : ℤ))).mul (XR.fin (2 ^ (-600 : ℤ)))) = .fin 0 := by
    simp only [XR.mul, roundResult]
    rw [tiny, if_neg (by rw [abs_zero] at h0; linarith), if_neg (by rw [abs_zero] at h0; linarith)]
  have hs : roundResult double maxDouble ((XR.fin 0).add (XR.fin 0).neg) = .fin 0 := by
    rw [sub_fin double_format maxDouble_machine (by rw [sub_zero]; exact h0), sub_zero, fl_zero double_format]
  have e0 : covConsume G (CovState.init M C₀) x = ⟨1, x, G⟩ := by simp [covConsume, CovState.init]
  show ([x, y].foldl (covConsume G) (CovState.init M C₀)).C i i = _
  rw [List.foldl_cons, e0, List.foldl_cons, List.foldl_nil]
  unfold covConsume
  rw [if_neg (by norm_num)]
  show roundResult double maxDouble ((G i i).add (roundResult double maxDouble ((roundResult double maxDouble ((roundResult double maxDouble ((roundResult double maxDouble ((y i).add (x i).neg)).mul
    (roundResult double maxDouble ((y i).add (x i).neg)))).div (roundResult double maxDouble (.fin ((2 : ℕ) : ℝ))))).add
    (roundResult double maxDouble ((G i i).div (roundResult double maxDouble ((roundResult double maxDouble (.fin ((2 : ℕ) : ℝ))).add (roundResult double maxDouble (.fin ((1 : ℕ) : ℝ))).neg)))).neg))) = _
  rw [hx, hy, hG, hd, hmul, h2, h1, h21, hz 1 le_rfl, hz 2 (by norm_num), hs]
  rw [show (XR.fin 0).add (XR.fin 0) = .fin (0 + 0) from rfl, add_zero, round_fin double_format maxDouble_machine h0, fl_zero double_format]

/-! ### instances of the theorems -/

/-- C89_double_mean_partial applies to the samples `0`, `2^1000`, `2^(-1074)` (the smallest positive double). -/
example (G : Unit → XR) : ∃ m, (@machineMean _ _ (ieee double maxDouble) G [fun _ => .fin 0, fun _ => .fin (2 ^ 1000), fun _ => .fin (2 ^ (-1074 : ℤ))]).get () = .fin m ∧ 0 ≤ m ∧ m ≤ 2 ^ 1000 := by
  have hM : (2:ℝ) ^ 1000 ≤ maxDouble / 2 := by
    have := pow_le_max 1001 (by norm_num)
    rw [pow_succ] at this
    linarith
  have h0 : 0 ≤ maxDouble / 2 := le_trans (by positivity) hM
  have ht : (2:ℝ) ^ (-1074 : ℤ) ≤ 2 ^ 1000 := (zpow_le_one_of_nonpos₀ (by norm_num) (by norm_num)).trans (one_le_pow₀ (by norm_num))
  refine C89_double_mean_partial G () _ (by simp) (by simp) 0 (2 ^ 1000) (fl_zero double_format) (double_pow _) (by rw [abs_zero]; exact h0) (by rw [abs_of_pos (by positivity)]; exact hM) ?_
  intro x hx
  simp only [List.mem_cons, List.not_mem_nil, or_false] at hx
  rcases hx with rfl | rfl | rfl
  · exact ⟨0, rfl, fl_zero double_format, le_rfl, by positivity⟩
  · exact ⟨2 ^ 1000, rfl, double_pow _, by positivity, le_rfl⟩
  · exact ⟨2 ^ (-1074 : ℤ), rfl, by simpa using double_machine 1 (by norm_num) (-1074) le_rfl, by positivity, ht⟩

/-- C89_double_covariance_partial applies to samples with the components `2^509` and `-2^509`, `-2^509` and `0`. -/
example (M : Bool → XR) (C₀ : Bool → Bool → XR) (i j : Bool) :
    ∃ c, (@machineCov _ _ (ieee double maxDouble) M C₀ (fun _ _ => .fin 0) [fun b => .fin (if b then 2 ^ 509 else -2 ^ 509), fun b => .fin (if b then -2 ^ 509 else 0)]).get i j = .fin c ∧ (i = j → 0 ≤ c) := by
  have hp : Machine double ((2:ℝ) ^ 509) := double_pow _
  have hn : Machine double (-(2:ℝ) ^ 509) := machine_neg double_format hp
  have hz : Machine double 0 := fl_zero double_format
  have a1 : |(2:ℝ) ^ 509| ≤ 2 ^ 509 := by rw [abs_of_pos (by positivity)]
  have a2 : |-(2:ℝ) ^ 509| ≤ 2 ^ 509 := by rw [abs_neg]; exact a1
  have a3 : |(0:ℝ)| ≤ 2 ^ 509 := by rw [abs_zero]; positivity
  refine C89_double_covariance_partial M C₀ _ i j rfl _ (by simp) (by simp) ?_
  intro x hx
  simp only [List.mem_cons, List.not_mem_nil, or_false] at hx
  rcases hx with rfl | rfl
  · exact ⟨_, _, rfl, rfl, by split <;> assumption, by split <;> assumption, by split <;> assumption, by split <;> assumption⟩
  · exact ⟨_, _, rfl, rfl, by split <;> assumption, by split <;> assumption, by split <;> assumption, by split <;> assumption⟩

/-- C89_double_infinite: the samples 3, +inf, 5, 7. -/
example (G : Unit → XR) : (@machineMean _ _ (ieee double maxDouble) G ([fun _ => .fin 3] ++ (fun _ => .posInf) :: (fun _ => .fin 5) :: [fun _ => .fin 7])).get () = .nan :=
  C89_double_infinite G () _ _ _ _ (Or.inl rfl)

/-- The violations for concrete samples. -/
example (G : Unit → XR) : (@machineMean _ _ (ieee double maxDouble) G [fun _ => .fin maxDouble, fun _ => .fin (-maxDouble), fun _ => .fin 1]).get () = .nan :=
  (C89_violation_overflow G () (fun _ => .fin maxDouble) (fun _ => .fin (-maxDouble)) (fun _ => .fin 1) [] rfl rfl).2

end

end SampleFlow
