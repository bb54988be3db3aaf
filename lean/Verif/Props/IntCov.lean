import Verif.Model.IntCov
import Verif.Props.IntMean
import Verif.Props.IeeeDouble
import Verif.Proofs.IeeeBridge
import Verif.Spec.Statistics

/-!
# Property C98: CovarianceMatrix for integer samples

`intCovAfter double M C₀ G xs`: the CovarianceMatrix<int> object that has consumed `xs` (arithmetic of IEEE doubles; `G` the memory of the matrix, `Fault.ub` undefined behaviour).
-/

namespace SampleFlow

open Spec Ieee

namespace IntCovP

theorem step_small (s : IntCov) (x : BitVec 32) (d : Nat) (hn : s.mean.n.toNat ≠ 0) (hn53 : s.mean.n.toNat + 1 ≤ 2 ^ 53) (hm : s.mean.mean.toInt ≤ x.toInt) (hd : x.toInt - s.mean.mean.toInt = d)
    (hsq : d * d < 2 ^ 31) (hC : s.C = 0) (G : ℤ) :
    ∃ s', IntCov.consume double G s x = .ok s' ∧ s'.mean.n.toNat = s.mean.n.toNat + 1 ∧
      s'.mean.mean.toInt = s.mean.mean.toInt + (x.toInt - s.mean.mean.toInt) / (s.mean.n.toNat + 1 : Int) ∧
      s'.C = ⌊double ((d * d : ℕ) / ((s.mean.n.toNat + 1 : ℕ) : ℝ))⌋ := by
  obtain ⟨⟨n, mean⟩, C⟩ := s
  simp only at *
  subst hC
  have hd31 : d < 2 ^ 31 := by
    by_contra h
    push Not at h
    have : 2 ^ 31 * 2 ^ 31 ≤ d * d := Nat.mul_le_mul h h
    omega
  have hn0 : n ≠ 0 := by rintro rfl; simp at hn
  obtain ⟨m, h1, h2, h3⟩ := C52_nonnegative_update_partial n mean x hn0 (by omega) hm (by omega)
  have hn2 : (n + 1).toNat = n.toNat + 1 := by rw [BitVec.toNat_add]; simp; omega
  have hnz : n + 1 ≠ 0 := by
    intro h; have := congrArg BitVec.toNat h; rw [hn2] at this; simp at this
  have hso : BitVec.ssubOverflow x mean = false := by
    have h1 := BitVec.toInt_lt (x := x)
    have h2 := BitVec.le_toInt (x := mean)
    simp only [BitVec.ssubOverflow, Bool.or_eq_false_iff, decide_eq_false_iff_not]
    constructor <;> omega
  have hsub : (x - mean).toInt = d := by
    rw [BitVec.toInt_sub, hd]
    rw [Int.bmod_eq_of_le] <;> omega
  have hprod : isInt ((d : ℤ) * d) := by
    have : ((d * d : ℕ) : ℤ) < 2 ^ 31 := by exact_mod_cast hsq
    push_cast at this
    exact ⟨le_trans (by norm_num) (mul_nonneg (by omega) (by omega) : (0:ℤ) ≤ d * d), this⟩
  have hfn : double ((n.toNat + 1 : ℕ) : ℝ) = ((n.toNat + 1 : ℕ) : ℝ) := double_nat _ hn53
  have hz : double 0 = 0 := fl_zero double_format
  set q : ℝ := double ((d * d : ℕ) / ((n.toNat + 1 : ℕ) : ℝ)) with hq
  have hq0 : 0 ≤ q := le_fl double_format hz (by positivity)
  have hqm : double q = q := machine_fl double_format _
  have hqle : q ≤ (d * d : ℕ) := by
    refine fl_le double_format (double_nat _ (by omega)) (div_le_self (by positivity) ?_)
    exact_mod_cast Nat.le_add_left 1 n.toNat
  have hqf : isInt ⌊q⌋ := by
    have h0 : 0 ≤ ⌊q⌋ := Int.floor_nonneg.mpr hq0
    have h1 : ⌊q⌋ ≤ ((d * d : ℕ) : ℤ) := by
      have := Int.floor_le_floor hqle
      rwa [Int.floor_natCast] at this
    exact ⟨by omega, by omega⟩
  refine ⟨⟨m, ⌊q⌋⟩, ?_, h2, h3, rfl⟩
  unfold IntCov.consume
  simp only
  rw [if_neg hn0, if_neg hnz, if_neg (by simp [hso]), hsub, if_neg (not_not.mpr hprod), hn2, hfn]
  have e : double (((0:ℤ):ℝ) + double (double (((d * d : ℤ) : ℝ) / ((n.toNat + 1 : ℕ) : ℝ)) - double (((0:ℤ):ℝ) / double (((n.toNat + 1 : ℕ) : ℝ) - 1)))) = q := by
    rw [Int.cast_zero, zero_div, hz, sub_zero, zero_add]
    rw [show (((d * d : ℤ) : ℝ)) = ((d * d : ℕ) : ℝ) by push_cast; ring, ← hq, hqm, hqm]
  rw [e]
  have ht : truncate q = ⌊q⌋ := by unfold truncate; rw [if_pos hq0]
  rw [ht, if_neg (not_not.mpr hqf), h1]
  rfl

theorem foldlM_append' {α β : Type} (f : α → β → Except Fault α) (a b : α) (xs ys : List β) (h : xs.foldlM f a = .ok b) : (xs ++ ys).foldlM f a = ys.foldlM f b := by
  rw [List.foldlM_append, h]
  rfl

/-- the samples that follow do not change the mean and the variance -/
theorem blind (G : ℤ) (D : Nat) (hD : D * D < 2 ^ 31) (c : ℤ) (ys : List (BitVec 32)) (s : IntCov) (hn : s.mean.n.toNat ≠ 0) (hlen : s.mean.n.toNat + ys.length ≤ 2 ^ 53) (hm : s.mean.mean.toInt = c)
    (hC : s.C = 0) (hDn : 2 * (D * D) ≤ s.mean.n.toNat) (hys : ∀ y ∈ ys, c ≤ y.toInt ∧ y.toInt ≤ c + D) :
    ∃ s', ys.foldlM (IntCov.consume double G) s = .ok s' ∧ s'.mean.n.toNat = s.mean.n.toNat + ys.length ∧ s'.mean.mean.toInt = c ∧ s'.C = 0 := by
  induction ys generalizing s with
  | nil => exact ⟨s, rfl, by simp, hm, hC⟩
  | cons y ys ih =>
    obtain ⟨hy0, hy1⟩ := hys y (by simp)
    obtain ⟨d, hd⟩ : ∃ d : Nat, y.toInt - c = d := ⟨(y.toInt - c).toNat, by omega⟩
    have hdD : d ≤ D := by omega
    have hdd : d * d ≤ D * D := Nat.mul_le_mul hdD hdD
    simp only [List.length_cons] at hlen
    obtain ⟨s1, h1, h2, h3, h4⟩ := step_small s y d hn (by omega) (by omega) (by rw [hm]; exact hd) (by omega) hC G
    have hdsq : d ≤ d * d := Nat.le_mul_self d
    have hm1 : s1.mean.mean.toInt = c := by
      rw [h3, hm, hd, Int.ediv_eq_zero_of_lt (by omega) (by omega), add_zero]
    have hC1 : s1.C = 0 := by
      rw [h4, Int.floor_eq_zero_iff]
      have hhalf : Machine double (1 / 2) := by
        have := double_machine 1 (by norm_num) (-1) (by norm_num)
        norm_num at this ⊢
        exact this
      have hle : double ((d * d : ℕ) / ((s.mean.n.toNat + 1 : ℕ) : ℝ)) ≤ 1 / 2 := by
        refine fl_le double_format hhalf ?_
        rw [div_le_div_iff₀ (by positivity) (by norm_num)]
        have : ((d * d * 2 : ℕ) : ℝ) ≤ ((1 * (s.mean.n.toNat + 1) : ℕ) : ℝ) := by exact_mod_cast (by omega)
        push_cast at this ⊢
        linarith
      exact ⟨le_fl double_format (fl_zero double_format) (by positivity), lt_of_le_of_lt hle (by norm_num)⟩
    obtain ⟨s', k1, k2, k3, k4⟩ := ih s1 (by omega) (by omega) hm1 hC1 (by omega) (fun z hz => hys z (by simp [hz]))
    refine ⟨s', ?_, by simp only [List.length_cons]; omega, k3, k4⟩
    rw [List.foldlM_cons, h1]
    exact k1

end IntCovP

open IntCovP

/-- **C98** (holds): if all samples are equal, the variance is zero. -/
theorem C98_constant_partial (M : BitVec 32) (C₀ : ℤ) (x : BitVec 32) (n : Nat) (hn : n + 1 ≤ 2 ^ 53) :
    ∃ s, intCovAfter double M C₀ 0 (List.replicate (n + 1) x) = .ok s ∧ s.C = 0 ∧ s.mean.mean = x := by
  obtain ⟨s, h1, -, h2, h3⟩ := blind 0 0 (by norm_num) x.toInt (List.replicate n x) ⟨⟨1, x⟩, 0⟩ (by simp) (by simp; omega) rfl rfl (by simp)
    (fun y hy => by rw [List.eq_of_mem_replicate hy]; simp)
  exact ⟨s, h1, h3, BitVec.eq_of_toInt_eq h2⟩

/-- **C98** (holds): for two samples, the second not smaller and not too different, the result is the exact sample variance, the fractional part discarded. -/
theorem C98_two_samples_partial (M : BitVec 32) (C₀ : ℤ) (x y : BitVec 32) (hxy : x.toInt ≤ y.toInt) (hsq : (y.toInt - x.toInt) * (y.toInt - x.toInt) < 2 ^ 31) :
    ∃ s, intCovAfter double M C₀ 0 [x, y] = .ok s ∧ s.C = ⌊cov (ι := Unit) [fun _ => (x.toInt : ℝ), fun _ => (y.toInt : ℝ)] () ()⌋ := by
  obtain ⟨d, hd⟩ : ∃ d : Nat, y.toInt - x.toInt = d := ⟨(y.toInt - x.toInt).toNat, by omega⟩
  have hdd : d * d < 2 ^ 31 := by rw [hd] at hsq; exact_mod_cast hsq
  obtain ⟨s, h1, -, -, h2⟩ := step_small ⟨⟨1, x⟩, 0⟩ y d (by simp) (by simp) hxy hd hdd rfl 0
  refine ⟨s, ?_, ?_⟩
  · show (([x, y] : List (BitVec 32)).foldlM (IntCov.consume double 0) ⟨⟨0, M⟩, C₀⟩) = _
    rw [List.foldlM_cons]
    have : IntCov.consume double 0 ⟨⟨0, M⟩, C₀⟩ x = .ok ⟨⟨1, x⟩, 0⟩ := by unfold IntCov.consume; rw [if_pos rfl]
    rw [this]
    show (([y] : List (BitVec 32)).foldlM (IntCov.consume double 0) ⟨⟨1, x⟩, 0⟩) = _
    rw [List.foldlM_cons, h1]
    rfl
  · rw [h2]
    congr 1
    have e : Machine double (((d * d : ℕ) : ℝ) / 2) := by
      have := double_machine (d * d) (by omega) (-1) (by norm_num)
      rwa [zpow_neg_one, ← div_eq_mul_inv] at this
    have hdR : (y.toInt : ℝ) - x.toInt = d := by exact_mod_cast hd
    have e2 : double (((d * d : ℕ) : ℝ) / (((1#64 : BitVec 64).toNat + 1 : ℕ) : ℝ)) = ((d * d : ℕ) : ℝ) / 2 := by
      rw [show (((1#64 : BitVec 64).toNat + 1 : ℕ) : ℝ) = 2 by norm_num]
      exact e
    refine e2.trans ?_
    simp only [cov, vmean, mean, List.map_cons, List.map_nil, List.sum_cons, List.sum_nil, List.length_cons, List.length_nil, star_trivial]
    push_cast
    rw [← hdR]
    ring

theorem IntCovP.truncate_error (x : ℝ) : |(truncate x : ℝ) - x| ≤ 1 := by
  unfold truncate
  rw [abs_le]
  split
  · have h1 := Int.floor_le x
    have h2 := Int.lt_floor_add_one x
    constructor <;> linarith
  · have h1 := Int.le_ceil x
    have h2 := Int.ceil_lt_add_one x
    constructor <;> linarith

/-- **C98** (holds for a single sample): whatever the state of the object, a sample changes the entry as Welford's formula demands, up to an error of one (the truncation) and of `2^-17` (rounding), unless the behaviour
is undefined.  (`n` the number of samples before, `d` the difference between the sample and the current mean.) -/
theorem C98_update_partial (G : ℤ) (s s' : IntCov) (x : BitVec 32) (hok : IntCov.consume double G s x = .ok s') (hn : s.mean.n.toNat ≠ 0) (hn53 : s.mean.n.toNat + 1 ≤ 2 ^ 53) (hC : isInt s.C) (n d : ℝ)
    (hnn : n = s.mean.n.toNat) (hd : d = (x.toInt : ℝ) - s.mean.mean.toInt) :
    |(s'.C : ℝ) - (s.C + (d ^ 2 / (n + 1) - s.C / n))| ≤ 1 + 2 ^ (-17 : ℤ) := by
  obtain ⟨⟨k, mean⟩, C⟩ := s
  simp only at *
  have hk0 : k ≠ 0 := by rintro rfl; simp at hn
  have hk2 : (k + 1).toNat = k.toNat + 1 := by rw [BitVec.toNat_add]; simp; omega
  unfold IntCov.consume at hok
  simp only at hok
  rw [if_neg hk0] at hok
  split at hok
  · cases hok
  split at hok
  · cases hok
  rename_i _ hso
  split at hok
  · cases hok
  rename_i hprod
  split at hok
  · cases hok
  rw [not_not] at hprod
  have hsub : (x - mean).toInt = x.toInt - mean.toInt := by
    simp only [BitVec.ssubOverflow, Bool.or_eq_true, decide_eq_true_eq, not_or] at hso
    rw [BitVec.toInt_sub, Int.bmod_eq_of_le] <;> omega
  rw [hsub] at hok hprod
  have hC' : s'.C = truncate (double ((C : ℝ) + double (double ((((x.toInt - mean.toInt) * (x.toInt - mean.toInt) : ℤ) : ℝ) / double ((k + 1).toNat : ℝ)) - double ((C : ℝ) / double (double ((k + 1).toNat : ℝ) - 1))))) := by
    cases hm : IntMean.consume ⟨k, mean⟩ x with
    | error e => rw [hm] at hok; cases hok
    | ok m => rw [hm] at hok; cases hok; rfl
  rw [hC', hk2]
  have hf1 : double ((k.toNat + 1 : ℕ) : ℝ) = n + 1 := by
    rw [show double ((k.toNat + 1 : ℕ) : ℝ) = ((k.toNat + 1 : ℕ) : ℝ) from double_nat _ hn53, hnn]; push_cast; ring
  have hf2 : double (n + 1 - 1) = n := by
    rw [show n + 1 - 1 = (k.toNat : ℝ) by rw [hnn]; ring, show double (k.toNat : ℝ) = k.toNat from double_nat _ (by omega), hnn]
  rw [hf1, hf2]
  have hn1 : 1 ≤ n := by rw [hnn]; exact_mod_cast Nat.one_le_iff_ne_zero.mpr hn
  have hdd : (((x.toInt - mean.toInt) * (x.toInt - mean.toInt) : ℤ) : ℝ) = d ^ 2 := by rw [hd]; push_cast; ring
  have hd2 : d ^ 2 ≤ 2 ^ 31 := by
    rw [← hdd]; exact_mod_cast hprod.2.le
  have hd0 : 0 ≤ d ^ 2 := sq_nonneg d
  rw [hdd]
  have hCR : |(C : ℝ)| ≤ 2 ^ 31 := by
    rw [abs_le]
    constructor
    · exact_mod_cast hC.1
    · exact_mod_cast hC.2.le
  generalize (C : ℝ) = c at *
  have ht := IntCovP.truncate_error (double (c + double (double (d ^ 2 / (n + 1)) - double (c / n))))
  have e1 := double_error (d ^ 2 / (n + 1))
  have e2 := double_error (c / n)
  have b1 : |d ^ 2 / (n + 1)| ≤ 2 ^ 31 := by
    rw [abs_of_nonneg (by positivity)]
    exact (div_le_self hd0 (by linarith)).trans hd2
  have b2 : |c / n| ≤ 2 ^ 31 := by
    rw [abs_div, abs_of_pos (by linarith : 0 < n)]
    exact (div_le_self (abs_nonneg _) hn1).trans hCR
  have e3 := double_error (double (d ^ 2 / (n + 1)) - double (c / n))
  have e4 := double_error (c + double (double (d ^ 2 / (n + 1)) - double (c / n)))
  have hη : (2:ℝ) ^ (-1075 : ℤ) ≤ 2 ^ (-53 : ℤ) := zpow_le_zpow_right₀ (by norm_num) (by norm_num)
  have hη0 : (0:ℝ) ≤ 2 ^ (-1075 : ℤ) := by positivity
  have hu : (2:ℝ) ^ (-53 : ℤ) = 1 / 9007199254740992 := by norm_num
  have hr : (2:ℝ) ^ (-17 : ℤ) = 1 / 131072 := by norm_num
  rw [hu] at e1 e2 e3 e4 hη
  rw [hr]
  generalize (2:ℝ) ^ (-1075 : ℤ) = η at *
  generalize hA : d ^ 2 / (n + 1) = A at *
  generalize hB : c / n = B at *
  generalize hD : double (c + double (double A - double B)) = D at *
  generalize hE : double (double A - double B) = E at *
  generalize double A = a at *
  generalize double B = b at *
  generalize (truncate D : ℝ) = T at *
  norm_num at b1 b2 hCR
  have c1 : |a - A| ≤ 1 / 1000000 := by linarith
  have c2 : |b - B| ≤ 1 / 1000000 := by linarith
  have c3 : |a - b| ≤ 2 ^ 33 := by
    rw [abs_le] at *
    constructor <;> linarith
  have c4 : |E - (a - b)| ≤ 1 / 1000000 := by linarith
  have c5 : |c + E| ≤ 2 ^ 34 := by
    rw [abs_le] at *
    constructor <;> linarith
  have c6 : |D - (c + E)| ≤ 1 / 500000 := by linarith
  clear e1 e2 e3 e4 b1 b2
  rw [abs_le] at *
  constructor <;> linarith

/-- **C98** is violated: after `m` equal samples `c`, samples between `c` and `c + D` do not change the result at all, whatever they are and however many there are, if `2 D² ≤ m`: the variance remains zero (and the mean `c`),
because every update is truncated to zero. -/
theorem C98_violation_ignored (M : BitVec 32) (C₀ : ℤ) (c : BitVec 32) (m D : Nat) (hm : 1 ≤ m) (hD : D * D < 2 ^ 31) (hDm : 2 * (D * D) ≤ m) (ys : List (BitVec 32)) (hlen : m + ys.length ≤ 2 ^ 53)
    (hys : ∀ y ∈ ys, c.toInt ≤ y.toInt ∧ y.toInt ≤ c.toInt + D) :
    ∃ s, intCovAfter double M C₀ 0 (List.replicate m c ++ ys) = .ok s ∧ s.C = 0 ∧ s.mean.mean = c := by
  obtain ⟨k, rfl⟩ : ∃ k, m = k + 1 := ⟨m - 1, by omega⟩
  obtain ⟨s, h1, h0, h2, h3⟩ := blind 0 0 (by norm_num) c.toInt (List.replicate k c) ⟨⟨1, c⟩, 0⟩ (by simp) (by simp; omega) rfl rfl (by simp)
    (fun y hy => by rw [List.eq_of_mem_replicate hy]; simp)
  have h0' : s.mean.n.toNat = k + 1 := by rw [h0, List.length_replicate]; simp [add_comm]
  obtain ⟨s', k1, -, k2, k3⟩ := blind 0 D hD c.toInt ys s (by omega) (by omega) h2 h3 (by omega) hys
  refine ⟨s', ?_, k3, BitVec.eq_of_toInt_eq k2⟩
  have : (List.replicate (k + 1) c).foldlM (IntCov.consume double 0) ⟨⟨0, M⟩, C₀⟩ = .ok s := h1
  show (List.replicate (k + 1) c ++ ys).foldlM (IntCov.consume double 0) ⟨⟨0, M⟩, C₀⟩ = _
  rw [foldlM_append' _ _ s _ _ this, k1]

/-- the exact variance of `m` samples `0` and `m` samples `D` -/
theorem IntCovP.two_values (m : Nat) (hm : 1 ≤ m) (D : ℝ) :
    cov (ι := Unit) (List.replicate m (fun _ => 0) ++ List.replicate m (fun _ => D)) () () = D ^ 2 * m / (2 * (2 * m - 1)) := by
  have hm' : (m : ℝ) ≠ 0 := by positivity
  have hm1 : (1:ℝ) ≤ m := by exact_mod_cast hm
  have hm2 : (2 * m - 1 : ℝ) ≠ 0 := by linarith
  have hm3 : (m + m - 1 : ℝ) ≠ 0 := by linarith
  have hv : vmean (ι := Unit) (List.replicate m (fun _ => 0) ++ List.replicate m (fun _ => D)) () = D / 2 := by
    simp only [vmean, mean, List.map_append, List.map_replicate, List.sum_append, List.sum_replicate, List.length_append, List.length_replicate, nsmul_eq_mul]
    push_cast
    field_simp
    ring
  simp only [cov, hv, List.map_append, List.map_replicate, List.sum_append, List.sum_replicate, List.length_append, List.length_replicate, nsmul_eq_mul, star_trivial]
  push_cast
  rw [show (m + m - 1 : ℝ) = 2 * m - 1 by ring]
  field_simp
  ring

/-- **C98** is violated by any amount: for `m` samples `0` followed by `m` samples `D` (where `2 D² ≤ m`), the variance reported is `0`, the exact variance is more than `D²/4`; `D` can be as large as 46340. -/
theorem C98_violation_unbounded (M : BitVec 32) (C₀ : ℤ) (m D : Nat) (hm : 1 ≤ m) (hD0 : 1 ≤ D) (hD : D * D < 2 ^ 31) (hDm : 2 * (D * D) ≤ m) (hlen : m + m ≤ 2 ^ 53) :
    ∃ s, intCovAfter double M C₀ 0 (List.replicate m 0#32 ++ List.replicate m (BitVec.ofNat 32 D)) = .ok s ∧ s.C = 0 ∧
      (D : ℝ) ^ 2 / 4 < cov (ι := Unit) (List.replicate m (fun _ => 0) ++ List.replicate m (fun _ => (D : ℝ))) () () := by
  have hD31 : D < 2 ^ 31 := lt_of_le_of_lt (Nat.le_mul_self D) hD
  have hDi : (BitVec.ofNat 32 D).toInt = (D : Int) := by
    rw [BitVec.toInt_ofNat', Int.bmod_eq_of_le] <;> omega
  obtain ⟨s, h1, h2, -⟩ := C98_violation_ignored M C₀ 0#32 m D hm hD hDm (List.replicate m (BitVec.ofNat 32 D)) (by rw [List.length_replicate]; exact hlen)
    (fun y hy => by rw [List.eq_of_mem_replicate hy, hDi]; simp)
  refine ⟨s, h1, h2, ?_⟩
  rw [two_values m hm]
  have hm1 : (1:ℝ) ≤ m := by exact_mod_cast hm
  have hDR : (1:ℝ) ≤ D := by exact_mod_cast hD0
  rw [div_lt_div_iff₀ (by norm_num) (by linarith)]
  nlinarith [pow_pos (by linarith : (0:ℝ) < D) 2]

/-- **C98** is violated: the samples 1, 1, 0, 1 lead to undefined behaviour (signed overflow): the update of the mean by `-1/3` is computed with unsigned numbers (C52), the difference of the next sample and this mean is so
large that its square is not an `int`. -/
theorem C98_violation_undefined (M : BitVec 32) (C₀ : ℤ) : intCovAfter double M C₀ 0 [1#32, 1#32, 0#32, 1#32] = .error .ub := by
  obtain ⟨s, h1, hn, hm, hC⟩ := blind 0 0 (by norm_num) 1 [1#32] ⟨⟨1, 1#32⟩, 0⟩ (by simp) (by simp) (by decide) rfl (by simp) (fun y hy => by
    rw [List.mem_singleton.mp hy]; decide)
  have e1 : IntCov.consume double 0 ⟨⟨0, M⟩, C₀⟩ 1#32 = .ok ⟨⟨1, 1#32⟩, 0⟩ := by unfold IntCov.consume; rw [if_pos rfl]
  have h1' : ([1#32, 1#32] : List (BitVec 32)).foldlM (IntCov.consume double 0) ⟨⟨0, M⟩, C₀⟩ = .ok s := by
    rw [List.foldlM_cons, e1]; exact h1
  have hs : s = ⟨⟨2#64, 1#32⟩, 0⟩ := by
    obtain ⟨⟨n, m⟩, C⟩ := s
    simp only at hn hm hC
    have a1 : n = 2#64 := BitVec.eq_of_toNat_eq (by rw [hn]; decide)
    have a2 : m = 1#32 := BitVec.eq_of_toInt_eq (by rw [hm]; decide)
    rw [a1, a2, hC]
  subst hs
  show ([1#32, 1#32] ++ [0#32, 1#32] : List (BitVec 32)).foldlM (IntCov.consume double 0) ⟨⟨0, M⟩, C₀⟩ = _
  rw [foldlM_append' _ _ _ _ _ h1', List.foldlM_cons]
  have hz : double 0 = 0 := fl_zero double_format
  have h3 : double ((3 : ℕ) : ℝ) = ((3 : ℕ) : ℝ) := double_nat 3 (by norm_num)
  have hq0 : 0 ≤ double (1 / 3) := le_fl double_format hz (by norm_num)
  have hq1 : double (1 / 3) ≤ 1 / 2 := by
    have hhalf : Machine double (1 / 2) := by
      have := double_machine 1 (by norm_num) (-1) (by norm_num)
      norm_num at this ⊢
      exact this
    exact fl_le double_format hhalf (by norm_num)
  have hqm : double (double (1 / 3)) = double (1 / 3) := machine_fl double_format _
  have e : IntCov.consume double 0 ⟨⟨2#64, 1#32⟩, 0⟩ 0#32 = .ok ⟨⟨3#64, 0x55555556#32⟩, 0⟩ := by
    unfold IntCov.consume
    simp only
    rw [if_neg (by decide), if_neg (by decide), if_neg (by decide)]
    rw [show (0#32 - 1#32 : BitVec 32).toInt = -1 by decide, if_neg (not_not.mpr (by unfold isInt; norm_num))]
    rw [show (2#64 + 1 : BitVec 64).toNat = 3 by decide, h3]
    have ht : truncate (double (((0:ℤ):ℝ) + double (double (((-1 * -1 : ℤ) : ℝ) / ((3 : ℕ) : ℝ)) - double (((0:ℤ):ℝ) / double (((3 : ℕ) : ℝ) - 1))))) = 0 := by
      rw [Int.cast_zero, zero_div, hz, sub_zero, zero_add]
      rw [show ((-1 * -1 : ℤ) : ℝ) / ((3 : ℕ) : ℝ) = 1 / 3 by norm_num, hqm, hqm]
      unfold truncate
      rw [if_pos hq0, Int.floor_eq_zero_iff]
      exact ⟨hq0, by linarith⟩
    rw [ht, if_neg (not_not.mpr (by unfold isInt; norm_num))]
    rfl
  rw [e]
  show ([1#32] : List (BitVec 32)).foldlM (IntCov.consume double 0) ⟨⟨3#64, 0x55555556#32⟩, 0⟩ = _
  rw [List.foldlM_cons]
  have e2 : IntCov.consume double 0 ⟨⟨3#64, 0x55555556#32⟩, 0⟩ 1#32 = .error .ub := by
    unfold IntCov.consume
    simp only
    rw [if_neg (by decide), if_neg (by decide), if_neg (by decide)]
    rw [show (1#32 - 0x55555556#32 : BitVec 32).toInt = -1431655765 by decide, if_pos (by unfold isInt; norm_num)]
  rw [e2]
  rfl

/-! ### instances of the theorems -/

/-- the third sample, 9, after 3 and 8 (mean 5, variance reported 12): the entry becomes 12 + (16/3 - 12/2) up to the error of the theorem -/
example (s' : IntCov) (h : IntCov.consume double 0 ⟨⟨2#64, 5#32⟩, 12⟩ 9#32 = .ok s') := C98_update_partial 0 _ s' _ h (by decide) (by decide) ⟨by norm_num, by norm_num⟩ _ _ rfl rfl
/-- and the behaviour is defined -/
example : ∃ s', IntCov.consume double 0 ⟨⟨2#64, 5#32⟩, 0⟩ 9#32 = .ok s' := by
  obtain ⟨s', h, -⟩ := step_small ⟨⟨2#64, 5#32⟩, 0⟩ 9#32 4 (by decide) (by decide) (by decide) (by decide) (by decide) rfl 0
  exact ⟨s', h⟩
/-- five samples 7 -/
example (M : BitVec 32) (C₀ : ℤ) := C98_constant_partial M C₀ 7#32 4 (by norm_num)
/-- the samples 3 and 8: the variance 25/2 is reported as 12 -/
example (M : BitVec 32) (C₀ : ℤ) := C98_two_samples_partial M C₀ 3#32 8#32 (by decide) (by decide)
example : ⌊cov (ι := Unit) [fun _ => (3:ℝ), fun _ => 8] () ()⌋ = 12 := by
  have : cov (ι := Unit) [fun _ => (3:ℝ), fun _ => 8] () () = 12.5 := by norm_num [cov, vmean, mean]
  rw [this]; norm_num
/-- 200 samples 5, followed by 15 and 9: ignored -/
example (M : BitVec 32) (C₀ : ℤ) := C98_violation_ignored M C₀ 5#32 200 10 (by omega) (by omega) (by omega) [15#32, 9#32] (by rw [List.length_cons, List.length_singleton]; omega)
  (by intro y hy; simp only [List.mem_cons, List.not_mem_nil, or_false] at hy; rcases hy with rfl | rfl <;> decide)
/-- `D = 40000`, any `m` between `3.2·10^9` and `2^52`: the variance reported is 0, the exact one more than `4·10^8` -/
example (M : BitVec 32) (C₀ : ℤ) (m : Nat) (h1 : 3200000000 ≤ m) (h2 : m ≤ 2 ^ 52) := C98_violation_unbounded M C₀ m 40000 (by omega) (by omega) (by omega) (by omega) (by omega)
/-- `D = 3`, `m = 18` -/
example (M : BitVec 32) (C₀ : ℤ) := C98_violation_unbounded M C₀ 18 3 (by omega) (by omega) (by omega) (by omega) (by omega)

end SampleFlow
