import Verif.Model.Ieee
import Verif.Proofs.Ieee
import Verif.Proofs.Nearest
import Verif.Proofs.NearestDouble
import Verif.Proofs.HistogramRounding

/-!
# Proofs for C74: interval points in IEEE double precision
-/

namespace SampleFlow.HistDouble

open Spec HistRound Ieee

theorem double_eq_large {x : ℝ} (h : (2:ℝ) ^ (-1022 : ℤ) ≤ |x|) : double x = nearest 53 x := by
  unfold double gradual nearest gradualPos
  have e : ((-1074 : ℤ) + ((53 : ℕ) : ℤ) - 1) = -1022 := by norm_num
  rw [e]
  by_cases hx : 0 ≤ x
  · rw [if_pos hx, if_pos hx, if_pos (by rwa [abs_of_nonneg hx] at h)]
  · rw [if_neg hx, if_neg hx, if_pos (by rwa [abs_of_neg (not_le.mp hx)] at h)]

theorem nearest_neg (x : ℝ) : nearest 53 (-x) = - nearest 53 x := (nearest_rounding 53 (by norm_num)).odd x

theorem double_eq_multiple (z : ℤ) : double (z * (2:ℝ) ^ (-1074 : ℤ)) = nearest 53 (z * (2:ℝ) ^ (-1074 : ℤ)) := by
  by_cases hz : |(z : ℝ)| ≤ 2 ^ 53
  · unfold double
    rw [gradual_rep (by norm_num) z hz]
    symm
    have hnat : (z.natAbs : ℝ) = |(z : ℝ)| := by rw [Nat.cast_natAbs, Int.cast_abs]
    have hm : z.natAbs ≤ 2 ^ 53 := by
      have h1 : ((z.natAbs : ℕ) : ℝ) ≤ ((2 ^ 53 : ℕ) : ℝ) := by rw [hnat, show ((2 ^ 53 : ℕ) : ℝ) = 2 ^ 53 by norm_num]; exact hz
      exact_mod_cast h1
    have h2 := nearest_rep 53 (by norm_num) z.natAbs hm (-1074)
    rcases le_total 0 (z : ℝ) with h | h
    · rw [hnat, abs_of_nonneg h] at h2; exact h2
    · rw [hnat, abs_of_nonpos h] at h2
      have e : (z:ℝ) * (2:ℝ) ^ (-1074 : ℤ) = -(-(z:ℝ) * (2:ℝ) ^ (-1074 : ℤ)) := by ring
      rw [e, nearest_neg, h2]
  · apply double_eq_large
    push Not at hz
    rw [abs_mul, abs_of_pos (show (0:ℝ) < 2 ^ (-1074 : ℤ) by positivity)]
    have e : (2:ℝ) ^ (-1022 : ℤ) = 2 ^ 52 * (2:ℝ) ^ (-1074 : ℤ) := by
      rw [show (-1022 : ℤ) = ((52 : ℕ) : ℤ) + (-1074) by norm_num, zpow_add₀ (by norm_num), zpow_natCast]
    rw [e]
    refine mul_le_mul_of_nonneg_right (le_trans ?_ hz.le) (by positivity)
    norm_num

theorem multiple_of_machine {x : ℝ} (h : Machine double x) : ∃ z : ℤ, x = z * (2:ℝ) ^ (-1074 : ℤ) := by
  obtain ⟨z, hz⟩ := gradual_multiple (p := 53) (e := -1074) (by norm_num) x
  exact ⟨z, by rw [← hz]; exact h.symm⟩

theorem double_sum {x y : ℝ} (hx : Machine double x) (hy : Machine double y) : double (x + y) = nearest 53 (x + y) := by
  obtain ⟨a, ha⟩ := multiple_of_machine hx
  obtain ⟨b, hb⟩ := multiple_of_machine hy
  have e : x + y = ((a + b : ℤ) : ℝ) * (2:ℝ) ^ (-1074 : ℤ) := by rw [ha, hb]; push_cast; ring
  rw [e, double_eq_multiple]

theorem double_diff {x y : ℝ} (hx : Machine double x) (hy : Machine double y) : double (x - y) = nearest 53 (x - y) := by
  rw [sub_eq_add_neg]
  exact double_sum hx (by unfold Machine; rw [double_format.odd, hy])

theorem machine_nearest {x : ℝ} (h : Machine double x) : Machine (nearest 53) x := by
  obtain ⟨z, hz⟩ := multiple_of_machine h
  have := double_eq_multiple z
  rw [← hz] at this
  unfold Machine
  rw [← this]
  exact h

theorem roundResult_fin {x : ℝ} (h : |double x| ≤ maxDouble) : roundResult double maxDouble (.fin x) = .fin (double x) := by
  obtain ⟨h1, h2⟩ := abs_le.mp h
  simp [roundResult, not_lt.mpr h2, not_lt.mpr h1]

/-- one interval point -/
theorem point (lo hi : ℝ) (hlo : Machine double lo) (hhi : Machine double hi) (hloΩ : |lo| ≤ maxDouble) (hhiΩ : |hi| ≤ maxDouble) (hlt : lo < hi) (n : Nat) (hn : 1 ≤ n) (hn' : n ≤ 2 ^ 51)
    (hrange : hi - lo ≤ maxDouble) (hwide : n * (2:ℝ) ^ (-1022 : ℤ) ≤ hi - lo) (k : Nat) (hk : k < n) :
    (ieee double maxDouble).add (.fin lo) ((ieee double maxDouble).mul ((ieee double maxDouble).ofNat k) ((ieee double maxDouble).div ((ieee double maxDouble).sub (.fin hi) (.fin lo)) ((ieee double maxDouble).ofNat n))) =
      .fin (nearest 53 (lo + offset (nearest 53) lo hi n k)) := by
  have R := nearest_rounding 53 (by norm_num)
  have hpow : (n : ℝ) ≤ 2 ^ 51 := by exact_mod_cast hn'
  have hn0 : (0:ℝ) < n := by exact_mod_cast hn
  have hrep : ∀ j ≤ n, nearest 53 (j : ℝ) = j := fun j hj => nearest_nat 53 (by norm_num) j (by omega)
  have hdnat : ∀ j ≤ n, double (j : ℝ) = j := fun j hj => by
    have := double_machine j (by omega) 0 (by norm_num)
    simpa [Machine] using this
  have hΩ : (2:ℝ) ^ 51 ≤ maxDouble := by
    unfold maxDouble
    have h1 : (1:ℝ) ≤ 2 ^ 971 := one_le_pow₀ (by norm_num)
    have h2 : (2:ℝ) ^ 51 ≤ 2 ^ 53 - 1 := by norm_num
    calc (2:ℝ) ^ 51 = 2 ^ 51 * 1 := (mul_one _).symm
      _ ≤ (2 ^ 53 - 1) * 2 ^ 971 := mul_le_mul h2 h1 (by norm_num) (by norm_num)
  have hofNat : ∀ j ≤ n, (ieee double maxDouble).ofNat j = .fin (j : ℝ) := fun j hj => by
    have hj' : (j : ℝ) ≤ n := by exact_mod_cast hj
    have : roundResult double maxDouble (.fin (j : ℝ)) = .fin (double (j:ℝ)) := roundResult_fin (by rw [hdnat j hj, abs_of_nonneg (Nat.cast_nonneg j)]; linarith)
    rw [hdnat j hj] at this
    exact this
  -- the difference
  have hw : 0 < hi - lo := by linarith
  have hd : double (hi - lo) = nearest 53 (hi - lo) := double_diff hhi hlo
  have hd0 : 0 ≤ nearest 53 (hi - lo) := R.nonneg hw.le
  have hdΩ : nearest 53 (hi - lo) ≤ maxDouble := by
    have := R.mono _ _ hrange
    rwa [machine_nearest maxDouble_machine] at this
  have hsub : (ieee double maxDouble).sub (.fin hi) (.fin lo) = .fin (nearest 53 (hi - lo)) := by
    have : roundResult double maxDouble (.fin (hi + -lo)) = .fin (double (hi + -lo)) := roundResult_fin (by rw [← sub_eq_add_neg, hd, abs_of_nonneg hd0]; exact hdΩ)
    rw [← sub_eq_add_neg, hd] at this
    exact this
  -- the width
  have hdlow : n * (2:ℝ) ^ (-1022 : ℤ) ≤ nearest 53 (hi - lo) := by
    have := R.mono _ _ hwide
    rwa [nearest_rep 53 (by norm_num) n (by omega) (-1022)] at this
  obtain ⟨w, hwdef⟩ : ∃ w, w = nearest 53 (hi - lo) := ⟨_, rfl⟩
  rw [← hwdef] at hsub hd0 hdΩ hdlow
  have hqlow : (2:ℝ) ^ (-1022 : ℤ) ≤ w / n := by rw [le_div_iff₀ hn0]; linarith
  have hqpos : (0:ℝ) < w / n := lt_of_lt_of_le (by positivity) hqlow
  have hq : double (w / n) = nearest 53 (w / n) := double_eq_large (by rwa [abs_of_pos hqpos])
  have hqw : w / n ≤ w := div_le_self hd0 (by exact_mod_cast hn)
  have hwm : nearest 53 w = w := by rw [hwdef]; exact R.idempotent _
  have hqΩ : nearest 53 (w / n) ≤ w := by
    have := R.mono _ _ hqw
    rwa [hwm] at this
  have hdiv : (ieee double maxDouble).div (.fin w) (.fin (n : ℝ)) = .fin (nearest 53 (w / n)) := by
    have : roundResult double maxDouble (XR.div (.fin w) (.fin (n : ℝ))) = .fin (double (w / n)) := by
      simp only [XR.div, hn0.ne', if_false]
      exact roundResult_fin (by rw [hq, abs_of_nonneg (R.nonneg hqpos.le)]; linarith)
    rw [hq] at this
    exact this
  -- the offset
  have hoff := offset_bounds R (by positivity) lo hi hlt n hn hrep (by
    have e : (2:ℝ) ^ (-((53 : ℕ) : ℤ)) = 1 / 2 ^ 53 := by norm_num [zpow_neg]
    rw [e]
    have h1 : (4:ℝ) * (1 / 2 ^ 53) * n ≤ 4 * (1 / 2 ^ 53) * 2 ^ 51 := mul_le_mul_of_nonneg_left hpow (by positivity)
    exact h1.trans (by norm_num)) k hk
  have hoffdef : offset (nearest 53) lo hi n k = nearest 53 (k * nearest 53 (w / n)) := by
    unfold offset
    rw [hrep k hk.le, hrep n le_rfl, ← hwdef]
  have hδlow : (2:ℝ) ^ (-1022 : ℤ) ≤ nearest 53 (w / n) := by
    have := R.mono _ _ hqlow
    have h1 := nearest_rep 53 (by norm_num) 1 (by norm_num) (-1022)
    rw [Nat.cast_one, one_mul] at h1
    rwa [h1] at this
  have hmulEq : double (k * nearest 53 (w / n)) = nearest 53 (k * nearest 53 (w / n)) := by
    rcases Nat.eq_zero_or_pos k with rfl | hk0
    · rw [Nat.cast_zero, zero_mul, R.zero]
      have := double_machine 0 (by norm_num) 0 (by norm_num)
      simpa [Machine] using this
    · apply double_eq_large
      have h1 : (1:ℝ) ≤ k := by exact_mod_cast hk0
      have h2 : (0:ℝ) ≤ nearest 53 (w / n) := R.nonneg hqpos.le
      rw [abs_of_nonneg (by positivity)]
      calc (2:ℝ) ^ (-1022 : ℤ) ≤ nearest 53 (w / n) := hδlow
        _ = 1 * nearest 53 (w / n) := (one_mul _).symm
        _ ≤ k * nearest 53 (w / n) := mul_le_mul_of_nonneg_right h1 h2
  have hmul : (ieee double maxDouble).mul (.fin (k : ℝ)) (.fin (nearest 53 (w / n))) = .fin (offset (nearest 53) lo hi n k) := by
    have : roundResult double maxDouble (XR.mul (.fin (k:ℝ)) (.fin (nearest 53 (w / n)))) = .fin (double (k * nearest 53 (w / n))) := by
      simp only [XR.mul]
      exact roundResult_fin (by rw [hmulEq, ← hoffdef, abs_of_nonneg hoff.1]; linarith [hoff.2.1])
    rw [hmulEq, ← hoffdef] at this
    exact this
  -- the sum
  have hoffM : Machine double (offset (nearest 53) lo hi n k) := by
    rw [hoffdef, ← hmulEq]
    exact double_format.idempotent _
  have hsum : double (lo + offset (nearest 53) lo hi n k) = nearest 53 (lo + offset (nearest 53) lo hi n k) := double_sum hlo hoffM
  have hsumΩ : |nearest 53 (lo + offset (nearest 53) lo hi n k)| ≤ maxDouble := by
    rw [abs_le]
    constructor
    · have := R.mono lo (lo + offset (nearest 53) lo hi n k) (by linarith [hoff.1])
      rw [machine_nearest hlo] at this
      linarith [(abs_le.mp hloΩ).1]
    · have := R.mono (lo + offset (nearest 53) lo hi n k) hi (by linarith [hoff.2.1])
      rw [machine_nearest hhi] at this
      linarith [(abs_le.mp hhiΩ).2]
  rw [hofNat k hk.le, hofNat n le_rfl, hsub, hdiv, hmul]
  have : roundResult double maxDouble (.fin (lo + offset (nearest 53) lo hi n k)) = .fin (double (lo + offset (nearest 53) lo hi n k)) := roundResult_fin (by rw [hsum]; exact hsumΩ)
  rw [hsum] at this
  exact this

end SampleFlow.HistDouble
