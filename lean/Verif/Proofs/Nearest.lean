import Verif.Spec.Rounding
import Mathlib.Data.Real.Archimedean
import Mathlib.Tactic.Linarith
import Mathlib.Tactic.Ring
import Mathlib.Tactic.Positivity
import Mathlib.Tactic.FieldSimp
import Mathlib.Tactic.NormNum
import Mathlib.Algebra.Order.Field.Power

/-! Rounding to `p` bits satisfies the assumptions on rounding. -/

namespace SampleFlow

open Spec

theorem ulp_pos (p : Nat) (x : ℝ) : 0 < ulp p x := by unfold ulp; positivity

theorem roundInt_int (z : ℤ) : roundInt (z : ℝ) = z := by
  unfold roundInt
  rw [Int.floor_intCast, sub_self, if_pos (by norm_num)]

theorem roundInt_cases (y : ℝ) : roundInt y = ⌊y⌋ ∧ y - ⌊y⌋ ≤ 1 / 2 ∨ roundInt y = ⌊y⌋ + 1 ∧ 1 / 2 ≤ y - ⌊y⌋ := by
  unfold roundInt
  by_cases h1 : y - ⌊y⌋ < 1 / 2
  · rw [if_pos h1]; exact .inl ⟨rfl, h1.le⟩
  · by_cases h2 : 1 / 2 < y - ⌊y⌋
    · rw [if_neg h1, if_pos h2]; exact .inr ⟨rfl, h2.le⟩
    · rw [if_neg h1, if_neg h2]
      split
      · exact .inl ⟨rfl, not_lt.mp h2⟩
      · exact .inr ⟨rfl, not_lt.mp h1⟩

theorem roundInt_error (y : ℝ) : |(roundInt y : ℝ) - y| ≤ 1 / 2 := by
  have h1 := Int.floor_le y
  have h2 := Int.lt_floor_add_one y
  rw [abs_le]
  rcases roundInt_cases y with ⟨e, h⟩ | ⟨e, h⟩ <;> rw [e] <;> push_cast <;> constructor <;> linarith

theorem roundInt_mono {x y : ℝ} (h : x ≤ y) : roundInt x ≤ roundInt y := by
  have hf : ⌊x⌋ ≤ ⌊y⌋ := Int.floor_le_floor h
  rcases eq_or_lt_of_le hf with he | hlt
  · unfold roundInt
    rw [he]
    by_cases a1 : y - ⌊y⌋ < 1 / 2
    · rw [if_pos a1, if_pos (by linarith)]
    · by_cases a2 : 1 / 2 < y - ⌊y⌋
      · rw [if_neg a1, if_pos a2]
        split_ifs <;> omega
      · rw [if_neg a1, if_neg a2]
        split_ifs <;> first | omega | linarith
  · rcases roundInt_cases x with ⟨e, _⟩ | ⟨e, _⟩ <;> rcases roundInt_cases y with ⟨e', _⟩ | ⟨e', _⟩ <;> rw [e, e'] <;> omega

theorem le_roundInt {z : ℤ} {y : ℝ} (h : (z:ℝ) ≤ y) : z ≤ roundInt y := by
  have := roundInt_mono h
  rwa [roundInt_int] at this

theorem roundInt_le {z : ℤ} {y : ℝ} (h : y ≤ z) : roundInt y ≤ z := by
  have := roundInt_mono h
  rwa [roundInt_int] at this

theorem roundInt_eq {z : ℤ} {y : ℝ} (h1 : (z:ℝ) - 1 / 2 < y) (h2 : y < z + 1 / 2) : roundInt y = z := by
  have h := abs_le.mp (roundInt_error y)
  have a1 : ((z - 1 : ℤ) : ℝ) < (roundInt y : ℝ) := by push_cast; linarith
  have a2 : (roundInt y : ℝ) < ((z + 1 : ℤ) : ℝ) := by push_cast; linarith
  have b1 := Int.cast_lt.mp a1
  have b2 := Int.cast_lt.mp a2
  omega

theorem roundPos_zero (p : Nat) : roundPos p 0 = 0 := by
  unfold roundPos
  have := roundInt_int 0
  rw [Int.cast_zero] at this
  rw [zero_div, this]; simp

theorem ulp_range (p : Nat) {x : ℝ} (hx : 0 < x) : (2:ℝ) ^ ((p : ℤ) - 1) ≤ x / ulp p x ∧ x / ulp p x < (2:ℝ) ^ p := by
  have h1 := Int.zpow_log_le_self (b := 2) (by norm_num) hx
  have h2 := Int.lt_zpow_succ_log_self (b := 2) (by norm_num) x
  push_cast at h1 h2
  have hq := ulp_pos p x
  constructor
  · rw [le_div_iff₀ hq]
    unfold ulp
    rw [← zpow_add₀ (by norm_num)]
    convert h1 using 2; ring
  · rw [div_lt_iff₀ hq]
    unfold ulp
    rw [← zpow_natCast, ← zpow_add₀ (by norm_num)]
    convert h2 using 2; ring

theorem roundPos_m (p : Nat) (hp : 1 ≤ p) {x : ℝ} (hx : 0 < x) :
    ∃ m : Nat, 2 ^ (p - 1) ≤ m ∧ m ≤ 2 ^ p ∧ roundPos p x = m * ulp p x := by
  obtain ⟨h1, h2⟩ := ulp_range p hx
  obtain ⟨p, rfl⟩ : ∃ k, p = k + 1 := ⟨p - 1, by omega⟩
  have h1' : ((2 ^ p : ℤ) : ℝ) ≤ x / ulp (p + 1) x := by
    push_cast at h1 ⊢
    rwa [show ((p : ℤ) + 1 - 1) = p by ring, zpow_natCast] at h1
  have h3 : (2 ^ p : ℤ) ≤ roundInt (x / ulp (p + 1) x) := le_roundInt h1'
  have h4 : roundInt (x / ulp (p + 1) x) ≤ 2 ^ (p + 1) := roundInt_le (by push_cast; linarith)
  refine ⟨(roundInt (x / ulp (p + 1) x)).toNat, ?_, ?_, ?_⟩
  · zify
    rw [Int.toNat_of_nonneg (le_trans (by positivity) h3)]
    simpa using h3
  · zify
    rw [Int.toNat_of_nonneg (le_trans (by positivity) h3)]
    omega
  · unfold roundPos
    congr 1
    have : (((roundInt (x / ulp (p + 1) x)).toNat : ℤ)) = roundInt (x / ulp (p + 1) x) := Int.toNat_of_nonneg (le_trans (by positivity) h3)
    exact_mod_cast this.symm

/-- numbers with at most `p` bits are not changed -/
theorem roundPos_rep (p : Nat) (hp : 1 ≤ p) (m : Nat) (hm : m ≤ 2 ^ p) (k : ℤ) : roundPos p (m * 2 ^ k) = m * 2 ^ k := by
  rcases Nat.eq_zero_or_pos m with rfl | hm0
  · simp [roundPos_zero]
  have hy : (0:ℝ) < m * 2 ^ k := by positivity
  have hint : ∃ z : ℤ, (m * 2 ^ k : ℝ) / ulp p (m * 2 ^ k) = z := by
    have h1 := Int.zpow_log_le_self (b := 2) (by norm_num) hy
    push_cast at h1
    have hm' : (m : ℝ) ≤ 2 ^ p := by exact_mod_cast hm
    have h2 : (2:ℝ) ^ Int.log 2 (m * 2 ^ k : ℝ) ≤ 2 ^ ((p : ℤ) + k) := by
      refine h1.trans ?_
      rw [zpow_add₀ (by norm_num), zpow_natCast]
      exact mul_le_mul_of_nonneg_right hm' (by positivity)
    have h3 : Int.log 2 (m * 2 ^ k : ℝ) ≤ p + k := (zpow_le_zpow_iff_right₀ (by norm_num)).mp h2
    unfold ulp
    generalize Int.log 2 (m * 2 ^ k : ℝ) = e at *
    rcases eq_or_lt_of_le h3 with h4 | h4
    · -- the next power of two
      have h5 : (2:ℝ) ^ p ≤ m := by
        rw [h4, zpow_add₀ (by norm_num), zpow_natCast] at h1
        exact le_of_mul_le_mul_right h1 (by positivity)
      have h6 : (m : ℝ) = 2 ^ p := le_antisymm hm' h5
      · obtain ⟨p', rfl⟩ : ∃ k, p = k + 1 := ⟨p - 1, by omega⟩
        refine ⟨2 ^ p', ?_⟩
        rw [h6, h4, div_eq_iff (by positivity)]
        push_cast
        rw [← zpow_natCast, ← zpow_natCast, ← zpow_add₀ (by norm_num), ← zpow_add₀ (by norm_num)]
        congr 1; push_cast; ring
    · obtain ⟨d, hd⟩ : ∃ d : ℕ, k = (e - p + 1) + d := ⟨(k - (e - p + 1)).toNat, by omega⟩
      refine ⟨m * 2 ^ d, ?_⟩
      rw [hd, zpow_add₀ (by norm_num), div_eq_iff (by positivity)]
      push_cast
      rw [zpow_natCast]; ring
  obtain ⟨z, hz⟩ := hint
  unfold roundPos
  rw [hz]
  rw [roundInt_int, ← hz]
  exact div_mul_cancel₀ _ (ulp_pos _ _).ne'


theorem nearest_rep (p : Nat) (hp : 1 ≤ p) (m : Nat) (hm : m ≤ 2 ^ p) (k : ℤ) : nearest p (m * 2 ^ k) = m * 2 ^ k := by
  unfold nearest
  rw [if_pos (by positivity), roundPos_rep p hp m hm k]

theorem roundPos_error (p : Nat) {x : ℝ} (hx : 0 < x) : |roundPos p x - x| ≤ 2 ^ (-(p : ℤ)) * x := by
  have hq := ulp_pos p x
  have h3 : |roundPos p x - x| ≤ ulp p x / 2 := by
    have e : roundPos p x - x = ((roundInt (x / ulp p x) : ℝ) - x / ulp p x) * ulp p x := by
      unfold roundPos
      rw [sub_mul, div_mul_cancel₀ _ hq.ne']
    rw [e, abs_mul, abs_of_pos hq]
    have := roundInt_error (x / ulp p x)
    calc _ ≤ 1 / 2 * ulp p x := mul_le_mul_of_nonneg_right this hq.le
      _ = ulp p x / 2 := by ring
  refine h3.trans ?_
  have h4 := Int.zpow_log_le_self (b := 2) (by norm_num) hx
  push_cast at h4
  have : ulp p x / 2 = 2 ^ (-(p : ℤ)) * 2 ^ Int.log 2 x := by
    unfold ulp
    rw [← zpow_add₀ (by norm_num), show (Int.log 2 x - p + 1) = (-(p:ℤ) + Int.log 2 x) + 1 by ring, zpow_add_one₀ (by norm_num)]
    ring
  rw [this]
  exact mul_le_mul_of_nonneg_left h4 (by positivity)

theorem roundPos_nonneg (p : Nat) {x : ℝ} (hx : 0 ≤ x) : 0 ≤ roundPos p x := by
  unfold roundPos
  have hq := ulp_pos p x
  refine mul_nonneg ?_ hq.le
  have : (0:ℤ) ≤ roundInt (x / ulp p x) := le_roundInt (by rw [Int.cast_zero]; exact div_nonneg hx hq.le)
  exact_mod_cast this

theorem roundPos_mono (p : Nat) (hp : 1 ≤ p) {x y : ℝ} (hx : 0 ≤ x) (hxy : x ≤ y) : roundPos p x ≤ roundPos p y := by
  rcases eq_or_lt_of_le hx with rfl | hx
  · rw [roundPos_zero]; exact roundPos_nonneg p hxy
  have hy : 0 < y := lt_of_lt_of_le hx hxy
  have hlog : Int.log 2 x ≤ Int.log 2 y := Int.log_mono_right hx hxy
  rcases eq_or_lt_of_le hlog with he | hlt
  · have : ulp p x = ulp p y := by unfold ulp; rw [he]
    unfold roundPos
    rw [this]
    have hq := ulp_pos p y
    refine mul_le_mul_of_nonneg_right ?_ hq.le
    have : roundInt (x / ulp p y) ≤ roundInt (y / ulp p y) := roundInt_mono (div_le_div_of_nonneg_right hxy hq.le)
    exact_mod_cast this
  · obtain ⟨m, -, hm, e1⟩ := roundPos_m p hp hx
    obtain ⟨m', hm', -, e2⟩ := roundPos_m p hp hy
    rw [e1, e2]
    have a1 : (m : ℝ) * ulp p x ≤ 2 ^ p * ulp p x := mul_le_mul_of_nonneg_right (by exact_mod_cast hm) (ulp_pos p x).le
    have a2 : (2:ℝ) ^ (p - 1) * ulp p y ≤ m' * ulp p y := mul_le_mul_of_nonneg_right (by exact_mod_cast hm') (ulp_pos p y).le
    have a3 : (2:ℝ) ^ p * ulp p x ≤ 2 ^ (p - 1) * ulp p y := by
      unfold ulp
      rw [← zpow_natCast, ← zpow_natCast, ← zpow_add₀ (by norm_num), ← zpow_add₀ (by norm_num)]
      refine zpow_le_zpow_right₀ (by norm_num) ?_
      omega
    linarith

/-- Rounding to the nearest `p` bit number is a rounding with relative error `2^-p`. -/
theorem nearest_rounding (p : Nat) (hp : 1 ≤ p) : Rounding (2 ^ (-(p : ℤ))) (nearest p) where
  odd := by
    intro x
    unfold nearest
    rcases lt_trichotomy x 0 with hx | rfl | hx
    · rw [if_pos (by linarith), if_neg (by linarith), neg_neg]
    · simp [roundPos_zero]
    · rw [if_neg (by linarith), if_pos hx.le, neg_neg]
  mono := by
    intro x y hxy
    unfold nearest
    by_cases hx : 0 ≤ x
    · rw [if_pos hx, if_pos (hx.trans hxy)]
      exact roundPos_mono p hp hx hxy
    · rw [if_neg hx]
      push Not at hx
      by_cases hy : 0 ≤ y
      · rw [if_pos hy]
        have h1 := roundPos_nonneg p hy
        have h2 := roundPos_nonneg p (by linarith : 0 ≤ -x)
        linarith
      · rw [if_neg hy]
        push Not at hy
        have := roundPos_mono p hp (by linarith : 0 ≤ -y) (by linarith : -y ≤ -x)
        linarith
  error := by
    intro x
    unfold nearest
    rcases lt_trichotomy x 0 with hx | rfl | hx
    · rw [if_neg (by linarith), abs_of_neg hx]
      have := roundPos_error p (by linarith : 0 < -x)
      rw [show -roundPos p (-x) - x = -(roundPos p (-x) - -x) by ring, abs_neg]
      exact this
    · simp [roundPos_zero]
    · rw [if_pos hx.le, abs_of_pos hx]
      exact roundPos_error p hx
  idempotent := by
    have pos : ∀ x : ℝ, 0 ≤ x → nearest p (roundPos p x) = roundPos p x := by
      intro x hx
      rcases eq_or_lt_of_le hx with rfl | hx
      · rw [roundPos_zero]; simp [nearest, roundPos_zero]
      obtain ⟨m, -, hm, e⟩ := roundPos_m p hp hx
      rw [e]
      exact nearest_rep p hp m hm _
    have neg : ∀ x : ℝ, nearest p (-x) = - nearest p x := by
      intro x
      unfold nearest
      rcases lt_trichotomy x 0 with hx | rfl | hx
      · rw [if_pos (by linarith), if_neg (by linarith), neg_neg]
      · simp [roundPos_zero]
      · rw [if_neg (by linarith), if_pos hx.le, neg_neg]
    intro x
    by_cases hx : 0 ≤ x
    · have : nearest p x = roundPos p x := by unfold nearest; rw [if_pos hx]
      rw [this]; exact pos x hx
    · have : nearest p x = - roundPos p (-x) := by unfold nearest; rw [if_neg hx]
      rw [this, neg, pos (-x) (by linarith)]

/-- `p` bits suffice for the integers up to `2^p`. -/
theorem nearest_nat (p : Nat) (hp : 1 ≤ p) (n : Nat) (hn : n ≤ 2 ^ p) : nearest p n = n := by
  have := nearest_rep p hp n hn 0
  simpa using this

end SampleFlow
