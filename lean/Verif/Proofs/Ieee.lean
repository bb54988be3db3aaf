import Verif.Spec.Ieee
import Verif.Proofs.Nearest
import Verif.Model.Ieee

/-! Floating point formats with gradual underflow meet `Format`. -/

namespace SampleFlow

open Spec

namespace Ieee

variable {p : Nat} {e : ℤ}

theorem pow_e_pos (e : ℤ) : (0:ℝ) < 2 ^ e := by positivity

theorem tiny_eq (hp : 1 ≤ p) (e : ℤ) : (2:ℝ) ^ (e + p - 1) = ((2 ^ (p - 1) : ℕ) : ℝ) * 2 ^ e := by
  obtain ⟨p, rfl⟩ : ∃ k, p = k + 1 := ⟨p - 1, by omega⟩
  rw [show e + ((p + 1 : ℕ) : ℤ) - 1 = (p : ℤ) + e by push_cast; ring, zpow_add₀ (by norm_num), zpow_natCast]
  push_cast
  simp

/-- multiples of `2^e` with at most `p` bits are not changed -/
theorem gradualPos_rep (hp : 1 ≤ p) (m : Nat) (hm : m ≤ 2 ^ p) : gradualPos p e (m * 2 ^ e) = m * 2 ^ e := by
  unfold gradualPos
  split
  · exact roundPos_rep p hp m hm e
  · rw [mul_div_cancel_right₀ _ (pow_e_pos e).ne']
    have := roundInt_int (m : ℤ)
    push_cast at this
    rw [this]
    push_cast
    rfl

theorem low_range (hp : 1 ≤ p) {x : ℝ} (hx : 0 ≤ x) (h : x < (2:ℝ) ^ (e + p - 1)) :
    ∃ m : Nat, m ≤ 2 ^ (p - 1) ∧ (roundInt (x / 2 ^ e) : ℝ) * 2 ^ e = m * 2 ^ e := by
  rw [tiny_eq hp] at h
  have h1 : x / 2 ^ e < ((2 ^ (p - 1) : ℕ) : ℝ) := by rwa [div_lt_iff₀ (pow_e_pos e)]
  have h0 : 0 ≤ x / 2 ^ e := by positivity
  have hf0 : (0:ℤ) ≤ roundInt (x / 2 ^ e) := le_roundInt (by rw [Int.cast_zero]; exact h0)
  have hf1 : roundInt (x / 2 ^ e) ≤ ((2 ^ (p - 1) : ℕ) : ℤ) := roundInt_le (by push_cast at h1 ⊢; exact h1.le)
  refine ⟨(roundInt (x / 2 ^ e)).toNat, by omega, ?_⟩
  congr 1
  have : (((roundInt (x / 2 ^ e)).toNat : ℤ)) = roundInt (x / 2 ^ e) := Int.toNat_of_nonneg hf0
  exact_mod_cast this.symm

theorem two_pow_le (hp : 1 ≤ p) : 2 ^ (p - 1) ≤ 2 ^ p := Nat.pow_le_pow_right (by norm_num) (by omega)

theorem gradualPos_nonneg {x : ℝ} (hx : 0 ≤ x) : 0 ≤ gradualPos p e x := by
  unfold gradualPos
  split
  · exact roundPos_nonneg p hx
  · have : (0:ℤ) ≤ roundInt (x / 2 ^ e) := le_roundInt (by rw [Int.cast_zero]; exact div_nonneg hx (pow_e_pos e).le)
    have : (0:ℝ) ≤ roundInt (x / 2 ^ e) := by exact_mod_cast this
    positivity

theorem roundPos_ge_tiny (hp : 1 ≤ p) {y : ℝ} (hy : (2:ℝ) ^ (e + p - 1) ≤ y) : (2:ℝ) ^ (e + p - 1) ≤ roundPos p y := by
  have h1 := roundPos_mono p hp (by positivity) hy
  rw [tiny_eq hp, roundPos_rep p hp _ (two_pow_le hp) e] at h1
  rwa [tiny_eq hp]

theorem gradualPos_mono (hp : 1 ≤ p) {x y : ℝ} (hx : 0 ≤ x) (hxy : x ≤ y) : gradualPos p e x ≤ gradualPos p e y := by
  unfold gradualPos
  by_cases h1 : (2:ℝ) ^ (e + p - 1) ≤ x
  · rw [if_pos h1, if_pos (h1.trans hxy)]
    exact roundPos_mono p hp hx hxy
  · rw [if_neg h1]
    by_cases h2 : (2:ℝ) ^ (e + p - 1) ≤ y
    · rw [if_pos h2]
      obtain ⟨m, hm, em⟩ := low_range hp hx (not_le.mp h1)
      rw [em]
      refine le_trans ?_ (roundPos_ge_tiny hp h2)
      rw [tiny_eq hp]
      exact mul_le_mul_of_nonneg_right (by exact_mod_cast hm) (pow_e_pos e).le
    · rw [if_neg h2]
      refine mul_le_mul_of_nonneg_right ?_ (pow_e_pos e).le
      have : roundInt (x / 2 ^ e) ≤ roundInt (y / 2 ^ e) :=
        roundInt_mono (div_le_div_of_nonneg_right hxy (pow_e_pos e).le)
      exact_mod_cast this

theorem gradualPos_idempotent (hp : 1 ≤ p) {x : ℝ} (hx : 0 ≤ x) : gradualPos p e (gradualPos p e x) = gradualPos p e x := by
  by_cases h1 : (2:ℝ) ^ (e + p - 1) ≤ x
  · have e1 : gradualPos p e x = roundPos p x := if_pos h1
    have h2 := roundPos_ge_tiny hp h1
    rw [e1]
    unfold gradualPos
    rw [if_pos h2]
    have := (nearest_rounding p hp).idempotent x
    unfold nearest at this
    rwa [if_pos hx, if_pos (roundPos_nonneg p hx)] at this
  · have e1 : gradualPos p e x = roundInt (x / 2 ^ e) * 2 ^ e := if_neg h1
    obtain ⟨m, hm, em⟩ := low_range hp hx (not_le.mp h1)
    rw [e1, em]
    exact gradualPos_rep hp m (hm.trans (two_pow_le hp))

/-- machine numbers are multiples of `2^e` -/
theorem gradualPos_multiple (hp : 1 ≤ p) {x : ℝ} (hx : 0 ≤ x) : ∃ m : Nat, gradualPos p e x = m * 2 ^ e := by
  by_cases h1 : (2:ℝ) ^ (e + p - 1) ≤ x
  · have e1 : gradualPos p e x = roundPos p x := if_pos h1
    have hx0 : 0 < x := lt_of_lt_of_le (by positivity) h1
    obtain ⟨m, -, -, e2⟩ := roundPos_m p hp hx0
    have hlog : e + p - 1 ≤ Int.log 2 x := by
      have := (Int.zpow_le_iff_le_log (b := 2) (by norm_num) hx0 (x := e + p - 1)).mp (by push_cast; exact h1)
      exact this
    obtain ⟨d, hd⟩ : ∃ d : ℕ, Int.log 2 x - p + 1 = e + d := ⟨(Int.log 2 x - p + 1 - e).toNat, by omega⟩
    refine ⟨m * 2 ^ d, ?_⟩
    rw [e1, e2]
    unfold ulp
    rw [hd, zpow_add₀ (by norm_num), zpow_natCast]
    push_cast
    ring
  · have e1 : gradualPos p e x = roundInt (x / 2 ^ e) * 2 ^ e := if_neg h1
    obtain ⟨m, hm, em⟩ := low_range hp hx (not_le.mp h1)
    exact ⟨m, e1.trans em⟩

theorem gradual_neg (x : ℝ) : gradual p e (-x) = - gradual p e x := by
  unfold gradual
  rcases lt_trichotomy x 0 with hx | rfl | hx
  · rw [if_pos (by linarith), if_neg (by linarith), neg_neg]
  · have : gradualPos p e 0 = 0 := by
      unfold gradualPos
      rw [if_neg (by have := pow_e_pos (e + p - 1); linarith), zero_div]
      have := roundInt_int 0
      rw [Int.cast_zero] at this
      rw [this]; simp
    simp [this]
  · rw [if_neg (by linarith), if_pos hx.le, neg_neg]

theorem gradual_multiple (hp : 1 ≤ p) (x : ℝ) : ∃ z : ℤ, gradual p e x = z * 2 ^ e := by
  unfold gradual
  split
  · rename_i h
    obtain ⟨m, hm⟩ := gradualPos_multiple (e := e) hp h
    exact ⟨m, by rw [hm]; push_cast; rfl⟩
  · rename_i h
    obtain ⟨m, hm⟩ := gradualPos_multiple (e := e) hp (x := -x) (by linarith)
    exact ⟨-m, by rw [hm]; push_cast; ring⟩

theorem gradual_rep (hp : 1 ≤ p) (z : ℤ) (hz : |(z : ℝ)| ≤ 2 ^ p) : gradual p e (z * 2 ^ e) = z * 2 ^ e := by
  have key : ∀ m : Nat, m ≤ 2 ^ p → gradual p e (m * 2 ^ e) = m * 2 ^ e := by
    intro m hm
    unfold gradual
    rw [if_pos (by positivity)]
    exact gradualPos_rep hp m hm
  rcases le_total 0 z with h | h
  · obtain ⟨m, rfl⟩ := Int.eq_ofNat_of_zero_le h
    rw [abs_of_nonneg (by exact_mod_cast h)] at hz
    have := key m (by exact_mod_cast hz)
    push_cast at this ⊢
    exact this
  · obtain ⟨m, hm⟩ := Int.eq_ofNat_of_zero_le (a := -z) (by omega)
    obtain rfl : z = -m := by omega
    push_cast at hz ⊢
    rw [abs_neg, abs_of_nonneg (by positivity)] at hz
    rw [neg_mul, gradual_neg, key m (by exact_mod_cast hz)]

/-- `m 2^k` with `m` of at most `p` bits and `k ≥ e` is a machine number -/
theorem gradual_machine (hp : 1 ≤ p) (m : Nat) (hm : m ≤ 2 ^ p) (k : ℤ) (hk : e ≤ k) : gradual p e (m * 2 ^ k) = m * 2 ^ k := by
  unfold gradual
  rw [if_pos (by positivity)]
  unfold gradualPos
  split
  · exact roundPos_rep p hp m hm k
  · rename_i h
    obtain ⟨d, rfl⟩ : ∃ d : ℕ, k = e + d := ⟨(k - e).toNat, by omega⟩
    have e1 : (m : ℝ) * 2 ^ (e + (d : ℤ)) / 2 ^ e = ((m * 2 ^ d : ℤ) : ℝ) := by
      rw [zpow_add₀ (by norm_num), zpow_natCast, div_eq_iff (pow_e_pos e).ne']
      push_cast
      ring
    rw [e1, roundInt_int, zpow_add₀ (by norm_num), zpow_natCast]
    push_cast
    ring

end Ieee

open Ieee

/-- Rounding with gradual underflow meets the specification. -/
theorem gradual_format (p : Nat) (hp : 1 ≤ p) (e : ℤ) (he : e ≤ 0) : Format (2 ^ (-(p : ℤ))) (2 ^ (e + p - 1)) (gradual p e) where
  odd := gradual_neg
  idempotent := by
    intro x
    unfold gradual
    by_cases hx : 0 ≤ x
    · rw [if_pos hx, if_pos (gradualPos_nonneg hx), gradualPos_idempotent hp hx]
    · rw [if_neg hx]
      have hx' : 0 ≤ -x := by linarith
      have hn := gradualPos_nonneg (p := p) (e := e) hx'
      by_cases h0 : 0 ≤ -gradualPos p e (-x)
      · have hz : gradualPos p e (-x) = 0 := by linarith
        have := gradualPos_idempotent (e := e) hp hx'
        rw [hz] at this ⊢
        simp [this]
      · rw [if_neg h0, neg_neg, gradualPos_idempotent hp hx']
  mono := by
    intro x y hxy
    unfold gradual
    by_cases hx : 0 ≤ x
    · rw [if_pos hx, if_pos (hx.trans hxy)]
      exact gradualPos_mono hp hx hxy
    · rw [if_neg hx]
      push Not at hx
      by_cases hy : 0 ≤ y
      · rw [if_pos hy]
        have h1 := gradualPos_nonneg (p := p) (e := e) hy
        have h2 := gradualPos_nonneg (p := p) (e := e) (by linarith : 0 ≤ -x)
        linarith
      · rw [if_neg hy]
        push Not at hy
        have := gradualPos_mono (e := e) hp (by linarith : 0 ≤ -y) (by linarith : -y ≤ -x)
        linarith
  one := by
    have := gradual_machine hp 1 Nat.one_le_two_pow 0 he
    simpa using this
  two := by
    have := gradual_machine hp 1 Nat.one_le_two_pow 1 (by omega : e ≤ 1)
    simpa using this
  error := by
    have key : ∀ x : ℝ, (2:ℝ) ^ (e + p - 1) ≤ x → |gradual p e x - x| ≤ 2 ^ (-(p : ℤ)) * |x| := by
      intro x hx
      have hx0 : 0 < x := lt_of_lt_of_le (by positivity) hx
      unfold gradual gradualPos
      rw [if_pos hx0.le, if_pos hx, abs_of_pos hx0]
      exact roundPos_error p hx0
    intro x hx
    rcases le_total 0 x with h | h
    · rw [abs_of_nonneg h] at hx
      exact key x hx
    · rw [abs_of_nonpos h] at hx
      have := key (-x) hx
      rw [gradual_neg, abs_neg] at this
      rw [show -gradual p e x - -x = -(gradual p e x - x) by ring, abs_neg] at this
      exact this
  small := by
    intro x y hx hy hxy
    obtain ⟨a, ha⟩ := gradual_multiple (e := e) hp x
    obtain ⟨b, hb⟩ := gradual_multiple (e := e) hp y
    rw [show gradual p e x = x from hx] at ha
    rw [show gradual p e y = y from hy] at hb
    have hs : x + y = ((a + b : ℤ) : ℝ) * 2 ^ e := by rw [ha, hb]; push_cast; ring
    rw [hs] at hxy ⊢
    refine gradual_rep hp _ ?_
    rw [abs_mul, abs_of_pos (pow_e_pos e), tiny_eq hp] at hxy
    have h2 : 2 * (((2 ^ (p - 1) : ℕ) : ℝ) * 2 ^ e) = 2 ^ p * 2 ^ e := by
      obtain ⟨p, rfl⟩ : ∃ k, p = k + 1 := ⟨p - 1, by omega⟩
      push_cast
      ring
    rw [h2] at hxy
    exact le_of_mul_le_mul_right hxy (pow_e_pos e)

theorem double_format : Format (2 ^ (-53 : ℤ)) (2 ^ (-1022 : ℤ)) double := by
  have := gradual_format 53 (by norm_num) (-1074) (by norm_num)
  norm_num at this ⊢
  exact this

theorem double_machine (m : Nat) (hm : m ≤ 2 ^ 53) (k : ℤ) (hk : -1074 ≤ k) : Machine double (m * 2 ^ k) :=
  gradual_machine (by norm_num) m hm k hk

theorem maxDouble_machine : Machine double maxDouble := by
  have := double_machine (2 ^ 53 - 1) (by norm_num) 971 (by norm_num)
  have e : ((2 ^ 53 - 1 : ℕ) : ℝ) * 2 ^ (971 : ℤ) = maxDouble := by
    unfold maxDouble
    norm_num
  rwa [e] at this

end SampleFlow
