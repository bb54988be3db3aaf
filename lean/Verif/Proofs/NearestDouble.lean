import Verif.Proofs.Ieee

/-! The rounding of Spec/Ieee.lean chooses a nearest machine number, and of two nearest ones that with an even last digit. -/

namespace SampleFlow

open Spec Ieee

theorem roundInt_nearest (y : ℝ) (z : ℤ) : |(roundInt y : ℝ) - y| ≤ |(z : ℝ) - y| := by
  have h1 := Int.floor_le y
  have h2 := Int.lt_floor_add_one y
  rcases le_or_gt z ⌊y⌋ with hz | hz
  · have hz' : (z : ℝ) ≤ ⌊y⌋ := by exact_mod_cast hz
    rw [abs_of_nonpos (by linarith : (z:ℝ) - y ≤ 0), abs_le]
    rcases roundInt_cases y with ⟨e, h⟩ | ⟨e, h⟩ <;> rw [e] <;> push_cast <;> constructor <;> linarith
  · have hz' : (⌊y⌋ : ℝ) + 1 ≤ z := by exact_mod_cast hz
    rw [abs_of_nonneg (by linarith : 0 ≤ (z:ℝ) - y), abs_le]
    rcases roundInt_cases y with ⟨e, h⟩ | ⟨e, h⟩ <;> rw [e] <;> push_cast <;> constructor <;> linarith

theorem roundInt_even (y : ℝ) (z : ℤ) (hz : z ≠ roundInt y) (h : |(z : ℝ) - y| = |(roundInt y : ℝ) - y|) : 2 ∣ roundInt y := by
  have h1 := Int.floor_le y
  have h2 := Int.lt_floor_add_one y
  have herr := roundInt_error y
  rw [← h] at herr
  obtain ⟨b1, b2⟩ := abs_le.mp herr
  have f1 : ((⌊y⌋ - 1 : ℤ) : ℝ) < z := by push_cast; linarith
  have f2 : (z : ℝ) < ((⌊y⌋ + 2 : ℤ) : ℝ) := by push_cast; linarith
  have f1' := Int.cast_lt.mp f1
  have f2' := Int.cast_lt.mp f2
  unfold roundInt at hz h ⊢
  by_cases a1 : y - ⌊y⌋ < 1 / 2
  · rw [if_pos a1] at hz h
    obtain rfl : z = ⌊y⌋ + 1 := by omega
    rw [abs_of_nonneg (by push_cast; linarith), abs_of_nonpos (by linarith)] at h
    push_cast at h; linarith
  · by_cases a2 : 1 / 2 < y - ⌊y⌋
    · rw [if_neg a1, if_pos a2] at hz h
      obtain rfl : z = ⌊y⌋ := by omega
      rw [abs_of_nonpos (by linarith), abs_of_nonneg (by push_cast; linarith)] at h
      push_cast at h; linarith
    · rw [if_neg a1, if_neg a2]
      split <;> omega

theorem scaled_nearest {u : ℝ} (hu : 0 < u) (x : ℝ) (z : ℤ) : |(roundInt (x / u) : ℝ) * u - x| ≤ |(z : ℝ) * u - x| := by
  have e : ∀ a : ℝ, |a * u - x| = |a - x / u| * u := by
    intro a
    rw [← abs_of_pos hu, ← abs_mul, sub_mul, abs_of_pos hu, div_mul_cancel₀ _ hu.ne']
  rw [e, e]
  exact mul_le_mul_of_nonneg_right (roundInt_nearest _ _) hu.le

theorem gradual_nearest_nonneg {p : Nat} {e : ℤ} (hp : 1 ≤ p) {x : ℝ} (hx : 0 ≤ x) (y : ℝ) (hy : Machine (gradual p e) y) : |gradual p e x - x| ≤ |y - x| := by
  obtain ⟨z, hz⟩ := gradual_multiple (e := e) hp y
  rw [show gradual p e y = y from hy] at hz
  have e1 : gradual p e x = gradualPos p e x := if_pos hx
  rw [e1]
  by_cases h1 : (2:ℝ) ^ (e + p - 1) ≤ x
  · have e2 : gradualPos p e x = roundInt (x / ulp p x) * ulp p x := if_pos h1
    rw [e2]
    have hx0 : 0 < x := lt_of_lt_of_le (by positivity) h1
    have hu := ulp_pos p x
    have hb := Int.zpow_log_le_self (b := 2) (by norm_num) hx0
    push_cast at hb
    rcases le_or_gt y (2 ^ Int.log 2 x) with hs | hl
    · have hz2 : ((2 ^ (p - 1) : ℤ) : ℝ) * ulp p x = 2 ^ Int.log 2 x := by
        unfold ulp
        push_cast
        rw [← zpow_natCast, ← zpow_add₀ (by norm_num)]
        congr 1
        omega
      have := scaled_nearest hu x (2 ^ (p - 1))
      rw [hz2, abs_of_nonpos (by linarith : (2:ℝ) ^ Int.log 2 x - x ≤ 0)] at this
      rw [abs_of_nonpos (by linarith : y - x ≤ 0)]
      linarith
    · have hy0 : 0 < y := lt_trans (by positivity) hl
      have hlog : e + p - 1 ≤ Int.log 2 x := (Int.zpow_le_iff_le_log (b := 2) (by norm_num) hx0).mp (by push_cast; exact h1)
      have hyt : (2:ℝ) ^ (e + p - 1) ≤ y := (zpow_le_zpow_right₀ (by norm_num) hlog).trans hl.le
      have e3 : roundPos p y = y := by
        have : gradual p e y = roundPos p y := by
          unfold gradual gradualPos
          rw [if_pos hy0.le, if_pos hyt]
        rw [← this]; exact hy
      obtain ⟨m, -, -, em⟩ := roundPos_m p hp hy0
      have hlog2 : Int.log 2 x ≤ Int.log 2 y := (Int.zpow_le_iff_le_log (b := 2) (by norm_num) hy0).mp (by push_cast; exact hl.le)
      obtain ⟨d, hd⟩ : ∃ d : ℕ, Int.log 2 y - p + 1 = (Int.log 2 x - p + 1) + d := ⟨(Int.log 2 y - Int.log 2 x).toNat, by omega⟩
      have hy2 : y = ((m * 2 ^ d : ℤ) : ℝ) * ulp p x := by
        rw [← e3, em]
        unfold ulp
        rw [hd, zpow_add₀ (by norm_num), zpow_natCast]
        push_cast
        ring
      rw [hy2]
      exact scaled_nearest hu x _
  · have e2 : gradualPos p e x = roundInt (x / 2 ^ e) * 2 ^ e := if_neg h1
    rw [e2, hz]
    exact scaled_nearest (pow_e_pos e) x z

/-- rounding chooses a nearest machine number -/
theorem gradual_nearest {p : Nat} {e : ℤ} (hp : 1 ≤ p) (x y : ℝ) (hy : Machine (gradual p e) y) : |gradual p e x - x| ≤ |y - x| := by
  rcases le_total 0 x with hx | hx
  · exact gradual_nearest_nonneg hp hx y hy
  · have h := gradual_nearest_nonneg hp (by linarith : 0 ≤ -x) (-y) (by unfold Machine; rw [gradual_neg, show gradual p e y = y from hy])
    rw [gradual_neg] at h
    rwa [show -gradual p e x - -x = -(gradual p e x - x) by ring, show -y - -x = -(y - x) by ring, abs_neg, abs_neg] at h

/-- the machine numbers -/
theorem gradual_machine_iff {p : Nat} {e : ℤ} (hp : 1 ≤ p) (y : ℝ) : Machine (gradual p e) y ↔ ∃ m k : ℤ, |m| ≤ 2 ^ p ∧ e ≤ k ∧ y = m * 2 ^ k := by
  constructor
  · have pos : ∀ y : ℝ, 0 ≤ y → Machine (gradual p e) y → ∃ m k : ℤ, |m| ≤ 2 ^ p ∧ e ≤ k ∧ y = m * 2 ^ k := by
      intro y hy0 hy
      have e1 : gradual p e y = gradualPos p e y := if_pos hy0
      rw [Machine, e1] at hy
      by_cases h1 : (2:ℝ) ^ (e + p - 1) ≤ y
      · have e2 : gradualPos p e y = roundPos p y := if_pos h1
        have hy1 : 0 < y := lt_of_lt_of_le (by positivity) h1
        obtain ⟨m, -, hm, em⟩ := roundPos_m p hp hy1
        have hlog : e + p - 1 ≤ Int.log 2 y := (Int.zpow_le_iff_le_log (b := 2) (by norm_num) hy1).mp (by push_cast; exact h1)
        refine ⟨m, Int.log 2 y - p + 1, by rw [abs_of_nonneg (by positivity)]; exact_mod_cast hm, by omega, ?_⟩
        rw [e2, em] at hy
        rw [Int.cast_natCast]
        exact hy.symm
      · have e2 : gradualPos p e y = roundInt (y / 2 ^ e) * 2 ^ e := if_neg h1
        obtain ⟨m, hm, em⟩ := low_range hp hy0 (not_le.mp h1)
        refine ⟨m, e, by rw [abs_of_nonneg (by positivity)]; exact_mod_cast hm.trans (two_pow_le hp), le_rfl, ?_⟩
        rw [e2, em] at hy
        rw [Int.cast_natCast]
        exact hy.symm
    intro hy
    rcases le_total 0 y with h | h
    · exact pos y h hy
    · obtain ⟨m, k, h1, h2, h3⟩ := pos (-y) (by linarith) (by unfold Machine; rw [gradual_neg, show gradual p e y = y from hy])
      refine ⟨-m, k, by rwa [abs_neg], h2, ?_⟩
      push_cast
      linarith
  · rintro ⟨m, k, h1, h2, rfl⟩
    unfold Machine
    rcases le_total 0 m with h | h
    · obtain ⟨n, rfl⟩ := Int.eq_ofNat_of_zero_le h
      rw [abs_of_nonneg h] at h1
      rw [Int.cast_natCast]
      exact gradual_machine hp n (by exact_mod_cast h1) k h2
    · obtain ⟨n, hn⟩ := Int.eq_ofNat_of_zero_le (a := -m) (by omega)
      obtain rfl : m = -n := by omega
      rw [abs_neg, abs_of_nonneg (by positivity)] at h1
      rw [Int.cast_neg, Int.cast_natCast, neg_mul, gradual_neg, gradual_machine hp n (by exact_mod_cast h1) k h2]

theorem scaled_even {u : ℝ} (hu : 0 < u) (x : ℝ) (z : ℤ) (hne : (z : ℝ) * u ≠ roundInt (x / u) * u) (h : |(z : ℝ) * u - x| = |(roundInt (x / u) : ℝ) * u - x|) :
    2 ∣ roundInt (x / u) ∧ |(z : ℝ) * u - roundInt (x / u) * u| = u := by
  have e : ∀ a : ℝ, |a * u - x| = |a - x / u| * u := by
    intro a
    rw [← abs_of_pos hu, ← abs_mul, sub_mul, abs_of_pos hu, div_mul_cancel₀ _ hu.ne']
  rw [e, e] at h
  have h' := mul_right_cancel₀ hu.ne' h
  have hz : z ≠ roundInt (x / u) := by rintro rfl; exact hne rfl
  refine ⟨roundInt_even _ z hz h', ?_⟩
  have herr := roundInt_error (x / u)
  have h1 : |(z:ℝ) - roundInt (x / u)| ≤ 1 := by
    have := abs_sub_le (z:ℝ) (x / u) (roundInt (x / u))
    rw [h', abs_sub_comm (x / u)] at this
    linarith
  have h2 : |z - roundInt (x / u)| ≤ 1 := by exact_mod_cast h1
  have h3 : |z - roundInt (x / u)| = 1 := by
    have : 0 < |z - roundInt (x / u)| := abs_pos.mpr (sub_ne_zero.mpr hz)
    omega
  rw [← sub_mul, abs_mul, abs_of_pos hu]
  have : |(z:ℝ) - roundInt (x / u)| = 1 := by exact_mod_cast h3
  rw [this, one_mul]

/-- ties -/
theorem gradual_ties_nonneg {p : Nat} {e : ℤ} (hp : 1 ≤ p) {x : ℝ} (hx : 0 ≤ x) (y : ℝ) (hy : Machine (gradual p e) y) (hne : y ≠ gradual p e x) (h : |y - x| = |gradual p e x - x|) :
    ∃ m k : ℤ, 2 ∣ m ∧ e ≤ k ∧ gradual p e x = m * 2 ^ k ∧ |y - gradual p e x| = 2 ^ k := by
  obtain ⟨z, hz⟩ := gradual_multiple (e := e) hp y
  rw [show gradual p e y = y from hy] at hz
  have e1 : gradual p e x = gradualPos p e x := if_pos hx
  rw [e1] at h hne ⊢
  by_cases h1 : (2:ℝ) ^ (e + p - 1) ≤ x
  · have e2 : gradualPos p e x = roundInt (x / ulp p x) * ulp p x := if_pos h1
    rw [e2] at h hne ⊢
    have hx0 : 0 < x := lt_of_lt_of_le (by positivity) h1
    have hu := ulp_pos p x
    have hb := Int.zpow_log_le_self (b := 2) (by norm_num) hx0
    push_cast at hb
    have hlog : e + p - 1 ≤ Int.log 2 x := (Int.zpow_le_iff_le_log (b := 2) (by norm_num) hx0).mp (by push_cast; exact h1)
    have hz2 : ((2 ^ (p - 1) : ℤ) : ℝ) * ulp p x = 2 ^ Int.log 2 x := by
      unfold ulp
      push_cast
      rw [← zpow_natCast, ← zpow_add₀ (by norm_num)]
      congr 1
      omega
    obtain ⟨z', hy2⟩ : ∃ z' : ℤ, y = z' * ulp p x := by
      rcases lt_trichotomy y (2 ^ Int.log 2 x) with hs | hs | hl
      · have := scaled_nearest hu x (2 ^ (p - 1))
        rw [hz2, abs_of_nonpos (by linarith : (2:ℝ) ^ Int.log 2 x - x ≤ 0), ← h, abs_of_nonpos (by linarith : y - x ≤ 0)] at this
        linarith
      · exact ⟨_, hs.trans hz2.symm⟩
      · have hy0 : 0 < y := lt_trans (by positivity) hl
        have hyt : (2:ℝ) ^ (e + p - 1) ≤ y := (zpow_le_zpow_right₀ (by norm_num) hlog).trans hl.le
        have e3 : roundPos p y = y := by
          have : gradual p e y = roundPos p y := by
            unfold gradual gradualPos
            rw [if_pos hy0.le, if_pos hyt]
          rw [← this]; exact hy
        obtain ⟨m, -, -, em⟩ := roundPos_m p hp hy0
        have hlog2 : Int.log 2 x ≤ Int.log 2 y := (Int.zpow_le_iff_le_log (b := 2) (by norm_num) hy0).mp (by push_cast; exact hl.le)
        obtain ⟨d, hd⟩ : ∃ d : ℕ, Int.log 2 y - p + 1 = (Int.log 2 x - p + 1) + d := ⟨(Int.log 2 y - Int.log 2 x).toNat, by omega⟩
        refine ⟨m * 2 ^ d, ?_⟩
        rw [← e3, em]
        unfold ulp
        rw [hd, zpow_add₀ (by norm_num), zpow_natCast]
        push_cast
        ring
    rw [hy2] at h hne ⊢
    obtain ⟨r1, r2⟩ := scaled_even hu x z' hne h
    exact ⟨_, Int.log 2 x - p + 1, r1, by omega, rfl, r2⟩
  · have e2 : gradualPos p e x = roundInt (x / 2 ^ e) * 2 ^ e := if_neg h1
    rw [e2] at h hne ⊢
    rw [hz] at h hne ⊢
    obtain ⟨r1, r2⟩ := scaled_even (pow_e_pos e) x z hne h
    exact ⟨_, e, r1, le_rfl, rfl, r2⟩

theorem gradual_ties {p : Nat} {e : ℤ} (hp : 1 ≤ p) (x y : ℝ) (hy : Machine (gradual p e) y) (hne : y ≠ gradual p e x) (h : |y - x| = |gradual p e x - x|) :
    ∃ m k : ℤ, 2 ∣ m ∧ e ≤ k ∧ gradual p e x = m * 2 ^ k ∧ |y - gradual p e x| = 2 ^ k := by
  rcases le_total 0 x with hx | hx
  · exact gradual_ties_nonneg hp hx y hy hne h
  · obtain ⟨m, k, h1, h2, h3, h4⟩ := gradual_ties_nonneg hp (by linarith : 0 ≤ -x) (-y) (by unfold Machine; rw [gradual_neg, show gradual p e y = y from hy])
      (by rw [gradual_neg]; intro hc; exact hne (neg_inj.mp hc))
      (by rw [gradual_neg, show -gradual p e x - -x = -(gradual p e x - x) by ring, show -y - -x = -(y - x) by ring, abs_neg, abs_neg, h])
    rw [gradual_neg] at h3 h4
    refine ⟨-m, k, (dvd_neg).mpr h1, h2, by push_cast; linarith, ?_⟩
    rwa [show -y - -gradual p e x = -(y - gradual p e x) by ring, abs_neg] at h4

end SampleFlow
