import Verif.Model.IntMean

/-!
# Property C52: MeanValue for integer samples
-/

namespace SampleFlow

/-- C52, the part that holds: if the sample is at least the current mean (and the subtraction does not
overflow), the mean is increased by the truncated quotient, as documented. -/
theorem C52_nonnegative_update_partial (n : BitVec 64) (mean sample : BitVec 32) (hn : n ≠ 0)
    (hn1 : n.toNat + 1 < 2^64) (hle : mean.toInt ≤ sample.toInt)
    (hov : sample.toInt - mean.toInt < 2^31) :
    ∃ s, IntMean.consume ⟨n, mean⟩ sample = .ok s ∧ s.n.toNat = n.toNat + 1 ∧
      s.mean.toInt = mean.toInt + (sample.toInt - mean.toInt) / (n.toNat + 1 : Int) := by
  have hn2 : (n + 1).toNat = n.toNat + 1 := by
    rw [BitVec.toNat_add]; simp; omega
  have hnz : n + 1 ≠ 0 := by
    intro h; have := congrArg BitVec.toNat h; rw [hn2] at this; simp at this
  have hso : BitVec.ssubOverflow sample mean = false := by
    have h1 := BitVec.toInt_lt (x := sample)
    have h2 := BitVec.le_toInt (x := mean)
    simp only [BitVec.ssubOverflow, Bool.or_eq_false_iff, decide_eq_false_iff_not]
    constructor <;> omega
  have hsub : (sample - mean).toInt = sample.toInt - mean.toInt := by
    rw [BitVec.toInt_sub]
    rw [Int.bmod_eq_of_le] <;> omega
  obtain ⟨d, hd⟩ : ∃ d : Nat, sample.toInt - mean.toInt = d := ⟨(sample.toInt - mean.toInt).toNat, by omega⟩
  have hdlt : d < 2^31 := by omega
  have hsubN : (sample - mean) = BitVec.ofNat 32 d := by
    apply BitVec.eq_of_toInt_eq
    rw [hsub, hd, BitVec.toInt_ofNat', Int.bmod_eq_of_le] <;> omega
  have hse : (sample - mean).signExtend 64 = BitVec.ofNat 64 d := by
    apply BitVec.eq_of_toInt_eq
    rw [BitVec.toInt_signExtend, hsub, hd, BitVec.toInt_ofNat']
    rw [show min 64 32 = 32 from rfl, Int.bmod_eq_of_le, Int.bmod_eq_of_le] <;> omega
  have hq : (((sample - mean).signExtend 64) / (n + 1)).setWidth 32
      = BitVec.ofNat 32 (d / (n.toNat + 1)) := by
    apply BitVec.eq_of_toNat_eq
    rw [hse, BitVec.toNat_setWidth, BitVec.toNat_udiv, hn2, BitVec.toNat_ofNat, BitVec.toNat_ofNat,
      Nat.mod_eq_of_lt (show d < 2^64 by omega)]
  have hqle : d / (n.toNat + 1) ≤ d := Nat.div_le_self _ _
  have hcast : (d : Int) / (n.toNat + 1 : Int) = ((d / (n.toNat + 1) : Nat) : Int) := by norm_cast
  rw [hd, hcast]
  generalize d / (n.toNat + 1) = q at *
  have hqi : (BitVec.ofNat 32 q).toInt = (q : Int) := by
    rw [BitVec.toInt_ofNat', Int.bmod_eq_of_le] <;> omega
  have hsl := BitVec.toInt_lt (x := sample)
  have hml := BitVec.le_toInt (x := mean)
  have hao : BitVec.saddOverflow mean (BitVec.ofNat 32 q) = false := by
    simp only [BitVec.saddOverflow, Bool.or_eq_false_iff, decide_eq_false_iff_not, hqi]
    constructor <;> omega
  refine ⟨⟨n + 1, mean + BitVec.ofNat 32 q⟩, ?_, hn2, ?_⟩
  · unfold IntMean.consume
    simp only
    rw [if_neg hn, if_neg hnz, if_neg (by simp [hso])]
    rw [hq]
    rw [if_neg (by simp [hao])]
  · simp only
    rw [BitVec.toInt_add, hqi]
    rw [Int.bmod_eq_of_le] <;> omega

/-- The premises are satisfiable: mean 3 after one sample, next sample 8. -/
example : (1#64 : BitVec 64) ≠ 0 ∧ (1#64).toNat + 1 < 2^64 ∧ (3#32).toInt ≤ (8#32).toInt ∧
    (8#32).toInt - (3#32).toInt < 2^31 := by decide

/-- C52, finding (violation, for every count below 2^31): a sample smaller than the current mean by
`d ≥ 1` always changes the mean (or overflows), also when `d` is smaller than the number of samples, where the
documentation (mean_value.impl.h 55-66) promises "a zero update". -/
theorem C52_violation_negative_update (n : BitVec 64) (mean sample : BitVec 32) (d : Nat) (s : IntMean)
    (hn : n ≠ 0) (hd1 : 1 ≤ d) (hd : sample.toInt = mean.toInt - d) (hdlt : d < 2^31)
    (hsmall : n.toNat + 1 < 2^31)
    (hok : IntMean.consume ⟨n, mean⟩ sample = .ok s) : s.mean ≠ mean := by
  have hn2 : (n + 1).toNat = n.toNat + 1 := by
    rw [BitVec.toNat_add]; simp; omega
  have hnz : n + 1 ≠ 0 := by
    intro h; have := congrArg BitVec.toNat h; rw [hn2] at this; simp at this
  unfold IntMean.consume at hok
  simp only at hok
  rw [if_neg hn, if_neg hnz] at hok
  split at hok
  · cases hok
  split at hok
  · cases hok
  cases hok
  simp only
  intro heq
  have hz : (((sample - mean).signExtend 64) / (n + 1)).setWidth 32 = 0#32 := by
    have h : mean + (((sample - mean).signExtend 64) / (n + 1)).setWidth 32 = mean + 0#32 := by
      rw [heq]; simp
    exact (BitVec.add_right_inj mean).mp h
  have hsub : (sample - mean).toInt = -(d : Int) := by
    rw [BitVec.toInt_sub, hd, Int.bmod_eq_of_le] <;> omega
  have hse : ((sample - mean).signExtend 64).toNat = 2^64 - d := by
    have : (sample - mean).signExtend 64 = BitVec.ofInt 64 (-(d : Int)) := by
      apply BitVec.eq_of_toInt_eq
      rw [BitVec.toInt_signExtend, hsub, BitVec.toInt_ofInt]
      rw [show min 64 32 = 32 from rfl, Int.bmod_eq_of_le, Int.bmod_eq_of_le] <;> omega
    rw [this, BitVec.toNat_ofInt]
    omega
  have hz' := congrArg BitVec.toNat hz
  rw [BitVec.toNat_setWidth, BitVec.toNat_udiv, hn2, hse] at hz'
  simp only [BitVec.toNat_ofNat, Nat.zero_mod] at hz'
  generalize hk : n.toNat + 1 = k at *
  have hk0 : 0 < k := by omega
  obtain ⟨m, hm⟩ := Nat.dvd_of_mod_eq_zero hz'
  have h1 : k * ((2^64 - d) / k) ≤ 2^64 - d := Nat.mul_div_le _ _
  have h2 : 2^64 - d < k * ((2^64 - d) / k) + k := by
    have := Nat.lt_mul_div_succ (2^64 - d) hk0
    rwa [Nat.mul_add, Nat.mul_one] at this
  rw [hm, show k * (2^32 * m) = 2^32 * (k * m) by rw [← Nat.mul_assoc, Nat.mul_comm k, Nat.mul_assoc]] at h1 h2
  generalize k * m = p at h1 h2
  omega

/-- C52, finding, the documented dice example: five rolls of 6 and one roll of 1 give a "mean" that is
not even between 1 and 6. -/
theorem C52_violation_dice :
    ∃ s, intMeanAfter 0#32 [6#32, 6#32, 6#32, 6#32, 6#32, 1#32] = .ok s ∧
      ¬ (1 ≤ s.mean.toInt ∧ s.mean.toInt ≤ 6) := by
  refine ⟨⟨6#64, 6#32 + 0xAAAAAAA9#32⟩, by rfl, by decide⟩

/-! ### Instances: concrete cases that meet the hypotheses of the theorems above -/

example := C52_nonnegative_update_partial 1#64 3#32 8#32 (by decide) (by decide) (by decide) (by decide)
example := C52_violation_negative_update 1#64 8#32 3#32 5 _ (by decide) (by decide) (by decide) (by decide) (by decide) rfl

end SampleFlow
