import Verif.Proofs.HistogramDouble
import Verif.Proofs.HistogramDoubleRun
import Verif.Props.HistogramRounding

/-!
# C74 in IEEE double precision, with overflow and underflow
-/

namespace SampleFlow

open Spec HistRound HistDouble Ieee

/-- **C74** in IEEE double precision (gradual underflow, overflow): for finite doubles `lo < hi` whose difference does not overflow and is at least `n` times the smallest normal number, and `n ≤ 2^51` bins, the interval points are
finite and those of the arithmetic with unlimited exponents, to which the other theorems apply: they begin with `lo`, end with `hi`, never decrease, and have the accuracy of `C74_accuracy`. -/
theorem C74_double_points (lo hi : ℝ) (hlo : Machine double lo) (hhi : Machine double hi) (hloΩ : |lo| ≤ maxDouble) (hhiΩ : |hi| ≤ maxDouble) (hlt : lo < hi) (n : Nat) (hn : 1 ≤ n) (hn' : n ≤ 2 ^ 51)
    (hrange : hi - lo ≤ maxDouble) (hwide : n * (2:ℝ) ^ (-1022 : ℤ) ≤ hi - lo) :
    ∃ pts : List ℝ, @machinePoints XR (ieee double maxDouble) (.fin lo) (.fin hi) n id = pts.map .fin ∧
      pts = (@Hist.mkMachine ℝ (roundedArith (nearest 53)) lo hi n id).points ∧
      pts.length = n + 1 ∧ pts[0]? = some lo ∧ pts[n]? = some hi ∧ WeakSubdivision pts ∧
      ∀ k (hk : k < pts.length), |pts[k] - (lo + k * ((hi - lo) / n))| ≤ 9 * 2 ^ (-53 : ℤ) * max |lo| |hi| := by
  have R := nearest_rounding 53 (by norm_num)
  have hrep : ∀ k ≤ n, Machine (nearest 53) (k : ℝ) := fun j hj => nearest_nat 53 (by norm_num) j (by omega)
  have hun : 4 * (2:ℝ) ^ (-((53 : ℕ) : ℤ)) * n ≤ 1 := by
    have e : (2:ℝ) ^ (-((53 : ℕ) : ℤ)) = 1 / 2 ^ 53 := by norm_num [zpow_neg]
    have hpow : (n : ℝ) ≤ 2 ^ 51 := by exact_mod_cast hn'
    rw [e]
    have h1 : (4:ℝ) * (1 / 2 ^ 53) * n ≤ 4 * (1 / 2 ^ 53) * 2 ^ 51 := mul_le_mul_of_nonneg_left hpow (by positivity)
    exact h1.trans (by norm_num)
  obtain ⟨h1, h2, h3, h4⟩ := C74_points R (by positivity) lo hi (machine_nearest hlo) (machine_nearest hhi) hlt n hn hrep hun
  refine ⟨_, ?_, rfl, h1, h2, h3, h4, fun k hk => ?_⟩
  · apply List.ext_getElem
    · rw [List.length_map, h1]
      exact @length_machinePoints XR (ieee double maxDouble) _ _ n id
    · intro k hk1 hk2
      rw [List.getElem_map]
      have e1 := @get_machinePoints XR (ieee double maxDouble) (.fin lo) (.fin hi) n id k hk1
      have hk3 : k < (@machinePoints ℝ (roundedArith (nearest 53)) lo hi n id).length := by
        rw [List.length_map] at hk2; exact hk2
      have e2 := @get_machinePoints ℝ (roundedArith (nearest 53)) lo hi n id k hk3
      rw [e1]
      refine Eq.trans ?_ (congrArg XR.fin e2.symm)
      have hkn : k < n + 1 := by
        rw [List.length_map, h1] at hk2; exact hk2
      split
      · rfl
      · exact point lo hi hlo hhi hloΩ hhiΩ hlt n hn hn' hrange hwide k (by omega)
  · exact C74_accuracy R (by positivity) lo hi _ (le_max_left _ _) (le_max_right _ _) hlt n hn hrep hun k hk

/-- **C74**, outside of the assumptions: if the difference of the end points overflows, the first interval point is NaN and all others but the last are infinite, for every number of bins. -/
theorem C74_caveat_overflow (lo hi : ℝ) (hover : maxDouble < double (hi - lo)) (n : Nat) (hn : 1 ≤ n) (hn' : n ≤ 2 ^ 51) :
    @machinePoints XR (ieee double maxDouble) (.fin lo) (.fin hi) n id = .nan :: List.replicate (n - 1) .posInf ++ [.fin hi] := by
  have hsub : (ieee double maxDouble).sub (.fin hi) (.fin lo) = .posInf := by
    show roundResult double maxDouble (.fin (hi + -lo)) = .posInf
    rw [← sub_eq_add_neg]
    simp [roundResult, hover]
  have hΩ : (2:ℝ) ^ 51 ≤ maxDouble := by
    unfold maxDouble
    have h1 : (1:ℝ) ≤ 2 ^ 971 := one_le_pow₀ (by norm_num)
    have h2 : (2:ℝ) ^ 51 ≤ 2 ^ 53 - 1 := by norm_num
    calc (2:ℝ) ^ 51 = 2 ^ 51 * 1 := (mul_one _).symm
      _ ≤ (2 ^ 53 - 1) * 2 ^ 971 := mul_le_mul h2 h1 (by norm_num) (by norm_num)
  have hofNat : ∀ j ≤ n, (ieee double maxDouble).ofNat j = .fin (j : ℝ) := fun j hj => by
    have hd : double (j : ℝ) = j := by
      have := double_machine j (by omega) 0 (by norm_num)
      simpa [Machine] using this
    have hj' : (j : ℝ) ≤ 2 ^ 51 := by exact_mod_cast hj.trans hn'
    have : roundResult double maxDouble (.fin (j : ℝ)) = .fin (double (j:ℝ)) := roundResult_fin (by rw [hd, abs_of_nonneg (Nat.cast_nonneg j)]; linarith)
    rw [hd] at this
    exact this
  have hdiv : (ieee double maxDouble).div .posInf (.fin (n : ℝ)) = .posInf := by
    show roundResult double maxDouble (XR.div .posInf (.fin (n : ℝ))) = .posInf
    simp [XR.div, roundResult]
  have hpoint : ∀ k ≤ n, (ieee double maxDouble).add (.fin lo) ((ieee double maxDouble).mul ((ieee double maxDouble).ofNat k) .posInf) = if k = 0 then .nan else .posInf := by
    intro k hk
    rw [hofNat k hk]
    show roundResult double maxDouble (XR.add (.fin lo) (roundResult double maxDouble (XR.mul (.fin (k : ℝ)) .posInf))) = _
    rcases Nat.eq_zero_or_pos k with rfl | hk0
    · simp [XR.mul, XR.infTimes, roundResult, XR.add]
    · have h0 : (0:ℝ) < k := by exact_mod_cast hk0
      simp [XR.mul, XR.infTimes, roundResult, XR.add, hk0.ne', hk0]
  have hpts : @machinePoints XR (ieee double maxDouble) (.fin lo) (.fin hi) n id = (List.range n).map (fun k => if k = 0 then .nan else .posInf) ++ [.fin hi] := by
    unfold machinePoints
    simp only [hsub, hofNat n le_rfl, hdiv, id]
    congr 1
    refine List.map_congr_left (fun k hk => hpoint k ?_)
    exact (List.mem_range.mp hk).le
  rw [hpts]
  congr 1
  obtain ⟨m, rfl⟩ : ∃ m, n = m + 1 := ⟨n - 1, by omega⟩
  rw [List.range_succ_eq_map, List.map_cons, List.map_map, Nat.add_sub_cancel, if_pos rfl]
  congr 1
  rw [List.eq_replicate_iff]
  simp

open Classical in
/-- **C74** in IEEE double precision, everything together: `Histogram(lo, hi, n)` with the assumptions of `C74_double_points`, any doubles but NaN as samples (infinities are allowed): no operation fails, whether or not assertions are
enabled; the rows of `get()` are contiguous intervals with finite end points, from `lo` to `hi`; the count of each row is the number of samples in `[lo, hi)` that are in the interval, which is open on the left except for the first
bin and closed on the right; the counts add up to the number of samples in `[lo, hi)`. -/
theorem C74_double_histogram (lo hi : ℝ) (hlo : Machine double lo) (hhi : Machine double hi) (hloΩ : |lo| ≤ maxDouble) (hhiΩ : |hi| ≤ maxDouble) (hlt : lo < hi) (n : Nat) (hn : 1 ≤ n) (hn' : n ≤ 2 ^ 51)
    (hrange : hi - lo ≤ maxDouble) (hwide : n * (2:ℝ) ^ (-1022 : ℤ) ≤ hi - lo) (debug : Bool) (xs : List XR) (hnan : XR.nan ∉ xs) :
    ∃ hist rows, after debug (@Hist.mkMachine XR (ieee double maxDouble) (.fin lo) (.fin hi) n id) xs = .ok hist ∧ get hist = .ok rows ∧ rows.length = n ∧
      (∀ r ∈ rows.head?, r.1 = .fin lo) ∧ (∀ r ∈ rows.getLast?, r.2.1 = .fin hi) ∧
      (∀ k (hk : k + 1 < rows.length), rows[k].2.1 = rows[k+1].1) ∧
      (∀ k (hk : k < rows.length), ∃ a b : ℝ, a ≤ b ∧
        rows[k] = (.fin a, .fin b, xs.countP (fun v => decide (∃ x : ℝ, v = .fin x ∧ lo ≤ x ∧ x < hi ∧ (a < x ∨ (k = 0 ∧ x = lo)) ∧ x ≤ b)))) ∧
      (rows.map (fun r => r.2.2)).sum = xs.countP (fun v => decide (∃ x : ℝ, v = .fin x ∧ lo ≤ x ∧ x < hi)) := by
  have R := nearest_rounding 53 (by norm_num)
  have hrep : ∀ k ≤ n, Machine (nearest 53) (k : ℝ) := fun j hj => nearest_nat 53 (by norm_num) j (by omega)
  have hun : 4 * (2:ℝ) ^ (-((53 : ℕ) : ℤ)) * n ≤ 1 := by
    have e : (2:ℝ) ^ (-((53 : ℕ) : ℤ)) = 1 / 2 ^ 53 := by norm_num [zpow_neg]
    have hpow : (n : ℝ) ≤ 2 ^ 51 := by exact_mod_cast hn'
    rw [e]
    have h1 : (4:ℝ) * (1 / 2 ^ 53) * n ≤ 4 * (1 / 2 ^ 53) * 2 ^ 51 := mul_le_mul_of_nonneg_left hpow (by positivity)
    exact h1.trans (by norm_num)
  obtain ⟨pts, hp, rfl, hplen, -⟩ := C74_double_points lo hi hlo hhi hloΩ hhiΩ hlt n hn hn' hrange hwide
  obtain ⟨hist, rows, h1, h2, h3, h4, h5, h6, h7, h8, h9⟩ := C74_histogram R (by positivity) lo hi (machine_nearest hlo) (machine_nearest hhi) hlt n hn hrep hun debug (finite xs)
  have hmk : @Hist.mkMachine XR (ieee double maxDouble) (.fin lo) (.fin hi) n id = lift (@Hist.mkMachine ℝ (roundedArith (nearest 53)) lo hi n id) := by
    show (⟨@machinePoints XR (ieee double maxDouble) (.fin lo) (.fin hi) n id, _⟩ : Hist XR) = ⟨_, _⟩
    rw [hp]
    rfl
  have hcount : ∀ q : ℝ → Prop, (finite xs).countP (fun x => decide (q x)) = xs.countP (fun v => decide (∃ x : ℝ, v = .fin x ∧ q x)) := fun q =>
    countP_finite _ _ (fun x => by simp) (by simp) (by simp) xs hnan
  refine ⟨lift hist, rows.map (fun r => (.fin r.1, .fin r.2.1, r.2.2)), ?_, ?_, by rw [List.length_map, h3], ?_, ?_, ?_, ?_, ?_⟩
  · rw [hmk, after_fin debug xs _ (fun h => by rw [h] at hplen; simp at hplen) hnan, h1]
    rfl
  · rw [get_fin, h2]; rfl
  · intro r hr
    rw [List.head?_map] at hr
    obtain ⟨r', hr', rfl⟩ := Option.map_eq_some_iff.mp hr
    exact congrArg XR.fin (h4 r' hr')
  · intro r hr
    rw [List.getLast?_map] at hr
    obtain ⟨r', hr', rfl⟩ := Option.map_eq_some_iff.mp hr
    exact congrArg XR.fin (h5 r' hr')
  · intro k hk
    rw [List.length_map] at hk
    rw [List.getElem_map, List.getElem_map]
    exact congrArg XR.fin (h7 k hk)
  · intro k hk
    rw [List.length_map] at hk
    refine ⟨rows[k].1, rows[k].2.1, h6 k hk, ?_⟩
    rw [List.getElem_map, ← hcount (fun x => lo ≤ x ∧ x < hi ∧ (rows[k].1 < x ∨ (k = 0 ∧ x = lo)) ∧ x ≤ rows[k].2.1)]
    refine Prod.ext rfl (Prod.ext rfl ?_)
    show rows[k].2.2 = _
    rw [h8 k hk]
    exact List.countP_congr (fun x _ => by simp only [decide_eq_true_eq])
  · rw [List.map_map, ← hcount (fun x => lo ≤ x ∧ x < hi)]
    refine Eq.trans ?_ (h9.trans ?_)
    · rfl
    · exact List.countP_congr (fun x _ => by simp only [decide_eq_true_eq])

/-- **C74**, outside of the assumptions: if the difference of the end points overflows, assertions abort the program at the first sample that is not `≥ hi`; without assertions all such samples are counted in the first bin,
also those below `lo`. -/
theorem C74_caveat_overflow_counts (lo hi : ℝ) (hover : maxDouble < double (hi - lo)) (n : Nat) (hn : 1 ≤ n) (hn' : n ≤ 2 ^ 51) :
    (∀ v : XR, XR.leb (.fin hi) v = false → consume true (@Hist.mkMachine XR (ieee double maxDouble) (.fin lo) (.fin hi) n id) v = .error .assertion) ∧
    ∀ xs : List XR, ∃ hist, after false (@Hist.mkMachine XR (ieee double maxDouble) (.fin lo) (.fin hi) n id) xs = .ok hist ∧
      hist.bins = xs.countP (fun v => !XR.leb (.fin hi) v) :: List.replicate (n - 1) 0 := by
  obtain ⟨m, rfl⟩ : ∃ m, n = m + 1 := ⟨n - 1, by omega⟩
  have hmk : @Hist.mkMachine XR (ieee double maxDouble) (.fin lo) (.fin hi) (m + 1) id = ⟨overflowed hi (m + 1), 0 :: List.replicate m 0⟩ := by
    show (⟨@machinePoints XR (ieee double maxDouble) (.fin lo) (.fin hi) (m + 1) id, _⟩ : Hist XR) = ⟨_, _⟩
    rw [C74_caveat_overflow lo hi hover (m + 1) hn hn', List.replicate_succ]
    rfl
  rw [hmk]
  refine ⟨fun v hv => consume_overflowed_debug hi (m + 1) _ v hv, fun xs => ⟨_, after_overflowed hi (m + 1) _ xs 0, ?_⟩⟩
  simp

/-! ### Instances -/

theorem one_le_maxDouble : (1:ℝ) ≤ maxDouble := by
  unfold maxDouble
  have h1 : (1:ℝ) ≤ 2 ^ 971 := one_le_pow₀ (by norm_num)
  calc (1:ℝ) = 1 * 1 := (mul_one _).symm
    _ ≤ (2 ^ 53 - 1) * 2 ^ 971 := mul_le_mul (by norm_num) h1 (by norm_num) (by norm_num)

/-- Histogram(0, 1, 10) -/
example := C74_double_points 0 1 (by have := double_machine 0 (by norm_num) 0 (by norm_num); simpa using this) (by have := double_machine 1 (by norm_num) 0 (by norm_num); simpa using this)
  (by rw [abs_zero]; linarith [one_le_maxDouble]) (by rw [abs_one]; exact one_le_maxDouble) (by norm_num) 10 (by norm_num) (by norm_num) (by linarith [one_le_maxDouble])
  (by
    have : (2:ℝ) ^ (-1022 : ℤ) ≤ 2 ^ (-4 : ℤ) := zpow_le_zpow_right₀ (by norm_num) (by norm_num)
    have h4 : (2:ℝ) ^ (-4 : ℤ) = 1 / 16 := by norm_num
    rw [h4] at this
    generalize (2:ℝ) ^ (-1022 : ℤ) = t at *
    push_cast
    linarith)

/-- Histogram(-max, max, 10) -/
example := C74_caveat_overflow (-maxDouble) maxDouble (by
    have h := maxDouble_machine
    have h1 := double_machine (2 ^ 53 - 1) (by norm_num) 972 (by norm_num)
    have e : maxDouble - -maxDouble = ((2 ^ 53 - 1 : ℕ) : ℝ) * 2 ^ (972 : ℤ) := by
      unfold maxDouble
      rw [show (972 : ℤ) = ((972 : ℕ) : ℤ) by norm_num, zpow_natCast, show (2:ℝ) ^ 972 = 2 * 2 ^ 971 by rw [← pow_succ']]
      generalize (2:ℝ) ^ 971 = t
      norm_num
      ring
    rw [e, h1, ← e]
    linarith [one_le_maxDouble]) 10 (by norm_num) (by norm_num)

/-- the same: the sample 0 is one that is not `≥ hi` -/
example : XR.leb (.fin maxDouble) (.fin 0) = false := by
  rw [leb_fin, decide_eq_false_iff_not]
  linarith [one_le_maxDouble]

/-- Histogram(0, 1, 10) consumes 1/2, +inf and 0; the assumptions are met -/
example (debug : Bool) := C74_double_histogram 0 1 (by have := double_machine 0 (by norm_num) 0 (by norm_num); simpa using this) (by have := double_machine 1 (by norm_num) 0 (by norm_num); simpa using this)
  (by rw [abs_zero]; linarith [one_le_maxDouble]) (by rw [abs_one]; exact one_le_maxDouble) (by norm_num) 10 (by norm_num) (by norm_num) (by linarith [one_le_maxDouble])
  (by
    have : (2:ℝ) ^ (-1022 : ℤ) ≤ 2 ^ (-4 : ℤ) := zpow_le_zpow_right₀ (by norm_num) (by norm_num)
    have h4 : (2:ℝ) ^ (-4 : ℤ) = 1 / 16 := by norm_num
    rw [h4] at this
    generalize (2:ℝ) ^ (-1022 : ℤ) = t at *
    push_cast
    linarith) debug [.fin (1/2), .posInf, .fin 0] (by simp)

end SampleFlow
