import Verif.Proofs.HistogramRounding
import Verif.Proofs.Nearest
import Verif.Props.Histogram
import Mathlib.Data.Real.Star

/-!
# Property C74: the bins of a Histogram in floating point arithmetic

The interval points are computed with rounding (`Rounding`: the standard model without overflow and underflow; `u = 2^-53` for doubles).  `lo`, `hi` and the numbers up to the number of bins are
machine numbers.
-/

namespace SampleFlow
open Spec HistRound

variable {u : ℝ} {fl : ℝ → ℝ}

/-- **C74**: without rounding, the points are those of C31. -/
theorem C74_exact {K : Type} [Field K] [Star K] [LinearOrder K] (lo hi : K) (n : Nat) (f : K → K) :
    @machinePoints K (exactArith K) lo hi n f = intervalPoints lo hi n f := rfl

/-- **C74**: the interval points `p₀, ..., p_n` of a `Histogram(lo, hi, n)` begin with `lo`, end with `hi`, and never decrease; the range is not empty. -/
theorem C74_points (h : Rounding u fl) (hu0 : 0 ≤ u) (lo hi : ℝ) (hlo : Machine fl lo) (hhi : Machine fl hi) (hlt : lo < hi) (n : Nat) (hn : 1 ≤ n)
    (hrep : ∀ k ≤ n, Machine fl (k : ℝ)) (hun : 4 * u * n ≤ 1) :
    let pts := (@Hist.mkMachine ℝ (roundedArith fl) lo hi n id).points
    pts.length = n + 1 ∧ pts[0]? = some lo ∧ pts[n]? = some hi ∧ WeakSubdivision pts := by
  letI := roundedArith fl
  intro pts
  have hlen : pts.length = n + 1 := length_machinePoints lo hi n id
  have hget : ∀ k (hk : k < pts.length), pts[k] = if k = n then hi else fl (lo + offset fl lo hi n k) := fun k hk => get_machinePoints lo hi n id k hk
  have h0 : pts[0]'(by omega) = lo := by
    rw [hget 0 (by omega), if_neg (by omega)]
    unfold offset
    have hz : fl ((0:ℕ):ℝ) = 0 := by rw [Nat.cast_zero]; exact h.zero
    rw [hz, zero_mul, h.zero, add_zero]; exact hlo
  have hN : pts[n]'(by omega) = hi := by rw [hget n (by omega), if_pos rfl]
  refine ⟨hlen, by rw [List.getElem?_eq_getElem (by omega), h0], by rw [List.getElem?_eq_getElem (by omega), hN], ⟨?_, by omega, ?_⟩⟩
  · rw [List.pairwise_iff_getElem]
    intro i j hi' hj' hij
    rw [hget i hi', hget j hj', if_neg (by omega)]
    split
    · have := (offset_bounds h hu0 lo hi hlt n hn hrep hun i (by omega)).2.1
      have h2 := h.mono _ _ (show lo + offset fl lo hi n i ≤ hi by linarith)
      rw [hhi] at h2
      exact h2
    · have := offset_mono h lo hi hlt n hrep i j hij.le (by omega)
      exact h.mono _ _ (by linarith)
  · have e : pts[pts.length - 1]'(by omega) = hi := by
      have : pts.length - 1 = n := by omega
      simp only [this, hN]
    rw [h0, e]; exact hlt

/-- **C74**: the interval points are accurate: they differ from the equidistant points by at most `9 u max(|lo|,|hi|)`. -/
theorem C74_accuracy (h : Rounding u fl) (hu0 : 0 ≤ u) (lo hi M : ℝ) (hM1 : |lo| ≤ M) (hM2 : |hi| ≤ M) (hlt : lo < hi) (n : Nat) (hn : 1 ≤ n)
    (hrep : ∀ k ≤ n, Machine fl (k : ℝ)) (hun : 4 * u * n ≤ 1) (k : Nat) (hk : k < (@Hist.mkMachine ℝ (roundedArith fl) lo hi n id).points.length) :
    |(@Hist.mkMachine ℝ (roundedArith fl) lo hi n id).points[k] - (lo + k * ((hi - lo) / n))| ≤ 9 * u * M := by
  letI := roundedArith fl
  have hM0 : 0 ≤ M := (abs_nonneg _).trans hM1
  have hn0 : (0:ℝ) < n := by exact_mod_cast hn
  have hget : (Hist.mkMachine lo hi n id).points[k] = if k = n then hi else fl (lo + offset fl lo hi n k) := get_machinePoints lo hi n id k hk
  have hk' : k < n + 1 := by rw [← length_machinePoints lo hi n id]; exact hk
  rw [hget]
  split
  · rename_i hkn
    subst hkn
    have : hi - (lo + k * ((hi - lo) / k)) = 0 := by field_simp; ring
    rw [this, abs_zero]; positivity
  · obtain ⟨b0, b1, b2⟩ := offset_bounds h hu0 lo hi hlt n hn hrep hun k (by omega)
    have l1 := abs_le.mp hM1
    have l2 := abs_le.mp hM2
    generalize offset fl lo hi n k = m at *
    have e1 : |lo + m| ≤ M := by rw [abs_le]; constructor <;> linarith
    have e2 := (h.error (lo + m)).trans (mul_le_mul_of_nonneg_left e1 hu0)
    have e3 : 4 * u * (hi - lo) ≤ 4 * u * (2 * M) := mul_le_mul_of_nonneg_left (by linarith) (by linarith)
    have : fl (lo + m) - (lo + k * ((hi - lo) / n)) = (fl (lo + m) - (lo + m)) + (m - k * ((hi - lo) / n)) := by ring
    rw [this]
    refine (abs_add_le _ _).trans ?_
    linarith

/-- **C74**: if the bins are wider than the rounding errors, no two interval points coincide, and everything said about histograms in C30 holds. -/
theorem C74_subdivision (h : Rounding u fl) (hu0 : 0 ≤ u) (lo hi M : ℝ) (hM1 : |lo| ≤ M) (hM2 : |hi| ≤ M) (hlt : lo < hi) (n : Nat) (hn : 1 ≤ n)
    (hrep : ∀ k ≤ n, Machine fl (k : ℝ)) (hun : 4 * u * n ≤ 1) (hwide : 18 * u * M < (hi - lo) / n) :
    Subdivision (@Hist.mkMachine ℝ (roundedArith fl) lo hi n id).points := by
  letI := roundedArith fl
  have hlen : (Hist.mkMachine lo hi n id).points.length = n + 1 := length_machinePoints lo hi n id
  refine ⟨?_, by omega⟩
  rw [List.pairwise_iff_getElem]
  intro i j hi' hj' hij
  have a1 := abs_le.mp (C74_accuracy h hu0 lo hi M hM1 hM2 hlt n hn hrep hun i hi')
  have a2 := abs_le.mp (C74_accuracy h hu0 lo hi M hM1 hM2 hlt n hn hrep hun j hj')
  have hij' : (i : ℝ) + 1 ≤ j := by exact_mod_cast hij
  have hn0 : (0:ℝ) < n := by exact_mod_cast hn
  have hd : 0 < (hi - lo) / (n : ℝ) := div_pos (by linarith) hn0
  have := mul_le_mul_of_nonneg_right hij' hd.le
  linarith

/-- **C74**: whatever the points are, as long as they never decrease and the range is not empty: the count that `get()` reports for bin `k` is the number of samples in the range that are in the
interval reported for bin `k`, end points as in `countedIn`. -/
theorem C74_counts {D : Type} [LinearOrder D] (debug : Bool) (pts : List D) (S : WeakSubdivision pts) (xs : List D) :
    ∃ h rows, histAfter debug ⟨pts, List.replicate (pts.length - 1) 0⟩ (xs.map .num) = .ok h ∧ h.get = .ok rows ∧ rows.length = pts.length - 1 ∧
      ∀ k (hk : k < rows.length) (hk' : k + 1 < pts.length), rows[k] = (pts[k], pts[k+1], xs.countP (fun x => countedIn pts k x)) := by
  obtain ⟨b, h1, h2, h3⟩ := after_weak debug pts S (List.replicate (pts.length - 1) 0) (by simp) xs
  simp only [List.length_replicate] at h2 h3
  obtain ⟨rows, h4, h5, h6⟩ := get_weak pts b S.two h2
  refine ⟨_, rows, h1, h4, by omega, ?_⟩
  intro k hk hk'
  rw [h6 k hk (by omega) hk' (by omega), h3 k (by omega) (by omega)]
  simp

/-- **C74**: every number in the range is counted in exactly one bin, other numbers in none. -/
theorem C74_one_bin {D : Type} [LinearOrder D] (pts : List D) (S : WeakSubdivision pts) (x : D) :
    (pts[0]'(by have := S.two; omega) ≤ x ∧ x < pts[pts.length - 1]'(by have := S.two; omega) → ∃! k, countedIn pts k x) ∧
    (¬ (pts[0]'(by have := S.two; omega) ≤ x ∧ x < pts[pts.length - 1]'(by have := S.two; omega)) → ∀ k, ¬ countedIn pts k x) := by
  constructor
  · rintro ⟨h0, h1⟩
    obtain ⟨b, -, -, h2⟩ := binNumber_weak false Fl.lePt (by intro v p h; simp [Fl.lePt, le_of_lt h]) pts S x h0 h1
    exact ⟨b, (h2 b).mpr rfl, fun k hk => (h2 k).mp hk⟩
  · rintro h k ⟨_, h1, h2, _⟩
    exact h ⟨h1, h2⟩

/-- **C74** (everything together): a `Histogram(lo, hi, n)` that has consumed `xs`: no operation fails, whether or not assertions are enabled; the rows of `get()` are contiguous intervals from `lo` to `hi`; the
counts are those of `C74_counts`, and add up to the number of samples `x` with `lo ≤ x < hi`. -/
theorem C74_histogram (h : Rounding u fl) (hu0 : 0 ≤ u) (lo hi : ℝ) (hlo : Machine fl lo) (hhi : Machine fl hi) (hlt : lo < hi) (n : Nat) (hn : 1 ≤ n)
    (hrep : ∀ k ≤ n, Machine fl (k : ℝ)) (hun : 4 * u * n ≤ 1) (debug : Bool) (xs : List ℝ) :
    ∃ hist rows, histAfter debug (@Hist.mkMachine ℝ (roundedArith fl) lo hi n id) (xs.map .num) = .ok hist ∧ hist.get = .ok rows ∧ rows.length = n ∧
      (∀ r ∈ rows.head?, r.1 = lo) ∧ (∀ r ∈ rows.getLast?, r.2.1 = hi) ∧
      (∀ k (hk : k < rows.length), rows[k].1 ≤ rows[k].2.1) ∧
      (∀ k (hk : k + 1 < rows.length), rows[k].2.1 = rows[k+1].1) ∧
      (∀ k (hk : k < rows.length), rows[k].2.2 = xs.countP (fun x => decide (lo ≤ x ∧ x < hi ∧ (rows[k].1 < x ∨ (k = 0 ∧ x = lo)) ∧ x ≤ rows[k].2.1))) ∧
      (rows.map (fun r => r.2.2)).sum = xs.countP (fun x => decide (lo ≤ x ∧ x < hi)) := by
  letI := roundedArith fl
  obtain ⟨h1, h2, h3, S⟩ := C74_points h hu0 lo hi hlo hhi hlt n hn hrep hun
  have e0 : (Hist.mkMachine lo hi n id) = ⟨(Hist.mkMachine lo hi n id).points, List.replicate ((Hist.mkMachine lo hi n id).points.length - 1) 0⟩ := by
    rw [h1]; rfl
  obtain ⟨hist, rows, g1, g2, g3, g4⟩ := C74_counts debug _ S xs
  rw [← e0] at g1
  generalize (Hist.mkMachine lo hi n id).points = pts at *
  have g3' : rows.length = n := by omega
  have p0 : pts[0]'(by omega) = lo := by
    rw [List.getElem?_eq_getElem (by omega)] at h2; exact Option.some.inj h2
  have pn : pts[n]'(by omega) = hi := by
    rw [List.getElem?_eq_getElem (by omega)] at h3; exact Option.some.inj h3
  have pl : pts[pts.length - 1]'(by omega) = hi := by
    have : pts.length - 1 = n := by omega
    simp only [this, pn]
  have hcount : ∀ k (hk : k + 1 < pts.length) x, countedIn pts k x ↔ (lo ≤ x ∧ x < hi ∧ (pts[k] < x ∨ (k = 0 ∧ x = lo)) ∧ x ≤ pts[k+1]) := by
    intro k hk x
    unfold countedIn
    constructor
    · rintro ⟨_, h⟩
      rw [p0, pl] at h
      exact h
    · intro h
      rw [← pl] at h
      simp only [← p0] at h
      exact ⟨hk, h⟩
  refine ⟨hist, rows, g1, g2, g3', ?_, ?_, ?_, ?_, ?_, ?_⟩
  · intro r hr
    rw [List.head?_eq_getElem?, List.getElem?_eq_getElem (by omega), g4 0 (by omega) (by omega)] at hr
    simp at hr; rw [← hr]; exact p0
  · intro r hr
    rw [List.getLast?_eq_getElem?, List.getElem?_eq_getElem (by omega), g4 (rows.length - 1) (by omega) (by omega)] at hr
    simp at hr; rw [← hr]
    have : rows.length - 1 + 1 = n := by omega
    simp only [this, pn]
  · intro k hk
    rw [g4 k hk (by omega)]
    exact HistRound.mono pts S.sorted k (k+1) (by omega) (by omega)
  · intro k hk
    rw [g4 k (by omega) (by omega), g4 (k+1) hk (by omega)]
  · intro k hk
    rw [g4 k hk (by omega)]
    simp only [hcount k (by omega)]
  · have hmap : rows.map (fun r => r.2.2) = (List.range n).map (fun k => xs.countP (fun x => countedIn pts k x)) := by
      apply List.ext_getElem
      · simp [g3']
      · intro k hk hk'
        simp only [List.length_map, List.length_range] at hk hk'
        rw [List.getElem_map, g4 k hk (by omega)]
        simp
    rw [hmap, sum_countP_swap]
    clear hmap g1 g4
    induction xs with
    | nil => simp
    | cons x xs ih =>
      rw [List.map_cons, List.sum_cons, ih, List.countP_cons]
      have : (List.range n).countP (fun k => decide (countedIn pts k x)) = if lo ≤ x ∧ x < hi then 1 else 0 := by
        obtain ⟨o1, o2⟩ := C74_one_bin pts S x
        rw [p0, pl] at o1 o2
        by_cases hx : lo ≤ x ∧ x < hi
        · obtain ⟨b, hb1, hb2⟩ := o1 hx
          rw [if_pos hx]
          have : (fun k => decide (countedIn pts k x)) = (fun k => k == b) := by
            funext k
            rw [Bool.eq_iff_iff, decide_eq_true_eq, beq_iff_eq]
            exact ⟨fun h => hb2 k h, fun h => h ▸ hb1⟩
          rw [this]
          show List.count b _ = 1
          rw [List.count_eq_one_of_mem List.nodup_range]
          obtain ⟨hb3, _⟩ := hb1
          simp; omega
        · rw [if_neg hx, List.countP_eq_zero]
          intro k _
          simpa using o2 hx k
      rw [this]
      simp only [decide_eq_true_eq]
      omega

/-- **C74** (PairHistogram): the same for pairs: an entry of `get()` is the content of the memory of the matrix before the first sample plus the number of pairs whose components are counted in the two intervals. -/
theorem C74_pairs {D : Type} [LinearOrder D] (debug : Bool) (xp yp : List D) (Sx : WeakSubdivision xp) (Sy : WeakSubdivision yp) (G : Nat → Nat → Nat) (xs : List (D × D)) :
    ∃ bins, pairHistAfter debug ⟨xp, yp, G⟩ (xs.map (fun p => [.num p.1, .num p.2])) = .ok ⟨xp, yp, bins⟩ ∧
      ∀ i j, bins i j = G i j + xs.countP (fun p => decide (countedIn xp i p.1 ∧ countedIn yp j p.2)) :=
  pairAfter_weak debug xp yp Sx Sy G xs

/-- A concrete case: ten bins in [0,1] with numbers of 53 bits. -/
example (debug : Bool) (xs : List ℝ) : ∃ hist rows, histAfter debug (@Hist.mkMachine ℝ (roundedArith (nearest 53)) 0 1 10 id) (xs.map .num) = .ok hist ∧ hist.get = .ok rows ∧
    rows.length = 10 ∧ (rows.map (fun r => r.2.2)).sum = xs.countP (fun x => decide (0 ≤ x ∧ x < 1)) := by
  obtain ⟨hist, rows, h1, h2, h3, -, -, -, -, -, h4⟩ := C74_histogram (nearest_rounding 53 (by norm_num)) (by positivity) 0 1
    (by have := nearest_nat 53 (by norm_num) 0 (by norm_num); simpa [Machine] using this) (by have := nearest_nat 53 (by norm_num) 1 (by norm_num); simpa [Machine] using this) one_pos 10 (by norm_num)
    (fun k hk => nearest_nat 53 (by norm_num) k (by omega)) (by norm_num) debug xs
  exact ⟨hist, rows, h1, h2, h3, h4⟩

/-- ... and the points are strictly increasing. -/
example : Subdivision (@Hist.mkMachine ℝ (roundedArith (nearest 53)) 0 1 10 id).points :=
  C74_subdivision (nearest_rounding 53 (by norm_num)) (by positivity) 0 1 1 (by norm_num) (by norm_num) one_pos 10 (by norm_num)
    (fun k hk => nearest_nat 53 (by norm_num) k (by omega)) (by norm_num) (by norm_num)

/-- A caveat, outside of the assumptions: near zero, doubles are multiples of a smallest number, and the relative error of rounding is not small.  In units of this number, `Histogram(0, 5, 8)` has the
points 0, 1, ..., 7, 5: they are not sorted, and the last bin is reported as `[7,5]`. -/
theorem C74_caveat_underflow : (@Hist.mkMachine ℝ (roundedArith (fun x => (round x : ℝ))) 0 5 8 id).points = [0, 1, 2, 3, 4, 5, 6, 7, 5] := by
  have r58 : round ((5:ℝ) / 8) = 1 := by
    rw [round_eq, Int.floor_eq_iff]; norm_num
  have r : ∀ n : ℕ, (round (n : ℝ) : ℝ) = n := fun n => by rw [round_natCast]; norm_cast
  have r5 : (round (5:ℝ) : ℝ) = 5 := by exact_mod_cast r 5
  have r8 : (round (8:ℝ) : ℝ) = 8 := by exact_mod_cast r 8
  have r7 : (round (7:ℝ) : ℝ) = 7 := by exact_mod_cast r 7
  have r6 : (round (6:ℝ) : ℝ) = 6 := by exact_mod_cast r 6
  have r4 : (round (4:ℝ) : ℝ) = 4 := by exact_mod_cast r 4
  have r3 : (round (3:ℝ) : ℝ) = 3 := by exact_mod_cast r 3
  have r2 : (round (2:ℝ) : ℝ) = 2 := by exact_mod_cast r 2
  have e : (@Hist.mkMachine ℝ (roundedArith (fun x => (round x : ℝ))) 0 5 8 id).points =
      (List.range 8).map (fun k => ((round ((0:ℝ) + (round ((round ((k:ℕ):ℝ) : ℝ) * (round ((round ((5:ℝ) - 0) : ℝ) / (round ((8:ℕ):ℝ) : ℝ)) : ℝ)) : ℝ)) : ℤ) : ℝ)) ++ [5] := rfl
  rw [e]
  simp only [List.range_succ, List.range_zero, List.map_append, List.map_cons, List.map_nil, List.nil_append, sub_zero, r5, r]
  norm_num [r58, r2, r3, r4, r5, r6, r7]

/-! ### Instances: concrete cases that meet the hypotheses of the theorems above -/

example := C74_points (nearest_rounding 53 (by norm_num)) (by positivity) 0 1
    (by have := nearest_nat 53 (by norm_num) 0 (by norm_num); simpa [Machine] using this) (by have := nearest_nat 53 (by norm_num) 1 (by norm_num); simpa [Machine] using this) one_pos 10 (by norm_num)
    (fun k hk => nearest_nat 53 (by norm_num) k (by omega)) (by norm_num)
example (k : Nat) := C74_accuracy (nearest_rounding 53 (by norm_num)) (by positivity) 0 1 1 (by norm_num) (by norm_num) one_pos 10 (by norm_num)
    (fun k hk => nearest_nat 53 (by norm_num) k (by omega)) (by norm_num) k
theorem HistRound.exampleWeak : WeakSubdivision ([0, 1, 1, 3] : List Int) := ⟨by decide, by decide, by decide⟩
example := C74_counts true [0, 1, 1, 3] HistRound.exampleWeak [1, 1, 2, 3]
example := C74_one_bin [0, 1, 1, 3] HistRound.exampleWeak 1
example := C74_pairs true [0, 1, 1, 3] [0, 1, 1, 3] HistRound.exampleWeak HistRound.exampleWeak (fun _ _ => 0) [(1, 2), (2, 0)]

end SampleFlow
