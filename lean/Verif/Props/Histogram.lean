import Verif.Proofs.Histogram
import Mathlib.Data.Rat.Defs
import Mathlib.Algebra.Order.Ring.Rat
import Mathlib.Algebra.Order.BigOperators.Group.List
import Mathlib.Tactic.NormNum
import Mathlib.Analysis.SpecialFunctions.Log.Basic

/-!
# Properties C30, C31, C32: Histogram and PairHistogram
-/

namespace SampleFlow
open Spec

/-! ## C30 Histogram counts -/

/-- C30: for every subdivision `p₀ < ... < p_N` and every sequence of (finite) samples, with or without
assertions enabled, `get()` after consuming the samples returns `N` rows, row `k` being
`(p_k, p_{k+1}, number of samples in bin k)`. -/
theorem C30_counts {D : Type} [LinearOrder D] (debug : Bool) (pts : List D) (S : Subdivision pts)
    (xs : List D) :
    ∃ h rows, histAfter debug ⟨pts, List.replicate (pts.length - 1) 0⟩ (xs.map .num) = .ok h ∧
      h.get = .ok rows ∧ rows.length = pts.length - 1 ∧
      ∀ k (hk : k < rows.length) (hk' : k + 1 < pts.length),
        rows[k] = (pts[k], pts[k+1], xs.countP (inBin pts k)) := by
  obtain ⟨b, h1, h2, h3⟩ := histAfter_spec debug pts S (List.replicate (pts.length - 1) 0) (by simp) xs
  simp only [List.length_replicate] at h2 h3
  obtain ⟨rows, h4, h5, h6⟩ := Hist.get_spec pts b S h2
  refine ⟨_, rows, h1, h4, by omega, ?_⟩
  intro k hk hk'
  rw [h6 k hk (by omega) hk' (by omega), h3 k (by omega) (by omega)]
  simp

/-- C30: the bin condition, spelled out in terms of the interval points: bin 0 is `[p₀,p₁]`, bin `k`
is `(p_k,p_{k+1}]`, and the last bin lacks its right end point. -/
theorem C30_bin_meaning {D : Type} [LinearOrder D] (pts : List D) (k : Nat)
    (hk : k + 1 < pts.length) (x : D) :
    inBin pts k x = true ↔
      ((if k = 0 then pts[k] ≤ x else pts[k] < x) ∧
       (if k + 2 = pts.length then x < pts[k+1] else x ≤ pts[k+1])) := by
  rw [inBin_eq pts k hk]
  have e0 : (pts[k] < x ∨ (k = 0 ∧ x = pts[k])) ↔ (if k = 0 then pts[k] ≤ x else pts[k] < x) := by
    by_cases h0 : k = 0
    · rw [if_pos h0]
      exact ⟨fun h => h.elim le_of_lt (fun e => e.2 ▸ le_refl _),
        fun h => (lt_or_eq_of_le h).imp id (fun e => ⟨h0, e.symm⟩)⟩
    · rw [if_neg h0]
      exact ⟨fun h => h.elim id (fun e => absurd e.1 h0), Or.inl⟩
  have e1 : (x ≤ pts[k+1] ∧ (k + 2 ≠ pts.length ∨ x < pts[k+1])) ↔
      (if k + 2 = pts.length then x < pts[k+1] else x ≤ pts[k+1]) := by
    by_cases h2 : k + 2 = pts.length
    · rw [if_pos h2]
      exact ⟨fun h => h.2.elim (fun e => absurd h2 e) id, fun h => ⟨le_of_lt h, Or.inr h⟩⟩
    · rw [if_neg h2]
      exact ⟨fun h => h.1, fun h => ⟨h, Or.inl h2⟩⟩
  rw [e0, e1]

/-- C30: the bins partition the half-open range `[p₀, p_N)`: a value in the range is in exactly one
bin, any other value in none. -/
theorem C30_bins_partition {D : Type} [LinearOrder D] (pts : List D) (S : Subdivision pts) (x : D) :
    (List.range (pts.length - 1)).countP (fun k => inBin pts k x) =
      if pts[0]'(by have := S.two; omega) ≤ x ∧ x < pts[pts.length - 1]'(by have := S.two; omega)
      then 1 else 0 := by
  have htwo := S.two
  split
  case isTrue h =>
    obtain ⟨b, -, hb, hin⟩ := binNumber_spec false Fl.lePt
      (by intro v p h; simp [Fl.lePt, le_of_lt h]) pts S x h.1 h.2
    have : (fun k => inBin pts k x) = (fun k => k == b) := by
      funext k; rw [hin k]; rfl
    rw [this]
    show List.count b _ = 1
    rw [List.count_eq_one_of_mem List.nodup_range]
    simp; omega
  case isFalse h =>
    rw [List.countP_eq_zero]
    intro k _
    rw [inBin_outside pts S x ?_ k]
    · simp
    · by_contra hc
      rw [not_or, not_lt, not_le] at hc
      exact h hc

theorem sum_countP_swap {α β : Type} (ks : List α) (xs : List β) (f : α → β → Bool) :
    (ks.map (fun k => xs.countP (f k))).sum = (xs.map (fun x => ks.countP (fun k => f k x))).sum := by
  induction xs with
  | nil => simp
  | cons x xs ih =>
    simp only [List.countP_cons, List.map_cons, List.sum_cons, ← ih]
    clear ih
    induction ks with
    | nil => simp
    | cons k ks ih =>
      simp only [List.map_cons, List.sum_cons, List.countP_cons, ih]
      omega

/-- C30: the counts of all rows add up to the number of samples in `[p₀, p_N)`. -/
theorem C30_total {D : Type} [LinearOrder D] (debug : Bool) (pts : List D) (S : Subdivision pts)
    (xs : List D) :
    ∃ h rows, histAfter debug ⟨pts, List.replicate (pts.length - 1) 0⟩ (xs.map .num) = .ok h ∧
      h.get = .ok rows ∧
      (rows.map (fun r => r.2.2)).sum =
        xs.countP (fun x => decide (pts[0]'(by have := S.two; omega) ≤ x) &&
          decide (x < pts[pts.length - 1]'(by have := S.two; omega))) := by
  obtain ⟨h, rows, h1, h2, h3, h4⟩ := C30_counts debug pts S xs
  refine ⟨h, rows, h1, h2, ?_⟩
  have e : rows.map (fun r => r.2.2) =
      (List.range (pts.length - 1)).map (fun k => xs.countP (inBin pts k)) := by
    apply List.ext_getElem
    · simp [h3]
    · intro k hk hk'
      simp only [List.length_map] at hk
      rw [List.getElem_map, h4 k hk (by omega)]
      simp
  rw [e, sum_countP_swap]
  clear e h4 h3 h2 h1 rows h
  induction xs with
  | nil => simp
  | cons x xs ih =>
    rw [List.map_cons, List.sum_cons, ih, List.countP_cons, C30_bins_partition pts S x]
    simp only [Bool.and_eq_true, decide_eq_true_eq]
    omega

/-- The premises are satisfiable, and the boundary cases go where the theorem says: samples on 0, 1, 2
for the subdivision 0 < 1 < 2. -/
example : Subdivision ([0, 1, 2] : List ℚ) ∧
    inBin ([0, 1, 2] : List ℚ) 0 0 = true ∧ inBin ([0, 1, 2] : List ℚ) 0 1 = true ∧
    inBin ([0, 1, 2] : List ℚ) 1 1 = false ∧ inBin ([0, 1, 2] : List ℚ) 1 2 = false := by
  refine ⟨⟨by norm_num [List.pairwise_cons], by simp⟩, ?_, ?_, ?_, ?_⟩ <;> norm_num [inBin]

/-- C30, finding: a NaN sample is not rejected by the range test: with assertions the program aborts,
without them the sample is counted in bin 0. -/
theorem C30_nan {D : Type} [LinearOrder D] (pts : List D) (S : Subdivision pts) (c : Nat)
    (bins : List Nat) :
    Hist.consume true ⟨pts, c :: bins⟩ .nan = .error .assertion ∧
    Hist.consume false ⟨pts, c :: bins⟩ .nan = .ok ⟨pts, (c+1) :: bins⟩ := by
  have htwo := S.two
  have hl : lowerBound pts .nan = .ok 0 := lowerBoundLoop_nan pts 0 pts.length (by omega)
  constructor
  · simp only [Hist.consume, binNumber, readAt_ok pts 0 (by omega : 0 < pts.length),
      readAt_ok pts (pts.length - 1) (by omega : pts.length - 1 < pts.length)]
    rfl
  · simp only [Hist.consume, binNumber, readAt_ok pts 0 (by omega : 0 < pts.length),
      readAt_ok pts (pts.length - 1) (by omega : pts.length - 1 < pts.length)]
    simp [bind, Except.bind, hl, Fl.ltPt, Fl.gePt, pure, Except.pure]

/-- C30: `write_gnuplot` writes, for the rows `(l,r,c)` of `get()` in order, the points `(l,c)` and
`(r,c)`; two per bin. -/
theorem C30_gnuplot {D : Type} (h : Hist D) (rows : List (D × D × Nat)) (hr : h.get = .ok rows) :
    ∃ out, h.gnuplot = .ok out ∧ out.length = 2 * rows.length ∧
      ∀ k (hk : k < rows.length), out[2*k]? = some (rows[k].1, rows[k].2.2) ∧
        out[2*k+1]? = some (rows[k].2.1, rows[k].2.2) := by
  refine ⟨_, by rw [Hist.gnuplot, hr]; rfl, ?_, ?_⟩
  · clear hr
    induction rows with
    | nil => rfl
    | cons r rows ih => simp [List.flatMap_cons, ih]; omega
  · clear hr
    induction rows with
    | nil => intro k hk; simp at hk
    | cons r rows ih =>
      intro k hk
      match k with
      | 0 => simp [List.flatMap_cons]
      | k + 1 =>
        have := ih k (by simpa using hk)
        simp only [List.flatMap_cons, List.cons_append, List.nil_append, List.getElem_cons_succ]
        rw [show 2 * (k+1) = 2*k + 1 + 1 by omega, List.getElem?_cons_succ, List.getElem?_cons_succ,
          List.getElem?_cons_succ, List.getElem?_cons_succ]
        exact this

/-! ## C31 constructors -/

section
variable {K : Type} [Field K] [LinearOrder K] [IsStrictOrderedRing K]

/-- C31: the linear constructor, for `min < max` and `n ≥ 1` bins: the points form a subdivision,
the first is `min`, the last is `max`, all widths are `(max-min)/n`, all counters are zero. -/
theorem C31_linear (lo hi : K) (n : Nat) (hlt : lo < hi) (hn : 1 ≤ n) :
    ∃ h, Hist.mkLinear lo hi n = .ok h ∧ Subdivision h.points ∧
      h.points.length = n + 1 ∧ h.bins = List.replicate n 0 ∧
      h.points[0]? = some lo ∧ h.points[n]? = some hi ∧
      ∀ k (h1 : k < h.points.length) (h2 : k + 1 < h.points.length),
        h.points[k+1] - h.points[k] = (hi - lo) / n := by
  have hlen := intervalPoints_length lo hi n id
  have hn0 : (n : K) ≠ 0 := by
    have : (0:K) < n := by exact_mod_cast hn
    exact ne_of_gt this
  refine ⟨⟨intervalPoints lo hi n id, List.replicate n 0⟩, by rw [Hist.mkLinear, if_pos hlt],
    ⟨intervalPoints_sorted lo hi hlt n hn id (fun _ _ _ h _ => h), by simp only [hlen]; omega⟩,
    hlen, rfl, ?_, ?_, ?_⟩
  · simp only
    rw [List.getElem?_eq_getElem (by omega), intervalPoints_get lo hi n hn id]
    simp
  · simp only
    rw [List.getElem?_eq_getElem (by omega), intervalPoints_get lo hi n hn id]
    simp only [id]
    congr 1
    field_simp
    ring
  · intro k h1 h2
    simp only
    rw [intervalPoints_get lo hi n hn id, intervalPoints_get lo hi n hn id]
    simp only [id]
    push_cast
    ring

/-- C31: constructing with `min ≥ max` stops with an assertion. -/
theorem C31_linear_bad_range (lo hi : K) (n : Nat) (h : ¬ lo < hi) :
    Hist.mkLinear lo hi n = .error .assertion := by
  rw [Hist.mkLinear, if_neg h]

/-- C31, constructor with a mapping `f`: for a function that is strictly increasing on `[min,max]` the
construction succeeds, the points are the images of equispaced points, they form a subdivision that
starts at `f min` and ends at `f max`. -/
theorem C31_mapped (lo hi : K) (n : Nat) (f : K → K) (hlt : lo < hi) (hn : 1 ≤ n)
    (hf : ∀ a b, lo ≤ a → a < b → b ≤ hi → f a < f b) :
    ∃ h, Hist.mkMapped lo hi n f = .ok h ∧ Subdivision h.points ∧
      h.points.length = n + 1 ∧ h.bins = List.replicate n 0 ∧
      h.points[0]? = some (f lo) ∧ h.points[n]? = some (f hi) ∧
      ∀ k (h1 : k < h.points.length), h.points[k] = f (lo + k * ((hi - lo) / n)) := by
  have hlen := intervalPoints_length lo hi n f
  have hn0 : (n : K) ≠ 0 := by
    have : (0:K) < n := by exact_mod_cast hn
    exact ne_of_gt this
  have hs := intervalPoints_sorted lo hi hlt n hn f hf
  refine ⟨⟨intervalPoints lo hi n f, List.replicate n 0⟩,
    by rw [Hist.mkMapped, if_pos hlt, if_pos ((strictlyIncreasing_iff _).mpr hs)],
    ⟨hs, by simp only [hlen]; omega⟩, hlen, rfl, ?_, ?_, ?_⟩
  · simp only
    rw [List.getElem?_eq_getElem (by omega), intervalPoints_get lo hi n hn f]
    simp
  · simp only
    rw [List.getElem?_eq_getElem (by omega), intervalPoints_get lo hi n hn f]
    congr 2
    field_simp
    ring
  · intro k h1
    exact intervalPoints_get lo hi n hn f k h1

/-- C31, constructor with an arbitrary mapping: whenever the construction does not abort (and there
is at least one bin), the points form a subdivision, so that C30 applies. -/
theorem C31_mapped_ok_is_subdivision (lo hi : K) (n : Nat) (hn : 1 ≤ n) (f : K → K) (h : Hist K)
    (hok : Hist.mkMapped lo hi n f = .ok h) :
    Subdivision h.points ∧ h.bins = List.replicate (h.points.length - 1) 0 := by
  rw [Hist.mkMapped] at hok
  split at hok
  · split at hok
    case isTrue hs =>
      cases hok
      have hlen := intervalPoints_length lo hi n f
      exact ⟨⟨(strictlyIncreasing_iff _).mp hs, by simp only [hlen]; omega⟩, by simp [hlen]⟩
    · cases hok
  · cases hok

/-- C31, constructor with a mapping: an empty range, or a mapping that is not strictly increasing on the points used, stops with an assertion. -/
theorem C31_mapped_rejected (lo hi : K) (n : Nat) (hn : 1 ≤ n) (f : K → K)
    (h : ¬ lo < hi ∨ ∃ k < n, f (lo + (k + 1 : Nat) * ((hi - lo) / n)) ≤ f (lo + k * ((hi - lo) / n))) :
    Hist.mkMapped lo hi n f = .error .assertion := by
  rw [Hist.mkMapped]
  by_cases hlt : lo < hi
  · rw [if_pos hlt, if_neg]
    rw [strictlyIncreasing_iff]
    intro hs
    rcases h with h | ⟨k, hk, hle⟩
    · exact h hlt
    · have hlen := intervalPoints_length lo hi n f
      have := List.pairwise_iff_getElem.mp hs k (k+1) (by omega) (by omega) (by omega)
      rw [intervalPoints_get lo hi n hn f, intervalPoints_get lo hi n hn f] at this
      exact absurd this (not_lt.mpr hle)
  · rw [if_neg hlt]

/-- C31 (end to end): a linear histogram fed with samples reports, in row `k`, the interval
`[min + k δ, min + (k+1) δ]` and the number of samples in it; the right end of each row is the left
end of the next. -/
theorem C31_rows_adjacent (debug : Bool) (lo hi : K) (n : Nat) (hlt : lo < hi) (hn : 1 ≤ n)
    (xs : List K) :
    ∃ h h' rows, Hist.mkLinear lo hi n = .ok h ∧ histAfter debug h (xs.map .num) = .ok h' ∧
      h'.get = .ok rows ∧ rows.length = n ∧
      (∀ k (hk : k < rows.length), rows[k].1 = lo + k * ((hi - lo) / n) ∧
        rows[k].2.1 = lo + ((k : K) + 1) * ((hi - lo) / n)) ∧
      ∀ k (h1 : k < rows.length) (h2 : k + 1 < rows.length), rows[k].2.1 = rows[k+1].1 := by
  obtain ⟨h, h1, h2, h3, h4, h5, h6, h7⟩ := C31_linear lo hi n hlt hn
  have hpts : h.points = intervalPoints lo hi n id := by
    rw [Hist.mkLinear, if_pos hlt] at h1; cases h1; rfl
  obtain ⟨h', rows, e1, e2, e3, e4⟩ := C30_counts debug h.points h2 xs
  have hh : h = ⟨h.points, List.replicate (h.points.length - 1) 0⟩ := by
    cases h; simp only [Hist.mk.injEq, true_and] at *; rw [h4, h3]; rfl
  refine ⟨h, h', rows, h1, by rw [hh]; exact e1, e2, by omega, ?_, ?_⟩
  · intro k hk
    have g := e4 k hk (by omega)
    have p1 : h.points[k]'(by omega) = lo + k * ((hi - lo) / n) := by
      simp only [hpts]; rw [intervalPoints_get lo hi n hn id]; rfl
    have p2 : h.points[k+1]'(by omega) = lo + ((k : K) + 1) * ((hi - lo) / n) := by
      simp only [hpts]; rw [intervalPoints_get lo hi n hn id]; simp
    rw [g]
    exact ⟨p1, p2⟩
  · intro k hk1 hk2
    rw [e4 k hk1 (by omega), e4 (k+1) hk2 (by omega)]

end

/-- C31, the documented logarithmic use (histogram.impl.h 107-117: `f = exp` on the range
`[log a, log b]`): the construction succeeds, the range is `[a,b]`, and each bin is wider than its
predecessor by the constant factor `(b/a)^(1/n)`. -/
theorem C31_logarithmic (a b : ℝ) (n : Nat) (ha : 0 < a) (hab : a < b) (hn : 1 ≤ n) :
    ∃ h, Hist.mkMapped (Real.log a) (Real.log b) n Real.exp = .ok h ∧ Subdivision h.points ∧
      h.points[0]? = some a ∧ h.points[n]? = some b ∧
      ∀ k (h1 : k + 1 < h.points.length),
        h.points[k+1] = Real.exp ((Real.log b - Real.log a) / n) * h.points[k] := by
  obtain ⟨h, h1, h2, h3, -, h5, h6, h7⟩ := C31_mapped (Real.log a) (Real.log b) n Real.exp
    (Real.log_lt_log ha hab) hn (fun x y _ h _ => Real.exp_lt_exp.mpr h)
  refine ⟨h, h1, h2, by rw [h5, Real.exp_log ha], by rw [h6, Real.exp_log (lt_trans ha hab)], ?_⟩
  intro k hk
  rw [h7 (k+1) hk, h7 k (by omega), ← Real.exp_add]
  push_cast
  congr 1
  ring

example : ∃ h : Hist ℚ, Hist.mkLinear (-3 : ℚ) 3 4 = .ok h ∧ h.points[1]? = some (-3/2 : ℚ) := by
  refine ⟨_, rfl, ?_⟩
  norm_num [intervalPoints, List.range_succ]

/-! ## C32 PairHistogram -/

/-- C32: for subdivisions in both directions, every content `G` of the uninitialised count matrix and
every sequence of finite samples, entry `(i,j)` of `get()` (at position `i * n_y + j`) is the
rectangle and `G i j` plus the number of samples in that rectangle. -/
theorem C32_pairHistogram {D : Type} [LinearOrder D] (debug : Bool) (xp yp : List D)
    (Sx : Subdivision xp) (Sy : Subdivision yp) (G : Nat → Nat → Nat) (xs : List (D × D)) :
    ∃ h es, pairHistAfter debug ⟨xp, yp, G⟩ (xs.map (fun p => [.num p.1, .num p.2])) = .ok h ∧
      h.get = .ok es ∧ es.length = (xp.length - 1) * (yp.length - 1) ∧
      ∀ i j (hi : i + 1 < xp.length) (hj : j + 1 < yp.length),
        es[i * (yp.length - 1) + j]? = some ((xp[i], yp[j]), (xp[i+1], yp[j+1]),
          G i j + xs.countP (fun p => inBin xp i p.1 && inBin yp j p.2)) := by
  obtain ⟨b, h1, h2⟩ := pairHistAfter_spec debug xp yp Sx Sy G xs
  obtain ⟨es, h3, h4, h5⟩ := PairHist.get_spec xp yp b Sx Sy
  refine ⟨_, es, h1, h3, h4, ?_⟩
  intro i j hi hj
  rw [h5 i j hi hj, h2]

section
variable {K : Type} [Field K] [LinearOrder K] [IsStrictOrderedRing K]

/-- C32, the linear constructor: for nonempty ranges and at least one bin in both directions both axes are subdivided into bins of equal width from
`min` to `max`. -/
theorem C32_linear (G : Nat → Nat → Nat) (xlo xhi : K) (nx : Nat) (ylo yhi : K) (ny : Nat) (hx : xlo < xhi) (hy : ylo < yhi) (hnx : 1 ≤ nx)
    (hny : 1 ≤ ny) :
    ∃ h, PairHist.mkLinear G xlo xhi nx ylo yhi ny = .ok h ∧ h.bins = G ∧ Subdivision h.xPoints ∧ Subdivision h.yPoints ∧
      h.xPoints.length = nx + 1 ∧ h.yPoints.length = ny + 1 ∧ h.xPoints[nx]? = some xhi ∧ h.yPoints[ny]? = some yhi ∧
      (∀ k (hk : k < h.xPoints.length), h.xPoints[k] = xlo + k * ((xhi - xlo) / nx)) ∧
      (∀ k (hk : k < h.yPoints.length), h.yPoints[k] = ylo + k * ((yhi - ylo) / ny)) := by
  obtain ⟨h1, e1, s1, l1, -, -, a1, -⟩ := C31_linear xlo xhi nx hx hnx
  obtain ⟨h2, e2, s2, l2, -, -, a2, -⟩ := C31_linear ylo yhi ny hy hny
  rw [Hist.mkLinear, if_pos hx] at e1
  rw [Hist.mkLinear, if_pos hy] at e2
  cases e1
  cases e2
  exact ⟨⟨intervalPoints xlo xhi nx id, intervalPoints ylo yhi ny id, G⟩, by rw [PairHist.mkLinear, if_pos hx, if_pos hy], rfl, s1, s2, l1, l2, a1, a2,
    fun k hk => intervalPoints_get xlo xhi nx hnx id k hk, fun k hk => intervalPoints_get ylo yhi ny hny id k hk⟩

/-- C32: an empty range in one of the directions stops with an assertion. -/
theorem C32_bad_range (G : Nat → Nat → Nat) (xlo xhi : K) (nx : Nat) (fx : K → K) (ylo yhi : K) (ny : Nat) (fy : K → K)
    (h : ¬ (xlo < xhi ∧ ylo < yhi)) :
    PairHist.mkLinear G xlo xhi nx ylo yhi ny = .error .assertion ∧ PairHist.mkMapped G xlo xhi nx fx ylo yhi ny fy = .error .assertion := by
  unfold PairHist.mkLinear PairHist.mkMapped
  by_cases h1 : xlo < xhi
  · have h2 : ¬ ylo < yhi := fun h2 => h ⟨h1, h2⟩
    rw [if_pos h1, if_neg h2, if_pos h1]
    refine ⟨rfl, ?_⟩
    split <;> simp [h2]
  · rw [if_neg h1, if_neg h1]
    exact ⟨rfl, rfl⟩

/-- C32, constructor with mappings: for functions that are strictly increasing on the ranges, the points are the images of equispaced points. -/
theorem C32_mapped (G : Nat → Nat → Nat) (xlo xhi : K) (nx : Nat) (fx : K → K) (ylo yhi : K) (ny : Nat) (fy : K → K) (hx : xlo < xhi) (hy : ylo < yhi)
    (hnx : 1 ≤ nx) (hny : 1 ≤ ny) (hfx : ∀ a b, xlo ≤ a → a < b → b ≤ xhi → fx a < fx b) (hfy : ∀ a b, ylo ≤ a → a < b → b ≤ yhi → fy a < fy b) :
    ∃ h, PairHist.mkMapped G xlo xhi nx fx ylo yhi ny fy = .ok h ∧ h.bins = G ∧ Subdivision h.xPoints ∧ Subdivision h.yPoints ∧
      h.xPoints.length = nx + 1 ∧ h.yPoints.length = ny + 1 ∧ h.xPoints[nx]? = some (fx xhi) ∧ h.yPoints[ny]? = some (fy yhi) ∧
      (∀ k (hk : k < h.xPoints.length), h.xPoints[k] = fx (xlo + k * ((xhi - xlo) / nx))) ∧
      (∀ k (hk : k < h.yPoints.length), h.yPoints[k] = fy (ylo + k * ((yhi - ylo) / ny))) := by
  have p1 := (strictlyIncreasing_iff _).mpr (intervalPoints_sorted xlo xhi hx nx hnx fx hfx)
  have p2 := (strictlyIncreasing_iff _).mpr (intervalPoints_sorted ylo yhi hy ny hny fy hfy)
  obtain ⟨h1, e1, s1, l1, -, -, a1, c1⟩ := C31_mapped xlo xhi nx fx hx hnx hfx
  obtain ⟨h2, e2, s2, l2, -, -, a2, c2⟩ := C31_mapped ylo yhi ny fy hy hny hfy
  rw [Hist.mkMapped, if_pos hx, if_pos p1] at e1
  rw [Hist.mkMapped, if_pos hy, if_pos p2] at e2
  cases e1
  cases e2
  exact ⟨⟨intervalPoints xlo xhi nx fx, intervalPoints ylo yhi ny fy, G⟩,
    by rw [PairHist.mkMapped, if_pos hx, if_pos p1, if_pos hy, if_pos p2], rfl, s1, s2, l1, l2, a1, a2, c1, c2⟩

/-- C32, constructor with mappings: whenever the construction does not abort (and there is at least one bin in each direction), the points form
subdivisions, so that C32_pairHistogram applies. -/
theorem C32_mapped_ok_is_subdivision (G : Nat → Nat → Nat) (xlo xhi : K) (nx : Nat) (fx : K → K) (ylo yhi : K) (ny : Nat) (fy : K → K)
    (hnx : 1 ≤ nx) (hny : 1 ≤ ny) (h : PairHist K) (hok : PairHist.mkMapped G xlo xhi nx fx ylo yhi ny fy = .ok h) :
    Subdivision h.xPoints ∧ Subdivision h.yPoints ∧ h.bins = G := by
  unfold PairHist.mkMapped at hok
  split at hok
  · split at hok
    case isTrue p1 =>
      split at hok
      · split at hok
        case isTrue p2 =>
          cases hok
          have l1 := intervalPoints_length xlo xhi nx fx
          have l2 := intervalPoints_length ylo yhi ny fy
          exact ⟨⟨(strictlyIncreasing_iff _).mp p1, by simp only [l1]; omega⟩, ⟨(strictlyIncreasing_iff _).mp p2, by simp only [l2]; omega⟩, rfl⟩
        · cases hok
      · cases hok
    · cases hok
  · cases hok

/-- C32 (end to end): a PairHistogram constructed with linear subdivisions and fed with samples reports at position `i * n_y + j` the rectangle number
`(i, j)` and, above the initial content of the memory, the number of samples in it. -/
theorem C32_linear_counts (debug : Bool) (G : Nat → Nat → Nat) (xlo xhi : K) (nx : Nat) (ylo yhi : K) (ny : Nat) (hx : xlo < xhi) (hy : ylo < yhi)
    (hnx : 1 ≤ nx) (hny : 1 ≤ ny) (xs : List (K × K)) :
    ∃ h h' es, PairHist.mkLinear G xlo xhi nx ylo yhi ny = .ok h ∧
      pairHistAfter debug h (xs.map (fun p => [.num p.1, .num p.2])) = .ok h' ∧ h'.get = .ok es ∧ es.length = nx * ny ∧
      ∀ i j, i < nx → j < ny → ∃ count, es[i * ny + j]? = some
          ((xlo + i * ((xhi - xlo) / nx), ylo + j * ((yhi - ylo) / ny)),
           (xlo + (i + 1 : Nat) * ((xhi - xlo) / nx), ylo + (j + 1 : Nat) * ((yhi - ylo) / ny)), G i j + count) ∧
        count = xs.countP (fun p => inBin h.xPoints i p.1 && inBin h.yPoints j p.2) := by
  obtain ⟨⟨xp, yp, G'⟩, e, hG, s1, s2, l1, l2, -, -, c1, c2⟩ := C32_linear G xlo xhi nx ylo yhi ny hx hy hnx hny
  simp only at hG s1 s2 l1 l2 c1 c2
  subst hG
  obtain ⟨h', es, h1, h2, h3, h4⟩ := C32_pairHistogram debug xp yp s1 s2 G' xs
  refine ⟨_, h', es, e, h1, h2, by rw [h3, l1, l2]; rfl, ?_⟩
  intro i j hi hj
  refine ⟨_, ?_, rfl⟩
  have := h4 i j (by omega) (by omega)
  rw [c1, c2, c1, c2] at this
  rw [← this, l2]
  rfl

end

example : ∃ h : PairHist ℚ, PairHist.mkLinear (fun _ _ => 0) (-3 : ℚ) 3 4 0 1 2 = .ok h ∧ h.xPoints[1]? = some (-3/2 : ℚ) ∧ h.yPoints[1]? = some (1/2 : ℚ) := by
  obtain ⟨h, h1, -, -, -, l1, l2, -, -, c1, c2⟩ := C32_linear (fun _ _ => 0) (-3 : ℚ) 3 4 0 1 2 (by norm_num) (by norm_num) (by norm_num) (by norm_num)
  refine ⟨h, h1, ?_, ?_⟩
  · rw [List.getElem?_eq_getElem (by omega), c1]; norm_num
  · rw [List.getElem?_eq_getElem (by omega), c2]; norm_num

/-- C32, finding: the result is the documented count for all sample sequences iff the memory that
Eigen did not initialise happened to be zero. -/
theorem C32_correct_iff_memory_zero {D : Type} [LinearOrder D] (debug : Bool) (xp yp : List D)
    (Sx : Subdivision xp) (Sy : Subdivision yp) (G : Nat → Nat → Nat) (xs : List (D × D)) :
    (∀ h, pairHistAfter debug ⟨xp, yp, G⟩ (xs.map (fun p => [.num p.1, .num p.2])) = .ok h →
      ∀ i j, i + 1 < xp.length → j + 1 < yp.length →
        h.bins i j = xs.countP (fun p => inBin xp i p.1 && inBin yp j p.2)) ↔
    (∀ i j, i + 1 < xp.length → j + 1 < yp.length → G i j = 0) := by
  obtain ⟨b, h1, h2⟩ := pairHistAfter_spec debug xp yp Sx Sy G xs
  constructor
  · intro h i j hi hj
    have := h _ h1 i j hi hj
    simp only [h2] at this
    omega
  · intro h h' e i j hi hj
    rw [h1] at e
    cases e
    simp only [h2]
    rw [h i j hi hj]
    omega

example : ∃ G : Nat → Nat → Nat, ¬ ∀ i j, i + 1 < ([0,1] : List ℚ).length →
    j + 1 < ([0,1] : List ℚ).length → G i j = 0 :=
  ⟨fun _ _ => 7, by intro h; simpa using h 0 0 (by simp) (by simp)⟩

/-- C32: a sample that does not have two components stops the program if assertions are enabled. -/
theorem C32_wrong_size {D : Type} [LinearOrder D] (h : PairHist D) (s : List (Fl D))
    (hs : s.length ≠ 2) : PairHist.consume true h s = .error .assertion := by
  unfold PairHist.consume
  simp [hs]
  rfl

/-! ### Instances: concrete cases that meet the hypotheses of the theorems above -/

/-- interval points of the instances -/
theorem subdivision_example : Subdivision ([0, 2, 5] : List Int) := ⟨by decide, by decide⟩

example := C30_counts true _ subdivision_example [1, 2, 4, 9, 0]
example := C30_bin_meaning ([0, 2, 5] : List Int) 1 (by decide) 4
example := C30_bins_partition _ subdivision_example 4
example := C30_total true _ subdivision_example [1, 2, 4, 9, 0]
example := C30_nan _ subdivision_example 3 [4]
example := C30_gnuplot (⟨[0, 2, 5], [3, 4]⟩ : Hist Int) _ rfl
example := C31_linear (-3 : ℚ) 3 4 (by norm_num) (by decide)
example := C31_linear_bad_range (3 : ℚ) (-3) 4 (by norm_num)
example := C31_mapped (-3 : ℚ) 3 4 (fun x => 2 * x + 1) (by norm_num) (by decide) (by intro a b _ h _; show 2 * a + 1 < 2 * b + 1; linarith)
example : ∃ h, Hist.mkMapped (-3 : ℚ) 3 4 (fun x => 2 * x + 1) = .ok h ∧ Subdivision h.points :=
  have ⟨h, hok, _⟩ := C31_mapped (-3 : ℚ) 3 4 (fun x => 2 * x + 1) (by norm_num) (by decide) (by intro a b _ h _; show 2 * a + 1 < 2 * b + 1; linarith)
  ⟨h, hok, (C31_mapped_ok_is_subdivision (-3 : ℚ) 3 4 (by decide) _ h hok).1⟩
example := C31_mapped_rejected (-3 : ℚ) 3 4 (by decide) (fun x => x * x) (Or.inr ⟨0, by decide, by norm_num⟩)
example := C31_rows_adjacent true (-3 : ℚ) 3 4 (by norm_num) (by decide) [1, 2, -5/2]
example := C31_logarithmic 1 1000 3 (by norm_num) (by norm_num) (by decide)
example := C32_pairHistogram true _ _ subdivision_example subdivision_example (fun _ _ => 3) [(1, 4), (4, 9)]
example := C32_bad_range (fun _ _ => 0) (3 : ℚ) (-3) 4 id 0 1 2 id (by norm_num)
example := C32_mapped (fun _ _ => 0) (-3 : ℚ) 3 4 (fun x => 2 * x + 1) 0 1 2 id (by norm_num) (by norm_num) (by decide) (by decide)
  (by intro a b _ h _; show 2 * a + 1 < 2 * b + 1; linarith) (by intro a b _ h _; exact h)
example : ∃ h, PairHist.mkMapped (fun _ _ => 0) (-3 : ℚ) 3 4 (fun x => 2 * x + 1) 0 1 2 id = .ok h ∧ Subdivision h.xPoints :=
  have ⟨h, hok, _⟩ := C32_mapped (fun _ _ => 0) (-3 : ℚ) 3 4 (fun x => 2 * x + 1) 0 1 2 id (by norm_num) (by norm_num) (by decide) (by decide)
    (by intro a b _ h _; show 2 * a + 1 < 2 * b + 1; linarith) (by intro a b _ h _; exact h)
  ⟨h, hok, (C32_mapped_ok_is_subdivision _ (-3 : ℚ) 3 4 _ 0 1 2 id (by decide) (by decide) h hok).1⟩
example := C32_linear_counts true (fun _ _ => 3) (-3 : ℚ) 3 4 0 1 2 (by norm_num) (by norm_num) (by decide) (by decide) [(1, 1/2), (4, 9)]
example := C32_correct_iff_memory_zero true _ _ subdivision_example subdivision_example (fun _ _ => 3) [(1, 4), (4, 9)]
example := C32_wrong_size (⟨[0, 2, 5], [0, 1], fun _ _ => 0⟩ : PairHist Int) [.num 1, .num 2, .num 3] (by decide)

end SampleFlow
