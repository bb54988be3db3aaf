import Verif.Proofs.HistogramTypes
import Verif.Proofs.Ieee

/-!
# Property C90: histograms of samples of other types than double

`Conversions emb toDouble` (Spec/HistogramTypes.lean): doubles are numbers of the type `C` in which samples are compared; converting a sample to double may round.  For `long double`, `C` is larger than `D`; for all other
types the two are the same (samples are converted to double first).
-/

namespace SampleFlow

open Spec HistTypes

section
variable {C D : Type} [LinearOrder C] [LinearOrder D] {emb : D → C} {toDouble : C → D}

/-- **C90**: in programs without assertions, whatever the samples are, NaN or numbers: no operation fails; the count of bin `k` is the number of samples counted in this bin, in bin 0 also all samples that are NaN. -/
theorem C90_counts (hc : Conversions emb toDouble) (pts : List D) (S : WeakSubdivision pts) (xs : List (Fl C)) :
    ∃ h rows, histAfterAs emb toDouble false ⟨pts, List.replicate (pts.length - 1) 0⟩ xs = .ok h ∧ h.get = .ok rows ∧ rows.length = pts.length - 1 ∧
      ∀ k (hk : k < rows.length) (hk' : k + 1 < pts.length),
        rows[k] = (pts[k], pts[k+1], (numbers xs).countP (fun x => countedAs emb toDouble pts k x) + if k = 0 then nans xs else 0) := by
  obtain ⟨b, h1, h2, h3⟩ := afterAs_release hc pts S xs (List.replicate (pts.length - 1) 0) (by simp)
  simp only [List.length_replicate] at h2 h3
  obtain ⟨rows, h4, h5, h6⟩ := HistRound.get_weak pts b S.two h2
  refine ⟨_, rows, h1, h4, by omega, ?_⟩
  intro k hk hk'
  rw [h6 k hk (by omega) hk' (by omega), h3 k (by omega) (by omega)]
  simp

/-- **C90**: with assertions, the same for samples that are numbers; no assertion fails. -/
theorem C90_counts_debug (hc : Conversions emb toDouble) (debug : Bool) (pts : List D) (S : WeakSubdivision pts) (xs : List C) :
    ∃ h rows, histAfterAs emb toDouble debug ⟨pts, List.replicate (pts.length - 1) 0⟩ (xs.map .num) = .ok h ∧ h.get = .ok rows ∧ rows.length = pts.length - 1 ∧
      ∀ k (hk : k < rows.length) (hk' : k + 1 < pts.length), rows[k] = (pts[k], pts[k+1], xs.countP (fun x => countedAs emb toDouble pts k x)) := by
  obtain ⟨b, h1, h2, h3⟩ := afterAs_debug hc debug pts S xs (List.replicate (pts.length - 1) 0) (by simp)
  simp only [List.length_replicate] at h2 h3
  obtain ⟨rows, h4, h5, h6⟩ := HistRound.get_weak pts b S.two h2
  refine ⟨_, rows, h1, h4, by omega, ?_⟩
  intro k hk hk'
  rw [h6 k hk (by omega) hk' (by omega), h3 k (by omega) (by omega)]
  simp

/-- **C90**: a number in the range of the histogram is counted in exactly one bin, other numbers in none; the comparison with the range is exact, not with the rounded number. -/
theorem C90_one_bin (hc : Conversions emb toDouble) (pts : List D) (S : WeakSubdivision pts) (x : C) :
    (emb (pts[0]'(by have := S.two; omega)) ≤ x ∧ x < emb (pts[pts.length - 1]'(by have := S.two; omega)) → ∃! k, countedAs emb toDouble pts k x) ∧
    (¬ (emb (pts[0]'(by have := S.two; omega)) ≤ x ∧ x < emb (pts[pts.length - 1]'(by have := S.two; omega))) → ∀ k, ¬ countedAs emb toDouble pts k x) := by
  constructor
  · rintro ⟨h0, h1⟩
    obtain ⟨e0, e1⟩ := range_closed hc h0 h1
    obtain ⟨b, -, -, h2⟩ := binNumber_closed false Fl.lePt pts S (toDouble x) e0 e1 (by simp)
    refine ⟨b, ?_, ?_⟩
    · obtain ⟨h, h3, h4⟩ := (h2 b).mpr rfl
      exact ⟨h, h0, h1, h3, h4⟩
    · rintro k ⟨h, _, _, h3, h4⟩
      exact (h2 k).mp ⟨h, h3, h4⟩
  · rintro h k ⟨_, h1, h2, _⟩
    exact h ⟨h1, h2⟩

/-- **C90**: a number counted in bin `k` is not less than the left end of this bin (greater, except for the first bin), and not greater than the right end, unless it is rounded to the right end. -/
theorem C90_right_bin_partial (hc : Conversions emb toDouble) (pts : List D) (k : Nat) (x : C) (h : countedAs emb toDouble pts k x) (hk : k + 1 < pts.length) :
    (emb pts[k] < x ∨ (k = 0 ∧ emb pts[k] ≤ x)) ∧ (x ≤ emb pts[k+1] ∨ toDouble x = pts[k+1]) := by
  obtain ⟨_, h0, h1, h2, h3⟩ := h
  constructor
  · rcases h2 with h2 | ⟨rfl, -⟩
    · refine Or.inl (lt_of_not_ge fun hle => ?_)
      have := hc.mono _ _ hle
      rw [hc.exact] at this
      exact absurd (lt_of_lt_of_le h2 this) (lt_irrefl _)
    · exact Or.inr ⟨rfl, h0⟩
  · rcases le_or_gt x (emb pts[k+1]) with hle | hgt
    · exact Or.inl hle
    · have := hc.mono _ _ hgt.le
      rw [hc.exact] at this
      exact Or.inr (le_antisymm h3 this)

/-- **C90**: for samples that are doubles (all types of at most 53 bits) this is the same as in C74. -/
theorem C90_exact_samples (hc : Conversions emb toDouble) (pts : List D) (k : Nat) (d : D) : countedAs emb toDouble pts k (emb d) ↔ countedIn pts k d := by
  have le_iff : ∀ a b, emb a ≤ emb b ↔ a ≤ b := by
    intro a b
    refine ⟨fun h => ?_, fun h => emb_le hc h⟩
    have := hc.mono _ _ h
    rwa [hc.exact, hc.exact] at this
  unfold countedAs countedIn
  simp only [hc.exact, le_iff, ← not_le]

/-- **C90** (PairHistogram): an entry of `get()` is the content of the memory plus the number of pairs counted in the two intervals.  With assertions only if no component that is less than the right end of the range is
rounded to it. -/
theorem C90_pairs_partial (hc : Conversions emb toDouble) (debug : Bool) (xp yp : List D) (Sx : WeakSubdivision xp) (Sy : WeakSubdivision yp) (G : Nat → Nat → Nat) (xs : List (C × C))
    (hd : debug = true → ∀ p ∈ xs, (p.1 < emb (xp[xp.length - 1]'(by have := Sx.two; omega)) → toDouble p.1 < xp[xp.length - 1]'(by have := Sx.two; omega)) ∧
      (p.2 < emb (yp[yp.length - 1]'(by have := Sy.two; omega)) → toDouble p.2 < yp[yp.length - 1]'(by have := Sy.two; omega))) :
    ∃ bins, pairHistAfterAs emb toDouble debug ⟨xp, yp, G⟩ (xs.map (fun p => [.num p.1, .num p.2])) = .ok ⟨xp, yp, bins⟩ ∧
      ∀ i j, bins i j = G i j + xs.countP (fun p => decide (countedAs emb toDouble xp i p.1 ∧ countedAs emb toDouble yp j p.2)) :=
  pairAfterAs hc debug xp yp Sx Sy xs hd G

/-- **C90** is violated by PairHistogram: if the first component is in the range but is rounded to its right end, and the second component is in the range, the assertion in `x_bin_number` (pair_histogram.impl.h 560) fails.  (Histogram has `<=` in
this place, histogram.impl.h 405.) -/
theorem C90_violation_pair_assertion (xp yp : List D) (Sx : WeakSubdivision xp) (Sy : WeakSubdivision yp) (G : Nat → Nat → Nat) (v w : C)
    (hv0 : emb (xp[0]'(by have := Sx.two; omega)) ≤ v) (hv1 : v < emb (xp[xp.length - 1]'(by have := Sx.two; omega))) (hv2 : toDouble v = xp[xp.length - 1]'(by have := Sx.two; omega))
    (hw0 : emb (yp[0]'(by have := Sy.two; omega)) ≤ w) (hw1 : w < emb (yp[yp.length - 1]'(by have := Sy.two; omega))) :
    PairHist.consumeAs emb toDouble true ⟨xp, yp, G⟩ [.num v, .num w] = .error .assertion := by
  have hx2 := Sx.two
  have hy2 := Sy.two
  unfold PairHist.consumeAs
  simp only [List.length_cons, List.length_nil, Nat.reduceAdd, decide_true, Bool.not_true,
    Bool.and_false, Bool.false_eq_true, if_false]
  rw [readAt_ok xp 0 (by omega), readAt_ok xp (xp.length - 1) (by omega),
    readAt_ok yp 0 (by omega), readAt_ok yp (yp.length - 1) (by omega)]
  have r0 : readAt [Fl.num v, Fl.num w] 0 = .ok (.num v) := rfl
  have r1 : readAt [Fl.num v, Fl.num w] 1 = .ok (.num w) := rfl
  rw [r0, r1]
  simp only [bind, Except.bind]
  rw [if_neg (by simp [Fl.ltPt, Fl.gePt, hv0, hv1]), if_neg (by simp [Fl.ltPt, Fl.gePt, hw0, hw1])]
  unfold binNumber
  rw [readAt_ok xp 0 (by omega), readAt_ok xp (xp.length - 1) (by omega)]
  simp [bind, Except.bind, Fl.convert, Fl.ltPt, hv2, throw, throwThe, MonadExceptOf.throw]

end

/-! ### long double: samples of more bits than double -/

/-- doubles, exponents not limited above -/
abbrev HistTypes.Double : Type := {x : ℝ // Machine double x}

/-- a number rounded to double -/
noncomputable def HistTypes.toDouble (x : ℝ) : Double := ⟨double x, double_format.idempotent x⟩

theorem HistTypes.conversions : Conversions (C := ℝ) (D := Double) Subtype.val HistTypes.toDouble where
  exact := fun d => Subtype.ext d.2
  embLt := fun _ _ h => h
  mono := fun _ _ h => double_format.mono _ _ h

/-- an integer as double -/
noncomputable def HistTypes.ofNat (n : Nat) (hn : n ≤ 2 ^ 53) : Double := ⟨n, by simpa using double_machine n hn 0 (by norm_num)⟩

/-- the interval points 0, 1, 2 -/
noncomputable def HistTypes.points012 : List Double := [ofNat 0 (by norm_num), ofNat 1 (by norm_num), ofNat 2 (by norm_num)]

theorem HistTypes.points012_weak : WeakSubdivision points012 := by
  have h1 : ofNat 0 (by norm_num) < ofNat 1 (by norm_num) := by show ((0:ℕ):ℝ) < ((1:ℕ):ℝ); norm_num
  have h2 : ofNat 1 (by norm_num) < ofNat 2 (by norm_num) := by show ((1:ℕ):ℝ) < ((2:ℕ):ℝ); norm_num
  refine ⟨?_, by simp [points012], lt_trans h1 h2⟩
  simp only [points012, List.pairwise_cons, List.mem_cons, List.not_mem_nil, or_false, List.Pairwise.nil, and_true, forall_eq_or_imp, forall_eq, false_implies, implies_true]
  exact ⟨⟨h1.le, (lt_trans h1 h2).le⟩, h2.le⟩

/-- rounding a number whose exponent is known -/
theorem HistTypes.double_eq (x : ℝ) (e : ℤ) (m : ℤ) (he : -1022 ≤ e) (h0 : (2:ℝ) ^ e ≤ x) (h1 : x < (2:ℝ) ^ (e + 1)) (hm : (m : ℝ) - 1 / 2 < x / 2 ^ (e - 52)) (hm' : x / 2 ^ (e - 52) < m + 1 / 2) :
    double x = m * 2 ^ (e - 52) := by
  have hx : 0 < x := lt_of_lt_of_le (by positivity) h0
  have hlog : Int.log 2 x = e := by
    have a := (Int.lt_zpow_iff_log_lt (b := 2) (by norm_num) hx (x := e + 1)).mp (by exact_mod_cast h1)
    have b := (Int.zpow_le_iff_le_log (b := 2) (by norm_num) hx (x := e)).mp (by exact_mod_cast h0)
    omega
  unfold double gradual gradualPos
  rw [if_pos hx.le, if_pos]
  · unfold roundPos ulp
    rw [hlog, show e - (53 : ℕ) + 1 = e - 52 by push_cast; ring, roundInt_eq hm hm']
  · refine le_trans (zpow_le_zpow_right₀ (by norm_num) ?_) h0
    push_cast
    omega

/-- `1 + 2^(-60)` is rounded to 1 -/
theorem HistTypes.round_above : double (1 + 2 ^ (-60 : ℤ)) = 1 := by
  rw [double_eq _ 0 (2 ^ 52) (by norm_num) (by norm_num) (by norm_num) (by norm_num) (by norm_num)]
  norm_num

/-- `1 - 2^(-60)` is rounded to 1 -/
theorem HistTypes.round_below : double (1 - 2 ^ (-60 : ℤ)) = 1 := by
  rw [double_eq _ (-1) (2 ^ 53) (by norm_num) (by norm_num) (by norm_num) (by norm_num) (by norm_num)]
  norm_num

/-- **C90** is violated for samples of type `long double`: with the interval points 0, 1, 2, the sample `1 + 2^(-60)` (which has 61 significant bits) is counted in the first bin, `[0,1]`, although it is greater than 1. -/
theorem C90_violation_neighbour_bin : countedAs (C := ℝ) Subtype.val HistTypes.toDouble points012 0 (1 + 2 ^ (-60 : ℤ)) ∧ ((ofNat 1 (by norm_num) : Double) : ℝ) < 1 + 2 ^ (-60 : ℤ) := by
  have e : HistTypes.toDouble (1 + 2 ^ (-60 : ℤ)) = ofNat 1 (by norm_num) := Subtype.ext (by show double _ = ((1:ℕ):ℝ); rw [round_above]; norm_num)
  refine ⟨⟨by simp [points012], ?_, ?_, Or.inl ?_, ?_⟩, ?_⟩
  · show ((0:ℕ):ℝ) ≤ _; norm_num
  · show _ < ((2:ℕ):ℝ); norm_num
  · rw [e]; show ((0:ℕ):ℝ) < ((1:ℕ):ℝ); norm_num
  · rw [e]; exact le_rfl
  · show ((1:ℕ):ℝ) < _; norm_num

/-- **C90** is violated by PairHistogram for `long double`: with assertions, the program aborts at a sample with the components `1 - 2^(-60)` and 1, although it is in the range `[0,1) × [0,2)` of the histogram. -/
theorem C90_violation_pair : PairHist.consumeAs (C := ℝ) Subtype.val HistTypes.toDouble true
    ⟨[ofNat 0 (by norm_num), ofNat 1 (by norm_num)], points012, fun _ _ => 0⟩ [.num (1 - 2 ^ (-60 : ℤ)), .num 1] = .error .assertion := by
  have W : WeakSubdivision [ofNat 0 (by norm_num), ofNat 1 (by norm_num)] := by
    have h1 : ofNat 0 (by norm_num) < ofNat 1 (by norm_num) := by show ((0:ℕ):ℝ) < ((1:ℕ):ℝ); norm_num
    exact ⟨by simp [h1.le], by simp, h1⟩
  refine C90_violation_pair_assertion _ _ W points012_weak _ _ _ ?_ ?_ ?_ ?_ ?_
  · show ((0:ℕ):ℝ) ≤ _; norm_num
  · show _ < ((1:ℕ):ℝ); norm_num
  · exact Subtype.ext (by show double _ = ((1:ℕ):ℝ); rw [round_below]; norm_num)
  · show ((0:ℕ):ℝ) ≤ _; norm_num
  · show _ < ((2:ℕ):ℝ); norm_num

/-! ### instances of the theorems -/

example := C90_counts HistTypes.conversions points012 points012_weak [.num (1 + 2 ^ (-60 : ℤ)), .nan, .num 3]
example := C90_counts_debug HistTypes.conversions true points012 points012_weak [1 + 2 ^ (-60 : ℤ), 1 / 2]
example := C90_one_bin HistTypes.conversions points012 points012_weak (1 / 3)
example := C90_right_bin_partial HistTypes.conversions points012 0 _ C90_violation_neighbour_bin.1 (by simp [points012])
example := C90_exact_samples HistTypes.conversions points012 0 (ofNat 1 (by norm_num))
example := C90_pairs_partial HistTypes.conversions false points012 points012 points012_weak points012_weak (fun _ _ => 0) [(1 - 2 ^ (-60 : ℤ), 1 / 2), (0, 1 / 3)] (by simp)

end SampleFlow
