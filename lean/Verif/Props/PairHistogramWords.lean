import Verif.Model.PairHistogramWords
import Verif.Props.Histogram

/-!
# Property C96: `PairHistogram::get` and the number of bins

The index into the result of `get()` is of type `unsigned int`, a type with `W` values (2^32 on all current platforms).
-/

namespace SampleFlow

open Spec

namespace PairWords

variable {D : Type}

theorem range_block (x c : Nat) : List.range ((x + 1) * c) = List.range (x * c) ++ (List.range c).map (x * c + ·) := by
  rw [Nat.succ_mul, List.range_add]

theorem foldlM_map' {X Y Z : Type} (f : X → Z → Except Fault X) (g : Y → Z) (l : List Y) (a : X) :
    (l.map g).foldlM f a = l.foldlM (fun a y => f a (g y)) a := by
  induction l generalizing a with
  | nil => rfl
  | cons y l ih =>
    simp only [List.map_cons, List.foldlM_cons]
    congr 1
    ext b
    rw [ih]

theorem foldlM_congr' {X Y : Type} (f g : X → Y → Except Fault X) (l : List Y) (h : ∀ y ∈ l, ∀ a, f a y = g a y) (a : X) : l.foldlM f a = l.foldlM g a := by
  induction l generalizing a with
  | nil => rfl
  | cons y l ih =>
    simp only [List.foldlM_cons]
    rw [h y (by simp) a]
    congr 1
    ext b
    rw [ih (fun y hy => h y (by simp [hy]))]

/-- the nested loops go through the numbers of the bins -/
theorem loop_eq {X : Type} (c : Nat) (body : Nat → Nat → X → Except Fault X) (r : Nat) (a : X) :
    (List.range r).foldlM (fun a x => (List.range c).foldlM (fun a y => body x y a) a) a = (List.range (r * c)).foldlM (fun a m => body (m / c) (m % c) a) a := by
  induction r generalizing a with
  | zero => simp
  | succ r ih =>
    rw [List.range_succ, range_block, List.foldlM_append, List.foldlM_append, ih]
    congr 1
    ext b
    rw [List.foldlM_cons, foldlM_map']
    have : ∀ b, (List.range c).foldlM (fun a y => body r y a) b = (List.range c).foldlM (fun a y => body ((r * c + y) / c) ((r * c + y) % c) a) b := by
      intro b
      refine foldlM_congr' _ _ _ (fun y hy a => ?_) b
      have hy := List.mem_range.mp hy
      rw [Nat.add_comm, Nat.add_mul_div_right _ _ (by omega), Nat.div_eq_of_lt hy, Nat.zero_add, Nat.add_mul_mod_self_right, Nat.mod_eq_of_lt hy]
    rw [this]
    simp

/-- the last number below `n` with remainder `k` -/
def lastBin (W : Nat) : Nat → Nat → Option Nat
  | 0, _ => none
  | n + 1, k => if n % W = k then some n else lastBin W n k

theorem writes (W : Nat) (hW : 0 < W) {X : Type} (f : Nat → X → X) (habs : ∀ m m' x, f m (f m' x) = f m x) (l : List X) (n : Nat) (hn : min n W ≤ l.length) :
    ∃ l', (List.range n).foldlM (fun a m => writeAt a (m % W) (f m)) l = .ok l' ∧ l'.length = l.length ∧
      ∀ k : Nat, l'[k]? = match lastBin W n k with
        | some m => l[k]?.map (f m)
        | none => l[k]? := by
  induction n with
  | zero => exact ⟨l, rfl, rfl, fun k => rfl⟩
  | succ n ih =>
    obtain ⟨l', h1, h2, h3⟩ := ih (by omega)
    have hlt : n % W < l'.length := by
      have h4 := Nat.mod_lt n hW
      have h5 := Nat.mod_le n W
      omega
    refine ⟨l'.modify (n % W) (f n), ?_, by simpa using h2, fun k => ?_⟩
    · rw [List.range_succ, List.foldlM_append, h1]
      simp [bind, Except.bind, writeAt, hlt, pure, Except.pure]
    · rw [List.getElem?_modify, h3]
      have hs : lastBin W (n + 1) k = if n % W = k then some n else lastBin W n k := rfl
      rw [hs]
      by_cases hk : n % W = k
      · simp only [hk, if_true]
        cases hl : lastBin W n k with
        | none => rfl
        | some m => cases l[k]? <;> simp [habs]
      · simp only [hk, if_false]
        cases lastBin W n k <;> simp

theorem lastBin_spec (W : Nat) (hW : 0 < W) (k : Nat) (hk : k < W) : ∀ n, k < n → ∃ m, lastBin W n k = some m ∧ m < n ∧ m % W = k ∧ n ≤ m + W := by
  intro n
  induction n with
  | zero => intro h; omega
  | succ n ih =>
    intro h
    have hs : lastBin W (n + 1) k = if n % W = k then some n else lastBin W n k := rfl
    rw [hs]
    by_cases hn : n % W = k
    · exact ⟨n, by rw [if_pos hn], by omega, hn, by omega⟩
    · rw [if_neg hn]
      have hkn : k < n := by
        rcases Nat.lt_or_ge k n with h1 | h1
        · exact h1
        · have : k = n := by omega
          subst this
          exact absurd (Nat.mod_eq_of_lt hk) hn
      obtain ⟨m, h1, h2, h3, h4⟩ := ih hkn
      refine ⟨m, h1, by omega, h3, ?_⟩
      by_contra hc
      have : n = m + W := by omega
      rw [this, Nat.add_mod_right] at hn
      exact hn h3

theorem lastBin_none (W : Nat) (hW : 0 < W) (k : Nat) (hk : W ≤ k) (n : Nat) : lastBin W n k = none := by
  induction n with
  | zero => rfl
  | succ n ih =>
    have hs : lastBin W (n + 1) k = if n % W = k then some n else lastBin W n k := rfl
    have := Nat.mod_lt n hW
    rw [hs, if_neg (by omega), ih]

/-- what `get` should report about bin number `m` -/
def cell (zero : D) (h : PairHist D) (m : Nat) : PairRow D :=
  ((h.xPoints[m / h.cols]?.getD zero, h.yPoints[m % h.cols]?.getD zero), (h.xPoints[m / h.cols + 1]?.getD zero, h.yPoints[m % h.cols + 1]?.getD zero), h.bins (m / h.cols) (m % h.cols))

theorem get_words (W : Nat) (hW : 0 < W) (zero : D) (h : PairHist D) :
    ∃ es, h.getWords W zero = .ok es ∧ es.length = h.rows * h.cols ∧
      (∀ k, k < W → k < h.rows * h.cols → ∃ m, m < h.rows * h.cols ∧ m % W = k ∧ h.rows * h.cols ≤ m + W ∧ es[k]? = some (cell zero h m)) ∧
      ∀ k, W ≤ k → k < h.rows * h.cols → es[k]? = some ((zero, zero), (zero, zero), 0) := by
  obtain ⟨n, hn⟩ : ∃ n, n = h.rows * h.cols := ⟨_, rfl⟩
  have hloop : ∀ (X : Type) (body : Nat → Nat → X → Except Fault X) (a : X), h.loopBins body a = (List.range n).foldlM (fun a m => body (m / h.cols) (m % h.cols) a) a := by
    intro X body a
    rw [hn]
    exact loop_eq h.cols body h.rows a
  have hidx : ∀ m, h.index W (m / h.cols) (m % h.cols) = m % W := by
    intro m
    unfold PairHist.index
    rw [Nat.mul_comm, Nat.div_add_mod]
  obtain ⟨l1, a1, a2, a3⟩ := writes W hW (fun m (r : PairRow D) => ((cell zero h m).1, (cell zero h m).2.1, r.2.2)) (fun _ _ _ => rfl)
    (List.replicate n ((zero, zero), (zero, zero), 0)) n (by rw [List.length_replicate]; omega)
  obtain ⟨l2, b1, b2, b3⟩ := writes W hW (fun m (r : PairRow D) => (r.1, r.2.1, (cell zero h m).2.2)) (fun _ _ _ => rfl) l1 n (by rw [a2, List.length_replicate]; omega)
  rw [List.length_replicate] at a2
  rw [a2] at b2
  have g1 : h.loopBins (h.writeCorners W) (List.replicate (h.rows * h.cols) ((zero, zero), (zero, zero), 0)) = .ok l1 := by
    rw [hloop, ← hn, ← a1]
    refine foldlM_congr' _ _ _ (fun m hm a => ?_) _
    have hm := List.mem_range.mp hm
    have hc : 0 < h.cols := by
      rcases Nat.eq_zero_or_pos h.cols with h0 | h0
      · rw [hn, h0] at hm; omega
      · exact h0
    have hx : m / h.cols + 1 < h.xPoints.length := by
      have : m / h.cols < h.rows := by rw [Nat.div_lt_iff_lt_mul hc]; omega
      unfold PairHist.rows at this
      generalize m / h.cols = t at *
      omega
    have hy : m % h.cols + 1 < h.yPoints.length := by
      have := Nat.mod_lt m hc
      unfold PairHist.cols at this ⊢
      omega
    unfold PairHist.writeCorners
    rw [readAt_ok _ _ (show m / h.cols < h.xPoints.length by omega), readAt_ok _ _ (show m % h.cols < h.yPoints.length by omega), readAt_ok _ _ hx, readAt_ok _ _ hy]
    simp only [bind, Except.bind, hidx, cell]
    rw [List.getElem?_eq_getElem hx, List.getElem?_eq_getElem hy, List.getElem?_eq_getElem (show m / h.cols < h.xPoints.length by omega),
      List.getElem?_eq_getElem (show m % h.cols < h.yPoints.length by omega)]
    rfl
  have g2 : h.loopBins (h.writeCount W) l1 = .ok l2 := by
    rw [hloop, ← b1]
    refine foldlM_congr' _ _ _ (fun m hm a => ?_) _
    unfold PairHist.writeCount
    rw [hidx]
    rfl
  refine ⟨l2, ?_, by omega, fun k hk hkn => ?_, fun k hk hkn => ?_⟩
  · unfold PairHist.getWords
    rw [g1]
    exact g2
  · obtain ⟨m, c1, c2, c3, c4⟩ := lastBin_spec W hW k hk n (by omega)
    refine ⟨m, by omega, c3, by omega, ?_⟩
    rw [b3, c1]
    simp only
    rw [a3, c1]
    simp only [List.getElem?_replicate, show k < n by omega, if_true, Option.map_some]
  · rw [b3, lastBin_none W hW k hk, a3, lastBin_none W hW k hk]
    simp only [List.getElem?_replicate, show k < n by omega, if_true]

end PairWords

open PairWords

/-- **C96**: as long as the number of bins is at most `W` (2^32), `get()` reports every rectangle, at position `i * n_y + j`, with the number of samples in it. -/
theorem C96_up_to_word_size_partial {D : Type} [LinearOrder D] (W : Nat) (zero : D) (debug : Bool) (xp yp : List D) (Sx : Subdivision xp) (Sy : Subdivision yp) (G : Nat → Nat → Nat) (xs : List (D × D))
    (hbins : (xp.length - 1) * (yp.length - 1) ≤ W) :
    ∃ h es, pairHistAfter debug ⟨xp, yp, G⟩ (xs.map (fun p => [.num p.1, .num p.2])) = .ok h ∧
      h.getWords W zero = .ok es ∧ es.length = (xp.length - 1) * (yp.length - 1) ∧
      ∀ i j (hi : i + 1 < xp.length) (hj : j + 1 < yp.length),
        es[i * (yp.length - 1) + j]? = some ((xp[i], yp[j]), (xp[i+1], yp[j+1]), G i j + xs.countP (fun p => inBin xp i p.1 && inBin yp j p.2)) := by
  obtain ⟨b, h1, h2⟩ := pairHistAfter_spec debug xp yp Sx Sy G xs
  have hx2 := Sx.two
  have hy2 := Sy.two
  have hpos : 0 < (xp.length - 1) * (yp.length - 1) := Nat.mul_pos (by omega) (by omega)
  obtain ⟨es, e1, e2, e3, -⟩ := get_words W (by omega) zero ⟨xp, yp, b⟩
  refine ⟨_, es, h1, e1, e2, fun i j hi hj => ?_⟩
  have hk : i * (yp.length - 1) + j < (xp.length - 1) * (yp.length - 1) := by
    have : (i + 1) * (yp.length - 1) ≤ (xp.length - 1) * (yp.length - 1) := Nat.mul_le_mul_right _ (by omega)
    rw [Nat.succ_mul] at this
    omega
  obtain ⟨m, m1, m2, m3, m4⟩ := e3 _ (lt_of_lt_of_le hk hbins) hk
  rw [Nat.mod_eq_of_lt (lt_of_lt_of_le m1 hbins)] at m2
  subst m2
  rw [m4]
  have d1 : (i * (yp.length - 1) + j) / (yp.length - 1) = i := by
    rw [Nat.add_comm, Nat.add_mul_div_right _ _ (by omega), Nat.div_eq_of_lt (by omega), Nat.zero_add]
  have d2 : (i * (yp.length - 1) + j) % (yp.length - 1) = j := by
    rw [Nat.add_comm, Nat.add_mul_mod_self_right, Nat.mod_eq_of_lt (by omega)]
  simp only [cell, PairHist.cols, d1, d2, h2]
  rw [List.getElem?_eq_getElem hi, List.getElem?_eq_getElem hj, List.getElem?_eq_getElem (show i < xp.length by omega), List.getElem?_eq_getElem (show j < yp.length by omega)]
  rfl

/-- **C96**, violated by larger pair histograms: if there are more than `W` bins, the elements of the result from number `W` on are all zero: a rectangle without area and no samples, whatever was counted; and the first `W`
elements hold the last `W` bins (element `k` the bin whose number has the remainder `k`): nothing is reported about bins with smaller numbers. -/
theorem C96_violation_many_bins {D : Type} [LinearOrder D] (W : Nat) (hW : 0 < W) (zero : D) (debug : Bool) (xp yp : List D) (Sx : Subdivision xp) (Sy : Subdivision yp) (G : Nat → Nat → Nat) (xs : List (D × D))
    (hbins : W < (xp.length - 1) * (yp.length - 1)) :
    ∃ h es, pairHistAfter debug ⟨xp, yp, G⟩ (xs.map (fun p => [.num p.1, .num p.2])) = .ok h ∧
      h.getWords W zero = .ok es ∧ es.length = (xp.length - 1) * (yp.length - 1) ∧
      (∀ k, W ≤ k → k < es.length → es[k]? = some ((zero, zero), (zero, zero), 0)) ∧
      ∀ k, k < W → ∃ i j, ∃ (hi : i + 1 < xp.length) (hj : j + 1 < yp.length),
        (i * (yp.length - 1) + j) % W = k ∧ es.length - W ≤ i * (yp.length - 1) + j ∧
        es[k]? = some ((xp[i], yp[j]), (xp[i+1], yp[j+1]), G i j + xs.countP (fun p => inBin xp i p.1 && inBin yp j p.2)) := by
  obtain ⟨b, h1, h2⟩ := pairHistAfter_spec debug xp yp Sx Sy G xs
  have hx2 := Sx.two
  have hy2 := Sy.two
  obtain ⟨es, e1, e2, e3, e4⟩ := get_words W hW zero ⟨xp, yp, b⟩
  have hr : (⟨xp, yp, b⟩ : PairHist D).rows * (⟨xp, yp, b⟩ : PairHist D).cols = (xp.length - 1) * (yp.length - 1) := rfl
  rw [hr] at e2 e3 e4
  refine ⟨_, es, h1, e1, e2, fun k hk hkl => e4 k hk (by omega), fun k hk => ?_⟩
  obtain ⟨m, m1, m2, m3, m4⟩ := e3 k hk (by omega)
  have hi : m / (yp.length - 1) + 1 < xp.length := by
    have : m / (yp.length - 1) < xp.length - 1 := by rw [Nat.div_lt_iff_lt_mul (by omega)]; exact m1
    omega
  have hj : m % (yp.length - 1) + 1 < yp.length := by
    have := Nat.mod_lt m (show 0 < yp.length - 1 by omega)
    omega
  have hm : m / (yp.length - 1) * (yp.length - 1) + m % (yp.length - 1) = m := by rw [Nat.mul_comm, Nat.div_add_mod]
  refine ⟨m / (yp.length - 1), m % (yp.length - 1), hi, hj, by rw [hm]; exact m2, by rw [hm]; omega, ?_⟩
  rw [m4]
  simp only [cell, PairHist.cols, h2]
  rw [List.getElem?_eq_getElem hi, List.getElem?_eq_getElem hj, List.getElem?_eq_getElem (show m / (yp.length - 1) < xp.length by omega), List.getElem?_eq_getElem (show m % (yp.length - 1) < yp.length by omega)]
  rfl

/-- **C96**, the same in terms of what a user does: with more than `W` bins, samples in bin number `W` (say) are counted, but `get()` reports none for it. -/
theorem C96_violation_lost_samples {D : Type} [LinearOrder D] (W : Nat) (hW : 0 < W) (zero : D) (debug : Bool) (xp yp : List D) (Sx : Subdivision xp) (Sy : Subdivision yp)
    (hbins : W < (xp.length - 1) * (yp.length - 1)) (v w : D) (hv : inBin xp (W / (yp.length - 1)) v = true) (hw : inBin yp (W % (yp.length - 1)) w = true) (n : Nat) :
    ∃ h es, pairHistAfter debug ⟨xp, yp, fun _ _ => 0⟩ ((List.replicate n (v, w)).map (fun p => [.num p.1, .num p.2])) = .ok h ∧
      h.bins (W / (yp.length - 1)) (W % (yp.length - 1)) = n ∧ h.getWords W zero = .ok es ∧ es[W]? = some ((zero, zero), (zero, zero), 0) := by
  obtain ⟨b, h1, h2⟩ := pairHistAfter_spec debug xp yp Sx Sy (fun _ _ => 0) (List.replicate n (v, w))
  obtain ⟨es, e1, e2, -, e4⟩ := get_words W hW zero ⟨xp, yp, b⟩
  refine ⟨_, es, h1, ?_, e1, e4 W le_rfl hbins⟩
  simp only [h2, Nat.zero_add]
  rw [List.countP_replicate, if_pos (by simp [hv, hw])]

/-! ### Instances: concrete cases that meet the hypotheses of the theorems above -/

example := C96_up_to_word_size_partial (2 ^ 32) 0 true _ _ subdivision_example subdivision_example (fun _ _ => 3) [(1, 4), (4, 9)] (by decide)

/-- equidistant points -/
theorem many_points (n : Nat) (hn : 1 ≤ n) : Subdivision ((List.range (n + 1)).map (fun k : Nat => (k : Int))) := by
  refine ⟨?_, by simp; omega⟩
  rw [List.pairwise_map]
  exact (List.pairwise_lt_range).imp (fun h => by exact_mod_cast h)

/-- 65537 by 65537 bins are too many for 32 bits -/
example := C96_violation_many_bins (2 ^ 32) (by decide) 0 true _ _ (many_points 65537 (by decide)) (many_points 65537 (by decide)) (fun _ _ => 0) [(1, 4), (4, 9)]
  (by simp only [List.length_map, List.length_range]; decide)

/-- and with a two-valued type for the index four bins are -/
example := C96_violation_lost_samples 2 (by decide) 0 true [0, 2, 4] [0, 2, 4] (⟨by decide, by decide⟩ : Subdivision ([0, 2, 4] : List Int)) ⟨by decide, by decide⟩ (by decide) 3 1 (by decide) (by decide) 7

end SampleFlow
