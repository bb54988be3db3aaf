import Verif.Model.Histogram
import Verif.Spec.Bins
import Verif.Proofs.Moments
import Mathlib.Tactic.Positivity
import Mathlib.Tactic.Linarith
import Mathlib.Data.List.Basic

set_option linter.unusedSectionVars false
set_option linter.unusedSimpArgs false

namespace SampleFlow
open Spec

section
variable {D : Type} [LinearOrder D]

/-- The binary search finds the partition point. -/
theorem lowerBoundLoop_spec (pts : List D) (v : D)
    (hs : pts.Pairwise (· ≤ ·)) (first len : Nat) (hfl : first + len ≤ pts.length)
    (h1 : ∀ i (hi : i < pts.length), i < first → pts[i] < v)
    (h2 : ∀ i (hi : i < pts.length), first + len ≤ i → v ≤ pts[i]) :
    ∃ r, lowerBoundLoop pts (.num v) first len = .ok r ∧ r ≤ pts.length ∧
      (∀ i (hi : i < pts.length), i < r → pts[i] < v) ∧
      (∀ i (hi : i < pts.length), r ≤ i → v ≤ pts[i]) := by
  induction len using Nat.strong_induction_on generalizing first with
  | _ len ih =>
    rw [lowerBoundLoop]
    by_cases hl : 0 < len
    · rw [dif_pos hl]
      have hm : first + len / 2 < pts.length := by omega
      simp only [List.getElem?_eq_getElem hm]
      by_cases hc : pts[first + len/2] < v
      · simp only [Fl.ptLt, hc, decide_true, if_true]
        apply ih (len - len/2 - 1) (by omega) (first + len/2 + 1) (by omega)
        · intro i hi hlt
          rcases Nat.lt_or_ge i (first + len/2) with h | h
          · exact lt_of_le_of_lt (List.pairwise_iff_getElem.mp hs i _ hi hm h) hc
          · have : i = first + len/2 := by omega
            subst this; exact hc
        · intro i hi hge
          exact h2 i hi (by omega)
      · simp only [Fl.ptLt, hc, decide_false, Bool.false_eq_true, if_false]
        apply ih (len/2) (by omega) first (by omega) h1
        intro i hi hge
        rcases Nat.lt_or_ge (first + len/2) i with h | h
        · exact le_trans (not_lt.mp hc) (List.pairwise_iff_getElem.mp hs _ i hm hi h)
        · have : i = first + len/2 := by omega
          subst this; exact not_lt.mp hc
    · rw [dif_neg hl]
      have : len = 0 := by omega
      subst this
      exact ⟨first, rfl, by omega, h1, fun i hi h => h2 i hi (by omega)⟩

theorem lowerBoundLoop_nan (pts : List D) (first len : Nat) (h : first + len ≤ pts.length) :
    lowerBoundLoop pts .nan first len = .ok first := by
  induction len using Nat.strong_induction_on with
  | _ len ih =>
    rw [lowerBoundLoop]
    by_cases hl : 0 < len
    · rw [dif_pos hl]
      have hm : first + len / 2 < pts.length := by omega
      simp only [List.getElem?_eq_getElem hm, Fl.ptLt, Bool.false_eq_true, if_false]
      exact ih _ (by omega) (by omega)
    · rw [dif_neg hl]

theorem inBin_eq (pts : List D) (k : Nat) (hk : k + 1 < pts.length) (x : D) :
    inBin pts k x = true ↔ (pts[k] < x ∨ (k = 0 ∧ x = pts[k])) ∧ x ≤ pts[k+1] ∧
      (k + 2 ≠ pts.length ∨ x < pts[k+1]) := by
  simp only [inBin, List.getElem?_eq_getElem hk, List.getElem?_eq_getElem (show k < pts.length by omega)]
  simp [and_assoc]

theorem inBin_out (pts : List D) (k : Nat) (hk : pts.length ≤ k + 1) (x : D) :
    inBin pts k x = false := by
  simp only [inBin, List.getElem?_eq_none hk]
  cases pts[k]? <;> rfl

theorem getElem_mono (pts : List D) (hs : pts.Pairwise (· < ·)) (i j : Nat) (hj : j < pts.length)
    (h : i ≤ j) : pts[i] ≤ pts[j] := by
  rcases Nat.lt_or_ge i j with h' | h'
  · exact le_of_lt (List.pairwise_iff_getElem.mp hs i j (by omega) hj h')
  · have : i = j := by omega
    subst this; exact le_refl _

/-- `bin_number` for a value inside the range. -/
theorem binNumber_spec (debug : Bool) (upper : Fl D → D → Bool)
    (hup : ∀ v p : D, v < p → upper (.num v) p = true) (pts : List D) (S : Subdivision pts)
    (v : D) (h0 : pts[0]'(by have := S.two; omega) ≤ v)
    (h1 : v < pts[pts.length - 1]'(by have := S.two; omega)) :
    ∃ b, binNumber debug upper pts (.num v) = .ok b ∧ b + 1 < pts.length ∧
      ∀ k, inBin pts k v = decide (k = b) := by
  have htwo := S.two
  obtain ⟨r, hr, hrl, hlt, hge⟩ := lowerBoundLoop_spec pts v (S.sorted.imp le_of_lt) 0 pts.length (by omega)
    (by intro i _ h; omega) (by intro i hi h; omega)
  have hrN : r < pts.length := by
    by_contra hcon
    have := hlt (pts.length - 1) (by omega) (by omega)
    exact absurd (lt_trans this h1) (lt_irrefl _)
  have hgt0 : (Fl.num v).gePt (pts[0]'(by omega)) = true := by simp [Fl.gePt, h0]
  have hup' : upper (.num v) (pts[pts.length - 1]'(by omega)) = true := hup _ _ h1
  have hbn : binNumber debug upper pts (.num v) = .ok (if r = 0 then 0 else r - 1) := by
    unfold binNumber
    rw [readAt_ok pts 0 (by omega), readAt_ok pts (pts.length - 1) (by omega)]
    simp only [bind, Except.bind, hgt0, hup', Bool.and_self, Bool.not_true, Bool.and_false,
      Bool.false_eq_true, if_false, lowerBound, hr, pure, Except.pure]
    split <;> rfl
  refine ⟨_, hbn, by split <;> omega, ?_⟩
  intro k
  rw [Bool.eq_iff_iff, decide_eq_true_iff]
  rcases Nat.lt_or_ge (k+1) pts.length with hk | hk
  · rw [inBin_eq pts k hk]
    constructor
    · rintro ⟨ha, hb, -⟩
      by_cases hr0 : r = 0
      · rw [if_pos hr0]
        rcases ha with ha | ⟨ha, -⟩
        · have := hge k (by omega) (by omega)
          exact absurd (lt_of_lt_of_le ha this) (lt_irrefl _)
        · exact ha
      · rw [if_neg hr0]
        -- pts[r-1] < v ≤ pts[r]
        have hr1 := hlt (r-1) (by omega) (by omega)
        have hr2 := hge r hrN (le_refl _)
        have h3 : ¬ k + 1 ≤ r - 1 := by
          intro hh
          have := getElem_mono pts S.sorted (k+1) (r-1) (by omega) hh
          exact absurd (lt_of_le_of_lt (le_trans hb this) hr1) (lt_irrefl _)
        rcases ha with ha | ⟨ha, ha'⟩
        · have : ¬ r ≤ k := by
            intro hh
            have := getElem_mono pts S.sorted r k (by omega) hh
            exact absurd (lt_of_lt_of_le ha (le_trans hr2 this)) (lt_irrefl _)
          omega
        · subst ha
          omega
    · intro hkb
      by_cases hr0 : r = 0
      · rw [if_pos hr0] at hkb
        subst hkb
        have := hge 0 (by omega) (by omega)
        refine ⟨Or.inr ⟨rfl, le_antisymm this h0⟩, le_trans this
          (getElem_mono pts S.sorted 0 1 (by omega) (by omega)), Or.inr (lt_of_le_of_lt this
            (List.pairwise_iff_getElem.mp S.sorted 0 1 (by omega) (by omega) (by omega)))⟩
      · rw [if_neg hr0] at hkb
        subst hkb
        have e : r - 1 + 1 = r := by omega
        have hr1 := hlt (r-1) (by omega) (by omega)
        have hr2 := hge r hrN (le_refl _)
        simp only [e]
        refine ⟨Or.inl hr1, hr2, ?_⟩
        by_cases hl : r - 1 + 2 = pts.length
        · right
          have : r = pts.length - 1 := by omega
          subst this
          exact h1
        · exact Or.inl hl
  · rw [inBin_out pts k hk]
    simp only [Bool.false_eq_true, false_iff]
    split <;> omega

/-- Outside the range a value is in no bin. -/
theorem inBin_outside (pts : List D) (S : Subdivision pts) (v : D)
    (h : v < pts[0]'(by have := S.two; omega) ∨ pts[pts.length - 1]'(by have := S.two; omega) ≤ v)
    (k : Nat) : inBin pts k v = false := by
  have htwo := S.two
  rw [← Bool.not_eq_true]
  intro hc
  rcases Nat.lt_or_ge (k+1) pts.length with hk | hk
  · rw [inBin_eq pts k hk] at hc
    obtain ⟨ha, hb, hlast⟩ := hc
    rcases h with h | h
    · have h0k := getElem_mono pts S.sorted 0 k (by omega) (by omega)
      rcases ha with ha | ⟨-, ha⟩
      · exact absurd (lt_trans (lt_of_le_of_lt h0k ha) h) (lt_irrefl _)
      · rw [ha] at h
        exact absurd (lt_of_le_of_lt h0k h) (lt_irrefl _)
    · have hkl := getElem_mono pts S.sorted (k+1) (pts.length - 1) (by omega) (by omega)
      rcases hlast with hl | hl
      · have : pts[k+1] < pts[pts.length - 1]'(by omega) :=
          List.pairwise_iff_getElem.mp S.sorted _ _ hk (by omega) (by omega)
        exact absurd (lt_of_le_of_lt hb (lt_of_lt_of_le this h)) (lt_irrefl _)
      · exact absurd (lt_of_lt_of_le hl (le_trans hkl h)) (lt_irrefl _)
  · rw [inBin_out pts k hk] at hc
    exact absurd hc (by simp)

/-- One step of `Histogram::consume`. -/
theorem Hist.consume_spec (debug : Bool) (pts : List D) (S : Subdivision pts) (bins : List Nat)
    (hb : bins.length = pts.length - 1) (v : D) :
    ∃ bins', Hist.consume debug ⟨pts, bins⟩ (.num v) = .ok ⟨pts, bins'⟩ ∧
      bins'.length = bins.length ∧
      ∀ k (hk : k < bins.length) (hk' : k < bins'.length),
        bins'[k] = bins[k] + if inBin pts k v then 1 else 0 := by
  have htwo := S.two
  unfold Hist.consume
  simp only
  rw [readAt_ok pts 0 (by omega), readAt_ok pts (pts.length - 1) (by omega)]
  simp only [bind, Except.bind]
  by_cases hout : v < pts[0]'(by omega) ∨ pts[pts.length - 1]'(by omega) ≤ v
  · have : ((Fl.num v).ltPt (pts[0]'(by omega)) || (Fl.num v).gePt (pts[pts.length - 1]'(by omega))) = true := by
      simpa [Fl.ltPt, Fl.gePt] using hout
    rw [if_pos this]
    refine ⟨bins, rfl, rfl, ?_⟩
    intro k hk _
    rw [inBin_outside pts S v hout k]
    simp
  · have : ¬ ((Fl.num v).ltPt (pts[0]'(by omega)) || (Fl.num v).gePt (pts[pts.length - 1]'(by omega))) = true := by
      simpa [Fl.ltPt, Fl.gePt] using hout
    rw [if_neg this]
    have h01 : pts[0]'(by omega) ≤ v ∧ v < pts[pts.length - 1]'(by omega) := by
      constructor
      · exact not_lt.mp (fun h => hout (Or.inl h))
      · exact not_le.mp (fun h => hout (Or.inr h))
    obtain ⟨b, hbn, hbl, hin⟩ := binNumber_spec debug Fl.lePt
      (by intro v p h; simp [Fl.lePt, le_of_lt h]) pts S v h01.1 h01.2
    rw [hbn]
    simp only
    rw [if_pos (by omega)]
    refine ⟨_, rfl, by simp, ?_⟩
    intro k hk hk'
    rw [List.getElem_modify, hin k]
    by_cases h : b = k
    · subst h; simp
    · have : ¬ k = b := fun e => h e.symm
      simp [h, this]

theorem histAfter_spec (debug : Bool) (pts : List D) (S : Subdivision pts) (bins : List Nat)
    (hb : bins.length = pts.length - 1) (xs : List D) :
    ∃ bins', histAfter debug ⟨pts, bins⟩ (xs.map .num) = .ok ⟨pts, bins'⟩ ∧
      bins'.length = bins.length ∧
      ∀ k (hk : k < bins.length) (hk' : k < bins'.length),
        bins'[k] = bins[k] + xs.countP (inBin pts k) := by
  induction xs using List.reverseRecOn with
  | nil => exact ⟨bins, rfl, rfl, fun k _ _ => by simp⟩
  | append_singleton xs x ih =>
    obtain ⟨b1, h1, h2, h3⟩ := ih
    obtain ⟨b2, h4, h5, h6⟩ := Hist.consume_spec debug pts S b1 (by omega) x
    rw [histAfter] at h1 ⊢
    rw [List.map_append, List.map_singleton, foldlM_append_ok _ _ _ _ _ h1]
    refine ⟨b2, h4, by omega, ?_⟩
    intro k hk hk'
    rw [h6 k (by omega) hk', h3 k hk (by omega), List.countP_append, List.countP_singleton]
    omega

theorem Hist.get_spec (pts : List D) (bins : List Nat) (S : Subdivision pts)
    (hb : bins.length = pts.length - 1) :
    ∃ rows, (Hist.mk pts bins).get = .ok rows ∧ rows.length = bins.length ∧
      ∀ k (hk : k < rows.length) (h1 : k < pts.length) (h2 : k + 1 < pts.length)
        (h3 : k < bins.length), rows[k] = (pts[k], pts[k+1], bins[k]) := by
  have htwo := S.two
  have hrow : ∀ k ∈ List.range bins.length, (Hist.mk pts bins).row k =
      .ok ((fun k => ((pts[k]?.getD (pts[0]'(by omega)), pts[k+1]?.getD (pts[0]'(by omega)),
        bins[k]?.getD 0))) k) := by
    intro k hk
    have hk : k < bins.length := by simpa using hk
    unfold Hist.row
    simp only
    rw [readAt_ok pts k (by omega), readAt_ok pts (k+1) (by omega), readAt_ok bins k hk]
    simp only [bind, Except.bind, pure, Except.pure]
    rw [List.getElem?_eq_getElem (by omega), List.getElem?_eq_getElem (by omega),
      List.getElem?_eq_getElem hk]
    rfl
  refine ⟨_, mapM_ok _ _ _ hrow, by simp, ?_⟩
  intro k hk h1 h2 h3
  simp [h1, h2, h3]

theorem strictlyIncreasing_iff (l : List D) : strictlyIncreasing l = true ↔ l.Pairwise (· < ·) := by
  match l with
  | [] => simp [strictlyIncreasing]
  | [a] => simp [strictlyIncreasing]
  | a :: b :: l =>
    rw [strictlyIncreasing, Bool.and_eq_true, decide_eq_true_iff, strictlyIncreasing_iff (b :: l)]
    constructor
    · rintro ⟨h1, h2⟩
      rw [List.pairwise_cons]
      refine ⟨?_, h2⟩
      intro c hc
      rcases List.mem_cons.mp hc with rfl | hc
      · exact h1
      · exact lt_trans h1 ((List.pairwise_cons.mp h2).1 c hc)
    · intro h
      exact ⟨(List.pairwise_cons.mp h).1 b (by simp), (List.pairwise_cons.mp h).2⟩

/-! ### PairHistogram -/

theorem PairHist.consume_spec (debug : Bool) (xp yp : List D) (Sx : Subdivision xp)
    (Sy : Subdivision yp) (bins : Nat → Nat → Nat) (v w : D) :
    ∃ bins', PairHist.consume debug ⟨xp, yp, bins⟩ [.num v, .num w] = .ok ⟨xp, yp, bins'⟩ ∧
      ∀ i j, bins' i j = bins i j + if inBin xp i v && inBin yp j w then 1 else 0 := by
  have hx2 := Sx.two
  have hy2 := Sy.two
  unfold PairHist.consume
  simp only [List.length_cons, List.length_nil, Nat.reduceAdd, decide_true, Bool.not_true,
    Bool.and_false, Bool.false_eq_true, if_false]
  rw [readAt_ok xp 0 (by omega), readAt_ok xp (xp.length - 1) (by omega),
    readAt_ok yp 0 (by omega), readAt_ok yp (yp.length - 1) (by omega)]
  have r0 : readAt [Fl.num v, Fl.num w] 0 = .ok (.num v) := rfl
  have r1 : readAt [Fl.num v, Fl.num w] 1 = .ok (.num w) := rfl
  rw [r0, r1]
  simp only [bind, Except.bind, pure, Except.pure]
  by_cases hxo : v < xp[0]'(by omega) ∨ xp[xp.length - 1]'(by omega) ≤ v
  · have : ((Fl.num v).ltPt (xp[0]'(by omega)) || (Fl.num v).gePt (xp[xp.length - 1]'(by omega))) = true := by
      simpa [Fl.ltPt, Fl.gePt] using hxo
    rw [if_pos this]
    refine ⟨bins, rfl, fun i j => ?_⟩
    rw [inBin_outside xp Sx v hxo i]; simp
  · have hxn : ¬ ((Fl.num v).ltPt (xp[0]'(by omega)) || (Fl.num v).gePt (xp[xp.length - 1]'(by omega))) = true := by
      simpa [Fl.ltPt, Fl.gePt] using hxo
    rw [if_neg hxn]
    by_cases hyo : w < yp[0]'(by omega) ∨ yp[yp.length - 1]'(by omega) ≤ w
    · have : ((Fl.num w).ltPt (yp[0]'(by omega)) || (Fl.num w).gePt (yp[yp.length - 1]'(by omega))) = true := by
        simpa [Fl.ltPt, Fl.gePt] using hyo
      rw [if_pos this]
      refine ⟨bins, rfl, fun i j => ?_⟩
      rw [inBin_outside yp Sy w hyo j]; simp
    · have hyn : ¬ ((Fl.num w).ltPt (yp[0]'(by omega)) || (Fl.num w).gePt (yp[yp.length - 1]'(by omega))) = true := by
        simpa [Fl.ltPt, Fl.gePt] using hyo
      rw [if_neg hyn]
      obtain ⟨bx, hbx, hbxl, hinx⟩ := binNumber_spec debug Fl.ltPt
        (by intro v p h; simp [Fl.ltPt, h]) xp Sx v (not_lt.mp (fun h => hxo (Or.inl h)))
        (not_le.mp (fun h => hxo (Or.inr h)))
      obtain ⟨by', hby, hbyl, hiny⟩ := binNumber_spec debug Fl.ltPt
        (by intro v p h; simp [Fl.ltPt, h]) yp Sy w (not_lt.mp (fun h => hyo (Or.inl h)))
        (not_le.mp (fun h => hyo (Or.inr h)))
      rw [hbx, hby]
      have hrc : (decide (bx < (PairHist.mk xp yp bins).rows) &&
          decide (by' < (PairHist.mk xp yp bins).cols)) = true := by
        have h1 : bx < (PairHist.mk xp yp bins).rows := by show bx < xp.length - 1; omega
        have h2 : by' < (PairHist.mk xp yp bins).cols := by show by' < yp.length - 1; omega
        simp [h1, h2]
      simp only
      rw [if_pos hrc]
      refine ⟨_, rfl, fun i j => ?_⟩
      simp only [hinx, hiny]
      by_cases h1 : i = bx <;> by_cases h2 : j = by' <;> simp [h1, h2]

theorem pairHistAfter_spec (debug : Bool) (xp yp : List D) (Sx : Subdivision xp)
    (Sy : Subdivision yp) (G : Nat → Nat → Nat) (xs : List (D × D)) :
    ∃ bins', pairHistAfter debug ⟨xp, yp, G⟩ (xs.map (fun p => [.num p.1, .num p.2]))
        = .ok ⟨xp, yp, bins'⟩ ∧
      ∀ i j, bins' i j = G i j + xs.countP (fun p => inBin xp i p.1 && inBin yp j p.2) := by
  induction xs using List.reverseRecOn with
  | nil => exact ⟨G, rfl, fun _ _ => by simp⟩
  | append_singleton xs x ih =>
    obtain ⟨b1, h1, h2⟩ := ih
    obtain ⟨b2, h3, h4⟩ := PairHist.consume_spec debug xp yp Sx Sy b1 x.1 x.2
    rw [pairHistAfter] at h1 ⊢
    rw [List.map_append, List.map_singleton, foldlM_append_ok _ _ _ _ _ h1]
    refine ⟨b2, h3, fun i j => ?_⟩
    rw [h4, h2, List.countP_append, List.countP_singleton]
    omega

theorem PairHist.get_spec (xp yp : List D) (bins : Nat → Nat → Nat) (Sx : Subdivision xp)
    (Sy : Subdivision yp) :
    ∃ es, (PairHist.mk xp yp bins).get = .ok es ∧
      es.length = (xp.length - 1) * (yp.length - 1) ∧
      ∀ i j (hi : i + 1 < xp.length) (hj : j + 1 < yp.length),
        es[i * (yp.length - 1) + j]? =
          some ((xp[i], yp[j]), (xp[i+1], yp[j+1]), bins i j) := by
  have hx2 := Sx.two
  have hy2 := Sy.two
  let e : Nat → Nat → ((D × D) × (D × D) × Nat) := fun i j =>
    ((xp[i]?.getD (xp[0]'(by omega)), yp[j]?.getD (yp[0]'(by omega))),
     (xp[i+1]?.getD (xp[0]'(by omega)), yp[j+1]?.getD (yp[0]'(by omega))), bins i j)
  have hent : ∀ i j, i + 1 < xp.length → j + 1 < yp.length →
      (PairHist.mk xp yp bins).entry i j = .ok (e i j) := by
    intro i j hi hj
    unfold PairHist.entry
    simp only
    rw [readAt_ok xp i (by omega), readAt_ok xp (i+1) hi, readAt_ok yp j (by omega),
      readAt_ok yp (j+1) hj]
    simp only [bind, Except.bind, pure, Except.pure, e]
    rw [List.getElem?_eq_getElem (show i < xp.length by omega),
      List.getElem?_eq_getElem (show j < yp.length by omega), List.getElem?_eq_getElem hi,
      List.getElem?_eq_getElem hj]
    rfl
  have hrows : (List.range (xp.length - 1)).mapM (fun x => (List.range (yp.length - 1)).mapM
      (fun y => (PairHist.mk xp yp bins).entry x y)) = .ok ((List.range (xp.length - 1)).map
        (fun x => (List.range (yp.length - 1)).map (fun y => e x y))) := by
    apply mapM_ok
    intro i hi
    apply mapM_ok
    intro j hj
    exact hent i j (by simp at hi; omega) (by simp at hj; omega)
  have hlen : ∀ n m, ((List.range n).map (fun x => (List.range m).map (fun y => e x y))).flatten.length
      = n * m := by
    intro n m
    rw [List.length_flatten, List.map_map]
    have : (List.length ∘ fun x => (List.range m).map (fun y => e x y)) = fun _ => m := by
      funext x; simp
    rw [this]; simp
  refine ⟨((List.range (xp.length - 1)).map
        (fun x => (List.range (yp.length - 1)).map (fun y => e x y))).flatten, ?_, hlen _ _, ?_⟩
  · unfold PairHist.get
    simp only [PairHist.rows, PairHist.cols]
    rw [hrows]; rfl
  · intro i j hi hj
    have hidx : ∀ n m i j, i < n → j < m →
        ((List.range n).map (fun x => (List.range m).map (fun y => e x y))).flatten[i * m + j]?
          = some (e i j) := by
      intro n
      induction n with
      | zero => intro m i j hi; omega
      | succ n ih =>
        intro m i j hi hj
        rw [List.range_succ, List.map_append, List.flatten_append]
        rcases Nat.lt_or_ge i n with hin | hin
        · rw [List.getElem?_append_left]
          · exact ih m i j hin hj
          · rw [hlen]
            calc i * m + j < i * m + m := by omega
              _ = (i+1) * m := by rw [Nat.add_mul]; simp
              _ ≤ n * m := Nat.mul_le_mul_right m hin
        · have : i = n := by omega
          subst this
          rw [List.getElem?_append_right (by rw [hlen]; omega), hlen]
          have : i * m + j - i * m = j := by omega
          rw [this]
          simp [hj]
    rw [hidx _ _ i j (by omega) (by omega)]
    simp only [e]
    rw [List.getElem?_eq_getElem (show i < xp.length by omega),
      List.getElem?_eq_getElem (show j < yp.length by omega), List.getElem?_eq_getElem hi,
      List.getElem?_eq_getElem hj]
    rfl

end

section Ctor
variable {K : Type} [Field K] [LinearOrder K] [IsStrictOrderedRing K]

theorem intervalPoints_length (lo hi : K) (n : Nat) (f : K → K) :
    (intervalPoints lo hi n f).length = n + 1 := by simp [intervalPoints]

/-- The `k`-th point (also for `k = n`, in exact arithmetic). -/
theorem intervalPoints_get (lo hi : K) (n : Nat) (hn : 1 ≤ n) (f : K → K) (k : Nat)
    (hk : k < (intervalPoints lo hi n f).length) :
    (intervalPoints lo hi n f)[k] = f (lo + (k : K) * ((hi - lo) / (n : K))) := by
  have hk' := hk
  rw [intervalPoints_length] at hk'
  have hn0 : (n : K) ≠ 0 := by
    have : (0:K) < n := by exact_mod_cast hn
    exact ne_of_gt this
  rw [← Option.some_inj, ← List.getElem?_eq_getElem hk]
  simp only [intervalPoints]
  rcases Nat.lt_or_ge k n with h | h
  · rw [List.getElem?_append_left (by simpa using h)]
    simp [h]
  · have : k = n := by omega
    subst this
    rw [List.getElem?_append_right (by simp)]
    simp
    congr 1
    field_simp
    ring

theorem intervalPoints_sorted (lo hi : K) (h : lo < hi) (n : Nat) (hn : 1 ≤ n) (f : K → K)
    (hf : ∀ a b, lo ≤ a → a < b → b ≤ hi → f a < f b) :
    (intervalPoints lo hi n f).Pairwise (· < ·) := by
  rw [List.pairwise_iff_getElem]
  intro i j hi' hj' hij
  rw [intervalPoints_get lo hi n hn f i hi', intervalPoints_get lo hi n hn f j hj']
  rw [intervalPoints_length] at hi' hj'
  have hn0 : (0 : K) < n := by exact_mod_cast hn
  have hd : 0 < (hi - lo) / (n : K) := div_pos (by linarith) hn0
  have hij' : (i : K) < j := by exact_mod_cast hij
  have hjn : (j : K) ≤ n := by exact_mod_cast (by omega)
  have hi0 : (0 : K) ≤ i := by exact_mod_cast Nat.zero_le i
  apply hf
  · have := mul_nonneg hi0 hd.le
    linarith
  · have := mul_lt_mul_of_pos_right hij' hd
    linarith
  · have h1 := mul_le_mul_of_nonneg_right hjn hd.le
    have h2 : (n : K) * ((hi - lo) / (n : K)) = hi - lo := by field_simp
    linarith

end Ctor

end SampleFlow
