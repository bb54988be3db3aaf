import Verif.Model.HistogramTypes
import Verif.Spec.HistogramTypes
import Verif.Proofs.HistogramRounding

namespace SampleFlow
open Spec

namespace HistTypes
open HistRound

section
variable {C D : Type} [LinearOrder C] [LinearOrder D]

/-- the interval of bin `k` -/
def InBin (pts : List D) (k : Nat) (v : D) : Prop := ∃ (h : k + 1 < pts.length), (pts[k] < v ∨ (k = 0 ∧ v = pts[0])) ∧ v ≤ pts[k+1]

/-- `bin_number`, also for the right end point -/
theorem binNumber_closed (debug : Bool) (upper : Fl D → D → Bool) (pts : List D) (S : WeakSubdivision pts)
    (v : D) (h0 : pts[0]'(by have := S.two; omega) ≤ v) (h1 : v ≤ pts[pts.length - 1]'(by have := S.two; omega)) (hup : debug = true → upper (.num v) (pts[pts.length - 1]'(by have := S.two; omega)) = true) :
    ∃ b, binNumber debug upper pts (.num v) = .ok b ∧ b + 1 < pts.length ∧ ∀ k, InBin pts k v ↔ k = b := by
  have htwo := S.two
  obtain ⟨r, hr, hrl, hlt, hge⟩ := lowerBoundLoop_spec pts v S.sorted 0 pts.length (by omega) (by intro i _ h; omega) (by intro i hi h; omega)
  have hrN : r < pts.length := by
    by_contra hcon
    have := hlt (pts.length - 1) (by omega) (by omega)
    exact absurd (lt_of_lt_of_le this h1) (lt_irrefl _)
  have hgt0 : (Fl.num v).gePt (pts[0]'(by omega)) = true := by simp [Fl.gePt, h0]
  have hbn : binNumber debug upper pts (.num v) = .ok (if r = 0 then 0 else r - 1) := by
    unfold binNumber
    rw [readAt_ok pts 0 (by omega), readAt_ok pts (pts.length - 1) (by omega)]
    have hd : (debug && !((Fl.num v).gePt (pts[0]'(by omega)) && upper (.num v) (pts[pts.length - 1]'(by omega)))) = false := by
      cases debug with
      | false => rfl
      | true => rw [hgt0, hup rfl]; rfl
    simp only [bind, Except.bind, hd, Bool.false_eq_true, if_false, lowerBound, hr, pure, Except.pure]
    split <;> rfl
  refine ⟨_, hbn, by split <;> omega, ?_⟩
  intro k
  constructor
  · rintro ⟨hk, ha, hb⟩
    by_cases hr0 : r = 0
    · rw [if_pos hr0]
      rcases ha with ha | ⟨ha, -⟩
      · have := hge k (by omega) (by omega)
        exact absurd (lt_of_lt_of_le ha this) (lt_irrefl _)
      · exact ha
    · rw [if_neg hr0]
      have hr1 := hlt (r-1) (by omega) (by omega)
      have hr2 := hge r hrN (le_refl _)
      have h3 : ¬ k + 1 ≤ r - 1 := by
        intro hh
        have := mono pts S.sorted (k+1) (r-1) (by omega) hh
        exact absurd (lt_of_le_of_lt (le_trans hb this) hr1) (lt_irrefl _)
      rcases ha with ha | ⟨ha, ha'⟩
      · have : ¬ r ≤ k := by
          intro hh
          have := mono pts S.sorted r k (by omega) hh
          exact absurd (lt_of_lt_of_le ha (le_trans hr2 this)) (lt_irrefl _)
        omega
      · have := hlt 0 (by omega) (by omega)
        rw [ha'] at this
        exact absurd this (lt_irrefl _)
  · intro hkb
    by_cases hr0 : r = 0
    · rw [if_pos hr0] at hkb
      subst hkb
      have := hge 0 (by omega) (by omega)
      exact ⟨by omega, Or.inr ⟨rfl, le_antisymm this h0⟩, le_trans this (mono pts S.sorted 0 1 (by omega) (by omega))⟩
    · rw [if_neg hr0] at hkb
      subst hkb
      have e : r - 1 + 1 = r := by omega
      have hr1 := hlt (r-1) (by omega) (by omega)
      have hr2 := hge r hrN (le_refl _)
      refine ⟨by omega, Or.inl hr1, ?_⟩
      simp only [e]
      exact hr2

variable {emb : D → C} {toDouble : C → D}

theorem emb_le (hc : Conversions emb toDouble) {a b : D} (h : a ≤ b) : emb a ≤ emb b := by
  rcases h.lt_or_eq with h | h
  · exact (hc.embLt _ _ h).le
  · rw [h]

theorem range_closed (hc : Conversions emb toDouble) {a b : D} {x : C} (h0 : emb a ≤ x) (h1 : x < emb b) : a ≤ toDouble x ∧ toDouble x ≤ b := by
  have e0 := hc.mono _ _ h0
  have e1 := hc.mono _ _ h1.le
  rw [hc.exact] at e0 e1
  exact ⟨e0, e1⟩

theorem consumeAs_nan (pts : List D) (S : WeakSubdivision pts) (bins : List Nat) (hb : bins.length = pts.length - 1) :
    Hist.consumeAs emb toDouble true ⟨pts, bins⟩ .nan = .error .assertion ∧
    Hist.consumeAs emb toDouble false ⟨pts, bins⟩ .nan = .ok ⟨pts, bins.modify 0 (· + 1)⟩ := by
  have htwo := S.two
  unfold Hist.consumeAs binNumber
  simp only
  rw [readAt_ok pts 0 (by omega), readAt_ok pts (pts.length - 1) (by omega)]
  simp only [bind, Except.bind, Fl.ltPt, Fl.gePt, Bool.or_self, Bool.false_eq_true, if_false, Fl.convert, lowerBound, lowerBoundLoop_nan pts 0 pts.length (by omega)]
  constructor
  · rfl
  · have : 0 < bins.length := by omega
    simp [pure, Except.pure, this]

theorem consumeAs_spec (hc : Conversions emb toDouble) (debug : Bool) (pts : List D) (S : WeakSubdivision pts) (bins : List Nat) (hb : bins.length = pts.length - 1) (x : C) :
    ∃ bins', Hist.consumeAs emb toDouble debug ⟨pts, bins⟩ (.num x) = .ok ⟨pts, bins'⟩ ∧ bins'.length = bins.length ∧
      ∀ k (hk : k < bins.length) (hk' : k < bins'.length), bins'[k] = bins[k] + if countedAs emb toDouble pts k x then 1 else 0 := by
  have htwo := S.two
  unfold Hist.consumeAs
  simp only
  rw [readAt_ok pts 0 (by omega), readAt_ok pts (pts.length - 1) (by omega)]
  simp only [bind, Except.bind]
  by_cases hout : x < emb (pts[0]'(by omega)) ∨ emb (pts[pts.length - 1]'(by omega)) ≤ x
  · have : ((Fl.num x).ltPt (emb (pts[0]'(by omega))) || (Fl.num x).gePt (emb (pts[pts.length - 1]'(by omega)))) = true := by
      simpa [Fl.ltPt, Fl.gePt] using hout
    rw [if_pos this]
    refine ⟨bins, rfl, rfl, ?_⟩
    intro k hk _
    rw [if_neg]
    · rfl
    · rintro ⟨_, h1, h2, _⟩
      rcases hout with h | h
      · exact absurd (lt_of_lt_of_le h h1) (lt_irrefl _)
      · exact absurd (lt_of_lt_of_le h2 h) (lt_irrefl _)
  · have : ¬ ((Fl.num x).ltPt (emb (pts[0]'(by omega))) || (Fl.num x).gePt (emb (pts[pts.length - 1]'(by omega)))) = true := by
      simpa [Fl.ltPt, Fl.gePt] using hout
    rw [if_neg this]
    have h0 : emb (pts[0]'(by omega)) ≤ x := not_lt.mp (fun h => hout (Or.inl h))
    have h1 : x < emb (pts[pts.length - 1]'(by omega)) := not_le.mp (fun h => hout (Or.inr h))
    obtain ⟨e0, e1⟩ := range_closed hc h0 h1
    obtain ⟨b, hbn, hbl, hin⟩ := binNumber_closed debug Fl.lePt pts S (toDouble x) e0 e1 (fun _ => by simp [Fl.lePt, e1])
    simp only [Fl.convert]
    rw [hbn]
    simp only
    rw [if_pos (by omega)]
    refine ⟨_, rfl, by simp, ?_⟩
    intro k hk hk'
    have hin' : countedAs emb toDouble pts k x ↔ k = b := by
      rw [← hin k]
      constructor
      · rintro ⟨h, _, _, h2, h3⟩; exact ⟨h, h2, h3⟩
      · rintro ⟨h, h2, h3⟩; exact ⟨h, h0, h1, h2, h3⟩
    rw [List.getElem_modify]
    simp only [hin']
    by_cases h : b = k
    · subst h; simp
    · have : ¬ k = b := fun e => h e.symm
      simp [h, this]

theorem afterAs_release (hc : Conversions emb toDouble) (pts : List D) (S : WeakSubdivision pts) (xs : List (Fl C)) : ∀ (bins : List Nat) (_ : bins.length = pts.length - 1),
    ∃ bins', histAfterAs emb toDouble false ⟨pts, bins⟩ xs = .ok ⟨pts, bins'⟩ ∧ bins'.length = bins.length ∧
      ∀ k (hk : k < bins.length) (hk' : k < bins'.length),
        bins'[k] = bins[k] + (numbers xs).countP (fun x => countedAs emb toDouble pts k x) + if k = 0 then nans xs else 0 := by
  induction xs with
  | nil => intro bins hb; exact ⟨bins, rfl, rfl, fun k _ _ => by simp [numbers, nans]⟩
  | cons x xs ih =>
    intro bins hb
    cases x with
    | nan =>
      obtain ⟨b2, h4, h5, h6⟩ := ih (bins.modify 0 (· + 1)) (by simpa using hb)
      refine ⟨b2, ?_, by simpa using h5, ?_⟩
      · rw [histAfterAs, List.foldlM_cons, (consumeAs_nan pts S bins hb).2]
        exact h4
      · intro k hk hk'
        rw [h6 k (by simpa using hk) hk', List.getElem_modify]
        simp only [numbers, nans]
        by_cases h : k = 0
        · subst h; simp; omega
        · have : ¬ 0 = k := fun e => h e.symm
          simp [h, this]
    | num x =>
      obtain ⟨b1, h1, h2, h3⟩ := consumeAs_spec hc false pts S bins hb x
      obtain ⟨b2, h4, h5, h6⟩ := ih b1 (by omega)
      refine ⟨b2, ?_, by omega, ?_⟩
      · rw [histAfterAs, List.foldlM_cons, h1]
        exact h4
      · intro k hk hk'
        rw [h6 k (by omega) hk', h3 k hk (by omega)]
        simp only [numbers, nans, List.countP_cons, decide_eq_true_eq]
        omega

theorem afterAs_debug (hc : Conversions emb toDouble) (debug : Bool) (pts : List D) (S : WeakSubdivision pts) (xs : List C) : ∀ (bins : List Nat) (_ : bins.length = pts.length - 1),
    ∃ bins', histAfterAs emb toDouble debug ⟨pts, bins⟩ (xs.map .num) = .ok ⟨pts, bins'⟩ ∧ bins'.length = bins.length ∧
      ∀ k (hk : k < bins.length) (hk' : k < bins'.length), bins'[k] = bins[k] + xs.countP (fun x => countedAs emb toDouble pts k x) := by
  induction xs with
  | nil => intro bins hb; exact ⟨bins, rfl, rfl, fun k _ _ => by simp⟩
  | cons x xs ih =>
    intro bins hb
    obtain ⟨b1, h1, h2, h3⟩ := consumeAs_spec hc debug pts S bins hb x
    obtain ⟨b2, h4, h5, h6⟩ := ih b1 (by omega)
    refine ⟨b2, ?_, by omega, ?_⟩
    · rw [histAfterAs, List.map_cons, List.foldlM_cons, h1]
      exact h4
    · intro k hk hk'
      rw [h6 k (by omega) hk', h3 k hk (by omega)]
      simp only [List.countP_cons, decide_eq_true_eq]
      omega

/-- what `PairHistogram::consume` does with a sample of two numbers -/
theorem pairConsumeAs_spec (hc : Conversions emb toDouble) (debug : Bool) (xp yp : List D) (Sx : WeakSubdivision xp) (Sy : WeakSubdivision yp) (bins : Nat → Nat → Nat) (v w : C)
    (hd : debug = true → (v < emb (xp[xp.length - 1]'(by have := Sx.two; omega)) → toDouble v < xp[xp.length - 1]'(by have := Sx.two; omega)) ∧
      (w < emb (yp[yp.length - 1]'(by have := Sy.two; omega)) → toDouble w < yp[yp.length - 1]'(by have := Sy.two; omega))) :
    ∃ bins', PairHist.consumeAs emb toDouble debug ⟨xp, yp, bins⟩ [.num v, .num w] = .ok ⟨xp, yp, bins'⟩ ∧
      ∀ i j, bins' i j = bins i j + if countedAs emb toDouble xp i v ∧ countedAs emb toDouble yp j w then 1 else 0 := by
  have hx2 := Sx.two
  have hy2 := Sy.two
  have hout : ∀ (pts : List D) (S : WeakSubdivision pts) (v : C) (k : Nat), (v < emb (pts[0]'(by have := S.two; omega)) ∨ emb (pts[pts.length - 1]'(by have := S.two; omega)) ≤ v) → ¬ countedAs emb toDouble pts k v := by
    rintro pts S v k ho ⟨_, h1, h2, _⟩
    rcases ho with h | h
    · exact absurd (lt_of_lt_of_le h h1) (lt_irrefl _)
    · exact absurd (lt_of_lt_of_le h2 h) (lt_irrefl _)
  unfold PairHist.consumeAs
  simp only [List.length_cons, List.length_nil, Nat.reduceAdd, decide_true, Bool.not_true,
    Bool.and_false, Bool.false_eq_true, if_false]
  rw [readAt_ok xp 0 (by omega), readAt_ok xp (xp.length - 1) (by omega),
    readAt_ok yp 0 (by omega), readAt_ok yp (yp.length - 1) (by omega)]
  have r0 : readAt [Fl.num v, Fl.num w] 0 = .ok (.num v) := rfl
  have r1 : readAt [Fl.num v, Fl.num w] 1 = .ok (.num w) := rfl
  rw [r0, r1]
  simp only [bind, Except.bind, pure, Except.pure]
  by_cases hxo : v < emb (xp[0]'(by omega)) ∨ emb (xp[xp.length - 1]'(by omega)) ≤ v
  · have : ((Fl.num v).ltPt (emb (xp[0]'(by omega))) || (Fl.num v).gePt (emb (xp[xp.length - 1]'(by omega)))) = true := by
      simpa [Fl.ltPt, Fl.gePt] using hxo
    rw [if_pos this]
    refine ⟨bins, rfl, fun i j => ?_⟩
    rw [if_neg (fun hc => hout xp Sx v i hxo hc.1)]; rfl
  · have hxn : ¬ ((Fl.num v).ltPt (emb (xp[0]'(by omega))) || (Fl.num v).gePt (emb (xp[xp.length - 1]'(by omega)))) = true := by
      simpa [Fl.ltPt, Fl.gePt] using hxo
    rw [if_neg hxn]
    by_cases hyo : w < emb (yp[0]'(by omega)) ∨ emb (yp[yp.length - 1]'(by omega)) ≤ w
    · have : ((Fl.num w).ltPt (emb (yp[0]'(by omega))) || (Fl.num w).gePt (emb (yp[yp.length - 1]'(by omega)))) = true := by
        simpa [Fl.ltPt, Fl.gePt] using hyo
      rw [if_pos this]
      refine ⟨bins, rfl, fun i j => ?_⟩
      rw [if_neg (fun hc => hout yp Sy w j hyo hc.2)]; rfl
    · have hyn : ¬ ((Fl.num w).ltPt (emb (yp[0]'(by omega))) || (Fl.num w).gePt (emb (yp[yp.length - 1]'(by omega)))) = true := by
        simpa [Fl.ltPt, Fl.gePt] using hyo
      rw [if_neg hyn]
      have hx0 := not_lt.mp (fun h => hxo (Or.inl h))
      have hx1 := not_le.mp (fun h => hxo (Or.inr h))
      have hy0 := not_lt.mp (fun h => hyo (Or.inl h))
      have hy1 := not_le.mp (fun h => hyo (Or.inr h))
      obtain ⟨ex0, ex1⟩ := range_closed hc hx0 hx1
      obtain ⟨ey0, ey1⟩ := range_closed hc hy0 hy1
      obtain ⟨bx, hbx, hbxl, hinx⟩ := binNumber_closed debug Fl.ltPt xp Sx (toDouble v) ex0 ex1 (fun h => by have := (hd h).1 hx1; simp [Fl.ltPt, this])
      obtain ⟨by', hby, hbyl, hiny⟩ := binNumber_closed debug Fl.ltPt yp Sy (toDouble w) ey0 ey1 (fun h => by have := (hd h).2 hy1; simp [Fl.ltPt, this])
      simp only [Fl.convert]
      rw [hbx, hby]
      have hrc : (decide (bx < (PairHist.mk xp yp bins).rows) && decide (by' < (PairHist.mk xp yp bins).cols)) = true := by
        have h1 : bx < (PairHist.mk xp yp bins).rows := by show bx < xp.length - 1; omega
        have h2 : by' < (PairHist.mk xp yp bins).cols := by show by' < yp.length - 1; omega
        simp [h1, h2]
      simp only
      rw [if_pos hrc]
      refine ⟨_, rfl, fun i j => ?_⟩
      have hinx' : ∀ i, countedAs emb toDouble xp i v ↔ i = bx := by
        intro i
        rw [← hinx i]
        constructor
        · rintro ⟨h, _, _, h2, h3⟩; exact ⟨h, h2, h3⟩
        · rintro ⟨h, h2, h3⟩; exact ⟨h, hx0, hx1, h2, h3⟩
      have hiny' : ∀ i, countedAs emb toDouble yp i w ↔ i = by' := by
        intro i
        rw [← hiny i]
        constructor
        · rintro ⟨h, _, _, h2, h3⟩; exact ⟨h, h2, h3⟩
        · rintro ⟨h, h2, h3⟩; exact ⟨h, hy0, hy1, h2, h3⟩
      simp only [hinx', hiny']
      by_cases h1 : i = bx <;> by_cases h2 : j = by' <;> simp [h1, h2]

theorem pairAfterAs (hc : Conversions emb toDouble) (debug : Bool) (xp yp : List D) (Sx : WeakSubdivision xp) (Sy : WeakSubdivision yp) (xs : List (C × C))
    (hd : debug = true → ∀ p ∈ xs, (p.1 < emb (xp[xp.length - 1]'(by have := Sx.two; omega)) → toDouble p.1 < xp[xp.length - 1]'(by have := Sx.two; omega)) ∧
      (p.2 < emb (yp[yp.length - 1]'(by have := Sy.two; omega)) → toDouble p.2 < yp[yp.length - 1]'(by have := Sy.two; omega))) : ∀ G : Nat → Nat → Nat,
    ∃ bins, pairHistAfterAs emb toDouble debug ⟨xp, yp, G⟩ (xs.map (fun p => [.num p.1, .num p.2])) = .ok ⟨xp, yp, bins⟩ ∧
      ∀ i j, bins i j = G i j + xs.countP (fun p => decide (countedAs emb toDouble xp i p.1 ∧ countedAs emb toDouble yp j p.2)) := by
  induction xs with
  | nil => intro G; exact ⟨G, rfl, fun _ _ => by simp⟩
  | cons x xs ih =>
    intro G
    obtain ⟨b1, h1, h2⟩ := pairConsumeAs_spec hc debug xp yp Sx Sy G x.1 x.2 (fun h => hd h x (by simp))
    obtain ⟨b2, h3, h4⟩ := ih (fun h p hp => hd h p (by simp [hp])) b1
    refine ⟨b2, ?_, fun i j => ?_⟩
    · rw [pairHistAfterAs, List.map_cons, List.foldlM_cons, h1]
      exact h3
    · rw [h4, h2, List.countP_cons]
      simp only [decide_eq_true_eq]
      omega

end

end HistTypes

end SampleFlow
