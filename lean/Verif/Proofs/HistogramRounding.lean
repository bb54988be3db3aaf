import Verif.Model.HistogramRounding
import Verif.Spec.HistogramRounding
import Verif.Proofs.Histogram
import Verif.Proofs.Rounding

namespace SampleFlow
open Spec

namespace HistRound

section
variable {D : Type} [LinearOrder D]

theorem mono (pts : List D) (hs : pts.Pairwise (· ≤ ·)) (i j : Nat) (hj : j < pts.length) (h : i ≤ j) : pts[i] ≤ pts[j] := by
  rcases Nat.lt_or_ge i j with h' | h'
  · exact List.pairwise_iff_getElem.mp hs i j (by omega) hj h'
  · have : i = j := by omega
    subst this; exact le_refl _

theorem binNumber_weak (debug : Bool) (upper : Fl D → D → Bool) (hup : ∀ v p : D, v < p → upper (.num v) p = true) (pts : List D) (S : WeakSubdivision pts)
    (v : D) (h0 : pts[0]'(by have := S.two; omega) ≤ v) (h1 : v < pts[pts.length - 1]'(by have := S.two; omega)) :
    ∃ b, binNumber debug upper pts (.num v) = .ok b ∧ b + 1 < pts.length ∧ ∀ k, countedIn pts k v ↔ k = b := by
  have htwo := S.two
  obtain ⟨r, hr, hrl, hlt, hge⟩ := lowerBoundLoop_spec pts v S.sorted 0 pts.length (by omega) (by intro i _ h; omega) (by intro i hi h; omega)
  have hrN : r < pts.length := by
    by_contra hcon
    have := hlt (pts.length - 1) (by omega) (by omega)
    exact absurd (lt_trans this h1) (lt_irrefl _)
  have hgt0 : (Fl.num v).gePt (pts[0]'(by omega)) = true := by simp [Fl.gePt, h0]
  have hup' : upper (.num v) (pts[pts.length - 1]'(by omega)) = true := hup _ _ h1
  have hbn : binNumber debug upper pts (.num v) = .ok (if r = 0 then 0 else r - 1) := by
    unfold binNumber
    rw [readAt_ok pts 0 (by omega), readAt_ok pts (pts.length - 1) (by omega)]
    simp only [bind, Except.bind, hgt0, hup', Bool.and_self, Bool.not_true, Bool.and_false,
      Bool.false_eq_true, if_false, lowerBound, hr, pure, Except.pure]
    split <;> rfl
  refine ⟨_, hbn, by split <;> omega, ?_⟩
  intro k
  constructor
  · rintro ⟨hk, _, _, ha, hb⟩
    by_cases hr0 : r = 0
    · rw [if_pos hr0]
      rcases ha with ha | ⟨ha, -⟩
      · have := hge k (by omega) (by omega)
        exact absurd (lt_of_lt_of_le ha this) (lt_irrefl _)
      · exact ha
    · rw [if_neg hr0]
      have hr1 := hlt (r-1) (by omega) (by omega)
      have hr2 := hge r hrN (le_refl _)
      have h3 : ¬ k + 1 ≤ r - 1 := by
        intro hh
        have := mono pts S.sorted (k+1) (r-1) (by omega) hh
        exact absurd (lt_of_le_of_lt (le_trans hb this) hr1) (lt_irrefl _)
      rcases ha with ha | ⟨ha, ha'⟩
      · have : ¬ r ≤ k := by
          intro hh
          have := mono pts S.sorted r k (by omega) hh
          exact absurd (lt_of_lt_of_le ha (le_trans hr2 this)) (lt_irrefl _)
        omega
      · have := hlt 0 (by omega) (by omega)
        rw [ha'] at this
        exact absurd this (lt_irrefl _)
  · intro hkb
    by_cases hr0 : r = 0
    · rw [if_pos hr0] at hkb
      subst hkb
      have := hge 0 (by omega) (by omega)
      exact ⟨by omega, h0, h1, Or.inr ⟨rfl, le_antisymm this h0⟩, le_trans this (mono pts S.sorted 0 1 (by omega) (by omega))⟩
    · rw [if_neg hr0] at hkb
      subst hkb
      have e : r - 1 + 1 = r := by omega
      have hr1 := hlt (r-1) (by omega) (by omega)
      have hr2 := hge r hrN (le_refl _)
      refine ⟨by omega, h0, h1, Or.inl hr1, ?_⟩
      simp only [e]
      exact hr2

theorem consume_weak (debug : Bool) (pts : List D) (S : WeakSubdivision pts) (bins : List Nat) (hb : bins.length = pts.length - 1) (v : D) :
    ∃ bins', Hist.consume debug ⟨pts, bins⟩ (.num v) = .ok ⟨pts, bins'⟩ ∧ bins'.length = bins.length ∧
      ∀ k (hk : k < bins.length) (hk' : k < bins'.length), bins'[k] = bins[k] + if countedIn pts k v then 1 else 0 := by
  have htwo := S.two
  unfold Hist.consume
  simp only
  rw [readAt_ok pts 0 (by omega), readAt_ok pts (pts.length - 1) (by omega)]
  simp only [bind, Except.bind]
  by_cases hout : v < pts[0]'(by omega) ∨ pts[pts.length - 1]'(by omega) ≤ v
  · have : ((Fl.num v).ltPt (pts[0]'(by omega)) || (Fl.num v).gePt (pts[pts.length - 1]'(by omega))) = true := by
      simpa [Fl.ltPt, Fl.gePt] using hout
    rw [if_pos this]
    refine ⟨bins, rfl, rfl, ?_⟩
    intro k hk _
    rw [if_neg]
    · rfl
    · rintro ⟨_, h1, h2, _⟩
      rcases hout with h | h
      · exact absurd (lt_of_lt_of_le h h1) (lt_irrefl _)
      · exact absurd (lt_of_lt_of_le h2 h) (lt_irrefl _)
  · have : ¬ ((Fl.num v).ltPt (pts[0]'(by omega)) || (Fl.num v).gePt (pts[pts.length - 1]'(by omega))) = true := by
      simpa [Fl.ltPt, Fl.gePt] using hout
    rw [if_neg this]
    have h01 : pts[0]'(by omega) ≤ v ∧ v < pts[pts.length - 1]'(by omega) := by
      constructor
      · exact not_lt.mp (fun h => hout (Or.inl h))
      · exact not_le.mp (fun h => hout (Or.inr h))
    obtain ⟨b, hbn, hbl, hin⟩ := binNumber_weak debug Fl.lePt (by intro v p h; simp [Fl.lePt, le_of_lt h]) pts S v h01.1 h01.2
    rw [hbn]
    simp only
    rw [if_pos (by omega)]
    refine ⟨_, rfl, by simp, ?_⟩
    intro k hk hk'
    rw [List.getElem_modify]
    simp only [hin k]
    by_cases h : b = k
    · subst h; simp
    · have : ¬ k = b := fun e => h e.symm
      simp [h, this]

theorem after_weak (debug : Bool) (pts : List D) (S : WeakSubdivision pts) (bins : List Nat) (hb : bins.length = pts.length - 1) (xs : List D) :
    ∃ bins', histAfter debug ⟨pts, bins⟩ (xs.map .num) = .ok ⟨pts, bins'⟩ ∧ bins'.length = bins.length ∧
      ∀ k (hk : k < bins.length) (hk' : k < bins'.length), bins'[k] = bins[k] + xs.countP (fun x => countedIn pts k x) := by
  induction xs using List.reverseRecOn with
  | nil => exact ⟨bins, rfl, rfl, fun k _ _ => by simp⟩
  | append_singleton xs x ih =>
    obtain ⟨b1, h1, h2, h3⟩ := ih
    obtain ⟨b2, h4, h5, h6⟩ := consume_weak debug pts S b1 (by omega) x
    rw [histAfter] at h1 ⊢
    rw [List.map_append, List.map_singleton, foldlM_append_ok _ _ _ _ _ h1]
    refine ⟨b2, h4, by omega, ?_⟩
    intro k hk hk'
    rw [h6 k (by omega) hk', h3 k hk (by omega), List.countP_append, List.countP_singleton]
    simp only [decide_eq_true_eq]
    omega

theorem get_weak (pts : List D) (bins : List Nat) (htwo : 2 ≤ pts.length) (hb : bins.length = pts.length - 1) :
    ∃ rows, (Hist.mk pts bins).get = .ok rows ∧ rows.length = bins.length ∧
      ∀ k (hk : k < rows.length) (h1 : k < pts.length) (h2 : k + 1 < pts.length) (h3 : k < bins.length), rows[k] = (pts[k], pts[k+1], bins[k]) := by
  have hrow : ∀ k ∈ List.range bins.length, (Hist.mk pts bins).row k =
      .ok ((fun k => ((pts[k]?.getD (pts[0]'(by omega)), pts[k+1]?.getD (pts[0]'(by omega)), bins[k]?.getD 0))) k) := by
    intro k hk
    have hk : k < bins.length := by simpa using hk
    unfold Hist.row
    simp only
    rw [readAt_ok pts k (by omega), readAt_ok pts (k+1) (by omega), readAt_ok bins k hk]
    simp only [bind, Except.bind, pure, Except.pure]
    rw [List.getElem?_eq_getElem (by omega), List.getElem?_eq_getElem (by omega), List.getElem?_eq_getElem hk]
    rfl
  refine ⟨_, mapM_ok _ _ _ hrow, by simp, ?_⟩
  intro k hk h1 h2 h3
  simp [h1, h2, h3]

theorem pairConsume_weak (debug : Bool) (xp yp : List D) (Sx : WeakSubdivision xp) (Sy : WeakSubdivision yp) (bins : Nat → Nat → Nat) (v w : D) :
    ∃ bins', PairHist.consume debug ⟨xp, yp, bins⟩ [.num v, .num w] = .ok ⟨xp, yp, bins'⟩ ∧
      ∀ i j, bins' i j = bins i j + if countedIn xp i v ∧ countedIn yp j w then 1 else 0 := by
  have hx2 := Sx.two
  have hy2 := Sy.two
  have hout : ∀ (pts : List D) (S : WeakSubdivision pts) (v : D) (k : Nat), (v < pts[0]'(by have := S.two; omega) ∨ pts[pts.length - 1]'(by have := S.two; omega) ≤ v) → ¬ countedIn pts k v := by
    rintro pts S v k ho ⟨_, h1, h2, _⟩
    rcases ho with h | h
    · exact absurd (lt_of_lt_of_le h h1) (lt_irrefl _)
    · exact absurd (lt_of_lt_of_le h2 h) (lt_irrefl _)
  unfold PairHist.consume
  simp only [List.length_cons, List.length_nil, Nat.reduceAdd, decide_true, Bool.not_true,
    Bool.and_false, Bool.false_eq_true, if_false]
  rw [readAt_ok xp 0 (by omega), readAt_ok xp (xp.length - 1) (by omega),
    readAt_ok yp 0 (by omega), readAt_ok yp (yp.length - 1) (by omega)]
  have r0 : readAt [Fl.num v, Fl.num w] 0 = .ok (.num v) := rfl
  have r1 : readAt [Fl.num v, Fl.num w] 1 = .ok (.num w) := rfl
  rw [r0, r1]
  simp only [bind, Except.bind, pure, Except.pure]
  by_cases hxo : v < xp[0]'(by omega) ∨ xp[xp.length - 1]'(by omega) ≤ v
  · have : ((Fl.num v).ltPt (xp[0]'(by omega)) || (Fl.num v).gePt (xp[xp.length - 1]'(by omega))) = true := by
      simpa [Fl.ltPt, Fl.gePt] using hxo
    rw [if_pos this]
    refine ⟨bins, rfl, fun i j => ?_⟩
    rw [if_neg (fun hc => hout xp Sx v i hxo hc.1)]; rfl
  · have hxn : ¬ ((Fl.num v).ltPt (xp[0]'(by omega)) || (Fl.num v).gePt (xp[xp.length - 1]'(by omega))) = true := by
      simpa [Fl.ltPt, Fl.gePt] using hxo
    rw [if_neg hxn]
    by_cases hyo : w < yp[0]'(by omega) ∨ yp[yp.length - 1]'(by omega) ≤ w
    · have : ((Fl.num w).ltPt (yp[0]'(by omega)) || (Fl.num w).gePt (yp[yp.length - 1]'(by omega))) = true := by
        simpa [Fl.ltPt, Fl.gePt] using hyo
      rw [if_pos this]
      refine ⟨bins, rfl, fun i j => ?_⟩
      rw [if_neg (fun hc => hout yp Sy w j hyo hc.2)]; rfl
    · have hyn : ¬ ((Fl.num w).ltPt (yp[0]'(by omega)) || (Fl.num w).gePt (yp[yp.length - 1]'(by omega))) = true := by
        simpa [Fl.ltPt, Fl.gePt] using hyo
      rw [if_neg hyn]
      obtain ⟨bx, hbx, hbxl, hinx⟩ := binNumber_weak debug Fl.ltPt (by intro v p h; simp [Fl.ltPt, h]) xp Sx v (not_lt.mp (fun h => hxo (Or.inl h)))
        (not_le.mp (fun h => hxo (Or.inr h)))
      obtain ⟨by', hby, hbyl, hiny⟩ := binNumber_weak debug Fl.ltPt (by intro v p h; simp [Fl.ltPt, h]) yp Sy w (not_lt.mp (fun h => hyo (Or.inl h)))
        (not_le.mp (fun h => hyo (Or.inr h)))
      rw [hbx, hby]
      have hrc : (decide (bx < (PairHist.mk xp yp bins).rows) && decide (by' < (PairHist.mk xp yp bins).cols)) = true := by
        have h1 : bx < (PairHist.mk xp yp bins).rows := by show bx < xp.length - 1; omega
        have h2 : by' < (PairHist.mk xp yp bins).cols := by show by' < yp.length - 1; omega
        simp [h1, h2]
      simp only
      rw [if_pos hrc]
      refine ⟨_, rfl, fun i j => ?_⟩
      simp only [hinx, hiny]
      by_cases h1 : i = bx <;> by_cases h2 : j = by' <;> simp [h1, h2]

theorem pairAfter_weak (debug : Bool) (xp yp : List D) (Sx : WeakSubdivision xp) (Sy : WeakSubdivision yp) (G : Nat → Nat → Nat) (xs : List (D × D)) :
    ∃ bins, pairHistAfter debug ⟨xp, yp, G⟩ (xs.map (fun p => [.num p.1, .num p.2])) = .ok ⟨xp, yp, bins⟩ ∧
      ∀ i j, bins i j = G i j + xs.countP (fun p => decide (countedIn xp i p.1 ∧ countedIn yp j p.2)) := by
  induction xs using List.reverseRecOn with
  | nil => exact ⟨G, rfl, fun _ _ => by simp⟩
  | append_singleton xs x ih =>
    obtain ⟨b1, h1, h2⟩ := ih
    obtain ⟨b2, h3, h4⟩ := pairConsume_weak debug xp yp Sx Sy b1 x.1 x.2
    rw [pairHistAfter] at h1 ⊢
    rw [List.map_append, List.map_singleton, foldlM_append_ok _ _ _ _ _ h1]
    refine ⟨b2, h3, fun i j => ?_⟩
    rw [h4, h2, List.countP_append, List.countP_singleton]
    simp only [decide_eq_true_eq]
    omega

end

/-! ### rounding -/

variable {u : ℝ} {fl : ℝ → ℝ}

theorem length_machinePoints {D : Type} [Arith D] (lo hi : D) (n : Nat) (f : D → D) : (machinePoints lo hi n f).length = n + 1 := by simp [machinePoints]

theorem get_machinePoints {D : Type} [Arith D] (lo hi : D) (n : Nat) (f : D → D) (k : Nat) (hk : k < (machinePoints lo hi n f).length) :
    (machinePoints lo hi n f)[k] = if k = n then f hi else f (Arith.add lo (Arith.mul (Arith.ofNat k) (Arith.div (Arith.sub hi lo) (Arith.ofNat n)))) := by
  have hk' := hk
  rw [length_machinePoints] at hk'
  rw [← Option.some_inj, ← List.getElem?_eq_getElem hk]
  simp only [machinePoints]
  rcases Nat.lt_or_ge k n with h | h
  · rw [List.getElem?_append_left (by simpa using h), if_neg (by omega)]
    simp [h]
  · have : k = n := by omega
    subst this
    rw [List.getElem?_append_right (by simp)]
    simp

/-- what is added to the left end -/
noncomputable def offset (fl : ℝ → ℝ) (lo hi : ℝ) (n k : Nat) : ℝ := fl (fl k * fl (fl (hi - lo) / fl n))

theorem offset_bounds (h : Rounding u fl) (hu0 : 0 ≤ u) (lo hi : ℝ) (hlt : lo < hi) (n : Nat) (hn : 1 ≤ n) (hrep : ∀ k ≤ n, fl (k : ℝ) = k)
    (hun : 4 * u * n ≤ 1) (k : Nat) (hk : k < n) :
    0 ≤ offset fl lo hi n k ∧ offset fl lo hi n k ≤ hi - lo ∧ |offset fl lo hi n k - k * ((hi - lo) / n)| ≤ 4 * u * (hi - lo) := by
  have hn0 : (0:ℝ) < n := by exact_mod_cast hn
  have hn1 : (1:ℝ) ≤ n := by exact_mod_cast hn
  have hk0 : (0:ℝ) ≤ k := Nat.cast_nonneg k
  have hkn : (k:ℝ) + 1 ≤ n := by exact_mod_cast hk
  have hu4 : u ≤ 1/4 := by nlinarith
  have hw : 0 < hi - lo := by linarith
  unfold offset
  rw [hrep k hk.le, hrep n le_rfl]
  obtain ⟨w, hwdef⟩ : ∃ w, w = hi - lo := ⟨_, rfl⟩
  rw [← hwdef] at hw ⊢
  have e1 := abs_le.mp (h.error w)
  rw [abs_of_pos hw] at e1
  have d0 : 0 ≤ fl w := h.nonneg hw.le
  obtain ⟨d1, hd1⟩ : ∃ d1, d1 = fl w := ⟨_, rfl⟩
  rw [← hd1] at e1 d0 ⊢
  have q0 : 0 ≤ d1 / n := div_nonneg d0 hn0.le
  have e2 := abs_le.mp (h.error (d1 / n))
  rw [abs_of_nonneg q0] at e2
  have d20 : 0 ≤ fl (d1 / n) := h.nonneg q0
  obtain ⟨d2, hd2⟩ : ∃ d2, d2 = fl (d1 / n) := ⟨_, rfl⟩
  rw [← hd2] at e2 d20 ⊢
  have m0 : 0 ≤ (k:ℝ) * d2 := mul_nonneg hk0 d20
  have e3 := abs_le.mp (h.error (k * d2))
  rw [abs_of_nonneg m0] at e3
  have d30 : 0 ≤ fl (k * d2) := h.nonneg m0
  obtain ⟨m, hm⟩ : ∃ m, m = fl (k * d2) := ⟨_, rfl⟩
  rw [← hm] at e3 d30 ⊢
  -- upper and lower bounds relative to k w / n
  obtain ⟨t, ht⟩ : ∃ t, t = w / n := ⟨_, rfl⟩
  have ht0 : 0 ≤ t := by rw [ht]; positivity
  have htn : n * t = w := by rw [ht]; field_simp
  rw [← ht]
  have b1 : d1 / n ≤ (1 + u) * t := by
    rw [ht, div_le_iff₀ hn0]; field_simp; linarith
  have b1' : (1 - u) * t ≤ d1 / n := by
    rw [ht, le_div_iff₀ hn0]; field_simp; linarith
  have b2 : d2 ≤ (1 + u) ^ 2 * t := by
    have h1 : d2 ≤ (1 + u) * (d1 / n) := by linarith
    have h2 := mul_le_mul_of_nonneg_left b1 (show 0 ≤ 1 + u by linarith)
    calc d2 ≤ (1 + u) * (d1 / n) := h1
      _ ≤ (1 + u) * ((1 + u) * t) := h2
      _ = (1 + u) ^ 2 * t := by ring
  have b2' : (1 - u) ^ 2 * t ≤ d2 := by
    have h1 : (1 - u) * (d1 / n) ≤ d2 := by linarith
    have h2 := mul_le_mul_of_nonneg_left b1' (show 0 ≤ 1 - u by linarith)
    calc (1 - u) ^ 2 * t = (1 - u) * ((1 - u) * t) := by ring
      _ ≤ (1 - u) * (d1 / n) := h2
      _ ≤ d2 := h1
  have s0 : 0 ≤ (k:ℝ) * t := mul_nonneg hk0 ht0
  have b3 : k * d2 ≤ (1 + u) ^ 2 * (k * t) := (mul_le_mul_of_nonneg_left b2 hk0).trans (le_of_eq (by ring))
  have b3' : (1 - u) ^ 2 * (k * t) ≤ k * d2 := (le_of_eq (by ring)).trans (mul_le_mul_of_nonneg_left b2' hk0)
  obtain ⟨y, hy⟩ : ∃ y, y = (k:ℝ) * d2 := ⟨_, rfl⟩
  obtain ⟨s, hs⟩ : ∃ s, s = (k:ℝ) * t := ⟨_, rfl⟩
  rw [← hy] at e3 m0 b3 b3'
  rw [← hs] at b3 b3' s0 ⊢
  have b4 : m ≤ (1 + u) ^ 3 * s := by
    have : m ≤ (1 + u) * y := by linarith
    have h2 : (1 + u) * y ≤ (1 + u) * ((1 + u) ^ 2 * s) := mul_le_mul_of_nonneg_left b3 (by linarith)
    exact (this.trans h2).trans (le_of_eq (by ring))
  have b4' : (1 - u) ^ 3 * s ≤ m := by
    have : (1 - u) * y ≤ m := by linarith
    have h2 : (1 - u) * ((1 - u) ^ 2 * s) ≤ (1 - u) * y := mul_le_mul_of_nonneg_left b3' (by linarith)
    exact (le_of_eq (by ring)).trans (h2.trans this)
  have c0 : u * u ≤ u * (1/4) := mul_le_mul_of_nonneg_left hu4 hu0
  have c00 : u * u * u ≤ u * (1/4) * (1/4) := mul_le_mul c0 hu4 hu0 (by linarith)
  have c01 : 0 ≤ u * u := mul_nonneg hu0 hu0
  have c1 : (1 + u) ^ 3 ≤ 1 + 4 * u := by
    have : (1 + u) ^ 3 = 1 + 3 * u + 3 * (u * u) + u * u * u := by ring
    linarith
  have c2 : 1 - 4 * u ≤ (1 - u) ^ 3 := by
    have : (1 - u) ^ 3 = 1 - 3 * u + 3 * (u * u) - u * u * u := by ring
    linarith
  have b5 : m ≤ (1 + 4 * u) * s := b4.trans (mul_le_mul_of_nonneg_right c1 s0)
  have b5' : (1 - 4 * u) * s ≤ m := (mul_le_mul_of_nonneg_right c2 s0).trans b4'
  have hst : s + t ≤ w := by
    rw [hs, ← htn]
    exact (le_of_eq (by ring)).trans (mul_le_mul_of_nonneg_right hkn ht0)
  have hus : 4 * u * s ≤ t := by
    rw [hs]
    have h1 : 4 * u * k ≤ 1 := (mul_le_mul_of_nonneg_left (show (k:ℝ) ≤ n by linarith) (by linarith)).trans hun
    exact (le_of_eq (by ring)).trans ((mul_le_mul_of_nonneg_right h1 ht0).trans (le_of_eq (one_mul t)))
  refine ⟨d30, by linarith, ?_⟩
  rw [abs_le]
  have hsw : s ≤ w := by linarith
  have : 4 * u * s ≤ 4 * u * w := mul_le_mul_of_nonneg_left hsw (by linarith)
  constructor <;> linarith

theorem offset_mono (h : Rounding u fl) (lo hi : ℝ) (hlt : lo < hi) (n : Nat) (hrep : ∀ k ≤ n, fl (k : ℝ) = k) (j k : Nat) (hjk : j ≤ k) (hk : k ≤ n) :
    offset fl lo hi n j ≤ offset fl lo hi n k := by
  unfold offset
  rw [hrep j (by omega), hrep k hk, hrep n le_rfl]
  refine h.mono _ _ (mul_le_mul_of_nonneg_right (by exact_mod_cast hjk) (h.nonneg (div_nonneg (h.nonneg (by linarith)) (Nat.cast_nonneg n))))

end HistRound

end SampleFlow
