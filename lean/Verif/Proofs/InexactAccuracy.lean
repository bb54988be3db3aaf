import Verif.Proofs.Inexact

/-! How accurate the acceptance probability is on a machine with small rounding errors. -/

namespace SampleFlow.Inexact

open Spec

theorem log_rel {δ e v : ℝ} (he : 0 < e) (hδ : δ ≤ 1 / 2) (h : |v - e| ≤ δ * e) : 0 < v ∧ |Real.log v - Real.log e| ≤ 2 * δ := by
  have hδ0 : 0 ≤ δ := by
    by_contra hn
    push Not at hn
    nlinarith [abs_nonneg (v - e)]
  obtain ⟨h1, h2⟩ := abs_le.mp h
  have hv : 0 < v := by nlinarith
  refine ⟨hv, ?_⟩
  rw [← Real.log_div hv.ne' he.ne']
  have h3 := Real.log_le_sub_one_of_pos (div_pos hv he)
  have h4 := Real.one_sub_inv_le_log_of_pos (div_pos hv he)
  have h5 : v / e - 1 ≤ δ := by
    rw [div_sub_one he.ne', div_le_iff₀ he]; exact h2
  have h6 : -(2 * δ) ≤ 1 - (v / e)⁻¹ := by
    rw [inv_div]
    have : e / v ≤ 1 + 2 * δ := by
      rw [div_le_iff₀ hv]; nlinarith
    linarith
  exact abs_le.mpr ⟨by linarith, by linarith⟩

theorem min_exp_mono_diff {a b : ℝ} (hab : a ≤ b) : |min 1 (Real.exp b) - min 1 (Real.exp a)| ≤ b - a := by
  have hm : min 1 (Real.exp a) ≤ min 1 (Real.exp b) := min_le_min (le_refl _) (Real.exp_le_exp.mpr hab)
  rw [abs_of_nonneg (by linarith)]
  by_cases ha : 0 ≤ a
  · rw [min_eq_left (Real.one_le_exp ha), min_eq_left (Real.one_le_exp (ha.trans hab))]; linarith
  · push Not at ha
    rw [min_eq_right (Real.exp_le_one_iff.mpr ha.le)]
    have key : ∀ c : ℝ, c ≤ 0 → Real.exp c - Real.exp a ≤ c - a ∨ c < a := by
      intro c hc
      by_cases h : c < a
      · exact Or.inr h
      · left
        push Not at h
        have h1 := Real.add_one_le_exp (a - c)
        have h2 : Real.exp a = Real.exp c * Real.exp (a - c) := by rw [← Real.exp_add]; congr 1; ring
        have h3 := Real.exp_le_one_iff.mpr hc
        have h4 := Real.exp_pos c
        nlinarith
    by_cases hb : b ≤ 0
    · rw [min_eq_right (Real.exp_le_one_iff.mpr hb)]
      rcases key b hb with h | h <;> linarith
    · push Not at hb
      rw [min_eq_left (Real.one_le_exp hb.le)]
      rcases key 0 (le_refl 0) with h | h
      · rw [Real.exp_zero] at h; linarith
      · linarith

theorem min_exp_diff (a b : ℝ) : |min 1 (Real.exp a) - min 1 (Real.exp b)| ≤ |a - b| := by
  rcases le_total a b with h | h
  · rw [abs_sub_comm, abs_sub_comm a b, abs_of_nonneg (by linarith : 0 ≤ b - a)]; exact min_exp_mono_diff h
  · rw [abs_of_nonneg (by linarith : 0 ≤ a - b)]; exact min_exp_mono_diff h

/-- the number of random numbers below a threshold -/
theorem count_le (N : Nat) (hN : 0 < N) (v : ℝ) (hv : 0 ≤ v) :
    |((Finset.univ.filter (fun i : Fin N => ((i : ℕ) : ℝ) / N ≤ v)).card : ℝ) / N - min 1 v| ≤ 1 / N := by
  have hN0 : (0:ℝ) < N := by exact_mod_cast hN
  have hc : (Finset.univ.filter (fun i : Fin N => ((i : ℕ) : ℝ) / N ≤ v)).card = min N (⌊v * N⌋₊ + 1) := by
    have h1 : ∀ i : Fin N, ((i : ℕ) : ℝ) / N ≤ v ↔ (i : ℕ) < ⌊v * N⌋₊ + 1 := by
      intro i
      rw [div_le_iff₀ hN0, Nat.lt_succ_iff, Nat.le_floor_iff (by positivity)]
    have h2 : (Finset.univ.filter (fun i : Fin N => ((i : ℕ) : ℝ) / N ≤ v)) = Finset.univ.filter (fun i : Fin N => (i : ℕ) < ⌊v * N⌋₊ + 1) :=
      Finset.filter_congr (fun i _ => h1 i)
    rw [h2, Fin.card_filter_val_lt]
  rw [hc]
  have hf := Nat.floor_le (by positivity : 0 ≤ v * N)
  have hg := Nat.lt_floor_add_one (v * N)
  have e : ((min N (⌊v * N⌋₊ + 1) : ℕ) : ℝ) = min (N:ℝ) ((⌊v * N⌋₊ : ℝ) + 1) := by push_cast; rfl
  rw [e]
  rw [abs_le]
  constructor
  · rw [neg_le_sub_iff_le_add]
    have h1 : v ≤ ((⌊v * N⌋₊ : ℝ) + 1) / N := by rw [le_div_iff₀ hN0]; linarith
    rcases le_total (N:ℝ) ((⌊v * N⌋₊ : ℝ) + 1) with h | h
    · rw [min_eq_left h, div_self hN0.ne']
      have := min_le_left 1 v
      have : 0 ≤ 1 / (N:ℝ) := by positivity
      linarith
    · rw [min_eq_right h]
      have := min_le_right 1 v
      have : 0 ≤ 1 / (N:ℝ) := by positivity
      linarith
  · rw [sub_le_iff_le_add]
    rcases le_total 1 v with h | h
    · rw [min_eq_left h]
      have : min (N:ℝ) ((⌊v * N⌋₊ : ℝ) + 1) / N ≤ 1 := (div_le_one hN0).mpr (min_le_left _ _)
      have : 0 ≤ 1 / (N:ℝ) := by positivity
      linarith
    · rw [min_eq_right h]
      have : min (N:ℝ) ((⌊v * N⌋₊ : ℝ) + 1) / N ≤ (v * N + 1) / N := div_le_div_of_nonneg_right ((min_le_right _ _).trans (by linarith)) hN0.le
      have e2 : (v * N + 1) / N = 1 / N + v := by field_simp; ring
      linarith

variable {S : Type} (M : Computer S XR)

/-- the fraction of pairs whose first number is below the threshold -/
theorem fraction (x z : S) (v : ℝ) (hv : 0 ≤ v) (h : ∀ u, accepts M x z u = true ↔ ((u.1 : ℕ) : ℝ) / M.count ≤ v) : |M.acceptance x z - min 1 v| ≤ 1 / M.count := by
  classical
  have hN0 : (0:ℝ) < M.count := by exact_mod_cast M.count_pos
  have e : M.acceptance x z = ((Finset.univ.filter (fun i : Fin M.count => ((i : ℕ) : ℝ) / M.count ≤ v)).card : ℝ) / M.count := by
    rw [acceptance_eq]
    have : (Finset.univ.filter (fun u : Fin M.count × Fin M.count => accepts M x z u = true)) =
        (Finset.univ.filter (fun i : Fin M.count => ((i : ℕ) : ℝ) / M.count ≤ v)) ×ˢ Finset.univ := by
      ext u
      simp [h u]
    rw [this, Finset.card_product, Finset.card_univ, Fintype.card_fin, Nat.cast_mul]
    field_simp
  rw [e]
  exact count_le M.count M.count_pos v hv

theorem always (x z : S) (h : ∀ u, accepts M x z u = true) : M.acceptance x z = 1 := by
  rw [acceptance_eq, Finset.filter_true_of_mem (fun u _ => h u), card_pairs, div_self (by have := count_ne M; positivity)]

theorem never (x z : S) (h : ∀ u, accepts M x z u = false) : M.acceptance x z = 0 := by
  rw [acceptance_eq, Finset.filter_false_of_mem (fun u _ => by simp [h u])]
  simp

set_option maxHeartbeats 800000 in
set_option linter.unusedSimpArgs false in
/-- **accuracy of the acceptance probability** -/
theorem accurate {π : S → ℝ} {q : S → S → ℝ} {max δ η L : ℝ} (hπ : ∀ x, 0 ≤ π x) (hmax : ∀ x, Real.log (π x) ≠ -max) (hδ : δ ≤ 1 / 2) (hL : 1 ≤ L) (hη : 0 ≤ η)
    (hM : M.Faithful π q δ η L) : M.Accurate max π q (2 * η + (4 * L + 6) * δ + 1 / M.count) := by
  intro x z hxz
  obtain ⟨hzx, r, hr, hr1, hr2, hr3⟩ := hM.ratio x z hxz
  have A := hM.arithmetic
  have hN0 : (0:ℝ) ≤ 1 / (M.count : ℝ) := by positivity
  have hρ : 0 < q x z / q z x := div_pos hxz hzx
  obtain ⟨hr0, hr4⟩ := log_rel hρ hδ hr3
  have hδ0 : 0 ≤ δ := by
    have := (abs_nonneg _).trans hr4
    linarith
  have hE : 0 ≤ (4 * L + 6) * δ := by positivity
  have hrL : |Real.log r| ≤ L := by
    rw [abs_le]
    constructor
    · rw [Real.le_log_iff_exp_le hr0]; exact hr1
    · rw [Real.log_le_iff_le_exp hr0]; exact hr2
  obtain ⟨lam, hlam, hlam1⟩ := A.log r hr1 hr2
  have hlam2 : |lam - Real.log r| ≤ δ * L := hlam1.trans (mul_le_mul_of_nonneg_left hrL hδ0)
  have hlam3 : |lam| ≤ 3 / 2 * L := by
    have h1 := abs_le.mp hlam2
    have h2 := abs_le.mp hrL
    have h3 : δ * L ≤ 1 / 2 * L := mul_le_mul_of_nonneg_right hδ (by linarith)
    exact abs_le.mpr ⟨by linarith, by linarith⟩
  have hdiv : XR.div (.fin (q x z)) (.fin (q z x)) = .fin (q x z / q z x) := by simp [XR.div, hzx.ne']
  rw [exactAcceptance_eq, hdiv]
  rcases (hπ z).eq_or_lt with hz | hz
  · -- the proposal has zero probability
    have hlz := hM.zero z hz.symm
    have hz' : logOf (π z) = .negInf := by simp [logOf, ← hz]
    have tz : @hasZeroProbability XR M.ops .negInf = true := by simp [hasZeroProbability, A.zero_marker]
    rcases (hπ x).eq_or_lt with hx | hx
    · -- and so has the current sample
      have hlx := hM.zero x hx.symm
      have hx' : logOf (π x) = .negInf := by simp [logOf, ← hx]
      obtain ⟨v, hv, hv1⟩ := A.div 1 r (Real.exp_le_one_iff.mpr (by linarith)) (Real.one_le_exp (by linarith)) hr1 hr2
      obtain ⟨hv0, hv2⟩ := log_rel (by positivity) hδ hv1
      have hacc : ∀ u, accepts M x z u = true ↔ ((u.1 : ℕ) : ℝ) / M.count ≤ v := by
        intro u
        unfold accepts acc
        simp only [hlz, hlx, hr, tz, hM.random, hlam, A.one, hv, A.sub_negInf, A.sub_infinities, A.exp_nan, A.div_nan, A.le_nan, A.lt_infinities, A.le, Bool.not_true, Bool.and_false, Bool.not_false,
          Bool.true_and, Bool.or_false, Bool.and_true, if_true]
      have hex : accProb max (logOf (π z)) (logOf (π x)) (.fin (q x z / q z x)) = min 1 (1 / (q x z / q z x)) := by
        rw [hz', hx', ← volume_le_square _ (by positivity)]
        unfold accProb
        congr 2
        ext u
        simp only [Set.mem_ofPred_eq]
        refine and_congr_right (fun _ => ?_)
        unfold accB
        have hlog : XR.log (.fin (q x z / q z x)) = .fin (Real.log (q x z / q z x)) := by simp [XR.log, not_lt.mpr hρ.le, hρ.ne']
        simp only [hasZero_negInf, hlog, XR.neg, XR.add, XR.exp, XR.div, hρ.ne', if_false, XR.ltb, XR.leb, XR.eqb, Bool.true_and, Bool.not_true, Bool.and_false, Bool.not_false,
          Bool.or_eq_true, decide_eq_true_eq, Bool.or_false, Bool.false_or, Bool.and_true, Bool.false_eq_true, or_false]
        rw [← le_iff_lt_or_eq]
      rw [hex]
      have h1 := fraction M x z v hv0.le hacc
      have h2 := min_exp_diff (Real.log v) (Real.log (1 / (q x z / q z x)))
      rw [Real.exp_log hv0, Real.exp_log (by positivity)] at h2
      have h3 : |Real.log v - Real.log (1 / (q x z / q z x))| ≤ 4 * δ := by
        rw [Real.log_div one_ne_zero hρ.ne', Real.log_one]
        rw [Real.log_div one_ne_zero hr0.ne', Real.log_one] at hv2
        have a1 := abs_le.mp hv2
        have a2 := abs_le.mp hr4
        exact abs_le.mpr ⟨by linarith, by linarith⟩
      have h4 := abs_sub_le (M.acceptance x z) (min 1 v) (min 1 (1 / (q x z / q z x)))
      have h5 : 0 ≤ L * δ := by positivity
      linarith
    · -- never accepted
      obtain ⟨lx, hlx, hlx1, -⟩ := hM.likelihood x hx
      have hx' : logOf (π x) = .fin (Real.log (π x)) := by simp [logOf, hx.ne']
      have cz : @hasZeroProbability XR M.ops (.fin lx) = false := by
        have := A.no_marker lx hlx1
        simp [hasZeroProbability, this]
      rw [hz', hx', accProb_into_zero max _ _ (hmax x), never M x z (fun u => by simp [accepts, acc, hlz, hlx, tz, cz])]
      simp only [sub_self, abs_zero]
      linarith
  · obtain ⟨lz, hlz, hlz1, hlz2⟩ := hM.likelihood z hz
    have hz' : logOf (π z) = .fin (Real.log (π z)) := by simp [logOf, hz.ne']
    have tz : @hasZeroProbability XR M.ops (.fin lz) = false := by
      have := A.no_marker lz hlz1
      simp [hasZeroProbability, this]
    obtain ⟨σ, hσ, hσ1⟩ := A.sub lz lam (by linarith) (by linarith)
    rcases (hπ x).eq_or_lt with hx | hx
    · -- always accepted
      have hlx := hM.zero x hx.symm
      have hx' : logOf (π x) = .negInf := by simp [logOf, ← hx]
      have hex : accProb max (logOf (π z)) (logOf (π x)) (.fin (q x z / q z x)) = 1 := by
        rw [hz', hx']
        have : {u : ℝ × ℝ | u ∈ unitSquare ∧ accB max (.fin (Real.log (π z))) .negInf (.fin (q x z / q z x)) u.1 u.2 = true} = unitSquare := by
          ext u
          have hlog : XR.log (.fin (q x z / q z x)) = .fin (Real.log (q x z / q z x)) := by simp [XR.log, not_lt.mpr hρ.le, hρ.ne']
          simp [accB, hasZero_fin max _ (hmax z), hlog, XR.neg, XR.add, XR.ltb]
        unfold accProb
        rw [this, volume_unitSquare]; simp
      rw [hex, always M x z (fun u => by simp [accepts, acc, hlz, hlx, hr, tz, hlam, hσ, A.lt_negInf])]
      simp only [sub_self, abs_zero]
      linarith
    · obtain ⟨lx, hlx, hlx1, hlx2⟩ := hM.likelihood x hx
      have hx' : logOf (π x) = .fin (Real.log (π x)) := by simp [logOf, hx.ne']
      rw [hz', hx', accProb_fin max _ _ _ (hmax z) (hmax x) hρ]
      obtain ⟨s, hs⟩ : ∃ s, s = Real.log (π z) - Real.log (π x) - Real.log (q x z / q z x) := ⟨_, rfl⟩
      have hes : Real.exp (Real.log (π z) - Real.log (π x)) / (q x z / q z x) = Real.exp s := by
        rw [hs, Real.exp_sub _ (Real.log (q x z / q z x)), Real.exp_log hρ]
      rw [hes]
      have bz := abs_le.mp hlz2
      have bx := abs_le.mp hlx2
      have br := abs_le.mp hr4
      have cz := abs_le.mp hlz1
      have cx := abs_le.mp hlx1
      by_cases hA : lx < σ
      · rw [always M x z (fun u => by simp [accepts, acc, hlz, hlx, hr, tz, hlam, hσ, A.lt, hA])]
        have h1 : |lz - lam| ≤ 5 / 2 * L := by
          have := abs_le.mp hlam3
          exact abs_le.mpr ⟨by linarith, by linarith⟩
        have h2 : |σ - (lz - lam)| ≤ δ * (5 / 2 * L) := hσ1.trans (mul_le_mul_of_nonneg_left h1 hδ0)
        have h3 := abs_le.mp h2
        have h4 := abs_le.mp hlam2
        have h5 : 0 ≤ L * δ := by positivity
        have h6 : -(2 * η + (4 * L + 6) * δ) ≤ s := by rw [hs]; linarith
        have h7 := min_exp_diff 0 (min s 0)
        rw [Real.exp_zero, min_self] at h7
        have h8 : min 1 (Real.exp s) = min 1 (Real.exp (min s 0)) := by
          rcases le_total s 0 with h | h
          · rw [min_eq_left h]
          · rw [min_eq_right h, min_eq_left (Real.one_le_exp h), Real.exp_zero, min_self]
        rw [h8]
        refine h7.trans ?_
        have h9 : min s 0 ≤ 0 := min_le_right _ _
        rw [abs_of_nonneg (by linarith)]
        have h10 : -(2 * η + (4 * L + 6) * δ) ≤ min s 0 := le_min h6 (by linarith)
        linarith
      · obtain ⟨t, ht, ht1⟩ := A.sub lz lx (by linarith) (by linarith)
        have h1 : |lz - lx| ≤ 2 * L := abs_le.mpr ⟨by linarith, by linarith⟩
        have h2 : |t - (lz - lx)| ≤ δ * (2 * L) := ht1.trans (mul_le_mul_of_nonneg_left h1 hδ0)
        have h3 := abs_le.mp h2
        have h4 : δ * (2 * L) ≤ L := by nlinarith
        have h1' := abs_le.mp h1
        have h5 : |t| ≤ 3 * L := abs_le.mpr ⟨by linarith, by linarith⟩
        obtain ⟨e, he, he1⟩ := A.exp t h5
        obtain ⟨he0, he2⟩ := log_rel (Real.exp_pos t) hδ he1
        rw [Real.log_exp] at he2
        have h6 := abs_le.mp he2
        have h5' := abs_le.mp h5
        obtain ⟨v, hv, hv1⟩ := A.div e r (by rw [← Real.le_log_iff_exp_le he0]; linarith) (by rw [← Real.log_le_iff_le_exp he0]; linarith) hr1 hr2
        obtain ⟨hv0, hv2⟩ := log_rel (by positivity) hδ hv1
        rw [Real.log_div he0.ne' hr0.ne'] at hv2
        have h7 := abs_le.mp hv2
        have hltF : M.ops.lt (.fin lx) (.fin σ) = false := by
          rw [← Bool.not_eq_true, A.lt]; exact hA
        have hacc : ∀ u, accepts M x z u = true ↔ ((u.1 : ℕ) : ℝ) / M.count ≤ v := by
          intro u
          unfold accepts acc
          simp only [hlz, hlx, hr, tz, hM.random, hlam, hσ, hltF, ht, he, hv, A.le, Bool.false_and, Bool.not_false, Bool.true_and, Bool.false_or, Bool.false_eq_true, if_false]
        have g1 := fraction M x z v hv0.le hacc
        have g2 := min_exp_diff (Real.log v) s
        rw [Real.exp_log hv0] at g2
        have h8 : 0 ≤ L * δ := by positivity
        have g3 : |Real.log v - s| ≤ 2 * η + (4 * L + 6) * δ := by
          rw [hs]
          exact abs_le.mpr ⟨by linarith, by linarith⟩
        have g4 := abs_sub_le (M.acceptance x z) (min 1 v) (min 1 (Real.exp s))
        linarith

end SampleFlow.Inexact
