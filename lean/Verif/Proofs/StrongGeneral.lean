import Verif.Proofs.StrongFinite
import Verif.Props.GeneralNumbers

/-! The strong law for Metropolis-Hastings on general sample spaces. -/

namespace SampleFlow

open Spec MeasureTheory ProbabilityTheory Ergodic Doeblin General StrongLaw
open scoped ENNReal

namespace StrongGeneral

variable {S : Type} [MeasurableSpace S]

theorem W_drop {σ : Type} {K : Kernel S S} [IsMarkovKernel K] {φ : σ → S → σ} (F : σ × S → ℝ≥0∞) (F' : σ × S → ℝ≥0∞) (hF : ∀ s x y, F (φ s y, y) = F' (s, x)) (n : Nat) :
    ∀ p, W K φ F (n + 1) p = W K φ F' n p := by
  induction n with
  | zero =>
    intro p
    simp only [W]
    rw [lintegral_congr (fun y => hF p.1 p.2 y)]
    simp
  | succ n ih =>
    intro p
    rw [W]
    conv => rhs; rw [W]
    exact lintegral_congr (fun y => ih _)

/-- number of samples, sum of the differences from `t`, and what has been accumulated before the last sample -/
abbrev Acc := ℕ × ℝ × ℝ≥0∞

/-- what a sample contributes -/
noncomputable def accStep (f : S → ℝ) (t : ℝ) (term : ℕ → ℝ → ℝ≥0∞) (s : Acc) (y : S) : Acc := (s.1 + 1, s.2.1 + (f y - t), s.2.2 + term s.1 s.2.1)

theorem measurable_term {term : ℕ → ℝ → ℝ≥0∞} (ht : ∀ n, Measurable (term n)) : Measurable (fun s : Acc => term s.1 s.2.1) := by
  have h1 : Measurable (Function.uncurry term) := measurable_from_prod_countable_right ht
  exact h1.comp (measurable_fst.prodMk (measurable_fst.comp measurable_snd))

theorem measurable_accStep {f : S → ℝ} (hf : Measurable f) (t : ℝ) {term : ℕ → ℝ → ℝ≥0∞} (ht : ∀ n, Measurable (term n)) : Measurable (Function.uncurry (accStep f t term)) := by
  unfold accStep Function.uncurry
  refine Measurable.prodMk ((measurable_fst.comp measurable_fst).add_const 1) (Measurable.prodMk ?_ ?_)
  · exact (measurable_fst.comp (measurable_snd.comp measurable_fst)).add ((hf.comp measurable_snd).sub_const t)
  · exact (measurable_snd.comp (measurable_snd.comp measurable_fst)).add ((measurable_term ht).comp measurable_fst)

theorem W_sum {K : Kernel S S} [IsMarkovKernel K] {f : S → ℝ} (hf : Measurable f) (t : ℝ) {term : ℕ → ℝ → ℝ≥0∞} (ht : ∀ n, Measurable (term n)) (h0 : ∀ x, term 0 x = 0) (x : S) (N : Nat) :
    W K (accStep f t term) (fun p => p.1.2.2 + term p.1.1 p.1.2.1) N ((0, 0, 0), x) =
      ∑ n ∈ Finset.Icc 1 N, W K (accStep f t term) (fun p => term p.1.1 p.1.2.1) n ((0, 0, 0), x) := by
  induction N with
  | zero => simp [W, h0]
  | succ N ih =>
    rw [Finset.sum_Icc_succ_top (by omega), ← ih]
    rw [W_add (measurable_accStep hf t ht) (F := fun p => p.1.2.2) (F' := fun p => term p.1.1 p.1.2.1) (measurable_snd.comp (measurable_snd.comp measurable_fst))]
    congr 1
    exact W_drop _ _ (fun s x y => rfl) N _

theorem foldl_acc (f : S → ℝ) (t : ℝ) (term : ℕ → ℝ → ℝ≥0∞) (h0 : ∀ x, term 0 x = 0) (l : List S) :
    (l.foldl (accStep f t term) (0, 0, 0)).1 = l.length ∧ (l.foldl (accStep f t term) (0, 0, 0)).2.1 = dev f t l ∧
    (l.foldl (accStep f t term) (0, 0, 0)).2.2 + term l.length (dev f t l) = ∑ n ∈ Finset.Icc 1 l.length, term n (dev f t (l.take n)) := by
  induction l using List.reverseRecOn with
  | nil => simp [dev, h0]
  | append_singleton l a ih =>
    obtain ⟨i1, i2, i3⟩ := ih
    rw [List.foldl_append, List.foldl_cons, List.foldl_nil]
    have e1 : (accStep f t term (l.foldl (accStep f t term) (0, 0, 0)) a).2.1 = dev f t (l ++ [a]) := by
      rw [dev_append]; simp only [accStep, i2]; congr 1; simp [dev]
    refine ⟨by simp only [accStep, i1, List.length_append, List.length_singleton], e1, ?_⟩
    rw [List.length_append, List.length_singleton, Finset.sum_Icc_succ_top (by omega)]
    congr 1
    · simp only [accStep, i1, i2]
      rw [i3]
      refine Finset.sum_congr rfl (fun n hn => ?_)
      rw [Finset.mem_Icc] at hn
      rw [List.take_append_of_le_length hn.2]
    · rw [List.take_of_length_le (by simp)]

variable {μ : Measure S} [SFinite μ] {max : ℝ} {π : S → ℝ} {q : S → S → ℝ}

/-- the expected value of a sum of functions of the first `n` samples -/
theorem meanOf_sum {C : Type} (h : GeneralTarget μ max π q) (step : C → S × Aux XR → C) (c : C) (start : S) (hs : GoodStart max π start) {f : S → ℝ} (hf : Measurable f) (t : ℝ)
    {term : ℕ → ℝ → ℝ≥0∞} (ht : ∀ n, Measurable (term n)) (h0 : ∀ x, term 0 x = 0) (N : Nat) :
    meanOf μ max π q step c start N (fun script => ∑ n ∈ Finset.Icc 1 N, term n (dev f t ((samplesIssued max π q step c start script).take n))) =
      ∑ n ∈ Finset.Icc 1 N, meanOf μ max π q step c start n (fun script => term n (dev f t (samplesIssued max π q step c start script))) := by
  have := markov h
  have mT : Measurable (fun p : Acc × S => term p.1.1 p.1.2.1) := (measurable_term ht).comp measurable_fst
  rw [meanOf_W (measurable_accStep hf t ht) (F := fun p => p.1.2.2 + term p.1.1 p.1.2.1)
    ((measurable_snd.comp (measurable_snd.comp measurable_fst)).add mT) (0, 0, 0) h step c start hs _ N, W_sum hf t ht h0]
  · refine Finset.sum_congr rfl (fun n _ => ?_)
    rw [meanOf_W (measurable_accStep hf t ht) (F := fun p => term p.1.1 p.1.2.1) mT (0, 0, 0) h step c start hs _ n]
    intro script hl
    obtain ⟨i1, i2, -⟩ := foldl_acc f t term h0 (samplesIssued max π q step c start script)
    simp only [i1, i2, samplesIssued_length, hl]
  · intro script hl
    obtain ⟨i1, i2, i3⟩ := foldl_acc f t term h0 (samplesIssued max π q step c start script)
    have hl2 := samplesIssued_length (max := max) (π := π) (q := q) step c start script
    simp only [i1, i2]
    rw [i3, hl2, hl]

/-- the strong law for averages of a function of the samples -/
theorem strong_general {C : Type} (h : GeneralTarget μ max π q) (k : Nat) (hk : 1 ≤ k) (η : ℝ) (hη : 0 < η) (hf : Forgets μ max π q k η)
    (f : S → ℝ) (hm : Measurable f) (b : ℝ) (hb : ∀ x, |f x| ≤ b) (step : C → S × Aux XR → C) (c : C) (start : S) (hs : GoodStart max π start)
    (N : Nat) (g : List (Chance S) → ℝ)
    (hg : ∀ script, 1 ≤ script.length → g script = ((samplesIssued max π q step c start script).map f).sum / script.length) (ε : ℝ) (hε : 0 < ε) (m : Nat) (hm1 : 1 ≤ m) :
    probOf μ max π q step c start N (fun script => ∃ n, m ≤ n ∧ n ≤ N ∧ ε ≤ |g (script.take n) - targetExpectation μ π f|) ≤
      ENNReal.ofReal ((16 * (4 * b ^ 2 + 8 * k * b ^ 2 / η) + 8 * (2 * b) ^ 2) / (ε ^ 2 * √m)) := by
  classical
  have hM := markov h
  have hPr := target_prob h
  set t := targetExpectation μ π f with ht
  set K := 4 * b ^ 2 + 8 * k * b ^ 2 / η with hKdef
  have hb0 : 0 ≤ b := (abs_nonneg _).trans (hb start)
  have hK0 : 0 ≤ K := by positivity
  have htt : ∫ x, f x ∂(target μ π) = t := integral_target h f
  have htb : |t| ≤ b := by
    rw [← htt]
    have := norm_integral_le_of_norm_le_const (μ := target μ π) (f := f) (C := b) (Filter.Eventually.of_forall (fun x => by rw [Real.norm_eq_abs]; exact hb x))
    simpa using this
  have hD : ∀ x, |f x - t| ≤ 2 * b := fun x => (abs_sub _ _).trans (by linarith [hb x])
  have hD0 : 0 ≤ 2 * b := by positivity
  have hK : ∀ n : Nat, 1 ≤ n → meanOf μ max π q step c start n (fun script => ENNReal.ofReal ((dev f t (samplesIssued max π q step c start script) / n) ^ 2)) ≤ ENNReal.ofReal (K / n) := by
    intro n hn
    have := General.mean_square h k hk η hη hf f hm b hb step c start hs n hn (fun script => ((samplesIssued max π q step c start script).map f).sum / n) (fun _ _ => rfl)
    refine le_trans ?_ this
    unfold meanOf
    refine meanGiven_mono _ _ _ _ _ _ _ (fun script hl => ?_)
    have hl : script.length = n := by simpa using hl
    rw [dev_eq f t _ n (by rw [samplesIssued_length, hl]) hn]
  have hP : ∀ script : List (Chance S), script.length = N → ((∃ n, m ≤ n ∧ n ≤ N ∧ ε ≤ |g (script.take n) - t|) ↔
      ∃ n, m ≤ n ∧ n ≤ (samplesIssued max π q step c start script).length ∧ ε ≤ |dev f t ((samplesIssued max π q step c start script).take n) / n|) := by
    intro script hs
    have hl := samplesIssued_length (max := max) (π := π) (q := q) step c start script
    constructor
    · rintro ⟨n, h1, h2, h3⟩
      refine ⟨n, h1, by omega, ?_⟩
      have hlt : (script.take n).length = n := by rw [List.length_take]; omega
      rw [hg _ (by omega), samplesIssued_take, hlt, dev_eq f t _ n (by rw [List.length_take]; omega) (by omega)] at h3
      exact h3
    · rintro ⟨n, h1, h2, h3⟩
      refine ⟨n, h1, by omega, ?_⟩
      have hlt : (script.take n).length = n := by rw [List.length_take]; omega
      rw [hg _ (by omega), samplesIssued_take, hlt, dev_eq f t _ n (by rw [List.length_take]; omega) (by omega)]
      exact h3
  set P := probOf μ max π q step c start N (fun script => ∃ n, m ≤ n ∧ n ≤ N ∧ ε ≤ |g (script.take n) - t|) with hPdef
  have hP1 : P ≤ 1 := by
    rw [← C73_total_probability step c h start hs N, hPdef]
    unfold probOf meanOf
    refine meanGiven_mono _ _ _ _ _ _ _ (fun script _ => ?_)
    simp only [if_true]
    split <;> simp
  have hPt : P ≠ ⊤ := ne_top_of_le_ne_top ENNReal.one_ne_top hP1
  have hreal : P.toReal ≤ (16 * K + 8 * (2 * b) ^ 2) / (ε ^ 2 * √m) := by
    refine bound (2 * b) K ε hD0 hK0 hε m N hm1 _ ?_ ?_ ?_
    · exact ENNReal.toReal_le_of_le_ofReal zero_le_one (by simpa using hP1)
    · intro hDε
      have : P ≤ 0 := by
        have e : meanOf μ max π q step c start N (fun _ => 0) = 0 := by
          rw [meanOf_W (σ := Unit) (φ := fun u _ => u) (F := fun _ => 0) measurable_fst measurable_const () h step c start hs _ N (fun _ _ => rfl)]
          exact W_const 0 N _
        rw [← e, hPdef]
        unfold probOf meanOf
        refine meanGiven_mono _ _ _ _ _ _ _ (fun script hl => ?_)
        rw [if_neg]
        intro hex
        replace hex := (hP script (by simpa using hl)).mp hex
        revert hex
        generalize samplesIssued max π q step c start script = l
        rintro ⟨n, h1, h2, h3⟩
        have bb := dev_bound f t (2 * b) hD (l.take n)
        rw [List.length_take, min_eq_left h2] at bb
        have hn0 : (0:ℝ) < n := by exact_mod_cast (by omega : 0 < n)
        rw [abs_div, abs_of_pos hn0, le_div_iff₀ hn0] at h3
        nlinarith
      have : P = 0 := le_antisymm this zero_le
      rw [this]; simp
    · intro k₀ hk0 hkm hkD
      set term : ℕ → ℝ → ℝ≥0∞ := fun n s => if ∃ k, k₀ ≤ k ∧ k ^ 2 = n then ENNReal.ofReal (4 / ε ^ 2) * ENNReal.ofReal ((s / n) ^ 2) else 0 with hterm
      have mterm : ∀ n, Measurable (term n) := by
        intro n
        simp only [hterm]
        split
        · exact (((measurable_id.div_const _).pow_const 2).ennreal_ofReal).const_mul _
        · exact measurable_const
      have hz : ∀ x, term 0 x = 0 := by
        intro x
        simp only [hterm]
        rw [if_neg]
        rintro ⟨k, h1, h2⟩
        have : k = 0 := by simpa using h2
        omega
      have h1 : P ≤ meanOf μ max π q step c start N (fun script => ∑ n ∈ Finset.Icc 1 N, term n (dev f t ((samplesIssued max π q step c start script).take n))) := by
        rw [hPdef]
        unfold probOf meanOf
        refine meanGiven_mono _ _ _ _ _ _ _ (fun script hl => ?_)
        have hl : script.length = N := by simpa using hl
        split
        · rename_i hex
          rw [hP script hl] at hex
          have := indicator_le f t (2 * b) hD hD0 _ ε hε m k₀ hk0 hkm hkD hex
          rw [samplesIssued_length, hl] at this
          rw [← ENNReal.ofReal_one]
          refine (ENNReal.ofReal_le_ofReal this).trans (le_of_eq ?_)
          rw [ENNReal.ofReal_sum_of_nonneg]
          · refine Finset.sum_congr rfl (fun n _ => ?_)
            simp only [hterm]
            split
            · rw [← ENNReal.ofReal_mul (by positivity)]
            · simp
          · intro n _
            split
            · positivity
            · exact le_refl _
        · exact zero_le
      have h2 : P ≤ ENNReal.ofReal (∑ n ∈ Finset.Icc 1 N, if ∃ k, k₀ ≤ k ∧ k ^ 2 = n then 4 / ε ^ 2 * (K / n) else 0) := by
        refine h1.trans ?_
        rw [meanOf_sum h step c start hs hm t mterm hz, ENNReal.ofReal_sum_of_nonneg]
        · refine Finset.sum_le_sum (fun n hn => ?_)
          rw [Finset.mem_Icc] at hn
          simp only [hterm]
          split
          · unfold meanOf
            rw [meanGiven_mul _ _ _ _ _ ENNReal.ofReal_ne_top, ENNReal.ofReal_mul (by positivity)]
            exact mul_le_mul_right (hK n hn.1) _
          · rw [meanOf_W (σ := Unit) (φ := fun u _ => u) (F := fun _ => 0) measurable_fst measurable_const () h step c start hs _ n (fun _ _ => rfl), W_const]
            exact zero_le
        · intro n _
          split
          · positivity
          · exact le_refl _
      refine ENNReal.toReal_le_of_le_ofReal ?_ h2
      refine Finset.sum_nonneg (fun n _ => ?_)
      split
      · positivity
      · exact le_refl _
  rw [← ENNReal.ofReal_toReal hPt]
  exact ENNReal.ofReal_le_ofReal hreal

end StrongGeneral

end SampleFlow
