import Verif.Proofs.DEChain
import Mathlib.MeasureTheory.Integral.IntegrableOn

/-! Expected values over the random decisions of a run of the differential evaluation sampler. -/

set_option linter.unusedSimpArgs false

namespace SampleFlow

open Spec MeasureTheory Ergodic

variable {S Ω : Type} [Fintype Ω] (weight : Ω → ℝ)

theorem average_congr (n : Nat) : ∀ g g' : List (DEChance Ω) → ℝ, (∀ l, l.length = n → (∀ e ∈ l, GoodChance e) → g l = g' l) →
    average weight n g = average weight n g' := by
  induction n with
  | zero => intro g g' h; exact h [] rfl (by simp)
  | succ n ih =>
    intro g g' h
    unfold average
    refine setIntegral_congr_fun measurableSet_Ico (fun v1 h1 => setIntegral_congr_fun measurableSet_Ico (fun v2 h2 => ?_))
    refine Finset.sum_congr rfl (fun ω _ => ?_)
    congr 1
    refine setIntegral_congr_fun measurableSet_Ico (fun u hu => ih _ _ (fun l hl hg => h _ (by simp [hl]) ?_))
    intro e he
    rcases List.mem_cons.mp he with rfl | he
    · exact ⟨h1, h2⟩
    · exact hg e he

theorem average_split (n m : Nat) : ∀ g : List (DEChance Ω) → ℝ,
    average weight (n + m) g = average weight n (fun l1 => average weight m (fun l2 => g (l1 ++ l2))) := by
  induction n with
  | zero => intro g; rw [Nat.zero_add]; rfl
  | succ n ih =>
    intro g
    rw [Nat.succ_add]
    unfold average
    simp only [ih, List.cons_append]

/-- the mean over a uniformly distributed random integer -/
theorem integral_floor (k : Nat) (f : Nat → ℝ) :
    ∫ v in Set.Ico (0:ℝ) 1, f ⌊v * (k + 1)⌋₊ = (∑ i ∈ Finset.range (k + 1), f i) / (k + 1) := by
  have hk : (0:ℝ) < k + 1 := by positivity
  have h1 : ∀ v ∈ Set.Ico (0:ℝ) 1, f ⌊v * (k + 1)⌋₊ =
      ∑ i ∈ Finset.range (k + 1), (Set.Ico ((i:ℝ) / (k + 1)) (((i:ℝ) + 1) / (k + 1))).indicator (fun _ => f i) v := by
    intro v hv
    rw [Finset.sum_eq_single ⌊v * (k + 1)⌋₊]
    · rw [Set.indicator_of_mem]
      constructor
      · rw [div_le_iff₀ hk]; exact Nat.floor_le (mul_nonneg hv.1 hk.le)
      · rw [lt_div_iff₀ hk]; exact Nat.lt_floor_add_one _
    · intro i _ hne
      rw [Set.indicator_of_notMem]
      intro hm
      apply hne
      rw [eq_comm, Nat.floor_eq_iff (mul_nonneg hv.1 hk.le)]
      exact ⟨(div_le_iff₀ hk).mp hm.1, (lt_div_iff₀ hk).mp hm.2⟩
    · intro hm
      exact absurd (Finset.mem_range.mpr (Nat.lt_succ_of_le (floor_le hv k))) hm
  rw [setIntegral_congr_fun measurableSet_Ico h1, integral_finsetSum]
  · rw [Finset.sum_div]
    refine Finset.sum_congr rfl (fun i hi => ?_)
    rw [integral_indicator measurableSet_Ico, Measure.restrict_restrict measurableSet_Ico]
    have hsub : Set.Ico ((i:ℝ) / (k + 1)) (((i:ℝ) + 1) / (k + 1)) ∩ Set.Ico 0 1 = Set.Ico ((i:ℝ) / (k + 1)) (((i:ℝ) + 1) / (k + 1)) := by
      apply Set.inter_eq_left.mpr
      intro v hv
      refine ⟨le_trans (by positivity) hv.1, lt_of_lt_of_le hv.2 ?_⟩
      rw [div_le_one hk]
      have : i < k + 1 := Finset.mem_range.mp hi
      exact_mod_cast this
    rw [hsub, setIntegral_const, measureReal_def, Real.volume_Ico, ENNReal.toReal_ofReal (by rw [← sub_div]; refine div_nonneg (by linarith) hk.le)]
    rw [smul_eq_mul, ← sub_div]
    field_simp
    ring
  · intro i _
    refine Integrable.indicator ?_ measurableSet_Ico
    exact integrable_const _

/-- probability that the random number is such that the proposal is accepted -/
noncomputable def accR (r : XR) : ℝ := (volume {u : ℝ | u ∈ Set.Ico (0:ℝ) 1 ∧ XR.leb (.fin u) r = true}).toReal

theorem integral_leb (r : XR) (a b : ℝ) :
    ∫ u in Set.Ico (0:ℝ) 1, (if XR.leb (.fin u) r = true then a else b) = accR r * a + (1 - accR r) * b := by
  classical
  have hm := measurable_leb r
  have h1 : ∀ u, (if XR.leb (.fin u) r = true then a else b) = {t : ℝ | XR.leb (.fin t) r = true}.indicator (fun _ => a - b) u + b := by
    intro u
    by_cases h : XR.leb (.fin u) r = true
    · rw [if_pos h, Set.indicator_of_mem (show u ∈ {t : ℝ | XR.leb (.fin t) r = true} from h)]; ring
    · rw [if_neg h, Set.indicator_of_notMem (show u ∉ {t : ℝ | XR.leb (.fin t) r = true} from h)]; ring
  simp only [h1]
  rw [integral_add (Integrable.indicator (integrable_const _) hm) (integrable_const _), integral_indicator hm, Measure.restrict_restrict hm, setIntegral_const, setIntegral_const]
  have e1 : volume.real ({t : ℝ | XR.leb (.fin t) r = true} ∩ Set.Ico (0:ℝ) 1) = accR r := by
    unfold accR
    rw [measureReal_def, Set.inter_comm]; rfl
  rw [e1]
  simp only [measureReal_def, Real.volume_Ico, smul_eq_mul]
  simp
  ring

theorem accR_fin (a : ℝ) (ha : 0 ≤ a) : accR (.fin a) = min 1 a := by
  have h0 : {u : ℝ | u ∈ Set.Ico (0:ℝ) 1 ∧ XR.leb (.fin u) (.fin a) = true} = Set.Ico 0 1 ∩ Set.Iic a := by
    ext t; simp [XR.leb, XR.ltb, XR.eqb, le_iff_lt_or_eq]
  unfold accR
  rw [h0]
  by_cases h : 1 ≤ a
  · have : Set.Ico (0:ℝ) 1 ∩ Set.Iic a = Set.Ico 0 1 := Set.inter_eq_left.mpr (fun t ht => le_trans ht.2.le h)
    rw [this]; simp [h]
  · have : Set.Ico (0:ℝ) 1 ∩ Set.Iic a = Set.Icc 0 a := by
      ext t; simp only [Set.mem_inter_iff, Set.mem_Ico, Set.mem_Iic, Set.mem_Icc]; constructor
      · exact fun h => ⟨h.1.1, h.2⟩
      · exact fun h' => ⟨⟨h'.1, by linarith [h'.2]⟩, h'.2⟩
    rw [this, Real.volume_Icc, sub_zero, ENNReal.toReal_ofReal ha, min_eq_right (by linarith)]

variable (π : S → ℝ) (q : S → S → ℝ) (pick : S → Ω → S) (cross : S → S → S → S)

/-- the ratio with which the random number is compared -/
noncomputable def ratioOf (base x z : S) : XR :=
  XR.div (XR.exp ((logOf (π z)).add (logOf (π x)).neg)) (XR.div (.fin (q base z)) (.fin (q z base)))

/-- the expected value of `h` at the sample after a step from `x` with a proposal made from `base` -/
noncomputable def stepMean (base x : S) (h : S → ℝ) : ℝ :=
  ∑ ω, weight ω * (accR (ratioOf π q base x (pick base ω)) * h (pick base ω) + (1 - accR (ratioOf π q base x (pick base ω))) * h x)

variable [Inhabited S]

/-- the same for chain `c` of a generation -/
noncomputable def chainMean (now : Bool) (X : List S) (c : Nat) (h : S → ℝ) : ℝ :=
  if now then
    (∑ a0 ∈ Finset.range (X.length - 2 + 1), (∑ b0 ∈ Finset.range (X.length - 3 + 1),
      stepMean weight π q pick (baseOf cross X c a0 b0) (X.getD c default) h) / ((X.length - 3 : Nat) + 1)) / ((X.length - 2 : Nat) + 1)
  else stepMean weight π q pick (X.getD c default) (X.getD c default) h

theorem step_average (now : Bool) (X : List S) (c : Nat) (h : S → ℝ) :
    (∫ v1 in Set.Ico (0:ℝ) 1, ∫ v2 in Set.Ico (0:ℝ) 1, ∑ ω, weight ω * ∫ u in Set.Ico (0:ℝ) 1, h (newSample π q pick cross now X c ⟨v1, v2, ω, u⟩)) =
      chainMean weight π q pick cross now X c h := by
  have hs : ∀ (base : S), (∑ ω, weight ω * ∫ u in Set.Ico (0:ℝ) 1, h (deStep π q pick base (X.getD c default) ω u)) =
      stepMean weight π q pick base (X.getD c default) h := by
    intro base
    refine Finset.sum_congr rfl (fun ω _ => ?_)
    congr 1
    rw [← integral_leb]
    refine setIntegral_congr_fun measurableSet_Ico (fun u _ => ?_)
    simp only [deStep, deAcc, ratioOf]
    exact apply_ite h _ _ _
  unfold newSample chainMean
  cases now with
  | false =>
    simp only [Bool.false_eq_true, if_false, hs]
    rw [setIntegral_const, setIntegral_const]
    simp
  | true =>
    simp only [if_true, hs]
    rw [← integral_floor (X.length - 2) (fun a0 => (∑ b0 ∈ Finset.range (X.length - 3 + 1),
      stepMean weight π q pick (baseOf cross X c a0 b0) (X.getD c default) h) / ((X.length - 3 : Nat) + 1))]
    refine setIntegral_congr_fun measurableSet_Ico (fun v1 _ => ?_)
    exact integral_floor (X.length - 3) (fun b0 => stepMean weight π q pick (baseOf cross X c ⌊v1 * ((X.length - 2 : Nat) + 1)⌋₊ b0) (X.getD c default) h)

/-- the expected value over the rest of a generation -/
noncomputable def genMean (now : Bool) (X : List S) : Nat → Nat → (List S → ℝ) → ℝ
  | _, 0, H => H []
  | c, k + 1, H => chainMean weight π q pick cross now X c (fun y => genMean now X (c + 1) k (fun l => H (y :: l)))

theorem gen_average (now : Bool) (X : List S) (k : Nat) : ∀ (c : Nat) (H : List S → ℝ),
    average weight k (fun es => H (newsFrom π q pick cross now X c es)) = genMean weight π q pick cross now X c k H := by
  induction k with
  | zero => intro c H; rfl
  | succ k ih =>
    intro c H
    unfold average genMean
    rw [← step_average]
    simp only [newsFrom, ih (c + 1)]
    have : ∀ e : DEChance Ω, average weight k (fun l => H (newSample π q pick cross now X c e :: newsFrom π q pick cross now X (c + 1) l)) =
        genMean weight π q pick cross now X (c + 1) k (fun l => H (newSample π q pick cross now X c e :: l)) :=
      fun e => ih (c + 1) (fun l => H (newSample π q pick cross now X c e :: l))
    simp only [this]

/-- the expected value over generations -/
noncomputable def gensMean (gap n : Nat) : Nat → Nat → List S → (List (List S) → ℝ) → ℝ
  | _, 0, _, H => H []
  | gen, G + 1, X, H => genMean weight π q pick cross (crossoverNow gap gen) X 0 n (fun Y => gensMean gap n (gen + 1) G Y (fun r => H (Y :: r)))

/-- depends only on lists of the right length -/
theorem genMean_congr (now : Bool) (X : List S) (k : Nat) : ∀ (c : Nat) (H H' : List S → ℝ), (∀ l, l.length = k → H l = H' l) →
    genMean weight π q pick cross now X c k H = genMean weight π q pick cross now X c k H' := by
  induction k with
  | zero => intro c H H' h; exact h [] rfl
  | succ k ih =>
    intro c H H' h
    unfold genMean
    congr 1
    funext y
    exact ih (c + 1) _ _ (fun l hl => h _ (by simp [hl]))

theorem gens_average (gap n : Nat) (G : Nat) : ∀ (gen : Nat) (X : List S) (H : List (List S) → ℝ), X.length = n →
    average weight (G * n) (fun script => H (gensFrom π q pick cross gap gen G X script)) = gensMean weight π q pick cross gap n gen G X H := by
  induction G with
  | zero => intro gen X H hX; rw [Nat.zero_mul]; rfl
  | succ G ih =>
    intro gen X H hX
    rw [Nat.add_mul, Nat.one_mul, Nat.add_comm, average_split]
    unfold gensMean
    rw [← gen_average]
    refine average_congr weight n _ _ (fun l hl _ => ?_)
    have hY : (newsFrom π q pick cross (crossoverNow gap gen) X 0 l).length = n := by rw [newsFrom_length, hl]
    rw [← ih (gen + 1) _ _ hY]
    refine average_congr weight _ _ _ (fun l2 hl2 _ => ?_)
    rw [gensFrom, hX, List.take_left' hl, List.drop_left' hl]

/-- **the distribution of a run** -/
theorem deExpected_eq (max : ℝ) (gap G : Nat) (X : List S) (hn : 3 ≤ X.length) (H : (Nat → List S) → ℝ) (hH : ∀ f g : Nat → List S, (∀ c < X.length, f c = g c) → H f = H g) :
    deExpected max π weight pick cross X gap (G * X.length) (fun msgs => H (fun c => ofChain c msgs)) =
      gensMean weight π (proposalProb weight pick) pick cross gap X.length 0 G X (fun gens => H (fun c => gens.map (fun Y => Y.getD c default))) := by
  unfold deExpected
  rw [← gens_average weight π (proposalProb weight pick) pick cross gap X.length G 0 X _ rfl]
  refine average_congr weight _ _ _ (fun script hs hg => hH _ _ (fun c hc => ?_))
  exact deMessages_chain max π pick cross weight gap G X hn script hs hg c hc

end SampleFlow
