import Verif.Spec.NanMoments
import Mathlib.Data.Fin.VecNotation

/-!
# Property C72: MeanValue and CovarianceMatrix when some components of some samples are NaN

In the arithmetic of the machine, whatever its rounding: a NaN in component `i` of some sample is never lost, and never spreads to components of the mean or entries of the covariance matrix
that do not belong to component `i`.
-/

namespace SampleFlow

open Spec

variable {D ι : Type} [Arith D]

namespace NanMoments

theorem mean_nan_step {nan : D → Prop} (N : NanPropagates nan) (s : MeanState (ι → D)) (x : ι → D) (i : ι) (hn : s.n ≠ 0)
    (h : nan (s.mean i) ∨ nan (x i)) : nan ((meanConsume s x).mean i) := by
  unfold meanConsume
  rw [if_neg hn]
  rcases h with h | h
  · exact N.add_left _ _ h
  · exact N.add_right _ _ (N.div_left _ _ (N.sub_left _ _ h))

theorem meanConsume_n (s : MeanState (ι → D)) (x : ι → D) : (meanConsume s x).n = s.n + 1 := by
  unfold meanConsume
  split
  · simp_all
  · rfl

theorem mean_nan_stays {nan : D → Prop} (N : NanPropagates nan) (i : ι) (xs : List (ι → D)) : ∀ s : MeanState (ι → D), s.n ≠ 0 →
    nan (s.mean i) ∨ (∃ x ∈ xs, nan (x i)) → nan ((xs.foldl meanConsume s).mean i) := by
  induction xs with
  | nil => intro s _ h; simpa using h
  | cons x xs ih =>
    intro s hn h
    rw [List.foldl_cons]
    refine ih _ (by rw [meanConsume_n]; omega) ?_
    rcases h with h | ⟨y, hy, h⟩
    · exact .inl (mean_nan_step N s x i hn (.inl h))
    · rcases List.mem_cons.mp hy with rfl | hy
      · exact .inl (mean_nan_step N s y i hn (.inr h))
      · exact .inr ⟨y, hy, h⟩

theorem covConsume_n (G : ι → ι → D) (s : CovState D ι) (x : ι → D) : (covConsume G s x).n = s.n + 1 := by
  unfold covConsume
  split
  · simp_all
  · rfl

/-- The mean inside CovarianceMatrix is that of MeanValue. -/
theorem covMean (G : ι → ι → D) (s : CovState D ι) (t : MeanState (ι → D)) (h : t.n = s.n ∧ t.mean = s.mean) (x : ι → D) :
    (meanConsume t x).n = (covConsume G s x).n ∧ (meanConsume t x).mean = (covConsume G s x).mean := by
  obtain ⟨n, m⟩ := t
  obtain ⟨rfl, rfl⟩ := h
  unfold meanConsume covConsume
  by_cases h0 : s.n = 0
  · simp [h0]
  · simp [h0]

theorem cov_nan_stays {nan : D → Prop} (N : NanPropagates nan) (G : ι → ι → D) (i j : ι) (xs : List (ι → D)) : ∀ s : CovState D ι, s.n ≠ 0 →
    nan (s.C i j) ∨ ((nan (s.mean i) ∨ nan (s.mean j)) ∧ xs ≠ []) ∨ (∃ x ∈ xs, nan (x i) ∨ nan (x j)) →
    nan ((xs.foldl (covConsume G) s).C i j) := by
  induction xs with
  | nil => intro s _ h; simpa using h
  | cons x xs ih =>
    intro s hn h
    rw [List.foldl_cons]
    refine ih _ (by rw [covConsume_n]; omega) ?_
    have step : (nan (s.C i j) ∨ (nan (s.mean i) ∨ nan (s.mean j)) ∨ nan (x i) ∨ nan (x j)) → nan ((covConsume G s x).C i j) := by
      intro h
      unfold covConsume
      rw [if_neg hn]
      rcases h with h | (h | h) | h | h
      · exact N.add_left _ _ h
      · exact N.add_right _ _ (N.sub_left _ _ (N.div_left _ _ (N.mul_left _ _ (N.sub_right _ _ h))))
      · exact N.add_right _ _ (N.sub_left _ _ (N.div_left _ _ (N.mul_right _ _ (N.conj _ (N.sub_right _ _ h)))))
      · exact N.add_right _ _ (N.sub_left _ _ (N.div_left _ _ (N.mul_left _ _ (N.sub_left _ _ h))))
      · exact N.add_right _ _ (N.sub_left _ _ (N.div_left _ _ (N.mul_right _ _ (N.conj _ (N.sub_left _ _ h)))))
    rcases h with h | ⟨h, -⟩ | ⟨y, hy, h⟩
    · exact .inl (step (.inl h))
    · exact .inl (step (.inr (.inl h)))
    · rcases List.mem_cons.mp hy with rfl | hy
      · exact .inl (step (.inr (.inr h)))
      · exact .inr (.inr ⟨y, hy, h⟩)

theorem mean_component {κ : Type} (f : κ → ι) (xs : List (ι → D)) : ∀ (s : MeanState (ι → D)) (t : MeanState (κ → D)), t.n = s.n ∧ t.mean = s.mean ∘ f →
    ((xs.map (· ∘ f)).foldl meanConsume t).n = (xs.foldl meanConsume s).n ∧
    ((xs.map (· ∘ f)).foldl meanConsume t).mean = (xs.foldl meanConsume s).mean ∘ f := by
  induction xs with
  | nil => intro s t h; exact h
  | cons x xs ih =>
    intro s t h
    refine ih _ _ ?_
    obtain ⟨n, m⟩ := t
    obtain ⟨rfl, rfl⟩ := h
    unfold meanConsume
    by_cases h0 : s.n = 0
    · simp [h0]
    · rw [if_neg h0, if_neg h0]; exact ⟨rfl, rfl⟩

theorem cov_component {κ : Type} (f : κ → ι) (G : ι → ι → D) (xs : List (ι → D)) : ∀ (s : CovState D ι) (t : CovState D κ),
    (t.n = s.n ∧ t.mean = s.mean ∘ f ∧ (s.n ≠ 0 → t.C = fun i j => s.C (f i) (f j))) →
    ((xs.map (· ∘ f)).foldl (covConsume (fun i j => G (f i) (f j))) t).mean = (xs.foldl (covConsume G) s).mean ∘ f ∧
    (s.n + xs.length ≠ 0 → ((xs.map (· ∘ f)).foldl (covConsume (fun i j => G (f i) (f j))) t).C = fun i j => (xs.foldl (covConsume G) s).C (f i) (f j)) := by
  induction xs with
  | nil => intro s t h; exact h.2
  | cons x xs ih =>
    intro s t h
    have hn : (covConsume G s x).n + xs.length ≠ 0 := by rw [covConsume_n]; omega
    have := ih (covConsume G s x) (covConsume (fun i j => G (f i) (f j)) t (x ∘ f)) ?_
    · exact ⟨this.1, fun _ => this.2 hn⟩
    · obtain ⟨n, m, C⟩ := t
      obtain ⟨h1, h2, h3⟩ := h
      simp only at h1 h2 h3
      subst h1 h2
      unfold covConsume
      by_cases h0 : s.n = 0
      · simp [h0]
      · have := h3 h0
        subst this
        rw [if_neg h0, if_neg h0]
        exact ⟨rfl, rfl, fun _ => rfl⟩

end NanMoments

/-- **C72**, MeanValue: if component `i` of some sample is NaN, component `i` of the mean value is NaN, however many samples follow. -/
theorem C72_mean_keeps_nan {nan : D → Prop} (N : NanPropagates nan) (G : ι → D) (xs : List (ι → D)) (i : ι) (h : ∃ x ∈ xs, nan (x i)) :
    nan ((machineMean G xs).get i) := by
  cases xs with
  | nil => simp at h
  | cons x xs =>
    refine NanMoments.mean_nan_stays N i xs (meanConsume (MeanState.init G) x) (by rw [NanMoments.meanConsume_n]; omega) ?_
    obtain ⟨y, hy, h⟩ := h
    rcases List.mem_cons.mp hy with rfl | hy
    · exact .inl h
    · exact .inr ⟨y, hy, h⟩

/-- **C72**, CovarianceMatrix: if component `i` of some of at least two samples is NaN, row `i` and column `i` of the matrix are NaN. -/
theorem C72_covariance_keeps_nan {nan : D → Prop} (N : NanPropagates nan) (M : ι → D) (C₀ G : ι → ι → D) (xs : List (ι → D)) (i j : ι)
    (h2 : 2 ≤ xs.length) (h : ∃ x ∈ xs, nan (x i)) : nan ((machineCov M C₀ G xs).get i j) ∧ nan ((machineCov M C₀ G xs).get j i) := by
  cases xs with
  | nil => simp at h2
  | cons x xs =>
    have hne : xs ≠ [] := by intro h0; subst h0; simp at h2
    obtain ⟨y, hy, h⟩ := h
    constructor
    · refine NanMoments.cov_nan_stays N G i j xs (covConsume G (CovState.init M C₀) x) (by rw [NanMoments.covConsume_n]; omega) ?_
      rcases List.mem_cons.mp hy with rfl | hy
      · exact .inr (.inl ⟨.inl h, hne⟩)
      · exact .inr (.inr ⟨y, hy, .inl h⟩)
    · refine NanMoments.cov_nan_stays N G j i xs (covConsume G (CovState.init M C₀) x) (by rw [NanMoments.covConsume_n]; omega) ?_
      rcases List.mem_cons.mp hy with rfl | hy
      · exact .inr (.inl ⟨.inr h, hne⟩)
      · exact .inr (.inr ⟨y, hy, .inr h⟩)

/-- **C72**, MeanValue: component `i` of the mean is what a MeanValue for scalars computes from the components `i` of the samples, bit by bit. Hence nothing in other components (in particular no NaN)
has any influence on it. -/
theorem C72_mean_componentwise (G : ι → D) (xs : List (ι → D)) (i : ι) :
    (machineMean G xs).get i = (machineMean (fun _ : Unit => G i) (xs.map (fun x _ => x i))).get () := by
  have h := (NanMoments.mean_component (fun _ : Unit => i) xs (MeanState.init G) (MeanState.init (fun _ => G i)) ⟨rfl, rfl⟩).2
  have h' := congrFun h ()
  exact h'.symm

/-- **C72**, CovarianceMatrix: the entries for the components `i`, `j` are those of the covariance matrix of samples with these two components only, bit by bit. -/
theorem C72_covariance_componentwise (M : ι → D) (C₀ G : ι → ι → D) (xs : List (ι → D)) (hx : xs ≠ []) (f : Fin 2 → ι) (a b : Fin 2) :
    (machineCov M C₀ G xs).get (f a) (f b) =
      (machineCov (M ∘ f) (fun i j => C₀ (f i) (f j)) (fun i j => G (f i) (f j)) (xs.map (· ∘ f))).get a b := by
  have h := (NanMoments.cov_component f G xs (CovState.init M C₀) (CovState.init (M ∘ f) (fun i j => C₀ (f i) (f j))) ⟨rfl, rfl, fun h => absurd rfl h⟩).2
    (by simpa [CovState.init] using hx)
  have h' := congrFun (congrFun h a) b
  exact h'.symm

/-! ### The hypotheses can be met -/

/-- Numbers and one NaN, `none`. -/
@[reducible] def NanMoments.optionArith : Arith (Option Int) where
  add := fun a b => do return (← a) + (← b)
  sub := fun a b => do return (← a) - (← b)
  mul := fun a b => do return (← a) * (← b)
  div := fun a b => do return (← a) / (← b)
  ofNat := fun n => some n
  conj := id

theorem NanMoments.option_propagates : @NanPropagates (Option Int) NanMoments.optionArith (fun d => d = none) := by
  let _ := NanMoments.optionArith
  refine ⟨?_, ?_, ?_, ?_, ?_, ?_, ?_, ?_⟩
  · rintro a b rfl; rfl
  · rintro a b rfl; cases a <;> rfl
  · rintro a b rfl; rfl
  · rintro a b rfl; cases a <;> rfl
  · rintro a b rfl; rfl
  · rintro a b rfl; cases a <;> rfl
  · rintro a b rfl; rfl
  · rintro a rfl; rfl

/-- Three samples with two components, the second sample with a NaN: the mean of the first component is a number. -/
example : letI := NanMoments.optionArith
    (machineMean (fun _ : Fin 2 => (none : Option Int)) [![some 0, some 1], ![some 4, none], ![some 8, some 3]]).get 0 = some 4 ∧
    (machineMean (fun _ : Fin 2 => (none : Option Int)) [![some 0, some 1], ![some 4, none], ![some 8, some 3]]).get 1 = none := ⟨rfl, rfl⟩

/-! ### Instances: concrete cases that meet the hypotheses of the theorems above -/

section
attribute [local instance] NanMoments.optionArith
example := C72_mean_keeps_nan NanMoments.option_propagates (fun _ : Fin 2 => (some 7 : Option Int)) [![some 0, some 1], ![some 4, none], ![some 8, some 3]] 1 ⟨![some 4, none], by simp, rfl⟩
example := C72_covariance_keeps_nan NanMoments.option_propagates (fun _ : Fin 2 => (some 7 : Option Int)) (fun _ _ => some 0) (fun _ _ => some 0)
  [![some 0, some 1], ![some 4, none], ![some 8, some 3]] 1 0 (by decide) ⟨![some 4, none], by simp, rfl⟩
example (f : Fin 2 → Fin 2) (a b : Fin 2) := C72_covariance_componentwise (fun _ : Fin 2 => (some 7 : Option Int)) (fun _ _ => some 0) (fun _ _ => some 0)
  [![some 0, some 1], ![some 4, none], ![some 8, some 3]] (by simp) f a b
end

end SampleFlow
