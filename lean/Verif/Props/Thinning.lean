import Verif.Proofs.Thinning
import Verif.Props.LargeNumbers
import Verif.Props.Filters

/-!
# Property C65: burn-in and thinning

A consumer behind filters such as DiscardFirstN and TakeEveryNth that choose samples by their position, connected to a Metropolis-Hastings
sampler; setting as in C62.
-/

namespace SampleFlow

open Spec MeasureTheory Ergodic

theorem foldl_behind {σ C X Y : Type} (F : FilterObj σ X Y) (step : C → Y → C) (xs : List X) : ∀ (s : σ) (c : C),
    xs.foldl (behindFilter F step) (.ok s, c) = ((F.runFrom s xs).2, (F.runFrom s xs).1.foldl step c) := by
  have err : ∀ (xs : List X) (e : Fault) (c : C), xs.foldl (behindFilter F step) (.error e, c) = (.error e, c) := by
    intro xs e c
    induction xs with
    | nil => rfl
    | cons x xs ih => exact ih
  induction xs with
  | nil => intro s c; rfl
  | cons x xs ih =>
    intro s c
    rw [List.foldl_cons]
    unfold FilterObj.runFrom
    cases hf : F.filter s x with
    | error e =>
      have : behindFilter F step (.ok s, c) x = (.error e, c) := by simp only [behindFilter, hf]
      rw [this, err]; rfl
    | ok r =>
      obtain ⟨o, s'⟩ := r
      cases o with
      | none =>
        have : behindFilter F step (.ok s, c) x = (.ok s', c) := by simp only [behindFilter, hf]
        rw [this, ih]
      | some y =>
        have : behindFilter F step (.ok s, c) x = (.ok s', step c y) := by simp only [behindFilter, hf]
        rw [this, ih]; rfl

variable {S : Type} [Fintype S] {max : ℝ} {π : S → ℝ} {q : S → S → ℝ}

omit [Fintype S] in
/-- **C65**: a consumer behind a filter has consumed exactly what the filter issues for the samples of the sampler. -/
theorem C65_consumes_filtered {σ C Y : Type} (F : FilterObj σ (S × Aux XR) Y) (step : C → Y → C) (c : C) (start : S) (script : List (Chance S)) :
    (consumerState max π q (behindFilter F step) (.ok F.init, c) start script).2 =
      (F.issued (issuedOf (scriptRun max π q (behindFilter F step) (.ok F.init, c) start script).1)).foldl step c := by
  rw [consumerState_eq, foldl_behind]
  rfl

/-- The number of positions below `n` that satisfy `p`. -/
theorem keepFrom_length_eq {X Y : Type} (p : Nat → Prop) [DecidablePred p] : ∀ (k : Nat) (l : List X) (l' : List Y), l.length = l'.length →
    (keepFrom p k l).length = (keepFrom p k l').length := by
  intro k l
  induction l generalizing k with
  | nil => intro l' h; have : l' = [] := List.length_eq_zero_iff.mp (by simpa using h.symm); rw [this]; rfl
  | cons x l ih =>
    intro l' h
    cases l' with
    | nil => simp at h
    | cons y l' =>
      simp only [keepFrom]
      have := ih (k + 1) l' (by simpa using h)
      by_cases hp : p k <;> simp [hp, this]

theorem keepFrom_map {X Y : Type} (p : Nat → Prop) [DecidablePred p] (g : X → Y) : ∀ (k : Nat) (l : List X),
    keepFrom p k (l.map g) = (keepFrom p k l).map g := by
  intro k l
  induction l generalizing k with
  | nil => rfl
  | cons x l ih =>
    simp only [List.map_cons, keepFrom, ih]
    by_cases hp : p k <;> simp [hp]

/-- **C65** (any choice by position): Let the state `y` be reachable in exactly `k` steps from all states.  There is a `K` such that for every filter `F` which
issues from `n` samples those at the positions `p`, `N ≥ 1` of them, the mean square difference between `MeanValue::get()` behind the filter and the expected
value under the target is at most `K/N`. -/
theorem C65_choice_by_position {ι : Type} (h : FiniteTarget max π q) (k : Nat) (hk : 1 ≤ k) (hc : ConnectedIn π q k) (f : S → ι → ℝ) (G : ι → ℝ) (i : ι) :
    ∃ K : ℝ, ∀ (σ : Type) (F : FilterObj σ (S × Aux XR) (S × Aux XR)) (p : Nat → Prop) [DecidablePred p] (n N : Nat) (start : S), 1 ≤ N →
      (∀ xs : List (S × Aux XR), xs.length = n → F.issued xs = keepAt p xs ∧ (F.issued xs).length = N) →
      expected max π q (behindFilter F (meanStep f)) (.ok F.init, MeanState.init G) start n (fun script =>
        ((consumerState max π q (behindFilter F (meanStep f)) (.ok F.init, MeanState.init G) start script).2.get i - targetMean π (fun x => f x i)) ^ 2)
        ≤ K / N := by
  obtain ⟨y0, hy⟩ := connectedIn_transition h k hc
  obtain ⟨K, hK⟩ := mean_square_at (stochastic_transition h) π h.nonneg h.nonzero
    (C42_stationary max π q h.nonneg h.proposals_nonneg h.proposals_total h.no_marker) k hk y0 hy (fun x => f x i)
  refine ⟨K, fun σ F p _ n N start hN hF => ?_⟩
  have hcount : ∀ l : List S, l.length = n → (keepFrom p 0 l).length = N := by
    intro l hl
    obtain ⟨e1, e2⟩ := hF (l.map (fun x => (x, []))) (by simpa using hl)
    rw [e1, keepAt_eq] at e2
    rw [← e2]
    exact keepFrom_length_eq p 0 _ _ (by simp)
  rw [expected_eq max π q _ _ start n _ (fun l => (((keepFrom p 0 l).map (fun x => f x i)).sum / N - targetMean π (fun x => f x i)) ^ 2)
    (fun script hs => ?_)]
  · exact hK p n start N hN hcount
  · have hlen := samplesIssued_length (max := max) (π := π) (q := q) (behindFilter F (meanStep f)) (.ok F.init, MeanState.init G) start script
    rw [hs] at hlen
    have e : (consumerState max π q (behindFilter F (meanStep f)) (.ok F.init, MeanState.init G) start script).2 =
        meanAfter G ((keepFrom p 0 (samplesIssued max π q (behindFilter F (meanStep f)) (.ok F.init, MeanState.init G) start script)).map f) := by
      rw [C65_consumes_filtered, (hF _ (by rw [samplesIssued, List.length_map] at hlen; exact hlen)).1, keepAt_eq, samplesIssued, keepFrom_map, meanAfter, List.map_map, List.foldl_map]
      rfl
    have hne : (keepFrom p 0 (samplesIssued max π q (behindFilter F (meanStep f)) (.ok F.init, MeanState.init G) start script)).map f ≠ [] := by
      intro h'
      have := hcount _ hlen
      rw [List.map_eq_nil_iff] at h'
      rw [h'] at this
      simp at this
      omega
    rw [e, C21_mean G _ hne i, List.map_map, List.length_map, hcount _ hlen]
    rfl

/-- **C65** (burn-in and thinning): sampler `>> DiscardFirstN(b) >> TakeEveryNth(m) >> MeanValue`.  After `n` samples, `b < n < 2^64`, the mean square
difference between the mean and the expected value under the target is at most `K` divided by the number `⌈(n-b)/m⌉` of samples consumed; `K` does
not depend on `b`, `m`, `n` and the starting point. -/
theorem C65_burn_in_and_thinning {ι : Type} (h : FiniteTarget max π q) (k : Nat) (hk : 1 ≤ k) (hc : ConnectedIn π q k) (f : S → ι → ℝ) (G : ι → ℝ) (i : ι) :
    ∃ K : ℝ, ∀ (b m : UInt64) (n : Nat) (start : S), m ≠ 0 → b.toNat < n → n < 2 ^ 64 →
      expected max π q (behindFilter ((discardFirstN S (Aux XR) b).andThen (takeEveryNth S (Aux XR) m)) (meanStep f)) (.ok (0, 0), MeanState.init G) start n (fun script =>
        ((consumerState max π q (behindFilter ((discardFirstN S (Aux XR) b).andThen (takeEveryNth S (Aux XR) m)) (meanStep f)) (.ok (0, 0), MeanState.init G) start script).2.get i
          - targetMean π (fun x => f x i)) ^ 2)
        ≤ K / ((n - b.toNat + m.toNat - 1) / m.toNat : Nat) := by
  obtain ⟨K, hK⟩ := C65_choice_by_position h k hk hc f G i
  refine ⟨K, fun b m n start hm hb hn => ?_⟩
  have hm0 : 0 < m.toNat := by
    rcases Nat.eq_zero_or_pos m.toNat with h0 | h0
    · exact absurd (UInt64.toNat_inj.mp (by simpa using h0)) hm
    · exact h0
  have hdec : DecidablePred (fun k => ∃ j, k = b.toNat + j * m.toNat) := Classical.decPred _
  refine hK _ ((discardFirstN S (Aux XR) b).andThen (takeEveryNth S (Aux XR) m)) (fun k => ∃ j, k = b.toNat + j * m.toNat) n _ start ?_ ?_
  · exact Nat.div_pos (by omega) hm0
  · intro xs hxs
    refine ⟨?_, ?_⟩
    · rw [C05_discard_take S (Aux XR) b m hm xs (by omega)]
      congr
    · rw [C05_series _ _ _ (C02_discardFirstN S (Aux XR) b xs).2, C02_discardFirstN_drop S (Aux XR) b xs (by omega), (C01_takeEveryNth S (Aux XR) m hm _).1, keepAt_eq]
      have cnt : ∀ (ys : List (S × Aux XR)) (j : Nat), (keepFrom (fun i => m.toNat ∣ i) j ys).length = (j + ys.length + m.toNat - 1) / m.toNat - (j + m.toNat - 1) / m.toNat := by
        intro ys
        induction ys with
        | nil => intro j; simp [keepFrom]
        | cons y ys ih =>
          intro j
          simp only [keepFrom, List.length_cons]
          have hs : (j + 1 + m.toNat - 1) / m.toNat = (j + m.toNat - 1) / m.toNat + (if m.toNat ∣ j then 1 else 0) := by
            rw [show j + 1 + m.toNat - 1 = (j + m.toNat - 1) + 1 by omega, Nat.succ_div]
            congr 1
            have : (m.toNat ∣ j + m.toNat - 1 + 1) ↔ m.toNat ∣ j := by
              rw [show j + m.toNat - 1 + 1 = j + m.toNat by omega]
              exact Nat.dvd_add_self_right
            by_cases hd : m.toNat ∣ j
            · rw [if_pos hd, if_pos (this.mpr hd)]
            · rw [if_neg hd, if_neg (fun h' => hd (this.mp h'))]
          have mono : (j + 1 + m.toNat - 1) / m.toNat ≤ (j + (ys.length + 1) + m.toNat - 1) / m.toNat := Nat.div_le_div_right (by omega)
          have hih := ih (j + 1)
          rw [show j + 1 + ys.length + m.toNat - 1 = j + (ys.length + 1) + m.toNat - 1 by omega] at hih
          by_cases hd : m.toNat ∣ j
          · rw [if_pos hd] at hs ⊢
            rw [List.length_cons, hih]; omega
          · rw [if_neg hd] at hs ⊢
            rw [hih]; omega
      rw [cnt]
      have : (0 + m.toNat - 1) / m.toNat = 0 := Nat.div_eq_of_lt (by omega)
      rw [this, List.length_drop, hxs, Nat.zero_add, Nat.sub_zero]

/-! A case that meets the hypotheses: the target and proposals of `exampleTarget` (three states, one of zero probability), burn-in 1000, every
10th sample. -/

example : ∃ K : ℝ, ∀ (n : Nat) (start : Fin 3), 1000 < n → n < 2 ^ 64 →
    let π : Fin 3 → ℝ := fun x => if x = 0 then 0 else if x = 1 then 1 else 2
    let q : Fin 3 → Fin 3 → ℝ := fun x y => if x = y then 0 else if (x = 0 ∧ y = 1) ∨ (x = 1 ∧ y = 2) ∨ (x = 2 ∧ y = 0) then 1/4 else 3/4
    let step := behindFilter ((discardFirstN (Fin 3) (Aux XR) 1000).andThen (takeEveryNth (Fin 3) (Aux XR) 10)) (meanStep (fun x (_ : Unit) => (x.val : ℝ)))
    expected 1000 π q step (.ok (0, 0), MeanState.init 0) start n (fun script =>
        ((consumerState 1000 π q step (.ok (0, 0), MeanState.init 0) start script).2.get () - targetMean π (fun x => (x.val : ℝ))) ^ 2)
      ≤ K / ((n - 1000 + 10 - 1) / 10 : Nat) := by
  obtain ⟨K, hK⟩ := C65_burn_in_and_thinning exampleTarget 1 (Nat.le_refl _) exampleConnectedIn (fun x (_ : Unit) => (x.val : ℝ)) 0 ()
  exact ⟨K, fun n start h1 h2 => hK 1000 10 n start (by decide) h1 h2⟩

/-! ### Instances: concrete cases that meet the hypotheses of the theorems above -/

example := C65_choice_by_position exampleTarget 1 (Nat.le_refl _) exampleConnectedIn (fun x (_ : Unit) => (x.val : ℝ)) 0 ()

end SampleFlow
