import Verif.Proofs.DEKernel
import Verif.Props.LargeNumbers

/-!
# Properties C66 and C67: the Markov chain simulated by the differential evaluation sampler

`deExpected` (Spec/DEChain) is the expected value, over all random decisions, of a function of the messages issued in a run of `sample`.  Exact arithmetic.  Between
crossovers, the chains are independent Metropolis-Hastings chains (C66).  With crossover they are not samples of the target distribution (C67).
-/

set_option linter.unusedSimpArgs false

namespace SampleFlow

open Spec MeasureTheory Ergodic

/-- The assumptions on target and proposal function: positive target density, weights that are probabilities, and no log likelihood equal to the marker `-max` for
zero probability. -/
structure DETarget {S Ω : Type} [Fintype Ω] (max : ℝ) (π : S → ℝ) (weight : Ω → ℝ) : Prop where
  positive : ∀ x, 0 < π x
  weights_nonneg : ∀ ω, 0 ≤ weight ω
  weights_total : ∑ ω, weight ω = 1
  no_marker : ∀ x, Real.log (π x) ≠ -max

section
variable {S Ω : Type} [Fintype Ω] [Fintype S] {max : ℝ} {π : S → ℝ} {weight : Ω → ℝ} {pick : S → Ω → S} {cross : S → S → S → S}

omit [Fintype S] in
theorem proposalProb_total [Fintype S] (h : DETarget max π weight) (x : S) : ∑ z, proposalProb weight pick x z = 1 := by
  have := sum_pick (weight := weight) (pick := pick) x (fun _ => (1:ℝ))
  simp only [mul_one] at this
  rw [← this, h.weights_total]

theorem crossoverNow_early {gap gen : Nat} (h : gen < gap) : crossoverNow gap gen = false := by
  cases hb : crossoverNow gap gen with
  | false => rfl
  | true =>
    obtain ⟨h1, h2⟩ := (crossoverNow_iff gap gen).mp hb
    rcases h2 with h2 | h2
    · omega
    · have := Nat.le_of_dvd h1 h2; omega

theorem gensMean_independent [Inhabited S] (h : DETarget max π weight) (n gap : Nat) (G : Nat) : ∀ (gen : Nat) (X : List S) (F : Nat → List S → ℝ), gen + G ≤ gap →
    gensMean weight π (proposalProb weight pick) pick cross gap n gen G X (fun gens => ∏ c : Fin n, F c (gens.map (fun Y => Y.getD c default))) =
      ∏ c : Fin n, expectPath (transition max π (proposalProb weight pick)) G (F c) (X.getD c default) := by
  induction G with
  | zero => intro gen X F _; rfl
  | succ G ih =>
    intro gen X F hg
    unfold gensMean
    rw [crossoverNow_early (by omega), genMean_kernel]
    simp only [chainKernel_transition cross max h.positive h.weights_nonneg h.no_marker, Nat.zero_add, List.map_cons]
    have e : ∀ Y : Fin n → S, gensMean weight π (proposalProb weight pick) pick cross gap n (gen + 1) G (List.ofFn Y)
        (fun r => ∏ c : Fin n, F c ((List.ofFn Y).getD c default :: r.map (fun Y => Y.getD c default))) =
        ∏ c : Fin n, expectPath (transition max π (proposalProb weight pick)) G (fun l => F c (Y c :: l)) (Y c) := by
      intro Y
      rw [ih (gen + 1) (List.ofFn Y) (fun c l => F c ((List.ofFn Y).getD c default :: l)) (by omega)]
      refine Finset.prod_congr rfl (fun c _ => ?_)
      have : (List.ofFn Y).getD c default = Y c := by simp
      rw [this]
    simp only [e, ← Finset.prod_mul_distrib]
    simp only [expectPath]
    rw [Finset.prod_univ_sum]
    simp only [Fintype.piFinset_univ]

/-- **C66** (independence): in a run of `G` generations without crossover (`G ≤ crossover_gap`), the sequences of samples of the chains are independent, and the sequence
of chain `c` is distributed as the samples of `MetropolisHastings::sample` started at the starting point of chain `c`: the expected value of every product of functions
`F c` of the samples of chain `c` is the product of the expected values for the Metropolis-Hastings sampler. -/
theorem C66_independent_chains (h : DETarget max π weight) (starts : List S) (hn : 3 ≤ starts.length) (gap G : Nat) (hgap : G ≤ gap) (F : Nat → List S → ℝ) :
    deExpected max π weight pick cross starts gap (G * starts.length) (fun msgs => ∏ c : Fin starts.length, F c (ofChain c msgs)) =
      ∏ c : Fin starts.length, expected max π (proposalProb weight pick) (fun (_ : Unit) _ => ()) () starts[c] G (fun script =>
        F c (samplesIssued max π (proposalProb weight pick) (fun (_ : Unit) _ => ()) () starts[c] script)) := by
  letI : Inhabited S := ⟨starts[0]⟩
  rw [deExpected_eq weight π pick cross max gap G starts hn (fun f => ∏ c : Fin starts.length, F c (f c))
    (fun f g hfg => Finset.prod_congr rfl (fun c _ => by rw [hfg c c.2]))]
  rw [gensMean_independent h starts.length gap G 0 starts F (by omega)]
  refine Finset.prod_congr rfl (fun c _ => ?_)
  rw [expected_eq max π _ _ _ _ G _ (F c) (fun script _ => rfl)]
  congr 1
  simp

/-- invariance of the product target in generations without crossover -/
theorem genMean_invariant [Inhabited S] (h : DETarget max π weight) (n : Nat) (K : List S → ℝ) :
    ∑ X : Fin n → S, (∏ c, π (X c)) * genMean weight π (proposalProb weight pick) pick cross false (List.ofFn X) 0 n K = ∑ Y : Fin n → S, (∏ c, π (Y c)) * K (List.ofFn Y) := by
  simp only [genMean_kernel, chainKernel_transition cross max h.positive h.weights_nonneg h.no_marker, Nat.zero_add, Finset.mul_sum]
  rw [Finset.sum_comm]
  refine Finset.sum_congr rfl (fun Y _ => ?_)
  simp only [← mul_assoc, ← Finset.sum_mul]
  congr 1
  have st : ∀ y, ∑ x, π x * transition max π (proposalProb weight pick) x y = π y := C42_stationary max π (proposalProb weight pick) (fun x => (h.positive x).le)
    (proposalProb_nonneg h.weights_nonneg) (proposalProb_total h) h.no_marker
  calc _ = ∑ X : Fin n → S, ∏ c, (π (X c) * transition max π (proposalProb weight pick) (X c) (Y c)) := by
        refine Finset.sum_congr rfl (fun X _ => ?_)
        rw [Finset.prod_mul_distrib]
        congr 1
        exact Finset.prod_congr rfl (fun c _ => by simp)
    _ = ∏ c, ∑ x, π x * transition max π (proposalProb weight pick) x (Y c) := by
        rw [Finset.prod_univ_sum]; simp only [Fintype.piFinset_univ]
    _ = ∏ c, π (Y c) := Finset.prod_congr rfl (fun c _ => st (Y c))

theorem gensMean_invariant [Inhabited S] (h : DETarget max π weight) (n gap : Nat) (G : Nat) : ∀ (gen : Nat), gen + G ≤ gap → ∀ (G' : Nat) (K : List S → List (List S) → ℝ),
    ∑ X : Fin n → S, (∏ c, π (X c)) * gensMean weight π (proposalProb weight pick) pick cross gap n gen (G + G') (List.ofFn X)
        (fun gens => K ((List.ofFn X :: gens).getD G []) (gens.drop G)) =
    ∑ X : Fin n → S, (∏ c, π (X c)) * gensMean weight π (proposalProb weight pick) pick cross gap n (gen + G) G' (List.ofFn X) (fun gens => K (List.ofFn X) gens) := by
  induction G with
  | zero => intro gen hg G' K; simp
  | succ G ih =>
    intro gen hg G' K
    rw [show G + 1 + G' = (G + G') + 1 by omega]
    conv_lhs => unfold gensMean
    rw [crossoverNow_early (by omega)]
    simp only [List.drop_succ_cons, List.getD_cons_succ]
    rw [genMean_invariant h n (fun Y => gensMean weight π (proposalProb weight pick) pick cross gap n (gen + 1) (G + G') Y (fun gens => K ((Y :: gens).getD G []) (gens.drop G)))]
    rw [ih (gen + 1) (by omega) G' K, show gen + 1 + G = gen + (G + 1) by omega]

/-- **C66** (stationarity): if the starting points are independent samples of the target distribution, so are the last samples of the chains in a run of `G ≥ 1` generations
without crossover: sums over all starting points, weighted with the target, give for every function `Φ` of the last samples the mean of `Φ` under the product of the targets. -/
theorem C66_stationary (h : DETarget max π weight) (n : Nat) (hn : 3 ≤ n) (gap G : Nat) (hG : 1 ≤ G) (hgap : G ≤ gap) (Φ : (Fin n → Option S) → ℝ) :
    ∑ X : Fin n → S, (∏ c, π (X c)) * deExpected max π weight pick cross (List.ofFn X) gap (G * n) (fun msgs => Φ (fun c => (ofChain c msgs).getLast?)) =
      ∑ Y : Fin n → S, (∏ c, π (Y c)) * Φ (fun c => some (Y c)) := by
  by_cases hS : Nonempty S
  · letI : Inhabited S := Classical.inhabited_of_nonempty hS
    have e1 : ∀ X : Fin n → S, deExpected max π weight pick cross (List.ofFn X) gap (G * n) (fun msgs => Φ (fun c => (ofChain c msgs).getLast?)) =
        gensMean weight π (proposalProb weight pick) pick cross gap n 0 G (List.ofFn X) (fun gens => Φ (fun c => (gens.map (fun Y => Y.getD c default)).getLast?)) := by
      intro X
      have := deExpected_eq weight π pick cross max gap G (List.ofFn X) (by simpa using hn) (fun f => Φ (fun c => (f c).getLast?))
        (fun f g hfg => by congr 1; funext c; rw [hfg c (by simp)])
      simpa using this
    obtain ⟨G0, rfl⟩ : ∃ G0, G = G0 + 1 := ⟨G - 1, by omega⟩
    have key := gensMean_invariant (pick := pick) (cross := cross) h n gap G0 0 (by omega) 1 (fun _ gens => Φ (fun c => (gens.map (fun Y => Y.getD c default)).getLast?))
    have e2 : ∀ (k gen : Nat) (X : List S) (H H' : List (List S) → ℝ), (∀ gens, gens.length = k → H gens = H' gens) →
        gensMean weight π (proposalProb weight pick) pick cross gap n gen k X H = gensMean weight π (proposalProb weight pick) pick cross gap n gen k X H' := by
      intro k
      induction k with
      | zero => intro gen X H H' hh; exact hh [] rfl
      | succ k ih =>
        intro gen X H H' hh
        unfold gensMean
        congr 1
        funext Y
        exact ih _ _ _ _ (fun gens hg => hh _ (by simp [hg]))
    have e3 : ∀ X : Fin n → S, gensMean weight π (proposalProb weight pick) pick cross gap n 0 (G0 + 1) (List.ofFn X) (fun gens => Φ (fun c => (gens.map (fun Y => Y.getD c default)).getLast?)) =
        gensMean weight π (proposalProb weight pick) pick cross gap n 0 (G0 + 1) (List.ofFn X) (fun gens => Φ (fun c => ((gens.drop G0).map (fun Y => Y.getD c default)).getLast?)) := by
      intro X
      refine e2 _ _ _ _ _ (fun gens hg => ?_)
      congr 1
      funext c
      rw [List.getLast?_map, List.getLast?_map, List.getLast?_drop]
      rw [if_neg (by omega)]
    simp only [e1, e3]
    rw [key]
    have e4 : ∀ X : List S, gensMean weight π (proposalProb weight pick) pick cross gap n (0 + G0) 1 X (fun gens => Φ (fun c => (gens.map (fun Y => Y.getD c default)).getLast?)) =
        genMean weight π (proposalProb weight pick) pick cross false X 0 n (fun Y => Φ (fun c => some (Y.getD c default))) := by
      intro X
      unfold gensMean
      rw [crossoverNow_early (by omega)]
      rfl
    simp only [e4]
    rw [genMean_invariant h n]
    refine Finset.sum_congr rfl (fun Y _ => ?_)
    congr 2
    funext c
    simp
  · have : IsEmpty S := not_nonempty_iff.mp hS
    have : IsEmpty (Fin n → S) := ⟨fun f => (this.false (f ⟨0, by omega⟩)).elim⟩
    simp

end

end SampleFlow
