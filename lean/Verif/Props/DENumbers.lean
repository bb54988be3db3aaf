import Verif.Proofs.DENumbers

/-!
# Property C80: the law of large numbers for the differential evaluation sampler

The setting of C66.  A `MeanValue` is connected to the sampler through a `Conversion` filter that applies `f`; its state at the end of a run with synchronous execution is the result of
consuming the messages issued one after the other (C53).
-/

set_option linter.unusedSimpArgs false

namespace SampleFlow

open Spec MeasureTheory Ergodic

section
variable {S Ω : Type} [Fintype Ω] [Fintype S] {max : ℝ} {π : S → ℝ} {weight : Ω → ℝ} {pick : S → Ω → S} {cross : S → S → S → S}

theorem DETarget.finite (h : DETarget max π weight) (s : S) : FiniteTarget max π (proposalProb weight pick) where
  nonneg := fun x => (h.positive x).le
  nonzero := Finset.sum_pos (fun x _ => h.positive x) ⟨s, Finset.mem_univ s⟩
  proposals_nonneg := proposalProb_nonneg h.weights_nonneg
  proposals_total := proposalProb_total h
  no_marker := h.no_marker

theorem genKernel_side [Inhabited S] (h : DETarget max π weight) (n : Nat) :
    genKernel π weight pick cross (proposalProb weight pick) false n = side (transition max π (proposalProb weight pick)) n := by
  funext X Y
  unfold genKernel side
  refine Finset.prod_congr rfl (fun c _ => ?_)
  rw [chainKernel_transition cross max h.positive h.weights_nonneg h.no_marker]
  congr 1
  simp

/-- **C80** (proved part, runs without crossover): whatever the starting points of the `n` chains, in a run of `G` generations without crossover (`G ≤ crossover_gap`) the mean square difference
between `MeanValue::get()` and the expected value under the target distribution is at most `K/(n G) + K/G²`, where `K` does not depend on the number of chains, on the starting points or on
`G`: up to an error that depends on the starting points, `n` chains are as good as one chain with `n` times as many samples.  Missing: crossover; see the violation. -/
theorem C80_mean_square_partial {ι : Type} (h : DETarget max π weight) (hc : Connected π (proposalProb weight pick)) (f : S → ι → ℝ) (G₀ : ι → ℝ) (i : ι) :
    ∃ K : ℝ, ∀ (starts : List S) (gap G : Nat), 3 ≤ starts.length → 1 ≤ G → G ≤ gap →
      deExpected max π weight pick cross starts gap (G * starts.length) (fun msgs =>
          ((msgs.foldl (meanStep f) (MeanState.init G₀)).get i - targetMean π (fun x => f x i)) ^ 2) ≤
        K / (starts.length * G) + K / G ^ 2 := by
  obtain ⟨y0, hy⟩ := hc
  letI : Inhabited S := ⟨y0⟩
  have hft := h.finite (pick := pick) y0
  obtain ⟨y1, hr⟩ := connected_transition hft ⟨y0, hy⟩
  obtain ⟨K, -, hK⟩ := side_mean_square (stochastic_transition hft) π hft.nonzero (C42_stationary max π (proposalProb weight pick) hft.nonneg
    hft.proposals_nonneg hft.proposals_total h.no_marker) y1 hr (fun x => f x i)
  refine ⟨K, fun starts gap G hn hG hgap => ?_⟩
  obtain ⟨X, hX⟩ : ∃ X : Fin starts.length → S, X = fun c => starts[c] := ⟨_, rfl⟩
  have hs : List.ofFn X = starts := by rw [hX]; exact List.ofFn_getElem
  have key := hK starts.length (by omega) G X hG
  have h1 := deExpected_mean max π weight pick cross gap G hG hn X f G₀ i (targetMean π (fun x => f x i)) (fun d => d ^ 2)
  rw [gensMean_path π weight pick cross (proposalProb weight pick) gap starts.length false G 0 X _ (fun g _ hg => crossoverNow_early (by omega)), genKernel_side h] at h1
  rw [hs] at h1
  rw [h1]
  refine le_trans (le_of_eq ?_) key
  refine expectPath_congr G _ _ X (fun l hl => ?_)
  rw [mean_of_generations (by omega) (fun x => f x i) _ l (by omega), hl]
  rfl

end

/-! ### Violation -/

theorem step_true (base x : Bool) : stepMean flipWeight twoTarget (proposalProb flipWeight xor) xor base x (fun y => if y = true then 1 else 0) =
    (if x then 1 - (if base then 1/4 else 3/4) * (1/3) else (if base then 3/4 else 1/4)) := by
  unfold stepMean
  have hr : ∀ z, accR (ratioOf twoTarget (proposalProb flipWeight xor) base x z) = min 1 (twoTarget z / twoTarget x) := by
    intro z
    have h1 : ∀ y z : Bool, (0:ℝ) < proposalProb flipWeight xor y z := by intro y z; rw [flip_prob]; split <;> norm_num
    rw [ratioOf_fin twoTarget_ok.positive _ base x z (h1 _ _) (h1 _ _), twoTarget_symmetric.1 z base, div_self (h1 _ _).ne', div_one,
      accR_fin _ (div_pos (twoTarget_ok.positive _) (twoTarget_ok.positive _)).le]
  simp only [hr, Fintype.sum_bool]
  cases base <;> cases x <;> norm_num [flipWeight, twoTarget]

/-- probability that a chain is `true` after a step, given what it proposes from and its current sample -/
noncomputable def stepTrue (base x : Bool) : ℝ := if x then 1 - (if base then 1/4 else 3/4) * (1/3) else (if base then 3/4 else 1/4)

/-- the same for the chains of a generation with crossover.  The partners of chain 0 are 1 and 1, or 2 and 1; the partners of chain 1 are 0 and 1, or 2 and 0; the partners of chain 2 are 0 and 1,
in one order or the other -/
noncomputable def chainTrue (x0 x1 x2 : Bool) : Nat → ℝ
  | 0 => (stepTrue x0 x0 + stepTrue (xor x0 (xor x1 x2)) x0) / 2
  | 1 => (stepTrue x0 x1 + stepTrue (xor x1 (xor x2 x0)) x1) / 2
  | _ => stepTrue (xor x2 (xor x0 x1)) x2

theorem kernel_true (x0 x1 x2 : Bool) (c : Fin 3) :
    chainKernel flipWeight twoTarget (proposalProb flipWeight xor) xor (fun x a b => xor x (xor a b)) true [x0, x1, x2] c true = chainTrue x0 x1 x2 c := by
  unfold chainKernel chainMean
  have e : ∀ (base x : Bool), stepMean flipWeight twoTarget (proposalProb flipWeight xor) xor base x (fun y => @ite ℝ (y = true) (Classical.propDecidable _) 1 0) =
      (if x then 1 - (if base then 1/4 else 3/4) * (1/3) else (if base then 3/4 else 1/4)) := by
    intro base x
    rw [← step_true base x]
    congr 1
    funext y
    cases y <;> simp
  simp only [if_true, e]
  fin_cases c <;> cases x0 <;> cases x1 <;> cases x2 <;> norm_num [Finset.sum_range_succ, baseOf, partnerA, partnerB, chainTrue, stepTrue]

theorem kernel_false (x0 x1 x2 : Bool) (c : Fin 3) :
    chainKernel flipWeight twoTarget (proposalProb flipWeight xor) xor (fun x a b => xor x (xor a b)) true [x0, x1, x2] c false = 1 - chainTrue x0 x1 x2 c := by
  have h1 := chainMean_kernel flipWeight twoTarget (proposalProb flipWeight xor) xor (fun x a b => xor x (xor a b)) true [x0, x1, x2] c (fun _ => 1)
  rw [chainMean_const twoTarget_ok, Fintype.sum_bool, kernel_true] at h1
  linarith

/-- transition probabilities of a generation with crossover -/
noncomputable def eight (X Y : Fin 3 → Bool) : ℝ :=
  ∏ c : Fin 3, if Y c then chainTrue (X 0) (X 1) (X 2) c.val else 1 - chainTrue (X 0) (X 1) (X 2) c.val

theorem genKernel_eight : genKernel twoTarget flipWeight xor (fun x a b => xor x (xor a b)) (proposalProb flipWeight xor) true 3 = eight := by
  funext X Y
  unfold genKernel eight
  refine Finset.prod_congr rfl (fun c _ => ?_)
  have hX : List.ofFn X = [X 0, X 1, X 2] := rfl
  rw [hX]
  cases Y c
  · simp [kernel_false]
  · simp [kernel_true]

theorem chainTrue_bounds (x0 x1 x2 : Bool) (c : Fin 3) : 0 < chainTrue x0 x1 x2 c ∧ chainTrue x0 x1 x2 c < 1 := by
  fin_cases c <;> cases x0 <;> cases x1 <;> cases x2 <;> norm_num [chainTrue, stepTrue]

theorem eight_pos (X Y : Fin 3 → Bool) : 0 < eight X Y := by
  refine Finset.prod_pos (fun c _ => ?_)
  have := chainTrue_bounds (X 0) (X 1) (X 2) c
  split <;> linarith

theorem eight_stochastic : Stochastic eight where
  nonneg := fun X Y => (eight_pos X Y).le
  sum := fun X => by
    unfold eight
    rw [sum_prod (fun (c : Fin 3) y => if y = true then chainTrue (X 0) (X 1) (X 2) c.val else 1 - chainTrue (X 0) (X 1) (X 2) c.val)]
    refine Finset.prod_eq_one (fun c _ => ?_)
    simp

/-- the stationary distribution of the states of the three chains (times 9301804) -/
noncomputable def nu (X : Fin 3 → Bool) : ℝ :=
  match X 0, X 1, X 2 with
  | false, false, false => 209428
  | false, false, true => 414567
  | false, true, false => 429123
  | false, true, true => 1170254
  | true, false, false => 335042
  | true, false, true => 888011
  | true, true, false => 1234743
  | true, true, true => 4620636

theorem nu_stationary (Y : Fin 3 → Bool) : ∑ X, nu X * eight X Y = nu Y := by
  obtain ⟨y0, y1, y2, rfl⟩ : ∃ y0 y1 y2, Y = ![y0, y1, y2] := ⟨Y 0, Y 1, Y 2, by funext c; fin_cases c <;> rfl⟩
  rw [sum_three]
  simp only [Fintype.sum_bool, eight, Fin.prod_univ_three, show ((0 : Fin 3).val) = 0 from rfl, show ((1 : Fin 3).val) = 1 from rfl, show ((2 : Fin 3).val) = 2 from rfl]
  cases y0 <;> cases y1 <;> cases y2 <;> norm_num [nu, chainTrue, stepTrue, third]

theorem crossoverNow_one (gen : Nat) (h : 1 ≤ gen) : crossoverNow 1 gen = true := (crossoverNow_iff 1 gen).mpr ⟨by omega, Or.inr (one_dvd _)⟩

/-- a run with three chains and crossover in all generations but the first -/
theorem run_three (G : Nat) (X : Fin 3 → Bool) (G₀ : Unit → ℝ) (m : ℝ) (Φ : ℝ → ℝ) :
    deExpected 1000 twoTarget flipWeight xor (fun x a b => xor x (xor a b)) (List.ofFn X) 1 ((G + 1) * 3) (fun msgs =>
        Φ ((msgs.foldl (meanStep (fun b _ => if b then 1 else 0)) (MeanState.init G₀)).get () - m)) =
      ∑ Y : Fin 3 → Bool, side (transition 1000 twoTarget (proposalProb flipWeight xor)) 3 X Y *
        expectPath eight G (fun l => Φ (((Y :: l).map (fun Y => (∑ c, if Y c then (1:ℝ) else 0) / 3 - m)).sum / (G + 1))) Y := by
  rw [deExpected_mean 1000 twoTarget flipWeight xor (fun x a b => xor x (xor a b)) 1 (G + 1) (by omega) (by omega) X (fun b _ => if b then 1 else 0) G₀ () m Φ]
  unfold gensMean
  rw [crossoverNow_early (by omega), genMean_kernel]
  refine Finset.sum_congr rfl (fun Y _ => ?_)
  have h1 := congrFun (congrFun (genKernel_side (pick := xor) (cross := fun x a b => xor x (xor a b)) twoTarget_ok 3) X) Y
  unfold genKernel at h1
  simp only [Nat.zero_add]
  rw [h1]
  congr 1
  rw [gensMean_path twoTarget flipWeight xor (fun x a b => xor x (xor a b)) (proposalProb flipWeight xor) 1 3 true G 1 Y _ (fun g hg _ => crossoverNow_one g hg), genKernel_eight]
  refine expectPath_congr G _ _ Y (fun l hl => ?_)
  have h2 := mean_of_generations (n := 3) (by omega) (fun b : Bool => if b then (1:ℝ) else 0) m (Y :: l) (by simp)
  rw [List.map_cons] at h2
  rw [h2, List.length_cons, hl]
  push_cast
  rfl

theorem nu_total : ∑ X, nu X = 9301804 := by
  rw [sum_three]
  simp only [Fintype.sum_bool]
  norm_num [nu, third]

theorem nu_mean : (5406664 / 6976353 : ℝ) = (∑ X, nu X * ((∑ c, if X c then (1:ℝ) else 0) / 3)) / ∑ X, nu X := by
  rw [nu_total, sum_three]
  simp only [Fintype.sum_bool, Fin.sum_univ_three]
  norm_num [nu, third]

/-- **C80** (violation, the limit): three chains on the states `false`, `true`, the target distribution giving `true` the probability 3/4, symmetric proposals, the crossover `x + (a - b)` modulo 2 (which
is undone by exchanging the partners) and crossover in every generation but the first.  Whatever the starting points, `MeanValue::get()` of the samples, counting `true` as 1 and `false` as 0, converges in mean square -
not to 3/4, but to 5406664/6976353, about 0.775. -/
theorem C80_violation_limit (G₀ : Unit → ℝ) :
    (∃ K : ℝ, ∀ (starts : List Bool) (G : Nat), starts.length = 3 → 1 ≤ G →
      deExpected 1000 twoTarget flipWeight xor (fun x a b => xor x (xor a b)) starts 1 (G * 3) (fun msgs =>
        ((msgs.foldl (meanStep (fun b _ => if b then 1 else 0)) (MeanState.init G₀)).get () - 5406664 / 6976353) ^ 2) ≤ K / G) ∧
    targetMean twoTarget (fun b => if b then 1 else 0) = 3 / 4 := by
  constructor
  · obtain ⟨K, hK⟩ := mean_square_start eight_stochastic nu (by rw [nu_total]; norm_num) nu_stationary (fun _ => true)
      (fun X => Relation.ReflTransGen.single (eight_pos _ _)) (fun X => (∑ c, if X c then (1:ℝ) else 0) / 3) _ nu_mean
    refine ⟨K, fun starts G hs hG => ?_⟩
    obtain ⟨x0, x1, x2, rfl⟩ : ∃ x0 x1 x2, starts = [x0, x1, x2] := List.length_eq_three.mp hs
    obtain ⟨N, rfl⟩ : ∃ N, G = N + 1 := ⟨G - 1, by omega⟩
    have h1 := run_three N ![x0, x1, x2] G₀ (5406664 / 6976353) (fun d => d ^ 2)
    rw [show List.ofFn ![x0, x1, x2] = [x0, x1, x2] from rfl] at h1
    rw [h1]
    have hst := side_stochastic (stochastic_transition (twoTarget_ok.finite (pick := xor) true)) 3
    push_cast
    calc _ ≤ ∑ Y : Fin 3 → Bool, side (transition 1000 twoTarget (proposalProb flipWeight xor)) 3 ![x0, x1, x2] Y * (K / (N + 1)) :=
          Finset.sum_le_sum (fun Y _ => mul_le_mul_of_nonneg_left (hK N Y) (hst.nonneg _ _))
      _ = K / (N + 1) := by rw [← Finset.sum_mul, hst.sum, one_mul]
  · unfold targetMean
    simp only [Fintype.sum_bool]
    norm_num [twoTarget]

/-- **C80** (violation): so, for every sufficiently large number of generations, and whatever the starting points, the mean square difference between `MeanValue::get()` and the expected value under the target
distribution is at least 3/10000. -/
theorem C80_violation (G₀ : Unit → ℝ) :
    ∃ G₁ : Nat, ∀ (starts : List Bool) (G : Nat), starts.length = 3 → G₁ ≤ G →
      3 / 10000 ≤ deExpected 1000 twoTarget flipWeight xor (fun x a b => xor x (xor a b)) starts 1 (G * 3) (fun msgs =>
        ((msgs.foldl (meanStep (fun b _ => if b then 1 else 0)) (MeanState.init G₀)).get () - targetMean twoTarget (fun b => if b then 1 else 0)) ^ 2) := by
  obtain ⟨⟨K, hK⟩, ht⟩ := C80_violation_limit G₀
  obtain ⟨G₁, hG₁⟩ := exists_nat_gt (K * 100000)
  refine ⟨G₁ + 1, fun starts G hs hG => ?_⟩
  have h0 := hK starts G hs (by omega)
  obtain ⟨x0, x1, x2, rfl⟩ : ∃ x0 x1 x2, starts = [x0, x1, x2] := List.length_eq_three.mp hs
  obtain ⟨N, rfl⟩ : ∃ N, G = N + 1 := ⟨G - 1, by omega⟩
  have hpos : (0:ℝ) < ((N + 1 : Nat) : ℝ) := by positivity
  have hK1 : K / ((N + 1 : Nat) : ℝ) ≤ 1 / 100000 := by
    rw [div_le_div_iff₀ hpos (by norm_num), one_mul]
    have : (G₁ : ℝ) ≤ ((N + 1 : Nat) : ℝ) := by exact_mod_cast (by omega : G₁ ≤ N + 1)
    linarith
  have hst := side_stochastic (stochastic_transition (twoTarget_ok.finite (pick := xor) true)) 3
  have h1 := run_three N ![x0, x1, x2] G₀ (5406664 / 6976353) (fun d => d ^ 2)
  have h2 := run_three N ![x0, x1, x2] G₀ (3 / 4) (fun d => d ^ 2)
  rw [show List.ofFn ![x0, x1, x2] = [x0, x1, x2] from rfl] at h1 h2
  rw [ht, h2]
  rw [h1] at h0
  have hle : ∀ Y : Fin 3 → Bool, 31/100000 - expectPath eight N (fun l => (((Y :: l).map (fun Y => (∑ c, if Y c then (1:ℝ) else 0) / 3 - 5406664 / 6976353)).sum / (N + 1)) ^ 2) Y ≤
      expectPath eight N (fun l => (((Y :: l).map (fun Y => (∑ c, if Y c then (1:ℝ) else 0) / 3 - 3 / 4)).sum / (N + 1)) ^ 2) Y := by
    intro Y
    have h3 := expectPath_mono eight_stochastic N
      (fun l => 31/100000 + (-1) * (((Y :: l).map (fun Y => (∑ c, if Y c then (1:ℝ) else 0) / 3 - 5406664 / 6976353)).sum / (N + 1)) ^ 2)
      (fun l => (((Y :: l).map (fun Y => (∑ c, if Y c then (1:ℝ) else 0) / 3 - 3 / 4)).sum / (N + 1)) ^ 2) Y (fun l hl => by
        have hs : ∀ l : List (Fin 3 → Bool), (l.map (fun Y => (∑ c, if Y c then (1:ℝ) else 0) / 3 - 3 / 4)).sum =
            (l.map (fun Y => (∑ c, if Y c then (1:ℝ) else 0) / 3 - 5406664 / 6976353)).sum + (l.length : ℝ) * (5406664 / 6976353 - 3 / 4) := by
          intro l
          induction l with
          | nil => simp
          | cons Y l ih => simp only [List.map_cons, List.sum_cons, ih, List.length_cons]; push_cast; ring
        have hN : ((N:ℝ) + 1) ≠ 0 := by positivity
        rw [hs (Y :: l), List.length_cons, hl, add_div]
        push_cast
        rw [mul_div_assoc, mul_comm ((N:ℝ) + 1), div_mul_cancel₀ _ hN]
        generalize ((Y :: l).map (fun Y => (∑ c, if Y c then (1:ℝ) else 0) / 3 - 5406664 / 6976353)).sum / ((N:ℝ) + 1) = d
        nlinarith [sq_nonneg (2 * d + (5406664 / 6976353 - 3 / 4))])
    rw [expectPath_add, expectPath_const eight_stochastic, expectPath_mul] at h3
    linarith
  calc (3 / 10000 : ℝ) ≤ 31 / 100000 - ∑ Y : Fin 3 → Bool, side (transition 1000 twoTarget (proposalProb flipWeight xor)) 3 ![x0, x1, x2] Y *
        expectPath eight N (fun l => (((Y :: l).map (fun Y => (∑ c, if Y c then (1:ℝ) else 0) / 3 - 5406664 / 6976353)).sum / (N + 1)) ^ 2) Y := by linarith
    _ = ∑ Y : Fin 3 → Bool, side (transition 1000 twoTarget (proposalProb flipWeight xor)) 3 ![x0, x1, x2] Y *
        (31 / 100000 - expectPath eight N (fun l => (((Y :: l).map (fun Y => (∑ c, if Y c then (1:ℝ) else 0) / 3 - 5406664 / 6976353)).sum / (N + 1)) ^ 2) Y) := by
        simp only [mul_sub, Finset.sum_sub_distrib, ← Finset.sum_mul, hst.sum, one_mul]
    _ ≤ _ := Finset.sum_le_sum (fun Y _ => mul_le_mul_of_nonneg_left (hle Y) (hst.nonneg _ _))

/-- the example meets the hypotheses of the positive theorem: without crossover the mean is the expected value -/
example (G₀ : Unit → ℝ) : ∃ K : ℝ, ∀ (starts : List Bool) (gap G : Nat), 3 ≤ starts.length → 1 ≤ G → G ≤ gap →
    deExpected 1000 twoTarget flipWeight xor (fun x a b => xor x (xor a b)) starts gap (G * starts.length) (fun msgs =>
        ((msgs.foldl (meanStep (fun b _ => if b then 1 else 0)) (MeanState.init G₀)).get () - 3 / 4) ^ 2) ≤ K / (starts.length * G) + K / G ^ 2 := by
  have hc : Connected twoTarget (proposalProb flipWeight xor) := ⟨true, fun x => Relation.ReflTransGen.single
    ⟨by rw [flip_prob]; split <;> norm_num, by rw [flip_prob]; split <;> norm_num, twoTarget_ok.positive _⟩⟩
  have := C80_mean_square_partial (cross := fun x a b => xor x (xor a b)) twoTarget_ok hc (fun b (_ : Unit) => if b then 1 else 0) G₀ ()
  rwa [(C80_violation_limit G₀).2] at this

end SampleFlow
