import Verif.Props.DEChain
import Mathlib.Algebra.Group.Fin.Basic
import Mathlib.Data.ZMod.Defs

/-!
# Property C67: generations with crossover

The setting of C66.  A run of `(gap + 1) n` samples with `n` chains consists of `gap` generations without and one generation with crossover.
-/

set_option linter.unusedSimpArgs false

namespace SampleFlow

open Spec MeasureTheory Ergodic

section
variable {S Ω : Type} [Fintype Ω] [Fintype S] {max : ℝ} {π : S → ℝ} {weight : Ω → ℝ} {pick : S → Ω → S} {cross : S → S → S → S}

omit [Fintype S] in
theorem stepMean_const (h : DETarget max π weight) (q : S → S → ℝ) (base x : S) (a : ℝ) : stepMean weight π q pick base x (fun _ => a) = a := by
  unfold stepMean
  have : ∀ ω, weight ω * (accR (ratioOf π q base x (pick base ω)) * a + (1 - accR (ratioOf π q base x (pick base ω))) * a) = weight ω * a := fun ω => by ring
  simp only [this, ← Finset.sum_mul, h.weights_total, one_mul]

omit [Fintype S] in
theorem chainMean_const [Inhabited S] (h : DETarget max π weight) (q : S → S → ℝ) (now : Bool) (X : List S) (c : Nat) (a : ℝ) :
    chainMean weight π q pick cross now X c (fun _ => a) = a := by
  unfold chainMean
  split
  · simp only [stepMean_const h, Finset.sum_const, Finset.card_range, nsmul_eq_mul]
    push_cast
    field_simp
  · exact stepMean_const h q _ _ a

omit [Fintype S] in
/-- the marginal distribution of one chain -/
theorem genMean_marginal [Inhabited S] (h : DETarget max π weight) (q : S → S → ℝ) (now : Bool) (X : List S) (f : S → ℝ) (k : Nat) : ∀ (c i : Nat), i < k →
    genMean weight π q pick cross now X c k (fun l => f (l.getD i default)) = chainMean weight π q pick cross now X (c + i) f := by
  have hconst : ∀ (k c : Nat) (a : ℝ), genMean weight π q pick cross now X c k (fun _ => a) = a := by
    intro k
    induction k with
    | zero => intro c a; rfl
    | succ k ih => intro c a; unfold genMean; simp only [ih, chainMean_const h]
  induction k with
  | zero => intro c i hi; omega
  | succ k ih =>
    intro c i hi
    unfold genMean
    cases i with
    | zero => simp only [List.getD_cons_zero, hconst, Nat.add_zero]
    | succ i =>
      simp only [List.getD_cons_succ, ih (c + 1) i (by omega), chainMean_const h]
      rw [show c + 1 + i = c + (i + 1) by omega]

/-- reversibility on average: symmetric proposals, partners different from the chain -/
theorem step_preserves [Inhabited S] (h : DETarget max π weight) (hsym : ∀ y z, proposalProb weight pick y z = proposalProb weight pick z y)
    (hswap : ∀ x z a b, proposalProb weight pick (cross x a b) z = proposalProb weight pick (cross z b a) x) (n : Nat) (c A B : Fin n) (hA : A ≠ c) (hB : B ≠ c) (f : S → ℝ) :
    ∑ X : Fin n → S, (∏ i, π (X i)) * stepMean weight π (proposalProb weight pick) pick (cross (X c) (X A) (X B)) (X c) f = ∑ X : Fin n → S, (∏ i, π (X i)) * f (X c) := by
  classical
  obtain ⟨q, hq⟩ : ∃ q, q = proposalProb weight pick := ⟨_, rfl⟩
  have hq0 : ∀ y z, 0 ≤ q y z := by rw [hq]; exact proposalProb_nonneg h.weights_nonneg
  have hq1 : ∀ y, ∑ z, q y z = 1 := by rw [hq]; exact proposalProb_total h
  rw [← hq] at hsym hswap
  have hstep : ∀ base x, stepMean weight π (proposalProb weight pick) pick base x f = f x + ∑ z, q base z * min 1 (π z / π x) * (f z - f x) := by
    intro base x
    unfold stepMean
    rw [sum_pick base (fun z => accR (ratioOf π (proposalProb weight pick) base x z) * f z + (1 - accR (ratioOf π (proposalProb weight pick) base x z)) * f x), ← hq]
    have : f x = ∑ z, q base z * f x := by rw [← Finset.sum_mul, hq1, one_mul]
    conv_rhs => rw [this]
    rw [← Finset.sum_add_distrib]
    refine Finset.sum_congr rfl (fun z _ => ?_)
    rw [← Finset.sum_mul, hq1, one_mul]
    rcases (hq0 base z).eq_or_lt with h0 | h0
    · rw [← h0]; ring
    · rw [ratioOf_fin h.positive q base x z h0 (by rw [hsym]; exact h0), hsym z base, div_self h0.ne', div_one,
        accR_fin _ (div_pos (h.positive z) (h.positive x)).le]
      ring
  simp only [hstep, mul_add, Finset.sum_add_distrib]
  suffices hzero : ∑ X : Fin n → S, (∏ i, π (X i)) * ∑ z, q (cross (X c) (X A) (X B)) z * min 1 (π z / π (X c)) * (f z - f (X c)) = 0 by rw [hzero, add_zero]
  simp only [Finset.mul_sum]
  rw [← Fintype.sum_prod_type']
  obtain ⟨s, hs⟩ : ∃ s, s = Equiv.swap A B := ⟨_, rfl⟩
  have hsc : s c = c := by rw [hs]; exact Equiv.swap_apply_of_ne_of_ne (Ne.symm hA) (Ne.symm hB)
  have hss : ∀ i, s (s i) = i := by intro i; rw [hs]; exact Equiv.swap_apply_self A B i
  have hsi : ∀ i, s i = c → i = c := by intro i hi; rw [← hss i, hi, hsc]
  let σ : (Fin n → S) × S → (Fin n → S) × S := fun p => (Function.update (p.1 ∘ s) c p.2, p.1 c)
  have hσ : Function.Involutive σ := by
    rintro ⟨X, z⟩
    simp only [σ, Prod.mk.injEq]
    refine ⟨?_, by simp⟩
    funext i
    by_cases hi : i = c
    · subst hi; simp
    · rw [Function.update_of_ne hi, Function.comp_apply, Function.update_of_ne (fun h' => hi (hsi i h')), Function.comp_apply, hss]
  have hflip := Equiv.sum_comp (Function.Involutive.toPerm σ hσ) (fun p : (Fin n → S) × S =>
    (∏ i, π (p.1 i)) * (q (cross (p.1 c) (p.1 A) (p.1 B)) p.2 * min 1 (π p.2 / π (p.1 c)) * (f p.2 - f (p.1 c))))
  have hneg : ∀ p : (Fin n → S) × S, (∏ i, π ((σ p).1 i)) * (q (cross ((σ p).1 c) ((σ p).1 A) ((σ p).1 B)) (σ p).2 * min 1 (π (σ p).2 / π ((σ p).1 c)) * (f (σ p).2 - f ((σ p).1 c))) =
      - ((∏ i, π (p.1 i)) * (q (cross (p.1 c) (p.1 A) (p.1 B)) p.2 * min 1 (π p.2 / π (p.1 c)) * (f p.2 - f (p.1 c)))) := by
    rintro ⟨X, z⟩
    have uc : (σ (X, z)).1 c = z := by simp [σ]
    have uA : (σ (X, z)).1 A = X B := by simp [σ, Function.update_of_ne hA, hs]
    have uB : (σ (X, z)).1 B = X A := by simp [σ, Function.update_of_ne hB, hs]
    have u2 : (σ (X, z)).2 = X c := rfl
    rw [uc, uA, uB, u2]
    simp only
    rw [← hswap (X c) z (X A) (X B)]
    have p1 : ∏ i, π ((σ (X, z)).1 i) = π z * ∏ i ∈ Finset.univ \ {c}, π (X (s i)) := by
      have : (fun i => π ((σ (X, z)).1 i)) = Function.update (fun i => π (X (s i))) c (π z) := by
        funext i
        by_cases hi : i = c
        · subst hi; simp [σ]
        · simp [σ, Function.update_of_ne hi]
      rw [this, Finset.prod_update_of_mem (Finset.mem_univ c)]
    have p2 : ∏ i, π (X i) = π (X c) * ∏ i ∈ Finset.univ \ {c}, π (X (s i)) := by
      rw [← Equiv.prod_comp s (fun i => π (X i))]
      have : (fun i => π (X (s i))) = Function.update (fun i => π (X (s i))) c (π (X c)) := by
        funext i
        by_cases hi : i = c
        · subst hi; simp [hsc]
        · simp [Function.update_of_ne hi]
      conv_lhs => rw [this]
      rw [Finset.prod_update_of_mem (Finset.mem_univ c)]
    rw [p1, p2]
    have hm : π z * min 1 (π (X c) / π z) = π (X c) * min 1 (π z / π (X c)) := by
      rw [mul_min_of_nonneg _ _ (h.positive z).le, mul_min_of_nonneg _ _ (h.positive (X c)).le, mul_one, mul_one, mul_div_cancel₀ _ (h.positive z).ne', mul_div_cancel₀ _ (h.positive (X c)).ne', min_comm]
    linear_combination (∏ i ∈ Finset.univ \ {c}, π (X (s i))) * q (cross (X c) (X A) (X B)) z * (f (X c) - f z) * hm
  have hperm : ∀ p, (Function.Involutive.toPerm σ hσ) p = σ p := fun p => rfl
  simp only [hperm, hneg, Finset.sum_neg_distrib] at hflip
  linarith

theorem partnerB_ne {n c a b0 : Nat} (hc : c = 0 ∨ c + 1 = n) (ha : a ≠ c) (hn : a < n) (hb : b0 ≤ n - 3) (h3 : 3 ≤ n) : partnerB c a b0 ≠ c := by
  unfold partnerB
  split <;> [skip; split] <;> rcases hc with hc | hc <;> omega

theorem chainMean_preserves [Inhabited S] (h : DETarget max π weight) (hsym : ∀ y z, proposalProb weight pick y z = proposalProb weight pick z y)
    (hswap : ∀ x z a b, proposalProb weight pick (cross x a b) z = proposalProb weight pick (cross z b a) x) (n : Nat) (hn : 3 ≤ n) (c : Fin n) (hc : c.val = 0 ∨ c.val + 1 = n) (f : S → ℝ) :
    ∑ X : Fin n → S, (∏ i, π (X i)) * chainMean weight π (proposalProb weight pick) pick cross true (List.ofFn X) c f = ∑ X : Fin n → S, (∏ i, π (X i)) * f (X c) := by
  have e : ∀ X : Fin n → S, (∏ i, π (X i)) * chainMean weight π (proposalProb weight pick) pick cross true (List.ofFn X) c f =
      (∑ a0 ∈ Finset.range (n - 2 + 1), (∑ b0 ∈ Finset.range (n - 3 + 1), (∏ i, π (X i)) *
        stepMean weight π (proposalProb weight pick) pick (baseOf cross (List.ofFn X) c a0 b0) (X c) f) / ((n - 3 : Nat) + 1)) / ((n - 2 : Nat) + 1) := by
    intro X
    unfold chainMean
    simp only [if_true, List.length_ofFn]
    rw [← mul_div_assoc, Finset.mul_sum]
    congr 1
    refine Finset.sum_congr rfl (fun a0 _ => ?_)
    rw [← mul_div_assoc, Finset.mul_sum]
    congr 1
    refine Finset.sum_congr rfl (fun b0 _ => ?_)
    congr 2
    simp
  simp only [e]
  rw [← Finset.sum_div, Finset.sum_comm]
  have e2 : ∀ a0 ∈ Finset.range (n - 2 + 1), ∑ X : Fin n → S, (∑ b0 ∈ Finset.range (n - 3 + 1), (∏ i, π (X i)) *
        stepMean weight π (proposalProb weight pick) pick (baseOf cross (List.ofFn X) c a0 b0) (X c) f) / ((n - 3 : Nat) + 1 : ℝ) = ∑ X : Fin n → S, (∏ i, π (X i)) * f (X c) := by
    intro a0 ha0
    rw [← Finset.sum_div, Finset.sum_comm]
    have e3 : ∀ b0 ∈ Finset.range (n - 3 + 1), ∑ X : Fin n → S, (∏ i, π (X i)) *
        stepMean weight π (proposalProb weight pick) pick (baseOf cross (List.ofFn X) c a0 b0) (X c) f = ∑ X : Fin n → S, (∏ i, π (X i)) * f (X c) := by
      intro b0 hb0
      have hA := partnerA_lt (chain := c.val) hn (Nat.lt_succ_iff.mp (Finset.mem_range.mp ha0))
      have hB := partnerB_lt (chain := c.val) (a := partnerA c a0) hn (Nat.lt_succ_iff.mp (Finset.mem_range.mp hb0))
      rw [← step_preserves h hsym hswap n c ⟨_, hA⟩ ⟨_, hB⟩ (fun h' => partnerA_ne c.val a0 (congrArg Fin.val h'))
        (fun h' => partnerB_ne hc (partnerA_ne c.val a0) hA (Nat.lt_succ_iff.mp (Finset.mem_range.mp hb0)) hn (congrArg Fin.val h')) f]
      refine Finset.sum_congr rfl (fun X _ => ?_)
      congr 2
      unfold baseOf
      simp [hA, hB]
    rw [Finset.sum_congr rfl e3, Finset.sum_const, Finset.card_range, nsmul_eq_mul]
    push_cast
    field_simp
  rw [Finset.sum_congr rfl e2, Finset.sum_const, Finset.card_range, nsmul_eq_mul]
  push_cast
  field_simp

/-- a run with one generation with crossover at the end -/
theorem crossover_run [Inhabited S] (h : DETarget max π weight) (n : Nat) (hn : 3 ≤ n) (gap : Nat) (hgap : 1 ≤ gap) (c : Fin n) (f : Option S → ℝ) :
    ∑ X : Fin n → S, (∏ i, π (X i)) * deExpected max π weight pick cross (List.ofFn X) gap ((gap + 1) * n) (fun msgs => f (ofChain c msgs).getLast?) =
      ∑ X : Fin n → S, (∏ i, π (X i)) * chainMean weight π (proposalProb weight pick) pick cross true (List.ofFn X) c (fun y => f (some y)) := by
  have e1 : ∀ X : Fin n → S, deExpected max π weight pick cross (List.ofFn X) gap ((gap + 1) * n) (fun msgs => f (ofChain c msgs).getLast?) =
      gensMean weight π (proposalProb weight pick) pick cross gap n 0 (gap + 1) (List.ofFn X) (fun gens => f (gens.map (fun Y => Y.getD c default)).getLast?) := by
    intro X
    have := deExpected_eq weight π pick cross max gap (gap + 1) (List.ofFn X) (by simpa using hn) (fun g => f (g c).getLast?)
      (fun g g' hfg => by rw [hfg c (by simp)])
    simpa using this
  have e2 : ∀ (k gen : Nat) (X : List S) (H H' : List (List S) → ℝ), (∀ gens, gens.length = k → H gens = H' gens) →
      gensMean weight π (proposalProb weight pick) pick cross gap n gen k X H = gensMean weight π (proposalProb weight pick) pick cross gap n gen k X H' := by
    intro k
    induction k with
    | zero => intro gen X H H' hh; exact hh [] rfl
    | succ k ih =>
      intro gen X H H' hh
      unfold gensMean
      congr 1
      funext Y
      exact ih _ _ _ _ (fun gens hg => hh _ (by simp [hg]))
  have e3 : ∀ X : Fin n → S, gensMean weight π (proposalProb weight pick) pick cross gap n 0 (gap + 1) (List.ofFn X) (fun gens => f (gens.map (fun Y => Y.getD c default)).getLast?) =
      gensMean weight π (proposalProb weight pick) pick cross gap n 0 (gap + 1) (List.ofFn X) (fun gens => f ((gens.drop gap).map (fun Y => Y.getD c default)).getLast?) := by
    intro X
    refine e2 _ _ _ _ _ (fun gens hg => ?_)
    rw [List.getLast?_map, List.getLast?_map, List.getLast?_drop, if_neg (by omega)]
  simp only [e1, e3]
  rw [gensMean_invariant (pick := pick) (cross := cross) h n gap gap 0 (by omega) 1 (fun _ gens => f (gens.map (fun Y => Y.getD c default)).getLast?)]
  refine Finset.sum_congr rfl (fun X _ => ?_)
  congr 1
  unfold gensMean
  have hnow : crossoverNow gap (0 + gap) = true := (crossoverNow_iff gap (0 + gap)).mpr ⟨by omega, Or.inr (by simp)⟩
  rw [hnow]
  have := genMean_marginal (pick := pick) (cross := cross) h (proposalProb weight pick) true (List.ofFn X) (fun y => f (some y)) n 0 c c.2
  rw [Nat.zero_add] at this
  rw [← this]
  rfl

/-- **C67** (proved part): symmetric proposals, and a crossover that is undone by exchanging the partners, such as `x + γ (a - b)`.  If the starting points are independent samples of the
target distribution, then after `crossover_gap` generations without crossover and one with crossover, the sample of the first chain and the sample of the last chain are
distributed according to the target.  Missing: the other chains, and independence; see the violation. -/
theorem C67_first_and_last_partial (h : DETarget max π weight) (hsym : ∀ y z, proposalProb weight pick y z = proposalProb weight pick z y)
    (hswap : ∀ x z a b, proposalProb weight pick (cross x a b) z = proposalProb weight pick (cross z b a) x) (n : Nat) (hn : 3 ≤ n) (gap : Nat) (hgap : 1 ≤ gap)
    (c : Fin n) (hc : c.val = 0 ∨ c.val + 1 = n) (f : Option S → ℝ) :
    ∑ X : Fin n → S, (∏ i, π (X i)) * deExpected max π weight pick cross (List.ofFn X) gap ((gap + 1) * n) (fun msgs => f (ofChain c msgs).getLast?) =
      ∑ X : Fin n → S, (∏ i, π (X i)) * f (some (X c)) := by
  by_cases hS : Nonempty S
  · let _ : Inhabited S := Classical.inhabited_of_nonempty hS
    rw [crossover_run h n hn gap hgap c f, chainMean_preserves h hsym hswap n hn c hc]
  · have : IsEmpty S := not_nonempty_iff.mp hS
    have : IsEmpty (Fin n → S) := ⟨fun f => (this.false (f ⟨0, by omega⟩)).elim⟩
    simp

end

/-! ### Violation -/

theorem sum_three {S : Type} [Fintype S] (F : (Fin 3 → S) → ℝ) : ∑ X : Fin 3 → S, F X = ∑ x0, ∑ x1, ∑ x2, F ![x0, x1, x2] := by
  rw [← (Fin.consEquiv (fun _ : Fin 3 => S)).sum_comp, Fintype.sum_prod_type]
  refine Finset.sum_congr rfl (fun x0 _ => ?_)
  rw [← (Fin.consEquiv (fun _ : Fin 2 => S)).sum_comp, Fintype.sum_prod_type]
  refine Finset.sum_congr rfl (fun x1 _ => ?_)
  rw [← (Fin.consEquiv (fun _ : Fin 1 => S)).sum_comp, Fintype.sum_prod_type]
  refine Finset.sum_congr rfl (fun x2 _ => ?_)
  rw [Fintype.sum_subsingleton _ ![]]
  rfl

theorem third (a b c : Bool) : (![a, b, c] : Fin 3 → Bool) 2 = c := rfl

/-- Two states: the target gives `true` three times the probability of `false`. -/
noncomputable def twoTarget (b : Bool) : ℝ := if b then 3 else 1

/-- The proposal function flips its argument with probability 1/4. -/
noncomputable def flipWeight (ω : Bool) : ℝ := if ω then 1/4 else 3/4

theorem twoTarget_ok : DETarget 1000 twoTarget flipWeight := by
  refine ⟨?_, ?_, ?_, ?_⟩
  · intro b; cases b <;> norm_num [twoTarget]
  · intro b; cases b <;> norm_num [flipWeight]
  · norm_num [flipWeight]
  · intro b
    have : 0 ≤ Real.log (twoTarget b) := Real.log_nonneg (by cases b <;> norm_num [twoTarget])
    intro h'; rw [h'] at this; norm_num at this

theorem flip_prob (y z : Bool) : proposalProb flipWeight xor y z = if y = z then 3/4 else 1/4 := by
  unfold proposalProb
  cases y <;> cases z <;> norm_num [flipWeight]

/-- proposals are symmetric, and exchanging the partners undoes the crossover `x + (a - b)` of integers modulo 2 -/
theorem twoTarget_symmetric : (∀ y z, proposalProb flipWeight xor y z = proposalProb flipWeight xor z y) ∧
    (∀ x z a b, proposalProb flipWeight xor (xor x (xor a b)) z = proposalProb flipWeight xor (xor z (xor b a)) x) := by
  constructor
  · intro y z; rw [flip_prob, flip_prob]; cases y <;> cases z <;> rfl
  · intro x z a b; rw [flip_prob, flip_prob]; cases x <;> cases z <;> cases a <;> cases b <;> rfl

/-- **C67** (violation): three chains on the states `false`, `true`, with the crossover `x + (a - b)` (modulo 2), symmetric proposals, and crossover every generation.  The starting points are
independent samples of the target distribution, which gives `true` the probability 48/64.  The second sample of the middle chain is `true` with probability 50/64: one of its two partners
is the chain itself (C49), so that it copies the state of the first chain without correcting for this. -/
theorem C67_violation_middle_chain :
    ∑ X : Fin 3 → Bool, (∏ i, twoTarget (X i)) * deExpected 1000 twoTarget flipWeight xor (fun x a b => xor x (xor a b)) (List.ofFn X) 1 ((1 + 1) * 3)
        (fun msgs => if (ofChain 1 msgs).getLast? = some true then 1 else 0) = 50 ∧
    ∑ X : Fin 3 → Bool, (∏ i, twoTarget (X i)) * (if X 1 = true then 1 else 0) = 48 ∧ ∑ X : Fin 3 → Bool, (∏ i, twoTarget (X i)) = 64 := by
  refine ⟨?_, ?_, ?_⟩
  · have := crossover_run (pick := xor) (cross := fun x a b => xor x (xor a b)) twoTarget_ok 3 (by norm_num) 1 (by norm_num) 1 (fun o => if o = some true then 1 else 0)
    refine this.trans ?_
    have hst : ∀ (base x : Bool), stepMean flipWeight twoTarget (proposalProb flipWeight xor) xor base x (fun y => if some y = some true then 1 else 0) =
        (if x then 1 - (if base then 1/4 else 3/4) * (1/3) else (if base then 3/4 else 1/4)) := by
      intro base x
      unfold stepMean
      have hr : ∀ z, accR (ratioOf twoTarget (proposalProb flipWeight xor) base x z) = min 1 (twoTarget z / twoTarget x) := by
        intro z
        have h1 : ∀ y z : Bool, (0:ℝ) < proposalProb flipWeight xor y z := by intro y z; rw [flip_prob]; split <;> norm_num
        rw [ratioOf_fin twoTarget_ok.positive _ base x z (h1 _ _) (h1 _ _), twoTarget_symmetric.1 z base, div_self (h1 _ _).ne', div_one,
          accR_fin _ (div_pos (twoTarget_ok.positive _) (twoTarget_ok.positive _)).le]
      simp only [hr, Fintype.sum_bool]
      cases base <;> cases x <;> norm_num [flipWeight, twoTarget]
    have hch : ∀ x0 x1 x2 : Bool, chainMean flipWeight twoTarget (proposalProb flipWeight xor) xor (fun x a b => xor x (xor a b)) true [x0, x1, x2] 1
        (fun y => if some y = some true then 1 else 0) =
        ((if x1 then 1 - (if x0 then 1/4 else 3/4) * (1/3) else (if x0 then 3/4 else 1/4)) +
          (if x1 then 1 - (if xor x1 (xor x2 x0) then 1/4 else 3/4) * (1/3) else (if xor x1 (xor x2 x0) then 3/4 else 1/4))) / 2 := by
      intro x0 x1 x2
      unfold chainMean
      simp only [if_true, hst]
      cases x0 <;> cases x1 <;> cases x2 <;> norm_num [Finset.sum_range_succ, baseOf, partnerA, partnerB]
    rw [sum_three]
    have hl : ∀ x0 x1 x2 : Bool, List.ofFn ![x0, x1, x2] = [x0, x1, x2] := fun _ _ _ => rfl
    simp only [hl]
    simp only [show ((1 : Fin 3) : Nat) = 1 from rfl, hch, Fin.prod_univ_three, Fintype.sum_bool]
    norm_num [twoTarget, third]
  · rw [sum_three]
    simp only [Fin.prod_univ_three, Fintype.sum_bool]
    norm_num [twoTarget, third]
  · rw [sum_three]
    simp only [Fin.prod_univ_three, Fintype.sum_bool]
    norm_num [twoTarget, third]

/-- the example meets the hypotheses of the positive theorems: the first chain is distributed according to the target, 48 of 64 -/
example : ∑ X : Fin 3 → Bool, (∏ i, twoTarget (X i)) * deExpected 1000 twoTarget flipWeight xor (fun x a b => xor x (xor a b)) (List.ofFn X) 1 ((1 + 1) * 3)
        (fun msgs => if (ofChain 0 msgs).getLast? = some true then 1 else 0) = 48 := by
  refine (C67_first_and_last_partial twoTarget_ok twoTarget_symmetric.1 twoTarget_symmetric.2 3 (by norm_num) 1 (by norm_num) 0 (Or.inl rfl)
    (fun o => if o = some true then 1 else 0)).trans ?_
  rw [sum_three]
  simp only [Fin.prod_univ_three, Fintype.sum_bool]
  norm_num [twoTarget, third]

/-- non-vacuity of C66: two generations of three chains without crossover, all functions of the last samples -/
example (Φ : (Fin 3 → Option Bool) → ℝ) :
    ∑ X : Fin 3 → Bool, (∏ c, twoTarget (X c)) * deExpected 1000 twoTarget flipWeight xor (fun x a b => xor x (xor a b)) (List.ofFn X) 5 (2 * 3)
        (fun msgs => Φ (fun c => (ofChain c msgs).getLast?)) = ∑ Y : Fin 3 → Bool, (∏ c, twoTarget (Y c)) * Φ (fun c => some (Y c)) :=
  C66_stationary twoTarget_ok 3 (by norm_num) 5 2 (by norm_num) (by norm_num) Φ

example (F : Nat → List Bool → ℝ) :
    deExpected 1000 twoTarget flipWeight xor (fun x a b => xor x (xor a b)) [true, false, true] 5 (2 * 3) (fun msgs => ∏ c : Fin 3, F c (ofChain c msgs)) =
      ∏ c : Fin 3, expected 1000 twoTarget (proposalProb flipWeight xor) (fun (_ : Unit) _ => ()) () [true, false, true][c] 2 (fun script =>
        F c (samplesIssued 1000 twoTarget (proposalProb flipWeight xor) (fun (_ : Unit) _ => ()) () [true, false, true][c] script)) :=
  C66_independent_chains twoTarget_ok [true, false, true] (by decide) 5 2 (by norm_num) F

end SampleFlow
