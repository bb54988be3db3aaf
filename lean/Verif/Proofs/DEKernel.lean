import Verif.Proofs.DEAverage
import Verif.Proofs.MHChain
import Verif.Props.MarkovChain
import Mathlib.Algebra.BigOperators.Fin
import Mathlib.Algebra.BigOperators.Ring.Finset
import Mathlib.Logic.Equiv.Fin.Basic

/-! Transition probabilities of a generation of the differential evaluation sampler. -/

set_option linter.unusedSimpArgs false

namespace SampleFlow

open Spec MeasureTheory Ergodic

variable {S Ω : Type} [Fintype Ω] [Fintype S] [Inhabited S] (weight : Ω → ℝ) (π : S → ℝ) (q : S → S → ℝ) (pick : S → Ω → S) (cross : S → S → S → S)

open Classical in
/-- probability that chain `c` moves to `y` -/
noncomputable def chainKernel (now : Bool) (X : List S) (c : Nat) (y : S) : ℝ :=
  chainMean weight π q pick cross now X c (fun x => if x = y then 1 else 0)

omit [Fintype S] [Inhabited S] in
theorem stepMean_mul (base x : S) (h : S → ℝ) (a : ℝ) : stepMean weight π q pick base x (fun y => h y * a) = stepMean weight π q pick base x h * a := by
  unfold stepMean
  rw [Finset.sum_mul]
  exact Finset.sum_congr rfl (fun ω _ => by ring)

omit [Fintype S] in
theorem chainMean_mul (now : Bool) (X : List S) (c : Nat) (h : S → ℝ) (a : ℝ) :
    chainMean weight π q pick cross now X c (fun y => h y * a) = chainMean weight π q pick cross now X c h * a := by
  unfold chainMean
  split
  · simp only [stepMean_mul, ← Finset.sum_mul]
    rw [div_mul_eq_mul_div, Finset.sum_mul]
    congr 1
    exact Finset.sum_congr rfl (fun a0 _ => by ring)
  · exact stepMean_mul weight π q pick _ _ h a

omit [Fintype S] [Inhabited S] in
theorem stepMean_sum {ι : Type} (t : Finset ι) (base x : S) (h : ι → S → ℝ) :
    stepMean weight π q pick base x (fun y => ∑ i ∈ t, h i y) = ∑ i ∈ t, stepMean weight π q pick base x (h i) := by
  unfold stepMean
  rw [Finset.sum_comm]
  refine Finset.sum_congr rfl (fun ω _ => ?_)
  simp only [Finset.mul_sum, ← Finset.sum_add_distrib]

omit [Fintype S] in
theorem chainMean_sum {ι : Type} (t : Finset ι) (now : Bool) (X : List S) (c : Nat) (h : ι → S → ℝ) :
    chainMean weight π q pick cross now X c (fun y => ∑ i ∈ t, h i y) = ∑ i ∈ t, chainMean weight π q pick cross now X c (h i) := by
  unfold chainMean
  split
  · simp only [stepMean_sum]
    rw [← Finset.sum_div]
    congr 1
    simp only [Finset.sum_div]
    conv_rhs => rw [Finset.sum_comm]
    refine Finset.sum_congr rfl (fun a0 _ => ?_)
    conv_rhs => rw [Finset.sum_comm]
  · exact stepMean_sum weight π q pick t _ _ h

theorem chainMean_kernel (now : Bool) (X : List S) (c : Nat) (h : S → ℝ) :
    chainMean weight π q pick cross now X c h = ∑ y, chainKernel weight π q pick cross now X c y * h y := by
  classical
  have : h = fun x => ∑ y, (if x = y then 1 else 0) * h y := by
    funext x
    simp
  conv_lhs => rw [this]
  rw [chainMean_sum]
  refine Finset.sum_congr rfl (fun y _ => ?_)
  rw [chainMean_mul]
  rfl

theorem genMean_kernel (now : Bool) (X : List S) (k : Nat) : ∀ (c : Nat) (H : List S → ℝ),
    genMean weight π q pick cross now X c k H = ∑ Y : Fin k → S, (∏ i : Fin k, chainKernel weight π q pick cross now X (c + i) (Y i)) * H (List.ofFn Y) := by
  induction k with
  | zero =>
    intro c H
    simp [genMean]
  | succ k ih =>
    intro c H
    unfold genMean
    rw [chainMean_kernel, ← (Fin.consEquiv (fun _ : Fin (k + 1) => S)).sum_comp, Fintype.sum_prod_type]
    refine Finset.sum_congr rfl (fun y _ => ?_)
    rw [ih, Finset.mul_sum]
    refine Finset.sum_congr rfl (fun Y _ => ?_)
    rw [Fin.prod_univ_succ, List.ofFn_succ]
    simp only [Fin.consEquiv_apply, Fin.cons_zero, Fin.cons_succ, Fin.val_zero, Nat.add_zero, Fin.val_succ]
    rw [mul_assoc]
    congr 2
    exact Finset.prod_congr rfl (fun i _ => by rw [show c + 1 + (i : Nat) = c + ((i : Nat) + 1) by omega])

section
variable {weight} {π} {pick}

omit [Fintype S] [Inhabited S] in
/-- Σ over random choices = Σ over proposals -/
theorem sum_pick [Fintype S] (base : S) (F : S → ℝ) : ∑ ω, weight ω * F (pick base ω) = ∑ z, proposalProb weight pick base z * F z := by
  classical
  unfold proposalProb
  simp only [Finset.sum_mul]
  rw [Finset.sum_comm]
  refine Finset.sum_congr rfl (fun ω _ => ?_)
  rw [Finset.sum_eq_single (pick base ω)]
  · rw [if_pos rfl]
  · intro z _ hz; rw [if_neg (Ne.symm hz), zero_mul]
  · intro h; exact absurd (Finset.mem_univ _) h

omit [Fintype S] [Inhabited S] in
theorem proposalProb_nonneg (hw : ∀ ω, 0 ≤ weight ω) (y z : S) : 0 ≤ proposalProb weight pick y z :=
  Finset.sum_nonneg (fun ω _ => by split; exacts [hw ω, le_rfl])

omit [Fintype Ω] [Fintype S] [Inhabited S] in
theorem ratioOf_fin (hπ : ∀ x, 0 < π x) (q : S → S → ℝ) (base x z : S) (h1 : 0 < q base z) (h2 : 0 < q z base) :
    ratioOf π q base x z = .fin (π z / π x / (q base z / q z base)) := by
  have lx : logOf (π x) = .fin (Real.log (π x)) := by simp [logOf, (hπ x).ne']
  have lz : logOf (π z) = .fin (Real.log (π z)) := by simp [logOf, (hπ z).ne']
  have hd : q base z / q z base ≠ 0 := (div_pos h1 h2).ne'
  unfold ratioOf
  rw [lx, lz]
  simp only [XR.neg, XR.add, XR.exp, XR.div, h2.ne', if_false, hd]
  rw [← sub_eq_add_neg, Real.exp_sub, Real.exp_log (hπ z), Real.exp_log (hπ x)]

omit [Fintype Ω] [Fintype S] [Inhabited S] in
theorem ratioOf_inf (hπ : ∀ x, 0 < π x) (q : S → S → ℝ) (base x z : S) (h1 : 0 < q base z) (h2 : q z base = 0) :
    ratioOf π q base x z = .fin 0 := by
  have lx : logOf (π x) = .fin (Real.log (π x)) := by simp [logOf, (hπ x).ne']
  have lz : logOf (π z) = .fin (Real.log (π z)) := by simp [logOf, (hπ z).ne']
  unfold ratioOf
  rw [lx, lz]
  simp only [XR.neg, XR.add, XR.exp, XR.div, h2, if_true, h1.ne', if_false, h1]

omit [Inhabited S] in
/-- without crossover a step is a Metropolis-Hastings step -/
theorem stepMean_transition (max : ℝ) (hπ : ∀ x, 0 < π x) (hw : ∀ ω, 0 ≤ weight ω) (hm : ∀ x, Real.log (π x) ≠ -max) (x : S) (h : S → ℝ) :
    stepMean weight π (proposalProb weight pick) pick x x h = ∑ y, transition max π (proposalProb weight pick) x y * h y := by
  classical
  unfold stepMean
  rw [sum_pick x (fun z => accR (ratioOf π (proposalProb weight pick) x x z) * h z + (1 - accR (ratioOf π (proposalProb weight pick) x x z)) * h x)]
  unfold transition
  simp only [Finset.sum_mul]
  rw [Finset.sum_comm]
  refine Finset.sum_congr rfl (fun z _ => ?_)
  have e : ∑ y, proposalProb weight pick x z * stepProbGiven max (fun s => logOf (π s))
      (XR.div (.fin (proposalProb weight pick x z)) (.fin (proposalProb weight pick z x))) x z y * h y =
      proposalProb weight pick x z * (accProb max (logOf (π z)) (logOf (π x)) (XR.div (.fin (proposalProb weight pick x z)) (.fin (proposalProb weight pick z x))) * h z +
        (1 - accProb max (logOf (π z)) (logOf (π x)) (XR.div (.fin (proposalProb weight pick x z)) (.fin (proposalProb weight pick z x)))) * h x) := by
    simp only [mul_assoc, ← Finset.mul_sum, stepProbGiven_eq, add_mul, Finset.sum_add_distrib, ite_mul, zero_mul, Finset.sum_ite_eq, Finset.mem_univ, if_true]
  rw [e]
  rcases (proposalProb_nonneg (pick := pick) hw x z).eq_or_lt with h0 | h0
  · rw [← h0]; simp
  congr 1
  have lx : logOf (π x) = .fin (Real.log (π x)) := by simp [logOf, (hπ x).ne']
  have lz : logOf (π z) = .fin (Real.log (π z)) := by simp [logOf, (hπ z).ne']
  have key : accR (ratioOf π (proposalProb weight pick) x x z) =
      accProb max (logOf (π z)) (logOf (π x)) (XR.div (.fin (proposalProb weight pick x z)) (.fin (proposalProb weight pick z x))) := by
    rcases (proposalProb_nonneg (pick := pick) hw z x).eq_or_lt with h1 | h1
    · rw [ratioOf_inf hπ _ x x z h0 h1.symm, accR_fin 0 le_rfl, lx, lz]
      have : XR.div (.fin (proposalProb weight pick x z)) (.fin (proposalProb weight pick z x)) = .posInf := by
        simp [XR.div, ← h1, h0, h0.ne']
      rw [this, accProb_posInf max _ _ (hm z) (hm x)]
      simp
    · have hd := div_pos h0 h1
      rw [ratioOf_fin hπ _ x x z h0 h1, accR_fin _ (div_nonneg (div_pos (hπ z) (hπ x)).le hd.le), lx, lz]
      have : XR.div (.fin (proposalProb weight pick x z)) (.fin (proposalProb weight pick z x)) = .fin (proposalProb weight pick x z / proposalProb weight pick z x) := by
        simp [XR.div, h1.ne']
      rw [this, accProb_fin max _ _ _ (hm z) (hm x) hd, Real.exp_sub, Real.exp_log (hπ z), Real.exp_log (hπ x)]
  rw [key]

theorem chainKernel_transition (max : ℝ) (hπ : ∀ x, 0 < π x) (hw : ∀ ω, 0 ≤ weight ω) (hm : ∀ x, Real.log (π x) ≠ -max) (X : List S) (c : Nat) (y : S) :
    chainKernel weight π (proposalProb weight pick) pick cross false X c y = transition max π (proposalProb weight pick) (X.getD c default) y := by
  classical
  unfold chainKernel chainMean
  simp only [Bool.false_eq_true, if_false]
  rw [stepMean_transition max hπ hw hm]
  simp

end

end SampleFlow
