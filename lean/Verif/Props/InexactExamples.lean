import Verif.Props.Inexact

/-!
# Property C95, continued: a machine with 53 bit numbers; rare states
-/

namespace SampleFlow

open Spec MeasureTheory Ergodic StrongLaw

namespace Inexact

/-- round a finite result -/
noncomputable def roundXR (p : Nat) : XR → XR
  | .fin r => .fin (nearest p r)
  | x => x

/-- The operations of the samplers, correctly rounded to `p` bits (unlimited exponents). -/
@[reducible] noncomputable def roundedOps (p : Nat) (max : ℝ) : FloatOps XR where
  sub := fun a b => roundXR p (a.add b.neg)
  mul := fun a b => roundXR p (a.mul b)
  div := fun a b => roundXR p (a.div b)
  exp := fun a => roundXR p a.exp
  log := fun a => roundXR p a.log
  one := .fin 1
  negMax := .fin (-max)
  negInf := .negInf
  eq := XR.eqb
  lt := XR.ltb
  le := XR.leb

theorem rounded_arithmetic (p : Nat) (hp : 1 ≤ p) (max L : ℝ) (hL : L < max) : Arithmetic (2 ^ (-(p : ℤ))) L (roundedOps p max) := by
  have R := nearest_rounding p hp
  exact {
    sub := fun a b _ _ => ⟨nearest p (a - b), rfl, R.error _⟩
    exp := fun t _ => ⟨nearest p (Real.exp t), rfl, by have := R.error (Real.exp t); rwa [abs_of_pos (Real.exp_pos t)] at this⟩
    log := fun t h1 _ => ⟨nearest p (Real.log t), by
      have ht : 0 < t := (Real.exp_pos _).trans_le h1
      simp [FloatOps.log, XR.log, not_lt.mpr ht.le, ht.ne', roundXR], R.error _⟩
    div := fun a b h1 _ h3 _ => ⟨nearest p (a / b), by
      have hb : 0 < b := (Real.exp_pos _).trans_le h3
      simp [FloatOps.div, XR.div, hb.ne', roundXR], by
      have ha : 0 < a := (Real.exp_pos _).trans_le h1
      have hb : 0 < b := (Real.exp_pos _).trans_le h3
      have := R.error (a / b); rwa [abs_of_pos (div_pos ha hb)] at this⟩
    one := rfl
    lt := fun a b => by simp [FloatOps.lt, XR.ltb]
    le := fun a b => by simp [FloatOps.le, XR.leb, XR.ltb, XR.eqb, le_iff_lt_or_eq]
    no_marker := fun a ha => by
      have : a ≠ -max := by
        intro h; rw [h, abs_neg] at ha; linarith [le_abs_self max]
      simp [FloatOps.eq, FloatOps.negMax, FloatOps.negInf, XR.eqb, this]
    zero_marker := rfl
    sub_negInf := fun a => rfl
    sub_infinities := rfl
    exp_nan := rfl
    div_nan := fun a => rfl
    le_nan := fun a => rfl
    lt_negInf := fun a => rfl
    lt_infinities := rfl }

/-- A machine with 53 bit numbers, correctly rounded operations, log likelihoods and ratios, and random numbers with 53 bits, for the target `π` and the proposals `q`. -/
noncomputable def double {S : Type} (max : ℝ) (π : S → ℝ) (q : S → S → ℝ) : Computer S XR where
  ops := roundedOps 53 max
  logLikelihood := fun x => roundXR 53 (logOf (π x))
  ratio := fun x z => roundXR 53 (XR.div (.fin (q x z)) (.fin (q z x)))
  count := 2 ^ 53
  count_pos := by positivity
  random := fun i => .fin ((i : ℝ) / ((2 ^ 53 : Nat) : ℝ))

theorem double_faithful {S : Type} (max : ℝ) (π : S → ℝ) (q : S → S → ℝ) (L : ℝ) (hL : 1 ≤ L) (hmax : L < max) (hπ : ∀ x, 0 < π x → |Real.log (π x)| ≤ L / 2) (hq : ∀ x z, 0 < q x z → 0 < q z x ∧ |Real.log (q x z / q z x)| ≤ L / 2) :
    (double max π q).Faithful π q (2 ^ (-(53 : ℤ))) (L * 2 ^ (-(53 : ℤ))) L := by
  have hA : Arithmetic (2 ^ (-(53:ℤ))) L (roundedOps 53 max) := rounded_arithmetic 53 (by norm_num) max L hmax
  have R := nearest_rounding 53 (by norm_num)
  have hδ : (2:ℝ) ^ (-(53:ℤ)) ≤ 1 / 8 := by rw [zpow_neg]; norm_num
  have hδ0 : (0:ℝ) < 2 ^ (-(53:ℤ)) := by positivity
  have R' : ∀ x, |nearest 53 x - x| ≤ 2 ^ (-(53:ℤ)) * |x| := R.error
  clear R
  generalize (2:ℝ) ^ (-(53:ℤ)) = δ at *
  exact {
    arithmetic := by
      exact hA
    likelihood := fun x hx => ⟨nearest 53 (Real.log (π x)), by simp [double, logOf, hx.ne', roundXR], by
        have h1 := abs_le.mp (R' (Real.log (π x)))
        have h2 := hπ x hx
        have h3 := abs_le.mp h2
        have h4 : δ * |Real.log (π x)| ≤ L / 2 := by nlinarith [abs_nonneg (Real.log (π x))]
        exact abs_le.mpr ⟨by linarith, by linarith⟩, by
        refine (R' (Real.log (π x))).trans ?_
        have h2 := hπ x hx
        nlinarith⟩
    zero := fun x hx => by simp [double, logOf, hx, roundXR]
    ratio := fun x z hxz => by
      obtain ⟨hzx, hl⟩ := hq x z hxz
      have hρ : 0 < q x z / q z x := div_pos hxz hzx
      have h1 := R' (q x z / q z x)
      rw [abs_of_pos hρ] at h1
      obtain ⟨hr0, hr⟩ := log_rel hρ (by linarith) h1
      have h3 := abs_le.mp hr
      have h4 := abs_le.mp hl
      refine ⟨hzx, nearest 53 (q x z / q z x), by simp [double, XR.div, hzx.ne', roundXR], ?_, ?_, h1⟩
      · rw [← Real.le_log_iff_exp_le hr0]; linarith
      · rw [← Real.log_le_iff_le_exp hr0]; linarith
    random := fun i => rfl }


/-! ### rare states -/

/-- Two states, `false` with weight one and `true` with weight `p`; the sampler always proposes the other one. -/
noncomputable def rareWeight (p : ℝ) (x : Bool) : ℝ := if x then p else 1

/-- the proposals -/
noncomputable def otherOne (x y : Bool) : ℝ := if x = y then 0 else 1

/-- A machine with exact arithmetic and `N` random numbers. -/
noncomputable def exactWith (N : Nat) (hN : 0 < N) (max p : ℝ) : Computer Bool XR where
  ops := idealOps max
  logLikelihood := fun x => logOf (rareWeight p x)
  ratio := fun _ _ => .fin 1
  count := N
  count_pos := hN
  random := fun i => .fin ((i : ℝ) / (N : ℝ))

theorem rareTarget (p max : ℝ) (hp : 0 < p) (hmax : |Real.log p| < max) : FiniteTarget max (rareWeight p) otherOne where
  nonneg := by intro x; cases x <;> simp [rareWeight, hp.le]
  nonzero := by simp [rareWeight]; linarith
  proposals_nonneg := by intro x y; unfold otherOne; split <;> norm_num
  proposals_total := by intro x; cases x <;> simp [otherOne]
  no_marker := by
    have h0 : 0 < max := (abs_nonneg _).trans_lt hmax
    intro x
    cases x
    · simp only [rareWeight, Bool.false_eq_true, if_false, Real.log_one]; linarith
    · simp only [rareWeight, if_true]; linarith [neg_abs_le (Real.log p)]

theorem rareConnected (p : ℝ) : Connected (rareWeight p) otherOne := by
  refine ⟨false, fun x => ?_⟩
  cases x
  · exact Relation.ReflTransGen.refl
  · exact Relation.ReflTransGen.single (by simp [otherOne, rareWeight])

theorem single {S D : Type} (M : Computer S D) (x z : S) (i : Fin M.count) (h : ∀ u, accepts M x z u = true ↔ u.1 = i) : M.acceptance x z = 1 / M.count := by
  have hN := count_ne M
  rw [acceptance_eq]
  have : (Finset.univ.filter (fun u : Fin M.count × Fin M.count => accepts M x z u = true)) = ({i} : Finset (Fin M.count)) ×ˢ (Finset.univ : Finset (Fin M.count)) := by
    ext u
    rw [Finset.mem_filter, Finset.mem_product, h u]
    simp
  rw [this, Finset.card_product]
  simp only [Finset.card_singleton, Finset.card_univ, Fintype.card_fin, one_mul]
  field_simp

theorem acc_ideal {S : Type} (M : Computer S XR) (max : ℝ) (hM : M.ops = idealOps max) (a b r : XR) (u1 u2 : ℝ) : acc M a b r (.fin u1) (.fin u2) = accB max a b r u1 u2 := by
  unfold acc accB
  rw [hM, Bool.or_assoc]
  cases e1 : @hasZeroProbability XR (idealOps max) a <;> cases e2 : @hasZeroProbability XR (idealOps max) b <;> rfl

theorem rare_acceptance (N : Nat) (hN : 0 < N) (max p : ℝ) (hp : 0 < p) (hpN : p < 1 / N) (hmax : |Real.log p| < max) :
    (exactWith N hN max p).acceptance false true = 1 / N ∧ (exactWith N hN max p).acceptance true false = 1 := by
  have h0 : 0 < max := (abs_nonneg _).trans_lt hmax
  have hN0 : (0:ℝ) < N := by exact_mod_cast hN
  have hp1 : p < 1 := hpN.trans_le (by rw [div_le_one hN0]; exact_mod_cast hN)
  have hlp : Real.log p < 0 := Real.log_neg hp hp1
  have t1 := hasZero_fin max 0 (by linarith)
  have t2 := hasZero_fin max (Real.log p) (by linarith [neg_abs_le (Real.log p)])
  have hacc : ∀ x z (u : Fin N × Fin N), accepts (exactWith N hN max p) x z u = accB max (logOf (rareWeight p z)) (logOf (rareWeight p x)) (.fin 1) ((u.1 : ℕ) / N) ((u.2 : ℕ) / N) :=
    fun x z u => acc_ideal (exactWith N hN max p) max rfl _ _ _ _ _
  have l0 : XR.log (.fin 1) = .fin 0 := by simp [XR.log, not_lt.mpr (zero_le_one (α := ℝ))]
  have l1 : logOf (rareWeight p false) = .fin 0 := by simp [rareWeight, logOf]
  have l2 : logOf (rareWeight p true) = .fin (Real.log p) := by simp [rareWeight, logOf, hp.ne']
  constructor
  · refine single (exactWith N hN max p) false true ⟨0, hN⟩ (fun (u : Fin N × Fin N) => ?_)
    rw [hacc, l1, l2]
    have e : accB max (.fin (Real.log p)) (.fin 0) (.fin 1) ((u.1 : ℕ) / N) ((u.2 : ℕ) / N) = true ↔ ((u.1 : ℕ) : ℝ) / N ≤ p := by
      simp [accB, t1, t2, l0, XR.neg, XR.add, XR.exp, XR.div, XR.ltb, XR.leb, XR.eqb, not_lt.mpr hlp.le, Real.exp_log hp]
      rw [← le_iff_lt_or_eq]
    rw [e]
    constructor
    · intro h
      have h1 : ((u.1 : ℕ) : ℝ) / N < 1 / N := h.trans_lt hpN
      rw [div_lt_div_iff_of_pos_right hN0] at h1
      have h2 : (u.1 : ℕ) < 1 := by exact_mod_cast h1
      exact Fin.ext (by simpa using h2)
    · intro h
      have : (u.1 : ℕ) = 0 := by rw [h]
      rw [this]; simp [hp.le]
  · refine always (exactWith N hN max p) true false (fun (u : Fin N × Fin N) => ?_)
    rw [hacc, l1, l2]
    simp [accB, t1, t2, l0, XR.neg, XR.add, XR.ltb, hlp]

end Inexact

open Inexact in
/-- **C95** (what the resolution of the random number generator does to rare states): even with exact arithmetic, if one state has weight `1` and the other a weight `p` less than `1/N`, where `N` is the number of different random
numbers, the sampler moves to the rare state with probability `1/N` instead of `p` (because the random number zero always accepts), and the fraction of samples in the rare state converges to `1/(N+1)` however small `p` is. -/
theorem C95_caveat_rare_states (N : Nat) (hN : 0 < N) (max p : ℝ) (hp : 0 < p) (hpN : p < 1 / N) (hmax : |Real.log p| < max) :
    FiniteTarget max (rareWeight p) otherOne ∧ Connected (rareWeight p) otherOne ∧
    targetMean (rareWeight p) (fun x => if x then 1 else 0) = p / (1 + p) ∧ p / (1 + p) < 1 / (N + 1) ∧
    ∃ K : ℝ, ∀ (n : Nat) (start : Bool), 1 ≤ n →
      (exactWith N hN max p).expected (Computer.meanStep (fun x (_ : Unit) => if x then 1 else 0)) (MeanState.init (fun _ => 0)) start otherOne n (fun script =>
        (((exactWith N hN max p).consumerState (Computer.meanStep (fun x (_ : Unit) => if x then 1 else 0)) (MeanState.init (fun _ => 0)) start script).get () - 1 / (N + 1)) ^ 2) ≤ K / n := by
  have hN0 : (0:ℝ) < N := by exact_mod_cast hN
  have hpN' : p * N < 1 := by rwa [lt_div_iff₀ hN0] at hpN
  have hT := rareTarget p max hp hmax
  refine ⟨hT, rareConnected p, ?_, ?_, ?_⟩
  · simp [targetMean, rareWeight]; rw [add_comm]
  · rw [div_lt_div_iff₀ (by linarith) (by linarith)]; nlinarith
  · obtain ⟨a1, a2⟩ := rare_acceptance N hN max p hp hpN hmax
    have hS := Inexact.stochastic (exactWith N hN max p) hT.proposals_nonneg hT.proposals_total
    have t1 : Inexact.transition (exactWith N hN max p) otherOne false true = 1 / N := by simp [Inexact.transition, otherOne, a1]
    have t2 : Inexact.transition (exactWith N hN max p) otherOne false false = 1 - 1 / N := by simp [Inexact.transition, otherOne, a1]
    have t3 : Inexact.transition (exactWith N hN max p) otherOne true false = 1 := by simp [Inexact.transition, otherOne, a2]
    have t4 : Inexact.transition (exactWith N hN max p) otherOne true true = 0 := by simp [Inexact.transition, otherOne, a2]
    obtain ⟨K, hK⟩ := Ergodic.mean_square hS (fun x : Bool => if x then (1:ℝ) else N) (by simp; linarith)
      (by
        intro y
        cases y
        · simp [t2, t3]; field_simp; ring
        · simp [t1, t4]; field_simp) false
      (by
        intro x
        cases x
        · exact Relation.ReflTransGen.refl
        · exact Relation.ReflTransGen.single (by simp [t3])) (fun x => if x then 1 else 0)
    refine ⟨K, fun n start hn => ?_⟩
    rw [Inexact.expected_eq (exactWith N hN max p) otherOne _ _ start n _ (fun l => ((l.map (fun x : Bool => if x then (1:ℝ) else 0)).sum / n - 1 / (N + 1)) ^ 2) (fun script hs => by
      rw [Inexact.meanState _ _ _ _ _ (by omega), hs])]
    refine le_trans (le_of_eq ?_) (hK n start hn)
    congr 1
    ext l
    congr 2
    simp
    rw [add_comm]

/-! ### Instances: concrete cases that meet the hypotheses of the theorems above -/

open Inexact in
theorem double_example : (double 1000 (fun x : Fin 3 => if x = 0 then 0 else if x = 1 then 1 else 2)
    (fun x y : Fin 3 => if x = y then 0 else if (x = 0 ∧ y = 1) ∨ (x = 1 ∧ y = 2) ∨ (x = 2 ∧ y = 0) then 1/4 else 3/4)).Faithful
      (fun x : Fin 3 => if x = 0 then 0 else if x = 1 then 1 else 2)
      (fun x y : Fin 3 => if x = y then 0 else if (x = 0 ∧ y = 1) ∨ (x = 1 ∧ y = 2) ∨ (x = 2 ∧ y = 0) then 1/4 else 3/4) (2 ^ (-(53 : ℤ))) (4 * 2 ^ (-(53 : ℤ))) 4 := by
  have l2 : |Real.log 2| ≤ 4 / 2 := by
    rw [abs_of_nonneg (Real.log_nonneg (by norm_num))]
    have := Real.log_le_sub_one_of_pos (show (0:ℝ) < 2 by norm_num)
    linarith
  have l3 : |Real.log 3| ≤ 4 / 2 := by
    rw [abs_of_nonneg (Real.log_nonneg (by norm_num))]
    have := Real.log_le_sub_one_of_pos (show (0:ℝ) < 3 by norm_num)
    linarith
  have l3' : |Real.log (1/4/(3/4))| ≤ 4 / 2 := by
    rw [show (1/4/(3/4) : ℝ) = 3⁻¹ by norm_num, Real.log_inv, abs_neg]; exact l3
  have l3'' : |Real.log (3/4/(1/4))| ≤ 4 / 2 := by
    rw [show (3/4/(1/4) : ℝ) = 3 by norm_num]; exact l3
  refine double_faithful 1000 _ _ 4 (by norm_num) (by norm_num) ?_ ?_
  · intro x hx
    fin_cases x
    · simp at hx
    · simp; norm_num
    · simpa using l2
  · intro x z hxz
    fin_cases x <;> fin_cases z <;> first
      | (exfalso; revert hxz; simp; done)
      | (refine ⟨by simp, ?_⟩; simp only [Fin.reduceFinMk, Fin.reduceEq, Fin.isValue]; simp; norm_num at l3' l3'' ⊢; first | exact l3' | exact l3'')

example := C95_mean exampleTarget exampleConnected (fun x (_ : Unit) => (x.val : ℝ)) (fun _ => 5) ()
example := C95_mean_strong exampleTarget exampleConnected (fun x (_ : Unit) => (x.val : ℝ)) (fun _ => 5) ()
example := C95_histogram exampleTarget exampleConnected true [-1, 1/2, 3] exampleSubdivision (fun x => (x.val : ℝ)) 1 (by simp)
example := C95_covariance exampleTarget exampleConnected (fun x (i : Bool) => if i then (x.val : ℝ) else 1) (fun _ => 5) (fun _ _ => 6) (fun _ _ => 7) true false
example := C95_accuracy exampleTarget _ _ _ _ (by rw [zpow_neg]; norm_num) (by norm_num) (by positivity) double_example
example := C95_rounding exampleTarget exampleConnected (fun x (_ : Unit) => (x.val : ℝ)) (fun _ => 5) ()
example := C95_caveat_rare_states 1000 (by norm_num) 1000 (1/10000) (by norm_num) (by norm_num) (by
  rw [one_div, Real.log_inv, abs_neg, show (10000:ℝ) = 10 ^ 4 by norm_num, Real.log_pow, abs_of_nonneg (by have := Real.log_nonneg (show (1:ℝ) ≤ 10 by norm_num); positivity)]
  have := Real.log_le_sub_one_of_pos (show (0:ℝ) < 10 by norm_num)
  push_cast
  linarith)

end SampleFlow
