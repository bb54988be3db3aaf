import Verif.Proofs.RoundingAuto
import Verif.Proofs.Nearest
import Mathlib.Algebra.Order.Field.Power
import Mathlib.Data.Fin.VecNotation

/-! Two runs of AutoCovarianceTrace with doubles, evaluated operation by operation (generated; no operation meets a tie, so the result is the same for every
rule for ties). -/

set_option linter.unusedSimpArgs false

namespace SampleFlow.RoundingAuto

open Spec

theorem nearest_eval (x v : ℝ) (m : Nat) (k : ℤ) (hv : v = m * 2 ^ k) (h1 : 2 ^ 52 * 2 ^ k ≤ x) (h2 : x < 2 ^ 53 * 2 ^ k)
    (h3 : (m - 1/2) * 2 ^ k < x ∧ x < (m + 1/2) * 2 ^ k) : nearest 53 x = v := by
  have hk : (0:ℝ) < 2 ^ k := by positivity
  have hx : 0 < x := lt_of_lt_of_le (by positivity) h1
  have hlog : Int.log 2 x = k + 52 := by
    apply le_antisymm
    · have := Int.zpow_log_le_self (b := 2) (by norm_num) hx
      by_contra hc
      have hc' : k + 53 ≤ Int.log 2 x := by omega
      have h4 : (2:ℝ) ^ (k + 53) ≤ 2 ^ Int.log 2 x := zpow_le_zpow_right₀ (by norm_num) hc'
      rw [zpow_add₀ (by norm_num)] at h4
      push_cast at this
      have e : (2:ℝ) ^ (53:ℤ) = 2 ^ 53 := by norm_num
      rw [e, mul_comm] at h4
      linarith
    · have e : (2:ℝ) ^ (k + 52) ≤ x := by
        rw [zpow_add₀ (by norm_num)]
        have e : (2:ℝ) ^ (52:ℤ) = 2 ^ 52 := by norm_num
        rw [e, mul_comm]
        exact h1
      exact (Int.zpow_le_iff_le_log (b := 2) (by norm_num) hx).mp (by exact_mod_cast e)
  have hulp : ulp 53 x = 2 ^ k := by
    unfold ulp
    rw [hlog]
    congr 1
    push_cast
    ring
  unfold nearest
  rw [if_pos hx.le]
  unfold roundPos
  rw [hulp, hv]
  congr 1
  have : roundInt (x / 2 ^ k) = (m : ℤ) := by
    apply roundInt_eq
    · rw [Int.cast_natCast, lt_div_iff₀ hk]; exact h3.1
    · rw [Int.cast_natCast, div_lt_iff₀ hk]; exact h3.2
  rw [this]
  simp

theorem nearest_eval_neg (x v : ℝ) (m : Nat) (k : ℤ) (hv : -v = m * 2 ^ k) (h1 : 2 ^ 52 * 2 ^ k ≤ -x) (h2 : -x < 2 ^ 53 * 2 ^ k)
    (h3 : (m - 1/2) * 2 ^ k < -x ∧ -x < (m + 1/2) * 2 ^ k) : nearest 53 x = v := by
  have := nearest_eval (-x) (-v) m k hv h1 h2 h3
  rw [(nearest_rounding 53 (by norm_num)).odd] at this
  linarith

theorem nearest_zero : nearest 53 ((0:ℕ):ℝ) = 0 := by
  rw [Nat.cast_zero]; exact (nearest_rounding 53 (by norm_num)).zero

theorem nearest_one : nearest 53 ((1:ℕ):ℝ) = 1 := by
  have := nearest_nat 53 (by norm_num) 1 (by norm_num); rw [this]; simp
theorem nearest_two : nearest 53 ((2:ℕ):ℝ) = 2 := by
  have := nearest_nat 53 (by norm_num) 2 (by norm_num); rw [this]; simp
theorem nearest_three : nearest 53 ((3:ℕ):ℝ) = 3 := by
  have := nearest_nat 53 (by norm_num) 3 (by norm_num); rw [this]; simp
theorem nearest_four : nearest 53 ((4:ℕ):ℝ) = 4 := by
  have := nearest_nat 53 (by norm_num) 4 (by norm_num); rw [this]; simp

theorem r_add (a b : ℝ) : @Arith.add ℝ (roundedArith (nearest 53)) a b = nearest 53 (a + b) := rfl
theorem r_sub (a b : ℝ) : @Arith.sub ℝ (roundedArith (nearest 53)) a b = nearest 53 (a - b) := rfl
theorem r_mul (a b : ℝ) : @Arith.mul ℝ (roundedArith (nearest 53)) a b = nearest 53 (a * b) := rfl
theorem r_div (a b : ℝ) : @Arith.div ℝ (roundedArith (nearest 53)) a b = nearest 53 (a / b) := rfl
theorem r_nat (n : Nat) : @Arith.ofNat ℝ (roundedArith (nearest 53)) n = nearest 53 n := rfl

theorem dot_one (s : ℝ) (x y : Fin 1 → ℝ) : @dotFrom ℝ (roundedArith (nearest 53)) 1 s x y = nearest 53 (s + nearest 53 (x 0 * y 0)) := rfl

theorem e0 : nearest 53 (134217729 * 134217729) = 18014398777917440 := nearest_eval _ _ 4503599694479360 (2) (by norm_num) (by norm_num) (by norm_num) (by norm_num)
theorem e1 : nearest 53 (0 + 18014398777917440) = 18014398777917440 := nearest_eval _ _ 4503599694479360 (2) (by norm_num) (by norm_num) (by norm_num) (by norm_num)
theorem e2 : nearest 53 (134217728 * 134217728) = 18014398509481984 := nearest_eval _ _ 4503599627370496 (2) (by norm_num) (by norm_num) (by norm_num) (by norm_num)
theorem e3 : nearest 53 (18014398777917440 + 18014398509481984) = 36028797287399424 := nearest_eval _ _ 4503599660924928 (3) (by norm_num) (by norm_num) (by norm_num) (by norm_num)
theorem e4 : nearest 53 (134217729 + 134217728) = 268435457 := nearest_eval _ _ 4503599644147712 (-24) (by norm_num) (by norm_num) (by norm_num) (by norm_num)
theorem e5 : nearest 53 (268435457 + 134217729) = 402653186 := nearest_eval _ _ 6755399474610176 (-24) (by norm_num) (by norm_num) (by norm_num) (by norm_num)
theorem e6 : nearest 53 (402653186 + 134217728) = 536870914 := nearest_eval _ _ 4503599644147712 (-23) (by norm_num) (by norm_num) (by norm_num) (by norm_num)
theorem e7 : nearest 53 (134217729 - 134217728) = 1 := nearest_eval _ _ 4503599627370496 (-52) (by norm_num) (by norm_num) (by norm_num) (by norm_num)
theorem e8 : nearest 53 (1 / 2) = 1/2 := nearest_eval _ _ 4503599627370496 (-53) (by norm_num) (by norm_num) (by norm_num) (by norm_num)
theorem e9 : nearest 53 (134217728 + (1/2)) = 268435457/2 := nearest_eval _ _ 4503599644147712 (-25) (by norm_num) (by norm_num) (by norm_num) (by norm_num)
theorem e10 : nearest 53 ((268435457/2) * 536870914) = 72057594574798848 := nearest_eval _ _ 4503599660924928 (4) (by norm_num) (by norm_num) (by norm_num) (by norm_num)
theorem e11 : nearest 53 (36028797287399424 - 72057594574798848) = -36028797287399424 := nearest_eval_neg _ _ 4503599660924928 (3) (by norm_num) (by norm_num) (by norm_num) (by norm_num)
theorem e12 : nearest 53 (1 / 1) = 1 := nearest_eval _ _ 4503599627370496 (-52) (by norm_num) (by norm_num) (by norm_num) (by norm_num)
theorem e13 : nearest 53 (1 + 1) = 2 := nearest_eval _ _ 4503599627370496 (-51) (by norm_num) (by norm_num) (by norm_num) (by norm_num)
theorem e14 : nearest 53 (2 * (268435457/2)) = 268435457 := nearest_eval _ _ 4503599644147712 (-24) (by norm_num) (by norm_num) (by norm_num) (by norm_num)
theorem e15 : nearest 53 (268435457 * (268435457/2)) = 36028797287399424 := nearest_eval _ _ 4503599660924928 (3) (by norm_num) (by norm_num) (by norm_num) (by norm_num)
theorem e16 : nearest 53 ((-36028797287399424) + 36028797287399424) = 0 := by rw [show ((-36028797287399424) + 36028797287399424 : ℝ) = 0 by norm_num]; exact (nearest_rounding 53 (by norm_num)).zero

theorem e_step1 : @actMachineConsume ℝ (roundedArith (nearest 53)) 1 0 ⟨1, fun _ => 134217728, [(0, fun _ => 0)], [fun _ => 134217728]⟩ (fun _ => 134217729) =
    .ok ⟨2, fun _ => 268435457/2, [(36028797287399424, fun _ => 536870914)], [fun _ => 134217729]⟩ := by
  let _ := roundedArith (nearest 53)
  unfold actMachineConsume
  rw [if_neg (by norm_num)]
  simp only [List.range_succ, List.range_zero, List.nil_append, List.mapM_cons, List.mapM_nil, actMachineLag, readAt, List.getElem?_cons_zero,
    List.getElem?_cons_succ, bind, Except.bind, pure, Except.pure, dot_one, r_add, r_sub, r_mul, r_div, r_nat, nearest_zero, nearest_one, nearest_two, nearest_three, nearest_four, Nat.reduceAdd,
    Nat.reduceEqDiff, if_true, if_false, ge_iff_le, Nat.reduceLeDiff, Nat.sub_zero, List.length_cons, List.length_nil, gt_iff_lt, Nat.reduceLT, List.dropLast,
    e0, e1, e2, e3, e4, e5, e6, e7, e8, e9, e10, e11, e12, e13, e14, e15, e16]

theorem e_get : @actMachineGetLag ℝ (roundedArith (nearest 53)) 1 ⟨2, fun _ => 268435457/2, [(36028797287399424, fun _ => 536870914)], [fun _ => 134217729]⟩ 0 = .ok 0 := by
  let _ := roundedArith (nearest 53)
  simp only [actMachineGetLag, readAt, List.getElem?_cons_zero, bind, Except.bind, pure, Except.pure, List.finRange_succ, List.finRange_zero, List.map_nil,
    List.foldl_cons, List.foldl_nil, Nat.reduceAdd, Nat.reduceLT, if_true, gt_iff_lt, Nat.sub_zero, Nat.reduceSub, r_add, r_sub, r_mul, r_div, r_nat, nearest_one, nearest_two, nearest_three, e0, e1, e2, e3, e4, e5, e6, e7, e8, e9, e10, e11, e12, e13, e14, e15, e16]

theorem c0 : nearest 53 (134217733 * 134217733) = 18014399851659288 := nearest_eval _ _ 4503599962914822 (2) (by norm_num) (by norm_num) (by norm_num) (by norm_num)
theorem c1 : nearest 53 (0 + 18014399851659288) = 18014399851659288 := nearest_eval _ _ 4503599962914822 (2) (by norm_num) (by norm_num) (by norm_num) (by norm_num)
theorem c2 : nearest 53 (18014399851659288 + 18014399851659288) = 36028799703318576 := nearest_eval _ _ 4503599962914822 (3) (by norm_num) (by norm_num) (by norm_num) (by norm_num)
theorem c3 : nearest 53 (134217733 + 134217733) = 268435466 := nearest_eval _ _ 4503599795142656 (-24) (by norm_num) (by norm_num) (by norm_num) (by norm_num)
theorem c4 : nearest 53 (268435466 + 134217733) = 402653199 := nearest_eval _ _ 6755399692713984 (-24) (by norm_num) (by norm_num) (by norm_num) (by norm_num)
theorem c5 : nearest 53 (402653199 + 134217733) = 536870932 := nearest_eval _ _ 4503599795142656 (-23) (by norm_num) (by norm_num) (by norm_num) (by norm_num)
theorem c6 : nearest 53 (134217733 - 134217733) = 0 := by rw [show (134217733 - 134217733 : ℝ) = 0 by norm_num]; exact (nearest_rounding 53 (by norm_num)).zero
theorem c7 : nearest 53 (0 / 2) = 0 := by rw [show (0 / 2 : ℝ) = 0 by norm_num]; exact (nearest_rounding 53 (by norm_num)).zero
theorem c8 : nearest 53 (134217733 + 0) = 134217733 := nearest_eval _ _ 4503599795142656 (-25) (by norm_num) (by norm_num) (by norm_num) (by norm_num)
theorem c9 : nearest 53 (0 - 36028799703318576) = -36028799703318576 := nearest_eval_neg _ _ 4503599962914822 (3) (by norm_num) (by norm_num) (by norm_num) (by norm_num)
theorem c10 : nearest 53 ((-36028799703318576) + 18014399851659288) = -18014399851659288 := nearest_eval_neg _ _ 4503599962914822 (2) (by norm_num) (by norm_num) (by norm_num) (by norm_num)
theorem c11 : nearest 53 (1 / 2) = 1/2 := nearest_eval _ _ 4503599627370496 (-53) (by norm_num) (by norm_num) (by norm_num) (by norm_num)
theorem c12 : nearest 53 ((-18014399851659288) * (1/2)) = -9007199925829644 := nearest_eval_neg _ _ 4503599962914822 (1) (by norm_num) (by norm_num) (by norm_num) (by norm_num)
theorem c13 : nearest 53 (36028799703318576 + (-9007199925829644)) = 27021599777488932 := nearest_eval _ _ 6755399944372233 (2) (by norm_num) (by norm_num) (by norm_num) (by norm_num)
theorem c14 : nearest 53 (268435466 - 536870932) = -268435466 := nearest_eval_neg _ _ 4503599795142656 (-24) (by norm_num) (by norm_num) (by norm_num) (by norm_num)
theorem c15 : nearest 53 ((-268435466) * (1/2)) = -134217733 := nearest_eval_neg _ _ 4503599795142656 (-25) (by norm_num) (by norm_num) (by norm_num) (by norm_num)
theorem c16 : nearest 53 (536870932 + (-134217733)) = 402653199 := nearest_eval _ _ 6755399692713984 (-24) (by norm_num) (by norm_num) (by norm_num) (by norm_num)
theorem c17 : nearest 53 (0 / 3) = 0 := by rw [show (0 / 3 : ℝ) = 0 by norm_num]; exact (nearest_rounding 53 (by norm_num)).zero
theorem c18 : nearest 53 (0 - 27021599777488932) = -27021599777488932 := nearest_eval_neg _ _ 6755399944372233 (2) (by norm_num) (by norm_num) (by norm_num) (by norm_num)
theorem c19 : nearest 53 ((-27021599777488932) + 18014399851659288) = -9007199925829644 := nearest_eval_neg _ _ 4503599962914822 (1) (by norm_num) (by norm_num) (by norm_num) (by norm_num)
theorem c20 : nearest 53 (1 / 3) = 6004799503160661/18014398509481984 := nearest_eval _ _ 6004799503160661 (-54) (by norm_num) (by norm_num) (by norm_num) (by norm_num)
theorem c21 : nearest 53 ((-9007199925829644) * (6004799503160661/18014398509481984)) = -3002399975276548 := nearest_eval_neg _ _ 6004799950553096 (-1) (by norm_num) (by norm_num) (by norm_num) (by norm_num)
theorem c22 : nearest 53 (27021599777488932 + (-3002399975276548)) = 24019199802212384 := nearest_eval _ _ 6004799950553096 (2) (by norm_num) (by norm_num) (by norm_num) (by norm_num)
theorem c23 : nearest 53 (268435466 - 402653199) = -134217733 := nearest_eval_neg _ _ 4503599795142656 (-25) (by norm_num) (by norm_num) (by norm_num) (by norm_num)
theorem c24 : nearest 53 ((-134217733) * (6004799503160661/18014398509481984)) = -3002399863428437/67108864 := nearest_eval_neg _ _ 6004799726856874 (-27) (by norm_num) (by norm_num) (by norm_num) (by norm_num)
theorem c25 : nearest 53 (402653199 + (-3002399863428437/67108864)) = 6004799726856875/16777216 := nearest_eval _ _ 6004799726856875 (-24) (by norm_num) (by norm_num) (by norm_num) (by norm_num)
theorem c26 : nearest 53 (0 / 4) = 0 := by rw [show (0 / 4 : ℝ) = 0 by norm_num]; exact (nearest_rounding 53 (by norm_num)).zero
theorem c27 : nearest 53 (134217733 * (6004799726856875/16777216)) = 48038399604424776 := nearest_eval _ _ 6004799950553097 (3) (by norm_num) (by norm_num) (by norm_num) (by norm_num)
theorem c28 : nearest 53 (24019199802212384 - 48038399604424776) = -24019199802212392 := nearest_eval_neg _ _ 6004799950553098 (2) (by norm_num) (by norm_num) (by norm_num) (by norm_num)
theorem c29 : nearest 53 (1 + (6004799503160661/18014398509481984)) = 6004799503160661/4503599627370496 := nearest_eval _ _ 6004799503160661 (-52) (by norm_num) (by norm_num) (by norm_num) (by norm_num)
theorem c30 : nearest 53 ((6004799503160661/4503599627370496) * 134217733) = 3002399863428437/16777216 := nearest_eval _ _ 6004799726856874 (-25) (by norm_num) (by norm_num) (by norm_num) (by norm_num)
theorem c31 : nearest 53 ((3002399863428437/16777216) * 134217733) = 24019199802212384 := nearest_eval _ _ 6004799950553096 (2) (by norm_num) (by norm_num) (by norm_num) (by norm_num)
theorem c32 : nearest 53 ((-24019199802212392) + 24019199802212384) = -8 := nearest_eval_neg _ _ 4503599627370496 (-49) (by norm_num) (by norm_num) (by norm_num) (by norm_num)

theorem c_step1 : @actMachineConsume ℝ (roundedArith (nearest 53)) 1 0 ⟨1, fun _ => 134217733, [(0, fun _ => 0)], [fun _ => 134217733]⟩ (fun _ => 134217733) =
    .ok ⟨2, fun _ => 134217733, [(36028799703318576, fun _ => 536870932)], [fun _ => 134217733]⟩ := by
  let _ := roundedArith (nearest 53)
  unfold actMachineConsume
  rw [if_neg (by norm_num)]
  simp only [List.range_succ, List.range_zero, List.nil_append, List.mapM_cons, List.mapM_nil, actMachineLag, readAt, List.getElem?_cons_zero,
    List.getElem?_cons_succ, bind, Except.bind, pure, Except.pure, dot_one, r_add, r_sub, r_mul, r_div, r_nat, nearest_zero, nearest_one, nearest_two, nearest_three, nearest_four, Nat.reduceAdd,
    Nat.reduceEqDiff, if_true, if_false, ge_iff_le, Nat.reduceLeDiff, Nat.sub_zero, List.length_cons, List.length_nil, gt_iff_lt, Nat.reduceLT, List.dropLast,
    c0, c1, c2, c3, c4, c5, c6, c7, c8, c9, c10, c11, c12, c13, c14, c15, c16, c17, c18, c19, c20, c21, c22, c23, c24, c25, c26, c27, c28, c29, c30, c31, c32]

theorem c_step2 : @actMachineConsume ℝ (roundedArith (nearest 53)) 1 0 ⟨2, fun _ => 134217733, [(36028799703318576, fun _ => 536870932)], [fun _ => 134217733]⟩ (fun _ => 134217733) =
    .ok ⟨3, fun _ => 134217733, [(27021599777488932, fun _ => 402653199)], [fun _ => 134217733]⟩ := by
  let _ := roundedArith (nearest 53)
  unfold actMachineConsume
  rw [if_neg (by norm_num)]
  simp only [List.range_succ, List.range_zero, List.nil_append, List.mapM_cons, List.mapM_nil, actMachineLag, readAt, List.getElem?_cons_zero,
    List.getElem?_cons_succ, bind, Except.bind, pure, Except.pure, dot_one, r_add, r_sub, r_mul, r_div, r_nat, nearest_zero, nearest_one, nearest_two, nearest_three, nearest_four, Nat.reduceAdd,
    Nat.reduceEqDiff, if_true, if_false, ge_iff_le, Nat.reduceLeDiff, Nat.sub_zero, List.length_cons, List.length_nil, gt_iff_lt, Nat.reduceLT, List.dropLast,
    c0, c1, c2, c3, c4, c5, c6, c7, c8, c9, c10, c11, c12, c13, c14, c15, c16, c17, c18, c19, c20, c21, c22, c23, c24, c25, c26, c27, c28, c29, c30, c31, c32]

theorem c_step3 : @actMachineConsume ℝ (roundedArith (nearest 53)) 1 0 ⟨3, fun _ => 134217733, [(27021599777488932, fun _ => 402653199)], [fun _ => 134217733]⟩ (fun _ => 134217733) =
    .ok ⟨4, fun _ => 134217733, [(24019199802212384, fun _ => 6004799726856875/16777216)], [fun _ => 134217733]⟩ := by
  let _ := roundedArith (nearest 53)
  unfold actMachineConsume
  rw [if_neg (by norm_num)]
  simp only [List.range_succ, List.range_zero, List.nil_append, List.mapM_cons, List.mapM_nil, actMachineLag, readAt, List.getElem?_cons_zero,
    List.getElem?_cons_succ, bind, Except.bind, pure, Except.pure, dot_one, r_add, r_sub, r_mul, r_div, r_nat, nearest_zero, nearest_one, nearest_two, nearest_three, nearest_four, Nat.reduceAdd,
    Nat.reduceEqDiff, if_true, if_false, ge_iff_le, Nat.reduceLeDiff, Nat.sub_zero, List.length_cons, List.length_nil, gt_iff_lt, Nat.reduceLT, List.dropLast,
    c0, c1, c2, c3, c4, c5, c6, c7, c8, c9, c10, c11, c12, c13, c14, c15, c16, c17, c18, c19, c20, c21, c22, c23, c24, c25, c26, c27, c28, c29, c30, c31, c32]

theorem c_get : @actMachineGetLag ℝ (roundedArith (nearest 53)) 1 ⟨4, fun _ => 134217733, [(24019199802212384, fun _ => 6004799726856875/16777216)], [fun _ => 134217733]⟩ 0 = .ok (-8) := by
  let _ := roundedArith (nearest 53)
  simp only [actMachineGetLag, readAt, List.getElem?_cons_zero, bind, Except.bind, pure, Except.pure, List.finRange_succ, List.finRange_zero, List.map_nil,
    List.foldl_cons, List.foldl_nil, Nat.reduceAdd, Nat.reduceLT, if_true, gt_iff_lt, Nat.sub_zero, Nat.reduceSub, r_add, r_sub, r_mul, r_div, r_nat, nearest_one, nearest_two, nearest_three, c0, c1, c2, c3, c4, c5, c6, c7, c8, c9, c10, c11, c12, c13, c14, c15, c16, c17, c18, c19, c20, c21, c22, c23, c24, c25, c26, c27, c28, c29, c30, c31, c32]

end SampleFlow.RoundingAuto
