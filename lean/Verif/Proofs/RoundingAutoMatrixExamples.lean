import Verif.Proofs.RoundingAutoMatrix
import Verif.Proofs.RoundingAutoExamples

/-! Two runs of AutoCovarianceMatrix with doubles, evaluated operation by operation (generated; no operation meets a tie, so the result is the same for every
rule for ties). -/

set_option linter.unusedSimpArgs false

namespace SampleFlow.RoundingAuto

open Spec

theorem me0 : nearest 53 (134217729 * 134217729) = 18014398777917440 := nearest_eval _ _ 4503599694479360 (2) (by norm_num) (by norm_num) (by norm_num) (by norm_num)
theorem me1 : nearest 53 (0 + 18014398777917440) = 18014398777917440 := nearest_eval _ _ 4503599694479360 (2) (by norm_num) (by norm_num) (by norm_num) (by norm_num)
theorem me2 : nearest 53 (134217728 * 134217728) = 18014398509481984 := nearest_eval _ _ 4503599627370496 (2) (by norm_num) (by norm_num) (by norm_num) (by norm_num)
theorem me3 : nearest 53 (18014398777917440 + 18014398509481984) = 36028797287399424 := nearest_eval _ _ 4503599660924928 (3) (by norm_num) (by norm_num) (by norm_num) (by norm_num)
theorem me4 : nearest 53 (134217729 + 134217728) = 268435457 := nearest_eval _ _ 4503599644147712 (-24) (by norm_num) (by norm_num) (by norm_num) (by norm_num)
theorem me5 : nearest 53 (0 + 134217729) = 134217729 := nearest_eval _ _ 4503599660924928 (-25) (by norm_num) (by norm_num) (by norm_num) (by norm_num)
theorem me6 : nearest 53 (134217729 - 134217728) = 1 := nearest_eval _ _ 4503599627370496 (-52) (by norm_num) (by norm_num) (by norm_num) (by norm_num)
theorem me7 : nearest 53 (1 / 2) = 1/2 := nearest_eval _ _ 4503599627370496 (-53) (by norm_num) (by norm_num) (by norm_num) (by norm_num)
theorem me8 : nearest 53 (134217728 + (1/2)) = 268435457/2 := nearest_eval _ _ 4503599644147712 (-25) (by norm_num) (by norm_num) (by norm_num) (by norm_num)
theorem me9 : nearest 53 ((268435457/2) * 268435457) = 36028797287399424 := nearest_eval _ _ 4503599660924928 (3) (by norm_num) (by norm_num) (by norm_num) (by norm_num)
theorem me10 : nearest 53 (36028797287399424 - 36028797287399424) = 0 := by rw [show (36028797287399424 - 36028797287399424 : ℝ) = 0 by norm_num]; exact (nearest_rounding 53 (by norm_num)).zero
theorem me11 : nearest 53 (268435457 * (268435457/2)) = 36028797287399424 := nearest_eval _ _ 4503599660924928 (3) (by norm_num) (by norm_num) (by norm_num) (by norm_num)
theorem me12 : nearest 53 (0 - 36028797287399424) = -36028797287399424 := nearest_eval_neg _ _ 4503599660924928 (3) (by norm_num) (by norm_num) (by norm_num) (by norm_num)
theorem me13 : nearest 53 (1 / 1) = 1 := nearest_eval _ _ 4503599627370496 (-52) (by norm_num) (by norm_num) (by norm_num) (by norm_num)
theorem me14 : nearest 53 (1 + 1) = 2 := nearest_eval _ _ 4503599627370496 (-51) (by norm_num) (by norm_num) (by norm_num) (by norm_num)
theorem me15 : nearest 53 (2 * (268435457/2)) = 268435457 := nearest_eval _ _ 4503599644147712 (-24) (by norm_num) (by norm_num) (by norm_num) (by norm_num)
theorem me16 : nearest 53 ((-36028797287399424) + 36028797287399424) = 0 := by rw [show ((-36028797287399424) + 36028797287399424 : ℝ) = 0 by norm_num]; exact (nearest_rounding 53 (by norm_num)).zero

theorem me_step1 : @acmMachineConsume ℝ Unit (roundedArith (nearest 53)) 0 (fun _ _ _ => 0) ⟨1, fun _ => 134217728, [⟨fun _ _ => 0, fun _ => 0, fun _ => 0⟩], [fun _ => 134217728]⟩ (fun _ => 134217729) =
    .ok ⟨2, fun _ => 268435457/2, [⟨fun _ _ => 36028797287399424, fun _ => 268435457, fun _ => 268435457⟩], [fun _ => 134217729]⟩ := by
  let _ := roundedArith (nearest 53)
  unfold acmMachineConsume
  rw [if_neg (by norm_num)]
  simp only [List.range_succ, List.range_zero, List.nil_append, List.mapM_cons, List.mapM_nil, acmMachineLag, readAt, List.getElem?_cons_zero,
    List.getElem?_cons_succ, bind, Except.bind, pure, Except.pure, r_add, r_sub, r_mul, r_div, r_nat, nearest_zero, nearest_one, nearest_two, nearest_three, nearest_four, Nat.reduceAdd,
    Nat.reduceEqDiff, if_true, if_false, ge_iff_le, Nat.reduceLeDiff, Nat.sub_zero, List.length_cons, List.length_nil, gt_iff_lt, Nat.reduceLT, List.dropLast,
    me0, me1, me2, me3, me4, me5, me6, me7, me8, me9, me10, me11, me12, me13, me14, me15, me16]

theorem me_get : @acmMachineGetLag ℝ Unit (roundedArith (nearest 53)) ⟨2, fun _ => 268435457/2, [⟨fun _ _ => 36028797287399424, fun _ => 268435457, fun _ => 268435457⟩], [fun _ => 134217729]⟩ 0 = .ok (fun _ _ => 0) := by
  let _ := roundedArith (nearest 53)
  simp only [acmMachineGetLag, readAt, List.getElem?_cons_zero, bind, Except.bind, pure, Except.pure, Nat.reduceAdd, Nat.reduceLT, if_true, gt_iff_lt, Nat.sub_zero,
    Nat.reduceSub, r_add, r_sub, r_mul, r_div, r_nat, nearest_one, nearest_two, nearest_three, me0, me1, me2, me3, me4, me5, me6, me7, me8, me9, me10, me11, me12, me13, me14, me15, me16]

theorem mc0 : nearest 53 (134217733 * 134217733) = 18014399851659288 := nearest_eval _ _ 4503599962914822 (2) (by norm_num) (by norm_num) (by norm_num) (by norm_num)
theorem mc1 : nearest 53 (0 + 18014399851659288) = 18014399851659288 := nearest_eval _ _ 4503599962914822 (2) (by norm_num) (by norm_num) (by norm_num) (by norm_num)
theorem mc2 : nearest 53 (18014399851659288 + 18014399851659288) = 36028799703318576 := nearest_eval _ _ 4503599962914822 (3) (by norm_num) (by norm_num) (by norm_num) (by norm_num)
theorem mc3 : nearest 53 (134217733 + 134217733) = 268435466 := nearest_eval _ _ 4503599795142656 (-24) (by norm_num) (by norm_num) (by norm_num) (by norm_num)
theorem mc4 : nearest 53 (0 + 134217733) = 134217733 := nearest_eval _ _ 4503599795142656 (-25) (by norm_num) (by norm_num) (by norm_num) (by norm_num)
theorem mc5 : nearest 53 (134217733 - 134217733) = 0 := by rw [show (134217733 - 134217733 : ℝ) = 0 by norm_num]; exact (nearest_rounding 53 (by norm_num)).zero
theorem mc6 : nearest 53 (0 / 2) = 0 := by rw [show (0 / 2 : ℝ) = 0 by norm_num]; exact (nearest_rounding 53 (by norm_num)).zero
theorem mc7 : nearest 53 (134217733 + 0) = 134217733 := nearest_eval _ _ 4503599795142656 (-25) (by norm_num) (by norm_num) (by norm_num) (by norm_num)
theorem mc8 : nearest 53 (1 / 2) = 1/2 := nearest_eval _ _ 4503599627370496 (-53) (by norm_num) (by norm_num) (by norm_num) (by norm_num)
theorem mc9 : nearest 53 (0 - 36028799703318576) = -36028799703318576 := nearest_eval_neg _ _ 4503599962914822 (3) (by norm_num) (by norm_num) (by norm_num) (by norm_num)
theorem mc10 : nearest 53 ((-36028799703318576) + 18014399851659288) = -18014399851659288 := nearest_eval_neg _ _ 4503599962914822 (2) (by norm_num) (by norm_num) (by norm_num) (by norm_num)
theorem mc11 : nearest 53 ((-18014399851659288) * (1/2)) = -9007199925829644 := nearest_eval_neg _ _ 4503599962914822 (1) (by norm_num) (by norm_num) (by norm_num) (by norm_num)
theorem mc12 : nearest 53 (134217733 - 268435466) = -134217733 := nearest_eval_neg _ _ 4503599795142656 (-25) (by norm_num) (by norm_num) (by norm_num) (by norm_num)
theorem mc13 : nearest 53 ((-134217733) * (1/2)) = -134217733/2 := nearest_eval_neg _ _ 4503599795142656 (-26) (by norm_num) (by norm_num) (by norm_num) (by norm_num)
theorem mc14 : nearest 53 (36028799703318576 + (-9007199925829644)) = 27021599777488932 := nearest_eval _ _ 6755399944372233 (2) (by norm_num) (by norm_num) (by norm_num) (by norm_num)
theorem mc15 : nearest 53 (268435466 + (-134217733/2)) = 402653199/2 := nearest_eval _ _ 6755399692713984 (-25) (by norm_num) (by norm_num) (by norm_num) (by norm_num)
theorem mc16 : nearest 53 (0 / 3) = 0 := by rw [show (0 / 3 : ℝ) = 0 by norm_num]; exact (nearest_rounding 53 (by norm_num)).zero
theorem mc17 : nearest 53 (1 / 3) = 6004799503160661/18014398509481984 := nearest_eval _ _ 6004799503160661 (-54) (by norm_num) (by norm_num) (by norm_num) (by norm_num)
theorem mc18 : nearest 53 (0 - 27021599777488932) = -27021599777488932 := nearest_eval_neg _ _ 6755399944372233 (2) (by norm_num) (by norm_num) (by norm_num) (by norm_num)
theorem mc19 : nearest 53 ((-27021599777488932) + 18014399851659288) = -9007199925829644 := nearest_eval_neg _ _ 4503599962914822 (1) (by norm_num) (by norm_num) (by norm_num) (by norm_num)
theorem mc20 : nearest 53 ((-9007199925829644) * (6004799503160661/18014398509481984)) = -3002399975276548 := nearest_eval_neg _ _ 6004799950553096 (-1) (by norm_num) (by norm_num) (by norm_num) (by norm_num)
theorem mc21 : nearest 53 (134217733 - (402653199/2)) = -134217733/2 := nearest_eval_neg _ _ 4503599795142656 (-26) (by norm_num) (by norm_num) (by norm_num) (by norm_num)
theorem mc22 : nearest 53 ((-134217733/2) * (6004799503160661/18014398509481984)) = -3002399863428437/134217728 := nearest_eval_neg _ _ 6004799726856874 (-28) (by norm_num) (by norm_num) (by norm_num) (by norm_num)
theorem mc23 : nearest 53 (27021599777488932 + (-3002399975276548)) = 24019199802212384 := nearest_eval _ _ 6004799950553096 (2) (by norm_num) (by norm_num) (by norm_num) (by norm_num)
theorem mc24 : nearest 53 ((402653199/2) + (-3002399863428437/134217728)) = 6004799726856875/33554432 := nearest_eval _ _ 6004799726856875 (-25) (by norm_num) (by norm_num) (by norm_num) (by norm_num)
theorem mc25 : nearest 53 (0 / 4) = 0 := by rw [show (0 / 4 : ℝ) = 0 by norm_num]; exact (nearest_rounding 53 (by norm_num)).zero
theorem mc26 : nearest 53 (134217733 * (6004799726856875/33554432)) = 24019199802212388 := nearest_eval _ _ 6004799950553097 (2) (by norm_num) (by norm_num) (by norm_num) (by norm_num)
theorem mc27 : nearest 53 (24019199802212384 - 24019199802212388) = -4 := nearest_eval_neg _ _ 4503599627370496 (-50) (by norm_num) (by norm_num) (by norm_num) (by norm_num)
theorem mc28 : nearest 53 ((6004799726856875/33554432) * 134217733) = 24019199802212388 := nearest_eval _ _ 6004799950553097 (2) (by norm_num) (by norm_num) (by norm_num) (by norm_num)
theorem mc29 : nearest 53 ((-4) - 24019199802212388) = -24019199802212392 := nearest_eval_neg _ _ 6004799950553098 (2) (by norm_num) (by norm_num) (by norm_num) (by norm_num)
theorem mc30 : nearest 53 (1 + (6004799503160661/18014398509481984)) = 6004799503160661/4503599627370496 := nearest_eval _ _ 6004799503160661 (-52) (by norm_num) (by norm_num) (by norm_num) (by norm_num)
theorem mc31 : nearest 53 ((6004799503160661/4503599627370496) * 134217733) = 3002399863428437/16777216 := nearest_eval _ _ 6004799726856874 (-25) (by norm_num) (by norm_num) (by norm_num) (by norm_num)
theorem mc32 : nearest 53 ((3002399863428437/16777216) * 134217733) = 24019199802212384 := nearest_eval _ _ 6004799950553096 (2) (by norm_num) (by norm_num) (by norm_num) (by norm_num)
theorem mc33 : nearest 53 ((-24019199802212392) + 24019199802212384) = -8 := nearest_eval_neg _ _ 4503599627370496 (-49) (by norm_num) (by norm_num) (by norm_num) (by norm_num)

theorem mc_step1 : @acmMachineConsume ℝ Unit (roundedArith (nearest 53)) 0 (fun _ _ _ => 0) ⟨1, fun _ => 134217733, [⟨fun _ _ => 0, fun _ => 0, fun _ => 0⟩], [fun _ => 134217733]⟩ (fun _ => 134217733) =
    .ok ⟨2, fun _ => 134217733, [⟨fun _ _ => 36028799703318576, fun _ => 268435466, fun _ => 268435466⟩], [fun _ => 134217733]⟩ := by
  let _ := roundedArith (nearest 53)
  unfold acmMachineConsume
  rw [if_neg (by norm_num)]
  simp only [List.range_succ, List.range_zero, List.nil_append, List.mapM_cons, List.mapM_nil, acmMachineLag, readAt, List.getElem?_cons_zero,
    List.getElem?_cons_succ, bind, Except.bind, pure, Except.pure, r_add, r_sub, r_mul, r_div, r_nat, nearest_zero, nearest_one, nearest_two, nearest_three, nearest_four, Nat.reduceAdd,
    Nat.reduceEqDiff, if_true, if_false, ge_iff_le, Nat.reduceLeDiff, Nat.sub_zero, List.length_cons, List.length_nil, gt_iff_lt, Nat.reduceLT, List.dropLast,
    mc0, mc1, mc2, mc3, mc4, mc5, mc6, mc7, mc8, mc9, mc10, mc11, mc12, mc13, mc14, mc15, mc16, mc17, mc18, mc19, mc20, mc21, mc22, mc23, mc24, mc25, mc26, mc27, mc28, mc29, mc30, mc31, mc32, mc33]

theorem mc_step2 : @acmMachineConsume ℝ Unit (roundedArith (nearest 53)) 0 (fun _ _ _ => 0) ⟨2, fun _ => 134217733, [⟨fun _ _ => 36028799703318576, fun _ => 268435466, fun _ => 268435466⟩], [fun _ => 134217733]⟩ (fun _ => 134217733) =
    .ok ⟨3, fun _ => 134217733, [⟨fun _ _ => 27021599777488932, fun _ => 402653199/2, fun _ => 402653199/2⟩], [fun _ => 134217733]⟩ := by
  let _ := roundedArith (nearest 53)
  unfold acmMachineConsume
  rw [if_neg (by norm_num)]
  simp only [List.range_succ, List.range_zero, List.nil_append, List.mapM_cons, List.mapM_nil, acmMachineLag, readAt, List.getElem?_cons_zero,
    List.getElem?_cons_succ, bind, Except.bind, pure, Except.pure, r_add, r_sub, r_mul, r_div, r_nat, nearest_zero, nearest_one, nearest_two, nearest_three, nearest_four, Nat.reduceAdd,
    Nat.reduceEqDiff, if_true, if_false, ge_iff_le, Nat.reduceLeDiff, Nat.sub_zero, List.length_cons, List.length_nil, gt_iff_lt, Nat.reduceLT, List.dropLast,
    mc0, mc1, mc2, mc3, mc4, mc5, mc6, mc7, mc8, mc9, mc10, mc11, mc12, mc13, mc14, mc15, mc16, mc17, mc18, mc19, mc20, mc21, mc22, mc23, mc24, mc25, mc26, mc27, mc28, mc29, mc30, mc31, mc32, mc33]

theorem mc_step3 : @acmMachineConsume ℝ Unit (roundedArith (nearest 53)) 0 (fun _ _ _ => 0) ⟨3, fun _ => 134217733, [⟨fun _ _ => 27021599777488932, fun _ => 402653199/2, fun _ => 402653199/2⟩], [fun _ => 134217733]⟩ (fun _ => 134217733) =
    .ok ⟨4, fun _ => 134217733, [⟨fun _ _ => 24019199802212384, fun _ => 6004799726856875/33554432, fun _ => 6004799726856875/33554432⟩], [fun _ => 134217733]⟩ := by
  let _ := roundedArith (nearest 53)
  unfold acmMachineConsume
  rw [if_neg (by norm_num)]
  simp only [List.range_succ, List.range_zero, List.nil_append, List.mapM_cons, List.mapM_nil, acmMachineLag, readAt, List.getElem?_cons_zero,
    List.getElem?_cons_succ, bind, Except.bind, pure, Except.pure, r_add, r_sub, r_mul, r_div, r_nat, nearest_zero, nearest_one, nearest_two, nearest_three, nearest_four, Nat.reduceAdd,
    Nat.reduceEqDiff, if_true, if_false, ge_iff_le, Nat.reduceLeDiff, Nat.sub_zero, List.length_cons, List.length_nil, gt_iff_lt, Nat.reduceLT, List.dropLast,
    mc0, mc1, mc2, mc3, mc4, mc5, mc6, mc7, mc8, mc9, mc10, mc11, mc12, mc13, mc14, mc15, mc16, mc17, mc18, mc19, mc20, mc21, mc22, mc23, mc24, mc25, mc26, mc27, mc28, mc29, mc30, mc31, mc32, mc33]

theorem mc_get : @acmMachineGetLag ℝ Unit (roundedArith (nearest 53)) ⟨4, fun _ => 134217733, [⟨fun _ _ => 24019199802212384, fun _ => 6004799726856875/33554432, fun _ => 6004799726856875/33554432⟩], [fun _ => 134217733]⟩ 0 = .ok (fun _ _ => -8) := by
  let _ := roundedArith (nearest 53)
  simp only [acmMachineGetLag, readAt, List.getElem?_cons_zero, bind, Except.bind, pure, Except.pure, Nat.reduceAdd, Nat.reduceLT, if_true, gt_iff_lt, Nat.sub_zero,
    Nat.reduceSub, r_add, r_sub, r_mul, r_div, r_nat, nearest_one, nearest_two, nearest_three, mc0, mc1, mc2, mc3, mc4, mc5, mc6, mc7, mc8, mc9, mc10, mc11, mc12, mc13, mc14, mc15, mc16, mc17, mc18, mc19, mc20, mc21, mc22, mc23, mc24, mc25, mc26, mc27, mc28, mc29, mc30, mc31, mc32, mc33]

end SampleFlow.RoundingAuto
