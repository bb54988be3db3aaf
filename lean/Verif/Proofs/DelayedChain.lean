import Verif.Spec.DelayedChain
import Verif.Proofs.DelayedRejection
import Verif.Proofs.MarkovChain
import Mathlib.Tactic.Positivity
import Mathlib.Tactic.Ring
import Mathlib.Algebra.BigOperators.Field
import Mathlib.Algebra.Order.BigOperators.Ring.Finset

set_option linter.unusedSimpArgs false

namespace SampleFlow

open Spec MeasureTheory

variable {S : Type}

/-! ## without delays -/

theorem mh_dr_step {W E : Type} (max : ℝ) (env : World W S XR (Stop E)) (lt lc : ℝ) (ht : lt ≠ -max) :
    @mhAccept W S XR (Stop E) env (idealOps max) (.fin lt) (.fin lc) (.fin 1) =
      (letI := idealOps max
       (if FloatOps.lt FloatOps.one (FloatOps.exp (FloatOps.sub (XR.fin lt) (.fin lc))) then pure true
        else do
          let u ← draw env
          pure (FloatOps.le u (FloatOps.exp (FloatOps.sub (XR.fin lt) (.fin lc)))) : Prog W S XR (Stop E) Bool)) := by
  letI := idealOps max
  have hlog : XR.log (.fin 1) = .fin 0 := by simp [XR.log, show ¬ ((1:ℝ) < 0) by norm_num]
  have h1 : FloatOps.lt (XR.fin lc) (FloatOps.sub (XR.fin lt) (FloatOps.log (XR.fin 1))) = decide (lc < lt) := by
    show XR.ltb _ (XR.add _ (XR.neg (XR.log _))) = _
    rw [hlog]; simp [XR.neg, XR.add, XR.ltb]
  have h2 : FloatOps.lt (D := XR) FloatOps.one (FloatOps.exp (FloatOps.sub (XR.fin lt) (.fin lc))) =
      decide (lc < lt) := by
    show XR.ltb (.fin 1) (XR.exp (XR.add _ (XR.neg _))) = _
    simp only [XR.neg, XR.add, XR.exp, XR.ltb]
    congr 1
    rw [← Real.exp_zero, Real.exp_lt_exp, eq_iff_iff]
    constructor <;> intro h <;> linarith
  have h3 : FloatOps.div (FloatOps.exp (FloatOps.sub (XR.fin lt) (.fin lc))) (XR.fin 1) =
      FloatOps.exp (FloatOps.sub (XR.fin lt) (.fin lc)) := by
    show XR.div (XR.exp (XR.add _ (XR.neg _))) _ = XR.exp (XR.add _ (XR.neg _))
    simp [XR.neg, XR.add, XR.exp, XR.div]
  have h4 := hasZero_fin max lt ht
  funext w
  unfold mhAccept
  simp only [h1, h2, h3, h4]
  rcases Classical.em (lc < lt) with h | h <;>
    simp [h, bind, Prog.bind, Prog.pure_run]

/-- the loops agree -/
theorem dr_mh_loop {W E : Type} (max : ℝ) (checked : Bool) (env : World W S XR (Stop E))
    (hL : ∀ x w d w', env.logLikelihood x w = (.ok d, w') → ∃ l, d = .fin l ∧ l ≠ -max)
    (hR : ∀ x rej w y r w', env.propose x rej w = (.ok (y, r), w') → r = .fin 1) (n : Nat) :
    ∀ (cur : S) (l : ℝ) (w : W), l ≠ -max →
      @drLoop W S XR (idealOps max) E checked env 0 n cur (.fin l) w =
      @mhLoop W S XR (Stop E) env (idealOps max) n cur (.fin l) w := by
  letI := idealOps max
  induction n with
  | zero => intro cur l w _; rfl
  | succ n ih =>
    intro cur l w hl
    unfold drLoop mhLoop
    simp only [drStages]
    rw [Prog.bind_assoc']
    rcases h1 : env.propose cur [] w with ⟨(e | ⟨y, r⟩), w1⟩
    · have e1 : callPropose env cur [] w = ([], .error e, w1) := by simp [callPropose, h1]
      rw [Prog.bind_error e1]
      exact Prog.bind_error e1
    have hr := hR _ _ _ _ _ _ h1
    subst hr
    have e1 : callPropose env cur [] w = ([.proposed cur [] y (.fin 1)], .ok (y, .fin 1), w1) := by
      simp [callPropose, h1]
    have e1' : callPropose env cur (List.map Prod.fst ([] : List (S × XR))) w =
      ([.proposed cur [] y (.fin 1)], .ok (y, .fin 1), w1) := e1
    rw [Prog.bind_ok e1, Prog.bind_ok e1']
    simp only
    rw [Prog.bind_assoc']
    rcases h2 : env.logLikelihood y w1 with ⟨(e | d), w2⟩
    · have e2 : callLogLikelihood env y w1 = ([], .error e, w2) := by simp [callLogLikelihood, h2]
      rw [Prog.bind_error e2, Prog.bind_error e2]
    obtain ⟨lt, rfl, hlt⟩ := hL _ _ _ _ h2
    have e2 : callLogLikelihood env y w1 = ([.logLikelihood y (.fin lt)], .ok (.fin lt), w2) := by
      simp [callLogLikelihood, h2]
    rw [Prog.bind_ok e2, Prog.bind_ok e2]
    simp only [List.nil_append, List.length_singleton, List.map_cons, List.map_nil]
    have e3 := alphaFn_single checked 0 (XR.fin l) (XR.fin lt)
    rw [Nat.zero_add] at e3
    rw [e3]
    rw [mh_dr_step max env lt l hlt]
    simp only [liftFault]
    rw [Prog.bind_assoc']
    have e4 : (pure (FloatOps.exp (FloatOps.sub (XR.fin lt) (XR.fin l))) : Prog W S XR (Stop E) XR) w2 =
      ([], .ok (FloatOps.exp (FloatOps.sub (XR.fin lt) (XR.fin l))), w2) := rfl
    rw [Prog.bind_ok e4]
    simp only [List.nil_append]
    rw [Prog.bind_assoc']
    obtain ⟨draws, acc, w3, e5, -⟩ := drAccept_run env (FloatOps.exp (FloatOps.sub (XR.fin lt) (XR.fin l))) w2
    rw [Prog.bind_ok e5, Prog.bind_ok e5]
    cases acc with
    | true =>
      have e6 : (pure (some (y, XR.fin lt)) : Prog W S XR (Stop E) (Option (S × XR))) w3 =
        ([], .ok (some (y, XR.fin lt)), w3) := rfl
      simp only [if_true]
      rw [Prog.bind_ok e6]
      simp only
      rcases h7 : env.issue y (mhAux (.fin lt) false) w3 with ⟨(e | ⟨⟩), w4⟩
      · have e7 : callIssue env y (mhAux (XR.fin lt) false) w3 =
          ([.issued y (mhAux (.fin lt) false)], .error e, w4) := by simp [callIssue, h7]
        rw [Prog.bind_error e7, Prog.bind_error e7]; rfl
      · have e7 : callIssue env y (mhAux (XR.fin lt) false) w3 =
          ([.issued y (mhAux (.fin lt) false)], .ok (), w4) := by simp [callIssue, h7]
        rw [Prog.bind_ok e7, Prog.bind_ok e7]
        simp only [ih y lt w4 hlt]; rfl
    | false =>
      have e6 : (pure none : Prog W S XR (Stop E) (Option (S × XR))) w3 = ([], .ok none, w3) := rfl
      simp only [Bool.false_eq_true, if_false]
      rw [Prog.bind_ok e6]
      simp only
      rcases h7 : env.issue cur (mhAux (.fin l) true) w3 with ⟨(e | ⟨⟩), w4⟩
      · have e7 : callIssue env cur (mhAux (XR.fin l) true) w3 =
          ([.issued cur (mhAux (.fin l) true)], .error e, w4) := by simp [callIssue, h7]
        rw [Prog.bind_error e7, Prog.bind_error e7]; rfl
      · have e7 : callIssue env cur (mhAux (XR.fin l) true) w3 =
          ([.issued cur (mhAux (.fin l) true)], .ok (), w4) := by simp [callIssue, h7]
        rw [Prog.bind_ok e7, Prog.bind_ok e7]
        simp only [ih cur l w4 hl]; rfl

/-! ## one delay -/

/-- the decision on one proposal -/
noncomputable def accD (a : XR) (u : ℝ) : Bool := XR.ltb (.fin 1) a || XR.leb (.fin u) a

/-- ratio of the first stage -/
noncomputable def alpha1 (lx l1 : XR) : XR := XR.exp (l1.add lx.neg)

/-- ratio of the second stage -/
noncomputable def alpha2 (lx l1 l2 : XR) : XR :=
  (alpha1 lx l2).mul (XR.div ((XR.fin 1).add (alpha1 l2 l1).neg) ((XR.fin 1).add (alpha1 lx l1).neg))

theorem alphaFn_two (max : ℝ) (lx l1 l2 : XR) :
    @alphaFn XR (idealOps max) false 2 lx [l1, l2] = .ok (alpha2 lx l1 l2) := by
  letI := idealOps max
  unfold alphaFn
  simp only [List.getLast?_cons_cons, List.getLast?_singleton, List.length_cons, List.length_nil]
  have : (List.range (0 + 1 + 1 - 1)) = [0] := rfl
  rw [this]
  have a1 := alphaFn_single false 0 l2 l1
  have a2 := alphaFn_single false 0 lx l1
  simp only [Nat.zero_add] at a1 a2
  simp [a1, a2, bind, Except.bind, pure, Except.pure]
  rfl

theorem accept_run {max : ℝ} (L : S → XR) (y1 y2 : S) (a : XR) (u : ℝ) (us : List ℝ) :
    letI := idealOps max
    (if FloatOps.lt FloatOps.one a then pure true
      else do
        let u ← draw (twoStageWorld L y1 y2)
        pure (FloatOps.le u a) : Prog (List ℝ) S XR (Stop Empty) Bool) (u :: us) =
      (if XR.ltb (.fin 1) a then [] else [.drew (.fin u)], .ok (accD a u),
        if XR.ltb (.fin 1) a then u :: us else us) := by
  letI := idealOps max
  cases h : XR.ltb (.fin 1) a
  · have h' : FloatOps.lt FloatOps.one a = false := h
    simp [h, h', accD, bind, Prog.bind, draw, Prog.pure_run, twoStageWorld]
    rfl
  · have h' : FloatOps.lt FloatOps.one a = true := h
    simp [h, h', accD, Prog.pure_run]

theorem drStages_two (max : ℝ) (L : S → XR) (x y1 y2 : S) (u1 u2 : ℝ) :
    ∃ tr w', @drStages (List ℝ) S XR (idealOps max) Empty false (twoStageWorld L y1 y2) x (L x) 2 [] [u1, u2] =
      (tr, .ok (if accD (alpha1 (L x) (L y1)) u1 then some (y1, L y1)
        else if accD (alpha2 (L x) (L y1) (L y2)) u2 then some (y2, L y2) else none), w') := by
  letI := idealOps max
  have e2 : callPropose (twoStageWorld L y1 y2) x (List.map Prod.fst ([] : List (S × XR))) [u1, u2] =
      ([.proposed x [] y1 (.fin 1)], .ok (y1, .fin 1), [u1, u2]) := rfl
  have e3 : callLogLikelihood (twoStageWorld L y1 y2) y1 [u1, u2] =
      ([.logLikelihood y1 (L y1)], .ok (L y1), [u1, u2]) := rfl
  have a1 := alphaFn_single false 0 (L x) (L y1)
  rw [Nat.zero_add] at a1
  have e4 : (liftFault (alphaFn false ([] ++ [(y1, L y1)]).length (L x) (([] ++ [(y1, L y1)]).map Prod.snd)) :
      Prog (List ℝ) S XR (Stop Empty) XR) [u1, u2] = ([], .ok (alpha1 (L x) (L y1)), [u1, u2]) := by
    simp only [List.nil_append, List.length_singleton, List.map_cons, List.map_nil]
    rw [a1]; rfl
  have e5 := accept_run (max := max) L y1 y2 (alpha1 (L x) (L y1)) u1 [u2]
  rw [drStages, Prog.bind_ok e2]
  simp only
  rw [Prog.bind_ok e3]
  simp only
  rw [Prog.bind_ok e4]
  simp only
  rw [Prog.bind_ok e5]
  cases hacc : accD (alpha1 (L x) (L y1)) u1
  · have hlt : XR.ltb (.fin 1) (alpha1 (L x) (L y1)) = false := by
      unfold accD at hacc; simp at hacc; exact hacc.1
    rw [hlt]
    simp only [Bool.false_eq_true, if_false]
    have e6 : callPropose (twoStageWorld L y1 y2) x (List.map Prod.fst ([] ++ [(y1, L y1)])) [u2] =
      ([.proposed x [y1] y2 (.fin 1)], .ok (y2, .fin 1), [u2]) := rfl
    have e7 : callLogLikelihood (twoStageWorld L y1 y2) y2 [u2] =
      ([.logLikelihood y2 (L y2)], .ok (L y2), [u2]) := rfl
    have e8 : (liftFault (alphaFn false ([] ++ [(y1, L y1)] ++ [(y2, L y2)]).length (L x)
        (([] ++ [(y1, L y1)] ++ [(y2, L y2)]).map Prod.snd)) : Prog (List ℝ) S XR (Stop Empty) XR) [u2] =
      ([], .ok (alpha2 (L x) (L y1) (L y2)), [u2]) := by
      have := alphaFn_two max (L x) (L y1) (L y2)
      simp only [List.nil_append, List.singleton_append, List.length_cons, List.length_nil, Nat.zero_add,
        Nat.reduceAdd, List.map_cons, List.map_nil]
      rw [this]; rfl
    have e9 := accept_run (max := max) L y1 y2 (alpha2 (L x) (L y1) (L y2)) u2 []
    rw [drStages, Prog.bind_ok e6]
    simp only
    rw [Prog.bind_ok e7]
    simp only
    rw [Prog.bind_ok e8]
    simp only
    rw [Prog.bind_ok e9]
    cases accD (alpha2 (L x) (L y1) (L y2)) u2
    · exact ⟨_, _, rfl⟩
    · exact ⟨_, _, rfl⟩
  · exact ⟨_, _, rfl⟩

theorem drSample_two (max : ℝ) (L : S → XR) (x y1 y2 : S) (u1 u2 : ℝ) :
    (@drSample (List ℝ) S XR (idealOps max) Empty false (twoStageWorld L y1 y2) x 1 1 [u1, u2]).2.1 =
      .ok (if accD (alpha1 (L x) (L y1)) u1 then y1
        else if accD (alpha2 (L x) (L y1) (L y2)) u2 then y2 else x) := by
  letI := idealOps max
  unfold drSample Prog.withScopeExit
  have e1 : callLogLikelihood (twoStageWorld L y1 y2) x [u1, u2] =
      ([.logLikelihood x (L x)], .ok (L x), [u1, u2]) := rfl
  rw [Prog.bind_ok e1]
  simp only
  obtain ⟨tr, w', e2⟩ := drStages_two max L x y1 y2 u1 u2
  have e3 : ∃ tr' w'', drLoop false (twoStageWorld L y1 y2) 1 1 x (L x) [u1, u2] =
      (tr', .ok (if accD (alpha1 (L x) (L y1)) u1 then y1
        else if accD (alpha2 (L x) (L y1) (L y2)) u2 then y2 else x), w'') := by
    unfold drLoop
    rw [Prog.bind_ok e2]
    cases accD (alpha1 (L x) (L y1)) u1
    · cases accD (alpha2 (L x) (L y1) (L y2)) u2
      · exact ⟨_, _, rfl⟩
      · exact ⟨_, _, rfl⟩
    · exact ⟨_, _, rfl⟩
  obtain ⟨tr', w'', e3⟩ := e3
  rw [Prog.bind_ok e3]
  rfl

/-! ## probabilities -/

theorem drStepProb_eq (max : ℝ) (L : S → XR) (x y1 y2 y : S) : drStepProb max L x y1 y2 y =
    (volume {u : ℝ × ℝ | u ∈ unitSquare ∧ (if accD (alpha1 (L x) (L y1)) u.1 then y1
        else if accD (alpha2 (L x) (L y1) (L y2)) u.2 then y2 else x) = y}).toReal := by
  unfold drStepProb
  congr 2
  ext u
  simp only [Set.mem_ofPred_eq, drSample_two, Except.ok.injEq]

theorem measurable_accD (a : XR) : MeasurableSet {t : ℝ | accD a t = true} := by
  unfold accD
  cases XR.ltb (.fin 1) a
  · simpa using measurable_leb a
  · simp

/-- probability that a proposal with ratio `a` is accepted -/
noncomputable def pr (a : XR) : ℝ := (volume ({t : ℝ | accD a t = true} ∩ Set.Ico 0 1)).toReal

theorem pr_fin (a : ℝ) : pr (.fin a) = max 0 (min 1 a) := by
  have : {t : ℝ | accD (.fin a) t = true} ∩ Set.Ico 0 1 = Set.Iic a ∩ Set.Ico 0 1 := by
    ext t
    simp only [accD, XR.ltb, XR.leb, XR.eqb, Set.mem_inter_iff, Set.mem_ofPred_eq, Bool.or_eq_true, decide_eq_true_eq,
      Set.mem_Ico, Set.mem_Iic, and_congr_left_iff]
    rintro ⟨-, h⟩
    rw [← le_iff_lt_or_eq]
    constructor
    · rintro (h' | h') <;> linarith
    · exact Or.inr
  unfold pr
  rw [this]
  rcases le_or_gt 1 a with h | h
  · have : Set.Iic a ∩ Set.Ico (0:ℝ) 1 = Set.Ico 0 1 := by
      ext t; simp only [Set.mem_inter_iff, Set.mem_Ico, Set.mem_Iic]
      exact ⟨fun h => h.2, fun h' => ⟨by linarith [h'.2], h'⟩⟩
    rw [this]; simp [h]
  · have : Set.Iic a ∩ Set.Ico (0:ℝ) 1 = Set.Icc 0 a := by
      ext t; simp only [Set.mem_inter_iff, Set.mem_Ico, Set.mem_Iic, Set.mem_Icc]
      exact ⟨fun h => ⟨h.2.1, h.1⟩, fun h' => ⟨h'.2, h'.1, by linarith [h'.2]⟩⟩
    rw [this, Real.volume_Icc, sub_zero, min_eq_right h.le]
    rcases le_or_gt 0 a with h0 | h0
    · rw [ENNReal.toReal_ofReal h0, max_eq_right h0]
    · rw [ENNReal.ofReal_of_nonpos h0.le, max_eq_left h0.le]; rfl

theorem pr_nan : pr .nan = 0 := by simp [pr, accD, XR.ltb, XR.leb, XR.eqb]

theorem pr_negInf : pr .negInf = 0 := by simp [pr, accD, XR.ltb, XR.leb, XR.eqb]

theorem pr_compl (a : XR) : (volume ({t : ℝ | ¬ accD a t = true} ∩ Set.Ico 0 1)).toReal = 1 - pr a := by
  have h := measure_inter_add_sdiff (μ := volume) (Set.Ico (0:ℝ) 1) (measurable_accD a)
  have e1 : Set.Ico (0:ℝ) 1 ∩ {t | accD a t = true} = {t | accD a t = true} ∩ Set.Ico 0 1 := Set.inter_comm _ _
  have e2 : Set.Ico (0:ℝ) 1 \ {t | accD a t = true} = {t | ¬ accD a t = true} ∩ Set.Ico 0 1 := by
    ext t; simp only [Set.mem_sdiff, Set.mem_inter_iff, Set.mem_ofPred_eq]; tauto
  rw [e1, e2] at h
  have f1 : volume ({t : ℝ | accD a t = true} ∩ Set.Ico 0 1) ≠ ⊤ :=
    ne_top_of_le_ne_top (by simp) (measure_mono Set.inter_subset_right)
  have f2 : volume ({t : ℝ | ¬ accD a t = true} ∩ Set.Ico 0 1) ≠ ⊤ :=
    ne_top_of_le_ne_top (by simp) (measure_mono Set.inter_subset_right)
  have := congrArg ENNReal.toReal h
  rw [ENNReal.toReal_add f1 f2, Real.volume_Ico] at this
  simp only [sub_zero, ENNReal.ofReal_one, ENNReal.toReal_one] at this
  unfold pr
  linarith

theorem pr_prod (A B : Set ℝ) :
    (volume {u : ℝ × ℝ | u ∈ unitSquare ∧ u.1 ∈ A ∧ u.2 ∈ B}).toReal =
      (volume (A ∩ Set.Ico 0 1)).toReal * (volume (B ∩ Set.Ico 0 1)).toReal := by
  have : {u : ℝ × ℝ | u ∈ unitSquare ∧ u.1 ∈ A ∧ u.2 ∈ B} = (A ∩ Set.Ico 0 1) ×ˢ (B ∩ Set.Ico 0 1) := by
    ext u; simp only [unitSquare, Set.mem_ofPred_eq, Set.mem_prod, Set.mem_inter_iff]; tauto
  rw [this, Measure.volume_eq_prod, Measure.prod_prod, ENNReal.toReal_mul]

open Classical in
/-- the step goes to the first proposal, the second, or stays -/
theorem drStepProb_split (max : ℝ) (L : S → XR) (x y1 y2 y : S) : drStepProb max L x y1 y2 y =
    (if y1 = y then pr (alpha1 (L x) (L y1)) else 0) +
    (1 - pr (alpha1 (L x) (L y1))) * ((if y2 = y then pr (alpha2 (L x) (L y1) (L y2)) else 0) +
      (if x = y then 1 - pr (alpha2 (L x) (L y1) (L y2)) else 0)) := by
  rw [drStepProb_eq]
  set a1 := alpha1 (L x) (L y1)
  set a2 := alpha2 (L x) (L y1) (L y2)
  have m1 : MeasurableSet {u : ℝ × ℝ | u ∈ unitSquare ∧ u.1 ∈ {t | ¬ accD a1 t = true} ∧ u.2 ∈ {t | accD a2 t = true}} :=
    measurableSet_unitSquare.inter (((measurable_accD a1).compl.preimage measurable_fst).inter
      ((measurable_accD a2).preimage measurable_snd))
  have m2 : MeasurableSet {u : ℝ × ℝ | u ∈ unitSquare ∧ u.1 ∈ {t | ¬ accD a1 t = true} ∧ u.2 ∈ {t | ¬ accD a2 t = true}} :=
    measurableSet_unitSquare.inter (((measurable_accD a1).compl.preimage measurable_fst).inter
      ((measurable_accD a2).compl.preimage measurable_snd))
  have fin : ∀ s : Set (ℝ × ℝ), s ⊆ unitSquare → volume s ≠ ⊤ := by
    intro s hs
    exact ne_top_of_le_ne_top (by rw [volume_unitSquare]; simp) (measure_mono hs)
  have split : {u : ℝ × ℝ | u ∈ unitSquare ∧ (if accD a1 u.1 then y1 else if accD a2 u.2 then y2 else x) = y} =
      ((if y1 = y then {u : ℝ × ℝ | u ∈ unitSquare ∧ u.1 ∈ {t | accD a1 t = true} ∧ u.2 ∈ Set.univ} else ∅) ∪
      (if y2 = y then {u : ℝ × ℝ | u ∈ unitSquare ∧ u.1 ∈ {t | ¬ accD a1 t = true} ∧ u.2 ∈ {t | accD a2 t = true}}
        else ∅)) ∪
      (if x = y then {u : ℝ × ℝ | u ∈ unitSquare ∧ u.1 ∈ {t | ¬ accD a1 t = true} ∧ u.2 ∈ {t | ¬ accD a2 t = true}}
        else ∅) := by
    ext u
    by_cases h1 : accD a1 u.1 = true <;> by_cases h2 : accD a2 u.2 = true <;>
      by_cases c1 : y1 = y <;> by_cases c2 : y2 = y <;> by_cases c3 : x = y <;>
      simp [h1, h2, c1, c2, c3]
  have v1 : (volume (if y1 = y then {u : ℝ × ℝ | u ∈ unitSquare ∧ u.1 ∈ {t | accD a1 t = true} ∧ u.2 ∈ Set.univ}
      else ∅)).toReal = if y1 = y then pr a1 else 0 := by
    split
    · rw [pr_prod]; simp [pr]
    · simp
  have v2 : (volume (if y2 = y then {u : ℝ × ℝ | u ∈ unitSquare ∧ u.1 ∈ {t | ¬ accD a1 t = true} ∧
      u.2 ∈ {t | accD a2 t = true}} else ∅)).toReal = if y2 = y then (1 - pr a1) * pr a2 else 0 := by
    split
    · rw [pr_prod, pr_compl]; rfl
    · simp
  have v3 : (volume (if x = y then {u : ℝ × ℝ | u ∈ unitSquare ∧ u.1 ∈ {t | ¬ accD a1 t = true} ∧
      u.2 ∈ {t | ¬ accD a2 t = true}} else ∅)).toReal = if x = y then (1 - pr a1) * (1 - pr a2) else 0 := by
    split
    · rw [pr_prod, pr_compl, pr_compl]
    · simp
  rw [split, measure_union, ENNReal.toReal_add, measure_union, ENNReal.toReal_add, v1, v2, v3]
  · split_ifs <;> ring
  · apply fin; split
    · intro u hu; exact hu.1
    · simp
  · apply fin; split
    · intro u hu; exact hu.1
    · simp
  · rw [Set.disjoint_left]; intro u h1 h2
    split at h1 <;> split at h2 <;> simp_all
  · split
    · exact m1
    · exact MeasurableSet.empty
  · apply fin
    apply Set.union_subset
    · split
      · intro u hu; exact hu.1
      · simp
    · split
      · intro u hu; exact hu.1
      · simp
  · apply fin; split
    · intro u hu; exact hu.1
    · simp
  · rw [Set.disjoint_left]; intro u h1 h2
    rcases h1 with h1 | h1 <;> split at h1 <;> split at h2 <;> simp_all
  · split
    · exact m2
    · exact MeasurableSet.empty

/-- the flow through the second stage -/
theorem stage2_flow (px p1 p2 : ℝ) (hx : 0 ≤ px) (h1 : 0 ≤ p1) (h2 : 0 ≤ p2) :
    px * ((1 - pr (alpha1 (logOf px) (logOf p1))) * pr (alpha2 (logOf px) (logOf p1) (logOf p2))) =
      max 0 (min px p2 - p1) := by
  rcases hx.eq_or_lt with hx0 | hx0
  · subst hx0
    have : min 0 p2 - p1 ≤ 0 := by linarith [min_le_left 0 p2]
    rw [zero_mul, max_eq_left this]
  have lx : logOf px = .fin (Real.log px) := by simp [logOf, hx0.ne']
  have a1 : alpha1 (logOf px) (logOf p1) = .fin (p1 / px) := by
    rcases h1.eq_or_lt with h10 | h10
    · subst h10
      simp [alpha1, logOf, lx, XR.neg, XR.add, XR.exp, hx0.ne']
    · have : logOf p1 = .fin (Real.log p1) := by simp [logOf, h10.ne']
      rw [alpha1, lx, this]
      simp [XR.neg, XR.add, XR.exp, ← sub_eq_add_neg, Real.exp_sub, Real.exp_log hx0, Real.exp_log h10]
  have a1' : pr (.fin (p1 / px)) = min 1 (p1 / px) := by
    rw [pr_fin, max_eq_right]
    exact le_min zero_le_one (div_nonneg h1 hx)
  rcases le_or_gt px p1 with hle | hlt
  · have hd : 1 ≤ p1 / px := by rw [le_div_iff₀ hx0]; linarith
    have : min px p2 - p1 ≤ 0 := by linarith [min_le_left px p2]
    rw [a1, a1', min_eq_left hd, sub_self, zero_mul, mul_zero, max_eq_left this]
  have hd : p1 / px < 1 := by rw [div_lt_one hx0]; exact hlt
  have hne : 1 + -(p1 / px) ≠ 0 := by linarith
  rcases h2.eq_or_lt with h20 | h20
  · -- the second proposal has zero probability
    subst h20
    have l2 : logOf 0 = .negInf := by simp [logOf]
    have : min px 0 - p1 ≤ 0 := by linarith [min_le_right px 0]
    rw [max_eq_left this]
    have : pr (alpha2 (logOf px) (logOf p1) (logOf 0)) = 0 := by
      rw [alpha2, a1]
      have b1 : alpha1 (logOf px) (logOf 0) = .fin 0 := by
        simp [alpha1, l2, lx, XR.neg, XR.add, XR.exp]
      rw [b1]
      rcases h1.eq_or_lt with h10 | h10
      · subst h10
        simp [alpha1, l2, XR.neg, XR.add, XR.exp, XR.div, XR.mul, pr_nan]
      · have : logOf p1 = .fin (Real.log p1) := by simp [logOf, h10.ne']
        have b2 : alpha1 (logOf 0) (logOf p1) = .posInf := by
          simp [alpha1, l2, this, XR.neg, XR.add, XR.exp]
        rw [b2]
        have hge : 0 ≤ 1 + -(p1 / px) := by linarith
        have hpp : p1 / px ≤ 1 := by linarith
        simp [XR.neg, XR.add, XR.div, hge, hpp, XR.mul, XR.infTimes, pr_nan]
    rw [this]; simp
  have l2 : logOf p2 = .fin (Real.log p2) := by simp [logOf, h20.ne']
  have b1 : alpha1 (logOf px) (logOf p2) = .fin (p2 / px) := by
    rw [alpha1, lx, l2]
    simp [XR.neg, XR.add, XR.exp, ← sub_eq_add_neg, Real.exp_sub, Real.exp_log hx0, Real.exp_log h20]
  have b2 : alpha1 (logOf p2) (logOf p1) = .fin (p1 / p2) := by
    rcases h1.eq_or_lt with h10 | h10
    · subst h10
      simp [alpha1, logOf, l2, XR.neg, XR.add, XR.exp, h20.ne']
    · have : logOf p1 = .fin (Real.log p1) := by simp [logOf, h10.ne']
      rw [alpha1, l2, this]
      simp [XR.neg, XR.add, XR.exp, ← sub_eq_add_neg, Real.exp_sub, Real.exp_log h20, Real.exp_log h10]
  have a2 : alpha2 (logOf px) (logOf p1) (logOf p2) = .fin ((p2 - p1) / (px - p1)) := by
    rw [alpha2, a1, b1, b2]
    simp only [XR.neg, XR.add, XR.div, hne, if_false, XR.mul, XR.fin.injEq]
    have : px - p1 ≠ 0 := by linarith
    have h20' := h20.ne'
    have hx0' := hx0.ne'
    have : 1 + -(p1 / px) = (px - p1) / px := by field_simp; ring
    rw [this]
    field_simp
    ring
  rw [a1, a2, a1', min_eq_right hd.le, pr_fin]
  have hpos : 0 < px - p1 := by linarith
  have e1 : px * ((1 - p1 / px) * max 0 (min 1 ((p2 - p1) / (px - p1)))) =
      (px - p1) * max 0 (min 1 ((p2 - p1) / (px - p1))) := by
    have := hx0.ne'
    field_simp
  rw [e1, mul_max_of_nonneg _ _ hpos.le, mul_min_of_nonneg _ _ hpos.le, mul_zero, mul_one,
    mul_div_cancel₀ _ hpos.ne', min_sub_sub_right]

/-- the flow through the first stage -/
theorem stage1_flow (px p1 : ℝ) (hx : 0 ≤ px) (h1 : 0 ≤ p1) :
    px * pr (alpha1 (logOf px) (logOf p1)) = min px p1 := by
  rcases hx.eq_or_lt with hx0 | hx0
  · subst hx0
    rw [zero_mul, min_eq_left h1]
  have lx : logOf px = .fin (Real.log px) := by simp [logOf, hx0.ne']
  have a1 : alpha1 (logOf px) (logOf p1) = .fin (p1 / px) := by
    rcases h1.eq_or_lt with h10 | h10
    · subst h10
      simp [alpha1, logOf, lx, XR.neg, XR.add, XR.exp, hx0.ne']
    · have : logOf p1 = .fin (Real.log p1) := by simp [logOf, h10.ne']
      rw [alpha1, lx, this]
      simp [XR.neg, XR.add, XR.exp, ← sub_eq_add_neg, Real.exp_sub, Real.exp_log hx0, Real.exp_log h10]
  rw [a1, pr_fin, max_eq_right (le_min zero_le_one (div_nonneg h1 hx)), mul_min_of_nonneg _ _ hx, mul_one,
    mul_div_cancel₀ _ hx0.ne']

open Classical in
/-- the flow from `x` to `y ≠ x` through the proposals `y1`, `y2` -/
theorem path_flow (max' : ℝ) (π : S → ℝ) (hπ : ∀ x, 0 ≤ π x) (x y1 y2 y : S) (hxy : x ≠ y) :
    π x * drStepProb max' (fun s => logOf (π s)) x y1 y2 y =
      (if y1 = y then min (π x) (π y) else 0) + (if y2 = y then max 0 (min (π x) (π y) - π y1) else 0) := by
  rw [drStepProb_split]
  simp only [hxy, if_false, add_zero]
  rw [mul_add]
  congr 1
  · split
    · rename_i h; subst h; exact stage1_flow _ _ (hπ _) (hπ _)
    · simp
  · split
    · rename_i h; subst h; exact stage2_flow _ _ _ (hπ _) (hπ _) (hπ _)
    · simp

open Classical in
/-- the flow from `x` to `y ≠ x` -/
theorem dr_flow [Fintype S] (max' : ℝ) (π : S → ℝ) (hπ : ∀ x, 0 ≤ π x) (q1 : S → S → ℝ) (q2 : S → S → S → ℝ)
    (hq2 : ∀ x y1, ∑ y2, q2 x y1 y2 = 1) (x y : S) (hxy : x ≠ y) :
    π x * drTransition max' π q1 q2 x y =
      q1 x y * min (π x) (π y) + ∑ y1, q1 x y1 * q2 x y1 y * max 0 (min (π x) (π y) - π y1) := by
  unfold drTransition
  rw [Finset.mul_sum]
  have : ∀ y1, π x * ∑ y2, q1 x y1 * q2 x y1 y2 * drStepProb max' (fun s => logOf (π s)) x y1 y2 y =
      (if y1 = y then q1 x y1 * min (π x) (π y) else 0) + q1 x y1 * q2 x y1 y * max 0 (min (π x) (π y) - π y1) := by
    intro y1
    rw [Finset.mul_sum]
    have : ∀ y2, π x * (q1 x y1 * q2 x y1 y2 * drStepProb max' (fun s => logOf (π s)) x y1 y2 y) =
        q2 x y1 y2 * (if y1 = y then q1 x y1 * min (π x) (π y) else 0) +
        (if y2 = y then q1 x y1 * q2 x y1 y2 * max 0 (min (π x) (π y) - π y1) else 0) := by
      intro y2
      have := path_flow max' π hπ x y1 y2 y hxy
      calc _ = q1 x y1 * q2 x y1 y2 * (π x * drStepProb max' (fun s => logOf (π s)) x y1 y2 y) := by ring
        _ = _ := by rw [this]; split_ifs <;> ring
    simp only [this]
    rw [Finset.sum_add_distrib, ← Finset.sum_mul, hq2, one_mul, Finset.sum_ite_eq']
    simp
  simp only [this]
  rw [Finset.sum_add_distrib, Finset.sum_ite_eq']
  simp

end SampleFlow
