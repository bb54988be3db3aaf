import Verif.Spec.DelayedNumbers
import Verif.Props.DelayedChain
import Verif.Proofs.StrongFinite

set_option linter.unusedSimpArgs false

/-! Runs of the delayed rejection sampler that follow a script, and the expected values of what is observed. -/

namespace SampleFlow.Delayed

open SampleFlow SampleFlow.Spec MeasureTheory Ergodic StrongLaw

variable {S C : Type}

theorem pr_le_one (a : XR) : pr a ≤ 1 := by
  have := pr_compl a
  have h : 0 ≤ (volume ({t : ℝ | ¬ accD a t = true} ∩ Set.Ico 0 1)).toReal := ENNReal.toReal_nonneg
  linarith

/-- one step -/
noncomputable def stepTo (π : S → ℝ) (x : S) (d : Spec.Delayed.Chance S) : S :=
  if accD (alpha1 (logOf (π x)) (logOf (π d.1.1))) d.2.1 then d.1.1
  else if accD (alpha2 (logOf (π x)) (logOf (π d.1.1)) (logOf (π d.1.2))) d.2.2 then d.1.2 else x

/-- what the two stages return -/
noncomputable def stagesTo (π : S → ℝ) (x : S) (d : Spec.Delayed.Chance S) : Option (S × XR) :=
  if accD (alpha1 (logOf (π x)) (logOf (π d.1.1))) d.2.1 then some (d.1.1, logOf (π d.1.1))
  else if accD (alpha2 (logOf (π x)) (logOf (π d.1.1)) (logOf (π d.1.2))) d.2.2 then some (d.1.2, logOf (π d.1.2)) else none

/-- the samples of a run -/
noncomputable def pathFrom (π : S → ℝ) : S → List (Spec.Delayed.Chance S) → List S
  | _, [] => []
  | x, d :: ds => stepTo π x d :: pathFrom π (stepTo π x d) ds

section run
variable (max : ℝ) (π : S → ℝ) (step : C → S × Aux XR → C)

theorem accept_script (a : XR) (o : Option S) (u : ℝ) (us : List ℝ) (rest : List (Spec.Delayed.Chance S)) (c : C) :
    letI := idealOps max
    (if FloatOps.lt FloatOps.one a then pure true
      else do
        let u ← draw (attach (Spec.Delayed.world π) step)
        pure (FloatOps.le u a) : Prog _ S XR (Stop Empty) Bool) ((o, u :: us, rest), c) =
      (if XR.ltb (.fin 1) a then [] else [.drew (.fin u)], .ok (accD a u),
        ((o, if XR.ltb (.fin 1) a then u :: us else us, rest), c)) := by
  let _ := idealOps max
  cases h : XR.ltb (.fin 1) a
  · have h' : FloatOps.lt FloatOps.one a = false := h
    simp [h, h', accD, bind, Prog.bind, draw, Prog.pure_run, Spec.Delayed.world, attach]
    rfl
  · have h' : FloatOps.lt FloatOps.one a = true := h
    simp [h, h', accD, Prog.pure_run]

theorem drStages_script (o : Option S) (us : List ℝ) (x : S) (d : Spec.Delayed.Chance S) (ds : List (Spec.Delayed.Chance S)) (c : C) :
    ∃ tr o' us', @drStages _ S XR (idealOps max) Empty false (attach (Spec.Delayed.world π) step) x (logOf (π x)) 2 [] ((o, us, d :: ds), c) =
      (tr, .ok (stagesTo π x d), ((o', us', ds), c)) ∧ issuedOf tr = [] := by
  letI := idealOps max
  set L : S → XR := fun s => logOf (π s) with hL
  have e2 : callPropose (attach (Spec.Delayed.world π) step) x (List.map Prod.fst ([] : List (S × XR))) ((o, us, d :: ds), c) =
      ([.proposed x [] d.1.1 (.fin 1)], .ok (d.1.1, .fin 1), ((some d.1.2, [d.2.1, d.2.2], ds), c)) := rfl
  have e3 : callLogLikelihood (attach (Spec.Delayed.world π) step) d.1.1 ((some d.1.2, [d.2.1, d.2.2], ds), c) =
      ([.logLikelihood d.1.1 (L d.1.1)], .ok (L d.1.1), ((some d.1.2, [d.2.1, d.2.2], ds), c)) := rfl
  have a1 := alphaFn_single false 0 (L x) (L d.1.1)
  rw [Nat.zero_add] at a1
  have e4 : (liftFault (alphaFn false ([] ++ [(d.1.1, L d.1.1)]).length (L x) (([] ++ [(d.1.1, L d.1.1)]).map Prod.snd)) :
      Prog _ S XR (Stop Empty) XR) ((some d.1.2, [d.2.1, d.2.2], ds), c) =
        ([], .ok (alpha1 (L x) (L d.1.1)), ((some d.1.2, [d.2.1, d.2.2], ds), c)) := by
    simp only [List.nil_append, List.length_singleton, List.map_cons, List.map_nil]
    rw [a1]; rfl
  have e5 := accept_script max π step (alpha1 (L x) (L d.1.1)) (some d.1.2) d.2.1 [d.2.2] ds c
  rw [drStages, Prog.bind_ok e2]
  simp only
  rw [Prog.bind_ok e3]
  simp only
  rw [Prog.bind_ok e4]
  simp only
  rw [Prog.bind_ok e5]
  unfold stagesTo
  cases hacc : accD (alpha1 (L x) (L d.1.1)) d.2.1
  · have hlt : XR.ltb (.fin 1) (alpha1 (L x) (L d.1.1)) = false := by
      unfold accD at hacc; simp at hacc; exact hacc.1
    rw [hlt]
    simp only [Bool.false_eq_true, if_false]
    have e6 : callPropose (attach (Spec.Delayed.world π) step) x (List.map Prod.fst ([] ++ [(d.1.1, L d.1.1)])) ((some d.1.2, [d.2.2], ds), c) =
      ([.proposed x [d.1.1] d.1.2 (.fin 1)], .ok (d.1.2, .fin 1), ((some d.1.2, [d.2.2], ds), c)) := rfl
    have e7 : callLogLikelihood (attach (Spec.Delayed.world π) step) d.1.2 ((some d.1.2, [d.2.2], ds), c) =
      ([.logLikelihood d.1.2 (L d.1.2)], .ok (L d.1.2), ((some d.1.2, [d.2.2], ds), c)) := rfl
    have e8 : (liftFault (alphaFn false ([] ++ [(d.1.1, L d.1.1)] ++ [(d.1.2, L d.1.2)]).length (L x)
        (([] ++ [(d.1.1, L d.1.1)] ++ [(d.1.2, L d.1.2)]).map Prod.snd)) : Prog _ S XR (Stop Empty) XR) ((some d.1.2, [d.2.2], ds), c) =
      ([], .ok (alpha2 (L x) (L d.1.1) (L d.1.2)), ((some d.1.2, [d.2.2], ds), c)) := by
      have := alphaFn_two max (L x) (L d.1.1) (L d.1.2)
      simp only [List.nil_append, List.singleton_append, List.length_cons, List.length_nil, Nat.zero_add,
        Nat.reduceAdd, List.map_cons, List.map_nil]
      rw [this]; rfl
    have e9 := accept_script max π step (alpha2 (L x) (L d.1.1) (L d.1.2)) (some d.1.2) d.2.2 [] ds c
    rw [drStages, Prog.bind_ok e6]
    simp only
    rw [Prog.bind_ok e7]
    simp only
    rw [Prog.bind_ok e8]
    simp only
    rw [Prog.bind_ok e9]
    cases accD (alpha2 (L x) (L d.1.1) (L d.1.2)) d.2.2
    · refine ⟨_, _, _, rfl, ?_⟩
      simp only [issuedOf_append]
      cases XR.ltb (.fin 1) (alpha2 (L x) (L d.1.1) (L d.1.2)) <;> rfl
    · refine ⟨_, _, _, rfl, ?_⟩
      simp only [issuedOf_append]
      cases XR.ltb (.fin 1) (alpha2 (L x) (L d.1.1) (L d.1.2)) <;> rfl
  · refine ⟨_, _, _, rfl, ?_⟩
    simp only [issuedOf_append]
    cases XR.ltb (.fin 1) (alpha1 (L x) (L d.1.1)) <;> rfl

theorem drLoop_script (script : List (Spec.Delayed.Chance S)) : ∀ (o : Option S) (us : List ℝ) (x : S) (c : C),
    ∃ tr o' us' c', @drLoop _ S XR (idealOps max) Empty false (attach (Spec.Delayed.world π) step) 1 script.length x (logOf (π x)) ((o, us, script), c) =
      (tr, .ok (lastOf x (pathFrom π x script)), ((o', us', []), c')) ∧
      (issuedOf tr).map Prod.fst = pathFrom π x script := by
  letI := idealOps max
  induction script with
  | nil => intro o us x c; exact ⟨[], o, us, c, rfl, rfl⟩
  | cons d ds ih =>
    intro o us x c
    simp only [List.length_cons, drLoop]
    obtain ⟨tr, o1, us1, e1, e1'⟩ := drStages_script max π step o us x d ds c
    have hlast : ∀ y, lastOf x (y :: pathFrom π y ds) = lastOf y (pathFrom π y ds) := by
      intro y; unfold lastOf; rw [List.getLastD_cons]
    have hpath : ∀ y, stepTo π x d = y → pathFrom π x (d :: ds) = y :: pathFrom π y ds := by
      intro y hy; simp only [pathFrom, hy]
    have hcases : (∃ y, stagesTo π x d = some (y, logOf (π y)) ∧ stepTo π x d = y) ∨ (stagesTo π x d = none ∧ stepTo π x d = x) := by
      cases h1 : accD (alpha1 (logOf (π x)) (logOf (π d.1.1))) d.2.1
      · cases h2 : accD (alpha2 (logOf (π x)) (logOf (π d.1.1)) (logOf (π d.1.2))) d.2.2
        · exact .inr ⟨by simp [stagesTo, h1, h2], by simp [stepTo, h1, h2]⟩
        · exact .inl ⟨d.1.2, by simp [stagesTo, h1, h2], by simp [stepTo, h1, h2]⟩
      · exact .inl ⟨d.1.1, by simp [stagesTo, h1], by simp [stepTo, h1]⟩
    rcases hcases with ⟨y, hst, hs⟩ | ⟨hst, hs⟩
    · rw [hst] at e1
      rw [Prog.bind_ok e1]
      simp only
      have e4 : callIssue (attach (Spec.Delayed.world π) step) y (mhAux (logOf (π y)) false) ((o1, us1, ds), c) =
        ([.issued y (mhAux (logOf (π y)) false)], .ok (), ((o1, us1, ds), step c (y, mhAux (logOf (π y)) false))) := rfl
      obtain ⟨tr2, o2, us2, c2, e5, e6⟩ := ih o1 us1 y (step c (y, mhAux (logOf (π y)) false))
      rw [Prog.bind_ok e4]
      simp only
      rw [e5, hpath y hs]
      refine ⟨_, o2, us2, c2, by rw [hlast], ?_⟩
      simp only [issuedOf_append, e1', List.map_append, e6]
      rfl
    · rw [hst] at e1
      rw [Prog.bind_ok e1]
      simp only
      have e4 : callIssue (attach (Spec.Delayed.world π) step) x (mhAux (logOf (π x)) true) ((o1, us1, ds), c) =
        ([.issued x (mhAux (logOf (π x)) true)], .ok (), ((o1, us1, ds), step c (x, mhAux (logOf (π x)) true))) := rfl
      obtain ⟨tr2, o2, us2, c2, e5, e6⟩ := ih o1 us1 x (step c (x, mhAux (logOf (π x)) true))
      rw [Prog.bind_ok e4]
      simp only
      rw [e5, hpath x hs]
      refine ⟨_, o2, us2, c2, by rw [hlast], ?_⟩
      simp only [issuedOf_append, e1', List.map_append, e6]
      rfl

theorem run_eq (c : C) (start : S) (script : List (Spec.Delayed.Chance S)) :
    (Spec.Delayed.run max π step c start script).2.1 = .ok (lastOf start (pathFrom π start script)) ∧
    Spec.Delayed.samplesIssued max π step c start script = pathFrom π start script := by
  letI := idealOps max
  obtain ⟨tr, o', us', c', e1, e2⟩ := drLoop_script max π step script none [] start c
  have e0 : callLogLikelihood (attach (Spec.Delayed.world π) step) start ((none, [], script), c) =
    ([.logLikelihood start (logOf (π start))], .ok (logOf (π start)), ((none, [], script), c)) := rfl
  have e3 : callFlush (attach (Spec.Delayed.world π) step) ((o', us', []), c') =
    ([.flushed], .ok (), ((o', us', []), c')) := rfl
  have hrun : ∃ tr', Spec.Delayed.run max π step c start script = (tr', .ok (lastOf start (pathFrom π start script)), ((o', us', []), c')) ∧
      issuedOf tr' = issuedOf tr := by
    unfold Spec.Delayed.run drSample Prog.withScopeExit
    rw [Prog.bind_ok e0]
    simp only
    rw [Prog.bind_ok e1]
    simp only
    rw [Prog.bind_ok e3]
    refine ⟨_, rfl, ?_⟩
    simp only [issuedOf_append, Prog.pure_run]
    simp [issuedOf, scopeExitFlush]
  obtain ⟨tr', h1, h2⟩ := hrun
  unfold Spec.Delayed.samplesIssued
  rw [h1]
  simp only [h2, e2, and_self]

theorem currentSample_eq (c : C) (start : S) (script : List (Spec.Delayed.Chance S)) :
    Spec.Delayed.currentSample max π step c start script = lastOf start (pathFrom π start script) := by
  unfold Spec.Delayed.currentSample
  rw [(run_eq max π step c start script).1]

theorem consumerState_eq (c : C) (start : S) (script : List (Spec.Delayed.Chance S)) :
    Spec.Delayed.consumerState max π step c start script =
      (issuedOf (Spec.Delayed.run max π step c start script).1).foldl step c :=
  @Tracks.drSample _ C S XR Empty step (Spec.Delayed.world π) (idealOps max) false start 1 script.length ((none, [], script), c)

end run

theorem pathFrom_append (π : S → ℝ) (past : List (Spec.Delayed.Chance S)) : ∀ (x : S) (d : Spec.Delayed.Chance S),
    pathFrom π x (past ++ [d]) = pathFrom π x past ++ [stepTo π (lastOf x (pathFrom π x past)) d] := by
  induction past with
  | nil => intro x d; simp [pathFrom, lastOf]
  | cons p ps ih =>
    intro x d
    simp only [List.cons_append, pathFrom, ih]
    congr 4
    unfold lastOf; rw [List.getLastD_cons]

theorem pathFrom_length (π : S → ℝ) (l : List (Spec.Delayed.Chance S)) : ∀ (x : S), (pathFrom π x l).length = l.length := by
  induction l with
  | nil => intro x; rfl
  | cons p ps ih => intro x; simp only [pathFrom, List.length_cons, ih]

theorem pathFrom_take (π : S → ℝ) (n : Nat) : ∀ (x : S) (l : List (Spec.Delayed.Chance S)), pathFrom π x (l.take n) = (pathFrom π x l).take n := by
  induction n with
  | zero => intro x l; simp [pathFrom]
  | succ n ih =>
    intro x l
    cases l with
    | nil => simp [pathFrom]
    | cons d l => simp only [List.take_succ_cons, pathFrom, ih]


section expectation
variable [Fintype S] (max : ℝ) (π : S → ℝ) (q1 : S → S → ℝ) (q2 : S → S → S → ℝ)

theorem integral_stepTo (F : S → ℝ) (x y1 y2 : S) :
    ∫ u in unitSquare, F (stepTo π x ((y1, y2), u)) =
      ∑ y, drStepProb max (fun s => logOf (π s)) x y1 y2 y * F y := by
  classical
  have hf : volume unitSquare ≠ ⊤ := by rw [volume_unitSquare]; simp
  have : IsFiniteMeasure (volume.restrict unitSquare) := ⟨by rw [Measure.restrict_apply_univ]; exact lt_of_le_of_ne le_top hf⟩
  have hm : ∀ y, MeasurableSet {u : ℝ × ℝ | stepTo π x ((y1, y2), u) = y} := by
    intro y
    have m1 : MeasurableSet (Prod.fst ⁻¹' {t : ℝ | accD (alpha1 (logOf (π x)) (logOf (π y1))) t = true} : Set (ℝ × ℝ)) :=
      (measurable_accD (alpha1 (logOf (π x)) (logOf (π y1)))).preimage measurable_fst
    have m2 : MeasurableSet (Prod.snd ⁻¹' {t : ℝ | accD (alpha2 (logOf (π x)) (logOf (π y1)) (logOf (π y2))) t = true} : Set (ℝ × ℝ)) :=
      (measurable_accD (alpha2 (logOf (π x)) (logOf (π y1)) (logOf (π y2)))).preimage measurable_snd
    unfold stepTo
    have e : {u : ℝ × ℝ | (if accD (alpha1 (logOf (π x)) (logOf (π y1))) u.1 = true then y1
        else if accD (alpha2 (logOf (π x)) (logOf (π y1)) (logOf (π y2))) u.2 = true then y2 else x) = y} =
      ((Prod.fst ⁻¹' {t | accD (alpha1 (logOf (π x)) (logOf (π y1))) t = true}) ∩ {_u | y1 = y}) ∪
      ((Prod.fst ⁻¹' {t | accD (alpha1 (logOf (π x)) (logOf (π y1))) t = true})ᶜ ∩
        (((Prod.snd ⁻¹' {t | accD (alpha2 (logOf (π x)) (logOf (π y1)) (logOf (π y2))) t = true}) ∩ {_u | y2 = y}) ∪
        ((Prod.snd ⁻¹' {t | accD (alpha2 (logOf (π x)) (logOf (π y1)) (logOf (π y2))) t = true})ᶜ ∩ {_u | x = y}))) := by
      ext u
      simp only [Set.mem_ofPred_eq, Set.mem_union, Set.mem_inter_iff, Set.mem_preimage, Set.mem_compl_iff]
      by_cases h1 : accD (alpha1 (logOf (π x)) (logOf (π y1))) u.1 = true <;>
        by_cases h2 : accD (alpha2 (logOf (π x)) (logOf (π y1)) (logOf (π y2))) u.2 = true <;> simp [h1, h2]
    rw [e]
    exact (m1.inter (MeasurableSet.const _)).union (m1.compl.inter ((m2.inter (MeasurableSet.const _)).union (m2.compl.inter (MeasurableSet.const _))))
  have e : ∀ u : ℝ × ℝ, F (stepTo π x ((y1, y2), u)) =
      ∑ y, ({u : ℝ × ℝ | stepTo π x ((y1, y2), u) = y}).indicator (fun _ => F y) u := by
    intro u
    rw [Finset.sum_eq_single (stepTo π x ((y1, y2), u))]
    · rw [Set.indicator_of_mem (by rfl)]
    · intro y _ hy
      rw [Set.indicator_of_notMem]
      intro h; exact hy h.symm
    · intro h; exact absurd (Finset.mem_univ _) h
  simp only [e]
  rw [integral_finsetSum _ (fun y _ => (integrable_const _).indicator (hm y))]
  refine Finset.sum_congr rfl (fun y _ => ?_)
  rw [integral_indicator (hm y)]
  simp only [integral_const, smul_eq_mul]
  congr 1
  rw [drStepProb_eq, Measure.real, Measure.restrict_apply_univ, Measure.restrict_apply (hm y)]
  congr 2
  ext u
  simp only [Set.mem_inter_iff, Set.mem_ofPred_eq, stepTo]
  exact and_comm

theorem step_expect (F : S → ℝ) (x : S) :
    ∑ y1, ∑ y2, q1 x y1 * q2 x y1 y2 * ∫ u in unitSquare, F (stepTo π x ((y1, y2), u)) = ∑ y, drTransition max π q1 q2 x y * F y := by
  simp only [integral_stepTo max π F, drTransition, Finset.sum_mul, Finset.mul_sum]
  conv => rhs; rw [Finset.sum_comm]
  refine Finset.sum_congr rfl (fun y1 _ => ?_)
  conv => rhs; rw [Finset.sum_comm]
  refine Finset.sum_congr rfl (fun y2 _ => Finset.sum_congr rfl (fun y _ => by ring))

theorem expectGiven_eq (step : C → S × Aux XR → C) (c : C) (start : S) (g : List (Spec.Delayed.Chance S) → ℝ) (g' : List S → ℝ)
    (n : Nat) : ∀ (past : List (Spec.Delayed.Chance S)),
    (∀ script, script.length = past.length + n → g script = g' (pathFrom π start script)) →
    Spec.Delayed.expectGiven max π q1 q2 step c start g n past =
      expectPath (drTransition max π q1 q2) n (fun l => g' (pathFrom π start past ++ l)) (lastOf start (pathFrom π start past)) := by
  induction n with
  | zero => intro past hg; simp only [Spec.Delayed.expectGiven, expectPath, List.append_nil]; exact hg past rfl
  | succ n ih =>
    intro past hg
    simp only [Spec.Delayed.expectGiven, expectPath]
    rw [currentSample_eq max π step c start past]
    rw [← step_expect max π q1 q2 (fun y => expectPath (drTransition max π q1 q2) n (fun l => g' (pathFrom π start past ++ y :: l)) y)]
    refine Finset.sum_congr rfl (fun y1 _ => Finset.sum_congr rfl (fun y2 _ => ?_))
    congr 1
    refine integral_congr_ae (Filter.Eventually.of_forall (fun u => ?_))
    simp only
    rw [ih _ (fun script hs => hg script (by rw [hs, List.length_append]; simp; omega)), pathFrom_append]
    have : lastOf start (pathFrom π start past ++ [stepTo π (lastOf start (pathFrom π start past)) ((y1, y2), u)]) =
        stepTo π (lastOf start (pathFrom π start past)) ((y1, y2), u) := by
      unfold lastOf; simp
    rw [this]
    simp only [List.append_assoc, List.singleton_append]

theorem expected_eq (step : C → S × Aux XR → C) (c : C) (start : S) (n : Nat) (g : List (Spec.Delayed.Chance S) → ℝ) (g' : List S → ℝ)
    (hg : ∀ script, script.length = n → g script = g' (Spec.Delayed.samplesIssued max π step c start script)) :
    Spec.Delayed.expected max π q1 q2 step c start n g = expectPath (drTransition max π q1 q2) n g' start := by
  unfold Spec.Delayed.expected
  rw [expectGiven_eq max π q1 q2 step c start g g' n [] (fun script hs => by
    rw [hg script (by simpa using hs), (run_eq max π step c start script).2])]
  simp only [pathFrom, List.nil_append, lastOf]
  rfl

variable {π q1 q2}

theorem drStepProb_nonneg (L : S → XR) (x y1 y2 y : S) : 0 ≤ drStepProb max L x y1 y2 y := ENNReal.toReal_nonneg

theorem stochastic (h : Spec.Delayed.Target π q1 q2) : Stochastic (drTransition max π q1 q2) where
  nonneg := fun x y => Finset.sum_nonneg (fun y1 _ => Finset.sum_nonneg (fun y2 _ =>
    mul_nonneg (mul_nonneg (h.first_nonneg x y1) (h.second_nonneg x y1 y2)) (drStepProb_nonneg max _ _ _ _ _)))
  sum := fun x => C47_transition_sum max π q1 q2 h.first_total h.second_total x

omit [Fintype S] in
theorem pr_pos (pa pb : ℝ) (ha : 0 ≤ pa) (hb : 0 < pb) : 0 < pr (alpha1 (logOf pa) (logOf pb)) := by
  rcases ha.eq_or_lt with ha | ha
  · have : ∀ t, accD (alpha1 (logOf pa) (logOf pb)) t = true := by
      intro t
      simp [← ha, logOf, hb.ne', alpha1, XR.neg, XR.add, XR.exp, accD, XR.ltb]
    unfold pr
    simp [this]
  · rw [alpha1_log pa pb ha hb, pr_fin]
    exact lt_max_of_lt_right (lt_min one_pos (div_pos hb ha))

open Classical in
theorem drTransition_pos (h : Spec.Delayed.Target π q1 q2) (a b : S) (h1 : 0 < q1 a b) (h2 : 0 < π b) :
    0 < drTransition max π q1 q2 a b := by
  unfold drTransition
  refine Finset.sum_pos' (fun y1 _ => Finset.sum_nonneg (fun y2 _ =>
    mul_nonneg (mul_nonneg (h.first_nonneg a y1) (h.second_nonneg a y1 y2)) (drStepProb_nonneg max _ _ _ _ _))) ⟨b, Finset.mem_univ b, ?_⟩
  have hex : ∃ y2, 0 < q2 a b y2 := by
    by_contra hcon
    push Not at hcon
    have := h.second_total a b
    have h0 : ∑ y2, q2 a b y2 ≤ 0 := Finset.sum_nonpos (fun y2 _ => hcon y2)
    linarith
  obtain ⟨y2, hy2⟩ := hex
  refine Finset.sum_pos' (fun y2 _ =>
    mul_nonneg (mul_nonneg (h.first_nonneg a b) (h.second_nonneg a b y2)) (drStepProb_nonneg max _ _ _ _ _)) ⟨y2, Finset.mem_univ y2, ?_⟩
  refine mul_pos (mul_pos h1 hy2) ?_
  have e := drStepProb_split max (fun s => logOf (π s)) a b y2 b
  have hp := pr_pos (π a) (π b) (h.nonneg a) h2
  have hq : pr (alpha1 (logOf (π a)) (logOf (π b))) ≤ 1 := pr_le_one _
  have hr : pr (alpha2 (logOf (π a)) (logOf (π b)) (logOf (π y2))) ≤ 1 := pr_le_one _
  have hr0 : 0 ≤ pr (alpha2 (logOf (π a)) (logOf (π b)) (logOf (π y2))) := ENNReal.toReal_nonneg
  rw [e]
  simp only [if_true]
  have : 0 ≤ (1 - pr (alpha1 (logOf (π a)) (logOf (π b)))) * ((if y2 = b then pr (alpha2 (logOf (π a)) (logOf (π b)) (logOf (π y2))) else 0) +
      (if a = b then 1 - pr (alpha2 (logOf (π a)) (logOf (π b)) (logOf (π y2))) else 0)) := by
    refine mul_nonneg (by linarith) (add_nonneg ?_ ?_)
    · split <;> linarith
    · split <;> linarith
  linarith

theorem connected (h : Spec.Delayed.Target π q1 q2) :
    ∃ y0, ∀ x, Relation.ReflTransGen (fun a b => 0 < drTransition max π q1 q2 a b) x y0 := by
  obtain ⟨y0, hy⟩ := h.connected
  have key : ∀ a b, (0 < q1 a b ∧ 0 < π b) → 0 < drTransition max π q1 q2 a b := fun a b hab => drTransition_pos max h a b hab.1 hab.2
  refine ⟨y0, fun x => ?_⟩
  have := hy x
  induction this using Relation.ReflTransGen.head_induction_on with
  | refl => exact Relation.ReflTransGen.refl
  | head hab _ ih => exact Relation.ReflTransGen.head (key _ _ hab) ih

end expectation

end SampleFlow.Delayed
