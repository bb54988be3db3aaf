import Verif.Spec.LargeNumbers
import Verif.Props.MarkovChain
import Verif.Proofs.GeneralChain
import Verif.Proofs.Ergodic
import Verif.Proofs.EndToEnd

set_option linter.unusedSimpArgs false

/-! Runs of the sampler that follow a script, and the expected values of what is observed. -/

namespace SampleFlow

open Spec MeasureTheory Ergodic

variable {S C : Type}

section run
variable (max : ℝ) (π : S → ℝ) (q : S → S → ℝ) (step : C → S × Aux XR → C)

theorem mhAccept_script (a b ratio : XR) (u1 u2 : ℝ) (rest : List (Chance S)) (c : C) :
    ∃ tr us, @mhAccept _ S XR Empty (attach (scriptWorld π q) step) (idealOps max) a b ratio (([u1, u2], rest), c) =
      (tr, .ok (accB max a b ratio u1 u2), ((us, rest), c)) ∧ issuedOf tr = [] := by
  letI := idealOps max
  unfold accB mhAccept
  cases h1 : hasZeroProbability a
  · cases h3 : XR.ltb b (a.add (XR.log ratio).neg)
    · simp only [Bool.false_and, Bool.not_false, if_true, Bool.true_and, Bool.false_or]
      have : FloatOps.lt b (FloatOps.sub a (FloatOps.log ratio)) = false := h3
      simp only [this, h3, Bool.false_eq_true, if_false]
      exact ⟨_, _, rfl, rfl⟩
    · have : FloatOps.lt b (FloatOps.sub a (FloatOps.log ratio)) = true := h3
      simp [this, bind, Prog.bind, Prog.pure_run, issuedOf]
  · cases h2 : hasZeroProbability b
    · simp [Prog.pure_run, issuedOf]
    · simp only [Bool.not_true, Bool.and_false, Bool.not_false, if_true, Bool.and_self, Bool.true_and]
      cases h4 : XR.leb (.fin u1) (XR.div (.fin 1) ratio)
      · have h4' : FloatOps.le (XR.fin u1) (FloatOps.div FloatOps.one ratio) = false := h4
        cases h3 : XR.ltb b (a.add (XR.log ratio).neg)
        · have : FloatOps.lt b (FloatOps.sub a (FloatOps.log ratio)) = false := h3
          simp [bind, Prog.bind, draw, scriptWorld, attach, Prog.pure_run, h4', this, issuedOf]
          rfl
        · have : FloatOps.lt b (FloatOps.sub a (FloatOps.log ratio)) = true := h3
          simp [bind, Prog.bind, draw, scriptWorld, attach, Prog.pure_run, h4', this, issuedOf]
      · have h4' : FloatOps.le (XR.fin u1) (FloatOps.div FloatOps.one ratio) = true := h4
        simp [bind, Prog.bind, draw, scriptWorld, attach, Prog.pure_run, h4', issuedOf]

/-- one step -/
noncomputable def stepTo (x : S) (d : Chance S) : S :=
  if accB max (logOf (π d.1)) (logOf (π x)) (XR.div (.fin (q x d.1)) (.fin (q d.1 x))) d.2.1 d.2.2 = true then d.1 else x

/-- the samples of a run -/
noncomputable def pathFrom : S → List (Chance S) → List S
  | _, [] => []
  | x, d :: ds => stepTo max π q x d :: pathFrom (stepTo max π q x d) ds

theorem mhLoop_script (script : List (Chance S)) : ∀ (us : List ℝ) (x : S) (c : C),
    ∃ tr us' c', @mhLoop _ S XR Empty (attach (scriptWorld π q) step) (idealOps max) script.length x (logOf (π x)) ((us, script), c) =
      (tr, .ok (lastOf x (pathFrom max π q x script)), ((us', []), c')) ∧
      (issuedOf tr).map Prod.fst = pathFrom max π q x script := by
  letI := idealOps max
  induction script with
  | nil => intro us x c; exact ⟨[], us, c, rfl, rfl⟩
  | cons d ds ih =>
    intro us x c
    simp only [List.length_cons, mhLoop]
    have e1 : callPropose (attach (scriptWorld π q) step) x [] ((us, d :: ds), c) =
      ([.proposed x [] d.1 (XR.div (.fin (q x d.1)) (.fin (q d.1 x)))],
        .ok (d.1, XR.div (.fin (q x d.1)) (.fin (q d.1 x))), (([d.2.1, d.2.2], ds), c)) := rfl
    have e2 : callLogLikelihood (attach (scriptWorld π q) step) d.1 (([d.2.1, d.2.2], ds), c) =
      ([.logLikelihood d.1 (logOf (π d.1))], .ok (logOf (π d.1)), (([d.2.1, d.2.2], ds), c)) := rfl
    rw [Prog.bind_ok e1]
    simp only
    rw [Prog.bind_ok e2]
    obtain ⟨tr, us1, e3, e3'⟩ := mhAccept_script max π q step (logOf (π d.1)) (logOf (π x))
      (XR.div (.fin (q x d.1)) (.fin (q d.1 x))) d.2.1 d.2.2 ds c
    simp only
    rw [Prog.bind_ok e3]
    have hpath : ∀ y, stepTo max π q x d = y → pathFrom max π q x (d :: ds) = y :: pathFrom max π q y ds := by
      intro y hy; simp only [pathFrom, hy]
    have hlast : ∀ y, lastOf x (y :: pathFrom max π q y ds) = lastOf y (pathFrom max π q y ds) := by
      intro y; unfold lastOf; rw [List.getLastD_cons]
    cases hacc : accB max (logOf (π d.1)) (logOf (π x)) (XR.div (.fin (q x d.1)) (.fin (q d.1 x))) d.2.1 d.2.2
    · have hs : stepTo max π q x d = x := by simp [stepTo, hacc]
      have e4 : callIssue (attach (scriptWorld π q) step) x (mhAux (logOf (π x)) true) ((us1, ds), c) =
        ([.issued x (mhAux (logOf (π x)) true)], .ok (), ((us1, ds), step c (x, mhAux (logOf (π x)) true))) := rfl
      obtain ⟨tr2, us2, c2, e5, e6⟩ := ih us1 x (step c (x, mhAux (logOf (π x)) true))
      simp only [Bool.false_eq_true, if_false]
      rw [Prog.bind_ok e4]
      simp only
      rw [e5, hpath x hs]
      refine ⟨_, us2, c2, by rw [hlast], ?_⟩
      simp only [issuedOf_append, e3', List.map_append, e6]
      rfl
    · have hs : stepTo max π q x d = d.1 := by simp [stepTo, hacc]
      have e4 : callIssue (attach (scriptWorld π q) step) d.1 (mhAux (logOf (π d.1)) false) ((us1, ds), c) =
        ([.issued d.1 (mhAux (logOf (π d.1)) false)], .ok (), ((us1, ds), step c (d.1, mhAux (logOf (π d.1)) false))) := rfl
      obtain ⟨tr2, us2, c2, e5, e6⟩ := ih us1 d.1 (step c (d.1, mhAux (logOf (π d.1)) false))
      simp only [if_true]
      rw [Prog.bind_ok e4]
      simp only
      rw [e5, hpath d.1 hs]
      refine ⟨_, us2, c2, by rw [hlast], ?_⟩
      simp only [issuedOf_append, e3', List.map_append, e6]
      rfl

theorem scriptRun_eq (c : C) (start : S) (script : List (Chance S)) :
    samplesIssued max π q step c start script = pathFrom max π q start script ∧
    currentSample max π q step c start script = lastOf start (pathFrom max π q start script) := by
  letI := idealOps max
  obtain ⟨tr, us', c', e1, e2⟩ := mhLoop_script max π q step script [] start c
  have e0 : callLogLikelihood (attach (scriptWorld π q) step) start (([], script), c) =
    ([.logLikelihood start (logOf (π start))], .ok (logOf (π start)), (([], script), c)) := rfl
  have e3 : callFlush (attach (scriptWorld π q) step) ((us', []), c') =
    ([.flushed], .ok (), ((us', []), c')) := rfl
  have hrun : ∃ tr', scriptRun max π q step c start script = (tr', .ok (lastOf start (pathFrom max π q start script)), ((us', []), c')) ∧
      issuedOf tr' = issuedOf tr := by
    unfold scriptRun mhSample Prog.withScopeExit
    rw [Prog.bind_ok e0]
    simp only
    rw [Prog.bind_ok e1]
    simp only
    rw [Prog.bind_ok e3]
    refine ⟨_, rfl, ?_⟩
    simp only [issuedOf_append, Prog.pure_run]
    simp [issuedOf, scopeExitFlush]
  obtain ⟨tr', h1, h2⟩ := hrun
  unfold samplesIssued currentSample
  rw [h1]
  simp only [h2, e2, and_self]

theorem consumerState_eq (c : C) (start : S) (script : List (Chance S)) :
    consumerState max π q step c start script =
      (issuedOf (scriptRun max π q step c start script).1).foldl step c :=
  @Tracks.mhSample _ C S XR Empty step (scriptWorld π q) (idealOps max) start script.length (([], script), c)

end run

theorem pathFrom_append (max : ℝ) (π : S → ℝ) (q : S → S → ℝ) (past : List (Chance S)) : ∀ (x : S) (d : Chance S),
    pathFrom max π q x (past ++ [d]) =
      pathFrom max π q x past ++ [stepTo max π q (lastOf x (pathFrom max π q x past)) d] := by
  induction past with
  | nil => intro x d; simp [pathFrom, lastOf]
  | cons p ps ih =>
    intro x d
    simp only [List.cons_append, pathFrom, ih]
    congr 4
    unfold lastOf; rw [List.getLastD_cons]

theorem pathFrom_length (max : ℝ) (π : S → ℝ) (q : S → S → ℝ) (l : List (Chance S)) : ∀ (x : S),
    (pathFrom max π q x l).length = l.length := by
  induction l with
  | nil => intro x; rfl
  | cons p ps ih => intro x; simp only [pathFrom, List.length_cons, ih]

theorem integral_accB (max : ℝ) (a b ratio : XR) (c d : ℝ) :
    ∫ u in unitSquare, (if accB max a b ratio u.1 u.2 = true then c else d) =
      accProb max a b ratio * c + (1 - accProb max a b ratio) * d := by
  have hm := measurable_accB max a b ratio
  have hf : volume unitSquare ≠ ⊤ := by rw [volume_unitSquare]; simp
  have e : (fun u : ℝ × ℝ => if accB max a b ratio u.1 u.2 = true then c else d) =
      fun u => d + ({u : ℝ × ℝ | accB max a b ratio u.1 u.2 = true}).indicator (fun _ => c - d) u := by
    ext u
    by_cases h : accB max a b ratio u.1 u.2 = true
    · rw [if_pos h, Set.indicator_of_mem (by exact h)]; ring
    · rw [if_neg h, Set.indicator_of_notMem (by exact h)]; ring
  have : IsFiniteMeasure (volume.restrict unitSquare) := ⟨by rw [Measure.restrict_apply_univ]; exact lt_of_le_of_ne le_top hf⟩
  rw [e, integral_add (integrable_const _) ((integrable_const _).indicator hm), integral_indicator hm]
  simp only [integral_const, smul_eq_mul]
  have h1 : ((volume.restrict unitSquare).restrict {u : ℝ × ℝ | accB max a b ratio u.1 u.2 = true}).real Set.univ =
      accProb max a b ratio := by
    unfold accProb
    rw [Measure.real, Measure.restrict_apply_univ, Measure.restrict_apply hm]
    congr 2; ext u; simp [and_comm]
  have h2 : (volume.restrict unitSquare).real Set.univ = 1 := by
    rw [Measure.real, Measure.restrict_apply_univ, volume_unitSquare]; simp
  rw [h1, h2]
  ring

section expectation
variable [Fintype S] (max : ℝ) (π : S → ℝ) (q : S → S → ℝ)

open Classical in
theorem step_expect (F : S → ℝ) (x : S) :
    ∑ z, q x z * ∫ u in unitSquare, F (stepTo max π q x (z, u)) = ∑ y, transition max π q x y * F y := by
  have e : ∀ z, ∫ u in unitSquare, F (stepTo max π q x (z, u)) =
      ∑ y, stepProbGiven max (fun s => logOf (π s)) (XR.div (.fin (q x z)) (.fin (q z x))) x z y * F y := by
    intro z
    have : ∀ u : ℝ × ℝ, F (stepTo max π q x (z, u)) = (if accB max (logOf (π z)) (logOf (π x)) (XR.div (.fin (q x z)) (.fin (q z x))) u.1 u.2 = true
        then F z else F x) := by
      intro u; unfold stepTo; split <;> rfl
    simp only [this]
    rw [integral_accB]
    simp only [stepProbGiven_eq, add_mul, Finset.sum_add_distrib, ite_mul, zero_mul, Finset.sum_ite_eq, Finset.mem_univ, if_true]
  simp only [e, transition, Finset.sum_mul, Finset.mul_sum]
  rw [Finset.sum_comm]
  refine Finset.sum_congr rfl (fun y _ => Finset.sum_congr rfl (fun z _ => by ring))

theorem expectGiven_eq (step : C → S × Aux XR → C) (c : C) (start : S) (g : List (Chance S) → ℝ) (g' : List S → ℝ)
    (n : Nat) : ∀ (past : List (Chance S)),
    (∀ script, script.length = past.length + n → g script = g' (pathFrom max π q start script)) →
    expectGiven max π q step c start g n past =
      expectPath (transition max π q) n (fun l => g' (pathFrom max π q start past ++ l)) (lastOf start (pathFrom max π q start past)) := by
  induction n with
  | zero => intro past hg; simp only [expectGiven, expectPath, List.append_nil]; exact hg past rfl
  | succ n ih =>
    intro past hg
    simp only [expectGiven, expectPath]
    rw [(scriptRun_eq max π q step c start past).2]
    rw [← step_expect max π q (fun y => expectPath (transition max π q) n (fun l => g' (pathFrom max π q start past ++ y :: l)) y)]
    refine Finset.sum_congr rfl (fun z _ => ?_)
    congr 1
    refine integral_congr_ae (Filter.Eventually.of_forall (fun u => ?_))
    simp only
    rw [ih _ (fun script hs => hg script (by rw [hs, List.length_append]; simp; omega)), pathFrom_append]
    have : lastOf start (pathFrom max π q start past ++ [stepTo max π q (lastOf start (pathFrom max π q start past)) (z, u)]) =
        stepTo max π q (lastOf start (pathFrom max π q start past)) (z, u) := by
      unfold lastOf; simp
    rw [this]
    simp only [List.append_assoc, List.singleton_append]

theorem expected_eq (step : C → S × Aux XR → C) (c : C) (start : S) (n : Nat) (g : List (Chance S) → ℝ) (g' : List S → ℝ)
    (hg : ∀ script, script.length = n → g script = g' (samplesIssued max π q step c start script)) :
    expected max π q step c start n g = expectPath (transition max π q) n g' start := by
  unfold expected
  rw [expectGiven_eq max π q step c start g g' n [] (fun script hs => by
    rw [hg script (by simpa using hs), (scriptRun_eq max π q step c start script).1])]
  simp only [pathFrom, List.nil_append, lastOf]
  rfl

variable {max π q}

theorem transition_nonneg (hq : ∀ x y, 0 ≤ q x y) (x y : S) : 0 ≤ transition max π q x y :=
  Finset.sum_nonneg (fun z _ => mul_nonneg (hq x z) ENNReal.toReal_nonneg)

theorem stochastic_transition (h : FiniteTarget max π q) : Stochastic (transition max π q) where
  nonneg := transition_nonneg h.proposals_nonneg
  sum := C42_transition_sum max π q h.proposals_total

/-- a move that can be made in both directions, into a state of positive probability, has positive probability -/
theorem transition_pos (h : FiniteTarget max π q) (a b : S) (hab : a ≠ b) (h1 : 0 < q a b) (h2 : 0 < q b a) (h3 : 0 < π b) :
    0 < transition max π q a b := by
  rw [transition_off max π q a b hab]
  refine mul_pos h1 ?_
  have hr : XR.div (.fin (q a b)) (.fin (q b a)) = .fin (q a b / q b a) := by simp [XR.div, h2.ne']
  have hrpos : 0 < q a b / q b a := div_pos h1 h2
  have lb : logOf (π b) = .fin (Real.log (π b)) := by simp [logOf, h3.ne']
  rw [hr, lb]
  rcases (h.nonneg a).eq_or_lt with ha | ha
  · have la : logOf (π a) = .negInf := by simp [logOf, ← ha]
    have : ∀ u1 u2, accB max (.fin (Real.log (π b))) .negInf (.fin (q a b / q b a)) u1 u2 = true := by
      intro u1 u2
      have hlog : XR.log (.fin (q a b / q b a)) = .fin (Real.log (q a b / q b a)) := by
        simp [XR.log, not_lt.mpr hrpos.le, hrpos.ne']
      unfold accB
      simp only [hasZero_fin max _ (h.no_marker b), hlog, XR.neg, XR.add, XR.ltb]
      simp
    rw [la]
    unfold accProb
    simp only [this, and_true]
    have : {u : ℝ × ℝ | u ∈ unitSquare} = unitSquare := rfl
    rw [this, volume_unitSquare]
    simp
  · have la : logOf (π a) = .fin (Real.log (π a)) := by simp [logOf, ha.ne']
    rw [la, accProb_fin max _ _ _ (h.no_marker b) (h.no_marker a) hrpos]
    exact lt_min one_pos (div_pos (Real.exp_pos _) hrpos)

theorem connected_transition (h : FiniteTarget max π q) (hc : Connected π q) :
    ∃ y0, ∀ x, Relation.ReflTransGen (fun a b => 0 < transition max π q a b) x y0 := by
  obtain ⟨y0, hy⟩ := hc
  refine ⟨y0, fun x => ?_⟩
  have := hy x
  induction this using Relation.ReflTransGen.head_induction_on with
  | refl => exact Relation.ReflTransGen.refl
  | head hab _ ih =>
    rename_i a b _
    by_cases e : a = b
    · rw [e]; exact ih
    · exact Relation.ReflTransGen.head (transition_pos h a b e hab.1 hab.2.1 hab.2.2) ih

open Classical in
theorem transition_stay (h : FiniteTarget max π q) (a : S) (h1 : 0 < q a a) : 0 < transition max π q a a := by
  unfold transition
  refine Finset.sum_pos' (fun z _ => mul_nonneg (h.proposals_nonneg a z) ENNReal.toReal_nonneg) ⟨a, Finset.mem_univ a, ?_⟩
  refine mul_pos h1 ?_
  rw [stepProbGiven_eq]
  simp

open Classical in
theorem transition_reject (h : FiniteTarget max π q) (a z : S) (hza : z ≠ a) (h1 : π z * q z a < π a * q a z) : 0 < transition max π q a a := by
  have h0 : 0 ≤ π z * q z a := mul_nonneg (h.nonneg z) (h.proposals_nonneg z a)
  have hpq : 0 < π a * q a z := by linarith
  have hq : 0 < q a z := by
    rcases (h.proposals_nonneg a z).eq_or_lt with e | e
    · rw [← e] at hpq; simp at hpq
    · exact e
  have hfl := flow_eq max π q h.nonneg h.proposals_nonneg h.no_marker a z
  rw [min_eq_right h1.le, ← mul_assoc] at hfl
  unfold transition
  refine Finset.sum_pos' (fun z _ => mul_nonneg (h.proposals_nonneg a z) ENNReal.toReal_nonneg) ⟨z, Finset.mem_univ z, ?_⟩
  refine mul_pos hq ?_
  rw [stepProbGiven_eq]
  simp only [hza, if_false, if_true, zero_add]
  by_contra hcon
  have : 1 ≤ accProb max (logOf (π z)) (logOf (π a)) (XR.div (.fin (q a z)) (.fin (q z a))) := by linarith
  have := mul_le_mul_of_nonneg_left this hpq.le
  linarith

theorem arrive_pos (h : Stochastic (transition max π q)) (R : S → S → Prop) (hR : ∀ a b, R a b → 0 < transition max π q a b)
    (k : Nat) : ∀ x y, ReachIn R k x y → 0 < arrive (transition max π q) k x y := by
  classical
  induction k with
  | zero =>
    intro x y hxy
    have hxy : x = y := hxy
    simp [arrive, power, hxy]
  | succ k ih =>
    rintro x y ⟨z, hz, hzy⟩
    have := ih z y hzy
    unfold arrive at this ⊢
    simp only [power, app]
    refine Finset.sum_pos' (fun w _ => mul_nonneg (h.nonneg x w) ?_) ⟨z, Finset.mem_univ z, mul_pos (hR x z hz) this⟩
    have := power_mono h k (fun _ => 0) (fun s => if s = y then 1 else 0) (fun s => by split <;> norm_num) w
    have h0 : power (transition max π q) k (fun _ => 0) w = 0 := by
      have := power_lin h k (fun _ => 0) 0 0 w
      simpa using this
    linarith

theorem connectedIn_transition (h : FiniteTarget max π q) (k : Nat) (hc : ConnectedIn π q k) :
    ∃ y0, ∀ x, 0 < arrive (transition max π q) k x y0 := by
  obtain ⟨y0, hy⟩ := hc
  refine ⟨y0, fun x => arrive_pos (stochastic_transition h) _ (fun a b hab => ?_) k x y0 (hy x)⟩
  rcases hab with hab | ⟨rfl, z, hz, hrej⟩
  · by_cases e : a = b
    · rw [← e]; rw [← e] at hab; exact transition_stay h a hab.1
    · exact transition_pos h a b e hab.1 hab.2.1 hab.2.2
  · exact transition_reject h a z hz hrej

end expectation

end SampleFlow
