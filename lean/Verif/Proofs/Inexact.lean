import Verif.Spec.Inexact
import Verif.Proofs.Perturbed
import Verif.Proofs.LargeNumbers

set_option linter.unusedSimpArgs false

/-! Runs of the sampler on a machine, and the expected values of what is observed. -/

namespace SampleFlow.Inexact

open Spec MeasureTheory Ergodic

variable {S C D : Type} (M : Computer S D)

/-- the condition, as a function of the two random numbers -/
def acc (a b ratio u1 u2 : D) : Bool :=
  letI := M.ops
  !(hasZeroProbability a && !hasZeroProbability b) &&
    ((hasZeroProbability a && hasZeroProbability b && FloatOps.le u1 (FloatOps.div FloatOps.one ratio)) ||
      FloatOps.lt b (FloatOps.sub a (FloatOps.log ratio)) ||
      FloatOps.le (if hasZeroProbability a && hasZeroProbability b then u2 else u1) (FloatOps.div (FloatOps.exp (FloatOps.sub a b)) ratio))

theorem mhAccept_run (a b ratio : D) (u1 u2 : D) (rest : List M.Chance) :
    ∃ tr us, @mhAccept _ S D Empty M.world M.ops a b ratio ([u1, u2], rest) =
      (tr, .ok (acc M a b ratio u1 u2), (us, rest)) ∧ issuedOf tr = [] := by
  let _ := M.ops
  unfold acc mhAccept
  cases h1 : hasZeroProbability a
  · cases h3 : FloatOps.lt b (FloatOps.sub a (FloatOps.log ratio))
    · simp only [Bool.false_and, Bool.not_false, if_true, Bool.true_and, Bool.false_or, Bool.false_eq_true, if_false]
      exact ⟨_, _, rfl, rfl⟩
    · simp [bind, Prog.bind, Prog.pure_run, issuedOf]
  · cases h2 : hasZeroProbability b
    · simp [Prog.pure_run, issuedOf]
    · simp only [Bool.not_true, Bool.and_false, Bool.not_false, if_true, Bool.and_self, Bool.true_and]
      cases h4 : FloatOps.le u1 (FloatOps.div FloatOps.one ratio)
      · cases h3 : FloatOps.lt b (FloatOps.sub a (FloatOps.log ratio))
        · simp [bind, Prog.bind, draw, Computer.world, attach, Prog.pure_run, h4, h3, issuedOf]
        · simp [bind, Prog.bind, draw, Computer.world, attach, Prog.pure_run, h4, h3, issuedOf]
      · simp [bind, Prog.bind, draw, Computer.world, attach, Prog.pure_run, h4, issuedOf]

theorem mhAccept_attach (step : C → S × Aux D → C) (a b ratio : D) (u1 u2 : D) (rest : List M.Chance) (c : C) :
    ∃ tr us, @mhAccept _ S D Empty (attach M.world step) M.ops a b ratio (([u1, u2], rest), c) =
      (tr, .ok (acc M a b ratio u1 u2), ((us, rest), c)) ∧ issuedOf tr = [] := by
  let _ := M.ops
  unfold acc mhAccept
  cases h1 : hasZeroProbability a
  · cases h3 : FloatOps.lt b (FloatOps.sub a (FloatOps.log ratio))
    · simp only [Bool.false_and, Bool.not_false, if_true, Bool.true_and, Bool.false_or, Bool.false_eq_true, if_false]
      exact ⟨_, _, rfl, rfl⟩
    · simp [bind, Prog.bind, Prog.pure_run, issuedOf]
  · cases h2 : hasZeroProbability b
    · simp [Prog.pure_run, issuedOf]
    · simp only [Bool.not_true, Bool.and_false, Bool.not_false, if_true, Bool.and_self, Bool.true_and]
      cases h4 : FloatOps.le u1 (FloatOps.div FloatOps.one ratio)
      · cases h3 : FloatOps.lt b (FloatOps.sub a (FloatOps.log ratio))
        · simp [bind, Prog.bind, draw, Computer.world, attach, Prog.pure_run, h4, h3, issuedOf]
        · simp [bind, Prog.bind, draw, Computer.world, attach, Prog.pure_run, h4, h3, issuedOf]
      · simp [bind, Prog.bind, draw, Computer.world, attach, Prog.pure_run, h4, issuedOf]

/-- whether the machine accepts -/
def accepts (x z : S) (u : Fin M.count × Fin M.count) : Bool :=
  acc M (M.logLikelihood z) (M.logLikelihood x) (M.ratio x z) (M.random u.1) (M.random u.2)

theorem acceptance_eq (x z : S) : M.acceptance x z = ((Finset.univ.filter (fun u => accepts M x z u = true)).card : ℝ) / (M.count : ℝ) ^ 2 := by
  classical
  unfold Computer.acceptance
  congr 2
  refine congrArg _ (Finset.filter_congr (fun u _ => ?_))
  obtain ⟨tr, us, h, -⟩ := mhAccept_run M (M.logLikelihood z) (M.logLikelihood x) (M.ratio x z) (M.random u.1) (M.random u.2) []
  rw [h]
  simp [accepts]

/-- one step -/
def stepTo (x : S) (d : M.Chance) : S := if accepts M x d.1 d.2 = true then d.1 else x

/-- the samples of a run -/
def pathFrom : S → List M.Chance → List S
  | _, [] => []
  | x, d :: ds => stepTo M x d :: pathFrom (stepTo M x d) ds

theorem mhLoop_script (step : C → S × Aux D → C) (script : List M.Chance) : ∀ (us : List D) (x : S) (c : C),
    ∃ tr us' c', @mhLoop _ S D Empty (attach M.world step) M.ops script.length x (M.logLikelihood x) ((us, script), c) =
      (tr, .ok (lastOf x (pathFrom M x script)), ((us', []), c')) ∧
      (issuedOf tr).map Prod.fst = pathFrom M x script := by
  let _ := M.ops
  induction script with
  | nil => intro us x c; exact ⟨[], us, c, rfl, rfl⟩
  | cons d ds ih =>
    intro us x c
    simp only [List.length_cons, mhLoop]
    have e1 : callPropose (attach M.world step) x [] ((us, d :: ds), c) =
      ([.proposed x [] d.1 (M.ratio x d.1)], .ok (d.1, M.ratio x d.1), (([M.random d.2.1, M.random d.2.2], ds), c)) := rfl
    have e2 : callLogLikelihood (attach M.world step) d.1 (([M.random d.2.1, M.random d.2.2], ds), c) =
      ([.logLikelihood d.1 (M.logLikelihood d.1)], .ok (M.logLikelihood d.1), (([M.random d.2.1, M.random d.2.2], ds), c)) := rfl
    rw [Prog.bind_ok e1]
    simp only
    rw [Prog.bind_ok e2]
    obtain ⟨tr, us1, e3, e3'⟩ := mhAccept_attach M step (M.logLikelihood d.1) (M.logLikelihood x) (M.ratio x d.1) (M.random d.2.1) (M.random d.2.2) ds c
    simp only
    rw [Prog.bind_ok e3]
    have hpath : ∀ y, stepTo M x d = y → pathFrom M x (d :: ds) = y :: pathFrom M y ds := by
      intro y hy; simp only [pathFrom, hy]
    have hlast : ∀ y, lastOf x (y :: pathFrom M y ds) = lastOf y (pathFrom M y ds) := by
      intro y; unfold lastOf; rw [List.getLastD_cons]
    cases hacc : acc M (M.logLikelihood d.1) (M.logLikelihood x) (M.ratio x d.1) (M.random d.2.1) (M.random d.2.2)
    · have hs : stepTo M x d = x := by simp [stepTo, accepts, hacc]
      have e4 : callIssue (attach M.world step) x (mhAux (M.logLikelihood x) true) ((us1, ds), c) =
        ([.issued x (mhAux (M.logLikelihood x) true)], .ok (), ((us1, ds), step c (x, mhAux (M.logLikelihood x) true))) := rfl
      obtain ⟨tr2, us2, c2, e5, e6⟩ := ih us1 x (step c (x, mhAux (M.logLikelihood x) true))
      simp only [Bool.false_eq_true, if_false]
      rw [Prog.bind_ok e4]
      simp only
      rw [e5, hpath x hs]
      refine ⟨_, us2, c2, by rw [hlast], ?_⟩
      simp only [issuedOf_append, e3', List.map_append, e6]
      rfl
    · have hs : stepTo M x d = d.1 := by simp [stepTo, accepts, hacc]
      have e4 : callIssue (attach M.world step) d.1 (mhAux (M.logLikelihood d.1) false) ((us1, ds), c) =
        ([.issued d.1 (mhAux (M.logLikelihood d.1) false)], .ok (), ((us1, ds), step c (d.1, mhAux (M.logLikelihood d.1) false))) := rfl
      obtain ⟨tr2, us2, c2, e5, e6⟩ := ih us1 d.1 (step c (d.1, mhAux (M.logLikelihood d.1) false))
      simp only [if_true]
      rw [Prog.bind_ok e4]
      simp only
      rw [e5, hpath d.1 hs]
      refine ⟨_, us2, c2, by rw [hlast], ?_⟩
      simp only [issuedOf_append, e3', List.map_append, e6]
      rfl

theorem run_eq (step : C → S × Aux D → C) (c : C) (start : S) (script : List M.Chance) :
    M.samplesIssued step c start script = pathFrom M start script ∧
    M.currentSample step c start script = lastOf start (pathFrom M start script) := by
  let _ := M.ops
  obtain ⟨tr, us', c', e1, e2⟩ := mhLoop_script M step script [] start c
  have e0 : callLogLikelihood (attach M.world step) start (([], script), c) =
    ([.logLikelihood start (M.logLikelihood start)], .ok (M.logLikelihood start), (([], script), c)) := rfl
  have e3 : callFlush (attach M.world step) ((us', []), c') = ([.flushed], .ok (), ((us', []), c')) := rfl
  have hrun : ∃ tr', M.run step c start script = (tr', .ok (lastOf start (pathFrom M start script)), ((us', []), c')) ∧
      issuedOf tr' = issuedOf tr := by
    unfold Computer.run mhSample Prog.withScopeExit
    rw [Prog.bind_ok e0]
    simp only
    rw [Prog.bind_ok e1]
    simp only
    rw [Prog.bind_ok e3]
    refine ⟨_, rfl, ?_⟩
    simp only [issuedOf_append, Prog.pure_run]
    simp [issuedOf, scopeExitFlush]
  obtain ⟨tr', h1, h2⟩ := hrun
  unfold Computer.samplesIssued Computer.currentSample
  rw [h1]
  simp only [h2, e2, and_self]

theorem consumerState_eq (step : C → S × Aux D → C) (c : C) (start : S) (script : List M.Chance) :
    M.consumerState step c start script = (issuedOf (M.run step c start script).1).foldl step c :=
  @Tracks.mhSample _ C S D Empty step M.world M.ops start script.length (([], script), c)

theorem pathFrom_append (past : List M.Chance) : ∀ (x : S) (d : M.Chance),
    pathFrom M x (past ++ [d]) = pathFrom M x past ++ [stepTo M (lastOf x (pathFrom M x past)) d] := by
  induction past with
  | nil => intro x d; simp [pathFrom, lastOf]
  | cons p ps ih =>
    intro x d
    simp only [List.cons_append, pathFrom, ih]
    congr 4
    unfold lastOf; rw [List.getLastD_cons]

theorem pathFrom_length (l : List M.Chance) : ∀ (x : S), (pathFrom M x l).length = l.length := by
  induction l with
  | nil => intro x; rfl
  | cons p ps ih => intro x; simp only [pathFrom, List.length_cons, ih]

theorem pathFrom_take (n : Nat) : ∀ (x : S) (l : List M.Chance), pathFrom M x (l.take n) = (pathFrom M x l).take n := by
  induction n with
  | zero => intro x l; rfl
  | succ n ih =>
    intro x l
    cases l with
    | nil => rfl
    | cons d ds => simp only [List.take_succ_cons, pathFrom, ih]

theorem count_ne : (M.count : ℝ) ≠ 0 := by exact_mod_cast M.count_pos.ne'

/-- the number of pairs of random numbers -/
theorem card_pairs : ((Finset.univ : Finset (Fin M.count × Fin M.count)).card : ℝ) = (M.count : ℝ) ^ 2 := by
  simp [pow_two]

theorem acceptance_range (x z : S) : 0 ≤ M.acceptance x z ∧ M.acceptance x z ≤ 1 := by
  rw [acceptance_eq]
  have h0 : (0:ℝ) < (M.count : ℝ) ^ 2 := by have := count_ne M; positivity
  refine ⟨by positivity, (div_le_one h0).mpr ?_⟩
  rw [← card_pairs M]
  exact_mod_cast Finset.card_filter_le _ _

section expectation
variable [Fintype S] (q : S → S → ℝ)

open Classical in
/-- the transition probabilities of the machine -/
noncomputable def transition (x y : S) : ℝ :=
  ∑ z, q x z * ((if z = y then M.acceptance x z else 0) + (if x = y then 1 - M.acceptance x z else 0))

theorem step_expect (F : S → ℝ) (x : S) :
    ∑ z, q x z * ((∑ u, F (stepTo M x (z, u))) / (M.count : ℝ) ^ 2) = ∑ y, transition M q x y * F y := by
  classical
  have e : ∀ z, (∑ u, F (stepTo M x (z, u))) / (M.count : ℝ) ^ 2 = M.acceptance x z * F z + (1 - M.acceptance x z) * F x := by
    intro z
    have hc := count_ne M
    have h1 : ∀ u, F (stepTo M x (z, u)) = F x + (if accepts M x z u = true then F z - F x else 0) := by
      intro u
      unfold stepTo
      by_cases h : accepts M x z u = true
      · simp only [h, if_true]; ring
      · simp only [h, if_false]; simp
    simp only [h1, Finset.sum_add_distrib, Finset.sum_const, nsmul_eq_mul, card_pairs, ← Finset.sum_filter]
    rw [acceptance_eq]
    field_simp
    ring
  simp only [e, transition, Finset.sum_mul]
  rw [Finset.sum_comm]
  refine Finset.sum_congr rfl (fun z _ => ?_)
  simp only [mul_assoc, ← Finset.mul_sum, add_mul, Finset.sum_add_distrib, ite_mul, zero_mul, Finset.sum_ite_eq, Finset.mem_univ, if_true]

theorem expectGiven_eq (step : C → S × Aux D → C) (c : C) (start : S) (g : List M.Chance → ℝ) (g' : List S → ℝ)
    (n : Nat) : ∀ (past : List M.Chance),
    (∀ script, script.length = past.length + n → g script = g' (pathFrom M start script)) →
    M.expectGiven step c start q g n past =
      expectPath (transition M q) n (fun l => g' (pathFrom M start past ++ l)) (lastOf start (pathFrom M start past)) := by
  induction n with
  | zero => intro past hg; simp only [Computer.expectGiven, expectPath, List.append_nil]; exact hg past rfl
  | succ n ih =>
    intro past hg
    simp only [Computer.expectGiven, expectPath]
    rw [(run_eq M step c start past).2]
    rw [← step_expect M q (fun y => expectPath (transition M q) n (fun l => g' (pathFrom M start past ++ y :: l)) y)]
    refine Finset.sum_congr rfl (fun z _ => ?_)
    congr 2
    refine Finset.sum_congr rfl (fun u _ => ?_)
    rw [ih _ (fun script hs => hg script (by rw [hs, List.length_append]; simp; omega)), pathFrom_append]
    have : lastOf start (pathFrom M start past ++ [stepTo M (lastOf start (pathFrom M start past)) (z, u)]) =
        stepTo M (lastOf start (pathFrom M start past)) (z, u) := by
      unfold lastOf; simp
    rw [this]
    simp only [List.append_assoc, List.singleton_append]

theorem expected_eq (step : C → S × Aux D → C) (c : C) (start : S) (n : Nat) (g : List M.Chance → ℝ) (g' : List S → ℝ)
    (hg : ∀ script, script.length = n → g script = g' (M.samplesIssued step c start script)) :
    M.expected step c start q n g = expectPath (transition M q) n g' start := by
  unfold Computer.expected
  rw [expectGiven_eq M q step c start g g' n [] (fun script hs => by
    rw [hg script (by simpa using hs), (run_eq M step c start script).1])]
  simp only [pathFrom, List.nil_append, lastOf]
  rfl

variable {q}

theorem stochastic (hq : ∀ x y, 0 ≤ q x y) (hq1 : ∀ x, ∑ z, q x z = 1) : Stochastic (transition M q) where
  nonneg := fun x y => by
    refine Finset.sum_nonneg (fun z _ => mul_nonneg (hq x z) (add_nonneg ?_ ?_))
    · split
      · exact (acceptance_range M x z).1
      · exact le_refl _
    · split
      · linarith [(acceptance_range M x z).2]
      · exact le_refl _
  sum := fun x => by
    classical
    simp only [transition]
    rw [Finset.sum_comm]
    have : ∀ z, ∑ y, q x z * ((if z = y then M.acceptance x z else 0) + (if x = y then 1 - M.acceptance x z else 0)) = q x z := by
      intro z
      rw [← Finset.mul_sum, Finset.sum_add_distrib]
      simp
    simp only [this, hq1]

variable {max : ℝ} {π : S → ℝ}

omit [Fintype S] in
theorem exactAcceptance_eq (x z : S) : exactAcceptance max π q x z = accProb max (logOf (π z)) (logOf (π x)) (XR.div (.fin (q x z)) (.fin (q z x))) := by
  unfold exactAcceptance accProb
  congr 2
  ext u
  simp only [mhAccept_fixed, Set.mem_setOf_eq, Except.ok.injEq]

theorem app_machine (g : S → ℝ) (x : S) : app (transition M q) g x = ∑ z, q x z * (M.acceptance x z * g z + (1 - M.acceptance x z) * g x) := by
  classical
  simp only [app, transition, Finset.sum_mul]
  rw [Finset.sum_comm]
  refine Finset.sum_congr rfl (fun z _ => ?_)
  simp only [mul_assoc, ← Finset.mul_sum, add_mul, Finset.sum_add_distrib, ite_mul, zero_mul, Finset.sum_ite_eq, Finset.mem_univ, if_true]

theorem app_exact (g : S → ℝ) (x : S) : app (Spec.transition max π q) g x = ∑ z, q x z * (exactAcceptance max π q x z * g z + (1 - exactAcceptance max π q x z) * g x) := by
  unfold app
  rw [← SampleFlow.step_expect]
  refine Finset.sum_congr rfl (fun z _ => ?_)
  rw [exactAcceptance_eq, ← integral_accB]
  congr 2
  ext u
  unfold SampleFlow.stepTo
  split <;> rfl

/-- machines that are accurate have almost the right transition probabilities -/
theorem close (hq : ∀ x y, 0 ≤ q x y) (hq1 : ∀ x, ∑ z, q x z = 1) {ε : ℝ} (hM : M.Accurate max π q ε) :
    Perturbed.Close (Spec.transition max π q) (transition M q) (2 * ε) := by
  intro g B hB x
  rw [app_machine, app_exact (max := max) (π := π), ← Finset.sum_sub_distrib]
  refine (Finset.abs_sum_le_sum_abs _ _).trans ?_
  have : ∀ z, |q x z * (M.acceptance x z * g z + (1 - M.acceptance x z) * g x) - q x z * (exactAcceptance max π q x z * g z + (1 - exactAcceptance max π q x z) * g x)| ≤
      q x z * (2 * ε * B) := by
    intro z
    rcases (hq x z).eq_or_lt with h0 | h0
    · rw [← h0]; simp
    · have h1 := hM x z h0
      have e : q x z * (M.acceptance x z * g z + (1 - M.acceptance x z) * g x) - q x z * (exactAcceptance max π q x z * g z + (1 - exactAcceptance max π q x z) * g x) =
          q x z * ((M.acceptance x z - exactAcceptance max π q x z) * (g z - g x)) := by ring
      rw [e, abs_mul, abs_of_pos h0, abs_mul]
      refine mul_le_mul_of_nonneg_left ?_ h0.le
      have h2 : |g z - g x| ≤ 2 * B := by
        have h3 := abs_le.mp (hB z)
        have h4 := abs_le.mp (hB x)
        exact abs_le.mpr ⟨by linarith, by linarith⟩
      calc |M.acceptance x z - exactAcceptance max π q x z| * |g z - g x| ≤ ε * (2 * B) :=
            mul_le_mul h1 h2 (abs_nonneg _) ((abs_nonneg _).trans h1)
        _ = 2 * ε * B := by ring
  refine (Finset.sum_le_sum (fun z _ => this z)).trans ?_
  rw [← Finset.sum_mul, hq1, one_mul]

end expectation

end SampleFlow.Inexact
