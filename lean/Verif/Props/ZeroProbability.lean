import Verif.Props.Nan
import Verif.Props.DelayedChain
import Verif.Props.DifferentialEvaluation

/-!
# C60: do the other samplers move into states of zero probability?

`MetropolisHastings` never does (C39).  `DelayedRejectionMetropolisHastings` and `DifferentialEvaluationMetropolisHastings` accept if
`ratio >= u` with `u` from the half-open interval [0,1) and have no special treatment of zero probabilities.
-/

namespace SampleFlow

open Spec

variable {W S E : Type}

/-- `d` is the log likelihood of a state of zero probability. -/
def ZeroProb (d : XR) : Prop := d = .negInf

/-- The number is zero or NaN. -/
def ZeroOrNan (a : XR) : Prop := a = .fin 0 ∨ a = .nan

theorem ZeroOrNan.mul {a : XR} (h : ZeroOrNan a) (b : XR) : ZeroOrNan (XR.mul a b) := by
  rcases h with rfl | rfl
  · cases b with
    | nan => exact .inr rfl
    | negInf => exact .inr (by simp [XR.mul, XR.infTimes])
    | posInf => exact .inr (by simp [XR.mul, XR.infTimes])
    | fin r => exact .inl (by simp [XR.mul])
  · exact .inr rfl

theorem ZeroOrNan.div {a : XR} (h : ZeroOrNan a) (b : XR) : ZeroOrNan (XR.div a b) := by
  rcases h with rfl | rfl
  · cases b with
    | nan => exact .inr rfl
    | negInf => exact .inl rfl
    | posInf => exact .inl rfl
    | fin r =>
      by_cases hr : r = 0
      · exact .inr (by simp [XR.div, hr])
      · exact .inl (by simp [XR.div, hr])
  · exact .inr rfl

theorem ZeroOrNan.ratio {x : XR} (hx : ¬ ZeroProb x) : ZeroOrNan (XR.exp (XR.add .negInf x.neg)) := by
  cases x with
  | nan => exact .inr rfl
  | negInf => exact absurd rfl hx
  | posInf => exact .inl rfl
  | fin r => exact .inl rfl

theorem ZeroOrNan.rejects {a : XR} (h : ZeroOrNan a) {r : ℝ} (hr : 0 < r) :
    XR.ltb (.fin 1) a = false ∧ XR.leb (.fin r) a = false := by
  rcases h with rfl | rfl
  · constructor
    · simp [XR.ltb, show ¬ ((1:ℝ) < 0) by norm_num]
    · simp [XR.leb, XR.ltb, XR.eqb, not_lt.mpr hr.le, hr.ne']
  · exact ⟨rfl, rfl⟩

theorem alphaFn_zero (max : ℝ) (checked : Bool) (fuel : Nat) (x : XR) (y : List XR) (hx : ¬ ZeroProb x)
    (hy : y.getLast? = some .negInf) (r : XR) (h : @alphaFn XR (idealOps max) checked fuel x y = .ok r) : ZeroOrNan r := by
  letI := idealOps max
  cases fuel with
  | zero => cases h
  | succ fuel =>
    unfold alphaFn at h
    rw [hy] at h
    simp only at h
    have hlr : ZeroOrNan (XR.exp (XR.add .negInf x.neg)) := ZeroOrNan.ratio hx
    by_cases h0 : y.length - 1 = 0
    · rw [if_pos h0] at h; cases h; exact hlr
    · rw [if_neg h0] at h
      refine foldlM_nan (nan := ZeroOrNan) _ _ _ ?_ (.inl hlr) r h
      intro b j hj b' hb hf
      cases checked with
      | true => cases hf
      | false =>
        rcases e1 : alphaFn false fuel XR.negInf ((y.drop (y.length - 1 - (j + 1))).take (j + 1)) with e | a1
        · rw [e1] at hf; cases hf
        · rcases e2 : alphaFn false fuel x (y.take (j + 1)) with e | a2
          · rw [e1, e2] at hf; cases hf
          · rw [e1, e2] at hf; cases hf; exact hb.mul _

/-- **C60**, delayed rejection, partial: if no random number drawn in the run is exactly zero, then a run started at a state of nonzero
probability never issues a state of zero probability.  Missing: random numbers that are exactly zero
(`std::uniform_real_distribution` produces them), for which the claim is false, see `C60_violation_delayedRejection`. -/
theorem C60_delayedRejection_partial (max : ℝ) (checked : Bool) (maxDelays : Nat) (hdef : checked = false ∨ maxDelays = 0)
    (env : World W S XR (Stop E)) (L : S → XR) (hL : LikelihoodIs env L) (start : S) (n : Nat) (w : W) (last : S)
    (hr : (@drSample W S XR (idealOps max) E checked env start maxDelays n w).2.1 = .ok last)
    (hs : ¬ ZeroProb (L start))
    (hu : ∀ u, .drew u ∈ (@drSample W S XR (idealOps max) E checked env start maxDelays n w).1 → ∃ r, u = .fin r ∧ 0 < r) :
    ∀ p ∈ issuedOf (@drSample W S XR (idealOps max) E checked env start maxDelays n w).1, ¬ ZeroProb (L p.1) := by
  letI := idealOps max
  obtain ⟨moves, -, h2, h3, h4⟩ := C44_chain checked maxDelays hdef env L hL start n w last hr
  rw [h4] at hu
  have hdraw : ∀ m ∈ moves, ∀ t ∈ m.tried, ∀ u ∈ t.2.2, ∃ r, u = .fin r ∧ 0 < r := by
    intro m hm t ht u hut
    refine hu u (List.mem_cons_of_mem _ (List.mem_append_left _ (List.mem_flatMap.mpr ⟨m, hm, ?_⟩)))
    unfold DRMove.events
    refine List.mem_append_left _ ?_
    clear hm
    generalize ([] : List S) = before
    generalize m.tried = tried at ht
    induction tried generalizing before with
    | nil => cases ht
    | cons t' ts ih =>
      obtain ⟨y, ratio, draws⟩ := t'
      rw [triedEvents]
      rcases List.mem_cons.mp ht with rfl | ht
      · exact List.mem_append_left _ (List.mem_append_right _ (List.mem_map.mpr ⟨u, hut, rfl⟩))
      · exact List.mem_append_right _ (ih _ ht)
  have hiss : ∀ p ∈ issuedOf (drSample checked env start maxDelays n w).1, ∃ m ∈ moves, p.1 = m.next := by
    intro p hp
    rw [h4, show ∀ l, issuedOf (Event.logLikelihood start (L start) :: l) = issuedOf l from fun _ => rfl,
      issuedOf_append, issuedOf_drMoves] at hp
    simp only [issuedOf, List.filterMap_cons, List.filterMap_nil, List.append_nil] at hp
    obtain ⟨m, hm, rfl⟩ := List.mem_map.mp hp
    exact ⟨m, hm, rfl⟩
  intro p hp
  obtain ⟨m, hm, e⟩ := hiss p hp
  rw [e]
  refine h2.stays (fun x => ¬ ZeroProb (L x)) ?_ hs m hm
  intro m hm hprev
  unfold DRMove.next
  by_cases ha : m.accepted = true
  · rw [if_pos ha]
    have hpos := (h3 m hm).1.1
    have hne : m.tried ≠ [] := by intro h0; rw [h0] at hpos; simp at hpos
    rw [List.getLast?_eq_some_getLast hne]
    intro hz
    simp only [Option.map_some, Option.getD_some] at hz
    have hget : m.tried[m.tried.length - 1]? = some (m.tried.getLast hne) := by
      rw [← List.getLast?_eq_getElem?, List.getLast?_eq_some_getLast hne]
    obtain ⟨a, g1, g2⟩ := (h3 m hm).2 _ _ hget
    rw [show m.tried.length - 1 + 1 = m.tried.length by omega, List.take_length] at g1
    have hza : ZeroOrNan a := by
      refine alphaFn_zero max checked _ _ _ hprev ?_ a g1
      rw [List.getLast?_map, List.getLast?_eq_some_getLast hne]
      exact congrArg some hz
    rw [show decide (m.tried.length - 1 + 1 = m.tried.length) = true by simp; omega, ha] at g2
    rcases g2 with ⟨g2, -, -⟩ | ⟨-, u, g3, g4⟩
    · have := (hza.rejects (r := 1) (by norm_num)).1
      change XR.ltb (.fin 1) a = true at g2
      rw [this] at g2; cases g2
    · obtain ⟨r, rfl, hr⟩ := hdraw m hm _ (List.getLast_mem hne) u (by rw [g3]; simp)
      have := (hza.rejects hr).2
      change _ = XR.leb (.fin r) a at g4
      rw [this] at g4; cases g4
  · rw [if_neg ha]; exact hprev

/-- **C60**, differential evaluation, partial: the same for a run in which no random number is exactly zero: a chain started at a state
of nonzero probability never issues a state of zero probability. -/
theorem C60_differentialEvaluation_partial (max : ℝ) (env : World W S XR (Stop E)) (L : S → XR) (hL : LikelihoodIs env L)
    (starts : List S) (gap n : Nat) (w : W) (hr : (@deSample W S XR E (idealOps max) env starts gap n w).2.1 = .ok ())
    (hs : ∀ s ∈ starts, ¬ ZeroProb (L s))
    (hu : ∀ u, .drew u ∈ (@deSample W S XR E (idealOps max) env starts gap n w).1 → ∃ r, u = .fin r ∧ 0 < r) :
    ∀ p ∈ issuedOf (@deSample W S XR E (idealOps max) env starts gap n w).1, ¬ ZeroProb (L p.1) := by
  letI := idealOps max
  obtain ⟨gens, h1, h2, -, h4⟩ := C51_generations env L hL starts gap n w hr
  have hdraw : ∀ g ∈ gens, ∀ m ∈ g, ∃ r, m.u = .fin r ∧ 0 < r := by
    intro g hg m hm
    refine hu m.u ?_
    rw [h4]
    refine List.mem_append_left _ (List.mem_append_right _ (List.mem_flatMap.mpr ⟨g, hg, ?_⟩))
    unfold generationEvents
    refine List.mem_append_left _ (List.mem_flatMap.mpr ⟨m, hm, ?_⟩)
    unfold DEMove.events
    simp
  have hini : ∀ l : List S, issuedOf (l.map (fun x => Event.logLikelihood x (L x))) = [] := by
    intro l; induction l with
    | nil => rfl
    | cons x l ih => exact ih
  have key : ∀ (gens : List (List (DEMove S XR))) (gen : Nat) (cur : List S), GenerationsFrom L gap gen cur gens →
      (∀ g ∈ gens, ∀ m ∈ g, ∃ r, m.u = .fin r ∧ 0 < r) → (∀ s ∈ cur, ¬ ZeroProb (L s)) →
      ∀ g ∈ gens, ∀ m ∈ g, ¬ ZeroProb (L m.next) := by
    intro gens
    induction gens with
    | nil => intro gen cur _ _ _ g hg; cases hg
    | cons g gs ih =>
      intro gen cur hG hd hcur
      have hthis : ∀ m ∈ g, ¬ ZeroProb (L m.next) := by
        intro m hm
        obtain ⟨c, hc⟩ := List.mem_iff_getElem?.mp hm
        have hv := hG.1 c m hc
        have hprev := hcur m.prev (List.mem_of_getElem? hv.1)
        unfold DEMove.next
        by_cases ha : m.accepted = true
        · rw [if_pos ha]
          intro hz
          obtain ⟨r, hru, hr⟩ := hd g (by simp) m hm
          have h5 := hv.2.2.2
          rw [hru, ha] at h5
          have h6 : ZeroOrNan (XR.div (XR.exp (XR.add (L m.trial) (L m.prev).neg)) m.ratio) := by
            rw [show L m.trial = .negInf from hz]
            exact (ZeroOrNan.ratio hprev).div _
          have := (h6.rejects hr).2
          change true = XR.leb (.fin r) (XR.div (XR.exp (XR.add (L m.trial) (L m.prev).neg)) m.ratio) at h5
          rw [this] at h5; cases h5
        · rw [if_neg ha]; exact hprev
      intro g' hg'
      rcases List.mem_cons.mp hg' with rfl | hg'
      · exact hthis
      · refine ih (gen + 1) (advance cur g) hG.2 (fun g hg => hd g (by simp [hg])) ?_ g' hg'
        intro s hs
        unfold advance at hs
        rcases List.mem_append.mp hs with hs | hs
        · obtain ⟨m, hm, rfl⟩ := List.mem_map.mp hs
          exact hthis m hm
        · exact hcur s (List.mem_of_mem_drop hs)
  intro p hp
  rw [h4, issuedOf_append, issuedOf_append, hini, List.nil_append,
    show issuedOf ([.flushed] : List (Event S XR)) = [] from rfl, List.append_nil] at hp
  have : ∃ g ∈ gens, ∃ m ∈ g, p.1 = m.next := by
    clear h4 h1 h2 hdraw
    induction gens with
    | nil => simp [issuedOf] at hp
    | cons g gs ih =>
      rw [List.flatMap_cons, issuedOf_append, issuedOf_generation] at hp
      rcases List.mem_append.mp hp with hp | hp
      · obtain ⟨i, hi, hh⟩ := List.mem_mapIdx.mp hp
        exact ⟨g, by simp, g[i], List.getElem_mem _, by rw [← hh]⟩
      · obtain ⟨g', h1, m, h2, h3⟩ := ih hp
        exact ⟨g', by simp [h1], m, h2, h3⟩
  obtain ⟨g, hg, m, hm, e⟩ := this
  rw [e]
  exact key gens 0 starts h1 hdraw hs g hg m hm

/-! ### the violations -/

/-- Log likelihood 0 at `true` and `-inf` at `false`. -/
def halfL : Bool → XR := fun b => if b then .fin 0 else .negInf

/-- **C60 (violated)** by delayed rejection (`max_delays = 0`): when the random number is exactly 0, a proposal of zero probability is
accepted from a state of probability one. -/
theorem C60_violation_delayedRejection (max : ℝ) :
    (@drSample (List ℝ) Bool XR (idealOps max) Empty true (twoStageWorld halfL false false) true 0 1 [0, 0]).2.1 = .ok false := by
  letI := idealOps max
  have a1 := alphaFn_single true 0 (XR.fin 0) XR.negInf
  rw [Nat.zero_add] at a1
  have e4 : (liftFault (alphaFn true 1 (XR.fin 0) [XR.negInf]) : Prog (List ℝ) Bool XR (Stop Empty) XR) [0, 0] =
      ([], .ok (.fin 0), [0, 0]) := by rw [a1]; rfl
  have e5 := accept_run (max := max) halfL false false (.fin 0) 0 [0]
  have h0' : XR.ltb (.fin 1) (.fin 0) = false := by simp [XR.ltb, show ¬ ((1:ℝ) < 0) by norm_num]
  have h0 : accD (.fin 0) 0 = true := by simp [accD, XR.leb, XR.eqb]
  rw [h0, h0'] at e5
  simp only [Bool.false_eq_true, if_false] at e5
  unfold drSample Prog.withScopeExit drLoop
  have e1 : callLogLikelihood (twoStageWorld halfL false false) true [0, 0] =
    ([.logLikelihood true (.fin 0)], .ok (.fin 0), [0, 0]) := rfl
  have e2 : callPropose (twoStageWorld halfL false false) true [] [0, 0] =
    ([.proposed true [] false (.fin 1)], .ok (false, .fin 1), [0, 0]) := rfl
  have e3 : callLogLikelihood (twoStageWorld halfL false false) false [0, 0] =
    ([.logLikelihood false .negInf], .ok .negInf, [0, 0]) := rfl
  simp only [drStages, bind, Prog.bind] at e5 ⊢
  simp only [List.map_nil, e1, e2, e3, List.nil_append, List.length_singleton, List.map_cons, e4, e5, if_true]
  rfl

/-- A world in which every proposal is `false`, with the constant random number `r`. -/
def constWorld (r : ℝ) : World Unit Bool XR (Stop Empty) where
  logLikelihood := fun x w => (.ok (halfL x), w)
  propose := fun _ _ w => (.ok (false, .fin 1), w)
  crossover := fun x _ _ w => (.ok x, w)
  uniform := fun w => (.fin r, w)
  uniformInt := fun _ w => (0, w)
  issue := fun _ _ w => (.ok (), w)
  flush := fun w => w

theorem constWorld_full (max r : ℝ) (acc : Bool)
    (h : XR.leb (.fin r) (XR.div (XR.exp (XR.add .negInf (XR.neg (.fin 0)))) (.fin 1)) = acc) :
    (@deSample Unit Bool XR Empty (idealOps max) (constWorld r) [true, true, true] 1 1 ()) =
      ([.logLikelihood true (.fin 0), .logLikelihood true (.fin 0), .logLikelihood true (.fin 0),
       .proposed true [] false (.fin 1), .drew (.fin r), .logLikelihood false .negInf,
       .issued (if acc then false else true) [("relative log likelihood", .real (if acc then .negInf else .fin 0)),
         ("sample is repeated", .flag (!acc)), ("chain number", .index 0)], .flushed], .ok (), ()) := by
  letI := idealOps max
  have h' : FloatOps.le (XR.fin r) (FloatOps.div (FloatOps.exp (FloatOps.sub XR.negInf (XR.fin 0))) (XR.fin 1)) = acc := h
  have e0 : deInitial (constWorld r) [true, true, true] () = ([.logLikelihood true (.fin 0), .logLikelihood true (.fin 0), .logLikelihood true (.fin 0)], .ok [.fin 0, .fin 0, .fin 0], ()) := rfl
  have e1 : deMakeTask (constWorld r) 1 0 [true, true, true] 0 () = ([.proposed true [] false (.fin 1), .drew (.fin r)], .ok ⟨false, .fin 1, .fin r⟩, ()) := rfl
  have e2 : deRunCaptured (constWorld r) 0 ⟨false, .fin 1, .fin r⟩ ⟨[true, true, true], [true, true, true], [.fin 0, .fin 0, .fin 0]⟩ () =
     ([.logLikelihood false .negInf], .ok (.ok acc, ⟨[true, true, true], [!acc, true, true], [if acc then .negInf else .fin 0, .fin 0, .fin 0]⟩), ()) := by
    unfold deRunCaptured deRunTask
    cases acc <;> simp [bind, Prog.bind, deAccept, h', callLogLikelihood, constWorld, halfL, atIndex, Prog.pure_run]
  have e3 : deCreate (constWorld r) 1 1 0 3 3 0 ⟨[true, true, true], [true, true, true], [.fin 0, .fin 0, .fin 0]⟩ () =
      ([.proposed true [] false (.fin 1), .drew (.fin r), .logLikelihood false .negInf],
        .ok ([.ok acc], ⟨[true, true, true], [!acc, true, true], [if acc then .negInf else .fin 0, .fin 0, .fin 0]⟩), ()) := by
    rw [deCreate, if_neg (by decide), Prog.bind_ok e1, Prog.bind_ok e2]
    rw [deCreate, if_pos (by decide)]
    rfl
  have e4 : deIssue (constWorld r) 1 0 3 [.ok acc]
      ⟨[true, true, true], [!acc, true, true], [if acc then .negInf else .fin 0, .fin 0, .fin 0]⟩ 3 0 () =
      ([.issued (!acc) (deAux (if acc then .negInf else .fin 0) (!acc) 0)], .ok (), ()) := by
    cases acc <;> rfl
  have e5 : deGeneration (constWorld r) 1 1 3 0 ⟨[true, true, true], [true, true, true], [.fin 0, .fin 0, .fin 0]⟩ () =
      ([.proposed true [] false (.fin 1), .drew (.fin r), .logLikelihood false .negInf,
        .issued (!acc) (deAux (if acc then .negInf else .fin 0) (!acc) 0)],
        .ok ⟨[!acc, true, true], [!acc, true, true], [if acc then .negInf else .fin 0, .fin 0, .fin 0]⟩, ()) := by
    unfold deGeneration
    rw [Prog.bind_ok e3]
    simp only
    rw [Prog.bind_ok e4]
    rfl
  unfold deSample
  rw [if_pos (by decide)]
  unfold Prog.withScopeExit
  rw [Prog.bind_ok e0]
  rw [deLoop, if_pos (by decide)]
  rw [show [true, true, true].length = 3 from rfl, Prog.bind_ok e5]
  cases acc <;> rfl

theorem constWorld_run (max r : ℝ) (acc : Bool)
    (h : XR.leb (.fin r) (XR.div (XR.exp (XR.add .negInf (XR.neg (.fin 0)))) (.fin 1)) = acc) :
    (@deSample Unit Bool XR Empty (idealOps max) (constWorld r) [true, true, true] 1 1 ()).1 =
      [.logLikelihood true (.fin 0), .logLikelihood true (.fin 0), .logLikelihood true (.fin 0),
       .proposed true [] false (.fin 1), .drew (.fin r), .logLikelihood false .negInf,
       .issued (if acc then false else true) [("relative log likelihood", .real (if acc then .negInf else .fin 0)),
         ("sample is repeated", .flag (!acc)), ("chain number", .index 0)], .flushed] := congrArg Prod.fst (constWorld_full max r acc h)

theorem constWorld_ok (max r : ℝ) (acc : Bool)
    (h : XR.leb (.fin r) (XR.div (XR.exp (XR.add .negInf (XR.neg (.fin 0)))) (.fin 1)) = acc) :
    (@deSample Unit Bool XR Empty (idealOps max) (constWorld r) [true, true, true] 1 1 ()).2.1 = .ok () := by
  rw [constWorld_full max r acc h]

/-- **C60 (violated)** by differential evaluation: when the random number is exactly 0, a proposal of zero probability is
accepted by a chain at a state of probability one. -/
theorem C60_violation_differentialEvaluation (max : ℝ) :
    (issuedOf (@deSample Unit Bool XR Empty (idealOps max) (constWorld 0) [true, true, true] 1 1 ()).1).map Prod.fst = [false] ∧
    halfL true = .fin 0 ∧ halfL false = .negInf := by
  refine ⟨?_, rfl, rfl⟩
  rw [constWorld_run max 0 true (by simp [XR.add, XR.neg, XR.exp, XR.div, XR.leb, XR.eqb])]
  rfl

/-- The premises of `C60_differentialEvaluation_partial` hold for a run with the random number 1/2 and a proposal of zero
probability; the proposal is rejected. -/
theorem premises_differentialEvaluation (max : ℝ) :
    (∀ s ∈ [true, true, true], ¬ ZeroProb (halfL s)) ∧
    (∀ u, .drew u ∈ (@deSample Unit Bool XR Empty (idealOps max) (constWorld (1/2)) [true, true, true] 1 1 ()).1 →
      ∃ r, u = .fin r ∧ 0 < r) ∧
    (issuedOf (@deSample Unit Bool XR Empty (idealOps max) (constWorld (1/2)) [true, true, true] 1 1 ()).1).map Prod.fst = [true] := by
  rw [constWorld_run max (1/2) false (by simp [XR.add, XR.neg, XR.exp, XR.div, XR.leb, XR.eqb, XR.ltb])]
  refine ⟨by simp [ZeroProb, halfL], ?_, rfl⟩
  intro u hu
  simp only [List.mem_cons, Event.drew.injEq, reduceCtorEq, false_or, or_false, List.not_mem_nil] at hu
  exact ⟨1/2, hu, by norm_num⟩

/-- The premises of `C60_delayedRejection_partial` hold for a run with the random number 1/2 and a proposal of zero
probability; the proposal is rejected. -/
theorem premises_delayedRejection (max : ℝ) :
    (@drSample (List ℝ) Bool XR (idealOps max) Empty true (twoStageWorld halfL false false) true 0 1 [1/2]).2.1 = .ok true ∧
    ¬ ZeroProb (halfL true) ∧
    (∀ u, .drew u ∈ (@drSample (List ℝ) Bool XR (idealOps max) Empty true (twoStageWorld halfL false false) true 0 1 [1/2]).1 →
      ∃ r, u = .fin r ∧ 0 < r) := by
  letI := idealOps max
  have a1 := alphaFn_single true 0 (XR.fin 0) XR.negInf
  rw [Nat.zero_add] at a1
  have e4 : (liftFault (alphaFn true 1 (XR.fin 0) [XR.negInf]) : Prog (List ℝ) Bool XR (Stop Empty) XR) [1/2] =
      ([], .ok (.fin 0), [1/2]) := by rw [a1]; rfl
  have e5 := accept_run (max := max) halfL false false (.fin 0) (1/2) []
  have h0' : XR.ltb (.fin 1) (.fin 0) = false := by simp [XR.ltb, show ¬ ((1:ℝ) < 0) by norm_num]
  have h0 : accD (.fin 0) (1/2) = false := by
    simp [accD, XR.leb, XR.eqb, XR.ltb, show ¬ ((1:ℝ) < 0) by norm_num]
  rw [h0, h0'] at e5
  simp only [Bool.false_eq_true, if_false] at e5
  have e1 : callLogLikelihood (twoStageWorld halfL false false) true [1/2] =
    ([.logLikelihood true (.fin 0)], .ok (.fin 0), [1/2]) := rfl
  have e2 : callPropose (twoStageWorld halfL false false) true [] [1/2] =
    ([.proposed true [] false (.fin 1)], .ok (false, .fin 1), [1/2]) := rfl
  have e3 : callLogLikelihood (twoStageWorld halfL false false) false [1/2] =
    ([.logLikelihood false .negInf], .ok .negInf, [1/2]) := rfl
  have key : ∃ x aux, drSample true (twoStageWorld halfL false false) true 0 1 [1/2] =
      ([.logLikelihood true (.fin 0), .proposed true [] false (.fin 1), .logLikelihood false .negInf, .drew (.fin (1/2)),
        .issued x aux, .flushed, .flushed], .ok true, []) := by
    refine ⟨true, [("relative log likelihood", .real (.fin 0)), ("sample is repeated", .flag true)], ?_⟩
    unfold drSample Prog.withScopeExit drLoop
    simp only [drStages, bind, Prog.bind] at e5 ⊢
    simp only [List.map_nil, e1, e2, e3, List.nil_append, List.length_singleton, List.map_cons, e4, e5, Bool.false_eq_true, if_false]
    rfl
  obtain ⟨x, aux, key⟩ := key
  rw [key]
  refine ⟨rfl, by simp [ZeroProb, halfL], ?_⟩
  intro u hu
  simp only [List.mem_cons, Event.drew.injEq, reduceCtorEq, false_or, or_false, List.not_mem_nil] at hu
  exact ⟨1/2, hu, by norm_num⟩

/-! ### Instances: concrete cases that meet the hypotheses of the theorems above -/

example (max : ℝ) := C60_delayedRejection_partial max true 0 (.inr rfl) (twoStageWorld halfL false false) halfL
  (by intro x w d w' h; injection h with h _; injection h with h; exact h.symm) true 1 [1/2] true (premises_delayedRejection max).1 (premises_delayedRejection max).2.1
  (premises_delayedRejection max).2.2
example (max : ℝ) := C60_differentialEvaluation_partial max (constWorld (1/2)) halfL
  (by intro x w d w' h; injection h with h _; injection h with h; exact h.symm) [true, true, true] 1 1 ()
  (constWorld_ok max (1/2) false (by simp [XR.add, XR.neg, XR.exp, XR.div, XR.leb, XR.eqb, XR.ltb])) (premises_differentialEvaluation max).1
  (premises_differentialEvaluation max).2.1

end SampleFlow
