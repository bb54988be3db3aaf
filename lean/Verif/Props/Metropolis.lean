import Verif.Proofs.MHChain
import Verif.Proofs.Flush
import Verif.Model.Toy

/-!
# Properties C36 - C41: Range and MetropolisHastings

The theorems hold for every arithmetic (`FloatOps`) on `D`, in particular for IEEE double precision with all its
rounding errors, infinities and NaNs, for every world (random number generator, user functions with internal
state, consumers) and for every place at which an exception is thrown.
-/

universe u

namespace SampleFlow

open Spec

variable {W : Type u} {S D E : Type}

/-! ## C36 Range -/

/-- C36: `Range::sample` issues the elements of the range in order with empty auxiliary data and then flushes
once; if a consumer throws at some element, the elements up to and including this one have been issued, the
flush follows, and the exception propagates. -/
theorem C36_range (env : World W S D E) (range : List S) (w : W) :
    ((rangeSample env range w).2.1 = .ok () ∧
      (rangeSample env range w).1 = range.map (fun x => .issued x []) ++ [.flushed]) ∨
    (∃ e before x after, (rangeSample env range w).2.1 = .error e ∧ range = before ++ x :: after ∧
      (rangeSample env range w).1 = (before ++ [x]).map (fun x => .issued x []) ++ [.flushed]) := by
  have key : ∀ (range : List S) (w : W),
      ((rangeLoop env range w).2.1 = .ok () ∧ (rangeLoop env range w).1 = range.map (fun x => .issued x [])) ∨
      (∃ e before x after, (rangeLoop env range w).2.1 = .error e ∧ range = before ++ x :: after ∧
        (rangeLoop env range w).1 = (before ++ [x]).map (fun x => .issued x [])) := by
    intro range
    induction range with
    | nil => intro w; exact Or.inl ⟨rfl, rfl⟩
    | cons x xs ih =>
      intro w
      unfold rangeLoop
      rcases h : env.issue x [] w with ⟨(e | ⟨⟩), w1⟩
      · have e1 : callIssue env x [] w = ([.issued x []], .error e, w1) := by simp [callIssue, h]
        rw [Prog.bind_error e1]
        exact Or.inr ⟨e, [], x, xs, rfl, rfl, rfl⟩
      · have e1 : callIssue env x [] w = ([.issued x []], .ok (), w1) := by simp [callIssue, h]
        rw [Prog.bind_ok e1]
        rcases ih w1 with ⟨h1, h2⟩ | ⟨e, before, y, after, h1, h2, h3⟩
        · refine Or.inl ⟨h1, ?_⟩
          simp only; rw [h2]; rfl
        · refine Or.inr ⟨e, x :: before, y, after, h1, by rw [h2]; rfl, ?_⟩
          simp only; rw [h3]; rfl
  rcases key range w with ⟨h1, h2⟩ | ⟨e, before, x, after, h1, h2, h3⟩
  · refine Or.inl ⟨h1, ?_⟩
    show (rangeLoop env range w).1 ++ _ = _
    rw [h2]; rfl
  · refine Or.inr ⟨e, before, x, after, h1, h2, ?_⟩
    show (rangeLoop env range w).1 ++ _ = _
    rw [h3]; rfl

/-! ## C37 -/

variable [FloatOps D]

/-- C37: a call of `sample` that returns has issued exactly `n` samples.  In every run - also one that ends
with an exception, which has issued at most `n` - each sample carries its own log likelihood under the key
"relative log likelihood" and, under "sample is repeated", whether the proposal of this step was
rejected: then the sample is the previous one (the starting point, for the first sample), otherwise it is the
proposal of this step. -/
theorem C37_samples (env : World W S D E) (L : S → D) (hL : LikelihoodIs env L) (start : S) (n : Nat) (w : W) :
    (issuedOf (mhSample env start n w).1).length ≤ n ∧
    (∀ last, (mhSample env start n w).2.1 = .ok last → (issuedOf (mhSample env start n w).1).length = n) ∧
    (∀ (k : Nat) (x : S) (aux : Aux D), (issuedOf (mhSample env start n w).1)[k]? = some (x, aux) →
      ∃ (rep : Bool) (prev y : S) (r : D),
        aux = [("relative log likelihood", .real (L x)), ("sample is repeated", .flag rep)] ∧
        (start :: (issuedOf (mhSample env start n w).1).map Prod.fst)[k]? = some prev ∧
        (proposalsOf (mhSample env start n w).1)[k]? = some (prev, [], y, r) ∧
        x = if rep then prev else y) := by
  obtain ⟨moves, h1, h2, h3, h4, h5, h6⟩ := mhSample_issued env L hL start n w
  refine ⟨by rw [h4]; simpa using h3, ?_, ?_⟩
  · intro last h; rw [h4]; simpa using (h6 last h).1
  · intro k x aux hk
    rw [h4, List.getElem?_map, Option.map_eq_some_iff] at hk
    obtain ⟨m, hm, he⟩ := hk
    simp only [Prod.mk.injEq] at he
    obtain ⟨rfl, rfl⟩ := he
    refine ⟨!m.accepted, m.prev, m.trial, m.ratio, rfl, ?_, h5 k m hm, ?_⟩
    · rw [h4]
      have := h1.prev k m hm
      simpa [List.map_map, Function.comp_def] using this
    · unfold Move.next; cases m.accepted <;> rfl

/-! ## C38 -/

/-- C38: a run that returns consists of the evaluation of the likelihood of the starting point, `n` moves, each
starting where the previous one ended, and each accepted or rejected according to the documented rule with
fresh random numbers, and the final flushes.  Nothing else happens. -/
theorem C38_chain (env : World W S D E) (L : S → D) (hL : LikelihoodIs env L) (start : S) (n : Nat) (w : W)
    (last : S) (hr : (mhSample env start n w).2.1 = .ok last) :
    ∃ moves : List (Move S D), moves.length = n ∧ Linked start moves ∧
      (∀ m ∈ moves, AcceptRule hasZeroProbability (L m.trial) (L m.prev) m.ratio m.draws m.accepted) ∧
      (mhSample env start n w).1 =
        .logLikelihood start (L start) :: (moves.flatMap (Move.events L) ++ [.flushed, .flushed]) ∧
      last = endOf start moves := by
  rcases mhSample_run env L hL start n w with ⟨e, h1, -⟩ | ⟨moves, tail, h1, h2, -, ⟨e, h4, -⟩ | ⟨h4, h5, h6⟩⟩
  · rw [h1] at hr; cases hr
  · rw [h4] at hr; cases hr
  · rw [h4] at hr; cases hr
    exact ⟨moves, h5, h1, h2, h6, rfl⟩

open FloatOps in
/-- C38: in a run with an arithmetic for which `a - log(1) = a` (exact arithmetic, and IEEE doubles, where `log(1)` is exactly 0), a proposal with ratio 1 that is more likely
than the current sample (and not of zero probability) is always accepted, without drawing a random number. -/
theorem C38_uphill_accepted (env : World W S D E) (L : S → D) (hL : LikelihoodIs env L) (start : S) (n : Nat) (w : W)
    (hops : ∀ a : D, sub a (log one) = a) (last : S) (hr : (mhSample env start n w).2.1 = .ok last) :
    ∃ moves : List (Move S D), moves.length = n ∧ Linked start moves ∧
      (mhSample env start n w).1 =
        .logLikelihood start (L start) :: (moves.flatMap (Move.events L) ++ [.flushed, .flushed]) ∧
      ∀ m ∈ moves, m.ratio = one → hasZeroProbability (L m.trial) = false → lt (L m.prev) (L m.trial) = true →
        m.accepted = true ∧ m.draws = [] ∧ m.next = m.trial := by
  obtain ⟨moves, h1, h2, h3, h4, -⟩ := C38_chain env L hL start n w last hr
  refine ⟨moves, h1, h2, h4, ?_⟩
  intro m hm hone hz hlt
  have h := h3 m hm
  have : m.accepted = true ∧ m.draws = [] := by
    rw [hone] at h
    cases m with
    | mk prev trial ratio draws accepted =>
      simp only at h hz hlt ⊢
      cases h with
      | zeroReject h1 | zeroWalk u h1 | zeroUp u h1 | zeroRatio u u' h1 => rw [hz] at h1; cases h1
      | up => exact ⟨rfl, rfl⟩
      | ratio u h1 h4 => rw [hops, hlt] at h4; cases h4
  exact ⟨this.1, this.2, by rw [Move.next, this.1]; rfl⟩

/-! ## C39 -/

/-- C39: from the first sample with nonzero probability on (the starting point or any issued sample), all
samples have nonzero probability. -/
theorem C39_never_back_to_zero (env : World W S D E) (L : S → D) (hL : LikelihoodIs env L) (start : S) (n : Nat)
    (w : W) (i j : Nat) (x y : S) (hij : i ≤ j)
    (hi : (start :: (issuedOf (mhSample env start n w).1).map Prod.fst)[i]? = some x)
    (hj : (start :: (issuedOf (mhSample env start n w).1).map Prod.fst)[j]? = some y)
    (hx : hasZeroProbability (L x) = false) : hasZeroProbability (L y) = false := by
  obtain ⟨moves, h1, h2, -, h4, -, -⟩ := mhSample_issued env L hL start n w
  rw [h4, List.map_map] at hi hj
  have good : ∀ m ∈ moves, hasZeroProbability (L m.prev) = false → hasZeroProbability (L m.next) = false := by
    intro m hm hp
    unfold Move.next
    by_cases ha : m.accepted = true
    · rw [if_pos ha]; exact AcceptRule.nonzero (h2 m hm) hp ha
    · rw [if_neg ha]; exact hp
  cases j with
  | zero =>
    have : i = 0 := by omega
    subst this
    rw [hi] at hj; cases hj; exact hx
  | succ j =>
    simp only [List.getElem?_cons_succ, List.getElem?_map, Option.map_eq_some_iff] at hj
    obtain ⟨mj, hmj, hy⟩ := hj
    simp only [Function.comp] at hy
    subst hy
    cases i with
    | zero =>
      simp only [List.getElem?_cons_zero, Option.some.injEq] at hi
      subst hi
      exact h1.stays (fun s => hasZeroProbability (L s) = false) good hx mj (List.mem_of_getElem? hmj)
    | succ i =>
      simp only [List.getElem?_cons_succ, List.getElem?_map, Option.map_eq_some_iff] at hi
      obtain ⟨mi, hmi, hx'⟩ := hi
      simp only [Function.comp] at hx'
      subst hx'
      by_cases hij' : i = j
      · subst hij'; rw [hmi] at hmj; cases hmj; exact hx
      · have hl := h1.drop i mi hmi
        refine hl.stays (fun s => hasZeroProbability (L s) = false)
          (fun m hm => good m (List.mem_of_mem_drop hm)) hx mj ?_
        apply List.mem_of_getElem? (i := j - (i + 1))
        rw [List.getElem?_drop]
        rw [show i + 1 + (j - (i + 1)) = j by omega]
        exact hmj

/-! ## C40 -/

omit [FloatOps D] in
/-- C40 for Range: on every exit path the consumers are flushed, and this is the last thing that happens. -/
theorem C40_range (env : World W S D E) (range : List S) (w : W) :
    EndsWithFlush (rangeSample env range w).1 :=
  endsWithFlush_scopeExit env (NoFlush.rangeLoop env range) w

/-- C40 for MetropolisHastings, whatever throws wherever. -/
theorem C40_metropolisHastings (env : World W S D E) (start : S) (n : Nat) (w : W) :
    EndsWithFlush (mhSample env start n w).1 := by
  have := endsWithFlush_scopeExit' env (p := callLogLikelihood env start >>= fun ll => mhLoop env n start ll)
    (NoFlush.bind (NoFlush.logLikelihood env start) (fun ll => NoFlush.mhLoop env n start ll)) w
  rw [Prog.bind_assoc'] at this
  exact this

/-! ## C41 -/

/-- C41: sampling `n` and then, with the same object (its random number generator keeps its state), `m` more
samples from where the first call ended issues the same samples as sampling `n + m` at once.  Premises: the
log likelihood is a function that neither throws nor changes anything, and flushing changes nothing (synchronous
consumers); the proposal function, the random numbers and the consumers are arbitrary, and may throw. -/
theorem C41_continue (env : World W S D E) (L : S → D)
    (hL : ∀ x w, env.logLikelihood x w = (.ok (L x), w)) (hF : ∀ w, env.flush w = w)
    (start : S) (n m : Nat) (w : W) :
    issuedOf ((mhSample env start n >>= fun last => mhSample env last m) w).1 =
      issuedOf (mhSample env start (n + m) w).1 ∧
    ((mhSample env start n >>= fun last => mhSample env last m) w).2 = (mhSample env start (n + m) w).2 := by
  have run : ∀ (n : Nat) (start : S) (w : W), mhSample env start n w =
      match mhLoop env n start (L start) w with
      | (tr, .error e, w') => (.logLikelihood start (L start) :: (tr ++ [.flushed]), .error e, w')
      | (tr, .ok last, w') => (.logLikelihood start (L start) :: (tr ++ [.flushed, .flushed]), .ok last, w') := by
    intro n start w
    unfold mhSample Prog.withScopeExit
    have e1 := callLogLikelihood_pure (env := env) hL start w
    rw [Prog.bind_ok e1]
    rcases h : mhLoop env n start (L start) w with ⟨tr, (e | last), w'⟩
    · simp only; rw [Prog.bind_error h]; simp [scopeExitFlush, hF]
    · simp only; rw [Prog.bind_ok h]
      have e2 : callFlush env w' = ([.flushed], .ok (), w') := by simp [callFlush, hF]
      simp only; rw [Prog.bind_ok e2]
      simp [scopeExitFlush, hF, Prog.pure_run]
  have ll1 : ∀ (x : S) (l : List (Event S D)), issuedOf (.logLikelihood x (L x) :: l) = issuedOf l :=
    fun _ _ => rfl
  have fl1 : ∀ (l : List (Event S D)), issuedOf (l ++ [.flushed]) = issuedOf l := by
    intro l; rw [issuedOf_append]; simp [issuedOf]
  have fl2 : ∀ (l : List (Event S D)), issuedOf (l ++ [.flushed, .flushed]) = issuedOf l := by
    intro l; rw [issuedOf_append]; simp [issuedOf]
  have h0 := mhLoop_split env L hL n m start w
  have h1 := run n start w
  have h2 := run (n + m) start w
  rw [h0] at h2
  rcases h : mhLoop env n start (L start) w with ⟨tr, (e | last), w'⟩
  · rw [h] at h1
    rw [Prog.bind_error h] at h2
    simp only at h1 h2
    rw [Prog.bind_error h1, h2]
    exact ⟨rfl, rfl⟩
  · rw [h] at h1
    rw [Prog.bind_ok h] at h2
    simp only at h1 h2
    rw [Prog.bind_ok h1, h2, run m last w']
    rcases mhLoop env m last (L last) w' with ⟨tr', (e | last'), w''⟩
    · simp only
      refine ⟨?_, trivial⟩
      rw [issuedOf_append, ll1, ll1, ll1, fl1, fl1, fl2, issuedOf_append]
    · simp only
      refine ⟨?_, trivial⟩
      rw [issuedOf_append, ll1, ll1, ll1, fl2, fl2, fl2, issuedOf_append]

/-! ### Instances: concrete cases that meet the hypotheses of the theorems above -/

section

/-- the arithmetic of Model/Toy.lean, but the logarithm of 1 is 0 -/
@[reducible] def toyOpsLog : FloatOps Int := { toyOps with log := fun a => a - 1 }

attribute [local instance] toyOpsLog

theorem toy_likelihood {E : Type} : LikelihoodIs (toyWorld (E := E)) (fun x => x) := by
  rintro x w d w' h
  simp only [toyWorld, Prod.mk.injEq, Except.ok.injEq] at h
  exact h.1.symm

example := C37_samples (toyWorld (E := Empty)) (fun x => x) toy_likelihood 10 3 [5, 20, 30]
example := C38_chain (toyWorld (E := Empty)) (fun x => x) toy_likelihood 10 3 [5, 20, 30] _ rfl
example := C38_uphill_accepted (toyWorld (E := Empty)) (fun x => x) toy_likelihood 10 3 [5, 20, 30] (by intro a; show a - (1 - 1) = a; omega) _ rfl
example : hasZeroProbability (12 : Int) = false :=
  C39_never_back_to_zero (toyWorld (E := Empty)) (fun x => x) toy_likelihood (-1000) 1012 [] 1000 1012 0 12 (by decide) (by decide +kernel) (by decide +kernel) (by decide)
example := C41_continue (toyWorld (E := Empty)) (fun x => x) (fun _ _ => rfl) (fun _ => rfl) 10 3 4 [5, 20, 30]

end

end SampleFlow
