import Verif.Proofs.DESafe
import Verif.Model.Toy

/-!
# Properties C40, C48, C49, C51: DifferentialEvaluationMetropolisHastings

With synchronous execution; see Props/DEAsync for asynchronous execution.  The theorems hold for every arithmetic,
every world and every exception.
-/

universe u

namespace SampleFlow

open Spec

variable {W : Type u} {S D E : Type}

/-! ## C51 -/

section
variable [FloatOps D]

/-- C51: a run that returns consists of the evaluations of the likelihoods of the starting points, the
generations, and one flush.  Every generation but the last has a step for every chain; altogether there are
`n` steps; what happens in a generation is described by `generationEvents`, and that every step starts from, and
does the crossover with, the samples of the previous generation, and when there is a crossover, by
`DEMove.Valid`. -/
theorem C51_generations (env : World W S D (Stop E)) (L : S → D) (hL : LikelihoodIs env L) (starts : List S)
    (gap n : Nat) (w : W) (hr : (deSample env starts gap n w).2.1 = .ok ()) :
    ∃ gens : List (List (DEMove S D)), GenerationsFrom L gap 0 starts gens ∧ FullButLast starts.length gens ∧
      gens.flatten.length = n ∧
      (deSample env starts gap n w).1 = starts.map (fun x => .logLikelihood x (L x)) ++
        gens.flatMap (generationEvents L starts.length) ++ [.flushed] := by
  unfold deSample at hr ⊢
  by_cases hn : starts.length ≥ 3
  · rw [if_pos hn] at hr ⊢
    unfold Prog.withScopeExit at hr ⊢
    simp only at hr ⊢
    rcases h : (deInitial env starts >>= fun lls => deLoop env gap n starts.length n 0 ⟨starts, starts, lls⟩) w with
      ⟨tr, (e | ⟨⟩), w'⟩
    · rw [h] at hr; cases hr
    · obtain ⟨tr1, lls, w1, tr2, h1, h2, rfl⟩ := Prog.bind_ok_inv h
      obtain ⟨rfl, rfl⟩ := deInitial_inv env L hL starts w w1 tr1 lls h1
      obtain ⟨gens, i1, i2, i3, rfl⟩ := deLoop_inv env L hL gap n starts.length (by omega) n 0
        ⟨starts, starts, starts.map L⟩ (by omega) (DEOk.initial L starts) w1 w' tr2 () h2
      exact ⟨gens, i1, i2, by simpa using i3, rfl⟩
  · rw [if_neg hn] at hr; cases hr

/-! ## C48 -/

/-- C48: a call of `sample` that returns has issued exactly `n` samples.  In every run - also one that ends with an
exception, which has issued at most `n` - sample number `k` carries its own log likelihood and the chain number
`k mod n_chains`. -/
theorem C48_samples (env : World W S D (Stop E)) (L : S → D) (hL : LikelihoodIs env L) (starts : List S)
    (gap n : Nat) (w : W) :
    (issuedOf (deSample env starts gap n w).1).length ≤ n ∧
    ((deSample env starts gap n w).2.1 = .ok () → (issuedOf (deSample env starts gap n w).1).length = n) ∧
    (∀ (k : Nat) (x : S) (aux : Aux D), (issuedOf (deSample env starts gap n w).1)[k]? = some (x, aux) →
      ∃ rep : Bool, aux = [("relative log likelihood", .real (L x)), ("sample is repeated", .flag rep),
        ("chain number", .index (k % starts.length))]) := by
  have hfl : issuedOf ([.flushed] : List (Event S D)) = [] := rfl
  refine ⟨?_, ?_, ?_⟩
  rotate_left
  · intro hr
    obtain ⟨gens, -, -, h3, h4⟩ := C51_generations env L hL starts gap n w hr
    have hini : ∀ l : List S, issuedOf (l.map (fun x => Event.logLikelihood x (L x))) = [] := by
      intro l; induction l with
      | nil => rfl
      | cons x l ih => exact ih
    have hmoves : ∀ g : List (DEMove S D), issuedOf (g.flatMap (DEMove.events L starts.length)) = [] := by
      intro g; induction g with
      | nil => rfl
      | cons m g ih =>
        rw [List.flatMap_cons, issuedOf_append, ih, List.append_nil]
        unfold DEMove.events DEMove.trialEvents
        cases m.crossing <;> rfl
    have hiss : ∀ (g : List (DEMove S D)) (c : Nat), (issuedOf (issueEvents L c g)).length = g.length := by
      intro g; induction g with
      | nil => intro c; rfl
      | cons m g ih => intro c; exact congrArg (· + 1) (ih (c + 1))
    have hgens : ∀ gens : List (List (DEMove S D)),
        (issuedOf (gens.flatMap (generationEvents L starts.length))).length = gens.flatten.length := by
      intro gens; induction gens with
      | nil => rfl
      | cons g gens ih =>
        rw [List.flatMap_cons, issuedOf_append, List.length_append, ih, List.flatten_cons, List.length_append]
        unfold generationEvents
        rw [issuedOf_append, hmoves, List.nil_append, hiss]
    rw [h4, issuedOf_append, issuedOf_append, hini, hfl, List.nil_append, List.append_nil, hgens, h3]
  all_goals
    unfold deSample
    by_cases hn : starts.length ≥ 3
    · rw [if_pos hn]
      unfold Prog.withScopeExit
      simp only [scopeExitFlush, issuedOf_append, hfl, List.append_nil]
      have hs : Silent (deInitial env starts) := by
        intro w
        induction starts generalizing w with
        | nil => rfl
        | cons x xs ih =>
          unfold deInitial
          clear hn
          have hxs : ∀ w, issuedOf (deInitial env xs w).1 = [] := by
            clear ih
            induction xs with
            | nil => intro w; rfl
            | cons y ys ih2 =>
              intro w
              unfold deInitial
              exact Silent.bind (Silent.logLikelihood env y) (fun d => Silent.bind ih2 (fun ds => Silent.pure _)) w
          exact Silent.bind (Silent.logLikelihood env x) (fun d => Silent.bind hxs (fun ds => Silent.pure _)) w
      have hs' := hs w
      rcases h1 : deInitial env starts w with ⟨tr1, (e | lls), w1⟩
      · rw [h1] at hs'
        rw [Prog.bind_error h1]
        simp only [hs']
        simp
      · rw [h1] at hs'
        obtain ⟨rfl, -⟩ := deInitial_inv env L hL starts w w1 tr1 lls h1
        rw [Prog.bind_ok h1]
        simp only [issuedOf_append, hs', List.nil_append]
        obtain ⟨i1, i2⟩ := deLoop_issues env L hL gap n starts.length n 0
          ⟨starts, starts, starts.map L⟩ (DEOk.initial L starts) w1
        first
        | (rw [Nat.zero_mul, Nat.sub_zero] at i2; exact i2)
        | (intro k x aux hk; have := i1 k x aux hk; rwa [Nat.zero_add] at this)
    · rw [if_neg hn]
      simp [Prog.throw, issuedOf]

/-! ## C40 -/

omit [FloatOps D] in
theorem NoFlush.atIndex {α : Type} (l : List α) (i : Nat) : NoFlush (atIndex l i : Prog W S D (Stop E) α) := by
  unfold SampleFlow.atIndex
  cases l[i]? with
  | none => exact NoFlush.throw _
  | some a => exact NoFlush.pure a

theorem NoFlush.deCreate (env : World W S D (Stop E)) (gap N gen n : Nat) (left : Nat) :
    ∀ (c : Nat) (st : DEState S D), NoFlush (deCreate env gap N gen n left c st) := by
  induction left with
  | zero => intro c st; exact NoFlush.pure _
  | succ left ih =>
    intro c st
    unfold SampleFlow.deCreate
    refine NoFlush.ite (NoFlush.pure _) (NoFlush.bind ?_ (fun t => NoFlush.bind ?_ (fun r =>
      NoFlush.bind (ih _ _) (fun rs => NoFlush.pure _))))
    · unfold deMakeTask
      refine NoFlush.bind ?_ (fun _ => NoFlush.bind (NoFlush.draw env) (fun _ => NoFlush.pure _))
      unfold deTrial
      refine NoFlush.ite ?_ ?_
      · exact NoFlush.bind (NoFlush.drawInt env _) (fun _ => NoFlush.bind (NoFlush.atIndex _ _) (fun _ =>
          NoFlush.bind (NoFlush.drawInt env _) (fun _ => NoFlush.bind (NoFlush.atIndex _ _) (fun _ =>
          NoFlush.bind (NoFlush.atIndex _ _) (fun _ => NoFlush.bind (NoFlush.crossover env _ _ _) (fun _ =>
          NoFlush.propose env _ _))))))
      · exact NoFlush.bind (NoFlush.atIndex _ _) (fun _ => NoFlush.propose env _ _)
    · have h : NoFlush (deRunTask env c t st) := by
        unfold deRunTask
        exact NoFlush.bind (NoFlush.logLikelihood env _) (fun _ => NoFlush.bind (NoFlush.atIndex _ _) (fun _ =>
          NoFlush.ite (NoFlush.pure _) (NoFlush.bind (NoFlush.atIndex _ _) (fun _ => NoFlush.pure _))))
      intro w
      have h := h w
      unfold deRunCaptured
      rcases h1 : deRunTask env c t st w with ⟨tr, ((e | f) | ⟨acc, st'⟩), w'⟩ <;> rw [h1] at h <;> exact h

omit [FloatOps D] in
theorem NoFlush.deIssue (env : World W S D (Stop E)) (N gen n : Nat) (results : List (Except E Bool))
    (st : DEState S D) (left : Nat) : ∀ c, NoFlush (deIssue env N gen n results st left c) := by
  induction left with
  | zero => intro c; exact NoFlush.pure _
  | succ left ih =>
    intro c
    unfold SampleFlow.deIssue
    refine NoFlush.ite (NoFlush.pure _) (NoFlush.bind (NoFlush.atIndex _ _) (fun r => NoFlush.bind ?_ (fun _ =>
      NoFlush.bind (NoFlush.atIndex _ _) (fun _ => NoFlush.bind (NoFlush.atIndex _ _) (fun _ =>
      NoFlush.bind (NoFlush.issue env _ _) (fun _ => ih _))))))
    cases r with
    | ok a => exact NoFlush.pure a
    | error e => exact NoFlush.throw _

theorem NoFlush.deLoop (env : World W S D (Stop E)) (gap N n : Nat) (fuel : Nat) :
    ∀ (gen : Nat) (st : DEState S D), NoFlush (deLoop env gap N n fuel gen st) := by
  induction fuel with
  | zero => intro gen st; exact NoFlush.pure _
  | succ fuel ih =>
    intro gen st
    unfold SampleFlow.deLoop
    refine NoFlush.ite (NoFlush.bind ?_ (fun _ => ih _ _)) (NoFlush.pure _)
    unfold deGeneration
    exact NoFlush.bind (NoFlush.deCreate env _ _ _ _ _ _ _) (fun _ => NoFlush.bind (NoFlush.deIssue env _ _ _ _ _ _ _)
      (fun _ => NoFlush.pure _))

omit [FloatOps D] in
theorem NoFlush.deInitial (env : World W S D (Stop E)) (xs : List S) : NoFlush (deInitial env xs) := by
  induction xs with
  | nil => exact NoFlush.pure _
  | cons x xs ih => exact NoFlush.bind (NoFlush.logLikelihood env _) (fun _ => NoFlush.bind ih (fun _ => NoFlush.pure _))

/-- C40 for DifferentialEvaluationMetropolisHastings (with at least the three chains it asserts), whatever throws
wherever. -/
theorem C40_differentialEvaluation (env : World W S D (Stop E)) (starts : List S) (hn : 3 ≤ starts.length)
    (gap n : Nat) (w : W) : EndsWithFlush (deSample env starts gap n w).1 := by
  unfold deSample
  rw [if_pos hn]
  exact endsWithFlush_scopeExit env (NoFlush.bind (NoFlush.deInitial env starts)
    (fun _ => NoFlush.deLoop env _ _ _ _ _ _)) w

/-! ## C49 -/

/-- C49 (partial): with user functions and consumers that fail only by throwing exceptions, and random integers in
the requested ranges, `sample` never indexes out of bounds and no assertion fails, whatever the draws.  In
particular the crossover partners exist.  (C51 states which chains they are.  What is missing for the full
property: that the second partner differs from the first and from the chain; this is false, see below.) -/
theorem C49_in_range_partial (env : World W S D (Stop E)) (h : Polite env) (starts : List S) (hn : 3 ≤ starts.length)
    (gap n : Nat) (w : W) (f : Fault) : (deSample env starts gap n w).2.1 ≠ .error (.fault f) :=
  deSample_safe h starts hn gap n w f

end

/-- C49 (partial): which chains are picked from the random numbers `a0` and `b0`, for every number of
chains and every chain: the first partner is the `a0`-th of the other chains; the second is in range, and it is the
chain itself or the first partner exactly if `b0 + 1` is the larger of the two, in which case it is this larger one; in all other cases it
is, as it should be, the `b0`-th of the remaining chains. -/
theorem C49_partners_partial (n chain a0 b0 : Nat) (hn : 3 ≤ n) (ha : a0 ≤ n - 2) (hb : b0 ≤ n - 3) :
    (otherChains n chain)[a0]? = some (partnerA chain a0) ∧
    partnerB chain (partnerA chain a0) b0 < n ∧
    ((partnerB chain (partnerA chain a0) b0 = partnerA chain a0 ∨
      partnerB chain (partnerA chain a0) b0 = chain) ↔ b0 + 1 = max (partnerA chain a0) chain) ∧
    (if b0 + 1 = max (partnerA chain a0) chain then partnerB chain (partnerA chain a0) b0 = max (partnerA chain a0) chain
      else ((otherChains n chain).filter (fun k => k != partnerA chain a0))[b0]? = some (partnerB chain (partnerA chain a0) b0)) :=
  ⟨otherChains_get n chain a0 (partnerA_lt hn ha), partnerB_lt hn hb,
    partnerB_forbidden chain _ b0 (partnerA_ne chain a0), partnerB_get n chain _ b0 (partnerA_ne chain a0) (partnerB_lt hn hb)⟩

/-- C49 (violated): for every number of chains and every chain but the last one, some random numbers in the
requested ranges make the second partner equal to the first one or to the chain itself. -/
theorem C49_violation (n chain : Nat) (hn : 3 ≤ n) (hc : chain + 1 < n) :
    ∃ a0 b0, a0 ≤ n - 2 ∧ b0 ≤ n - 3 ∧
      (partnerB chain (partnerA chain a0) b0 = partnerA chain a0 ∨
        partnerB chain (partnerA chain a0) b0 = chain) := by
  by_cases h0 : chain = 0
  · subst h0
    exact ⟨0, 0, by omega, by omega, Or.inl (by decide)⟩
  · refine ⟨0, chain - 1, by omega, by omega, Or.inr ?_⟩
    have h1 : partnerA chain 0 = 0 := by unfold partnerA; rw [if_neg (by omega)]
    rw [h1]
    unfold partnerB
    rw [if_neg (by omega), if_pos (by omega)]
    omega

/-- C49 (violated): consequently some pairs of chains are never picked.  With three chains, chain 0 always has chain 1
as its second partner, whatever the random numbers: of the two possible pairs of partners, (1,2) never occurs, so
that the crossover is not symmetric in its partners. -/
theorem C49_violation_three_chains (a0 b0 : Nat) (ha : a0 ≤ 1) (hb : b0 ≤ 0) :
    partnerB 0 (partnerA 0 a0) b0 = 1 ∧ (partnerA 0 a0 = 1 ∨ partnerA 0 a0 = 2) := by
  have hb' : b0 = 0 := by omega
  subst hb'
  have : a0 = 0 ∨ a0 = 1 := by omega
  rcases this with rfl | rfl <;> decide

/-! ## examples -/

section
local instance deExampleOps : FloatOps Int := toyOps

/-- the premises of the theorems are met by the toy world -/
theorem toy_likelihood_de : LikelihoodIs (toyWorld (E := Stop Empty)) (fun x => x) := by
  rintro x w d w' h
  simp only [toyWorld, Prod.mk.injEq, Except.ok.injEq] at h
  exact h.1.symm

theorem toy_polite : Polite (toyWorld (E := Stop Empty)) where
  ll := by intro x w f w'; simp [toyWorld]
  propose := by intro x l w f w'; simp [toyWorld]
  crossover := by intro x a b w f w'; simp [toyWorld]
  issue := by intro x a w f w'; simp [toyWorld]
  int := by intro k w; simp only [toyWorld]; exact Nat.min_le_left _ _

/-- A run with three chains and five samples: in the second generation (incomplete) there are crossovers; the one of
chain 0 uses chain 1 twice, although there is a chain 2. -/
example : (deSample (toyWorld (E := Stop Empty)) [10, 20, 30] 1 5 [0, 9, 1, 0, 0, 1, 1, 0, 2]).1 =
    [.logLikelihood 10 10, .logLikelihood 20 20, .logLikelihood 30 30,
     .proposed 10 [] 11 1, .drew 0, .logLikelihood 11 11,
     .proposed 20 [] 21 1, .drew 9, .logLikelihood 21 21,
     .proposed 30 [] 31 1, .drew 1, .logLikelihood 31 31,
     .issued 11 [("relative log likelihood", .real 11), ("sample is repeated", .flag false), ("chain number", .index 0)],
     .issued 20 [("relative log likelihood", .real 20), ("sample is repeated", .flag true), ("chain number", .index 1)],
     .issued 31 [("relative log likelihood", .real 31), ("sample is repeated", .flag false), ("chain number", .index 2)],
     .drewInt 1 0, .drewInt 0 0, .crossed 11 20 20 11, .proposed 11 [] 12 1, .drew 1, .logLikelihood 12 12,
     .drewInt 1 1, .drewInt 0 0, .crossed 20 31 11 40, .proposed 40 [] 41 1, .drew 2, .logLikelihood 41 41,
     .issued 12 [("relative log likelihood", .real 12), ("sample is repeated", .flag false), ("chain number", .index 0)],
     .issued 41 [("relative log likelihood", .real 41), ("sample is repeated", .flag false), ("chain number", .index 1)],
     .flushed] := rfl

/-! ### Instances: concrete cases that meet the hypotheses of the theorems above -/

example := C51_generations (E := Empty) toyWorld (fun x => x) toy_likelihood_de [10, 20, 30] 1 5 [0, 9, 1, 0, 0, 1, 1, 0, 2] rfl
example := C48_samples (E := Empty) toyWorld (fun x => x) toy_likelihood_de [10, 20, 30] 1 5 [0, 9, 1, 0, 0, 1, 1, 0, 2]
example := C40_differentialEvaluation (E := Empty) toyWorld [10, 20, 30] (by decide) 1 5 [0, 9, 1, 0, 0, 1, 1, 0, 2]
example := C49_in_range_partial (E := Empty) toyWorld toy_polite [10, 20, 30] (by decide) 1 5 [0, 9, 1, 0, 0, 1, 1, 0, 2]
example := C49_partners_partial 5 2 3 1 (by decide) (by decide) (by decide)
example := C49_violation 5 2 (by decide) (by decide)
example := C49_violation_three_chains 1 0 (by decide) (by decide)

end

end SampleFlow
