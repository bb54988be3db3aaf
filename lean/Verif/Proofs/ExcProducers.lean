import Verif.Model.ExcProducers
import Verif.Spec.ExcProducers
import Verif.Props.ExcNetwork
import Verif.Proofs.DifferentialEvaluation

set_option linter.unusedSectionVars false

universe u

namespace SampleFlow.Exc

open Spec SampleFlow.Spec

variable {U : Type u} {S D E X : Type}

/-- nothing is issued and the network does not change -/
def Silent {α : Type} (p : Prog (U × List (Node (S × Aux D) E)) S D X α) : Prop :=
  ∀ w, issuedOf (p w).1 = [] ∧ (p w).2.2.2 = w.2

/-- the network has received what was issued; if it throws, for the last sample, then this is the result -/
def Feeds {α : Type} (inj : E → X) (p : Prog (U × List (Node (S × Aux D) E)) S D X α) : Prop :=
  ∀ w, (produce w.2 (issuedOf (p w).1) = (none, (p w).2.2.2)) ∨
    ∃ before x e, issuedOf (p w).1 = before ++ [x] ∧ (produce w.2 before).1 = none ∧
      produce w.2 (before ++ [x]) = (some e, (p w).2.2.2) ∧ (p w).2.1 = .error (inj e)

theorem produce_append {V : Type} (xs : List V) : ∀ (net net1 : List (Node V E)) (ys : List V), produce net xs = (none, net1) →
    produce net (xs ++ ys) = produce net1 ys := by
  induction xs with
  | nil => intro net net1 ys h; rw [produce] at h; cases h; rfl
  | cons x xs ih =>
    intro net net1 ys h
    rw [produce] at h
    rw [List.cons_append, produce]
    rcases hi : issueSample net x with ⟨(_ | e), n1⟩
    · rw [hi] at h; exact ih _ _ _ h
    · rw [hi] at h; cases h

variable {inj : E → X}

theorem Silent.feeds {α : Type} {p : Prog (U × List (Node (S × Aux D) E)) S D X α} (h : Silent p) : Feeds inj p := by
  intro w
  obtain ⟨h1, h2⟩ := h w
  left
  rw [h1, h2, produce]

theorem Feeds.pure {α : Type} (a : α) : Feeds inj (Pure.pure a : Prog (U × List (Node (S × Aux D) E)) S D X α) :=
  Silent.feeds (fun _ => ⟨rfl, rfl⟩)

theorem Feeds.throw {α : Type} (x : X) : Feeds inj (Prog.throw x : Prog (U × List (Node (S × Aux D) E)) S D X α) :=
  Silent.feeds (fun _ => ⟨rfl, rfl⟩)

theorem Silent.pure {α : Type} (a : α) : Silent (Pure.pure a : Prog (U × List (Node (S × Aux D) E)) S D X α) :=
  fun _ => ⟨rfl, rfl⟩

theorem Silent.throw {α : Type} (x : X) : Silent (Prog.throw x : Prog (U × List (Node (S × Aux D) E)) S D X α) :=
  fun _ => ⟨rfl, rfl⟩

theorem Silent.bind {α β : Type} {p : Prog (U × List (Node (S × Aux D) E)) S D X α}
    {f : α → Prog (U × List (Node (S × Aux D) E)) S D X β} (hp : Silent p) (hf : ∀ a, Silent (f a)) : Silent (p >>= f) := by
  intro w
  obtain ⟨a1, a2⟩ := hp w
  rcases h1 : p w with ⟨tr, (e | a), w'⟩
  · rw [Prog.bind_error h1]
    rw [h1] at a1 a2
    exact ⟨a1, a2⟩
  · rw [Prog.bind_ok h1]
    rw [h1] at a1 a2
    obtain ⟨b1, b2⟩ := hf a w'
    simp only at a1 a2 ⊢
    exact ⟨by rw [issuedOf_append, a1, b1]; rfl, by rw [b2, a2]⟩

theorem Silent.ite {α : Type} {c : Prop} [Decidable c] {p q : Prog (U × List (Node (S × Aux D) E)) S D X α} (hp : Silent p)
    (hq : Silent q) : Silent (if c then p else q) := by
  split <;> assumption

theorem Feeds.bind {α β : Type} {p : Prog (U × List (Node (S × Aux D) E)) S D X α}
    {f : α → Prog (U × List (Node (S × Aux D) E)) S D X β} (hp : Feeds inj p) (hf : ∀ a, Feeds inj (f a)) :
    Feeds inj (p >>= f) := by
  intro w
  have h := hp w
  rcases h1 : p w with ⟨tr, (e | a), w'⟩
  · rw [Prog.bind_error h1]
    rw [h1] at h
    rcases h with h | ⟨before, x, e', a1, a2, a3, a4⟩
    · exact .inl h
    · refine .inr ⟨before, x, e', a1, a2, a3, ?_⟩
      simp only at a4 ⊢
      cases a4
      rfl
  · rw [Prog.bind_ok h1]
    rw [h1] at h
    rcases h with h | ⟨before, x, e', a1, a2, a3, a4⟩
    · simp only at h ⊢
      rw [issuedOf_append]
      rcases hf a w' with g | ⟨before, x, e', b1, b2, b3, b4⟩
      · left
        rw [produce_append _ _ _ _ h, g]
      · refine .inr ⟨issuedOf tr ++ before, x, e', by rw [b1, List.append_assoc], ?_, ?_, b4⟩
        · rw [produce_append _ _ _ _ h, b2]
        · rw [List.append_assoc, produce_append _ _ _ _ h, b3]
    · cases a4

theorem Feeds.ite {α : Type} {c : Prop} [Decidable c] {p q : Prog (U × List (Node (S × Aux D) E)) S D X α} (hp : Feeds inj p)
    (hq : Feeds inj q) : Feeds inj (if c then p else q) := by
  split <;> assumption

variable (env : World U S D X)

theorem Silent.logLikelihood (x : S) : Silent (callLogLikelihood (attachNet inj env) x) := by
  intro w
  simp only [callLogLikelihood, attachNet]
  rcases h : env.logLikelihood x w.1 with ⟨(e | d), u⟩ <;> exact ⟨rfl, rfl⟩

theorem Silent.propose (x : S) (l : List S) : Silent (callPropose (attachNet inj env) x l) := by
  intro w
  simp only [callPropose, attachNet]
  rcases h : env.propose x l w.1 with ⟨(e | ⟨y, r⟩), u⟩ <;> exact ⟨rfl, rfl⟩

theorem Silent.crossover (x a b : S) : Silent (callCrossover (attachNet inj env) x a b) := by
  intro w
  simp only [callCrossover, attachNet]
  rcases h : env.crossover x a b w.1 with ⟨(e | y), u⟩ <;> exact ⟨rfl, rfl⟩

theorem Silent.draw : Silent (draw (attachNet inj env)) := fun _ => ⟨rfl, rfl⟩

theorem Silent.drawInt (n : Nat) : Silent (drawInt (attachNet inj env) n) := fun _ => ⟨rfl, rfl⟩

theorem Feeds.issue (x : S) (a : Aux D) : Feeds inj (callIssue (attachNet inj env) x a) := by
  intro w
  rcases h : issueSample w.2 (x, a) with ⟨(_ | e), net'⟩
  · have h1 : callIssue (attachNet inj env) x a w = ([.issued x a], .ok (), (w.1, net')) := by
      simp only [callIssue, attachNet, h]
    left
    rw [h1]
    show produce w.2 [(x, a)] = _
    rw [produce, h]
    simp only [produce]
  · have h1 : callIssue (attachNet inj env) x a w = ([.issued x a], .error (inj e), (w.1, net')) := by
      simp only [callIssue, attachNet, h]
    right
    rw [h1]
    refine ⟨[], (x, a), e, rfl, by rw [produce], ?_, rfl⟩
    show produce w.2 [(x, a)] = _
    rw [produce, h]

theorem flush_issued {α : Type} {p : Prog (U × List (Node (S × Aux D) E)) S D X α}
    (w : U × List (Node (S × Aux D) E)) :
    issuedOf (Prog.withScopeExit (scopeExitFlush (attachNet inj env)) p w).1 = issuedOf (p w).1 := by
  show issuedOf ((p w).1 ++ [.flushed]) = _
  rw [issuedOf_append]
  show issuedOf (p w).1 ++ [] = _
  rw [List.append_nil]

/-- What was received before `flushes` flushes. -/
theorem received_flushes (j : Nat) (net : List (Node (S × Aux D) E)) (p : List Nat) (n : Node (S × Aux D) E) (h : nodeAt net p = some n) :
    ∃ n', nodeAt (flushConsumers^[j] net) p = some n' ∧ n'.log = n.log ++ List.replicate j .flush ∧ n'.comp = n.comp := by
  induction j generalizing net n with
  | zero => exact ⟨n, h, by simp, rfl⟩
  | succ j ih =>
    obtain ⟨n1, a1, a2, a3⟩ := flush_path net p n h
    obtain ⟨n2, b1, b2, b3⟩ := ih _ n1 a1
    refine ⟨n2, by rw [Function.iterate_succ_apply]; exact b1, ?_, by rw [b3, a3]⟩
    rw [b2, a2, List.append_assoc, List.replicate_succ]; rfl

/-- The network and the result after a body without flushes, and then some flushes that depend on whether it returned. -/
theorem outcome_of_feeds {α β : Type} {p : Prog (U × List (Node (S × Aux D) E)) S D X α} (hp : Feeds inj p)
    (w : U × List (Node (S × Aux D) E)) (hs : ∀ n ∈ w.2, n.Sync) (flushes : Nat)
    (issued : List (S × Aux D)) (result : Except X β) (net' : List (Node (S × Aux D) E))
    (hi : issued = issuedOf (p w).1)
    (hr : ∀ x, (p w).2.1 = .error x → result = .error x ∧ net' = flushConsumers (p w).2.2.2)
    (hk : ∀ a, (p w).2.1 = .ok a → (∃ b, result = .ok b) ∧ net' = flushConsumers^[flushes] (p w).2.2.2) :
    Outcome inj w.2 net' issued flushes result := by
  subst hi
  have all : ∀ (j : Nat), produce w.2 (issuedOf (p w).1) = (none, (p w).2.2.2) → net' = flushConsumers^[j] (p w).2.2.2 →
      AllDelivered w.2 net' (issuedOf (p w).1) j := by
    intro j h hn
    have h1 : sampleRange w.2 (issuedOf (p w).1) = (none, flushConsumers (p w).2.2.2) := by
      unfold sampleRange; rw [h]
    have hrun := produce_run (issuedOf (p w).1) w.2 hs
    rw [h] at hrun
    obtain ⟨g1, -, g3⟩ := hrun
    refine ⟨g3, fun q n hq => ?_⟩
    obtain ⟨m, m1, m2, m3, -⟩ := g1 q n hq
    obtain ⟨n', f1, f2, f3⟩ := received_flushes j _ q m m1
    refine ⟨n', by rw [hn]; exact f1, by rw [f2, m2], by rw [f3, m3]⟩
  rcases hp w with h | ⟨before, x, e, a1, a2, a3, a4⟩
  · rcases hres : (p w).2.1 with y | a
    · obtain ⟨b1, b2⟩ := hr y hres
      rw [b1]
      exact .user y (all 1 h b2)
    · obtain ⟨⟨b, b1⟩, b2⟩ := hk a hres
      rw [b1]
      exact .returned b (all flushes h b2)
  · obtain ⟨b1, b2⟩ := hr _ a4
    rw [b1]
    have h1 : sampleRange w.2 (before ++ [x]) = (some e, net') := by
      unfold sampleRange; rw [a3, b2]
    obtain ⟨k, y, t, c1, c2, c3, c4, c5⟩ := C61_exception w.2 hs (before ++ [x]) e net' h1
    have hbefore := produce_run before w.2 hs
    rcases hpb : produce w.2 before with ⟨o, mid⟩
    rw [hpb] at a2
    simp only at a2
    subst a2
    rw [hpb] at hbefore
    obtain ⟨-, -, d3⟩ := hbefore
    have hklen : k < (before ++ [x]).length := (List.getElem?_eq_some_iff.mp c1).1
    have hk' : k = before.length := by
      by_contra hne
      have hlt : k < before.length := by simp at hklen; omega
      have e1 : (before ++ [x]).take k = before.take k := List.take_append_of_le_length (by omega)
      rw [e1] at c2
      rw [List.getElem?_append_left hlt] at c1
      exact d3 k y c1 t e c2
    subst hk'
    have e0 : (before ++ [x]).take before.length = before := by simp
    have e1 : (before ++ [x]).take (before.length + 1) = before ++ [x] := by
      apply List.take_of_length_le; simp
    have e2 : y = x := by simpa using c1.symm
    subst e2
    rw [e0] at c2 c4
    rw [e0, e1] at c5
    refine .network t e ⟨before, y, a1, c2, d3, c4, fun q n hq => ?_⟩
    obtain ⟨n', f1, f2, f3⟩ := c5 q n hq
    exact ⟨n', f1, fun h => (f2 h), fun h => (f3 h)⟩

theorem Feeds.rangeLoop (range : List S) : Feeds inj (rangeLoop (attachNet inj env) range) := by
  induction range with
  | nil => exact Feeds.pure ()
  | cons x xs ih => exact Feeds.bind (Feeds.issue env x []) (fun _ => ih)

/-- a body and the flush of `ScopeExit` -/
theorem outcome_scopeExit {α : Type} {p : Prog (U × List (Node (S × Aux D) E)) S D X α} (hp : Feeds inj p)
    (w : U × List (Node (S × Aux D) E)) (hs : ∀ n ∈ w.2, n.Sync) :
    Outcome inj w.2 (Prog.withScopeExit (scopeExitFlush (attachNet inj env)) p w).2.2.2
      (issuedOf (Prog.withScopeExit (scopeExitFlush (attachNet inj env)) p w).1) 1
      (Prog.withScopeExit (scopeExitFlush (attachNet inj env)) p w).2.1 := by
  refine outcome_of_feeds hp w hs 1 _ _ _ (flush_issued env w) (fun x hx => ⟨hx, rfl⟩) (fun a ha => ⟨⟨a, ha⟩, rfl⟩)

/-- a body with a flush at its end and the flush of `ScopeExit` -/
theorem outcome_scopeExit' {α : Type} {p : Prog (U × List (Node (S × Aux D) E)) S D X α} (hp : Feeds inj p)
    (w : U × List (Node (S × Aux D) E)) (hs : ∀ n ∈ w.2, n.Sync) :
    Outcome inj w.2
      (Prog.withScopeExit (scopeExitFlush (attachNet inj env))
        (p >>= fun a => callFlush (attachNet inj env) >>= fun _ => Pure.pure a) w).2.2.2
      (issuedOf (Prog.withScopeExit (scopeExitFlush (attachNet inj env))
        (p >>= fun a => callFlush (attachNet inj env) >>= fun _ => Pure.pure a) w).1) 2
      (Prog.withScopeExit (scopeExitFlush (attachNet inj env))
        (p >>= fun a => callFlush (attachNet inj env) >>= fun _ => Pure.pure a) w).2.1 := by
  rw [flush_issued]
  rcases h1 : p w with ⟨tr, (e | a), w'⟩
  · have h2 : (p >>= fun a => callFlush (attachNet inj env) >>= fun _ => Pure.pure a) w = (tr, .error e, w') := Prog.bind_error h1
    refine outcome_of_feeds hp w hs 2 _ _ _ ?_ ?_ ?_
    · rw [h2, h1]
    · intro x hx
      rw [h1] at hx
      cases hx
      unfold Prog.withScopeExit
      rw [h2, h1]
      exact ⟨rfl, rfl⟩
    · intro a ha; rw [h1] at ha; cases ha
  · have h2 : (p >>= fun a => callFlush (attachNet inj env) >>= fun _ => Pure.pure a) w =
        (tr ++ [.flushed], .ok a, (w'.1, flushConsumers w'.2)) := by
      rw [Prog.bind_ok h1]
      rfl
    refine outcome_of_feeds hp w hs 2 _ _ _ ?_ ?_ ?_
    · rw [h2, h1, issuedOf_append]
      show issuedOf tr ++ [] = _
      rw [List.append_nil]
    · intro x hx; rw [h1] at hx; cases hx
    · intro a' ha
      unfold Prog.withScopeExit
      rw [h2, h1]
      exact ⟨⟨a, rfl⟩, rfl⟩

variable [FloatOps D]

theorem Silent.mhAccept (a b r : D) : Silent (mhAccept (attachNet inj env) a b r) := by
  unfold SampleFlow.mhAccept
  refine Silent.ite (Silent.bind (Silent.ite (Silent.bind (Silent.draw env) (fun _ => Silent.pure _)) (Silent.pure _))
    (fun _ => Silent.ite (Silent.pure _) (Silent.ite (Silent.pure _) (Silent.bind (Silent.draw env)
      (fun _ => Silent.pure _))))) (Silent.pure _)

theorem Feeds.mhLoop (n : Nat) : ∀ (cur : S) (ll : D), Feeds inj (mhLoop (attachNet inj env) n cur ll) := by
  induction n with
  | zero => intro cur ll; exact Feeds.pure _
  | succ n ih =>
    intro cur ll
    unfold SampleFlow.mhLoop
    refine Feeds.bind (Silent.propose env _ _).feeds (fun p => Feeds.bind (Silent.logLikelihood env _).feeds (fun d =>
      Feeds.bind (Silent.mhAccept env _ _ _).feeds (fun acc => Feeds.ite
        (Feeds.bind (Feeds.issue env _ _) (fun _ => ih _ _)) (Feeds.bind (Feeds.issue env _ _) (fun _ => ih _ _)))))

end SampleFlow.Exc

namespace SampleFlow.Exc

open Spec SampleFlow.Spec

variable {U : Type u} {S D E E' : Type} {inj : E → Stop E'} (env : World U S D (Stop E'))

theorem Silent.liftFault {α : Type} (r : Except Fault α) :
    Silent (liftFault r : Prog (U × List (Node (S × Aux D) E)) S D (Stop E') α) := by
  cases r with
  | ok a => exact Silent.pure a
  | error f => exact Silent.throw _

theorem Silent.atIndex {α : Type} (l : List α) (i : Nat) :
    Silent (atIndex l i : Prog (U × List (Node (S × Aux D) E)) S D (Stop E') α) := by
  unfold SampleFlow.atIndex
  cases l[i]? with
  | none => exact Silent.throw _
  | some a => exact Silent.pure a

variable [FloatOps D]

theorem Silent.drStages (checked : Bool) (cur : S) (ll : D) (left : Nat) : ∀ l : List (S × D),
    Silent (drStages checked (attachNet inj env) cur ll left l) := by
  induction left with
  | zero => intro l; exact Silent.pure _
  | succ left ih =>
    intro l
    unfold SampleFlow.drStages
    refine Silent.bind (Silent.propose env _ _) (fun p => Silent.bind (Silent.logLikelihood env _) (fun d =>
      Silent.bind (Silent.liftFault _) (fun a => Silent.bind (Silent.ite (Silent.pure _)
        (Silent.bind (Silent.draw env) (fun _ => Silent.pure _))) (fun acc => Silent.ite (Silent.pure _) (ih _)))))

theorem Feeds.drLoop (checked : Bool) (maxDelays : Nat) (n : Nat) : ∀ (cur : S) (ll : D),
    Feeds inj (drLoop checked (attachNet inj env) maxDelays n cur ll) := by
  induction n with
  | zero => intro cur ll; exact Feeds.pure _
  | succ n ih =>
    intro cur ll
    unfold SampleFlow.drLoop
    refine Feeds.bind (Silent.drStages env _ _ _ _ _).feeds (fun r => ?_)
    cases r with
    | none => exact Feeds.bind (Feeds.issue env _ _) (fun _ => ih _ _)
    | some p => exact Feeds.bind (Feeds.issue env _ _) (fun _ => ih _ _)

theorem Silent.deCreate (gap N gen n : Nat) (left : Nat) : ∀ (c : Nat) (st : DEState S D),
    Silent (deCreate (attachNet inj env) gap N gen n left c st) := by
  induction left with
  | zero => intro c st; exact Silent.pure _
  | succ left ih =>
    intro c st
    unfold SampleFlow.deCreate
    refine Silent.ite (Silent.pure _) (Silent.bind ?_ (fun t => Silent.bind ?_ (fun r =>
      Silent.bind (ih _ _) (fun rs => Silent.pure _))))
    · unfold deMakeTask
      refine Silent.bind ?_ (fun _ => Silent.bind (Silent.draw env) (fun _ => Silent.pure _))
      unfold deTrial
      refine Silent.ite ?_ ?_
      · exact Silent.bind (Silent.drawInt env _) (fun _ => Silent.bind (Silent.atIndex _ _) (fun _ =>
          Silent.bind (Silent.drawInt env _) (fun _ => Silent.bind (Silent.atIndex _ _) (fun _ =>
          Silent.bind (Silent.atIndex _ _) (fun _ => Silent.bind (Silent.crossover env _ _ _) (fun _ =>
          Silent.propose env _ _))))))
      · exact Silent.bind (Silent.atIndex _ _) (fun _ => Silent.propose env _ _)
    · have h : Silent (deRunTask (attachNet inj env) c t st) := by
        unfold deRunTask
        exact Silent.bind (Silent.logLikelihood env _) (fun _ => Silent.bind (Silent.atIndex _ _) (fun _ =>
          Silent.ite (Silent.pure _) (Silent.bind (Silent.atIndex _ _) (fun _ => Silent.pure _))))
      intro w
      have h := h w
      unfold deRunCaptured
      rcases h1 : deRunTask (attachNet inj env) c t st w with ⟨tr, ((e | f) | ⟨acc, st'⟩), w'⟩ <;> rw [h1] at h <;> exact h

theorem Feeds.deIssue (N gen n : Nat) (rs : List (Except E' Bool)) (st : DEState S D) (left : Nat) : ∀ c : Nat,
    Feeds inj (deIssue (attachNet inj env) N gen n rs st left c) := by
  induction left with
  | zero => intro c; exact Feeds.pure _
  | succ left ih =>
    intro c
    unfold SampleFlow.deIssue
    refine Feeds.ite (Feeds.pure _) (Feeds.bind (Silent.atIndex _ _).feeds (fun r => Feeds.bind ?_ (fun _ =>
      Feeds.bind (Silent.atIndex _ _).feeds (fun _ => Feeds.bind (Silent.atIndex _ _).feeds (fun _ =>
      Feeds.bind (Feeds.issue env _ _) (fun _ => ih _))))))
    cases r with
    | ok a => exact Feeds.pure a
    | error e => exact Feeds.throw _

theorem Feeds.deLoop (gap N n : Nat) (fuel : Nat) : ∀ (gen : Nat) (st : DEState S D),
    Feeds inj (deLoop (attachNet inj env) gap N n fuel gen st) := by
  induction fuel with
  | zero => intro gen st; exact Feeds.pure _
  | succ fuel ih =>
    intro gen st
    unfold SampleFlow.deLoop
    refine Feeds.ite (Feeds.bind ?_ (fun _ => ih _ _)) (Feeds.pure _)
    unfold deGeneration
    exact Feeds.bind (Silent.deCreate env _ _ _ _ _ _ _).feeds (fun rs => Feeds.bind (Feeds.deIssue env _ _ _ _ _ _ _)
      (fun _ => Feeds.pure _))

theorem Silent.deInitial (xs : List S) : Silent (deInitial (attachNet inj env) xs) := by
  induction xs with
  | nil => exact Silent.pure _
  | cons x xs ih => exact Silent.bind (Silent.logLikelihood env _) (fun _ => Silent.bind ih (fun _ => Silent.pure _))

end SampleFlow.Exc
