import Verif.Proofs.MutexMore
import Verif.Props.Mutex
import Verif.Props.SimpleConsumers

/-!
# Property C19 for the remaining consumers and filters

LastSample, MaximumProbabilitySample, AcceptanceRatio, StreamOutput, PairHistogram, DiscardFirstN, AutoCovarianceTrace,
AutoCovarianceMatrix, AverageCosineBetweenSuccessiveSamples.
-/

namespace SampleFlow.Mutex

open Mutex.Spec SampleFlow SampleFlow.Spec

variable {σ Op R : Type}

/-- C19 (all calls made): the order of `C19_all_done` can be chosen such that each thread's calls appear in the order in
which the thread made them. -/
theorem C19_interleaving (o : Object σ Op R) (hl : o.locks = true) (m : σ) (programs : List (List Op))
    (s : State σ Op R) (h : Reachable o m programs s) (hd : s.AllDone) :
    ∃ order : List Op, order.Perm programs.flatten ∧ (∀ p ∈ programs, p.Sublist order) ∧ s.members = membersAfter o m order := by
  refine ⟨_, history_perm h hd, ?_, (C19_linearizable o hl m programs s h).2.2 (fun t ht => (hd t ht).1)⟩
  intro p hp
  obtain ⟨i, hi, rfl⟩ := List.mem_iff_getElem.mp hp
  have := callsOf_of_allDone h.progInv hd i _ (List.getElem?_eq_getElem hi)
  rw [← this]
  exact List.Sublist.map _ List.filter_sublist

/-- what the calls of a consumer by several threads amount to -/
theorem consumer_all_done {α : Type} (o : Object σ (ConsumerCall α) R) (hl : o.locks = true) (consume : σ → α → σ)
    (h1 : ∀ s x, (call o s (.consume x)).1 = consume s x) (h2 : ∀ s, (call o s .get).1 = s) (m : σ)
    (programs : List (List (ConsumerCall α))) (s : State σ (ConsumerCall α) R) (h : Reachable o m programs s)
    (hd : s.AllDone) :
    ∃ order : List α, order.Perm (samplesOf programs.flatten) ∧ (∀ p ∈ programs, (samplesOf p).Sublist order) ∧
      s.members = order.foldl consume m := by
  obtain ⟨order, hp, hs, hm⟩ := C19_interleaving o hl m programs s h hd
  refine ⟨samplesOf order, samplesOf_perm hp, fun p hp => (hs p hp).filterMap _, ?_⟩
  rw [hm, membersAfter_consumer o consume h1 h2]

/-! ## LastSample -/

/-- C19 for LastSample: a call of `get` returns, complete with all components, the sample of the `consume` call completed last
before it - never a mixture of two samples. -/
theorem C19_lastSample_get (α : Type) (d : Nat) (G : Fin d → α) (programs : List (List (ConsumerCall (Fin d → α))))
    (s : State (Fin d → α) (ConsumerCall (Fin d → α)) (Fin d → Option α))
    (h : Reachable (lastObject α d) G programs s)
    (pre post : List (Nat × ConsumerCall (Fin d → α) × (Fin d → Option α))) (i : Nat) (r : Fin d → Option α)
    (hh : s.history = pre ++ (i, .get, r) :: post) :
    r = fun k => some (((samplesOf (pre.map (fun e => e.2.1))).getLast?.getD G) k) := by
  have := (C19_linearizable (lastObject α d) rfl _ programs s h).1 pre i .get r post hh
  rw [this, (call_last_get _).2, membersAfter_consumer (lastObject α d) (fun _ x => x)
    (fun _ _ => call_last_consume _ _) (fun _ => (call_last_get _).1)]
  funext k
  congr 2
  generalize samplesOf (pre.map (fun e => e.2.1)) = l
  induction l using List.reverseRecOn with
  | nil => rfl
  | append_singleton xs x _ => simp

theorem last_of_thread {α R : Type} (h : List (Nat × ConsumerCall α × R)) (x : α) (hx : (samplesOf (h.map (fun e => e.2.1))).getLast? = some x) :
    ∃ e ∈ h, (samplesOf (callsOf h e.1)).getLast? = some x := by
  induction h using List.reverseRecOn with
  | nil => simp [samplesOf] at hx
  | append_singleton h e ih =>
    obtain ⟨i, op, r⟩ := e
    cases op with
    | consume y =>
      have hy : y = x := by simpa [samplesOf, List.filterMap_append] using hx
      subst hy
      exact ⟨(i, .consume y, r), by simp, by simp [callsOf, samplesOf, List.filter_append]⟩
    | get =>
      obtain ⟨e, he, hl⟩ := ih (by simpa [samplesOf, List.filterMap_append] using hx)
      refine ⟨e, List.mem_append_left _ he, ?_⟩
      rw [← hl]
      by_cases hi : i = e.1 <;> simp [callsOf, samplesOf, List.filter_append, hi]

/-- C19 for LastSample, all calls made: the object holds the sample of the last `consume` call of one of the threads. -/
theorem C19_lastSample (α : Type) (d : Nat) (G : Fin d → α) (programs : List (List (ConsumerCall (Fin d → α))))
    (s : State (Fin d → α) (ConsumerCall (Fin d → α)) (Fin d → Option α))
    (h : Reachable (lastObject α d) G programs s) (hd : s.AllDone) (hne : samplesOf programs.flatten ≠ []) :
    ∃ p ∈ programs, (samplesOf p).getLast? = some s.members := by
  have hm := (C19_linearizable (lastObject α d) rfl G programs s h).2.2 (fun t ht => (hd t ht).1)
  rw [membersAfter_consumer _ (fun _ x => x) (fun _ _ => call_last_consume _ _) (fun _ => (call_last_get _).1)] at hm
  have hp := samplesOf_perm (history_perm h hd)
  have hne' : samplesOf (s.history.map (fun e => e.2.1)) ≠ [] := fun h0 => hne (List.perm_nil.mp (h0 ▸ hp.symm))
  have hlast : (samplesOf (s.history.map (fun e => e.2.1))).getLast? = some s.members := by
    rw [hm]
    rcases List.eq_nil_or_concat' (samplesOf (s.history.map (fun e => e.2.1))) with h0 | ⟨xs, x, h0⟩
    · exact absurd h0 hne'
    · rw [h0]; simp
  obtain ⟨e, he, hl⟩ := last_of_thread s.history s.members hlast
  have hi := h.progInv.hist e he
  refine ⟨programs[e.1], List.getElem_mem hi, ?_⟩
  rw [← callsOf_of_allDone h.progInv hd e.1 _ (List.getElem?_eq_getElem hi)]
  exact hl

/-! ## MaximumProbabilitySample -/

theorem maxProb_fold {S A D : Type} [LinearOrder D] (lowest : D) (m : MaxProbMembers S A D) (xs : List (S × A × D))
    (hx : ∀ x ∈ xs, lowest ≤ x.2.2) (h0 : lowest ≤ m.highest) :
    let r := xs.foldl (maxProbConsume (fun d => decide (d = lowest)) (fun a b => decide (a > b))) m
    lowest ≤ r.highest ∧ m.highest ≤ r.highest ∧ (∀ x ∈ xs, x.2.2 ≤ r.highest) ∧
    ((r.sample, r.data, r.highest) ∈ xs ∨ (r = m ∧ (xs ≠ [] → m.highest ≠ lowest))) := by
  induction xs generalizing m with
  | nil => exact ⟨h0, le_rfl, by simp, Or.inr ⟨rfl, fun h => absurd rfl h⟩⟩
  | cons x xs ih =>
    simp only [List.foldl_cons]
    have hx1 := hx x List.mem_cons_self
    by_cases h : m.highest = lowest ∨ m.highest < x.2.2
    · have e : maxProbConsume (fun d => decide (d = lowest)) (fun a b => decide (a > b)) m x = ⟨x.1, x.2.1, x.2.2⟩ := by
        unfold maxProbConsume
        rw [if_pos]
        rcases h with h | h <;> simp [h]
      rw [e]
      obtain ⟨i1, i2, i3, i4⟩ := ih ⟨x.1, x.2.1, x.2.2⟩ (fun y hy => hx y (List.mem_cons_of_mem _ hy)) hx1
      refine ⟨i1, ?_, ?_, ?_⟩
      · rcases h with h | h
        · rw [h]; exact i1
        · exact le_trans h.le i2
      · intro y hy
        rcases List.mem_cons.mp hy with rfl | hy
        · exact i2
        · exact i3 y hy
      · left
        rcases i4 with i4 | ⟨i4, -⟩
        · exact List.mem_cons_of_mem _ i4
        · rw [i4]; exact List.mem_cons_self
    · have e : maxProbConsume (fun d => decide (d = lowest)) (fun a b => decide (a > b)) m x = m := by
        unfold maxProbConsume
        rw [if_neg]
        intro hc
        apply h
        simpa using hc
      rw [e]
      obtain ⟨i1, i2, i3, i4⟩ := ih m (fun y hy => hx y (List.mem_cons_of_mem _ hy)) h0
      refine ⟨i1, i2, ?_, ?_⟩
      · intro y hy
        rcases List.mem_cons.mp hy with rfl | hy
        · exact le_trans (not_lt.mp (fun hc => h (Or.inr hc))) i2
        · exact i3 y hy
      · rcases i4 with i4 | ⟨i4, -⟩
        · exact Or.inl (List.mem_cons_of_mem _ i4)
        · exact Or.inr ⟨i4, fun _ hc => h (Or.inl hc)⟩

/-- C19 for MaximumProbabilitySample: after any number of concurrent `consume` calls (with log likelihoods not below the lowest
double), sample, auxiliary data and likelihood stored belong together and to one of the samples consumed, and no
sample has a larger likelihood. -/
theorem C19_maximumProbability {S A D : Type} [LinearOrder D] (lowest : D) (S₀ : S) (A₀ : A)
    (programs : List (List (ConsumerCall (S × A × D))))
    (s : State (MaxProbMembers S A D) (ConsumerCall (S × A × D)) (MaxProbLocals S A))
    (h : Reachable (maxProbObject S A (fun d => decide (d = lowest)) (fun a b => decide (a > b))) ⟨S₀, A₀, lowest⟩ programs s)
    (hd : s.AllDone) (hl : ∀ x ∈ samplesOf programs.flatten, lowest ≤ x.2.2) (hne : samplesOf programs.flatten ≠ []) :
    (s.members.sample, s.members.data, s.members.highest) ∈ samplesOf programs.flatten ∧
    ∀ x ∈ samplesOf programs.flatten, x.2.2 ≤ s.members.highest := by
  obtain ⟨order, hp, -, hm⟩ := consumer_all_done _ rfl _ (call_maxProb_consume _ _) (fun _ => rfl) _ programs s h hd
  have hne' : order ≠ [] := fun h0 => hne (List.perm_nil.mp (h0 ▸ hp.symm))
  obtain ⟨-, -, h3, h4⟩ := maxProb_fold lowest ⟨S₀, A₀, lowest⟩ order (fun x hx => hl x (hp.mem_iff.mp hx)) le_rfl
  rw [← hm] at h3 h4
  refine ⟨?_, fun x hx => h3 x (hp.mem_iff.mpr hx)⟩
  rcases h4 with h4 | ⟨-, h4⟩
  · exact hp.mem_iff.mp h4
  · exact absurd rfl (h4 hne')

/-- C19 for MaximumProbabilitySample, `get` called while other threads consume: it returns a sample together with the auxiliary
data of the same sample, which is the most likely one of the `consume` calls completed before. -/
theorem C19_maximumProbability_get {S A D : Type} [LinearOrder D] (lowest : D) (S₀ : S) (A₀ : A)
    (programs : List (List (ConsumerCall (S × A × D))))
    (s : State (MaxProbMembers S A D) (ConsumerCall (S × A × D)) (MaxProbLocals S A))
    (h : Reachable (maxProbObject S A (fun d => decide (d = lowest)) (fun a b => decide (a > b))) ⟨S₀, A₀, lowest⟩ programs s)
    (pre post : List (Nat × ConsumerCall (S × A × D) × MaxProbLocals S A)) (i : Nat) (r : MaxProbLocals S A)
    (hh : s.history = pre ++ (i, .get, r) :: post)
    (hl : ∀ x ∈ samplesOf (pre.map (fun e => e.2.1)), lowest ≤ x.2.2)
    (hne : samplesOf (pre.map (fun e => e.2.1)) ≠ []) :
    ∃ x ∈ samplesOf (pre.map (fun e => e.2.1)), r.sample = some x.1 ∧ r.data = some x.2.1 ∧
      ∀ y ∈ samplesOf (pre.map (fun e => e.2.1)), y.2.2 ≤ x.2.2 := by
  have := (C19_linearizable _ rfl _ programs s h).1 pre i .get r post hh
  rw [membersAfter_consumer _ _ (call_maxProb_consume _ _) (fun _ => rfl)] at this
  obtain ⟨-, -, h3, h4⟩ := maxProb_fold lowest ⟨S₀, A₀, lowest⟩ _ hl le_rfl
  rcases h4 with h4 | ⟨-, h4⟩
  · exact ⟨_, h4, by rw [this]; rfl, by rw [this]; rfl, h3⟩
  · exact absurd rfl (h4 hne)

/-! ## AcceptanceRatio -/

/-- C19 for AcceptanceRatio: the ratio is that of the samples in some order that respects the order of each thread. -/
theorem C19_acceptanceRatio {α K : Type} [Field K] (eq : α → α → Bool)
    (hsymm : ∀ a b, eq a b = true → eq b a = true) (htrans : ∀ a b c, eq a b = true → eq b c = true → eq a c = true)
    (G : α) (programs : List (List (ConsumerCall α))) (s : State (ARState α) (ConsumerCall α) ARLocals)
    (h : Reachable (ratioObject eq) ⟨0, 0, G⟩ programs s) (hd : s.AllDone) (hne : samplesOf programs.flatten ≠ []) :
    ∃ order : List α, order.Perm (samplesOf programs.flatten) ∧ (∀ p ∈ programs, (samplesOf p).Sublist order) ∧
      s.members.get (K := K) =
        ((1 + (lagPairs 1 order).countP (fun p => !eq p.1 p.2) : ℕ) : K) / (order.length : K) := by
  obtain ⟨order, hp, hs, hm⟩ := consumer_all_done _ rfl _ (call_ratio_consume eq) (fun _ => rfl) _ programs s h hd
  have hne' : order ≠ [] := fun h0 => hne (List.perm_nil.mp (h0 ▸ hp.symm))
  refine ⟨order, hp, hs, ?_⟩
  rw [hm]
  exact C29_acceptanceRatio eq hsymm htrans G order hne'

/-- C19 for AcceptanceRatio, `get` called while other threads consume: the two counters that it divides belong together. -/
theorem C19_acceptanceRatio_get {α : Type} (eq : α → α → Bool) (G : α) (programs : List (List (ConsumerCall α)))
    (s : State (ARState α) (ConsumerCall α) ARLocals)
    (h : Reachable (ratioObject eq) ⟨0, 0, G⟩ programs s)
    (pre post : List (Nat × ConsumerCall α × ARLocals)) (i : Nat) (r : ARLocals)
    (hh : s.history = pre ++ (i, .get, r) :: post) :
    r.n = (arAfter eq G (samplesOf (pre.map (fun e => e.2.1)))).n ∧
    r.accepted = (arAfter eq G (samplesOf (pre.map (fun e => e.2.1)))).accepted := by
  have := (C19_linearizable _ rfl _ programs s h).1 pre i .get r post hh
  rw [membersAfter_consumer _ _ (call_ratio_consume eq) (fun _ => rfl)] at this
  rw [this]
  exact ⟨rfl, rfl⟩

/-! ## StreamOutput -/

/-- C19 for StreamOutput: lines are never torn apart.  The output consists of one complete line per sample (if their text contains
no newline). -/
theorem C19_streamOutput (programs : List (List Printable)) (s : State (List Char) Printable Unit)
    (h : Reachable streamObject [] programs s) (hd : s.AllDone) (hn : ∀ p ∈ programs, ∀ x ∈ p, '\n' ∉ x.write) :
    ∃ order : List Printable, order.Perm programs.flatten ∧ (∀ p ∈ programs, p.Sublist order) ∧
      splitTerm '\n' s.members = order.map Printable.write := by
  obtain ⟨order, hp, hs, hm⟩ := C19_interleaving streamObject rfl [] programs s h hd
  refine ⟨order, hp, hs, ?_⟩
  have e : s.members = streamAfter order := by
    rw [hm, membersAfter, streamAfter]
    congr 1
    funext out x
    exact call_stream out x
  rw [e]
  apply C35_one_line_per_sample
  intro x hx
  obtain ⟨p, hp', hxp⟩ := List.mem_flatten.mp (hp.mem_iff.mp hx)
  exact hn p hp' x hxp

/-! ## PairHistogram -/

/-- C19 for the bins of PairHistogram: no increment is lost. -/
theorem C19_pairHistogram_bins (rows cols : Nat) (b : Nat → Nat → Nat)
    (programs : List (List (ConsumerCall (Option (Nat × Nat)))))
    (s : State (Nat → Nat → Nat) (ConsumerCall (Option (Nat × Nat))) (Nat × List Nat))
    (h : Reachable (pairBinsObject rows cols) b programs s) (hd : s.AllDone) (x y : Nat) :
    s.members x y = b x y + (samplesOf programs.flatten).countP (fun k => k == some (x, y)) := by
  obtain ⟨order, hp, -, hm⟩ := consumer_all_done _ rfl _ (call_pair_consume rows cols)
    (fun b => (call_pair_get rows cols b).1) _ programs s h hd
  rw [hm, foldl_pairCount, hp.countP_eq]

/-- C19 for PairHistogram, `get` called while other threads consume: the counts are those of one moment, in total as many as
the samples counted by then. -/
theorem C19_pairHistogram_get (rows cols : Nat) (b : Nat → Nat → Nat)
    (programs : List (List (ConsumerCall (Option (Nat × Nat)))))
    (s : State (Nat → Nat → Nat) (ConsumerCall (Option (Nat × Nat))) (Nat × List Nat))
    (h : Reachable (pairBinsObject rows cols) b programs s)
    (pre post : List (Nat × ConsumerCall (Option (Nat × Nat)) × (Nat × List Nat))) (i : Nat) (r : Nat × List Nat)
    (hh : s.history = pre ++ (i, .get, r) :: post) :
    r.2 = ((List.range rows).product (List.range cols)).map (fun p =>
      b p.1 p.2 + (samplesOf (pre.map (fun e => e.2.1))).countP (fun k => k == some p)) := by
  have := (C19_linearizable _ rfl _ programs s h).1 pre i .get r post hh
  rw [membersAfter_consumer _ _ (call_pair_consume rows cols) (fun b => (call_pair_get rows cols b).1)] at this
  rw [this, (call_pair_get rows cols _).2]
  apply List.map_congr_left
  intro p _
  rw [foldl_pairCount]

/-! ## DiscardFirstN -/

/-- C19 for DiscardFirstN (`filter` called concurrently, fewer than `2^64` samples): exactly the first `n` samples of some order that
respects the order of each thread are discarded. -/
theorem C19_discardFirstN (α A : Type) (n : UInt64) (programs : List (List (Msg α A)))
    (s : State UInt64 (Msg α A) (UInt64 × Option (Msg α A)))
    (h : Reachable (discardObject α A n) 0 programs s) (hd : s.AllDone) (hlen : programs.flatten.length < 2 ^ 64) :
    ∃ order : List (Msg α A), order.Perm programs.flatten ∧ (∀ p ∈ programs, p.Sublist order) ∧
      s.history.filterMap (fun e => e.2.2.2) = order.drop n.toNat := by
  have hp := history_perm h hd
  refine ⟨_, hp, ?_, ?_⟩
  · intro p hp
    obtain ⟨i, hi, rfl⟩ := List.mem_iff_getElem.mp hp
    have := callsOf_of_allDone h.progInv hd i _ (List.getElem?_eq_getElem hi)
    rw [← this]
    exact List.Sublist.map _ List.filter_sublist
  · rw [filter_run (discardFirstN α A n) (discardObject α A n) (fun s m => call_discard n s m) 0 s.history
      (C19_linearizable (discardObject α A n) rfl 0 programs s h).1]
    exact C02_discardFirstN_drop α A n _ (by rw [hp.length_eq]; exact hlen)

/-! ## AutoCovarianceTrace, AutoCovarianceMatrix, AverageCosineBetweenSuccessiveSamples -/

/-- C19 for AutoCovarianceTrace: the result is that of the samples in some order that respects the order of each thread. -/
theorem C19_autoCovarianceTrace {K ι : Type} [Field K] [Fintype ι] (maxLag : Nat) (M : ι → K)
    (programs : List (List (ConsumerCall (ι → K)))) (s : State _ _ _)
    (h : Reachable (traceObject (K := K) (ι := ι) maxLag) (.ok (ACTState.init M)) programs s) (hd : s.AllDone) :
    ∃ order : List (ι → K), order.Perm (samplesOf programs.flatten) ∧ (∀ p ∈ programs, (samplesOf p).Sublist order) ∧
      s.members = actAfter maxLag M order := by
  obtain ⟨order, hp, hs, hm⟩ := consumer_all_done _ rfl _ (call_rmw_consume _ _) (fun s => (call_rmw_get _ _ s).1) _ programs s h hd
  exact ⟨order, hp, hs, by rw [hm, foldl_bind_eq]; rfl⟩

/-- C19 for AutoCovarianceMatrix. -/
theorem C19_autoCovarianceMatrix {K ι : Type} [Field K] (maxLag : Nat) (G : Nat → ι → ι → K) (M : ι → K)
    (programs : List (List (ConsumerCall (ι → K)))) (s : State _ _ _)
    (h : Reachable (matrixObject (K := K) (ι := ι) maxLag G) (.ok (ACMState.init M)) programs s) (hd : s.AllDone) :
    ∃ order : List (ι → K), order.Perm (samplesOf programs.flatten) ∧ (∀ p ∈ programs, (samplesOf p).Sublist order) ∧
      s.members = acmAfter maxLag G M order := by
  obtain ⟨order, hp, hs, hm⟩ := consumer_all_done _ rfl _ (call_rmw_consume _ _) (fun s => (call_rmw_get _ _ s).1) _ programs s h hd
  exact ⟨order, hp, hs, by rw [hm, foldl_bind_eq]; rfl⟩

/-- C19 for AverageCosineBetweenSuccessiveSamples. -/
theorem C19_averageCosinus {ι : Type} [Fintype ι] (bits H : Nat) (A₀ : Nat → ℝ) (G1 G2 : Nat → ι → ℝ)
    (programs : List (List (ConsumerCall (ι → ℝ)))) (s : State _ _ _)
    (h : Reachable (cosineObject (ι := ι) bits H G1 G2) (.ok ⟨0, A₀, G1, G2⟩) programs s) (hd : s.AllDone) :
    ∃ order : List (ι → ℝ), order.Perm (samplesOf programs.flatten) ∧ (∀ p ∈ programs, (samplesOf p).Sublist order) ∧
      s.members = cosAfter bits H A₀ G1 G2 order := by
  obtain ⟨order, hp, hs, hm⟩ := consumer_all_done _ rfl _ (call_rmw_consume _ _) (fun s => (call_rmw_get _ _ s).1) _ programs s h hd
  exact ⟨order, hp, hs, by rw [hm, foldl_bind_eq]; rfl⟩

/-- Premises are met: two threads, three samples; the most likely one is stored. -/
example : ∃ s, Reachable (maxProbObject String Nat (fun d => decide (d = (-100 : Int))) (fun a b => decide (a > b)))
    ⟨"", 0, -100⟩ [[.consume ("a", 1, 3)], [.consume ("b", 2, 7), .consume ("c", 3, 5)]] s ∧ s.AllDone ∧
    s.members.highest = 7 ∧ s.members.sample = "b" ∧ s.members.data = 2 := by
  obtain ⟨s, h1, h2, -⟩ := C19_premises_satisfiable
    (maxProbObject String Nat (fun d => decide (d = (-100 : Int))) (fun a b => decide (a > b)))
    ⟨"", 0, -100⟩ (.consume ("a", 1, 3)) (.consume ("b", 2, 7)) (.consume ("c", 3, 5))
  obtain ⟨h3, h4⟩ := C19_maximumProbability (-100) "" 0 _ s h1 h2 (by simp [samplesOf]) (by simp [samplesOf])
  refine ⟨s, h1, h2, ?_⟩
  simp only [samplesOf, List.flatten_cons, List.flatten_nil, List.append_nil, List.singleton_append, List.filterMap_cons,
    List.filterMap_nil] at h3 h4
  have h5 := h4 ("b", 2, 7) (by simp)
  simp only [List.mem_cons, List.not_mem_nil, or_false, Prod.mk.injEq] at h3
  rcases h3 with ⟨-, -, h⟩ | ⟨a, b, c⟩ | ⟨-, -, h⟩
  · rw [h] at h5; exact absurd h5 (by decide)
  · exact ⟨c, a, b⟩
  · rw [h] at h5; exact absurd h5 (by decide)

/-- A StreamOutput without mutex, for samples that are texts. -/
def unlockedStream : Object (List Char) (List Char) Unit where
  locks := false
  local0 := fun _ => ()
  body := fun x => (x ++ ['\n']).map (fun c => fun out _ => (out ++ [c], ()))

/-- Without the lock lines are torn apart: C19 for StreamOutput rests on the mutex. -/
example : ∃ s, Reachable unlockedStream [] [[['a']], [['b']]] s ∧ s.AllDone ∧ s.members = ['a', 'b', '\n', '\n'] := by
  refine ⟨_, Relation.ReflTransGen.refl
    |>.tail (.acquire 0 ['a'] [] rfl (fun h => by cases h))
    |>.tail (.acquire 1 ['b'] [] rfl (fun h => by cases h))
    |>.tail (.micro 0 _ _ _ () [] rfl)
    |>.tail (.micro 1 _ _ _ () [] rfl)
    |>.tail (.micro 0 _ _ _ () [] rfl)
    |>.tail (.micro 1 _ _ _ () [] rfl)
    |>.tail (.release 0 _ () [] rfl)
    |>.tail (.release 1 _ () [] rfl), ?_, rfl⟩
  intro t ht
  simp [initial] at ht
  subst ht
  exact ⟨rfl, rfl⟩

/-! ### Instances: concrete cases that meet the hypotheses of the theorems above -/

example := C19_interleaving (countObject Nat) rfl 0 [[.consume 5], [.consume 6, .get]] _ (C19_premises_satisfiable (countObject Nat) 0 (.consume 5) (.consume 6) .get).choose_spec.1 (C19_premises_satisfiable (countObject Nat) 0 (.consume 5) (.consume 6) .get).choose_spec.2.1 
example := C19_lastSample_get Nat 2 (fun _ => 9) [[.consume (fun _ => 3)], [.consume (fun i => i), .get]] _ (C19_premises_satisfiable (lastObject Nat 2) (fun _ => 9) (.consume (fun _ => 3)) (.consume (fun i => i)) .get).choose_spec.1 
example := C19_lastSample Nat 2 (fun _ => 9) [[.consume (fun _ => 3)], [.consume (fun i => i), .get]] _ (C19_premises_satisfiable (lastObject Nat 2) (fun _ => 9) (.consume (fun _ => 3)) (.consume (fun i => i)) .get).choose_spec.1 (C19_premises_satisfiable (lastObject Nat 2) (fun _ => 9) (.consume (fun _ => 3)) (.consume (fun i => i)) .get).choose_spec.2.1 (by simp [samplesOf])
example := C19_maximumProbability_get (-100 : Int) "" 0 [[.consume ("a", 1, 3)], [.consume ("b", 2, 7), .get]] _ (C19_premises_satisfiable (maxProbObject String Nat (fun d => decide (d = (-100 : Int))) (fun a b => decide (a > b))) ⟨"", 0, -100⟩ (.consume ("a", 1, 3)) (.consume ("b", 2, 7)) .get).choose_spec.1 
example := C19_acceptanceRatio (K := ℚ) (fun a b : Nat => a == b) (by simp) (by simp) 7 [[.consume 5], [.consume 5, .consume 6]] _ (C19_premises_satisfiable (ratioObject (fun a b : Nat => a == b)) ⟨0, 0, 7⟩ (.consume 5) (.consume 5) (.consume 6)).choose_spec.1 (C19_premises_satisfiable (ratioObject (fun a b : Nat => a == b)) ⟨0, 0, 7⟩ (.consume 5) (.consume 5) (.consume 6)).choose_spec.2.1 (by simp [samplesOf])
example := C19_acceptanceRatio_get (fun a b : Nat => a == b) 7 [[.consume 5], [.consume 5, .get]] _ (C19_premises_satisfiable (ratioObject (fun a b : Nat => a == b)) ⟨0, 0, 7⟩ (.consume 5) (.consume 5) .get).choose_spec.1 
example := C19_pairHistogram_bins 2 3 (fun _ _ => 4) [[.consume (some (0, 2))], [.consume none, .get]] _ (C19_premises_satisfiable (pairBinsObject 2 3) (fun _ _ => 4) (.consume (some (0, 2))) (.consume none) .get).choose_spec.1 (C19_premises_satisfiable (pairBinsObject 2 3) (fun _ _ => 4) (.consume (some (0, 2))) (.consume none) .get).choose_spec.2.1 0 2
example := C19_pairHistogram_get 2 3 (fun _ _ => 4) [[.consume (some (0, 2))], [.consume none, .get]] _ (C19_premises_satisfiable (pairBinsObject 2 3) (fun _ _ => 4) (.consume (some (0, 2))) (.consume none) .get).choose_spec.1 
example := C19_discardFirstN Nat String 2 [[(5, "a")], [(6, "b"), (7, "c")]] _ (C19_premises_satisfiable (discardObject Nat String 2) 0 (5, "a") (6, "b") (7, "c")).choose_spec.1 (C19_premises_satisfiable (discardObject Nat String 2) 0 (5, "a") (6, "b") (7, "c")).choose_spec.2.1 (by decide)
example := C19_autoCovarianceTrace 3 (fun _ => 1) [[.consume (fun _ => 3)], [.consume (fun _ => 5), .consume (fun _ => 6)]] _ (C19_premises_satisfiable (traceObject (K := ℚ) (ι := Fin 2) 3) (.ok (ACTState.init (fun _ => 1))) (.consume (fun _ => 3)) (.consume (fun _ => 5)) (.consume (fun _ => 6))).choose_spec.1 (C19_premises_satisfiable (traceObject (K := ℚ) (ι := Fin 2) 3) (.ok (ACTState.init (fun _ => 1))) (.consume (fun _ => 3)) (.consume (fun _ => 5)) (.consume (fun _ => 6))).choose_spec.2.1 
example := C19_autoCovarianceMatrix 3 (fun _ _ _ => 2) (fun _ => 1) [[.consume (fun _ => 3)], [.consume (fun _ => 5), .consume (fun _ => 6)]] _ (C19_premises_satisfiable (matrixObject (K := ℚ) (ι := Fin 2) 3 (fun _ _ _ => 2)) (.ok (ACMState.init (fun _ => 1))) (.consume (fun _ => 3)) (.consume (fun _ => 5)) (.consume (fun _ => 6))).choose_spec.1 (C19_premises_satisfiable (matrixObject (K := ℚ) (ι := Fin 2) 3 (fun _ _ _ => 2)) (.ok (ACMState.init (fun _ => 1))) (.consume (fun _ => 3)) (.consume (fun _ => 5)) (.consume (fun _ => 6))).choose_spec.2.1 
example := C19_averageCosinus 32 3 (fun _ => 1) (fun _ _ => 2) (fun _ _ => 4) [[.consume (fun _ => 3)], [.consume (fun _ => 5), .consume (fun _ => 6)]] _ (C19_premises_satisfiable (cosineObject (ι := Fin 2) 32 3 (fun _ _ => 2) (fun _ _ => 4)) (.ok ⟨0, fun _ => 1, fun _ _ => 2, fun _ _ => 4⟩) (.consume (fun _ => 3)) (.consume (fun _ => 5)) (.consume (fun _ => 6))).choose_spec.1 (C19_premises_satisfiable (cosineObject (ι := Fin 2) 32 3 (fun _ _ => 2) (fun _ _ => 4)) (.ok ⟨0, fun _ => 1, fun _ _ => 2, fun _ _ => 4⟩) (.consume (fun _ => 3)) (.consume (fun _ => 5)) (.consume (fun _ => 6))).choose_spec.2.1 

end SampleFlow.Mutex
