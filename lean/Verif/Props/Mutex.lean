import Verif.Proofs.MutexObjects
import Verif.Props.Moments
import Verif.Props.OrderIndependence
import Verif.Props.Filters
import Mathlib.Tactic.NormNum
import Mathlib.Data.List.Induction

/-!
# Properties C19 and C20: concurrent calls

`Reachable o members programs s`: some schedule of the threads, thread `i` making the calls `programs[i]`,
leads to `s`.
-/

namespace SampleFlow.Mutex

open Mutex.Spec

variable {σ Op R : Type}

/-- C19 (linearizability): whatever the schedule, at any time the completed calls, in the order of their
completion, are a sequential history: every call returned what it returns when executed alone after the calls
before it, each thread's calls appear in the order in which the thread made them, and when no call is in
progress the members are those after executing the calls one after the other. -/
theorem C19_linearizable (o : Object σ Op R) (hl : o.locks = true) (m : σ) (programs : List (List Op))
    (s : State σ Op R) (h : Reachable o m programs s) :
    Sequential o m s.history ∧
    (∀ (i : Nat) (p : List Op), programs[i]? = some p → callsOf s.history i <+: p) ∧
    ((∀ t ∈ s.threads, t.current = none) →
      s.members = membersAfter o m (s.history.map (fun e => e.2.1))) := by
  have L := h.lockInv hl
  have P := h.progInv
  refine ⟨L.seq, ?_, ?_⟩
  · intro i p hp
    have hi : i < s.threads.length := by
      rw [P.len]
      by_contra hc
      rw [List.getElem?_eq_none (by omega)] at hp; cases hp
    have := P.prog i _ p (List.getElem?_eq_getElem hi) hp
    rw [List.append_assoc] at this
    exact ⟨_, this⟩
  · intro hq
    apply L.free
    cases hlk : s.lock with
    | none => rfl
    | some i =>
      obtain ⟨t, op, d, rest, r, h1, h2, -⟩ := L.busy i hlk
      rw [hq t (List.mem_of_getElem? h1)] at h2; cases h2

theorem callsOf_of_allDone {programs : List (List Op)} {s : State σ Op R} (P : ProgInv programs s)
    (hd : s.AllDone) (i : Nat) (p : List Op) (hp : programs[i]? = some p) : callsOf s.history i = p := by
  have hi : i < s.threads.length := by
    rw [P.len]
    by_contra hc
    rw [List.getElem?_eq_none (by omega)] at hp; cases hp
  have := P.prog i _ p (List.getElem?_eq_getElem hi) hp
  obtain ⟨h1, h2⟩ := hd s.threads[i] (List.getElem_mem hi)
  rw [h1, h2] at this
  simpa using this

theorem flatMap_range_eq {β : Type} (l : List (List β)) (f : Nat → List β)
    (h : ∀ (i : Nat) (p : List β), l[i]? = some p → f i = p) :
    (List.range l.length).flatMap f = l.flatten := by
  have e : (List.range l.length).map f = l := ?_
  · rw [List.flatMap_def, e]
  apply List.ext_getElem?
  intro i
  rw [List.getElem?_map]
  by_cases hi : i < l.length
  · rw [List.getElem?_range hi, List.getElem?_eq_getElem hi]
    simp [h i _ (List.getElem?_eq_getElem hi)]
  · rw [List.getElem?_eq_none (by simpa using hi), List.getElem?_eq_none (by omega)]; rfl

/-- every call of every thread is completed exactly once -/
theorem history_perm {o : Object σ Op R} {m : σ} {programs : List (List Op)} {s : State σ Op R}
    (h : Reachable o m programs s) (hd : s.AllDone) :
    (s.history.map (fun e => e.2.1)).Perm programs.flatten := by
  have P := h.progInv
  have := perm_of_callsOf s.history programs.length P.hist
  rwa [flatMap_range_eq programs _ (callsOf_of_allDone P hd)] at this

/-- C19 (all calls made): the members are the result of executing all calls of all threads one after the
other in some order. -/
theorem C19_all_done (o : Object σ Op R) (hl : o.locks = true) (m : σ) (programs : List (List Op))
    (s : State σ Op R) (h : Reachable o m programs s) (hd : s.AllDone) :
    ∃ order : List Op, order.Perm programs.flatten ∧ s.members = membersAfter o m order :=
  ⟨_, history_perm h hd, (C19_linearizable o hl m programs s h).2.2 (fun t ht => (hd t ht).1)⟩

/-- C19 (no deadlock): unless all calls have been made some thread can go on. -/
theorem C19_no_deadlock (o : Object σ Op R) (hl : o.locks = true) (m : σ) (programs : List (List Op))
    (s : State σ Op R) (h : Reachable o m programs s) (hd : ¬ s.AllDone) : ∃ s', Step o s s' := by
  have L := h.lockInv hl
  cases hlk : s.lock with
  | some i =>
    obtain ⟨⟨cur, todo⟩, op, d, rest, r, h1, h2, -⟩ := L.busy i hlk
    simp only at h2
    subst h2
    cases rest with
    | nil => exact ⟨_, .release i op r todo h1⟩
    | cons f fs => exact ⟨_, .micro i op f fs r todo h1⟩
  | none =>
    have : ∃ t ∈ s.threads, ¬ (t.current = none ∧ t.todo = []) := by
      by_contra hc
      exact hd (fun t ht => by
        by_contra hn
        exact hc ⟨t, ht, hn⟩)
    obtain ⟨⟨cur, todo⟩, ht, hn⟩ := this
    obtain ⟨i, hi, he⟩ := List.mem_iff_getElem.mp ht
    have hi' : s.threads[i]? = some ⟨cur, todo⟩ := by rw [List.getElem?_eq_getElem hi, he]
    cases cur with
    | some c =>
      have := L.excl i _ hi' (by simp)
      rw [hlk] at this; cases this
    | none =>
      cases todo with
      | nil => exact absurd ⟨rfl, rfl⟩ hn
      | cons op todo => exact ⟨_, .acquire i op todo hi' (fun _ => hlk)⟩

theorem samplesOf_perm {α : Type} {a b : List (ConsumerCall α)} (h : a.Perm b) :
    (samplesOf a).Perm (samplesOf b) := h.filterMap _

/-- C19 for CountSamples: after any number of threads have made any number of concurrent calls, the count is
the number of `consume` calls. -/
theorem C19_count (α : Type) (programs : List (List (ConsumerCall α))) (s : State UInt64 (ConsumerCall α) UInt64)
    (h : Reachable (countObject α) 0 programs s) (hd : s.AllDone) :
    s.members.toNat = (samplesOf programs.flatten).length % 2 ^ 64 := by
  obtain ⟨order, hp, hm⟩ := C19_all_done (countObject α) rfl 0 programs s h hd
  rw [membersAfter_consumer (countObject α) (countConsume) (fun _ _ => rfl) (fun _ => rfl)] at hm
  have := C34_countSamples (samplesOf order)
  rw [countAfter, ← hm] at this
  rw [this, (samplesOf_perm hp).length_eq]

/-- C19 for MeanValue: the mean over all samples of all threads. -/
theorem C19_mean {K ι : Type} [Field K] [CharZero K] (G G' : ι → K)
    (programs : List (List (ConsumerCall (ι → K))))
    (s : State (MeanState (ι → K)) (ConsumerCall (ι → K)) (MeanLocals (ι → K)))
    (h : Reachable (meanObject G) (MeanState.init G') programs s) (hd : s.AllDone)
    (hne : samplesOf programs.flatten ≠ []) (i : ι) :
    s.members.get i =
      ((samplesOf programs.flatten).map (fun x => x i)).sum / ((samplesOf programs.flatten).length : K) := by
  obtain ⟨order, hp, hm⟩ := C19_all_done (meanObject G) rfl _ programs s h hd
  rw [membersAfter_consumer (meanObject G) (MeanState.consume) (call_mean_consume G) (fun _ => rfl)] at hm
  have e : s.members = meanAfter G' (samplesOf order) := hm
  rw [e, C22_mean G' _ _ (samplesOf_perm hp), C21_mean G' _ hne]

/-- C19 for MeanValue, `get` called while other threads consume: it returns the mean of the samples of the
`consume` calls that were completed before it - never a half-updated value. -/
theorem C19_mean_get {K ι : Type} [Field K] [CharZero K] (G G' : ι → K)
    (programs : List (List (ConsumerCall (ι → K))))
    (s : State (MeanState (ι → K)) (ConsumerCall (ι → K)) (MeanLocals (ι → K)))
    (h : Reachable (meanObject G) (MeanState.init G') programs s)
    (pre post : List (Nat × ConsumerCall (ι → K) × MeanLocals (ι → K))) (i : Nat) (r : MeanLocals (ι → K))
    (hh : s.history = pre ++ (i, .get, r) :: post)
    (hne : samplesOf (pre.map (fun e => e.2.1)) ≠ []) (k : ι) :
    r.ret k = ((samplesOf (pre.map (fun e => e.2.1))).map (fun x => x k)).sum /
      ((samplesOf (pre.map (fun e => e.2.1))).length : K) := by
  have := (C19_linearizable (meanObject G) rfl _ programs s h).1 pre i .get r post hh
  rw [this, (call_mean_get G _).2,
    membersAfter_consumer (meanObject G) (MeanState.consume) (call_mean_consume G) (fun _ => rfl)]
  exact C21_mean G' _ hne k

/-- C19 for CovarianceMatrix: concurrent `consume` calls (with the double loop interleaved in any way) leave
the covariance matrix that a single thread computes from the same samples in any order. -/
theorem C19_covariance {K : Type} [Field K] [CharZero K] [StarRing K] {d : Nat} (M : Fin d → K)
    (C₀ G : Fin d → Fin d → K) (programs : List (List (ConsumerCall (Fin d → K))))
    (s : State (CovState K (Fin d)) (ConsumerCall (Fin d → K)) (CovLocals K (Fin d)))
    (h : Reachable (covObject d G) (CovState.init M C₀) programs s) (hd : s.AllDone)
    (hne : samplesOf programs.flatten ≠ []) :
    s.members.get = (covAfter M C₀ G (samplesOf programs.flatten)).get := by
  obtain ⟨order, hp, hm⟩ := C19_all_done (covObject d G) rfl _ programs s h hd
  rw [membersAfter_consumer (covObject d G) (CovState.consume G) (call_cov_consume G) (fun _ => rfl)] at hm
  have e : s.members = covAfter M C₀ G (samplesOf order) := hm
  have hne' : samplesOf order ≠ [] := by
    intro h0
    have := (samplesOf_perm hp).length_eq
    rw [h0] at this
    exact hne (List.length_eq_zero_iff.mp this.symm)
  rw [e]
  exact C22_covariance M C₀ G _ _ hne' (samplesOf_perm hp)

theorem foldl_bins (b : List Nat) (ks : List (Option Nat)) (j : Nat) :
    (ks.foldl (fun b k => match k with | some k => b.modify k (· + 1) | none => b) b)[j]? =
      b[j]?.map (fun c => c + ks.countP (fun k => k == some j)) := by
  induction ks generalizing b with
  | nil => simp
  | cons k ks ih =>
    rw [List.foldl_cons, ih, List.countP_cons]
    cases k with
    | none => simp
    | some k =>
      simp only [List.getElem?_modify]
      by_cases h : k = j
      · subst h
        cases b[k]? with
        | none => rfl
        | some c => simp; omega
      · have : (some k == some j) = false := by simpa using h
        simp [h]

/-- C19 for the bins of Histogram: no increment is lost. -/
theorem C19_histogram_bins (nBins : Nat) (b : List Nat) (programs : List (List (ConsumerCall (Option Nat))))
    (s : State (List Nat) (ConsumerCall (Option Nat)) (Nat × List Nat))
    (h : Reachable (binsObject nBins) b programs s) (hd : s.AllDone) (j : Nat) :
    s.members[j]? = b[j]?.map (fun c => c + (samplesOf programs.flatten).countP (fun k => k == some j)) := by
  obtain ⟨order, hp, hm⟩ := C19_all_done (binsObject nBins) rfl _ programs s h hd
  rw [membersAfter_consumer (binsObject nBins)
    (fun b k => match k with | some k => b.modify k (· + 1) | none => b)
    (fun b k => by cases k with
      | none => rfl
      | some k => exact call_bins_some nBins k b) (fun b => (call_bins_get nBins b).1)] at hm
  rw [hm, foldl_bins, (samplesOf_perm hp).countP_eq]

theorem keepAt_dvd_length {X : Type} (n : Nat) (hn : 0 < n) (xs : List X) :
    (SampleFlow.Spec.keepAt (fun k => n ∣ k) xs).length = (xs.length + (n - 1)) / n := by
  induction xs using List.reverseRecOn with
  | nil => simp [SampleFlow.Spec.keepAt, Nat.div_eq_of_lt (show n - 1 < n by omega)]
  | append_singleton xs x ih =>
    have e : (SampleFlow.Spec.keepAt (fun k => n ∣ k) (xs ++ [x])).length =
        (SampleFlow.Spec.keepAt (fun k => n ∣ k) xs).length + (if n ∣ xs.length then 1 else 0) := by
      by_cases h : n ∣ xs.length <;>
        simp [SampleFlow.Spec.keepAt, List.zipIdx_append, List.filter_append, List.filter_cons, h]
    rw [e, ih, List.length_append, List.length_singleton]
    have h3 : xs.length + 1 + (n - 1) = xs.length + n := by omega
    rw [h3, Nat.add_div_right _ hn]
    generalize xs.length = L
    by_cases h : n ∣ L
    · obtain ⟨k, rfl⟩ := h
      rw [if_pos (Nat.dvd_mul_right n k), Nat.mul_add_div hn, Nat.div_eq_of_lt (show n - 1 < n by omega),
        Nat.mul_div_cancel_left _ hn]
    · rw [if_neg h, Nat.add_zero]
      have hm : 0 < L % n := Nat.pos_of_ne_zero (fun h0 => h (Nat.dvd_of_mod_eq_zero h0))
      have hd := Nat.div_add_mod L n
      have hlt := Nat.mod_lt L hn
      conv_lhs => rw [← hd]
      rw [show n * (L / n) + L % n + (n - 1) = n * (L / n + 1) + (L % n - 1) by
        rw [Nat.mul_add, Nat.mul_one]; omega]
      rw [Nat.mul_add_div hn, Nat.div_eq_of_lt (show L % n - 1 < n by omega)]

/-- C19 for TakeEveryNth (`filter` called concurrently): the samples let through are every n-th of *some*
order of all samples; the number let through is `⌈N/n⌉` for every schedule. -/
theorem C19_takeEveryNth (α A : Type) (n : UInt64) (hn : n ≠ 0) (programs : List (List (Msg α A)))
    (s : State UInt64 (Msg α A) (UInt64 × Option (Msg α A)))
    (h : Reachable (takeObject α A n) 0 programs s) (hd : s.AllDone) :
    ∃ order : List (Msg α A), order.Perm programs.flatten ∧
      s.history.filterMap (fun e => e.2.2.2) = SampleFlow.Spec.keepAt (fun k => n.toNat ∣ k) order ∧
      (s.history.filterMap (fun e => e.2.2.2)).length = (programs.flatten.length + (n.toNat - 1)) / n.toNat := by
  have key : s.history.filterMap (fun e => e.2.2.2) =
      SampleFlow.Spec.keepAt (fun k => n.toNat ∣ k) (s.history.map (fun e => e.2.1)) := ?_
  · refine ⟨_, history_perm h hd, key, ?_⟩
    have hpos : 0 < n.toNat := Nat.pos_of_ne_zero (fun h0 => hn (UInt64.toNat.inj (by simpa using h0)))
    rw [key, keepAt_dvd_length _ hpos, (history_perm h hd).length_eq]
  have hs := (C19_linearizable (takeObject α A n) rfl 0 programs s h).1
  rw [take_run n hn 0 s.history hs]
  exact (C01_takeEveryNth α A n hn _).1

/-! ## C20 -/

/-- C20 (mutual exclusion): an Action that does not allow concurrent execution never has two executions of
the user function in progress. -/
theorem C20_no_concurrent_action {α : Type} (userFunction : α → List (σ → σ)) (m : σ)
    (programs : List (List α)) (s : State σ α Unit)
    (h : Reachable (actionObject false userFunction) m programs s)
    (i j : Nat) (ti tj : Thread σ α Unit) (hi : s.threads[i]? = some ti) (hj : s.threads[j]? = some tj)
    (hci : ti.current ≠ none) (hcj : tj.current ≠ none) : i = j := by
  have L := h.lockInv rfl
  have h1 := L.excl i ti hi hci
  have h2 := L.excl j tj hj hcj
  rw [h1] at h2
  exact Option.some.inj h2

/-- C20 (exactly once), for both settings of `allow_concurrent_action`: when all threads are done, the
actions executed are exactly the samples passed to `consume`. -/
theorem C20_exactly_once {α : Type} (allow : Bool) (userFunction : α → List (σ → σ)) (m : σ)
    (programs : List (List α)) (s : State σ α Unit)
    (h : Reachable (actionObject allow userFunction) m programs s) (hd : s.AllDone) :
    (s.history.map (fun e => e.2.1)).Perm programs.flatten ∧
    ∀ (i : Nat) (p : List α), programs[i]? = some p → callsOf s.history i = p :=
  ⟨history_perm h hd, fun i p hp => callsOf_of_allDone h.progInv hd i p hp⟩

theorem action_call {α : Type} (allow : Bool) (userFunction : α → List (σ → σ)) (m : σ) (x : α) :
    (call (actionObject allow userFunction) m x).1 = (userFunction x).foldl (fun s f => f s) m := by
  simp only [call, actionObject]
  generalize userFunction x = l
  induction l generalizing m with
  | nil => rfl
  | cons f l ih => simp only [List.map_cons, List.foldl_cons]; exact ih (f m)

/-- C20: with the lock, the user's data end up as if the actions had been executed one after the other. -/
theorem C20_atomic_actions {α : Type} (userFunction : α → List (σ → σ)) (m : σ)
    (programs : List (List α)) (s : State σ α Unit)
    (h : Reachable (actionObject false userFunction) m programs s) (hd : s.AllDone) :
    ∃ order : List α, order.Perm programs.flatten ∧
      s.members = order.foldl (fun m x => (userFunction x).foldl (fun s f => f s) m) m := by
  obtain ⟨order, hp, hm⟩ := C19_all_done _ rfl m programs s h hd
  refine ⟨order, hp, ?_⟩
  rw [hm]
  unfold membersAfter
  congr 1
  funext m x
  exact action_call false userFunction m x

/-! ## Concrete schedules -/

/-- A user function that increments a variable (members: variable and a register per sample value). -/
def incr (x : Bool) : List ((Nat × Nat × Nat) → (Nat × Nat × Nat)) :=
  if x then [fun s => (s.1, s.1 + 1, s.2.2), fun s => (s.2.1, s.2.1, s.2.2)]
  else [fun s => (s.1, s.2.1, s.1 + 1), fun s => (s.2.2, s.2.1, s.2.2)]

/-- With `allow_concurrent_action = true` two actions can be in progress at the same time and updates of
unprotected user data get lost: the lock is what C20 rests on. -/
theorem C20_concurrent_when_allowed :
    ∃ s, Reachable (actionObject true incr) (0, 0, 0) [[true], [false]] s ∧ s.AllDone ∧ s.members.1 = 1 := by
  refine ⟨_, Relation.ReflTransGen.refl
    |>.tail (.acquire 0 true [] rfl (fun h => by cases h))
    |>.tail (.acquire 1 false [] rfl (fun h => by cases h))
    |>.tail (.micro 0 true _ _ () [] rfl)
    |>.tail (.micro 1 false _ _ () [] rfl)
    |>.tail (.micro 0 true _ _ () [] rfl)
    |>.tail (.micro 1 false _ _ () [] rfl)
    |>.tail (.release 0 true () [] rfl)
    |>.tail (.release 1 false () [] rfl), ?_, rfl⟩
  intro t ht
  simp [initial] at ht
  subst ht
  exact ⟨rfl, rfl⟩

theorem run_body (o : Object σ Op R) (i : Nat) (op : Op) (todo : List Op) (fs : List (σ → R → σ × R)) (r : R)
    (s : State σ Op R) (hi : s.threads[i]? = some ⟨some (op, fs, r), todo⟩) :
    Relation.ReflTransGen (Step o) s
      { s with
        members := (fs.foldl (fun p f => f p.1 p.2) (s.members, r)).1
        threads := s.threads.set i ⟨some (op, [], (fs.foldl (fun p f => f p.1 p.2) (s.members, r)).2), todo⟩ } := by
  induction fs generalizing s r with
  | nil =>
    have : s.threads.set i ⟨some (op, [], r), todo⟩ = s.threads := by
      apply List.ext_getElem?
      intro j
      rw [get_set hi]
      split
      · rename_i e; rw [e, hi]
      · rfl
    simp only [List.foldl_nil, this]
    exact Relation.ReflTransGen.refl
  | cons f fs ih =>
    have h1 := Step.micro (o := o) i op f fs r todo hi
    have h2 := ih (f s.members r).2
      { s with
        members := (f s.members r).1
        threads := s.threads.set i ⟨some (op, fs, (f s.members r).2), todo⟩ }
      (by simp only; rw [get_set hi, if_pos rfl])
    simp only [List.set_set] at h2
    exact Relation.ReflTransGen.head h1 h2

/-- Any thread may execute its next call without interruption. -/
theorem run_call (o : Object σ Op R) (i : Nat) (op : Op) (todo : List Op) (s : State σ Op R)
    (hi : s.threads[i]? = some ⟨none, op :: todo⟩) (hl : s.lock = none) :
    Relation.ReflTransGen (Step o) s
      { members := (call o s.members op).1
        lock := none
        threads := s.threads.set i ⟨none, todo⟩
        history := s.history ++ [(i, op, (call o s.members op).2)] } := by
  have h1 := Step.acquire (o := o) i op todo hi (fun _ => hl)
  have h2 := run_body o i op todo (o.body op) (o.local0 op)
    { s with
        lock := if o.locks then some i else s.lock
        threads := s.threads.set i ⟨some (op, o.body op, o.local0 op), todo⟩ }
    (show (s.threads.set i ⟨some (op, o.body op, o.local0 op), todo⟩)[i]? = _ by rw [get_set hi, if_pos rfl])
  have h3 := Relation.ReflTransGen.head h1 h2
  refine h3.tail ?_
  simp only [List.set_set]
  have h4 := Step.release (o := o) (s := { s with
        members := (call o s.members op).1
        lock := if o.locks then some i else s.lock
        threads := s.threads.set i ⟨some (op, [], (call o s.members op).2), todo⟩ }) i op
        (call o s.members op).2 todo (by simp only; rw [get_set hi, if_pos rfl])
  simp only [List.set_set] at h4
  have e : (if o.locks = true then none else if o.locks = true then some i else s.lock) = none := by
    cases o.locks <;> simp [hl]
  rw [e] at h4
  exact h4

/-- Finished executions exist for any object and any two threads (here: thread 1, then thread 0, then thread 1
again), so the premises of C19 and C20 are not void. -/
theorem C19_premises_satisfiable (o : Object σ Op R) (m : σ) (a b c : Op) :
    ∃ s, Reachable o m [[a], [b, c]] s ∧ s.AllDone ∧ s.history.map (fun e => (e.1, e.2.1)) = [(1, b), (0, a), (1, c)] := by
  refine ⟨_, ((run_call o 1 b [c] _ rfl rfl).trans (run_call o 0 a [] _ rfl rfl)).trans
    (run_call o 1 c [] _ rfl rfl), ?_, rfl⟩
  intro t ht
  simp [initial] at ht
  subst ht
  exact ⟨rfl, rfl⟩

/-- Two threads consume 3 and 5 and get the mean 4. -/
example : ∃ s, Reachable (meanObject (fun _ : Unit => (0 : ℚ))) (MeanState.init (fun _ => 17))
    [[.consume (fun _ => 3)], [.consume (fun _ => 5), .get]] s ∧ s.AllDone ∧ s.members.get () = 4 := by
  obtain ⟨s, h1, h2, -⟩ := C19_premises_satisfiable (meanObject (fun _ : Unit => (0 : ℚ)))
    (MeanState.init (fun _ => 17)) (.consume (fun _ => 3)) (.consume (fun _ => 5)) .get
  refine ⟨s, h1, h2, ?_⟩
  rw [C19_mean _ _ _ s h1 h2 (by simp [samplesOf])]
  simp [samplesOf]
  norm_num

/-! ### Instances: concrete cases that meet the hypotheses of the theorems above -/

example := C19_linearizable (countObject Nat) rfl 0 [[.consume 5], [.consume 6, .get]] _ (C19_premises_satisfiable (countObject Nat) 0 (.consume 5) (.consume 6) .get).choose_spec.1 
example := C19_all_done (countObject Nat) rfl 0 [[.consume 5], [.consume 6, .get]] _ (C19_premises_satisfiable (countObject Nat) 0 (.consume 5) (.consume 6) .get).choose_spec.1 (C19_premises_satisfiable (countObject Nat) 0 (.consume 5) (.consume 6) .get).choose_spec.2.1 
example := C19_no_deadlock (countObject Nat) rfl 0 [[.consume 5], [.consume 6, .get]] _ .refl (fun h => by have := (h _ (List.mem_cons_self ..)).2; simp at this)
example := C19_count Nat [[.consume 5], [.consume 6, .get]] _ (C19_premises_satisfiable (countObject Nat) 0 (.consume 5) (.consume 6) .get).choose_spec.1 (C19_premises_satisfiable (countObject Nat) 0 (.consume 5) (.consume 6) .get).choose_spec.2.1 
example := C19_mean_get (fun _ : Unit => (0 : ℚ)) (fun _ => 17) [[.consume (fun _ => 3)], [.consume (fun _ => 5), .get]] _ (C19_premises_satisfiable (meanObject (fun _ : Unit => (0 : ℚ))) (MeanState.init (fun _ => 17)) (.consume (fun _ => 3)) (.consume (fun _ => 5)) .get).choose_spec.1
example := C19_covariance (fun _ : Fin 2 => (7 : ℚ)) (fun _ _ => 8) (fun _ _ => 9) [[.consume (fun _ => 3)], [.consume (fun _ => 5), .get]] _ (C19_premises_satisfiable (covObject 2 (fun _ _ => 9)) (CovState.init (fun _ => 7) (fun _ _ => 8)) (.consume (fun _ => 3)) (.consume (fun _ => 5)) .get).choose_spec.1 (C19_premises_satisfiable (covObject 2 (fun _ _ => 9)) (CovState.init (fun _ => 7) (fun _ _ => 8)) (.consume (fun _ => 3)) (.consume (fun _ => 5)) .get).choose_spec.2.1 (by simp [samplesOf])
example := C19_histogram_bins 2 [0, 4] [[.consume (some 0)], [.consume none, .get]] _ (C19_premises_satisfiable (binsObject 2) [0, 4] (.consume (some 0)) (.consume none) .get).choose_spec.1 (C19_premises_satisfiable (binsObject 2) [0, 4] (.consume (some 0)) (.consume none) .get).choose_spec.2.1 1
example := C19_takeEveryNth Nat String 2 (by decide) [[(5, "a")], [(6, "b"), (7, "c")]] _ (C19_premises_satisfiable (takeObject Nat String 2) 0 (5, "a") (6, "b") (7, "c")).choose_spec.1 (C19_premises_satisfiable (takeObject Nat String 2) 0 (5, "a") (6, "b") (7, "c")).choose_spec.2.1 
example := C20_no_concurrent_action incr (0, 0, 0) [[true], [false, true]] _ (C19_premises_satisfiable (actionObject false incr) (0, 0, 0) true false true).choose_spec.1 0 1
example := C20_exactly_once true incr (0, 0, 0) [[true], [false, true]] _ (C19_premises_satisfiable (actionObject true incr) (0, 0, 0) true false true).choose_spec.1 (C19_premises_satisfiable (actionObject true incr) (0, 0, 0) true false true).choose_spec.2.1 
example := C20_atomic_actions incr (0, 0, 0) [[true], [false, true]] _ (C19_premises_satisfiable (actionObject false incr) (0, 0, 0) true false true).choose_spec.1 (C19_premises_satisfiable (actionObject false incr) (0, 0, 0) true false true).choose_spec.2.1 

end SampleFlow.Mutex
