import Verif.Props.AsyncStatistics
import Verif.Proofs.AsyncOrder
import Mathlib.Tactic.FinCases

/-!
# C78: the order of the samples in networks with synchronous and asynchronous members

`BehindAsync N n`: the node is asynchronous or somewhere behind an asynchronous one.  `SyncPath`, `along`: see `Spec/AsyncOrder`.
-/

namespace SampleFlow.Async

open Spec SampleFlow.Spec

variable {V : Type}

/-- the nodes behind asynchronous ones are closed under connections -/
theorem behindAsync_next {N : Net V} {n c : Nat} (h : BehindAsync N n) (hc : c ∈ N.outs n) : BehindAsync N c := by
  obtain ⟨a, h1, h2⟩ := h
  exact ⟨a, h1, h2.tail hc⟩

open Classical in
/-- **C78**. One thread calls `sample()`; any filters and consumers, anywhere in the network, may be asynchronous.  Each time
`sample()` has returned, every node that is not behind an asynchronous one has consumed exactly the same sequence of messages
(same order) as in the completely synchronous network `N₂`, for every schedule. -/
theorem C78_same_order (N₁ N₂ : Net V) (ho : N₁.outs = N₂.outs) (hb : N₁.behave = N₂.behave)
    (hsync : ∀ n, N₂.isAsync n = false) (done todo : List (Call V)) (hne : done ≠ []) (hf : Flushes [done])
    (s₁ s₂ : State V) (h₁ : Reachable N₁ [done ++ todo] s₁) (r₁ : ReturnedBefore s₁ todo)
    (h₂ : Reachable N₂ [done ++ todo] s₂) (r₂ : ReturnedBefore s₂ todo) (n : Nat) (hn : ¬ BehindAsync N₁ n) :
    s₁.log n = s₂.log n := by
  obtain ⟨s₁', a1, d1, e1⟩ := C58_every_return_is_final N₁ done todo hne hf s₁ h₁ r₁
  obtain ⟨s₂', a2, d2, e2⟩ := C58_every_return_is_final N₂ done todo hne hf s₂ h₂ r₂
  rw [← e1, ← e2]
  refine sim_logs_eq (A := fun n => decide (BehindAsync N₁ n)) ho hb ?_ ?_ ?_ a1 a2 d1 d2 n (by simp [hn])
  · intro k hk; simp only [decide_eq_true_eq]; exact ⟨k, hk, .refl⟩
  · intro k hk; rw [hsync] at hk; cases hk
  · intro k hk c hc
    simp only [decide_eq_true_eq] at hk ⊢
    exact behindAsync_next hk hc

/-- the same for finished executions, used below -/
theorem same_order_done (N₁ N₂ : Net V) (ho : N₁.outs = N₂.outs) (hb : N₁.behave = N₂.behave)
    (hsync : ∀ n, N₂.isAsync n = false) (done : List (Call V))
    (s₁ s₂ : State V) (h₁ : Reachable N₁ [done] s₁) (d₁ : AllDone s₁)
    (h₂ : Reachable N₂ [done] s₂) (d₂ : AllDone s₂) (n : Nat) (hn : ¬ BehindAsync N₁ n) :
    s₁.log n = s₂.log n := by
  classical
  refine sim_logs_eq (A := fun n => decide (BehindAsync N₁ n)) ho hb ?_ ?_ ?_ h₁ h₂ d₁ d₂ n (by simp [hn])
  · intro k hk; simp only [decide_eq_true_eq]; exact ⟨k, hk, .refl⟩
  · intro k hk; rw [hsync] at hk; cases hk
  · intro k hk c hc
    simp only [decide_eq_true_eq] at hk ⊢
    exact behindAsync_next hk hc

theorem issued_stateless_at (N : Net V) (n : Nat) (hst : ∀ hist m, N.behave n hist m = N.behave n [] m) (hist : List V) :
    issued N n hist = hist.filterMap (N.behave n []) := by
  have : ∀ past, issuedFrom N n past hist = hist.filterMap (N.behave n []) := by
    induction hist with
    | nil => intro past; rfl
    | cons m hist ih =>
      intro past
      rw [issuedFrom, ih, hst past m, List.filterMap_cons]
      cases N.behave n [] m <;> rfl
  exact this []

/-- **C78**, what is left behind asynchronous nodes: if all *filters* that are asynchronous, or behind an asynchronous one, are
stateless (conversions, conditions, component splitters; the filters in front of them may have a state), then each time `sample()`
has returned every node has consumed the same messages as in the completely synchronous network up to order. -/
theorem C78_same_samples (N₁ N₂ : Net V) (ho : N₁.outs = N₂.outs) (hb : N₁.behave = N₂.behave)
    (hsync : ∀ n, N₂.isAsync n = false) (K : Nat) (hK : Finite N₁ K) (hac : Acyclic N₁)
    (hst : ∀ n, BehindAsync N₁ n → N₁.outs n ≠ [] → ∀ hist m, N₁.behave n hist m = N₁.behave n [] m)
    (done todo : List (Call V)) (hne : done ≠ []) (hf : Flushes [done])
    (s₁ s₂ : State V) (h₁ : Reachable N₁ [done ++ todo] s₁) (r₁ : ReturnedBefore s₁ todo)
    (h₂ : Reachable N₂ [done ++ todo] s₂) (r₂ : ReturnedBefore s₂ todo) (n : Nat) :
    (s₁.log n).Perm (s₂.log n) := by
  obtain ⟨s₁', a1, d1, e1⟩ := C58_every_return_is_final N₁ done todo hne hf s₁ h₁ r₁
  obtain ⟨s₂', a2, d2, e2⟩ := C58_every_return_is_final N₂ done todo hne hf s₂ h₂ r₂
  rw [← e1, ← e2]
  clear e1 e2 h₁ h₂ r₁ r₂
  obtain ⟨rank, hr⟩ := hac
  have hK₂ : Finite N₂ K := by intro p hpK; rw [← ho]; exact hK p hpK
  obtain ⟨M, hM⟩ : ∃ M, ∀ p < K, rank p ≤ M := by
    clear hK hK₂
    induction K with
    | zero => exact ⟨0, by simp⟩
    | succ K ih =>
      obtain ⟨M, hM⟩ := ih
      refine ⟨max M (rank K), fun p hp => ?_⟩
      rcases Nat.lt_succ_iff_lt_or_eq.mp hp with hp | rfl
      · exact (hM p hp).trans (le_max_left _ _)
      · exact le_max_right _ _
  suffices H : ∀ (r n : Nat), M - rank n = r → (s₁'.log n).Perm (s₂'.log n) from H _ n rfl
  intro r
  induction r using Nat.strong_induction_on with
  | _ r ih =>
    intro n hn
    have e₁ := C13_exactly_once N₁ K hK [done] s₁' a1 d1 n
    have e₂ := C13_exactly_once N₂ K hK₂ [done] s₂' a2 d2 n
    refine e₁.trans (List.Perm.trans ?_ e₂.symm)
    refine List.Perm.append (List.Perm.refl _) ?_
    unfold fromNodes
    apply List.Perm.flatMap_left
    intro p hpm
    have hpK := List.mem_range.mp hpm
    have hi : ∀ hist, issued N₂ p hist = issued N₁ p hist := by
      intro hist
      unfold issued
      generalize ([] : List V) = past
      induction hist generalizing past with
      | nil => rfl
      | cons m hist ih => rw [issuedFrom, issuedFrom, ih, hb]
    rw [← ho, hi]
    by_cases hnp : n ∈ N₁.outs p
    · by_cases hpb : BehindAsync N₁ p
      · have h1 := hr p n hnp
        have h2 := hM p hpK
        have hs := hst p hpb (List.ne_nil_of_mem hnp)
        rw [issued_stateless_at N₁ p hs, issued_stateless_at N₁ p hs]
        exact ((ih (M - rank p) (by omega) p rfl).filterMap _).flatMap_right _
      · rw [same_order_done N₁ N₂ ho hb hsync done s₁' s₂' a1 d1 a2 d2 p hpb]
    · rw [List.count_eq_zero_of_not_mem hnp]
      simp [List.flatMap_eq_nil_iff.mpr]

/-- **C78**, the sequence itself.  Any number of user threads, any mixture of modes elsewhere in the network.  At the end of a path of
synchronous nodes (filters with or without a state) that gets its samples from producers on which only thread `a` calls `sample()`,
each time such a call has returned the last node of the path has consumed, in this order, the samples issued by the calls made so
far, sent through the filters of the path one after the other; nothing else. -/
theorem C78_path_stream (N : Net V) (path : List Nat) (P : SyncPath N path) (r : Nat) (hr : path.head? = some r)
    (progs : List (List (Call V))) (a : Nat) (done todo : List (Call V)) (ha : progs[a]? = some (done ++ todo))
    (hroot : ∀ c ∈ done ++ todo, ∀ k ∈ c.roots, k ∈ path → k = r)
    (hothers : ∀ (b : Nat) (cs : List (Call V)), b ≠ a → progs[b]? = some cs → ∀ c ∈ cs, ∀ k ∈ c.roots, k ∉ path)
    (s : State V) (h : Reachable N progs s) (hret : ReturnedFrom s a todo) (n : Nat) (hn : path.getLast? = some n) :
    s.log n = along N path (fromProducers [done] r) := by
  classical
  have hr0 : path[0]? = some r := by rw [← List.head?_eq_getElem?]; exact hr
  let A : Nat → Bool := fun n => decide (n ∉ path)
  have hA : ∀ n, A n = false ↔ n ∈ path := by intro n; simp [A]
  have S : Sim N A a _ s := h.sim ha (fun b cs hb hcs c hc k hk => by simpa [A] using hothers b cs hb hcs c hc k hk)
    (fun k hk => by
      by_contra hc
      have : k ∈ path := (hA k).mp (by simpa using hc)
      rw [P.sync k this] at hk; cases hk)
    (fun k hk c hc => by
      by_contra hcc
      have hcp : c ∈ path := (hA c).mp (by simpa using hcc)
      obtain ⟨i, hi⟩ := List.mem_iff_getElem?.mp hcp
      obtain ⟨j, -, hj⟩ := P.feeds i c hi k hc
      have : A k = false := (hA k).mpr (List.mem_of_getElem? hj)
      rw [this] at hk; cases hk)
  obtain ⟨t, ht, hsteps⟩ := S.main
  obtain ⟨t', ht', hst⟩ := hret
  rw [ht] at ht'
  cases ht'
  have I := (PathInv.start P hA (done ++ todo) r hr0 hroot).steps P hA hsteps
  have hlog : ∀ k ∈ path, visLog A s.log k = s.log k := by
    intro k hk; simp [visLog, (hA k).mpr hk]
  have hp : ∀ k ∈ path, pendTo k (t.stack.filter (vis A)) = fromProducers [todo] k := by
    intro k hk
    rw [pendTo_vis ((hA k).mpr hk), hst]
    exact pendTo_programs k todo
  have hrp : r ∈ path := List.mem_of_getElem? hr0
  have hroot' : s.log r = fromProducers [done] r := by
    have := I.root r hr0
    simp only [hlog r hrp, hp r hrp] at this
    have e : fromProducers [done ++ todo] r = fromProducers [done] r ++ fromProducers [todo] r := by
      simp [fromProducers]
    rw [e] at this
    exact List.append_cancel_right this
  rw [← hroot']
  refine along_of_links N s.log path r hr0 ?_ n hn
  intro i p c hpi hci
  have := I.link i p c hpi hci
  have hpm := List.mem_of_getElem? hpi
  have hcm := List.mem_of_getElem? hci
  simp only [hlog c hcm, hlog p hpm, hp c hcm] at this
  have e : fromProducers [todo] c = [] := by
    unfold fromProducers
    simp only [List.flatten_cons, List.flatten_nil, List.append_nil]
    rw [List.flatMap_eq_nil_iff]
    intro cl hcl
    rw [List.flatMap_eq_nil_iff]
    intro m _
    rw [List.count_eq_zero_of_not_mem]
    · rfl
    · intro hk
      have := hroot cl (List.mem_append_right _ hcl) c hk hcm
      subst this
      have := idx_unique P.nodup hr0
      have := idx_unique P.nodup hci
      omega
  rw [e, List.append_nil] at this
  exact this

/-- **C78**, consumers that depend on the order: a synchronous consumer connected once and directly to a producer (called by one
thread) has, each time `sample()` has returned, received the samples issued so far in the order in which they were issued, whatever
else is connected in whatever mode and whatever other threads do. -/
theorem C78_direct (N : Net V) (progs : List (List (Call V))) (a : Nat) (done todo : List (Call V))
    (ha : progs[a]? = some (done ++ todo)) (n : Nat) (hs : N.isAsync n = false) (h2 : ∀ p, n ∉ N.outs p)
    (h1 : ∀ c ∈ done ++ todo, c.roots.count n = 1)
    (hothers : ∀ (b : Nat) (cs : List (Call V)), b ≠ a → progs[b]? = some cs → ∀ c ∈ cs, n ∉ c.roots)
    (s : State V) (h : Reachable N progs s) (hret : ReturnedFrom s a todo) :
    s.log n = done.flatMap Call.msgs := by
  have P : SyncPath N [n] := by
    refine ⟨by simpa using hs, by simp, ?_⟩
    intro i c hi q hq
    have : c = n := by simpa using List.mem_of_getElem? hi
    subst this
    exact absurd hq (h2 q)
  have := C78_path_stream N [n] P n rfl progs a done todo ha (by intro c _ k _ hk; simpa using hk)
    (by intro b cs hb hcs c hc k hk hkn; simp only [List.mem_singleton] at hkn; subst hkn; exact hothers b cs hb hcs c hc hk)
    s h hret n rfl
  rw [this]
  simp only [along, fromProducers, List.flatten_cons, List.flatten_nil, List.append_nil]
  clear ha hret hothers this
  induction done with
  | nil => rfl
  | cons c cs ih =>
    have hc := h1 c (by simp)
    rw [List.flatMap_cons, List.flatMap_cons, ih (fun c' hc' => h1 c' (by simp at hc' ⊢; tauto)), hc]
    congr 1
    simp

/-- The network of the examples: the producer feeds node 0, a `take every second` filter (synchronous), and node 2, an asynchronous
filter that passes everything on; node 1 is a synchronous consumer behind node 0, node 3 a synchronous consumer behind node 2. -/
def mixedNet : Net Nat where
  outs n := if n = 0 then [1] else if n = 2 then [3] else []
  isAsync n := n == 2
  queueSize _ := 1
  behave n hist m := if n = 0 then (if hist.length % 2 = 1 then some m else none) else some m

/-- the schedule of the examples: the two tasks of node 2 run in the wrong order -/
theorem mixedNet_run : ∃ s : State Nat, Reachable mixedNet [[⟨[0, 2], [1, 2], 1⟩] ++ [⟨[0], [3], 1⟩]] s ∧
    ReturnedBefore s [⟨[0], [3], 1⟩] ∧ ReturnedFrom s 0 [⟨[0], [3], 1⟩] ∧ s.log 1 = [2] ∧ s.log 3 = [2, 1] := by
  refine ⟨_, Relation.ReflTransGen.refl
    |>.tail (.deliverSync 0 ⟨none, 0, _⟩ 0 1 _ rfl trivial rfl rfl)
    |>.tail (.consume 0 ⟨none, 0, _⟩ 0 1 _ rfl trivial rfl)
    |>.tail (.deliverAsync 0 ⟨none, 0, _⟩ 2 1 _ false rfl trivial rfl rfl rfl)
    |>.tail (.trim 0 ⟨none, 0, _⟩ 2 _ (fun _ => false) rfl trivial rfl rfl (by simp))
    |>.tail (.deliverSync 0 ⟨none, 0, _⟩ 0 2 _ rfl trivial rfl rfl)
    |>.tail (.consume 0 ⟨none, 0, _⟩ 0 2 _ rfl trivial rfl)
    |>.tail (.deliverSync 0 ⟨none, 0, _⟩ 1 2 _ rfl trivial rfl rfl)
    |>.tail (.consume 0 ⟨none, 0, _⟩ 1 2 _ rfl trivial rfl)
    |>.tail (.deliverAsync 0 ⟨none, 0, _⟩ 2 2 _ false rfl trivial rfl rfl rfl)
    |>.tail (.trim 0 ⟨none, 0, _⟩ 2 _ (fun _ => false) rfl trivial rfl rfl (by simp))
    |>.tail (.consume 2 ⟨some (2, false), 0, _⟩ 2 2 _ rfl trivial rfl)
    |>.tail (.deliverSync 2 ⟨some (2, false), 0, _⟩ 3 2 _ rfl trivial rfl rfl)
    |>.tail (.consume 2 ⟨some (2, false), 0, _⟩ 3 2 _ rfl trivial rfl)
    |>.tail (.consume 1 ⟨some (2, false), 0, _⟩ 2 1 _ rfl trivial rfl)
    |>.tail (.deliverSync 1 ⟨some (2, false), 0, _⟩ 3 1 _ rfl trivial rfl rfl)
    |>.tail (.consume 1 ⟨some (2, false), 0, _⟩ 3 1 _ rfl trivial rfl)
    |>.tail (.flush 0 ⟨none, 0, _⟩ 0 _ rfl trivial rfl rfl)
    |>.tail (.waitDone 0 ⟨none, 0, _⟩ 0 _ rfl trivial rfl (by decide))
    |>.tail (.flush 0 ⟨none, 0, _⟩ 1 _ rfl trivial rfl rfl)
    |>.tail (.waitDone 0 ⟨none, 0, _⟩ 1 _ rfl trivial rfl (by decide))
    |>.tail (.flush 0 ⟨none, 0, _⟩ 2 _ rfl trivial rfl rfl)
    |>.tail (.waitDone 0 ⟨none, 0, _⟩ 2 _ rfl trivial rfl (by decide))
    |>.tail (.flush 0 ⟨none, 0, _⟩ 3 _ rfl trivial rfl rfl)
    |>.tail (.waitDone 0 ⟨none, 0, _⟩ 3 _ rfl trivial rfl (by decide)), ⟨_, rfl, rfl⟩, ⟨_, rfl, rfl⟩, rfl, rfl⟩

theorem mixedNet_path : SyncPath mixedNet [0, 1] := by
  refine ⟨by intro n hn; fin_cases hn <;> rfl, by decide, ?_⟩
  intro i c hi q hq
  match i with
  | 0 =>
    simp only [List.getElem?_cons_zero, Option.some.injEq] at hi
    subst hi
    simp only [mixedNet] at hq
    split at hq
    · simp at hq
    · split at hq <;> simp at hq
  | 1 =>
    simp only [List.getElem?_cons_succ, List.getElem?_cons_zero, Option.some.injEq] at hi
    subst hi
    simp only [mixedNet] at hq
    split at hq
    · rename_i h; exact ⟨0, rfl, by simp [h]⟩
    · split at hq <;> simp at hq
  | i + 2 => simp at hi

/-- The hypotheses of `C78_path_stream` are met by a network with a stateful filter and an asynchronous branch; the theorem gives
the log of the consumer. -/
example : ∃ s : State Nat, Reachable mixedNet [[⟨[0, 2], [1, 2], 1⟩] ++ [⟨[0], [3], 1⟩]] s ∧ s.log 1 = [2] ∧
    along mixedNet [0, 1] (fromProducers [[(⟨[0, 2], [1, 2], 1⟩ : Call Nat)]] 0) = s.log 1 := by
  obtain ⟨s, h1, -, h3, h4, -⟩ := mixedNet_run
  refine ⟨s, h1, h4, (C78_path_stream mixedNet [0, 1] mixedNet_path 0 rfl _ 0 _ _ rfl ?_ ?_ s h1 h3 1 rfl).symm⟩
  · intro c hc k hk hp
    simp only [List.cons_append, List.nil_append, List.mem_cons, List.not_mem_nil, or_false] at hc hp
    rcases hc with rfl | rfl
    · simp at hk; omega
    · simp at hk; omega
  · intro b cs hb hcs
    match b with
    | 0 => exact absurd rfl hb
    | b + 1 => simp at hcs

theorem mixedNet_front : ¬ BehindAsync mixedNet 1 := by
  rintro ⟨a, ha, hp⟩
  have ha2 : a = 2 := by simpa [mixedNet] using ha
  subst ha2
  have key : ∀ k, Relation.ReflTransGen (fun p c => c ∈ mixedNet.outs p) 2 k → k = 2 ∨ k = 3 := by
    intro k hk
    induction hk with
    | refl => exact .inl rfl
    | tail _ hs ih =>
      rcases ih with rfl | rfl
      · right; simpa [mixedNet] using hs
      · simp [mixedNet] at hs
  have := key 1 hp
  omega

/-- The condition on the position in `C78_same_order` is needed: a synchronous consumer behind an asynchronous filter may get the
samples in another order than in the synchronous network, where (by `C78_direct`, `C78_path_stream`) it gets them as issued. -/
theorem C78_order_lost_behind_async : ∃ (N : Net Nat) (s : State Nat) (todo : List (Call Nat)),
    Reachable N [[⟨[0, 2], [1, 2], 1⟩] ++ todo] s ∧ ReturnedBefore s todo ∧ N.isAsync 3 = false ∧ BehindAsync N 3 ∧
    (∀ m hist, N.behave 2 hist m = some m) ∧ N.outs 2 = [3] ∧ s.log 3 = [2, 1] := by
  obtain ⟨s, h1, h2, -, -, h5⟩ := mixedNet_run
  exact ⟨mixedNet, s, _, h1, h2, rfl, ⟨2, rfl, .single (by decide)⟩, fun m hist => rfl, rfl, h5⟩

/-- `C78_same_order`: the run above and the same calls in the synchronous network; node 1 is not behind an asynchronous one. -/
example : ∃ (N₂ : Net Nat) (s₁ s₂ : State Nat) (todo : List (Call Nat)), mixedNet.outs = N₂.outs ∧
    mixedNet.behave = N₂.behave ∧ (∀ n, N₂.isAsync n = false) ∧
    Reachable mixedNet [[⟨[0, 2], [1, 2], 1⟩] ++ todo] s₁ ∧ ReturnedBefore s₁ todo ∧
    Reachable N₂ [[⟨[0, 2], [1, 2], 1⟩] ++ todo] s₂ ∧ ReturnedBefore s₂ todo ∧ ¬ BehindAsync mixedNet 1 ∧
    s₂.log 1 = [2] ∧ s₂.log 3 = [1, 2] ∧ Flushes [[(⟨[0, 2], [1, 2], 1⟩ : Call Nat)]] ∧
    (∀ n, BehindAsync mixedNet n → mixedNet.outs n ≠ [] → ∀ hist m, mixedNet.behave n hist m = mixedNet.behave n [] m) ∧
    Finite mixedNet 4 ∧ Acyclic mixedNet := by
  obtain ⟨s₁, h1, h2, -, -, -⟩ := mixedNet_run
  refine ⟨{ mixedNet with isAsync := fun _ => false }, s₁, _, _, rfl, rfl, fun _ => rfl, h1, h2,
    Relation.ReflTransGen.refl
    |>.tail (.deliverSync 0 ⟨none, 0, _⟩ 0 1 _ rfl trivial rfl rfl)
    |>.tail (.consume 0 ⟨none, 0, _⟩ 0 1 _ rfl trivial rfl)
    |>.tail (.deliverSync 0 ⟨none, 0, _⟩ 2 1 _ rfl trivial rfl rfl)
    |>.tail (.consume 0 ⟨none, 0, _⟩ 2 1 _ rfl trivial rfl)
    |>.tail (.deliverSync 0 ⟨none, 0, _⟩ 3 1 _ rfl trivial rfl rfl)
    |>.tail (.consume 0 ⟨none, 0, _⟩ 3 1 _ rfl trivial rfl)
    |>.tail (.deliverSync 0 ⟨none, 0, _⟩ 0 2 _ rfl trivial rfl rfl)
    |>.tail (.consume 0 ⟨none, 0, _⟩ 0 2 _ rfl trivial rfl)
    |>.tail (.deliverSync 0 ⟨none, 0, _⟩ 1 2 _ rfl trivial rfl rfl)
    |>.tail (.consume 0 ⟨none, 0, _⟩ 1 2 _ rfl trivial rfl)
    |>.tail (.deliverSync 0 ⟨none, 0, _⟩ 2 2 _ rfl trivial rfl rfl)
    |>.tail (.consume 0 ⟨none, 0, _⟩ 2 2 _ rfl trivial rfl)
    |>.tail (.deliverSync 0 ⟨none, 0, _⟩ 3 2 _ rfl trivial rfl rfl)
    |>.tail (.consume 0 ⟨none, 0, _⟩ 3 2 _ rfl trivial rfl)
    |>.tail (.flush 0 ⟨none, 0, _⟩ 0 _ rfl trivial rfl rfl)
    |>.tail (.waitDone 0 ⟨none, 0, _⟩ 0 _ rfl trivial rfl (by decide))
    |>.tail (.flush 0 ⟨none, 0, _⟩ 1 _ rfl trivial rfl rfl)
    |>.tail (.waitDone 0 ⟨none, 0, _⟩ 1 _ rfl trivial rfl (by decide))
    |>.tail (.flush 0 ⟨none, 0, _⟩ 2 _ rfl trivial rfl rfl)
    |>.tail (.waitDone 0 ⟨none, 0, _⟩ 2 _ rfl trivial rfl (by decide))
    |>.tail (.flush 0 ⟨none, 0, _⟩ 3 _ rfl trivial rfl rfl)
    |>.tail (.waitDone 0 ⟨none, 0, _⟩ 3 _ rfl trivial rfl (by decide)), ⟨_, rfl, rfl⟩, mixedNet_front, rfl, rfl,
    ?_, ?_, ?_, ⟨fun n => 10 - n, ?_⟩⟩
  · intro calls h c hc
    simp only [List.mem_singleton] at h
    subst h
    simp only [List.mem_singleton] at hc
    subst hc; exact Nat.le_refl 1
  · intro n hb hne hist m
    have h0 : n ≠ 0 := by
      rintro rfl
      exact mixedNet_front (behindAsync_next hb (by decide))
    simp [mixedNet, h0]
  · intro p hp
    simp only [mixedNet]
    rw [if_neg (by omega), if_neg (by omega)]
  · intro n c hc
    simp only [mixedNet] at hc
    split at hc
    · simp at hc; subst hc; rename_i h; subst h; decide
    · split at hc
      · simp at hc; subst hc; rename_i h; subst h; decide
      · simp at hc

end SampleFlow.Async
