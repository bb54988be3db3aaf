import Verif.Props.AsyncNet
import Verif.Props.OrderIndependence
import Verif.Proofs.AsyncCut

/-!
# C58: what asynchronous consumers report after `sample()` has returned

One user thread makes the calls `done`, then the calls `todo`.  `ReturnedBefore s todo`: in the state `s` it has just returned from
the last call in `done`.  `(s.log n)` are the messages that node `n` has consumed, in the order in which its tasks happened to
consume them; the result of a consumer is a function of this list (`meanAfter`, ...; that concurrent executions of `consume` may be
regarded as one after the other is C19).
-/

namespace SampleFlow.Async

open Spec SampleFlow.Spec

variable {V : Type}

/-- **C58**, whenever `sample()` has returned the situation is the same as if this had been the last call: everything known
about finished executions holds after every call. -/
theorem C58_every_return_is_final (N : Net V) (done todo : List (Call V)) (hne : done ≠ []) (hf : Flushes [done])
    (s : State V) (h : Reachable N [done ++ todo] s) (hr : ReturnedBefore s todo) :
    ∃ s', Reachable N [done] s' ∧ AllDone s' ∧ s'.log = s.log := by
  obtain ⟨t, h1, h2⟩ := hr
  rcases h.cut hne with ⟨c, hc, hcut⟩ | ⟨t', h3, h4⟩
  · obtain ⟨o, pre, tail, hpre, e1, e2⟩ := id hcut.threads
    rw [e1] at h1
    simp only [List.getElem?_cons_zero, Option.some.injEq] at h1
    subst h1
    obtain ⟨pre', rfl, h5⟩ := cons_of_append hpre h2
    have hpre' : pre' = [] := by
      have := congrArg List.length h5
      simp only [List.length_append] at this
      exact List.length_eq_zero_iff.mp (by omega)
    subst hpre'
    have hc0 : c.threads[0]? = some ⟨none, o, [.ret]⟩ := by rw [e2]; rfl
    refine ⟨c.setStack 0 ⟨none, o, [.ret]⟩ [], hc.tail (.ret 0 _ [] hc0 trivial rfl), ?_, hcut.log⟩
    have hns : NotSampling c 0 := ⟨_, hc0, rfl, .inr ⟨[], rfl⟩⟩
    have I := hc.inv hf
    intro t ht
    simp only [State.setStack, e2, List.set_cons_zero, List.mem_cons] at ht
    rcases ht with rfl | ht
    · rfl
    · have ht' : t ∈ c.threads := by rw [e2]; exact List.mem_cons_of_mem _ ht
      obtain ⟨k, hk⟩ := List.mem_iff_getElem?.mp ht
      have hk' : c.threads[k + 1]? = some t := by rw [e2]; simpa using hk
      refine C12_flush_waits_for_everything N [done] hf c hc 0 hns t ht' ?_ ?_
      · obtain ⟨ta, ha, hb⟩ := I.ownIsMain _ t hk'
        have := hc.mainIndex _ ta ha hb
        simp at this
        exact this
      · intro h0
        have := hc.mainIndex _ t hk' h0
        simp at this
  · rw [h3] at h1
    cases h1
    rw [h2] at h4
    unfold rets at h4
    rw [List.countP_cons_of_pos (by rfl)] at h4
    omega

/-- **C58** for a consumer connected once to the producer (whatever else is connected, whatever the modes): each time `sample()`
has returned, it has consumed exactly the samples issued so far, in some order. -/
theorem C58_consumed_everything (N : Net V) (K : Nat) (hK : Finite N K) (done todo : List (Call V)) (hne : done ≠ [])
    (hf : Flushes [done]) (s : State V) (h : Reachable N [done ++ todo] s) (hr : ReturnedBefore s todo)
    (n : Nat) (h1 : ∀ c ∈ done, c.roots.count n = 1) (h2 : ∀ p, n ∉ N.outs p) :
    (s.log n).Perm (done.flatMap Call.msgs) := by
  obtain ⟨s', hs', hd, hlog⟩ := C58_every_return_is_final N done todo hne hf s h hr
  have := C13_exactly_once N K hK [done] s' hs' hd n
  rw [hlog] at this
  refine this.trans (List.Perm.of_eq ?_)
  have e1 : fromNodes N K s.log n = [] := by
    unfold fromNodes
    rw [List.flatMap_eq_nil_iff]
    intro p _
    rw [List.flatMap_eq_nil_iff]
    intro y _
    rw [List.count_eq_zero_of_not_mem (h2 p)]
    rfl
  rw [e1, List.append_nil]
  unfold fromProducers
  simp only [List.flatten_cons, List.flatten_nil, List.append_nil]
  clear hr h hf hne this e1 hs'
  induction done with
  | nil => rfl
  | cons c cs ih =>
    rw [List.flatMap_cons, List.flatMap_cons, ih (fun c hc => h1 c (by simp [hc])), h1 c (by simp)]
    simp

/-- **C58**, MeanValue: after `sample()` has returned, an asynchronous MeanValue reports the arithmetic mean of all samples
issued so far. -/
theorem C58_mean {K ι : Type} [Field K] [CharZero K] (sample : V → ι → K) (G : ι → K)
    (N : Net V) (B : Nat) (hB : Finite N B) (done todo : List (Call V)) (hf : Flushes [done])
    (s : State V) (h : Reachable N [done ++ todo] s) (hr : ReturnedBefore s todo)
    (n : Nat) (h1 : ∀ c ∈ done, c.roots.count n = 1) (h2 : ∀ p, n ∉ N.outs p) (hne : done.flatMap Call.msgs ≠ []) (i : ι) :
    (meanAfter G ((s.log n).map sample)).get i =
      ((done.flatMap Call.msgs).map (fun m => sample m i)).sum / ((done.flatMap Call.msgs).length : K) := by
  have hp := C58_consumed_everything N B hB done todo (by rintro rfl; simp at hne) hf s h hr n h1 h2
  rw [C22_mean G _ _ (hp.map sample), C21_mean G _ (by simpa using hne), List.length_map, List.map_map]
  rfl

/-- **C58**, CovarianceMatrix: at least two samples; the sample covariance of all samples issued so far. -/
theorem C58_covariance {K ι : Type} [Field K] [CharZero K] [StarRing K] (sample : V → ι → K) (M : ι → K) (C₀ G : ι → ι → K)
    (N : Net V) (B : Nat) (hB : Finite N B) (done todo : List (Call V)) (hf : Flushes [done])
    (s : State V) (h : Reachable N [done ++ todo] s) (hr : ReturnedBefore s todo)
    (n : Nat) (h1 : ∀ c ∈ done, c.roots.count n = 1) (h2 : ∀ p, n ∉ N.outs p)
    (hlen : 2 ≤ (done.flatMap Call.msgs).length) (i j : ι) :
    (covAfter M C₀ G ((s.log n).map sample)).get i j = cov ((done.flatMap Call.msgs).map sample) i j := by
  have hp := C58_consumed_everything N B hB done todo (by rintro rfl; simp at hlen) hf s h hr n h1 h2
  have hx : (s.log n).map sample ≠ [] := by
    intro h0
    have := hp.length_eq
    rw [List.map_eq_nil_iff.mp h0] at this
    simp only [List.length_nil] at this
    omega
  rw [C22_covariance M C₀ G _ _ hx (hp.map sample)]
  exact C23_covariance M C₀ G _ (by simpa using hlen) i j

/-- **C58**, CountSamples: the number of samples issued so far. -/
theorem C58_count (N : Net V) (B : Nat) (hB : Finite N B) (done todo : List (Call V)) (hf : Flushes [done]) (hne : done ≠ [])
    (s : State V) (h : Reachable N [done ++ todo] s) (hr : ReturnedBefore s todo)
    (n : Nat) (h1 : ∀ c ∈ done, c.roots.count n = 1) (h2 : ∀ p, n ∉ N.outs p) :
    (countAfter (s.log n)).toNat = (done.map (fun c => c.msgs.length)).sum % 2^64 := by
  have hp := C58_consumed_everything N B hB done todo hne hf s h hr n h1 h2
  rw [C34_countSamples, hp.length_eq, List.length_flatMap]

/-- **C58**, Histogram: every bin holds the number of samples issued so far that lie in it. -/
theorem C58_histogram {D : Type} [LinearOrder D] (value : V → D) (debug : Bool) (pts : List D) (S : Subdivision pts)
    (N : Net V) (B : Nat) (hB : Finite N B) (done todo : List (Call V)) (hf : Flushes [done]) (hne : done ≠ [])
    (s : State V) (h : Reachable N [done ++ todo] s) (hr : ReturnedBefore s todo)
    (n : Nat) (h1 : ∀ c ∈ done, c.roots.count n = 1) (h2 : ∀ p, n ∉ N.outs p) :
    ∃ hist rows, histAfter debug ⟨pts, List.replicate (pts.length - 1) 0⟩ ((s.log n).map (fun m => .num (value m))) = .ok hist ∧
      hist.get = .ok rows ∧ rows.length = pts.length - 1 ∧
      ∀ k (hk : k < rows.length) (hk' : k + 1 < pts.length),
        rows[k] = (pts[k], pts[k+1], (done.flatMap Call.msgs).countP (fun m => inBin pts k (value m))) := by
  have hp := C58_consumed_everything N B hB done todo hne hf s h hr n h1 h2
  obtain ⟨hist, rows, e1, e2, e3, e4⟩ := C30_counts debug pts S ((s.log n).map value)
  rw [List.map_map] at e1
  refine ⟨hist, rows, e1, e2, e3, fun k hk hk' => ?_⟩
  rw [e4 k hk hk', List.countP_map, hp.countP_eq]
  rfl

/-! ### networks -/

/-- **C58**, networks with synchronous (stateful) filters and consumers in any mode at the ends: each time `sample()` has returned,
every consumer has consumed the same samples, up to order, as in the completely synchronous network `N₂`; filters and synchronous
consumers even in the same order. -/
theorem C58_same_as_synchronous (N₁ N₂ : Net V) (ho : N₁.outs = N₂.outs) (hb : N₁.behave = N₂.behave) (K : Nat)
    (hK : Finite N₁ K) (hl : ∀ n, N₁.isAsync n = true → N₁.outs n = []) (hsync : ∀ n, N₂.isAsync n = false)
    (done todo : List (Call V)) (hne : done ≠ []) (hf : Flushes [done])
    (s₁ s₂ : State V) (h₁ : Reachable N₁ [done ++ todo] s₁) (r₁ : ReturnedBefore s₁ todo)
    (h₂ : Reachable N₂ [done ++ todo] s₂) (r₂ : ReturnedBefore s₂ todo) (n : Nat) :
    (N₁.isAsync n = false → s₁.log n = s₂.log n) ∧ (s₁.log n).Perm (s₂.log n) := by
  obtain ⟨a₁, b₁, d₁, e₁⟩ := C58_every_return_is_final N₁ done todo hne hf s₁ h₁ r₁
  obtain ⟨a₂, b₂, d₂, e₂⟩ := C58_every_return_is_final N₂ done todo hne hf s₂ h₂ r₂
  have := C13_same_as_synchronous_leaves N₁ N₂ ho hb K hK hl (fun n h => by simp [hsync n] at h) done a₁ a₂ b₁ b₂ d₁ d₂ n
  rw [e₁, e₂] at this
  exact ⟨fun h => this.1 h (hsync n), this.2⟩

/-- **C58**, the results in networks: every consumer class that can work asynchronously reports the same as in the completely
synchronous network. -/
theorem C58_same_results (N₁ N₂ : Net V) (ho : N₁.outs = N₂.outs) (hb : N₁.behave = N₂.behave) (K : Nat)
    (hK : Finite N₁ K) (hl : ∀ n, N₁.isAsync n = true → N₁.outs n = []) (hsync : ∀ n, N₂.isAsync n = false)
    (done todo : List (Call V)) (hne : done ≠ []) (hf : Flushes [done])
    (s₁ s₂ : State V) (h₁ : Reachable N₁ [done ++ todo] s₁) (r₁ : ReturnedBefore s₁ todo)
    (h₂ : Reachable N₂ [done ++ todo] s₂) (r₂ : ReturnedBefore s₂ todo) (n : Nat)
    {F ι D S : Type} [Field F] [CharZero F] [StarRing F] [LinearOrder D]
    (vec : V → ι → F) (value : V → D) (pair : V → D × D) (entry : V → S × LLEntry D) :
    -- MeanValue
    (∀ G, (meanAfter G ((s₁.log n).map vec)).get = (meanAfter G ((s₂.log n).map vec)).get) ∧
    -- CovarianceMatrix
    (∀ M C₀ G, s₁.log n ≠ [] →
      (covAfter M C₀ G ((s₁.log n).map vec)).get = (covAfter M C₀ G ((s₂.log n).map vec)).get) ∧
    -- CountSamples
    countAfter (s₁.log n) = countAfter (s₂.log n) ∧
    -- Histogram
    (∀ debug pts, Subdivision pts →
      histAfter debug ⟨pts, List.replicate (pts.length - 1) 0⟩ ((s₁.log n).map (fun m => .num (value m))) =
      histAfter debug ⟨pts, List.replicate (pts.length - 1) 0⟩ ((s₂.log n).map (fun m => .num (value m)))) ∧
    -- PairHistogram
    (∀ debug xp yp G, Subdivision xp → Subdivision yp →
      pairHistAfter debug ⟨xp, yp, G⟩ ((s₁.log n).map (fun m => [.num (pair m).1, .num (pair m).2])) =
      pairHistAfter debug ⟨xp, yp, G⟩ ((s₂.log n).map (fun m => [.num (pair m).1, .num (pair m).2]))) ∧
    -- MaximumProbabilitySample: the same likelihood
    (∀ lowest S₀, (∀ m ∈ s₁.log n, ∃ d, (entry m).2 = .val d ∧ lowest ≤ d) → s₁.log n ≠ [] → ∃ b1 b2 ll,
      maxProbAfter (fun d => decide (d = lowest)) (fun a b => decide (a > b)) lowest S₀ ((s₁.log n).map entry) = .ok ⟨b1, ll⟩ ∧
      maxProbAfter (fun d => decide (d = lowest)) (fun a b => decide (a > b)) lowest S₀ ((s₂.log n).map entry) = .ok ⟨b2, ll⟩) := by
  have hp := (C58_same_as_synchronous N₁ N₂ ho hb K hK hl hsync done todo hne hf s₁ s₂ h₁ r₁ h₂ r₂ n).2
  refine ⟨fun G => C22_mean G _ _ (hp.map vec), fun M C₀ G hne => C22_covariance M C₀ G _ _ (by simpa using hne) (hp.map vec),
    C22_count _ _ hp, ?_, ?_, ?_⟩
  · intro debug pts S
    have := C22_histogram debug pts S _ _ (hp.map value)
    simpa [List.map_map, Function.comp_def] using this
  · intro debug xp yp G Sx Sy
    have := C22_pairHistogram debug xp yp Sx Sy G _ _ (hp.map pair)
    simpa [List.map_map, Function.comp_def] using this
  · intro lowest S₀ hall hne
    refine C22_maxProb lowest S₀ _ _ (hp.map entry) ?_ ?_ ?_
    · intro m hm
      obtain ⟨v, hv, rfl⟩ := List.mem_map.mp hm
      obtain ⟨d, hd, -⟩ := hall v hv
      rw [hd]; simp
    · intro x d hm
      obtain ⟨v, hv, e⟩ := List.mem_map.mp hm
      obtain ⟨d', hd, hle⟩ := hall v hv
      rw [e] at hd
      cases hd
      exact hle
    · obtain ⟨v, hv⟩ := List.exists_mem_of_ne_nil _ hne
      obtain ⟨d, hd, -⟩ := hall v hv
      intro h0
      have : ((entry v).1, d) ∈ llVals ((s₁.log n).map entry) :=
        (mem_llVals _ _ _).mpr (List.mem_map.mpr ⟨v, hv, by rw [← hd]⟩)
      rw [h0] at this
      simp at this

/-! ### The hypotheses can be met -/

/-- One asynchronous consumer, two calls of `sample()` that issue 1, 2 and then 3.  After the first call has returned the consumer
has consumed 2 and then 1. -/
example : ∃ s, Reachable (oneConsumer 1) [[⟨[0], [1, 2], 1⟩] ++ [⟨[0], [3], 1⟩]] s ∧
    ReturnedBefore s [⟨[0], [3], 1⟩] ∧ s.log 0 = [2, 1] ∧ Flushes [[(⟨[0], [1, 2], 1⟩ : Call Nat)]] ∧
    Finite (oneConsumer 1 : Net Nat) 1 ∧ (∀ c ∈ [(⟨[0], [1, 2], 1⟩ : Call Nat)], c.roots.count 0 = 1) ∧
    ∀ p, 0 ∉ (oneConsumer 1 : Net Nat).outs p := by
  refine ⟨_, Relation.ReflTransGen.refl
    |>.tail (.deliverAsync 0 ⟨none, 0, _⟩ 0 1 _ false rfl trivial rfl rfl rfl)
    |>.tail (.trim 0 ⟨none, 0, _⟩ 0 _ (fun _ => false) rfl trivial rfl rfl (by simp))
    |>.tail (.deliverAsync 0 ⟨none, 0, _⟩ 0 2 _ false rfl trivial rfl rfl rfl)
    |>.tail (.trim 0 ⟨none, 0, _⟩ 0 _ (fun _ => false) rfl trivial rfl rfl (by simp))
    |>.tail (.consume 2 ⟨some (0, false), 0, _⟩ 0 2 _ rfl trivial rfl)
    |>.tail (.consume 1 ⟨some (0, false), 0, _⟩ 0 1 _ rfl trivial rfl)
    |>.tail (.flush 0 ⟨none, 0, _⟩ 0 _ rfl trivial rfl rfl)
    |>.tail (.waitDone 0 ⟨none, 0, _⟩ 0 _ rfl trivial rfl (by decide)), ⟨_, rfl, rfl⟩, rfl, ?_, ?_, ?_, ?_⟩
  · intro calls h c hc
    simp only [List.mem_singleton] at h
    subst h
    simp only [List.mem_singleton] at hc
    subst hc
    simp
  · intro p _; rfl
  · intro c hc
    simp only [List.mem_singleton] at hc
    subst hc
    rfl
  · intro p; simp [oneConsumer]

/-- A synchronous, stateful filter in front of an asynchronous consumer, next to the synchronous network: both return from the
first of two calls. -/
example : ∃ (N₁ N₂ : Net Nat) (s₁ s₂ : State Nat) (todo : List (Call Nat)), N₁.outs = N₂.outs ∧ N₁.behave = N₂.behave ∧
    Finite N₁ 1 ∧ (∀ n, N₁.isAsync n = true → N₁.outs n = []) ∧ N₁.isAsync 1 = true ∧ (∀ n, N₂.isAsync n = false) ∧
    Reachable N₁ [[⟨[0], [5, 6], 1⟩] ++ todo] s₁ ∧ ReturnedBefore s₁ todo ∧
    Reachable N₂ [[⟨[0], [5, 6], 1⟩] ++ todo] s₂ ∧ ReturnedBefore s₂ todo ∧ s₁.log 1 = [6] ∧ todo ≠ [] := by
  let N : (Nat → Bool) → Net Nat := fun a =>
    ⟨fun n => if n = 0 then [1] else [], a, fun _ => 1,
      fun _ hist m => if hist.length % 2 = 1 then some m else none⟩
  refine ⟨N (fun n => n == 1), N (fun _ => false), _, _, [⟨[0], [7], 1⟩], rfl, rfl, ?_, ?_, rfl, fun _ => rfl,
    Relation.ReflTransGen.refl
    |>.tail (.deliverSync 0 ⟨none, 0, _⟩ 0 5 _ rfl trivial rfl rfl)
    |>.tail (.consume 0 ⟨none, 0, _⟩ 0 5 _ rfl trivial rfl)
    |>.tail (.deliverSync 0 ⟨none, 0, _⟩ 0 6 _ rfl trivial rfl rfl)
    |>.tail (.consume 0 ⟨none, 0, _⟩ 0 6 _ rfl trivial rfl)
    |>.tail (.deliverAsync 0 ⟨none, 0, _⟩ 1 6 _ true rfl trivial rfl rfl rfl)
    |>.tail (.trim 0 ⟨none, 0, _⟩ 1 _ (fun _ => false) rfl trivial rfl rfl (by simp))
    |>.tail (.flush 0 ⟨none, 0, _⟩ 0 _ rfl trivial rfl rfl)
    |>.tail (.waitDone 0 ⟨none, 0, _⟩ 0 _ rfl trivial rfl (by decide))
    |>.tail (.flush 0 ⟨none, 0, _⟩ 1 _ rfl trivial rfl rfl)
    |>.tail (.consume 1 ⟨some (1, true), 0, _⟩ 1 6 _ rfl ⟨rfl, rfl⟩ rfl)
    |>.tail (.waitDone 0 ⟨none, 0, _⟩ 1 _ rfl trivial rfl (by decide)), ⟨_, rfl, rfl⟩,
    Relation.ReflTransGen.refl
    |>.tail (.deliverSync 0 ⟨none, 0, _⟩ 0 5 _ rfl trivial rfl rfl)
    |>.tail (.consume 0 ⟨none, 0, _⟩ 0 5 _ rfl trivial rfl)
    |>.tail (.deliverSync 0 ⟨none, 0, _⟩ 0 6 _ rfl trivial rfl rfl)
    |>.tail (.consume 0 ⟨none, 0, _⟩ 0 6 _ rfl trivial rfl)
    |>.tail (.deliverSync 0 ⟨none, 0, _⟩ 1 6 _ rfl trivial rfl rfl)
    |>.tail (.consume 0 ⟨none, 0, _⟩ 1 6 _ rfl trivial rfl)
    |>.tail (.flush 0 ⟨none, 0, _⟩ 0 _ rfl trivial rfl rfl)
    |>.tail (.waitDone 0 ⟨none, 0, _⟩ 0 _ rfl trivial rfl (by decide))
    |>.tail (.flush 0 ⟨none, 0, _⟩ 1 _ rfl trivial rfl rfl)
    |>.tail (.waitDone 0 ⟨none, 0, _⟩ 1 _ rfl trivial rfl (by decide)), ⟨_, rfl, rfl⟩, rfl, by simp⟩
  · intro p hp
    have : p ≠ 0 := by omega
    simp [N, this]
  · intro n hn
    have : n = 1 := by simpa [N] using hn
    subst this
    rfl

/-! ### Instances: concrete cases that meet the hypotheses of the theorems above -/

-- runs of `oneConsumer` with these calls exist, by the examples above
theorem exampleDone_flush : Flushes [[(⟨[0], [1, 2], 1⟩ : Call Nat)]] := by simp [Flushes]
theorem exampleDone_roots : ∀ c ∈ [(⟨[0], [1, 2], 1⟩ : Call Nat)], c.roots.count 0 = 1 := by simp
theorem oneConsumer_finite : Finite (oneConsumer 1 : Net Nat) 1 := fun _ _ => rfl

section
variable (s : State Nat) (h : Reachable (oneConsumer 1) [[⟨[0], [1, 2], 1⟩] ++ [⟨[0], [3], 1⟩]] s) (hr : ReturnedBefore s [⟨[0], [3], 1⟩])
example := C58_every_return_is_final (oneConsumer 1) _ _ (by simp) exampleDone_flush s h hr
example := C58_consumed_everything (oneConsumer 1) 1 oneConsumer_finite _ _ (by simp) exampleDone_flush s h hr 0 exampleDone_roots (by simp [oneConsumer])
example := C58_mean (fun (m : Nat) (_ : Unit) => (m : ℚ)) (fun _ => 5) (oneConsumer 1) 1 oneConsumer_finite _ _ exampleDone_flush s h hr 0 exampleDone_roots (by simp [oneConsumer]) (by simp) ()
example := C58_count (oneConsumer 1) 1 oneConsumer_finite _ _ exampleDone_flush (by simp) s h hr 0 exampleDone_roots (by simp [oneConsumer])
example := C58_histogram (fun m : Nat => (m : Int)) true [0, 2, 5] ⟨by decide, by decide⟩ (oneConsumer 1) 1 oneConsumer_finite _ _ exampleDone_flush (by simp) s h hr 0 exampleDone_roots (by simp [oneConsumer])
end

end SampleFlow.Async
