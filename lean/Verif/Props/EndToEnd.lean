import Verif.Proofs.EndToEnd
import Verif.Proofs.MHChain
import Verif.Model.Toy
import Verif.Props.Moments
import Verif.Props.SimpleConsumers

/-!
# Property C53: producer and consumers together

First, for every producer, every consumer in synchronous mode and every run, including those that end with an
exception: the state of the consumer is what one gets by consuming the issued samples one after the other, in order.
So all theorems about consumers (C21 - C35), which are stated for the list of samples consumed, hold
for the list of samples issued.  Then an instance of this with all details: the usual diagnostics of a
Metropolis-Hastings run.
-/

namespace SampleFlow

open Spec

section
variable {U C S D E : Type}

/-- C53: a consumer connected to a `Range`. -/
theorem C53_consumer_state_range (env : World U S D E) (step : C → S × Aux D → C) (range : List S) (u : U) (c : C) :
    (rangeSample (attach env step) range (u, c)).2.2.2 =
      (issuedOf (rangeSample (attach env step) range (u, c)).1).foldl step c :=
  Tracks.rangeSample env range (u, c)

/-- C53: a consumer connected to `MetropolisHastings`. -/
theorem C53_consumer_state_metropolisHastings [FloatOps D] (env : World U S D E) (step : C → S × Aux D → C)
    (start : S) (n : Nat) (u : U) (c : C) :
    (mhSample (attach env step) start n (u, c)).2.2.2 =
      (issuedOf (mhSample (attach env step) start n (u, c)).1).foldl step c :=
  Tracks.mhSample env start n (u, c)

/-- C53: a consumer connected to `DelayedRejectionMetropolisHastings`. -/
theorem C53_consumer_state_delayedRejection [FloatOps D] (env : World U S D (Stop E)) (step : C → S × Aux D → C)
    (checked : Bool) (start : S) (maxDelays n : Nat) (u : U) (c : C) :
    (drSample checked (attach env step) start maxDelays n (u, c)).2.2.2 =
      (issuedOf (drSample checked (attach env step) start maxDelays n (u, c)).1).foldl step c :=
  Tracks.drSample env checked start maxDelays n (u, c)

/-- C53: a consumer connected to `DifferentialEvaluationMetropolisHastings`. -/
theorem C53_consumer_state_differentialEvaluation [FloatOps D] (env : World U S D (Stop E))
    (step : C → S × Aux D → C) (starts : List S) (gap n : Nat) (u : U) (c : C) :
    (deSample (attach env step) starts gap n (u, c)).2.2.2 =
      (issuedOf (deSample (attach env step) starts gap n (u, c)).1).foldl step c :=
  Tracks.deSample env starts gap n (u, c)

end

/-! ## The diagnostics of a Metropolis-Hastings run -/

theorem LikelihoodIs.attach {U C S D E : Type} {env : World U S D E} {L : S → D} (h : LikelihoodIs env L)
    (step : C → S × Aux D → C) : LikelihoodIs (SampleFlow.attach env step) L := by
  intro x w d w' hx
  rcases h1 : env.logLikelihood x w.1 with ⟨r, u⟩
  simp only [SampleFlow.attach, h1, Prod.mk.injEq] at hx
  obtain ⟨rfl, -⟩ := hx
  exact h x w.1 d u h1

theorem Diagnostics.foldl {K ι D : Type} [Field K] (eq : (ι → K) → (ι → K) → Bool) (isLowest : D → Bool)
    (gt : D → D → Bool) (ms : List ((ι → K) × Aux D)) (s : Diagnostics K ι D) :
    ms.foldl (Diagnostics.consume eq isLowest gt) s =
      { count := (ms.map Prod.fst).foldl countConsume s.count
        mean := (ms.map Prod.fst).foldl MeanState.consume s.mean
        ratio := (ms.map Prod.fst).foldl (ARState.consume eq) s.ratio
        best := s.best.bind (fun b =>
          (ms.map (fun m => (m.1, llEntry m.2))).foldlM (MaxProbState.consume isLowest gt) b) } := by
  induction ms generalizing s with
  | nil => cases s with | mk a b c d => cases d <;> rfl
  | cons m ms ih =>
    rw [List.foldl_cons, ih]
    simp only [Diagnostics.consume, List.map_cons, List.foldl_cons, List.foldlM_cons]
    cases s.best <;> rfl

/-- rejected proposals do not change the sample -/
theorem changes_le_accepted {S D : Type} (eq : S → S → Bool) (hrefl : ∀ x, eq x x = true) (moves : List (Move S D)) :
    ∀ start, Linked start moves →
      changes eq (start :: moves.map Move.next) ≤ moves.countP (fun m => m.accepted) := by
  induction moves with
  | nil => intro start _; simp [changes, lagPairs]
  | cons m ms ih =>
    intro start h
    obtain ⟨h1, h2⟩ := h
    have := ih m.next h2
    have hc : changes eq (start :: m.next :: ms.map Move.next) =
        changes eq (m.next :: ms.map Move.next) + (if (!eq m.next start) = true then 1 else 0) := by
      simp [changes, lagPairs, List.countP_cons]
    rw [List.map_cons, hc, List.countP_cons]
    cases ha : m.accepted with
    | true => simp only [if_true]; split <;> omega
    | false =>
      have hnext : m.next = start := by unfold Move.next; rw [ha]; exact h1
      rw [hnext] at this ⊢
      rw [hrefl]
      simpa using this

theorem changes_tail_le {S : Type} (eq : S → S → Bool) (x : S) (xs : List S) :
    changes eq xs ≤ changes eq (x :: xs) := by
  cases xs with
  | nil => simp [changes, lagPairs]
  | cons y ys => simp [changes, lagPairs, List.countP_cons]

/-- C53: `CountSamples`, `MeanValue`, `AcceptanceRatio` and `MaximumProbabilitySample`, connected to a
`MetropolisHastings` object whose `sample` function has produced `n ≥ 1` samples, agree with each other and with the samples:
* the count is `n` (modulo 2^64);
* the mean is the mean of the `n` samples;
* the sample of maximal probability is one of the samples and no sample has a larger likelihood;
* the acceptance ratio is the number of changes plus one over `n`; it is not larger than the number of accepted proposals
  (auxiliary data "sample is repeated" = false) plus one over `n`.

Premises: the log likelihood is a function `L` (where it does not throw) and never less than the lowest
finite number (see C33 for what happens otherwise), `eq` is an equivalence relation. -/
theorem C53_diagnostics {K ι D U E : Type} [Field K] [CharZero K] [FloatOps D] [LinearOrder D]
    (env : World U (ι → K) D E) (L : (ι → K) → D) (hL : LikelihoodIs env L) (lowest : D) (hlow : ∀ x, lowest ≤ L x)
    (eq : (ι → K) → (ι → K) → Bool) (hrefl : ∀ a, eq a a = true) (hsymm : ∀ a b, eq a b = true → eq b a = true)
    (htrans : ∀ a b c, eq a b = true → eq b c = true → eq a c = true)
    (G S₀ start : ι → K) (n : Nat) (hn : 1 ≤ n) (u : U) (last : ι → K)
    (trace : List (Event (ι → K) D)) (u' : U) (final : Diagnostics K ι D)
    (hrun : mhSample (attach env (Diagnostics.consume eq (fun d => decide (d = lowest)) (fun a b => decide (a > b))))
      start n (u, Diagnostics.init G S₀ lowest) = (trace, .ok last, (u', final))) :
    (issuedOf trace).length = n ∧
    final.count.toNat = n % 2^64 ∧
    (∀ i, final.mean.get i = ((issuedOf trace).map (fun m => m.1 i)).sum / (n : K)) ∧
    (∃ best, final.best = .ok ⟨best, L best⟩ ∧ best ∈ (issuedOf trace).map Prod.fst ∧
      ∀ x ∈ (issuedOf trace).map Prod.fst, L x ≤ L best) ∧
    final.ratio.get (K := ℚ) = ((1 + changes eq ((issuedOf trace).map Prod.fst) : ℕ) : ℚ) / (n : ℚ) ∧
    final.ratio.get (K := ℚ) ≤ ((1 + (issuedOf trace).countP (fun m =>
      match m.2.lookup "sample is repeated" with | some (.flag false) => true | _ => false) : ℕ) : ℚ) / (n : ℚ) := by
  have htrack := C53_consumer_state_metropolisHastings env
    (Diagnostics.consume eq (fun d => decide (d = lowest)) (fun a b => decide (a > b))) start n u
    (Diagnostics.init G S₀ lowest)
  obtain ⟨moves, h1, -, -, h4, -, h6⟩ := mhSample_issued (attach env
    (Diagnostics.consume eq (fun d => decide (d = lowest)) (fun a b => decide (a > b)))) L
    (hL.attach _) start n (u, Diagnostics.init G S₀ lowest)
  rw [hrun] at htrack h4 h6
  simp only at htrack h4 h6
  obtain ⟨hlen, -⟩ := h6 last rfl
  rw [Diagnostics.foldl] at htrack
  have hxs : (issuedOf trace).map Prod.fst = moves.map Move.next := by
    rw [h4, List.map_map]; rfl
  have hne : moves ≠ [] := by intro h; rw [h] at hlen; simp at hlen; omega
  have hne' : (issuedOf trace).map Prod.fst ≠ [] := by rw [hxs]; simpa using hne
  have hlen' : ((issuedOf trace).map Prod.fst).length = n := by rw [hxs, List.length_map, hlen]
  have hratio : final.ratio.get (K := ℚ) =
      ((1 + changes eq ((issuedOf trace).map Prod.fst) : ℕ) : ℚ) / (n : ℚ) := by
    rw [htrack]
    have := C29_acceptanceRatio (K := ℚ) eq hsymm htrans G _ hne'
    rw [hlen'] at this
    exact this
  refine ⟨by simpa using hlen', ?_, ?_, ?_, hratio, ?_⟩
  · rw [htrack]
    have := C34_countSamples ((issuedOf trace).map Prod.fst)
    rw [hlen'] at this
    exact this
  · intro i
    rw [htrack]
    have := C21_mean G _ hne' i
    rw [hlen', List.map_map] at this
    exact this
  · have hentry : (issuedOf trace).map (fun m => (m.1, llEntry m.2)) =
        moves.map (fun m => (m.next, LLEntry.val (L m.next))) := by
      rw [h4, List.map_map]; rfl
    have hv : llVals (moves.map (fun m => (m.next, LLEntry.val (L m.next)))) = moves.map (fun m => (m.next, L m.next)) := by
      clear * -
      induction moves with
      | nil => rfl
      | cons m ms ih => simp only [List.map_cons, llVals, ih]
    obtain ⟨best, ll, e1, e2, e3⟩ := C33_maximumProbabilitySample_finite lowest S₀
      (moves.map (fun m => (m.next, LLEntry.val (L m.next))))
      (by intro m hm; simp only [List.mem_map] at hm; obtain ⟨m', -, rfl⟩ := hm; simp)
      (by intro s d hm; simp only [List.mem_map, Prod.mk.injEq, LLEntry.val.injEq] at hm
          obtain ⟨m', -, -, rfl⟩ := hm; exact hlow _)
      (by rw [hv]; simpa using hne)
    simp only [List.mem_map, Prod.mk.injEq, LLEntry.val.injEq] at e2 e3
    obtain ⟨m, hm, rfl, rfl⟩ := e2
    refine ⟨m.next, ?_, ?_, ?_⟩
    · rw [htrack, hentry]; exact e1
    · rw [hxs]; exact List.mem_map.mpr ⟨m, hm, rfl⟩
    · rw [hxs]
      intro x hx
      obtain ⟨m', hm', rfl⟩ := List.mem_map.mp hx
      exact e3 m'.next _ ⟨m', hm', rfl, rfl⟩
  · rw [hratio]
    have hn' : (0 : ℚ) < n := by exact_mod_cast hn
    refine div_le_div_of_nonneg_right ?_ hn'.le
    have h7 : changes eq ((issuedOf trace).map Prod.fst) ≤ moves.countP (fun m => m.accepted) := by
      rw [hxs]
      exact le_trans (changes_tail_le eq start _) (changes_le_accepted eq hrefl moves start h1)
    have h8 : (issuedOf trace).countP (fun m =>
        match m.2.lookup "sample is repeated" with | some (.flag false) => true | _ => false) =
        moves.countP (fun m => m.accepted) := by
      rw [h4, List.countP_map]
      apply List.countP_congr
      intro m _
      simp only [Function.comp]
      cases m.accepted <;> simp [List.lookup]
    rw [h8]
    exact_mod_cast Nat.add_le_add_left h7 1

section
local instance endToEndOps : FloatOps Int := toyOps

/-- A world for one-dimensional rational samples: the likelihood is the numerator, cut off below. -/
def exampleWorld : World (List Nat) (Unit → ℚ) Int Empty where
  logLikelihood := fun x w => (.ok (max (-1000) (x ()).num), w)
  propose := fun x _ w => (.ok (fun _ => x () + 1, 1), w)
  crossover := fun x _ _ w => (.ok x, w)
  uniform := fun w => ((w.headD 0 : Nat), w.tail)
  uniformInt := fun k w => (min k (w.headD 0), w.tail)
  issue := fun _ _ w => (.ok (), w)
  flush := fun w => w

/-- the premises on the likelihood are met -/
example : LikelihoodIs exampleWorld (fun x => max (-1000) (x ()).num) := by
  rintro x w d w' h
  simp only [exampleWorld, Prod.mk.injEq, Except.ok.injEq] at h
  exact h.1.symm

example (x : Unit → ℚ) : (-1000 : Int) ≤ max (-1000) (x ()).num := le_max_left _ _

/-- A run with four samples, one proposal being rejected: the diagnostics are as the theorem says. -/
example :
    let step := Diagnostics.consume (K := ℚ) (ι := Unit) (D := Int) (fun a b => decide (a () = b ()))
      (fun d => decide (d = -1000)) (fun a b => decide (a > b))
    let run := mhSample (attach exampleWorld step) (fun _ => 3) 4
      ([1, 7, 1, 1], Diagnostics.init (fun _ => 0) (fun _ => 0) (-1000))
    run.2.1.toOption.map (fun f => f ()) = some 6 ∧
    (issuedOf run.1).map (fun m => m.1 ()) = [4, 4, 5, 6] ∧
    run.2.2.2.count = 4 ∧ run.2.2.2.mean.get () = 19 / 4 ∧ run.2.2.2.ratio.get (K := ℚ) = 3 / 4 ∧
    run.2.2.2.best.toOption.map (fun b => b.highest) = some 6 := by
  decide +kernel

end

end SampleFlow
