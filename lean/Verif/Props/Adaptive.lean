import Verif.Proofs.Adaptive
import Verif.Props.EndToEnd

/-!
# Property C71: adaptive sampling

User functions that look at consumers in synchronous mode while the sampler runs (tests/adaptive_mh_01.cc) see them exactly up to date: each call sees what the consumer is after the samples
issued before the call, no more and no less.  For every sampler, every consumer, every run, including runs that end with an exception.
-/

universe u

namespace SampleFlow

open Spec

section
variable {U C S D E : Type} [FloatOps D]

/-- C71: a consumer connected to `MetropolisHastings`. -/
theorem C71_metropolisHastings (env : C → World U S D E) (step : C → S × Aux D → C) (start : S) (n : Nat) (u : U) (c : C) :
    SeesIssued env step c (mhSample (attachSeen env step) start n (u, c)).1 := (Adaptive.Sees.mhSample env start n (u, c)).2

/-- C71: a consumer connected to `DelayedRejectionMetropolisHastings`. -/
theorem C71_delayedRejection (env : C → World U S D (Stop E)) (step : C → S × Aux D → C) (checked : Bool) (start : S) (maxDelays n : Nat)
    (u : U) (c : C) : SeesIssued env step c (drSample checked (attachSeen env step) start maxDelays n (u, c)).1 :=
  (Adaptive.Sees.drSample env checked start maxDelays n (u, c)).2

/-- C71: a consumer connected to `DifferentialEvaluationMetropolisHastings`. -/
theorem C71_differentialEvaluation (env : C → World U S D (Stop E)) (step : C → S × Aux D → C) (starts : List S) (gap n : Nat) (u : U) (c : C) :
    SeesIssued env step c (deSample (attachSeen env step) starts gap n (u, c)).1 := (Adaptive.Sees.deSample env starts gap n (u, c)).2

end

namespace Adaptive

variable {W : Type u} {S D E : Type}

/-- Proposals and samples alternate; the flag says whether there is a proposal without a sample. -/
def altStep : Bool → Event S D → Option Bool
  | false, .proposed .. => some true
  | true, .proposed .. => none
  | true, .issued .. => some false
  | false, .issued .. => none
  | b, _ => some b

def Alt {α : Type} (b b' : Bool) (p : Prog W S D E α) : Prop :=
  ∀ w, ∃ b'', (p w).1.foldlM altStep b = some b'' ∧ ∀ a, (p w).2.1 = .ok a → b'' = b'

theorem Alt.pure {α : Type} (b : Bool) (a : α) : Alt b b (Pure.pure a : Prog W S D E α) := fun _ => ⟨b, rfl, fun _ _ => rfl⟩

theorem Alt.bind {α β : Type} {b b1 b2 : Bool} {p : Prog W S D E α} {f : α → Prog W S D E β} (hp : Alt b b1 p) (hf : ∀ a, Alt b1 b2 (f a)) :
    Alt b b2 (p >>= f) := by
  intro w
  obtain ⟨b'', h, h'⟩ := hp w
  rcases h1 : p w with ⟨tr, (e | a), w'⟩
  · rw [Prog.bind_error h1]
    rw [h1] at h
    exact ⟨b'', h, by simp⟩
  · rw [Prog.bind_ok h1]
    rw [h1] at h h'
    have := h' a rfl
    subst this
    obtain ⟨b3, h3, h3'⟩ := hf a w'
    refine ⟨b3, ?_, h3'⟩
    simp only at h ⊢
    rw [List.foldlM_append, h]
    exact h3

theorem Alt.ite {α : Type} {b b' : Bool} {c : Prop} [Decidable c] {p q : Prog W S D E α} (hp : Alt b b' p) (hq : Alt b b' q) :
    Alt b b' (if c then p else q) := by split <;> assumption

variable (env : World W S D E)

theorem Alt.logLikelihood (b : Bool) (x : S) : Alt b b (callLogLikelihood env x) := by
  intro w
  unfold callLogLikelihood
  rcases env.logLikelihood x w with ⟨(e | d), w'⟩
  · exact ⟨b, rfl, fun _ _ => rfl⟩
  · exact ⟨b, by cases b <;> rfl, fun _ _ => rfl⟩

theorem Alt.propose (x : S) (l : List S) : Alt false true (callPropose env x l) := by
  intro w
  unfold callPropose
  rcases env.propose x l w with ⟨(e | ⟨y, r⟩), w'⟩
  · exact ⟨false, rfl, by simp⟩
  · exact ⟨true, rfl, fun _ _ => rfl⟩

theorem Alt.issue (x : S) (a : Aux D) : Alt true false (callIssue env x a) := fun _ => ⟨false, rfl, fun _ _ => rfl⟩

theorem Alt.draw (b : Bool) : Alt b b (draw env) := fun _ => ⟨b, by cases b <;> rfl, fun _ _ => rfl⟩

theorem Alt.flush (b : Bool) : Alt b b (callFlush env) := fun _ => ⟨b, by cases b <;> rfl, fun _ _ => rfl⟩

variable [FloatOps D]

theorem Alt.mhAccept (t c r : D) (b : Bool) : Alt b b (mhAccept env t c r) := by
  unfold SampleFlow.mhAccept
  exact Alt.ite (Alt.bind (Alt.ite (Alt.bind (Alt.draw env b) (fun _ => Alt.pure b _)) (Alt.pure b _))
    (fun _ => Alt.ite (Alt.pure b _) (Alt.ite (Alt.pure b _) (Alt.bind (Alt.draw env b) (fun _ => Alt.pure b _))))) (Alt.pure b _)

theorem Alt.mhLoop (n : Nat) : ∀ (x : S) (d : D), Alt false false (mhLoop env n x d) := by
  induction n with
  | zero => intro x d; exact Alt.pure _ _
  | succ n ih =>
    intro x d
    unfold SampleFlow.mhLoop
    exact Alt.bind (Alt.propose env _ _) (fun p => Alt.bind (Alt.logLikelihood env true _) (fun d =>
      Alt.bind (Alt.mhAccept env _ _ _ true) (fun acc => Alt.ite
        (Alt.bind (Alt.issue env _ _) (fun _ => ih _ _)) (Alt.bind (Alt.issue env _ _) (fun _ => ih _ _)))))

theorem mhSample_alternates (start : S) (n : Nat) (w : W) : ∃ b, (mhSample env start n w).1.foldlM altStep false = some b := by
  have h : Alt false false (do
      let ll ← callLogLikelihood env start
      let last ← SampleFlow.mhLoop env n start ll
      callFlush env
      Pure.pure last) :=
    Alt.bind (Alt.logLikelihood env false _) (fun ll => Alt.bind (Alt.mhLoop env n _ _) (fun _ => Alt.bind (Alt.flush env false) (fun _ => Alt.pure _ _)))
  obtain ⟨b, h1, -⟩ := h w
  refine ⟨b, ?_⟩
  unfold mhSample Prog.withScopeExit
  simp only [List.foldlM_append]
  rw [h1]
  cases b <;> rfl

theorem alternates_count (tr : List (Event S D)) : ∀ (b b' : Bool), tr.foldlM altStep b = some b' →
    (proposalsOf tr).length + (if b then 1 else 0) = (issuedOf tr).length + (if b' then 1 else 0) := by
  induction tr with
  | nil =>
    intro b b' h
    simp at h
    subst h
    simp [proposalsOf, issuedOf]
  | cons e tr ih =>
    intro b b' h
    rw [List.foldlM_cons] at h
    rcases h1 : altStep b e with _ | b1
    · rw [h1] at h; simp at h
    · rw [h1] at h
      have := ih b1 b' h
      cases e <;> cases b <;> simp [altStep, proposalsOf, issuedOf] at h1 this ⊢ <;> subst h1 <;> simp at this ⊢ <;> omega

end Adaptive

/-- C71: in particular, each proposal of `MetropolisHastings` is the result of a call of the user's function with the consumer in the state it has after exactly the samples issued before; and
proposal number `k` (counted from 0) sees exactly `k` samples. -/
theorem C71_proposals {U C S D E : Type} [FloatOps D] (env : C → World U S D E) (step : C → S × Aux D → C) (start : S) (n : Nat) (u : U) (c : C)
    (pre post : List (Event S D)) (x y : S) (l : List S) (r : D)
    (h : (mhSample (attachSeen env step) start n (u, c)).1 = pre ++ .proposed x l y r :: post) :
    (∃ u₁ u₂, (env ((issuedOf pre).foldl step c)).propose x l u₁ = (.ok (y, r), u₂)) ∧ (issuedOf pre).length = (proposalsOf pre).length := by
  constructor
  · have h1 := C71_metropolisHastings env step start n u c
    rw [h, Adaptive.seesIssued_append] at h1
    exact h1.2.1
  · obtain ⟨b, h1⟩ := Adaptive.mhSample_alternates (attachSeen env step) start n (u, c)
    rw [h, List.foldlM_append] at h1
    rcases h2 : pre.foldlM Adaptive.altStep false with _ | b1
    · rw [h2] at h1; simp at h1
    · rw [h2] at h1
      have hb : b1 = false := by
        cases b1 with
        | false => rfl
        | true => simp [Adaptive.altStep] at h1
      subst hb
      have := Adaptive.alternates_count pre _ _ h2
      simp at this
      exact this.symm

/-! ## Adaptive Metropolis-Hastings -/

theorem AdaptiveState.foldl {K ι D : Type} [Field K] [Star K] (G : ι → ι → K) (ms : List ((ι → K) × Aux D)) (s : AdaptiveState K ι) :
    ms.foldl (AdaptiveState.consume G) s =
      ⟨(ms.map Prod.fst).foldl countConsume s.count, (ms.map Prod.fst).foldl (CovState.consume G) s.cov⟩ := by
  induction ms generalizing s with
  | nil => rfl
  | cons m ms ih => rw [List.foldl_cons, ih]; rfl

/-- C71: tests/adaptive_mh_01.cc.  The proposal function `perturb n C x` of the user gets the number of samples counted so far and the current covariance matrix.  In every run of
`MetropolisHastings`, proposal number `k ≥ 2` (counted from 0; `k < 2^64`) is the result of `perturb k C x` where `x` is the current sample and `C` is the sample covariance matrix of the `k` samples issued
before, with the denominator `k - 1`. -/
theorem C71_adaptive_metropolis {K ι D U E : Type} [Field K] [CharZero K] [StarRing K] [FloatOps D]
    (perturb : Nat → (ι → ι → K) → (ι → K) → U → Except E ((ι → K) × D) × U) (rest : World U (ι → K) D E)
    (M : ι → K) (C₀ G : ι → ι → K) (start : ι → K) (n : Nat) (u : U)
    (pre post : List (Event (ι → K) D)) (x y : ι → K) (l : List (ι → K)) (r : D)
    (h : (mhSample (attachSeen (adaptiveWorld perturb rest) (AdaptiveState.consume G)) start n (u, AdaptiveState.init M C₀)).1 =
      pre ++ .proposed x l y r :: post)
    (hk : 2 ≤ (proposalsOf pre).length) (hk' : (proposalsOf pre).length < 2 ^ 64) :
    ∃ u₁ u₂ xs, xs = (issuedOf pre).map Prod.fst ∧ xs.length = (proposalsOf pre).length ∧
      perturb xs.length (fun i j => (xs.map (fun z => (z i - vmean xs i) * star (z j - vmean xs j))).sum / ((xs.length : K) - 1)) x u₁ =
        (.ok (y, r), u₂) := by
  obtain ⟨⟨u₁, u₂, h1⟩, h2⟩ := C71_proposals _ _ start n u _ pre post x y l r h
  refine ⟨u₁, u₂, (issuedOf pre).map Prod.fst, rfl, by rw [List.length_map, h2], ?_⟩
  rw [AdaptiveState.foldl] at h1
  have hc := C34_countSamples ((issuedOf pre).map Prod.fst)
  rw [List.length_map, h2, Nat.mod_eq_of_lt hk'] at hc
  have hl : 2 ≤ ((issuedOf pre).map Prod.fst).length := by rw [List.length_map, h2]; exact hk
  have hC : (covAfter M C₀ G ((issuedOf pre).map Prod.fst)).get = fun i j =>
      (((issuedOf pre).map Prod.fst).map (fun z => (z i - vmean ((issuedOf pre).map Prod.fst) i) *
        star (z j - vmean ((issuedOf pre).map Prod.fst) j))).sum / ((((issuedOf pre).map Prod.fst).length : K) - 1) := by
    funext i j
    exact C23_covariance M C₀ G _ hl i j
  rw [← hC, List.length_map, h2, ← hc]
  exact h1

/-! ### The hypotheses can be met -/

/-- A sampler of integers whose proposal is the number of samples counted so far: the proposals are 0, 1, 2.  The likelihood is `x`. -/
def Adaptive.countWorld (c : Nat) : World (List Nat) Int Int Empty := { toyWorld with propose := fun _ _ u => (.ok (Int.ofNat c, 1), u) }

example : proposalsOf (letI := toyOps; mhSample (attachSeen Adaptive.countWorld (fun c _ => c + 1)) (-1 : Int) 3 (([], 0) : List Nat × Nat)).1 =
    [(-1, [], 0, 1), (0, [], 1, 1), (1, [], 2, 1)] := by decide +kernel

/-- A sampler of one-component vectors with the consumers of tests/adaptive_mh_01.cc whose proposal depends on both consumers; its third proposal meets the premises of `C71_adaptive_metropolis`. -/
example : ∃ (pre post : List (Event (Fin 1 → ℚ) Int)) (x y : Fin 1 → ℚ) (l : List (Fin 1 → ℚ)) (r : Int),
    (letI := toyOps
     mhSample (attachSeen (adaptiveWorld (K := ℚ) (ι := Fin 1) (D := Int) (E := Empty) (fun k C x u => (.ok (fun i => x i + C i i + k, 1), u))
        (⟨fun _ u => (.ok 0, u), fun x _ u => (.ok (x, 1), u), fun x _ _ u => (.ok x, u),
          fun u => (0, u), fun _ u => (0, u), fun _ _ u => (.ok (), u), id⟩ : World Unit (Fin 1 → ℚ) Int Empty))
        (AdaptiveState.consume (fun _ _ => 0))) (fun _ => 1) 3 ((), AdaptiveState.init (fun _ => 0) (fun _ _ => 0))).1 =
      pre ++ Event.proposed x l y r :: post ∧ 2 ≤ (proposalsOf pre).length ∧ (proposalsOf pre).length < 2 ^ 64 := by
  refine ⟨[_, _, _, _, _, _, _, _, _], _, _, _, _, _, rfl, ?_, ?_⟩ <;> decide

end SampleFlow
