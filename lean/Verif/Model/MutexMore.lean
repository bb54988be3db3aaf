import Verif.Model.MutexObjects

/-!
# The bodies of `consume`, `get` and `filter` of the remaining classes with a mutex

As in Model/MutexObjects, member functions are lists of small steps that other threads could interleave with.
Samples are copied component by component, text is written character by character.
-/

namespace SampleFlow.Mutex

open SampleFlow

/-! ## LastSample -/

/-- `LastSample::consume` (include/sampleflow/consumers/last_sample.impl.h 99-107) and `get` (111-119) for samples with `d`
components: both copy one component after the other. -/
def lastObject (α : Type) (d : Nat) : Object (Fin d → α) (ConsumerCall (Fin d → α)) (Fin d → Option α) where
  locks := true
  local0 := fun _ _ => none
  body := fun op => match op with
    | .consume x => (List.finRange d).map (fun k => fun s r => (fun j => if j = k then x j else s j, r))
    | .get => (List.finRange d).map (fun k => fun s r => (s, fun j => if j = k then some (s j) else r j))

/-! ## MaximumProbabilitySample -/

/-- The members protected by the mutex (include/sampleflow/consumers/maximum_probability_sample.impl.h 108-124). -/
structure MaxProbMembers (S A D : Type) where
  sample : S
  data : A
  highest : D

/-- Local variables of `consume` (is the sample to be stored?) and the value returned by `get`.
(maximum_probability_sample.impl.h 151-194.) -/
structure MaxProbLocals (S A : Type) where
  take : Bool
  sample : Option S
  data : Option A

/-- `MaximumProbabilitySample::consume` (maximum_probability_sample.impl.h 151-182), from line 162 on, for a sample with
auxiliary data and its log likelihood, and `get` (186-194).  Without the entry "relative log likelihood" the
critical section is not reached. -/
def maxProbObject (S A : Type) {D : Type} (isLowest : D → Bool) (gt : D → D → Bool) :
    Object (MaxProbMembers S A D) (ConsumerCall (S × A × D)) (MaxProbLocals S A) where
  locks := true
  local0 := fun _ => ⟨false, none, none⟩
  body := fun op => match op with
    | .consume (x, a, ll) =>
      [ fun s r => (s, { r with take := isLowest s.highest }),
        fun s r => (s, if r.take then r else { r with take := gt ll s.highest }),
        fun s r => (if r.take then { s with sample := x } else s, r),
        fun s r => (if r.take then { s with data := a } else s, r),
        fun s r => (if r.take then { s with highest := ll } else s, r) ]
    | .get => [fun s r => (s, { r with sample := some s.sample }), fun s r => (s, { r with data := some s.data })]

/-! ## AcceptanceRatio -/

/-- Local variables: `n_samples == 0`, the result of `is_equal`, a register, and what `get` has read.
(acceptance_ratio.impl.h 190-241.) -/
structure ARLocals where
  first : Bool
  equal : Bool
  reg : Nat
  n : Nat
  accepted : Nat

/-- `AcceptanceRatio::consume` (include/sampleflow/consumers/acceptance_ratio.impl.h 190-224) and `get` (228-241). -/
def ratioObject {α : Type} (eq : α → α → Bool) : Object (ARState α) (ConsumerCall α) ARLocals where
  locks := true
  local0 := fun _ => ⟨false, false, 0, 0, 0⟩
  body := fun op => match op with
    | .consume x =>
      [ fun s r => (s, { r with first := decide (s.n = 0) }),
        fun s r => (if r.first then { s with n := 1 } else s, r),
        fun s r => (if r.first then { s with accepted := 1 } else s, r),
        fun s r => (if r.first then { s with previous := x } else s, r),
        fun s r => (s, if r.first then r else { r with equal := eq x s.previous }),
        fun s r => (s, if r.first || r.equal then r else { r with reg := s.accepted + 1 }),
        fun s r => (if r.first || r.equal then s else { s with accepted := r.reg }, r),
        fun s r => (if r.first || r.equal then s else { s with previous := x }, r),
        fun s r => (s, if r.first then r else { r with reg := s.n + 1 }),
        fun s r => (if r.first then s else { s with n := r.reg }, r) ]
    | .get => [fun s r => (s, { r with n := s.n }), fun s r => (s, { r with accepted := s.accepted })]

/-! ## StreamOutput -/

/-- `StreamOutput::consume` (include/sampleflow/consumers/stream_output.impl.h 180-189): the text goes to the stream character
by character.  There is no `get`. -/
def streamObject : Object (List Char) Printable Unit where
  locks := true
  local0 := fun _ => ()
  body := fun x => (x.write ++ ['\n']).map (fun c => fun out _ => (out ++ [c], ()))

/-! ## PairHistogram -/

/-- `PairHistogram::consume` (include/sampleflow/consumers/pair_histogram.impl.h 398-426) from line 422 on: the bin has been computed
from the constant interval points (`none`: the sample is discarded); and `get` (430-463) from line 454 on, which reads the bins
row by row. -/
def pairBinsObject (rows cols : Nat) :
    Object (Nat → Nat → Nat) (ConsumerCall (Option (Nat × Nat))) (Nat × List Nat) where
  locks := true
  local0 := fun _ => (0, [])
  body := fun op => match op with
    | .consume (some (x, y)) =>
      [ fun b _ => (b, (b x y, [])),
        fun b r => (b, (r.1 + 1, [])),
        fun b r => (fun x' y' => if x' = x ∧ y' = y then r.1 else b x' y', r) ]
    | .consume none => []
    | .get => ((List.range rows).product (List.range cols)).map (fun p => fun b r => (b, (0, r.2 ++ [b p.1 p.2])))

/-! ## DiscardFirstN -/

/-- `DiscardFirstN::filter`, include/sampleflow/filters/discard_first_n.impl.h 118-133, called concurrently. -/
def discardObject (α A : Type) (initialN : UInt64) : Object UInt64 (Msg α A) (UInt64 × Option (Msg α A)) where
  locks := true
  local0 := fun _ => (0, none)
  body := fun m =>
    [ fun counter _ => (counter, (counter, none)),                     -- ++counter
      fun counter r => (counter, (r.1 + 1, none)),
      fun _ r => (r.1, r),
      fun counter r => if counter > initialN then (counter, (r.1, some m)) else (counter, r) ]

/-! ## AutoCovarianceTrace, AutoCovarianceMatrix, AverageCosineBetweenSuccessiveSamples -/

/-- A class whose `consume` reads its members, computes and writes them back.  Simplification: all members are read in one
step and written in one step; other threads may interleave in between.
(E.g. auto_covariance_trace.impl.h 409-510, auto_covariance_matrix.impl.h 368-474, average_cosinus.impl.h 156-222.) -/
def readModifyWrite {σ α β : Type} (consume : σ → α → σ) (get : σ → β) :
    Object σ (ConsumerCall α) (Option σ × Option β) where
  locks := true
  local0 := fun _ => (none, none)
  body := fun op => match op with
    | .consume x =>
      [ fun s _ => (s, (some s, none)),
        fun s r => (s, (r.1.map (fun m => consume m x), none)),
        fun s r => (r.1.getD s, r) ]
    | .get => [fun s _ => (s, (some s, none)), fun s r => (s, (r.1, r.1.map get))]

/-- `AutoCovarianceTrace` (include/sampleflow/consumers/auto_covariance_trace.impl.h 409-510, 514-541). -/
def traceObject {K ι : Type} [Field K] [Fintype ι] (maxLag : Nat) :
    Object (Except Fault (ACTState K ι)) (ConsumerCall (ι → K)) (Option (Except Fault (ACTState K ι)) × Option (Except Fault (List K))) :=
  readModifyWrite (fun s x => s.bind (fun s => s.consume maxLag x)) (fun s => s.bind (fun s => s.get maxLag))

/-- `AutoCovarianceMatrix` (include/sampleflow/consumers/auto_covariance_matrix.impl.h 368-476, 478-513). -/
def matrixObject {K ι : Type} [Field K] (maxLag : Nat) (G : Nat → ι → ι → K) :
    Object (Except Fault (ACMState K ι)) (ConsumerCall (ι → K))
      (Option (Except Fault (ACMState K ι)) × Option (Except Fault (List (ι → ι → K)))) :=
  readModifyWrite (fun s x => s.bind (fun s => s.consume maxLag G x)) (fun s => s.bind (fun s => s.get maxLag))

/-- `AverageCosineBetweenSuccessiveSamples` (include/sampleflow/consumers/average_cosinus.impl.h 156-222, 226-236). -/
noncomputable def cosineObject {ι : Type} [Fintype ι] (bits H : Nat) (G1 G2 : Nat → ι → ℝ) :
    Object (Except Fault (CosState ι)) (ConsumerCall (ι → ℝ)) (Option (Except Fault (CosState ι)) × Option (Except Fault (Nat → ℝ))) :=
  readModifyWrite (fun s x => s.bind (fun s => s.consume bits H G1 G2 x)) (fun s => s.map (fun s => s.avg))

end SampleFlow.Mutex
