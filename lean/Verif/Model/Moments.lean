import Verif.Model.Basic
import Mathlib.Algebra.Field.Basic
import Mathlib.Algebra.Star.Basic
import Mathlib.Algebra.BigOperators.Pi
import Mathlib.Data.Fintype.BigOperators

/-!
# MeanValue, CovarianceMatrix, AutoCovarianceTrace, AutoCovarianceMatrix

Samples are vectors `ι → K` (`ι` = index set of components; a scalar sample is `ι = Unit`) over a
field `K`: exact arithmetic instead of floating point.  `n_samples` is a natural number (fewer than
2^64 samples).  Uninitialised memory is an explicit argument `G`.
-/

namespace SampleFlow

/-! ## MeanValue -/

/-- Members `n_samples`, `current_mean` of `Consumers::MeanValue`
(include/sampleflow/consumers/mean_value.impl.h 140-145). -/
structure MeanState (V : Type) where
  n : Nat
  mean : V

/-- Constructor, mean_value.impl.h 150-159: only `n_samples` is initialised; `current_mean` of a
built-in type holds an unspecified value `G`. -/
def MeanState.init {V : Type} (G : V) : MeanState V := ⟨0, G⟩

/-- `MeanValue::consume`, mean_value.impl.h 173-200. -/
def MeanState.consume {K ι : Type} [Field K] (s : MeanState (ι → K)) (sample : ι → K) :
    MeanState (ι → K) :=
  if s.n = 0 then ⟨1, sample⟩
  else
    let n := s.n + 1
    let update := sample
    let update := fun i => update i - s.mean i
    let update := fun i => update i / (n : K)
    ⟨n, fun i => s.mean i + update i⟩

/-- `MeanValue::get`, mean_value.impl.h 204-213. -/
def MeanState.get {V : Type} (s : MeanState V) : V := s.mean

/-- A MeanValue object that has consumed `xs`.
(Repeated mean_value.impl.h 173-200.) -/
def meanAfter {K ι : Type} [Field K] (G : ι → K) (xs : List (ι → K)) : MeanState (ι → K) :=
  xs.foldl MeanState.consume (MeanState.init G)

/-! ## CovarianceMatrix -/

/-- Members `current_mean`, `current_covariance_matrix`, `n_samples` of
`Consumers::CovarianceMatrix` (include/sampleflow/consumers/covariance_matrix.impl.h 116-127). -/
structure CovState (K ι : Type) where
  n : Nat
  mean : ι → K
  C : ι → ι → K

/-- Constructor, covariance_matrix.impl.h 133-141. `M` is the unspecified mean. -/
def CovState.init {K ι : Type} (M : ι → K) (C : ι → ι → K) : CovState K ι := ⟨0, M, C⟩

/-- `CovarianceMatrix::consume`, covariance_matrix.impl.h 155-197.  `G` is the content of the memory
that Eigen's `resize` (line 168) leaves uninitialised.  The double loop in 180-188 updates each
entry `(i,j)` once from its own old value, hence is a pointwise update; `star` is
`Utilities::conj` (types.impl.h / line 185). -/
def CovState.consume {K ι : Type} [Field K] [Star K] (G : ι → ι → K) (s : CovState K ι)
    (sample : ι → K) : CovState K ι :=
  if s.n = 0 then ⟨1, sample, G⟩
  else
    let n := s.n + 1
    let delta := fun i => sample i - s.mean i
    let C := fun i j => s.C i j + ((delta i * star (delta j)) / (n : K) - s.C i j / ((n : K) - 1))
    let mean_update := fun i => (sample i - s.mean i) / (n : K)
    ⟨n, fun i => s.mean i + mean_update i, C⟩

/-- `CovarianceMatrix::get`, covariance_matrix.impl.h 201-210. -/
def CovState.get {K ι : Type} (s : CovState K ι) : ι → ι → K := s.C

/-- A CovarianceMatrix object that has consumed `xs`. The default-constructed Eigen matrix is empty
(0 x 0); here `C₀` stands for it and is never read before being replaced.
(Repeated covariance_matrix.impl.h 155-197.) -/
def covAfter {K ι : Type} [Field K] [Star K] (M : ι → K) (C₀ G : ι → ι → K) (xs : List (ι → K)) :
    CovState K ι :=
  xs.foldl (CovState.consume G) (CovState.init M C₀)

/-! ## AutoCovarianceTrace -/

/-- Reading `deque[l]` / `vector[l]`: undefined behaviour if out of range.
(E.g. auto_covariance_trace.impl.h 459-468.) -/
def readAt {X : Type} (xs : List X) (l : Nat) : Except Fault X :=
  match xs[l]? with
  | some x => .ok x
  | none => .error .ub

/-- Members of `Consumers::AutoCovarianceTrace`
(include/sampleflow/consumers/auto_covariance_trace.impl.h 355-382).  The vectors `alpha` and `beta`,
always of equal length, are stored as one list of pairs; `previous` is the deque
`previous_samples`, front first. -/
structure ACTState (K ι : Type) where
  n : Nat
  mean : ι → K
  lags : List (K × (ι → K))
  previous : List (ι → K)

/-- Constructor, auto_covariance_trace.impl.h 388-396: empty vectors, `M` unspecified mean. -/
def ACTState.init {K ι : Type} (M : ι → K) : ACTState K ι := ⟨0, M, [], []⟩

/-- Body of the loop over `l` in `AutoCovarianceTrace::consume`, auto_covariance_trace.impl.h 451-498.
`n` is `n_samples` before it is incremented, `prev` is `previous_samples` after `push_front`.
The loops over `j` are sums / pointwise operations. -/
def ACTState.updateLag {K ι : Type} [Field K] [Fintype ι] (n : Nat) (prev : List (ι → K))
    (sample : ι → K) (lags : List (K × (ι → K))) (l : Nat) : Except Fault (K × (ι → K)) := do
  let (alpha, beta) ← readAt lags l
  if n = l + 1 then
    let p0 ← readAt prev 0
    let p1 ← readAt prev 1
    let pl ← readAt prev l
    let pl1 ← readAt prev (l+1)
    let alpha : K := 0
    let alpha := alpha + ∑ j, p0 j * pl j
    let alpha := alpha + ∑ j, p1 j * pl1 j
    let beta := fun j => p0 j + p1 j + pl j + pl1 j
    return (alpha, beta)
  else if n ≥ l + 2 then
    let pl ← readAt prev l
    let alphaupd := -alpha
    let alphaupd := alphaupd + ∑ j, sample j * pl j
    let alphaupd := alphaupd * (1 / ((n : K) - l))
    let betaupd := fun j => (sample j + pl j - beta j) * (1 / ((n : K) - l))
    return (alpha + alphaupd, fun j => beta j + betaupd j)
  else
    return (alpha, beta)

/-- `AutoCovarianceTrace::consume`, auto_covariance_trace.impl.h 409-510. -/
def ACTState.consume {K ι : Type} [Field K] [Fintype ι] (maxLag : Nat) (s : ACTState K ι)
    (sample : ι → K) : Except Fault (ACTState K ι) :=
  if s.n = 0 then
    .ok ⟨1, sample, List.replicate (maxLag+1) (0, fun _ => 0), sample :: s.previous⟩
  else do
    let prev := sample :: s.previous
    let lags ← (List.range (maxLag+1)).mapM (ACTState.updateLag s.n prev sample s.lags)
    let prev := if prev.length > maxLag + 1 then prev.dropLast else prev
    let n := s.n + 1
    let update := fun i => (sample i - s.mean i) / (n : K)
    return ⟨n, fun i => s.mean i + update i, lags, prev⟩

/-- Entry `l` of `AutoCovarianceTrace::get`, auto_covariance_trace.impl.h 523-539. -/
def ACTState.getLag {K ι : Type} [Field K] [Fintype ι] (s : ACTState K ι) (l : Nat) :
    Except Fault K := do
  let (alpha, beta) ← readAt s.lags l
  let r := alpha
  let r := r - ∑ j, s.mean j * beta j
  let r := if s.n > l + 1 then
      r + ∑ j, (1 + 1 / ((s.n : K) - l - 1)) * s.mean j * s.mean j
    else r
  return r

/-- `AutoCovarianceTrace::get`, auto_covariance_trace.impl.h 514-542. -/
def ACTState.get {K ι : Type} [Field K] [Fintype ι] (maxLag : Nat) (s : ACTState K ι) :
    Except Fault (List K) :=
  (List.range (maxLag+1)).mapM s.getLag

/-- An AutoCovarianceTrace object that has consumed `xs` (or the fault met on the way).
(Repeated auto_covariance_trace.impl.h 409-510.) -/
def actAfter {K ι : Type} [Field K] [Fintype ι] (maxLag : Nat) (M : ι → K) (xs : List (ι → K)) :
    Except Fault (ACTState K ι) :=
  xs.foldlM (ACTState.consume maxLag) (ACTState.init M)

/-! ## AutoCovarianceMatrix -/

/-- `alpha[l]`, `beta[l]`, `eta[l]` of `Consumers::AutoCovarianceMatrix`.
(auto_covariance_matrix.impl.h 325-327.) -/
structure ACMLag (K ι : Type) where
  alpha : ι → ι → K
  beta : ι → K
  eta : ι → K

/-- Members of `Consumers::AutoCovarianceMatrix`
(include/sampleflow/consumers/auto_covariance_matrix.impl.h 314-342). -/
structure ACMState (K ι : Type) where
  n : Nat
  mean : ι → K
  lags : List (ACMLag K ι)
  previous : List (ι → K)

/-- Constructor, auto_covariance_matrix.impl.h 347-355. -/
def ACMState.init {K ι : Type} (M : ι → K) : ACMState K ι := ⟨0, M, [], []⟩

/-- Body of the loop over `l`, auto_covariance_matrix.impl.h 415-461. -/
def ACMState.updateLag {K ι : Type} [Field K] (n : Nat) (prev : List (ι → K))
    (sample : ι → K) (lags : List (ACMLag K ι)) (l : Nat) : Except Fault (ACMLag K ι) := do
  let ⟨alpha, beta, eta⟩ ← readAt lags l
  if n = l + 1 then
    let p0 ← readAt prev 0
    let p1 ← readAt prev 1
    let pl ← readAt prev l
    let pl1 ← readAt prev (l+1)
    let alpha := fun i j => alpha i j + p0 i * pl j
    let alpha := fun i j => alpha i j + p1 i * pl1 j
    let beta := fun i => p0 i + p1 i
    let eta := fun i => eta i + pl i
    let eta := fun i => eta i + pl1 i
    return ⟨alpha, beta, eta⟩
  else if n ≥ l + 2 then
    let pl ← readAt prev l
    let alphaupd := fun i j => (-alpha i j + sample i * pl j) * (1 / ((n : K) - l))
    let betaupd := fun i => (sample i - beta i) * (1 / ((n : K) - l))
    let etaupd := fun i => (pl i - eta i) * (1 / ((n : K) - l))
    return ⟨fun i j => alpha i j + alphaupd i j, fun i => beta i + betaupd i,
      fun i => eta i + etaupd i⟩
  else
    return ⟨alpha, beta, eta⟩

/-- `AutoCovarianceMatrix::consume`, auto_covariance_matrix.impl.h 368-474.  `G l` is the content of
the memory that Eigen's `resize` of `alpha[l]` (line 382) leaves uninitialised. -/
def ACMState.consume {K ι : Type} [Field K] (maxLag : Nat) (G : Nat → ι → ι → K)
    (s : ACMState K ι) (sample : ι → K) : Except Fault (ACMState K ι) :=
  if s.n = 0 then
    .ok ⟨1, sample, (List.range (maxLag+1)).map (fun l => ⟨G l, fun _ => 0, fun _ => 0⟩),
      sample :: s.previous⟩
  else do
    let prev := sample :: s.previous
    let lags ← (List.range (maxLag+1)).mapM (ACMState.updateLag s.n prev sample s.lags)
    let prev := if prev.length > maxLag + 1 then prev.dropLast else prev
    let n := s.n + 1
    let update := fun i => (sample i - s.mean i) / (n : K)
    return ⟨n, fun i => s.mean i + update i, lags, prev⟩

/-- Entry `l` of `AutoCovarianceMatrix::get`, auto_covariance_matrix.impl.h 489-511. -/
def ACMState.getLag {K ι : Type} [Field K] (s : ACMState K ι) (l : Nat) :
    Except Fault (ι → ι → K) := do
  let ⟨alpha, beta, eta⟩ ← readAt s.lags l
  let r := alpha
  let r := fun i j => r i j - s.mean i * eta j
  let r := fun i j => r i j - beta i * s.mean j
  let r := if s.n > l + 1 then
      fun i j => r i j + (1 + 1 / ((s.n : K) - l - 1)) * s.mean i * s.mean j
    else r
  return r

/-- `AutoCovarianceMatrix::get`, auto_covariance_matrix.impl.h 478-514. -/
def ACMState.get {K ι : Type} [Field K] (maxLag : Nat) (s : ACMState K ι) :
    Except Fault (List (ι → ι → K)) :=
  (List.range (maxLag+1)).mapM s.getLag

/-- An AutoCovarianceMatrix object that has consumed `xs`.
(Repeated auto_covariance_matrix.impl.h 368-474.) -/
def acmAfter {K ι : Type} [Field K] (maxLag : Nat) (G : Nat → ι → ι → K) (M : ι → K)
    (xs : List (ι → K)) : Except Fault (ACMState K ι) :=
  xs.foldlM (ACMState.consume maxLag G) (ACMState.init M)

end SampleFlow
