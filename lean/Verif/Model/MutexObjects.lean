import Verif.Model.Mutex
import Verif.Model.Moments
import Verif.Model.SimpleConsumers
import Verif.Model.Filters
import Mathlib.Data.List.FinRange

/-!
# The bodies of `consume`, `get` and `filter`, statement by statement

Each class is an `Object` whose member functions are lists of small steps.  `++x` and `x += y` are two steps
(read into a register, write back), so that without the mutex updates could get lost.
-/

namespace SampleFlow.Mutex

open SampleFlow

/-- Calls of a consumer's functions by several threads: `consume(sample)` or `get()`.
(E.g. mean_value.impl.h 173-213.) -/
inductive ConsumerCall (α : Type) where
  | consume (sample : α)
  | get

/-- The samples of the `consume` calls in a list of calls.
(Scaffolding; no lines of its own in the code.) -/
def samplesOf {α : Type} (calls : List (ConsumerCall α)) : List α :=
  calls.filterMap (fun c => match c with | .consume x => some x | .get => none)

/-! ## CountSamples -/

/-- `CountSamples::consume` (count_samples.impl.h 119-127) and `get` (132-140). -/
def countObject (α : Type) : Object UInt64 (ConsumerCall α) UInt64 where
  locks := true
  local0 := fun _ => 0
  body := fun op => match op with
    | .consume _ => [fun n _ => (n, n), fun n r => (n, r + 1), fun _ r => (r, r)]
    | .get => [fun n _ => (n, n)]

/-! ## MeanValue -/

/-- Local variables of `MeanValue::consume` (mean_value.impl.h 173-200): outcome of the test
`n_samples == 0`, a register, `update`; `ret` is the value returned by `get`. -/
structure MeanLocals (V : Type) where
  first : Bool
  reg : Nat
  update : V
  regV : V
  ret : V

/-- `MeanValue::consume` (mean_value.impl.h 173-200) and `get` (204-213). -/
def meanObject {K ι : Type} [Field K] (G : ι → K) :
    Object (MeanState (ι → K)) (ConsumerCall (ι → K)) (MeanLocals (ι → K)) where
  locks := true
  local0 := fun _ => ⟨false, 0, G, G, G⟩
  body := fun op => match op with
    | .consume x =>
      [ fun s r => (s, { r with first := decide (s.n = 0) }),                    -- if (n_samples == 0)
        fun s r => (s, { r with reg := if r.first then 1 else s.n + 1 }),        -- n_samples = 1 / ++n_samples
        fun s r => ({ s with n := r.reg }, r),
        fun s r => (s, { r with update := x }),                                  -- update = std::move(sample)
        fun s r => (s, if r.first then r else { r with update := fun i => r.update i - s.mean i }),
        fun s r => (s, if r.first then r else { r with update := fun i => r.update i / (s.n : K) }),
        fun s r => (s, { r with regV := if r.first then x else fun i => s.mean i + r.update i }),
        fun s r => ({ s with mean := r.regV }, r) ]                              -- current_mean = / +=
    | .get => [fun s r => (s, { r with ret := s.mean })]

/-! ## CovarianceMatrix -/

/-- Local variables of `CovarianceMatrix::consume` (covariance_matrix.impl.h 158-196). -/
structure CovLocals (K ι : Type) where
  first : Bool
  delta : ι → K
  mean_update : ι → K
  ret : ι → ι → K

/-- The body of the double loop in `CovarianceMatrix::consume`, covariance_matrix.impl.h 183-191: update
of the entry `(i,j)` of the matrix `C` from `n_samples` and `delta`. -/
def covEntry {K : Type} [Field K] [Star K] {d : Nat} (n : Nat) (delta : Fin d → K)
    (C : Fin d → Fin d → K) (p : Fin d × Fin d) : Fin d → Fin d → K :=
  fun a b =>
    if (a, b) = p then
      C a b + ((delta a * star (delta b)) / (n : K) - C a b / ((n : K) - 1))
    else C a b

/-- The double loop: one small step for each entry of the matrix, row by row.
(covariance_matrix.impl.h 183-191.) -/
def covLoop {K : Type} [Field K] [Star K] (d : Nat) :
    List (CovState K (Fin d) → CovLocals K (Fin d) → CovState K (Fin d) × CovLocals K (Fin d)) :=
  ((List.finRange d).product (List.finRange d)).map (fun p => fun s r =>
    (if r.first then s else { s with C := covEntry s.n r.delta s.C p }, r))

/-- `CovarianceMatrix::consume` (covariance_matrix.impl.h 155-197) and `get` (201-210); `G` is the memory
that `resize` leaves uninitialised. -/
def covObject {K : Type} [Field K] [Star K] (d : Nat) (G : Fin d → Fin d → K) :
    Object (CovState K (Fin d)) (ConsumerCall (Fin d → K)) (CovLocals K (Fin d)) where
  locks := true
  local0 := fun _ => ⟨false, fun _ => 0, fun _ => 0, G⟩
  body := fun op => match op with
    | .consume x =>
      [ fun s r => (s, { r with first := decide (s.n = 0) }),                    -- if (n_samples == 0)
        fun s r => (if r.first then { s with n := 1 } else { s with n := s.n + 1 }, r),
        fun s r => (if r.first then { s with C := G } else s, r),                -- resize
        fun s r => (s, { r with delta := x }),                                   -- delta = sample
        fun s r => (s, { r with delta := fun i => r.delta i - s.mean i }) ] ++   -- delta -= current_mean
      covLoop d ++
      [ fun s r => (s, { r with mean_update := x }),
        fun s r => (s, { r with mean_update := fun i => r.mean_update i - s.mean i }),
        fun s r => (s, { r with mean_update := fun i => r.mean_update i / (s.n : K) }),
        fun s r => ({ s with mean := if r.first then x else fun i => s.mean i + r.mean_update i }, r) ]
    | .get => [fun s r => (s, { r with ret := s.C })]

/-! ## Histogram -/

/-- The part of `Histogram::consume` after the bin of the sample has been computed from the constant
interval points without a lock (histogram.impl.h 326-342): a call with the number of the bin, or `none` if the
sample is discarded; and `get` (365-369), which reads the bins one after the other. -/
def binsObject (nBins : Nat) : Object (List Nat) (ConsumerCall (Option Nat)) (Nat × List Nat) where
  locks := true
  local0 := fun _ => (0, [])
  body := fun op => match op with
    | .consume (some k) =>
      [ fun b _ => (b, (b.getD k 0, [])),
        fun b r => (b, (r.1 + 1, [])),
        fun b r => (b.set k r.1, r) ]
    | .consume none => []
    | .get => (List.range nBins).map (fun k => fun b r => (b, (0, r.2 ++ [b.getD k 0])))

/-! ## TakeEveryNth -/

/-- `TakeEveryNth::filter`, take_every_nth.impl.h 125-143, called concurrently (`every_nth ≠ 0`). -/
def takeObject (α A : Type) (everyNth : UInt64) :
    Object UInt64 (Msg α A) (UInt64 × Option (Msg α A)) where
  locks := true
  local0 := fun _ => (0, none)
  body := fun m =>
    [ fun counter _ => (counter, (counter % everyNth, none)),          -- if (counter % every_nth == 0)
      fun counter r => if r.1 = 0 then (counter, (1, some m)) else (counter, (counter + 1, none)),
      fun _ r => (r.1, r) ]                                            -- counter = 1 / ++counter

/-! ## Action -/

/-- `Action::consume`, action.impl.h 174-187.  The members of the consumer do not matter; the user function
consists of the given small steps on the user's data. -/
def actionObject {σ α : Type} (allowConcurrentAction : Bool) (userFunction : α → List (σ → σ)) :
    Object σ α Unit where
  locks := !allowConcurrentAction
  local0 := fun _ => ()
  body := fun x => (userFunction x).map (fun f => fun s _ => (f s, ()))

end SampleFlow.Mutex
