import Verif.Model.Basic
import Mathlib.Data.Real.Sqrt
import Mathlib.Data.Fintype.BigOperators
import Mathlib.Algebra.BigOperators.Pi

/-!
# LastSample, CountSamples, MaximumProbabilitySample, AcceptanceRatio, AverageCosinus, StreamOutput
-/

namespace SampleFlow

/-! ## LastSample -/

/-- `LastSample::consume`, include/sampleflow/consumers/last_sample.impl.h 99-107.
The state is the member `last_sample`. -/
def lastConsume {α : Type} (_last : α) (sample : α) : α := sample

/-- A LastSample object after consuming `xs`; `G` is the initial content of `last_sample`
(unspecified for built-in types). `get` (111-119) returns the state. -/
def lastAfter {α : Type} (G : α) (xs : List α) : α := xs.foldl lastConsume G

/-! ## CountSamples -/

/-- `CountSamples::consume`, include/sampleflow/consumers/count_samples.impl.h 119-127
(`n_samples` is a 64-bit unsigned integer). -/
def countConsume {α : Type} (n : UInt64) (_sample : α) : UInt64 := n + 1

/-- A CountSamples object after consuming `xs` (constructor 98-106: 0; `get` 132-140). -/
def countAfter {α : Type} (xs : List α) : UInt64 := xs.foldl countConsume 0

/-! ## MaximumProbabilitySample -/

/-- The entry "relative log likelihood" of the auxiliary data: missing, of another type than `double`,
or a `double`.
(maximum_probability_sample.impl.h 156-170.) -/
inductive LLEntry (D : Type) where
  | absent
  | wrongType
  | val (d : D)

/-- Members of `MaximumProbabilitySample`
(include/sampleflow/consumers/maximum_probability_sample.impl.h 108-124): the most likely sample
with its auxiliary data (`best`) and `current_highest_log_likelihood`. -/
structure MaxProbState (S D : Type) where
  best : S
  highest : D

/-- `MaximumProbabilitySample::consume`, maximum_probability_sample.impl.h 151-182, parametrised by the
double comparisons `isLowest` (`== numeric_limits<double>::lowest()`) and `gt` (`>`).
`std::any_cast` with the wrong type throws. -/
def MaxProbState.consume {S D : Type} (isLowest : D → Bool) (gt : D → D → Bool)
    (st : MaxProbState S D) (m : S × LLEntry D) : Except Fault (MaxProbState S D) :=
  match m.2 with
  | .absent => .ok st
  | .wrongType => .error (.thrown 0)
  | .val ll =>
    if isLowest st.highest then .ok ⟨m.1, ll⟩
    else if gt ll st.highest then .ok ⟨m.1, ll⟩
    else .ok st

/-- A MaximumProbabilitySample object after consuming `xs`; `S₀` is the default-constructed sample
(constructor 128-138). `get` (186-194) returns `best`. -/
def maxProbAfter {S D : Type} (isLowest : D → Bool) (gt : D → D → Bool) (lowest : D) (S₀ : S)
    (xs : List (S × LLEntry D)) : Except Fault (MaxProbState S D) :=
  xs.foldlM (MaxProbState.consume isLowest gt) ⟨S₀, lowest⟩

/-! ## AcceptanceRatio -/

/-- Members of `AcceptanceRatio` (include/sampleflow/consumers/acceptance_ratio.impl.h 107-117). -/
structure ARState (α : Type) where
  accepted : Nat
  n : Nat
  previous : α

/-- `AcceptanceRatio::consume`, acceptance_ratio.impl.h 190-224; `eq` models
`internal::AcceptanceRatio::is_equal` (144-186). Counters are natural numbers (< 2^64 samples). -/
def ARState.consume {α : Type} (eq : α → α → Bool) (s : ARState α) (sample : α) : ARState α :=
  if s.n = 0 then ⟨1, 1, sample⟩
  else if eq sample s.previous then { s with n := s.n + 1 }
  else ⟨s.accepted + 1, s.n + 1, sample⟩

/-- `AcceptanceRatio::get`, acceptance_ratio.impl.h 228-241, over any numbers `K` with conversion from
integers and division. -/
def ARState.get {α K : Type} [NatCast K] [Div K] [Zero K] (s : ARState α) : K :=
  if s.n > 0 then (s.accepted : K) / (s.n : K) else 0

/-- An AcceptanceRatio object after consuming `xs` (constructor 123-131). -/
def arAfter {α : Type} (eq : α → α → Bool) (G : α) (xs : List α) : ARState α :=
  xs.foldl (ARState.consume eq) ⟨0, 0, G⟩

/-- `is_equal` for `std::valarray`, acceptance_ratio.impl.h 172-184: sizes, then element by element
with `elemNe` (`!=` of the element type). -/
def valarrayIsEqual {β : Type} (elemNe : β → β → Bool) : List β → List β → Bool
  | xs, ys => if xs.length ≠ ys.length then false else (xs.zip ys).all (fun p => !elemNe p.1 p.2)

/-! ## AverageCosineBetweenSuccessiveSamples -/

/-- Members (include/sampleflow/consumers/average_cosinus.impl.h 112-130).  `avg i` is
`current_avg_cosine[i]`, `prev i` row `i` of `previous_sample`, `repl i` row `i` of
`previous_sample_replace`; only the rows `0 .. history_length-1` exist, all accesses below stay in
that range if `history_length ≥ 1` (`length1 ≤ history_length`, `length2 ≤ history_length - 1`). -/
structure CosState (ι : Type) where
  n : Nat
  avg : Nat → ℝ
  prev : Nat → ι → ℝ
  repl : Nat → ι → ℝ

/-- The quotient in average_cosinus.impl.h 195-203. (For a zero vector the code computes 0/0.) -/
noncomputable def cosine {ι : Type} [Fintype ι] (x y : ι → ℝ) : ℝ :=
  (∑ j, x j * y j) / Real.sqrt ((∑ j, x j * x j) * (∑ j, y j * y j))

/-- `consume`, average_cosinus.impl.h 156-222.  `G1`, `G2` are the uninitialised contents after
`resize` (177-178).  With `history_length = 0` the write to row 0 in line 180 is out of bounds.
The loops read the entries below `length1` of the vector and of the matrix with `H` entries or rows (190-204) and write rows 1 to `length2` (207-213):
out of bounds, undefined behaviour, if these are too large.
`static_cast<unsigned int>(n_samples)` truncates to `bits` bits, the width of `unsigned int` (32 on current platforms). -/
noncomputable def CosState.consume {ι : Type} [Fintype ι] (bits H : Nat) (G1 G2 : Nat → ι → ℝ)
    (s : CosState ι) (sample : ι → ℝ) : Except Fault (CosState ι) :=
  if H = 0 then .error .ub
  else if s.n = 0 then
    .ok ⟨1, fun _ => 0, fun i => if i = 0 then sample else G1 i, G2⟩
  else
    let length1 := min (s.n % 2^bits) H
    let length2 := min (s.n % 2^bits) (H - 1)
    if H < length1 ∨ H < length2 + 1 then .error .ub else
    let n := s.n + 1
    let avg := fun i =>
      if i < length1 then
        let update := cosine sample (s.prev i)
        let update := update - s.avg i
        let update := update / ((n : ℝ) - i - 1)
        s.avg i + update
      else s.avg i
    let repl := fun k =>
      if k = 0 then sample
      else if k - 1 < length2 then s.prev (k - 1)
      else s.repl k
    .ok ⟨n, avg, repl, repl⟩

/-- The object after consuming `xs` (constructor 135-143). -/
noncomputable def cosAfter {ι : Type} [Fintype ι] (bits H : Nat) (A₀ : Nat → ℝ) (G1 G2 : Nat → ι → ℝ)
    (xs : List (ι → ℝ)) : Except Fault (CosState ι) :=
  xs.foldlM (CosState.consume bits H G1 G2) ⟨0, A₀, G1, G2⟩

/-! ## StreamOutput -/

/-- A sample as seen by `StreamOutput`: something printed by its own `operator<<` (its text), or
something with `operator[]`.
(stream_output.impl.h 135-175.) -/
inductive Printable where
  | scalar (text : List Char)
  | vec (elems : List Printable)

/-- `internal::StreamOutput::write`, include/sampleflow/consumers/stream_output.impl.h 135-175. -/
def Printable.write : Printable → List Char
  | .scalar t => t
  | .vec es => (es.map (fun e => e.write ++ [' '])).flatten

/-- `StreamOutput::consume`, stream_output.impl.h 180-189: the state is the text written so far. -/
def streamConsume (out : List Char) (sample : Printable) : List Char :=
  out ++ sample.write ++ ['\n']

/-- The text written for the samples `xs`.
(Repeated stream_output.impl.h 181-189.) -/
def streamAfter (xs : List Printable) : List Char := xs.foldl streamConsume []

end SampleFlow
