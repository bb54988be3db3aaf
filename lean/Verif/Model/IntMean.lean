import Verif.Model.Basic

/-!
# MeanValue<int>

`MeanValue::consume` (include/sampleflow/consumers/mean_value.impl.h 173-200) instantiated with
`InputType = int` (32 bit) and `n_samples` of type `types::sample_index = std::size_t` (64 bit,
types.impl.h 38).
-/

namespace SampleFlow

/-- Members `n_samples` and `current_mean`.
(mean_value.impl.h 134-145.) -/
structure IntMean where
  n : BitVec 64
  mean : BitVec 32
deriving DecidableEq

/-- `consume`. `update -= current_mean` and `current_mean += update` are signed operations (overflow is
undefined behaviour); `update /= n_samples` is `update = update / n_samples`, where the usual
arithmetic conversions turn the `int` into a 64-bit unsigned number (sign extension), divide unsigned,
and convert back to `int` modulo 2^32. -/
def IntMean.consume (s : IntMean) (sample : BitVec 32) : Except Fault IntMean :=
  if s.n = 0 then .ok ⟨1, sample⟩
  else
    let n := s.n + 1
    if n = 0 then .error .ub else
    if BitVec.ssubOverflow sample s.mean then .error .ub else
    let update := sample - s.mean
    let update := ((update.signExtend 64) / n).setWidth 32
    if BitVec.saddOverflow s.mean update then .error .ub else
    .ok ⟨n, s.mean + update⟩

/-- The object after consuming `xs` (constructor mean_value.impl.h 151-159). -/
def intMeanAfter (G : BitVec 32) (xs : List (BitVec 32)) : Except Fault IntMean :=
  xs.foldlM IntMean.consume ⟨0, G⟩

end SampleFlow
