import Verif.Model.Dimension
import Verif.Model.SimpleConsumers

/-!
# AverageCosineBetweenSuccessiveSamples at the level of elements

As Model/Dimension.lean: samples are `std::valarray`s, every access to an element of a sample, a vector or a matrix may be out of bounds.
-/

namespace SampleFlow.Dim

/-- Members of `AverageCosineBetweenSuccessiveSamples`, include/sampleflow/consumers/average_cosinus.impl.h 94-125. -/
structure CosObj where
  n : Nat
  avg : List ℝ
  prev : Mat ℝ
  repl : Mat ℝ

/-- The sums `update`, `norm1`, `norm2`, average_cosinus.impl.h 195-202. -/
noncomputable def cosSums (prev : Mat ℝ) (sample : List ℝ) (i : Nat) : Except Fault (ℝ × ℝ × ℝ) :=
  loop sample.length (0, 0, 0) fun j acc => do
    let x ← readAt sample j
    let p ← prev.at i j
    return (acc.1 + x * p, acc.2.1 + x * x, acc.2.2 + p * p)

/-- `for (j=0; j<d; ++j) m(r,j) = src(j)`.
(average_cosinus.impl.h 156-222.) -/
def Mat.setRow (m : Mat ℝ) (r d : Nat) (src : Nat → Except Fault ℝ) : Except Fault (Mat ℝ) :=
  loop d m fun j m => do
    let x ← src j
    m.put r j x

/-- `consume`, average_cosinus.impl.h 156-222.  `unsigned int` has `bits` bits: `static_cast<unsigned int>(n_samples)` and `history_length-1` are
computed modulo `2^bits`.  `G1`, `G2`: uninitialised memory after `resize` (177-178). -/
noncomputable def cosConsume (bits H : Nat) (G1 G2 : Nat → Nat → ℝ) (s : CosObj) (sample : List ℝ) : Except Fault CosObj :=
  if s.n = 0 then do
    let prev ← (Mat.resized H sample.length G1).setRow 0 sample.length (readAt sample)
    return ⟨1, List.replicate H 0, prev, Mat.resized H sample.length G2⟩
  else do
    let length1 := min (s.n % 2^bits) H
    let length2 := min (s.n % 2^bits) ((H + (2^bits - 1)) % 2^bits)
    let n := s.n + 1
    let avg ← loop length1 s.avg fun i avg => do
      let (update, norm1, norm2) ← cosSums s.prev sample i
      let update := update / Real.sqrt (norm1 * norm2)
      let a ← readAt avg i
      let update := update - a
      let update := update / ((n - i - 1 : Nat) : ℝ)
      writeAt avg i (a + update)
    let repl ← loop length2 s.repl fun i repl => repl.setRow (i+1) sample.length (fun j => s.prev.at i j)
    let repl ← repl.setRow 0 sample.length (readAt sample)
    return ⟨n, avg, repl, repl⟩

/-- An object with history length `H` that has consumed `xs` (constructor: average_cosinus.impl.h 135-143). -/
noncomputable def cosRun (bits H : Nat) (G1 G2 : Nat → Nat → ℝ) (xs : List (List ℝ)) : Except Fault CosObj :=
  xs.foldlM (cosConsume bits H G1 G2) ⟨0, [], ⟨0, 0, G1⟩, ⟨0, 0, G2⟩⟩

end SampleFlow.Dim
