import Verif.Model.Moments
import Mathlib.Data.Real.Basic

/-!
# MeanValue and CovarianceMatrix in the arithmetic of the machine

The same functions as in Model/Moments.lean, but with the operations of an arbitrary arithmetic instead of a field: every `+=`, `-=`, `*`, `/` of
the code is one operation, in the order in which the code applies them.
-/

namespace SampleFlow

/-- The operations of a floating point type; `ofNat` is the conversion of `n_samples` (`types::sample_index`).
(The arithmetic in mean_value.impl.h 173-200, covariance_matrix.impl.h 155-197.) -/
class Arith (D : Type) where
  add : D → D → D
  sub : D → D → D
  mul : D → D → D
  div : D → D → D
  ofNat : Nat → D
  /-- `Utilities::conj` -/
  conj : D → D

/-- exact arithmetic
(Scaffolding; no lines of its own in the code.) -/
@[reducible] def exactArith (K : Type) [Field K] [Star K] : Arith K where
  add := (· + ·)
  sub := (· - ·)
  mul := (· * ·)
  div := (· / ·)
  ofNat := fun n => (n : K)
  conj := star

/-- Arithmetic on real numbers in which the result of every operation is rounded by `fl`.
(The arithmetic of `double` in mean_value.impl.h 173-200, covariance_matrix.impl.h 155-197.) -/
@[reducible] noncomputable def roundedArith (fl : ℝ → ℝ) : Arith ℝ where
  add := fun a b => fl (a + b)
  sub := fun a b => fl (a - b)
  mul := fun a b => fl (a * b)
  div := fun a b => fl (a / b)
  ofNat := fun n => fl n
  conj := id

variable {D ι : Type} [Arith D]

open Arith in
/-- `MeanValue::consume`, include/sampleflow/consumers/mean_value.impl.h 173-200. -/
def meanConsume (s : MeanState (ι → D)) (sample : ι → D) : MeanState (ι → D) :=
  if s.n = 0 then ⟨1, sample⟩
  else
    let n := s.n + 1
    let update := sample
    let update := fun i => sub (update i) (s.mean i)
    let update := fun i => div (update i) (ofNat n)
    ⟨n, fun i => add (s.mean i) (update i)⟩

/-- A MeanValue object that has consumed `xs`.
(Repeated mean_value.impl.h 173-200.) -/
def machineMean (G : ι → D) (xs : List (ι → D)) : MeanState (ι → D) := xs.foldl meanConsume (MeanState.init G)

open Arith in
/-- `CovarianceMatrix::consume`, include/sampleflow/consumers/covariance_matrix.impl.h 155-197; the entry `(i,j)` in line 189. -/
def covConsume (G : ι → ι → D) (s : CovState D ι) (sample : ι → D) : CovState D ι :=
  if s.n = 0 then ⟨1, sample, G⟩
  else
    let n := s.n + 1
    let delta := fun i => sub (sample i) (s.mean i)
    let C := fun i j => add (s.C i j) (sub (div (mul (delta i) (conj (delta j))) (ofNat n))
      (div (s.C i j) (sub (ofNat n) (ofNat 1))))
    let mean_update := fun i => sub (sample i) (s.mean i)
    let mean_update := fun i => div (mean_update i) (ofNat n)
    ⟨n, fun i => add (s.mean i) (mean_update i), C⟩

/-- A CovarianceMatrix object that has consumed `xs`.
(Repeated covariance_matrix.impl.h 155-197.) -/
def machineCov (M : ι → D) (C₀ G : ι → ι → D) (xs : List (ι → D)) : CovState D ι := xs.foldl (covConsume G) (CovState.init M C₀)

end SampleFlow
