import Verif.Model.RoundingAuto
import Verif.Model.IdealDouble
import Mathlib.Analysis.SpecialFunctions.Sqrt

/-!
# AverageCosineBetweenSuccessiveSamples in the arithmetic of the machine

The same functions as in Model/SimpleConsumers.lean with the operations of an arbitrary arithmetic and an arbitrary square root: every `+=`, `*`, `/` and `std::sqrt` of the code is one operation, in the order in which the
code applies them.  Samples have `d` components.
-/

namespace SampleFlow

/-- Members (include/sampleflow/consumers/average_cosinus.impl.h 112-130), as `CosState`. -/
structure CosMachine (D : Type) (d : Nat) where
  n : Nat
  avg : Nat → D
  prev : Nat → Fin d → D
  repl : Nat → Fin d → D

variable {D : Type} [Arith D] {d : Nat}

open Arith in
/-- The quotient in average_cosinus.impl.h 195-203: `update`, `norm1` and `norm2` are summed up in one loop, each of them from 0. -/
def machineCosine (sqrt : D → D) (x y : Fin d → D) : D :=
  let update := dotFrom (ofNat 0) x y
  let norm1 := dotFrom (ofNat 0) x x
  let norm2 := dotFrom (ofNat 0) y y
  div update (sqrt (mul norm1 norm2))

open Arith in
/-- `consume`, average_cosinus.impl.h 156-222.  `G1`, `G2`, `bits` and `H` as in `CosState.consume`. -/
def cosMachineConsume (sqrt : D → D) (bits H : Nat) (G1 G2 : Nat → Fin d → D) (s : CosMachine D d) (sample : Fin d → D) : Except Fault (CosMachine D d) :=
  if H = 0 then .error .ub
  else if s.n = 0 then
    .ok ⟨1, fun _ => ofNat 0, fun i => if i = 0 then sample else G1 i, G2⟩
  else
    let length1 := min (s.n % 2^bits) H
    let length2 := min (s.n % 2^bits) (H - 1)
    if H < length1 ∨ H < length2 + 1 then .error .ub else
    let n := s.n + 1
    let avg := fun i =>
      if i < length1 then
        let update := machineCosine sqrt sample (s.prev i)
        let update := sub update (s.avg i)
        let update := div update (ofNat (n - i - 1))
        add (s.avg i) update
      else s.avg i
    let repl := fun k =>
      if k = 0 then sample
      else if k - 1 < length2 then s.prev (k - 1)
      else s.repl k
    .ok ⟨n, avg, repl, repl⟩

/-- The object after consuming `xs` (constructor 135-143). -/
def cosMachineAfter (sqrt : D → D) (bits H : Nat) (A₀ : Nat → D) (G1 G2 : Nat → Fin d → D) (xs : List (Fin d → D)) : Except Fault (CosMachine D d) :=
  xs.foldlM (cosMachineConsume sqrt bits H G1 G2) ⟨0, A₀, G1, G2⟩

/-- `get`, average_cosinus.impl.h 226-235: the entries for the lags `1, ..., H`. -/
def cosMachineGet (sqrt : D → D) (bits H : Nat) (A₀ : Nat → D) (G1 G2 : Nat → Fin d → D) (xs : List (Fin d → D)) : Except Fault (List D) := do
  let s ← cosMachineAfter sqrt bits H A₀ G1 G2 xs
  return (List.range H).map s.avg

/-- `std::sqrt` of an idealised double, not rounded
(average_cosinus.impl.h 203.) -/
noncomputable def XR.sqrt : XR → XR
  | .nan => .nan
  | .negInf => .nan
  | .posInf => .posInf
  | .fin r => if r < 0 then .nan else .fin (Real.sqrt r)

end SampleFlow
