import Verif.Model.Rounding

/-!
# AutoCovarianceMatrix in the arithmetic of the machine

The same functions as in Model/Moments.lean with the operations of an arbitrary arithmetic: every `+=`, `-=`, `*`, `/` of the code is one operation, in the order in which the code applies them (no fused multiply-add).
-/

namespace SampleFlow

variable {D ι : Type} [Arith D]

open Arith in
/-- Body of the loop over `l` in `AutoCovarianceMatrix::consume`, include/sampleflow/consumers/auto_covariance_matrix.impl.h 415-461; the unary minus in line 439 is written as `0 - alpha`. -/
def acmMachineLag (n : Nat) (prev : List (ι → D)) (sample : ι → D) (lags : List (ACMLag D ι)) (l : Nat) : Except Fault (ACMLag D ι) := do
  let ⟨alpha, beta, eta⟩ ← readAt lags l
  if n = l + 1 then
    let p0 ← readAt prev 0
    let p1 ← readAt prev 1
    let pl ← readAt prev l
    let pl1 ← readAt prev (l+1)
    let alpha := fun i j => add (alpha i j) (mul (p0 i) (pl j))
    let alpha := fun i j => add (alpha i j) (mul (p1 i) (pl1 j))
    let beta := p0
    let beta := fun i => add (beta i) (p1 i)
    let eta := fun i => add (eta i) (pl i)
    let eta := fun i => add (eta i) (pl1 i)
    return ⟨alpha, beta, eta⟩
  else if n ≥ l + 2 then
    let pl ← readAt prev l
    let alphaupd := fun i j => sub (ofNat 0) (alpha i j)
    let alphaupd := fun i j => add (alphaupd i j) (mul (sample i) (pl j))
    let alphaupd := fun i j => mul (alphaupd i j) (div (ofNat 1) (ofNat (n - l)))
    let betaupd := fun i => sub (sample i) (beta i)
    let betaupd := fun i => mul (betaupd i) (div (ofNat 1) (ofNat (n - l)))
    let etaupd := fun i => sub (pl i) (eta i)
    let etaupd := fun i => mul (etaupd i) (div (ofNat 1) (ofNat (n - l)))
    return ⟨fun i j => add (alpha i j) (alphaupd i j), fun i => add (beta i) (betaupd i), fun i => add (eta i) (etaupd i)⟩
  else
    return ⟨alpha, beta, eta⟩

open Arith in
/-- `AutoCovarianceMatrix::consume`, auto_covariance_matrix.impl.h 368-474.  `G l` is the content of the memory that Eigen's `resize` of `alpha[l]` (line 382) leaves uninitialised. -/
def acmMachineConsume (maxLag : Nat) (G : Nat → ι → ι → D) (s : ACMState D ι) (sample : ι → D) : Except Fault (ACMState D ι) :=
  if s.n = 0 then
    .ok ⟨1, sample, (List.range (maxLag+1)).map (fun l => ⟨G l, fun _ => ofNat 0, fun _ => ofNat 0⟩), sample :: s.previous⟩
  else do
    let prev := sample :: s.previous
    let lags ← (List.range (maxLag+1)).mapM (acmMachineLag s.n prev sample s.lags)
    let prev := if prev.length > maxLag + 1 then prev.dropLast else prev
    let n := s.n + 1
    let update := sample
    let update := fun i => sub (update i) (s.mean i)
    let update := fun i => div (update i) (ofNat n)
    return ⟨n, fun i => add (s.mean i) (update i), lags, prev⟩

open Arith in
/-- Entry `l` of `AutoCovarianceMatrix::get`, auto_covariance_matrix.impl.h 489-511. -/
def acmMachineGetLag (s : ACMState D ι) (l : Nat) : Except Fault (ι → ι → D) := do
  let ⟨alpha, beta, eta⟩ ← readAt s.lags l
  let r := alpha
  let r := fun i j => sub (r i j) (mul (s.mean i) (eta j))
  let r := fun i j => sub (r i j) (mul (beta i) (s.mean j))
  let r := if s.n > l + 1 then
      fun i j => add (r i j) (mul (mul (add (ofNat 1) (div (ofNat 1) (ofNat (s.n - l - 1)))) (s.mean i)) (s.mean j))
    else r
  return r

/-- An AutoCovarianceMatrix object that has consumed `xs`.
(Repeated auto_covariance_matrix.impl.h 368-474.) -/
def acmMachine (maxLag : Nat) (G : Nat → ι → ι → D) (M : ι → D) (xs : List (ι → D)) : Except Fault (ACMState D ι) :=
  xs.foldlM (acmMachineConsume maxLag G) (ACMState.init M)

/-- `AutoCovarianceMatrix::get` after `xs`, auto_covariance_matrix.impl.h 478-514. -/
def acmMachineGet (maxLag : Nat) (G : Nat → ι → ι → D) (M : ι → D) (xs : List (ι → D)) : Except Fault (List (ι → ι → D)) := do
  let s ← acmMachine maxLag G M xs
  (List.range (maxLag+1)).mapM (acmMachineGetLag s)

end SampleFlow
