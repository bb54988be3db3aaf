import Verif.Model.Rounding
import Mathlib.Data.List.FinRange

/-!
# AutoCovarianceTrace in the arithmetic of the machine

The same functions as in Model/Moments.lean with the operations of an arbitrary arithmetic: every `+=`, `-=`, `*`, `/` of the code is one operation,
in the order in which the code applies them (no fused multiply-add).  Samples have `d` components.
-/

namespace SampleFlow

variable {D : Type} [Arith D] {d : Nat}

open Arith in
/-- The loops `for j: s += get_nth_element(x, j) * get_nth_element(y, j)` of include/sampleflow/consumers/auto_covariance_trace.impl.h 458-463, 474-478. -/
def dotFrom (s : D) (x y : Fin d → D) : D := (List.finRange d).foldl (fun s j => add s (mul (x j) (y j))) s

open Arith in
/-- Body of the loop over `l` in `AutoCovarianceTrace::consume`, auto_covariance_trace.impl.h 451-498; the unary minus in line 473 is written as `0 - alpha`. -/
def actMachineLag (n : Nat) (prev : List (Fin d → D)) (sample : Fin d → D) (lags : List (D × (Fin d → D))) (l : Nat) :
    Except Fault (D × (Fin d → D)) := do
  let (alpha, beta) ← readAt lags l
  if n = l + 1 then
    let p0 ← readAt prev 0
    let p1 ← readAt prev 1
    let pl ← readAt prev l
    let pl1 ← readAt prev (l+1)
    let alpha := ofNat 0
    let alpha := dotFrom alpha p0 pl
    let alpha := dotFrom alpha p1 pl1
    let beta := p0
    let beta := fun j => add (beta j) (p1 j)
    let beta := fun j => add (beta j) (pl j)
    let beta := fun j => add (beta j) (pl1 j)
    return (alpha, beta)
  else if n ≥ l + 2 then
    let pl ← readAt prev l
    let alphaupd := sub (ofNat 0) alpha
    let alphaupd := dotFrom alphaupd sample pl
    let alphaupd := mul alphaupd (div (ofNat 1) (ofNat (n - l)))
    let betaupd := sample
    let betaupd := fun j => add (betaupd j) (pl j)
    let betaupd := fun j => sub (betaupd j) (beta j)
    let betaupd := fun j => mul (betaupd j) (div (ofNat 1) (ofNat (n - l)))
    return (add alpha alphaupd, fun j => add (beta j) (betaupd j))
  else
    return (alpha, beta)

open Arith in
/-- `AutoCovarianceTrace::consume`, auto_covariance_trace.impl.h 409-510. -/
def actMachineConsume (maxLag : Nat) (s : ACTState D (Fin d)) (sample : Fin d → D) : Except Fault (ACTState D (Fin d)) :=
  if s.n = 0 then
    .ok ⟨1, sample, List.replicate (maxLag+1) (ofNat 0, fun _ => ofNat 0), sample :: s.previous⟩
  else do
    let prev := sample :: s.previous
    let lags ← (List.range (maxLag+1)).mapM (actMachineLag s.n prev sample s.lags)
    let prev := if prev.length > maxLag + 1 then prev.dropLast else prev
    let n := s.n + 1
    let update := sample
    let update := fun i => sub (update i) (s.mean i)
    let update := fun i => div (update i) (ofNat n)
    return ⟨n, fun i => add (s.mean i) (update i), lags, prev⟩

open Arith in
/-- Entry `l` of `AutoCovarianceTrace::get`, auto_covariance_trace.impl.h 523-539. -/
def actMachineGetLag (s : ACTState D (Fin d)) (l : Nat) : Except Fault D := do
  let (alpha, beta) ← readAt s.lags l
  let r := alpha
  let r := (List.finRange d).foldl (fun r j => sub r (mul (s.mean j) (beta j))) r
  let r := if s.n > l + 1 then
      (List.finRange d).foldl (fun r j =>
        add r (mul (mul (add (ofNat 1) (div (ofNat 1) (ofNat (s.n - l - 1)))) (s.mean j)) (s.mean j))) r
    else r
  return r

/-- An AutoCovarianceTrace object that has consumed `xs`.
(Repeated auto_covariance_trace.impl.h 409-510.) -/
def actMachine (maxLag : Nat) (M : Fin d → D) (xs : List (Fin d → D)) : Except Fault (ACTState D (Fin d)) :=
  xs.foldlM (actMachineConsume maxLag) (ACTState.init M)

/-- `AutoCovarianceTrace::get` after `xs`, auto_covariance_trace.impl.h 514-542. -/
def actMachineGet (maxLag : Nat) (M : Fin d → D) (xs : List (Fin d → D)) : Except Fault (List D) := do
  let s ← actMachine maxLag M xs
  (List.range (maxLag+1)).mapM (actMachineGetLag s)

end SampleFlow
