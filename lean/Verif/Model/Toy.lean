import Verif.Model.DifferentialEvaluation

/-!
# A small computable world for examples

Not a model of code: a world whose runs can be computed, used beside theorems to show that their premises
can be met.  Random numbers are read from a list; likelihood, proposal, and crossover are simple functions on
integers.
-/

namespace SampleFlow

/-- a toy arithmetic on integers in which everything can be computed
(For examples only; no lines in the code.) -/
@[reducible] def toyOps : FloatOps Int where
  sub := fun a b => a - b
  mul := fun a b => a * b
  div := fun a b => a / b
  exp := fun a => a
  log := fun a => a
  one := 1
  negMax := -1000
  negInf := -2000
  eq := fun a b => a == b
  lt := fun a b => decide (a < b)
  le := fun a b => decide (a ≤ b)

/-- the likelihood is `x`, the proposal `x + 1` with ratio 1, the crossover `x + a - b`; random numbers are taken from
the list that is the state
(For examples only; no lines in the code.) -/
def toyWorld {E : Type} : World (List Nat) Int Int E where
  logLikelihood := fun x w => (.ok x, w)
  propose := fun x _ w => (.ok (x + 1, 1), w)
  crossover := fun x a b w => (.ok (x + a - b), w)
  uniform := fun w => ((w.headD 0 : Nat), w.tail)
  uniformInt := fun k w => (min k (w.headD 0), w.tail)
  issue := fun _ _ w => (.ok (), w)
  flush := fun w => w

end SampleFlow
