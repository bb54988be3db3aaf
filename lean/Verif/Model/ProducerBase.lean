import Verif.Model.Basic

/-!
# What all producers share: floating point numbers, the outside world, exceptions, ScopeExit

A producer's `sample` function calls functions of the user (log likelihood, proposal, crossover), draws random
numbers, issues samples and flushes consumers.  All of these are functions of a `World`: its state `W` holds
whatever is outside the `sample` function (state of the random number generator, state captured by the user's
functions, consumers).  They may throw an exception of type `E`.  Every call is recorded in a trace.
-/

universe u

namespace SampleFlow

/-- The operations on `double` used by the samplers.  No laws are assumed: theorems stated for every
`FloatOps` hold for IEEE arithmetic with its rounding, overflow and NaN.
(metropolis_hastings.impl.h 653-671, delayed_rejection_mh.impl.h 156-189, differential_evaluation_mh.impl.h 262-266.) -/
class FloatOps (D : Type) where
  sub : D → D → D
  mul : D → D → D
  div : D → D → D
  exp : D → D
  log : D → D
  one : D
  /-- `-std::numeric_limits<double>::max()` -/
  negMax : D
  /-- `-std::numeric_limits<double>::infinity()` -/
  negInf : D
  eq : D → D → Bool
  lt : D → D → Bool
  le : D → D → Bool

/-- The values of auxiliary data (`std::any`) that producers store.
(metropolis_hastings.impl.h 681-685, differential_evaluation_mh.impl.h 315-320.) -/
inductive AuxVal (D : Type) where
  | real (d : D)
  | flag (b : Bool)
  | index (n : Nat)

/-- `AuxiliaryData` (include/sampleflow/auxiliary_data.impl.h): a map from names to values.
(metropolis_hastings.impl.h 681-685.) -/
abbrev Aux (D : Type) := List (String × AuxVal D)

/-- What a `sample` function does, as seen from outside.
(The calls made in metropolis_hastings.impl.h 603-689, delayed_rejection_mh.impl.h 204-275, differential_evaluation_mh.impl.h 148-325.) -/
inductive Event (S D : Type) where
  /-- the log likelihood of `x` was evaluated (the call returned `d`) -/
  | logLikelihood (x : S) (d : D)
  /-- `propose_sample(x)` (Metropolis-Hastings; `rejected` is the second argument of the proposal function
  in the delayed rejection sampler) returned `y` and `ratio` -/
  | proposed (x : S) (rejected : List S) (y : S) (ratio : D)
  /-- `crossover(x, a, b)` returned `y` -/
  | crossed (x a b y : S)
  /-- a random number was drawn uniformly from [0,1) -/
  | drew (u : D)
  /-- a random integer was drawn uniformly from `0..n` -/
  | drewInt (n k : Nat)
  /-- `issue_sample` was called -/
  | issued (x : S) (aux : Aux D)
  /-- `flush_consumers` was called -/
  | flushed

/-- The world.
(The arguments of `sample`, metropolis_hastings.impl.h 606-609, and the random number generator, 618.) -/
structure World (W : Type u) (S D E : Type) where
  logLikelihood : S → W → Except E D × W
  propose : S → List S → W → Except E (S × D) × W
  crossover : S → S → S → W → Except E S × W
  uniform : W → D × W
  /-- `uniform_int_distribution(0,n)` -/
  uniformInt : Nat → W → Nat × W
  /-- runs the consumers connected to the producer -/
  issue : S → Aux D → W → Except E Unit × W
  /-- flushes the consumers.  Does not throw: `Consumer::flush` (consumer.impl.h 560-579) only waits. -/
  flush : W → W

/-- A piece of a `sample` function: from the state of the world to the events it causes, its result or the
exception it throws, and the new state of the world.
(Scaffolding; no lines of its own in the code.) -/
def Prog (W : Type u) (S D E α : Type) : Type u := W → List (Event S D) × Except E α × W

namespace Prog

variable {W : Type u} {S D E α β : Type}

/-- nothing happens
(Scaffolding; no lines of its own in the code.) -/
def pure (a : α) : Prog W S D E α := fun w => ([], .ok a, w)

/-- sequence; an exception skips the rest
(Scaffolding: `;` of C++.) -/
def bind (p : Prog W S D E α) (f : α → Prog W S D E β) : Prog W S D E β := fun w =>
  match p w with
  | (tr, .error e, w') => (tr, .error e, w')
  | (tr, .ok a, w') => (tr ++ (f a w').1, (f a w').2)

instance : Monad (Prog W S D E) where
  pure := Prog.pure
  bind := Prog.bind

/-- `throw` / rethrow (`std::future::get` of a task that threw)
(differential_evaluation_mh.impl.h 314.) -/
def throw (e : E) : Prog W S D E α := fun w => ([], .error e, w)

/-- `Utilities::ScopeExit` (include/sampleflow/scope_exit.impl.h 55-90) constructed at the beginning of a
function: the destructor runs `f` after the body, both on return and when an exception propagates. -/
def withScopeExit (f : W → List (Event S D) × W) (body : Prog W S D E α) : Prog W S D E α := fun w =>
  ((body w).1 ++ (f (body w).2.2).1, (body w).2.1, (f (body w).2.2).2)

end Prog

variable {W : Type u} {S D E : Type} (env : World W S D E)

/-- Call the user's log likelihood. A call that throws leaves no `logLikelihood` event.
(E.g. metropolis_hastings.impl.h 621, 632.) -/
def callLogLikelihood (x : S) : Prog W S D E D := fun w =>
  match env.logLikelihood x w with
  | (.ok d, w') => ([.logLikelihood x d], .ok d, w')
  | (.error e, w') => ([], .error e, w')

/-- Call the user's proposal function.
(E.g. metropolis_hastings.impl.h 628-630.) -/
def callPropose (x : S) (rejected : List S) : Prog W S D E (S × D) := fun w =>
  match env.propose x rejected w with
  | (.ok (y, r), w') => ([.proposed x rejected y r], .ok (y, r), w')
  | (.error e, w') => ([], .error e, w')

/-- Call the user's crossover function.
(differential_evaluation_mh.impl.h 234-239.) -/
def callCrossover (x a b : S) : Prog W S D E S := fun w =>
  match env.crossover x a b w with
  | (.ok y, w') => ([.crossed x a b y], .ok y, w')
  | (.error e, w') => ([], .error e, w')

/-- `uniform_distribution(rng)`
(metropolis_hastings.impl.h 666, 670.) -/
def draw : Prog W S D E D := fun w => ([.drew (env.uniform w).1], .ok (env.uniform w).1, (env.uniform w).2)

/-- `uniform_int_distribution(0,n)(rng)`
(differential_evaluation_mh.impl.h 214-233.) -/
def drawInt (n : Nat) : Prog W S D E Nat := fun w =>
  ([.drewInt n (env.uniformInt n w).1], .ok (env.uniformInt n w).1, (env.uniformInt n w).2)

/-- `Producer::issue_sample` (the signal, producer.impl.h 129): a consumer may throw. -/
def callIssue (x : S) (aux : Aux D) : Prog W S D E Unit := fun w =>
  ([.issued x aux], env.issue x aux w)

/-- `Producer::flush_consumers` (the signal, producer.impl.h 177) -/
def callFlush : Prog W S D E Unit := fun w => ([.flushed], .ok (), env.flush w)

/-- The lambda function given to `ScopeExit` by all producers:
`[this]() { this->flush_consumers(); }`.
(E.g. metropolis_hastings.impl.h 613-616, scope_exit.impl.h 55-90.) -/
def scopeExitFlush : W → List (Event S D) × W := fun w => ([.flushed], env.flush w)

end SampleFlow
