import Verif.Spec.Producers

/-!
# Specification vocabulary for the differential evaluation sampler
-/

namespace SampleFlow.Spec

open SampleFlow

variable {S D : Type}

/-- A crossover: the random numbers `a0`, `b0`, the partner chains `a`, `b`, their samples and the result. -/
structure Crossing (S : Type) where
  a0 : Nat
  b0 : Nat
  a : Nat
  b : Nat
  xa : S
  xb : S
  y : S

/-- The chains other than `chain`, in order. -/
def otherChains (nChains chain : Nat) : List Nat := (List.range nChains).filter (fun k => k != chain)

/-- How the partners of the crossover of chain number `chain` follow from the random numbers: the first one is the
`a0`-th of the other chains.  The second one should be the `b0`-th of the chains that are neither `chain` nor `a`; it
is one of the chains, and it is one of the two forbidden ones exactly if `b0 + 1` is the larger of these two; then it is this larger one. -/
def Crossing.Picked (nChains chain : Nat) (c : Crossing S) : Prop :=
  (otherChains nChains chain)[c.a0]? = some c.a ∧
  c.b < nChains ∧ ((c.b = c.a ∨ c.b = chain) ↔ c.b0 + 1 = max c.a chain) ∧
  if c.b0 + 1 = max c.a chain then c.b = max c.a chain
  else ((otherChains nChains chain).filter (fun k => k != c.a))[c.b0]? = some c.b

/-- One step of one chain: from the sample `prev`, possibly a crossover, the proposal, its ratio, the random number,
and whether the proposal was accepted. -/
structure DEMove (S D : Type) where
  prev : S
  crossing : Option (Crossing S)
  trial : S
  ratio : D
  u : D
  accepted : Bool

/-- The sample after the step. -/
def DEMove.next (m : DEMove S D) : S := if m.accepted then m.trial else m.prev

/-- The events that determine the trial sample: with crossover, the partners are chosen with two random numbers, the
three samples are combined, and the result is perturbed; otherwise the sample of the chain is perturbed. -/
def DEMove.trialEvents (nChains : Nat) (m : DEMove S D) : List (Event S D) :=
  match m.crossing with
  | some c => [.drewInt (nChains - 2) c.a0, .drewInt (nChains - 3) c.b0, .crossed m.prev c.xa c.xb c.y,
      .proposed c.y [] m.trial m.ratio]
  | none => [.proposed m.prev [] m.trial m.ratio]

/-- The first part of a step, in which the trial sample is determined, a random number is drawn and the
likelihood is evaluated. -/
def DEMove.events (L : S → D) (nChains : Nat) (m : DEMove S D) : List (Event S D) :=
  m.trialEvents nChains ++ [.drew m.u, .logLikelihood m.trial (L m.trial)]

/-- The second part of a step: the sample is issued with its own log likelihood, whether it is repeated, and the
number of the chain. -/
def DEMove.issueEvent (L : S → D) (chain : Nat) (m : DEMove S D) : Event S D :=
  .issued m.next [("relative log likelihood", .real (L m.next)), ("sample is repeated", .flag (!m.accepted)),
    ("chain number", .index chain)]

/-- The issue events of the moves of a generation, starting with chain number `chain`. -/
def issueEvents (L : S → D) : (chain : Nat) → List (DEMove S D) → List (Event S D)
  | _, [] => []
  | chain, m :: ms => m.issueEvent L chain :: issueEvents L (chain + 1) ms

/-- What happens in a generation: first all trial samples and likelihoods, then all samples are issued in the
order of the chains. -/
def generationEvents (L : S → D) (nChains : Nat) (g : List (DEMove S D)) : List (Event S D) :=
  g.flatMap (DEMove.events L nChains) ++ issueEvents L 0 g

open FloatOps in
/-- The step of chain number `chain` in generation number `gen`, where `cur` are the samples of all chains at the
end of the previous generation:
* it starts from the chain's sample of the previous generation;
* there is a crossover exactly if the generation is positive and a multiple of `gap` (or `gap` is zero);
* the crossover uses samples of the previous generation of two chains picked as described above;
* the proposal is accepted if the ratio of likelihoods divided by the proposal ratio is at least the random
  number. -/
def DEMove.Valid [FloatOps D] (L : S → D) (gap gen : Nat) (cur : List S) (chain : Nat) (m : DEMove S D) : Prop :=
  cur[chain]? = some m.prev ∧
  (m.crossing.isSome = true ↔ 0 < gen ∧ (gap = 0 ∨ gap ∣ gen)) ∧
  (∀ c, m.crossing = some c → cur[c.a]? = some c.xa ∧ cur[c.b]? = some c.xb ∧ c.Picked cur.length chain) ∧
  m.accepted = le m.u (div (exp (sub (L m.trial) (L m.prev))) m.ratio)

/-- The samples of all chains after a generation `g` (in the last generation, possibly not all chains move). -/
def advance (cur : List S) (g : List (DEMove S D)) : List S := g.map DEMove.next ++ cur.drop g.length

/-- Consecutive generations fit together: every step is valid with respect to the previous generation. -/
def GenerationsFrom [FloatOps D] (L : S → D) (gap : Nat) : (gen : Nat) → (cur : List S) → List (List (DEMove S D)) → Prop
  | _, _, [] => True
  | gen, cur, g :: gs =>
    (∀ (chain : Nat) (m : DEMove S D), g[chain]? = some m → m.Valid L gap gen cur chain) ∧
    GenerationsFrom L gap (gen + 1) (advance cur g) gs

/-- The generations before the last one have a step for every chain, the last one at most. -/
def FullButLast (nChains : Nat) : List (List (DEMove S D)) → Prop
  | [] => True
  | [g] => g.length ≤ nChains ∧ 0 < g.length
  | g :: gs => g.length = nChains ∧ FullButLast nChains gs

end SampleFlow.Spec
