import Verif.Spec.LargeNumbers

/-!
# Specification: the Metropolis-Hastings sampler computed with some machine's numbers

A machine has some type `D` of floating-point numbers with its own operations, log likelihoods and proposal ratios computed somehow, and a random
number generator that returns one of finitely many numbers, each with the same probability.  (`std::uniform_real_distribution<double>` returns multiples
of 2^-53.)  Proposals are made with probabilities `q`, as before.
-/

namespace SampleFlow.Spec

open SampleFlow MeasureTheory

/-- The machine on which the sampler runs. -/
structure Computer (S D : Type) where
  /-- the operations with floating-point numbers -/
  ops : FloatOps D
  /-- what the log likelihood function returns -/
  logLikelihood : S → D
  /-- the second part of what the proposal function returns -/
  ratio : S → S → D
  /-- how many different random numbers there are -/
  count : Nat
  count_pos : 0 < count
  /-- the random numbers -/
  random : Fin count → D

namespace Computer

variable {S D : Type} (M : Computer S D)

/-- What chance decides in one step: the proposal and two random numbers (of which none, one or both are used). -/
abbrev Chance := S × (Fin M.count × Fin M.count)

/-- The world that follows a script. -/
def world : World (List D × List M.Chance) S D Empty where
  logLikelihood := fun x w => (.ok (M.logLikelihood x), w)
  propose := fun x _ w =>
    (.ok ((w.2.head?.map Prod.fst).getD x, M.ratio x ((w.2.head?.map Prod.fst).getD x)),
      ((w.2.head?.map (fun c => [M.random c.2.1, M.random c.2.2])).getD [], w.2.tail))
  crossover := fun x _ _ w => (.ok x, w)
  uniform := fun w => (w.1.headD (M.random ⟨0, M.count_pos⟩), (w.1.tail, w.2))
  uniformInt := fun _ w => (0, w)
  issue := fun _ _ w => (.ok (), w)
  flush := fun w => w

section
variable {C : Type} (step : C → S × Aux D → C) (c : C) (start : S)

/-- The run of `MetropolisHastings::sample` with as many samples as the script has entries, with a consumer (initial
state `c`) connected to the sampler. -/
def run (script : List M.Chance) : List (Event S D) × Except Empty S × ((List D × List M.Chance) × C) :=
  @mhSample _ S D Empty (attach M.world step) M.ops start script.length (([], script), c)

/-- The samples issued. -/
def samplesIssued (script : List M.Chance) : List S := (issuedOf (M.run step c start script).1).map Prod.fst

/-- The sample at the end of the run. -/
def currentSample (script : List M.Chance) : S :=
  match (M.run step c start script).2.1 with
  | .ok y => y

/-- The state of the consumer at the end of the run. -/
def consumerState (script : List M.Chance) : C := (M.run step c start script).2.2.2

/-- The expected value of `g`, a function of the script, over the next `n` steps, given the decisions made so far: the proposal is `z` with probability
`q x z`, and all random numbers are equally probable. -/
noncomputable def expectGiven [Fintype S] (q : S → S → ℝ) (g : List M.Chance → ℝ) : Nat → List M.Chance → ℝ
  | 0, past => g past
  | n + 1, past => ∑ z, q (M.currentSample step c start past) z * ((∑ u, expectGiven q g n (past ++ [(z, u)])) / (M.count : ℝ) ^ 2)

/-- The expected value of `g`, a function of the script of `n` steps. -/
noncomputable def expected [Fintype S] (q : S → S → ℝ) (n : Nat) (g : List M.Chance → ℝ) : ℝ := M.expectGiven step c start q g n []

open Classical in
/-- The probability of an event in the first `n` steps. -/
noncomputable def probability [Fintype S] (q : S → S → ℝ) (n : Nat) (A : List M.Chance → Prop) : ℝ :=
  M.expected step c start q n (fun script => if A script then 1 else 0)

end

open Classical in
/-- The probability with which the machine accepts the proposal `z` if the current sample is `x`: the fraction of pairs of random numbers for which
the condition in `sample` is true. -/
noncomputable def acceptance (x z : S) : ℝ :=
  ((Finset.univ.filter (fun u : Fin M.count × Fin M.count =>
    (@mhAccept _ S D Empty M.world M.ops (M.logLikelihood z) (M.logLikelihood x) (M.ratio x z) ([M.random u.1, M.random u.2], [])).2.1 = .ok true)).card : ℝ) /
      (M.count : ℝ) ^ 2

end Computer

/-- The same for exact arithmetic and random numbers uniformly distributed in [0,1). -/
noncomputable def exactAcceptance {S : Type} (max : ℝ) (π : S → ℝ) (q : S → S → ℝ) (x z : S) : ℝ :=
  (volume {u : ℝ × ℝ | u ∈ unitSquare ∧
    (@mhAccept _ S XR Empty (fixedWorld (fun s => logOf (π s)) z (XR.div (.fin (q x z)) (.fin (q z x)))) (idealOps max)
      (logOf (π z)) (logOf (π x)) (XR.div (.fin (q x z)) (.fin (q z x))) [u.1, u.2]).2.1 = .ok true}).toReal

/-- The machine accepts each proposal that can be made with almost the right probability. -/
def Computer.Accurate {S D : Type} (M : Computer S D) (max : ℝ) (π : S → ℝ) (q : S → S → ℝ) (ε : ℝ) : Prop :=
  ∀ x z, 0 < q x z → |M.acceptance x z - exactAcceptance max π q x z| ≤ ε

/-- Floating-point arithmetic: the operations have a relative error of at most `δ` for numbers in the range that occurs if the log likelihoods are between `-L` and `L` and the ratios between `e^-L` and `e^L`;
comparisons are exact; infinities and NaN follow the rules of IEEE 754.  (For doubles: `δ = 2^-53` for subtraction and division, some small multiple of it for a good implementation of `std::exp` and `std::log`, `L ≤ 141`.) -/
structure Arithmetic (δ L : ℝ) (ops : FloatOps XR) : Prop where
  sub : ∀ a b : ℝ, |a| ≤ 2 * L → |b| ≤ 2 * L → ∃ r : ℝ, ops.sub (.fin a) (.fin b) = .fin r ∧ |r - (a - b)| ≤ δ * |a - b|
  exp : ∀ t : ℝ, |t| ≤ 3 * L → ∃ r : ℝ, ops.exp (.fin t) = .fin r ∧ |r - Real.exp t| ≤ δ * Real.exp t
  log : ∀ t : ℝ, Real.exp (-L) ≤ t → t ≤ Real.exp L → ∃ r : ℝ, ops.log (.fin t) = .fin r ∧ |r - Real.log t| ≤ δ * |Real.log t|
  div : ∀ a b : ℝ, Real.exp (-(4 * L)) ≤ a → a ≤ Real.exp (4 * L) → Real.exp (-L) ≤ b → b ≤ Real.exp L → ∃ r : ℝ, ops.div (.fin a) (.fin b) = .fin r ∧ |r - a / b| ≤ δ * (a / b)
  one : ops.one = .fin 1
  lt : ∀ a b : ℝ, ops.lt (.fin a) (.fin b) = true ↔ a < b
  le : ∀ a b : ℝ, ops.le (.fin a) (.fin b) = true ↔ a ≤ b
  no_marker : ∀ a : ℝ, |a| ≤ L → ops.eq (.fin a) ops.negMax = false ∧ ops.eq (.fin a) ops.negInf = false
  zero_marker : ops.eq .negInf ops.negInf = true
  sub_negInf : ∀ a : ℝ, ops.sub .negInf (.fin a) = .negInf
  sub_infinities : ops.sub .negInf .negInf = .nan
  exp_nan : ops.exp .nan = .nan
  div_nan : ∀ a : ℝ, ops.div .nan (.fin a) = .nan
  le_nan : ∀ a : ℝ, ops.le (.fin a) .nan = false
  lt_negInf : ∀ a : ℝ, ops.lt .negInf (.fin a) = true
  lt_infinities : ops.lt .negInf .negInf = false

/-- A machine with such arithmetic; the log likelihood function is computed with an absolute error of at most `η` (and returns minus infinity where the density is zero), the proposal ratios with a relative error of at
most `δ`; the random numbers are 0, 1/N, ..., (N-1)/N. -/
structure Computer.Faithful {S : Type} (M : Computer S XR) (π : S → ℝ) (q : S → S → ℝ) (δ η L : ℝ) : Prop where
  arithmetic : Arithmetic δ L M.ops
  likelihood : ∀ x, 0 < π x → ∃ l : ℝ, M.logLikelihood x = .fin l ∧ |l| ≤ L ∧ |l - Real.log (π x)| ≤ η
  zero : ∀ x, π x = 0 → M.logLikelihood x = .negInf
  ratio : ∀ x z, 0 < q x z → 0 < q z x ∧ ∃ r : ℝ, M.ratio x z = .fin r ∧ Real.exp (-L) ≤ r ∧ r ≤ Real.exp L ∧ |r - q x z / q z x| ≤ δ * (q x z / q z x)
  random : ∀ i, M.random i = .fin ((i : ℝ) / (M.count : ℝ))

/-- A `MeanValue` connected to the sampler through a `Conversion` filter that applies `f`. -/
noncomputable def Computer.meanStep {S D ι : Type} (f : S → ι → ℝ) (s : MeanState (ι → ℝ)) (m : S × Aux D) : MeanState (ι → ℝ) := s.consume (f m.1)

/-- A `Histogram` connected to the sampler through a `Conversion` filter that applies `f`. -/
noncomputable def Computer.histogramStep {S D : Type} (debug : Bool) (f : S → ℝ) (s : Except Fault (Hist ℝ)) (m : S × Aux D) : Except Fault (Hist ℝ) :=
  s.bind (fun h => h.consume debug (.num (f m.1)))

/-- A `CovarianceMatrix` connected to the sampler through a `Conversion` filter that applies `f`; `G` is uninitialised memory. -/
noncomputable def Computer.covarianceStep {S D ι : Type} (f : S → ι → ℝ) (G : ι → ι → ℝ) (s : CovState ℝ ι) (m : S × Aux D) : CovState ℝ ι :=
  s.consume G (f m.1)

end SampleFlow.Spec
