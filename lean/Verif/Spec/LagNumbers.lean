import Verif.Spec.LargeNumbers
import Verif.Model.Moments
import Verif.Model.SimpleConsumers

/-!
# Specification: what consumers that look at successive samples should converge to

Runs, expected values and probabilities are those of Spec/LargeNumbers.lean.
-/

namespace SampleFlow.Spec

open SampleFlow

section
variable {S : Type} (max : ℝ) (π : S → ℝ) (q : S → S → ℝ)

/-- The expected value of `g x y`, where `x` is distributed according to the target distribution and `y` is the sample `l` steps after `x` in a run of
`MetropolisHastings::sample` that starts at `x` (and to which nothing is connected). -/
noncomputable def stationaryLag [Fintype S] (l : Nat) (g : S → S → ℝ) : ℝ :=
  (∑ x, π x * expected max π q (fun _ _ => ()) () x l (fun script => g x (currentSample max π q (fun _ _ => ()) () x script))) / ∑ x, π x

end

/-- An `AcceptanceRatio` connected to the sampler; `eq` is its comparison of samples. -/
def ratioStep {S : Type} (eq : S → S → Bool) (s : ARState S) (m : S × Aux XR) : ARState S := s.consume eq m.1

/-- An `AverageCosineBetweenSuccessiveSamples` connected to the sampler through a `Conversion` filter that applies `f`. -/
noncomputable def cosineStep {S ι : Type} [Fintype ι] (bits H : Nat) (G1 G2 : Nat → ι → ℝ) (f : S → ι → ℝ)
    (s : Except Fault (CosState ι)) (m : S × Aux XR) : Except Fault (CosState ι) :=
  s.bind (fun s => s.consume bits H G1 G2 (f m.1))

/-- An `AutoCovarianceTrace` connected to the sampler through a `Conversion` filter that applies `f`. -/
noncomputable def traceStep {S ι : Type} [Fintype ι] (maxLag : Nat) (f : S → ι → ℝ) (s : Except Fault (ACTState ℝ ι)) (m : S × Aux XR) :
    Except Fault (ACTState ℝ ι) :=
  s.bind (fun s => s.consume maxLag (f m.1))

/-- An `AutoCovarianceMatrix` connected to the sampler through a `Conversion` filter that applies `f`; `G` is uninitialised memory. -/
noncomputable def matrixStep {S ι : Type} (maxLag : Nat) (G : Nat → ι → ι → ℝ) (f : S → ι → ℝ) (s : Except Fault (ACMState ℝ ι)) (m : S × Aux XR) :
    Except Fault (ACMState ℝ ι) :=
  s.bind (fun s => s.consume maxLag G (f m.1))

/-- Entry `l` of the vector that a function returned (0 if it failed or if there is no such entry). -/
noncomputable def entry (r : Except Fault (List ℝ)) (l : Nat) : ℝ :=
  match r with
  | .ok rs => rs[l]?.getD 0
  | .error _ => 0

/-- Entry `(i,j)` of matrix `l` of the vector of matrices that a function returned (0 if it failed or if there is no such matrix). -/
noncomputable def matrixEntry {ι : Type} (r : Except Fault (List (ι → ι → ℝ))) (l : Nat) (i j : ι) : ℝ :=
  match r with
  | .ok rs => (rs[l]?.map (fun m => m i j)).getD 0
  | .error _ => 0

/-- Entry `i` of the averages that an `AverageCosineBetweenSuccessiveSamples` object holds (0 if it failed). -/
noncomputable def cosineEntry {ι : Type} (s : Except Fault (CosState ι)) (i : Nat) : ℝ :=
  match s with
  | .ok s => s.avg i
  | .error _ => 0

end SampleFlow.Spec
