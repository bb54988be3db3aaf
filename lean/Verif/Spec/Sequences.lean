import Verif.Spec.Statistics
import Verif.Model.SimpleConsumers
import Mathlib.Geometry.Euclidean.Angle.Unoriented.Basic
import Mathlib.Analysis.InnerProductSpace.PiL2

/-!
# Specification vocabulary for the simple consumers

From the model only the data types of the messages are used. The angle between two vectors is
Mathlib's.
-/

namespace SampleFlow.Spec

/-- The (sample, likelihood) pairs among the messages. -/
def llVals {S D : Type} : List (S × LLEntry D) → List (S × D)
  | [] => []
  | (s, .val d) :: xs => (s, d) :: llVals xs
  | _ :: xs => llVals xs

/-- number of samples that are not equal to the one before them -/
def changes {α : Type} (eq : α → α → Bool) (xs : List α) : Nat :=
  (lagPairs 1 xs).countP (fun p => !eq p.1 p.2)

/-- the cosine of the angle between two vectors of Euclidean space (Mathlib's angle) -/
noncomputable def cosAngle {ι : Type} [Fintype ι] (x y : ι → ℝ) : ℝ :=
  Real.cos (InnerProductGeometry.angle (WithLp.toLp 2 x : EuclideanSpace ℝ ι) (WithLp.toLp 2 y))

/-- mean of the cosines at lag `l` -/
noncomputable def avgCosSpec {ι : Type} [Fintype ι] (l : Nat) (xs : List (ι → ℝ)) : ℝ :=
  mean ((lagPairs l xs).map (fun p => cosAngle p.1 p.2))

/-- Split a text into the pieces that are terminated by `c`. A trailing unterminated piece is kept. -/
def splitTerm (c : Char) : List Char → List (List Char)
  | [] => []
  | a :: as =>
    if a = c then [] :: splitTerm c as
    else match splitTerm c as with
      | [] => [[a]]
      | w :: ws => (a :: w) :: ws

end SampleFlow.Spec
