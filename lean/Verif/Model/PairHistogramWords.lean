import Verif.Model.Histogram

/-!
# Model: `PairHistogram::get` with an index of type `unsigned int`

`Model/Histogram.lean` describes the result of `PairHistogram::get` as a list; here are the two loops that fill the result, with the index computed as the program does.
-/

namespace SampleFlow

/-- An element of the result of `PairHistogram::get` (pair_histogram.impl.h 83): lower left corner, upper right corner, count. -/
abbrev PairRow (D : Type) := (D × D) × (D × D) × Nat

/-- `return_value[i]` as the left side of an assignment: undefined behaviour if there is no element `i`.
(pair_histogram.impl.h 448-449, 459.) -/
def writeAt {X : Type} (l : List X) (i : Nat) (f : X → X) : Except Fault (List X) :=
  if i < l.length then .ok (l.modify i f) else .error .ub

namespace PairHist

/-- The index, pair_histogram.impl.h 447 and 458: `x_bin * bins.cols() + y_bin` is computed with 64 bits (`bins.cols()` is an `Eigen::Index`) and converted to
`unsigned int`, a type with `W` values. -/
def index {D : Type} (W : Nat) (h : PairHist D) (x y : Nat) : Nat := (x * h.cols + y) % W

/-- First loop, pair_histogram.impl.h 444-450, body: the corners. -/
def writeCorners {D : Type} (W : Nat) (h : PairHist D) (x y : Nat) (l : List (PairRow D)) : Except Fault (List (PairRow D)) := do
  let xl ← readAt h.xPoints x
  let yl ← readAt h.yPoints y
  let xh ← readAt h.xPoints (x + 1)
  let yh ← readAt h.yPoints (y + 1)
  writeAt l (h.index W x y) (fun r => ((xl, yl), (xh, yh), r.2.2))

/-- Second loop, pair_histogram.impl.h 455-460, body: the counts. -/
def writeCount {D : Type} (W : Nat) (h : PairHist D) (x y : Nat) (l : List (PairRow D)) : Except Fault (List (PairRow D)) :=
  writeAt l (h.index W x y) (fun r => (r.1, r.2.1, h.bins x y))

/-- Two nested loops over all bins.
(pair_histogram.impl.h 444-445, 455-456.) -/
def loopBins {D X : Type} (h : PairHist D) (body : Nat → Nat → X → Except Fault X) (a : X) : Except Fault X :=
  (List.range h.rows).foldlM (fun a x => (List.range h.cols).foldlM (fun a y => body x y a) a) a

/-- `PairHistogram::get`, pair_histogram.impl.h 430-463; the result is created with `rows * cols` elements that are all zero (line 442).  `bins.rows()` and `bins.cols()` are at most
`W - 1` because the constructors get them as `unsigned int`, so that the loop variables do not overflow. -/
def getWords {D : Type} (W : Nat) (zero : D) (h : PairHist D) : Except Fault (List (PairRow D)) := do
  let l ← h.loopBins (h.writeCorners W) (List.replicate (h.rows * h.cols) ((zero, zero), (zero, zero), 0))
  h.loopBins (h.writeCount W) l

end PairHist
end SampleFlow
