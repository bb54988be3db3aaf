import Verif.Model.Histogram

/-!
# The output of `PairHistogram::write_gnuplot`
-/

namespace SampleFlow

variable {D : Type}

/-- A line of the output: empty, or a point `x y z`.
(pair_histogram.impl.h 472-548.) -/
inductive PlotLine (D : Type) where
  | blank
  | point (p : D × D × Nat)
  deriving DecidableEq

/-- One of the six statements of pair_histogram.impl.h 498-544: two points, an empty line, two points, then the string "\n\n", i.e. two empty lines. -/
def plotSurface (a b c d : D × D × Nat) : List (PlotLine D) :=
  [.point a, .point b, .blank, .point c, .point d, .blank, .blank]

/-- What is written for one bin, pair_histogram.impl.h 489-545. -/
def plotBin (bin : (D × D) × (D × D) × Nat) : List (PlotLine D) :=
  let x0 := bin.1.1
  let y0 := bin.1.2
  let x1 := bin.2.1.1
  let y1 := bin.2.1.2
  let height := bin.2.2
  -- front surface
  plotSurface (x0, y0, 0) (x1, y0, 0) (x0, y0, height) (x1, y0, height) ++
  -- back surface
  plotSurface (x0, y1, 0) (x1, y1, 0) (x0, y1, height) (x1, y1, height) ++
  -- left surface
  plotSurface (x0, y0, 0) (x0, y1, 0) (x0, y0, height) (x0, y1, height) ++
  -- right surface
  plotSurface (x1, y0, 0) (x1, y1, 0) (x1, y0, height) (x1, y1, height) ++
  -- bottom surface
  plotSurface (x0, y0, 0) (x1, y0, 0) (x1, y0, 0) (x1, y1, 0) ++
  -- top surface
  plotSurface (x0, y0, height) (x1, y0, height) (x0, y1, height) (x1, y1, height)

/-- `PairHistogram::write_gnuplot`, pair_histogram.impl.h 472-548. -/
def PairHist.writeGnuplot (h : PairHist D) : Except Fault (List (PlotLine D)) := do
  let bins ← h.get
  return bins.flatMap plotBin

end SampleFlow
