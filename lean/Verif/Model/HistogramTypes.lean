import Verif.Model.Histogram

/-!
# Histogram and PairHistogram for other sample types than double

The interval points are doubles (`D`), the samples of an arithmetic type.  In `sample < interval_points.front()` (histogram.impl.h 331, pair_histogram.impl.h 409-411) both sides are converted to their common type `C`:
`long double` if samples are `long double`, otherwise `double`.  `emb : D → C` is this conversion for the interval points, which is exact.  The samples below are given after their conversion to `C`.  `bin_number` has an
argument of type `double` (histogram.impl.h 403): the sample is converted again, `toDouble : C → D`, which may round.
-/

namespace SampleFlow

section
variable {C D : Type} [LinearOrder C] [LinearOrder D]

/-- conversion of a sample; NaN stays NaN
(The argument of `bin_number(const double value)`, histogram.impl.h 335, 399-403.) -/
def Fl.convert (f : C → D) : Fl C → Fl D
  | .nan => .nan
  | .num c => .num (f c)

/-- `Histogram::consume`, histogram.impl.h 324-342. -/
def Hist.consumeAs (emb : D → C) (toDouble : C → D) (debug : Bool) (h : Hist D) (sample : Fl C) : Except Fault (Hist D) := do
  let front ← readAt h.points 0
  let back ← readAt h.points (h.points.length - 1)
  if sample.ltPt (emb front) || sample.gePt (emb back) then return h
  let bin ← binNumber debug Fl.lePt h.points (sample.convert toDouble)
  if bin < h.bins.length then return { h with bins := h.bins.modify bin (· + 1) }
  else return h

/-- A histogram `h` after consuming `xs`.
(Repeated histogram.impl.h 324-342.) -/
def histAfterAs (emb : D → C) (toDouble : C → D) (debug : Bool) (h : Hist D) (xs : List (Fl C)) : Except Fault (Hist D) :=
  xs.foldlM (Hist.consumeAs emb toDouble debug) h

/-- `PairHistogram::consume`, pair_histogram.impl.h 398-426. -/
def PairHist.consumeAs (emb : D → C) (toDouble : C → D) (debug : Bool) (h : PairHist D) (sample : List (Fl C)) : Except Fault (PairHist D) := do
  if debug && !(sample.length = 2) then throw .assertion
  let s0 ← readAt sample 0
  let xf ← readAt h.xPoints 0
  let xb ← readAt h.xPoints (h.xPoints.length - 1)
  if s0.ltPt (emb xf) || s0.gePt (emb xb) then return h
  let s1 ← readAt sample 1
  let yf ← readAt h.yPoints 0
  let yb ← readAt h.yPoints (h.yPoints.length - 1)
  if s1.ltPt (emb yf) || s1.gePt (emb yb) then return h
  let xBin ← binNumber debug Fl.ltPt h.xPoints (s0.convert toDouble)
  let yBin ← binNumber debug Fl.ltPt h.yPoints (s1.convert toDouble)
  if xBin < h.rows && yBin < h.cols then
    return { h with bins := fun x y => if x = xBin ∧ y = yBin then h.bins x y + 1 else h.bins x y }
  else return h

/-- A pair histogram `h` after consuming `xs`.
(Repeated pair_histogram.impl.h 398-426.) -/
def pairHistAfterAs (emb : D → C) (toDouble : C → D) (debug : Bool) (h : PairHist D) (xs : List (List (Fl C))) : Except Fault (PairHist D) :=
  xs.foldlM (PairHist.consumeAs emb toDouble debug) h

end

end SampleFlow
