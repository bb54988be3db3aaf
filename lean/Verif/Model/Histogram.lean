import Verif.Model.Moments
import Mathlib.Algebra.Order.Field.Basic

/-!
# Histogram and PairHistogram

Interval points are elements of a linear order `D` (finite doubles); samples may also be NaN, for
which every comparison is false.  Counts are natural numbers (fewer than 2^64 samples), indices are
natural numbers (fewer than 2^32 bins).
-/

namespace SampleFlow

/-- A floating-point sample: NaN or a number.
(`InputType` of histogram.impl.h 324.) -/
inductive Fl (D : Type) where
  | nan
  | num (d : D)
deriving DecidableEq

section
variable {D : Type} [LinearOrder D]

/-- `value < point` for a double `value`.
(histogram.impl.h 331.) -/
def Fl.ltPt : Fl D → D → Bool
  | .nan, _ => false
  | .num v, p => decide (v < p)

/-- `value >= point`.
(histogram.impl.h 331, 405.) -/
def Fl.gePt : Fl D → D → Bool
  | .nan, _ => false
  | .num v, p => decide (p ≤ v)

/-- `value <= point`.
(histogram.impl.h 405.) -/
def Fl.lePt : Fl D → D → Bool
  | .nan, _ => false
  | .num v, p => decide (v ≤ p)

/-- `point < value`.
(Inside std::lower_bound, histogram.impl.h 408-409.) -/
def Fl.ptLt : D → Fl D → Bool
  | _, .nan => false
  | p, .num v => decide (p < v)

/-- The loop of `std::lower_bound` (the classical binary search of the standard library) on the
range `[first, first+len)` of a vector; the result is an index.
(Called in histogram.impl.h 408-409.) -/
def lowerBoundLoop (pts : List D) (v : Fl D) (first len : Nat) : Except Fault Nat :=
  if h : 0 < len then
    let half := len / 2
    let middle := first + half
    match pts[middle]? with
    | none => .error .ub
    | some p =>
      if Fl.ptLt p v then lowerBoundLoop pts v (middle + 1) (len - half - 1)
      else lowerBoundLoop pts v first half
  else .ok first
termination_by len

/-- `std::lower_bound(points.begin(), points.end(), value)`.
(histogram.impl.h 408-409.) -/
def lowerBound (pts : List D) (v : Fl D) : Except Fault Nat := lowerBoundLoop pts v 0 pts.length

/-- `Histogram::bin_number`, include/sampleflow/consumers/histogram.impl.h 399-419; `upper` is the
comparison with the last point in the assertion: `<=` for Histogram (line 405), `<` for
`PairHistogram::x_bin_number`, `y_bin_number` (pair_histogram.impl.h 552-600, lines 560 and 586).
`debug` tells whether assertions are enabled. -/
def binNumber (debug : Bool) (upper : Fl D → D → Bool) (pts : List D) (v : Fl D) :
    Except Fault Nat := do
  let front ← readAt pts 0
  let back ← readAt pts (pts.length - 1)
  if debug && !(v.gePt front && upper v back) then throw .assertion
  let p ← lowerBound pts v
  if p = 0 then return 0 else return p - 1

/-- Members `interval_points` and `bins` of `Histogram` (histogram.impl.h 218-224). -/
structure Hist (D : Type) where
  points : List D
  bins : List Nat

/-- `Histogram::consume`, histogram.impl.h 324-342. -/
def Hist.consume (debug : Bool) (h : Hist D) (sample : Fl D) : Except Fault (Hist D) := do
  let front ← readAt h.points 0
  let back ← readAt h.points (h.points.length - 1)
  if sample.ltPt front || sample.gePt back then return h
  let bin ← binNumber debug Fl.lePt h.points sample
  if bin < h.bins.length then return { h with bins := h.bins.modify bin (· + 1) }
  else return h

/-- One row of `Histogram::get`: left end, right end, count.
(histogram.impl.h 357-369.) -/
def Hist.row (h : Hist D) (bin : Nat) : Except Fault (D × D × Nat) := do
  let lo ← readAt h.points bin
  let hi ← readAt h.points (bin + 1)
  let c ← readAt h.bins bin
  return (lo, hi, c)

/-- `Histogram::get`, histogram.impl.h 346-372. -/
def Hist.get (h : Hist D) : Except Fault (List (D × D × Nat)) :=
  (List.range h.bins.length).mapM h.row

/-- `Histogram::write_gnuplot`, histogram.impl.h 376-395: the sequence of (x,y) pairs written, one
per line. -/
def Hist.gnuplot (h : Hist D) : Except Fault (List (D × Nat)) := do
  let rows ← h.get
  return rows.flatMap (fun r => [(r.1, r.2.2), (r.2.1, r.2.2)])

/-- A histogram `h` after consuming `xs`.
(Repeated histogram.impl.h 324-342.) -/
def histAfter (debug : Bool) (h : Hist D) (xs : List (Fl D)) : Except Fault (Hist D) :=
  xs.foldlM (Hist.consume debug) h

/-- The assertion loop in the constructors with a mapping function (histogram.impl.h 289-295):
neighbouring interval points are strictly increasing. -/
def strictlyIncreasing : List D → Bool
  | [] => true
  | [_] => true
  | a :: b :: l => decide (a < b) && strictlyIncreasing (b :: l)

/-- Members of `PairHistogram` (pair_histogram.impl.h 237-244); `bins x y` is the Eigen matrix. -/
structure PairHist (D : Type) where
  xPoints : List D
  yPoints : List D
  bins : Nat → Nat → Nat

/-- `bins.rows()`: the matrix is created with `(n_x_bins, n_y_bins)` while the vectors of points
have one more element (pair_histogram.impl.h 276-278). -/
def PairHist.rows (h : PairHist D) : Nat := h.xPoints.length - 1
/-- `bins.cols()`.
(pair_histogram.impl.h 276-278.) -/
def PairHist.cols (h : PairHist D) : Nat := h.yPoints.length - 1

/-- `PairHistogram::consume`, pair_histogram.impl.h 398-426. -/
def PairHist.consume (debug : Bool) (h : PairHist D) (sample : List (Fl D)) :
    Except Fault (PairHist D) := do
  if debug && !(sample.length = 2) then throw .assertion
  let s0 ← readAt sample 0
  let xf ← readAt h.xPoints 0
  let xb ← readAt h.xPoints (h.xPoints.length - 1)
  if s0.ltPt xf || s0.gePt xb then return h
  let s1 ← readAt sample 1
  let yf ← readAt h.yPoints 0
  let yb ← readAt h.yPoints (h.yPoints.length - 1)
  if s1.ltPt yf || s1.gePt yb then return h
  let xBin ← binNumber debug Fl.ltPt h.xPoints s0
  let yBin ← binNumber debug Fl.ltPt h.yPoints s1
  if xBin < h.rows && yBin < h.cols then
    return { h with bins := fun x y => if x = xBin ∧ y = yBin then h.bins x y + 1 else h.bins x y }
  else return h

/-- Entry for `(x_bin, y_bin)` of `PairHistogram::get`: lower left corner, upper right corner,
count.
(pair_histogram.impl.h 447-459.) -/
def PairHist.entry (h : PairHist D) (x y : Nat) : Except Fault ((D × D) × (D × D) × Nat) := do
  let xl ← readAt h.xPoints x
  let yl ← readAt h.yPoints y
  let xh ← readAt h.xPoints (x+1)
  let yh ← readAt h.yPoints (y+1)
  return ((xl, yl), (xh, yh), h.bins x y)

/-- `PairHistogram::get`, pair_histogram.impl.h 430-463: the entry for `(x_bin, y_bin)` is stored at
position `x_bin * cols + y_bin`, i.e. row by row. -/
def PairHist.get (h : PairHist D) : Except Fault (List ((D × D) × (D × D) × Nat)) := do
  let rows ← (List.range h.rows).mapM (fun x => (List.range h.cols).mapM (fun y => h.entry x y))
  return rows.flatten

/-- A pair histogram `h` after consuming `xs`.
(Repeated pair_histogram.impl.h 398-426.) -/
def pairHistAfter (debug : Bool) (h : PairHist D) (xs : List (List (Fl D))) :
    Except Fault (PairHist D) :=
  xs.foldlM (PairHist.consume debug) h

end

section Constructors
variable {K : Type} [Field K] [LinearOrder K]

/-- The interval points set up by the constructors: `min + bin*delta` for `bin < n_bins`, then `max`,
mapped by `f` (histogram.impl.h 254-261 with `f = id`, 279-286). -/
def intervalPoints (lo hi : K) (nBins : Nat) (f : K → K) : List K :=
  let delta := (hi - lo) / (nBins : K)
  (List.range nBins).map (fun bin : Nat => f (lo + (bin : K) * delta)) ++ [f hi]

/-- `Histogram(min, max, n_bins)`, histogram.impl.h 240-262 (assertions enabled). -/
def Hist.mkLinear (lo hi : K) (nBins : Nat) : Except Fault (Hist K) :=
  if lo < hi then .ok ⟨intervalPoints lo hi nBins id, List.replicate nBins 0⟩
  else .error .assertion

/-- `Histogram(min, max, n_bins, f)`, histogram.impl.h 265-296 (assertions enabled). -/
def Hist.mkMapped (lo hi : K) (nBins : Nat) (f : K → K) : Except Fault (Hist K) :=
  if lo < hi then
    if strictlyIncreasing (intervalPoints lo hi nBins f) then
      .ok ⟨intervalPoints lo hi nBins f, List.replicate nBins 0⟩
    else .error .assertion
  else .error .assertion

/-- `PairHistogram(...)`, pair_histogram.impl.h 261-300: `G` is the content of the Eigen matrix `bins`,
whose constructor `bins(n_x_bins, n_y_bins)` (line 279) leaves it uninitialised. -/
def PairHist.mkLinear (G : Nat → Nat → Nat) (xlo xhi : K) (nx : Nat) (ylo yhi : K) (ny : Nat) :
    Except Fault (PairHist K) :=
  if xlo < xhi then
    if ylo < yhi then .ok ⟨intervalPoints xlo xhi nx id, intervalPoints ylo yhi ny id, G⟩
    else .error .assertion
  else .error .assertion

/-- `PairHistogram(..., f_x, ..., f_y)`, pair_histogram.impl.h 303-365 (assertions enabled). -/
def PairHist.mkMapped (G : Nat → Nat → Nat) (xlo xhi : K) (nx : Nat) (fx : K → K) (ylo yhi : K)
    (ny : Nat) (fy : K → K) : Except Fault (PairHist K) :=
  if xlo < xhi then
    if strictlyIncreasing (intervalPoints xlo xhi nx fx) then
      if ylo < yhi then
        if strictlyIncreasing (intervalPoints ylo yhi ny fy) then
          .ok ⟨intervalPoints xlo xhi nx fx, intervalPoints ylo yhi ny fy, G⟩
        else .error .assertion
      else .error .assertion
    else .error .assertion
  else .error .assertion

end Constructors

end SampleFlow
