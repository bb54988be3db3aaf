import Verif.Model.HistogramRounding
import Verif.Model.Ieee

/-!
# Histogram with interval points that may be infinite or NaN

As Model/Histogram.lean, but the interval points and the samples are doubles with infinities and NaN, and comparisons are those of IEEE 754 (`XR.ltb`, `XR.leb`: false if an argument is NaN).
-/

namespace SampleFlow.HistDouble

/-- The loop of `std::lower_bound` on the range `[first, first+len)` of `interval_points`.
(Called in histogram.impl.h 408-409.) -/
noncomputable def lowerBoundLoop (pts : List XR) (v : XR) (first len : Nat) : Except Fault Nat :=
  if _h : 0 < len then
    let half := len / 2
    let middle := first + half
    match pts[middle]? with
    | none => .error .ub
    | some p =>
      if XR.ltb p v then lowerBoundLoop pts v (middle + 1) (len - half - 1)
      else lowerBoundLoop pts v first half
  else .ok first
termination_by len

/-- `Histogram::bin_number`, include/sampleflow/consumers/histogram.impl.h 399-419. -/
noncomputable def binNumber (debug : Bool) (pts : List XR) (v : XR) : Except Fault Nat := do
  let front ← readAt pts 0
  let back ← readAt pts (pts.length - 1)
  if debug && !(XR.leb front v && XR.leb v back) then throw .assertion
  let p ← lowerBoundLoop pts v 0 pts.length
  if p = 0 then return 0 else return p - 1

/-- `Histogram::consume`, histogram.impl.h 324-342. -/
noncomputable def consume (debug : Bool) (h : Hist XR) (sample : XR) : Except Fault (Hist XR) := do
  let front ← readAt h.points 0
  let back ← readAt h.points (h.points.length - 1)
  if XR.ltb sample front || XR.leb back sample then return h
  let bin ← binNumber debug h.points sample
  if bin < h.bins.length then return { h with bins := h.bins.modify bin (· + 1) }
  else return h

/-- One row of `Histogram::get`: left end, right end, count.
(histogram.impl.h 357-369.) -/
noncomputable def row (h : Hist XR) (bin : Nat) : Except Fault (XR × XR × Nat) := do
  let lo ← readAt h.points bin
  let hi ← readAt h.points (bin + 1)
  let c ← readAt h.bins bin
  return (lo, hi, c)

/-- `Histogram::get`, histogram.impl.h 346-372. -/
noncomputable def get (h : Hist XR) : Except Fault (List (XR × XR × Nat)) :=
  (List.range h.bins.length).mapM (row h)

/-- A histogram `h` after consuming `xs`.
(Repeated histogram.impl.h 324-342.) -/
noncomputable def after (debug : Bool) (h : Hist XR) (xs : List XR) : Except Fault (Hist XR) :=
  xs.foldlM (consume debug) h

end SampleFlow.HistDouble
