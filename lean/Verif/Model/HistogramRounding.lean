import Verif.Model.Histogram
import Verif.Model.Rounding

/-!
# The interval points of Histogram and PairHistogram in the arithmetic of the machine
-/

namespace SampleFlow

open Arith in
/-- The interval points set up by the constructors: `min + bin*delta` for `bin < n_bins`, then `max`, mapped by `f` (include/sampleflow/consumers/histogram.impl.h 254-261 with `f = id`, 279-286;
pair_histogram.impl.h 281-300 and 326-365 for both directions).  As `intervalPoints` (Model/Histogram.lean), but every operation of the code is an operation of the machine. -/
def machinePoints {D : Type} [Arith D] (lo hi : D) (nBins : Nat) (f : D → D) : List D :=
  let delta := div (sub hi lo) (ofNat nBins)
  (List.range nBins).map (fun bin => f (add lo (mul (ofNat bin) delta))) ++ [f hi]

/-- `Histogram(min, max, n_bins)`, histogram.impl.h 240-262, and `Histogram(min, max, n_bins, f)`, histogram.impl.h 265-296, with assertions disabled. -/
def Hist.mkMachine {D : Type} [Arith D] (lo hi : D) (nBins : Nat) (f : D → D) : Hist D :=
  ⟨machinePoints lo hi nBins f, List.replicate nBins 0⟩

end SampleFlow
