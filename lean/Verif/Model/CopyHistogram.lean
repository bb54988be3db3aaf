import Verif.Model.MutexObjects
import Verif.Model.Histogram
import Verif.Model.Filters

/-!
# Copy constructors of Histogram, PairHistogram and ComponentSplitter
-/

namespace SampleFlow

/-- `Histogram(const Histogram &o)`, include/sampleflow/consumers/histogram.impl.h 301-311, executed alone: `interval_points(o.interval_points), bins(o.bins)`.  The base class is constructed anew, the copy is not connected. -/
def Hist.copy {D : Type} (o : Hist D) : Hist D := ⟨o.points, o.bins⟩

/-- `PairHistogram(const PairHistogram &o)`, include/sampleflow/consumers/pair_histogram.impl.h 373-384, executed alone. -/
def PairHist.copy {D : Type} (o : PairHist D) : PairHist D := ⟨o.xPoints, o.yPoints, o.bins⟩

namespace Mutex

/-- The object that is copied, with the threads that call its functions, and the part of the vector `bins` of the copy that has been filled already.
(histogram.impl.h 303-311, pair_histogram.impl.h 374-384.) -/
structure CopyState (σ Op R : Type) where
  original : State σ Op R
  copied : List Nat

/-- `bins(o.bins)` in the copy constructor (histogram.impl.h 309) while other threads call `consume` and `get` of the original.  The elements are copied one after the other (the order of `std::vector`'s copy constructor), each read is taken to
be atomic (C++ promises nothing at all here: it is a data race).  No mutex is locked. -/
inductive CopyStep (nBins : Nat) (s : CopyState (List Nat) (ConsumerCall (Option Nat)) (Nat × List Nat)) : CopyState (List Nat) (ConsumerCall (Option Nat)) (Nat × List Nat) → Prop
  /-- a step of a thread that uses the original -/
  | original (o' : State (List Nat) (ConsumerCall (Option Nat)) (Nat × List Nat)) (h : Step (binsObject nBins) s.original o') : CopyStep nBins s { s with original := o' }
  /-- the copy constructor reads the next element -/
  | read (h : s.copied.length < nBins) : CopyStep nBins s { s with copied := s.copied ++ [s.original.members.getD s.copied.length 0] }

end Mutex

end SampleFlow
