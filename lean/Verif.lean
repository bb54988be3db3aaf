import Verif.Model.Basic
import Verif.Model.Filters
import Verif.Spec.Streams
import Verif.Proofs.Filters
import Verif.Props.Filters
import Verif.Model.Moments
import Verif.Spec.Statistics
import Verif.Proofs.Moments
import Verif.Proofs.AutoCov
import Verif.Props.Moments
import Verif.Model.SimpleConsumers
import Verif.Spec.Sequences
import Verif.Proofs.SimpleConsumers
import Verif.Props.SimpleConsumers
import Verif.Model.Histogram
import Verif.Spec.Bins
import Verif.Proofs.Histogram
import Verif.Props.Histogram
import Verif.Props.OrderIndependence
import Verif.Model.IntMean
import Verif.Props.IntMean
import Verif.Model.Network
import Verif.Spec.Network
import Verif.Proofs.Network
import Verif.Props.Network
import Verif.Model.Chains
import Verif.Spec.Chains
import Verif.Props.Chains
import Verif.Model.Lifecycle
import Verif.Spec.Lifecycle
import Verif.Proofs.Lifecycle
import Verif.Props.Lifecycle
import Verif.Model.AsyncNet
import Verif.Spec.AsyncNet
import Verif.Proofs.AsyncNet
import Verif.Proofs.AsyncCount
import Verif.Proofs.AsyncProgress
import Verif.Props.AsyncNet
import Verif.Model.Disconnect
import Verif.Proofs.Disconnect
import Verif.Props.Disconnect
import Verif.Model.Mutex
import Verif.Spec.Mutex
import Verif.Proofs.Mutex
import Verif.Model.MutexObjects
import Verif.Proofs.MutexObjects
import Verif.Props.Mutex
import Verif.Model.ProducerBase
import Verif.Model.Producers
import Verif.Spec.Producers
import Verif.Proofs.Producers
import Verif.Proofs.MHChain
import Verif.Proofs.Flush
import Verif.Props.Metropolis
import Verif.Model.IdealDouble
import Verif.Spec.MarkovChain
import Verif.Proofs.MarkovChain
import Verif.Props.MarkovChain
import Verif.Proofs.DelayedRejection
import Verif.Spec.DelayedChain
import Verif.Props.DelayedRejection
import Verif.Proofs.DelayedChain
import Verif.Props.DelayedChain
import Verif.Model.DifferentialEvaluation
import Verif.Spec.DifferentialEvaluation
import Verif.Proofs.DifferentialEvaluation
import Verif.Proofs.DESafe
import Verif.Model.Toy
import Verif.Props.DifferentialEvaluation
import Verif.Model.DEAsync
import Verif.Spec.DEAsync
import Verif.Proofs.DEAsync
import Verif.Props.DEAsync
import Verif.Model.EndToEnd
import Verif.Proofs.EndToEnd
import Verif.Props.EndToEnd
import Verif.Spec.Cost
import Verif.Proofs.Cost
import Verif.Props.Cost
import Verif.Model.MutexMore
import Verif.Proofs.MutexMore
import Verif.Props.MutexMore

import Verif.Proofs.AsyncCut
import Verif.Props.AsyncStatistics
import Verif.Spec.Nan
import Verif.Props.Nan
import Verif.Props.ZeroProbability
import Verif.Model.ExcNetwork
import Verif.Spec.ExcNetwork
import Verif.Proofs.ExcNetwork
import Verif.Props.ExcNetwork
import Verif.Spec.GeneralChain
import Verif.Proofs.GeneralChain
import Verif.Props.GeneralChain
import Verif.Proofs.Ergodic
import Verif.Spec.LargeNumbers
import Verif.Proofs.LargeNumbers
import Verif.Props.LargeNumbers
import Verif.Model.Rounding
import Verif.Spec.Rounding
import Verif.Proofs.Rounding
import Verif.Proofs.RoundingCov
import Verif.Proofs.Nearest
import Verif.Props.Rounding
import Verif.Proofs.Thinning
import Verif.Props.Thinning
import Verif.Spec.DEChain
import Verif.Proofs.DEChain
import Verif.Proofs.DEAverage
import Verif.Proofs.DEKernel
import Verif.Props.DEChain
import Verif.Props.DECrossover
import Verif.Model.Temporaries
import Verif.Spec.Temporaries
import Verif.Proofs.Temporaries
import Verif.Props.Temporaries
import Verif.Model.AsyncExc
import Verif.Spec.AsyncExc
import Verif.Proofs.AsyncExc
import Verif.Props.AsyncExc
import Verif.Model.Gnuplot
import Verif.Spec.Gnuplot
import Verif.Props.Gnuplot
import Verif.Model.Adaptive
import Verif.Spec.Adaptive
import Verif.Proofs.Adaptive
import Verif.Props.Adaptive
import Verif.Spec.NanMoments
import Verif.Props.NanMoments
import Verif.Proofs.Doeblin
import Verif.Spec.GeneralNumbers
import Verif.Proofs.GeneralNumbers
import Verif.Props.GeneralNumbers
import Verif.Model.HistogramRounding
import Verif.Spec.HistogramRounding
import Verif.Proofs.HistogramRounding
import Verif.Props.HistogramRounding
import Verif.Model.CopyHistogram
import Verif.Props.CopyHistogram
import Verif.Proofs.StrongLaw
import Verif.Proofs.StrongFinite
import Verif.Proofs.StrongGeneral
import Verif.Props.StrongLaw
import Verif.Spec.DelayedNumbers
import Verif.Proofs.DelayedNumbers
import Verif.Proofs.StrongPath
import Verif.Props.DelayedNumbers
import Verif.Spec.AsyncOrder
import Verif.Proofs.AsyncOrder
import Verif.Props.AsyncOrder
import Verif.Model.Dimension
import Verif.Spec.Dimension
import Verif.Proofs.Dimension
import Verif.Props.Dimension
import Verif.Proofs.AsyncQueue
import Verif.Props.AsyncQueue
import Verif.Proofs.DENumbers
import Verif.Props.DENumbers
import Verif.Model.ExcProducers
import Verif.Spec.ExcProducers
import Verif.Proofs.ExcProducers
import Verif.Props.ExcProducers
import Verif.Proofs.IdealDouble
import Verif.Model.Connect
import Verif.Proofs.Connect
import Verif.Props.Connect
import Verif.Spec.LagNumbers
import Verif.Proofs.LagErgodic
import Verif.Proofs.LagCovariance
import Verif.Props.LagNumbers
import Verif.Model.RoundingAuto
import Verif.Proofs.RoundingAuto
import Verif.Proofs.RoundingAutoExamples
import Verif.Props.RoundingAuto
import Verif.Proofs.ConnectProgress
import Verif.Model.DimensionCos
import Verif.Proofs.DimensionCos
import Verif.Props.DimensionCos
import Verif.Proofs.StrongLag
import Verif.Props.StrongLag
import Verif.Model.Reentrant
import Verif.Spec.Reentrant
import Verif.Proofs.Reentrant
import Verif.Props.Reentrant
import Verif.Spec.Equilibrium
import Verif.Proofs.Equilibrium
import Verif.Props.Equilibrium
import Verif.Model.Locks
import Verif.Spec.Locks
import Verif.Proofs.Locks
import Verif.Props.Locks
import Verif.Model.Races
import Verif.Spec.Races
import Verif.Proofs.Races
import Verif.Props.Races
import Verif.Spec.AsyncNumbers
import Verif.Props.AsyncNumbers
import Verif.Model.Ieee
import Verif.Spec.Ieee
import Verif.Proofs.Ieee
import Verif.Props.Ieee
import Verif.Props.IeeeDouble
import Verif.Model.HistogramTypes
import Verif.Spec.HistogramTypes
import Verif.Proofs.HistogramTypes
import Verif.Props.HistogramTypes
import Verif.Model.RoundingCos
import Verif.Proofs.RoundingCos
import Verif.Props.RoundingCos
import Verif.Model.RoundingAutoMatrix
import Verif.Proofs.RoundingAutoMatrix
import Verif.Proofs.RoundingAutoMatrixExamples
import Verif.Props.RoundingAutoMatrix
import Verif.Proofs.NanAuto
import Verif.Proofs.AutoFinite
import Verif.Props.NanAuto
import Verif.Proofs.AutoFiniteTrace
import Verif.Proofs.NearestDouble
import Verif.Model.GraphNet
import Verif.Spec.GraphNet
import Verif.Proofs.GraphNet
import Verif.Proofs.GraphPaths
import Verif.Props.GraphNet
import Verif.Props.OrderDependence
import Verif.Props.MomentsComplex
import Verif.Props.ZeroEncodings
import Verif.Proofs.HistogramDouble
import Verif.Model.HistogramDouble
import Verif.Proofs.HistogramDoubleRun
import Verif.Props.HistogramDouble
import Verif.Props.StrongCovariance
import Verif.Props.DelayedCovariance
import Verif.Spec.Inexact
import Verif.Proofs.Perturbed
import Verif.Proofs.Inexact
import Verif.Proofs.InexactAccuracy
import Verif.Props.Inexact
import Verif.Props.InexactExamples
import Verif.Model.PairHistogramWords
import Verif.Props.PairHistogramWords
import Verif.Props.InexactConsumers
import Verif.Proofs.IeeeAccuracy
import Verif.Proofs.IeeeAccuracyCov
import Verif.Proofs.IeeeBridge
import Verif.Props.IeeeAccuracy
import Verif.Model.IntCov
import Verif.Props.IntCov
import Verif.Model.IeeeOps
import Verif.Props.IeeeDelayed
import Verif.Props.IeeeMetropolis
import Verif.Model.DEWords
import Verif.Props.DEWords
import Verif.Props.IeeeDE
