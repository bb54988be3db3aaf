# Formal model of SampleFlow in Lean 4 - design

## 1. What is here

* `properties.jsonl` - the property list (C01...).
* `lean/Verif/Model/*` - the model: one definition per function of the code, each citing file and lines in /repo.
* `lean/Verif/Spec/*` - small independent specifications (mean, covariance, bins, ...).
* `lean/Verif/Proofs/*` - helper lemmas.
* `lean/Verif/Props/*` - the property theorems, one file per topic, each with non-vacuity examples.
* `MANIFEST.json` - property -> theorems. `seeded/LOG.jsonl` - wrong-program experiments.

## 2. Trusted base

* Lean 4.33.0's kernel; Mathlib as a library (its theorems are kernel checked).
* Axioms: at most `propext`, `Classical.choice`, `Quot.sound`. No own axioms, no compiled evaluation.
* The reading of the C++ text. The code is not run; every model definition cites the lines it models.
* Assumed external behaviour
  - `boost::signals2`: slots are called in connection order; a disconnected slot is not called, a slot
    connected while the signal is being called is not called before the next call; a call to a signal returns after its slots have returned; a slot's exception propagates to the caller of the signal.
  - `std::async(launch::async)`: starts a task that runs to completion at some time; the future becomes ready then;
    `wait` returns only when it is ready. `std::mutex` gives mutual exclusion.
  - memory model: sequential consistency at the granularity of the steps of the concurrent models (all shared data
    is protected by mutexes; the exceptions are findings).
  - `std::lower_bound` (modelled as the binary search, proved to find the partition point).
  - Floating point: consumers' numerical identities are in exact arithmetic (a field); producers' control logic is
    proved for *arbitrary* (law-free) floating-point operations where possible; analytic properties use an idealised
    double `nan | -inf | +inf | finite real`.
  - uninitialised memory: an arbitrary value (a universally quantified parameter).

## 3. Undefined behaviour and failed assertions

Partial operations return `Except Fault _`; `Fault` distinguishes failed assertion, undefined behaviour and
exceptions thrown by user code.

## 4. Plan per property

| id | model | proof |
|---|---|---|
| C01,C02 | filters as step functions on `UInt64` counters | invariant over stream position |
| C03,C04 | step functions; ComponentSplitter with fault outcome | list induction |
| C05 | runs of two filters in sequence | from C01/C02 characterisations |
| C06,C07 | tree of stateful nodes, recursive delivery function with global event log | induction on trees and streams |
| C08 | expression trees over leaf elements, constructor connects | induction on trees |
| C09,C10,C11 | state machine of signals (slot lists) and multimaps | invariant over histories |
| C12-C15 | small-step interleaving semantics over an acyclic network with tasks and background queues | invariants, measure |
| C16 | the same model | negation: executions with any number of tasks; what holds: counting invariant, queue length ≤ samples sent (Proofs/AsyncQueue) |
| C17,C18 | lock-level small-step model of sender/worker/disconnect/destroy | invariant; witness trace for C18 |
| C19,C20 | generic mutex-protected critical section; every consumer/filter with a mutex is an instance, its critical section split into the single reads and writes of its members (MeanValue, CovarianceMatrix, Histogram, TakeEveryNth, LastSample, AcceptanceRatio, MaximumProbabilitySample, StreamOutput) or into one read of all and one write of all members (AutoCovariance*, AverageCosinus, PairHistogram, DiscardFirstN) | invariant -> permutation |
| C21-C27 | one-pass updates over a field / vector components, arbitrary initial memory | algebraic invariants (induction on samples) |
| C28,C29 | one-pass update with window | invariants |
| C30-C32 | binary search on points, counts | sorted list reasoning |
| C33-C35 | folds | induction |
| C36-C41,C44,C48,C51 | loop in a state+exception monad with arbitrary environment and arbitrary float operations | induction on the number of steps |
| C42,C43,C45-C47 | idealised doubles over the reals, measure of the set of accepted draws | calculus-free real algebra |
| C42 (general state spaces) | Spec.GeneralChain: expected value over proposal density and uniform random numbers of the result of the modelled `sample()` | symmetry of the flow between two states, Tonelli, induction over the number of steps |
| C49 | index selection over Nat | omega; exact characterisation of collisions (finding) |
| C50 | tasks with disjoint writes, any interleaving | commutation/invariant |
| C52 | 32/64-bit machine integers | concrete witness (finding) |
| C53 | world of a producer extended by the state of a consumer; a logical relation over all programs | consumer state = fold over issued samples for every run; corollaries |
| C54 | same model as C17/C18 | invariant, progress, decreasing measure |
| C55 | small-step model of main thread and tasks, any schedule, any launch policy | invariant, progress, lexicographic measure |
| C56 | the same, with the set of memory accesses of every step | invariant on phases: writers are only active tasks with distinct indices |
| C57 | trace of calls of the user's functions | upper bound for every run compositionally over programs; exact lists from the traces of C38, C44, C51 |
| C58 | AsyncNet | a run stopped after a return of `sample()` is a finished run of the calls made so far (cutting off the rest of the program); C13 + C22 |
| C59 | samplers over abstract arithmetic with the rules of NaN (`Spec.NanRules`: satisfied by the extended reals and by a toy arithmetic) | invariant along the moves of C38, C44, C51; induction over `alpha_fn` |
| C60 | samplers over extended reals | invariant under the premise that no random number is zero; runs with the random number zero as witnesses (finding) |
| C61 | ExcNetwork: networks of components that may throw; ExcProducers: such a network connected to each of the producers | induction over the tree for one sample, over the samples for a run; order of calls as an order of paths; for the producers an invariant of all parts of `sample()`: the network is in the state after the samples issued, and an exception of the network is the result |
| C62 | a run of `sample` in a world that follows a script of proposals and random numbers; probabilities of scripts given step by step; consumers attached (EndToEnd) | the run is a Markov chain with the transition probabilities of C42; law of large numbers in mean square by the Poisson equation (solvable by a dimension argument) and the martingale it gives; geometric convergence by contraction of the oscillation |
| C63 | MeanValue and CovarianceMatrix over an abstract arithmetic `Arith`, every operation of the code one operation; instance: real numbers with a rounding function `fl` after every operation | one update stays between the old mean and the sample; error recursions for `n * error`; rounding to nearest with p bits shown to be such an `fl` |
| C64 | the same, content of the uninitialised matrix as a parameter | equality after the second sample if the subtraction is exact; witnesses for doubles (`nearest 53`) and for any arithmetic with NaN (finding) |
| C65 | `behindFilter`: a consumer behind a filter as the consumer of C62 | variances of samples at chosen positions: covariances decay geometrically, so any N positions give K/N |
| C66 | finite sets; `deExpected`: expected value over all random numbers of a function of the issued messages (Spec/DEChain); partner indices `⌊v (k+1)⌋` | average of a generation = product of kernels without crossover; each kernel is that of C42; product measure invariant |
| C67 | the same with the generation with crossover | involution on (states, proposal) exchanging the partners: reversibility on average, if both partners differ from the chain; witness with two states and three chains (finding) |
| C68 | the operations `operator>>` performs on objects (moves, connections, destructors) generated from the expression with its named and temporary operands, run on Model/Lifecycle | abstraction to numbers of connections and existing objects; induction over the expression for evaluation, destruction of moved-from temporaries and destruction of the chain; composed with arbitrary legal histories before and after. The statement with temporaries that leaves the consumer unconnected is what tests/connections_03.cc expects |
| C69 | Model/AsyncNet with one more rule: a consumer or filter throws, the pending actions up to the flush of `scope_exit` are skipped (in a task: all), the exception is reported if the thread is a user's | invariant of C12-C15 preserved by the rule; decreasing weight; counting inequality; equality of executions with the network that discards instead of throwing; thrown = reported by induction over executions |
| C70 | `write_gnuplot` as list of lines, read back by a specification of gnuplot's file format | induction over the bins; the bottom face is wrong (finding) |
| C71 | samplers with user functions that read the state of a synchronous consumer (`attachSeen`) | invariant over the run of each sampler: calls see the fold of `consume` over the samples issued before; alternation of proposals and samples |
| C72 | Model/Rounding (arbitrary arithmetic) with the rule that operations propagate NaN | induction over the samples; projection to components commutes with `consume` |
| C73 | Spec.GeneralNumbers: expected values over the proposals (with densities) and random numbers of runs of the modelled `sample()` with an attached consumer; Proofs/Doeblin: Markov kernels that satisfy a minorisation condition | the run is a Markov kernel with the target as invariant distribution; Doeblin contraction; the second moment of sums by induction over the samples; criterion and example show that the condition can be met |
| C74 | the constructors of the histograms with every operation in the arithmetic of the machine (`machinePoints`), `consume`, `get` as in C30-C32; Spec.WeakSubdivision: neighbouring points may coincide | standard model of rounding; bounds of the computed offsets; binary search in a list with repetitions |
| C75 | the copy constructors; concurrently: the elements of `bins` are read one by one while threads execute `consume`/`get` of the mutex model (C19) | counts only grow (from the invariant of C19); a concrete schedule for the violation |
| C76 | as C62 and C73; `script.take n` is the beginning of a run | mean squares at square numbers of samples are summable (C62, C73); between two squares averages of bounded numbers change little; expected values of functions of the beginning of a run do not depend on its continuation; covariances: identity of C62 written as means of products of centred functions |
| C77 | a world that follows a script of proposals and random numbers (Spec/DelayedNumbers), expected values over scripts | the run is a Markov chain with the transition probabilities of C47; ergodic theorem of C62 and strong law of C76 (means, bins, covariances) for its stationary distribution, which is the target if the proposals are balanced; for the proposals of C47_violation it is another one |
| C78 | Model/AsyncNet, `BehindAsync`, `SyncPath`, `along` (Spec/AsyncOrder) | simulation of the part of the network that is not behind asynchronous nodes by a deterministic sequential machine; invariant of that machine along a path (stack sorted by depth) |
| C79 | the four classes, and AverageCosineBetweenSuccessiveSamples (Model/DimensionCos), with explicit loops, element accesses and compound assignments over an abstract sample type that can fail (Model/Dimension) | refinement to the functional models of C21-C26 (loop invariants), failure if and only if the sizes differ |
| C80 | the expected values of C66 (Spec/DEChain); `MeanValue` as in C62 | all messages carry a chain number (C48), so the samples of a run are its generations one after the other; without crossover a generation is a step of independent Metropolis-Hastings chains side by side: Poisson equation for one chain, martingale for the mean over the chains, whose increments have a variance smaller by the factor n; with crossover in every generation: stationary distribution of the eight states of three chains on two states (finding) |
| C81 | Connect: threads that issue samples and threads that execute connect_to_producer, one rule per atomic action | invariants over all schedules for the partial theorems; the data race by an explicit schedule (finding) |
| C82 | the run of MetropolisHastings::sample with each consumer attached (as in C62); limit defined by runs of the sampler from the target distribution | for a function g of two states l steps apart the sum over a path minus the sum of the conditional expectations is a martingale (l times), the rest is C62's law of large numbers; the auto-covariance estimator is rewritten for centred functions; with probability one: as C76, for quantities that change by a bounded amount with every sample |
| C83 | `consume` and `get` of AutoCovarianceTrace over the abstract arithmetic of C63 | error recursions for alpha and beta by induction over the samples, then the error of the sums in `get`; the violations by evaluating rounding to nearest with 53 bits |
| C84 | the objects of C09 with a recursive `emit`: consume() executes arbitrary operations, the lock held by the thread and the signals being called are kept on a stack | all traces replay sequentially (induction over depth, slots, operations); the slots in force after a trace characterised by its operations; success by induction over layers |
| C85 | the chain of C62 and C82; errors are expectations over all runs of the model | reversibility makes the transition operator symmetric: even lags are squares, the pair sums are Dirichlet forms; the errors by expanding the square and stationarity; thinning by Jensen over the m shifted means |
| C86 | the two mutexes and the task list of every consumer, threads as stacks of pending calls; what consume() does is left open at every call | induction over layers: whatever a thread waits for is held by a thread that is further down or can go; termination by the multiset order; mutual exclusion and bookkeeping of tasks as invariants |
| C87 | Races: for each function and branch the list of its accesses and lock operations, one location per member variable or bin; happens-before of the C++ standard (mutexes and shared mutexes) as specification | lock discipline (all guards held for writing, one for reading) implies that conflicting accesses are ordered, by an invariant with ghost information which mutexes protected which event; every function keeps the discipline; violations by explicit schedules |
| C88 | AsyncNumbers: the network and its schedules (AsyncNet), the distribution of the sampler's runs (LargeNumbers, GeneralNumbers); a scheduler is a function from runs to reachable states in which sample() has returned | every such state's log is a permutation of the messages (C58), results do not depend on the order (C22), so the random variable is the same as in the synchronous case |
| C89 | Ieee: the code of Model/Rounding.lean with an arithmetic of doubles: exact operation, rounding, overflow; infinities and NaN as in IdealDouble; rounding to nearest, ties to even (`C89_double_arithmetic` checks this definition) | per step: the rounded update does not exceed the distance of the mean to the bound of the samples, both with and without underflow; induction over the samples |
| C90 | HistogramTypes: consume() with comparisons in the common type of sample and double, and the conversion at the call of bin_number | specification of the binary search for the closed range (rounding can reach the right end point), induction over the samples |
| C91 | RoundingCos: consume() and get() with every operation in the arithmetic of the machine, with the square root as a parameter | invariant: entry i is a running mean of the computed cosines at distance i+1, hence a MeanValue of them (C63); error analysis of one cosine (sums of squares by induction, Cauchy-Schwarz) |
| C92 | RoundingAutoMatrix: consume() and get() with every operation in the arithmetic of the machine | invariant: for each lag, the stored sums differ from the exact ones by errors that grow linearly with the number of samples (one step of a scaled running average); error of get() from these and from C63 for the mean |
| C93 | the programs of RoundingAuto and RoundingAutoMatrix in the arithmetic of Model/Ieee (infinities, NaN, gradual underflow) | the mean keeps NaN (C72) and enters every entry; simulation between an object and the object for some components; bounds of all members that are preserved by a step of a running average, by monotonicity of rounding |
| C94 | GraphNet: nested calls of slots in a directed multigraph, log of all calls received by each component | invariant of a call in a network without circles: all connections balanced except those out of components that are executing; simulation between networks that agree upstream; induction over the depth for paths; a circle is entered again at every depth |
| C95 | Spec.Computer: mhSample (the model for arbitrary operations) in a world with finitely many equally probable random numbers; acceptance probability as a fraction of random numbers | the run is a Markov chain whose transition probabilities are close to those of the exact chain; solution of the exact chain's Poisson equation gives averages along the perturbed chain up to K epsilon (martingale part as in C62/C76, drift at most K epsilon per step); error analysis of min(1, exp(a-b)/ratio) and of the count of i with i/N <= v |
| C96 | PairHistogramWords: the two loops of get() writing to a vector, index converted to unsigned int | nested loops = loop over bin numbers; the last write to each element counts |
| C97 | Ieee: the code of Model/Rounding.lean in the arithmetic of doubles | a finite result is the one of the arithmetic on reals with rounding (backwards from the result); its error: rounding error 2^-53 relative plus 2^-1075 absolute per operation, sums exact or relative; induction over the samples |
| C98 | IntCov: consume for int samples with bit vectors, rounding of doubles, conversion to int, undefined behaviour | one step when the entry is zero and the sample is not below the mean; induction over the samples; concrete run for the overflow |
| C99 | IeeeOps: the operations of Model/Producers in IEEE arithmetic | monotonicity of rounding gives ratio >= 1 or <= 0; the probability is a Lebesgue measure; error propagation for the product of rejection and acceptance probability |
| C100 | IeeeOps with Model/Producers | exactness of the first comparison by monotonicity of rounding; error of the exponent where the probability is not 0 or 1; C95 for the long run |
| C101 | DEWords: the loops over generations and chains with counters of b bits | a generation with words equals one with unlimited integers and an adjusted number of samples; induction over the generations; products with a power of two stay below 2^b - n_chains |
| C102 | the task of Model/DifferentialEvaluation run with ieeeOps, for every random number | error of the quotient (shared with C100), counting of random numbers below a threshold, special values by cases |

## 5. Findings

Places where the code, read as text, does not have a property that its documentation or comments promise. Each is a theorem
(`*_violation*`, or an `iff` with the condition under which the promise holds), not an observation from a run.

| property | finding | theorem |
|---|---|---|
| C01 | `TakeEveryNth(0)` divides by zero at the first sample | `C01_takeEveryNth_zero_is_ub` |
| C02 | the counter of `DiscardFirstN` wraps after 2^64 samples; then samples are discarded again | `C02_discardFirstN_wraps` |
| C11 | a consumer that declares only `asynchronous` starts in, and can be connected in, synchronous mode; `set_parallel_mode` accepts `synchronous\|asynchronous` from any consumer, the next connection aborts | `C11_violation_*` |
| C16 | `queue_size` is stored (consumer.impl.h 505-519) but never read: the number of background tasks is unbounded; the order in which tasks consume is arbitrary | `C16_violation_*` |
| C18 | a sender that has been called by the signal but not yet taken the lock uses the mutexes of a consumer destroyed in between (both modes); `disconnect_from_producer` dereferences the end iterator if `disconnect_and_flush` runs in between | `C18_violation_*` |
| C25 | `AutoCovarianceTrace::get()` before the first sample reads `alpha[0]` of an empty vector | `C25_autoCovarianceTrace_no_samples_ub` |
| C26 | `AutoCovarianceMatrix`: `alpha[l].resize(...)` (auto_covariance_matrix.impl.h 385) leaves the matrix uninitialised, the first update adds to it: all results contain this memory | `C26_correct_iff_memory_zero`, `C26_uninitialised_memory_shows` |
| C23 | `CovarianceMatrix` after exactly one sample returns uninitialised memory (from the second sample on it is correct) | `C23_covariance_one_sample` |
| C28 | `AverageCosinus`: `history_length = 0` writes out of bounds; `static_cast<unsigned int>(n_samples)` makes it skip a sample every 2^32 samples | `C28_history_zero_ub`, `C28_truncation_at_2_32` |
| C32 | `PairHistogram`: `bins(n_x_bins, n_y_bins)` is never set to zero: all counts contain uninitialised memory | `C32_correct_iff_memory_zero` |
| C33 | `MaximumProbabilitySample` uses `lowest()` as a marker: after a sample with this likelihood any other replaces it, even `-inf` | `C33_sentinel_violation` |
| C43 | Metropolis-Hastings: between two zero-probability states the encodings `-inf` and `-max` lead to different acceptance if the ratio of the proposal is larger than 1; with mixed encodings the move may always be made | `C43_violation`, `C43_violation_mixed` |
| C45 | Delayed rejection without delays rejects for ever between states of likelihood `-inf` (NaN ratio), Metropolis-Hastings does not | `C45_violation_zero_probability` |
| C46 | Delayed rejection: `num_yvec` is built from `[rbegin, rend()+1)` (delayed_rejection_mh.impl.h 183), one element past the end, in every delayed stage; the vector is not used | `C46_violation`, `C46_violation_concrete` |
| C47 | Delayed rejection: the second-stage acceptance probability lacks the ratio of first-stage proposal densities: symmetric proposals do not suffice and the target is not stationary (witness on three states); third stage: recursive probabilities are not limited to 1 and the order of the rejected samples is wrong | `C47_violation`, `C47_violation_third_stage` |
| C49 | Differential evaluation: if `b == max(a,chain)-1` is drawn, the second partner is the first partner or the chain itself; with three chains the second partner of chain 0 is always chain 1 | `C49_violation`, `C49_violation_three_chains` |
| C52 | `MeanValue<int>`: `update /= n_samples` divides as unsigned 64-bit number: a negative update gives garbage | `C52_violation_*` |
| C59 | a first sample with log likelihood NaN is kept forever by `MaximumProbabilitySample`; a sampler started at NaN never moves; in delayed rejection a NaN first proposal rejects all proposals of the step | `C59_*` |
| C60 | Delayed rejection and differential evaluation accept a proposal of zero probability if the random number is exactly 0 (`ratio >= u`, `u` in [0,1)) | `C60_violation_*` |
| C61 | exceptions of asynchronous consumers are lost: the futures are only waited for, never asked for the result | `C61_asynchronous_lost` |
| C64 | `CovarianceMatrix`: the first update subtracts the uninitialised content (covariance_matrix.impl.h 172, 189), exact only without rounding: `2^60` in memory makes the variance of (0, 1) equal to 0, a NaN in memory stays for ever | `C64_violation_memory_visible`, `C64_violation_nan` |
| C67 | Differential evaluation does not keep the target distribution in a generation with crossover: three chains on two states, the middle chain is `true` with probability 50/64 instead of 48/64, since its second partner can be itself (C49) | `C67_violation_middle_chain` |
| C70 | `PairHistogram::write_gnuplot` (pair_histogram.impl.h 530-536) writes the points (x0,y0),(x1,y0); (x1,y0),(x1,y1) for the bottom of each box: a triangle, the corner (x0,y1) is missing | `C70_violation_bottom` |
| C75 | the copy constructors of `Histogram` and `PairHistogram` (histogram.impl.h 309, pair_histogram.impl.h 381) read `o.bins` without locking `o.mutex`: a copy made while samples arrive can contain counts the original never had | `C75_violation_torn_copy` |
| C77 | C77: with a symmetric first-stage proposal and a uniform second-stage proposal on three states the fraction of samples in a state whose probability is 2/5 converges to 7/16 | `C77_violation` |
| C79 | `AverageCosineBetweenSuccessiveSamples`: a sample smaller than the first one is accepted silently; later samples are then compared with uninitialised memory (average_cosinus.impl.h 179-182, 209-219) | `C79_averageCosine_smaller_sample` |
| C80 | C80: with crossover in every generation the mean of the samples of differential evaluation converges to a wrong value: three chains on two states with probabilities 1/4 and 3/4, symmetric proposals and the crossover x + (a - b): the mean converges to 5406664/6976353 (about 0.775) instead of 3/4 | `C80_violation_limit`, `C80_violation` |
| C81 | `connections_to_producers.insert` (consumer.impl.h 498) is executed without lock, while the slots evaluate `connections_to_producers.size()` under the locks (387-393, 426-433): connecting a consumer that already receives samples to a second producer, or to one that is sampling, is a data race; so are two simultaneous connections | `C81_violation_race`, `C81_violation_race_first`, `C81_violation_two_connections` |
| C83 | `AutoCovarianceTrace` computes `alpha - mean·beta + mean·mean` (auto_covariance_trace.impl.h 523-539), which cancels if the mean is larger than the spread: in double precision four samples 134217733 have the "variance" -8, the samples 2^27 and 2^27+1 have the variance 0 instead of 1/2; CovarianceMatrix has no such problem | `C83_violation_negative`, `C83_violation_cancellation` |
| C84 | A consumer that disconnects itself from inside its `consume()` (an `Action` that has seen enough samples) waits for the exclusive lock on `synchronous_mode_mutex` (consumer.impl.h 543) of which it holds the shared lock (consumer.impl.h 387): deadlock; likewise destroying the producer from inside `consume()`, and a cycle of filters | `C84_violation_self_disconnect`, `C84_no_self_disconnect`, `C84_violation_cycle` |
| C86 | Two threads that issue samples to two consumers whose `consume()` functions each disconnect the other one deadlock (shared lock held while waiting for the exclusive lock of the other, consumer.impl.h 387, 543); a background task that calls `flush()`, `disconnect_and_flush()` or the destructor of its own consumer waits for its own future (570) | `C86_violation_crossing`, `C86_violation_own_task`, `C86_no_flush_in_own_task` |
| C87 | The copy constructors of `Histogram` and `PairHistogram` read the counters of the other object without its mutex (histogram.impl.h 303-311, pair_histogram.impl.h 374-384); the assertion `connections_to_producers.contains(&p)` (consumer.impl.h 474) is evaluated before the locks are taken, so destroying two producers of one consumer in two threads is a data race in programs with assertions; two `StreamOutput` objects on one stream are not synchronized with each other | `C87_violation_copy_histogram`, `C87_violation_copy_pair_histogram`, `C87_violation_assertion`, `C87_violation_streams` |
| C89 | MeanValue subtracts before it divides: for the finite samples DBL_MAX and -DBL_MAX the mean is -inf, with a third sample NaN. CovarianceMatrix multiplies before it divides: for 0 and 2^512 the variance is +inf although the exact value 2^1023 is a double; for 0 and 2^-600 it underflows to 0 | `C89_violation_overflow`, `C89_violation_covariance_overflow`, `C89_violation_covariance_underflow` |
| C90 | samples of type `long double` are rounded to double before the bin is found: with interval points 0, 1, 2 the sample 1+2^-60 is counted in [0,1]; in `PairHistogram` a component that is less than the right end of the range but rounded to it fails the assertion `value < x_interval_points.back()` (pair_histogram.impl.h 560, 586; `Histogram` has `<=`) | `C90_violation_neighbour_bin`, `C90_violation_pair_assertion`, `C90_violation_pair` |
| C91 | `AverageCosineBetweenSuccessiveSamples` multiplies the squares of the norms before taking the root (average_cosinus.impl.h 203): two equal samples of size 2^257 ≈ 2.3·10^77 have the computed cosine 0, two of size 2^-300 the average +inf; a zero sample makes all entries it contributes to NaN forever; the result can exceed 1 (`47` and `2^27+5` give 1+2^-52) | `C91_violation_overflow`, `C91_violation_underflow`, `C91_violation_zero_sample`, `C91_violation_above_one` |
| C92 | `AutoCovarianceMatrix` subtracts products of means from mean products (auto_covariance_matrix.impl.h 489-511), even when the uninitialised memory (C26) is zero: four equal samples 134217733 have the variance -8, the samples 2^27 and 2^27+1 the variance 0 | `C92_violation_negative`, `C92_violation_cancellation` |
| C93 | the autocovariance consumers store sums of products: as soon as one of two or more samples has a component of size 2^512 ≈ 1.3·10^154 the lag-0 results are infinite or NaN forever, also if the samples are equal and the autocovariance is zero | `C93_violation_overflow`, `C93_violation_overflow_example` |
| C94 | nothing prevents connecting filters in a circle (a filter to itself, say); sample() then locks a std::shared_mutex that the thread has locked already (undefined behaviour) or, when flushing, calls itself until the stack overflows, whatever the filters do | `C94_circle_sample`, `C94_circle_flush` |
| C95 | the acceptance condition compares with `>=`, so the random number 0 accepts every proposal of nonzero probability: on a machine with N random numbers states of weight far below 1/N of their neighbours' are visited with frequency 1/(N+1) | `C95_caveat_rare_states` |
| C96 | `const unsigned int bin = x_bin * bins.cols() + y_bin` (lines 447, 458) truncates a 64 bit index: with more than 2^32 bins get() returns wrong data | `C96_violation_many_bins`, `C96_violation_lost_samples` |
| C98 | `current_covariance_matrix(i,j) += ...` (covariance_matrix.impl.h 189) truncates every update for integer types: variances of integer samples can be reported as 0 whatever they are; together with C52, four samples 1, 1, 0, 1 overflow | `C98_violation_ignored`, `C98_violation_unbounded`, `C98_violation_undefined` |
| C101 | `generation * n_chains < n_samples` (differential_evaluation_mh.impl.h 187) wraps around: asked for `std::numeric_limits<std::size_t>::max()` samples ("until an exception stops it") with 4 chains, `sample` never ends, and restarts its generation products at 0 | `C101_violation`, `C101_ends_iff` |

Further observations that are documented in the models but are not theorems about violations:

* `std::async` is called without launch policy (consumer.impl.h 440, differential_evaluation_mh.impl.h 285); the theorems C12-C15, C50,
  C55, C56 are therefore proved for every choice (asynchronous or deferred) of every task.
* If `max-min` is so small that the bin width is subnormal, the interval points of a `Histogram` need not be sorted (`C74_caveat_underflow`:
  `Histogram(0, 5*denorm_min, 8)`); if `max-min` overflows, the first is NaN and the others but the last are infinite (`C74_caveat_overflow`): with assertions the program aborts at the first sample below `max`, without them all samples below `max`, also those below `min`, are counted in the first bin (`C74_caveat_overflow_counts`).
* If `OutputType` were `bool`, `std::vector<bool>` in the differential evaluation sampler would make C56 false (elements share memory).

## 6. Coverage of the code

| file in include/sampleflow | model | not modelled |
|---|---|---|
| consumer.impl.h | Lifecycle, Reentrant (consume() that changes connections, synchronous mode), Temporaries (move constructor), AsyncNet, AsyncExc (exceptions), Disconnect, Connect, Locks (all mutexes of a network), Races (data races in the sense of the C++ memory model), Network, GraphNet (shared components) | - |
| producer.impl.h | Lifecycle, Network, ProducerBase | boost signals themselves (assumed) |
| filter.impl.h | Filters, Network, AsyncNet, ExcNetwork (exceptions), GraphNet | |
| connections.impl.h | Chains, Temporaries | C++ overload resolution and concepts |
| scope_exit.impl.h | ProducerBase | |
| element_access.impl.h | Dimension (with mean_value, covariance_matrix, auto_covariance_trace, auto_covariance_matrix at the level of elements), DimensionCos (average_cosinus) | |
| auxiliary_data.impl.h, types.impl.h, concepts.impl.h | as data types only | template metaprogramming |
| filters/*.impl.h (6) | Filters, MutexObjects (TakeEveryNth), MutexMore (DiscardFirstN) | |
| consumers/mean_value, covariance_matrix | Moments, MutexObjects, MutexMore, IntMean, IntCov (integer samples), Rounding, Ieee (overflow, underflow, infinities), IeeeAccuracy (accuracy with underflow) | the sign of zero |
| consumers/auto_covariance_trace, auto_covariance_matrix | Moments, MutexObjects, MutexMore, RoundingAuto (rounding of the trace), RoundingAutoMatrix (rounding of the matrix), NanAuto, AutoFinite, AutoFiniteTrace (NaN, infinities, overflow) | accuracy in the presence of underflow; overflow of the trace for samples between 2^490 and 2^512. `alpha` is assigned a `std::vector<double>`, so the trace compiles only for samples of doubles |
| consumers/count_samples, last_sample, maximum_probability_sample, acceptance_ratio, average_cosinus, stream_output, action | SimpleConsumers, MutexObjects, MutexMore, RoundingCos (rounding, NaN and infinities in average_cosinus) | formatting of numbers |
| consumers/histogram, pair_histogram | Histogram, HistogramRounding (rounding of interval points), HistogramDouble (the same in IEEE doubles with overflow and underflow, infinities and NaN), HistogramTypes (sample types other than double), CopyHistogram, MutexObjects, MutexMore, Gnuplot, PairHistogramWords (more than 2^32 bins) | |
| producers/range, metropolis_hastings, delayed_rejection_mh | Producers, IdealDouble (checked against Mathlib's `EReal` in Proofs/IdealDouble), Spec/Inexact (rounding errors and finitely many random numbers in metropolis_hastings), IeeeOps (rounding, overflow and underflow in metropolis_hastings and the first two stages of delayed_rejection_mh) | overflow and underflow in the third and later stages of delayed_rejection_mh |
| producers/differential_evaluation_mh | DifferentialEvaluation, DEAsync, DEWords (counters as machine words), IeeeOps (acceptance with rounding, overflow and underflow) | |

Not modelled at all: C++ templates/concepts, memory allocation failure, iostream formatting of numbers, real
floating-point rounding in the numerical consumers other than MeanValue, CovarianceMatrix, AutoCovarianceTrace, AutoCovarianceMatrix and AverageCosineBetweenSuccessiveSamples (exact arithmetic there; arbitrary operations in the
producers, with error bounds in C95), the quality of the random number generator, the weak memory model (data-race freedom is proved in Races (C87), for DEAsync and by mutual
exclusion for the mutex-protected objects).

## 7. Which axioms

All theorems of the manifest depend on at most `propext`, `Classical.choice` and `Quot.sound` (checked with
`#print axioms`, and by vcheck). No `native_decide`, `bv_decide`, own axioms.

## 8. Wrong-program experiments

`seeded/LOG.jsonl`: one line per experiment. In a scratch copy the definition is edited, everything is rebuilt; each declaration
whose proof fails is replaced by a placeholder and the build repeated, until it succeeds; then the axioms of all theorems
in MANIFEST.json are printed. `theorems_failed` are the manifest theorems that (transitively) rest on a failed proof, `lemmas_failed`
the declarations whose own proof failed.
