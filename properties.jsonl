{"id": "C01", "title": "TakeEveryNth forwards exactly every n-th sample", "statement": "A TakeEveryNth(n) filter with n>=1 that receives samples number 0,1,2,... forwards exactly those whose number is divisible by n, in the order received, with sample and auxiliary data unchanged. With n=0 the first sample already divides by zero (undefined behaviour).", "quantifier": "every n representable in size_t, every input sequence of every length, every sample/aux content", "why_tests_cant": "The filter keeps a counter; a test checks a few n and short streams, the claim is about all n and all positions including counter resets.", "anchors": ["include/sampleflow/filters/take_every_nth.impl.h: TakeEveryNth::filter"]}
{"id": "C02", "title": "DiscardFirstN drops exactly the first n samples", "statement": "A DiscardFirstN(n) filter forwards exactly the samples after the first n, unchanged and in order, as long as fewer than 2^64 samples pass through it; sample number k (from 0) is forwarded iff (k+1) mod 2^64 > n.", "quantifier": "every n in size_t, every stream length including ones that wrap the 64-bit counter", "why_tests_cant": "No test can send 2^64 samples; wrap-around behaviour is only visible in a proof.", "anchors": ["include/sampleflow/filters/discard_first_n.impl.h: DiscardFirstN::filter"]}
{"id": "C03", "title": "Condition forwards exactly the samples that satisfy the predicate", "statement": "A Condition filter forwards, in order and with unchanged sample and auxiliary data, exactly those samples for which the user predicate returns true.", "quantifier": "every predicate, every input sequence", "why_tests_cant": "A test fixes one predicate and one stream.", "anchors": ["include/sampleflow/filters/condition.impl.h: Condition::filter", "include/sampleflow/filter.impl.h: Filter::consume"]}
{"id": "C04", "title": "Conversion, PassThrough and ComponentSplitter are one-to-one", "statement": "Conversion(f) emits f(x) for every x, PassThrough emits every x, ComponentSplitter(k) emits x[k] for every x: one output per input, in order, with the auxiliary data unchanged. If some sample has no component k, ComponentSplitter does not emit a value for it but fails an assertion (out of bounds access without assertions).", "quantifier": "every function f, every k, every stream of samples of possibly different sizes", "why_tests_cant": "Tests look at one function and uniform sample sizes.", "anchors": ["include/sampleflow/filters/conversion.impl.h", "include/sampleflow/filters/pass_through.impl.h", "include/sampleflow/filters/component_splitter.impl.h", "include/sampleflow/element_access.impl.h: get_nth_element"]}
{"id": "C05", "title": "Filters compose: thinning and burn-in laws", "statement": "TakeEveryNth(m) after TakeEveryNth(n) behaves like TakeEveryNth(m*n); DiscardFirstN(m) after DiscardFirstN(n) behaves like DiscardFirstN(m+n) (no 64-bit overflow); burn-in of n followed by thinning m forwards exactly the samples n, n+m, n+2m, ...; Condition filters commute.", "quantifier": "all n, m and all streams", "why_tests_cant": "Algebraic laws over two unbounded parameters and all streams.", "anchors": ["include/sampleflow/filters/take_every_nth.impl.h", "include/sampleflow/filters/discard_first_n.impl.h", "include/sampleflow/filters/condition.impl.h"]}
{"id": "C06", "title": "Every consumer receives exactly the composed filter stream of its path", "statement": "In a synchronous tree of producers, filters and consumers, every consumer receives, in order, exactly the stream obtained by applying the filters on its path one after the other to the producer's samples; what else is connected to the producer or to any filter has no influence on it.", "quantifier": "every finite tree of filters/consumers, every stateful filter behaviour, every sample sequence", "why_tests_cant": "Tests check single small networks; the claim is about all topologies and independence between branches.", "anchors": ["include/sampleflow/producer.impl.h: Producer::issue_sample signal, connect_to_signals", "include/sampleflow/filter.impl.h: Filter::consume", "include/sampleflow/consumer.impl.h: connect_to_producer"]}
{"id": "C07", "title": "A flush reaches every consumer downstream, after all samples", "statement": "When the producer flushes at the end of sample(), every consumer reachable through filters is flushed (at least once per path), and in every downstream node the flush comes after the last sample that was issued before it.", "quantifier": "every tree topology, every sample sequence", "why_tests_cant": "Depends on topology of unbounded depth.", "anchors": ["include/sampleflow/filter.impl.h: Filter::flush", "include/sampleflow/consumer.impl.h: flush", "include/sampleflow/producer.impl.h: flush_consumers"]}
{"id": "C08", "title": "operator>> is associative: parenthesisation does not matter", "statement": "However a chain producer >> f1 >> ... >> fk >> consumer is parenthesised, the same set of connections results: exactly one connection between each pair of neighbours; hence the delivered samples are the same.", "quantifier": "every non-empty list of elements, every parenthesisation, open chains on either end", "why_tests_cant": "There are exponentially many parenthesisations of each length.", "anchors": ["include/sampleflow/connections.impl.h: Compound (four specialisations), operator>>"]}
{"id": "C09", "title": "Connection bookkeeping stays consistent", "statement": "After any history of connect_to_producer, disconnect_and_flush and producer destruction, a consumer's list of connections contains exactly the producers it is connected to with multiplicity, and each producer's signals contain exactly the matching slots: one per connection, and none for a destroyed producer or a disconnected consumer.", "quantifier": "every finite history of operations on any number of producers and consumers", "why_tests_cant": "State-machine invariant over unbounded histories.", "anchors": ["include/sampleflow/consumer.impl.h: connect_to_producer, disconnect_and_flush", "include/sampleflow/producer.impl.h: ~Producer, connect_to_signals"]}
{"id": "C10", "title": "Samples are delivered once per live connection and never after disconnection", "statement": "At any point of any history, a sample issued by producer p is delivered to consumer c exactly as many times as there have been connections of c to p since the last disconnection of c or destruction of p; in particular never after disconnect_and_flush().", "quantifier": "every finite history interleaving connect, disconnect, destroy and issue", "why_tests_cant": "Unbounded histories, including double connections.", "anchors": ["include/sampleflow/consumer.impl.h: connect_to_producer, disconnect_and_flush", "include/sampleflow/producer.impl.h"]}
{"id": "C11", "title": "Parallel mode cannot change while connected, and only to a supported mode", "statement": "If set_parallel_mode() succeeds then the consumer has no connections at that moment and the mode is one the consumer declared; hence over any history a consumer always runs in a supported mode, and all its current connections were made in that mode. Consumers and filters that declare only the synchronous mode are never run asynchronously.", "quantifier": "every history of connect/disconnect/set_parallel_mode calls", "why_tests_cant": "Invariant over unbounded histories.", "anchors": ["include/sampleflow/consumer.impl.h: set_parallel_mode, connect_to_producer", "include/sampleflow/parallel_mode.impl.h"]}
{"id": "C12", "title": "When a producer's flush returns, all asynchronous work it caused is finished", "statement": "Whatever the interleaving of worker threads, when flush_consumers() returns in the thread that issued samples, no task created for any of these samples (in any consumer downstream, also behind asynchronous filters) is still pending or running.", "quantifier": "every acyclic network of synchronous/asynchronous nodes, every number of samples, every schedule", "why_tests_cant": "Thread schedules cannot be enumerated by tests.", "anchors": ["include/sampleflow/consumer.impl.h: connect_to_producer (asynchronous case), flush, trim_background_queue", "include/sampleflow/filter.impl.h: flush"]}
{"id": "C13", "title": "Asynchronous delivery is exactly-once", "statement": "Under every schedule, after the flush every asynchronous consumer has consumed exactly the multiset of samples that the synchronous mode would have delivered: none lost, none duplicated.", "quantifier": "every network, sample sequence and schedule", "why_tests_cant": "Schedules cannot be enumerated.", "anchors": ["include/sampleflow/consumer.impl.h: connect_to_producer (asynchronous case), flush, trim_background_queue"]}
{"id": "C14", "title": "Trimming the background queue never forgets unfinished work", "statement": "trim_background_queue() removes a (possibly empty) prefix of the task queue consisting of finished tasks only; every unfinished task remains in the queue, in order, so that a later flush waits for it.", "quantifier": "every queue content and every pattern of finished/unfinished tasks", "why_tests_cant": "Patterns of completion are schedule dependent.", "anchors": ["include/sampleflow/consumer.impl.h: trim_background_queue"]}
{"id": "C15", "title": "No deadlock: sample() with asynchronous consumers always terminates", "statement": "In every reachable state in which the producer's call has not returned, some thread can take a step, and every schedule is finite: the call returns under every schedule.", "quantifier": "every acyclic network, every sample sequence, every schedule", "why_tests_cant": "Absence of deadlock over all schedules.", "anchors": ["include/sampleflow/consumer.impl.h", "include/sampleflow/filter.impl.h"]}
{"id": "C16", "title": "The number of background tasks is bounded by queue_size", "statement": "set_parallel_mode(asynchronous, queue_size) documents that at most queue_size samples are worked on/queued and that the sender blocks otherwise.", "quantifier": "every queue_size and every schedule", "why_tests_cant": "A test would have to provoke an adversarial schedule.", "anchors": ["include/sampleflow/consumer.impl.h: set_parallel_mode (documentation and implementation), queue_size", "include/sampleflow/parallel_mode.impl.h"]}
{"id": "C17", "title": "No consume() after disconnect_and_flush() has returned", "statement": "Under every interleaving of sending threads and worker threads with a thread that calls disconnect_and_flush(), no call to consume() starts or is in progress after disconnect_and_flush() has returned, in both parallel modes.", "quantifier": "every number of senders and samples, every schedule", "why_tests_cant": "Race condition; schedules cannot be enumerated.", "anchors": ["include/sampleflow/consumer.impl.h: connect_to_producer lambdas, disconnect_and_flush, flush"]}
{"id": "C18", "title": "No access to a destroyed consumer", "statement": "A consumer may be destroyed after its destructor's disconnect_and_flush(); no sending thread touches its mutexes or queue afterwards.", "quantifier": "every schedule of a sender and a destroying thread", "why_tests_cant": "Race condition; the window is a few instructions.", "anchors": ["include/sampleflow/consumer.impl.h: connect_to_producer lambdas, disconnect_and_flush, ~Consumer"]}
{"id": "C19", "title": "Concurrent consume() calls are linearizable", "statement": "For consumers whose consume() takes the object's mutex, under every interleaving of any number of concurrent consume() calls the final state (and what get() returns) equals that of processing the same samples one after the other in some order; get() called concurrently returns the state after some prefix of that order.", "quantifier": "every number of concurrent calls, every schedule", "why_tests_cant": "Schedules cannot be enumerated.", "anchors": ["include/sampleflow/consumers/mean_value.impl.h", "include/sampleflow/consumers/covariance_matrix.impl.h", "include/sampleflow/consumers/histogram.impl.h", "include/sampleflow/consumers/count_samples.impl.h", "include/sampleflow/consumers/maximum_probability_sample.impl.h", "include/sampleflow/consumers/last_sample.impl.h", "include/sampleflow/consumers/acceptance_ratio.impl.h", "include/sampleflow/consumers/stream_output.impl.h", "include/sampleflow/consumers/pair_histogram.impl.h", "include/sampleflow/consumers/auto_covariance_trace.impl.h", "include/sampleflow/consumers/auto_covariance_matrix.impl.h", "include/sampleflow/consumers/average_cosinus.impl.h", "include/sampleflow/filters/take_every_nth.impl.h", "include/sampleflow/filters/discard_first_n.impl.h"]}
{"id": "C20", "title": "Action never runs the user function concurrently unless allowed", "statement": "An Action consumer constructed with allow_concurrent_action=false never has two executions of the user function in progress at the same time; and every sample's action runs exactly once.", "quantifier": "every number of threads, every schedule", "why_tests_cant": "Mutual exclusion over all schedules.", "anchors": ["include/sampleflow/consumers/action.impl.h"]}
{"id": "C21", "title": "MeanValue is the arithmetic mean", "statement": "After n>=1 samples MeanValue::get() equals (x_1+...+x_n)/n (exact arithmetic), whatever the uninitialised content of the object was, for scalar and vector-valued samples.", "quantifier": "every sample sequence, every initial memory content", "why_tests_cant": "A numerical identity for all n; tests see only particular data.", "anchors": ["include/sampleflow/consumers/mean_value.impl.h: consume, get"]}
{"id": "C22", "title": "MeanValue and CovarianceMatrix do not depend on the order of samples", "statement": "Permuting the samples does not change the value returned by MeanValue, CovarianceMatrix, CountSamples, Histogram, PairHistogram, nor the likelihood of the sample returned by MaximumProbabilitySample: exactly the consumers that allow asynchronous mode are order-independent, so asynchronous processing yields the synchronous result.", "quantifier": "every sample sequence and every permutation", "why_tests_cant": "n! orders.", "anchors": ["include/sampleflow/consumers/mean_value.impl.h", "include/sampleflow/consumers/covariance_matrix.impl.h", "include/sampleflow/consumers/histogram.impl.h", "include/sampleflow/consumers/pair_histogram.impl.h", "include/sampleflow/consumers/count_samples.impl.h", "include/sampleflow/consumers/maximum_probability_sample.impl.h"]}
{"id": "C23", "title": "CovarianceMatrix is the sample covariance", "statement": "After n>=2 samples CovarianceMatrix::get() equals 1/(n-1) sum_t (x_t-mean)(x_t-mean)^H entry by entry, independent of uninitialised memory; for n=1 the returned matrix is whatever memory contained.", "quantifier": "every dimension, every sample sequence, every initial memory content", "why_tests_cant": "Numerical identity for all n and dimensions.", "anchors": ["include/sampleflow/consumers/covariance_matrix.impl.h: consume, get", "include/sampleflow/types.impl.h: conj"]}
{"id": "C24", "title": "CovarianceMatrix is symmetric positive semidefinite", "statement": "For real samples and n>=2 the returned matrix is symmetric and positive semidefinite (v^T C v >= 0 for every v); for complex samples it is Hermitian and positive semidefinite.", "quantifier": "every dimension, every sample sequence, every vector v", "why_tests_cant": "Universal quantification over samples and vectors.", "anchors": ["include/sampleflow/consumers/covariance_matrix.impl.h"]}
{"id": "C25", "title": "AutoCovarianceTrace equals its defining formula", "statement": "After n samples, get()[l] equals 1/(n-l-1) sum_{t=1}^{n-l} (x_{t+l}-mean)^T (x_t-mean) for n>l+1, and 0 otherwise (n>=1), for every lag l up to the configured maximum; calling get() before any sample is undefined.", "quantifier": "every lag, every maximum lag, every dimension, every sample sequence", "why_tests_cant": "The one-pass update is a nontrivial numerical identity.", "anchors": ["include/sampleflow/consumers/auto_covariance_trace.impl.h: consume, get"]}
{"id": "C26", "title": "AutoCovarianceMatrix equals its defining formula up to uninitialised memory", "statement": "For n>l+1, get()[l] equals 1/(n-l-1) sum_t (x_{t+l}-mean)(x_t-mean)^T plus G_l/(n-l-1) where G_l is whatever the uninitialised matrix contained when it was allocated; the documented value results iff that memory was zero.", "quantifier": "every lag, dimension, sample sequence, memory content", "why_tests_cant": "Depends on uninitialised memory that tests usually find zero.", "anchors": ["include/sampleflow/consumers/auto_covariance_matrix.impl.h: consume, get"]}
{"id": "C27", "title": "The three covariance consumers agree with each other", "statement": "On the same samples: AutoCovarianceTrace::get()[0] is the trace of CovarianceMatrix::get() (n>=2), and AutoCovarianceTrace::get()[l] is the trace of AutoCovarianceMatrix::get()[l] (zero-initialised memory).", "quantifier": "every sample sequence and lag", "why_tests_cant": "Relation between three different one-pass algorithms for all inputs.", "anchors": ["include/sampleflow/consumers/covariance_matrix.impl.h", "include/sampleflow/consumers/auto_covariance_trace.impl.h", "include/sampleflow/consumers/auto_covariance_matrix.impl.h"]}
{"id": "C28", "title": "AverageCosinus averages the cosine over all pairs at each lag", "statement": "After n samples entry i of get() (lag i+1 <= history length) is the mean over all n-i-1 pairs at that lag of the cosine of the angle between the samples, as long as at most 2^32 samples (2^w on platforms with w-bit unsigned int) were received; a history length of 0 is undefined behaviour.", "quantifier": "every history length >= 1, every sample sequence", "why_tests_cant": "One-pass update over sliding window; 2^32 truncation unreachable by tests.", "anchors": ["include/sampleflow/consumers/average_cosinus.impl.h: consume, get"]}
{"id": "C29", "title": "AcceptanceRatio is the fraction of samples that differ from their predecessor", "statement": "After n>=1 samples get() is (1 + number of t with x_t != x_{t-1})/n, lies in (0,1], and is 0 before any sample.", "quantifier": "every sample sequence", "why_tests_cant": "For all sequences.", "anchors": ["include/sampleflow/consumers/acceptance_ratio.impl.h: is_equal, consume, get"]}
{"id": "C30", "title": "Histogram counts the samples in each bin", "statement": "For strictly increasing interval points p_0<...<p_N, bin k>0 of get() counts exactly the samples with p_k < x <= p_{k+1} (the last bin: < p_N), bin 0 those with p_0 <= x <= p_1; samples below p_0 or >= p_N are not counted; hence the counts add up to the number of samples in [p_0,p_N).", "quantifier": "every sorted list of at least two points, every sample sequence", "why_tests_cant": "Boundary handling of a binary search for all point lists.", "anchors": ["include/sampleflow/consumers/histogram.impl.h: consume, bin_number, get"]}
{"id": "C31", "title": "Histogram constructors produce valid bins", "statement": "The constructor from (min,max,n_bins) yields n_bins adjacent bins that start at min and end at max with equal (linear) or exponentially growing (logarithmic) positive widths; get() returns n_bins triples whose right end is the next one's left end.", "quantifier": "every min<max (0<min<max for logarithmic), every n_bins>=1, exact arithmetic", "why_tests_cant": "All parameter values.", "anchors": ["include/sampleflow/consumers/histogram.impl.h: constructors, get"]}
{"id": "C32", "title": "PairHistogram counts samples per rectangle plus uninitialised memory", "statement": "Each entry of get() is the initial content of uninitialised memory plus the number of samples with both coordinates in the corresponding half-open intervals; the documented count results iff the memory was zero.", "quantifier": "every sorted point lists, every sample sequence, every memory content", "why_tests_cant": "Depends on uninitialised memory.", "anchors": ["include/sampleflow/consumers/pair_histogram.impl.h: constructors, consume, get, x_bin_number, y_bin_number"]}
{"id": "C33", "title": "MaximumProbabilitySample returns a most likely sample", "statement": "If all relative log likelihoods are numbers greater than -max, get() returns the first-received pair (sample, likelihood) with the greatest likelihood, and that likelihood is an upper bound for all received ones. With a likelihood equal to -max (lowest double) a later, less likely sample can replace it. If the auxiliary data hold an entry of that name that is not a double, consume() throws and the state is unchanged.", "quantifier": "every sequence of (sample, likelihood)", "why_tests_cant": "For all sequences; sentinel collision.", "anchors": ["include/sampleflow/consumers/maximum_probability_sample.impl.h: consume, get"]}
{"id": "C34", "title": "LastSample and CountSamples", "statement": "LastSample::get() returns the most recent sample; CountSamples::get() returns the number of samples received modulo 2^64.", "quantifier": "every sequence", "why_tests_cant": "Unbounded sequences, wrap-around.", "anchors": ["include/sampleflow/consumers/last_sample.impl.h", "include/sampleflow/consumers/count_samples.impl.h"]}
{"id": "C35", "title": "StreamOutput writes one line per sample, losslessly", "statement": "StreamOutput writes for each sample exactly one line, in order; the samples' component texts can be recovered from the output as long as they contain neither blanks nor newlines.", "quantifier": "every sequence of samples of every dimension", "why_tests_cant": "Round-trip for all sequences.", "anchors": ["include/sampleflow/consumers/stream_output.impl.h: write, consume"]}
{"id": "C36", "title": "Range issues every element once, in order, then flushes", "statement": "Range::sample(range) issues every element of the range in order with empty auxiliary data, and flushes exactly once, as the last action, also if a consumer throws.", "quantifier": "every range, every throwing position", "why_tests_cant": "All crash points.", "anchors": ["include/sampleflow/producers/range.impl.h: sample", "include/sampleflow/scope_exit.impl.h"]}
{"id": "C37", "title": "MetropolisHastings issues exactly n_samples samples with true auxiliary data", "statement": "If nothing throws, sample(...,n) issues exactly n samples; each carries 'relative log likelihood' equal to the user's log-likelihood of that sample and 'sample is repeated' which is true iff the proposal of that step was not accepted, in which case the sample is the previous one (the starting point for the first step).", "quantifier": "every n, starting point, log-likelihood function, proposal function, random sequence", "why_tests_cant": "All executions of a randomised loop.", "anchors": ["include/sampleflow/producers/metropolis_hastings.impl.h: sample"]}
{"id": "C38", "title": "MetropolisHastings: every sample is the previous one or a proposal made from it", "statement": "The issued samples form a chain: each is either identical to its predecessor or the result of calling the proposal function on its predecessor; accepted uphill moves: a proposal with ratio 1 and a strictly larger likelihood is always accepted.", "quantifier": "every execution", "why_tests_cant": "All executions.", "anchors": ["include/sampleflow/producers/metropolis_hastings.impl.h: sample"]}
{"id": "C39", "title": "MetropolisHastings never moves into zero-probability states", "statement": "Once a sample with nonzero probability was reached (log likelihood neither -inf nor -max), no later sample has zero probability.", "quantifier": "every likelihood, proposal, random sequence", "why_tests_cant": "All executions including extreme doubles.", "anchors": ["include/sampleflow/producers/metropolis_hastings.impl.h: sample (zero-probability logic and documentation)"]}
{"id": "C40", "title": "Consumers are flushed on every exit path of sample()", "statement": "Whichever call (log-likelihood, proposal, consumer) throws at whichever step, flush_consumers() is the last thing every producer's sample() does before returning or propagating; on the normal path nothing is issued after the flush.", "quantifier": "every exception point, every step number, all four producers", "why_tests_cant": "All crash points.", "anchors": ["include/sampleflow/producers/metropolis_hastings.impl.h", "include/sampleflow/producers/delayed_rejection_mh.impl.h", "include/sampleflow/producers/differential_evaluation_mh.impl.h", "include/sampleflow/producers/range.impl.h", "include/sampleflow/scope_exit.impl.h"]}
{"id": "C41", "title": "MetropolisHastings can be continued", "statement": "Sampling n+m samples gives the same issued samples as sampling n and then, with the same producer object, m more starting from the last sample (or start if n=0).", "quantifier": "all n, m, all environments with a deterministic likelihood", "why_tests_cant": "All splits.", "anchors": ["include/sampleflow/producers/metropolis_hastings.impl.h: constructor, sample"]}
{"id": "C42", "title": "MetropolisHastings acceptance probability and detailed balance", "statement": "In exact arithmetic with independent uniform random numbers the acceptance probability of a move between nonzero-probability states is min(1, pi(y)/(pi(x)*ratio)); with ratio = q(x->y)/q(y->x) the transition satisfies detailed balance with respect to the target, and the target is stationary, on finite and on general (e.g. continuous) state spaces, over any number of steps.", "quantifier": "every pair of states, every target and proposal densities", "why_tests_cant": "A probabilistic identity for all densities.", "anchors": ["include/sampleflow/producers/metropolis_hastings.impl.h: sample"]}
{"id": "C43", "title": "-inf and -max mean the same to MetropolisHastings", "statement": "The documentation treats both -inf and -max as log likelihood of a zero-probability state: acceptance between two zero-probability states must not depend on which encoding is used.", "quantifier": "both encodings, every ratio and random draws", "why_tests_cant": "Corner case of the floating point numbers.", "anchors": ["include/sampleflow/producers/metropolis_hastings.impl.h: sample"]}
{"id": "C44", "title": "DelayedRejection: number of samples, proposals and auxiliary data", "statement": "sample(...,n) issues exactly n samples; every step makes at least one and at most max_delays+1 proposals; each sample carries its own log likelihood and repeated-flag, as for Metropolis-Hastings.", "quantifier": "every n, max_delays, environment", "why_tests_cant": "All executions.", "anchors": ["include/sampleflow/producers/delayed_rejection_mh.impl.h: sample"]}
{"id": "C45", "title": "DelayedRejection with max_delays=0 is Metropolis-Hastings", "statement": "With max_delays=0, a symmetric proposal (ratio 1) and likelihoods that are finite numbers, DelayedRejectionMetropolisHastings accepts exactly when MetropolisHastings does, given the same draws. (For -inf likelihoods it does not.)", "quantifier": "every pair of likelihoods, every draw; whole runs", "why_tests_cant": "All executions.", "anchors": ["include/sampleflow/producers/delayed_rejection_mh.impl.h: alpha_fn, sample", "include/sampleflow/producers/metropolis_hastings.impl.h: sample"]}
{"id": "C46", "title": "DelayedRejection evaluates delayed stages without memory errors", "statement": "Evaluating the acceptance ratio of a delayed stage never reads outside its vectors.", "quantifier": "every stage >= 1", "why_tests_cant": "Out-of-bounds read that usually goes unnoticed at run time.", "anchors": ["include/sampleflow/producers/delayed_rejection_mh.impl.h: alpha_fn"]}
{"id": "C47", "title": "DelayedRejection delayed stage preserves the target", "statement": "The second-stage acceptance ratio yields detailed balance with respect to the target for symmetric proposals.", "quantifier": "every target, every symmetric proposal density", "why_tests_cant": "Probabilistic identity.", "anchors": ["include/sampleflow/producers/delayed_rejection_mh.impl.h: alpha_fn, sample"]}
{"id": "C48", "title": "DifferentialEvaluation issues exactly n samples, round-robin over chains", "statement": "sample(starts, ..., n) issues exactly n samples; sample number k carries 'chain number' k mod n_chains, also if n is not a multiple of the number of chains; each carries its own log likelihood.", "quantifier": "every n, number of chains >= 3, crossover gap, environment", "why_tests_cant": "All n and chain counts.", "anchors": ["include/sampleflow/producers/differential_evaluation_mh.impl.h: sample"]}
{"id": "C49", "title": "DifferentialEvaluation crossover partners are valid", "statement": "The two partners chosen for the crossover of a chain are in range and different from the chain and from each other.", "quantifier": "every number of chains >= 3, every chain, every pair of random draws", "why_tests_cant": "All draws and chain counts.", "anchors": ["include/sampleflow/producers/differential_evaluation_mh.impl.h: sample (crossover index selection)"]}
{"id": "C50", "title": "DifferentialEvaluation: asynchronous execution equals synchronous execution", "statement": "Given the same random numbers and a deterministic likelihood, asynchronous likelihood evaluation yields the same issued samples as synchronous evaluation under every schedule of the worker tasks.", "quantifier": "every schedule, every number of chains and samples", "why_tests_cant": "Schedules cannot be enumerated.", "anchors": ["include/sampleflow/producers/differential_evaluation_mh.impl.h: sample"]}
{"id": "C51", "title": "DifferentialEvaluation: crossover uses the previous generation; crossover schedule", "statement": "Crossover happens exactly in generations that are positive and a multiple of crossover_gap (every positive generation if the gap is 0), and the crossover candidates are computed from the samples all chains had at the end of the previous generation; otherwise the chain's own previous sample is perturbed.", "quantifier": "every gap, generation, number of chains", "why_tests_cant": "All executions.", "anchors": ["include/sampleflow/producers/differential_evaluation_mh.impl.h: sample"]}
{"id": "C52", "title": "MeanValue for integer samples", "statement": "The documentation of MeanValue states for integer sample types that the truncating division makes the computed mean stick; in particular an update smaller in magnitude than the count must not change the mean.", "quantifier": "every int sample", "why_tests_cant": "Mixed signed/unsigned division in C++ is easily overlooked.", "anchors": ["include/sampleflow/consumers/mean_value.impl.h: consume and class documentation"]}
{"id": "C53", "title": "End-to-end: MCMC diagnostics are consistent", "statement": "For a MetropolisHastings run connected to CountSamples, MaximumProbabilitySample, AcceptanceRatio and MeanValue: the count is n, the maximum likelihood reported is the maximum of the likelihoods of all issued samples, the mean is the mean of the issued samples, and the acceptance ratio is at most (1 + number of accepted proposals)/n.", "quantifier": "every run", "why_tests_cant": "Combination of producer and consumers for all executions.", "anchors": ["include/sampleflow/producers/metropolis_hastings.impl.h", "include/sampleflow/consumers/acceptance_ratio.impl.h", "include/sampleflow/consumers/count_samples.impl.h"]}
{"id": "C54", "title": "disconnect_and_flush always returns", "statement": "A call of disconnect_and_flush() never deadlocks with senders or background tasks: as long as it has not returned, some thread can make progress, and every schedule is finite.", "quantifier": "every schedule of sender, background tasks and the disconnecting thread", "why_tests_cant": "Deadlocks depend on the schedule.", "anchors": ["include/sampleflow/consumer.impl.h: disconnect_and_flush"]}
{"id": "C55", "title": "DifferentialEvaluation with asynchronous likelihood evaluation always finishes", "statement": "With asynchronous likelihood evaluation sample() neither deadlocks nor runs forever, whatever the schedule of the worker threads, the launch policy the implementation of std::async chooses, and whichever call throws.", "quantifier": "every schedule, every point at which an exception is thrown, every number of chains >= 3 and of samples", "why_tests_cant": "Schedules and crash points cannot be enumerated.", "anchors": ["include/sampleflow/producers/differential_evaluation_mh.impl.h: sample"]}
{"id": "C56", "title": "DifferentialEvaluation has no data race on its arrays", "statement": "During asynchronous evaluation no element of the arrays of samples and likelihoods is accessed by two threads at the same time with one of them writing, also while the function is left with an exception and the arrays are destroyed.", "quantifier": "every schedule, every point at which an exception is thrown", "why_tests_cant": "Data races depend on the schedule and need not be visible in results.", "anchors": ["include/sampleflow/producers/differential_evaluation_mh.impl.h: sample"]}
{"id": "C57", "title": "Each sampler evaluates the log likelihood once per starting point and per proposal", "statement": "The log likelihood function the user passes to sample() is called exactly once for each starting point and once for each proposal, in this order, and never again for a sample already known: n+1 evaluations for MetropolisHastings, at most 1 + n (max_delays + 1) for DelayedRejectionMetropolisHastings, n_chains + n for DifferentialEvaluationMetropolisHastings; a run that ends with an exception does not exceed these numbers.", "quantifier": "every run, every user function, every number of samples, delays and chains", "why_tests_cant": "The number of evaluations depends on the random draws and the likelihood values.", "anchors": ["include/sampleflow/producers/metropolis_hastings.impl.h: sample", "include/sampleflow/producers/delayed_rejection_mh.impl.h: sample", "include/sampleflow/producers/differential_evaluation_mh.impl.h: sample"]}
{"id": "C58", "title": "Asynchronous consumers report the synchronous result once sample() has returned", "statement": "Each time sample() returns to its (single) caller, MeanValue, CovarianceMatrix, CountSamples, Histogram, PairHistogram and MaximumProbabilitySample objects in asynchronous mode report exactly what they would report in synchronous mode: the mean, covariance, number, bin counts, highest likelihood of all samples issued by this and all earlier calls; also behind synchronous filters with a state.", "quantifier": "every schedule of the background tasks, every launch policy, every network, every number of calls, every sample sequence", "why_tests_cant": "The order in which tasks run cannot be enumerated by tests.", "anchors": ["include/sampleflow/consumer.impl.h: connect_to_producer, flush", "include/sampleflow/consumers/mean_value.impl.h", "include/sampleflow/consumers/covariance_matrix.impl.h", "include/sampleflow/consumers/count_samples.impl.h", "include/sampleflow/consumers/histogram.impl.h", "include/sampleflow/consumers/pair_histogram.impl.h", "include/sampleflow/consumers/maximum_probability_sample.impl.h"]}
{"id": "C59", "title": "What samplers do when the log likelihood is NaN", "statement": "MetropolisHastings, DelayedRejection and DifferentialEvaluation started at samples with a log likelihood that is a number never issue a sample whose log likelihood is NaN, whatever the user function returns for proposals. A chain started at a sample with log likelihood NaN never leaves it. A NaN first proposal of delayed rejection rejects all later proposals of the same step. MaximumProbabilitySample ignores NaN samples except for a first one, which it keeps forever.", "quantifier": "every run, every user function, every arithmetic in which comparisons with NaN are false and operations propagate NaN", "why_tests_cant": "All positions at which NaN may show up cannot be tested.", "anchors": ["include/sampleflow/producers/metropolis_hastings.impl.h: sample", "include/sampleflow/producers/delayed_rejection_mh.impl.h: sample, alpha_fn", "include/sampleflow/producers/differential_evaluation_mh.impl.h: sample", "include/sampleflow/consumers/maximum_probability_sample.impl.h: consume"]}
{"id": "C60", "title": "Delayed rejection and differential evaluation do not move into states of zero probability", "statement": "A run started at states of nonzero probability never issues a state of zero probability (log likelihood -inf).", "quantifier": "every run with exact arithmetic, every user function, every sequence of random numbers in [0,1)", "why_tests_cant": "The random number for which it fails is hit with probability 2^-53 or less per step.", "anchors": ["include/sampleflow/producers/delayed_rejection_mh.impl.h: sample", "include/sampleflow/producers/differential_evaluation_mh.impl.h: sample"]}
{"id": "C61", "title": "Exceptions thrown by consumers end sample() at a well-defined place", "statement": "If consume() of a synchronous consumer or filter() of a synchronous filter throws, sample() ends with this exception after all consumers have been flushed: everything called before the throwing object in the order of the connections (depth first) has received the sample, everything after it has not, and no later sample is issued. This holds for every producer: Range, Metropolis-Hastings, delayed rejection, and differential evaluation, the latter also with asynchronous likelihood execution under every schedule; if instead a function of the user throws, everything has received all samples issued and one flush. Range::sample() throws exactly if some object throws. Exceptions thrown by asynchronous consumers are lost.", "quantifier": "every tree of filters and consumers, every state of the objects, every sequence of samples, every producer with every likelihood and proposal function, every point at which an exception is thrown", "why_tests_cant": "The points at which exceptions may be thrown cannot be enumerated.", "anchors": ["include/sampleflow/filter.impl.h: consume, flush", "include/sampleflow/consumer.impl.h: connect_to_producer, flush", "include/sampleflow/producer.impl.h: issue_sample, flush_consumers", "include/sampleflow/producers/range.impl.h: sample", "include/sampleflow/scope_exit.impl.h"]}
{"id": "C62", "title": "Consumers connected to a Metropolis-Hastings sampler converge to the truth", "statement": "For every target density and every proposal distribution on a finite set of samples such that one state can be reached from all others, and every starting point: what MeanValue, CovarianceMatrix and Histogram report after n samples differs from the expected value, covariance, bin probability under the target distribution by at most K/n in mean square (so it converges in probability); MaximumProbabilitySample holds a most likely sample with probability at least 1 - K/n. If the state can be reached in exactly k steps, the distribution of the n-th sample converges geometrically to the target distribution.", "quantifier": "every finite set, target, proposal distribution, observed function, starting point and number of samples; expected values over all random numbers (exact arithmetic)", "why_tests_cant": "A statement about the limit and about probabilities over all random numbers; a test sees a few runs.", "anchors": ["include/sampleflow/producers/metropolis_hastings.impl.h: sample", "include/sampleflow/consumers/mean_value.impl.h", "include/sampleflow/consumers/covariance_matrix.impl.h", "include/sampleflow/consumers/histogram.impl.h", "include/sampleflow/consumers/maximum_probability_sample.impl.h"]}
{"id": "C63", "title": "Mean and covariance are numerically stable", "statement": "In floating point arithmetic (every operation rounds its exact result with relative error at most u, no overflow or underflow): MeanValue always lies between the smallest and the largest sample (equal samples give exactly that value) and differs from the exact mean of n samples of size at most M by at most u M ((n-1)/2+6); the variances CovarianceMatrix reports are never negative; its result is exactly symmetric and, if the memory of the matrix was zero, differs from the exact covariance by at most u M^2 (9n/2+60).", "quantifier": "every rounding function, every sequence of samples of any length that the machine can count, every component", "why_tests_cant": "Rounding errors depend on all samples; tests see the errors of a few sequences.", "anchors": ["include/sampleflow/consumers/mean_value.impl.h: consume", "include/sampleflow/consumers/covariance_matrix.impl.h: consume"]}
{"id": "C64", "title": "The covariance matrix does not depend on what was in memory before, in floating point arithmetic", "statement": "After two or more samples, CovarianceMatrix::get() does not depend on the uninitialised content of the matrix allocated at the first sample, also if operations round.", "quantifier": "every content of the memory, every rounding function, every sequence of samples", "why_tests_cant": "A test sees the memory contents that happen to occur (mostly zeros).", "anchors": ["include/sampleflow/consumers/covariance_matrix.impl.h: consume"]}
{"id": "C65", "title": "Burn-in and thinning keep the samples of Metropolis-Hastings usable", "statement": "A consumer connected behind filters has consumed exactly what the filters issue for the sampler's samples. For a Metropolis-Hastings sampler on a finite set one of whose states can be reached in exactly k steps from all others: MeanValue behind DiscardFirstN(b) and TakeEveryNth(m) differs after n samples from the expected value under the target by at most K/N in mean square, where N = ceil((n-b)/m) is the number of samples consumed and K depends neither on b, m, n nor on the starting point; the same for every filter that chooses samples by their position.", "quantifier": "every finite target and proposal distribution, burn-in b, period m, number of samples n > b, starting point; expected values over all random numbers (exact arithmetic)", "why_tests_cant": "A statement about probabilities over all random numbers for all filter parameters.", "anchors": ["include/sampleflow/filters/discard_first_n.impl.h: filter", "include/sampleflow/filters/take_every_nth.impl.h: filter", "include/sampleflow/filter.impl.h: consume", "include/sampleflow/producers/metropolis_hastings.impl.h: sample", "include/sampleflow/consumers/mean_value.impl.h"]}
{"id": "C66", "title": "Between crossovers the chains of differential evaluation are independent Metropolis-Hastings chains", "statement": "In a run of DifferentialEvaluationMetropolisHastings::sample() of at most crossover_gap generations, the sequences of samples of the chains (told apart by the auxiliary data) are independent, and that of chain c has the distribution of the samples of MetropolisHastings::sample() started at the starting point of chain c. Hence if the starting points are independent samples of the target, so are the last samples of the chains.", "quantifier": "every finite target, proposal function, crossover function, list of at least three starting points, crossover_gap, number of generations up to crossover_gap, and function of the messages; expected values over all random numbers (exact arithmetic)", "why_tests_cant": "A statement about joint distributions over all random numbers.", "anchors": ["include/sampleflow/producers/differential_evaluation_mh.impl.h: sample", "include/sampleflow/producers/metropolis_hastings.impl.h: sample"]}
{"id": "C67", "title": "A generation with crossover keeps the chains independent samples of the target", "statement": "With a symmetric proposal function and the crossover x + gamma (a - b): if the current samples of the chains are independent samples of the target distribution, they are so after a generation with crossover.", "quantifier": "every finite target, symmetric proposal function, crossover function undone by exchanging the partners, number of chains, crossover_gap; expected values over all random numbers (exact arithmetic)", "why_tests_cant": "A statement about joint distributions over all random numbers.", "anchors": ["include/sampleflow/producers/differential_evaluation_mh.impl.h: sample"]}
{"id": "C68", "title": "Chains built with operator>> own their temporaries and nothing else", "statement": "For every expression built with >> (any nesting, any mixture of named and temporary producers, filters and consumers): evaluating it, using the objects, and destroying the chain never fails an assertion and never uses a destroyed object. While the chain exists, every object is connected with its neighbour, temporaries included, as if all had been named. When the chain is destroyed (at the end of the scope of the variable, or at the end of the statement if there is none), exactly the temporaries and their connections disappear; connections between named neighbours stay. Hence producer >> Filter() >> consumer; as a statement leaves the consumer unconnected.", "quantifier": "every expression, every legal sequence of operations before and after the expression (connecting, disconnecting, sending, flushing, changing modes, destroying named objects)", "why_tests_cant": "The nesting of the expressions and the operations in between are unbounded; the effect depends on which operands are temporaries.", "anchors": ["include/sampleflow/connections.impl.h: Chain, operator>>", "include/sampleflow/consumer.impl.h: move constructor, ~Consumer", "include/sampleflow/producer.impl.h: move constructor, ~Producer", "include/sampleflow/filters/pass_through.impl.h", "include/sampleflow/filters/condition.impl.h"]}
{"id": "C69", "title": "Exceptions in networks with asynchronous members", "statement": "If consumers or filters throw in a network with asynchronous members, then for every schedule: no deadlock, every call of sample() ends, and when it has ended all background tasks it caused have finished; no sample is delivered twice; a task that has not finished is waited for by the destructor of its consumer. If only asynchronous objects throw, nobody else notices: the executions are exactly those in which they discard the sample instead. If whatever throws runs in the calling thread, every exception ends a call of sample(), exactly once. If everything connected to the producers is asynchronous, no exception ever reaches the user, and a synchronous consumer behind an asynchronous filter that throws hides the sample from the consumers connected after it without any notice.", "quantifier": "every acyclic network, every choice of parallel modes and launch policies, every number of user threads and calls, every schedule, every set of consumers and filters that throw for any messages at any time", "why_tests_cant": "A test sees one schedule; exceptions in tasks are stored in futures nobody asks.", "anchors": ["include/sampleflow/consumer.impl.h: connect_to_producer, flush, trim_background_queue", "include/sampleflow/scope_exit.impl.h", "include/sampleflow/filter.impl.h: consume, flush"]}
{"id": "C70", "title": "The picture of a PairHistogram", "statement": "PairHistogram::write_gnuplot() writes, for each entry of get(), the six faces of the box that stands on the rectangle of the bin and is as high as its count.", "quantifier": "every subdivision in x and y, every list of counts", "why_tests_cant": "A test compares the file with a file written by the same program.", "anchors": ["include/sampleflow/consumers/pair_histogram.impl.h: write_gnuplot, get"]}
{"id": "C71", "title": "Adaptive sampling: user functions see consumers exactly up to date", "statement": "If the functions given to sample() look at consumers that are connected in synchronous mode (or that are behind synchronous filters), each call sees the consumer exactly as it is after the samples issued before the call. In particular for MetropolisHastings with CountSamples and CovarianceMatrix (adaptive Metropolis): the k-th proposal, counted from 0, is computed with k samples and, if k >= 2, with their sample covariance matrix.", "quantifier": "all three samplers, every consumer, every function of the user, every number of samples, every sequence of random numbers, including runs that end with an exception", "why_tests_cant": "A test observes one run with one consumer; what a proposal sees depends on all samples before it.", "anchors": ["include/sampleflow/producers/metropolis_hastings.impl.h: sample", "include/sampleflow/producers/delayed_rejection_mh.impl.h: sample", "include/sampleflow/producers/differential_evaluation_mh.impl.h: sample", "include/sampleflow/consumer.impl.h: connect_to_producer", "include/sampleflow/consumers/covariance_matrix.impl.h", "include/sampleflow/consumers/count_samples.impl.h", "tests/adaptive_mh_01.cc"]}
{"id": "C72", "title": "NaN components in MeanValue and CovarianceMatrix are neither lost nor spread", "statement": "If component i of some sample is NaN, component i of MeanValue::get() is NaN from then on, and, once there are two samples, row i and column i of CovarianceMatrix::get(). Component i of the mean and entry (i,j) of the matrix depend on the components i and j of the samples only, bit by bit: a NaN in another component does not change them.", "quantifier": "every arithmetic in which operations with NaN give NaN (arbitrary rounding and overflow), every list of samples, every position of the NaN, all components", "why_tests_cant": "The number of samples after the NaN and the positions are unbounded.", "anchors": ["include/sampleflow/consumers/mean_value.impl.h: consume", "include/sampleflow/consumers/covariance_matrix.impl.h: consume"]}
{"id": "C73", "title": "Law of large numbers on general sample spaces", "statement": "Let a MetropolisHastings sampler run on any measurable sample space (for example the real numbers) with target and proposals given by densities, and assume that within some fixed number of steps the chain forgets a fixed fraction of where it was (for instance: proposal densities are bounded from below by a multiple of the target density). Then the distribution of the n-th sample converges geometrically to the target distribution; MeanValue of a bounded function, CovarianceMatrix of bounded functions and the bin frequencies of Histogram converge to the values under the target distribution, with mean square errors of at most a constant divided by the number of samples, whatever the starting point.", "quantifier": "every sample space with a sigma-finite measure, every target density and proposal density with this property, every bounded measurable function, every starting point of positive probability, every number of samples", "why_tests_cant": "A statement about probabilities of infinitely many outcomes of runs of unbounded length.", "anchors": ["include/sampleflow/producers/metropolis_hastings.impl.h: sample", "include/sampleflow/consumers/mean_value.impl.h", "include/sampleflow/consumers/covariance_matrix.impl.h", "include/sampleflow/consumers/histogram.impl.h"]}
{"id": "C74", "title": "The bins of Histogram and PairHistogram in floating point arithmetic", "statement": "Although the interval points of a Histogram(min, max, n) are computed with rounding errors: they begin with exactly min, end with exactly max and never decrease; each differs from the equidistant point by at most 9 u max(|min|,|max|), where u is the rounding unit; they are distinct if the bins are wider than twice this. Every sample in [min,max) is counted in exactly one bin, the one whose reported interval contains it (open on the left except for the first bin, closed on the right); other samples are not counted; the reported intervals are contiguous; no operation reads or writes out of bounds and no assertion fails. The same for both directions of a PairHistogram.", "quantifier": "every min < max and number of bins n <= 1/(4u), every rounding with relative error at most u that is monotone (without overflow and underflow); IEEE doubles with overflow and underflow: every min < max whose difference does not overflow and is at least n 2^-1022, n <= 2^51; every list of samples, both build modes", "why_tests_cant": "Whether rounded points are sorted and the last computed point stays below max depends on all bits of min, max and n; a test tries a few.", "anchors": ["include/sampleflow/consumers/histogram.impl.h: constructors, consume, get, bin_number", "include/sampleflow/consumers/pair_histogram.impl.h: constructors, consume, bin numbers"]}
{"id": "C75", "title": "Copies of histograms", "statement": "A copy of a Histogram or PairHistogram reports what the original reports at the time of copying and then lives on its own, as if it had consumed itself all samples the original had consumed. This also holds if the original is consuming samples in other threads while it is copied: the copy has the counts of one moment.", "quantifier": "every histogram, every sequence of samples before and after copying, every number of threads, every schedule", "why_tests_cant": "Whether the copy constructor reads a consistent set of counts depends on the schedule.", "anchors": ["include/sampleflow/consumers/histogram.impl.h: copy constructor, consume, get", "include/sampleflow/consumers/pair_histogram.impl.h: copy constructor"]}
{"id": "C76", "title": "Strong law of large numbers", "statement": "The results reported by MeanValue, Histogram and CovarianceMatrix connected to a Metropolis-Hastings sampler converge with probability one: the probability that the mean or the fraction of samples in a bin is off by eps or more at any time after the m-th sample is at most K/(eps^2 sqrt(m)), however long the run is; for the entries of the covariance matrix this probability tends to zero as m grows.", "quantifier": "finite sample spaces: every target and every connected proposal distribution, every function of the samples; general sample spaces: under the assumption of C73, every bounded measurable function; every starting point, every length of the run", "why_tests_cant": "The statement is about all times after m at once, in runs of unbounded length.", "anchors": ["include/sampleflow/producers/metropolis_hastings.impl.h: sample", "include/sampleflow/consumers/mean_value.impl.h", "include/sampleflow/consumers/covariance_matrix.impl.h", "include/sampleflow/consumers/histogram.impl.h"]}
{"id": "C77", "title": "Law of large numbers for delayed rejection", "statement": "What MeanValue, Histogram and CovarianceMatrix connected to a DelayedRejectionMetropolisHastings sampler with max_delays=1 report converges to the expected value, the probability of the bin, or the covariance under the target distribution: mean square error at most K/n; the probability of an error of eps or more at any time after the m-th sample is at most K/(eps^2 sqrt(m)) for means and bins, and tends to zero in m for covariances.", "quantifier": "every target on a finite sample space, every proposal distributions of the two stages that are connected, every function of the samples, every starting point, every number of samples", "why_tests_cant": "A statement about the probability distribution of runs of unbounded length.", "anchors": ["include/sampleflow/producers/delayed_rejection_mh.impl.h: sample, alpha_fn", "include/sampleflow/consumers/mean_value.impl.h", "include/sampleflow/consumers/histogram.impl.h"]}
{"id": "C78", "title": "Asynchronous members do not disturb the order elsewhere", "statement": "Asynchronous filters and consumers may be anywhere in the network. A consumer or filter that is not itself asynchronous and not behind an asynchronous filter receives, each time sample() returns, exactly the samples it would receive in the completely synchronous network, in the same order: the samples issued by the producer sent through the filters on its path. This also holds if other threads sample from other producers. Behind asynchronous stateless filters every consumer still gets the same samples, perhaps in another order.", "quantifier": "every network with any mixture of modes, every schedule and launch policy, every stateful filter behaviour on the synchronous paths, any number of calls and of other user threads", "why_tests_cant": "Order-dependent consumers (auto-covariance, last sample, acceptance ratio, discard-first-n) are wrong for one unlucky interleaving; the interleavings cannot be enumerated by tests.", "anchors": ["include/sampleflow/consumer.impl.h: connect_to_producer, flush", "include/sampleflow/filter.impl.h: consume, flush", "include/sampleflow/producer.impl.h: issue_sample, flush_consumers"]}
{"id": "C79", "title": "Element accesses of the numerical consumers are in bounds; scalars work like vectors", "statement": "The consumers MeanValue, CovarianceMatrix, AutoCovarianceTrace and AutoCovarianceMatrix access only existing elements of samples and matrices and combine only objects of equal size, as long as all samples have the same size (any size, also 0; scalar samples work like arrays with one element), and then report the documented values element by element. If the size of the samples changes, the run is undefined behaviour. The same holds for AverageCosineBetweenSuccessiveSamples, except that its run is undefined behaviour only if a sample is larger than the first one (a smaller one makes uninitialised memory enter the result).", "quantifier": "every sample type that behaves like an array (std::valarray, scalars), every size, every maximal lag, every sequence of samples", "why_tests_cant": "Out-of-bounds accesses depend on the size of the samples, the lag and the number of samples; tests see a few combinations and often survive an out-of-bounds access.", "anchors": ["include/sampleflow/element_access.impl.h: size, get_nth_element", "include/sampleflow/consumers/mean_value.impl.h: consume", "include/sampleflow/consumers/covariance_matrix.impl.h: consume", "include/sampleflow/consumers/auto_covariance_trace.impl.h: consume, get", "include/sampleflow/consumers/auto_covariance_matrix.impl.h: consume, get"]}
{"id": "C80", "title": "Law of large numbers for differential evaluation", "statement": "What MeanValue connected to a DifferentialEvaluationMetropolisHastings sampler reports converges to the expected value under the target distribution, whatever the starting points: the mean square error after G generations of n chains is at most K/(n G) + K/G^2.", "quantifier": "every target on a finite sample space that is positive everywhere, every connected proposal distribution, every function of the samples, every number of chains, all starting points, every number of generations, every crossover gap", "why_tests_cant": "A statement about the probability distribution of runs of unbounded length.", "anchors": ["include/sampleflow/producers/differential_evaluation_mh.impl.h: sample (148-325)", "include/sampleflow/consumers/mean_value.impl.h: consume, get"]}
{"id": "C81", "title": "A consumer can be connected while producers are sampling", "statement": "If connect_to_producer() is called while other threads issue samples, through this or through connections made earlier, then of the samples a thread issues through the new connection the consumer receives, in order, all from some moment on and none before, at the latest all those issued after connect_to_producer() has returned; and there is no data race. (Violated: the new entry is inserted into the list of connections without taking the locks under which the slots look at this list.)", "quantifier": "every schedule of any number of threads that issue samples and that call connect_to_producer(), both parallel modes", "why_tests_cant": "The outcome depends on the interleaving of a few instructions; a data race usually has no visible effect in a test.", "anchors": ["include/sampleflow/consumer.impl.h: connect_to_producer", "include/sampleflow/producer.impl.h: connect_to_signals, issue_sample"]}
{"id": "C82", "title": "Statistics of successive samples converge for the Metropolis-Hastings sampler", "statement": "On a finite sample space with a connected proposal structure, the results of the consumers that look at pairs of samples converge, from every starting point, to their values for the sampler in equilibrium: the mean square error after n samples is at most K/n with K independent of n and of the starting point. AcceptanceRatio converges to the probability that one step of the sampler, from a sample distributed according to the target, changes the sample; entry i of AverageCosineBetweenSuccessiveSamples converges to the expected cosine of the angle between samples i+1 steps apart (as long as the number of samples fits into unsigned int); entry l of AutoCovarianceTrace and of AutoCovarianceMatrix converge to the trace and the entries of E[(X_l - m)(X_0 - m)^T], where m is the mean under the target; the uninitialised memory that AutoCovarianceMatrix reads has a vanishing influence. The results also converge with probability one: the probability that a result is off by eps or more at any time between the m-th and the N-th sample is at most K/(eps^2 sqrt(m)), whatever N.", "quantifier": "every finite target density and proposal probabilities with the documented ratio, every starting point, every lag, every conversion of samples to vectors, every number of samples", "why_tests_cant": "the results are random variables; the claim is about expected values over all runs, for every number of samples", "anchors": ["include/sampleflow/consumers/acceptance_ratio.impl.h", "include/sampleflow/consumers/average_cosinus.impl.h", "include/sampleflow/consumers/auto_covariance_trace.impl.h", "include/sampleflow/consumers/auto_covariance_matrix.impl.h", "include/sampleflow/producers/metropolis_hastings.impl.h"]}
{"id": "C83", "title": "AutoCovarianceTrace in floating point arithmetic", "statement": "If every operation returns the rounded exact result with relative error at most u, then get() of AutoCovarianceTrace returns, for every lag, a value that differs from the autocovariance of the n samples with d components by at most u\u00b7d\u00b7M\u00b2\u00b7(8n+25d+100), M the largest component of a sample, and exactly zero for lags with fewer than two pairs of samples. The value for lag zero, being a variance, is not negative, is zero if all samples are equal, and agrees with the trace of CovarianceMatrix up to errors relative to the spread of the samples. (The second sentence is violated: the formula subtracts large numbers.)", "quantifier": "every rounding function, sequence, number, dimension and value of samples, every maximal lag and initial content", "why_tests_cant": "Rounding errors depend on the values of the samples; tests use samples near zero and compare with printed digits.", "anchors": ["include/sampleflow/consumers/auto_covariance_trace.impl.h: AutoCovarianceTrace::consume, AutoCovarianceTrace::get"]}
{"id": "C84", "title": "consume() functions that change connections", "statement": "While a sample is being delivered, the consume() function of a consumer (say the function of an Action) may itself connect, disconnect, create connections for and issue from other objects, nested to any depth. If the program comes through, then all objects are in the state that results from doing the same things one after the other; each sample is delivered, in order of connection, to exactly those connections that existed when it was issued and whose consumer has not been disconnected before its turn; connections made during the delivery receive only later samples; every consumer has seen exactly the samples of its calls of consume(). In a layered network in which consume() functions only connect downstream, disconnect other consumers that are not upstream and issue downstream, every sample comes through. A consumer may also disconnect itself from inside consume(), and destroy the producer. (The last sentence is violated: it waits for the lock that it holds itself.)", "quantifier": "every network, every history, everything that consume() functions do in reaction to samples, every depth of nesting", "why_tests_cant": "The order of events depends on what user functions do inside consume(), which tests can only sample; a deadlock is not an output.", "anchors": ["include/sampleflow/consumer.impl.h: Consumer::connect_to_producer, Consumer::disconnect_and_flush", "include/sampleflow/producer.impl.h: Producer::issue_sample, Producer::~Producer", "include/sampleflow/filter.impl.h: Filter::consume", "include/sampleflow/consumers/action.impl.h: Action::consume"]}
{"id": "C85", "title": "What the auto-covariances say about the samples", "statement": "A Metropolis-Hastings sampler in equilibrium (the starting point is distributed according to the target). Let g(l) be the value AutoCovarianceTrace converges to for lag l. The mean square error of MeanValue after n samples is exactly (g(0) + 2 sum_{l=1}^{n-1} (1 - l/n) g(l))/n; behind TakeEveryNth(m), after m N samples, it is (g(0) + 2 sum_{l=1}^{N-1} (1 - l/N) g(m l))/N, and not smaller than that of MeanValue connected directly: thinning does not improve the mean. g(0) is the variance and bounds all |g(l)|; for even lags g is non-negative and non-increasing, and so are the sums g(2l)+g(2l+1); at even lags the trace bounds every entry of the auto-covariance matrix, and these matrices are symmetric. If one state can be reached from all states in exactly k steps, the auto-covariances go to zero exponentially, and from every starting point n times the mean square error converges to g(0) + 2 sum_{l>=1} g(l).", "quantifier": "every finite target, all proposal probabilities, every function of the sample, every number of components, lag, period of the filter, number of samples and starting point", "why_tests_cant": "Statements about probability distributions and limits; tests see single runs.", "anchors": ["include/sampleflow/producers/metropolis_hastings.impl.h: MetropolisHastings::sample", "include/sampleflow/consumers/mean_value.impl.h: MeanValue::consume", "include/sampleflow/consumers/auto_covariance_trace.impl.h: AutoCovarianceTrace", "include/sampleflow/filters/take_every_nth.impl.h: TakeEveryNth"]}
{"id": "C86", "title": "No deadlocks in networks used by several threads, with consume() functions that disconnect and flush", "statement": "Any number of threads issue samples, flush, disconnect and destroy consumers and destroy producers at the same time, in a network with any mixture of synchronous and asynchronous members; consume() functions, also those executed in background tasks, again issue samples, flush, disconnect and destroy, but only further down in a layered network. Then, for every interleaving, every launch policy of the tasks and every order in which a std::shared_mutex serves waiting threads, as long as some call has not returned some thread does not have to wait, and all calls return. While the connections of a consumer are severed no thread executes its consume() function in synchronous mode. When flush() or disconnect_and_flush() returns all tasks of the consumer launched until then are finished. Outside layered networks there are deadlocks: two consumers whose consume() functions disconnect each other, and a background task that flushes, disconnects or destroys its own consumer, can wait for ever.", "quantifier": "every layered network, every number of threads and calls, everything consume() functions do further down, every schedule, every launch policy", "why_tests_cant": "Deadlocks depend on the schedule; there are infinitely many networks and programs.", "anchors": ["include/sampleflow/consumer.impl.h: Consumer::connect_to_producer, Consumer::disconnect_and_flush, Consumer::flush, Consumer::trim_background_queue", "include/sampleflow/filter.impl.h: Filter::consume, Filter::flush", "include/sampleflow/producer.impl.h: Producer::~Producer"]}
{"id": "C87", "title": "No data races between the member functions of consumers and filters", "statement": "Any number of threads call consume(), filter(), get() and write_gnuplot() of any consumers and filters, deliver samples to them in synchronous or asynchronous mode (also nested, through filters), flush, disconnect and destroy them. Then no execution has a data race in the sense of the C++ memory model: of two accesses of the same member variable, bin or output stream by different threads, at least one of which is a write, one happens before the other. Conditions: no two StreamOutput objects share a stream; Action objects do not allow concurrent actions; the program is compiled without assertions; no consumer is connected or copied at the same time. Without these conditions there are data races: copying a Histogram or PairHistogram that receives samples; connecting a consumer that receives samples; in programs with assertions, destroying two producers of the same consumer at the same time; two StreamOutput objects with the same stream; concurrent actions.", "quantifier": "every number of threads, objects and calls in every order, every number of bins, every schedule", "why_tests_cant": "A data race is undefined behaviour that need not show up in any test run; it depends on the schedule, the machine and the compiler.", "anchors": ["include/sampleflow/consumers/*.impl.h: consume, get, write_gnuplot", "include/sampleflow/filters/*.impl.h: filter", "include/sampleflow/consumer.impl.h: Consumer::connect_to_producer, Consumer::disconnect_and_flush, Consumer::flush, Consumer::trim_background_queue"]}
{"id": "C88", "title": "Laws of large numbers for asynchronous consumers, whatever the scheduler does", "statement": "A MeanValue, CovarianceMatrix, Histogram or MaximumProbabilitySample in any parallel mode is connected to a Metropolis-Hastings sampler, next to any other consumers and filters. Each time sample() has returned, what it reports obeys the same weak and strong laws of large numbers as in the synchronous case (C62, C73, C76), with the same constants: they do not depend on the network, the modes, the queue sizes or on how the threads are scheduled, even if the scheduler knows all samples in advance.", "quantifier": "every target density and proposal distribution on a finite sample space (connected), or on a general one (forgetting), every starting point, every network without restrictions on modes and queue sizes, every scheduler, every number of samples", "why_tests_cant": "It is a statement about probabilities for all distributions, and about all schedules; a scheduler that correlates with the samples cannot be provoked in a test.", "anchors": ["include/sampleflow/producers/metropolis_hastings.impl.h: MetropolisHastings::sample", "include/sampleflow/consumer.impl.h: Consumer::connect_to_producer, Consumer::flush", "include/sampleflow/consumers/mean_value.impl.h: consume", "include/sampleflow/consumers/covariance_matrix.impl.h: consume", "include/sampleflow/consumers/histogram.impl.h: consume", "include/sampleflow/consumers/maximum_probability_sample.impl.h: consume"]}
{"id": "C89", "title": "Overflow, underflow and infinite samples in MeanValue and CovarianceMatrix", "statement": "In IEEE double precision (rounding to nearest, gradual underflow, overflow to infinity), the mean that MeanValue returns for finite samples is a finite number between the smallest and the largest sample, and the entries of CovarianceMatrix are finite with non-negative variances. After an infinite sample followed by any other sample, the mean is NaN forever.", "quantifier": "every number of samples below 2^64, every finite samples (for the mean; the code guarantees it up to half the largest double, for the covariance up to 2^509), every position of an infinite sample, every floating point format with monotone rounding, gradual underflow and relative error at most 1/8", "why_tests_cant": "Rounding errors of each step could add up and push the running mean outside of the range of the samples, or intermediate results could overflow, for sequences a test does not try.", "anchors": ["include/sampleflow/consumers/mean_value.impl.h: MeanValue::consume, MeanValue::get", "include/sampleflow/consumers/covariance_matrix.impl.h: CovarianceMatrix::consume, CovarianceMatrix::get"]}
{"id": "C90", "title": "Histograms of samples of other types than double, and of NaN", "statement": "Interval points are doubles, samples may be of any arithmetic type. Every sample in the range [min,max) is counted in exactly one bin, the one whose interval contains it; other numbers are not counted; no operation fails and no assertion fails, although the sample is converted (and possibly rounded) to double to find its bin. Samples that are NaN do not disturb the counts of other samples: without assertions they are counted in the first bin. The same for both components of PairHistogram.", "quantifier": "every sorted list of interval points, every sequence of samples (numbers and NaN), every conversion that keeps the order and does not change doubles, both build modes", "why_tests_cant": "It depends on the rounding of numbers close to interval points, for all intervals and sample types.", "anchors": ["include/sampleflow/consumers/histogram.impl.h: Histogram::consume, Histogram::bin_number", "include/sampleflow/consumers/pair_histogram.impl.h: PairHistogram::consume, PairHistogram::x_bin_number, PairHistogram::y_bin_number"]}
{"id": "C91", "title": "The average cosine in floating point arithmetic", "statement": "AverageCosineBetweenSuccessiveSamples::get() returns, up to a few units in the last place per component and per pair, the average cosine of the angles between samples at distance i+1 (0 if there are none yet), and never a number that is not the cosine of anything: after rounding, entries stay in [-1,1] up to 4(d+3) units of rounding. NaN or infinite components of a sample are not hidden: every entry to which the sample contributes becomes NaN.", "quantifier": "every history length, every sequence of samples (up to the range of unsigned int), every number of components, every correctly rounded arithmetic; for NaN every arithmetic in which NaN propagates, for infinities every floating point format", "why_tests_cant": "It is about the rounding errors of all intermediate results for all samples, and about values (huge, tiny, zero, NaN) no test tries.", "anchors": ["include/sampleflow/consumers/average_cosinus.impl.h: AverageCosineBetweenSuccessiveSamples::consume, AverageCosineBetweenSuccessiveSamples::get"]}
{"id": "C92", "title": "The autocovariance matrices in floating point arithmetic", "statement": "AutoCovarianceMatrix::get() returns, for every lag l up to the maximal one and every pair of components (i,j), the autocovariance of the samples up to rounding errors: errors of a few units in the last place per sample, relative to the autocovariance; in particular variances (lag 0, i=j) are never negative.", "quantifier": "every maximal lag, every sequence of samples, every number of components, every correctly rounded arithmetic (any precision; no overflow and underflow)", "why_tests_cant": "It is about the accumulated rounding errors for all samples of all lengths; tests check a few sequences of small numbers, for which nothing cancels.", "anchors": ["include/sampleflow/consumers/auto_covariance_matrix.impl.h: AutoCovarianceMatrix::consume, AutoCovarianceMatrix::get"]}
{"id": "C93", "title": "NaN, infinities and overflow in the autocovariance consumers", "statement": "AutoCovarianceTrace and AutoCovarianceMatrix do not hide samples with NaN or infinite components: every result to which such a component contributes is NaN or infinite from then on, and results for pairs of other components are not affected at all. Conversely, finite samples give finite results.", "quantifier": "every maximal lag, every sequence of samples of any length, every position of the bad sample, every number of components; for NaN every arithmetic in which NaN propagates, for infinities every floating point format, finiteness for IEEE double precision with gradual underflow", "why_tests_cant": "It is about all positions of a bad value in all histories, and about sizes of samples no test tries.", "anchors": ["include/sampleflow/consumers/auto_covariance_trace.impl.h: AutoCovarianceTrace::consume, AutoCovarianceTrace::get", "include/sampleflow/consumers/auto_covariance_matrix.impl.h: AutoCovarianceMatrix::consume, AutoCovarianceMatrix::get"]}
{"id": "C94", "title": "Networks in which filters and consumers are shared", "statement": "Filters and consumers may be connected to several producers and filters and several times to the same one. As long as there are no circles, every connection delivers exactly what its source sends: the samples and flushes of a producer, or what a filter passes on of all the calls it has received from all its sources, all of it, in order, and nothing else; a filter without memory on the way means one copy per path, in the order of the connections. What a component receives depends only on what is upstream of it. If filters are connected in a circle, no call of sample() that reaches it ends normally.", "quantifier": "every directed graph of producers, filters and consumers with any multiplicity of connections, all filters with internal state, every program that issues samples from and flushes any of the producers in any order, every depth of the stack; all components in synchronous mode, one thread", "why_tests_cant": "The number of graphs, connection orders and histories is unbounded; tests use a few small trees.", "anchors": ["include/sampleflow/consumer.impl.h: Consumer::connect_to_producer, Consumer::flush", "include/sampleflow/filter.impl.h: Filter::consume, Filter::flush", "include/sampleflow/producer.impl.h: Producer::issue_sample, Producer::flush_consumers, Producer::connect_to_signals"]}
{"id": "C95", "title": "Metropolis-Hastings with rounding errors and a random number generator of finite resolution", "statement": "Rounding errors and the finite resolution of the random number generator have only proportional effects. If the log likelihoods (between -L and L) are computed with errors of at most eta, the floating-point operations of the sampler and the proposal ratios have relative errors of at most delta, and the random number generator returns N equally probable numbers 0, 1/N, ..., (N-1)/N, then proposals are accepted with probabilities that are wrong by at most epsilon = 2 eta + (4 L + 6) delta + 1/N. For every such sampler, from every starting point, MeanValue, Histogram and CovarianceMatrix approach the values for the target distribution in mean square up to K/n + K epsilon^2 (and, for MeanValue and Histogram, with probability one up to K epsilon), with K depending only on the target and the proposals. If MeanValue and CovarianceMatrix round their operations too, their rounding errors (C63) come in addition. The effect is not proportional for rare states: if the weight of a state is less than 1/N of that of its neighbour, it is visited with frequency 1/(N+1) however small the weight is.", "quantifier": "all finite sample spaces, target distributions (including zero probabilities), connected proposal distributions, floating-point types with any operations, errors and resolutions, all functions of the samples, all starting points and all numbers of samples", "why_tests_cant": "The statement is about probabilities over all runs, about limits, and about all possible rounding errors; a test sees one run on one machine.", "anchors": ["include/sampleflow/producers/metropolis_hastings.impl.h: MetropolisHastings::sample", "include/sampleflow/consumers/mean_value.impl.h: MeanValue::consume", "include/sampleflow/consumers/histogram.impl.h: Histogram::consume", "include/sampleflow/consumers/covariance_matrix.impl.h: CovarianceMatrix::consume"]}
{"id": "C96", "title": "Pair histograms with many bins", "statement": "PairHistogram::get() reports every bin, row by row, with its corners and the number of samples counted in it, however many bins there are. (The code does this for up to 2^32 bins. With more, for example 65537 in each direction, the elements of the result from number 2^32 on are zero - a rectangle without area, no samples - and the first 2^32 elements are the last 2^32 bins, at wrong positions; the other bins are not reported at all.)", "quantifier": "all subdivisions in both directions with any number of bins, all sequences of samples, all widths of unsigned int", "why_tests_cant": "A histogram with more than 2^32 bins needs more than 150 GB; no unit test constructs one.", "anchors": ["include/sampleflow/consumers/pair_histogram.impl.h: PairHistogram::get"]}
{"id": "C97", "title": "MeanValue and CovarianceMatrix are accurate in IEEE double precision, underflow included", "statement": "In IEEE double precision arithmetic (rounding to nearest, gradual underflow, infinities), for n samples whose components are doubles not larger than M in absolute value: MeanValue::get() returns finite numbers that differ from the exact means by at most 2^-53 M ((n-1)/2+6) + 2^-1075 (n+1)/2, for n up to 2^53 and M up to half of the largest double; CovarianceMatrix::get() returns finite numbers that differ from the exact sample covariances by at most 2^-53 M^2 (9n/2+60) + 2^-1074 n (M+1), for 2 <= n <= 2^47 and M up to 2^509. No assumption is made that results do not underflow.", "quantifier": "all sequences of samples of any dimension with finite components of any size down to the smallest subnormal number", "why_tests_cant": "Tests compare a few results with reference values; the bound holds for every sequence of samples, including those for which intermediate results underflow.", "anchors": ["include/sampleflow/consumers/mean_value.impl.h: MeanValue::consume, MeanValue::get", "include/sampleflow/consumers/covariance_matrix.impl.h: CovarianceMatrix::consume, CovarianceMatrix::get"]}
{"id": "C98", "title": "CovarianceMatrix for integer samples", "statement": "For samples of type int (a type CovarianceMatrix accepts), get() returns the sample variance up to the truncation of the result to an integer. (The code does this if all samples are equal, and for two samples in ascending order. In general it does not: every single update is truncated to an integer, so that after m equal samples c all samples between c and c+D with 2D^2 <= m are ignored, and the reported variance stays 0 while the exact one exceeds D^2/4; and the samples 1, 1, 0, 1 lead to undefined behaviour.)", "quantifier": "all sequences of 32 bit integer samples, in the arithmetic of IEEE doubles and 32/64 bit integers", "why_tests_cant": "The result depends on the whole history of samples; tests use floating point samples.", "anchors": ["include/sampleflow/consumers/covariance_matrix.impl.h: CovarianceMatrix::consume, CovarianceMatrix::get"]}
{"id": "C99", "title": "Delayed rejection sampling in IEEE double precision", "statement": "In double precision arithmetic, with rounding, underflow, overflow, infinities and NaN, DelayedRejectionMetropolisHastings with up to two proposals per sample decides as the algorithm prescribes: a first proposal at least as likely as the current sample is always accepted; after a rejected first proposal, a second one at least as likely as the current sample is always accepted, and a second one not more likely than the first is always rejected (for random numbers > 0). The probability that the first proposal is accepted, and that the first is rejected and the second accepted, are those of the exact algorithm up to 11*2^-53, if std::exp is correctly rounded.", "quantifier": "all finite log likelihoods (for the probabilities: doubles up to half of the largest one), all random numbers in [0,1], every rounding with the properties of IEEE arithmetic, every monotone std::exp with exp(0)=1 and a bounded error", "why_tests_cant": "The acceptance ratio of the second stage is a quotient of differences that cancel; for nearly equal log likelihoods, or very different ones, numerator, denominator or exponentials are rounded to 0, 1 or infinity. Tests see a few values.", "anchors": ["include/sampleflow/producers/delayed_rejection_mh.impl.h: alpha_fn, DelayedRejectionMetropolisHastings::sample"]}
{"id": "C100", "title": "MetropolisHastings in IEEE double precision", "statement": "In double precision arithmetic with rounding, underflow and overflow, MetropolisHastings accepts each proposal with the probability of the exact algorithm up to the errors of the user's functions plus about 10^-15 (symmetric proposals) or 1430*2^-53 (any ratio that is a normal double), whatever the size of the log likelihoods and their differences; with symmetric proposals, a proposal at least as likely as the current sample is always accepted; one of zero probability never is. So the mean reported by a MeanValue converges to the mean of the target up to an error proportional to these.", "quantifier": "all samples and proposals, all double valued log likelihoods other than +-numeric_limits::max(), all ratios between 2^-1022 and the largest double, all random numbers k/N, all lengths of runs", "why_tests_cant": "exp overflows and underflows, differences of large numbers are rounded; tests use likelihoods of moderate size, and cannot see errors of acceptance probabilities.", "anchors": ["include/sampleflow/producers/metropolis_hastings.impl.h: MetropolisHastings::sample"]}
{"id": "C101", "title": "Counters of the differential evaluation sampler as machine words", "statement": "Called with any number of samples that std::size_t can represent, DifferentialEvaluationMetropolisHastings::sample ends and has issued exactly this number of samples. (The code does this if n_samples plus the number of chains is at most 2^64, whatever functions throw. If the number of chains is a power of two, at least 4, this condition is also necessary: otherwise generation*n_chains wraps around before it reaches n_samples, and the call issues samples forever.)", "quantifier": "all numbers of samples, word widths, starting points, crossover gaps, worlds (user functions, consumers, random numbers, exceptions)", "why_tests_cant": "No test can run for 2^64 samples.", "anchors": ["include/sampleflow/producers/differential_evaluation_mh.impl.h: DifferentialEvaluationMetropolisHastings::sample", "include/sampleflow/types.impl.h: types::sample_index"]}
{"id": "C102", "title": "Acceptance decision of the differential evaluation sampler in IEEE double precision", "statement": "In double precision with rounding, overflow and underflow, a task of DifferentialEvaluationMetropolisHastings accepts its trial sample with probability min(1, exp(lz-lx)/r), up to the errors of std::exp, a few rounding errors, and the resolution 1/N of the random numbers, whatever the size of the log likelihoods lz, lx; from a sample of zero density it accepts every trial of positive density; a trial of zero density is accepted exactly if the random number is 0, and never if the current sample has zero density, too.", "quantifier": "all floating point log likelihoods, proposal ratios, floating point formats, states of the chains, worlds, numbers of random numbers", "why_tests_cant": "Probabilities cannot be observed, and the exceptional cases (overflow of the difference, of the exponential, of the quotient; NaN) depend on single bits of the values.", "anchors": ["include/sampleflow/producers/differential_evaluation_mh.impl.h: DifferentialEvaluationMetropolisHastings::sample"]}
