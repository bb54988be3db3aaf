/-!
# Common vocabulary of the model

Outcomes of partial C++ operations, and the pair (sample, auxiliary data) that
travels through a SampleFlow network.
-/

namespace SampleFlow

/-- How an execution can fail.  `assertion`: an `assert(...)` of the library does not hold
(program abort in debug mode).  `ub`: undefined behaviour (out of bounds access, division by
zero, use of a destroyed object, ...).  `thrown e`: a C++ exception `e` propagates.
(E.g. `assert` in histogram.impl.h 405, out-of-range access in delayed_rejection_mh.impl.h 183.) -/
inductive Fault where
  | assertion
  | ub
  | thrown (code : Nat)
deriving DecidableEq, Repr

/-- What a producer issues and a consumer consumes: `(sample, aux_data)`, the two arguments of
`Producer::issue_sample` (include/sampleflow/producer.impl.h 129) and `Consumer::consume`
(include/sampleflow/consumer.impl.h 154-156).
`A` stands for `AuxiliaryData` (include/sampleflow/auxiliary_data.impl.h, a
`std::map<std::string,boost::any>`), about which the filters know nothing. -/
abbrev Msg (α A : Type) := α × A

end SampleFlow
