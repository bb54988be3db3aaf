import Mathlib.Logic.Relation

/-!
# Memory accesses of the member functions of consumers and filters

Which member variables the functions read and write, and when they hold the mutex of the object: the level of the C++ memory model, in
which two accesses of the same memory location by different threads, at least one of which is a write, are a *data race* (undefined
behaviour) unless one happens before the other.

A function with branches is listed once per branch (`Fn`).  Member variables that are modified as a whole (`current_mean`,
`previous_samples`, ...) are one location, a coarsening that can only add conflicts; the elements of `bins` of the histograms are
separate locations, and so is the memory that holds the size of `bins`.

Objects have three mutexes: `mutex` of the derived class and the two mutexes of the base class `Consumer`, of which `synchronous_mode_mutex` is
a `std::shared_mutex`.

Simplifications: a wait for a future orders more things than this model knows (so there are fewer executions with races in reality, not
more); a recursive lock, undefined in C++, blocks for ever; the atomic members (`parallel_mode`, `queue_size`) cannot take part in a data
race and are left out.  Not part of this model: the accesses of user functions other than that of `Action`, the producers, and the
code of `boost::signals2`.
-/

namespace SampleFlow.Races

/-- Memory locations: member variable `name` (element `index`) of the object number `object`; an output stream that belongs to
nobody (`StreamOutput` stores a reference, stream_output.impl.h 96-100). -/
inductive Loc where
  | member (object : Nat) (name : String) (index : Nat)
  | stream (number : Nat)
deriving DecidableEq

/-- The mutexes of an object.
(consumer.impl.h 232-283; e.g. mean_value.impl.h 134-145.) -/
inductive Mutex where
  | derived (object : Nat)
  | asynchronousMode (object : Nat)
  | synchronousMode (object : Nat)
deriving DecidableEq

/-- What a thread does.
(Scaffolding: accesses in the sense of the C++ memory model.) -/
inductive Act where
  | lock (m : Mutex)
  | unlock (m : Mutex)
  | lockShared (m : Mutex)
  | unlockShared (m : Mutex)
  | read (l : Loc)
  | write (l : Loc)
deriving DecidableEq

/-- Member functions, by branch.
(consume() and get() of consumers/*.impl.h and filter() of filters/*.impl.h, at the lines cited in their models, e.g. mean_value.impl.h 173-213.) -/
inductive Fn where
  | meanConsumeFirst | meanConsumeNext | meanGet
  | covConsumeFirst | covConsumeNext | covGet
  | countConsume | countGet
  | lastConsume | lastGet
  | maxConsumeFirst | maxConsumeBetter | maxConsumeWorse | maxConsumeNoData | maxGet
  | ratioConsumeFirst | ratioConsumeEqual | ratioConsumeDifferent | ratioGet
  | cosConsumeFirst | cosConsumeNext | cosGet
  | traceConsumeFirst | traceConsumeNext | traceGet
  | matrixConsumeFirst | matrixConsumeNext | matrixGet
  | histConsumeOutside | histConsume (bin : Nat) | histGet (bins : Nat) | histCopy (bins : Nat)
  | pairConsumeOutside | pairConsume (xBin yBin columns : Nat) | pairGet (rows columns : Nat) | pairCopy (rows columns : Nat)
  | streamConsume
  | actionConsume (allowConcurrent : Bool)
  | takePass | takeDrop
  | discardPass | discardDrop
  | receiveSevered | receiveAsync | receiveAsyncSevered
  | flush | disconnectAndFlush | disconnectFrom (assertions : Bool) | connect | setParallelMode (assertions : Bool)
deriving DecidableEq

/-- `++x`
(E.g. count_samples.impl.h 119-127.) -/
def increment (l : Loc) : List Act := [.read l, .write l]

/-- The body of a function under `std::lock_guard<std::mutex> lock(mutex)`.
(E.g. mean_value.impl.h 173-213.) -/
def locked (o : Nat) (body : List Act) : List Act := [.lock (.derived o)] ++ body ++ [.unlock (.derived o)]

/-- The accesses of a member function of object `o`; `streamOf o` is the stream of a `StreamOutput`.
(consume() and get() of consumers/*.impl.h, e.g. mean_value.impl.h 173-213.) -/
def accesses (streamOf : Nat → Nat) (o : Nat) : Fn → List Act
  -- mean_value.impl.h 177-200
  | .meanConsumeFirst => locked o [.read (.member o "n_samples" 0), .write (.member o "n_samples" 0), .write (.member o "current_mean" 0)]
  | .meanConsumeNext => locked o ([.read (.member o "n_samples" 0)] ++ increment (.member o "n_samples" 0) ++
      [.read (.member o "current_mean" 0), .read (.member o "n_samples" 0)] ++ increment (.member o "current_mean" 0))
  -- mean_value.impl.h 207-213
  | .meanGet => locked o [.read (.member o "current_mean" 0)]
  -- covariance_matrix.impl.h 155-174
  | .covConsumeFirst => locked o [.read (.member o "n_samples" 0), .write (.member o "n_samples" 0),
      .write (.member o "current_covariance_matrix" 0), .write (.member o "current_mean" 0)]
  -- covariance_matrix.impl.h 175-197
  | .covConsumeNext => locked o ([.read (.member o "n_samples" 0)] ++ increment (.member o "n_samples" 0) ++ [.read (.member o "current_mean" 0),
      .read (.member o "n_samples" 0)] ++ increment (.member o "current_covariance_matrix" 0) ++
      [.read (.member o "current_mean" 0), .read (.member o "n_samples" 0)] ++ increment (.member o "current_mean" 0))
  -- covariance_matrix.impl.h 201-210
  | .covGet => locked o [.read (.member o "current_covariance_matrix" 0)]
  -- count_samples.impl.h 119-127, 131-139
  | .countConsume => locked o (increment (.member o "n_samples" 0))
  | .countGet => locked o [.read (.member o "n_samples" 0)]
  -- last_sample.impl.h 99-107, 111-119
  | .lastConsume => locked o [.write (.member o "last_sample" 0)]
  | .lastGet => locked o [.read (.member o "last_sample" 0)]
  -- maximum_probability_sample.impl.h 151-183: the auxiliary data is an argument, it is read before the lock
  | .maxConsumeFirst => locked o [.read (.member o "current_highest_log_likelihood" 0), .write (.member o "current_most_likely_sample" 0),
      .write (.member o "current_most_likely_sample_data" 0), .write (.member o "current_highest_log_likelihood" 0)]
  | .maxConsumeBetter => locked o [.read (.member o "current_highest_log_likelihood" 0), .read (.member o "current_highest_log_likelihood" 0),
      .write (.member o "current_most_likely_sample" 0), .write (.member o "current_most_likely_sample_data" 0),
      .write (.member o "current_highest_log_likelihood" 0)]
  | .maxConsumeWorse => locked o [.read (.member o "current_highest_log_likelihood" 0), .read (.member o "current_highest_log_likelihood" 0)]
  | .maxConsumeNoData => []
  -- maximum_probability_sample.impl.h 187-194
  | .maxGet => locked o [.read (.member o "current_most_likely_sample" 0), .read (.member o "current_most_likely_sample_data" 0)]
  -- acceptance_ratio.impl.h 190-224
  | .ratioConsumeFirst => locked o [.read (.member o "n_samples" 0), .write (.member o "n_samples" 0), .write (.member o "n_accepted_samples" 0),
      .write (.member o "previous_sample" 0)]
  | .ratioConsumeEqual => locked o ([.read (.member o "n_samples" 0), .read (.member o "previous_sample" 0)] ++ increment (.member o "n_samples" 0))
  | .ratioConsumeDifferent => locked o ([.read (.member o "n_samples" 0), .read (.member o "previous_sample" 0)] ++
      increment (.member o "n_accepted_samples" 0) ++ [.write (.member o "previous_sample" 0)] ++ increment (.member o "n_samples" 0))
  -- acceptance_ratio.impl.h 228-241
  | .ratioGet => locked o [.read (.member o "n_samples" 0), .read (.member o "n_accepted_samples" 0), .read (.member o "n_samples" 0)]
  -- average_cosinus.impl.h 156-184; history_length is constant
  | .cosConsumeFirst => locked o [.read (.member o "n_samples" 0), .read (.member o "history_length" 0), .write (.member o "current_avg_cosine" 0),
      .write (.member o "n_samples" 0), .write (.member o "previous_sample" 0), .write (.member o "previous_sample_replace" 0)]
  -- average_cosinus.impl.h 185-222
  | .cosConsumeNext => locked o ([.read (.member o "n_samples" 0), .read (.member o "history_length" 0)] ++ increment (.member o "n_samples" 0) ++
      [.read (.member o "previous_sample" 0), .read (.member o "n_samples" 0)] ++ increment (.member o "current_avg_cosine" 0) ++
      [.read (.member o "previous_sample" 0), .write (.member o "previous_sample_replace" 0), .read (.member o "previous_sample_replace" 0),
       .write (.member o "previous_sample" 0)])
  -- average_cosinus.impl.h 226-235
  | .cosGet => locked o [.read (.member o "current_avg_cosine" 0)]
  -- auto_covariance_trace.impl.h 413-446; max_lag is constant
  | .traceConsumeFirst => locked o [.read (.member o "n_samples" 0), .read (.member o "max_lag" 0), .write (.member o "alpha" 0),
      .write (.member o "beta" 0), .write (.member o "current_mean" 0), .write (.member o "previous_samples" 0), .write (.member o "n_samples" 0)]
  -- auto_covariance_trace.impl.h 447-510
  | .traceConsumeNext => locked o ([.read (.member o "n_samples" 0)] ++ increment (.member o "previous_samples" 0) ++
      [.read (.member o "max_lag" 0), .read (.member o "n_samples" 0), .read (.member o "previous_samples" 0)] ++ increment (.member o "alpha" 0) ++
      increment (.member o "beta" 0) ++ increment (.member o "previous_samples" 0) ++ increment (.member o "n_samples" 0) ++
      increment (.member o "current_mean" 0))
  -- auto_covariance_trace.impl.h 514-542
  | .traceGet => locked o [.read (.member o "max_lag" 0), .read (.member o "alpha" 0), .read (.member o "current_mean" 0), .read (.member o "beta" 0),
      .read (.member o "n_samples" 0)]
  -- auto_covariance_matrix.impl.h 369-407
  | .matrixConsumeFirst => locked o ([.read (.member o "n_samples" 0), .read (.member o "max_lag" 0), .write (.member o "alpha" 0),
      .write (.member o "beta" 0), .write (.member o "eta" 0), .write (.member o "current_mean" 0)] ++ increment (.member o "previous_samples" 0) ++
      [.write (.member o "n_samples" 0)])
  -- auto_covariance_matrix.impl.h 408-474
  | .matrixConsumeNext => locked o ([.read (.member o "n_samples" 0)] ++ increment (.member o "previous_samples" 0) ++
      [.read (.member o "max_lag" 0), .read (.member o "n_samples" 0), .read (.member o "previous_samples" 0)] ++ increment (.member o "alpha" 0) ++
      increment (.member o "beta" 0) ++ increment (.member o "eta" 0) ++ increment (.member o "previous_samples" 0) ++
      increment (.member o "n_samples" 0) ++ increment (.member o "current_mean" 0))
  -- auto_covariance_matrix.impl.h 478-514
  | .matrixGet => locked o [.read (.member o "max_lag" 0), .read (.member o "alpha" 0), .read (.member o "current_mean" 0), .read (.member o "eta" 0),
      .read (.member o "beta" 0), .read (.member o "n_samples" 0)]
  -- histogram.impl.h 324-342, bin_number 399-419: only the counter is accessed under the lock
  | .histConsumeOutside => [.read (.member o "interval_points" 0)]
  | .histConsume bin => [.read (.member o "interval_points" 0), .read (.member o "bins.size" 0)] ++ locked o (increment (.member o "bins" bin))
  -- histogram.impl.h 346-372 (also write_gnuplot, 376-395)
  | .histGet bins => [.read (.member o "bins.size" 0), .read (.member o "interval_points" 0)] ++
      locked o ([.read (.member o "bins.size" 0)] ++ (List.range bins).map (fun k => .read (.member o "bins" k)))
  -- histogram.impl.h 303-311: the copy constructor, argument `o`; the new object is not known to other threads
  | .histCopy bins => [.read (.member o "interval_points" 0), .read (.member o "bins.size" 0)] ++ (List.range bins).map (fun k => .read (.member o "bins" k))
  -- pair_histogram.impl.h 398-426, bin numbers 552-600
  | .pairConsumeOutside => [.read (.member o "x_interval_points" 0), .read (.member o "y_interval_points" 0)]
  | .pairConsume x y columns => [.read (.member o "x_interval_points" 0), .read (.member o "y_interval_points" 0), .read (.member o "bins.size" 0)] ++
      locked o (increment (.member o "bins" (x * columns + y)))
  -- pair_histogram.impl.h 430-463 (also write_gnuplot, 472-548)
  | .pairGet rows columns => [.read (.member o "bins.size" 0), .read (.member o "x_interval_points" 0), .read (.member o "y_interval_points" 0)] ++
      locked o ([.read (.member o "bins.size" 0)] ++ (List.range (rows * columns)).map (fun k => .read (.member o "bins" k)))
  -- pair_histogram.impl.h 374-384
  | .pairCopy rows columns => [.read (.member o "x_interval_points" 0), .read (.member o "y_interval_points" 0), .read (.member o "bins.size" 0)] ++
      (List.range (rows * columns)).map (fun k => .read (.member o "bins" k))
  -- stream_output.impl.h 181-189: the reference is constant, the stream is modified
  | .streamConsume => locked o ([.read (.member o "output_stream" 0)] ++ increment (.stream (streamOf o)))
  -- action.impl.h 174-186: "user data" is what the user function modifies
  | .actionConsume true => [.read (.member o "allow_concurrent_action" 0), .read (.member o "action_function" 0)] ++ increment (.member o "user data" 0)
  | .actionConsume false => [.read (.member o "allow_concurrent_action" 0)] ++
      locked o ([.read (.member o "action_function" 0)] ++ increment (.member o "user data" 0))
  -- take_every_nth.impl.h 126-143
  | .takePass => locked o [.read (.member o "counter" 0), .read (.member o "every_nth" 0), .write (.member o "counter" 0)]
  | .takeDrop => locked o ([.read (.member o "counter" 0), .read (.member o "every_nth" 0)] ++ increment (.member o "counter" 0))
  -- discard_first_n.impl.h 119-133
  | .discardPass => locked o (increment (.member o "counter" 0) ++ [.read (.member o "counter" 0), .read (.member o "initial_n_samples" 0)])
  | .discardDrop => locked o (increment (.member o "counter" 0) ++ [.read (.member o "counter" 0), .read (.member o "initial_n_samples" 0)])
  -- consumer.impl.h 384-393: the sample is ignored because the consumer has been disconnected
  | .receiveSevered => [.lockShared (.synchronousMode o), .read (.member o "connections_to_producers" 0), .unlockShared (.synchronousMode o)]
  -- consumer.impl.h 423-451; the task is a call of `consume` in another thread; trim_background_queue 583-598
  | .receiveAsync => [.lock (.asynchronousMode o), .read (.member o "connections_to_producers" 0)] ++ increment (.member o "background_tasks" 0) ++
      [.unlock (.asynchronousMode o), .lock (.asynchronousMode o)] ++ increment (.member o "background_tasks" 0) ++ [.unlock (.asynchronousMode o)]
  | .receiveAsyncSevered => [.lock (.asynchronousMode o), .read (.member o "connections_to_producers" 0), .unlock (.asynchronousMode o)]
  -- consumer.impl.h 560-579
  | .flush => [.lock (.asynchronousMode o)] ++ increment (.member o "background_tasks" 0) ++ [.unlock (.asynchronousMode o)]
  -- consumer.impl.h 523-556
  | .disconnectAndFlush => [.lock (.asynchronousMode o), .lock (.synchronousMode o)] ++ increment (.member o "connections_to_producers" 0) ++
      [.unlock (.synchronousMode o), .unlock (.asynchronousMode o)] ++
      [.lock (.asynchronousMode o)] ++ increment (.member o "background_tasks" 0) ++ [.unlock (.asynchronousMode o)]
  -- consumer.impl.h 472-495; the assertion in line 474 comes before the locks
  | .disconnectFrom assertions => (if assertions then [.read (.member o "connections_to_producers" 0)] else []) ++
      [.lock (.asynchronousMode o), .lock (.synchronousMode o)] ++ increment (.member o "connections_to_producers" 0) ++
      [.unlock (.synchronousMode o), .unlock (.asynchronousMode o)]
  -- consumer.impl.h 498-500
  | .connect => increment (.member o "connections_to_producers" 0)
  -- consumer.impl.h 512-518
  | .setParallelMode assertions => if assertions then [.read (.member o "connections_to_producers" 0)] else []

/-- What a thread may do: call `allowed` functions, one after the other; and while an object receives a sample in synchronous mode
(consumer.impl.h 384-397), `consume` is called, which in the case of a filter leads to more of that (filter.impl.h 170-188). -/
inductive Code (streamOf : Nat → Nat) (allowed : Nat → Fn → Prop) : List Act → Prop
  | nil : Code streamOf allowed []
  | call (o : Nat) (fn : Fn) (h : allowed o fn) : Code streamOf allowed (accesses streamOf o fn)
  | seq (p q : List Act) : Code streamOf allowed p → Code streamOf allowed q → Code streamOf allowed (p ++ q)
  | receiveSync (o : Nat) (body : List Act) : Code streamOf allowed body →
      Code streamOf allowed ([.lockShared (.synchronousMode o), .read (.member o "connections_to_producers" 0)] ++ body ++
        [.unlockShared (.synchronousMode o)])

/-- Who holds the mutexes, what the threads are still going to do, and what has been done.
(Scaffolding; no lines of its own in the code.) -/
structure State where
  holder : Mutex → Option Nat
  readers : Mutex → List Nat
  threads : List (List Act)
  trace : List (Nat × Act)

/-- Thread `i` does the next thing it has to do; a mutex that is held has to be waited for.
(Scaffolding: schedules.) -/
inductive Step (s : State) : State → Prop
  | lock (i : Nat) (m : Mutex) (rest : List Act) (hi : s.threads[i]? = some (.lock m :: rest)) (hfree : s.holder m = none)
      (hreaders : s.readers m = []) :
      Step s ⟨fun k => if k = m then some i else s.holder k, s.readers, s.threads.set i rest, s.trace ++ [(i, .lock m)]⟩
  | unlock (i : Nat) (m : Mutex) (rest : List Act) (hi : s.threads[i]? = some (.unlock m :: rest)) :
      Step s ⟨fun k => if k = m then none else s.holder k, s.readers, s.threads.set i rest, s.trace ++ [(i, .unlock m)]⟩
  | lockShared (i : Nat) (m : Mutex) (rest : List Act) (hi : s.threads[i]? = some (.lockShared m :: rest)) (hfree : s.holder m = none)
      (hnew : i ∉ s.readers m) :
      Step s ⟨s.holder, fun k => if k = m then i :: s.readers k else s.readers k, s.threads.set i rest, s.trace ++ [(i, .lockShared m)]⟩
  | unlockShared (i : Nat) (m : Mutex) (rest : List Act) (hi : s.threads[i]? = some (.unlockShared m :: rest)) :
      Step s ⟨s.holder, fun k => if k = m then (s.readers k).filter (fun j => j ≠ i) else s.readers k, s.threads.set i rest,
        s.trace ++ [(i, .unlockShared m)]⟩
  | read (i : Nat) (l : Loc) (rest : List Act) (hi : s.threads[i]? = some (.read l :: rest)) :
      Step s ⟨s.holder, s.readers, s.threads.set i rest, s.trace ++ [(i, .read l)]⟩
  | write (i : Nat) (l : Loc) (rest : List Act) (hi : s.threads[i]? = some (.write l :: rest)) :
      Step s ⟨s.holder, s.readers, s.threads.set i rest, s.trace ++ [(i, .write l)]⟩

/-- The threads have not begun.
(Scaffolding; no lines of its own in the code.) -/
def initial (threads : List (List Act)) : State where
  holder := fun _ => none
  readers := fun _ => []
  threads := threads
  trace := []

/-- `t` is what some schedule of the threads does, completely or up to some point.
(Scaffolding: schedules.) -/
def Execution (threads : List (List Act)) (t : List (Nat × Act)) : Prop :=
  ∃ s, Relation.ReflTransGen Step (initial threads) s ∧ s.trace = t

end SampleFlow.Races
