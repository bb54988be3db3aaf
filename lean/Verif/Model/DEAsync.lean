import Verif.Model.DifferentialEvaluation

/-!
# DifferentialEvaluationMetropolisHastings with asynchronous likelihood execution

include/sampleflow/producers/differential_evaluation_mh.impl.h 148-325 with
`asynchronous_likelihood_execution = true`, as a small-step system: the main thread and one thread per task of the
current generation take steps in any order.

`std::async(task)` (line 285) is called with the default policy `launch::async | launch::deferred`: the task may run
in another thread, or be executed by the main thread when it calls `get()`, or, if deferred and `get()` is never
called, not at all.  All of these are schedules of this model: a task that has not started may start at any time, and
when the function is left with an exception it may stay unstarted, while started tasks are waited for (the
destructor of the futures returned by `std::async`).

The log likelihood is a function `L` that may throw: it can be called from several threads.  Its calls are not
recorded in the trace, which is the trace of the main thread.  A step of the main thread in the first loop
determines the trial sample, draws the random number and creates the task; it reads `current_samples`, which no
task writes.

Simplifications: sequentially consistent memory at the granularity of elements of the arrays (justified by the absence
of data races, which is proved, except for `std::vector<bool>` whose elements share memory).
-/

universe u

namespace SampleFlow.DEAsync

open SampleFlow

variable {W : Type u} {S D E : Type}

/-- Where a task is, lines 258-276. -/
inductive Pc (D E : Type) where
  /-- not started -/
  | fresh
  /-- line 258 is done: the trial log likelihood -/
  | evaluated (ll : D)
  /-- lines 261-266 are done: the decision -/
  | decided (ll : D) (accepted : Bool)
  /-- line 269 is done -/
  | wroteNext (ll : D)
  /-- returned or thrown: what the future contains -/
  | done (r : Except E Bool)

/-- A task with the position of its thread. Its chain number is its position in the list of tasks.
(The lambda function in differential_evaluation_mh.impl.h 248-291.) -/
structure ATask (S D E : Type) where
  data : DETask S D
  pc : Pc D E

/-- Where the main thread is.
(differential_evaluation_mh.impl.h 187-324.) -/
inductive Phase (E : Type) where
  /-- in the first loop over the chains (line 197), about to look at chain `k` -/
  | creating (k : Nat)
  /-- in the second loop over the chains (line 304) -/
  | issuing (k : Nat)
  /-- leaving the function: normally or with an exception; destroys the futures, then flushes the consumers -/
  | leaving (r : Except (Stop E) Unit)
  /-- the function has been left -/
  | finished (r : Except (Stop E) Unit)

/-- The state of the system: the shared arrays are `st`.
(Local variables of differential_evaluation_mh.impl.h 158-195.) -/
structure Config (W : Type u) (S D E : Type) where
  phase : Phase E
  gen : Nat
  st : DEState S D
  tasks : List (ATask S D E)
  world : W
  trace : List (Event S D)

/-- The arguments of `sample`.
(differential_evaluation_mh.impl.h 148-157.) -/
structure Params (W : Type u) (S D E : Type) where
  env : World W S D (Stop E)
  likelihood : S → Except E D
  starts : List S
  gap : Nat
  nSamples : Nat

namespace Params

/-- the number of chains
(`n_chains`, differential_evaluation_mh.impl.h 158.) -/
def n (p : Params W S D E) : Nat := p.starts.length

/-- chain `k` takes part in generation `gen`: loop condition and break of lines 197-201 and 304-309 -/
def Active (p : Params W S D E) (gen k : Nat) : Prop := k < p.n ∧ gen * p.n + k < p.nSamples

/-- where the main thread continues at the beginning of generation `gen`, line 187 -/
def nextPhase (p : Params W S D E) (gen : Nat) : Phase E :=
  if gen * p.n < p.nSamples then .creating 0 else .leaving (.ok ())

end Params

/-- `creating k`: the trial sample of chain `k` and its task, or an exception, lines 203-285. -/
def afterCreate (c : Config W S D E) (k : Nat) :
    List (Event S D) × Except (Stop E) (DETask S D) × W → Config W S D E
  | (tr, .ok t, w) => { c with phase := .creating (k + 1), tasks := c.tasks ++ [⟨t, .fresh⟩], world := w, trace := c.trace ++ tr }
  | (tr, .error e, w) => { c with phase := .leaving (.error e), world := w, trace := c.trace ++ tr }

/-- `issuing k`: the sample has been issued, or a consumer has thrown, lines 315-320. -/
def afterIssue (c : Config W S D E) (k : Nat) : List (Event S D) × Except (Stop E) Unit × W → Config W S D E
  | (tr, .ok _, w) => { c with phase := .issuing (k + 1), world := w, trace := c.trace ++ tr }
  | (tr, .error e, w) => { c with phase := .leaving (.error e), world := w, trace := c.trace ++ tr }

/-- The task is not running.
(Before or after the lambda of differential_evaluation_mh.impl.h 248-291.) -/
def ATask.AtRest (t : ATask S D E) : Prop := t.pc = .fresh ∨ ∃ r, t.pc = .done r

/-- the state with a new position of task `i`
(Scaffolding; no lines of its own in the code.) -/
def Config.setPc (c : Config W S D E) (i : Nat) (t : DETask S D) (pc : Pc D E) : Config W S D E :=
  { c with tasks := c.tasks.set i ⟨t, pc⟩ }

variable [FloatOps D]

/-- One step of task `i`.
(differential_evaluation_mh.impl.h 248-291; the constructors say which part.) -/
inductive TaskStep (p : Params W S D E) (i : Nat) (c : Config W S D E) : Config W S D E → Prop
  /-- line 258 -/
  | evaluate (t : DETask S D) (d : D) (h : c.tasks[i]? = some ⟨t, .fresh⟩) (hL : p.likelihood t.trial = .ok d) :
      TaskStep p i c (c.setPc i t (.evaluated d))
  /-- line 258: the likelihood function throws, the exception is stored in the future -/
  | throw (t : DETask S D) (e : E) (h : c.tasks[i]? = some ⟨t, .fresh⟩) (hL : p.likelihood t.trial = .error e) :
      TaskStep p i c (c.setPc i t (.done (.error e)))
  /-- lines 261-266 -/
  | decide (t : DETask S D) (d ll : D) (h : c.tasks[i]? = some ⟨t, .evaluated d⟩) (hl : c.st.lls[i]? = some ll) :
      TaskStep p i c (c.setPc i t (.decided d (deAccept t d ll)))
  /-- line 269 -/
  | writeNext (t : DETask S D) (d : D) (h : c.tasks[i]? = some ⟨t, .decided d true⟩) (hn : i < c.st.next.length) :
      TaskStep p i c { c.setPc i t (.wroteNext d) with st := { c.st with next := c.st.next.set i t.trial } }
  /-- line 270 and return -/
  | writeLL (t : DETask S D) (d : D) (h : c.tasks[i]? = some ⟨t, .wroteNext d⟩) (hn : i < c.st.lls.length) :
      TaskStep p i c { c.setPc i t (.done (.ok true)) with st := { c.st with lls := c.st.lls.set i d } }
  /-- line 273 and return -/
  | keep (t : DETask S D) (d : D) (x : S) (h : c.tasks[i]? = some ⟨t, .decided d false⟩) (hx : c.st.cur[i]? = some x)
      (hn : i < c.st.next.length) :
      TaskStep p i c { c.setPc i t (.done (.ok false)) with st := { c.st with next := c.st.next.set i x } }

/-- One step of the main thread.
(differential_evaluation_mh.impl.h 187-324; the constructors say which part.) -/
inductive MainStep (p : Params W S D E) (c : Config W S D E) : Config W S D E → Prop
  /-- lines 197-285 for one chain -/
  | create (k : Nat) (h : c.phase = .creating k) (ha : p.Active c.gen k) :
      MainStep p c (afterCreate c k (deMakeTask p.env p.gap c.gen c.st.cur k c.world))
  /-- the first loop ends -/
  | created (k : Nat) (h : c.phase = .creating k) (ha : ¬ p.Active c.gen k) :
      MainStep p c { c with phase := .issuing 0 }
  /-- lines 304-320 for one chain: waits for the future -/
  | issue (k : Nat) (h : c.phase = .issuing k) (ha : p.Active c.gen k) (t : DETask S D) (accepted : Bool)
      (hd : c.tasks[k]? = some ⟨t, .done (.ok accepted)⟩) (x : S) (hx : c.st.next[k]? = some x)
      (ll : D) (hl : c.st.lls[k]? = some ll) :
      MainStep p c (afterIssue c k (callIssue p.env x (deAux ll (!accepted) k) c.world))
  /-- line 314: `get()` rethrows the exception of the task -/
  | rethrow (k : Nat) (h : c.phase = .issuing k) (ha : p.Active c.gen k) (t : DETask S D) (e : E)
      (hd : c.tasks[k]? = some ⟨t, .done (.error e)⟩) :
      MainStep p c { c with phase := .leaving (.error (.exception e)) }
  /-- the second loop ends, line 323; the futures (all have been waited for) are destroyed; line 187 -/
  | advance (k : Nat) (h : c.phase = .issuing k) (ha : ¬ p.Active c.gen k) :
      MainStep p c { c with
        phase := p.nextPhase (c.gen + 1), gen := c.gen + 1, st := { c.st with cur := c.st.next }, tasks := [] }
  /-- the futures are destroyed, which waits for started tasks; then `ScopeExit` flushes the consumers -/
  | leave (r : Except (Stop E) Unit) (h : c.phase = .leaving r) (hw : ∀ t ∈ c.tasks, t.AtRest) :
      MainStep p c { c with phase := .finished r, tasks := [], world := p.env.flush c.world, trace := c.trace ++ [.flushed] }

/-- One step of the system.
(differential_evaluation_mh.impl.h 187-324.) -/
inductive Step (p : Params W S D E) (c c' : Config W S D E) : Prop
  | main (h : MainStep p c c')
  | task (i : Nat) (h : TaskStep p i c c')

/-- The likelihoods of the starting points, lines 175-177. -/
def initialLikelihoods (L : S → Except E D) : List S → Except E (List D)
  | [] => .ok []
  | x :: xs =>
    match L x with
    | .error e => .error e
    | .ok d => match initialLikelihoods L xs with
      | .error e => .error e
      | .ok ds => .ok (d :: ds)

omit [FloatOps D] in
/-- The state after lines 157-184. -/
def initial (p : Params W S D E) (w : W) : Config W S D E :=
  match initialLikelihoods p.likelihood p.starts with
  | .ok lls => ⟨p.nextPhase 0, 0, ⟨p.starts, p.starts, lls⟩, [], w, []⟩
  | .error e => ⟨.leaving (.error (.exception e)), 0, ⟨p.starts, p.starts, []⟩, [], w, []⟩

/-- The states that some schedule leads to.
(Scaffolding: all schedules of differential_evaluation_mh.impl.h 187-324.) -/
inductive Reachable (p : Params W S D E) (w : W) : Config W S D E → Prop
  | start : Reachable p w (initial p w)
  | step {c c'} (h : Reachable p w c) (hs : Step p c c') : Reachable p w c'

/-! ## memory accesses -/

/-- Memory locations shared by the threads.
(The vectors of differential_evaluation_mh.impl.h 174-181.) -/
inductive Loc where
  | cur (i : Nat)
  | next (i : Nat)
  | ll (i : Nat)

/-- The threads: the main thread, and one for each task.
(`std::async` in differential_evaluation_mh.impl.h 284-291.) -/
inductive Thread where
  | main
  | task (i : Nat)
deriving DecidableEq

/-- `Accesses p c th l write`: the next step of thread `th` in state `c` reads (or writes) location `l`.  A thread that
waits for a future has no next step and accesses none of the arrays.  When the function is left, the arrays are destroyed.
(differential_evaluation_mh.impl.h 187-324.) -/
inductive Accesses (p : Params W S D E) (c : Config W S D E) : Thread → Loc → (write : Bool) → Prop
  | create (k i : Nat) (h : c.phase = .creating k) (ha : p.Active c.gen k) : Accesses p c .main (.cur i) false
  | issueNext (k : Nat) (h : c.phase = .issuing k) (ha : p.Active c.gen k) (hs : ∃ c', MainStep p c c') :
      Accesses p c .main (.next k) false
  | issueLL (k : Nat) (h : c.phase = .issuing k) (ha : p.Active c.gen k) (hs : ∃ c', MainStep p c c') :
      Accesses p c .main (.ll k) false
  | advanceCur (k i : Nat) (h : c.phase = .issuing k) (ha : ¬ p.Active c.gen k) : Accesses p c .main (.cur i) true
  | advanceNext (k i : Nat) (h : c.phase = .issuing k) (ha : ¬ p.Active c.gen k) : Accesses p c .main (.next i) false
  | destroy (r : Except (Stop E) Unit) (h : c.phase = .leaving r) (hs : ∃ c', MainStep p c c') (l : Loc) :
      Accesses p c .main l true
  | decide (i : Nat) (t : DETask S D) (d : D) (h : c.tasks[i]? = some ⟨t, .evaluated d⟩) :
      Accesses p c (.task i) (.ll i) false
  | writeNext (i : Nat) (t : DETask S D) (d : D) (h : c.tasks[i]? = some ⟨t, .decided d true⟩) :
      Accesses p c (.task i) (.next i) true
  | writeLL (i : Nat) (t : DETask S D) (d : D) (h : c.tasks[i]? = some ⟨t, .wroteNext d⟩) :
      Accesses p c (.task i) (.ll i) true
  | keepCur (i : Nat) (t : DETask S D) (d : D) (h : c.tasks[i]? = some ⟨t, .decided d false⟩) :
      Accesses p c (.task i) (.cur i) false
  | keepNext (i : Nat) (t : DETask S D) (d : D) (h : c.tasks[i]? = some ⟨t, .decided d false⟩) :
      Accesses p c (.task i) (.next i) true

end SampleFlow.DEAsync
