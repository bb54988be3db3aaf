import Verif.Model.Network

/-!
# Connections between producers and consumers over time

Producers and consumers are numbered; a `Filter` object is a consumer number together with a producer
number.  One thread.  Assertions are enabled.  Objects are taken to exist from the beginning; after
destruction any use of them is undefined behaviour.
-/

namespace SampleFlow

/-- One connection as seen by a producer: the slots that the consumer `cons` put into the three
signals when it made its connection number `conn` in parallel mode `mode`
(producer.impl.h 219-238, consumer.impl.h 357-467). -/
structure Slot where
  conn : Nat
  cons : Nat
  mode : Nat
deriving DecidableEq

/-- A producer: its three signals (producer.impl.h 129, 177, 186) as lists of slots in the order of
connection. -/
structure ProdState where
  alive : Bool
  issue : List Slot
  flush : List Slot
  disc : List Slot

/-- A consumer: `connections_to_producers` (consumer.impl.h 232-234) as the list of
(producer, connection number) in the order of insertion; `parallel_mode`; `supported_parallel_modes`;
and the calls of `consume()` and `flush()` it has received. -/
structure ConsState (V : Type) where
  alive : Bool
  conns : List (Nat × Nat)
  mode : Nat
  supported : Nat
  log : List (NetEvent V)

/-- All objects, and the number of the next connection.
(Members of consumer.impl.h 232-283 and producer.impl.h 129-186.) -/
structure Objects (V : Type) where
  prod : Nat → ProdState
  cons : Nat → ConsState V
  next : Nat

variable {V : Type}

/-- Constructors: consumer.impl.h 299-304 (mode `synchronous` = 1 whatever is supported), producers
without connections. -/
def Objects.init (supported : Nat → Nat) : Objects V where
  prod := fun _ => ⟨true, [], [], []⟩
  cons := fun c => ⟨true, [], 1, supported c, []⟩
  next := 0

/-- Replace one producer.
(Scaffolding; no lines of its own in the code.) -/
def Objects.setProd (w : Objects V) (p : Nat) (s : ProdState) : Objects V :=
  { w with prod := fun q => if q = p then s else w.prod q }

/-- Replace one consumer.
(Scaffolding; no lines of its own in the code.) -/
def Objects.setCons (w : Objects V) (c : Nat) (s : ConsState V) : Objects V :=
  { w with cons := fun d => if d = c then s else w.cons d }

/-- `boost::signals2::connection::disconnect()` for the three connections with number `k` in producer
`p`.
(Called in consumer.impl.h 488-490, 547-549.) -/
def Objects.disconnectSlots (w : Objects V) (p k : Nat) : Objects V :=
  let s := w.prod p
  w.setProd p { s with
    issue := s.issue.filter (fun x => x.conn ≠ k),
    flush := s.flush.filter (fun x => x.conn ≠ k),
    disc := s.disc.filter (fun x => x.conn ≠ k) }

/-- `Consumer::connect_to_producer`, consumer.impl.h 337-501: the switch over the mode (352-461;
`default: assert(false)`), then lines 498-500. -/
def Objects.connect (w : Objects V) (c p : Nat) : Except Fault (Objects V) :=
  if (w.cons c).alive = false ∨ (w.prod p).alive = false then .error .ub
  else if (w.cons c).mode ≠ 1 ∧ (w.cons c).mode ≠ 2 then .error .assertion
  else
    let k := w.next
    let slot : Slot := ⟨k, c, (w.cons c).mode⟩
    let ps := w.prod p
    let cs := w.cons c
    let w := w.setProd p { ps with issue := ps.issue ++ [slot], flush := ps.flush ++ [slot],
                                   disc := ps.disc ++ [slot] }
    let w := w.setCons c { cs with conns := cs.conns ++ [(p, k)] }
    .ok { w with next := k + 1 }

/-- The loop in `disconnect_and_flush` over all entries of the map (consumer.impl.h 545-550). -/
def Objects.disconnectList (w : Objects V) : List (Nat × Nat) → Objects V
  | [] => w
  | (p, k) :: rest => (w.disconnectSlots p k).disconnectList rest

/-- `Consumer::disconnect_and_flush`, consumer.impl.h 523-556 (the flush is recorded in the log). -/
def Objects.disconnectAndFlush (w : Objects V) (c : Nat) : Except Fault (Objects V) :=
  if (w.cons c).alive = false then .error .ub
  else
    let w := w.disconnectList (w.cons c).conns
    let cs := w.cons c
    .ok (w.setCons c { cs with conns := [], log := cs.log ++ [.flush] })

/-- Destructor of a consumer: the derived class calls `disconnect_and_flush()` (e.g.
mean_value.impl.h 165-169), then `~Consumer` (consumer.impl.h 328-333). -/
def Objects.destroyConsumer (w : Objects V) (c : Nat) : Except Fault (Objects V) :=
  match w.disconnectAndFlush c with
  | .error e => .error e
  | .ok w =>
    if (w.cons c).conns.length = 0 then .ok (w.setCons c { w.cons c with alive := false })
    else .error .assertion

/-- The lambda `disconnect_from_producer` of consumer `c`, called with producer `p`,
consumer.impl.h 472-495. `multimap::find` returns the first of several equal entries (libstdc++). -/
def Objects.disconnectFromProducer (w : Objects V) (c p : Nat) : Except Fault (Objects V) :=
  if (w.cons c).alive = false then .error .ub
  else
    match (w.cons c).conns.find? (fun e => e.1 = p) with
    | none => .error .assertion
    | some e =>
      let w := w.disconnectSlots p e.2
      .ok (w.setCons c { w.cons c with conns := (w.cons c).conns.erase e })

/-- Calling the signal `disconnect_consumers(*this)`: the slots in order; a slot that has been
disconnected in the meantime is not called (boost signals).
(producer.impl.h 212-215.) -/
def Objects.callDisconnect (w : Objects V) (p : Nat) : List Slot → Except Fault (Objects V)
  | [] => .ok w
  | s :: rest =>
    if s ∈ (w.prod p).disc then
      match w.disconnectFromProducer s.cons p with
      | .error e => .error e
      | .ok w' => w'.callDisconnect p rest
    else w.callDisconnect p rest

/-- `Producer::~Producer`, producer.impl.h 212-215: call the signal, then the signals are destroyed. -/
def Objects.destroyProducer (w : Objects V) (p : Nat) : Except Fault (Objects V) :=
  if (w.prod p).alive = false then .error .ub
  else
    match w.callDisconnect p (w.prod p).disc with
    | .error e => .error e
    | .ok w' => .ok (w'.setProd p ⟨false, [], [], []⟩)

/-- `Consumer::set_parallel_mode`, consumer.impl.h 505-519. `ParallelMode` values are bit masks. -/
def Objects.setParallelMode (w : Objects V) (c m : Nat) : Except Fault (Objects V) :=
  if (w.cons c).alive = false then .error .ub
  else if (w.cons c).conns.length ≠ 0 then .error .assertion
  else if m &&& (w.cons c).supported = 0 then .error .assertion
  else .ok (w.setCons c { w.cons c with mode := m })

/-- One slot call of `issue_sample`: consumer.impl.h 384-397 and 407-452 both ignore the sample if there
are no connections any more; otherwise `consume` is called (in asynchronous mode later, see the
concurrent models). -/
def Objects.callIssue (w : Objects V) (m : V) : List Slot → Except Fault (Objects V)
  | [] => .ok w
  | s :: rest =>
    let cs := w.cons s.cons
    if cs.alive = false then .error .ub
    else if cs.conns.length = 0 then w.callIssue m rest
    else (w.setCons s.cons { cs with log := cs.log ++ [.sample m] }).callIssue m rest

/-- `issue_sample(...)` of producer `p`.
(producer.impl.h 129.) -/
def Objects.issue (w : Objects V) (p : Nat) (m : V) : Except Fault (Objects V) :=
  if (w.prod p).alive = false then .error .ub else w.callIssue m (w.prod p).issue

/-- The slots of `flush_consumers` (consumer.impl.h 467-470). -/
def Objects.callFlush (w : Objects V) : List Slot → Except Fault (Objects V)
  | [] => .ok w
  | s :: rest =>
    let cs := w.cons s.cons
    if cs.alive = false then .error .ub
    else (w.setCons s.cons { cs with log := cs.log ++ [.flush] }).callFlush rest

/-- `flush_consumers()` of producer `p`.
(producer.impl.h 177.) -/
def Objects.flush (w : Objects V) (p : Nat) : Except Fault (Objects V) :=
  if (w.prod p).alive = false then .error .ub else w.callFlush (w.prod p).flush

/-- What a program does with producers and consumers.
(consumer.impl.h 309-333, 337-501, 505-556; producer.impl.h 129-215.) -/
inductive Op (V : Type) where
  | connect (c p : Nat)
  | disconnectAndFlush (c : Nat)
  | destroyConsumer (c : Nat)
  | destroyProducer (p : Nat)
  | setParallelMode (c m : Nat)
  | issue (p : Nat) (m : V)
  | flush (p : Nat)

/-- One operation.
(consumer.impl.h 309-556; producer.impl.h 129-215.) -/
def Objects.step (w : Objects V) : Op V → Except Fault (Objects V)
  | .connect c p => w.connect c p
  | .disconnectAndFlush c => w.disconnectAndFlush c
  | .destroyConsumer c => w.destroyConsumer c
  | .destroyProducer p => w.destroyProducer p
  | .setParallelMode c m => w.setParallelMode c m
  | .issue p m => w.issue p m
  | .flush p => w.flush p

/-- A history of operations.
(The user program; no lines of its own in the code.) -/
def Objects.run (w : Objects V) : List (Op V) → Except Fault (Objects V)
  | [] => .ok w
  | o :: os =>
    match w.step o with
    | .error e => .error e
    | .ok w' => w'.run os

end SampleFlow
