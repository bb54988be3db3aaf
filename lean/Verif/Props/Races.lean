import Verif.Proofs.Races
import Mathlib.Tactic.NormNum

/-!
# C87: no data races
-/

namespace SampleFlow.Races

open Spec

/-- Members that are not modified after construction. -/
def constants : List String :=
  ["interval_points", "x_interval_points", "y_interval_points", "bins.size", "history_length", "max_lag", "output_stream",
   "allow_concurrent_action", "action_function", "every_nth", "initial_n_samples"]

open Classical in
/-- The mutexes that protect a location. -/
noncomputable def guardOf (streamOf : Nat → Nat) (users : Nat → Prop) : Loc → List Mutex
  | .member o name _ =>
    if name ∈ constants then []
    else if name = "connections_to_producers" then [.asynchronousMode o, .synchronousMode o]
    else if name = "background_tasks" then [.asynchronousMode o]
    else [.derived o]
  | .stream n => if h : ∃ o, users o ∧ streamOf o = n then [.derived h.choose] else []

theorem guardOf_stream {streamOf : Nat → Nat} {users : Nat → Prop} {o : Nat} (ho : users o)
    (hinj : ∀ o', users o' → streamOf o' = streamOf o → o' = o) : guardOf streamOf users (.stream (streamOf o)) = [.derived o] := by
  have h : ∃ o', users o' ∧ streamOf o' = streamOf o := ⟨o, ho, rfl⟩
  rw [guardOf, dif_pos h, hinj _ h.choose_spec.1 h.choose_spec.2]

theorem increment_body {guard : Loc → List Mutex} {held : Mode → Mutex → Prop} {l : Loc}
    (h : guard l ≠ [] ∧ ∀ m ∈ guard l, held .exclusive m) : Body guard held (increment l) := by
  refine Body.append (p := [.read l]) (Body.read ?_) (Body.write h)
  obtain ⟨m, hm⟩ := List.exists_mem_of_ne_nil _ h.1
  exact .inr ⟨m, hm, .exclusive, h.2 m hm⟩

/-- Everything between the lock and the unlock: reads of constants, and accesses of locations that `mutex` protects. -/
theorem locked_good {guard : Loc → List Mutex} {o : Nat} {p : List Act} (h : Body guard (addHeld .exclusive (.derived o) (fun _ _ => False)) p) :
    Body guard (fun _ _ => False) (locked o p) := Body.guarded .exclusive (.derived o) h

/-- Accesses of locations with guard `mutex` or without guard, checked one by one. -/
def Fine (guard : Loc → List Mutex) (o : Nat) : Act → Prop
  | .read l => guard l = [] ∨ guard l = [.derived o]
  | .write l => guard l = [.derived o]
  | _ => False

theorem fine_body {guard : Loc → List Mutex} {o : Nat} {p : List Act} (h : ∀ x ∈ p, Fine guard o x) :
    Body guard (addHeld .exclusive (.derived o) (fun _ _ => False)) p := by
  induction p with
  | nil => exact Body.nil
  | cons x p ih =>
    refine Body.cons ?_ (ih (fun y hy => h y (by simp [hy])))
    have hx := h x (by simp)
    cases x with
    | read l =>
      refine Body.read ?_
      rcases hx with hx | hx
      · exact .inl hx
      · exact .inr ⟨.derived o, by simp [hx], .exclusive, .inl ⟨rfl, rfl⟩⟩
    | write l =>
      have hx : guard l = [.derived o] := hx
      refine Body.write ⟨by simp [hx], ?_⟩
      intro m hm
      rw [hx] at hm
      exact .inl ⟨rfl, by simpa using hm⟩
    | lock m => exact hx.elim
    | unlock m => exact hx.elim
    | lockShared m => exact hx.elim
    | unlockShared m => exact hx.elim

theorem connections_body {streamOf : Nat → Nat} {users : Nat → Prop} {o : Nat} :
    Body (guardOf streamOf users) (addHeld .exclusive (.synchronousMode o) (addHeld .exclusive (.asynchronousMode o) (fun _ _ => False)))
      (increment (.member o "connections_to_producers" 0)) := by
  refine increment_body ⟨by simp [guardOf, constants], ?_⟩
  intro m hm
  simp [guardOf, constants] at hm
  rcases hm with rfl | rfl <;> simp [addHeld]

theorem disconnect_body {streamOf : Nat → Nat} {users : Nat → Prop} {o : Nat} :
    Body (guardOf streamOf users) (fun _ _ => False)
      ([.lock (.asynchronousMode o), .lock (.synchronousMode o)] ++ increment (.member o "connections_to_producers" 0) ++
        [.unlock (.synchronousMode o), .unlock (.asynchronousMode o)]) := by
  have h := Body.guarded .exclusive (.asynchronousMode o) (Body.guarded .exclusive (.synchronousMode o)
    (connections_body (streamOf := streamOf) (users := users) (o := o)))
  simpa [acquire, release] using h

theorem tasks_body {streamOf : Nat → Nat} {users : Nat → Prop} {o : Nat} :
    Body (guardOf streamOf users) (addHeld .exclusive (.asynchronousMode o) (fun _ _ => False)) (increment (.member o "background_tasks" 0)) := by
  refine increment_body ⟨by simp [guardOf, constants], ?_⟩
  intro m hm
  simp [guardOf, constants] at hm
  subst hm
  simp [addHeld]

theorem flush_body {streamOf : Nat → Nat} {users : Nat → Prop} {o : Nat} :
    Body (guardOf streamOf users) (fun _ _ => False)
      ([.lock (.asynchronousMode o)] ++ increment (.member o "background_tasks" 0) ++ [.unlock (.asynchronousMode o)]) :=
  Body.guarded .exclusive (.asynchronousMode o) tasks_body

theorem accesses_body {streamOf : Nat → Nat} {users : Nat → Prop} {o : Nat} {fn : Fn} (hc : Concurrent fn)
    (hs : fn = .streamConsume → users o ∧ ∀ o', users o' → streamOf o' = streamOf o → o' = o) :
    Body (guardOf streamOf users) (fun _ _ => False) (accesses streamOf o fn) := by
  have hasync : ∀ (l : Loc), Mutex.asynchronousMode o ∈ guardOf streamOf users l →
      Body (guardOf streamOf users) (addHeld .exclusive (.asynchronousMode o) (fun _ _ => False)) [.read l] :=
    fun l hl => Body.read (.inr ⟨_, hl, .exclusive, .inl ⟨rfl, rfl⟩⟩)
  have hconst : ∀ name k, name ∈ constants → Body (guardOf streamOf users) (fun _ _ => False) [.read (.member o name k)] :=
    fun name k hn => Body.read (.inl (by simp [guardOf, hn]))
  cases fn
  case streamConsume =>
    obtain ⟨h1, h2⟩ := hs rfl
    have hg := guardOf_stream h1 h2
    have hg' : guardOf streamOf users (.member o "output_stream" 0) = [] := by simp [guardOf, constants]
    refine locked_good (fine_body ?_)
    simp [increment, Fine, hg, hg']
  case histCopy => exact hc.elim
  case pairCopy => exact hc.elim
  case connect => exact hc.elim
  case setParallelMode assertions =>
    have : assertions = false := hc
    subst this
    exact Body.nil
  case disconnectFrom assertions =>
    have : assertions = false := hc
    subst this
    exact disconnect_body
  case disconnectAndFlush =>
    have h := Body.append (disconnect_body (streamOf := streamOf) (users := users) (o := o)) (flush_body (o := o))
    simpa [accesses] using h
  case flush => exact flush_body
  case receiveSevered =>
    exact Body.guarded (p := [.read (.member o "connections_to_producers" 0)]) .shared (.synchronousMode o)
      (Body.read (.inr ⟨.synchronousMode o, by simp [guardOf, constants], .shared, .inl ⟨rfl, rfl⟩⟩))
  case receiveAsyncSevered =>
    exact Body.guarded (p := [.read (.member o "connections_to_producers" 0)]) .exclusive (.asynchronousMode o)
      (hasync _ (by simp [guardOf, constants]))
  case receiveAsync =>
    have h1 := Body.guarded .exclusive (.asynchronousMode o)
      (Body.append (hasync (.member o "connections_to_producers" 0) (by simp [guardOf, constants]))
        (tasks_body (streamOf := streamOf) (users := users) (o := o)))
    have h := Body.append h1 (flush_body (o := o))
    simpa [accesses, acquire, release] using h
  case actionConsume allow =>
    have : allow = false := hc
    subst this
    refine Body.append (hconst _ _ (by simp [constants])) (locked_good (fine_body ?_))
    simp [increment, Fine, guardOf, constants]
  case histGet bins =>
    refine Body.append (Body.cons (hconst _ _ (by simp [constants])) (hconst _ _ (by simp [constants]))) (locked_good (fine_body ?_))
    simp [Fine, guardOf, constants]
  case pairGet rows columns =>
    refine Body.append (Body.cons (hconst _ _ (by simp [constants])) (Body.cons (hconst _ _ (by simp [constants]))
      (hconst _ _ (by simp [constants])))) (locked_good (fine_body ?_))
    simp [Fine, guardOf, constants]
  case histConsumeOutside => exact hconst _ _ (by simp [constants])
  case histConsume bin =>
    refine Body.append (Body.cons (hconst _ _ (by simp [constants])) (hconst _ _ (by simp [constants]))) (locked_good (fine_body ?_))
    simp [increment, Fine, guardOf, constants]
  case pairConsumeOutside => exact Body.cons (hconst _ _ (by simp [constants])) (hconst _ _ (by simp [constants]))
  case pairConsume x y columns =>
    refine Body.append (Body.cons (hconst _ _ (by simp [constants])) (Body.cons (hconst _ _ (by simp [constants]))
      (hconst _ _ (by simp [constants])))) (locked_good (fine_body ?_))
    simp [increment, Fine, guardOf, constants]
  case maxConsumeNoData => exact Body.nil
  all_goals
    refine locked_good (fine_body ?_)
    simp [increment, Fine, guardOf, constants]

theorem code_good {streamOf : Nat → Nat} {users : Nat → Prop} {allowed : Nat → Fn → Prop} (hc : ∀ o fn, allowed o fn → Concurrent fn)
    (hs : ∀ o, allowed o .streamConsume → users o ∧ ∀ o', users o' → streamOf o' = streamOf o → o' = o) {p : List Act}
    (hp : Code streamOf allowed p) : Good (guardOf streamOf users) p := by
  induction hp with
  | nil => exact fun _ _ h => h
  | call o fn h =>
    refine Body.good (accesses_body (hc o fn h) ?_)
    rintro rfl
    exact hs o h
  | seq p q _ _ ihp ihq => exact ihp.append ihq
  | receiveSync o body _ ih =>
    refine Body.good ?_
    refine Body.guarded (p := [.read (.member o "connections_to_producers" 0)] ++ body) .shared (.synchronousMode o) ?_
    refine Body.append (Body.read (.inr ⟨.synchronousMode o, by simp [guardOf, constants], .shared, .inl ⟨rfl, rfl⟩⟩)) ?_
    exact fun held q _ hq => ih held q hq

/-- **C87.** Any number of threads, each of which calls functions of any consumers and filters, one after the other or, while samples
travel through filters, nested; no two `StreamOutput` objects write to the same stream.  Whatever the schedule, there is no data race. -/
theorem C87_no_data_race (streamOf : Nat → Nat) (allowed : Nat → Fn → Prop) (hconcurrent : ∀ o fn, allowed o fn → Concurrent fn)
    (hstreams : ∀ o o', allowed o .streamConsume → allowed o' .streamConsume → streamOf o = streamOf o' → o = o')
    (threads : List (List Act)) (hcode : ∀ p ∈ threads, Code streamOf allowed p)
    (t : List (Nat × Act)) (ht : Execution threads t) : ¬ DataRace t := by
  refine no_race (guard := guardOf streamOf (fun o => allowed o .streamConsume)) ?_ ht
  intro i acts hi
  have h := code_good hconcurrent (users := fun o => allowed o .streamConsume)
    (fun o ho => ⟨ho, fun o' ho' he => hstreams o' o ho' ho he⟩) (hcode acts (List.mem_of_getElem? hi))
  have := h (fun _ _ => False) [] trivial
  rwa [List.append_nil] at this

/-! ## Executions by schedule -/

/-- Let the threads `schedule` take a step, one after the other. -/
def play (s : State) : List Nat → Option State
  | [] => some s
  | i :: schedule =>
    match s.threads[i]? with
    | some (.lock m :: rest) =>
      if s.holder m = none ∧ s.readers m = [] then
        play ⟨fun k => if k = m then some i else s.holder k, s.readers, s.threads.set i rest, s.trace ++ [(i, .lock m)]⟩ schedule
      else none
    | some (.unlock m :: rest) =>
      play ⟨fun k => if k = m then none else s.holder k, s.readers, s.threads.set i rest, s.trace ++ [(i, .unlock m)]⟩ schedule
    | some (.lockShared m :: rest) =>
      if s.holder m = none ∧ i ∉ s.readers m then
        play ⟨s.holder, fun k => if k = m then i :: s.readers k else s.readers k, s.threads.set i rest, s.trace ++ [(i, .lockShared m)]⟩ schedule
      else none
    | some (.unlockShared m :: rest) =>
      play ⟨s.holder, fun k => if k = m then (s.readers k).filter (fun j => j ≠ i) else s.readers k, s.threads.set i rest,
        s.trace ++ [(i, .unlockShared m)]⟩ schedule
    | some (.read l :: rest) => play ⟨s.holder, s.readers, s.threads.set i rest, s.trace ++ [(i, .read l)]⟩ schedule
    | some (.write l :: rest) => play ⟨s.holder, s.readers, s.threads.set i rest, s.trace ++ [(i, .write l)]⟩ schedule
    | _ => none

theorem play_sound (schedule : List Nat) : ∀ {s t : State}, play s schedule = some t → Relation.ReflTransGen Step s t := by
  induction schedule with
  | nil =>
    intro s t h
    injection h with h
    exact h ▸ .refl
  | cons i schedule ih =>
    intro s t h
    simp only [play] at h
    split at h
    · rename_i m rest hi
      split at h
      · rename_i hm
        exact .head (.lock i m rest hi hm.1 hm.2) (ih h)
      · cases h
    · rename_i m rest hi
      exact .head (.unlock i m rest hi) (ih h)
    · rename_i m rest hi
      split at h
      · rename_i hm
        exact .head (.lockShared i m rest hi hm.1 hm.2) (ih h)
      · cases h
    · rename_i m rest hi
      exact .head (.unlockShared i m rest hi) (ih h)
    · rename_i l rest hi
      exact .head (.read i l rest hi) (ih h)
    · rename_i l rest hi
      exact .head (.write i l rest hi) (ih h)
    · cases h

theorem execution_of_play {threads : List (List Act)} {t : List (Nat × Act)} (schedule : List Nat)
    (h : (play (initial threads) schedule).map (·.trace) = some t) : Execution threads t := by
  obtain ⟨s, hs, rfl⟩ := Option.map_eq_some_iff.mp h
  exact ⟨s, play_sound schedule hs, rfl⟩

/-- If no thread locks a mutex after another one has unlocked it, only the order of each thread's own actions remains. -/
theorem hb_same_thread {t : List (Nat × Act)}
    (hno : ∀ (a b i j : Nat) (x y : Act), t[a]? = some (i, x) → t[b]? = some (j, y) → a < b → Synchronizes x y → i = j) {a b : Nat}
    (h : HappensBefore t a b) : ∃ (i : Nat) (x y : Act), t[a]? = some (i, x) ∧ t[b]? = some (i, y) := by
  induction h with
  | sameThread a b i x y ha hb _ => exact ⟨i, x, y, ha, hb⟩
  | mutex a b i j x y ha hb hlt hs =>
    have := hno a b i j x y ha hb hlt hs
    subst this
    exact ⟨i, _, _, ha, hb⟩
  | trans a b c _ _ h1 h2 =>
    obtain ⟨i, x, y, hx, hy⟩ := h1
    obtain ⟨j, x', y', hx', hy'⟩ := h2
    rw [hy] at hx'
    injection hx' with hx'
    injection hx' with hx'
    subst hx'
    exact ⟨i, x, y', hx, hy'⟩

/-- `Synchronizes`, computed. -/
def synchronizes : Act → Act → Bool
  | .unlock m, .lock m' => m == m'
  | .unlock m, .lockShared m' => m == m'
  | .unlockShared m, .lock m' => m == m'
  | _, _ => false

theorem synchronizes_of {x y : Act} (h : Synchronizes x y) : synchronizes x y = true := by
  obtain ⟨m, ⟨rfl, rfl⟩ | ⟨rfl, rfl⟩ | ⟨rfl, rfl⟩⟩ := h <;> simp [synchronizes]

/-- No pair of different threads synchronizes. -/
def unsynchronized (t : List (Nat × Act)) : Bool :=
  (List.range t.length).all (fun a => (List.range t.length).all (fun b =>
    match t[a]?, t[b]? with
    | some (i, x), some (j, y) => !(decide (a < b) && synchronizes x y) || decide (i = j)
    | _, _ => true))

theorem race_of_unsynchronized {t : List (Nat × Act)} (h : unsynchronized t = true) (a b i j : Nat) (x y : Act) (ha : t[a]? = some (i, x))
    (hb : t[b]? = some (j, y)) (hij : i ≠ j) (hc : Conflict x y) : DataRace t := by
  have hno : ∀ (a b i j : Nat) (x y : Act), t[a]? = some (i, x) → t[b]? = some (j, y) → a < b → Synchronizes x y → i = j := by
    intro a b i j x y ha hb hab hs
    simp only [unsynchronized, List.all_eq_true, List.mem_range] at h
    have := h a (lt_of_getElem? ha) b (lt_of_getElem? hb)
    rw [ha, hb] at this
    simpa [hab, synchronizes_of hs] using this
  refine ⟨a, b, i, j, x, y, ha, hb, hij, hc, ?_, ?_⟩
  · intro hhb
    obtain ⟨k, x', y', h1, h2⟩ := hb_same_thread hno hhb
    rw [ha] at h1
    rw [hb] at h2
    injection h1 with h1
    injection h1 with h1
    injection h2 with h2
    injection h2 with h2
    exact hij (h1.trans h2.symm)
  · intro hhb
    obtain ⟨k, x', y', h1, h2⟩ := hb_same_thread hno hhb
    rw [hb] at h1
    rw [ha] at h2
    injection h1 with h1
    injection h1 with h1
    injection h2 with h2
    injection h2 with h2
    exact hij (h2.trans h1.symm)

/-- Two threads, a schedule and the numbers of the two events. -/
theorem race_of_play {threads : List (List Act)} (schedule : List Nat) (a b : Nat) (i j : Nat) (x y : Act) (t : List (Nat × Act))
    (h : (play (initial threads) schedule).map (·.trace) = some t) (hu : unsynchronized t = true) (ha : t[a]? = some (i, x))
    (hb : t[b]? = some (j, y)) (hij : i ≠ j) (hc : Conflict x y) : ∃ t, Execution threads t ∧ DataRace t :=
  ⟨t, execution_of_play schedule h, race_of_unsynchronized hu a b i j x y ha hb hij hc⟩

/-! ## What is excluded -/

/-- **C87.** The copy constructor of `Histogram` reads the counters without the lock: copying a histogram while a sample arrives is a
data race. -/
theorem C87_violation_copy_histogram :
    ∃ t, Execution [accesses id 0 (.histConsume 0), accesses id 0 (.histCopy 1)] t ∧ DataRace t :=
  race_of_play [0, 0, 0, 0, 0, 1, 1, 1] 4 7 0 1 (.write (.member 0 "bins" 0)) (.read (.member 0 "bins" 0)) _ rfl
    (by decide +kernel) rfl rfl (by decide) ⟨_, .inl ⟨rfl, .inr rfl⟩⟩

/-- **C87.** The same for `PairHistogram`. -/
theorem C87_violation_copy_pair_histogram :
    ∃ t, Execution [accesses id 0 (.pairConsume 0 0 1), accesses id 0 (.pairCopy 1 1)] t ∧ DataRace t :=
  race_of_play [0, 0, 0, 0, 0, 0, 1, 1, 1, 1] 5 9 0 1 (.write (.member 0 "bins" 0)) (.read (.member 0 "bins" 0)) _ rfl
    (by decide +kernel) rfl rfl (by decide) ⟨_, .inl ⟨rfl, .inr rfl⟩⟩

/-- **C87.** `connect_to_producer` while a sample arrives from another producer. -/
theorem C87_violation_connect :
    ∃ t, Execution [accesses id 0 .connect, accesses id 0 .receiveSevered] t ∧ DataRace t :=
  race_of_play [0, 0, 1, 1] 1 3 0 1 (.write (.member 0 "connections_to_producers" 0)) (.read (.member 0 "connections_to_producers" 0)) _ rfl
    (by decide +kernel) rfl rfl (by decide) ⟨_, .inl ⟨rfl, .inr rfl⟩⟩

/-- **C87.** Two producers of the same consumer are destroyed at the same time, in a program compiled with assertions: the assertion in
one of the slots reads the map while the other one removes an entry. -/
theorem C87_violation_assertion :
    ∃ t, Execution [accesses id 0 (.disconnectFrom true), accesses id 0 (.disconnectFrom true)] t ∧ DataRace t :=
  race_of_play [0, 0, 0, 0, 0, 1] 4 5 0 1 (.write (.member 0 "connections_to_producers" 0)) (.read (.member 0 "connections_to_producers" 0)) _ rfl
    (by decide +kernel) rfl rfl (by decide) ⟨_, .inl ⟨rfl, .inr rfl⟩⟩

/-- **C87.** Two `StreamOutput` objects that write to the same stream. -/
theorem C87_violation_streams :
    ∃ t, Execution [accesses (fun _ => 0) 0 .streamConsume, accesses (fun _ => 0) 1 .streamConsume] t ∧ DataRace t :=
  race_of_play [0, 0, 0, 0, 1, 1, 1] 3 6 0 1 (.write (.stream 0)) (.read (.stream 0)) _ rfl
    (by decide +kernel) rfl rfl (by decide) ⟨_, .inl ⟨rfl, .inr rfl⟩⟩

/-- **C87.** `Action` with `allow_concurrent_action` does not protect what the user function modifies. -/
theorem C87_violation_action :
    ∃ t, Execution [accesses id 0 (.actionConsume true), accesses id 0 (.actionConsume true)] t ∧ DataRace t :=
  race_of_play [0, 0, 0, 0, 1, 1, 1] 3 6 0 1 (.write (.member 0 "user data" 0)) (.read (.member 0 "user data" 0)) _ rfl
    (by decide +kernel) rfl rfl (by decide) ⟨_, .inl ⟨rfl, .inr rfl⟩⟩

/-! ## Instances -/

/-- A filter (object 1) with a mean value (object 2) behind it receives a sample, while another thread asks for the mean value, disconnects
the filter, and a task of a histogram (object 3) is running. -/
def exampleThreads : List (List Act) :=
  [[.lockShared (.synchronousMode 1), .read (.member 1 "connections_to_producers" 0)] ++ (accesses id 1 .takePass ++
      ([.lockShared (.synchronousMode 2), .read (.member 2 "connections_to_producers" 0)] ++ accesses id 2 .meanConsumeNext ++
        [.unlockShared (.synchronousMode 2)])) ++ [.unlockShared (.synchronousMode 1)],
   accesses id 2 .meanGet ++ (accesses id 1 .disconnectAndFlush ++ accesses id 3 (.histGet 4)),
   accesses id 3 (.histConsume 2)]

theorem exampleThreads_code : ∀ p ∈ exampleThreads, Code id (fun _ fn => Concurrent fn ∧ fn ≠ .streamConsume) p := by
  intro p hp
  simp only [exampleThreads, List.mem_cons, List.not_mem_nil, or_false] at hp
  have call : ∀ o fn, Concurrent fn → fn ≠ .streamConsume → Code id (fun _ fn => Concurrent fn ∧ fn ≠ .streamConsume) (accesses id o fn) :=
    fun o fn h1 h2 => .call o fn ⟨h1, h2⟩
  rcases hp with rfl | rfl | rfl
  · exact .receiveSync 1 _ (.seq _ _ (call _ _ trivial (by decide)) (.receiveSync 2 _ (call _ _ trivial (by decide))))
  · exact .seq _ _ (call _ _ trivial (by decide)) (.seq _ _ (call _ _ trivial (by decide)) (call _ _ trivial (by decide)))
  · exact call _ _ trivial (by decide)

/-- An execution of these threads in which they alternate, with 29 events. -/
def exampleTrace : List (Nat × Act) :=
  ((play (initial exampleThreads) ([0, 0, 0, 1, 1, 1, 0, 2, 0, 0, 0, 2, 0, 0, 2, 0, 2, 2, 2] ++ List.replicate 10 0)).map (·.trace)).getD []

example : exampleTrace.length = 29 := by decide +kernel

example : ¬ DataRace exampleTrace := by
  refine C87_no_data_race id (fun _ fn => Concurrent fn ∧ fn ≠ .streamConsume) (fun _ _ h => h.1) (fun _ _ h => absurd rfl h.2) exampleThreads
    exampleThreads_code exampleTrace ?_
  have h : (play (initial exampleThreads) ([0, 0, 0, 1, 1, 1, 0, 2, 0, 0, 0, 2, 0, 0, 2, 0, 2, 2, 2] ++ List.replicate 10 0)).isSome = true := by
    decide +kernel
  obtain ⟨s, hs⟩ := Option.isSome_iff_exists.mp h
  exact execution_of_play _ (by rw [exampleTrace, hs]; rfl)

/-- Streams: two objects with different streams. -/
example (t : List (Nat × Act)) (ht : Execution [accesses id 0 .streamConsume, accesses id 1 .streamConsume] t) : ¬ DataRace t :=
  C87_no_data_race id (fun _ fn => fn = .streamConsume) (fun _ _ h => h ▸ trivial) (fun _ _ _ _ h => h) _
    (by
      intro p hp
      simp only [List.mem_cons, List.not_mem_nil, or_false] at hp
      rcases hp with rfl | rfl
      · exact .call 0 _ rfl
      · exact .call 1 _ rfl) t ht

end SampleFlow.Races
