import Verif.Model.DEAsync
import Verif.Spec.DEAsync
import Verif.Proofs.DESafe
import Mathlib.Tactic.Push

set_option linter.unusedSimpArgs false

universe u

namespace SampleFlow.DEAsync

open SampleFlow Spec

variable {W : Type u} {S D E : Type}

/-- the observable part of a run -/
def obs {α : Type} (r : List (Event S D) × Except (Stop E) α × W) : List (Event S D) × Except (Stop E) α × W :=
  (withoutLikelihoods r.1, r.2)

/-- events that happened before -/
def prepend {α : Type} (tr : List (Event S D)) (r : List (Event S D) × Except (Stop E) α × W) :
    List (Event S D) × Except (Stop E) α × W := (tr ++ r.1, r.2)

theorem without_append (a b : List (Event S D)) :
    withoutLikelihoods (a ++ b) = withoutLikelihoods a ++ withoutLikelihoods b := by
  simp [withoutLikelihoods]

theorem prepend_prepend {α : Type} (a b : List (Event S D)) (r : List (Event S D) × Except (Stop E) α × W) :
    prepend a (prepend b r) = prepend (a ++ b) r := by simp [prepend]

theorem prepend_nil {α : Type} (r : List (Event S D) × Except (Stop E) α × W) : prepend [] r = r := rfl

theorem obs_bind_ok {α β : Type} {q : Prog W S D (Stop E) α} {f : α → Prog W S D (Stop E) β} {w w' : W}
    {tr : List (Event S D)} {a : α} (h : q w = (tr, .ok a, w')) :
    obs ((q >>= f) w) = prepend (withoutLikelihoods tr) (obs (f a w')) := by
  rw [Prog.bind_ok h]; simp [obs, prepend, without_append]

theorem obs_bind_error {α β : Type} {q : Prog W S D (Stop E) α} {f : α → Prog W S D (Stop E) β} {w w' : W}
    {tr : List (Event S D)} {e : Stop E} (h : q w = (tr, .error e, w')) :
    obs ((q >>= f) w) = (withoutLikelihoods tr, .error e, w') := by
  rw [Prog.bind_error h]; rfl

/-- likelihood evaluated by a thread, as a call in the synchronous program -/
def liftL (L : S → Except E D) (x : S) : Except (Stop E) D :=
  match L x with
  | .ok d => .ok d
  | .error e => .error (.exception e)

variable [FloatOps D]

/-- how a task will end: its result, and the entries of `next_samples` and `current_log_likelihoods` -/
def final (L : S → Except E D) (x : S) (t : DETask S D) (nx : S) (ll : D) : Pc D E → Except E Bool × S × D
  | .fresh =>
    match L t.trial with
    | .error e => (.error e, nx, ll)
    | .ok d => if deAccept t d ll then (.ok true, t.trial, d) else (.ok false, x, ll)
  | .evaluated d => if deAccept t d ll then (.ok true, t.trial, d) else (.ok false, x, ll)
  | .decided d acc => if acc then (.ok true, t.trial, d) else (.ok false, x, ll)
  | .wroteNext d => (.ok true, nx, d)
  | .done r => (r, nx, ll)

/-- the state of the synchronous program: all tasks created so far have been run -/
structure Agree (L : S → Except E D) (n : Nat) (st : DEState S D) (tasks : List (ATask S D E))
    (results : List (Except E Bool)) (vst : DEState S D) : Prop where
  cur : vst.cur = st.cur
  sized : Sized n st
  vsized : Sized n vst
  len : results.length = tasks.length
  le : tasks.length ≤ n
  rest : ∀ i, tasks.length ≤ i → vst.next[i]? = st.next[i]? ∧ vst.lls[i]? = st.lls[i]?
  task : ∀ (i : Nat) (t : ATask S D E) (x nx : S) (ll : D), tasks[i]? = some t → st.cur[i]? = some x →
    st.next[i]? = some nx → st.lls[i]? = some ll →
    results[i]? = some (final L x t.data nx ll t.pc).1 ∧ vst.next[i]? = some (final L x t.data nx ll t.pc).2.1 ∧
    vst.lls[i]? = some (final L x t.data nx ll t.pc).2.2

theorem Agree.update {L : S → Except E D} {n : Nat} {st st' : DEState S D} {tasks : List (ATask S D E)}
    {results : List (Except E Bool)} {vst : DEState S D} (h : Agree L n st tasks results vst) (i : Nat)
    (t : DETask S D) (pc pc' : Pc D E) (hi : tasks[i]? = some ⟨t, pc⟩) (hs : Sized n st') (hc : st'.cur = st.cur)
    (hn : ∀ j, j ≠ i → st'.next[j]? = st.next[j]?) (hl : ∀ j, j ≠ i → st'.lls[j]? = st.lls[j]?)
    (hf : ∀ x nx ll nx' ll', st.cur[i]? = some x → st.next[i]? = some nx → st.lls[i]? = some ll →
      st'.next[i]? = some nx' → st'.lls[i]? = some ll' → final L x t nx' ll' pc' = final L x t nx ll pc) :
    Agree L n st' (tasks.set i ⟨t, pc'⟩) results vst := by
  have hlt : i < tasks.length := (List.getElem?_eq_some_iff.mp hi).1
  refine ⟨by rw [hc]; exact h.cur, hs, h.vsized, by rw [List.length_set]; exact h.len,
    by rw [List.length_set]; exact h.le, ?_, ?_⟩
  · intro j hj
    rw [List.length_set] at hj
    have := h.rest j hj
    rw [hn j (by omega), hl j (by omega)]; exact this
  · intro j t' x nx ll hj hx hnx hll
    by_cases hji : j = i
    · subst hji
      rw [List.getElem?_set_self hlt] at hj
      cases hj
      have hle := h.le
      obtain ⟨s1, s2, s3⟩ := h.sized
      have e1 : st.next[j]? = some st.next[j] := List.getElem?_eq_getElem (by omega)
      have e2 : st.lls[j]? = some st.lls[j] := List.getElem?_eq_getElem (by omega)
      rw [hc] at hx
      have e3 := hf x _ _ nx ll hx e1 e2 hnx hll
      simp only
      rw [e3]
      exact h.task j ⟨t, pc⟩ x _ _ hi hx e1 e2
    · rw [List.getElem?_set_ne (Ne.symm hji)] at hj
      rw [hc] at hx
      rw [hn j hji] at hnx
      rw [hl j hji] at hll
      exact h.task j t' x nx ll hj hx hnx hll

theorem Agree.taskStep {p : Params W S D E} {i : Nat} {c c' : Config W S D E} {results : List (Except E Bool)}
    {vst : DEState S D} (h : Agree p.likelihood p.n c.st c.tasks results vst) (hs : TaskStep p i c c') :
    Agree p.likelihood p.n c'.st c'.tasks results vst := by
  obtain ⟨s1, s2, s3⟩ := h.sized
  cases hs with
  | evaluate t d hi hL =>
    refine h.update i t _ _ hi h.sized rfl (fun _ _ => rfl) (fun _ _ => rfl) ?_
    intro x nx ll nx' ll' _ h2 h3 h4 h5
    rw [show c.st.next[i]? = some nx' from h4] at h2
    rw [show c.st.lls[i]? = some ll' from h5] at h3
    cases h2; cases h3
    simp [final, hL]
  | throw t e hi hL =>
    refine h.update i t _ _ hi h.sized rfl (fun _ _ => rfl) (fun _ _ => rfl) ?_
    intro x nx ll nx' ll' _ h2 h3 h4 h5
    rw [show c.st.next[i]? = some nx' from h4] at h2
    rw [show c.st.lls[i]? = some ll' from h5] at h3
    cases h2; cases h3
    simp [final, hL]
  | decide t d ll0 hi hll0 =>
    refine h.update i t _ _ hi h.sized rfl (fun _ _ => rfl) (fun _ _ => rfl) ?_
    intro x nx ll nx' ll' _ h2 h3 h4 h5
    have h5' : c.st.lls[i]? = some ll' := h5
    rw [h3] at hll0 h5'
    cases hll0; cases h5'
    simp [final]
  | writeNext t d hi hlt =>
    refine h.update i t _ _ hi ⟨s1, by simpa using s2, s3⟩ rfl (fun j hj => List.getElem?_set_ne (Ne.symm hj))
      (fun _ _ => rfl) ?_
    intro x nx ll nx' ll' _ h2 h3 h4 h5
    simp only [List.getElem?_set_self hlt, Option.some.injEq] at h4
    subst h4
    simp [final]
  | writeLL t d hi hlt =>
    refine h.update i t _ _ hi ⟨s1, s2, by simpa using s3⟩ rfl (fun _ _ => rfl)
      (fun j hj => List.getElem?_set_ne (Ne.symm hj)) ?_
    intro x nx ll nx' ll' _ h2 h3 h4 h5
    simp only [List.getElem?_set_self hlt, Option.some.injEq] at h5
    subst h5
    rw [show c.st.next[i]? = some nx' from h4] at h2
    cases h2
    simp [final]
  | keep t d y hi hx hlt =>
    refine h.update i t _ _ hi ⟨s1, by simpa using s2, s3⟩ rfl (fun j hj => List.getElem?_set_ne (Ne.symm hj))
      (fun _ _ => rfl) ?_
    intro x nx ll nx' ll' h1 h2 h3 h4 h5
    simp only [List.getElem?_set_self hlt, Option.some.injEq] at h4
    subst h4
    rw [h1] at hx
    cases hx
    rw [show c.st.lls[i]? = some ll' from h5] at h3
    cases h3
    simp [final]

/-- tasks do not affect what only the main thread does -/
theorem TaskStep.frame {p : Params W S D E} {i : Nat} {c c' : Config W S D E} (hs : TaskStep p i c c') :
    c'.phase = c.phase ∧ c'.gen = c.gen ∧ c'.world = c.world ∧ c'.trace = c.trace ∧
    c'.tasks.length = c.tasks.length ∧ c'.st.cur = c.st.cur ∧ c'.st.next.length = c.st.next.length ∧
    c'.st.lls.length = c.st.lls.length ∧
    (∀ (j : Nat) (t : DETask S D) (r : Except E Bool), c.tasks[j]? = some ⟨t, .done r⟩ → c'.tasks[j]? = some ⟨t, .done r⟩) := by
  have key : ∀ (t : DETask S D) (pc pc' : Pc D E), c.tasks[i]? = some ⟨t, pc⟩ → (∀ r, pc ≠ .done r) →
      ∀ (j : Nat) (t' : DETask S D) (r : Except E Bool), c.tasks[j]? = some ⟨t', .done r⟩ →
        (c.tasks.set i ⟨t, pc'⟩)[j]? = some ⟨t', .done r⟩ := by
    intro t pc pc' h1 h2 j t' r h3
    by_cases hj : j = i
    · subst hj; rw [h1] at h3; cases h3; exact absurd rfl (h2 r)
    · rw [List.getElem?_set_ne (Ne.symm hj)]; exact h3
  cases hs with
  | evaluate t d hi hL => exact ⟨rfl, rfl, rfl, rfl, by simp [Config.setPc], rfl, rfl, rfl, key t _ _ hi (by simp)⟩
  | throw t d hi hL => exact ⟨rfl, rfl, rfl, rfl, by simp [Config.setPc], rfl, rfl, rfl, key t _ _ hi (by simp)⟩
  | decide t d _ hi hL => exact ⟨rfl, rfl, rfl, rfl, by simp [Config.setPc], rfl, rfl, rfl, key t _ _ hi (by simp)⟩
  | writeNext t d hi hL =>
    exact ⟨rfl, rfl, rfl, rfl, by simp [Config.setPc], rfl, by simp, rfl, key t _ _ hi (by simp)⟩
  | writeLL t d hi hL =>
    exact ⟨rfl, rfl, rfl, rfl, by simp [Config.setPc], rfl, rfl, by simp, key t _ _ hi (by simp)⟩
  | keep t d _ hi hL =>
    exact ⟨rfl, rfl, rfl, rfl, by simp [Config.setPc], rfl, by simp, rfl, key t _ _ hi (by simp)⟩

/-! ## the synchronous program -/

/-- the part of the synchronous program after the first loop of generation `gen` -/
def tail (p : Params W S D E) (gen : Nat) (results : List (Except E Bool)) (st : DEState S D) (k : Nat) :
    Prog W S D (Stop E) Unit := do
  deIssue p.env p.nSamples gen p.n results st (p.n - k) k
  deLoop p.env p.gap p.nSamples p.n (p.nSamples - (gen + 1)) (gen + 1) { st with cur := st.next }

/-- the part of the synchronous program from chain `k` in the first loop of generation `gen` -/
def head (p : Params W S D E) (gen : Nat) (results : List (Except E Bool)) (st : DEState S D) (k : Nat) :
    Prog W S D (Stop E) Unit := do
  let rs ← deCreate p.env p.gap p.nSamples gen p.n (p.n - k) k st
  tail p gen (results ++ rs.1) rs.2 0

/-- the synchronous program from generation `gen` -/
theorem deLoop_head (p : Params W S D E) (gen : Nat) (st : DEState S D) (hn : 0 < p.n) (hg : gen * p.n < p.nSamples) :
    deLoop p.env p.gap p.nSamples p.n (p.nSamples - gen) gen st = head p gen [] st 0 := by
  have h1 : gen < p.nSamples := by
    have : gen * 1 ≤ gen * p.n := Nat.mul_le_mul_left gen hn
    omega
  have h2 : p.nSamples - gen = (p.nSamples - (gen + 1)) + 1 := by omega
  rw [h2]
  unfold deLoop
  rw [if_pos hg]
  unfold deGeneration head tail
  simp only [Prog.bind_assoc', Nat.sub_zero, List.nil_append]
  rfl

theorem deLoop_end (p : Params W S D E) (gen : Nat) (st : DEState S D) (w : W) (hg : ¬ gen * p.n < p.nSamples) :
    deLoop p.env p.gap p.nSamples p.n (p.nSamples - gen) gen st w = ([], .ok (), w) := by
  cases p.nSamples - gen with
  | zero => rfl
  | succ k => unfold deLoop; rw [if_neg hg]; rfl

/-- the whole body -/
def body (p : Params W S D E) : Prog W S D (Stop E) Unit := do
  let lls ← deInitial p.env p.starts
  deLoop p.env p.gap p.nSamples p.n p.nSamples 0 ⟨p.starts, p.starts, lls⟩

/-- the synchronous program evaluates the same likelihood -/
def SameLikelihood (p : Params W S D E) : Prop := ∀ x w, p.env.logLikelihood x w = (liftL p.likelihood x, w)

theorem set_same {α : Type} {l : List α} {i : Nat} {a : α} (h : l[i]? = some a) : l.set i a = l := by
  obtain ⟨h1, rfl⟩ := List.getElem?_eq_some_iff.mp h
  exact List.set_getElem_self h1

/-- running a task synchronously -/
theorem run_task (p : Params W S D E) (hp : SameLikelihood p) (k : Nat) (t : DETask S D) (st : DEState S D) (x nx : S)
    (ll : D) (hx : st.cur[k]? = some x) (hn : st.next[k]? = some nx) (hl : st.lls[k]? = some ll) (w : W) :
    ∃ tr, withoutLikelihoods tr = [] ∧
      deRunCaptured p.env k t st w = (tr, .ok ((final p.likelihood x t nx ll .fresh).1,
        { st with next := st.next.set k (final p.likelihood x t nx ll .fresh).2.1,
                  lls := st.lls.set k (final p.likelihood x t nx ll .fresh).2.2 }), w) := by
  cases hL : p.likelihood t.trial with
  | error e =>
    have e1 : callLogLikelihood p.env t.trial w = ([], .error (.exception e), w) := by
      unfold callLogLikelihood; rw [hp]; simp [liftL, hL]
    refine ⟨[], rfl, ?_⟩
    have e2 : deRunTask p.env k t st w = ([], .error (.exception e), w) := by
      unfold deRunTask; rw [Prog.bind_error e1]
    unfold deRunCaptured
    rw [e2]
    simp only [final, hL, set_same hn, set_same hl]
  | ok d =>
    have e1 : callLogLikelihood p.env t.trial w = ([.logLikelihood t.trial d], .ok d, w) := by
      unfold callLogLikelihood; rw [hp]; simp [liftL, hL]
    refine ⟨[.logLikelihood t.trial d], rfl, ?_⟩
    by_cases ha : deAccept t d ll = true
    · have e2 : deRunTask p.env k t st w = ([.logLikelihood t.trial d],
          .ok (true, { st with next := st.next.set k t.trial, lls := st.lls.set k d }), w) := by
        unfold deRunTask
        rw [Prog.bind_ok e1, Prog.bind_ok (atIndex_ok hl w), if_pos ha]
        rfl
      unfold deRunCaptured
      rw [e2]
      simp only [final, hL, if_pos ha]
    · have e2 : deRunTask p.env k t st w = ([.logLikelihood t.trial d],
          .ok (false, { st with next := st.next.set k x }), w) := by
        unfold deRunTask
        rw [Prog.bind_ok e1, Prog.bind_ok (atIndex_ok hl w), if_neg ha, Prog.bind_ok (atIndex_ok hx w)]
        rfl
      unfold deRunCaptured
      rw [e2]
      simp only [final, hL, if_neg ha, set_same hl]

/-! ## the invariant -/

/-- what holds in each phase; `T` is what the synchronous program does -/
def PhaseInv (p : Params W S D E) (T : List (Event S D) × Except (Stop E) Unit × W) (c : Config W S D E) : Prop :=
  match c.phase with
  | .creating k => c.gen * p.n < p.nSamples ∧ c.tasks.length = k ∧ k ≤ p.n ∧ c.gen * p.n + k ≤ p.nSamples ∧
      ∃ results vst, Agree p.likelihood p.n c.st c.tasks results vst ∧
        prepend c.trace (obs (head p c.gen results vst k c.world)) = T
  | .issuing k => c.gen * p.n < p.nSamples ∧ c.tasks.length = min p.n (p.nSamples - c.gen * p.n) ∧ k ≤ c.tasks.length ∧
      (∀ i, i < k → ∃ t r, c.tasks[i]? = some ⟨t, .done r⟩) ∧
      ∃ results vst, Agree p.likelihood p.n c.st c.tasks results vst ∧
        prepend c.trace (obs (tail p c.gen results vst k c.world)) = T
  | .leaving r => (c.trace, r, c.world) = T ∧
      ∀ i, i < c.tasks.length → i < c.st.cur.length ∧ i < c.st.next.length ∧ i < c.st.lls.length
  | .finished r => c.tasks = [] ∧ c.trace = T.1 ++ [.flushed] ∧ r = T.2.1 ∧ c.world = p.env.flush T.2.2

theorem Agree.bounds {L : S → Except E D} {n : Nat} {st : DEState S D} {tasks : List (ATask S D E)}
    {results : List (Except E Bool)} {vst : DEState S D} (h : Agree L n st tasks results vst) :
    ∀ i, i < tasks.length → i < st.cur.length ∧ i < st.next.length ∧ i < st.lls.length := by
  intro i hi
  obtain ⟨s1, s2, s3⟩ := h.sized
  have := h.le
  omega

theorem PhaseInv.taskStep {p : Params W S D E} {T : List (Event S D) × Except (Stop E) Unit × W} {i : Nat}
    {c c' : Config W S D E} (h : PhaseInv p T c) (hs : TaskStep p i c c') : PhaseInv p T c' := by
  obtain ⟨f1, f2, f3, f4, f5, f6, f7, f8, f9⟩ := hs.frame
  unfold PhaseInv at h ⊢
  rw [f1]
  cases hph : c.phase with
  | creating k =>
    rw [hph] at h
    obtain ⟨h1, h2, h3, h4, results, vst, h5, h6⟩ := h
    simp only
    rw [f2, f3, f4, f5]
    exact ⟨h1, h2, h3, h4, results, vst, h5.taskStep hs, h6⟩
  | issuing k =>
    rw [hph] at h
    obtain ⟨h1, h2, h3, h4, results, vst, h5, h6⟩ := h
    simp only
    rw [f2, f3, f4, f5]
    refine ⟨h1, h2, h3, ?_, results, vst, h5.taskStep hs, h6⟩
    intro j hj
    obtain ⟨t, r, h7⟩ := h4 j hj
    exact ⟨t, r, f9 j t r h7⟩
  | leaving r =>
    rw [hph] at h
    simp only
    rw [f3, f4, f5, f6, f7, f8]
    exact h
  | finished r =>
    rw [hph] at h
    exfalso
    obtain ⟨h1, -⟩ := h
    cases hs <;> rename_i hi _ <;> simp [h1] at *

theorem deCreate_end (p : Params W S D E) (gen k : Nat) (st : DEState S D) (ha : ¬ p.Active gen k) (w : W) :
    deCreate p.env p.gap p.nSamples gen p.n (p.n - k) k st w = ([], .ok ([], st), w) := by
  cases h : p.n - k with
  | zero => rfl
  | succ left =>
    unfold deCreate
    rw [if_pos (by unfold Params.Active at ha; omega)]
    rfl

theorem deIssue_end (p : Params W S D E) (gen k : Nat) (results : List (Except E Bool)) (st : DEState S D)
    (ha : ¬ p.Active gen k) (w : W) :
    deIssue p.env p.nSamples gen p.n results st (p.n - k) k w = ([], .ok (), w) := by
  cases h : p.n - k with
  | zero => rfl
  | succ left =>
    unfold deIssue
    rw [if_pos (by unfold Params.Active at ha; omega)]
    rfl

theorem head_step (p : Params W S D E) (gen k : Nat) (results : List (Except E Bool)) (st : DEState S D)
    (ha : p.Active gen k) : head p gen results st k = (do
      let t ← deMakeTask p.env p.gap gen st.cur k
      let r ← deRunCaptured p.env k t st
      head p gen (results ++ [r.1]) r.2 (k + 1)) := by
  obtain ⟨h1, h2⟩ := ha
  unfold head
  have h3 : p.n - k = (p.n - (k + 1)) + 1 := by omega
  rw [h3]
  conv => lhs; unfold deCreate
  rw [if_neg (by omega)]
  simp only [Prog.bind_assoc', List.append_assoc, List.singleton_append]
  rfl

theorem tail_step (p : Params W S D E) (gen k : Nat) (results : List (Except E Bool)) (st : DEState S D)
    (ha : p.Active gen k) : tail p gen results st k = (do
      let r ← atIndex results k
      let accepted ← deGet r
      let x ← atIndex st.next k
      let ll ← atIndex st.lls k
      callIssue p.env x (deAux ll (!accepted) k)
      tail p gen results st (k + 1)) := by
  obtain ⟨h1, h2⟩ := ha
  unfold tail
  have h3 : p.n - k = (p.n - (k + 1)) + 1 := by omega
  rw [h3]
  conv => lhs; unfold deIssue
  rw [if_neg (by omega)]
  simp only [Prog.bind_assoc']

theorem Silent.makeTask (p : Params W S D E) (gen k : Nat) (cur : List S) (w : W) :
    withoutLikelihoods (deMakeTask p.env p.gap gen cur k w).1 = (deMakeTask p.env p.gap gen cur k w).1 := by
  have main : ∀ (α : Type) (q : Prog W S D (Stop E) α), (∀ w, ∀ e ∈ (q w).1, ∀ x d, e ≠ Event.logLikelihood x d) →
      withoutLikelihoods (q w).1 = (q w).1 := by
    intro α q hq
    unfold withoutLikelihoods
    apply List.filter_eq_self.mpr
    intro e he
    have := hq w e he
    cases e <;> simp_all
  have bnd : ∀ (α β : Type) (q : Prog W S D (Stop E) α) (f : α → Prog W S D (Stop E) β),
      (∀ w, ∀ e ∈ (q w).1, ∀ x d, e ≠ Event.logLikelihood x d) →
      (∀ a w, ∀ e ∈ (f a w).1, ∀ x d, e ≠ Event.logLikelihood x d) →
      (∀ w, ∀ e ∈ ((q >>= f) w).1, ∀ x d, e ≠ Event.logLikelihood x d) := by
    intro α β q f hq hf w e he
    rcases h1 : q w with ⟨tr, (er | a), w'⟩
    · rw [Prog.bind_error h1] at he
      exact hq w e (by rw [h1]; exact he)
    · rw [Prog.bind_ok h1] at he
      rcases List.mem_append.mp he with he | he
      · exact hq w e (by rw [h1]; exact he)
      · exact hf a w' e he
  have pu : ∀ (α : Type) (a : α) (w : W), ∀ e ∈ ((Pure.pure a : Prog W S D (Stop E) α) w).1, ∀ x d,
      e ≠ Event.logLikelihood x d := by
    intro α a w e he; simp [Prog.pure_run] at he
  have ai : ∀ (α : Type) (l : List α) (i : Nat) (w : W), ∀ e ∈ ((atIndex l i : Prog W S D (Stop E) α) w).1, ∀ x d,
      e ≠ Event.logLikelihood x d := by
    intro α l i w e he
    unfold atIndex at he
    cases h : l[i]? <;> rw [h] at he <;> simp [Prog.pure_run, Prog.throw] at he
  have dr : ∀ w, ∀ e ∈ (draw p.env w).1, ∀ x d, e ≠ Event.logLikelihood x d := by
    intro w e he; simp [draw] at he; subst he; simp
  have di : ∀ n w, ∀ e ∈ (drawInt p.env n w).1, ∀ x d, e ≠ Event.logLikelihood x d := by
    intro n w e he; simp [drawInt] at he; subst he; simp
  have pr : ∀ x l w, ∀ e ∈ (callPropose p.env x l w).1, ∀ x d, e ≠ Event.logLikelihood x d := by
    intro x l w e he
    unfold callPropose at he
    rcases h1 : p.env.propose x l w with ⟨(er | ⟨y, r⟩), w1⟩ <;> rw [h1] at he <;> simp at he
    subst he; simp
  have cr : ∀ x a b w, ∀ e ∈ (callCrossover p.env x a b w).1, ∀ x d, e ≠ Event.logLikelihood x d := by
    intro x a b w e he
    unfold callCrossover at he
    rcases h1 : p.env.crossover x a b w with ⟨(er | y), w1⟩ <;> rw [h1] at he <;> simp at he
    subst he; simp
  apply main
  unfold deMakeTask
  apply bnd
  · intro w
    unfold deTrial
    split
    · exact bnd _ _ _ _ (di _) (fun _ => bnd _ _ _ _ (ai _ _ _) (fun _ => bnd _ _ _ _ (di _) (fun _ =>
        bnd _ _ _ _ (ai _ _ _) (fun _ => bnd _ _ _ _ (ai _ _ _) (fun _ => bnd _ _ _ _ (cr _ _ _) (fun _ => pr _ _)))))) w
    · exact bnd _ _ _ _ (ai _ _ _) (fun _ => pr _ _) w
  · intro a
    exact bnd _ _ _ _ dr (fun _ => pu _ _)

theorem PhaseInv.mainStep {p : Params W S D E} (hp : SameLikelihood p) (hn : 0 < p.n)
    {T : List (Event S D) × Except (Stop E) Unit × W} {c c' : Config W S D E} (h : PhaseInv p T c)
    (hs : MainStep p c c') : PhaseInv p T c' := by
  unfold PhaseInv at h
  cases hs with
  | create k hph ha =>
    rw [hph] at h
    obtain ⟨h1, h2, h3, h4, results, vst, h5, h6⟩ := h
    obtain ⟨a1, a2⟩ := ha
    rw [head_step p c.gen k results vst ⟨a1, a2⟩, h5.cur] at h6
    have hm := Silent.makeTask p c.gen k c.st.cur c.world
    rcases he : deMakeTask p.env p.gap c.gen c.st.cur k c.world with ⟨tr, (e | t), w'⟩
    · rw [he] at hm
      rw [obs_bind_error he] at h6
      simp only at hm
      rw [hm] at h6
      exact ⟨h6, h5.bounds⟩
    · rw [he] at hm
      simp only at hm
      rw [obs_bind_ok he, hm] at h6
      obtain ⟨s1, s2, s3⟩ := h5.sized
      obtain ⟨v1, v2, v3⟩ := h5.vsized
      have hx : c.st.cur[k]? = some c.st.cur[k] := List.getElem?_eq_getElem (by omega)
      have hnx : c.st.next[k]? = some c.st.next[k] := List.getElem?_eq_getElem (by omega)
      have hll : c.st.lls[k]? = some c.st.lls[k] := List.getElem?_eq_getElem (by omega)
      have hr := h5.rest k (by omega)
      obtain ⟨tr2, hq, hrun⟩ := run_task p hp k t vst c.st.cur[k] c.st.next[k] c.st.lls[k] (by rw [h5.cur]; exact hx)
        (by rw [hr.1]; exact hnx) (by rw [hr.2]; exact hll) w'
      rw [obs_bind_ok hrun, hq, prepend_nil, prepend_prepend] at h6
      unfold afterCreate PhaseInv
      simp only
      refine ⟨h1, by simp [h2], by omega, by omega, _, _, ?_, h6⟩
      refine ⟨h5.cur, h5.sized, ⟨v1, by simpa using v2, by simpa using v3⟩, by simp [h5.len], by simp; omega, ?_, ?_⟩
      · intro i hi
        simp only [List.length_append, List.length_singleton] at hi
        simp only
        rw [List.getElem?_set_ne (by omega), List.getElem?_set_ne (by omega)]
        exact h5.rest i (by omega)
      · intro i t' x nx ll hi hcx hnx' hll'
        by_cases hik : i < k
        · rw [List.getElem?_append_left (by omega)] at hi
          obtain ⟨j1, j2, j3⟩ := h5.task i t' x nx ll hi hcx hnx' hll'
          simp only
          rw [List.getElem?_append_left (by rw [h5.len]; omega), List.getElem?_set_ne (by omega),
            List.getElem?_set_ne (by omega)]
          exact ⟨j1, j2, j3⟩
        · have : i = k := by
            have := (List.getElem?_eq_some_iff.mp hi).1
            simp only [List.length_append, List.length_singleton] at this
            omega
          subst this
          rw [← h2, List.getElem?_concat_length] at hi
          cases hi
          rw [hx] at hcx
          rw [hnx] at hnx'
          rw [hll] at hll'
          cases hcx; cases hnx'; cases hll'
          refine ⟨?_, ?_, ?_⟩
          · have hlen : results.length = i := by rw [h5.len, h2]
            rw [List.getElem?_append_right (by omega), hlen, Nat.sub_self]
            rfl
          · exact List.getElem?_set_self (by omega)
          · exact List.getElem?_set_self (by omega)
  | created k hph ha =>
    rw [hph] at h
    obtain ⟨h1, h2, h3, h4, results, vst, h5, h6⟩ := h
    unfold PhaseInv
    simp only
    refine ⟨h1, ?_, Nat.zero_le _, by intro i hi; omega, results, vst, h5, ?_⟩
    · unfold Params.Active at ha; omega
    · unfold head at h6
      rw [obs_bind_ok (deCreate_end p c.gen k vst ha c.world), List.append_nil] at h6
      exact h6
  | issue k hph ha t acc hd x hx ll hl =>
    rw [hph] at h
    obtain ⟨h1, h2, h3, h4, results, vst, h5, h6⟩ := h
    obtain ⟨a1, a2⟩ := ha
    obtain ⟨s1, s2, s3⟩ := h5.sized
    have hcx : c.st.cur[k]? = some c.st.cur[k] := List.getElem?_eq_getElem (by omega)
    obtain ⟨j1, j2, j3⟩ := h5.task k _ _ _ _ hd hcx hx hl
    simp only [final] at j1 j2 j3
    have e2 : (deGet (.ok acc : Except E Bool) : Prog W S D (Stop E) Bool) c.world = ([], .ok acc, c.world) := rfl
    rw [tail_step p c.gen k results vst ⟨a1, a2⟩, obs_bind_ok (atIndex_ok j1 c.world), obs_bind_ok e2,
      obs_bind_ok (atIndex_ok j2 c.world), obs_bind_ok (atIndex_ok j3 c.world)] at h6
    rcases h3' : p.env.issue x (deAux ll (!acc) k) c.world with ⟨(e | ⟨⟩), w1⟩
    · have e3 : callIssue p.env x (deAux ll (!acc) k) c.world = ([.issued x (deAux ll (!acc) k)], .error e, w1) := by
        simp [callIssue, h3']
      rw [obs_bind_error e3] at h6
      rw [e3]
      exact ⟨h6, h5.bounds⟩
    · have e3 : callIssue p.env x (deAux ll (!acc) k) c.world = ([.issued x (deAux ll (!acc) k)], .ok (), w1) := by
        simp [callIssue, h3']
      rw [obs_bind_ok e3] at h6
      rw [e3]
      unfold afterIssue PhaseInv
      simp only
      refine ⟨h1, h2, by omega, ?_, results, vst, h5, ?_⟩
      · intro i hi
        by_cases hik : i < k
        · exact h4 i hik
        · have : i = k := by omega
          subst this
          exact ⟨t, _, hd⟩
      · rw [← h6]
        simp [prepend, withoutLikelihoods]
  | rethrow k hph ha t e hd =>
    rw [hph] at h
    obtain ⟨h1, h2, h3, h4, results, vst, h5, h6⟩ := h
    obtain ⟨a1, a2⟩ := ha
    obtain ⟨s1, s2, s3⟩ := h5.sized
    have hcx : c.st.cur[k]? = some c.st.cur[k] := List.getElem?_eq_getElem (by omega)
    have hnx : c.st.next[k]? = some c.st.next[k] := List.getElem?_eq_getElem (by omega)
    have hll : c.st.lls[k]? = some c.st.lls[k] := List.getElem?_eq_getElem (by omega)
    obtain ⟨j1, j2, j3⟩ := h5.task k _ _ _ _ hd hcx hnx hll
    simp only [final] at j1
    have e2 : (deGet (.error e : Except E Bool) : Prog W S D (Stop E) Bool) c.world =
      ([], .error (.exception e), c.world) := rfl
    rw [tail_step p c.gen k results vst ⟨a1, a2⟩, obs_bind_ok (atIndex_ok j1 c.world), obs_bind_error e2] at h6
    refine ⟨?_, h5.bounds⟩
    simp only
    rw [← h6]
    simp [prepend, withoutLikelihoods]
  | advance k hph ha =>
    rw [hph] at h
    obtain ⟨h1, h2, h3, h4, results, vst, h5, h6⟩ := h
    unfold tail at h6
    rw [obs_bind_ok (deIssue_end p c.gen k results vst ha c.world)] at h6
    have hk : k = c.tasks.length := by unfold Params.Active at ha; omega
    -- all tasks are done, so that the arrays are those of the synchronous program
    have hst : vst = c.st := by
      have hc := h5.cur
      have hext : ∀ i : Nat, vst.next[i]? = c.st.next[i]? ∧ vst.lls[i]? = c.st.lls[i]? := by
        intro i
        by_cases hi : i < c.tasks.length
        · obtain ⟨t, r, ht⟩ := h4 i (by omega)
          obtain ⟨b1, b2, b3⟩ := h5.bounds i hi
          obtain ⟨-, j2, j3⟩ := h5.task i _ _ _ _ ht (List.getElem?_eq_getElem b1) (List.getElem?_eq_getElem b2)
            (List.getElem?_eq_getElem b3)
          simp only [final] at j2 j3
          rw [j2, j3, List.getElem?_eq_getElem b2, List.getElem?_eq_getElem b3]
          exact ⟨rfl, rfl⟩
        · exact h5.rest i (by omega)
      have e1 : vst.next = c.st.next := List.ext_getElem? (fun (i : Nat) => (hext i).1)
      have e2 : vst.lls = c.st.lls := List.ext_getElem? (fun (i : Nat) => (hext i).2)
      cases hvst : vst
      cases hcst : c.st
      rw [hvst, hcst] at hc e1 e2
      simp only at hc e1 e2
      rw [hc, e1, e2]
    rw [hst] at h6
    unfold PhaseInv Params.nextPhase
    by_cases hg : (c.gen + 1) * p.n < p.nSamples
    · rw [if_pos hg]
      simp only
      rw [deLoop_head p (c.gen + 1) _ hn hg] at h6
      refine ⟨hg, rfl, Nat.zero_le _, by omega, [], { c.st with cur := c.st.next }, ?_, ?_⟩
      · obtain ⟨s1, s2, s3⟩ := h5.sized
        exact ⟨rfl, ⟨s2, s2, s3⟩, ⟨s2, s2, s3⟩, rfl, Nat.zero_le _, fun i _ => ⟨rfl, rfl⟩,
          by intro i t x nx ll hi; simp at hi⟩
      · rw [← h6]; simp [prepend, withoutLikelihoods]
    · rw [if_neg hg]
      simp only
      refine ⟨?_, by simp⟩
      have hd := deLoop_end p (c.gen + 1) { c.st with cur := c.st.next } c.world hg
      rw [hd] at h6
      rw [← h6]
      simp [prepend, obs, withoutLikelihoods]
  | leave r hph hw =>
    rw [hph] at h
    obtain ⟨h1, -⟩ := h
    unfold PhaseInv
    rw [← h1]
    exact ⟨rfl, rfl, rfl, rfl⟩

theorem initial_inv (p : Params W S D E) (hp : SameLikelihood p) (hn : 0 < p.n) (w : W) :
    PhaseInv p (obs (body p w)) (initial p w) := by
  have key : ∀ (xs : List S) (w : W), ∃ tr, withoutLikelihoods tr = [] ∧ deInitial p.env xs w =
      (match initialLikelihoods p.likelihood xs with
      | .ok lls => (tr, .ok lls, w)
      | .error e => (tr, .error (.exception e), w)) ∧
      (∀ lls, initialLikelihoods p.likelihood xs = .ok lls → lls.length = xs.length) := by
    intro xs
    induction xs with
    | nil =>
      intro w
      refine ⟨[], rfl, rfl, ?_⟩
      intro lls h
      simp only [initialLikelihoods, Except.ok.injEq] at h
      subst h; rfl
    | cons x xs ih =>
      intro w
      obtain ⟨tr, h1, h2, h3⟩ := ih w
      cases hL : p.likelihood x with
      | error e =>
        have e1 : callLogLikelihood p.env x w = ([], .error (.exception e), w) := by
          unfold callLogLikelihood; rw [hp]; simp [liftL, hL]
        refine ⟨[], rfl, ?_, ?_⟩
        · unfold deInitial initialLikelihoods
          rw [Prog.bind_error e1, hL]
        · intro lls h; unfold initialLikelihoods at h; rw [hL] at h; cases h
      | ok d =>
        have e1 : callLogLikelihood p.env x w = ([.logLikelihood x d], .ok d, w) := by
          unfold callLogLikelihood; rw [hp]; simp [liftL, hL]
        refine ⟨[.logLikelihood x d] ++ tr, by rw [without_append, h1]; rfl, ?_, ?_⟩
        · unfold deInitial initialLikelihoods
          rw [Prog.bind_ok e1, hL]
          simp only
          cases h4 : initialLikelihoods p.likelihood xs with
          | error e =>
            rw [h4] at h2
            simp only at h2
            rw [Prog.bind_error h2]
          | ok ds =>
            rw [h4] at h2
            simp only at h2
            rw [Prog.bind_ok h2]
            simp [Prog.pure_run]
        · intro lls h
          unfold initialLikelihoods at h
          rw [hL] at h
          simp only at h
          cases h4 : initialLikelihoods p.likelihood xs with
          | error e => rw [h4] at h; cases h
          | ok ds =>
            rw [h4] at h
            simp only [Except.ok.injEq] at h
            subst h
            simp [h3 ds h4]
  obtain ⟨tr, h1, h2, h3⟩ := key p.starts w
  unfold initial body
  cases h4 : initialLikelihoods p.likelihood p.starts with
  | error e =>
    rw [h4] at h2
    simp only at h2
    rw [obs_bind_error h2, h1]
    refine ⟨rfl, ?_⟩
    intro i hi; simp at hi
  | ok lls =>
    rw [h4] at h2
    simp only at h2
    rw [obs_bind_ok h2, h1, prepend_nil]
    unfold PhaseInv Params.nextPhase
    by_cases hg : 0 * p.n < p.nSamples
    · rw [if_pos hg]
      simp only
      refine ⟨hg, rfl, Nat.zero_le _, by omega, [], ⟨p.starts, p.starts, lls⟩, ?_, ?_⟩
      · have hs : Sized p.n (⟨p.starts, p.starts, lls⟩ : DEState S D) := ⟨rfl, rfl, h3 lls h4⟩
        exact ⟨rfl, hs, hs, rfl, Nat.zero_le _, fun i _ => ⟨rfl, rfl⟩, by intro i t x nx ll hi; simp at hi⟩
      · have := deLoop_head p 0 ⟨p.starts, p.starts, lls⟩ hn hg
        rw [Nat.sub_zero] at this
        rw [this, prepend_nil]
    · rw [if_neg hg]
      simp only
      have := deLoop_end p 0 ⟨p.starts, p.starts, lls⟩ w hg
      rw [Nat.sub_zero] at this
      rw [this]
      refine ⟨rfl, ?_⟩
      intro i hi; simp at hi

theorem reachable_inv (p : Params W S D E) (hp : SameLikelihood p) (hn : 0 < p.n) (w : W) (c : Config W S D E)
    (h : Reachable p w c) : PhaseInv p (obs (body p w)) c := by
  induction h with
  | start => exact initial_inv p hp hn w
  | step _ hs ih =>
    cases hs with
    | main hs => exact ih.mainStep hp hn hs
    | task i hs => exact ih.taskStep hs

/-! ## progress -/

/-- how far a task is from its end -/
def weight : Pc D E → Nat
  | .fresh => 4
  | .evaluated _ => 3
  | .decided _ _ => 2
  | .wroteNext _ => 1
  | .done _ => 0

/-- how far the main thread is from its end -/
def mainWeight (p : Params W S D E) (c : Config W S D E) : Nat :=
  match c.phase with
  | .creating k => (p.nSamples - c.gen) * (2 * p.n + 3) + (2 * p.n + 2 - k)
  | .issuing k => (p.nSamples - c.gen) * (2 * p.n + 3) + (p.n + 1 - k)
  | .leaving _ => 1
  | .finished _ => 0

/-- how far the system is from its end -/
def measure (p : Params W S D E) (c : Config W S D E) : Nat :=
  5 * mainWeight p c + (c.tasks.map (fun t => weight t.pc)).sum

theorem sum_set {l : List Nat} {i : Nat} {a b : Nat} (h : l[i]? = some a) (hb : b < a) : (l.set i b).sum < l.sum := by
  induction l generalizing i with
  | nil => simp at h
  | cons x l ih =>
    cases i with
    | zero =>
      simp only [List.getElem?_cons_zero, Option.some.injEq] at h
      subst h
      simp [hb]
    | succ i =>
      simp only [List.getElem?_cons_succ] at h
      have := ih h
      simp only [List.set_cons_succ, List.sum_cons]
      omega

theorem TaskStep.decreases {p : Params W S D E} {i : Nat} {c c' : Config W S D E} (hs : TaskStep p i c c') :
    measure p c' < measure p c := by
  have key : ∀ (t : DETask S D) (pc pc' : Pc D E) (st : DEState S D), c.tasks[i]? = some ⟨t, pc⟩ → weight pc' < weight pc →
      measure p { c.setPc i t pc' with st := st } < measure p c := by
    intro t pc pc' st h1 h2
    have h3 : (c.tasks.map (fun t => weight t.pc))[i]? = some (weight pc) := by
      rw [List.getElem?_map, h1]; rfl
    have := sum_set h3 h2
    unfold measure mainWeight Config.setPc
    simp only [List.map_set]
    omega
  cases hs with
  | evaluate t d hi hL => exact key t _ _ c.st hi (by simp [weight])
  | throw t d hi hL => exact key t _ _ c.st hi (by simp [weight])
  | decide t d _ hi hL => exact key t _ _ c.st hi (by simp [weight])
  | writeNext t d hi hL => exact key t _ _ _ hi (by simp [weight])
  | writeLL t d hi hL => exact key t _ _ _ hi (by simp [weight])
  | keep t d _ hi hL => exact key t _ _ _ hi (by simp [weight])

theorem MainStep.decreases {p : Params W S D E} (hn : 0 < p.n) {T : List (Event S D) × Except (Stop E) Unit × W}
    {c c' : Config W S D E} (h : PhaseInv p T c) (hs : MainStep p c c') : measure p c' < measure p c := by
  unfold PhaseInv at h
  have big : c.gen * p.n < p.nSamples → c.gen < p.nSamples := by
    intro h1
    have : c.gen * 1 ≤ c.gen * p.n := Nat.mul_le_mul_left _ hn
    omega
  cases hs with
  | create k hph ha =>
    rw [hph] at h
    obtain ⟨h1, h2, h3, h4, -⟩ := h
    have a1 := ha.1
    have hg := big h1
    rcases deMakeTask p.env p.gap c.gen c.st.cur k c.world with ⟨tr, (e | t), w'⟩
    · unfold afterCreate measure mainWeight
      simp only [hph]
      omega
    · unfold afterCreate measure mainWeight
      simp only [hph, List.map_append, List.sum_append, List.map_cons, List.map_nil, weight, List.sum_cons, List.sum_nil]
      omega
  | created k hph ha =>
    rw [hph] at h
    obtain ⟨h1, h2, h3, h4, -⟩ := h
    unfold measure mainWeight
    simp only [hph]
    omega
  | issue k hph ha t acc hd x hx ll hl =>
    rw [hph] at h
    have a1 := ha.1
    have hg := big h.1
    have hpos : 0 < (p.nSamples - c.gen) * (2 * p.n + 3) := Nat.mul_pos (by omega) (by omega)
    rcases callIssue p.env x (deAux ll (!acc) k) c.world with ⟨tr, (e | t), w'⟩ <;>
    · unfold afterIssue measure mainWeight
      simp only [hph]
      omega
  | rethrow k hph ha t e hd =>
    rw [hph] at h
    have a1 := ha.1
    have hg := big h.1
    have hpos : 0 < (p.nSamples - c.gen) * (2 * p.n + 3) := Nat.mul_pos (by omega) (by omega)
    unfold measure mainWeight
    simp only [hph]
    omega
  | advance k hph ha =>
    rw [hph] at h
    obtain ⟨h1, h2, h3, -⟩ := h
    have hg := big h1
    have e1 : (p.nSamples - c.gen) * (2 * p.n + 3) =
        (p.nSamples - (c.gen + 1)) * (2 * p.n + 3) + (2 * p.n + 3) := by
      rw [← Nat.succ_mul]; congr 1; omega
    have h4 : p.nextPhase (c.gen + 1) = .creating 0 ∨ p.nextPhase (c.gen + 1) = .leaving (.ok ()) := by
      unfold Params.nextPhase; split
      · exact Or.inl rfl
      · exact Or.inr rfl
    unfold measure mainWeight
    rcases h4 with h4 | h4
    · simp only [hph, h4, List.map_nil, List.sum_nil]
      omega
    · simp only [hph, h4, List.map_nil, List.sum_nil]
      omega
  | leave r hph hw =>
    unfold measure mainWeight
    simp only [hph, List.map_nil, List.sum_nil]
    omega

theorem task_progress {p : Params W S D E} {c : Config W S D E} {i : Nat} {t : DETask S D} {pc : Pc D E}
    (h : c.tasks[i]? = some ⟨t, pc⟩) (hb : i < c.st.cur.length ∧ i < c.st.next.length ∧ i < c.st.lls.length)
    (hd : ∀ r, pc ≠ .done r) : ∃ c', TaskStep p i c c' := by
  obtain ⟨b1, b2, b3⟩ := hb
  cases pc with
  | fresh =>
    cases hL : p.likelihood t.trial with
    | ok d => exact ⟨_, .evaluate t d h hL⟩
    | error e => exact ⟨_, .throw t e h hL⟩
  | evaluated d => exact ⟨_, .decide t d _ h (List.getElem?_eq_getElem b3)⟩
  | decided d acc =>
    cases acc with
    | true => exact ⟨_, .writeNext t d h b2⟩
    | false => exact ⟨_, .keep t d _ h (List.getElem?_eq_getElem b1) b2⟩
  | wroteNext d => exact ⟨_, .writeLL t d h b3⟩
  | done r => exact absurd rfl (hd r)

theorem progress {p : Params W S D E} {T : List (Event S D) × Except (Stop E) Unit × W} {c : Config W S D E}
    (h : PhaseInv p T c) (hf : ∀ r, c.phase ≠ .finished r) : ∃ c', Step p c c' := by
  unfold PhaseInv at h
  cases hph : c.phase with
  | creating k =>
    by_cases ha : p.Active c.gen k
    · exact ⟨_, .main (.create k hph ha)⟩
    · exact ⟨_, .main (.created k hph ha)⟩
  | issuing k =>
    rw [hph] at h
    obtain ⟨h1, h2, h3, h4, results, vst, h5, -⟩ := h
    by_cases ha : p.Active c.gen k
    · have hk : k < c.tasks.length := by unfold Params.Active at ha; omega
      obtain ⟨b1, b2, b3⟩ := h5.bounds k hk
      rcases ht : c.tasks[k]? with _ | ⟨t, pc⟩
      · rw [List.getElem?_eq_none_iff] at ht; omega
      · by_cases hd : ∃ r, pc = .done r
        · obtain ⟨r, rfl⟩ := hd
          cases r with
          | ok acc => exact ⟨_, .main (.issue k hph ha t acc ht _ (List.getElem?_eq_getElem b2) _ (List.getElem?_eq_getElem b3))⟩
          | error e => exact ⟨_, .main (.rethrow k hph ha t e ht)⟩
        · obtain ⟨c', hc'⟩ := task_progress (p := p) ht ⟨b1, b2, b3⟩ (fun r hr => hd ⟨r, hr⟩)
          exact ⟨c', .task k hc'⟩
    · exact ⟨_, .main (.advance k hph ha)⟩
  | leaving r =>
    rw [hph] at h
    by_cases hw : ∀ t ∈ c.tasks, t.AtRest
    · exact ⟨_, .main (.leave r hph hw)⟩
    · push Not at hw
      obtain ⟨⟨t, pc⟩, ht, hr⟩ := hw
      obtain ⟨i, hi, hti⟩ := List.getElem_of_mem ht
      obtain ⟨c', hc'⟩ := task_progress (p := p) (i := i) (t := t) (pc := pc)
        (by rw [List.getElem?_eq_getElem hi, hti]) (h.2 i hi) (by
          intro r hr'; exact hr (Or.inr ⟨r, hr'⟩))
      exact ⟨c', .task i hc'⟩
  | finished r => exact absurd hph (hf r)

end SampleFlow.DEAsync
