import Verif.Proofs.MutexObjects
import Verif.Model.MutexMore
import Verif.Proofs.SimpleConsumers

namespace SampleFlow.Mutex

open Mutex.Spec SampleFlow

/-! ## LastSample -/

theorem copy_steps {α : Type} {d : Nat} (x : Fin d → α) (ks : List (Fin d)) (s : Fin d → α) (r : Fin d → Option α) :
    (ks.map (fun k => fun (s : Fin d → α) (r : Fin d → Option α) => ((fun j => if j = k then x j else s j), r))).foldl
      (fun p f => f p.1 p.2) (s, r) = ((fun j => if j ∈ ks then x j else s j), r) := by
  induction ks generalizing s with
  | nil => simp
  | cons k ks ih =>
    rw [List.map_cons, List.foldl_cons, ih]
    congr 1
    funext j
    by_cases h : j ∈ ks
    · simp [h]
    · by_cases h2 : j = k <;> simp [h, h2]

theorem read_steps {α : Type} {d : Nat} (ks : List (Fin d)) (s : Fin d → α) (r : Fin d → Option α) :
    (ks.map (fun k => fun (s : Fin d → α) (r : Fin d → Option α) => (s, (fun j => if j = k then some (s j) else r j)))).foldl
      (fun p f => f p.1 p.2) (s, r) = (s, (fun j => if j ∈ ks then some (s j) else r j)) := by
  induction ks generalizing r with
  | nil => simp
  | cons k ks ih =>
    rw [List.map_cons, List.foldl_cons, ih]
    congr 1
    funext j
    by_cases h : j ∈ ks
    · simp [h]
    · by_cases h2 : j = k <;> simp [h, h2]

theorem call_last_consume {α : Type} {d : Nat} (s x : Fin d → α) :
    (call (lastObject α d) s (.consume x)).1 = x := by
  simp only [call, lastObject]
  rw [copy_steps]
  funext j
  simp

theorem call_last_get {α : Type} {d : Nat} (s : Fin d → α) :
    (call (lastObject α d) s .get).1 = s ∧ (call (lastObject α d) s .get).2 = fun j => some (s j) := by
  simp only [call, lastObject]
  rw [read_steps]
  exact ⟨rfl, by funext j; simp⟩

/-! ## MaximumProbabilitySample -/

/-- sequential effect of `consume` -/
def maxProbConsume {S A D : Type} (isLowest : D → Bool) (gt : D → D → Bool) (s : MaxProbMembers S A D)
    (m : S × A × D) : MaxProbMembers S A D :=
  if isLowest s.highest || gt m.2.2 s.highest then ⟨m.1, m.2.1, m.2.2⟩ else s

theorem call_maxProb_consume {S A D : Type} (isLowest : D → Bool) (gt : D → D → Bool) (s : MaxProbMembers S A D)
    (m : S × A × D) : (call (maxProbObject S A isLowest gt) s (.consume m)).1 = maxProbConsume isLowest gt s m := by
  obtain ⟨x, a, ll⟩ := m
  simp only [call, maxProbObject, List.foldl_cons, List.foldl_nil, maxProbConsume]
  cases h1 : isLowest s.highest <;> cases h2 : gt ll s.highest <;> simp [h2]

/-! ## AcceptanceRatio -/

theorem call_ratio_consume {α : Type} (eq : α → α → Bool) (s : ARState α) (x : α) :
    (call (ratioObject eq) s (.consume x)).1 = s.consume eq x := by
  by_cases h : s.n = 0
  · simp [call, ratioObject, ARState.consume, h]
  · cases h2 : eq x s.previous <;> simp [call, ratioObject, ARState.consume, h, h2]

/-! ## StreamOutput -/

theorem print_steps (t : List Char) (out : List Char) :
    (t.map (fun c => fun (out : List Char) (_ : Unit) => (out ++ [c], ()))).foldl (fun p f => f p.1 p.2) (out, ()) =
      (out ++ t, ()) := by
  induction t generalizing out with
  | nil => simp
  | cons c t ih => rw [List.map_cons, List.foldl_cons, ih]; simp

theorem call_stream (out : List Char) (x : Printable) : (call streamObject out x).1 = streamConsume out x := by
  simp only [call, streamObject]
  rw [print_steps]
  simp [streamConsume]

/-! ## PairHistogram -/

theorem call_pair_get_aux (b : Nat → Nat → Nat) (ps : List (Nat × Nat)) (r : Nat × List Nat) :
    ((ps.map (fun p => fun (b : Nat → Nat → Nat) (r : Nat × List Nat) => (b, ((0 : Nat), r.2 ++ [b p.1 p.2])))).foldl
      (fun p f => f p.1 p.2) (b, r)).1 = b ∧
    ((ps.map (fun p => fun (b : Nat → Nat → Nat) (r : Nat × List Nat) => (b, ((0 : Nat), r.2 ++ [b p.1 p.2])))).foldl
      (fun p f => f p.1 p.2) (b, r)).2.2 = r.2 ++ ps.map (fun p => b p.1 p.2) := by
  induction ps generalizing r with
  | nil => simp
  | cons k ks ih =>
    rw [List.map_cons, List.foldl_cons]
    obtain ⟨h1, h2⟩ := ih (0, r.2 ++ [b k.1 k.2])
    exact ⟨h1, by simp only; rw [h2]; simp⟩

theorem call_pair_get (rows cols : Nat) (b : Nat → Nat → Nat) :
    (call (pairBinsObject rows cols) b .get).1 = b ∧
    (call (pairBinsObject rows cols) b .get).2.2 = ((List.range rows).product (List.range cols)).map (fun p => b p.1 p.2) := by
  have := call_pair_get_aux b ((List.range rows).product (List.range cols)) (0, [])
  simpa [call, pairBinsObject] using this

/-- sequential effect of `consume` -/
def pairCount (b : Nat → Nat → Nat) : Option (Nat × Nat) → Nat → Nat → Nat
  | some (x, y) => fun x' y' => if x' = x ∧ y' = y then b x' y' + 1 else b x' y'
  | none => b

theorem call_pair_consume (rows cols : Nat) (b : Nat → Nat → Nat) (k : Option (Nat × Nat)) :
    (call (pairBinsObject rows cols) b (.consume k)).1 = pairCount b k := by
  rcases k with _ | ⟨x, y⟩
  · rfl
  · simp only [call, pairBinsObject, List.foldl_cons, List.foldl_nil, pairCount]
    funext x' y'
    split
    · rename_i h; rw [h.1, h.2]
    · rfl

theorem foldl_pairCount (b : Nat → Nat → Nat) (ks : List (Option (Nat × Nat))) (x y : Nat) :
    (ks.foldl pairCount b) x y = b x y + ks.countP (fun k => k == some (x, y)) := by
  induction ks generalizing b with
  | nil => simp
  | cons k ks ih =>
    rw [List.foldl_cons, ih, List.countP_cons]
    rcases k with _ | ⟨x', y'⟩
    · simp [pairCount]
    · by_cases h : x = x' ∧ y = y'
      · obtain ⟨rfl, rfl⟩ := h
        simp [pairCount]; omega
      · have : (some (x', y') == some (x, y)) = false := by
          apply Bool.eq_false_iff.mpr
          intro e
          apply h
          simp at e
          exact ⟨e.1.symm, e.2.symm⟩
        simp [pairCount, h, this]

/-! ## DiscardFirstN -/

theorem call_discard {α A : Type} (n counter : UInt64) (m : Msg α A) :
    (discardFirstN α A n).filter counter m =
      .ok ((call (discardObject α A n) counter m).2.2, (call (discardObject α A n) counter m).1) := by
  simp only [discardFirstN, call, discardObject, List.foldl_cons, List.foldl_nil]
  by_cases h : counter + 1 > n <;> simp [h]

/-- a sequential history of calls of `filter` lets through what the filter issues -/
theorem filter_run {σ X R : Type} (F : FilterObj σ X X) (o : Object σ X (R × Option X))
    (hf : ∀ s m, F.filter s m = .ok ((call o s m).2.2, (call o s m).1)) (s0 : σ)
    (h : List (Nat × X × R × Option X))
    (hs : ∀ pre i op r post, h = pre ++ (i, op, r) :: post →
      r = (call o (membersAfter o s0 (pre.map (fun e => e.2.1))) op).2) :
    h.filterMap (fun e => e.2.2.2) = (F.runFrom s0 (h.map (fun e => e.2.1))).1 := by
  induction h generalizing s0 with
  | nil => rfl
  | cons e h ih =>
    obtain ⟨i, m, r⟩ := e
    have hr : r = (call o s0 m).2 := hs [] i m r h rfl
    have ih := ih (call o s0 m).1 (by
      intro pre i' op r' post heq
      have := hs ((i, m, r) :: pre) i' op r' post (by rw [heq]; rfl)
      simpa [membersAfter] using this)
    rw [List.map_cons, List.filterMap_cons, FilterObj.runFrom, hf]
    simp only [hr]
    cases hc : (call o s0 m).2.2 with
    | none => simp only; exact ih
    | some y => simp only; rw [ih]

/-! ## read-modify-write -/

theorem call_rmw_consume {σ α β : Type} (consume : σ → α → σ) (get : σ → β) (s : σ) (x : α) :
    (call (readModifyWrite consume get) s (.consume x)).1 = consume s x := rfl

theorem call_rmw_get {σ α β : Type} (consume : σ → α → σ) (get : σ → β) (s : σ) :
    (call (readModifyWrite consume get) s .get).1 = s ∧ (call (readModifyWrite consume get) s .get).2.2 = some (get s) :=
  ⟨rfl, rfl⟩

theorem foldl_bind_eq {σ α : Type} (f : σ → α → Except Fault σ) (s : Except Fault σ) (xs : List α) :
    xs.foldl (fun s x => s.bind (fun s => f s x)) s = s.bind (fun s => xs.foldlM f s) := by
  induction xs generalizing s with
  | nil => cases s <;> rfl
  | cons x xs ih =>
    rw [List.foldl_cons, ih]
    cases s with
    | error e => rfl
    | ok s => rfl

end SampleFlow.Mutex
