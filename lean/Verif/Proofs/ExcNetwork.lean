import Verif.Spec.ExcNetwork

/-! Exceptions in synchronous networks. -/

namespace SampleFlow.Exc
open Spec

variable {V E : Type}

@[simp] theorem nodeAt_nil (ns : List (Node V E)) : nodeAt ns [] = none := by unfold nodeAt; rfl

@[simp] theorem nodeAt_head (n : Node V E) (ns : List (Node V E)) : nodeAt (n :: ns) [0] = some n := by rw [nodeAt]; rfl

@[simp] theorem nodeAt_head_below (c : Component V E) (a : Bool) (l : List (NetEvent V)) (cs ns : List (Node V E)) (j : Nat) (p : List Nat) :
    nodeAt (.mk c a l cs :: ns) (0 :: j :: p) = nodeAt cs (j :: p) := by rw [nodeAt]; rfl

@[simp] theorem nodeAt_tail (n : Node V E) (ns : List (Node V E)) (i : Nat) (p : List Nat) :
    nodeAt (n :: ns) ((i + 1) :: p) = nodeAt ns (i :: p) := by
  cases p with
  | nil => rw [nodeAt, nodeAt]; rfl
  | cons j p => rw [nodeAt, nodeAt]; rfl

@[simp] theorem above_single (ns : List (Node V E)) (i : Nat) : above ns [i] = [] := by simp [above]

@[simp] theorem above_head_below (c : Component V E) (a : Bool) (l : List (NetEvent V)) (cs ns : List (Node V E)) (j : Nat) (p : List Nat) :
    above (.mk c a l cs :: ns) (0 :: j :: p) = c :: above cs (j :: p) := by rw [above]; rfl

@[simp] theorem above_tail (n : Node V E) (ns : List (Node V E)) (i : Nat) (p : List Nat) :
    above (n :: ns) ((i + 1) :: p) = above ns (i :: p) := by
  cases p with
  | nil => simp
  | cons j p => rw [above, above]; rfl

@[simp] theorem through_nil (cs : List (Component V E)) : through cs ([] : List V) = [] := by
  induction cs with
  | nil => rfl
  | cons c cs ih => simpa [through, outputs] using ih

/-- The components of a row after the first one has received `xs`. -/
def advance : List (Component V E) → List V → List (Component V E)
  | [], _ => []
  | c :: cs, xs => after c xs :: advance cs (outputs c xs)

@[simp] theorem advance_nil (cs : List (Component V E)) : advance cs [] = cs := by
  induction cs with
  | nil => rfl
  | cons c cs ih => simp [advance, outputs, after, ih]

/-- The node at `p` has received the message as far as the components above let it pass. -/
def Got (ns ns' : List (Node V E)) (m : V) (p : List Nat) : Prop :=
  ∀ n, nodeAt ns p = some n → ∃ n', nodeAt ns' p = some n' ∧
    n'.log = n.log ++ (through (above ns p) [m]).map .sample ∧ n'.comp = after n.comp (through (above ns p) [m]) ∧
    above ns' p = advance (above ns p) [m]

/-- The component at `t` throws `e` when the message `m` is issued. -/
def Throws (ns : List (Node V E)) (m : V) (t : List Nat) (e : E) : Prop :=
  ∃ n x, nodeAt ns t = some n ∧ through (above ns t) [m] = [x] ∧ (n.comp.step n.comp.state x).1 = .error e

theorem issueSample_throw {c : Component V E} {l : List (NetEvent V)} {cs ns : List (Node V E)} {m : V} {e : E} {n' : Node V E}
    (h : (Node.mk c false l cs).consume m = (some e, n')) : issueSample (.mk c false l cs :: ns) m = (some e, n' :: ns) := by
  unfold issueSample
  simp only [h]

theorem issueSample_go {c : Component V E} {a : Bool} {l : List (NetEvent V)} {cs ns : List (Node V E)} {m : V} {n' : Node V E}
    (h : (Node.mk c a l cs).consume m = (none, n')) :
    issueSample (.mk c a l cs :: ns) m = ((issueSample ns m).1, n' :: (issueSample ns m).2) := by
  conv => lhs; unfold issueSample
  simp only [h]

theorem issueSample_async (c : Component V E) (l : List (NetEvent V)) (cs ns : List (Node V E)) (m : V) :
    issueSample (.mk c true l cs :: ns) m = ((issueSample ns m).1, ((Node.mk c true l cs).consume m).2 :: (issueSample ns m).2) := by
  conv => lhs; unfold issueSample

/-- What one call of `issue_sample` does. -/
def IssueOK (ns : List (Node V E)) (m : V) : Prop :=
  match issueSample ns m with
  | (none, ns') => (∀ p, Got ns ns' m p) ∧ (∀ t e, ¬ Throws ns m t e)
  | (some e, ns') => ∃ t, Throws ns m t e ∧ (∀ t' e', Throws ns m t' e' → t' = t ∨ ComesAfter t' t) ∧
      ∀ p, (¬ ComesAfter p t → Got ns ns' m p) ∧ (ComesAfter p t → nodeAt ns' p = nodeAt ns p)

theorem outputs_one (c : Component V E) (m : V) : outputs c [m] =
    match (c.step c.state m).1 with
    | .ok (some y) => [y]
    | _ => [] := by
  unfold outputs; split <;> simp [outputs, *]

theorem issueOK_list (ns : List (Node V E)) (h : ∀ n ∈ ns, ∃ c l cs, n = .mk c false l cs ∧ ∀ m, IssueOK cs m) (m : V) :
    IssueOK ns m := by
  induction ns with
  | nil =>
    unfold IssueOK
    rw [issueSample]
    refine ⟨?_, ?_⟩
    · intro p n hn
      match p with
      | [] => simp at hn
      | [i] => simp [nodeAt] at hn
      | i :: j :: p => simp [nodeAt] at hn
    · rintro t e ⟨n, x, hn, -⟩
      match t with
      | [] => simp at hn
      | [i] => simp [nodeAt] at hn
      | i :: j :: p => simp [nodeAt] at hn
  | cons n ns ih =>
    have ih := ih (fun n hn => h n (by simp [hn]))
    obtain ⟨c, l, cs, rfl, hcs⟩ := h n (by simp)
    -- what the head does
    have head : ∀ (o : Option V), (c.step c.state m).1 = .ok o → ∀ cs',
        (o ≠ none → ∀ p, Got cs cs' (o.getD m) p) → (o = none → cs' = cs) → (o ≠ none → ∀ t e, ¬ Throws cs (o.getD m) t e) →
        ∀ ns', (∀ p, Got (.mk c false l cs :: ns) (.mk (c.next m) false (l ++ [.sample m]) cs' :: ns') m (0 :: p)) ∧
          (∀ t e, ¬ Throws (.mk c false l cs :: ns) m (0 :: t) e) := by
      intro o ho cs' hgot hno hthrow ns'
      have hout : outputs c [m] = o.toList := by rw [outputs_one, ho]; cases o <;> rfl
      constructor
      · intro p n hn
        match p with
        | [] =>
          simp at hn; subst hn
          exact ⟨_, by simp; rfl, by simp [Node.log, through], by simp [Node.comp, through, after], by simp [advance]⟩
        | j :: p =>
          rw [nodeAt_head_below] at hn
          rw [nodeAt_head_below, above_head_below, through, hout]
          cases o with
          | none => rw [hno rfl]; exact ⟨n, hn, by simp, by simp [after], by simp [advance, hout, after]⟩
          | some y =>
            obtain ⟨n', g1, g2, g3, g4⟩ := hgot (by simp) (j :: p) n hn
            exact ⟨n', g1, g2, g3, by rw [above_head_below, advance, hout, g4]; rfl⟩
      · rintro t e ⟨n, x, h1, h2, h3⟩
        match t with
        | [] =>
          simp at h1; subst h1
          simp only [above_single, through, List.cons.injEq, and_true] at h2
          subst h2
          simp only [Node.comp] at h3
          rw [ho] at h3; cases h3
        | j :: t =>
          rw [nodeAt_head_below] at h1
          rw [above_head_below, through, hout] at h2
          cases o with
          | none => simp at h2
          | some y => exact hthrow (by simp) (j :: t) e ⟨n, x, h1, h2, h3⟩
    -- how it goes on after the head
    have go : ∀ n', (∀ p, Got (.mk c false l cs :: ns) (n' :: (issueSample ns m).2) m (0 :: p)) →
        (∀ t e, ¬ Throws (.mk c false l cs :: ns) m (0 :: t) e) →
        match (issueSample ns m).1, n' :: (issueSample ns m).2 with
        | none, ns' => (∀ p, Got (.mk c false l cs :: ns) ns' m p) ∧ (∀ t e, ¬ Throws (.mk c false l cs :: ns) m t e)
        | some e, ns' => ∃ t, Throws (.mk c false l cs :: ns) m t e ∧
            (∀ t' e', Throws (.mk c false l cs :: ns) m t' e' → t' = t ∨ ComesAfter t' t) ∧
            ∀ p, (¬ ComesAfter p t → Got (.mk c false l cs :: ns) ns' m p) ∧
              (ComesAfter p t → nodeAt ns' p = nodeAt (.mk c false l cs :: ns) p) := by
      intro n' hg ht
      unfold IssueOK at ih
      rcases hi : issueSample ns m with ⟨o, ns'⟩
      rw [hi] at ih hg
      cases o with
      | none =>
        obtain ⟨i1, i2⟩ := ih
        refine ⟨?_, ?_⟩
        · intro p
          match p with
          | [] => intro n hn; simp at hn
          | 0 :: p => exact hg p
          | (i + 1) :: p => intro n hn; simp only [nodeAt_tail, above_tail] at hn ⊢; exact i1 (i :: p) n hn
        · intro t e hte
          match t with
          | [] => obtain ⟨n, x, h1, -⟩ := hte; simp at h1
          | 0 :: t => exact ht t e hte
          | (i + 1) :: t =>
            obtain ⟨n, x, h1, h2, h3⟩ := hte
            simp only [nodeAt_tail, above_tail] at h1 h2
            exact i2 (i :: t) e ⟨n, x, h1, h2, h3⟩
      | some e =>
        obtain ⟨t, ⟨n, x, h1, h2, h3⟩, i2, i3⟩ := ih
        match t with
        | [] => simp at h1
        | i :: t =>
          refine ⟨(i + 1) :: t, ⟨n, x, by simpa using h1, by simpa using h2, h3⟩, ?_, ?_⟩
          · intro t' e' hte
            match t' with
            | [] => obtain ⟨n, x, h1, -⟩ := hte; simp at h1
            | 0 :: t' => exact absurd hte (ht t' e')
            | (j + 1) :: t' =>
              obtain ⟨n, x, h1, h2, h3⟩ := hte
              simp only [nodeAt_tail, above_tail] at h1 h2
              rcases i2 (j :: t') e' ⟨n, x, h1, h2, h3⟩ with h | h
              · cases h; exact .inl rfl
              · right
                simp only [ComesAfter] at h ⊢
                rcases h with h | ⟨rfl, h⟩
                · exact .inl (by omega)
                · exact .inr ⟨rfl, h⟩
          · intro p
            match p with
            | [] => exact ⟨fun _ n hn => by simp at hn, fun h => by simp [ComesAfter] at h⟩
            | 0 :: p =>
              refine ⟨fun _ => hg p, fun h => ?_⟩
              simp [ComesAfter] at h
            | (j + 1) :: p =>
              have hca : ComesAfter ((j + 1) :: p) ((i + 1) :: t) ↔ ComesAfter (j :: p) (i :: t) := by
                simp only [ComesAfter]
                constructor
                · rintro (h | ⟨h, h'⟩)
                  · exact .inl (by omega)
                  · exact .inr ⟨by omega, h'⟩
                · rintro (h | ⟨h, h'⟩)
                  · exact .inl (by omega)
                  · exact .inr ⟨by omega, h'⟩
              rw [hca]
              refine ⟨fun h => ?_, fun h => ?_⟩
              · intro n hn
                simp only [nodeAt_tail, above_tail] at hn ⊢
                exact (i3 (j :: p)).1 h n hn
              · simp only [nodeAt_tail]
                exact (i3 (j :: p)).2 h
    unfold IssueOK
    rcases hst : c.step c.state m with ⟨(e | (_ | y)), s⟩
    · -- the component itself throws
      rw [issueSample_throw (e := e) (n' := .mk (c.next m) false (l ++ [.sample m]) cs) (by rw [Node.consume, hst])]
      refine ⟨[0], ⟨_, m, nodeAt_head _ _, rfl, by simp [Node.comp, hst]⟩, ?_, ?_⟩
      · intro t' e' hte
        match t' with
        | [] => obtain ⟨n, x, h1, -⟩ := hte; simp at h1
        | [0] => exact .inl rfl
        | 0 :: j :: t' => right; simp [ComesAfter]
        | (j + 1) :: t' => right; simp [ComesAfter]
      · intro p
        match p with
        | [] => exact ⟨fun _ n hn => by simp at hn, fun h => by simp [ComesAfter] at h⟩
        | [0] =>
          refine ⟨fun _ n hn => ?_, fun h => by simp [ComesAfter] at h⟩
          simp at hn; subst hn
          exact ⟨_, by simp; rfl, by simp [Node.log, through], by simp [Node.comp, through, after], by simp [advance]⟩
        | 0 :: j :: p =>
          refine ⟨fun h => by simp [ComesAfter] at h, fun _ => by simp⟩
        | (j + 1) :: p =>
          refine ⟨fun h => by simp [ComesAfter] at h, fun _ => by simp⟩
    · obtain ⟨hg, ht⟩ := head none (by rw [hst]) cs (fun h => absurd rfl h) (fun _ => rfl) (fun h => absurd rfl h) (issueSample ns m).2
      rw [issueSample_go (n' := .mk (c.next m) false (l ++ [.sample m]) cs) (by rw [Node.consume, hst])]
      have := go _ hg ht
      revert this; rcases issueSample ns m with ⟨(_ | e), ns'⟩ <;> exact fun this => this
    · have hc := hcs y
      unfold IssueOK at hc
      rcases hi : issueSample cs y with ⟨(_ | e), cs'⟩
      · rw [hi] at hc
        obtain ⟨hg, ht⟩ := head (some y) (by rw [hst]) cs' (fun _ => hc.1) (fun h => by cases h) (fun _ => hc.2) (issueSample ns m).2
        rw [issueSample_go (n' := .mk (c.next m) false (l ++ [.sample m]) cs') (by rw [Node.consume, hst]; simp only [hi])]
        have := go _ hg ht
        revert this; rcases issueSample ns m with ⟨(_ | e), ns'⟩ <;> exact fun this => this
      · rw [hi] at hc
        rw [issueSample_throw (e := e) (n' := .mk (c.next m) false (l ++ [.sample m]) cs') (by rw [Node.consume, hst]; simp only [hi])]
        obtain ⟨t, ⟨n, x, h1, h2, h3⟩, i2, i3⟩ := hc
        have hout : outputs c [m] = [y] := by rw [outputs_one, hst]
        match t with
        | [] => simp at h1
        | i :: t =>
          refine ⟨0 :: i :: t, ⟨n, x, by simpa using h1, by rw [above_head_below, through, hout]; exact h2, h3⟩, ?_, ?_⟩
          · intro t' e' hte
            match t' with
            | [] => obtain ⟨n, x, h1, -⟩ := hte; simp at h1
            | [0] =>
              obtain ⟨n, x, h1, h2, h3⟩ := hte
              simp at h1; subst h1
              simp only [above_single, through, List.cons.injEq, and_true] at h2
              subst h2
              simp only [Node.comp] at h3
              rw [hst] at h3; cases h3
            | 0 :: j :: t' =>
              obtain ⟨n, x, h1, h2, h3⟩ := hte
              rw [above_head_below, through, hout] at h2
              rw [nodeAt_head_below] at h1
              rcases i2 (j :: t') e' ⟨n, x, h1, h2, h3⟩ with h | h
              · cases h; exact .inl rfl
              · exact .inr (.inr ⟨rfl, h⟩)
            | (j + 1) :: t' => right; simp [ComesAfter]
          · intro p
            match p with
            | [] => exact ⟨fun _ n hn => by simp at hn, fun h => by simp [ComesAfter] at h⟩
            | [0] =>
              refine ⟨fun _ n hn => ?_, fun h => by simp [ComesAfter] at h⟩
              simp at hn; subst hn
              exact ⟨_, by simp; rfl, by simp [Node.log, through], by simp [Node.comp, through, after], by simp [advance]⟩
            | 0 :: j :: p =>
              have hca : ComesAfter (0 :: j :: p) (0 :: i :: t) ↔ ComesAfter (j :: p) (i :: t) := by
                rw [ComesAfter]; simp
              rw [hca]
              refine ⟨fun h => ?_, fun h => ?_⟩
              · intro n hn
                rw [nodeAt_head_below] at hn
                rw [nodeAt_head_below, above_head_below, through, hout]
                obtain ⟨n', g1, g2, g3, g4⟩ := (i3 (j :: p)).1 h n hn
                exact ⟨n', g1, g2, g3, by rw [above_head_below, advance, hout, g4]; rfl⟩
              · rw [nodeAt_head_below, nodeAt_head_below]
                exact (i3 (j :: p)).2 h
            | (j + 1) :: p =>
              refine ⟨fun h => by simp [ComesAfter] at h, fun _ => by simp⟩

theorem issueOK (ns : List (Node V E)) (h : ∀ n ∈ ns, n.Sync) (m : V) : IssueOK ns m := by
  have key : ∀ n : Node V E, n.Sync → ∃ c l cs, n = .mk c false l cs ∧ ∀ m, IssueOK cs m := by
    intro n hn
    induction hn with
    | mk c l cs _ ih => exact ⟨c, l, cs, rfl, fun m => issueOK_list cs ih m⟩
  exact issueOK_list ns (fun n hn => key n (h n hn)) m

/-! ### networks stay synchronous -/

theorem Node.Sync.consume {n : Node V E} (h : n.Sync) (m : V) : (n.consume m).2.Sync := by
  induction h generalizing m with
  | mk c l cs hcs ih =>
    have key : ∀ (l : List (Node V E)) (y : V), (∀ n ∈ l, n.Sync ∧ (n.consume y).2.Sync) → ∀ n ∈ (issueSample l y).2, n.Sync := by
      intro l y hl
      induction l with
      | nil => rw [issueSample]; simp
      | cons n ns ihl =>
        have ihl := ihl (fun n hn => hl n (by simp [hn]))
        obtain ⟨h1, h2⟩ := hl n (by simp)
        obtain ⟨c, a, l, cs⟩ := n
        cases h1 with
        | mk _ _ _ _ =>
          rcases hc : (Node.mk c false l cs).consume y with ⟨(_ | e), n'⟩
          · rw [issueSample_go hc]
            rw [hc] at h2
            simpa using ⟨h2, ihl⟩
          · rw [issueSample_throw hc]
            rw [hc] at h2
            simp only [List.mem_cons, forall_eq_or_imp]
            exact ⟨h2, fun n hn => (hl n (by simp [hn])).1⟩
    rw [Node.consume]
    rcases c.step c.state m with ⟨(e | (_ | y)), s⟩
    · exact .mk _ _ _ hcs
    · exact .mk _ _ _ hcs
    · exact .mk _ _ _ (key cs y (fun n hn => ⟨hcs n hn, ih n hn y⟩))

theorem sync_issueSample (ns : List (Node V E)) (h : ∀ n ∈ ns, n.Sync) (y : V) : ∀ n ∈ (issueSample ns y).2, n.Sync := by
  induction ns with
  | nil => rw [issueSample]; simp
  | cons n ns ihl =>
    have ihl := ihl (fun n hn => h n (by simp [hn]))
    have h1 := h n (by simp)
    have h2 := h1.consume y
    obtain ⟨c, a, l, cs⟩ := n
    cases h1 with
    | mk _ _ _ _ =>
      rcases hc : (Node.mk c false l cs).consume y with ⟨(_ | e), n'⟩
      · rw [issueSample_go hc]
        rw [hc] at h2
        simpa using ⟨h2, ihl⟩
      · rw [issueSample_throw hc]
        rw [hc] at h2
        simp only [List.mem_cons, forall_eq_or_imp]
        exact ⟨h2, fun n hn => h n (by simp [hn])⟩

/-! ### whole runs -/

theorem after_append (c : Component V E) (xs ys : List V) : after c (xs ++ ys) = after (after c xs) ys := by
  simp [after]

theorem outputs_append (c : Component V E) (xs ys : List V) : outputs c (xs ++ ys) = outputs c xs ++ outputs (after c xs) ys := by
  induction xs generalizing c with
  | nil => rfl
  | cons x xs ih =>
    simp only [List.cons_append, outputs]
    have : after c (x :: xs) = after (c.next x) xs := rfl
    rw [this]
    split <;> simp [ih]

theorem through_append (cs : List (Component V E)) (xs ys : List V) :
    through cs (xs ++ ys) = through cs xs ++ through (advance cs xs) ys := by
  induction cs generalizing xs ys with
  | nil => rfl
  | cons c cs ih => simp only [through, advance, outputs_append, ih]

theorem advance_append (cs : List (Component V E)) (xs ys : List V) :
    advance cs (xs ++ ys) = advance (advance cs xs) ys := by
  induction cs generalizing xs ys with
  | nil => rfl
  | cons c cs ih => simp only [advance, outputs_append, ih, after_append]

/-- `Got` for a sequence of messages. -/
def GotAll (ns ns' : List (Node V E)) (xs : List V) (p : List Nat) : Prop :=
  ∀ n, nodeAt ns p = some n → ∃ n', nodeAt ns' p = some n' ∧
    n'.log = n.log ++ (through (above ns p) xs).map .sample ∧ n'.comp = after n.comp (through (above ns p) xs) ∧
    above ns' p = advance (above ns p) xs

theorem GotAll.trans {ns ns1 ns2 : List (Node V E)} {xs ys : List V} {p : List Nat} (h1 : GotAll ns ns1 xs p)
    (h2 : GotAll ns1 ns2 ys p) : GotAll ns ns2 (xs ++ ys) p := by
  intro n hn
  obtain ⟨n1, a1, a2, a3, a4⟩ := h1 n hn
  obtain ⟨n2, b1, b2, b3, b4⟩ := h2 n1 a1
  rw [a4] at b2 b3 b4
  refine ⟨n2, b1, ?_, ?_, ?_⟩
  · rw [b2, a2, through_append]; simp
  · rw [b3, a3, through_append, after_append]
  · rw [b4, advance_append]

/-- The node at `p` has received what comes out of the components above it for the messages `xs`. -/
def GotLog (ns ns' : List (Node V E)) (xs : List V) (p : List Nat) : Prop :=
  ∀ n, nodeAt ns p = some n → ∃ n', nodeAt ns' p = some n' ∧
    n'.log = n.log ++ (through (above ns p) xs).map .sample ∧ n'.comp = after n.comp (through (above ns p) xs)

theorem GotAll.toLog {ns ns1 : List (Node V E)} {xs : List V} {p : List Nat} (h : GotAll ns ns1 xs p) : GotLog ns ns1 xs p := by
  intro n hn
  obtain ⟨n1, a1, a2, a3, -⟩ := h n hn
  exact ⟨n1, a1, a2, a3⟩

theorem GotAll.transLog {ns ns1 ns2 : List (Node V E)} {xs ys : List V} {p : List Nat} (h1 : GotAll ns ns1 xs p)
    (h2 : GotLog ns1 ns2 ys p) : GotLog ns ns2 (xs ++ ys) p := by
  intro n hn
  obtain ⟨n1, a1, a2, a3, a4⟩ := h1 n hn
  obtain ⟨n2, b1, b2, b3⟩ := h2 n1 a1
  rw [a4] at b2 b3
  refine ⟨n2, b1, ?_, ?_⟩
  · rw [b2, a2, through_append]; simp
  · rw [b3, a3, through_append, after_append]

theorem GotAll.throwsAt {ns ns1 : List (Node V E)} {xs : List V} {t : List Nat} (h : ∀ p, GotAll ns ns1 xs p)
    (hback : ∀ p n', nodeAt ns1 p = some n' → ∃ n, nodeAt ns p = some n) (x : V) (e : E) :
    ThrowsAt ns xs x t e ↔ Throws ns1 x t e := by
  constructor
  · rintro ⟨n, y, h1, h2, h3⟩
    obtain ⟨n', a1, -, a3, a4⟩ := h t n h1
    refine ⟨n', y, a1, ?_, by rw [a3]; exact h3⟩
    rw [through_append] at h2
    rw [a4]; exact List.append_cancel_left h2
  · rintro ⟨n', y, h1, h2, h3⟩
    obtain ⟨n, hn⟩ := hback t n' h1
    obtain ⟨n'', a1, -, a3, a4⟩ := h t n hn
    rw [h1] at a1; cases a1
    refine ⟨n, y, hn, ?_, by rw [← a3]; exact h3⟩
    rw [through_append, ← a4, h2]

theorem issueSample_get (ns : List (Node V E)) (m : V) (i : Nat) :
    (issueSample ns m).2[i]? = ns[i]? ∨ (issueSample ns m).2[i]? = ns[i]?.map (fun n => (n.consume m).2) := by
  induction ns generalizing i with
  | nil => rw [issueSample]; simp
  | cons n ns ih =>
    obtain ⟨c, a, l, cs⟩ := n
    have hgo : issueSample (.mk c a l cs :: ns) m = ((issueSample ns m).1, ((Node.mk c a l cs).consume m).2 :: (issueSample ns m).2) ∨
        (issueSample (.mk c a l cs :: ns) m).2 = ((Node.mk c a l cs).consume m).2 :: ns := by
      rcases hc : (Node.mk c a l cs).consume m with ⟨(_ | e), n'⟩
      · exact .inl (issueSample_go hc)
      · cases a with
        | true => left; rw [issueSample_async, hc]
        | false => right; rw [issueSample_throw hc]
    rcases hgo with hgo | hgo
    · rw [hgo]
      cases i with
      | zero => right; simp
      | succ i => simpa using ih i
    · rw [hgo]
      cases i with
      | zero => right; simp
      | succ i => left; simp

theorem consume_children (c : Component V E) (a : Bool) (l : List (NetEvent V)) (cs : List (Node V E)) (m : V) :
    ∃ c' l' cs', ((Node.mk c a l cs).consume m).2 = .mk c' a l' cs' ∧ (cs' = cs ∨ ∃ y, cs' = (issueSample cs y).2) := by
  rw [Node.consume]
  rcases c.step c.state m with ⟨(e | (_ | y)), s⟩
  · exact ⟨_, _, _, rfl, .inl rfl⟩
  · exact ⟨_, _, _, rfl, .inl rfl⟩
  · exact ⟨_, _, _, rfl, .inr ⟨y, rfl⟩⟩

theorem nodeAt_issueSample_back (p : List Nat) (ns : List (Node V E)) (m : V) (n' : Node V E)
    (h : nodeAt (issueSample ns m).2 p = some n') : ∃ n, nodeAt ns p = some n := by
  induction p generalizing ns m with
  | nil => simp at h
  | cons i p ih =>
    cases p with
    | nil =>
      rw [nodeAt] at h ⊢
      rcases issueSample_get ns m i with g | g <;> rw [g] at h
      · exact ⟨_, h⟩
      · cases hi : ns[i]? with
        | none => rw [hi] at h; simp at h
        | some n => exact ⟨n, rfl⟩
    | cons j p =>
      rw [nodeAt] at h ⊢
      rcases issueSample_get ns m i with g | g <;> rw [g] at h
      · exact ⟨_, h⟩
      · cases hi : ns[i]? with
        | none => rw [hi] at h; simp at h
        | some n =>
          rw [hi] at h
          obtain ⟨c, a, l, cs⟩ := n
          obtain ⟨c', l', cs', e1, e2⟩ := consume_children c a l cs m
          simp only [Option.map_some, e1] at h
          rcases e2 with rfl | ⟨y, rfl⟩
          · exact ⟨_, h⟩
          · exact ih cs y h

/-- A run of several messages. -/
theorem produce_run (xs : List V) : ∀ (ns : List (Node V E)), (∀ n ∈ ns, n.Sync) →
    match produce ns xs with
    | (none, ns') => (∀ p, GotAll ns ns' xs p) ∧ (∀ p n', nodeAt ns' p = some n' → ∃ n, nodeAt ns p = some n) ∧
        (∀ k x, xs[k]? = some x → ∀ t e, ¬ ThrowsAt ns (xs.take k) x t e)
    | (some e, ns') => ∃ (k : Nat) (x : V) (t : List Nat), xs[k]? = some x ∧ ThrowsAt ns (xs.take k) x t e ∧
        (∀ k' x', k' < k → xs[k']? = some x' → ∀ t' e', ¬ ThrowsAt ns (xs.take k') x' t' e') ∧
        (∀ t' e', ThrowsAt ns (xs.take k) x t' e' → t' = t ∨ ComesAfter t' t) ∧
        ∀ p, (¬ ComesAfter p t → GotLog ns ns' (xs.take (k + 1)) p) ∧ (ComesAfter p t → GotLog ns ns' (xs.take k) p) := by
  induction xs with
  | nil =>
    intro ns _
    rw [produce]
    refine ⟨?_, fun p n' h => ⟨n', h⟩, by simp⟩
    intro p n hn
    exact ⟨n, hn, by simp, by simp [after], by simp⟩
  | cons x xs ih =>
    intro ns hs
    have hok := issueOK ns hs x
    unfold IssueOK at hok
    have hsync := sync_issueSample ns hs x
    have hback := fun p n' => nodeAt_issueSample_back p ns x n'
    have h0 : ∀ t e, ThrowsAt ns [] x t e ↔ Throws ns x t e := by
      intro t e
      exact GotAll.throwsAt (fun p n hn => ⟨n, hn, by simp, by simp [after], by simp⟩) (fun p n' h => ⟨n', h⟩) x e
    rw [produce]
    rcases hi : issueSample ns x with ⟨(_ | e), ns1⟩
    · rw [hi] at hok hsync hback
      obtain ⟨g1, g2⟩ := hok
      have hone : ∀ p, GotAll ns ns1 [x] p := g1
      simp only
      have key : ∀ k x' t e, ThrowsAt ns ((x :: xs).take (k + 1)) x' t e → ThrowsAt ns1 (xs.take k) x' t e := by
        intro k x' t e h
        obtain ⟨n, y, h1, h2, h3⟩ := h
        obtain ⟨n1, a1, -, a3, a4⟩ := hone t n h1
        have hsplit : ∀ zs, through (above ns t) (x :: zs) = through (above ns t) [x] ++ through (above ns1 t) zs := by
          intro zs
          rw [a4, ← through_append]; rfl
        refine ⟨n1, y, a1, ?_, ?_⟩
        · rw [List.take_succ_cons, List.cons_append, hsplit (xs.take k ++ [x']), hsplit (xs.take k), List.append_assoc] at h2
          exact List.append_cancel_left h2
        · rw [a3, ← after_append, ← hsplit (xs.take k)]; exact h3
      have key' : ∀ k x' t e, ThrowsAt ns1 (xs.take k) x' t e → ThrowsAt ns ((x :: xs).take (k + 1)) x' t e := by
        intro k x' t e h
        obtain ⟨n1, y, h1, h2, h3⟩ := h
        obtain ⟨n, hn⟩ := hback t n1 h1
        obtain ⟨n1', a1, -, a3, a4⟩ := hone t n hn
        rw [h1] at a1; cases a1
        have hsplit : ∀ zs, through (above ns t) (x :: zs) = through (above ns t) [x] ++ through (above ns1 t) zs := by
          intro zs
          rw [a4, ← through_append]; rfl
        refine ⟨n, y, hn, ?_, ?_⟩
        · rw [List.take_succ_cons, List.cons_append, hsplit (xs.take k ++ [x']), hsplit (xs.take k), List.append_assoc, h2]
        · rw [List.take_succ_cons, hsplit (xs.take k), after_append, ← a3]; exact h3
      have ihx := ih ns1 hsync
      rcases hp : produce ns1 xs with ⟨(_ | e), ns2⟩
      · rw [hp] at ihx
        obtain ⟨i1, i2, i3⟩ := ihx
        refine ⟨fun p => (hone p).trans (i1 p), ?_, ?_⟩
        · intro p n' hn'
          obtain ⟨n1, hn1⟩ := i2 p n' hn'
          exact hback p n1 hn1
        · intro k x' hk t e ht
          match k with
          | 0 => simp at hk; subst hk; exact g2 t e ((h0 t e).mp ht)
          | k + 1 => exact i3 k x' (by simpa using hk) t e (key k x' t e ht)
      · rw [hp] at ihx
        obtain ⟨k, x1, t, j1, j2, j3, j4, j5⟩ := ihx
        refine ⟨k + 1, x1, t, by simpa using j1, key' _ _ _ _ j2, ?_, ?_, ?_⟩
        · intro k' x' hk' hx' t' e' ht
          match k' with
          | 0 => simp at hx'; subst hx'; exact g2 t' e' ((h0 t' e').mp ht)
          | k' + 1 => exact j3 k' x' (by omega) (by simpa using hx') t' e' (key _ _ _ _ ht)
        · exact fun t' e' ht => j4 t' e' (key _ _ _ _ ht)
        · intro p
          exact ⟨fun h => (hone p).transLog ((j5 p).1 h), fun h => (hone p).transLog ((j5 p).2 h)⟩
    · rw [hi] at hok
      obtain ⟨t, g1, g2, g3⟩ := hok
      simp only
      refine ⟨0, x, t, rfl, (h0 t e).mpr g1, fun k' _ h => absurd h (by omega), fun t' e' ht => g2 t' e' ((h0 t' e').mp ht), ?_⟩
      intro p
      refine ⟨fun h => ?_, fun h n hn => ?_⟩
      · exact GotAll.toLog (xs := [x]) ((g3 p).1 h)
      · exact ⟨n, by rw [(g3 p).2 h]; exact hn, by simp, by simp [after]⟩

end SampleFlow.Exc
