import Verif.Spec.Chains

/-!
# Property C08: operator>> is associative
-/

namespace SampleFlow
open Spec

theorem objects_ne_nil {T : Type} {i o : Option T} (e : Expr T i o) : objects e ≠ [] := by
  induction e with
  | producer | filter | consumer => simp [objects]
  | chain l r ihl ihr => simp [objects, ihl]

theorem getLast_objects {T : Type} {i o : Option T} (e : Expr T i o) {m : T} (h : o = some m) :
    (objects e).getLast? = some (e.signalSource h) := by
  induction e with
  | producer | filter => simp [objects, Expr.signalSource]
  | consumer => cases h
  | chain l r ihl ihr =>
    rw [objects, List.getLast?_append, ihr h, Expr.signalSource]
    rfl

theorem head_objects {T : Type} {i o : Option T} (e : Expr T i o) {m : T} (h : i = some m) :
    (objects e).head? = some (e.receiver h) := by
  induction e with
  | producer => cases h
  | filter | consumer => simp [objects, Expr.receiver]
  | chain l r ihl ihr =>
    rw [objects, List.head?_append, ihl h, Expr.receiver]
    rfl

theorem neighbours_append (l r : List Nat) (a b : Nat) (hl : l.getLast? = some a)
    (hr : r.head? = some b) : neighbours (l ++ r) = neighbours l ++ (a, b) :: neighbours r := by
  induction l with
  | nil => simp at hl
  | cons x l ih =>
    cases l with
    | nil =>
      simp at hl
      subst hl
      cases r with
      | nil => simp at hr
      | cons y r => simp at hr; subst hr; rfl
    | cons y l =>
      have := ih (by simpa using hl)
      simp only [neighbours, List.cons_append, List.tail_cons, List.zip_cons_cons] at this ⊢
      rw [this]

/-- C08: whatever the parentheses, evaluating a chain makes exactly one connection between each pair
of neighbours and no other (as a multiset). -/
theorem C08_neighbours {T : Type} {i o : Option T} (e : Expr T i o) :
    e.connections.Perm (neighbours (objects e)) := by
  induction e with
  | producer | filter | consumer => simp [Expr.connections, objects, neighbours]
  | chain l r ihl ihr =>
    rw [Expr.connections, objects,
      neighbours_append _ _ _ _ (getLast_objects l rfl) (head_objects r rfl)]
    rw [List.append_assoc]
    refine ihl.append ?_
    exact (ihr.append_right _).trans List.perm_append_comm

/-- C08: two expressions with the same objects from left to right, parenthesised in any way, make the
same connections. -/
theorem C08_associative {T : Type} {i o i' o' : Option T} (e : Expr T i o) (e' : Expr T i' o')
    (h : objects e = objects e') : e.connections.Perm e'.connections :=
  (C08_neighbours e).trans (h ▸ (C08_neighbours e').symm)

theorem filter_neighbours_length (l : List Nat) (hn : l.Nodup) (p : Nat) :
    ((neighbours l).filter (fun c => c.1 = p)).length ≤ 1 := by
  induction l with
  | nil => simp [neighbours]
  | cons x l ih =>
    cases l with
    | nil => simp [neighbours]
    | cons y l =>
      have hn' := (List.nodup_cons.mp hn)
      have ih := ih hn'.2
      simp only [neighbours, List.tail_cons, List.zip_cons_cons] at ih ⊢
      rw [List.filter_cons]
      by_cases hxp : x = p
      · have : ((y :: l).zip l).filter (fun c => decide (c.1 = p)) = [] := by
          rw [List.filter_eq_nil_iff]
          rintro ⟨a, b⟩ hab
          have ha := (List.of_mem_zip hab).1
          simp only [decide_eq_true_eq]
          rintro rfl
          exact hn'.1 (hxp ▸ ha)
        simp [hxp, this]
      · simp only [hxp, decide_false, Bool.false_eq_true, if_false]
        exact ih

/-- C08: if the objects are distinct, the parentheses do not even influence the order in which any
given producer or filter calls its slots, hence samples are delivered in the same order. -/
theorem C08_same_slot_order {T : Type} {i o i' o' : Option T} (e : Expr T i o) (e' : Expr T i' o')
    (h : objects e = objects e') (hd : (objects e).Nodup) (p : Nat) :
    e.connections.filter (fun c => c.1 = p) = e'.connections.filter (fun c => c.1 = p) := by
  have hp := (C08_associative e e' h).filter (fun c => decide (c.1 = p))
  have hl : (e.connections.filter (fun c => decide (c.1 = p))).length ≤ 1 := by
    rw [((C08_neighbours e).filter _).length_eq]
    exact filter_neighbours_length _ hd p
  generalize e.connections.filter (fun c => decide (c.1 = p)) = l at *
  match l, hl with
  | [], _ => exact (List.nil_perm.mp hp).symm
  | [a], _ => exact List.singleton_perm.mp hp |>.symm ▸ rfl
  | _ :: _ :: _, hl => simp at hl

/-- The premises are satisfiable: producer 0, filters 1 and 2, consumer 3, in two parenthesisations. -/
example :
    let e : Expr Unit none none :=
      .chain (.chain (.chain (.producer 0 ()) (.filter 1 () ())) (.filter 2 () ())) (.consumer 3 ())
    let e' : Expr Unit none none :=
      .chain (.producer 0 ()) (.chain (.filter 1 () ()) (.chain (.filter 2 () ()) (.consumer 3 ())))
    objects e = objects e' ∧ (objects e).Nodup ∧
      e.connections = [(0,1), (1,2), (2,3)] ∧ e'.connections = [(2,3), (1,2), (0,1)] := by
  refine ⟨rfl, by decide, rfl, rfl⟩

/-- Instances of C08. -/
example := C08_associative
  (.chain (.chain (.chain (.producer 0 ()) (.filter 1 () ())) (.filter 2 () ())) (.consumer 3 ()) : Expr Unit none none)
  (.chain (.producer 0 ()) (.chain (.filter 1 () ()) (.chain (.filter 2 () ()) (.consumer 3 ()))) : Expr Unit none none) rfl
example := C08_same_slot_order
  (.chain (.chain (.chain (.producer 0 ()) (.filter 1 () ())) (.filter 2 () ())) (.consumer 3 ()) : Expr Unit none none)
  (.chain (.producer 0 ()) (.chain (.filter 1 () ()) (.chain (.filter 2 () ()) (.consumer 3 ()))) : Expr Unit none none) rfl (by decide) 1

end SampleFlow
