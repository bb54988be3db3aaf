import Verif.Proofs.Temporaries

/-!
# Property C68: chains built from named and temporary objects
-/

namespace SampleFlow
open Spec Temporaries

variable {V T : Type}

/-- the state before the expression is evaluated -/
private theorem evaluated {sup : Nat → Nat} {i o : Option T} {e : Chained T i o} {os₀ os₁ post : List (Op V)} (hu : UsesChain e os₀ os₁)
    (hl : LegalHistory sup (os₀ ++ connectNeighbours (objects e.toExpr) ++ post)) :
    ∃ w a, (Objects.init sup).chainRun (os₀.map ChainOp.op ++ e.eval) = .ok w ∧ Tracks w a ∧
      Matches sup [] (objects e.toExpr ++ anonymous e |>.filter (fun x => x ∉ namedObjects e)) a (os₀ ++ connectNeighbours (objects e.toExpr)) ∧
      (∀ x ∈ anonymous e, Fresh a x) ∧ (∀ x ∈ objects e.toExpr, a.ac x = true ∧ a.ap x = true) := by
  have nd := hu.distinct
  rw [List.nodup_append] at nd
  have m0 : Matches sup [] (objects e.toExpr ++ anonymous e |>.filter (fun x => x ∉ namedObjects e)) ⟨fun _ _ => 0, fun _ => true, fun _ => true, sup⟩ ([] : List (Op V)) :=
    ⟨fun _ _ => rfl, fun _ _ => by simp [destroyedConsumers], fun _ _ => by simp [destroyedProducers], fun _ _ => rfl⟩
  obtain ⟨p1, m1⟩ := user_ok os₀ (post := connectNeighbours (objects e.toExpr) ++ post) m0 (by simpa using hl) (fun _ _ _ _ => by simp) (by
    intro o ho c m e1 hc
    simp only [List.mem_filter, List.mem_append, decide_eq_true_eq] at hc
    have := hu.unusedBefore o ho c (by simp [e1, mentions])
    rcases hc.1 with h | h
    · exact hc.2 (this.2 h)
    · exact this.1 h)
  rw [List.nil_append] at m1
  generalize hA : (Abs.posts ⟨fun _ _ => 0, fun _ => true, fun _ => true, sup⟩ (os₀.map ChainOp.op)) = a at m1
  have fr0 : ∀ x, (∀ o ∈ os₀, x ∉ mentions o) → Fresh a x := by
    intro x hx; rw [← hA]; exact Fresh.ops os₀ _ x hx ⟨rfl, rfl, fun _ => rfl, fun _ => rfl⟩
  have fan : ∀ x ∈ anonymous e, Fresh a x := fun x hx => fr0 x (fun o ho hm => (hu.unusedBefore o ho x hm).1 hx)
  have hal : ∀ x ∈ objects e.toExpr, a.ac x = true ∧ a.ap x = true := by
    intro x hx
    have := hu.exist x hx
    exact ⟨by rw [m1.ac x (by simp)]; simp [this.1], by rw [m1.ap x (by simp)]; simp [this.2]⟩
  obtain ⟨p2, q2, a2, b2, s2⟩ := eval_ok (V := V) e a hu.distinct fan hal
    (fun x hx hn => fr0 x (fun o ho hm => hn ((hu.unusedBefore o ho x hm).2 hx)))
  obtain ⟨w, hw, ht⟩ := (Tracks.init (V := V) sup).run (os₀.map ChainOp.op ++ e.eval) ((Abs.preAll_append _ _ _).mpr ⟨p1, by rw [hA]; exact p2⟩)
  rw [Abs.posts_append, hA] at ht
  refine ⟨w, _, hw, ht, ⟨?_, ?_, ?_, ?_⟩, ?_, ?_⟩
  · intro c p
    rw [q2, m1.N, live_append, live_connectNeighbours, (C08_neighbours e.toExpr).count_eq]
  · intro c _
    rw [a2, m1.ac c (by simp), destroyedConsumers_append, connectNeighbours, (destroyed_connects _).1, List.append_nil]
  · intro c _
    rw [b2, m1.ap c (by simp), destroyedProducers_append, connectNeighbours, (destroyed_connects _).2, List.append_nil]
  · intro c hc
    simp only [List.mem_filter, List.mem_append, decide_eq_true_eq, not_and] at hc
    have h1 : c ∉ anonymous e := by
      intro hm
      refine hc (Or.inr hm) (fun hn => ?_)
      exact nd.2.2 c (namedObjects_sub e c hn) c hm rfl
    have h2 : c ∉ objects e.toExpr ∨ c ∈ namedObjects e := by
      by_cases h : c ∈ objects e.toExpr
      · right
        by_contra hn
        exact hc (Or.inl h) hn
      · exact Or.inl h
    rw [s2 c h1 h2, m1.s c (by simp only [List.mem_filter, List.mem_append, decide_eq_true_eq, not_and]; exact hc)]
  · intro x hx
    have ho : x ∉ objects e.toExpr := fun hm => nd.2.2 x hm x hx rfl
    refine (fan x hx).of_eq (by rw [a2]) (by rw [b2]) (fun y => ?_) (fun y => ?_)
    · rw [q2, List.count_eq_zero.mpr (fun hm => ho (mem_connections _ hm).2), Nat.add_zero]
    · rw [q2, List.count_eq_zero.mpr (fun hm => ho (mem_connections _ hm).1), Nat.add_zero]
  · rw [a2, b2]; exact hal

private theorem released_live (c p n : Nat) {i o : Option T} (e : Chained T i o) :
    liveConnections c p n (releaseOwned e : List (Op V)) = if c ∈ ownedConsumers e ∨ p ∈ ownedProducers e then 0 else n := by
  have h1 : ∀ (l : List Nat) (n : Nat), liveConnections c p n (l.map (.destroyConsumer : Nat → Op V)) = if c ∈ l then 0 else n := by
    intro l
    induction l with
    | nil => intro n; simp [liveConnections]
    | cons x l ih =>
      intro n
      simp only [List.map_cons, liveConnections, ih, List.mem_cons]
      by_cases h1 : c ∈ l <;> by_cases h2 : x = c <;> simp [h1, h2, eq_comm]
      intro h; exact absurd h.symm h2
  have h2 : ∀ (l : List Nat) (n : Nat), liveConnections c p n (l.map (.destroyProducer : Nat → Op V)) = if p ∈ l then 0 else n := by
    intro l
    induction l with
    | nil => intro n; simp [liveConnections]
    | cons x l ih =>
      intro n
      simp only [List.map_cons, liveConnections, ih, List.mem_cons]
      by_cases h1 : p ∈ l <;> by_cases h2 : x = p <;> simp [h1, h2, eq_comm]
      intro h; exact absurd h.symm h2
  rw [releaseOwned, live_append, h1, h2]
  by_cases k1 : c ∈ ownedConsumers e <;> by_cases k2 : p ∈ ownedProducers e <;> simp [k1, k2]

private theorem released_dead {i o : Option T} (e : Chained T i o) :
    destroyedConsumers (releaseOwned e : List (Op V)) = ownedConsumers e ∧ destroyedProducers (releaseOwned e : List (Op V)) = ownedProducers e := by
  have h1 : ∀ l : List Nat, destroyedConsumers (l.map (.destroyConsumer : Nat → Op V)) = l ∧ destroyedProducers (l.map (.destroyConsumer : Nat → Op V)) = [] := by
    intro l
    induction l with
    | nil => exact ⟨rfl, rfl⟩
    | cons x l ih => simp only [List.map_cons, destroyedConsumers, destroyedProducers, ih, and_self]
  have h2 : ∀ l : List Nat, destroyedProducers (l.map (.destroyProducer : Nat → Op V)) = l ∧ destroyedConsumers (l.map (.destroyProducer : Nat → Op V)) = [] := by
    intro l
    induction l with
    | nil => exact ⟨rfl, rfl⟩
    | cons x l ih => simp only [List.map_cons, destroyedConsumers, destroyedProducers, ih, and_self]
  rw [releaseOwned, destroyedConsumers_append, destroyedProducers_append, (h1 _).1, (h2 _).2, (h1 _).2, (h2 _).1]
  simp

/-- the bookkeeping that a state has if its numbers of connections are those of `N` -/
private theorem counts {w : Objects V} {a : Abs} (h : Tracks w a) (c p : Nat) :
    (w.prod p).issue.countP (fun s => s.cons = c) = a.N c p ∧ (w.cons c).conns.countP (fun x => x.1 = p) = a.N c p := by
  constructor
  · rw [← h.N c p, slotsOf, List.length_map, List.countP_eq_length_filter]
  · rw [← h.N c p, length_link h.inv]

/-- removing temporaries does not matter -/
private theorem Matches_removed {sup : Nat → Nat} {A B C P : List Nat} {a b : Abs} {pre : List (Op V)} (h : Matches sup [] B a pre) (hr : Removed a b C P)
    (hA : ∀ x, x ∈ C ∨ x ∈ P → x ∈ A) (hf : ∀ x ∈ A, (∀ y, a.N x y = 0) ∧ ∀ y, a.N y x = 0) : Matches sup A B b pre := by
  refine ⟨?_, ?_, ?_, fun c hc => by rw [hr.s, h.s c hc]⟩
  · intro c p
    rw [hr.N, ← h.N]
    split
    · rename_i hh
      rcases hh with hh | hh
      · rw [(hf c (hA c (Or.inl hh))).1]
      · rw [(hf p (hA p (Or.inr hh))).2]
    · rfl
  · intro c hc
    rw [hr.ac, h.ac c (by simp)]
    simp [show c ∉ C from fun hm => hc (hA c (Or.inl hm))]
  · intro c hc
    rw [hr.ap, h.ap c (by simp)]
    simp [show c ∉ P from fun hm => hc (hA c (Or.inr hm))]

private theorem chainRun_append (w : Objects V) (l m : List (ChainOp V)) {w' : Objects V} (h : w.chainRun l = .ok w') : w.chainRun (l ++ m) = w'.chainRun m := by
  induction l generalizing w with
  | nil => cases h; rfl
  | cons o l ih =>
    simp only [List.cons_append, Objects.chainRun] at h ⊢
    split at h
    · cases h
    · rename_i w1 e1
      exact ih w1 h

/-- C68: the value of the expression is kept in a variable.  The program `os₀; auto chain = a >> b >> …; os₁; }`, in which each operand may be a named or a temporary object, runs without
failed assertion and without use of a destroyed object, until the end of the scope of `chain` and through its destruction.  Before that, all connections are as if each object (named, or owned by the chain) had been connected with its neighbour.
Afterwards the objects the chain owned are gone, nothing is connected to them, and the connections between other objects are unchanged. -/
theorem C68_variable (sup : Nat → Nat) {i o : Option T} (e : Chained T i o) (os₀ os₁ : List (Op V)) (hu : UsesChain e os₀ os₁)
    (hl : LegalHistory sup (os₀ ++ connectNeighbours (objects e.toExpr) ++ os₁)) :
    ∃ w₁ w₂, (Objects.init sup).chainRun (os₀.map ChainOp.op ++ e.eval ++ e.leftoversOfOperands ++ os₁.map ChainOp.op) = .ok w₁ ∧ w₁.chainRun e.destroy = .ok w₂ ∧
      (∀ c p, (w₁.prod p).issue.countP (fun s => s.cons = c) = liveConnections c p 0 (os₀ ++ connectNeighbours (objects e.toExpr) ++ os₁)) ∧
      (∀ c p, (w₁.cons c).conns.countP (fun x => x.1 = p) = liveConnections c p 0 (os₀ ++ connectNeighbours (objects e.toExpr) ++ os₁)) ∧
      (∀ x ∈ objects e.toExpr, x ∉ namedObjects e → (w₁.cons x).alive = true ∧ (w₁.prod x).alive = true) ∧
      (∀ c p, (w₂.prod p).issue.countP (fun s => s.cons = c) = if c ∈ ownedConsumers e ∨ p ∈ ownedProducers e then 0 else (w₁.prod p).issue.countP (fun s => s.cons = c)) ∧
      (∀ c p, (w₂.cons c).conns.countP (fun x => x.1 = p) = if c ∈ ownedConsumers e ∨ p ∈ ownedProducers e then 0 else (w₁.cons c).conns.countP (fun x => x.1 = p)) ∧
      (∀ x ∈ ownedConsumers e, (w₂.cons x).alive = false) ∧ (∀ x ∈ ownedProducers e, (w₂.prod x).alive = false) ∧
      (∀ x, x ∉ anonymous e → (x ∉ ownedConsumers e → (w₂.cons x).alive = (w₁.cons x).alive) ∧ (x ∉ ownedProducers e → (w₂.prod x).alive = (w₁.prod x).alive)) := by
  obtain ⟨w, a, hw, ht, hm, hf, hal⟩ := evaluated hu hl
  have nd := hu.distinct
  rw [List.nodup_append] at nd
  have r1 := leftoversOfOperands_ok (V := V) e a nd.2.1 (fun x hx => hf x (tmps_sub e x (tmpOperands_sub e x hx)))
  have m1 : Matches sup (anonymous e) _ (a.posts (e.leftoversOfOperands : List (ChainOp V))) (os₀ ++ connectNeighbours (objects e.toExpr)) :=
    Matches_removed hm r1.2 (tmp'_sub e) (fun x hx => ⟨(hf x hx).row, (hf x hx).col⟩)
  obtain ⟨p2, m2⟩ := user_ok os₁ (post := []) m1 (by simpa using hl) (fun o ho x hx => hu.unusedAfter o ho x hx) (by
    intro o ho c m e1 hc
    simp only [List.mem_filter, List.mem_append, decide_eq_true_eq] at hc
    rcases hc.1 with h | h
    · exact (hu.kept c h hc.2).2.2 m (e1 ▸ ho)
    · exact hu.unusedAfter o ho c (by simp [e1, mentions]) h)
  have fch : ∀ x ∈ chainIds e, Fresh ((a.posts (e.leftoversOfOperands : List (ChainOp V))).posts (os₁.map ChainOp.op)) x := by
    intro x hx
    have h1 := chain_not_tmp e nd.2.1 x hx
    have hx' := chainIds_sub e x hx
    exact Fresh.ops os₁ _ x (fun o ho hm => hu.unusedAfter o ho x hm hx')
      (r1.2.fresh (fun hm => h1.1 ((tmp'_tmp e x).1 hm)) (fun hm => h1.2 ((tmp'_tmp e x).2 hm)) (hf x hx'))
  have own : ∀ x ∈ objects e.toExpr, x ∉ namedObjects e → ((a.posts (e.leftoversOfOperands : List (ChainOp V))).posts (os₁.map ChainOp.op)).ac x = true ∧
      ((a.posts (e.leftoversOfOperands : List (ChainOp V))).posts (os₁.map ChainOp.op)).ap x = true := by
    intro x hx hn
    have h1 := hu.exist x hx
    have h2 := hu.kept x hx hn
    have h3 : x ∉ anonymous e := fun hm => nd.2.2 x hx x hm rfl
    rw [m2.ac x h3, m2.ap x h3]
    simp only [destroyedConsumers_append, destroyedProducers_append, connectNeighbours, (destroyed_connects _).1, (destroyed_connects _).2]
    simp [h1.1, h1.2, h2.1, h2.2.1]
  have r3 := destroy_ok (V := V) e _ hu.distinct fch
    (fun x hx => (own x (owned_sub e x (Or.inl hx)) (owned_not_named e nd.1 x (Or.inl hx))).1)
    (fun x hx => (own x (owned_sub e x (Or.inr hx)) (owned_not_named e nd.1 x (Or.inr hx))).2)
  obtain ⟨v1, g1, t1⟩ := ht.run e.leftoversOfOperands r1.1
  obtain ⟨v2, g2, t2⟩ := t1.run (os₁.map ChainOp.op) p2
  obtain ⟨v3, g3, t3⟩ := t2.run e.destroy r3.1
  have row : ∀ c p, (c ∈ destroyedC e ∨ p ∈ destroyedP e) → ¬ (c ∈ ownedConsumers e ∨ p ∈ ownedProducers e) →
      ((a.posts (e.leftoversOfOperands : List (ChainOp V))).posts (os₁.map ChainOp.op)).N c p = 0 := by
    intro c p h hn
    rw [not_or] at hn
    rcases h with h | h
    · exact (fch c (((destroyed_mem e c).1 h).resolve_left hn.1)).row p
    · exact (fch p (((destroyed_mem e p).2.1 h).resolve_left hn.2)).col c
  have fin : ∀ c p, (((a.posts (e.leftoversOfOperands : List (ChainOp V))).posts (os₁.map ChainOp.op)).posts (e.destroy : List (ChainOp V))).N c p =
      if c ∈ ownedConsumers e ∨ p ∈ ownedProducers e then 0 else ((a.posts (e.leftoversOfOperands : List (ChainOp V))).posts (os₁.map ChainOp.op)).N c p := by
    intro c p
    rw [r3.2.N]
    by_cases h : c ∈ ownedConsumers e ∨ p ∈ ownedProducers e
    · rw [if_pos h, if_pos (h.imp (destroyed_mem e c).2.2.1 (destroyed_mem e p).2.2.2)]
    · rw [if_neg h]
      split
      · rename_i hh; exact (row c p hh h).symm
      · rfl
  refine ⟨v2, v3, ?_, g3, ?_, ?_, ?_, ?_, ?_, ?_, ?_, ?_⟩
  · rw [List.append_assoc, chainRun_append _ _ _ hw, chainRun_append _ _ _ g1, g2]
  · intro c p; rw [(counts t2 c p).1, m2.N]
  · intro c p; rw [(counts t2 c p).2, m2.N]
  · intro x hx hn
    rw [t2.ac, t2.ap]; exact own x hx hn
  · intro c p; rw [(counts t3 c p).1, fin, (counts t2 c p).1]
  · intro c p; rw [(counts t3 c p).2, fin, (counts t2 c p).2]
  · intro x hx; rw [t3.ac, r3.2.ac]; simp [(destroyed_mem e x).2.2.1 hx]
  · intro x hx; rw [t3.ap, r3.2.ap]; simp [(destroyed_mem e x).2.2.2 hx]
  · intro x hx
    constructor
    · intro hn
      rw [t3.ac, r3.2.ac, t2.ac]
      simp [show x ∉ destroyedC e from fun hm => ((destroyed_mem e x).1 hm).elim hn (fun h => hx (chainIds_sub e x h))]
    · intro hn
      rw [t3.ap, r3.2.ap, t2.ap]
      simp [show x ∉ destroyedP e from fun hm => ((destroyed_mem e x).2.1 hm).elim hn (fun h => hx (chainIds_sub e x h))]

/-- C68: the expression is a statement of its own, `a >> b >> …;`.  The chain is destroyed at the end of the statement.  The program continues as one that has connected each object with its neighbour and then
destroyed the temporary ones: connections between named neighbours stay, those of a temporary are gone. -/
theorem C68_statement (sup : Nat → Nat) {i o : Option T} (e : Chained T i o) (os₀ os₁ : List (Op V)) (hu : UsesChain e os₀ os₁)
    (hl : LegalHistory sup (os₀ ++ connectNeighbours (objects e.toExpr) ++ (releaseOwned e ++ os₁))) :
    ∃ w, (Objects.init sup).chainRun (os₀.map ChainOp.op ++ e.eval ++ e.destroy ++ e.leftoversOfOperands ++ os₁.map ChainOp.op) = .ok w ∧
      (∀ c p, (w.prod p).issue.countP (fun s => s.cons = c) = liveConnections c p 0 (os₀ ++ connectNeighbours (objects e.toExpr) ++ releaseOwned e ++ os₁)) ∧
      (∀ c p, (w.cons c).conns.countP (fun x => x.1 = p) = liveConnections c p 0 (os₀ ++ connectNeighbours (objects e.toExpr) ++ releaseOwned e ++ os₁)) ∧
      (∀ x ∈ ownedConsumers e, (w.cons x).alive = false) ∧ (∀ x ∈ ownedProducers e, (w.prod x).alive = false) ∧
      (∀ x ∈ namedObjects e, x ∉ destroyedConsumers os₁ → (w.cons x).alive = true) ∧ (∀ x ∈ namedObjects e, x ∉ destroyedProducers os₁ → (w.prod x).alive = true) := by
  obtain ⟨w, a, hw, ht, hm, hf, hal⟩ := evaluated hu hl
  have nd := hu.distinct
  rw [List.nodup_append] at nd
  have r1 := destroy_ok (V := V) e a hu.distinct (fun x hx => hf x (chainIds_sub e x hx))
    (fun x hx => (hal x (owned_sub e x (Or.inl hx))).1) (fun x hx => (hal x (owned_sub e x (Or.inr hx))).2)
  have hop : ∀ x ∈ tmpOperands e, Fresh (a.posts (e.destroy : List (ChainOp V))) x := by
    intro x hx
    have h1 := tmpOperands_sub e x hx
    have h2 := tmps_sub e x h1
    have h3 : x ∉ chainIds e := fun hm => chain_not_tmps e nd.2.1 x hm h1
    have h4 : x ∉ objects e.toExpr := fun hm => nd.2.2 x hm x h2 rfl
    exact r1.2.fresh (fun hm => ((destroyed_mem e x).1 hm).elim (fun h => h4 (owned_sub e x (Or.inl h))) h3)
      (fun hm => ((destroyed_mem e x).2.1 hm).elim (fun h => h4 (owned_sub e x (Or.inr h))) h3) (hf x h2)
  have r2 := leftoversOfOperands_ok (V := V) e _ nd.2.1 hop
  have r3 := (r1.append r2).2
  rw [Abs.posts_append] at r3
  have m1 : Matches sup (anonymous e) ((objects e.toExpr ++ anonymous e).filter (fun x => x ∉ namedObjects e)) ((a.posts (e.destroy : List (ChainOp V))).posts (e.leftoversOfOperands : List (ChainOp V)))
      (os₀ ++ connectNeighbours (objects e.toExpr) ++ releaseOwned e) := by
    have hC : ∀ x, x ∈ destroyedC e ++ tmpC' e → x ∈ ownedConsumers e ∨ x ∈ anonymous e := by
      intro x hx
      rcases List.mem_append.mp hx with h | h
      · exact ((destroyed_mem e x).1 h).imp_right (chainIds_sub e x)
      · exact Or.inr (tmp'_sub e x (Or.inl h))
    have hP : ∀ x, x ∈ destroyedP e ++ tmpP' e → x ∈ ownedProducers e ∨ x ∈ anonymous e := by
      intro x hx
      rcases List.mem_append.mp hx with h | h
      · exact ((destroyed_mem e x).2.1 h).imp_right (chainIds_sub e x)
      · exact Or.inr (tmp'_sub e x (Or.inr h))
    refine ⟨?_, ?_, ?_, fun c hc => by rw [r3.s, hm.s c hc]⟩
    · intro c p
      rw [r3.N, live_append, released_live, ← hm.N]
      by_cases h : c ∈ ownedConsumers e ∨ p ∈ ownedProducers e
      · rw [if_pos h, if_pos (h.imp (fun h => List.mem_append_left _ ((destroyed_mem e c).2.2.1 h)) (fun h => List.mem_append_left _ ((destroyed_mem e p).2.2.2 h)))]
      · rw [if_neg h]
        rw [not_or] at h
        split
        · rename_i hh
          rcases hh with hh | hh
          · exact ((hf c ((hC c hh).resolve_left h.1)).row p).symm
          · exact ((hf p ((hP p hh).resolve_left h.2)).col c).symm
        · rfl
    · intro c hc
      rw [r3.ac, hm.ac c (by simp), destroyedConsumers_append _ (releaseOwned e), (released_dead e).1]
      by_cases h : c ∈ ownedConsumers e
      · simp [h, (destroyed_mem e c).2.2.1 h]
      · have : c ∉ destroyedC e ++ tmpC' e := fun hm => (hC c hm).elim h hc
        simp only [List.mem_append, not_or] at this
        simp [h, this.1, this.2]
    · intro c hc
      rw [r3.ap, hm.ap c (by simp), destroyedProducers_append _ (releaseOwned e), (released_dead e).2]
      by_cases h : c ∈ ownedProducers e
      · simp [h, (destroyed_mem e c).2.2.2 h]
      · have : c ∉ destroyedP e ++ tmpP' e := fun hm => (hP c hm).elim h hc
        simp only [List.mem_append, not_or] at this
        simp [h, this.1, this.2]
  obtain ⟨p2, m2⟩ := user_ok os₁ (post := []) m1 (by simpa using hl) (fun o ho x hx => hu.unusedAfter o ho x hx) (by
    intro o ho c m e1 hc
    simp only [List.mem_filter, List.mem_append, decide_eq_true_eq] at hc
    rcases hc.1 with h | h
    · exact (hu.kept c h hc.2).2.2 m (e1 ▸ ho)
    · exact hu.unusedAfter o ho c (by simp [e1, mentions]) h)
  obtain ⟨v1, g1, t1⟩ := ht.run e.destroy r1.1
  obtain ⟨v2, g2, t2⟩ := t1.run e.leftoversOfOperands r2.1
  obtain ⟨v3, g3, t3⟩ := t2.run (os₁.map ChainOp.op) p2
  have nan : ∀ x ∈ objects e.toExpr, x ∉ anonymous e := fun x hx hm => nd.2.2 x hx x hm rfl
  refine ⟨v3, ?_, ?_, ?_, ?_, ?_, ?_, ?_⟩
  · rw [List.append_assoc, List.append_assoc, chainRun_append _ _ _ hw, chainRun_append _ _ _ g1, chainRun_append _ _ _ g2, g3]
  · intro c p; rw [(counts t3 c p).1, m2.N]
  · intro c p; rw [(counts t3 c p).2, m2.N]
  · intro x hx
    rw [t3.ac, m2.ac x (nan x (owned_sub e x (Or.inl hx)))]
    simp only [destroyedConsumers_append, (released_dead e).1]; simp [hx]
  · intro x hx
    rw [t3.ap, m2.ap x (nan x (owned_sub e x (Or.inr hx)))]
    simp only [destroyedProducers_append, (released_dead e).2]; simp [hx]
  · intro x hx hn
    have ho := namedObjects_sub e x hx
    rw [t3.ac, m2.ac x (nan x ho)]
    simp only [destroyedConsumers_append, (released_dead e).1, connectNeighbours, (destroyed_connects _).1]
    simp [hn, (hu.exist x ho).1, show x ∉ ownedConsumers e from fun h => owned_not_named e nd.1 x (Or.inl h) hx]
  · intro x hx hn
    have ho := namedObjects_sub e x hx
    rw [t3.ap, m2.ap x (nan x ho)]
    simp only [destroyedProducers_append, (released_dead e).2, connectNeighbours, (destroyed_connects _).2]
    simp [hn, (hu.exist x ho).2, show x ∉ ownedProducers e from fun h => owned_not_named e nd.1 x (Or.inr h) hx]

/-- C68: if all operands are named, it makes no difference whether the chain is kept: the statement `a >> b >> …;` connects neighbours, and the destruction of the chain changes nothing. -/
theorem C68_named_statement (sup : Nat → Nat) {i o : Option T} (e : Chained T i o) (os₀ os₁ : List (Op V)) (hu : UsesChain e os₀ os₁)
    (hn : ∀ x ∈ objects e.toExpr, x ∈ namedObjects e) (hl : LegalHistory sup (os₀ ++ connectNeighbours (objects e.toExpr) ++ os₁)) :
    ∃ w, (Objects.init sup).chainRun (os₀.map ChainOp.op ++ e.eval ++ e.destroy ++ e.leftoversOfOperands ++ os₁.map ChainOp.op) = .ok w ∧
      (∀ c p, (w.prod p).issue.countP (fun s => s.cons = c) = liveConnections c p 0 (os₀ ++ connectNeighbours (objects e.toExpr) ++ os₁)) := by
  have nd := hu.distinct
  rw [List.nodup_append] at nd
  have h1 : ownedConsumers e = [] := by
    by_contra h
    obtain ⟨x, hx⟩ := List.exists_mem_of_ne_nil _ h
    exact owned_not_named e nd.1 x (Or.inl hx) (hn x (owned_sub e x (Or.inl hx)))
  have h2 : ownedProducers e = [] := by
    by_contra h
    obtain ⟨x, hx⟩ := List.exists_mem_of_ne_nil _ h
    exact owned_not_named e nd.1 x (Or.inr hx) (hn x (owned_sub e x (Or.inr hx)))
  have h3 : (releaseOwned e : List (Op V)) = [] := by simp [releaseOwned, h1, h2]
  obtain ⟨w, g, gc, -⟩ := C68_statement sup e os₀ os₁ hu (by rw [h3]; simpa using hl)
  exact ⟨w, g, by simpa only [h3, List.append_nil] using gc⟩

/-- A case: producer 0, filter 2 and consumer 1, all named. -/
example : UsesChain (.chain 6 7 (.chain 5 4 (.producer 0 none ()) (.filter 2 none () ())) (.consumer 1 none ()) : Chained Unit none none) ([] : List (Op Nat)) [.issue 0 5, .destroyConsumer 1] ∧
    LegalHistory (fun _ => 3) (([] : List (Op Nat)) ++ connectNeighbours [0, 2, 1] ++ [.issue 0 5, .destroyConsumer 1]) := by
  refine ⟨⟨by decide, ?_, ?_, ?_, ?_⟩, legalHistory_of ?_⟩
  · intro x hx; simp [destroyedConsumers, destroyedProducers]
  · intro o ho; cases ho
  · intro o ho x hx
    simp only [List.mem_cons, List.not_mem_nil, or_false] at ho
    rcases ho with rfl | rfl <;> simp [mentions] at hx <;> subst hx <;> decide
  · intro x h1 h2; exact absurd h1 h2
  · simp [connectNeighbours, neighbours, LegalFrom, legal, destroyedConsumers, destroyedProducers]

/-- The expression `producer >> Filter() >> consumer` with named producer 0 and named consumer 1, and a temporary filter (object 3, moved to 2); the chains are 5 (moved from 4) and 6. -/
def withTemporaryFilter : Chained Unit none none :=
  .chain 6 7 (.chain 5 4 (.producer 0 none ()) (.filter 2 (some 3) () ())) (.consumer 1 none ())

/-- The premises of `C68_variable` hold for `withTemporaryFilter`, with a sample sent and passed on by the filter afterwards. -/
example : UsesChain withTemporaryFilter ([] : List (Op Nat)) [.issue 0 5, .issue 2 5] ∧
    LegalHistory (fun _ => 3) (([] : List (Op Nat)) ++ connectNeighbours (objects withTemporaryFilter.toExpr) ++ [.issue 0 5, .issue 2 5]) := by
  refine ⟨⟨by decide, ?_, ?_, ?_, ?_⟩, legalHistory_of ?_⟩
  · intro x hx; simp [destroyedConsumers, destroyedProducers]
  · intro o ho; cases ho
  · intro o ho x hx
    simp only [List.mem_cons, List.not_mem_nil, or_false] at ho
    rcases ho with rfl | rfl <;> simp [mentions] at hx <;> subst hx <;> decide
  · intro x _ _; simp [destroyedConsumers, destroyedProducers]
  · simp [withTemporaryFilter, Chained.toExpr, objects, connectNeighbours, neighbours, LegalFrom, legal, destroyedConsumers, destroyedProducers]

/-- What happens then: the consumer gets the sample while the chain exists. -/
example : ∃ w, (Objects.init (V := Nat) (fun _ => 3)).chainRun (withTemporaryFilter.eval ++ withTemporaryFilter.leftoversOfOperands ++ [.op (.issue 0 5), .op (.issue 2 5)]) = .ok w ∧
    (w.cons 1).log = [.sample 5] ∧ (w.cons 2).log = [.sample 5] := ⟨_, rfl, rfl, rfl⟩

/-- The premises of `C68_statement` hold for `withTemporaryFilter`, with a sample sent afterwards. -/
example : UsesChain withTemporaryFilter ([.issue 0 4] : List (Op Nat)) [.issue 0 5, .connect 1 0] ∧
    LegalHistory (fun _ => 3) (([.issue 0 4] : List (Op Nat)) ++ connectNeighbours (objects withTemporaryFilter.toExpr) ++ (releaseOwned withTemporaryFilter ++ [.issue 0 5, .connect 1 0])) := by
  refine ⟨⟨by decide, ?_, ?_, ?_, ?_⟩, legalHistory_of ?_⟩
  · intro x hx; simp [destroyedConsumers, destroyedProducers]
  · intro o ho x hx
    simp only [List.mem_cons, List.not_mem_nil, or_false] at ho
    subst ho; simp [mentions] at hx; subst hx; decide
  · intro o ho x hx
    simp only [List.mem_cons, List.not_mem_nil, or_false] at ho
    rcases ho with rfl | rfl <;> simp [mentions] at hx
    · subst hx; decide
    · rcases hx with rfl | rfl <;> decide
  · intro x _ _; simp [destroyedConsumers, destroyedProducers]
  · simp [withTemporaryFilter, Chained.toExpr, objects, connectNeighbours, neighbours, LegalFrom, legal, destroyedConsumers, destroyedProducers, releaseOwned, ownedConsumers, ownedProducers]

/-- C68: a consequence for users.  `producer >> Filter() >> consumer;` with a temporary filter as a statement leaves the consumer without any connection, and a sample sent by the producer afterwards does not reach it. -/
theorem C68_forgotten_filter (sup : Nat → Nat) (x : V) : ∃ w,
    (Objects.init sup).chainRun ((withTemporaryFilter.eval ++ withTemporaryFilter.destroy ++ withTemporaryFilter.leftoversOfOperands) ++ [.op (.issue 0 x)]) = .ok w ∧ (w.cons 1).log.filter (fun m => m matches .sample _) = [] ∧ (w.prod 0).issue = [] :=
  ⟨_, rfl, rfl, rfl⟩

end SampleFlow
