import Verif.Spec.Temporaries
import Verif.Props.Lifecycle
import Verif.Props.Chains

set_option linter.unusedSimpArgs false
set_option linter.unusedVariables false

namespace SampleFlow.Temporaries
open Spec

variable {V T : Type}

/-- What matters of the state: numbers of connections, existing objects, supported modes. -/
structure Abs where
  N : Nat → Nat → Nat
  ac : Nat → Bool
  ap : Nat → Bool
  s : Nat → Nat

structure Tracks (w : Objects V) (a : Abs) : Prop where
  inv : Inv w
  mode : ∀ c, (w.cons c).mode = 1 ∨ (w.cons c).mode = 2
  N : ∀ c p, (slotsOf w p c).length = a.N c p
  ac : ∀ c, (w.cons c).alive = a.ac c
  ap : ∀ p, (w.prod p).alive = a.ap p
  s : ∀ c, (w.cons c).supported = a.s c

def Abs.pre (a : Abs) : ChainOp V → Prop
  | .op (.connect c p) => a.ac c = true ∧ a.ap p = true
  | .op (.disconnectAndFlush c) => a.ac c = true
  | .op (.destroyConsumer c) => a.ac c = true
  | .op (.destroyProducer p) => a.ap p = true
  | .op (.setParallelMode c m) => a.ac c = true ∧ (∀ p, a.N c p = 0) ∧ (m = 1 ∨ m = 2) ∧ m &&& a.s c ≠ 0
  | .op (.issue p _) => a.ap p = true
  | .op (.flush p) => a.ap p = true
  | .moveConsumer src dst => a.ac src = true ∧ a.ac dst = true ∧ ∀ p, a.N src p = 0 ∧ a.N dst p = 0
  | .moveProducer src dst => a.ap src = true ∧ a.ap dst = true ∧ ∀ c, a.N c src = 0 ∧ a.N c dst = 0
  | .endConsumer c => a.ac c = true ∧ ∀ p, a.N c p = 0

def Abs.post (a : Abs) : ChainOp V → Abs
  | .op o => ⟨fun c p => liveConnections c p (a.N c p) [o], fun c => a.ac c && decide (c ∉ destroyedConsumers [o]),
      fun p => a.ap p && decide (p ∉ destroyedProducers [o]), a.s⟩
  | .moveConsumer src dst => { a with s := fun c => if c = dst then a.s src else a.s c }
  | .moveProducer _ _ => a
  | .endConsumer c => { a with ac := fun d => a.ac d && decide (d ≠ c) }

theorem Tracks.no_conns {w : Objects V} {a : Abs} (h : Tracks w a) {c : Nat} (hc : ∀ p, a.N c p = 0) : (w.cons c).conns = [] := by
  by_contra hne
  obtain ⟨⟨p, k⟩, he⟩ := List.exists_mem_of_ne_nil _ hne
  have h1 := h.N c p
  rw [hc p, length_link h.inv, List.countP_eq_zero] at h1
  exact h1 _ he (by simp)

theorem Tracks.no_slots {w : Objects V} {a : Abs} (h : Tracks w a) {p : Nat} (hc : ∀ c, a.N c p = 0) : (w.prod p).issue = [] := by
  by_contra hne
  obtain ⟨s, hs⟩ := List.exists_mem_of_ne_nil _ hne
  have h1 := h.N s.cons p
  rw [hc, List.length_eq_zero_iff] at h1
  have : s.conn ∈ slotsOf w p s.cons := by
    simp only [slotsOf, List.mem_map, List.mem_filter, decide_eq_true_eq]
    exact ⟨s, ⟨hs, rfl⟩, rfl⟩
  rw [h1] at this
  cases this

theorem Tracks.step {w : Objects V} {a : Abs} (h : Tracks w a) (o : ChainOp V) (hp : a.pre o) : ∃ w', w.chainStep o = .ok w' ∧ Tracks w' (a.post o) := by
  cases o with
  | op o =>
    have : ∃ w', w.step o = .ok w' := by
      cases o with
      | connect c p =>
        rw [Objects.step, Objects.connect, if_neg (by simp [h.ac, h.ap, hp.1, hp.2]), if_neg (by have := h.mode c; omega)]
        exact ⟨_, rfl⟩
      | disconnectAndFlush c => obtain ⟨w', e, -⟩ := disconnectAndFlush_spec h.inv c (by rw [h.ac]; exact hp); exact ⟨w', e⟩
      | destroyConsumer c => obtain ⟨w', e, -⟩ := destroyConsumer_spec h.inv c (by rw [h.ac]; exact hp); exact ⟨w', e⟩
      | destroyProducer p => obtain ⟨w', e, -⟩ := destroyProducer_spec h.inv p (by rw [h.ap]; exact hp); exact ⟨w', e⟩
      | setParallelMode c m =>
        obtain ⟨l1, l2, l3, l4⟩ := hp
        rw [Objects.step, Objects.setParallelMode, if_neg (by simp [h.ac, l1]), if_neg (by simp [h.no_conns l2]), if_neg (by rw [h.s]; exact l4)]
        exact ⟨_, rfl⟩
      | issue p m => obtain ⟨w', e, -⟩ := issue_spec h.inv p m (by rw [h.ap]; exact hp); exact ⟨w', e⟩
      | flush p => obtain ⟨w', e, -⟩ := flush_spec h.inv p (by rw [h.ap]; exact hp); exact ⟨w', e⟩
    obtain ⟨w', e⟩ := this
    refine ⟨w', e, ?_⟩
    obtain ⟨I, g1, g2, g3, g4, g5⟩ := step_spec h.inv o e
    refine ⟨I, ?_, ?_, ?_, ?_, ?_⟩
    · intro c
      rw [g2 c]
      cases o with
      | setParallelMode c' m =>
        rw [lastMode, lastMode]
        split
        · exact hp.2.2.1
        · exact h.mode c
      | _ => exact h.mode c
    · intro c p; rw [g1, h.N]; rfl
    · intro c; rw [g4, h.ac]; rfl
    · intro p; rw [g5, h.ap]; rfl
    · intro c; rw [g3, h.s]; rfl
  | moveConsumer src dst =>
    obtain ⟨h1, h2, h3⟩ := hp
    have c1 := h.no_conns (fun p => (h3 p).1)
    have c2 := h.no_conns (fun p => (h3 p).2)
    have hns : ∀ (p : Nat) (s : Slot), s ∈ (w.prod p).issue → s.cons ≠ dst := by
      rintro p s hs rfl
      exact h.inv.conns_ne hs (by simp [c2])
    refine ⟨_, by rw [Objects.chainStep, if_neg (by simp [h.ac, h1]), if_neg (by simp [c1])], ?_⟩
    refine ⟨?_, ?_, ?_, ?_, ?_, ?_⟩
    · constructor
      · exact h.inv.flush_eq
      · exact h.inv.disc_eq
      · intro p c
        by_cases hc : c = dst
        · subst hc
          have := h.inv.link p c
          simp only [slotsOf, connsOf, Objects.setCons, c2] at this ⊢
          simpa using this
        · have := h.inv.link p c
          simpa only [slotsOf, connsOf, Objects.setCons, if_neg hc] using this
      · exact h.inv.fresh
      · exact h.inv.nodup
      · exact h.inv.deadP
      · intro c hc
        by_cases hd : c = dst
        · subst hd; simp [Objects.setCons]
        · simp only [Objects.setCons, if_neg hd] at hc ⊢; exact h.inv.deadC c hc
      · intro p s hs
        have := hns p s hs
        simp only [Objects.setCons, if_neg this]
        exact h.inv.modes p s hs
    · intro c
      by_cases hc : c = dst
      · simp only [Objects.setCons, if_pos hc]; exact h.mode src
      · simp only [Objects.setCons, if_neg hc]; exact h.mode c
    · exact h.N
    · intro c
      by_cases hc : c = dst
      · simp only [Objects.setCons, if_pos hc, Abs.post]; rw [hc, h2]
      · simp only [Objects.setCons, if_neg hc]; exact h.ac c
    · exact h.ap
    · intro c
      by_cases hc : c = dst
      · simp only [Objects.setCons, if_pos hc, Abs.post]; exact h.s src
      · simp only [Objects.setCons, if_neg hc, Abs.post]; exact h.s c
  | moveProducer src dst =>
    obtain ⟨h1, h2, h3⟩ := hp
    have c1 := h.no_slots (fun c => (h3 c).1)
    have c2 := h.no_slots (fun c => (h3 c).2)
    refine ⟨_, by rw [Objects.chainStep, if_neg (by simp [h.ap, h1]), if_neg (by simp [h.inv.flush_eq, h.inv.disc_eq, c1])], ?_⟩
    have hiss : ∀ p, ((w.setProd dst ⟨true, [], [], []⟩).prod p).issue = (w.prod p).issue := by
      intro p
      by_cases hc : p = dst
      · simp only [Objects.setProd, if_pos hc]; rw [hc, c2]
      · simp only [Objects.setProd, if_neg hc]
    refine ⟨?_, h.mode, ?_, h.ac, ?_, h.s⟩
    · constructor
      · intro p
        by_cases hc : p = dst
        · simp only [Objects.setProd, if_pos hc]
        · simp only [Objects.setProd, if_neg hc]; exact h.inv.flush_eq p
      · intro p
        by_cases hc : p = dst
        · simp only [Objects.setProd, if_pos hc]
        · simp only [Objects.setProd, if_neg hc]; exact h.inv.disc_eq p
      · intro p c
        rw [slotsOf, hiss]
        exact h.inv.link p c
      · intro p s hs; rw [hiss] at hs; exact h.inv.fresh p s hs
      · intro p; rw [hiss]; exact h.inv.nodup p
      · intro p hd
        rw [hiss]
        by_cases hc : p = dst
        · rw [hc, c2]
        · simp only [Objects.setProd, if_neg hc] at hd; exact h.inv.deadP p hd
      · exact h.inv.deadC
      · intro p s hs; rw [hiss] at hs; exact h.inv.modes p s hs
    · intro c p; rw [slotsOf, hiss]; exact h.N c p
    · intro p
      by_cases hc : p = dst
      · simp only [Objects.setProd, if_pos hc, Abs.post]; rw [hc, h2]
      · simp only [Objects.setProd, if_neg hc]; exact h.ap p
  | endConsumer c =>
    obtain ⟨h1, h3⟩ := hp
    have c1 := h.no_conns h3
    refine ⟨_, by rw [Objects.chainStep, if_neg (by simp [h.ac, h1]), if_neg (by simp [c1])], ?_⟩
    have hcon : ∀ d, ((w.setCons c { w.cons c with alive := false }).cons d).conns = (w.cons d).conns := by
      intro d; by_cases hc : d = c
      · simp only [Objects.setCons, if_pos hc]; rw [hc]
      · simp only [Objects.setCons, if_neg hc]
    have hmod : ∀ d, ((w.setCons c { w.cons c with alive := false }).cons d).mode = (w.cons d).mode := by
      intro d; by_cases hc : d = c
      · simp only [Objects.setCons, if_pos hc]; rw [hc]
      · simp only [Objects.setCons, if_neg hc]
    have hsup : ∀ d, ((w.setCons c { w.cons c with alive := false }).cons d).supported = (w.cons d).supported := by
      intro d; by_cases hc : d = c
      · simp only [Objects.setCons, if_pos hc]; rw [hc]
      · simp only [Objects.setCons, if_neg hc]
    refine ⟨?_, ?_, h.N, ?_, h.ap, ?_⟩
    · constructor
      · exact h.inv.flush_eq
      · exact h.inv.disc_eq
      · intro p d; rw [connsOf, hcon]; exact h.inv.link p d
      · exact h.inv.fresh
      · exact h.inv.nodup
      · exact h.inv.deadP
      · intro d hd
        rw [hcon]
        by_cases hc : d = c
        · rw [hc, c1]
        · simp only [Objects.setCons, if_neg hc] at hd; exact h.inv.deadC d hd
      · intro p s hs; rw [hmod]; exact h.inv.modes p s hs
    · intro d; rw [hmod]; exact h.mode d
    · intro d
      by_cases hc : d = c
      · simp [Objects.setCons, Abs.post, hc]
      · simp only [Objects.setCons, if_neg hc, Abs.post]; rw [h.ac]; simp [hc]
    · intro d; rw [hsup]; exact h.s d

def Abs.PreAll (a : Abs) : List (ChainOp V) → Prop
  | [] => True
  | o :: os => a.pre o ∧ (a.post o).PreAll os

def Abs.posts (a : Abs) : List (ChainOp V) → Abs
  | [] => a
  | o :: os => (a.post o).posts os

theorem Tracks.run {w : Objects V} {a : Abs} (h : Tracks w a) (os : List (ChainOp V)) (hp : a.PreAll os) : ∃ w', w.chainRun os = .ok w' ∧ Tracks w' (a.posts os) := by
  induction os generalizing w a with
  | nil => exact ⟨w, rfl, h⟩
  | cons o os ih =>
    obtain ⟨w1, e1, h1⟩ := h.step o hp.1
    obtain ⟨w2, e2, h2⟩ := ih h1 hp.2
    exact ⟨w2, by rw [Objects.chainRun, e1]; exact e2, h2⟩

theorem Abs.preAll_append (a : Abs) (l m : List (ChainOp V)) : a.PreAll (l ++ m) ↔ a.PreAll l ∧ (a.posts l).PreAll m := by
  induction l generalizing a with
  | nil => simp [PreAll, posts]
  | cons o l ih => simp only [List.cons_append, PreAll, posts, ih, and_assoc]

theorem Abs.posts_append (a : Abs) (l m : List (ChainOp V)) : a.posts (l ++ m) = (a.posts l).posts m := by
  induction l generalizing a with
  | nil => rfl
  | cons o l ih => exact ih _

theorem Tracks.init (sup : Nat → Nat) : Tracks (Objects.init (V := V) sup) ⟨fun _ _ => 0, fun _ => true, fun _ => true, sup⟩ :=
  ⟨Inv.init sup, fun _ => Or.inl rfl, fun _ _ => rfl, fun _ => rfl, fun _ => rfl, fun _ => rfl⟩

/-- object `x` exists and has no connections -/
structure Fresh (a : Abs) (x : Nat) : Prop where
  ac : a.ac x = true
  ap : a.ap x = true
  row : ∀ y, a.N x y = 0
  col : ∀ y, a.N y x = 0

theorem Fresh.of_eq {a b : Abs} {x : Nat} (h : Fresh a x) (h1 : b.ac x = a.ac x) (h2 : b.ap x = a.ap x) (h3 : ∀ y, b.N x y = a.N x y) (h4 : ∀ y, b.N y x = a.N y x) : Fresh b x :=
  ⟨by rw [h1, h.ac], by rw [h2, h.ap], fun y => by rw [h3, h.row], fun y => by rw [h4, h.col]⟩

theorem live_single (c p n : Nat) (o : Op V) (h : c ∉ mentions o ∨ p ∉ mentions o) : liveConnections c p n [o] ≤ n := by
  cases o <;> simp only [liveConnections, mentions, List.mem_cons, List.not_mem_nil, or_false, not_or] at h ⊢ <;> first | omega | (split <;> omega)

theorem Fresh.op {a : Abs} {x : Nat} (h : Fresh a x) (o : Op V) (ho : x ∉ mentions o) : Fresh (a.post (.op o)) x := by
  refine ⟨?_, ?_, ?_, ?_⟩
  · simp only [Abs.post, h.ac, Bool.true_and, decide_eq_true_eq]
    cases o <;> simp_all [mentions, destroyedConsumers]
  · simp only [Abs.post, h.ap, Bool.true_and, decide_eq_true_eq]
    cases o <;> simp_all [mentions, destroyedProducers]
  · intro y
    have := live_single x y (a.N x y) o (Or.inl ho)
    rw [h.row] at this
    simp only [Abs.post, h.row]; omega
  · intro y
    have := live_single y x (a.N y x) o (Or.inr ho)
    rw [h.col] at this
    simp only [Abs.post, h.col]; omega

/-! ### evaluation -/

theorem mem_neighbours {l : List Nat} {a b : Nat} (h : (a, b) ∈ neighbours l) : a ∈ l ∧ b ∈ l := by
  have := List.of_mem_zip h
  exact ⟨this.1, List.mem_of_mem_tail this.2⟩

theorem mem_connections {i o : Option T} (e : Expr T i o) {a b : Nat} (h : (a, b) ∈ e.connections) : a ∈ objects e ∧ b ∈ objects e :=
  mem_neighbours ((C08_neighbours e).mem_iff.mp h)

theorem namedObjects_sub {i o : Option T} (e : Chained T i o) : ∀ x ∈ namedObjects e, x ∈ objects e.toExpr := by
  induction e with
  | producer id src | filter id src | consumer id src => intro x; cases src <;> simp [namedObjects, objects, Chained.toExpr]
  | chain id src l r ihl ihr =>
    intro x hx
    simp only [namedObjects, List.mem_append] at hx
    simp only [Chained.toExpr, objects, List.mem_append]
    exact hx.imp (ihl x) (ihr x)

/-- the object into which an operand that is not a chain is moved -/
def storesInto : {i o : Option T} → Chained T i o → Option Nat
  | _, _, .producer id src _ => src.map (fun _ => id)
  | _, _, .filter id src _ _ => src.map (fun _ => id)
  | _, _, .consumer id src _ => src.map (fun _ => id)
  | _, _, .chain _ _ _ _ => none

theorem storesInto_spec {i o : Option T} (e : Chained T i o) {x : Nat} (h : storesInto e = some x) :
    x ∈ objects e.toExpr ∧ x ∉ namedObjects e ∧ e.toExpr.connections = [] := by
  cases e with
  | producer id src | filter id src | consumer id src =>
    cases src <;> simp [storesInto] at h
    subst h; simp [objects, Chained.toExpr, namedObjects, Expr.connections]
  | chain => simp [storesInto] at h

/-- the same numbers of connections and existing objects; other supported modes only for the given objects -/
structure SameBut (a b : Abs) (D : Nat → Prop) : Prop where
  N : b.N = a.N
  ac : b.ac = a.ac
  ap : b.ap = a.ap
  s : ∀ c, ¬ D c → b.s c = a.s c

theorem move_ok {a : Abs} {src dst : Nat} (h1 : Fresh a src) (h2 : Fresh a dst) :
    a.pre (.moveConsumer src dst : ChainOp V) ∧ a.pre (.moveProducer src dst : ChainOp V) ∧
    SameBut a (a.post (.moveConsumer src dst : ChainOp V)) (· = dst) ∧ a.post (.moveProducer src dst : ChainOp V) = a :=
  ⟨⟨h1.ac, h2.ac, fun p => ⟨h1.row p, h2.row p⟩⟩, ⟨h1.ap, h2.ap, fun p => ⟨h1.col p, h2.col p⟩⟩,
    ⟨rfl, rfl, rfl, fun c hc => by simp only [Abs.post, if_neg hc]⟩, rfl⟩

theorem Fresh.same {a b : Abs} {D : Nat → Prop} (h : SameBut a b D) {x : Nat} (hx : Fresh a x) : Fresh b x :=
  hx.of_eq (by rw [h.ac]) (by rw [h.ap]) (fun y => by rw [h.N]) (fun y => by rw [h.N])

theorem store_ok {i o : Option T} (e : Chained T i o) (a : Abs) (h : ∀ x ∈ anonymous e, Fresh a x) (h' : ∀ x, storesInto e = some x → Fresh a x) :
    a.PreAll (e.store : List (ChainOp V)) ∧ SameBut a (a.posts (e.store : List (ChainOp V))) (fun c => storesInto e = some c ∨ c ∈ anonymous e) := by
  have one : ∀ (src dst : Nat) (D : Nat → Prop), Fresh a src → Fresh a dst → D dst →
      (a.PreAll [(.moveConsumer src dst : ChainOp V)] ∧ SameBut a (a.posts [(.moveConsumer src dst : ChainOp V)]) D) ∧
      (a.PreAll [(.moveProducer src dst : ChainOp V)] ∧ SameBut a (a.posts [(.moveProducer src dst : ChainOp V)]) D) ∧
      (a.PreAll [(.moveConsumer src dst : ChainOp V), .moveProducer src dst] ∧ SameBut a (a.posts [(.moveConsumer src dst : ChainOp V), .moveProducer src dst]) D) := by
    intro src dst D h1 h2 hD
    obtain ⟨m1, m2, m3, m4⟩ := move_ok (V := V) h1 h2
    have m3' : SameBut a (a.post (.moveConsumer src dst : ChainOp V)) D := ⟨m3.N, m3.ac, m3.ap, fun c hc => m3.s c (fun h => hc (h ▸ hD))⟩
    obtain ⟨-, n2, -, -⟩ := move_ok (V := V) (h1.same m3') (h2.same m3')
    exact ⟨⟨⟨m1, trivial⟩, m3'⟩, ⟨⟨m2, trivial⟩, ⟨rfl, rfl, rfl, fun _ _ => rfl⟩⟩, ⟨m1, n2, trivial⟩, m3'⟩
  cases e with
  | producer id src ot =>
    cases src with
    | none => exact ⟨trivial, rfl, rfl, rfl, fun _ _ => rfl⟩
    | some s => exact (one s id _ (h s (by simp [anonymous])) (h' id rfl) (Or.inl rfl)).2.1
  | filter id src it ot =>
    cases src with
    | none => exact ⟨trivial, rfl, rfl, rfl, fun _ _ => rfl⟩
    | some s => exact (one s id _ (h s (by simp [anonymous])) (h' id rfl) (Or.inl rfl)).2.2
  | consumer id src it =>
    cases src with
    | none => exact ⟨trivial, rfl, rfl, rfl, fun _ _ => rfl⟩
    | some s => exact (one s id _ (h s (by simp [anonymous])) (h' id rfl) (Or.inl rfl)).1
  | chain id src l r =>
    have := one src id (fun c => storesInto (Chained.chain id src l r) = some c ∨ c ∈ anonymous (Chained.chain id src l r)) (h src (by simp [anonymous]))
      (h id (by simp [anonymous])) (Or.inr (by simp [anonymous]))
    rw [Chained.store]
    cases i <;> cases o <;> simp only [chainBases, Option.isSome, if_true, if_false, Bool.false_eq_true, List.append_nil, List.nil_append, List.cons_append]
    · exact ⟨trivial, rfl, rfl, rfl, fun _ _ => rfl⟩
    · exact this.2.1
    · exact this.1
    · exact this.2.2

theorem eval_ok {i o : Option T} (e : Chained T i o) : ∀ (a : Abs), (objects e.toExpr ++ anonymous e).Nodup → (∀ x ∈ anonymous e, Fresh a x) →
    (∀ x ∈ objects e.toExpr, a.ac x = true ∧ a.ap x = true) → (∀ x ∈ objects e.toExpr, x ∉ namedObjects e → Fresh a x) →
    a.PreAll (e.eval : List (ChainOp V)) ∧ (∀ c p, (a.posts (e.eval : List (ChainOp V))).N c p = a.N c p + e.toExpr.connections.count (p, c)) ∧
    (a.posts (e.eval : List (ChainOp V))).ac = a.ac ∧ (a.posts (e.eval : List (ChainOp V))).ap = a.ap ∧
    (∀ c, c ∉ anonymous e → (c ∉ objects e.toExpr ∨ c ∈ namedObjects e) → (a.posts (e.eval : List (ChainOp V))).s c = a.s c) := by
  induction e with
  | producer | filter | consumer =>
    intro a _ _ _ _
    refine ⟨trivial, ?_, rfl, rfl, fun _ _ _ => rfl⟩
    intro c p; simp [Chained.toExpr, Expr.connections, Chained.eval, Abs.posts]
  | @chain i o m id src l r ihl ihr =>
    intro a hnd han hal hun
    simp only [Chained.toExpr, objects, anonymous] at hnd han hal hun
    have hnd' : (objects l.toExpr ++ objects r.toExpr ++ id :: src :: (anonymous l ++ anonymous r)).Nodup := hnd
    rw [List.nodup_append] at hnd
    obtain ⟨n1, n2, n3⟩ := hnd
    rw [List.nodup_append] at n1
    obtain ⟨n4, n5, n6⟩ := n1
    simp only [List.nodup_cons, List.mem_cons, List.mem_append, not_or, List.nodup_append] at n2
    obtain ⟨n7, n8, n9, n10, n11⟩ := n2
    have dis : ∀ x, x ∈ objects l.toExpr ∨ x ∈ objects r.toExpr → x ≠ id ∧ x ≠ src ∧ x ∉ anonymous l ∧ x ∉ anonymous r := by
      intro x hx
      refine ⟨n3 x (by simpa using hx) id (by simp), n3 x (by simpa using hx) src (by simp), ?_, ?_⟩
      · intro hm; exact n3 x (by simpa using hx) x (by simp [hm]) rfl
      · intro hm; exact n3 x (by simpa using hx) x (by simp [hm]) rfl
    have nl : (objects l.toExpr ++ anonymous l).Nodup := by
      rw [List.nodup_append]; exact ⟨n4, n9, fun x hx y hy h => (dis x (Or.inl hx)).2.2.1 (h ▸ hy)⟩
    have nr : (objects r.toExpr ++ anonymous r).Nodup := by
      rw [List.nodup_append]; exact ⟨n5, n10, fun x hx y hy h => (dis x (Or.inr hx)).2.2.2 (h ▸ hy)⟩
    have hnl : ∀ x ∈ objects l.toExpr, x ∉ namedObjects l → x ∉ namedObjects (Chained.chain id src l r) := by
      intro x hx hn hm
      simp only [namedObjects, List.mem_append] at hm
      rcases hm with hm | hm
      · exact hn hm
      · exact n6 x hx x (namedObjects_sub r x hm) rfl
    have hnr : ∀ x ∈ objects r.toExpr, x ∉ namedObjects r → x ∉ namedObjects (Chained.chain id src l r) := by
      intro x hx hn hm
      simp only [namedObjects, List.mem_append] at hm
      rcases hm with hm | hm
      · exact n6 x (namedObjects_sub l x hm) x hx rfl
      · exact hn hm
    obtain ⟨p1, q1, a1, b1, s1⟩ := ihl a nl (fun x hx => han x (by simp [hx])) (fun x hx => hal x (by simp [hx]))
      (fun x hx hn => hun x (by simp [hx]) (hnl x hx hn))
    have keepl : ∀ x, x ∉ objects l.toExpr → Fresh a x → Fresh (a.posts (l.eval : List (ChainOp V))) x := by
      intro x hx hf
      refine hf.of_eq (by rw [a1]) (by rw [b1]) (fun y => ?_) (fun y => ?_)
      · rw [q1, List.count_eq_zero.mpr (fun hm => hx (mem_connections _ hm).2), Nat.add_zero]
      · rw [q1, List.count_eq_zero.mpr (fun hm => hx (mem_connections _ hm).1), Nat.add_zero]
    obtain ⟨p2, q2, a2, b2, s2⟩ := ihr (a.posts (l.eval : List (ChainOp V))) nr
      (fun x hx => keepl x (fun hm => (dis x (Or.inl hm)).2.2.2 hx) (han x (by simp [hx])))
      (fun x hx => by rw [a1, b1]; exact hal x (by simp [hx]))
      (fun x hx hn => keepl x (fun hm => n6 x hm x hx rfl) (hun x (by simp [hx]) (hnr x hx hn)))
    have keepr : ∀ x, x ∉ objects r.toExpr → Fresh (a.posts (l.eval : List (ChainOp V))) x → Fresh ((a.posts (l.eval : List (ChainOp V))).posts (r.eval : List (ChainOp V))) x := by
      intro x hx hf
      refine hf.of_eq (by rw [a2]) (by rw [b2]) (fun y => ?_) (fun y => ?_)
      · rw [q2, List.count_eq_zero.mpr (fun hm => hx (mem_connections _ hm).2), Nat.add_zero]
      · rw [q2, List.count_eq_zero.mpr (fun hm => hx (mem_connections _ hm).1), Nat.add_zero]
    have keepl0 : l.toExpr.connections = [] → ∀ x, Fresh a x → Fresh (a.posts (l.eval : List (ChainOp V))) x := by
      intro h0 x hf
      refine hf.of_eq (by rw [a1]) (by rw [b1]) (fun y => ?_) (fun y => ?_) <;> rw [q1, h0] <;> rfl
    have keepr0 : r.toExpr.connections = [] → ∀ x, Fresh (a.posts (l.eval : List (ChainOp V))) x → Fresh ((a.posts (l.eval : List (ChainOp V))).posts (r.eval : List (ChainOp V))) x := by
      intro h0 x hf
      refine hf.of_eq (by rw [a2]) (by rw [b2]) (fun y => ?_) (fun y => ?_) <;> rw [q2, h0] <;> rfl
    generalize hA2 : (a.posts (l.eval : List (ChainOp V))).posts (r.eval : List (ChainOp V)) = A2 at *
    have han2 : ∀ x, x = id ∨ x = src ∨ x ∈ anonymous l ∨ x ∈ anonymous r → Fresh A2 x := by
      intro x hx
      have hno : ¬ (x ∈ objects l.toExpr ∨ x ∈ objects r.toExpr) := by
        intro hm
        obtain ⟨d1, d2, d3, d4⟩ := dis x hm
        rcases hx with hx | hx | hx | hx <;> contradiction
      exact keepr x (fun hm => hno (Or.inr hm)) (keepl x (fun hm => hno (Or.inl hm)) (han x (by simpa using hx)))
    have st1 := store_ok (V := V) l A2 (fun x hx => han2 x (by simp [hx])) (fun x hx => by
      obtain ⟨t1, t2, t3⟩ := storesInto_spec l hx
      exact keepr x (fun hm => n6 x t1 x hm rfl) (keepl0 t3 x (hun x (by simp [t1]) (hnl x t1 t2))))
    have st2 := store_ok (V := V) r (A2.posts (l.store : List (ChainOp V))) (fun x hx => (han2 x (by simp [hx])).same st1.2) (fun x hx => by
      obtain ⟨t1, t2, t3⟩ := storesInto_spec r hx
      exact (keepr0 t3 x (keepl x (fun hm => n6 x hm x t1 rfl) (hun x (by simp [t1]) (hnr x t1 t2)))).same st1.2)
    have hrec : r.toExpr.receiver rfl ∈ objects r.toExpr := List.mem_of_head? (head_objects r.toExpr rfl)
    have hsig : l.toExpr.signalSource rfl ∈ objects l.toExpr := List.mem_of_getLast? (getLast_objects l.toExpr rfl)
    have hpost : a.posts ((Chained.chain id src l r).eval : List (ChainOp V)) =
        ((A2.posts (l.store : List (ChainOp V))).posts (r.store : List (ChainOp V))).post (.op (.connect (r.toExpr.receiver rfl) (l.toExpr.signalSource rfl)) : ChainOp V) := by
      rw [Chained.eval]
      simp only [Abs.posts_append, hA2]
      rfl
    refine ⟨?_, ?_, ?_, ?_, ?_⟩
    · rw [Chained.eval]
      simp only [Abs.preAll_append, Abs.posts_append, hA2]
      refine ⟨⟨⟨⟨p1, p2⟩, st1.1⟩, st2.1⟩, ⟨?_, ?_⟩, trivial⟩
      · rw [st2.2.ac, st1.2.ac, a2, a1]; exact (hal _ (by simp [hrec])).1
      · rw [st2.2.ap, st1.2.ap, b2, b1]; exact (hal _ (by simp [hsig])).2
    · intro c p
      rw [hpost]
      simp only [Abs.post, Chained.toExpr, Expr.connections, List.count_append, liveConnections]
      rw [st2.2.N, st1.2.N, q2, q1]
      simp only [List.count_singleton, beq_iff_eq, Prod.mk.injEq]
      by_cases hh : r.toExpr.receiver rfl = c ∧ l.toExpr.signalSource rfl = p
      · rw [if_pos hh, if_pos ⟨hh.2, hh.1⟩]; omega
      · rw [if_neg hh, if_neg (fun h => hh ⟨h.2, h.1⟩)]; omega
    · rw [hpost]; funext c; simp only [Abs.post, destroyedConsumers]; rw [st2.2.ac, st1.2.ac, a2, a1]; simp
    · rw [hpost]; funext c; simp only [Abs.post, destroyedProducers]; rw [st2.2.ap, st1.2.ap, b2, b1]; simp
    · intro c hc hcn
      rw [hpost]
      simp only [anonymous, List.mem_cons, List.mem_append, not_or] at hc
      simp only [Chained.toExpr, objects, List.mem_append, not_or] at hcn
      have hl' : c ∉ objects l.toExpr ∨ c ∈ namedObjects l := by
        rcases hcn with h | h
        · exact Or.inl h.1
        · simp only [namedObjects, List.mem_append] at h
          rcases h with h | h
          · exact Or.inr h
          · exact Or.inl (fun hm => n6 c hm c (namedObjects_sub r c h) rfl)
      have hr' : c ∉ objects r.toExpr ∨ c ∈ namedObjects r := by
        rcases hcn with h | h
        · exact Or.inl h.2
        · simp only [namedObjects, List.mem_append] at h
          rcases h with h | h
          · exact Or.inl (fun hm => n6 c (namedObjects_sub l c h) c hm rfl)
          · exact Or.inr h
      have i1 : ¬ (storesInto l = some c ∨ c ∈ anonymous l) := by
        rintro (h | h)
        · obtain ⟨t1, t2, -⟩ := storesInto_spec l h
          rcases hl' with h' | h'
          · exact h' t1
          · exact t2 h'
        · exact hc.2.2.1 h
      have i2 : ¬ (storesInto r = some c ∨ c ∈ anonymous r) := by
        rintro (h | h)
        · obtain ⟨t1, t2, -⟩ := storesInto_spec r h
          rcases hr' with h' | h'
          · exact h' t1
          · exact t2 h'
        · exact hc.2.2.2 h
      simp only [Abs.post]
      rw [st2.2.s c i2, st1.2.s c i1, s2 c hc.2.2.2 hr', s1 c hc.2.2.1 hl']

/-! ### destruction -/

/-- the consumers in `C` and the producers in `P` are gone -/
structure Removed (a b : Abs) (C P : List Nat) : Prop where
  N : ∀ c p, b.N c p = if c ∈ C ∨ p ∈ P then 0 else a.N c p
  ac : ∀ c, b.ac c = (a.ac c && decide (c ∉ C))
  ap : ∀ p, b.ap p = (a.ap p && decide (p ∉ P))
  s : b.s = a.s

theorem Removed.refl (a : Abs) : Removed a a [] [] := ⟨by simp, by simp, by simp, rfl⟩

theorem Removed.trans {a b c : Abs} {C P C' P' : List Nat} (h : Removed a b C P) (h' : Removed b c C' P') : Removed a c (C ++ C') (P ++ P') := by
  refine ⟨?_, ?_, ?_, h'.s.trans h.s⟩
  · intro x y
    rw [h'.N, h.N]
    simp only [List.mem_append]
    by_cases h1 : x ∈ C <;> by_cases h2 : x ∈ C' <;> by_cases h3 : y ∈ P <;> by_cases h4 : y ∈ P' <;> simp [h1, h2, h3, h4]
  · intro x
    rw [h'.ac, h.ac]
    by_cases h1 : x ∈ C <;> by_cases h2 : x ∈ C' <;> simp [h1, h2]
  · intro x
    rw [h'.ap, h.ap]
    by_cases h1 : x ∈ P <;> by_cases h2 : x ∈ P' <;> simp [h1, h2]

theorem Removed.fresh {a b : Abs} {C P : List Nat} (h : Removed a b C P) {x : Nat} (hC : x ∉ C) (hP : x ∉ P) (hx : Fresh a x) : Fresh b x := by
  refine ⟨by rw [h.ac, hx.ac]; simp [hC], by rw [h.ap, hx.ap]; simp [hP], ?_, ?_⟩
  · intro y; rw [h.N, hx.row]; split <;> rfl
  · intro y; rw [h.N, hx.col]; split <;> rfl

/-- a list of operations that removes `C` and `P` -/
def Removes (a : Abs) (l : List (ChainOp V)) (C P : List Nat) : Prop := a.PreAll l ∧ Removed a (a.posts l) C P

theorem Removes.append {a : Abs} {l m : List (ChainOp V)} {C P C' P' : List Nat} (h : Removes a l C P) (h' : Removes (a.posts l) m C' P') :
    Removes a (l ++ m) (C ++ C') (P ++ P') :=
  ⟨(Abs.preAll_append a l m).mpr ⟨h.1, h'.1⟩, by rw [Abs.posts_append]; exact h.2.trans h'.2⟩

theorem Removes.nil (a : Abs) : Removes a ([] : List (ChainOp V)) [] [] := ⟨trivial, Removed.refl a⟩

theorem removes_endConsumer {a : Abs} {x : Nat} (h : a.ac x = true) (hr : ∀ y, a.N x y = 0) : Removes a [(.endConsumer x : ChainOp V)] [x] [] := by
  refine ⟨⟨⟨h, hr⟩, trivial⟩, ?_, ?_, ?_, rfl⟩
  · intro c p
    simp only [Abs.posts, Abs.post, List.mem_singleton, List.not_mem_nil, or_false]
    split
    · rename_i hh; rw [hh, hr]
    · rfl
  · intro c; simp [Abs.posts, Abs.post]
  · intro c; simp [Abs.posts, Abs.post]

theorem removes_producer {a : Abs} {x : Nat} (h : a.ap x = true) : Removes a [(.op (.destroyProducer x) : ChainOp V)] [] [x] := by
  refine ⟨⟨h, trivial⟩, ?_, ?_, ?_, rfl⟩
  · intro c p
    simp only [Abs.posts, Abs.post, liveConnections, List.mem_singleton, List.not_mem_nil, false_or]
    by_cases hh : p = x
    · simp [hh]
    · rw [if_neg hh, if_neg (fun h => hh h.symm)]
  · intro c; simp [Abs.posts, Abs.post, destroyedConsumers]
  · intro c; simp [Abs.posts, Abs.post, destroyedProducers]

theorem removes_onlyConsumer {a : Abs} {x : Nat} (h : a.ac x = true) : Removes a (destroyOnlyConsumer x : List (ChainOp V)) [x] [] := by
  refine ⟨⟨h, ⟨by simp [Abs.post, h, destroyedConsumers], fun p => by simp [Abs.post, liveConnections]⟩, trivial⟩, ?_, ?_, ?_, rfl⟩
  · intro c p
    simp only [destroyOnlyConsumer, Abs.posts, Abs.post, liveConnections, List.mem_singleton, List.not_mem_nil, or_false]
    by_cases hh : c = x
    · simp [hh]
    · rw [if_neg hh, if_neg (fun h => hh h.symm)]
  · intro c; simp [destroyOnlyConsumer, Abs.posts, Abs.post, destroyedConsumers]
  · intro c; simp [destroyOnlyConsumer, Abs.posts, Abs.post, destroyedProducers]

theorem removes_filter {a : Abs} {x : Nat} (h : a.ac x = true) (h' : a.ap x = true) : Removes a (destroyFilter x : List (ChainOp V)) [x] [x] := by
  refine ⟨⟨h, ?_, ?_, ⟨by simp [Abs.post, h, destroyedConsumers], fun p => by simp [Abs.post, liveConnections]⟩, trivial⟩, ?_, ?_, ?_, rfl⟩
  · simp [Abs.pre, Abs.post, h', destroyedProducers]
  · simp [Abs.pre, Abs.post, h', destroyedProducers]
  · intro c p
    simp only [destroyFilter, Abs.posts, Abs.post, liveConnections, List.mem_singleton]
    by_cases hh : c = x <;> by_cases hk : p = x
    · simp [hh, hk]
    · simp [hh]
    · simp [hk]
    · rw [if_neg (fun h => hk h.symm), if_neg (fun h => hh h.symm), if_neg (not_or.mpr ⟨hh, hk⟩)]
  · intro c; simp [destroyFilter, Abs.posts, Abs.post, destroyedConsumers]
  · intro c; simp [destroyFilter, Abs.posts, Abs.post, destroyedProducers]

def baseC (i : Option T) (x : Nat) : List Nat := if i.isSome then [x] else []

theorem removes_bases {a : Abs} {x : Nat} (i o : Option T) (hx : Fresh a x) :
    Removes a (chainBases i o (.endConsumer x) (.op (.destroyProducer x)) : List (ChainOp V)).reverse (baseC i x) (baseC o x) := by
  cases i <;> cases o <;>
    simp only [chainBases, baseC, Option.isSome, if_true, if_false, Bool.false_eq_true, List.append_nil, List.nil_append, List.cons_append, List.reverse_nil, List.reverse_cons]
  · exact Removes.nil a
  · exact removes_producer hx.ap
  · exact removes_endConsumer hx.ac hx.row
  · have h1 := removes_producer (V := V) hx.ap
    refine Removes.append (C := []) (P := [x]) (C' := [x]) (P' := []) h1 (removes_endConsumer ?_ ?_)
    · rw [h1.2.ac, hx.ac]; simp
    · intro y; rw [h1.2.N, hx.row]; split <;> rfl

theorem mem_baseC {i : Option T} {x y : Nat} (h : y ∈ baseC i x) : y = x := by
  unfold baseC at h; split at h <;> simp at h; exact h

/-- what `leftovers` destroys -/
def tmpC : {i o : Option T} → Chained T i o → List Nat
  | _, _, .producer _ _ _ => []
  | _, _, .filter _ src _ _ => src.toList
  | _, _, .consumer _ src _ => src.toList
  | i, _, .chain _ src l r => baseC i src ++ (tmpC r ++ tmpC l)

def tmpP : {i o : Option T} → Chained T i o → List Nat
  | _, _, .producer _ src _ => src.toList
  | _, _, .filter _ src _ _ => src.toList
  | _, _, .consumer _ _ _ => []
  | _, o, .chain _ src l r => baseC o src ++ (tmpP r ++ tmpP l)

theorem tmp_sub {i o : Option T} (e : Chained T i o) (x : Nat) : (x ∈ tmpC e ∨ x ∈ tmpP e) → x ∈ anonymous e := by
  induction e with
  | producer | filter | consumer => simp [tmpC, tmpP, anonymous]
  | chain id src l r ihl ihr =>
    simp only [tmpC, tmpP, anonymous, List.mem_append, List.mem_cons]
    rintro ((h | h | h) | (h | h | h))
    · exact Or.inr (Or.inl (mem_baseC h))
    · exact Or.inr (Or.inr (Or.inr (ihr (Or.inl h))))
    · exact Or.inr (Or.inr (Or.inl (ihl (Or.inl h))))
    · exact Or.inr (Or.inl (mem_baseC h))
    · exact Or.inr (Or.inr (Or.inr (ihr (Or.inr h))))
    · exact Or.inr (Or.inr (Or.inl (ihl (Or.inr h))))

/-- the temporaries that are moved from -/
def tmps : {i o : Option T} → Chained T i o → List Nat
  | _, _, .producer _ src _ => src.toList
  | _, _, .filter _ src _ _ => src.toList
  | _, _, .consumer _ src _ => src.toList
  | _, _, .chain _ src l r => src :: (tmps l ++ tmps r)

theorem tmps_sub {i o : Option T} (e : Chained T i o) (x : Nat) : x ∈ tmps e → x ∈ anonymous e := by
  induction e with
  | producer | filter | consumer => simp [tmps, anonymous]
  | chain id src l r ihl ihr =>
    simp only [tmps, anonymous, List.mem_append, List.mem_cons]
    rintro (h | h | h)
    · exact Or.inr (Or.inl h)
    · exact Or.inr (Or.inr (Or.inl (ihl h)))
    · exact Or.inr (Or.inr (Or.inr (ihr h)))

theorem leftovers_ok {i o : Option T} (e : Chained T i o) : ∀ (a : Abs), (anonymous e).Nodup → (∀ x ∈ tmps e, Fresh a x) →
    Removes a (e.leftovers : List (ChainOp V)) (tmpC e) (tmpP e) := by
  induction e with
  | producer id src _ =>
    intro a _ h
    cases src with
    | none => exact Removes.nil a
    | some x => exact removes_producer (h x (by simp [tmps])).ap
  | filter id src _ _ =>
    intro a _ h
    cases src with
    | none => exact Removes.nil a
    | some x => exact removes_filter (h x (by simp [tmps])).ac (h x (by simp [tmps])).ap
  | consumer id src _ =>
    intro a _ h
    cases src with
    | none => exact Removes.nil a
    | some x => exact removes_onlyConsumer (h x (by simp [tmps])).ac
  | @chain i o m id src l r ihl ihr =>
    intro a nd h
    simp only [anonymous, List.nodup_cons, List.mem_cons, List.mem_append, not_or, List.nodup_append] at nd
    simp only [tmps, List.mem_cons, List.mem_append] at h
    obtain ⟨n7, n8, n9, n10, n11⟩ := nd
    rw [Chained.leftovers, List.append_assoc]
    have s1 := removes_bases (V := V) i o (h src (by simp))
    have f1 : ∀ x, x ≠ src → Fresh a x → Fresh (a.posts (chainBases i o (.endConsumer src) (.op (.destroyProducer src)) : List (ChainOp V)).reverse) x :=
      fun x hx hf => s1.2.fresh (fun hm => hx (mem_baseC hm)) (fun hm => hx (mem_baseC hm)) hf
    refine s1.append ?_
    have s2 := ihr (a.posts (chainBases i o (.endConsumer src) (.op (.destroyProducer src)) : List (ChainOp V)).reverse) n10
      (fun x hx => f1 x (fun e => n8.2 (tmps_sub r _ (e ▸ hx))) (h x (by simp [hx])))
    refine s2.append (ihl _ n9 (fun x hx => ?_))
    refine s2.2.fresh (fun hm => ?_) (fun hm => ?_) (f1 x (fun e => n8.1 (tmps_sub l _ (e ▸ hx))) (h x (by simp [hx])))
    · exact n11 x (tmps_sub l x hx) x (tmp_sub r x (Or.inl hm)) rfl
    · exact n11 x (tmps_sub l x hx) x (tmp_sub r x (Or.inr hm)) rfl

/-- `leftoversOfOperands` -/
def tmpC' : {i o : Option T} → Chained T i o → List Nat
  | _, _, .chain _ _ l r => tmpC r ++ tmpC l
  | _, _, _ => []

def tmpP' : {i o : Option T} → Chained T i o → List Nat
  | _, _, .chain _ _ l r => tmpP r ++ tmpP l
  | _, _, _ => []

theorem tmp'_sub {i o : Option T} (e : Chained T i o) (x : Nat) : (x ∈ tmpC' e ∨ x ∈ tmpP' e) → x ∈ anonymous e := by
  cases e with
  | producer | filter | consumer => simp [tmpC', tmpP']
  | chain id src l r =>
    simp only [tmpC', tmpP', anonymous, List.mem_append, List.mem_cons]
    rintro ((h | h) | (h | h))
    · exact Or.inr (Or.inr (Or.inr (tmp_sub r x (Or.inl h))))
    · exact Or.inr (Or.inr (Or.inl (tmp_sub l x (Or.inl h))))
    · exact Or.inr (Or.inr (Or.inr (tmp_sub r x (Or.inr h))))
    · exact Or.inr (Or.inr (Or.inl (tmp_sub l x (Or.inr h))))

/-- the operands' part of `tmps` -/
def tmpOperands : {i o : Option T} → Chained T i o → List Nat
  | _, _, .chain _ _ l r => tmps l ++ tmps r
  | _, _, _ => []

theorem leftoversOfOperands_ok {i o : Option T} (e : Chained T i o) (a : Abs) (nd : (anonymous e).Nodup) (h : ∀ x ∈ tmpOperands e, Fresh a x) :
    Removes a (e.leftoversOfOperands : List (ChainOp V)) (tmpC' e) (tmpP' e) := by
  cases e with
  | producer | filter | consumer => exact Removes.nil a
  | chain id src l r =>
    simp only [anonymous, List.nodup_cons, List.mem_cons, List.mem_append, not_or, List.nodup_append] at nd
    simp only [tmpOperands, List.mem_cons, List.mem_append] at h
    obtain ⟨n7, n8, n9, n10, n11⟩ := nd
    have s2 := leftovers_ok (V := V) r a n10 (fun x hx => h x (by simp [hx]))
    refine s2.append (leftovers_ok l _ n9 (fun x hx => ?_))
    refine s2.2.fresh (fun hm => ?_) (fun hm => ?_) (h x (by simp [hx]))
    · exact n11 x (tmps_sub l x hx) x (tmp_sub r x (Or.inl hm)) rfl
    · exact n11 x (tmps_sub l x hx) x (tmp_sub r x (Or.inr hm)) rfl

/-- the chain objects that are not destroyed as leftovers -/
def chainIds : {i o : Option T} → Chained T i o → List Nat
  | _, _, .chain id _ l r => id :: (chainIds r ++ chainIds l)
  | _, _, _ => []

def destroyedC : {i o : Option T} → Chained T i o → List Nat
  | _, _, .producer _ _ _ => []
  | _, _, .filter id src _ _ => if src.isSome then [id] else []
  | _, _, .consumer id src _ => if src.isSome then [id] else []
  | i, _, .chain id _ l r => destroyedC r ++ destroyedC l ++ baseC i id

def destroyedP : {i o : Option T} → Chained T i o → List Nat
  | _, _, .producer id src _ => if src.isSome then [id] else []
  | _, _, .filter id src _ _ => if src.isSome then [id] else []
  | _, _, .consumer _ _ _ => []
  | _, o, .chain id _ l r => destroyedP r ++ destroyedP l ++ baseC o id

theorem chainIds_sub {i o : Option T} (e : Chained T i o) (x : Nat) : x ∈ chainIds e → x ∈ anonymous e := by
  induction e with
  | producer | filter | consumer => simp [chainIds]
  | chain id src l r ihl ihr =>
    simp only [chainIds, anonymous, List.mem_append, List.mem_cons]
    rintro (h | h | h)
    · exact Or.inl h
    · exact Or.inr (Or.inr (Or.inr (ihr h)))
    · exact Or.inr (Or.inr (Or.inl (ihl h)))

theorem owned_sub {i o : Option T} (e : Chained T i o) (x : Nat) : (x ∈ ownedConsumers e ∨ x ∈ ownedProducers e) → x ∈ objects e.toExpr := by
  induction e with
  | producer id src | filter id src | consumer id src => cases src <;> simp [ownedConsumers, ownedProducers, objects, Chained.toExpr]
  | chain id src l r ihl ihr =>
    simp only [ownedConsumers, ownedProducers, objects, Chained.toExpr, List.mem_append]
    tauto

theorem owned_not_named {i o : Option T} (e : Chained T i o) (nd : (objects e.toExpr).Nodup) (x : Nat) : (x ∈ ownedConsumers e ∨ x ∈ ownedProducers e) → x ∉ namedObjects e := by
  induction e with
  | producer id src | filter id src | consumer id src => cases src <;> simp [ownedConsumers, ownedProducers, namedObjects]
  | chain id src l r ihl ihr =>
    simp only [objects, Chained.toExpr, List.nodup_append] at nd
    obtain ⟨n1, n2, n3⟩ := nd
    simp only [ownedConsumers, ownedProducers, namedObjects, List.mem_append, not_or]
    have key : ((x ∈ ownedConsumers l ∨ x ∈ ownedProducers l) ∨ (x ∈ ownedConsumers r ∨ x ∈ ownedProducers r)) → x ∉ namedObjects l ∧ x ∉ namedObjects r := by
      rintro (h | h)
      · exact ⟨ihl n1 h, fun hm => n3 x (owned_sub l x h) x (namedObjects_sub r x hm) rfl⟩
      · exact ⟨fun hm => n3 x (namedObjects_sub l x hm) x (owned_sub r x h) rfl, ihr n2 h⟩
    intro h; exact key (by tauto)

theorem destroyed_mem {i o : Option T} (e : Chained T i o) (x : Nat) :
    (x ∈ destroyedC e → x ∈ ownedConsumers e ∨ x ∈ chainIds e) ∧ (x ∈ destroyedP e → x ∈ ownedProducers e ∨ x ∈ chainIds e) ∧
    (x ∈ ownedConsumers e → x ∈ destroyedC e) ∧ (x ∈ ownedProducers e → x ∈ destroyedP e) := by
  induction e with
  | producer | filter | consumer => simp [destroyedC, destroyedP, ownedConsumers, ownedProducers, chainIds]
  | chain id src l r ihl ihr =>
    simp only [destroyedC, destroyedP, ownedConsumers, ownedProducers, chainIds, List.mem_append, List.mem_cons]
    refine ⟨?_, ?_, ?_, ?_⟩
    · rintro ((h | h) | h)
      · exact (ihr.1 h).elim (fun h => Or.inl (Or.inr h)) (fun h => Or.inr (Or.inr (Or.inl h)))
      · exact (ihl.1 h).elim (fun h => Or.inl (Or.inl h)) (fun h => Or.inr (Or.inr (Or.inr h)))
      · exact Or.inr (Or.inl (mem_baseC h))
    · rintro ((h | h) | h)
      · exact (ihr.2.1 h).elim (fun h => Or.inl (Or.inr h)) (fun h => Or.inr (Or.inr (Or.inl h)))
      · exact (ihl.2.1 h).elim (fun h => Or.inl (Or.inl h)) (fun h => Or.inr (Or.inr (Or.inr h)))
      · exact Or.inr (Or.inl (mem_baseC h))
    · rintro (h | h)
      · exact Or.inl (Or.inr (ihl.2.2.1 h))
      · exact Or.inl (Or.inl (ihr.2.2.1 h))
    · rintro (h | h)
      · exact Or.inl (Or.inr (ihl.2.2.2 h))
      · exact Or.inl (Or.inl (ihr.2.2.2 h))

theorem destroyed_sub {i o : Option T} (e : Chained T i o) (x : Nat) (h : x ∈ destroyedC e ∨ x ∈ destroyedP e) : x ∈ objects e.toExpr ∨ x ∈ anonymous e := by
  rcases h with h | h
  · rcases (destroyed_mem e x).1 h with h | h
    · exact Or.inl (owned_sub e x (Or.inl h))
    · exact Or.inr (chainIds_sub e x h)
  · rcases (destroyed_mem e x).2.1 h with h | h
    · exact Or.inl (owned_sub e x (Or.inr h))
    · exact Or.inr (chainIds_sub e x h)

theorem destroy_ok {i o : Option T} (e : Chained T i o) : ∀ (a : Abs), (objects e.toExpr ++ anonymous e).Nodup → (∀ x ∈ chainIds e, Fresh a x) →
    (∀ x ∈ ownedConsumers e, a.ac x = true) → (∀ x ∈ ownedProducers e, a.ap x = true) →
    Removes a (e.destroy : List (ChainOp V)) (destroyedC e) (destroyedP e) := by
  induction e with
  | producer id src _ =>
    intro a _ _ _ h
    cases src with
    | none => exact Removes.nil a
    | some x => exact removes_producer (h id (by simp [ownedProducers]))
  | filter id src _ _ =>
    intro a _ _ h h'
    cases src with
    | none => exact Removes.nil a
    | some x => exact removes_filter (h id (by simp [ownedConsumers])) (h' id (by simp [ownedProducers]))
  | consumer id src _ =>
    intro a _ _ h _
    cases src with
    | none => exact Removes.nil a
    | some x => exact removes_onlyConsumer (h id (by simp [ownedConsumers]))
  | @chain i o m id src l r ihl ihr =>
    intro a hnd hc hac hap
    simp only [Chained.toExpr, objects, anonymous] at hnd
    simp only [chainIds, ownedConsumers, ownedProducers, List.mem_append, List.mem_cons] at hc hac hap
    rw [List.nodup_append] at hnd
    obtain ⟨n1, n2, n3⟩ := hnd
    rw [List.nodup_append] at n1
    obtain ⟨n4, n5, n6⟩ := n1
    simp only [List.nodup_cons, List.mem_cons, List.mem_append, not_or, List.nodup_append] at n2
    obtain ⟨n7, n8, n9, n10, n11⟩ := n2
    have dis : ∀ x, x ∈ objects l.toExpr ∨ x ∈ objects r.toExpr → x ≠ id ∧ x ≠ src ∧ x ∉ anonymous l ∧ x ∉ anonymous r := by
      intro x hx
      refine ⟨n3 x (by simpa using hx) id (by simp), n3 x (by simpa using hx) src (by simp), ?_, ?_⟩
      · intro hm; exact n3 x (by simpa using hx) x (by simp [hm]) rfl
      · intro hm; exact n3 x (by simpa using hx) x (by simp [hm]) rfl
    have nl : (objects l.toExpr ++ anonymous l).Nodup := by
      rw [List.nodup_append]; exact ⟨n4, n9, fun x hx y hy h => (dis x (Or.inl hx)).2.2.1 (h ▸ hy)⟩
    have nr : (objects r.toExpr ++ anonymous r).Nodup := by
      rw [List.nodup_append]; exact ⟨n5, n10, fun x hx y hy h => (dis x (Or.inr hx)).2.2.2 (h ▸ hy)⟩
    have s1 := ihr a nr (fun x hx => hc x (by simp [hx])) (fun x hx => hac x (by simp [hx])) (fun x hx => hap x (by simp [hx]))
    have away : ∀ x, (x ∈ objects l.toExpr ∨ x ∈ anonymous l ∨ x = id) → x ∉ destroyedC r ∧ x ∉ destroyedP r := by
      intro x hx
      have : ¬ (x ∈ objects r.toExpr ∨ x ∈ anonymous r) := by
        rintro (hm | hm)
        · rcases hx with hx | hx | hx
          · exact n6 x hx x hm rfl
          · exact (dis x (Or.inr hm)).2.2.1 hx
          · exact (dis x (Or.inr hm)).1 hx
        · rcases hx with hx | hx | hx
          · exact (dis x (Or.inl hx)).2.2.2 hm
          · exact n11 x hx x hm rfl
          · exact n7.2.2 (hx ▸ hm)
      exact ⟨fun hm => this (destroyed_sub r x (Or.inl hm)), fun hm => this (destroyed_sub r x (Or.inr hm))⟩
    have s2 := ihl (a.posts (r.destroy : List (ChainOp V))) nl
      (fun x hx => by
        have := away x (Or.inr (Or.inl (chainIds_sub l x hx)))
        exact s1.2.fresh this.1 this.2 (hc x (by simp [hx])))
      (fun x hx => by
        have := away x (Or.inl (owned_sub l x (Or.inl hx)))
        rw [s1.2.ac, hac x (by simp [hx])]; simp [this.1])
      (fun x hx => by
        have := away x (Or.inl (owned_sub l x (Or.inr hx)))
        rw [s1.2.ap, hap x (by simp [hx])]; simp [this.2])
    have fid : Fresh ((a.posts (r.destroy : List (ChainOp V))).posts (l.destroy : List (ChainOp V))) id := by
      have h1 := away id (Or.inr (Or.inr rfl))
      have h2 : ¬ (id ∈ destroyedC l ∨ id ∈ destroyedP l) := by
        intro hm
        rcases destroyed_sub l id hm with h | h
        · exact (dis id (Or.inl h)).1 rfl
        · exact n7.2.1 h
      rw [not_or] at h2
      exact s2.2.fresh h2.1 h2.2 (s1.2.fresh h1.1 h1.2 (hc id (by simp)))
    rw [Chained.destroy]
    refine (s1.append s2).append ?_
    rw [Abs.posts_append]
    exact removes_bases i o fid

/-! ### what the program does itself -/

/-- the state is the one described by the history `pre`; nothing is said about the existence of the objects in `A`, and about the supported modes of those in `B` -/
structure Matches (sup : Nat → Nat) (A B : List Nat) (a : Abs) (pre : List (Op V)) : Prop where
  N : ∀ c p, a.N c p = liveConnections c p 0 pre
  ac : ∀ c, c ∉ A → a.ac c = decide (c ∉ destroyedConsumers pre)
  ap : ∀ p, p ∉ A → a.ap p = decide (p ∉ destroyedProducers pre)
  s : ∀ c, c ∉ B → a.s c = sup c

theorem live_append (c p : Nat) (l m : List (Op V)) : ∀ n, liveConnections c p n (l ++ m) = liveConnections c p (liveConnections c p n l) m := by
  induction l with
  | nil => intro n; rfl
  | cons o l ih => intro n; cases o <;> simp only [List.cons_append, liveConnections, ih]

theorem destroyedConsumers_append (l m : List (Op V)) : destroyedConsumers (l ++ m) = destroyedConsumers l ++ destroyedConsumers m := by
  induction l with
  | nil => rfl
  | cons o l ih => cases o <;> simp only [List.cons_append, destroyedConsumers, ih]

theorem destroyedProducers_append (l m : List (Op V)) : destroyedProducers (l ++ m) = destroyedProducers l ++ destroyedProducers m := by
  induction l with
  | nil => rfl
  | cons o l ih => cases o <;> simp only [List.cons_append, destroyedProducers, ih]

theorem user_ok {sup : Nat → Nat} {A B : List Nat} (os : List (Op V)) : ∀ {a : Abs} {pre post : List (Op V)}, Matches sup A B a pre → LegalHistory sup (pre ++ os ++ post) →
    (∀ o ∈ os, ∀ x ∈ mentions o, x ∉ A) → (∀ o ∈ os, ∀ c m, o = .setParallelMode c m → c ∉ B) →
    a.PreAll (os.map ChainOp.op) ∧ Matches sup A B (a.posts (os.map ChainOp.op)) (pre ++ os) := by
  induction os with
  | nil => intro a pre post h _ _ _; exact ⟨trivial, by rw [List.append_nil]; exact h⟩
  | cons o os ih =>
    intro a pre post h hl hA hB
    have hlo := hl pre o (os ++ post) (by simp)
    have hm := hA o (by simp)
    have hpre : a.pre (.op o) := by
      cases o with
      | connect c p => exact ⟨by rw [h.ac c (hm c (by simp [mentions]))]; simpa using hlo.1, by rw [h.ap p (hm p (by simp [mentions]))]; simpa using hlo.2⟩
      | disconnectAndFlush c => show a.ac c = true; rw [h.ac c (hm c (by simp [mentions]))]; simpa [legal] using hlo
      | destroyConsumer c => show a.ac c = true; rw [h.ac c (hm c (by simp [mentions]))]; simpa [legal] using hlo
      | destroyProducer c => show a.ap c = true; rw [h.ap c (hm c (by simp [mentions]))]; simpa [legal] using hlo
      | setParallelMode c m =>
        obtain ⟨l1, l2, l3, l4⟩ := hlo
        refine ⟨by rw [h.ac c (hm c (by simp [mentions]))]; simpa using l1, fun p => ?_, l3, by rw [h.s c (hB _ (by simp) c m rfl)]; exact l4⟩
        by_contra hne
        exact l2 ⟨p, by rw [← h.N]; exact hne⟩
      | issue c m => show a.ap c = true; rw [h.ap c (hm c (by simp [mentions]))]; simpa [legal] using hlo
      | flush c => show a.ap c = true; rw [h.ap c (hm c (by simp [mentions]))]; simpa [legal] using hlo
    have hpost : Matches sup A B (a.post (.op o)) (pre ++ [o]) := by
      refine ⟨?_, ?_, ?_, h.s⟩
      · intro c p; rw [live_append, ← h.N]; rfl
      · intro c hc
        rw [destroyedConsumers_append]
        show (a.ac c && _) = _
        rw [h.ac c hc]
        by_cases h1 : c ∈ destroyedConsumers pre <;> simp [h1]
      · intro c hc
        rw [destroyedProducers_append]
        show (a.ap c && _) = _
        rw [h.ap c hc]
        by_cases h1 : c ∈ destroyedProducers pre <;> simp [h1]
    obtain ⟨g1, g2⟩ := ih (post := post) hpost (by simpa using hl) (fun o' ho' => hA o' (by simp [ho'])) (fun o' ho' => hB o' (by simp [ho']))
    exact ⟨⟨hpre, g1⟩, by rw [List.append_assoc] at g2; exact g2⟩

theorem live_connects (c p : Nat) (l : List (Nat × Nat)) : ∀ n, liveConnections c p n (l.map (fun e => (.connect e.2 e.1 : Op V))) = n + l.count (p, c) := by
  induction l with
  | nil => intro n; simp [liveConnections]
  | cons e l ih =>
    intro n
    obtain ⟨x, y⟩ := e
    simp only [List.map_cons, liveConnections, ih, List.count_cons, beq_iff_eq, Prod.mk.injEq]
    by_cases h : y = c ∧ x = p
    · rw [if_pos h, if_pos ⟨h.2, h.1⟩]; omega
    · rw [if_neg h, if_neg (fun hh => h ⟨hh.2, hh.1⟩)]; omega

theorem live_connectNeighbours (c p n : Nat) (l : List Nat) : liveConnections c p n (connectNeighbours l : List (Op V)) = n + (neighbours l).count (p, c) :=
  live_connects c p _ n

theorem destroyed_connects (l : List (Nat × Nat)) : destroyedConsumers (l.map (fun e => (.connect e.2 e.1 : Op V))) = [] ∧ destroyedProducers (l.map (fun e => (.connect e.2 e.1 : Op V))) = [] := by
  induction l with
  | nil => exact ⟨rfl, rfl⟩
  | cons e l ih => exact ih

theorem chain_not_tmp {i o : Option T} (e : Chained T i o) (nd : (anonymous e).Nodup) (x : Nat) (hx : x ∈ chainIds e) : x ∉ tmpC e ∧ x ∉ tmpP e := by
  induction e with
  | producer | filter | consumer => simp [chainIds] at hx
  | chain id src l r ihl ihr =>
    simp only [anonymous, List.nodup_cons, List.mem_cons, List.mem_append, not_or, List.nodup_append] at nd
    obtain ⟨n7, n8, n9, n10, n11⟩ := nd
    simp only [chainIds, List.mem_cons, List.mem_append] at hx
    have h1 : x ≠ src := by
      rintro rfl
      rcases hx with h | h | h
      · exact n7.1 h.symm
      · exact n8.2 (chainIds_sub r _ h)
      · exact n8.1 (chainIds_sub l _ h)
    have h2 : x ∉ tmpC r ∧ x ∉ tmpP r := by
      rcases hx with h | h | h
      · subst h; exact ⟨fun hm => n7.2.2 (tmp_sub r _ (Or.inl hm)), fun hm => n7.2.2 (tmp_sub r _ (Or.inr hm))⟩
      · exact ihr n10 h
      · exact ⟨fun hm => n11 x (chainIds_sub l x h) x (tmp_sub r _ (Or.inl hm)) rfl, fun hm => n11 x (chainIds_sub l x h) x (tmp_sub r _ (Or.inr hm)) rfl⟩
    have h3 : x ∉ tmpC l ∧ x ∉ tmpP l := by
      rcases hx with h | h | h
      · subst h; exact ⟨fun hm => n7.2.1 (tmp_sub l _ (Or.inl hm)), fun hm => n7.2.1 (tmp_sub l _ (Or.inr hm))⟩
      · exact ⟨fun hm => n11 x (tmp_sub l _ (Or.inl hm)) x (chainIds_sub r x h) rfl, fun hm => n11 x (tmp_sub l _ (Or.inr hm)) x (chainIds_sub r x h) rfl⟩
      · exact ihl n9 h
    simp only [tmpC, tmpP, List.mem_append, not_or]
    exact ⟨⟨fun hm => h1 (mem_baseC hm), h2.1, h3.1⟩, ⟨fun hm => h1 (mem_baseC hm), h2.2, h3.2⟩⟩

theorem tmp'_tmp {i o : Option T} (e : Chained T i o) (x : Nat) : (x ∈ tmpC' e → x ∈ tmpC e) ∧ (x ∈ tmpP' e → x ∈ tmpP e) := by
  cases e with
  | producer | filter | consumer => simp [tmpC', tmpP']
  | chain id src l r => simp only [tmpC', tmpP', tmpC, tmpP, List.mem_append]; exact ⟨Or.inr, Or.inr⟩

theorem tmpOperands_sub {i o : Option T} (e : Chained T i o) : ∀ x ∈ tmpOperands e, x ∈ tmps e := by
  intro x hx
  cases e with
  | producer | filter | consumer => simp [tmpOperands] at hx
  | chain id src l r => simp only [tmps, tmpOperands, List.mem_cons, List.mem_append] at hx ⊢; exact Or.inr hx

theorem chain_not_tmps {i o : Option T} (e : Chained T i o) (nd : (anonymous e).Nodup) (x : Nat) (hx : x ∈ chainIds e) : x ∉ tmps e := by
  induction e with
  | producer | filter | consumer => simp [chainIds] at hx
  | chain id src l r ihl ihr =>
    simp only [anonymous, List.nodup_cons, List.mem_cons, List.mem_append, not_or, List.nodup_append] at nd
    obtain ⟨n7, n8, n9, n10, n11⟩ := nd
    simp only [chainIds, List.mem_cons, List.mem_append] at hx
    simp only [tmps, List.mem_append, List.mem_cons, not_or]
    rcases hx with h | h | h
    · subst h; exact ⟨n7.1, fun hm => n7.2.1 (tmps_sub l _ hm), fun hm => n7.2.2 (tmps_sub r _ hm)⟩
    · exact ⟨fun hm => n8.2 (hm ▸ chainIds_sub r _ h), fun hm => n11 x (tmps_sub l _ hm) x (chainIds_sub r _ h) rfl, ihr n10 h⟩
    · exact ⟨fun hm => n8.1 (hm ▸ chainIds_sub l _ h), ihl n9 h, fun hm => n11 x (chainIds_sub l _ h) x (tmps_sub r _ hm) rfl⟩

theorem Fresh.ops (os : List (Op V)) : ∀ (b : Abs) (x : Nat), (∀ o ∈ os, x ∉ mentions o) → Fresh b x → Fresh (b.posts (os.map ChainOp.op)) x := by
  induction os with
  | nil => intro b x _ hf; exact hf
  | cons o os ih => intro b x h hf; exact ih _ x (fun o' ho' => h o' (by simp [ho'])) (hf.op o (h o (by simp)))

/-- `LegalHistory`, operation by operation -/
def LegalFrom (sup : Nat → Nat) : List (Op V) → List (Op V) → Prop
  | _, [] => True
  | pre, o :: os => legal (destroyedConsumers pre) (destroyedProducers pre) sup (fun c => ∃ p, liveConnections c p 0 pre ≠ 0) o ∧ LegalFrom sup (pre ++ [o]) os

theorem legalHistory_of {sup : Nat → Nat} {os : List (Op V)} (h : LegalFrom sup [] os) : LegalHistory sup os := by
  have : ∀ (os pre₀ pre post : List (Op V)) (o : Op V), LegalFrom sup pre₀ os → os = pre ++ o :: post →
      legal (destroyedConsumers (pre₀ ++ pre)) (destroyedProducers (pre₀ ++ pre)) sup (fun c => ∃ p, liveConnections c p 0 (pre₀ ++ pre) ≠ 0) o := by
    intro os
    induction os with
    | nil => intro pre₀ pre post o _ e; simp at e
    | cons x os ih =>
      intro pre₀ pre post o hl e
      cases pre with
      | nil =>
        simp only [List.nil_append, List.cons.injEq] at e
        rw [List.append_nil, ← e.1]; exact hl.1
      | cons y pre =>
        simp only [List.cons_append, List.cons.injEq] at e
        have := ih (pre₀ ++ [x]) pre post o hl.2 e.2
        rw [List.append_assoc] at this
        rw [← e.1]; exact this
  intro pre o post e
  exact this os [] pre post o h e

end SampleFlow.Temporaries
