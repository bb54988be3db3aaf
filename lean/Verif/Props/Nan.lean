import Verif.Spec.Nan
import Verif.Props.Metropolis
import Verif.Props.DelayedRejection
import Verif.Props.DifferentialEvaluation
import Verif.Model.SimpleConsumers

/-!
# C59: log likelihoods that are not a number

For every arithmetic that treats NaN as IEEE 754 prescribes (`NanRules`).
-/

universe u

namespace SampleFlow

open Spec FloatOps

variable {W : Type u} {S D E : Type} [FloatOps D] {nan : D → Prop}

/-! ## MetropolisHastings -/

theorem AcceptRule.nan_trial (R : NanRules nan) {a b r : D} {draws : List D} {acc : Bool}
    (h : AcceptRule hasZeroProbability a b r draws acc) (ha : nan a) : acc = false := by
  have hz : hasZeroProbability a = false := by simp [hasZeroProbability, R.eq_left _ _ ha]
  cases h with
  | zeroReject => rfl
  | zeroWalk u h1 => rw [hz] at h1; cases h1
  | zeroUp u h1 => rw [hz] at h1; cases h1
  | zeroRatio u u' h1 => rw [hz] at h1; cases h1
  | up h1 h4 => rw [R.lt_right _ _ (R.sub_left _ _ ha)] at h4; cases h4
  | ratio u h1 h4 => exact R.le_right _ _ (R.div_left _ _ (R.exp _ (R.sub_left _ _ ha)))

theorem AcceptRule.nan_current (R : NanRules nan) {a b r : D} {draws : List D} {acc : Bool}
    (h : AcceptRule hasZeroProbability a b r draws acc) (hb : nan b) : acc = false := by
  have hz : hasZeroProbability b = false := by simp [hasZeroProbability, R.eq_left _ _ hb]
  cases h with
  | zeroReject => rfl
  | zeroWalk u h1 h2 => rw [hz] at h2; cases h2
  | zeroUp u h1 h2 => rw [hz] at h2; cases h2
  | zeroRatio u u' h1 h2 => rw [hz] at h2; cases h2
  | up h1 h4 => rw [R.lt_left _ _ hb] at h4; cases h4
  | ratio u h1 h4 => exact R.le_right _ _ (R.div_left _ _ (R.exp _ (R.sub_right _ _ hb)))

/-- **C59**, MetropolisHastings: a proposal whose log likelihood is NaN is never accepted.  If the starting point's log likelihood is
a number, so is that of every sample issued, in every run. -/
theorem C59_metropolis_never_nan (R : NanRules nan) (env : World W S D E) (L : S → D) (hL : LikelihoodIs env L) (start : S)
    (n : Nat) (w : W) (hs : ¬ nan (L start)) :
    ∀ p ∈ issuedOf (mhSample env start n w).1, ¬ nan (L p.1) := by
  obtain ⟨moves, h1, h2, -, h4, -, -⟩ := mhSample_issued env L hL start n w
  intro p hp
  rw [h4] at hp
  obtain ⟨m, hm, rfl⟩ := List.mem_map.mp hp
  refine h1.stays (fun x => ¬ nan (L x)) ?_ hs m hm
  intro m hm hprev
  unfold Move.next
  by_cases ha : m.accepted = true
  · rw [if_pos ha]
    intro hn
    rw [AcceptRule.nan_trial R (h2 m hm) hn] at ha
    cases ha
  · rw [if_neg ha]; exact hprev

/-- **C59**, MetropolisHastings started where the log likelihood is NaN: the chain never moves, all samples are the starting point and
are marked as repeated, whatever the proposals are (unlike a starting point of probability zero, from which the chain does a
random walk). -/
theorem C59_metropolis_nan_start (R : NanRules nan) (env : World W S D E) (L : S → D) (hL : LikelihoodIs env L) (start : S)
    (n : Nat) (w : W) (hs : nan (L start)) :
    ∀ p ∈ issuedOf (mhSample env start n w).1,
      p = (start, [("relative log likelihood", .real (L start)), ("sample is repeated", .flag true)]) := by
  obtain ⟨moves, h1, h2, -, h4, -, -⟩ := mhSample_issued env L hL start n w
  have hacc : ∀ m ∈ moves, m.prev = start → m.accepted = false := by
    intro m hm hp
    exact AcceptRule.nan_current R (h2 m hm) (hp ▸ hs)
  have hmoves : ∀ m ∈ moves, m.prev = start := by
    clear h2 h4
    induction moves with
    | nil => simp
    | cons m ms ih =>
      have hm : m.next = start := by
        unfold Move.next
        rw [hacc m (by simp) h1.1]
        exact h1.1
      intro m' hm'
      rcases List.mem_cons.mp hm' with rfl | hm'
      · exact h1.1
      · exact ih (hm ▸ h1.2) (fun m hm => hacc m (by simp [hm])) m' hm'
  intro p hp
  rw [h4] at hp
  obtain ⟨m, hm, rfl⟩ := List.mem_map.mp hp
  have h5 := hacc m hm (hmoves m hm)
  have h6 : m.next = start := by unfold Move.next; rw [h5]; exact hmoves m hm
  rw [h6, h5]
  rfl

/-! ## DelayedRejectionMetropolisHastings -/

theorem foldlM_nan {α ε : Type} (f : D → α → Except ε D) (l : List α) (b : D)
    (keep : ∀ b, ∀ a ∈ l, ∀ b', nan b → f b a = .ok b' → nan b')
    (become : nan b ∨ ∃ a ∈ l, ∀ b b', f b a = .ok b' → nan b') :
    ∀ r, l.foldlM f b = .ok r → nan r := by
  induction l generalizing b with
  | nil =>
    intro r hr
    rcases become with h | ⟨a, ha, -⟩
    · cases hr; exact h
    · cases ha
  | cons a l ih =>
    intro r hr
    rw [List.foldlM_cons] at hr
    rcases hf : f b a with e | b'
    · rw [hf] at hr; cases hr
    · rw [hf] at hr
      refine ih b' (fun b a ha => keep b a (by simp [ha])) ?_ r hr
      rcases become with h | ⟨a', ha', h⟩
      · exact .inl (keep b a (by simp) b' h hf)
      · rcases List.mem_cons.mp ha' with rfl | ha'
        · exact .inl (h b b' hf)
        · exact .inr ⟨a', ha', h⟩

/-- The acceptance ratio is NaN if the likelihood of the current sample or of any proposal of the step is. -/
theorem alphaFn_nan (R : NanRules nan) (checked : Bool) (fuel : Nat) : ∀ (x : D) (y : List D) (r : D),
    alphaFn checked fuel x y = .ok r → (nan x ∨ ∃ d ∈ y, nan d) → nan r := by
  induction fuel with
  | zero => intro x y r h; cases h
  | succ fuel ih =>
    intro x y r h hn
    unfold alphaFn at h
    rcases hlast : y.getLast? with _ | yi
    · rw [hlast] at h; cases h
    · rw [hlast] at h
      simp only at h
      have hne : y ≠ [] := by rintro rfl; simp at hlast
      have hsplit : y = y.dropLast ++ [yi] := by
        rw [List.getLast?_eq_some_getLast hne] at hlast
        cases hlast
        exact (List.dropLast_append_getLast hne).symm
      -- is the likelihood ratio already NaN?
      by_cases hend : nan x ∨ nan yi
      · have hlr : nan (exp (sub yi x)) := by
          rcases hend with h | h
          · exact R.exp _ (R.sub_right _ _ h)
          · exact R.exp _ (R.sub_left _ _ h)
        by_cases h0 : y.length - 1 = 0
        · rw [if_pos h0] at h; cases h; exact hlr
        · rw [if_neg h0] at h
          refine foldlM_nan _ _ _ ?_ (.inl hlr) r h
          intro b j hj b' hb hf
          cases checked with
          | true => cases hf
          | false =>
            rcases e1 : alphaFn false fuel yi ((y.drop (y.length - 1 - (j + 1))).take (j + 1)) with e | a1
            · rw [e1] at hf; cases hf
            · rcases e2 : alphaFn false fuel x (y.take (j + 1)) with e | a2
              · rw [e1, e2] at hf; cases hf
              · rw [e1, e2] at hf; cases hf; exact R.mul_left _ _ hb
      · -- some earlier proposal is
        have hmem : ∃ d ∈ y.dropLast, nan d := by
          rcases hn with h | ⟨d, hd, h⟩
          · exact absurd (.inl h) hend
          · rw [hsplit] at hd
            rcases List.mem_append.mp hd with hd | hd
            · exact ⟨d, hd, h⟩
            · rw [List.mem_singleton.mp hd] at h
              exact absurd (.inr h) hend
        obtain ⟨d, hd, hdn⟩ := hmem
        have hlen : 0 < y.dropLast.length := List.length_pos_of_mem hd
        rw [List.length_dropLast] at hlen
        rw [if_neg (by omega)] at h
        refine foldlM_nan _ _ _ ?_ (.inr ⟨y.length - 2, List.mem_range.mpr (by omega), ?_⟩) r h
        · intro b j hj b' hb hf
          cases checked with
          | true => cases hf
          | false =>
            rcases e1 : alphaFn false fuel yi ((y.drop (y.length - 1 - (j + 1))).take (j + 1)) with e | a1
            · rw [e1] at hf; cases hf
            · rcases e2 : alphaFn false fuel x (y.take (j + 1)) with e | a2
              · rw [e1, e2] at hf; cases hf
              · rw [e1, e2] at hf; cases hf; exact R.mul_left _ _ hb
        · intro b b' hf
          cases checked with
          | true => cases hf
          | false =>
            rcases e1 : alphaFn false fuel yi ((y.drop (y.length - 1 - (y.length - 2 + 1))).take (y.length - 2 + 1)) with e | a1
            · rw [e1] at hf; cases hf
            · rcases e2 : alphaFn false fuel x (y.take (y.length - 2 + 1)) with e | a2
              · rw [e1, e2] at hf; cases hf
              · rw [e1, e2] at hf; cases hf
                have : nan a2 := by
                  refine ih x _ a2 e2 (.inr ⟨d, ?_, hdn⟩)
                  rw [show y.length - 2 + 1 = y.length - 1 by omega, ← List.dropLast_eq_take]
                  exact hd
                exact R.mul_right _ _ (R.div_right _ _ (R.sub_right _ _ this))

theorem StageDecision.nan_rejected (R : NanRules nan) {a : D} {draws : List D} {acc : Bool} (h : StageDecision a draws acc)
    (ha : nan a) : acc = false := by
  rcases h with ⟨h, -, -⟩ | ⟨-, u, -, rfl⟩
  · rw [R.lt_right _ _ ha] at h; cases h
  · exact R.le_right _ _ ha

/-- A step in which the current sample or any proposal has a NaN likelihood leads nowhere. -/
theorem DRMove.nan_rejected (R : NanRules nan) {checked : Bool} {maxDelays : Nat} {L : S → D} {m : DRMove S D}
    (hc : m.Complete maxDelays) (hd : m.Decided (fun x ys a => alphaFn checked ys.length x ys = .ok a) L)
    (hn : nan (L m.prev) ∨ ∃ t ∈ m.tried, nan (L t.1)) : m.accepted = false := by
  have hpos := hc.1
  obtain ⟨t, ht⟩ : ∃ t, m.tried[m.tried.length - 1]? = some t :=
    ⟨_, List.getElem?_eq_getElem (by omega)⟩
  obtain ⟨a, h1, h2⟩ := hd _ t ht
  rw [show m.tried.length - 1 + 1 = m.tried.length by omega, List.take_length] at h1
  have : nan a := by
    refine alphaFn_nan R checked _ _ _ a h1 ?_
    rcases hn with h | ⟨t, ht, h⟩
    · exact .inl h
    · exact .inr ⟨L t.1, List.mem_map.mpr ⟨t, ht, rfl⟩, h⟩
  have := StageDecision.nan_rejected R h2 this
  rw [show decide (m.tried.length - 1 + 1 = m.tried.length) = true by simp; omega] at this
  simpa using this

/-- The moves behind the issued samples of any run. -/
theorem drSample_issued (checked : Bool) (maxDelays : Nat) (hdef : checked = false ∨ maxDelays = 0)
    (env : World W S D (Stop E)) (L : S → D) (hL : LikelihoodIs env L) (start : S) (n : Nat) (w : W) :
    ∃ moves : List (DRMove S D), DRLinked start moves ∧
      (∀ m ∈ moves, m.Complete maxDelays ∧ m.Decided (fun x ys a => alphaFn checked ys.length x ys = .ok a) L) ∧
      issuedOf (drSample checked env start maxDelays n w).1 = moves.map (fun m => (m.next,
        [("relative log likelihood", .real (L m.next)), ("sample is repeated", .flag (!m.accepted))])) := by
  rcases drSample_run checked maxDelays hdef env L hL start n w with
    ⟨e, h1, h2⟩ | ⟨moves, tail, h1, h2, h3, ⟨e, h4, h5, h6⟩ | ⟨-, h5, h6⟩⟩
  · exact ⟨[], trivial, by simp, by rw [h2]; rfl⟩
  · refine ⟨moves, h1, h2, ?_⟩
    rw [h6, show ∀ l, issuedOf (Event.logLikelihood start (L start) :: l) = issuedOf l from fun _ => rfl,
      issuedOf_append, issuedOf_append, issuedOf_quiet h5, issuedOf_drMoves]
    simp [issuedOf]
  · refine ⟨moves, h1, h2, ?_⟩
    rw [h6, show ∀ l, issuedOf (Event.logLikelihood start (L start) :: l) = issuedOf l from fun _ => rfl,
      issuedOf_append, issuedOf_drMoves]
    simp [issuedOf]

omit [FloatOps D] in
theorem Spec.DRLinked.stays {start : S} {ms : List (DRMove S D)} (good : S → Prop) (h : DRLinked start ms)
    (hm : ∀ m ∈ ms, good m.prev → good m.next) (hs : good start) : ∀ m ∈ ms, good m.next := by
  induction ms generalizing start with
  | nil => simp
  | cons m ms ih =>
    intro m' hm'
    have h1 : good m.next := hm m (by simp) (h.1 ▸ hs)
    rcases List.mem_cons.mp hm' with rfl | hm'
    · exact h1
    · exact ih h.2 (fun m hm' => hm m (by simp [hm'])) h1 m' hm'

/-- **C59**, DelayedRejection: if the starting point's log likelihood is a number, so is that of every sample issued. -/
theorem C59_delayedRejection_never_nan (R : NanRules nan) (checked : Bool) (maxDelays : Nat)
    (hdef : checked = false ∨ maxDelays = 0) (env : World W S D (Stop E)) (L : S → D) (hL : LikelihoodIs env L) (start : S)
    (n : Nat) (w : W) (hs : ¬ nan (L start)) :
    ∀ p ∈ issuedOf (drSample checked env start maxDelays n w).1, ¬ nan (L p.1) := by
  obtain ⟨moves, h1, h2, h4⟩ := drSample_issued checked maxDelays hdef env L hL start n w
  intro p hp
  rw [h4] at hp
  obtain ⟨m, hm, rfl⟩ := List.mem_map.mp hp
  refine h1.stays (fun x => ¬ nan (L x)) ?_ hs m hm
  intro m hm hprev hnext
  unfold DRMove.next at hnext
  by_cases ha : m.accepted = true
  · rw [if_pos ha] at hnext
    have hpos := (h2 m hm).1.1
    have hne : m.tried ≠ [] := by intro h0; rw [h0] at hpos; simp at hpos
    rw [List.getLast?_eq_some_getLast hne] at hnext
    have := DRMove.nan_rejected R (h2 m hm).1 (h2 m hm).2 (.inr ⟨_, List.getLast_mem hne, hnext⟩)
    rw [this] at ha; cases ha
  · rw [if_neg ha] at hnext; exact hprev hnext

/-- **C59**, DelayedRejection started where the log likelihood is NaN: the chain never moves. -/
theorem C59_delayedRejection_nan_start (R : NanRules nan) (checked : Bool) (maxDelays : Nat)
    (hdef : checked = false ∨ maxDelays = 0) (env : World W S D (Stop E)) (L : S → D) (hL : LikelihoodIs env L) (start : S)
    (n : Nat) (w : W) (hs : nan (L start)) :
    ∀ p ∈ issuedOf (drSample checked env start maxDelays n w).1, p.1 = start := by
  obtain ⟨moves, h1, h2, h4⟩ := drSample_issued checked maxDelays hdef env L hL start n w
  intro p hp
  rw [h4] at hp
  obtain ⟨m, hm, rfl⟩ := List.mem_map.mp hp
  refine h1.stays (fun x => x = start) ?_ rfl m hm
  intro m hm hprev
  unfold DRMove.next
  rw [DRMove.nan_rejected R (h2 m hm).1 (h2 m hm).2 (.inl (hprev ▸ hs))]
  exact hprev

/-- **C59**, DelayedRejection, NaN is contagious within a step: if a proposal with NaN likelihood has been rejected in a step, all
later proposals of the same step are rejected too, however likely they are. -/
theorem C59_delayedRejection_nan_blocks_step (R : NanRules nan) (checked : Bool) (maxDelays : Nat)
    (hdef : checked = false ∨ maxDelays = 0) (env : World W S D (Stop E)) (L : S → D) (hL : LikelihoodIs env L) (start : S)
    (n : Nat) (w : W) (last : S) (hr : (drSample checked env start maxDelays n w).2.1 = .ok last) :
    ∃ moves : List (DRMove S D), moves.length = n ∧ DRLinked start moves ∧
      (drSample checked env start maxDelays n w).1 =
        .logLikelihood start (L start) :: (moves.flatMap (DRMove.events L) ++ [.flushed, .flushed]) ∧
      ∀ m ∈ moves, (∃ t ∈ m.tried, nan (L t.1)) → m.accepted = false ∧ m.tried.length = maxDelays + 1 := by
  obtain ⟨moves, h1, h2, h3, h4⟩ := C44_chain checked maxDelays hdef env L hL start n w last hr
  refine ⟨moves, h1, h2, h4, fun m hm hn => ?_⟩
  have := DRMove.nan_rejected R (h3 m hm).1 (h3 m hm).2 (.inr hn)
  exact ⟨this, (h3 m hm).1.2.2 this⟩

/-! ## DifferentialEvaluationMetropolisHastings -/

theorem issuedOf_generation (L : S → D) (n : Nat) (g : List (DEMove S D)) :
    issuedOf (generationEvents L n g) = g.mapIdx (fun c m => (m.next,
      [("relative log likelihood", .real (L m.next)), ("sample is repeated", .flag (!m.accepted)), ("chain number", .index c)])) := by
  have hmoves : ∀ g : List (DEMove S D), issuedOf (g.flatMap (DEMove.events L n)) = [] := by
    intro g; induction g with
    | nil => rfl
    | cons m g ih =>
      rw [List.flatMap_cons, issuedOf_append, ih, List.append_nil]
      unfold DEMove.events DEMove.trialEvents
      cases m.crossing <;> rfl
  unfold generationEvents
  rw [issuedOf_append, hmoves, List.nil_append]
  have : ∀ c0, issuedOf (issueEvents L c0 g) = g.mapIdx (fun c m => (m.next,
      [("relative log likelihood", .real (L m.next)), ("sample is repeated", .flag (!m.accepted)), ("chain number", .index (c0 + c))])) := by
    induction g with
    | nil => intro c0; rfl
    | cons m g ih =>
      intro c0
      rw [List.mapIdx_cons]
      refine (congrArg (List.cons _) (ih (c0 + 1))).trans ?_
      simp only [DEMove.issueEvent, Nat.add_zero, List.cons.injEq, true_and]
      congr 1
      funext c m
      rw [show c0 + 1 + c = c0 + (c + 1) by omega]
  rw [this 0]
  simp

/-- A property of the sample of chain `c` that every valid step preserves holds for all samples issued. -/
theorem generations_keep (L : S → D) (gap N : Nat) (good : Nat → S → Prop) (gens : List (List (DEMove S D))) :
    ∀ (gen : Nat) (cur : List S), cur.length = N → GenerationsFrom L gap gen cur gens → FullButLast N gens →
      (∀ (c : Nat) (x : S), cur[c]? = some x → good c x) →
      (∀ (gen : Nat) (cur : List S) (c : Nat) (m : DEMove S D), m.Valid L gap gen cur c → good c m.prev → good c m.next) →
      ∀ (k : Nat) (p : S × Aux D), (issuedOf (gens.flatMap (generationEvents L N)))[k]? = some p → good (k % N) p.1 := by
  induction gens with
  | nil => intro gen cur _ _ _ _ _ k p hk; simp [issuedOf] at hk
  | cons g gs ih =>
    intro gen cur hlen hg hf hcur hstep k p hk
    rw [List.flatMap_cons, issuedOf_append, issuedOf_generation] at hk
    have hgl : g.length ≤ N := by
      cases gs with
      | nil => exact hf.1
      | cons g' gs => exact Nat.le_of_eq hf.1
    have hthis : ∀ (c : Nat) (m : DEMove S D), g[c]? = some m → good c m.next := by
      intro c m hm
      have hv := hg.1 c m hm
      exact hstep gen cur c m hv (hcur c m.prev hv.1)
    by_cases hkg : k < g.length
    · rw [List.getElem?_append_left (by simpa using hkg), List.getElem?_mapIdx, Option.map_eq_some_iff] at hk
      obtain ⟨m, hm, rfl⟩ := hk
      rw [Nat.mod_eq_of_lt (by omega)]
      exact hthis k m hm
    · rw [List.getElem?_append_right (by simpa using hkg), List.length_mapIdx] at hk
      cases gs with
      | nil => simp [issuedOf] at hk
      | cons g' gs =>
        have hN : g.length = N := hf.1
        have hadv : ∀ (c : Nat) (x : S), (advance cur g)[c]? = some x → good c x := by
          intro c x hx
          unfold advance at hx
          rw [List.drop_of_length_le (by omega), List.append_nil, List.getElem?_map, Option.map_eq_some_iff] at hx
          obtain ⟨m, hm, rfl⟩ := hx
          exact hthis c m hm
        have := ih (gen + 1) (advance cur g) (by simp [advance, hN, hlen]) hg.2 hf.2 hadv hstep _ p hk
        rwa [hN, ← Nat.mod_eq_sub_mod (by omega)] at this

/-- **C59**, DifferentialEvaluation: a chain whose starting point has NaN log likelihood never moves; a chain that starts with a
number never moves to a sample with NaN log likelihood. -/
theorem C59_differentialEvaluation (R : NanRules nan) (env : World W S D (Stop E)) (L : S → D) (hL : LikelihoodIs env L)
    (starts : List S) (gap n : Nat) (w : W) (hr : (deSample env starts gap n w).2.1 = .ok ()) (k : Nat) (p : S × Aux D)
    (hk : (issuedOf (deSample env starts gap n w).1)[k]? = some p) :
    ∃ s, starts[k % starts.length]? = some s ∧ (nan (L s) → p.1 = s) ∧ (¬ nan (L s) → ¬ nan (L p.1)) := by
  obtain ⟨gens, h1, h2, -, h4⟩ := C51_generations env L hL starts gap n w hr
  have hini : ∀ l : List S, issuedOf (l.map (fun x => Event.logLikelihood x (L x))) = [] := by
    intro l; induction l with
    | nil => rfl
    | cons x l ih => exact ih
  rw [h4, issuedOf_append, issuedOf_append, hini, List.nil_append,
    show issuedOf ([.flushed] : List (Event S D)) = [] from rfl, List.append_nil] at hk
  refine generations_keep L gap starts.length
    (fun c x => ∃ s, starts[c]? = some s ∧ (nan (L s) → x = s) ∧ (¬ nan (L s) → ¬ nan (L x))) gens 0 starts rfl h1 h2 ?_ ?_ k p hk
  · intro c x hx
    exact ⟨x, hx, fun _ => rfl, fun h => h⟩
  · rintro gen cur c m hv ⟨s, i1, i2, i3⟩
    have hacc := hv.2.2.2
    refine ⟨s, i1, ?_, ?_⟩
    · intro hn
      have hp := i2 hn
      unfold DEMove.next
      rw [hacc, R.le_right _ _ (R.div_left _ _ (R.exp _ (R.sub_right _ _ (hp ▸ hn))))]
      exact hp
    · intro hn
      unfold DEMove.next
      by_cases ht : nan (L m.trial)
      · rw [hacc, R.le_right _ _ (R.div_left _ _ (R.exp _ (R.sub_left _ _ ht)))]
        exact i3 hn
      · cases m.accepted
        · exact i3 hn
        · exact ht

/-! ## MaximumProbabilitySample -/

/-- **C59**, MaximumProbabilitySample: if the first sample with a log likelihood has NaN, it is kept for ever, however likely the
following samples are. -/
theorem C59_maxProb_nan_first {S' D' : Type} (isLowest : D' → Bool) (gt : D' → D' → Bool) (lowest d : D') (S₀ s : S')
    (hl : isLowest lowest = true) (h1 : isLowest d = false) (h2 : ∀ x, gt x d = false)
    (xs : List (S' × LLEntry D')) (hw : ∀ m ∈ xs, m.2 ≠ .wrongType) :
    maxProbAfter isLowest gt lowest S₀ ((s, .val d) :: xs) = .ok ⟨s, d⟩ := by
  unfold maxProbAfter
  rw [List.foldlM_cons]
  have e : MaxProbState.consume isLowest gt ⟨S₀, lowest⟩ (s, .val d) = .ok ⟨s, d⟩ := by simp [MaxProbState.consume, hl]
  rw [e]
  change xs.foldlM _ _ = _
  induction xs with
  | nil => rfl
  | cons x xs ih =>
    rw [List.foldlM_cons]
    have : MaxProbState.consume isLowest gt ⟨s, d⟩ x = .ok ⟨s, d⟩ := by
      obtain ⟨a, (_ | _ | d')⟩ := x
      · rfl
      · exact absurd rfl (hw (a, .wrongType) (by simp))
      · simp [MaxProbState.consume, h1, h2]
    rw [this]
    exact ih (fun m hm => hw m (by simp [hm]))

/-- **C59**, MaximumProbabilitySample: a sample with NaN is ignored once a sample with a likelihood above the lowest double is
stored. -/
theorem C59_maxProb_nan_later {S' D' : Type} (isLowest : D' → Bool) (gt : D' → D' → Bool) (d : D') (s : S')
    (h2 : ∀ x, gt d x = false) (st : MaxProbState S' D') (hst : isLowest st.highest = false) :
    MaxProbState.consume isLowest gt st (s, .val d) = .ok st := by
  simp [MaxProbState.consume, hst, h2]

/-- **C59**: the idealised doubles used for the properties of the Markov chains obey the rules on NaN assumed here. -/
theorem C59_ideal_doubles (max : ℝ) : @NanRules XR (idealOps max) (fun d => d = .nan) := nanRules_ideal max

/-! ### The hypotheses can be met -/

/-- Idealised doubles: `gt` and `isLowest` of MaximumProbabilitySample for NaN. -/
example (max : ℝ) : (XR.eqb (.fin (-max)) (.fin (-max)) = true) ∧ XR.eqb .nan (.fin (-max)) = false ∧
    (∀ x, XR.ltb .nan x = false) ∧ (∀ x, XR.ltb x .nan = false) := by
  refine ⟨by simp [XR.eqb], rfl, fun x => by cases x <;> rfl, fun x => by cases x <;> rfl⟩

/-- A computable arithmetic with a NaN (`none`). -/
@[reducible] def optionOps : FloatOps (Option Int) where
  sub := fun a b => do return (← a) - (← b)
  mul := fun a b => do return (← a) * (← b)
  div := fun a b => do return (← a) / (← b)
  exp := fun a => a
  log := fun a => a
  one := some 1
  negMax := some (-1000)
  negInf := some (-2000)
  eq := fun a b => a.isSome && b.isSome && a == b
  lt := fun a b => match a, b with | some x, some y => decide (x < y) | _, _ => false
  le := fun a b => match a, b with | some x, some y => decide (x ≤ y) | _, _ => false

theorem nanRules_option : @NanRules (Option Int) optionOps (fun d => d = none) := by
  letI := optionOps
  refine ⟨?_, ?_, ?_, ?_, ?_, ?_, ?_, ?_, ?_, ?_, ?_⟩
  · rintro a b rfl; rfl
  · rintro a b rfl; rfl
  · rintro a b rfl; cases a <;> rfl
  · rintro a b rfl; cases a <;> rfl
  · rintro a b rfl; rfl
  · rintro a b rfl; cases a <;> rfl
  · rintro a b rfl; rfl
  · rintro a b rfl; cases a <;> rfl
  · rintro a b rfl; rfl
  · rintro a b rfl; cases a <;> rfl
  · rintro a rfl; rfl

/-- The likelihood of `x` is `x`, but NaN for 3 and -1; proposals are `x + 1` and then `x + 2`, `x + 3` ... -/
def nanWorld : World Nat Int (Option Int) (Stop Empty) where
  logLikelihood := fun x w => (.ok (if x = 3 ∨ x = -1 then none else some x), w)
  propose := fun x _ w => (.ok (x + 1 + w, some 1), w + 1)
  crossover := fun x _ _ w => (.ok x, w)
  uniform := fun w => (some 0, w)
  uniformInt := fun _ w => (0, w)
  issue := fun _ _ w => (.ok (), w)
  flush := fun w => w

/-- Metropolis-Hastings: from 1 the proposal 2 is accepted, from 2 the proposal 4, from 4 the proposal 7. -/
example : (issuedOf (@mhSample Nat Int (Option Int) (Stop Empty) nanWorld optionOps 1 3 0).1).map Prod.fst = [2, 4, 7] := by
  decide +kernel

/-- The proposal 3 made from 2 has NaN and is rejected; then 4 is accepted.  Started at -1, the chain is stuck. -/
example : (issuedOf (@mhSample Nat Int (Option Int) (Stop Empty) nanWorld optionOps 2 2 0).1).map Prod.fst = [2, 4] ∧
    (issuedOf (@mhSample Nat Int (Option Int) (Stop Empty) nanWorld optionOps (-1) 3 0).1).map Prod.fst = [-1, -1, -1] := by
  decide +kernel

/-- Delayed rejection with one delay: the first proposal 3 has NaN, therefore also the second one, 4, is rejected. -/
example : (issuedOf (@drSample Nat Int (Option Int) optionOps Empty false nanWorld 2 1 1 0).1).map Prod.fst = [2] ∧
    (issuedOf (@drSample Nat Int (Option Int) optionOps Empty false nanWorld (-1) 1 2 0).1).map Prod.fst = [-1, -1] := by
  decide +kernel

/-- Differential evaluation: chain 0 starts at NaN and stays there; the proposal 3 of chain 1 is rejected. -/
example : (issuedOf (@deSample Nat Int (Option Int) Empty optionOps nanWorld [-1, 1, 2] 0 6 0).1).map Prod.fst =
    [-1, 1, 5, -1, 6, 11] := by
  decide +kernel

/-! ### Instances: concrete cases that meet the hypotheses of the theorems above -/

theorem nanWorld_likelihood : LikelihoodIs nanWorld (fun x => if x = 3 ∨ x = -1 then none else some x) := by
  intro x w d w' h
  injection h with h _
  injection h with h
  exact h.symm

section
attribute [local instance] optionOps
example := C59_metropolis_never_nan nanRules_option nanWorld _ nanWorld_likelihood 1 3 0 (by decide)
example := C59_metropolis_nan_start nanRules_option nanWorld _ nanWorld_likelihood (-1) 3 0 (by decide)
example := C59_delayedRejection_never_nan nanRules_option false 1 (.inl rfl) nanWorld _ nanWorld_likelihood 2 1 0 (by decide)
example := C59_delayedRejection_nan_start nanRules_option false 1 (.inl rfl) nanWorld _ nanWorld_likelihood (-1) 2 0 (by decide)
example := C59_delayedRejection_nan_blocks_step nanRules_option false 1 (.inl rfl) nanWorld _ nanWorld_likelihood 2 1 0 2 (by rfl)
theorem nanWorld_de_ok : (deSample nanWorld [-1, 1, 2] 0 6 0).2.1 = .ok () := by
  have h : (deSample nanWorld [-1, 1, 2] 0 6 0).2.1.toOption.isSome = true := by decide +kernel
  revert h
  cases (deSample nanWorld [-1, 1, 2] 0 6 0).2.1 with
  | ok u => exact fun _ => rfl
  | error e => exact fun h => by simp [Except.toOption] at h
example (p : Int × Aux (Option Int)) := C59_differentialEvaluation nanRules_option nanWorld _ nanWorld_likelihood [-1, 1, 2] 0 6 0 nanWorld_de_ok 2 p
end

example (max : ℝ) := C59_maxProb_nan_first (fun x => XR.eqb x (.fin (-max))) XR.ltb (.fin (-max)) .nan (0:Int) 5 (by simp [XR.eqb]) rfl (fun x => by cases x <;> rfl)
  [(6, .val (.fin 1)), (7, .absent)] (by simp)
example (max : ℝ) := C59_maxProb_nan_later (fun x => XR.eqb x (.fin (-max))) XR.ltb .nan (5:Int) (fun _ => rfl) ⟨3, .negInf⟩ rfl

end SampleFlow
