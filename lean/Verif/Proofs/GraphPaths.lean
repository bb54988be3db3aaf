import Verif.Proofs.GraphNet
import Mathlib.Data.List.Sort

/-! Networks with shared components (C94): paths, upstream components, circles. -/

namespace SampleFlow.Graph

open Spec

variable {V : Type}

/-! ### only what is upstream matters -/

theorem fold_outside' {A : Nat → Bool} (f : Log V → Nat × Nat → Except Fault (Log V)) : ∀ (l : List (Nat × Nat)) (L L' : Log V),
    (∀ ck ∈ l, ∀ L L', f L ck = .ok L' → ∀ x, A x = true → L' x = L x) → l.foldlM f L = .ok L' → ∀ x, A x = true → L' x = L x := by
  intro l
  induction l with
  | nil => intro L L' _ h x _; injection h with h; rw [h]
  | cons ck l ih =>
    intro L L' hf h x hx
    obtain ⟨Lm, h1, h2⟩ := foldlM_cons_ok h
    rw [ih Lm L' (fun ck' h' => hf ck' (by simp [h'])) h2 x hx, hf ck (by simp) L Lm h1 x hx]

theorem call_outside {N : Net V} {A : Nat → Bool} (hup : ∀ a, ∀ c ∈ N.outs (.node a), A c = true → A a = true) : ∀ (d : Nat) (stack : List Nat) (L : Log V) (src : Source) (k n : Nat) (ev : NetEvent V) (L' : Log V),
    ¬ A n = true → N.call d stack L src k n ev = .ok L' → ∀ x, A x = true → L' x = L x := by
  intro d
  induction d with
  | zero => intro _ _ _ _ _ _ _ _ h; cases h
  | succ d ih =>
    intro stack L src k n ev L' hn h x hx
    have hxn : x ≠ n := by rintro rfl; exact hn hx
    rcases call_succ_ok h with ⟨-, rfl⟩ | ⟨y, -, hf⟩
    · exact addEntry_ne L n _ hxn
    · rw [fold_outside' (A := A) _ _ _ _ ?_ hf x hx, addEntry_ne L n _ hxn]
      intro ck hck L L' hc
      exact ih _ _ _ _ _ _ _ (fun hA => hn (hup n ck.1 (List.mem_of_getElem? ((zipIdx_mem_iff _ ck.1 ck.2).mp hck)) hA)) hc

/-- the same calls have been received by the components in `A` -/
def Same (A : Nat → Bool) (L₁ L₂ : Log V) : Prop := ∀ x, A x = true → events (L₁ x) = events (L₂ x)

theorem fold_sim {A : Nat → Bool} (f₁ f₂ : Log V → Nat × Nat → Except Fault (Log V))
    (hout₁ : ∀ L ck L', ¬ A ck.1 = true → f₁ L ck = .ok L' → ∀ x, A x = true → L' x = L x)
    (hout₂ : ∀ L ck L', ¬ A ck.1 = true → f₂ L ck = .ok L' → ∀ x, A x = true → L' x = L x)
    (hsim : ∀ c k₁ k₂ L₁ L₂ L₁' L₂', A c = true → Same A L₁ L₂ → f₁ L₁ (c, k₁) = .ok L₁' → f₂ L₂ (c, k₂) = .ok L₂' → Same A L₁' L₂') :
    ∀ (l₁ l₂ : List (Nat × Nat)) (L₁ L₂ L₁' L₂' : Log V), (l₁.filter (fun ck => A ck.1)).map Prod.fst = (l₂.filter (fun ck => A ck.1)).map Prod.fst → Same A L₁ L₂ →
      l₁.foldlM f₁ L₁ = .ok L₁' → l₂.foldlM f₂ L₂ = .ok L₂' → Same A L₁' L₂' := by
  intro l₁
  induction l₁ with
  | nil =>
    intro l₂ L₁ L₂ L₁' L₂' he hs h₁ h₂
    injection h₁ with h₁
    subst h₁
    intro x hx
    have hno : ∀ ck ∈ l₂, ¬ A ck.1 = true := by
      intro ck hck hA
      have : ck.1 ∈ (l₂.filter (fun ck => A ck.1)).map Prod.fst := List.mem_map.mpr ⟨ck, List.mem_filter.mpr ⟨hck, hA⟩, rfl⟩
      rw [← he] at this
      simp at this
    rw [fold_outside' (A := A) f₂ l₂ L₂ L₂' (fun ck hck L L' hc => hout₂ L ck L' (hno ck hck) hc) h₂ x hx]
    exact hs x hx
  | cons ck l₁ ih =>
    intro l₂ L₁ L₂ L₁' L₂' he hs h₁ h₂
    obtain ⟨Lm, h3, h4⟩ := foldlM_cons_ok h₁
    by_cases hA : A ck.1 = true
    · rw [List.filter_cons, if_pos hA, List.map_cons] at he
      obtain ⟨ck', rest, e1, e2, e3⟩ := List.map_eq_cons_iff.mp he.symm
      obtain ⟨u, v, e4, e5, e6, e7⟩ := List.filter_eq_cons_iff.mp e1
      subst e4
      obtain ⟨La, h5, h6⟩ := foldlM_append_ok' h₂
      obtain ⟨Lb, h7, h8⟩ := foldlM_cons_ok h6
      have hs' : Same A L₁ La := by
        intro x hx
        rw [fold_outside' (A := A) f₂ u L₂ La (fun ck hck L L' hc => hout₂ L ck L' (e5 ck hck) hc) h5 x hx]
        exact hs x hx
      obtain ⟨c, k₁⟩ := ck
      obtain ⟨c', k₂⟩ := ck'
      dsimp only at e2 hA
      subst e2
      exact ih v Lm Lb L₁' L₂' (by rw [e7, e3]) (hsim c' k₁ k₂ L₁ La Lm Lb hA hs' h3 h7) h4 h8
    · rw [List.filter_cons, if_neg hA] at he
      refine ih l₂ Lm L₂ L₁' L₂' he ?_ h4 h₂
      intro x hx
      rw [hout₁ L₁ ck Lm hA h3 x hx]
      exact hs x hx

theorem zipIdx_filter (A : Nat → Bool) (l : List Nat) : (l.zipIdx.filter (fun ck => A ck.1)).map Prod.fst = l.filter A := by
  have := List.filter_map (f := Prod.fst) (p := A) (l := l.zipIdx)
  rw [List.zipIdx_map_fst] at this
  rw [this]
  rfl

theorem call_sim {A : Nat → Bool} {N₁ N₂ : Net V} (hA : Agree A N₁ N₂) : ∀ (d₁ d₂ : Nat) (st₁ st₂ : List Nat) (L₁ L₂ : Log V) (s₁ s₂ : Source) (k₁ k₂ n : Nat) (ev : NetEvent V) (L₁' L₂' : Log V),
    A n = true → Same A L₁ L₂ → N₁.call d₁ st₁ L₁ s₁ k₁ n ev = .ok L₁' → N₂.call d₂ st₂ L₂ s₂ k₂ n ev = .ok L₂' → Same A L₁' L₂' := by
  intro d₁
  induction d₁ with
  | zero => intro _ _ _ _ _ _ _ _ _ _ _ _ _ _ _ h; cases h
  | succ d₁ ih =>
    intro d₂ st₁ st₂ L₁ L₂ s₁ s₂ k₁ k₂ n ev L₁' L₂' hn hs h₁ h₂
    cases d₂ with
    | zero => cases h₂
    | succ d₂ =>
      have hadd : Same A (addEntry L₁ n ⟨s₁, k₁, ev⟩) (addEntry L₂ n ⟨s₂, k₂, ev⟩) := by
        intro x hx
        by_cases hxn : x = n
        · subst hxn
          rw [addEntry_self, addEntry_self, events_append, events_append, hs x hx]
          rfl
        · rw [addEntry_ne _ _ _ hxn, addEntry_ne _ _ _ hxn]
          exact hs x hx
      have hreact : N₁.reaction n (samplesOf (L₁ n)) ev = N₂.reaction n (samplesOf (L₂ n)) ev := by
        rw [samplesOf_events, samplesOf_events, hs n hn]
        cases ev <;> simp [Net.reaction, hA.behave n hn]
      rcases call_succ_ok h₁ with ⟨r₁, rfl⟩ | ⟨y, r₁, f₁⟩
      · rcases call_succ_ok h₂ with ⟨r₂, rfl⟩ | ⟨y₂, r₂, f₂⟩
        · exact hadd
        · rw [← hreact, r₁] at r₂; cases r₂
      · rcases call_succ_ok h₂ with ⟨r₂, rfl⟩ | ⟨y₂, r₂, f₂⟩
        · rw [← hreact, r₁] at r₂; cases r₂
        · rw [← hreact, r₁] at r₂
          injection r₂ with r₂
          subst r₂
          exact fold_sim _ _ (fun L ck L' ho hc => call_outside hA.up₁ _ _ _ _ _ _ _ _ ho hc) (fun L ck L' ho hc => call_outside hA.up₂ _ _ _ _ _ _ _ _ ho hc)
            (fun c j₁ j₂ M₁ M₂ M₁' M₂' hc hM c₁ c₂ => ih _ _ _ _ _ _ _ _ _ _ _ _ _ hc hM c₁ c₂) _ _ _ _ _ _
            (by rw [zipIdx_filter, zipIdx_filter, hA.outs n hn]) hadd f₁ f₂

theorem run_sim {A : Nat → Bool} {N₁ N₂ : Net V} (hA : Agree A N₁ N₂) (d₁ d₂ : Nat) (ops : List (Op V)) : ∀ (L₁ L₂ L₁' L₂' : Log V), Same A L₁ L₂ →
    ops.foldlM (N₁.step d₁) L₁ = .ok L₁' → ops.foldlM (N₂.step d₂) L₂ = .ok L₂' → Same A L₁' L₂' := by
  induction ops with
  | nil => intro L₁ L₂ L₁' L₂' hs h₁ h₂; injection h₁ with h₁; injection h₂ with h₂; subst h₁ h₂; exact hs
  | cons o ops ih =>
    intro L₁ L₂ L₁' L₂' hs h₁ h₂
    obtain ⟨M₁, a₁, b₁⟩ := foldlM_cons_ok h₁
    obtain ⟨M₂, a₂, b₂⟩ := foldlM_cons_ok h₂
    refine ih M₁ M₂ L₁' L₂' ?_ b₁ b₂
    exact fold_sim _ _ (fun L ck L' ho hc => call_outside hA.up₁ _ _ _ _ _ _ _ _ ho hc) (fun L ck L' ho hc => call_outside hA.up₂ _ _ _ _ _ _ _ _ ho hc)
            (fun c j₁ j₂ M₁ M₂ M₁' M₂' hc hM c₁ c₂ => call_sim hA _ _ _ _ _ _ _ _ _ _ _ _ _ _ hc hM c₁ c₂) _ _ _ _ _ _
            (by rw [zipIdx_filter, zipIdx_filter, hA.producers]) hs a₁ a₂

/-! ### one copy per path -/

theorem paths_ne_nil (N : Net V) : ∀ (d : Nat) (s : Source), ∀ p ∈ paths N d s, p ≠ [] := by
  intro d s p hp
  cases d with
  | zero => simp [paths] at hp
  | succ d =>
    rw [paths, List.mem_flatMap] at hp
    obtain ⟨ck, -, hp⟩ := hp
    rw [List.mem_cons, List.mem_map] at hp
    rcases hp with rfl | ⟨q, -, rfl⟩ <;> simp

theorem arrival_one (N : Net V) (s : Source) (ev : NetEvent V) (x k c : Nat) (h : (N.outs s)[k]? = some c) : arrival N s ev x [k] = if c = x then some ev else none := by
  simp [arrival, follow, h]

theorem arrival_cons (N : Net V) (s : Source) (ev : NetEvent V) (x k c : Nat) (h : (N.outs s)[k]? = some c) (p : List Nat) (hp : p ≠ []) :
    arrival N s ev x (k :: p) = (N.reaction c [] ev).bind (fun y => arrival N (.node c) y x p) := by
  cases p with
  | nil => exact absurd rfl hp
  | cons k' ks =>
    simp only [arrival, follow, h, passes_eq]
    cases N.reaction c [] ev <;> rfl

theorem fold_copies (N : Net V) (d : Nat) (stack : List Nat) (s : Source) (y : NetEvent V) (x : Nat)
    (IH : ∀ L k n L', (N.outs s)[k]? = some n → N.call d stack L s k n y = .ok L' →
      events (L' x) = events (L x) ++ ([k] :: (paths N (d - 1) (.node n)).map (k :: ·)).filterMap (arrival N s y x)) :
    ∀ (l : List (Nat × Nat)) (L L' : Log V), (∀ ck ∈ l, (N.outs s)[ck.2]? = some ck.1) → l.foldlM (fun L ck => N.call d stack L s ck.2 ck.1 y) L = .ok L' →
      events (L' x) = events (L x) ++ (l.flatMap (fun ck => [ck.2] :: (paths N (d - 1) (.node ck.1)).map (ck.2 :: ·))).filterMap (arrival N s y x) := by
  intro l
  induction l with
  | nil => intro L L' _ h; injection h with h; subst h; simp
  | cons ck l ih =>
    intro L L' hl h
    obtain ⟨Lm, h1, h2⟩ := foldlM_cons_ok h
    rw [ih Lm L' (fun ck' h' => hl ck' (by simp [h'])) h2, IH L ck.2 ck.1 Lm (hl ck (by simp)) h1, List.flatMap_cons, List.filterMap_append, List.append_assoc]

theorem all_copies (N : Net V) (d : Nat) (stack : List Nat) (s : Source) (y : NetEvent V) (x : Nat)
    (IH : ∀ L k n L', (N.outs s)[k]? = some n → N.call d stack L s k n y = .ok L' →
      events (L' x) = events (L x) ++ ([k] :: (paths N (d - 1) (.node n)).map (k :: ·)).filterMap (arrival N s y x))
    (L L' : Log V) (h : (N.outs s).zipIdx.foldlM (fun L ck => N.call d stack L s ck.2 ck.1 y) L = .ok L') :
    events (L' x) = events (L x) ++ (paths N d s).filterMap (arrival N s y x) := by
  rw [fold_copies N d stack s y x IH _ L L' (fun ck hck => (zipIdx_mem_iff _ ck.1 ck.2).mp hck) h]
  cases d with
  | zero =>
    cases hl : (N.outs s).zipIdx with
    | nil => simp [paths]
    | cons ck l =>
      rw [hl] at h
      obtain ⟨Lm, h1, -⟩ := foldlM_cons_ok h
      cases h1
  | succ d => rw [paths, Nat.add_sub_cancel]

theorem reaction_stateless {N : Net V} (hst : Stateless N) (n : Nat) (hist : List V) (ev : NetEvent V) : N.reaction n hist ev = N.reaction n [] ev := by
  cases ev with
  | sample m => simp only [Net.reaction]; rw [hst n hist m]
  | flush => rfl

theorem call_copies (N : Net V) (hst : Stateless N) (x : Nat) : ∀ (d : Nat) (stack : List Nat) (L : Log V) (s : Source) (k n : Nat) (ev : NetEvent V) (L' : Log V), (N.outs s)[k]? = some n →
    N.call d stack L s k n ev = .ok L' → events (L' x) = events (L x) ++ ([k] :: (paths N (d - 1) (.node n)).map (k :: ·)).filterMap (arrival N s ev x) := by
  intro d
  induction d with
  | zero => intro _ _ _ _ _ _ _ _ h; cases h
  | succ d ih =>
    intro stack L s k n ev L' hk h
    have hadd : events (addEntry L n ⟨s, k, ev⟩ x) = events (L x) ++ (arrival N s ev x [k]).toList := by
      rw [arrival_one N s ev x k n hk]
      by_cases hx : x = n
      · subst hx
        rw [addEntry_self, events_append, if_pos rfl]
        rfl
      · rw [addEntry_ne _ _ _ hx, if_neg (fun e => hx e.symm)]
        simp
    have split : ∀ l : List (List Nat), ([k] :: l).filterMap (arrival N s ev x) = (arrival N s ev x [k]).toList ++ l.filterMap (arrival N s ev x) := by
      intro l
      rw [List.filterMap_cons]
      cases arrival N s ev x [k] <;> rfl
    rw [split, ← List.append_assoc, ← hadd, Nat.add_sub_cancel, List.filterMap_map]
    have hcongr : (paths N d (.node n)).filterMap (arrival N s ev x ∘ (k :: ·)) = (paths N d (.node n)).filterMap (fun p => (N.reaction n [] ev).bind (fun y => arrival N (.node n) y x p)) :=
      List.filterMap_congr (fun p hp => arrival_cons N s ev x k n hk p (paths_ne_nil N d _ p hp))
    rw [hcongr]
    rcases call_succ_ok h with ⟨hy, rfl⟩ | ⟨y, hy, hf⟩
    · rw [reaction_stateless hst] at hy
      simp [hy]
    · rw [reaction_stateless hst] at hy
      rw [hy]
      simp only [Option.bind_some]
      exact all_copies N d (n :: stack) (.node n) y x (fun L k n' L' hk' hc => ih _ L _ k n' y L' hk' hc) _ L' hf

theorem run_copies (N : Net V) (hst : Stateless N) (depth : Nat) (x : Nat) (ops : List (Op V)) : ∀ (L L' : Log V), ops.foldlM (N.step depth) L = .ok L' →
    events (L' x) = events (L x) ++ ops.flatMap (fun o => (paths N depth (.producer o.producer)).filterMap (arrival N (.producer o.producer) o.event x)) := by
  induction ops with
  | nil => intro L L' h; injection h with h; subst h; simp
  | cons o ops ih =>
    intro L L' h
    obtain ⟨Lm, h1, h2⟩ := foldlM_cons_ok h
    rw [ih Lm L' h2, all_copies N depth [] _ o.event x (fun L k n' L' hk' hc => call_copies N hst x _ _ L _ k n' _ L' hk' hc) L Lm h1, List.flatMap_cons, List.append_assoc]

theorem mem_paths (N : Net V) : ∀ (d : Nat) (s : Source) (p : List Nat), p ∈ paths N d s ↔ p ≠ [] ∧ p.length ≤ d ∧ IsPath N s p := by
  intro d
  induction d with
  | zero =>
    intro s p
    simp only [paths, List.not_mem_nil, Nat.le_zero, List.length_eq_zero_iff, false_iff]
    rintro ⟨h1, h2, -⟩
    exact h1 h2
  | succ d ih =>
    intro s p
    rw [paths, List.mem_flatMap]
    constructor
    · rintro ⟨⟨c, k⟩, hck, hp⟩
      rw [zipIdx_mem_iff] at hck
      rw [List.mem_cons, List.mem_map] at hp
      rcases hp with rfl | ⟨q, hq, rfl⟩
      · exact ⟨by simp, by simp, c, hck, trivial⟩
      · obtain ⟨-, h2, h3⟩ := (ih (.node c) q).mp hq
        exact ⟨by simp, by simpa using h2, c, hck, h3⟩
    · rintro ⟨h1, h2, h3⟩
      cases p with
      | nil => exact absurd rfl h1
      | cons k q =>
        obtain ⟨c, hc, hq⟩ := h3
        refine ⟨(c, k), (zipIdx_mem_iff _ c k).mpr hc, ?_⟩
        rw [List.mem_cons, List.mem_map]
        by_cases hq0 : q = []
        · subst hq0; exact .inl rfl
        · exact .inr ⟨q, (ih (.node c) q).mpr ⟨hq0, by simpa using h2, hq⟩, rfl⟩

theorem paths_sorted (N : Net V) : ∀ (d : Nat) (s : Source), (paths N d s).Pairwise (· < ·) := by
  intro d
  induction d with
  | zero => intro s; simp [paths]
  | succ d ih =>
    intro s
    rw [paths, List.pairwise_flatMap]
    constructor
    · rintro ⟨c, k⟩ -
      rw [List.pairwise_cons, List.pairwise_map]
      constructor
      · intro q hq
        obtain ⟨r, hr, rfl⟩ := List.mem_map.mp hq
        cases r with
        | nil => exact absurd rfl (paths_ne_nil N d _ _ hr)
        | cons a r => exact List.cons_lt_cons_iff.mpr (.inr ⟨rfl, List.nil_lt_cons a r⟩)
      · exact (ih (.node c)).imp (fun h => List.cons_lt_cons_iff.mpr (.inr ⟨rfl, h⟩))
    · have : ((N.outs s).zipIdx.map Prod.snd).Pairwise (· < ·) := by
        rw [List.zipIdx_map_snd]
        exact List.pairwise_lt_range'
      rw [List.pairwise_map] at this
      refine this.imp ?_
      rintro ⟨c, k⟩ ⟨c', k'⟩ hk x hx y hy
      obtain ⟨x', rfl⟩ : ∃ x', x = k :: x' := by
        rw [List.mem_cons, List.mem_map] at hx
        rcases hx with rfl | ⟨q, -, rfl⟩
        · exact ⟨[], rfl⟩
        · exact ⟨q, rfl⟩
      obtain ⟨y', rfl⟩ : ∃ y', y = k' :: y' := by
        rw [List.mem_cons, List.mem_map] at hy
        rcases hy with rfl | ⟨q, -, rfl⟩
        · exact ⟨[], rfl⟩
        · exact ⟨q, rfl⟩
      exact List.cons_lt_cons_iff.mpr (.inl hk)

theorem path_length {N : Net V} {r : Nat → Nat} (hdec : ∀ n, ∀ c ∈ N.outs (.node n), r c < r n) : ∀ (p : List Nat) (n : Nat), IsPath N (.node n) p → p.length ≤ r n := by
  intro p
  induction p with
  | nil => intro n _; simp
  | cons k p ih =>
    rintro n ⟨c, hc, hp⟩
    have h1 := hdec n c (List.mem_of_getElem? hc)
    have h2 := ih c hp
    rw [List.length_cons]
    omega

/-! ### circles -/

theorem foldlM_fails {α β : Type} {f : β → α → Except Fault β} : ∀ (l : List α) (b b' : β), (∃ a ∈ l, ∀ b b', f b a ≠ .ok b') → l.foldlM f b ≠ .ok b' := by
  intro l
  induction l with
  | nil => rintro b b' ⟨a, ha, -⟩; simp at ha
  | cons a l ih =>
    rintro b b' ⟨a', ha, hf⟩ h
    obtain ⟨m, h1, h2⟩ := foldlM_cons_ok h
    rw [List.mem_cons] at ha
    rcases ha with rfl | ha
    · exact hf b m h1
    · exact ih m b' ⟨a', ha, hf⟩ h2

theorem call_circle (N : Net V) (C : Nat → Prop) (hC : ∀ n, C n → ∃ c ∈ N.outs (.node n), C c) (isev : NetEvent V → Prop)
    (hreact : ∀ n hist ev, C n → isev ev → ∃ y, N.reaction n hist ev = some y ∧ isev y) : ∀ (d : Nat) (stack : List Nat) (L : Log V) (s : Source) (k n : Nat) (ev : NetEvent V) (L' : Log V),
    C n → isev ev → N.call d stack L s k n ev ≠ .ok L' := by
  intro d
  induction d with
  | zero => intro _ _ _ _ _ _ _ _ _ h; cases h
  | succ d ih =>
    intro stack L s k n ev L' hn hev h
    obtain ⟨y, hy, hyev⟩ := hreact n (samplesOf (L n)) ev hn hev
    rcases call_succ_ok h with ⟨h1, -⟩ | ⟨y', h1, hf⟩
    · rw [hy] at h1; cases h1
    · rw [hy] at h1
      injection h1 with h1
      subst h1
      obtain ⟨c, hc, hcC⟩ := hC n hn
      obtain ⟨j, hj⟩ := List.mem_iff_getElem?.mp hc
      exact foldlM_fails _ _ _ ⟨(c, j), (zipIdx_mem_iff _ c j).mpr hj, fun L L' => ih _ L _ j c y L' hcC hyev⟩ hf

end SampleFlow.Graph
