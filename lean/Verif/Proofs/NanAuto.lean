import Verif.Proofs.RoundingAutoMatrix
import Verif.Props.NanMoments
import Verif.Props.RoundingCos

/-! Not-a-number and infinities in AutoCovarianceTrace and AutoCovarianceMatrix (C93): proofs. -/

namespace SampleFlow.NanAuto

open Spec

variable {D ι κ : Type} [Arith D] {d : Nat}

theorem mean_n (M : ι → D) (xs : List (ι → D)) : (machineMean M xs).n = xs.length := by
  induction xs using List.reverseRecOn with
  | nil => rfl
  | append_singleton xs x ih =>
    have hs : machineMean M (xs ++ [x]) = meanConsume (machineMean M xs) x := by simp [machineMean]
    rw [hs, NanMoments.meanConsume_n, ih, List.length_append, List.length_singleton]

theorem mean_next (M : ι → D) (xs : List (ι → D)) (x : ι → D) (h : xs ≠ []) : (machineMean M (xs ++ [x])).mean = fun i => Arith.add ((machineMean M xs).mean i)
    (Arith.div (Arith.sub (x i) ((machineMean M xs).mean i)) (Arith.ofNat (xs.length + 1))) := by
  have hs : machineMean M (xs ++ [x]) = meanConsume (machineMean M xs) x := by simp [machineMean]
  rw [hs]
  unfold meanConsume
  rw [if_neg (by rw [mean_n]; simpa using h), mean_n]

/-! ### AutoCovarianceTrace -/

/-- the body of the loop -/
theorem act_lag (L l : Nat) (hl : l ≤ L) (xs : List (Fin d → D)) (x : Fin d → D) (lags : List (D × (Fin d → D))) (e : D × (Fin d → D)) (he : readAt lags l = .ok e) :
    ∃ e', actMachineLag xs.length (x :: xs.reverse.take (L+1)) x lags l = .ok e' := by
  unfold actMachineLag
  rw [he]
  simp only [bind, Except.bind]
  by_cases h1 : xs.length = l + 1
  · rw [if_pos h1, window_read (L+1) xs x 0 (by omega) (by simp), window_read (L+1) xs x 1 (by omega) (by simp; omega),
      window_read (L+1) xs x l (by omega) (by simp; omega), window_read (L+1) xs x (l+1) (by omega) (by simp; omega)]
    exact ⟨_, rfl⟩
  · rw [if_neg h1]
    by_cases h2 : xs.length ≥ l + 2
    · rw [if_pos h2, window_read (L+1) xs x l (by omega) (by simp; omega)]
      exact ⟨_, rfl⟩
    · rw [if_neg h2]
      exact ⟨_, rfl⟩

/-- `alpha[0]` contains the squares of all samples -/
theorem act_lag_zero {nan : D → Prop} (N : NanPropagates nan) (L : Nat) (xs : List (Fin d → D)) (x : Fin d → D) (hx : xs ≠ []) (lags : List (D × (Fin d → D)))
    (e e' : D × (Fin d → D)) (he : readAt lags 0 = .ok e) (h' : actMachineLag xs.length (x :: xs.reverse.take (L+1)) x lags 0 = .ok e') (j : Fin d)
    (h : nan (Arith.mul (x j) (x j)) ∨ (xs.length = 1 ∧ ∃ y ∈ xs, nan (Arith.mul (y j) (y j))) ∨ (2 ≤ xs.length ∧ nan e.1)) : nan e'.1 := by
  have hpos : 0 < xs.length := List.length_pos_iff.mpr hx
  have dot : ∀ (s : D) (z : Fin d → D), (nan s ∨ nan (Arith.mul (z j) (z j))) → nan (dotFrom s z z) := by
    intro s z h
    have stays : ∀ (l : List (Fin d)) (s : D), nan s → nan (l.foldl (fun s j => Arith.add s (Arith.mul (z j) (z j))) s) := by
      intro l
      induction l with
      | nil => intro s hs; exact hs
      | cons a l ih => intro s hs; exact ih _ (N.add_left _ _ hs)
    rcases h with h | h
    · exact stays _ s h
    · have key : ∀ (l : List (Fin d)) (s : D), j ∈ l → nan (l.foldl (fun s j => Arith.add s (Arith.mul (z j) (z j))) s) := by
        intro l
        induction l with
        | nil => intro s hm; simp at hm
        | cons a l ih =>
          intro s hm
          rcases List.mem_cons.mp hm with rfl | hm
          · exact stays l _ (N.add_right _ _ h)
          · exact ih _ hm
      exact key _ s (List.mem_finRange j)
  unfold actMachineLag at h'
  rw [he] at h'
  simp only [bind, Except.bind] at h'
  by_cases h1 : xs.length = 0 + 1
  · rw [if_pos h1, window_read (L+1) xs x 0 (by omega) (by simp), window_read (L+1) xs x 1 (by omega) (by simp; omega)] at h'
    obtain ⟨y, rfl⟩ := List.length_eq_one_iff.mp h1
    cases h'
    rcases h with h | ⟨-, y', hy, h⟩ | ⟨h, -⟩
    · exact dot _ _ (.inl (dot _ _ (.inr h)))
    · rw [List.mem_singleton] at hy
      subst hy
      exact dot _ _ (.inr h)
    · simp at h
  · rw [if_neg h1] at h'
    rw [if_pos (by omega), window_read (L+1) xs x 0 (by omega) (by simp)] at h'
    cases h'
    rcases h with h | ⟨h, -⟩ | ⟨-, h⟩
    · exact N.add_right _ _ (N.mul_left _ _ (dot _ _ (.inr h)))
    · omega
    · exact N.add_left _ _ h

/-- in every arithmetic: no read out of bounds, and the mean is that of MeanValue -/
theorem act_state {nan : D → Prop} (N : NanPropagates nan) (L : Nat) (M₀ : Fin d → D) (xs : List (Fin d → D)) (hxs : xs ≠ []) :
    ∃ s, actMachine L M₀ xs = .ok s ∧ s.n = xs.length ∧ s.previous = xs.reverse.take (L+1) ∧ s.mean = (machineMean M₀ xs).mean ∧
      (∀ l ≤ L, ∃ e, readAt s.lags l = .ok e) ∧
      (2 ≤ xs.length → (∃ x ∈ xs, ∃ j, nan (Arith.mul (x j) (x j))) → ∀ e, readAt s.lags 0 = .ok e → nan e.1) := by
  induction xs using List.reverseRecOn with
  | nil => exact absurd rfl hxs
  | append_singleton xs x ih =>
    by_cases hx : xs = []
    · subst hx
      refine ⟨⟨1, x, List.replicate (L+1) (Arith.ofNat 0, fun _ => Arith.ofNat 0), [x]⟩, ?_, by simp, by simp, ?_, ?_, ?_⟩
      · simp only [actMachine, List.nil_append, List.foldlM_cons, List.foldlM_nil, ACTState.init, actMachineConsume, if_true]
        rfl
      · simp [machineMean, meanConsume, MeanState.init]
      · intro l hl
        exact ⟨_, readAt_ok _ l (by simp; omega)⟩
      · intro h
        simp at h
    · obtain ⟨s, e1, e2, e3, e5, e4, e6⟩ := ih hx
      have hl : xs.length ≠ 0 := by simpa using hx
      have step : ∀ l ≤ L, ∃ e', actMachineLag s.n (x :: s.previous) x s.lags l = .ok e' := by
        intro l hl
        obtain ⟨e, r1⟩ := e4 l hl
        rw [e2, e3]
        exact act_lag L l hl xs x s.lags e r1
      have : Nonempty (D × (Fin d → D)) := ⟨(Arith.ofNat 0, fun _ => Arith.ofNat 0)⟩
      choose! g hg using step
      unfold actMachine at e1 ⊢
      rw [foldlM_append_ok _ _ _ _ _ e1]
      unfold actMachineConsume
      rw [if_neg (by rw [e2]; exact hl)]
      dsimp only
      rw [mapM_ok _ g _ (fun l hl => hg l (by simp at hl; omega))]
      refine ⟨_, rfl, by simp [e2], ?_, ?_, fun l hl => ⟨g l, ?_⟩, ?_⟩
      · dsimp only
        rw [← window_next, e3]
      · dsimp only
        rw [mean_next M₀ xs x hx, e5, e2]
      · rw [readAt_ok _ l (by simp; omega)]
        simp
      · intro _ hy e he
        rw [readAt_ok _ 0 (by simp)] at he
        simp only [List.getElem_map, List.getElem_range, Except.ok.injEq] at he
        subst he
        obtain ⟨e0, r0⟩ := e4 0 (by omega)
        obtain ⟨y, hy, j, hj⟩ := hy
        have h0 := hg 0 (by omega)
        rw [e2, e3] at h0
        refine act_lag_zero N L xs x hx s.lags e0 (g 0) r0 h0 j ?_
        rcases List.mem_append.mp hy with hy | hy
        · by_cases h1 : xs.length = 1
          · exact .inr (.inl ⟨h1, y, hy, hj⟩)
          · exact .inr (.inr ⟨by omega, e6 (by omega) ⟨y, hy, j, hj⟩ e0 r0⟩)
        · rw [List.mem_singleton] at hy
          subst hy
          exact .inl hj

/-- entry `l` of get() -/
theorem act_getLag {nan : D → Prop} (N : NanPropagates nan) (s : ACTState D (Fin d)) (l : Nat) (e : D × (Fin d → D)) (he : readAt s.lags l = .ok e)
    (h : nan e.1 ∨ ∃ j, nan (s.mean j)) : ∃ r, actMachineGetLag s l = .ok r ∧ nan r := by
  obtain ⟨a, b⟩ := e
  unfold actMachineGetLag
  rw [he]
  refine ⟨_, rfl, ?_⟩
  have stays1 : ∀ (l : List (Fin d)) (r : D), nan r → nan (l.foldl (fun r j => Arith.sub r (Arith.mul (s.mean j) (b j))) r) := by
    intro l
    induction l with
    | nil => intro r h; exact h
    | cons a l ih => intro r h; exact ih _ (N.sub_left _ _ h)
  have stays2 : ∀ (c : D) (l : List (Fin d)) (r : D), nan r → nan (l.foldl (fun r j => Arith.add r (Arith.mul (Arith.mul c (s.mean j)) (s.mean j))) r) := by
    intro c l
    induction l with
    | nil => intro r h; exact h
    | cons a l ih => intro r h; exact ih _ (N.add_left _ _ h)
  have key : nan ((List.finRange d).foldl (fun r j => Arith.sub r (Arith.mul (s.mean j) (b j))) a) := by
    rcases h with h | ⟨j, h⟩
    · exact stays1 _ _ h
    · have : ∀ (l : List (Fin d)) (r : D), j ∈ l → nan (l.foldl (fun r j => Arith.sub r (Arith.mul (s.mean j) (b j))) r) := by
        intro l
        induction l with
        | nil => intro r hm; simp at hm
        | cons a l ih =>
          intro r hm
          rcases List.mem_cons.mp hm with rfl | hm
          · exact stays1 l _ (N.sub_right _ _ (N.mul_left _ _ h))
          · exact ih _ hm
      exact this _ a (List.mem_finRange j)
  split
  · exact stays2 _ _ _ key
  · exact key

theorem act_entries {nan : D → Prop} (N : NanPropagates nan) (L : Nat) (M₀ : Fin d → D) (xs : List (Fin d → D)) (hxs : xs ≠ []) :
    ∃ r, actMachineGet L M₀ xs = .ok r ∧ r.length = L + 1 ∧ ((∃ x ∈ xs, ∃ j, nan (x j)) → ∀ v ∈ r, nan v) ∧
      (2 ≤ xs.length → (∃ x ∈ xs, ∃ j, nan (Arith.mul (x j) (x j))) → ∀ v, r[0]? = some v → nan v) := by
  obtain ⟨s, e1, -, -, e3, e4, e5⟩ := act_state N L M₀ xs hxs
  have key : ∀ l ≤ L, ∃ v, actMachineGetLag s l = .ok v := by
    intro l hl
    obtain ⟨e, he⟩ := e4 l hl
    unfold actMachineGetLag
    rw [he]
    exact ⟨_, rfl⟩
  have : Nonempty D := ⟨Arith.ofNat 0⟩
  choose! f hf using key
  refine ⟨(List.range (L+1)).map f, ?_, by simp, ?_, ?_⟩
  · unfold actMachineGet
    rw [e1]
    exact mapM_ok _ f _ (fun l hl => hf l (by rw [List.mem_range] at hl; omega))
  · rintro ⟨x, hx, j, hj⟩ v hv
    obtain ⟨l, hl, rfl⟩ := List.mem_map.mp hv
    have hl' : l ≤ L := by rw [List.mem_range] at hl; omega
    obtain ⟨e, he⟩ := e4 l hl'
    obtain ⟨r, h1, h2⟩ := act_getLag N s l e he (.inr ⟨j, by rw [e3]; exact C72_mean_keeps_nan N M₀ xs j ⟨x, hx, hj⟩⟩)
    rw [hf l hl'] at h1
    cases h1
    exact h2
  · intro h2 hy v hv
    obtain ⟨e, he⟩ := e4 0 (by omega)
    obtain ⟨r, h1, h2⟩ := act_getLag N s 0 e he (.inl (e5 h2 hy e he))
    rw [hf 0 (by omega)] at h1
    cases h1
    rw [List.getElem?_map, List.getElem?_range (by omega)] at hv
    cases hv
    exact h2

/-! ### AutoCovarianceMatrix -/

theorem acm_lag (L l : Nat) (hl : l ≤ L) (xs : List (ι → D)) (x : ι → D) (lags : List (ACMLag D ι)) (e : ACMLag D ι) (he : readAt lags l = .ok e) :
    ∃ e', acmMachineLag xs.length (x :: xs.reverse.take (L+1)) x lags l = .ok e' := by
  unfold acmMachineLag
  rw [he]
  simp only [bind, Except.bind]
  by_cases h1 : xs.length = l + 1
  · rw [if_pos h1, window_read (L+1) xs x 0 (by omega) (by simp), window_read (L+1) xs x 1 (by omega) (by simp; omega),
      window_read (L+1) xs x l (by omega) (by simp; omega), window_read (L+1) xs x (l+1) (by omega) (by simp; omega)]
    exact ⟨_, rfl⟩
  · rw [if_neg h1]
    by_cases h2 : xs.length ≥ l + 2
    · rw [if_pos h2, window_read (L+1) xs x l (by omega) (by simp; omega)]
      exact ⟨_, rfl⟩
    · rw [if_neg h2]
      exact ⟨_, rfl⟩

theorem acm_lag_zero {nan : D → Prop} (N : NanPropagates nan) (L : Nat) (xs : List (ι → D)) (x : ι → D) (hx : xs ≠ []) (lags : List (ACMLag D ι))
    (e e' : ACMLag D ι) (he : readAt lags 0 = .ok e) (h' : acmMachineLag xs.length (x :: xs.reverse.take (L+1)) x lags 0 = .ok e') (i j : ι)
    (h : nan (Arith.mul (x i) (x j)) ∨ (xs.length = 1 ∧ ∃ y ∈ xs, nan (Arith.mul (y i) (y j))) ∨ (2 ≤ xs.length ∧ nan (e.alpha i j))) : nan (e'.alpha i j) := by
  have hpos : 0 < xs.length := List.length_pos_iff.mpr hx
  unfold acmMachineLag at h'
  rw [he] at h'
  simp only [bind, Except.bind] at h'
  by_cases h1 : xs.length = 0 + 1
  · rw [if_pos h1, window_read (L+1) xs x 0 (by omega) (by simp), window_read (L+1) xs x 1 (by omega) (by simp; omega)] at h'
    obtain ⟨y, rfl⟩ := List.length_eq_one_iff.mp h1
    cases h'
    rcases h with h | ⟨-, y', hy, h⟩ | ⟨h, -⟩
    · exact N.add_left _ _ (N.add_right _ _ h)
    · rw [List.mem_singleton] at hy
      subst hy
      exact N.add_right _ _ h
    · simp at h
  · rw [if_neg h1] at h'
    rw [if_pos (by omega), window_read (L+1) xs x 0 (by omega) (by simp)] at h'
    cases h'
    rcases h with h | ⟨h, -⟩ | ⟨-, h⟩
    · exact N.add_right _ _ (N.mul_left _ _ (N.add_right _ _ h))
    · omega
    · exact N.add_left _ _ h

theorem acm_state {nan : D → Prop} (N : NanPropagates nan) (L : Nat) (G : Nat → ι → ι → D) (M₀ : ι → D) (xs : List (ι → D)) (hxs : xs ≠ []) :
    ∃ s, acmMachine L G M₀ xs = .ok s ∧ s.n = xs.length ∧ s.previous = xs.reverse.take (L+1) ∧ s.mean = (machineMean M₀ xs).mean ∧
      (∀ l ≤ L, ∃ e, readAt s.lags l = .ok e) ∧
      (2 ≤ xs.length → ∀ i j, (∃ x ∈ xs, nan (Arith.mul (x i) (x j))) → ∀ e, readAt s.lags 0 = .ok e → nan (e.alpha i j)) := by
  induction xs using List.reverseRecOn with
  | nil => exact absurd rfl hxs
  | append_singleton xs x ih =>
    by_cases hx : xs = []
    · subst hx
      refine ⟨⟨1, x, (List.range (L+1)).map (fun l => ⟨G l, fun _ => Arith.ofNat 0, fun _ => Arith.ofNat 0⟩), [x]⟩, ?_, by simp, by simp, ?_, ?_, ?_⟩
      · simp only [acmMachine, List.nil_append, List.foldlM_cons, List.foldlM_nil, ACMState.init, acmMachineConsume, if_true]
        rfl
      · simp [machineMean, meanConsume, MeanState.init]
      · intro l hl
        exact ⟨_, readAt_ok _ l (by simp; omega)⟩
      · intro h
        simp at h
    · obtain ⟨s, e1, e2, e3, e5, e4, e6⟩ := ih hx
      have hl : xs.length ≠ 0 := by simpa using hx
      have step : ∀ l ≤ L, ∃ e', acmMachineLag s.n (x :: s.previous) x s.lags l = .ok e' := by
        intro l hl
        obtain ⟨e, r1⟩ := e4 l hl
        rw [e2, e3]
        exact acm_lag L l hl xs x s.lags e r1
      have : Nonempty (ACMLag D ι) := ⟨⟨fun _ _ => Arith.ofNat 0, fun _ => Arith.ofNat 0, fun _ => Arith.ofNat 0⟩⟩
      choose! g hg using step
      unfold acmMachine at e1 ⊢
      rw [foldlM_append_ok _ _ _ _ _ e1]
      unfold acmMachineConsume
      rw [if_neg (by rw [e2]; exact hl)]
      dsimp only
      rw [mapM_ok _ g _ (fun l hl => hg l (by simp at hl; omega))]
      refine ⟨_, rfl, by simp [e2], ?_, ?_, fun l hl => ⟨g l, ?_⟩, ?_⟩
      · dsimp only
        rw [← window_next, e3]
      · dsimp only
        rw [mean_next M₀ xs x hx, e5, e2]
      · rw [readAt_ok _ l (by simp; omega)]
        simp
      · intro _ i j hy e he
        rw [readAt_ok _ 0 (by simp)] at he
        simp only [List.getElem_map, List.getElem_range, Except.ok.injEq] at he
        subst he
        obtain ⟨e0, r0⟩ := e4 0 (by omega)
        obtain ⟨y, hy, hj⟩ := hy
        have h0 := hg 0 (by omega)
        rw [e2, e3] at h0
        refine acm_lag_zero N L xs x hx s.lags e0 (g 0) r0 h0 i j ?_
        rcases List.mem_append.mp hy with hy | hy
        · by_cases h1 : xs.length = 1
          · exact .inr (.inl ⟨h1, y, hy, hj⟩)
          · exact .inr (.inr ⟨by omega, e6 (by omega) i j ⟨y, hy, hj⟩ e0 r0⟩)
        · rw [List.mem_singleton] at hy
          subst hy
          exact .inl hj

theorem acm_getLag {nan : D → Prop} (N : NanPropagates nan) (s : ACMState D ι) (l : Nat) (e : ACMLag D ι) (he : readAt s.lags l = .ok e) (i j : ι)
    (h : nan (e.alpha i j) ∨ nan (s.mean i) ∨ nan (s.mean j)) : ∃ r, acmMachineGetLag s l = .ok r ∧ nan (r i j) := by
  obtain ⟨a, b, c⟩ := e
  unfold acmMachineGetLag
  rw [he]
  refine ⟨_, rfl, ?_⟩
  dsimp only
  have key : nan (Arith.sub (Arith.sub (a i j) (Arith.mul (s.mean i) (c j))) (Arith.mul (b i) (s.mean j))) := by
    rcases h with h | h | h
    · exact N.sub_left _ _ (N.sub_left _ _ h)
    · exact N.sub_left _ _ (N.sub_right _ _ (N.mul_left _ _ h))
    · exact N.sub_right _ _ (N.mul_right _ _ h)
  split
  · exact N.add_left _ _ key
  · exact key

theorem acm_entries {nan : D → Prop} (N : NanPropagates nan) (L : Nat) (G : Nat → ι → ι → D) (M₀ : ι → D) (xs : List (ι → D)) (hxs : xs ≠ []) :
    ∃ r, acmMachineGet L G M₀ xs = .ok r ∧ r.length = L + 1 ∧ (∀ i j, (∃ x ∈ xs, nan (x i) ∨ nan (x j)) → ∀ v ∈ r, nan (v i j)) ∧
      (2 ≤ xs.length → ∀ i j, (∃ x ∈ xs, nan (Arith.mul (x i) (x j))) → ∀ v, r[0]? = some v → nan (v i j)) := by
  obtain ⟨s, e1, -, -, e3, e4, e5⟩ := acm_state N L G M₀ xs hxs
  have key : ∀ l ≤ L, ∃ v, acmMachineGetLag s l = .ok v := by
    intro l hl
    obtain ⟨e, he⟩ := e4 l hl
    unfold acmMachineGetLag
    rw [he]
    exact ⟨_, rfl⟩
  have : Nonempty D := ⟨Arith.ofNat 0⟩
  choose! f hf using key
  refine ⟨(List.range (L+1)).map f, ?_, by simp, ?_, ?_⟩
  · unfold acmMachineGet
    rw [e1]
    exact mapM_ok _ f _ (fun l hl => hf l (by rw [List.mem_range] at hl; omega))
  · rintro i j ⟨x, hx, hj⟩ v hv
    obtain ⟨l, hl, rfl⟩ := List.mem_map.mp hv
    have hl' : l ≤ L := by rw [List.mem_range] at hl; omega
    obtain ⟨e, he⟩ := e4 l hl'
    obtain ⟨r, h1, h2⟩ := acm_getLag N s l e he i j (.inr (by
      rw [e3]
      rcases hj with hj | hj
      · exact .inl (C72_mean_keeps_nan N M₀ xs i ⟨x, hx, hj⟩)
      · exact .inr (C72_mean_keeps_nan N M₀ xs j ⟨x, hx, hj⟩)))
    rw [hf l hl'] at h1
    cases h1
    exact h2
  · intro h2 i j hy v hv
    obtain ⟨e, he⟩ := e4 0 (by omega)
    obtain ⟨r, h1, h2⟩ := acm_getLag N s 0 e he i j (.inl (e5 h2 i j hy e he))
    rw [hf 0 (by omega)] at h1
    cases h1
    rw [List.getElem?_map, List.getElem?_range (by omega)] at hv
    cases hv
    exact h2

/-! ### components -/

/-- the components chosen by `f` -/
def lagPart (f : κ → ι) (e : ACMLag D ι) : ACMLag D κ := ⟨fun a b => e.alpha (f a) (f b), e.beta ∘ f, e.eta ∘ f⟩

def statePart (f : κ → ι) (s : ACMState D ι) : ACMState D κ := ⟨s.n, s.mean ∘ f, s.lags.map (lagPart f), s.previous.map (· ∘ f)⟩

theorem readAt_map {X Y : Type} (g : X → Y) (l : List X) (k : Nat) : readAt (l.map g) k = (readAt l k).map g := by
  unfold readAt
  rw [List.getElem?_map]
  cases l[k]? <;> rfl

theorem map_bind {X Y Z : Type} (m : Except Fault X) (g : X → Y) (f : Y → Except Fault Z) : (m.map g) >>= f = m >>= fun x => f (g x) := by
  cases m <;> rfl

theorem map_bind' {X Y Z : Type} (m : Except Fault X) (f : X → Except Fault Y) (g : Y → Z) : (m >>= f).map g = m >>= fun x => (f x).map g := by
  cases m <;> rfl

theorem lag_part (f : κ → ι) (n : Nat) (prev : List (ι → D)) (x : ι → D) (lags : List (ACMLag D ι)) (l : Nat) :
    acmMachineLag n (prev.map (· ∘ f)) (x ∘ f) (lags.map (lagPart f)) l = (acmMachineLag n prev x lags l).map (lagPart f) := by
  unfold acmMachineLag
  rw [readAt_map, map_bind, map_bind']
  refine bind_congr fun e => ?_
  obtain ⟨a, b, c⟩ := e
  dsimp only [lagPart]
  by_cases h1 : n = l + 1
  · simp only [if_pos h1, readAt_map, map_bind, map_bind']
    rfl
  · simp only [if_neg h1]
    by_cases h2 : n ≥ l + 2
    · simp only [if_pos h2, readAt_map, map_bind, map_bind']
      rfl
    · simp only [if_neg h2]
      rfl

theorem mapM_map {X Y Z : Type} (l : List X) (f : X → Except Fault Y) (g : Y → Z) : l.mapM (fun x => (f x).map g) = (l.mapM f).map (List.map g) := by
  induction l with
  | nil => rfl
  | cons a l ih =>
    rw [List.mapM_cons, List.mapM_cons, ih]
    cases f a with
    | error e => rfl
    | ok y => cases l.mapM f <;> rfl

theorem consume_part (f : κ → ι) (L : Nat) (G : Nat → ι → ι → D) (s : ACMState D ι) (x : ι → D) :
    acmMachineConsume L (fun l a b => G l (f a) (f b)) (statePart f s) (x ∘ f) = (acmMachineConsume L G s x).map (statePart f) := by
  unfold acmMachineConsume
  have hn : (statePart f s).n = s.n := rfl
  rw [hn]
  by_cases h : s.n = 0
  · simp only [if_pos h]
    show _ = Except.ok (statePart f _)
    simp only [statePart, List.map_map, List.map_cons]
    rfl
  · simp only [if_neg h]
    have e : (x ∘ f) :: (statePart f s).previous = (x :: s.previous).map (· ∘ f) := rfl
    have e' : (statePart f s).lags = s.lags.map (lagPart f) := rfl
    have e2 : acmMachineLag s.n ((x :: s.previous).map (· ∘ f)) (x ∘ f) (s.lags.map (lagPart f)) =
        fun l => (acmMachineLag s.n (x :: s.previous) x s.lags l).map (lagPart f) := by
      funext l
      exact lag_part f _ _ _ _ _
    rw [e, e', e2, mapM_map, map_bind, map_bind']
    refine bind_congr fun lags => ?_
    show Except.ok _ = Except.ok _
    simp only [statePart, List.length_map]
    congr 2
    split
    · rw [List.map_dropLast]
    · rfl

theorem machine_part (f : κ → ι) (L : Nat) (G : Nat → ι → ι → D) (M : ι → D) (xs : List (ι → D)) :
    acmMachine L (fun l a b => G l (f a) (f b)) (M ∘ f) (xs.map (· ∘ f)) = (acmMachine L G M xs).map (statePart f) := by
  unfold acmMachine
  have key : ∀ (xs : List (ι → D)) (s : ACMState D ι), (xs.map (· ∘ f)).foldlM (acmMachineConsume L (fun l a b => G l (f a) (f b))) (statePart f s) =
      (xs.foldlM (acmMachineConsume L G) s).map (statePart f) := by
    intro xs
    induction xs with
    | nil => intro s; rfl
    | cons x xs ih =>
      intro s
      rw [List.map_cons, List.foldlM_cons, List.foldlM_cons, consume_part, map_bind, map_bind']
      exact bind_congr fun t => ih t
  exact key xs (ACMState.init M)

theorem get_part (f : κ → ι) (L : Nat) (G : Nat → ι → ι → D) (M : ι → D) (xs : List (ι → D)) :
    acmMachineGet L (fun l a b => G l (f a) (f b)) (M ∘ f) (xs.map (· ∘ f)) =
      (acmMachineGet L G M xs).map (List.map (fun r a b => r (f a) (f b))) := by
  unfold acmMachineGet
  rw [machine_part, map_bind, map_bind']
  refine bind_congr fun s => ?_
  rw [← mapM_map]
  congr 1
  funext l
  unfold acmMachineGetLag
  have e' : (statePart f s).lags = s.lags.map (lagPart f) := rfl
  rw [e', readAt_map, map_bind, map_bind']
  refine bind_congr fun e => ?_
  obtain ⟨a, b, c⟩ := e
  have hn : (statePart f s).n = s.n := rfl
  dsimp only [lagPart]
  rw [hn]
  show Except.ok _ = Except.ok _
  split <;> rfl

/-! ### floating point formats -/

theorem ieee_not_finite (fl : ℝ → ℝ) (Ω : ℝ) : @NanPropagates XR (ieee fl Ω) Ieee.NotFinite := by
  have neg : ∀ a : XR, Ieee.NotFinite a → Ieee.NotFinite a.neg := by
    intro a h
    cases a <;> first | exact h.elim | trivial
  let _ := ieee fl Ω
  exact
    { add_left := fun a b h => RoundingCos.round_not (RoundingCos.add_not (.inl h))
      add_right := fun a b h => RoundingCos.round_not (RoundingCos.add_not (.inr h))
      sub_left := fun a b h => RoundingCos.round_not (RoundingCos.add_not (.inl h))
      sub_right := fun a b h => RoundingCos.round_not (RoundingCos.add_not (.inr (neg b h)))
      mul_left := fun a b h => RoundingCos.round_not (RoundingCos.mul_not h).1
      mul_right := fun a b h => RoundingCos.round_not (RoundingCos.mul_not h).2
      div_left := fun a b h => RoundingCos.round_not (by
        cases a <;> first | exact h.elim | (cases b <;> simp only [XR.div] <;> (try split) <;> trivial))
      conj := fun a h => h }

end SampleFlow.NanAuto
