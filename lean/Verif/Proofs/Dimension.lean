import Verif.Spec.Dimension
import Mathlib.Algebra.BigOperators.Fin
import Mathlib.Data.List.OfFn
import Mathlib.Tactic.Ring
import Mathlib.Tactic.Cases

set_option linter.unusedSectionVars false
set_option linter.unusedSimpArgs false

namespace SampleFlow.Dim

variable {S K : Type} [Field K] {E : Elements S K} {els : S → List K} {d : Nat}

/-- `s` holds the vector `v` -/
def Rep (els : S → List K) (v : Fin d → K) (s : S) : Prop := els s = List.ofFn v

theorem bind_ok {α β : Type} {x : Except Fault α} {a : α} (f : α → Except Fault β) (h : x = .ok a) :
    (x >>= f) = f a := by rw [h]; rfl

theorem bind_err {α β : Type} (x : Except Fault α) (f : α → Except Fault β) (h : ∀ a, ∃ e, f a = .error e) :
    ∃ e, (x >>= f) = .error e := by
  cases x with
  | error e => exact ⟨e, rfl⟩
  | ok a => exact h a

theorem loop_inv {X : Type} (P : Nat → X → Prop) {body : Nat → X → Except Fault X} {s : X} (d : Nat) (h0 : P 0 s)
    (hs : ∀ i x, i < d → P i x → ∃ x', body i x = .ok x' ∧ P (i + 1) x') :
    ∃ x', loop d s body = .ok x' ∧ P d x' := by
  induction d with
  | zero => exact ⟨s, rfl, h0⟩
  | succ d ih =>
    obtain ⟨x, h1, h2⟩ := ih (fun i x hi => hs i x (by omega))
    obtain ⟨x', h3, h4⟩ := hs d x (by omega) h2
    refine ⟨x', ?_, h4⟩
    unfold loop at h1 ⊢
    rw [List.range_succ, List.foldlM_append, h1]
    rw [bind_ok _ rfl, List.foldlM_cons, bind_ok _ h3]; rfl

theorem readAt_ok {X : Type} {xs : List X} {i : Nat} {x : X} : readAt xs i = .ok x ↔ xs[i]? = some x := by
  unfold readAt
  cases xs[i]? <;> simp

theorem Rep.size (L : Lawful E els) {v : Fin d → K} {s : S} (h : Rep els v s) : E.size s = d := by
  rw [L.size, h, List.length_ofFn]

theorem Rep.nth (L : Lawful E els) {v : Fin d → K} {s : S} (h : Rep els v s) {i : Nat} (hi : i < d) :
    E.nth s i = .ok (v ⟨i, hi⟩) := by
  rw [L.nth, h, readAt_ok, List.getElem?_ofFn, dif_pos hi]

theorem map_ok {α β : Type} {x : Except Fault α} {f : α → β} {b : β} (h : x.map f = .ok b) : ∃ a, x = .ok a ∧ f a = b := by
  cases x with
  | error e => cases h
  | ok a => exact ⟨a, rfl, by simpa [Except.map] using h⟩

theorem Rep.set (L : Lawful E els) {v : Fin d → K} {s : S} (h : Rep els v s) {i : Nat} (hi : i < d) (x : K) :
    ∃ s', E.set s i x = .ok s' ∧ Rep els (fun j => if j.val = i then x else v j) s' := by
  have h1 := L.set s i x
  rw [h, writeAt, List.length_ofFn, if_pos hi] at h1
  obtain ⟨s', h2, h3⟩ := map_ok h1
  refine ⟨s', h2, ?_⟩
  rw [Rep, h3]
  apply List.ext_getElem?
  intro k
  rw [List.getElem?_set, List.getElem?_ofFn, List.getElem?_ofFn]
  by_cases hk : i = k
  · subst hk; simp [hi]
  · by_cases hkd : k < d
    · simp [hk, hkd, Ne.symm hk]
    · simp [hk, hkd]

theorem zipWith_ofFn (f : K → K → K) (v w : Fin d → K) :
    List.zipWith f (List.ofFn v) (List.ofFn w) = List.ofFn (fun i => f (v i) (w i)) := by
  apply List.ext_getElem?
  intro k
  rw [List.getElem?_zipWith, List.getElem?_ofFn, List.getElem?_ofFn, List.getElem?_ofFn]
  by_cases hk : k < d <;> simp [hk]

theorem Rep.sub (L : Lawful E els) {v w : Fin d → K} {a b : S} (ha : Rep els v a) (hb : Rep els w b) :
    ∃ c, E.sub a b = .ok c ∧ Rep els (fun i => v i - w i) c := by
  have h1 := L.sub a b
  rw [ha, hb] at h1
  simp only [valarray, List.length_ofFn, if_true, zipWith_ofFn] at h1
  exact map_ok h1

theorem Rep.add (L : Lawful E els) {v w : Fin d → K} {a b : S} (ha : Rep els v a) (hb : Rep els w b) :
    ∃ c, E.add a b = .ok c ∧ Rep els (fun i => v i + w i) c := by
  have h1 := L.add a b
  rw [ha, hb] at h1
  simp only [valarray, List.length_ofFn, if_true, zipWith_ofFn] at h1
  exact map_ok h1

theorem Rep.scale (L : Lawful E els) {v : Fin d → K} {a : S} (ha : Rep els v a) (c : K) :
    Rep els (fun i => v i * c) (E.scale a c) := by
  rw [Rep, L.scale, ha, List.map_ofFn]; rfl

theorem sub_err (L : Lawful E els) {a b : S} (h : (els a).length ≠ (els b).length) : ∃ e, E.sub a b = .error e := by
  have h1 := L.sub a b
  simp only [valarray, if_neg h] at h1
  cases hx : E.sub a b with
  | error e => exact ⟨e, rfl⟩
  | ok x => rw [hx] at h1; cases h1

theorem updateMean_ok (L : Lawful E els) {m x : Fin d → K} {mean sample : S} (n : Nat) (hm : Rep els m mean)
    (hx : Rep els x sample) :
    ∃ s', updateMean E n mean sample = .ok s' ∧ Rep els (fun i => m i + (x i - m i) / (n : K)) s' := by
  obtain ⟨u, h1, h2⟩ := hx.sub L hm
  obtain ⟨r, h3, h4⟩ := hm.add L (h2.scale L (1 / (n : K)))
  refine ⟨r, ?_, ?_⟩
  · unfold updateMean; rw [bind_ok _ h1]; exact h3
  · rw [Rep, h4]; congr 1; funext i; rw [div_eq_mul_one_div (x i - m i)]

theorem updateMean_err (L : Lawful E els) {mean sample : S} (n : Nat) (h : (els sample).length ≠ (els mean).length) :
    ∃ e, updateMean E n mean sample = .error e := by
  obtain ⟨e, he⟩ := sub_err L h
  exact ⟨e, by unfold updateMean; rw [he]; rfl⟩

/-! ### matrices -/

/-- the matrix holds `M` -/
def RepM (M : Fin d → Fin d → K) (m : Mat K) : Prop :=
  m.rows = d ∧ m.cols = d ∧ ∀ (i j : Nat) (hi : i < d) (hj : j < d), m.entry i j = M ⟨i, hi⟩ ⟨j, hj⟩

theorem RepM.forAll {M : Fin d → Fin d → K} {m : Mat K} (h : RepM M m) {f : Nat → Nat → K → Except Fault K}
    (u : Fin d → Fin d → K → K)
    (hf : ∀ (i j : Nat) (hi : i < d) (hj : j < d) (c : K), f i j c = .ok (u ⟨i, hi⟩ ⟨j, hj⟩ c)) :
    ∃ m', m.forAll d f = .ok m' ∧ RepM (fun i j => u i j (M i j)) m' := by
  unfold Mat.forAll
  -- rows `< i` done, in row `i` the columns `< j`
  let P : Nat → Nat → Mat K → Prop := fun i j x => x.rows = d ∧ x.cols = d ∧
    ∀ (a b : Nat) (ha : a < d) (hb : b < d), x.entry a b =
      if a < i ∨ (a = i ∧ b < j) then u ⟨a, ha⟩ ⟨b, hb⟩ (M ⟨a, ha⟩ ⟨b, hb⟩) else M ⟨a, ha⟩ ⟨b, hb⟩
  obtain ⟨m', h1, h2⟩ := loop_inv (fun i x => P i 0 x) (body := fun i m => loop d m fun j m => do
      let x ← m.at i j
      let y ← f i j x
      m.put i j y) (s := m) d
    ⟨h.1, h.2.1, fun a b ha hb => by rw [if_neg (by omega)]; exact h.2.2 a b ha hb⟩
    (by
      intro i x hi hP
      obtain ⟨x', h1, h2⟩ := loop_inv (fun j y => P i j y) (body := fun j m => do
        let x ← m.at i j
        let y ← f i j x
        m.put i j y) (s := x) d hP (by
          intro j y hj hPy
          obtain ⟨r, c, e⟩ := hPy
          have eij := e i j hi hj
          rw [if_neg (by omega)] at eij
          have e1 : y.at i j = .ok (M ⟨i, hi⟩ ⟨j, hj⟩) := by
            unfold Mat.at; rw [r, c, if_pos ⟨hi, hj⟩, eij]
          refine ⟨{ y with entry := fun a b => if a = i ∧ b = j then u ⟨i, hi⟩ ⟨j, hj⟩ (M ⟨i, hi⟩ ⟨j, hj⟩) else y.entry a b },
            by rw [bind_ok _ e1, bind_ok _ (hf i j hi hj _), Mat.put, r, c, if_pos ⟨hi, hj⟩], r, c, ?_⟩
          intro a b ha hb
          simp only
          by_cases hab : a = i ∧ b = j
          · obtain ⟨rfl, rfl⟩ := hab
            rw [if_pos ⟨rfl, rfl⟩, if_pos (by omega)]
          · rw [if_neg hab, e a b ha hb]
            congr 1
            apply propext
            constructor
            · rintro (h | h)
              · exact .inl h
              · exact .inr ⟨h.1, by omega⟩
            · rintro (h | h)
              · exact .inl h
              · refine .inr ⟨h.1, ?_⟩
                by_contra hc
                exact hab ⟨h.1, by omega⟩)
      refine ⟨x', h1, h2.1, h2.2.1, ?_⟩
      intro a b ha hb
      rw [h2.2.2 a b ha hb]
      congr 1
      apply propext
      omega)
  refine ⟨m', h1, h2.1, h2.2.1, ?_⟩
  intro i j hi hj
  rw [h2.2.2 i j hi hj, if_pos (by omega)]

/-! ### sums -/

theorem sumLoop_ok (acc : K) {f : Nat → Except Fault K} (g : Fin d → K) (hf : ∀ (j : Nat) (hj : j < d), f j = .ok (g ⟨j, hj⟩)) :
    sumLoop d acc f = .ok (acc + ∑ j, g j) := by
  let g' : Nat → K := fun j => if h : j < d then g ⟨j, h⟩ else 0
  have key := loop_inv (fun i x => x = acc + ∑ j ∈ Finset.range i, g' j) (body := fun j acc => do
      let x ← f j
      return acc + x) (s := acc) d (by simp) (by
    intro i x hi hx
    refine ⟨x + g ⟨i, hi⟩, by rw [bind_ok _ (hf i hi)]; rfl, ?_⟩
    rw [Finset.sum_range_succ, hx]
    simp only [g', dif_pos hi]
    ring)
  obtain ⟨x', h1, h2⟩ := key
  unfold sumLoop
  rw [h1, h2, Finset.sum_range]
  congr 2
  apply Finset.sum_congr rfl
  intro j _
  simp [g']

theorem mulNth_ok (L : Lawful E els) {v w : Fin d → K} {a b : S} (ha : Rep els v a) (hb : Rep els w b) (j : Nat) (hj : j < d) :
    mulNth E a b j = .ok (v ⟨j, hj⟩ * w ⟨j, hj⟩) := by
  unfold mulNth
  rw [bind_ok _ (ha.nth L hj), bind_ok _ (hb.nth L hj)]; rfl

theorem mulIJ_ok (L : Lawful E els) {v w : Fin d → K} {a b : S} (ha : Rep els v a) (hb : Rep els w b) (i j : Nat)
    (hi : i < d) (hj : j < d) : mulIJ E a b i j = .ok (v ⟨i, hi⟩ * w ⟨j, hj⟩) := by
  unfold mulIJ
  rw [bind_ok _ (ha.nth L hi), bind_ok _ (hb.nth L hj)]; rfl

theorem zeroLike_ok (L : Lawful E els) {v : Fin d → K} {s : S} (h : Rep els v s) :
    ∃ z, zeroLike E s = .ok z ∧ Rep els (fun _ : Fin d => (0 : K)) z := by
  unfold zeroLike
  rw [h.size L]
  obtain ⟨z, h1, h2⟩ := loop_inv (fun i x => Rep els (fun j : Fin d => if j.val < i then 0 else v j) x)
    (body := fun j v => E.set v j 0) (s := s) d (by simpa using h) (by
      intro i x hi hx
      obtain ⟨s', h1, h2⟩ := hx.set L hi 0
      refine ⟨s', h1, ?_⟩
      rw [Rep, h2]
      congr 1
      funext j
      by_cases hj : j.val = i
      · simp [hj]
      · by_cases hj' : j.val < i
        · simp [hj, hj']; omega
        · simp only [hj, hj', if_false]; rw [if_neg (by omega)])
  refine ⟨z, h1, ?_⟩
  rw [Rep, h2]; congr 1; funext j; simp

/-! ### MeanValue -/

theorem meanConsume_ok (L : Lawful E els) {s : MeanState S} {t : MeanState (Fin d → K)} (hn : s.n = t.n)
    (hm : t.n ≠ 0 → Rep els t.mean s.mean) {x : Fin d → K} {sample : S} (hx : Rep els x sample) :
    ∃ s', meanConsume E s sample = .ok s' ∧ s'.n = (t.consume x).n ∧ (t.consume x).n ≠ 0 ∧ Rep els (t.consume x).mean s'.mean := by
  unfold meanConsume MeanState.consume
  by_cases h0 : t.n = 0
  · rw [hn, if_pos h0, if_pos h0]
    exact ⟨_, rfl, rfl, by simp, hx⟩
  · rw [hn, if_neg h0, if_neg h0]
    obtain ⟨r, h1, h2⟩ := updateMean_ok L (t.n + 1) (hm h0) hx
    refine ⟨⟨t.n + 1, r⟩, ?_, rfl, by simp, h2⟩
    simp only
    rw [bind_ok _ h1]; rfl

theorem meanConsume_err (L : Lawful E els) {s : MeanState S} {sample : S} (h0 : s.n ≠ 0)
    (h : (els sample).length ≠ (els s.mean).length) : ∃ e, meanConsume E s sample = .error e := by
  unfold meanConsume
  rw [if_neg h0]
  obtain ⟨e, he⟩ := updateMean_err L (s.n + 1) h
  exact ⟨e, by simp only; rw [he]; rfl⟩

/-! ### CovarianceMatrix -/

structure RepCov [Star K] (els : S → List K) (s : CovObj S K) (t : CovState K (Fin d)) : Prop where
  n : s.n = t.n
  mean : t.n ≠ 0 → Rep els t.mean s.mean
  C : t.n ≠ 0 → RepM t.C s.C

theorem covConsume_ok [Star K] (L : Lawful E els) {s : CovObj S K} {t : CovState K (Fin d)} (R : RepCov els s t)
    (G : Nat → Nat → K) {x : Fin d → K} {sample : S} (hx : Rep els x sample) :
    ∃ s', covConsume E G s sample = .ok s' ∧ RepCov els s' (CovState.consume (fun i j : Fin d => G i j) t x) ∧
      (CovState.consume (fun i j : Fin d => G i j) t x).n ≠ 0 := by
  unfold covConsume CovState.consume
  by_cases h0 : t.n = 0
  · rw [R.n, if_pos h0, if_pos h0]
    exact ⟨_, rfl, ⟨rfl, fun _ => hx, fun _ => ⟨hx.size L, hx.size L, fun _ _ _ _ => rfl⟩⟩, by simp⟩
  · rw [R.n, if_neg h0, if_neg h0]
    obtain ⟨δ, h1, h2⟩ := hx.sub L (R.mean h0)
    obtain ⟨C', h3, h4⟩ := (R.C h0).forAll
      (f := fun i j c => do
        let delta_i ← E.nth δ i
        let delta_j ← E.nth δ j
        return c + ((delta_i * star delta_j) / ((t.n + 1 : Nat) : K) - c / (((t.n + 1 : Nat) : K) - 1)))
      (fun i j c => c + (((x i - t.mean i) * star (x j - t.mean j)) / ((t.n + 1 : Nat) : K) - c / (((t.n + 1 : Nat) : K) - 1)))
      (by
        intro i j hi hj c
        rw [bind_ok _ (h2.nth L hi), bind_ok _ (h2.nth L hj)]; rfl)
    obtain ⟨r, h5, h6⟩ := updateMean_ok L (t.n + 1) (R.mean h0) hx
    refine ⟨⟨t.n + 1, r, C'⟩, ?_, ⟨rfl, fun _ => h6, fun _ => h4⟩, by simp⟩
    simp only
    rw [bind_ok _ h1, hx.size L, bind_ok _ h3, bind_ok _ h5]; rfl

theorem covConsume_err [Star K] (L : Lawful E els) {s : CovObj S K} (G : Nat → Nat → K) {sample : S} (h0 : s.n ≠ 0)
    (h : (els sample).length ≠ (els s.mean).length) : ∃ e, covConsume E G s sample = .error e := by
  unfold covConsume
  rw [if_neg h0]
  obtain ⟨e, he⟩ := sub_err L h
  exact ⟨e, by simp only; rw [he]; rfl⟩

/-! ### AutoCovarianceTrace -/

/-- elements of a list, one by one -/
def RepL {X Y : Type} (R : X → Y → Prop) (xs : List X) (ys : List Y) : Prop :=
  xs.length = ys.length ∧ ∀ (i : Nat) (x : X), xs[i]? = some x → ∃ y, ys[i]? = some y ∧ R x y

theorem RepL.cons {X Y : Type} {R : X → Y → Prop} {xs : List X} {ys : List Y} (h : RepL R xs ys) {x : X} {y : Y} (hxy : R x y) :
    RepL R (x :: xs) (y :: ys) := by
  refine ⟨by simp [h.1], ?_⟩
  intro i z hz
  cases i with
  | zero => simp at hz; subst hz; exact ⟨y, by simp, hxy⟩
  | succ i => simp at hz; simpa using h.2 i z hz

theorem RepL.dropLast {X Y : Type} {R : X → Y → Prop} {xs : List X} {ys : List Y} (h : RepL R xs ys) :
    RepL R xs.dropLast ys.dropLast := by
  refine ⟨by simp [h.1], ?_⟩
  intro i z hz
  rw [List.getElem?_dropLast] at hz ⊢
  split at hz
  · rename_i hi
    rw [if_pos (by rw [← h.1]; exact hi)]
    exact h.2 i z hz
  · cases hz

theorem RepL.read {X Y : Type} {R : X → Y → Prop} {xs : List X} {ys : List Y} (h : RepL R xs ys) {i : Nat} {x : X}
    (hx : readAt xs i = .ok x) : ∃ y, readAt ys i = .ok y ∧ R x y := by
  rw [readAt_ok] at hx
  obtain ⟨y, h1, h2⟩ := h.2 i x hx
  exact ⟨y, readAt_ok.mpr h1, h2⟩

theorem RepL.replicate {X Y : Type} {R : X → Y → Prop} {x : X} {y : Y} (h : R x y) (n : Nat) :
    RepL R (List.replicate n x) (List.replicate n y) := by
  refine ⟨by simp, ?_⟩
  intro i z hz
  rw [List.getElem?_replicate] at hz ⊢
  split at hz
  · rename_i hi; cases hz; exact ⟨y, by rw [if_pos hi], h⟩
  · cases hz

theorem bind_ok_inv {α β : Type} {x : Except Fault α} {f : α → Except Fault β} {b : β} (h : (x >>= f) = .ok b) :
    ∃ a, x = .ok a ∧ f a = .ok b := by
  cases x with
  | error e => cases h
  | ok a => exact ⟨a, rfl, h⟩

theorem mapM_inv {X Y : Type} {f : X → Except Fault Y} : ∀ {xs : List X} {ys : List Y}, xs.mapM f = .ok ys →
    ys.length = xs.length ∧ ∀ (i : Nat) (x : X), xs[i]? = some x → ∃ y, ys[i]? = some y ∧ f x = .ok y
  | [], ys, h => by
    simp only [List.mapM_nil] at h
    cases h; simp
  | x :: xs, ys, h => by
    rw [List.mapM_cons] at h
    obtain ⟨y, h1, h2⟩ := bind_ok_inv h
    obtain ⟨ys', h3, h4⟩ := bind_ok_inv h2
    cases h4
    obtain ⟨l, hl⟩ := mapM_inv h3
    refine ⟨by simp [l], ?_⟩
    intro i z hz
    cases i with
    | zero => simp at hz; subst hz; exact ⟨y, by simp, h1⟩
    | succ i => simp at hz; simpa using hl i z hz

theorem mapM_congr' {X Y : Type} {f g : X → Except Fault Y} {xs : List X} (h : ∀ x ∈ xs, f x = g x) : xs.mapM f = xs.mapM g := by
  induction xs with
  | nil => rfl
  | cons x xs ih => rw [List.mapM_cons, List.mapM_cons, h x (by simp), ih (fun y hy => h y (by simp [hy]))]

theorem mapM_intro {X Y : Type} {f : X → Except Fault Y} : ∀ {xs : List X},
    (∀ x ∈ xs, ∃ y, f x = .ok y) → ∃ ys, xs.mapM f = .ok ys
  | [], _ => ⟨[], rfl⟩
  | x :: xs, h => by
    obtain ⟨y, hy⟩ := h x (by simp)
    obtain ⟨ys, hys⟩ := mapM_intro (xs := xs) (fun z hz => h z (by simp [hz]))
    refine ⟨y :: ys, ?_⟩
    rw [List.mapM_cons, bind_ok _ hy, bind_ok _ hys]; rfl

theorem actLag_ok (L : Lawful E els) {n : Nat} {prev : List (Fin d → K)} {prev' : List S} (hp : RepL (Rep els) prev prev')
    {x : Fin d → K} {sample : S} (hx : Rep els x sample) {lags : List (K × (Fin d → K))} {l : Nat} {a a' : K}
    {b b' : Fin d → K} {β : S} (hl : lags[l]? = some (a, b)) (hb : Rep els b β)
    (h : ACTState.updateLag n prev x lags l = .ok (a', b')) :
    ∃ β', actLag E n prev' sample l a β = .ok (a', β') ∧ Rep els b' β' := by
  unfold ACTState.updateLag at h
  rw [bind_ok _ (readAt_ok.mpr hl)] at h
  simp only at h
  unfold actLag
  simp only [hx.size L]
  by_cases h1 : n = l + 1
  · rw [if_pos h1] at h ⊢
    obtain ⟨p0, e0, h⟩ := bind_ok_inv h
    obtain ⟨p1, e1, h⟩ := bind_ok_inv h
    obtain ⟨pl, el, h⟩ := bind_ok_inv h
    obtain ⟨pl1, el1, h⟩ := bind_ok_inv h
    cases h
    obtain ⟨q0, f0, r0⟩ := hp.read e0
    obtain ⟨q1, f1, r1⟩ := hp.read e1
    obtain ⟨ql, fl, rl⟩ := hp.read el
    obtain ⟨ql1, fl1, rl1⟩ := hp.read el1
    obtain ⟨c1, g1, k1⟩ := r0.add L r1
    obtain ⟨c2, g2, k2⟩ := k1.add L rl
    obtain ⟨c3, g3, k3⟩ := k2.add L rl1
    refine ⟨c3, ?_, k3⟩
    rw [bind_ok _ f0, bind_ok _ fl, bind_ok _ f1, bind_ok _ fl1,
      bind_ok _ (sumLoop_ok 0 (fun j => p0 j * pl j) (mulNth_ok L r0 rl)),
      bind_ok _ (sumLoop_ok _ (fun j => p1 j * pl1 j) (mulNth_ok L r1 rl1)),
      bind_ok _ g1, bind_ok _ g2, bind_ok _ g3]
    rfl
  · rw [if_neg h1] at h ⊢
    by_cases h2 : n ≥ l + 2
    · rw [if_pos h2] at h ⊢
      obtain ⟨pl, el, h⟩ := bind_ok_inv h
      cases h
      obtain ⟨ql, fl, rl⟩ := hp.read el
      obtain ⟨bu, g1, k1⟩ := loop_inv
        (fun i v => Rep els (fun j : Fin d => if j.val < i then (x j + pl j - b j) * (1 / ((n : K) - l)) else x j) v)
        (body := fun j v => do
          let x ← E.nth v j
          let y ← E.nth ql j
          let v ← E.set v j (x + y)
          let x ← E.nth v j
          let y ← E.nth β j
          let v ← E.set v j (x - y)
          let x ← E.nth v j
          E.set v j (x * (1 / ((n : K) - l)))) (s := sample) d (by simpa using hx) (by
          intro i v hi hv
          obtain ⟨v1, s1, t1⟩ := hv.set L hi (x ⟨i, hi⟩ + pl ⟨i, hi⟩)
          obtain ⟨v2, s2, t2⟩ := t1.set L hi (x ⟨i, hi⟩ + pl ⟨i, hi⟩ - b ⟨i, hi⟩)
          obtain ⟨v3, s3, t3⟩ := t2.set L hi ((x ⟨i, hi⟩ + pl ⟨i, hi⟩ - b ⟨i, hi⟩) * (1 / ((n : K) - l)))
          refine ⟨v3, ?_, ?_⟩
          · have n1 := hv.nth L hi
            rw [if_neg (by simp)] at n1
            have n2 := t1.nth L hi
            rw [if_pos rfl] at n2
            have n3 := t2.nth L hi
            rw [if_pos rfl] at n3
            rw [bind_ok _ n1, bind_ok _ (rl.nth L hi), bind_ok _ s1, bind_ok _ n2, bind_ok _ (hb.nth L hi),
              bind_ok _ s2, bind_ok _ n3]
            exact s3
          · rw [Rep, t3]
            congr 1
            funext j
            by_cases hj : j.val = i
            · have : j = ⟨i, hi⟩ := Fin.ext hj
              subst this
              simp
            · simp only [hj, if_false]
              by_cases hj' : j.val < i
              · rw [if_pos hj', if_pos (by omega)]
              · rw [if_neg hj', if_neg (by omega)])
      have k1' : Rep els (fun j => (x j + pl j - b j) * (1 / ((n : K) - l))) bu := by
        rw [Rep, k1]; congr 1; funext j; rw [if_pos j.isLt]
      obtain ⟨c, g2, k2⟩ := hb.add L k1'
      refine ⟨c, ?_, k2⟩
      rw [bind_ok _ fl, bind_ok _ (sumLoop_ok (-a) (fun j => x j * pl j) (mulNth_ok L hx rl)), bind_ok _ g1, bind_ok _ g2]
      rfl
    · rw [if_neg h2] at h ⊢
      cases h
      exact ⟨β, rfl, hb⟩

structure RepACT (maxLag : Nat) (els : S → List K) (s : ACTObj S K) (t : ACTState K (Fin d)) : Prop where
  n : s.n = t.n
  mean : t.n ≠ 0 → Rep els t.mean s.mean
  len : t.n ≠ 0 → t.lags.length = maxLag + 1
  alpha : s.alpha = t.lags.map Prod.fst
  beta : RepL (fun (p : K × (Fin d → K)) (b : S) => Rep els p.2 b) t.lags s.beta
  previous : RepL (Rep els) t.previous s.previous

theorem actConsume_ok (L : Lawful E els) (maxLag : Nat) {s : ACTObj S K} {t t' : ACTState K (Fin d)} (R : RepACT maxLag els s t)
    {x : Fin d → K} {sample : S} (hx : Rep els x sample) (h : t.consume maxLag x = .ok t') :
    ∃ s', actConsume E maxLag s sample = .ok s' ∧ RepACT maxLag els s' t' ∧ t'.n ≠ 0 := by
  unfold ACTState.consume at h
  unfold actConsume
  by_cases h0 : t.n = 0
  · rw [if_pos h0] at h
    cases h
    rw [R.n, if_pos h0]
    obtain ⟨z, h1, h2⟩ := zeroLike_ok L hx
    exact ⟨_, by rw [bind_ok _ h1]; rfl,
      ⟨rfl, fun _ => hx, fun _ => by simp, by simp, RepL.replicate (R := fun (p : K × (Fin d → K)) (b : S) => Rep els p.2 b) h2 _,
        R.previous.cons hx⟩, by simp⟩
  · rw [if_neg h0] at h
    rw [R.n, if_neg h0]
    simp only at h ⊢
    obtain ⟨lags', h1, h2⟩ := bind_ok_inv h
    cases h2
    obtain ⟨len, hlag⟩ := mapM_inv h1
    simp only [List.length_range] at len
    have hlag' : ∀ l, l < maxLag + 1 → ∃ p, lags'[l]? = some p ∧
        ACTState.updateLag t.n (x :: t.previous) x t.lags l = .ok p := by
      intro l hl
      exact hlag l l (by rw [List.getElem?_range hl])
    have hprev := R.previous.cons hx
    have lenOld : ∀ l, l < maxLag + 1 → ∃ p, t.lags[l]? = some p := by
      intro l hl
      obtain ⟨p, -, e⟩ := hlag' l hl
      unfold ACTState.updateLag at e
      obtain ⟨q, e1, -⟩ := bind_ok_inv e
      exact ⟨q, readAt_ok.mp e1⟩
    obtain ⟨⟨α', β'⟩, g1, k1⟩ := loop_inv
      (fun k (ab : List K × List S) => ab.1.length = s.alpha.length ∧ ab.2.length = s.beta.length ∧
        ∀ l, (l < k → l < maxLag + 1 → ∀ p, lags'[l]? = some p → ab.1[l]? = some p.1 ∧ ∃ b, ab.2[l]? = some b ∧ Rep els p.2 b) ∧
          (k ≤ l → ab.1[l]? = s.alpha[l]? ∧ ab.2[l]? = s.beta[l]?))
      (body := fun l ab => do
        let a ← readAt ab.1 l
        let b ← readAt ab.2 l
        let (a, b) ← actLag E t.n (sample :: s.previous) sample l a b
        let alpha ← writeAt ab.1 l a
        let beta ← writeAt ab.2 l b
        return (alpha, beta)) (s := (s.alpha, s.beta)) (maxLag + 1)
      ⟨rfl, rfl, fun l => ⟨fun h => by omega, fun _ => ⟨rfl, rfl⟩⟩⟩
      (by
        intro i ab hi hab
        obtain ⟨la, lb, hab⟩ := hab
        obtain ⟨p, hp, hup⟩ := hlag' i hi
        obtain ⟨q, hq⟩ := lenOld i hi
        obtain ⟨ea, eb⟩ := (hab i).2 (le_refl i)
        obtain ⟨β, hβ, rβ⟩ := R.beta.2 i q hq
        have hα : s.alpha[i]? = some q.1 := by rw [R.alpha, List.getElem?_map, hq]; rfl
        rw [hα] at ea
        rw [hβ] at eb
        obtain ⟨b', hb1, hb2⟩ := actLag_ok L hprev hx (a := q.1) (b := q.2) (a' := p.1) (b' := p.2) hq rβ hup
        have w1 : i < ab.1.length := by
          by_contra hc
          rw [List.getElem?_eq_none (by omega)] at ea; cases ea
        have w2 : i < ab.2.length := by
          by_contra hc
          rw [List.getElem?_eq_none (by omega)] at eb; cases eb
        refine ⟨(ab.1.set i p.1, ab.2.set i b'), ?_, ?_, ?_, ?_⟩
        · rw [bind_ok _ (readAt_ok.mpr ea), bind_ok _ (readAt_ok.mpr eb), bind_ok _ hb1]
          simp only [writeAt, if_pos w1, if_pos w2]
          rfl
        · simpa using la
        · simpa using lb
        · intro l
          simp only [List.getElem?_set]
          constructor
          · intro hl hl' p' hp'
            by_cases hli : i = l
            · subst hli
              rw [hp] at hp'; cases hp'
              simp only [if_true, if_pos w1, if_pos w2]
              exact ⟨trivial, b', rfl, hb2⟩
            · simp only [if_neg hli]
              exact (hab l).1 (by omega) hl' p' hp'
          · intro hl
            rw [if_neg (by omega), if_neg (by omega)]
            exact (hab l).2 (by omega))
    obtain ⟨la, lb, hab⟩ := k1
    simp only at la lb hab
    obtain ⟨r, g2, k2⟩ := updateMean_ok L (t.n + 1) (R.mean h0) hx
    have hlen := R.len h0
    refine ⟨⟨t.n + 1, r, α', β', _⟩, by rw [bind_ok _ g1]; simp only; rw [bind_ok _ g2]; rfl, ⟨rfl, fun _ => k2, fun _ => len, ?_, ⟨?_, ?_⟩, ?_⟩, by simp⟩
    · apply List.ext_getElem?
      intro l
      rw [List.getElem?_map]
      by_cases hl : l < maxLag + 1
      · obtain ⟨p, hp, -⟩ := hlag' l hl
        rw [hp]
        exact ((hab l).1 hl hl p hp).1
      · rw [((hab l).2 (by omega)).1, R.alpha, List.getElem?_eq_none (by simp [hlen]; omega),
          List.getElem?_eq_none (show lags'.length ≤ l by omega)]
        rfl
    · simp only
      rw [lb, len, ← R.beta.1, hlen]
    · intro l p hp
      by_cases hl : l < maxLag + 1
      · exact ((hab l).1 hl hl p hp).2
      · rw [List.getElem?_eq_none (show lags'.length ≤ l by omega)] at hp; cases hp
    · have e := hprev.1
      by_cases hc : (x :: t.previous).length > maxLag + 1
      · rw [if_pos hc, if_pos (by rw [← e]; exact hc)]; exact hprev.dropLast
      · rw [if_neg hc, if_neg (by rw [← e]; exact hc)]; exact hprev

theorem actConsume_err (L : Lawful E els) (maxLag : Nat) {s : ACTObj S K} {sample : S} (h0 : s.n ≠ 0)
    (h : (els sample).length ≠ (els s.mean).length) : ∃ e, actConsume E maxLag s sample = .error e := by
  unfold actConsume
  rw [if_neg h0]
  obtain ⟨e, he⟩ := updateMean_err L (s.n + 1) h
  simp only
  refine bind_err _ _ (fun ab => ?_)
  exact ⟨e, by rw [he]; rfl⟩

/-- `r -= f(j)` in a loop -/
theorem subLoop_ok (acc : K) {f : Nat → Except Fault K} (g : Fin d → K) (hf : ∀ (j : Nat) (hj : j < d), f j = .ok (g ⟨j, hj⟩)) :
    (loop d acc fun j r => do
      let x ← f j
      return r - x) = .ok (acc - ∑ j, g j) := by
  let g' : Nat → K := fun j => if h : j < d then g ⟨j, h⟩ else 0
  have key := loop_inv (fun i x => x = acc - ∑ j ∈ Finset.range i, g' j) (body := fun j acc => do
      let x ← f j
      return acc - x) (s := acc) d (by simp) (by
    intro i x hi hx
    refine ⟨x - g ⟨i, hi⟩, by rw [bind_ok _ (hf i hi)]; rfl, ?_⟩
    rw [Finset.sum_range_succ, hx]
    simp only [g', dif_pos hi]
    ring)
  obtain ⟨x', h1, h2⟩ := key
  rw [h1, h2, Finset.sum_range]
  congr 2
  apply Finset.sum_congr rfl
  intro j _
  simp [g']

theorem actGet_ok (L : Lawful E els) (maxLag : Nat) {s : ACTObj S K} {t : ACTState K (Fin d)} (R : RepACT maxLag els s t)
    (h0 : t.n ≠ 0) {r : List K} (h : t.get maxLag = .ok r) : actGet E maxLag s = .ok r := by
  unfold ACTState.get at h
  unfold actGet
  rw [← h]
  apply mapM_congr'
  intro l hl
  have hl' : l < maxLag + 1 := List.mem_range.mp hl
  obtain ⟨p, hp⟩ : ∃ p, t.lags[l]? = some p := ⟨_, List.getElem?_eq_getElem (by rw [R.len h0]; exact hl')⟩
  obtain ⟨b, hb, rb⟩ := R.beta.2 l p hp
  have ha : s.alpha[l]? = some p.1 := by rw [R.alpha, List.getElem?_map, hp]; rfl
  have hm := R.mean h0
  unfold ACTState.getLag
  rw [bind_ok _ (readAt_ok.mpr ha), bind_ok _ (readAt_ok.mpr hb), bind_ok _ (readAt_ok.mpr hp), hm.size L,
    bind_ok _ (subLoop_ok p.1 (fun j => t.mean j * p.2 j) (mulNth_ok L hm rb))]
  simp only [R.n]
  by_cases hn : t.n > l + 1
  · rw [if_pos hn, if_pos hn]
    have := sumLoop_ok (p.1 - ∑ j, t.mean j * p.2 j) (f := fun j => do
        let x ← E.nth s.mean j
        return (1 + 1 / ((t.n : K) - l - 1)) * x * x)
      (fun j => (1 + 1 / ((t.n : K) - l - 1)) * t.mean j * t.mean j) (by
        intro j hj; rw [bind_ok _ (hm.nth L hj)]; rfl)
    unfold sumLoop at this
    rw [← show _ = (pure (p.1 - ∑ j, t.mean j * p.2 j + ∑ j, (1 + 1 / ((t.n : K) - l - 1)) * t.mean j * t.mean j) : Except Fault K) from this]
    congr 1
    funext j r
    beta_reduce
    cases E.nth s.mean j <;> rfl
  · rw [if_neg hn, if_neg hn]

/-! ### AutoCovarianceMatrix -/

/-- one lag of the matrix class -/
structure RepLag (els : S → List K) (p : ACMLag K (Fin d)) (a : Mat K) (b e : S) : Prop where
  alpha : RepM p.alpha a
  beta : Rep els p.beta b
  eta : Rep els p.eta e

theorem RepM.add' {M N : Fin d → Fin d → K} {a b : Mat K} (ha : RepM M a) (hb : RepM N b) :
    ∃ c, a.add b = .ok c ∧ RepM (fun i j => M i j + N i j) c := by
  refine ⟨⟨a.rows, a.cols, fun i j => a.entry i j + b.entry i j⟩, ?_, ha.1, ha.2.1, ?_⟩
  · unfold Mat.add
    rw [if_pos ⟨by rw [ha.1, hb.1], by rw [ha.2.1, hb.2.1]⟩]
  · intro i j hi hj
    simp only
    rw [ha.2.2 i j hi hj, hb.2.2 i j hi hj]

theorem acmLag_ok (L : Lawful E els) {n : Nat} {prev : List (Fin d → K)} {prev' : List S} (hp : RepL (Rep els) prev prev')
    {x : Fin d → K} {sample : S} (hx : Rep els x sample) {lags : List (ACMLag K (Fin d))} {l : Nat} {p p' : ACMLag K (Fin d)}
    {a : Mat K} {b e : S} (hl : lags[l]? = some p) (hr : RepLag els p a b e)
    (h : ACMState.updateLag n prev x lags l = .ok p') :
    ∃ a' b' e', acmLag E n prev' sample l a b e = .ok (a', b', e') ∧ RepLag els p' a' b' e' := by
  unfold ACMState.updateLag at h
  rw [bind_ok _ (readAt_ok.mpr hl)] at h
  obtain ⟨pa, pb, pe⟩ := p
  obtain ⟨ra, rb, re⟩ := hr
  simp only at h ra rb re
  unfold acmLag
  simp only [hx.size L]
  by_cases h1 : n = l + 1
  · rw [if_pos h1] at h ⊢
    obtain ⟨p0, e0, h⟩ := bind_ok_inv h
    obtain ⟨p1, e1, h⟩ := bind_ok_inv h
    obtain ⟨pl, el, h⟩ := bind_ok_inv h
    obtain ⟨pl1, el1, h⟩ := bind_ok_inv h
    cases h
    obtain ⟨q0, f0, r0⟩ := hp.read e0
    obtain ⟨q1, f1, r1⟩ := hp.read e1
    obtain ⟨ql, fl, rl⟩ := hp.read el
    obtain ⟨ql1, fl1, rl1⟩ := hp.read el1
    obtain ⟨a1, g1, k1⟩ := ra.forAll (f := fun i j c => do
        let x ← mulIJ E q0 ql i j
        return c + x) (fun i j c => c + p0 i * pl j)
      (by intro i j hi hj c; rw [bind_ok _ (mulIJ_ok L r0 rl i j hi hj)]; rfl)
    obtain ⟨a2, g2, k2⟩ := k1.forAll (f := fun i j c => do
        let x ← mulIJ E q1 ql1 i j
        return c + x) (fun i j c => c + p1 i * pl1 j)
      (by intro i j hi hj c; rw [bind_ok _ (mulIJ_ok L r1 rl1 i j hi hj)]; rfl)
    obtain ⟨b1, g3, k3⟩ := r0.add L r1
    obtain ⟨e1', g4, k4⟩ := re.add L rl
    obtain ⟨e2', g5, k5⟩ := k4.add L rl1
    refine ⟨a2, b1, e2', ?_, ⟨k2, k3, k5⟩⟩
    rw [bind_ok _ f0, bind_ok _ fl, bind_ok _ f1, bind_ok _ fl1, bind_ok _ g1, bind_ok _ g2, bind_ok _ g3, bind_ok _ g4,
      bind_ok _ g5]
    rfl
  · rw [if_neg h1] at h ⊢
    by_cases h2 : n ≥ l + 2
    · rw [if_pos h2] at h ⊢
      obtain ⟨pl, el, h⟩ := bind_ok_inv h
      cases h
      obtain ⟨ql, fl, rl⟩ := hp.read el
      have hneg : RepM (fun i j => -pa i j) (⟨a.rows, a.cols, fun i j => -a.entry i j⟩ : Mat K) :=
        ⟨ra.1, ra.2.1, fun i j hi hj => by simp only; rw [ra.2.2 i j hi hj]⟩
      obtain ⟨u1, g1, k1⟩ := hneg.forAll (f := fun i j c => do
          let x ← mulIJ E sample ql i j
          return c + x) (fun i j c => c + x i * pl j)
        (by intro i j hi hj c; rw [bind_ok _ (mulIJ_ok L hx rl i j hi hj)]; rfl)
      have k1' : RepM (fun i j => (-pa i j + x i * pl j) * (1 / ((n : K) - l)))
          (⟨u1.rows, u1.cols, fun i j => u1.entry i j * (1 / ((n : K) - l))⟩ : Mat K) :=
        ⟨k1.1, k1.2.1, fun i j hi hj => by simp only; rw [k1.2.2 i j hi hj]⟩
      obtain ⟨a1, g2, k2⟩ := ra.add' k1'
      obtain ⟨b1, g3, k3⟩ := hx.sub L rb
      obtain ⟨b2, g4, k4⟩ := rb.add L (k3.scale L (1 / ((n : K) - l)))
      obtain ⟨e1, g5, k5⟩ := rl.sub L re
      obtain ⟨e2, g6, k6⟩ := re.add L (k5.scale L (1 / ((n : K) - l)))
      refine ⟨a1, b2, e2, ?_, ⟨k2, k4, k6⟩⟩
      rw [bind_ok _ fl, bind_ok _ g1]
      rw [bind_ok _ g2, bind_ok _ g3]
      rw [bind_ok _ g4, bind_ok _ g5]
      rw [bind_ok _ g6]
      rfl
    · rw [if_neg h2] at h ⊢
      cases h
      exact ⟨a, b, e, rfl, ⟨ra, rb, re⟩⟩

structure RepACM (maxLag : Nat) (els : S → List K) (s : ACMObj S K) (t : ACMState K (Fin d)) : Prop where
  n : s.n = t.n
  mean : t.n ≠ 0 → Rep els t.mean s.mean
  len : t.n ≠ 0 → t.lags.length = maxLag + 1 ∧ s.alpha.length = maxLag + 1 ∧ s.beta.length = maxLag + 1 ∧ s.eta.length = maxLag + 1
  lags : t.n ≠ 0 → ∀ (l : Nat) (p : ACMLag K (Fin d)), t.lags[l]? = some p → ∃ a b e, s.alpha[l]? = some a ∧
    s.beta[l]? = some b ∧ s.eta[l]? = some e ∧ RepLag els p a b e
  previous : RepL (Rep els) t.previous s.previous

theorem getElem?_lt {X : Type} {xs : List X} {i : Nat} {x : X} (h : xs[i]? = some x) : i < xs.length := by
  by_contra hc
  rw [List.getElem?_eq_none (by omega)] at h; cases h

theorem acmConsume_ok (L : Lawful E els) (maxLag : Nat) (G : Nat → Nat → Nat → K) {s : ACMObj S K} {t t' : ACMState K (Fin d)}
    (R : RepACM maxLag els s t) {x : Fin d → K} {sample : S} (hx : Rep els x sample)
    (h : ACMState.consume maxLag (fun l (i j : Fin d) => G l i j) t x = .ok t') :
    ∃ s', acmConsume E maxLag G s sample = .ok s' ∧ RepACM maxLag els s' t' ∧ t'.n ≠ 0 := by
  unfold ACMState.consume at h
  unfold acmConsume
  by_cases h0 : t.n = 0
  · rw [if_pos h0] at h
    cases h
    rw [R.n, if_pos h0]
    obtain ⟨z, h1, h2⟩ := zeroLike_ok L hx
    refine ⟨_, by rw [bind_ok _ h1]; rfl, ⟨rfl, fun _ => hx, fun _ => by simp, ?_, R.previous.cons hx⟩, by simp⟩
    intro _ l p hp
    simp only at hp ⊢
    rw [List.getElem?_map] at hp
    have hl : l < maxLag + 1 := by
      by_contra hc
      rw [List.getElem?_eq_none (by simp; omega)] at hp; cases hp
    rw [List.getElem?_range hl] at hp
    cases hp
    refine ⟨Mat.resized (E.size sample) (E.size sample) (G l), z, z, by rw [List.getElem?_map, List.getElem?_range hl]; rfl,
      by rw [List.getElem?_replicate, if_pos hl], by rw [List.getElem?_replicate, if_pos hl],
      ⟨⟨hx.size L, hx.size L, fun _ _ _ _ => rfl⟩, h2, h2⟩⟩
  · rw [if_neg h0] at h
    rw [R.n, if_neg h0]
    simp only at h ⊢
    obtain ⟨lags', h1, h2⟩ := bind_ok_inv h
    cases h2
    obtain ⟨len, hlag⟩ := mapM_inv h1
    simp only [List.length_range] at len
    have hlag' : ∀ l, l < maxLag + 1 → ∃ p, lags'[l]? = some p ∧
        ACMState.updateLag t.n (x :: t.previous) x t.lags l = .ok p := by
      intro l hl
      exact hlag l l (by rw [List.getElem?_range hl])
    have hprev := R.previous.cons hx
    obtain ⟨lt, lα, lβ, lη⟩ := R.len h0
    obtain ⟨⟨α', β', η'⟩, g1, k1⟩ := loop_inv
      (fun k (ab : List (Mat K) × List S × List S) => ab.1.length = maxLag + 1 ∧ ab.2.1.length = maxLag + 1 ∧
        ab.2.2.length = maxLag + 1 ∧
        ∀ l, (l < k → l < maxLag + 1 → ∀ p, lags'[l]? = some p → ∃ a b e, ab.1[l]? = some a ∧ ab.2.1[l]? = some b ∧
            ab.2.2[l]? = some e ∧ RepLag els p a b e) ∧
          (k ≤ l → ab.1[l]? = s.alpha[l]? ∧ ab.2.1[l]? = s.beta[l]? ∧ ab.2.2[l]? = s.eta[l]?))
      (body := fun l ab => do
        let a ← readAt ab.1 l
        let b ← readAt ab.2.1 l
        let e ← readAt ab.2.2 l
        let (a, b, e) ← acmLag E t.n (sample :: s.previous) sample l a b e
        let alpha ← writeAt ab.1 l a
        let beta ← writeAt ab.2.1 l b
        let eta ← writeAt ab.2.2 l e
        return (alpha, beta, eta)) (s := (s.alpha, s.beta, s.eta)) (maxLag + 1)
      ⟨lα, lβ, lη, fun l => ⟨fun h => by omega, fun _ => ⟨rfl, rfl, rfl⟩⟩⟩
      (by
        intro i ab hi hab
        obtain ⟨la, lb, le, hab⟩ := hab
        obtain ⟨p, hp, hup⟩ := hlag' i hi
        obtain ⟨q, hq⟩ : ∃ q, t.lags[i]? = some q := ⟨_, List.getElem?_eq_getElem (by omega)⟩
        obtain ⟨ea, eb, ee⟩ := (hab i).2 (le_refl i)
        obtain ⟨a, b, e, ha, hb, he, hr⟩ := R.lags h0 i q hq
        rw [ha] at ea
        rw [hb] at eb
        rw [he] at ee
        obtain ⟨a', b', e', hb1, hb2⟩ := acmLag_ok L hprev hx hq hr hup
        have w1 := getElem?_lt ea
        have w2 := getElem?_lt eb
        have w3 := getElem?_lt ee
        refine ⟨(ab.1.set i a', ab.2.1.set i b', ab.2.2.set i e'), ?_, by simpa using la, by simpa using lb,
          by simpa using le, ?_⟩
        · rw [bind_ok _ (readAt_ok.mpr ea), bind_ok _ (readAt_ok.mpr eb), bind_ok _ (readAt_ok.mpr ee), bind_ok _ hb1]
          simp only [writeAt, if_pos w1, if_pos w2, if_pos w3]
          rfl
        · intro l
          simp only [List.getElem?_set]
          constructor
          · intro hl hl' p' hp'
            by_cases hli : i = l
            · subst hli
              rw [hp] at hp'; cases hp'
              refine ⟨a', b', e', ?_, ?_, ?_, hb2⟩
              · rw [if_pos rfl, if_pos w1]
              · rw [if_pos rfl, if_pos w2]
              · rw [if_pos rfl, if_pos w3]
            · simp only [if_neg hli]
              exact (hab l).1 (by omega) hl' p' hp'
          · intro hl
            rw [if_neg (by omega), if_neg (by omega), if_neg (by omega)]
            exact (hab l).2 (by omega))
    obtain ⟨la, lb, le, hab⟩ := k1
    simp only at la lb le hab
    obtain ⟨r, g2, k2⟩ := updateMean_ok L (t.n + 1) (R.mean h0) hx
    refine ⟨⟨t.n + 1, r, α', β', η', _⟩, by rw [bind_ok _ g1]; simp only; rw [bind_ok _ g2]; rfl,
      ⟨rfl, fun _ => k2, fun _ => ⟨len, la, lb, le⟩, ?_, ?_⟩, by simp⟩
    · intro _ l p hp
      replace hp : lags'[l]? = some p := hp
      have hl : l < maxLag + 1 := by have := getElem?_lt hp; omega
      exact (hab l).1 hl hl p hp
    · have e := hprev.1
      by_cases hc : (x :: t.previous).length > maxLag + 1
      · rw [if_pos hc, if_pos (by rw [← e]; exact hc)]; exact hprev.dropLast
      · rw [if_neg hc, if_neg (by rw [← e]; exact hc)]; exact hprev

theorem acmConsume_err (L : Lawful E els) (maxLag : Nat) (G : Nat → Nat → Nat → K) {s : ACMObj S K} {sample : S} (h0 : s.n ≠ 0)
    (h : (els sample).length ≠ (els s.mean).length) : ∃ e, acmConsume E maxLag G s sample = .error e := by
  unfold acmConsume
  rw [if_neg h0]
  obtain ⟨e, he⟩ := updateMean_err L (s.n + 1) h
  simp only
  refine bind_err _ _ (fun ab => ?_)
  exact ⟨e, by rw [he]; rfl⟩

theorem acmGet_ok (L : Lawful E els) (maxLag : Nat) {s : ACMObj S K} {t : ACMState K (Fin d)} (R : RepACM maxLag els s t)
    (h0 : t.n ≠ 0) {r : List (Fin d → Fin d → K)} (h : t.get maxLag = .ok r) :
    ∃ ms, acmGet E maxLag s = .ok ms ∧ ms.length = r.length ∧ ∀ (l : Nat) (p : Fin d → Fin d → K), r[l]? = some p →
      ∃ m, ms[l]? = some m ∧ RepM p m := by
  unfold ACMState.get at h
  obtain ⟨len, hget⟩ := mapM_inv h
  have key : ∀ (l : Nat) (p : Fin d → Fin d → K), l < maxLag + 1 → t.getLag l = .ok p → ∃ m, (do
      let r ← readAt s.alpha l
      let b ← readAt s.beta l
      let e ← readAt s.eta l
      let d := E.size s.mean
      let r ← r.forAll d fun i j c => do
        let x ← mulIJ E s.mean e i j
        return c - x
      let r ← r.forAll d fun i j c => do
        let x ← mulIJ E b s.mean i j
        return c - x
      if s.n > l + 1 then
        r.forAll d fun i j c => do
          let x ← E.nth s.mean i
          let y ← E.nth s.mean j
          return c + (1 + 1 / ((s.n : K) - l - 1)) * x * y
      else return r : Except Fault (Mat K)) = .ok m ∧ RepM p m := by
    intro l p hl hp
    obtain ⟨lt, -, -, -⟩ := R.len h0
    obtain ⟨q, hq⟩ : ∃ q, t.lags[l]? = some q := ⟨_, List.getElem?_eq_getElem (by omega)⟩
    obtain ⟨a, b, e, ha, hb, he, hr⟩ := R.lags h0 l q hq
    have hm := R.mean h0
    unfold ACMState.getLag at hp
    rw [bind_ok _ (readAt_ok.mpr hq)] at hp
    simp only at hp
    obtain ⟨a1, g1, k1⟩ := hr.alpha.forAll (f := fun i j c => do
        let x ← mulIJ E s.mean e i j
        return c - x) (fun i j c => c - t.mean i * q.eta j)
      (by intro i j hi hj c; rw [bind_ok _ (mulIJ_ok L hm hr.eta i j hi hj)]; rfl)
    obtain ⟨a2, g2, k2⟩ := k1.forAll (f := fun i j c => do
        let x ← mulIJ E b s.mean i j
        return c - x) (fun i j c => c - q.beta i * t.mean j)
      (by intro i j hi hj c; rw [bind_ok _ (mulIJ_ok L hr.beta hm i j hi hj)]; rfl)
    rw [bind_ok _ (readAt_ok.mpr ha), bind_ok _ (readAt_ok.mpr hb), bind_ok _ (readAt_ok.mpr he)]
    simp only [hm.size L]
    rw [bind_ok _ g1, bind_ok _ g2, R.n]
    by_cases hn : t.n > l + 1
    · rw [if_pos hn] at hp ⊢
      cases hp
      obtain ⟨a3, g3, k3⟩ := k2.forAll (f := fun i j c => do
          let x ← E.nth s.mean i
          let y ← E.nth s.mean j
          return c + (1 + 1 / ((t.n : K) - l - 1)) * x * y) (fun i j c => c + (1 + 1 / ((t.n : K) - l - 1)) * t.mean i * t.mean j)
        (by intro i j hi hj c; rw [bind_ok _ (hm.nth L hi), bind_ok _ (hm.nth L hj)]; rfl)
      exact ⟨a3, g3, k3⟩
    · rw [if_neg hn] at hp ⊢
      cases hp
      exact ⟨a2, rfl, k2⟩
  have hall : ∀ l ∈ List.range (maxLag + 1), ∃ p, t.getLag l = .ok p := by
    intro l hl
    obtain ⟨p, -, hp⟩ := hget l l (by rw [List.getElem?_range (List.mem_range.mp hl)])
    exact ⟨p, hp⟩
  unfold acmGet
  obtain ⟨ms, hms⟩ := mapM_intro (f := fun l => (do
      let r ← readAt s.alpha l
      let b ← readAt s.beta l
      let e ← readAt s.eta l
      let d := E.size s.mean
      let r ← r.forAll d fun i j c => do
        let x ← mulIJ E s.mean e i j
        return c - x
      let r ← r.forAll d fun i j c => do
        let x ← mulIJ E b s.mean i j
        return c - x
      if s.n > l + 1 then
        r.forAll d fun i j c => do
          let x ← E.nth s.mean i
          let y ← E.nth s.mean j
          return c + (1 + 1 / ((s.n : K) - l - 1)) * x * y
      else return r : Except Fault (Mat K))) (xs := List.range (maxLag + 1)) (by
    intro l hl
    obtain ⟨p, hp⟩ := hall l hl
    obtain ⟨m, hm, -⟩ := key l p (List.mem_range.mp hl) hp
    exact ⟨m, hm⟩)
  obtain ⟨len2, hget2⟩ := mapM_inv hms
  refine ⟨ms, hms, by rw [len2, len], ?_⟩
  intro l p hp
  have hl : l < maxLag + 1 := by have := getElem?_lt hp; rw [len, List.length_range] at this; exact this
  obtain ⟨p', hp', hg⟩ := hget l l (by rw [List.getElem?_range hl])
  rw [hp] at hp'; cases hp'
  obtain ⟨m, hm1, hm2⟩ := hget2 l l (by rw [List.getElem?_range hl])
  obtain ⟨m', hm3, hm4⟩ := key l p hl hg
  rw [hm3] at hm2
  cases hm2
  exact ⟨_, hm1, hm4⟩

/-! ### runs -/

theorem rep_fn {x : S} (h : (els x).length = d) : Rep els (fn els d x) x := by
  unfold Rep fn
  apply List.ext_getElem?
  intro k
  rw [List.getElem?_ofFn]
  by_cases hk : k < d
  · rw [dif_pos hk, List.getD_eq_getElem?_getD, List.getElem?_eq_getElem (by omega)]; rfl
  · rw [dif_neg hk, List.getElem?_eq_none (by omega)]

theorem Rep.length {v : Fin d → K} {s : S} (h : Rep els v s) : (els s).length = d := by rw [h, List.length_ofFn]

theorem foldlM_snoc {X T : Type} (f : T → X → Except Fault T) (t : T) (xs : List X) (x : X) :
    (xs ++ [x]).foldlM f t = (xs.foldlM f t >>= fun s => f s x) := by
  rw [List.foldlM_append]
  congr 1
  funext s
  rw [List.foldlM_cons]
  cases f s x <;> rfl

/-- the only way to fail is a change of size -/
theorem iff_sameSize {T : Type} (cons : T → S → Except Fault T) (init : T) (meanOf : T → S) (nOf : T → Nat)
    (hok : ∀ (d : Nat) (xs : List S), (∀ x ∈ xs, (els x).length = d) → ∃ s, xs.foldlM cons init = .ok s ∧
      (xs ≠ [] → (els (meanOf s)).length = d ∧ nOf s ≠ 0))
    (herr : ∀ s x, nOf s ≠ 0 → (els x).length ≠ (els (meanOf s)).length → ∃ e, cons s x = .error e) (xs : List S) :
    (∃ s, xs.foldlM cons init = .ok s) ↔ SameSize els xs := by
  constructor
  · induction xs using List.reverseRecOn with
    | nil => intro _; exact ⟨0, by simp⟩
    | append_singleton xs x ih =>
      rintro ⟨s, hs⟩
      rw [foldlM_snoc] at hs
      obtain ⟨s0, h1, h2⟩ := bind_ok_inv hs
      obtain ⟨d, hd⟩ := ih ⟨s0, h1⟩
      by_cases hx : xs = []
      · subst hx; exact ⟨(els x).length, by simp⟩
      · obtain ⟨s1, h3, h4⟩ := hok d xs hd
        rw [h3] at h1; cases h1
        obtain ⟨h5, h6⟩ := h4 hx
        refine ⟨d, ?_⟩
        intro y hy
        rcases List.mem_append.mp hy with hy | hy
        · exact hd y hy
        · simp only [List.mem_singleton] at hy
          subst hy
          by_contra hc
          obtain ⟨e, he⟩ := herr _ y h6 (by rw [h5]; exact hc)
          rw [he] at h2; cases h2
  · rintro ⟨d, hd⟩
    obtain ⟨s, hs, -⟩ := hok d xs hd
    exact ⟨s, hs⟩

theorem meanRun_ok (L : Lawful E els) (G : S) (xs : List S) (h : ∀ x ∈ xs, (els x).length = d) :
    ∃ s, meanRun E G xs = .ok s ∧ s.n = (meanAfter (fun _ => 0) (xs.map (fn els d))).n ∧
      (xs ≠ [] → (meanAfter (fun _ => 0) (xs.map (fn els d))).n ≠ 0 ∧
        Rep els (meanAfter (fun _ => 0) (xs.map (fn els d))).mean s.mean) := by
  induction xs using List.reverseRecOn with
  | nil => exact ⟨⟨0, G⟩, rfl, rfl, fun h => absurd rfl h⟩
  | append_singleton xs x ih =>
    obtain ⟨s, h1, h2, h3⟩ := ih (fun y hy => h y (by simp [hy]))
    have e : meanAfter (fun _ => (0:K)) ((xs ++ [x]).map (fn els d)) =
        (meanAfter (fun _ => 0) (xs.map (fn els d))).consume (fn els d x) := by
      simp [meanAfter, List.foldl_append]
    obtain ⟨s', h4, h5, h6, h7⟩ := meanConsume_ok L (s := s) h2 (fun hn => by
      refine (h3 ?_).2
      rintro rfl
      exact hn rfl) (rep_fn (h x (by simp)))
    refine ⟨s', ?_, by rw [e]; exact h5, fun _ => by rw [e]; exact ⟨h6, h7⟩⟩
    unfold meanRun at h1 ⊢
    rw [foldlM_snoc, bind_ok _ h1]; exact h4

theorem covRun_ok [Star K] (L : Lawful E els) (M : S) (G : Nat → Nat → K) (xs : List S) (h : ∀ x ∈ xs, (els x).length = d) :
    ∃ s, covRun E M G xs = .ok s ∧
      RepCov els s (covAfter (fun _ => 0) (fun _ _ => 0) (fun i j : Fin d => G i j) (xs.map (fn els d))) ∧
      (xs ≠ [] → (covAfter (fun _ => 0) (fun _ _ => 0) (fun i j : Fin d => G i j) (xs.map (fn els d))).n ≠ 0) := by
  induction xs using List.reverseRecOn with
  | nil => exact ⟨⟨0, M, ⟨0, 0, G⟩⟩, rfl, ⟨rfl, fun h => absurd rfl h, fun h => absurd rfl h⟩, fun h => absurd rfl h⟩
  | append_singleton xs x ih =>
    obtain ⟨s, h1, h2, h3⟩ := ih (fun y hy => h y (by simp [hy]))
    have e : covAfter (fun _ => (0:K)) (fun _ _ => 0) (fun i j : Fin d => G i j) ((xs ++ [x]).map (fn els d)) =
        CovState.consume (fun i j : Fin d => G i j)
          (covAfter (fun _ => 0) (fun _ _ => 0) (fun i j : Fin d => G i j) (xs.map (fn els d))) (fn els d x) := by
      simp [covAfter, List.foldl_append]
    obtain ⟨s', h4, h5, h6⟩ := covConsume_ok L h2 G (rep_fn (h x (by simp)))
    refine ⟨s', ?_, by rw [e]; exact h5, fun _ => by rw [e]; exact h6⟩
    unfold covRun at h1 ⊢
    rw [foldlM_snoc, bind_ok _ h1]; exact h4

theorem actRun_ok (L : Lawful E els) (maxLag : Nat) (M : S) (xs : List S) (h : ∀ x ∈ xs, (els x).length = d)
    (habs : ∀ ys : List (Fin d → K), ∃ t, actAfter maxLag (fun _ => 0) ys = .ok t) :
    ∃ s t, actRun E maxLag M xs = .ok s ∧ actAfter maxLag (fun _ => 0) (xs.map (fn els d)) = .ok t ∧ RepACT maxLag els s t ∧
      (xs ≠ [] → t.n ≠ 0) := by
  induction xs using List.reverseRecOn with
  | nil =>
    exact ⟨⟨0, M, [], [], []⟩, ACTState.init (fun _ => 0), rfl, rfl, ⟨rfl, fun h => absurd rfl h, fun h => absurd rfl h, rfl,
      ⟨rfl, by intro i x hx; simp [ACTState.init] at hx⟩, ⟨rfl, by intro i x hx; simp [ACTState.init] at hx⟩⟩,
      fun h => absurd rfl h⟩
  | append_singleton xs x ih =>
    obtain ⟨s, t, h1, h2, h3, -⟩ := ih (fun y hy => h y (by simp [hy]))
    obtain ⟨t', ht'⟩ := habs ((xs ++ [x]).map (fn els d))
    have hstep : t.consume maxLag (fn els d x) = .ok t' := by
      rw [actAfter, List.map_append, List.map_singleton, foldlM_snoc] at ht'
      rw [actAfter] at h2
      rw [bind_ok _ h2] at ht'
      exact ht'
    obtain ⟨s', h4, h5, h6⟩ := actConsume_ok L maxLag h3 (rep_fn (h x (by simp))) hstep
    refine ⟨s', t', ?_, ht', h5, fun _ => h6⟩
    unfold actRun at h1 ⊢
    rw [foldlM_snoc, bind_ok _ h1]; exact h4

theorem acmRun_ok (L : Lawful E els) (maxLag : Nat) (G : Nat → Nat → Nat → K) (M : S) (xs : List S)
    (h : ∀ x ∈ xs, (els x).length = d)
    (habs : ∀ ys : List (Fin d → K), ∃ t, acmAfter maxLag (fun l (i j : Fin d) => G l i j) (fun _ => 0) ys = .ok t) :
    ∃ s t, acmRun E maxLag G M xs = .ok s ∧
      acmAfter maxLag (fun l (i j : Fin d) => G l i j) (fun _ => 0) (xs.map (fn els d)) = .ok t ∧ RepACM maxLag els s t ∧
      (xs ≠ [] → t.n ≠ 0) := by
  induction xs using List.reverseRecOn with
  | nil =>
    exact ⟨⟨0, M, [], [], [], []⟩, ACMState.init (fun _ => 0), rfl, rfl, ⟨rfl, fun h => absurd rfl h, fun h => absurd rfl h,
      fun h => absurd rfl h, ⟨rfl, by intro i x hx; simp [ACMState.init] at hx⟩⟩, fun h => absurd rfl h⟩
  | append_singleton xs x ih =>
    obtain ⟨s, t, h1, h2, h3, -⟩ := ih (fun y hy => h y (by simp [hy]))
    obtain ⟨t', ht'⟩ := habs ((xs ++ [x]).map (fn els d))
    have hstep : ACMState.consume maxLag (fun l (i j : Fin d) => G l i j) t (fn els d x) = .ok t' := by
      rw [acmAfter, List.map_append, List.map_singleton, foldlM_snoc] at ht'
      rw [acmAfter] at h2
      rw [bind_ok _ h2] at ht'
      exact ht'
    obtain ⟨s', h4, h5, h6⟩ := acmConsume_ok L maxLag G h3 (rep_fn (h x (by simp))) hstep
    refine ⟨s', t', ?_, ht', h5, fun _ => h6⟩
    unfold acmRun at h1 ⊢
    rw [foldlM_snoc, bind_ok _ h1]; exact h4

end SampleFlow.Dim
