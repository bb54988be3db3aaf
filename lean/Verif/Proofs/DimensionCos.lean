import Verif.Model.DimensionCos
import Verif.Proofs.Dimension
import Verif.Proofs.SimpleConsumers

namespace SampleFlow.Dim

theorem setRow_ok (m : Mat ℝ) (r d : Nat) {src : Nat → Except Fault ℝ} (v : Nat → ℝ) (hr : r < m.rows) (hd : d ≤ m.cols)
    (hs : ∀ j, j < d → src j = .ok (v j)) :
    ∃ m', m.setRow r d src = .ok m' ∧ m'.rows = m.rows ∧ m'.cols = m.cols ∧
      ∀ a b, m'.entry a b = if a = r ∧ b < d then v b else m.entry a b := by
  unfold Mat.setRow
  refine loop_inv (fun j (x : Mat ℝ) => x.rows = m.rows ∧ x.cols = m.cols ∧
      ∀ a b, x.entry a b = if a = r ∧ b < j then v b else m.entry a b) d ⟨rfl, rfl, fun a b => by rw [if_neg (by omega)]⟩ ?_
  rintro j x hj ⟨h1, h2, h3⟩
  refine ⟨{ x with entry := fun a b => if a = r ∧ b = j then v j else x.entry a b }, ?_, h1, h2, ?_⟩
  · rw [bind_ok _ (hs j hj), Mat.put, h1, h2, if_pos ⟨hr, by omega⟩]
  · intro a b
    simp only [h3]
    by_cases e : a = r ∧ b = j
    · rw [if_pos e, if_pos ⟨e.1, by omega⟩, e.2]
    · rw [if_neg e]
      by_cases e' : a = r ∧ b < j
      · rw [if_pos e', if_pos ⟨e'.1, by omega⟩]
      · rw [if_neg e', if_neg (by rintro ⟨h, h'⟩; exact e' ⟨h, by by_contra hh; exact e ⟨h, by omega⟩⟩)]

theorem setRow_err (m : Mat ℝ) (r d : Nat) {src : Nat → Except Fault ℝ} (v : Nat → ℝ) (hd : m.cols < d)
    (hs : ∀ j, j < d → src j = .ok (v j)) : ∃ e, m.setRow r d src = .error e := by
  by_contra hc
  cases hm : m.setRow r d src with
  | error e => exact hc ⟨e, hm⟩
  | ok m' =>
    have key : ∀ k ≤ d, ∀ x, loop k m (fun j m => do let x ← src j; m.put r j x) = .ok x → x.cols = m.cols ∧ k ≤ m.cols := by
      intro k
      induction k with
      | zero => intro _ x hx; cases hx; exact ⟨rfl, Nat.zero_le _⟩
      | succ k ih =>
        intro hk x hx
        unfold loop at hx
        rw [List.range_succ, foldlM_snoc] at hx
        obtain ⟨y, h1, h2⟩ := bind_ok_inv hx
        obtain ⟨h3, h4⟩ := ih (by omega) y h1
        simp only [bind_ok _ (hs k (by omega)), Mat.put] at h2
        split at h2
        · rename_i hb
          cases h2
          exact ⟨h3, by omega⟩
        · cases h2
    have := (key d le_rfl m' hm).2
    omega

theorem cosSums_ok (prev : Mat ℝ) (sample : List ℝ) (i : Nat) (hi : i < prev.rows) (hd : sample.length ≤ prev.cols) :
    cosSums prev sample i = .ok (∑ j ∈ Finset.range sample.length, sample.getD j 0 * prev.entry i j,
      ∑ j ∈ Finset.range sample.length, sample.getD j 0 * sample.getD j 0,
      ∑ j ∈ Finset.range sample.length, prev.entry i j * prev.entry i j) := by
  obtain ⟨x, h1, h2⟩ := loop_inv (fun k (x : ℝ × ℝ × ℝ) => x = (∑ j ∈ Finset.range k, sample.getD j 0 * prev.entry i j,
      ∑ j ∈ Finset.range k, sample.getD j 0 * sample.getD j 0, ∑ j ∈ Finset.range k, prev.entry i j * prev.entry i j))
    (body := fun j (acc : ℝ × ℝ × ℝ) => do
      let x ← readAt sample j
      let p ← prev.at i j
      return (acc.1 + x * p, acc.2.1 + x * x, acc.2.2 + p * p)) (s := (0, 0, 0)) sample.length (by simp) (by
    intro j x hj hx
    have e1 : readAt sample j = .ok (sample.getD j 0) := by
      rw [readAt_ok, List.getD_eq_getElem?_getD, List.getElem?_eq_getElem hj]; rfl
    have e2 : prev.at i j = .ok (prev.entry i j) := by rw [Mat.at, if_pos ⟨hi, by omega⟩]
    refine ⟨_, by rw [bind_ok _ e1, bind_ok _ e2]; rfl, ?_⟩
    rw [Finset.sum_range_succ, Finset.sum_range_succ, Finset.sum_range_succ, hx])
  unfold cosSums
  rw [h1, h2]

theorem read_sample (sample : List ℝ) : ∀ j, j < sample.length → readAt sample j = .ok (sample.getD j 0) := by
  intro j hj
  rw [readAt_ok, List.getD_eq_getElem?_getD, List.getElem?_eq_getElem hj]; rfl

/-- The new averages. -/
noncomputable def newAvg (n : Nat) (prev : Mat ℝ) (sample : List ℝ) (i : Nat) (a : ℝ) : ℝ :=
  a + ((∑ j ∈ Finset.range sample.length, sample.getD j 0 * prev.entry i j) /
      Real.sqrt ((∑ j ∈ Finset.range sample.length, sample.getD j 0 * sample.getD j 0) *
        (∑ j ∈ Finset.range sample.length, prev.entry i j * prev.entry i j)) - a) / ((n - i - 1 : Nat) : ℝ)

theorem wrap (bits H : Nat) (hH : 1 ≤ H) (hb : H < 2^bits) : (H + (2^bits - 1)) % 2^bits = H - 1 := by
  have : H + (2^bits - 1) = (H - 1) + 2^bits := by omega
  rw [this, Nat.add_mod_right, Nat.mod_eq_of_lt (by omega)]

/-- Shape of a state after the first sample, which had `d` elements. -/
structure Shape (H d : Nat) (s : CosObj) : Prop where
  n : s.n ≠ 0
  avg : s.avg.length = H
  prow : s.prev.rows = H
  pcol : s.prev.cols = d
  rrow : s.repl.rows = H
  rcol : s.repl.cols = d

theorem first_ok (bits H : Nat) (hH : 1 ≤ H) (G1 G2 : Nat → Nat → ℝ) (s : CosObj) (h0 : s.n = 0) (sample : List ℝ) :
    ∃ s', cosConsume bits H G1 G2 s sample = .ok s' ∧ Shape H sample.length s' ∧ s'.n = 1 ∧ s'.avg = List.replicate H 0 ∧
      (∀ a b, s'.prev.entry a b = if a = 0 ∧ b < sample.length then sample.getD b 0 else G1 a b) ∧ s'.repl.entry = G2 := by
  obtain ⟨m, h1, h2, h3, h4⟩ := setRow_ok (Mat.resized H sample.length G1) 0 sample.length (fun j => sample.getD j 0)
    (show 0 < H by omega) le_rfl (read_sample sample)
  unfold cosConsume
  rw [if_pos h0]
  refine ⟨⟨1, List.replicate H 0, m, Mat.resized H sample.length G2⟩, by rw [bind_ok _ h1]; rfl, ?_, rfl, rfl, h4, rfl⟩
  exact ⟨by simp, by simp, h2, h3, rfl, rfl⟩

theorem next_ok (bits H : Nat) (hH : 1 ≤ H) (hb : H < 2^bits) (G1 G2 : Nat → Nat → ℝ) {d : Nat} (s : CosObj) (hs : Shape H d s) (sample : List ℝ)
    (hd : sample.length ≤ d) :
    ∃ s', cosConsume bits H G1 G2 s sample = .ok s' ∧ Shape H d s' ∧ s'.n = s.n + 1 ∧
      (∀ i, i < H → s'.avg.getD i 0 = if i < min (s.n % 2^bits) H then newAvg (s.n + 1) s.prev sample i (s.avg.getD i 0) else s.avg.getD i 0) ∧
      s'.prev = s'.repl ∧
      (∀ a b, a < H → b < sample.length → s'.repl.entry a b = if a = 0 then sample.getD b 0
        else if a - 1 < min (s.n % 2^bits) (H - 1) then s.prev.entry (a - 1) b else s.repl.entry a b) ∧
      (∀ a b, sample.length ≤ b → s'.repl.entry a b = s.repl.entry a b) := by
  have hl1 : min (s.n % 2^bits) H ≤ H := by omega
  obtain ⟨avg, a1, a2, a3⟩ := loop_inv (fun k (x : List ℝ) => x.length = H ∧ ∀ i, i < H → x.getD i 0 =
      if i < k then newAvg (s.n + 1) s.prev sample i (s.avg.getD i 0) else s.avg.getD i 0)
    (body := fun i avg => do
      let (update, norm1, norm2) ← cosSums s.prev sample i
      let update := update / Real.sqrt (norm1 * norm2)
      let a ← readAt avg i
      let update := update - a
      let update := update / ((s.n + 1 - i - 1 : Nat) : ℝ)
      writeAt avg i (a + update)) (s := s.avg) (min (s.n % 2^bits) H) ⟨hs.avg, fun i _ => by rw [if_neg (by omega)]⟩ (by
    rintro k x hk ⟨hx1, hx2⟩
    have hkH : k < H := by omega
    have e1 := cosSums_ok s.prev sample k (by rw [hs.prow]; exact hkH) (by rw [hs.pcol]; exact hd)
    have e2 : readAt x k = .ok (s.avg.getD k 0) := by
      have := hx2 k hkH
      rw [if_neg (by omega)] at this
      rw [read_sample x k (by omega), this]
    refine ⟨x.set k (newAvg (s.n + 1) s.prev sample k (s.avg.getD k 0)), ?_, by simp [hx1], ?_⟩
    · rw [bind_ok _ e1]
      dsimp only
      rw [bind_ok _ e2, writeAt, if_pos (by omega)]
      rfl
    · intro i hi
      rw [List.getD_eq_getElem?_getD, List.getElem?_set]
      by_cases e : k = i
      · subst e
        simp [hx1, hkH]
      · rw [if_neg e, ← List.getD_eq_getElem?_getD, hx2 i hi]
        by_cases h : i < k
        · rw [if_pos h, if_pos (by omega)]
        · rw [if_neg h, if_neg (by omega)])
  have hl2 := wrap bits H hH hb
  obtain ⟨r1, b1, b2, b3, b4⟩ := loop_inv (fun k (x : Mat ℝ) => x.rows = H ∧ x.cols = d ∧ ∀ a b, x.entry a b =
      if 1 ≤ a ∧ a - 1 < k ∧ b < sample.length then s.prev.entry (a - 1) b else s.repl.entry a b)
    (body := fun i repl => repl.setRow (i+1) sample.length (fun j => s.prev.at i j)) (s := s.repl) (min (s.n % 2^bits) (H - 1))
    ⟨hs.rrow, hs.rcol, fun a b => by rw [if_neg (by omega)]⟩ (by
    rintro k x hk ⟨hx1, hx2, hx3⟩
    obtain ⟨m', m1, m2, m3, m4⟩ := setRow_ok x (k+1) sample.length (src := fun j => s.prev.at k j) (fun j => s.prev.entry k j) (by omega) (by omega)
      (fun j hj => by rw [Mat.at, if_pos ⟨by rw [hs.prow]; omega, by rw [hs.pcol]; omega⟩])
    refine ⟨m', m1, by omega, by omega, ?_⟩
    intro a b
    rw [m4, hx3]
    by_cases e : a = k + 1 ∧ b < sample.length
    · rw [if_pos e, if_pos (by omega), e.1]; rfl
    · rw [if_neg e]
      by_cases e' : 1 ≤ a ∧ a - 1 < k ∧ b < sample.length
      · rw [if_pos e', if_pos (by omega)]
      · rw [if_neg e', if_neg (by rintro ⟨q1, q2, q3⟩; exact e' ⟨q1, by by_contra hh; exact e ⟨by omega, q3⟩, q3⟩)])
  obtain ⟨r2, c1, c2, c3, c4⟩ := setRow_ok r1 0 sample.length (fun j => sample.getD j 0) (by omega) (by omega) (read_sample sample)
  refine ⟨⟨s.n + 1, avg, r2, r2⟩, ?_, ⟨by simp, a2, by simp; omega, by simp; omega, by simp; omega, by simp; omega⟩, rfl, a3, rfl, ?_, ?_⟩
  · unfold cosConsume
    rw [if_neg hs.n]
    dsimp only
    rw [hl2, bind_ok _ a1, bind_ok _ b1, bind_ok _ c1]
    rfl
  · intro a b ha hb'
    show r2.entry a b = _
    rw [c4, b4]
    by_cases h0 : a = 0
    · rw [if_pos ⟨h0, hb'⟩, if_pos h0]
    · rw [if_neg (by rintro ⟨h, -⟩; exact h0 h), if_neg h0]
      by_cases h1 : a - 1 < min (s.n % 2^bits) (H - 1)
      · rw [if_pos h1, if_pos (by omega)]
      · rw [if_neg h1, if_neg (by omega)]
  · intro a b hb'
    show r2.entry a b = _
    rw [c4, b4, if_neg (by omega), if_neg (by omega)]

theorem next_err (bits H : Nat) (hH : 1 ≤ H) (hb : H < 2^bits) (G1 G2 : Nat → Nat → ℝ) {d : Nat} (s : CosObj) (hs : Shape H d s) (sample : List ℝ)
    (hd : d < sample.length) : ∃ e, cosConsume bits H G1 G2 s sample = .error e := by
  unfold cosConsume
  rw [if_neg hs.n]
  dsimp only
  refine bind_err _ _ fun avg => ?_
  have hl2 := wrap bits H hH hb
  rw [hl2]
  by_contra hc
  have key : ∀ k x, loop k s.repl (fun i repl => repl.setRow (i+1) sample.length (fun j => s.prev.at i j)) = .ok x → x.cols = d := by
    intro k
    induction k with
    | zero => intro x hx; cases hx; exact hs.rcol
    | succ k ih =>
      intro x hx
      unfold loop at hx
      rw [List.range_succ, foldlM_snoc] at hx
      obtain ⟨y, h1, h2⟩ := bind_ok_inv hx
      have hy := ih y h1
      have inner : ∀ k' x', loop k' y (fun j m => do let x ← s.prev.at k j; m.put (k+1) j x) = .ok x' → x'.cols = d := by
        intro k'
        induction k' with
        | zero => intro x' hx'; cases hx'; exact hy
        | succ k' ih' =>
          intro x' hx'
          unfold loop at hx'
          rw [List.range_succ, foldlM_snoc] at hx'
          obtain ⟨z, h3, h4⟩ := bind_ok_inv hx'
          have hz := ih' z h3
          obtain ⟨p, h5, h6⟩ := bind_ok_inv h4
          unfold Mat.put at h6
          split at h6
          · cases h6; exact hz
          · cases h6
      exact inner _ _ h2
  apply hc
  cases hr : loop (min (s.n % 2^bits) (H - 1)) s.repl (fun i repl => repl.setRow (i+1) sample.length (fun j => s.prev.at i j)) with
  | error e => exact ⟨e, rfl⟩
  | ok r =>
    obtain ⟨e, he⟩ := setRow_err r 0 sample.length (fun j => sample.getD j 0) (by rw [key _ _ hr]; exact hd) (read_sample sample)
    exact ⟨e, by rw [bind_ok _ rfl, he]; rfl⟩

theorem run_shape (bits H : Nat) (hH : 1 ≤ H) (hb : H < 2^bits) (G1 G2 : Nat → Nat → ℝ) (x : List ℝ) (xs : List (List ℝ)) :
    (∀ y ∈ xs, y.length ≤ x.length) → ∃ s, cosRun bits H G1 G2 (x :: xs) = .ok s ∧ Shape H x.length s := by
  unfold cosRun
  rw [List.foldlM_cons]
  obtain ⟨s, h1, h2, -⟩ := first_ok bits H hH G1 G2 ⟨0, [], ⟨0, 0, G1⟩, ⟨0, 0, G2⟩⟩ rfl x
  rw [bind_ok _ h1]
  clear h1
  revert s
  induction xs with
  | nil => intro s h2 _; exact ⟨s, rfl, h2⟩
  | cons y ys ih =>
    intro s h2 hx
    obtain ⟨s', h3, h4, -⟩ := next_ok bits H hH hb G1 G2 s h2 y (hx y (by simp))
    rw [List.foldlM_cons, bind_ok _ h3]
    exact ih s' h4 (fun z hz => hx z (by simp [hz]))

theorem run_iff (bits H : Nat) (hH : 1 ≤ H) (hb : H < 2^bits) (G1 G2 : Nat → Nat → ℝ) (x : List ℝ) (xs : List (List ℝ)) :
    (∃ s, cosRun bits H G1 G2 (x :: xs) = .ok s) ↔ ∀ y ∈ xs, y.length ≤ x.length := by
  constructor
  · rintro ⟨s, hs⟩
    induction xs using List.reverseRecOn generalizing s with
    | nil => simp
    | append_singleton xs y ih =>
      unfold cosRun at hs
      rw [← List.cons_append, foldlM_snoc] at hs
      obtain ⟨s', h1, h2⟩ := bind_ok_inv hs
      have h3 := ih s' h1
      obtain ⟨s'', h4, h5⟩ := run_shape bits H hH hb G1 G2 x xs h3
      unfold cosRun at h4
      rw [h1] at h4
      cases h4
      intro z hz
      rcases List.mem_append.mp hz with hz | hz
      · exact h3 z hz
      · simp only [List.mem_singleton] at hz
        subst hz
        by_contra hc
        obtain ⟨e, he⟩ := next_err bits H hH hb G1 G2 s' h5 z (by omega)
        rw [he] at h2
        cases h2
  · intro h
    obtain ⟨s, h1, -⟩ := run_shape bits H hH hb G1 G2 x xs h
    exact ⟨s, h1⟩

/-- `s` and `t` hold the same values. -/
structure RepCos (H : Nat) {d : Nat} (s : CosObj) (t : CosState (Fin d)) : Prop where
  n : s.n = t.n
  shape : Shape H d s
  avg : ∀ i, i < H → s.avg.getD i 0 = t.avg i
  prev : ∀ i (j : Fin d), i < H → s.prev.entry i j = t.prev i j
  repl : ∀ i (j : Fin d), i < H → s.repl.entry i j = t.repl i j

theorem sum_range_fin {d : Nat} (f : Nat → ℝ) : ∑ j ∈ Finset.range d, f j = ∑ j : Fin d, f j := Finset.sum_range f

theorem next_rep (bits H : Nat) (hH : 1 ≤ H) (hb : H < 2^bits) (G1 G2 : Nat → Nat → ℝ) {d : Nat} (s : CosObj) (t : CosState (Fin d))
    (R : RepCos H s t) (sample : List ℝ) (hd : sample.length = d) :
    ∃ s' t', cosConsume bits H G1 G2 s sample = .ok s' ∧
      CosState.consume bits H (fun i (j : Fin d) => G1 i j) (fun i j => G2 i j) t (fn id d sample) = .ok t' ∧ RepCos H s' t' := by
  obtain ⟨s', h1, h2, h3, h4, h5, h6, h7⟩ := next_ok bits H hH hb G1 G2 s R.shape sample hd.le
  have hb' : ¬ (H < min (t.n % 2^bits) H ∨ H < min (t.n % 2^bits) (H - 1) + 1) := by omega
  have hfn : ∀ j : Fin d, sample.getD j 0 = fn id d sample j := fun j => rfl
  have ht : CosState.consume bits H (fun i (j : Fin d) => G1 i j) (fun i j => G2 i j) t (fn id d sample) =
      .ok ⟨t.n + 1, fun i => if i < min (t.n % 2^bits) H then
          t.avg i + (cosine (fn id d sample) (t.prev i) - t.avg i) / (((t.n + 1 : Nat) : ℝ) - i - 1) else t.avg i,
        fun k => if k = 0 then fn id d sample else if k - 1 < min (t.n % 2^bits) (H - 1) then t.prev (k - 1) else t.repl k,
        fun k => if k = 0 then fn id d sample else if k - 1 < min (t.n % 2^bits) (H - 1) then t.prev (k - 1) else t.repl k⟩ := by
    simp only [CosState.consume, if_neg (show H ≠ 0 by omega), if_neg (show ¬ t.n = 0 by rw [← R.n]; exact R.shape.n), if_neg hb']
  refine ⟨s', _, h1, ht, ?_⟩
  have rr : ∀ i (j : Fin d), i < H → s'.repl.entry i j =
      (fun k => if k = 0 then fn id d sample else if k - 1 < min (t.n % 2^bits) (H - 1) then t.prev (k - 1) else t.repl k) i j := by
    intro i j hi
    rw [h6 i j hi (by rw [hd]; exact j.2)]
    beta_reduce
    by_cases h0 : i = 0
    · rw [if_pos h0, if_pos h0]; exact hfn j
    · rw [if_neg h0, if_neg h0, R.n]
      by_cases hc : i - 1 < min (t.n % 2^bits) (H - 1)
      · rw [if_pos hc, if_pos hc]; exact R.prev (i-1) j (by omega)
      · rw [if_neg hc, if_neg hc]; exact R.repl i j hi
  refine ⟨by rw [h3, R.n], h2, ?_, ?_, rr⟩
  · intro i hi
    rw [h4 i hi, R.n]
    beta_reduce
    show _ = if i < min (t.n % 2^bits) H then _ else _
    by_cases hc : i < min (t.n % 2^bits) H
    · rw [if_pos hc, if_pos hc, newAvg, R.avg i hi, hd, sum_range_fin, sum_range_fin, sum_range_fin, cosine]
      have e1 : (∑ j : Fin d, sample.getD j 0 * s.prev.entry i j) = ∑ j, fn id d sample j * t.prev i j :=
        Finset.sum_congr rfl fun j _ => by rw [hfn, R.prev i j hi]
      have e2 : (∑ j : Fin d, sample.getD j 0 * sample.getD j 0) = ∑ j, fn id d sample j * fn id d sample j :=
        Finset.sum_congr rfl fun j _ => by rw [hfn]
      have e3 : (∑ j : Fin d, s.prev.entry i j * s.prev.entry i j) = ∑ j, t.prev i j * t.prev i j :=
        Finset.sum_congr rfl fun j _ => by rw [R.prev i j hi]
      have : t.n % 2^bits ≤ t.n := Nat.mod_le _ _
      rw [e1, e2, e3, Nat.cast_sub (by omega), Nat.cast_sub (by omega)]
      push_cast
      rfl
    · rw [if_neg hc, if_neg hc, R.avg i hi]
  · intro i j hi
    rw [h5]
    exact rr i j hi

theorem first_rep (bits H : Nat) (hH : 1 ≤ H) (G1 G2 : Nat → Nat → ℝ) (s : CosObj) (h0 : s.n = 0) (sample : List ℝ) (d : Nat) (hd : sample.length = d)
    (t : CosState (Fin d)) (ht : t.n = 0) :
    ∃ s' t', cosConsume bits H G1 G2 s sample = .ok s' ∧
      CosState.consume bits H (fun i (j : Fin d) => G1 i j) (fun i j => G2 i j) t (fn id d sample) = .ok t' ∧ RepCos H s' t' := by
  obtain ⟨s', h1, h2, h3, h4, h5, h6⟩ := first_ok bits H hH G1 G2 s h0 sample
  subst hd
  have ht' : CosState.consume bits H (fun i (j : Fin sample.length) => G1 i j) (fun i j => G2 i j) t (fn id sample.length sample) =
      .ok ⟨1, fun _ => 0, fun i => if i = 0 then fn id sample.length sample else fun j => G1 i j, fun i j => G2 i j⟩ := by
    simp only [CosState.consume, if_neg (show H ≠ 0 by omega), if_pos ht]
  refine ⟨s', _, h1, ht', h3, h2, ?_, ?_, ?_⟩
  · intro i hi
    rw [h4, List.getD_eq_getElem?_getD, List.getElem?_replicate_of_lt hi]
    rfl
  · intro i j hi
    rw [h5]
    dsimp only
    by_cases e : i = 0
    · rw [if_pos ⟨e, j.2⟩, if_pos e]; rfl
    · rw [if_neg (by rintro ⟨h, -⟩; exact e h), if_neg e]
  · intro i j _
    rw [h6]

theorem run_rep (bits H : Nat) (hH : 1 ≤ H) (hb : H < 2^bits) (G1 G2 : Nat → Nat → ℝ) (d : Nat) (A₀ : Nat → ℝ) (xs : List (List ℝ)) (hne : xs ≠ [])
    (hd : ∀ x ∈ xs, x.length = d) :
    ∃ s t, cosRun bits H G1 G2 xs = .ok s ∧ cosAfter bits H A₀ (fun i (j : Fin d) => G1 i j) (fun i j => G2 i j) (xs.map (fn id d)) = .ok t ∧
      RepCos H s t := by
  induction xs using List.reverseRecOn with
  | nil => exact absurd rfl hne
  | append_singleton xs x ih =>
    unfold cosRun cosAfter
    rw [List.map_append, List.map_cons, List.map_nil, foldlM_snoc, foldlM_snoc]
    by_cases hx : xs = []
    · subst hx
      obtain ⟨s', t', h1, h2, h3⟩ := first_rep bits H hH G1 G2 ⟨0, [], ⟨0, 0, G1⟩, ⟨0, 0, G2⟩⟩ rfl x d (hd x (by simp))
        (⟨0, A₀, fun i (j : Fin d) => G1 i j, fun i j => G2 i j⟩ : CosState (Fin d)) rfl
      exact ⟨s', t', h1, h2, h3⟩
    · obtain ⟨s, t, h1, h2, h3⟩ := ih hx (fun y hy => hd y (by simp [hy]))
      unfold cosRun at h1
      unfold cosAfter at h2
      obtain ⟨s', t', h4, h5, h6⟩ := next_rep bits H hH hb G1 G2 s t h3 x (hd x (by simp))
      exact ⟨s', t', by rw [bind_ok _ h1, h4], by rw [bind_ok _ h2, h5], h6⟩

end SampleFlow.Dim
