import Verif.Proofs.Ergodic
import Verif.Proofs.Filters
import Mathlib.Tactic.NormNum
import Mathlib.Algebra.Order.BigOperators.Group.Finset

/-! Law of large numbers for the states of a Markov chain at chosen times. -/

namespace SampleFlow.Ergodic

variable {S : Type} [Fintype S] {P : S → S → ℝ}

omit [Fintype S] in
/-- weighted sum along a path; weights from position `k` on -/
def wsum (w : Nat → ℝ) (F : S → ℝ) : Nat → List S → ℝ
  | _, [] => 0
  | k, y :: l => w k * F y + wsum w F (k + 1) l

theorem expect_wsum (w : Nat → ℝ) (F : S → ℝ) (n : Nat) (h : Stochastic P) : ∀ (k : Nat) (x : S),
    expectPath P n (wsum w F k) x = ∑ i ∈ Finset.range n, w (k + i) * power P (i + 1) F x := by
  induction n with
  | zero => intro k x; simp [expectPath, wsum]
  | succ n ih =>
    intro k x
    simp only [expectPath]
    have e : ∀ y, expectPath P n (fun l => wsum w F k (y :: l)) y =
        w k * F y + ∑ i ∈ Finset.range n, w (k + 1 + i) * power P (i + 1) F y := by
      intro y
      rw [← ih (k + 1) y]
      have : (fun l => wsum w F k (y :: l)) = fun l => (fun _ : List S => w k * F y) l + wsum w F (k + 1) l := by funext l; rfl
      rw [this, expectPath_add, expectPath_const h]
    simp only [e, mul_add, Finset.sum_add_distrib]
    rw [Finset.sum_range_succ', add_comm]
    congr 1
    · simp only [Finset.mul_sum]
      rw [Finset.sum_comm]
      refine Finset.sum_congr rfl (fun i _ => ?_)
      have : k + (i + 1) = k + 1 + i := by ring
      rw [this]
      show _ = w (k + 1 + i) * ∑ y, P x y * power P (i + 1) F y
      rw [Finset.mul_sum]
      refine Finset.sum_congr rfl (fun y _ => by ring)
    · show _ = w (k + 0) * ∑ y, P x y * F y
      rw [Finset.mul_sum]
      refine Finset.sum_congr rfl (fun y _ => by simp only [add_zero]; ring)

theorem sum_pow_div (ρ : ℝ) (h0 : 0 ≤ ρ) (h1 : ρ < 1) (k : Nat) (hk : 1 ≤ k) (n : Nat) :
    ∑ i ∈ Finset.range n, ρ ^ ((i + 1) / k) ≤ 1 + k / (1 - ρ) := by
  have hpos : 0 < 1 - ρ := by linarith
  have geo : ∀ m : Nat, ∑ j ∈ Finset.range m, ρ ^ j ≤ 1 / (1 - ρ) := by
    intro m
    rw [le_div_iff₀ hpos]
    have : (∑ j ∈ Finset.range m, ρ ^ j) * (1 - ρ) = 1 - ρ ^ m := by
      induction m with
      | zero => simp
      | succ m ih => rw [Finset.sum_range_succ, add_mul, ih]; ring
    rw [this]
    have := pow_nonneg h0 m
    linarith
  have block : ∀ m : Nat, ∑ i ∈ Finset.range (k * m), ρ ^ (i / k) = k * ∑ j ∈ Finset.range m, ρ ^ j := by
    intro m
    induction m with
    | zero => simp
    | succ m ih =>
      rw [Nat.mul_succ, Finset.sum_range_add, ih, Finset.sum_range_succ, mul_add]
      congr 1
      have : ∀ x ∈ Finset.range k, ρ ^ ((k * m + x) / k) = ρ ^ m := by
        intro x hx
        rw [Finset.mem_range] at hx
        congr 1
        rw [Nat.mul_add_div (by omega), Nat.div_eq_of_lt hx, add_zero]
      rw [Finset.sum_congr rfl this, Finset.sum_const, Finset.card_range, nsmul_eq_mul]
  have shift : ∑ i ∈ Finset.range n, ρ ^ ((i + 1) / k) ≤ ∑ i ∈ Finset.range (n + 1), ρ ^ (i / k) := by
    rw [Finset.sum_range_succ' (fun i => ρ ^ (i / k))]
    have : 0 ≤ ρ ^ (0 / k) := pow_nonneg h0 _
    linarith
  have mono : ∑ i ∈ Finset.range (n + 1), ρ ^ (i / k) ≤ ∑ i ∈ Finset.range (k * (n + 1)), ρ ^ (i / k) := by
    refine Finset.sum_le_sum_of_subset_of_nonneg ?_ (fun i _ _ => pow_nonneg h0 _)
    intro i hi
    rw [Finset.mem_range] at hi ⊢
    calc i < n + 1 := hi
      _ ≤ k * (n + 1) := Nat.le_mul_of_pos_left _ (by omega)
  have := mul_le_mul_of_nonneg_left (geo (n + 1)) (Nat.cast_nonneg k : (0:ℝ) ≤ k)
  rw [block] at mono
  have e : (k : ℝ) * (1 / (1 - ρ)) = k / (1 - ρ) := by ring
  linarith

/-- the second moment of a weighted sum of a function with mean zero -/
theorem second_moment (h : Stochastic P) (w : Nat → ℝ) (hw : ∀ i, 0 ≤ w i ∧ w i ≤ 1) (F : S → ℝ) (M B : ℝ) (hM : ∀ x, |F x| ≤ M)
    (hB : ∀ (n k : Nat) (x : S), |expectPath P n (wsum w F k) x| ≤ B) (n : Nat) : ∀ (k : Nat) (x : S),
    expectPath P n (fun l => (wsum w F k l) ^ 2) x ≤ (M ^ 2 + 2 * M * B) * ∑ i ∈ Finset.range n, w (k + i) := by
  induction n with
  | zero => intro k x; simp [expectPath, wsum]
  | succ n ih =>
    intro k x
    simp only [expectPath]
    have hM0 : 0 ≤ M := (abs_nonneg _).trans (hM x)
    have e : ∀ y, expectPath P n (fun l => (wsum w F k (y :: l)) ^ 2) y ≤
        (M ^ 2 + 2 * M * B) * w k + (M ^ 2 + 2 * M * B) * ∑ i ∈ Finset.range n, w (k + 1 + i) := by
      intro y
      have e1 : (fun l => (wsum w F k (y :: l)) ^ 2) =
          fun l => ((fun _ : List S => (w k * F y) ^ 2) l + (2 * (w k * F y)) * wsum w F (k + 1) l) + (wsum w F (k + 1) l) ^ 2 := by
        funext l; simp only [wsum]; ring
      rw [e1, expectPath_add, expectPath_add, expectPath_const h, expectPath_mul]
      have hb := hB n (k + 1) y
      have hi := ih (k + 1) y
      have hwk := hw k
      have a1 : (w k * F y) ^ 2 ≤ M ^ 2 * w k := by
        have : (F y) ^ 2 ≤ M ^ 2 := by rw [← sq_abs]; exact pow_le_pow_left₀ (abs_nonneg _) (hM y) 2
        have h2 : (w k) ^ 2 ≤ w k := by nlinarith
        calc (w k * F y) ^ 2 = (w k) ^ 2 * (F y) ^ 2 := by ring
          _ ≤ w k * M ^ 2 := mul_le_mul h2 this (sq_nonneg _) hwk.1
          _ = _ := by ring
      have a2 : 2 * (w k * F y) * expectPath P n (wsum w F (k + 1)) y ≤ 2 * M * B * w k := by
        have : F y * expectPath P n (wsum w F (k + 1)) y ≤ M * B := by
          refine (le_abs_self _).trans ?_
          rw [abs_mul]
          exact mul_le_mul (hM y) hb (abs_nonneg _) hM0
        have := mul_le_mul_of_nonneg_left this hwk.1
        linarith
      linarith
    refine (Finset.sum_le_sum (fun y _ => mul_le_mul_of_nonneg_left (e y) (h.nonneg x y))).trans ?_
    rw [← Finset.sum_mul, h.sum, one_mul, Finset.sum_range_succ', add_zero]
    have : ∑ i ∈ Finset.range n, w (k + (i + 1)) = ∑ i ∈ Finset.range n, w (k + 1 + i) :=
      Finset.sum_congr rfl (fun i _ => by congr 1; ring)
    rw [this]
    linarith

omit [Fintype S] in
theorem wsum_keep (p : Nat → Prop) [DecidablePred p] (F : S → ℝ) (l : List S) : ∀ k,
    wsum (fun i => if p i then 1 else 0) F k l = ((keepFrom p k l).map F).sum := by
  induction l with
  | nil => intro k; rfl
  | cons y l ih =>
    intro k
    simp only [wsum, keepFrom, ih]
    by_cases hk : p k <;> simp [hk]

omit [Fintype S] in
theorem keep_length (p : Nat → Prop) [DecidablePred p] (l : List S) : ∀ k,
    ((keepFrom p k l).length : ℝ) = ∑ i ∈ Finset.range l.length, (if p (k + i) then (1:ℝ) else 0) := by
  induction l with
  | nil => intro k; simp [keepFrom]
  | cons y l ih =>
    intro k
    simp only [keepFrom, List.length_cons]
    rw [Finset.sum_range_succ']
    have : ∑ i ∈ Finset.range l.length, (if p (k + (i + 1)) then (1:ℝ) else 0) = ((keepFrom p (k + 1) l).length : ℝ) := by
      rw [ih]
      exact Finset.sum_congr rfl (fun i _ => by rw [show k + (i + 1) = k + 1 + i by ring])
    rw [this, add_zero]
    by_cases hk : p k <;> simp [hk]

/-- **Law of large numbers at chosen times.** -/
theorem mean_square_at (h : Stochastic P) (π : S → ℝ) (hπ0 : ∀ x, 0 ≤ π x) (hπ : 0 < ∑ x, π x) (hst : ∀ y, ∑ x, π x * P x y = π y) (k : Nat) (hk1 : 1 ≤ k) (y0 : S)
    (hk : ∀ x, 0 < arrive P k x y0) (f : S → ℝ) :
    ∃ K : ℝ, ∀ (p : Nat → Prop) [DecidablePred p] (n : Nat) (x : S) (N : Nat), 0 < N → (∀ l : List S, l.length = n → (keepFrom p 0 l).length = N) →
      expectPath P n (fun l => (((keepFrom p 0 l).map f).sum / N - (∑ x, π x * f x) / ∑ x, π x) ^ 2) x ≤ K / N := by
  have : Nonempty S := ⟨y0⟩
  obtain ⟨ρ, h0, h1, hconv⟩ := converges h π hπ0 hπ hst k y0 hk
  obtain ⟨m, hm⟩ : ∃ m, m = (∑ x, π x * f x) / ∑ x, π x := ⟨_, rfl⟩
  rw [← hm]
  obtain ⟨b, hb⟩ := Finite.exists_max (fun x : S => |f x - m|)
  obtain ⟨M, hMdef⟩ : ∃ M, M = |f b - m| := ⟨_, rfl⟩
  have hM0 : 0 ≤ M := hMdef ▸ abs_nonneg _
  have hM : ∀ x, |f x - m| ≤ M := fun x => hMdef ▸ hb x
  obtain ⟨B, hBdef⟩ : ∃ B, B = 2 * M * (1 + k / (1 - ρ)) := ⟨_, rfl⟩
  refine ⟨M ^ 2 + 2 * M * B, fun p _ n x N hN hlen => ?_⟩
  have hmean : (∑ x, π x * (f x - m)) / ∑ x, π x = 0 := by
    simp only [mul_sub, Finset.sum_sub_distrib, ← Finset.sum_mul, hm]
    rw [mul_div_cancel₀ _ hπ.ne', sub_self, zero_div]
  have hw : ∀ i, 0 ≤ (fun i => if p i then (1:ℝ) else 0) i ∧ (fun i => if p i then (1:ℝ) else 0) i ≤ 1 := by
    intro i; by_cases hi : p i <;> simp [hi]
  have hBound : ∀ (n j : Nat) (x : S), |expectPath P n (wsum (fun i => if p i then (1:ℝ) else 0) (fun x => f x - m) j) x| ≤ B := by
    intro n j x
    rw [expect_wsum _ _ _ h]
    refine (Finset.abs_sum_le_sum_abs _ _).trans ?_
    have each : ∀ i ∈ Finset.range n, |(if p (j + i) then (1:ℝ) else 0) * power P (i + 1) (fun x => f x - m) x| ≤ ρ ^ ((i + 1) / k) * (2 * M) := by
      intro i _
      have c := hconv (fun x => f x - m) (-M) (2 * M) (fun x => by have := abs_le.mp (hM x); constructor <;> linarith) (i + 1) x
      rw [hmean, sub_zero] at c
      rw [abs_mul]
      have : |(if p (j + i) then (1:ℝ) else 0)| ≤ 1 := by by_cases hi : p (j + i) <;> simp [hi]
      calc _ ≤ 1 * |power P (i + 1) (fun x => f x - m) x| := mul_le_mul_of_nonneg_right this (abs_nonneg _)
        _ ≤ _ := by rw [one_mul]; exact c
    refine (Finset.sum_le_sum each).trans ?_
    rw [← Finset.sum_mul, hBdef, mul_comm]
    exact mul_le_mul_of_nonneg_left (sum_pow_div ρ h0 h1 k hk1 n) (by linarith)
  have key := second_moment h _ hw (fun x => f x - m) M B hM hBound n 0 x
  have hNpos : (0:ℝ) < N := by exact_mod_cast hN
  have hcount : ∑ i ∈ Finset.range n, (if p (0 + i) then (1:ℝ) else 0) = N := by
    have := keep_length p (List.replicate n x) 0
    rw [hlen _ (by simp), List.length_replicate] at this
    exact this.symm
  rw [hcount] at key
  have e : ∀ l : List S, l.length = n → (((keepFrom p 0 l).map f).sum / N - m) ^ 2 =
      (1 / N ^ 2) * (wsum (fun i => if p i then (1:ℝ) else 0) (fun x => f x - m) 0 l) ^ 2 := by
    intro l hl
    rw [wsum_keep]
    have hs : ∀ l' : List S, (l'.map (fun x => f x - m)).sum = (l'.map f).sum - l'.length * m := by
      intro l'
      induction l' with
      | nil => simp
      | cons a l' ih => simp only [List.map_cons, List.sum_cons, ih, List.length_cons]; push_cast; ring
    rw [hs, hlen l hl]
    field_simp
  rw [expectPath_congr n _ _ x e, expectPath_mul]
  calc (1 / (N:ℝ) ^ 2) * _ ≤ (1 / (N:ℝ) ^ 2) * ((M ^ 2 + 2 * M * B) * N) := mul_le_mul_of_nonneg_left key (by positivity)
    _ = _ := by field_simp

end SampleFlow.Ergodic
