import Verif.Props.DECrossover
import Verif.Props.DifferentialEvaluation

/-! Means of all samples of all chains of a run of the differential evaluation sampler. -/

set_option linter.unusedSimpArgs false

namespace SampleFlow

open Spec MeasureTheory Ergodic

/-! ### chains -/

namespace Ergodic
variable {S : Type} [Fintype S] {P : S → S → ℝ}

/-- `martingale` with a bound for the mean of the squares of the increments -/
theorem martingale_mean (h : Stochastic P) (f g : S → ℝ) (hfg : ∀ x, g x - app P g x = f x) (C : ℝ)
    (hC : ∀ x, ∑ y, P x y * (g y - app P g x) ^ 2 ≤ C) (n : Nat) : ∀ (s : ℝ) (x : S),
    expectPath P n (fun l => (s + (l.map f).sum + app P g (lastOf x l)) ^ 2) x ≤ (s + app P g x) ^ 2 + n * C := by
  induction n with
  | zero => intro s x; simp [expectPath, lastOf]
  | succ n ih =>
    intro s x
    simp only [expectPath]
    have e : ∀ y, expectPath P n (fun l => (s + ((y :: l).map f).sum + app P g (lastOf x (y :: l))) ^ 2) y ≤
        (s + g y) ^ 2 + n * C := by
      intro y
      have := ih (s + f y) y
      have e2 : s + f y + app P g y = s + g y := by rw [← hfg y]; ring
      rw [e2] at this
      refine le_trans (le_of_eq ?_) this
      refine expectPath_congr n _ _ y (fun l _ => ?_)
      have : lastOf x (y :: l) = lastOf y l := by
        unfold lastOf; rw [List.getLastD_cons]
      rw [this, List.map_cons, List.sum_cons]
      ring
    refine (Finset.sum_le_sum (fun y _ => mul_le_mul_of_nonneg_left (e y) (h.nonneg x y))).trans ?_
    have e3 : ∀ y, P x y * ((s + g y) ^ 2 + n * C) = (s + app P g x) ^ 2 * P x y + 2 * (s + app P g x) * (P x y * g y)
        - 2 * (s + app P g x) * app P g x * P x y + P x y * (g y - app P g x) ^ 2 + (n * C) * P x y := by
      intro y; ring
    simp only [e3, Finset.sum_add_distrib, Finset.sum_sub_distrib, ← Finset.mul_sum, h.sum]
    have e4 := hC x
    have e5 : ∑ y, P x y * g y = app P g x := rfl
    rw [e5]
    push_cast
    linarith

/-- the mean square of the mean of a function that solves the Poisson equation -/
theorem mean_square_of (h : Stochastic P) (f g : S → ℝ) (hfg : ∀ x, g x - app P g x = f x) (C B : ℝ)
    (hC : ∀ x, ∑ y, P x y * (g y - app P g x) ^ 2 ≤ C) (hB : ∀ x, (app P g x) ^ 2 ≤ B) (n : Nat) (hn : 1 ≤ n) (x : S) :
    expectPath P n (fun l => ((l.map f).sum / n) ^ 2) x ≤ 2 * C / n + 4 * B / n ^ 2 := by
  have hn' : (1 : ℝ) ≤ n := by exact_mod_cast hn
  have hpos : (0 : ℝ) < n := by linarith
  have key := martingale_mean h f g hfg C hC n 0 x
  have hle : expectPath P n (fun l => ((l.map f).sum / n) ^ 2) x ≤
      expectPath P n (fun l => (1 / n ^ 2) * (2 * (0 + (l.map f).sum + app P g (lastOf x l)) ^ 2 + 2 * B)) x := by
    refine expectPath_mono h n _ _ x (fun l hl => ?_)
    have e1 : ((l.map f).sum / n) ^ 2 = (1 / n ^ 2) * ((l.map f).sum) ^ 2 := by field_simp
    rw [e1]
    refine mul_le_mul_of_nonneg_left ?_ (by positivity)
    have e2 := hB (lastOf x l)
    nlinarith [sq_nonneg ((l.map f).sum + 2 * app P g (lastOf x l))]
  refine hle.trans ?_
  rw [expectPath_mul, expectPath_add, expectPath_mul, expectPath_const h]
  have hx := hB x
  simp only [zero_add] at key ⊢
  have e : 2 * C / n + 4 * B / (n:ℝ) ^ 2 = (1 / (n:ℝ) ^ 2) * (2 * (B + n * C) + 2 * B) := by field_simp; ring
  rw [e]
  refine mul_le_mul_of_nonneg_left ?_ (by positivity)
  linarith

/-- the mean including the starting point -/
theorem mean_square_start (h : Stochastic P) (π : S → ℝ) (hπ : 0 < ∑ x, π x) (hst : ∀ y, ∑ x, π x * P x y = π y) (y0 : S)
    (hr : ∀ x, Relation.ReflTransGen (fun a b => 0 < P a b) x y0) (f : S → ℝ) (m : ℝ) (hm : m = (∑ x, π x * f x) / ∑ x, π x) :
    ∃ K : ℝ, ∀ (n : Nat) (x : S), expectPath P n (fun l => (((x :: l).map (fun y => f y - m)).sum / (n + 1)) ^ 2) x ≤ K / (n + 1) := by
  have : Nonempty S := ⟨y0⟩
  obtain ⟨g, hg⟩ := poisson h π hπ hst y0 hr (fun x => f x - m) (by
    simp only [mul_sub, Finset.sum_sub_distrib, ← Finset.sum_mul, hm]
    rw [mul_div_cancel₀ _ hπ.ne', sub_self])
  obtain ⟨p, hp⟩ := Finite.exists_max (fun p : S × S => (g p.2 - app P g p.1) ^ 2)
  obtain ⟨b, hb⟩ := Finite.exists_max (fun x : S => (app P g x) ^ 2)
  obtain ⟨a, ha⟩ := Finite.exists_max (fun x : S => (g x) ^ 2)
  refine ⟨2 * (g a) ^ 2 + 2 * (g p.2 - app P g p.1) ^ 2 + 2 * (app P g b) ^ 2, fun n x => ?_⟩
  have key := martingale h (fun x => f x - m) g hg _ (fun x y => hp (x, y)) n (f x - m) x
  have hgx : f x - m + app P g x = g x := by rw [← hg x]; ring
  rw [hgx] at key
  have hn : (0:ℝ) ≤ n := Nat.cast_nonneg n
  have hle : expectPath P n (fun l => (((x :: l).map (fun y => f y - m)).sum / (n + 1)) ^ 2) x ≤
      expectPath P n (fun l => (1 / ((n:ℝ) + 1) ^ 2) * (2 * (f x - m + (l.map (fun x => f x - m)).sum + app P g (lastOf x l)) ^ 2 + 2 * (app P g b) ^ 2)) x := by
    refine expectPath_mono h n _ _ x (fun l hl => ?_)
    have e1 : (((x :: l).map (fun y => f y - m)).sum / ((n:ℝ) + 1)) ^ 2 = (1 / ((n:ℝ) + 1) ^ 2) * (f x - m + (l.map (fun x => f x - m)).sum) ^ 2 := by
      rw [List.map_cons, List.sum_cons]; field_simp
    rw [e1]
    refine mul_le_mul_of_nonneg_left ?_ (by positivity)
    have e2 := hb (lastOf x l)
    nlinarith [sq_nonneg (f x - m + (l.map (fun x => f x - m)).sum + 2 * app P g (lastOf x l))]
  refine hle.trans ?_
  rw [expectPath_mul, expectPath_add, expectPath_mul, expectPath_const h]
  have hx := ha x
  have hC0 : 0 ≤ (g p.2 - app P g p.1) ^ 2 := sq_nonneg _
  have hB0 : 0 ≤ (app P g b) ^ 2 := sq_nonneg _
  have hA0 : 0 ≤ (g a) ^ 2 := sq_nonneg _
  rw [div_mul_eq_mul_div, one_mul, div_le_div_iff₀ (by positivity) (by positivity)]
  have e1 : 2 * expectPath P n (fun l => (f x - m + (l.map (fun x => f x - m)).sum + app P g (lastOf x l)) ^ 2) x + 2 * (app P g b) ^ 2 ≤
      (2 * (g a) ^ 2 + 2 * (g p.2 - app P g p.1) ^ 2 + 2 * (app P g b) ^ 2) * (n + 1) := by
    have h1 : 0 ≤ (g a) ^ 2 * n := by positivity
    have h2 : 0 ≤ (app P g b) ^ 2 * n := by positivity
    linarith
  calc _ ≤ (2 * (g a) ^ 2 + 2 * (g p.2 - app P g p.1) ^ 2 + 2 * (app P g b) ^ 2) * (n + 1) * (n + 1) := mul_le_mul_of_nonneg_right e1 (by positivity)
    _ = _ := by ring

/-- independent chains side by side -/
def side (P : S → S → ℝ) (n : Nat) (X Y : Fin n → S) : ℝ := ∏ c, P (X c) (Y c)

theorem sum_prod {n : Nat} (p : Fin n → S → ℝ) : ∑ Y : Fin n → S, ∏ c, p c (Y c) = ∏ c, ∑ y, p c y := by
  classical
  rw [Finset.prod_univ_sum]; simp only [Fintype.piFinset_univ]

theorem side_stochastic (h : Stochastic P) (n : Nat) : Stochastic (side P n) where
  nonneg := fun X Y => Finset.prod_nonneg (fun c _ => h.nonneg _ _)
  sum := fun X => by unfold side; rw [sum_prod]; simp only [h.sum, Finset.prod_const_one]

/-- mean and mean square of a sum of independent random variables -/
theorem sum_independent (n : Nat) : ∀ (p d : Fin n → S → ℝ), (∀ c, ∑ y, p c y = 1) →
    (∑ Y : Fin n → S, (∏ c, p c (Y c)) * (∑ c, d c (Y c)) = ∑ c, ∑ y, p c y * d c y) ∧
    ((∀ c, ∑ y, p c y * d c y = 0) → ∑ Y : Fin n → S, (∏ c, p c (Y c)) * (∑ c, d c (Y c)) ^ 2 = ∑ c, ∑ y, p c y * (d c y) ^ 2) := by
  induction n with
  | zero => intro p d _; simp
  | succ n ih =>
    intro p d hp
    have hp' : ∀ c : Fin n, ∑ y, p c.succ y = 1 := fun c => hp c.succ
    obtain ⟨i1, i2⟩ := ih (fun c => p c.succ) (fun c => d c.succ) hp'
    have hone : ∑ Y : Fin n → S, ∏ c : Fin n, p c.succ (Y c) = 1 := by rw [sum_prod (fun c => p c.succ)]; simp [hp']
    constructor
    · rw [← (Fin.consEquiv (fun _ : Fin (n + 1) => S)).sum_comp, Fintype.sum_prod_type, Fin.sum_univ_succ]
      simp only [Fin.consEquiv_apply, Fin.prod_univ_succ, Fin.sum_univ_succ, Fin.cons_zero, Fin.cons_succ]
      have e : ∀ y, ∑ Y : Fin n → S, (p 0 y * ∏ c : Fin n, p c.succ (Y c)) * (d 0 y + ∑ c : Fin n, d c.succ (Y c)) =
          p 0 y * d 0 y + p 0 y * ∑ c : Fin n, ∑ y, p c.succ y * d c.succ y := by
        intro y
        rw [← i1]
        have : ∀ Y : Fin n → S, (p 0 y * ∏ c : Fin n, p c.succ (Y c)) * (d 0 y + ∑ c : Fin n, d c.succ (Y c)) =
            (p 0 y * d 0 y) * ∏ c : Fin n, p c.succ (Y c) + p 0 y * ((∏ c : Fin n, p c.succ (Y c)) * ∑ c : Fin n, d c.succ (Y c)) := fun Y => by ring
        simp only [this, Finset.sum_add_distrib, ← Finset.mul_sum, hone, mul_one]
      simp only [e, Finset.sum_add_distrib, ← Finset.sum_mul, hp 0, one_mul]
    · intro hd
      have i2 := i2 (fun c => hd c.succ)
      rw [← (Fin.consEquiv (fun _ : Fin (n + 1) => S)).sum_comp, Fintype.sum_prod_type, Fin.sum_univ_succ]
      simp only [Fin.consEquiv_apply, Fin.prod_univ_succ, Fin.sum_univ_succ, Fin.cons_zero, Fin.cons_succ]
      have e : ∀ y, ∑ Y : Fin n → S, (p 0 y * ∏ c : Fin n, p c.succ (Y c)) * (d 0 y + ∑ c : Fin n, d c.succ (Y c)) ^ 2 =
          p 0 y * (d 0 y) ^ 2 + p 0 y * ∑ c : Fin n, ∑ y, p c.succ y * (d c.succ y) ^ 2 := by
        intro y
        rw [← i2]
        have : ∀ Y : Fin n → S, (p 0 y * ∏ c : Fin n, p c.succ (Y c)) * (d 0 y + ∑ c : Fin n, d c.succ (Y c)) ^ 2 =
            (p 0 y * (d 0 y) ^ 2) * ∏ c : Fin n, p c.succ (Y c) + (2 * p 0 y * d 0 y) * ((∏ c : Fin n, p c.succ (Y c)) * ∑ c : Fin n, d c.succ (Y c))
              + p 0 y * ((∏ c : Fin n, p c.succ (Y c)) * (∑ c : Fin n, d c.succ (Y c)) ^ 2) := fun Y => by ring
        simp only [this, Finset.sum_add_distrib, ← Finset.mul_sum, hone, mul_one, i1]
        have hz : ∑ c : Fin n, ∑ y, p c.succ y * d c.succ y = 0 := Finset.sum_eq_zero (fun c _ => hd c.succ)
        rw [hz]; ring
      simp only [e, Finset.sum_add_distrib, ← Finset.sum_mul, hp 0, one_mul]

/-- **the mean over all states of `n` independent chains** -/
theorem side_mean_square (h : Stochastic P) (π : S → ℝ) (hπ : 0 < ∑ x, π x) (hst : ∀ y, ∑ x, π x * P x y = π y) (y0 : S)
    (hr : ∀ x, Relation.ReflTransGen (fun a b => 0 < P a b) x y0) (f : S → ℝ) :
    ∃ K : ℝ, 0 ≤ K ∧ ∀ (n : Nat), 1 ≤ n → ∀ (N : Nat) (X : Fin n → S), 1 ≤ N →
      expectPath (side P n) N (fun l => ((l.map (fun Y => (∑ c, f (Y c)) / n - (∑ x, π x * f x) / ∑ x, π x)).sum / N) ^ 2) X ≤ K / (n * N) + K / N ^ 2 := by
  have : Nonempty S := ⟨y0⟩
  obtain ⟨m, hm⟩ : ∃ m, m = (∑ x, π x * f x) / ∑ x, π x := ⟨_, rfl⟩
  obtain ⟨g, hg⟩ := poisson h π hπ hst y0 hr (fun x => f x - m) (by
    simp only [mul_sub, Finset.sum_sub_distrib, ← Finset.sum_mul, hm]
    rw [mul_div_cancel₀ _ hπ.ne', sub_self])
  obtain ⟨p, hp⟩ := Finite.exists_max (fun p : S × S => (g p.2 - app P g p.1) ^ 2)
  obtain ⟨b, hb⟩ := Finite.exists_max (fun x : S => |app P g x|)
  obtain ⟨C, hC⟩ : ∃ C, C = (g p.2 - app P g p.1) ^ 2 := ⟨_, rfl⟩
  have hC0 : 0 ≤ C := by rw [hC]; exact sq_nonneg _
  refine ⟨2 * C + 4 * |app P g b| ^ 2, by positivity, fun n hn N X hN => ?_⟩
  have hn0 : (0:ℝ) < n := by exact_mod_cast hn
  have hN0 : (0:ℝ) < N := by exact_mod_cast hN
  rw [← hm]
  have happ : ∀ X : Fin n → S, app (side P n) (fun Y => (∑ c, g (Y c)) / n) X = (∑ c, app P g (X c)) / n := by
    intro X
    have := (sum_independent n (fun c y => P (X c) y) (fun _ y => g y) (fun c => h.sum _)).1
    unfold app
    rw [← this, Finset.sum_div]
    exact Finset.sum_congr rfl (fun Y _ => by rw [mul_div_assoc]; rfl)
  have key := mean_square_of (side_stochastic h n) (fun Y => (∑ c, f (Y c)) / n - m) (fun Y => (∑ c, g (Y c)) / n)
    (fun X => by
      rw [happ, ← sub_div, ← Finset.sum_sub_distrib]
      simp only [hg, Finset.sum_sub_distrib, Finset.sum_const, Finset.card_univ, Fintype.card_fin, nsmul_eq_mul]
      field_simp)
    (C / n) (|app P g b| ^ 2)
    (fun X => by
      have hv := (sum_independent n (fun c y => P (X c) y) (fun c y => g y - app P g (X c)) (fun c => h.sum _)).2 (fun c => by
        simp only [mul_sub, Finset.sum_sub_distrib, ← Finset.sum_mul, h.sum, one_mul]
        exact sub_self _)
      have e : ∀ Y : Fin n → S, side P n X Y * ((∑ c, g (Y c)) / n - app (side P n) (fun Y => (∑ c, g (Y c)) / n) X) ^ 2 =
          (1 / (n:ℝ) ^ 2) * ((∏ c, P (X c) (Y c)) * (∑ c, (g (Y c) - app P g (X c))) ^ 2) := by
        intro Y
        rw [happ, ← sub_div, ← Finset.sum_sub_distrib]
        unfold side
        field_simp
      simp only [e, ← Finset.mul_sum, hv]
      have hle : ∑ c, ∑ y, P (X c) y * (g y - app P g (X c)) ^ 2 ≤ ∑ _c : Fin n, C :=
        Finset.sum_le_sum (fun c _ => app_le h _ _ C (fun y => by rw [hC]; exact hp (X c, y)))
      rw [Finset.sum_const, Finset.card_univ, Fintype.card_fin, nsmul_eq_mul] at hle
      calc _ ≤ (1 / (n:ℝ) ^ 2) * (n * C) := mul_le_mul_of_nonneg_left hle (by positivity)
        _ = C / n := by field_simp)
    (fun X => by
      rw [happ]
      rw [← sq_abs]
      refine pow_le_pow_left₀ (abs_nonneg _) ?_ 2
      rw [abs_div, abs_of_pos hn0, div_le_iff₀ hn0]
      refine (Finset.abs_sum_le_sum_abs _ _).trans ?_
      refine (Finset.sum_le_sum (fun c _ => hb (X c))).trans ?_
      rw [Finset.sum_const, Finset.card_univ, Fintype.card_fin, nsmul_eq_mul, mul_comm])
    N hN X
  refine key.trans ?_
  have e1 : 2 * (C / n) / N = 2 * C / (n * N) := by field_simp
  rw [e1]
  have e2 : (2 * C + 4 * |app P g b| ^ 2) / (n * N) + (2 * C + 4 * |app P g b| ^ 2) / (N:ℝ) ^ 2 =
      (2 * C / (n * N) + 4 * |app P g b| ^ 2 / (N:ℝ) ^ 2) + (4 * |app P g b| ^ 2 / (n * N) + 2 * C / (N:ℝ) ^ 2) := by ring
  rw [e2]
  have : 0 ≤ 4 * |app P g b| ^ 2 / (n * N) + 2 * C / (N:ℝ) ^ 2 := by positivity
  linarith

end Ergodic

/-! ### runs -/

section
variable {S Ω : Type} [Fintype Ω] [Inhabited S] (max : ℝ) (π : S → ℝ) (weight : Ω → ℝ) (pick : S → Ω → S) (cross : S → S → S → S)

omit [Inhabited S] in
theorem numbered_fst (k : Nat) (Y : List S) : (numbered k Y).map Prod.fst = Y := by
  induction Y generalizing k with
  | nil => rfl
  | cons y Y ih => simp [numbered, ih]

/-- all samples of a run -/
theorem deMessages_samples (gap G : Nat) (X : List S) (hn : 3 ≤ X.length) (script : List (DEChance Ω)) (hs : script.length = G * X.length) (hg : ∀ e ∈ script, GoodChance e) :
    (deMessages max π weight pick cross X gap script).map Prod.fst = (gensFrom π (proposalProb weight pick) pick cross gap 0 G X script).flatten := by
  letI := idealOps max
  have h := deSample_run max π (proposalProb weight pick) pick cross gap G X hn script hs hg
  have hL : LikelihoodIs (deWorld π (proposalProb weight pick) pick cross) (fun x => logOf (π x)) := by
    intro x w d w' hx
    simp only [deWorld, Prod.mk.injEq, Except.ok.injEq] at hx
    exact hx.1.symm
  obtain ⟨-, -, hall⟩ := (C48_samples (deWorld π (proposalProb weight pick) pick cross) (fun x => logOf (π x)) hL X gap script.length script)
  have htag : ∀ m ∈ issuedOf (deSample (deWorld π (proposalProb weight pick) pick cross) X gap script.length script).1, ∃ k, tagged m = some (m.1, k) := by
    intro m hm
    obtain ⟨k, hk, rfl⟩ := List.getElem_of_mem hm
    obtain ⟨rep, hrep⟩ := hall k _ _ (List.getElem?_eq_getElem hk)
    refine ⟨k % X.length, ?_⟩
    unfold tagged
    have hrep' := hrep
    simp only [List.get_eq_getElem] at hrep'
    rw [hrep']
    rfl
  have hmap : ∀ msgs : List (S × Aux XR), (∀ m ∈ msgs, ∃ k, tagged m = some (m.1, k)) → (msgs.filterMap tagged).map Prod.fst = msgs.map Prod.fst := by
    intro msgs
    induction msgs with
    | nil => intro _; rfl
    | cons m msgs ih =>
      intro hm
      obtain ⟨k, hk⟩ := hm m (by simp)
      rw [List.filterMap_cons, hk, List.map_cons, List.map_cons, ih (fun m' hm' => hm m' (by simp [hm']))]
  unfold deMessages
  rw [← hmap _ htag, h, List.map_flatMap]
  rw [← List.flatMap_id]
  congr 1
  funext Y
  exact numbered_fst 0 Y

/-- the distribution of all samples of a run -/
theorem deExpected_samples (gap G : Nat) (X : List S) (hn : 3 ≤ X.length) (H : List S → ℝ) :
    deExpected max π weight pick cross X gap (G * X.length) (fun msgs => H (msgs.map Prod.fst)) =
      gensMean weight π (proposalProb weight pick) pick cross gap X.length 0 G X (fun gens => H gens.flatten) := by
  unfold deExpected
  rw [← gens_average weight π (proposalProb weight pick) pick cross gap X.length G 0 X _ rfl]
  refine average_congr weight _ _ _ (fun script hs hg => ?_)
  show H _ = _
  rw [deMessages_samples max π weight pick cross gap G X hn script hs hg]

variable [Fintype S]

/-- transition probabilities of a generation -/
noncomputable def genKernel (q : S → S → ℝ) (now : Bool) (n : Nat) (X Y : Fin n → S) : ℝ :=
  ∏ c : Fin n, chainKernel weight π q pick cross now (List.ofFn X) c (Y c)

theorem gensMean_path (q : S → S → ℝ) (gap n : Nat) (now : Bool) (G : Nat) : ∀ (gen : Nat) (X : Fin n → S) (H : List (List S) → ℝ),
    (∀ g, gen ≤ g → g < gen + G → crossoverNow gap g = now) →
    gensMean weight π q pick cross gap n gen G (List.ofFn X) H =
      expectPath (genKernel π weight pick cross q now n) G (fun l => H (l.map List.ofFn)) X := by
  induction G with
  | zero => intro gen X H _; rfl
  | succ G ih =>
    intro gen X H hg
    unfold gensMean expectPath
    rw [genMean_kernel, hg gen le_rfl (by omega)]
    refine Finset.sum_congr rfl (fun Y _ => ?_)
    rw [ih (gen + 1) Y _ (fun g h1 h2 => hg g (by omega) (by omega))]
    unfold genKernel
    simp only [Nat.zero_add, List.map_cons]

/-- what `MeanValue` holds -/
theorem meanState_of_messages {T ι : Type} (f : T → ι → ℝ) (G₀ : ι → ℝ) (msgs : List (T × Aux XR)) (h : msgs ≠ []) (i : ι) :
    (msgs.foldl (meanStep f) (MeanState.init G₀)).get i = ((msgs.map Prod.fst).map (fun x => f x i)).sum / msgs.length := by
  have e : msgs.foldl (meanStep f) (MeanState.init G₀) = meanAfter G₀ ((msgs.map Prod.fst).map f) := by
    rw [meanAfter, List.foldl_map, List.foldl_map]
    rfl
  rw [e, C21_mean G₀ _ (by simpa using h) i, List.map_map, List.length_map, List.length_map]
  rfl

omit [Inhabited S] [Fintype S] in
theorem sum_flatten_ofFn {n : Nat} (f : S → ℝ) (l : List (Fin n → S)) :
    ((l.map List.ofFn).flatten.map f).sum = (l.map (fun Y => ∑ c, f (Y c))).sum := by
  induction l with
  | nil => rfl
  | cons Y l ih =>
    rw [List.map_cons, List.flatten_cons, List.map_append, List.sum_append, ih, List.map_cons, List.sum_cons]
    congr 1
    rw [List.map_ofFn, List.sum_ofFn]
    rfl

omit [Inhabited S] [Fintype S] in
theorem length_flatten_ofFn {n : Nat} (l : List (Fin n → S)) : (l.map List.ofFn).flatten.length = l.length * n := by
  induction l with
  | nil => simp
  | cons Y l ih =>
    rw [List.map_cons, List.flatten_cons, List.length_append, ih, List.length_ofFn, List.length_cons]
    ring

omit [Inhabited S] [Fintype S] in
/-- the mean of all samples is the mean over the generations of the means over the chains -/
theorem mean_of_generations {n : Nat} (hn : 1 ≤ n) (f : S → ℝ) (m : ℝ) (l : List (Fin n → S)) (hl : 1 ≤ l.length) :
    ((l.map List.ofFn).flatten.map f).sum / ((l.map List.ofFn).flatten.length : ℝ) - m = (l.map (fun Y => (∑ c, f (Y c)) / n - m)).sum / l.length := by
  have hn0 : (n:ℝ) ≠ 0 := by have : (0:ℝ) < n := by exact_mod_cast hn
                             exact this.ne'
  have hl0 : (l.length:ℝ) ≠ 0 := by have : (0:ℝ) < l.length := by exact_mod_cast hl
                                    exact this.ne'
  have hs : ∀ l : List (Fin n → S), (l.map (fun Y => (∑ c, f (Y c)) / n - m)).sum = (l.map (fun Y => ∑ c, f (Y c))).sum / n - l.length * m := by
    intro l
    induction l with
    | nil => simp
    | cons Y l ih => simp only [List.map_cons, List.sum_cons, ih, List.length_cons]; push_cast; ring
  rw [sum_flatten_ofFn, length_flatten_ofFn, hs]
  push_cast
  field_simp

omit [Fintype S] in
/-- what a run does to a `MeanValue` -/
theorem deExpected_mean {ι : Type} (gap G : Nat) (hG : 1 ≤ G) {n : Nat} (hn : 3 ≤ n) (X : Fin n → S) (f : S → ι → ℝ) (G₀ : ι → ℝ) (i : ι) (m : ℝ) (Φ : ℝ → ℝ) :
    deExpected max π weight pick cross (List.ofFn X) gap (G * n) (fun msgs => Φ ((msgs.foldl (meanStep f) (MeanState.init G₀)).get i - m)) =
      gensMean weight π (proposalProb weight pick) pick cross gap n 0 G (List.ofFn X)
        (fun gens => Φ ((gens.flatten.map (fun x => f x i)).sum / (gens.flatten.length : ℝ) - m)) := by
  have h1 := deExpected_samples max π weight pick cross gap G (List.ofFn X) (by simpa using hn) (fun l => Φ ((l.map (fun x => f x i)).sum / (l.length : ℝ) - m))
  rw [List.length_ofFn] at h1
  rw [← h1]
  unfold deExpected
  refine average_congr weight _ _ _ (fun script hs hg => ?_)
  have hne : deMessages max π weight pick cross (List.ofFn X) gap script ≠ [] := by
    intro he
    have h2 := deMessages_samples max π weight pick cross gap G (List.ofFn X) (by simpa using hn) script (by simpa using hs) hg
    have h3 := gensFrom_length π (proposalProb weight pick) pick cross gap G 0 (List.ofFn X) script (by simpa using hs)
    rw [he, List.map_nil] at h2
    obtain ⟨Y, l, hl⟩ : ∃ Y l, gensFrom π (proposalProb weight pick) pick cross gap 0 G (List.ofFn X) script = Y :: l := by
      cases hgf : gensFrom π (proposalProb weight pick) pick cross gap 0 G (List.ofFn X) script with
      | nil => rw [hgf] at h3; simp at h3; omega
      | cons Y l => exact ⟨Y, l, rfl⟩
    have h4 := h3.2 Y (by rw [hl]; simp)
    rw [hl, List.flatten_cons] at h2
    have h5 := congrArg List.length h2
    rw [List.length_append, h4, List.length_ofFn] at h5
    simp at h5
    omega
  show Φ _ = Φ _
  rw [meanState_of_messages f G₀ _ hne i, List.length_map]

end

end SampleFlow
