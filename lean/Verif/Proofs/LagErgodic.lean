import Verif.Proofs.Ergodic
import Verif.Proofs.Moments

/-! Law of large numbers for functions of two states of a finite Markov chain at a fixed distance. -/

namespace SampleFlow.Ergodic

open Spec

variable {S : Type}

/-- the contribution of the newest state of a path (newest state first) -/
def lagTerm (g : S → S → ℝ) (l : Nat) (r : List S) (y : S) : ℝ :=
  match r[l]? with
  | some w => g w y
  | none => 0

/-- sum of `g` over the pairs at distance `l`, older state first; the path is given newest state first -/
def lagSum (g : S → S → ℝ) (l : Nat) : List S → ℝ
  | [] => 0
  | y :: past => lagTerm g l (y :: past) y + lagSum g l past

theorem lagSum_eq (g : S → S → ℝ) (l : Nat) (xs : List S) :
    lagSum g l xs.reverse = ((lagPairs l xs).map (fun p => g p.2 p.1)).sum := by
  induction xs using List.reverseRecOn with
  | nil => simp [lagSum, lagPairs]
  | append_singleton xs y ih =>
    rw [List.reverse_append, List.reverse_singleton, List.singleton_append, lagSum, ih]
    by_cases hl : l ≤ xs.length
    · have hl' : l < (y :: xs.reverse).length := by simp; omega
      rw [lagPairs_append l xs y hl hl', List.map_append, List.sum_append, List.map_singleton, List.sum_singleton]
      unfold lagTerm
      rw [List.getElem?_eq_getElem hl']
      ring
    · rw [lagPairs_eq_nil l xs (by omega), lagPairs_eq_nil l (xs ++ [y]) (by simp; omega)]
      have : (y :: xs.reverse)[l]? = none := List.getElem?_eq_none (by simp; omega)
      simp [lagTerm, this]

/-- sum of increments that depend on the past and the new state -/
def martSum (D : List S → S → ℝ) : List S → ℝ
  | [] => 0
  | y :: past => D past y + martSum D past

variable [Fintype S] {P : S → S → ℝ}

/-- the increment of the lag sum minus its expected value -/
def lagDiff (P : S → S → ℝ) (g : S → S → ℝ) (l : Nat) (past : List S) (y : S) : ℝ :=
  match past[l]?, past.head? with
  | some w, some x => g w y - app P (g w) x
  | _, _ => 0

theorem martSum_lagDiff (g : S → S → ℝ) (l : Nat) (past : List S) (y : S) :
    martSum (lagDiff P g l) (y :: past) = lagSum g (l+1) (y :: past) - lagSum (fun w x => app P (g w) x) l past := by
  induction past generalizing y with
  | nil => simp [martSum, lagDiff, lagSum, lagTerm]
  | cons x past ih =>
    rw [martSum, ih x]
    have e1 : lagSum g (l+1) (y :: x :: past) = lagTerm g (l+1) (y :: x :: past) y + lagSum g (l+1) (x :: past) := rfl
    have e2 : lagSum (fun w x => app P (g w) x) l (x :: past) =
        lagTerm (fun w x => app P (g w) x) l (x :: past) x + lagSum (fun w x => app P (g w) x) l past := rfl
    rw [e1, e2]
    unfold lagDiff lagTerm
    simp only [List.getElem?_cons_succ, List.head?_cons]
    cases (x :: past)[l]? <;> simp <;> ring

theorem martingale_past (h : Stochastic P) (D : List S → S → ℝ) (C : ℝ)
    (h0 : ∀ (past : List S) (x : S), (past = [] ∨ past.head? = some x) → ∑ y, P x y * D past y = 0)
    (hC : ∀ past y, (D past y) ^ 2 ≤ C) (n : Nat) : ∀ (past : List S) (x : S), (past = [] ∨ past.head? = some x) →
    expectPath P n (fun l => (martSum D (l.reverse ++ past)) ^ 2) x ≤ (martSum D past) ^ 2 + n * C := by
  induction n with
  | zero => intro past x _; simp [expectPath]
  | succ n ih =>
    intro past x hx
    simp only [expectPath]
    have e : ∀ y, expectPath P n (fun l => (martSum D ((y :: l).reverse ++ past)) ^ 2) y ≤ (D past y + martSum D past) ^ 2 + n * C := by
      intro y
      have := ih (y :: past) y (Or.inr rfl)
      simp only [List.reverse_cons, List.append_assoc, List.singleton_append]
      exact this
    refine (Finset.sum_le_sum (fun y _ => mul_le_mul_of_nonneg_left (e y) (h.nonneg x y))).trans ?_
    have e3 : ∀ y, P x y * ((D past y + martSum D past) ^ 2 + n * C) =
        P x y * (D past y) ^ 2 + 2 * martSum D past * (P x y * D past y) + ((martSum D past) ^ 2 + n * C) * P x y := by
      intro y; ring
    simp only [e3, Finset.sum_add_distrib, ← Finset.mul_sum, h.sum, h0 past x hx]
    have e4 : ∑ y, P x y * (D past y) ^ 2 ≤ C := app_le h _ x C (fun y => hC past y)
    push_cast
    linarith

omit [Fintype S] in
theorem lagTerm_bound (g : S → S → ℝ) (B : ℝ) (hB : ∀ w y, |g w y| ≤ B) (l : Nat) (r : List S) (y : S) : |lagTerm g l r y| ≤ B := by
  unfold lagTerm
  split
  · exact hB _ _
  · simpa using (abs_nonneg _).trans (hB y y)

theorem app_bound (h : Stochastic P) (g : S → ℝ) (B : ℝ) (hB : ∀ y, |g y| ≤ B) (x : S) : |app P g x| ≤ B := by
  rw [abs_le]
  constructor
  · have := app_le h (fun y => - g y) x B (fun y => (neg_le_abs _).trans (hB y))
    simp only [app, mul_neg, Finset.sum_neg_distrib] at this
    simp only [app]
    linarith
  · exact app_le h g x B (fun y => (le_abs_self _).trans (hB y))

theorem exists_bound [Nonempty S] (g : S → S → ℝ) : ∃ B, 0 ≤ B ∧ ∀ w y, |g w y| ≤ B := by
  obtain ⟨p, hp⟩ := Finite.exists_max (fun p : S × S => |g p.1 p.2|)
  exact ⟨_, abs_nonneg _, fun w y => hp (w, y)⟩

/-- **Law of large numbers for pairs**, in mean square. -/
theorem mean_square_pairs (h : Stochastic P) (π : S → ℝ) (hπ : 0 < ∑ x, π x) (hst : ∀ y, ∑ x, π x * P x y = π y) (y0 : S)
    (hr : ∀ x, Relation.ReflTransGen (fun a b => 0 < P a b) x y0) (l : Nat) : ∀ (g : S → S → ℝ),
    ∃ K : ℝ, ∀ (n : Nat) (x : S), 1 ≤ n →
      expectPath P n (fun xs => (lagSum g l xs.reverse / n - (∑ x, π x * power P l (g x) x) / ∑ x, π x) ^ 2) x ≤ K / n := by
  have : Nonempty S := ⟨y0⟩
  induction l with
  | zero =>
    intro g
    obtain ⟨K, hK⟩ := mean_square h π hπ hst y0 hr (fun x => g x x)
    refine ⟨K, fun n x hn => ?_⟩
    refine le_trans (le_of_eq ?_) (hK n x hn)
    refine expectPath_congr n _ _ x (fun xs _ => ?_)
    have : lagSum g 0 xs.reverse = (xs.map (fun x => g x x)).sum := by
      rw [lagSum_eq]
      have : ∀ xs : List S, lagPairs 0 xs = xs.map (fun x => (x, x)) := by
        intro xs
        unfold lagPairs
        rw [List.drop_zero]
        induction xs with
        | nil => rfl
        | cons a xs ih => rw [List.zip_cons_cons, List.map_cons, ih]
      rw [this, List.map_map]
      rfl
    rw [this]
    rfl
  | succ l ih =>
    intro g
    obtain ⟨B, hB0, hB⟩ := exists_bound g
    obtain ⟨K, hK⟩ := ih (fun w x => app P (g w) x)
    have hlim : ∑ x, π x * power P (l+1) (g x) x = ∑ x, π x * power P l (fun z => app P (g x) z) x := by
      refine Finset.sum_congr rfl (fun x _ => ?_)
      rw [power_add l 1]
      rfl
    rw [hlim]
    obtain ⟨μ, hμ⟩ : ∃ μ, μ = (∑ x, π x * power P l (fun z => app P (g x) z) x) / ∑ x, π x := ⟨_, rfl⟩
    rw [← hμ] at hK ⊢
    have hA : ∀ w x, |app P (g w) x| ≤ B := fun w x => app_bound h (g w) B (hB w) x
    have key := fun n x => martingale_past h (lagDiff P g l) ((2 * B) ^ 2) (by
        intro past x hx
        rcases past with _ | ⟨x', past⟩
        · simp [lagDiff]
        · simp only [reduceCtorEq, List.head?_cons, Option.some.injEq, false_or] at hx
          subst hx
          unfold lagDiff
          simp only [List.head?_cons]
          cases (x' :: past)[l]? with
          | none => simp
          | some w =>
            simp only [mul_sub, Finset.sum_sub_distrib, ← Finset.sum_mul, h.sum, one_mul]
            exact sub_self _) (by
        intro past y
        rw [sq_le_sq, abs_of_nonneg (by linarith : (0:ℝ) ≤ 2 * B)]
        unfold lagDiff
        split
        · rename_i w x _ _
          have a1 := hB w y
          have a2 := hA w x
          exact (abs_sub _ _).trans (by linarith)
        · simpa using hB0) n [] x (Or.inl rfl)
    refine ⟨3 * (2 * B) ^ 2 + 3 * B ^ 2 + 3 * K, fun n x hn => ?_⟩
    have hn' : (1 : ℝ) ≤ n := by exact_mod_cast hn
    have hpos : (0 : ℝ) < n := by linarith
    have k1 := key n x
    have k2 := hK n x hn
    simp only [List.append_nil] at k1
    have hm0 : (martSum (lagDiff P g l) []) ^ 2 = 0 := by simp [martSum]
    rw [hm0, zero_add] at k1
    refine (expectPath_mono h n _ (fun xs => (3 / n ^ 2) * (martSum (lagDiff P g l) xs.reverse) ^ 2 + (3 * (lagSum (fun w x => app P (g w) x) l xs.reverse / n - μ) ^ 2
        + 3 * B ^ 2 / n ^ 2)) x (fun xs hxs => ?_)).trans ?_
    · have hne : xs ≠ [] := by intro e; rw [e] at hxs; simp at hxs; omega
      obtain ⟨ys, y, rfl⟩ : ∃ ys y, xs = ys ++ [y] := (List.eq_nil_or_concat' xs).resolve_left hne
      rw [List.reverse_append, List.reverse_singleton, List.singleton_append, martSum_lagDiff]
      have e2 : lagSum (fun w x => app P (g w) x) l (y :: ys.reverse) =
          lagTerm (fun w x => app P (g w) x) l (y :: ys.reverse) y + lagSum (fun w x => app P (g w) x) l ys.reverse := rfl
      rw [e2]
      have b := lagTerm_bound (fun w x => app P (g w) x) B hA l (y :: ys.reverse) y
      have b2 : (lagTerm (fun w x => app P (g w) x) l (y :: ys.reverse) y) ^ 2 ≤ B ^ 2 := by
        rw [← sq_abs]; exact pow_le_pow_left₀ (abs_nonneg _) b 2
      generalize lagTerm (fun w x => app P (g w) x) l (y :: ys.reverse) y = t at *
      generalize lagSum (fun w x => app P (g w) x) l ys.reverse = u
      generalize lagSum g (l+1) (y :: ys.reverse) = v
      have e3 : v / n - μ = (v - u) / n + ((t + u) / n - μ) + (- t / n) := by field_simp; ring
      have e4 : ∀ a b c : ℝ, (a + b + c) ^ 2 ≤ 3 * a ^ 2 + 3 * b ^ 2 + 3 * c ^ 2 := fun a b c => by
        nlinarith [sq_nonneg (a - b), sq_nonneg (b - c), sq_nonneg (a - c)]
      rw [e3]
      refine (e4 _ _ _).trans ?_
      have e5 : 3 * (-t / n) ^ 2 ≤ 3 * B ^ 2 / n ^ 2 := by
        rw [div_pow, neg_sq, mul_div_assoc]
        have := div_le_div_of_nonneg_right b2 (by positivity : (0:ℝ) ≤ (n:ℝ) ^ 2)
        linarith
      have e6 : 3 * ((v - u) / n) ^ 2 = 3 / (n:ℝ) ^ 2 * (v - u) ^ 2 := by rw [div_pow]; ring
      rw [e6]
      linarith
    · rw [expectPath_add, expectPath_mul, expectPath_add, expectPath_mul, expectPath_const h]
      have a1 : 3 / (n:ℝ) ^ 2 * expectPath P n (fun xs => (martSum (lagDiff P g l) xs.reverse) ^ 2) x ≤ 3 * (2 * B) ^ 2 / n := by
        refine (mul_le_mul_of_nonneg_left k1 (by positivity)).trans (le_of_eq ?_)
        field_simp
      have a2 : 3 * B ^ 2 / (n:ℝ) ^ 2 ≤ 3 * B ^ 2 / n :=
        div_le_div_of_nonneg_left (by positivity) hpos (by nlinarith)
      have : (3 * (2 * B) ^ 2 + 3 * B ^ 2 + 3 * K) / (n:ℝ) = 3 * (2 * B) ^ 2 / n + (3 * (K / n) + 3 * B ^ 2 / n) := by ring
      rw [this]
      linarith

end SampleFlow.Ergodic
