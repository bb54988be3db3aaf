import Verif.Model.Filters
import Verif.Spec.Streams

namespace SampleFlow

open Spec

/-- `keepAt` with positions counted from `k`. -/
def keepFrom {X : Type} (P : Nat → Prop) [DecidablePred P] : Nat → List X → List X
  | _, [] => []
  | k, x :: xs => if P k then x :: keepFrom P (k+1) xs else keepFrom P (k+1) xs

theorem keepFrom_eq {X : Type} (P : Nat → Prop) [DecidablePred P] (k : Nat) (xs : List X) :
    keepFrom P k xs = ((xs.zipIdx k).filter (fun p => decide (P p.2))).map Prod.fst := by
  induction xs generalizing k with
  | nil => rfl
  | cons x xs ih =>
    simp only [keepFrom, List.zipIdx_cons, List.filter_cons, ih]
    by_cases h : P k <;> simp [h]

theorem keepAt_eq {X : Type} (P : Nat → Prop) [DecidablePred P] (xs : List X) :
    keepAt P xs = keepFrom P 0 xs := (keepFrom_eq P 0 xs).symm

theorem keepFrom_congr {X : Type} (P Q : Nat → Prop) [DecidablePred P] [DecidablePred Q]
    (k : Nat) (xs : List X) (h : ∀ i, k ≤ i → i < k + xs.length → (P i ↔ Q i)) :
    keepFrom P k xs = keepFrom Q k xs := by
  induction xs generalizing k with
  | nil => rfl
  | cons x xs ih =>
    have h0 := h k (Nat.le_refl k) (by simp)
    have ih' := ih (k+1) (fun i hi hl => h i (by omega) (by simp; omega))
    simp only [keepFrom, ih', h0]

theorem keepFrom_shift {X : Type} (P : Nat → Prop) [DecidablePred P] (k : Nat) (xs : List X) :
    keepFrom (fun i => P (i + 1)) k xs = keepFrom P (k+1) xs := by
  induction xs generalizing k with
  | nil => rfl
  | cons x xs ih => simp only [keepFrom, ih]

/-- Dropping the first `n`. -/
theorem keepFrom_ge {X : Type} (n k : Nat) (xs : List X) :
    keepFrom (fun i => n ≤ i) k xs = xs.drop (n - k) := by
  induction xs generalizing k with
  | nil => simp [keepFrom]
  | cons x xs ih =>
    simp only [keepFrom, ih]
    by_cases h : n ≤ k
    · have h1 : n - k = 0 := by omega
      have h2 : n - (k+1) = 0 := by omega
      simp [h, h1, h2]
    · have h1 : n - k = (n - (k+1)) + 1 := by omega
      rw [h1]; simp [h]

/-- The step of a filter that never faults and forwards or drops. -/
theorem takeEveryNth_runFrom {α A : Type} (n : UInt64) (hn : n ≠ 0) (xs : List (Msg α A)) (k : Nat)
    (c : UInt64) (hc : c.toNat ≤ n.toNat) (hck : c.toNat % n.toNat = k % n.toNat) :
    ((takeEveryNth α A n).runFrom c xs).1 = keepFrom (fun i => n.toNat ∣ i) k xs
    ∧ ∃ s, ((takeEveryNth α A n).runFrom c xs).2 = .ok s := by
  have hn' : n.toNat ≠ 0 := by
    intro h; exact hn (UInt64.toNat_inj.mp (by simpa using h))
  have hlt : n.toNat < 2^64 := n.toNat_lt
  induction xs generalizing k c with
  | nil => exact ⟨rfl, c, rfl⟩
  | cons x xs ih =>
    have hmod : (c % n = 0) ↔ n.toNat ∣ k := by
      rw [← UInt64.toNat_inj, UInt64.toNat_mod, Nat.dvd_iff_mod_eq_zero, ← hck]; simp
    by_cases hd : n.toNat ∣ k
    · have hc0 : c % n = 0 := hmod.mpr hd
      have := ih (k+1) 1 (by simp; omega) (by
        obtain ⟨q, rfl⟩ := hd
        rw [Nat.mul_add_mod]; simp)
      have hs : (takeEveryNth α A n).filter c x = .ok (some x, 1) := by
        simp [takeEveryNth, hn, hc0]
      simp only [FilterObj.runFrom, hs, if_true, keepFrom, hd]
      exact ⟨congrArg _ this.1, this.2⟩
    · have hc0 : ¬ c % n = 0 := fun h => hd (hmod.mp h)
      have hcn : c.toNat ≠ n.toNat := by
        intro h
        apply hd
        rw [Nat.dvd_iff_mod_eq_zero, ← hck, h, Nat.mod_self]
      have hadd : (c + 1).toNat = c.toNat + 1 := by
        rw [UInt64.toNat_add]; simp; omega
      have := ih (k+1) (c+1) (by rw [hadd]; omega) (by
        rw [hadd, Nat.add_mod, hck, ← Nat.add_mod])
      have hs : (takeEveryNth α A n).filter c x = .ok (none, c + 1) := by
        simp [takeEveryNth, hn, hc0]
      simp only [FilterObj.runFrom, hs, if_false, keepFrom, hd]
      exact this

theorem discardFirstN_runFrom {α A : Type} (n : UInt64) (xs : List (Msg α A)) (k : Nat)
    (c : UInt64) (hc : c.toNat = k % 2^64) :
    ((discardFirstN α A n).runFrom c xs).1 = keepFrom (fun i => (i + 1) % 2^64 > n.toNat) k xs
    ∧ ∃ s, ((discardFirstN α A n).runFrom c xs).2 = .ok s := by
  induction xs generalizing k c with
  | nil => exact ⟨rfl, c, rfl⟩
  | cons x xs ih =>
    have hadd : (c + 1).toNat = (k+1) % 2^64 := by
      rw [UInt64.toNat_add, hc]; simp
    have hgt : (c + 1 > n) ↔ (k+1) % 2^64 > n.toNat := by
      rw [gt_iff_lt, UInt64.lt_iff_toNat_lt, hadd]
    have := ih (k+1) (c+1) hadd
    by_cases hd : (k+1) % 2^64 > n.toNat
    · have h1 := hgt.mpr hd
      have hs : (discardFirstN α A n).filter c x = .ok (some x, c + 1) := by
        simp only [discardFirstN, h1, if_true]
      simp only [FilterObj.runFrom, hs, if_true, keepFrom, hd]
      exact ⟨congrArg _ this.1, this.2⟩
    · have h1 : ¬ (c + 1 > n) := fun h => hd (hgt.mp h)
      have hs : (discardFirstN α A n).filter c x = .ok (none, c + 1) := by
        simp only [discardFirstN, h1, if_false]
      simp only [FilterObj.runFrom, hs, if_false, keepFrom, hd]
      exact this

theorem andThen_runFrom {σ τ X Y Z : Type} (F : FilterObj σ X Y) (G : FilterObj τ Y Z)
    (s : σ) (t : τ) (xs : List X) (hF : ∃ s', (F.runFrom s xs).2 = .ok s') :
    ((F.andThen G).runFrom (s, t) xs).1 = (G.runFrom t (F.runFrom s xs).1).1 := by
  induction xs generalizing s t with
  | nil => rfl
  | cons x xs ih =>
    obtain ⟨s', hs'⟩ := hF
    simp only [FilterObj.runFrom, FilterObj.andThen] at hs' ⊢
    cases hf : F.filter s x with
    | error e => rw [hf] at hs'; simp at hs'
    | ok r =>
      obtain ⟨o, s1⟩ := r
      rw [hf] at hs'
      cases o with
      | none =>
        simp only at hs' ⊢
        exact ih s1 t ⟨s', hs'⟩
      | some y =>
        simp only at hs' ⊢
        cases hg : G.filter t y with
        | error e => simp [FilterObj.runFrom, hg]
        | ok r =>
          obtain ⟨o, t1⟩ := r
          have := ih s1 t1 ⟨s', hs'⟩
          cases o with
          | none => simp only [FilterObj.runFrom, hg]; exact this
          | some z => simp only [FilterObj.runFrom, hg]; exact congrArg _ this

end SampleFlow

namespace SampleFlow
open Spec

theorem keepFrom_append {X : Type} (P : Nat → Prop) [DecidablePred P] (k : Nat) (xs ys : List X) :
    keepFrom P k (xs ++ ys) = keepFrom P k xs ++ keepFrom P (k + xs.length) ys := by
  induction xs generalizing k with
  | nil => simp [keepFrom]
  | cons x xs ih =>
    simp only [List.cons_append, keepFrom, ih, List.length_cons]
    have : k + 1 + xs.length = k + (xs.length + 1) := by omega
    rw [this]
    split <;> simp

theorem keepFrom_drop {X : Type} (P : Nat → Prop) [DecidablePred P] (n : Nat) (xs : List X) :
    ∀ j k, keepFrom P j (xs.drop (n - k)) =
      keepFrom (fun i => n ≤ i ∧ P (i - k - (n - k) + j)) k xs := by
  induction xs with
  | nil => intro j k; simp [keepFrom]
  | cons x xs ih =>
    intro j k
    by_cases h : n ≤ k
    · have h1 : n - k = 0 := by omega
      have h2 : n - (k+1) = 0 := by omega
      have hih := ih (j+1) (k+1)
      rw [h2, List.drop_zero] at hih
      rw [h1, List.drop_zero]
      simp only [keepFrom, hih, h, true_and, Nat.sub_self, Nat.zero_add]
      rw [keepFrom_congr (fun i => n ≤ i ∧ P (i - (k+1) - 0 + (j+1)))
        (fun i => n ≤ i ∧ P (i - k - 0 + j)) (k+1) xs]
      intro i hi _
      have : i - (k+1) - 0 + (j+1) = i - k - 0 + j := by omega
      rw [this]
    · have h1 : n - k = (n - (k+1)) + 1 := by omega
      rw [h1, List.drop_succ_cons, ih j (k+1)]
      simp only [keepFrom, h, false_and, if_false]
      apply keepFrom_congr
      intro i hi _
      by_cases hni : n ≤ i
      · have : i - (k+1) - (n - (k+1)) + j = i - k - (n - (k+1) + 1) + j := by omega
        rw [this]
      · simp [hni]

/-- Position among the multiples of `n`. -/
theorem keepFrom_dvd_comp {X : Type} (n : Nat) (hn : 0 < n) (P : Nat → Prop) [DecidablePred P]
    (xs : List X) : ∀ j k, n * j < k + n → k ≤ n * j →
    keepFrom P j (keepFrom (fun i => n ∣ i) k xs) = keepFrom (fun i => n ∣ i ∧ P (i / n)) k xs := by
  induction xs with
  | nil => intro j k _ _; rfl
  | cons x xs ih =>
    intro j k h1 h2
    by_cases hd : n ∣ k
    · have hk : k = n * j := by
        obtain ⟨q, rfl⟩ := hd
        have : j < q + 1 := by
          have : n * j < n * (q+1) := by rw [Nat.mul_add]; omega
          exact Nat.lt_of_mul_lt_mul_left this
        have : q ≤ j := Nat.le_of_mul_le_mul_left h2 hn
        have : q = j := by omega
        rw [this]
      have hdiv : k / n = j := by rw [hk, Nat.mul_div_cancel_left _ hn]
      have := ih (j+1) (k+1) (by rw [Nat.mul_add]; omega) (by rw [Nat.mul_add]; omega)
      simp only [keepFrom, hd, if_true, true_and, hdiv, this]
    · have hne : k ≠ n * j := fun h => hd ⟨j, h⟩
      have := ih j (k+1) (by omega) (by omega)
      simp only [keepFrom, hd, if_false, false_and, this]

theorem condition_runFrom {α A : Type} (p : α → A → Bool) (xs : List (Msg α A)) :
    (condition α A p).runFrom () xs = (xs.filter (fun m => p m.1 m.2), .ok ()) := by
  induction xs with
  | nil => rfl
  | cons x xs ih =>
    simp only [FilterObj.runFrom, condition] at ih ⊢
    by_cases h : p x.1 x.2 = true
    · simp [h, ih]
    · simp [h, ih]

theorem conversion_runFrom {α β A : Type} (f : α → β) (xs : List (Msg α A)) :
    (conversion α β A f).runFrom () xs = (xs.map (fun m => (f m.1, m.2)), .ok ()) := by
  induction xs with
  | nil => rfl
  | cons x xs ih =>
    simp only [FilterObj.runFrom, conversion] at ih ⊢
    simp [ih]

theorem passThrough_runFrom {α A : Type} (xs : List (Msg α A)) :
    (passThrough α A).runFrom () xs = (xs, .ok ()) := by
  induction xs with
  | nil => rfl
  | cons x xs ih =>
    simp only [FilterObj.runFrom, passThrough] at ih ⊢
    simp [ih]

end SampleFlow
