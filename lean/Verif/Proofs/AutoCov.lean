import Verif.Proofs.Moments
import Mathlib.Algebra.BigOperators.Field

set_option linter.unusedSectionVars false
set_option linter.unusedSimpArgs false

namespace SampleFlow

open Spec

variable {K ι : Type} [Field K] [CharZero K]

/-- The two pairs present when the lag starts to be computable. -/
theorem lagPairs_init {X : Type} (l : Nat) (xs : List X) (s : X) (h : xs.length = l + 1)
    (r : List X) (hr : r = s :: xs.reverse) (h0 : l < r.length) (h1 : l + 1 < r.length)
    (h2 : 1 < r.length) :
    lagPairs l (xs ++ [s]) = [(r[1], r[l+1]), (s, r[l])] := by
  subst hr
  rcases List.eq_nil_or_concat' xs with rfl | ⟨ys, y, rfl⟩
  · simp at h
  · have hy : ys.length = l := by simpa using h
    rw [lagPairs_append l _ s (by simp; omega) h0, lagPairs_append l ys y (by omega)
      (by simp; omega), lagPairs_eq_nil l ys (by omega)]
    simp

theorem window_read {X : Type} (L : Nat) (xs : List X) (s : X) (k : Nat) (hk : k < L + 1)
    (hk' : k < (s :: xs.reverse).length) :
    readAt (s :: xs.reverse.take L) k = .ok (s :: xs.reverse)[k] := by
  have : s :: xs.reverse.take L = (s :: xs.reverse).take (L + 1) := by simp
  rw [this, readAt_ok _ _ (by simp at hk' ⊢; omega)]
  simp only [List.getElem_take]

theorem window_next {X : Type} (L : Nat) (xs : List X) (s : X) :
    (if (s :: xs.reverse.take (L+1)).length > L + 1 then (s :: xs.reverse.take (L+1)).dropLast
      else s :: xs.reverse.take (L+1)) = (xs ++ [s]).reverse.take (L+1) := by
  have h : s :: xs.reverse.take (L+1) = (s :: xs.reverse).take (L + 2) := by simp
  rw [h, List.reverse_append]
  simp only [List.reverse_cons, List.reverse_nil, List.nil_append, List.singleton_append]
  split
  · rename_i hl
    rw [List.dropLast_eq_take, List.take_take]
    congr 1
    simp at hl ⊢
    omega
  · rename_i hl
    rw [List.length_take] at hl
    rw [List.take_of_length_le (by omega), List.take_of_length_le (by omega)]

section Trace
variable [Fintype ι]

/-- Closed form of `alpha[l]`. -/
def alphaSpec (l : Nat) (xs : List (ι → K)) : K :=
  if xs.length ≤ l + 1 then 0
  else ((lagPairs l xs).map (fun p => ∑ j, p.1 j * p.2 j)).sum / ((xs.length : K) - l - 1)

/-- Closed form of `beta[l]`. -/
def betaSpec (l : Nat) (xs : List (ι → K)) : ι → K := fun j =>
  if xs.length ≤ l + 1 then 0
  else ((lagPairs l xs).map (fun p => p.1 j + p.2 j)).sum / ((xs.length : K) - l - 1)

theorem betaSpec_pos (l : Nat) (xs : List (ι → K)) (h : xs.length ≤ l + 1) :
    betaSpec l xs = fun _ => 0 := by funext j; exact if_pos h

theorem betaSpec_neg (l : Nat) (xs : List (ι → K)) (h : ¬ xs.length ≤ l + 1) :
    betaSpec l xs = fun j => ((lagPairs l xs).map (fun p => p.1 j + p.2 j)).sum
      / ((xs.length : K) - l - 1) := by funext j; exact if_neg h

theorem alphaSpec_pos (l : Nat) (xs : List (ι → K)) (h : xs.length ≤ l + 1) :
    alphaSpec l xs = 0 := if_pos h

theorem alphaSpec_neg (l : Nat) (xs : List (ι → K)) (h : ¬ xs.length ≤ l + 1) :
    alphaSpec l xs = ((lagPairs l xs).map (fun p => ∑ j, p.1 j * p.2 j)).sum
      / ((xs.length : K) - l - 1) := if_neg h

/-- Closed form of the whole state. -/
def actSpec (L : Nat) (xs : List (ι → K)) : ACTState K ι :=
  ⟨xs.length, vmean xs, (List.range (L+1)).map (fun l => (alphaSpec l xs, betaSpec l xs)),
    xs.reverse.take (L+1)⟩

theorem cast_lag (n l : Nat) (h : l + 2 ≤ n) :
    ((n : K) - l ≠ 0) ∧ ((n : K) - l - 1 ≠ 0) := by
  obtain ⟨k, rfl⟩ := Nat.exists_eq_add_of_le h
  constructor
  · have : ((l + 2 + k : ℕ) : K) - l = ((k + 2 : ℕ) : K) := by push_cast; ring
    rw [this]; exact Nat.cast_ne_zero.mpr (by omega)
  · have : ((l + 2 + k : ℕ) : K) - l - 1 = ((k + 1 : ℕ) : K) := by push_cast; ring
    rw [this]; exact Nat.cast_ne_zero.mpr (by omega)

theorem act_updateLag (L l : Nat) (hl : l ≤ L) (xs : List (ι → K)) (s : ι → K) (hx : xs ≠ []) :
    ACTState.updateLag xs.length (s :: xs.reverse.take (L+1)) s
      ((List.range (L+1)).map (fun l => (alphaSpec l xs, betaSpec l xs))) l
      = .ok (alphaSpec l (xs ++ [s]), betaSpec l (xs ++ [s])) := by
  have hpos : 0 < xs.length := List.length_pos_iff.mpr hx
  unfold ACTState.updateLag
  rw [readAt_ok _ l (by simp; omega)]
  simp only [List.getElem_map, List.getElem_range]
  change (if xs.length = l + 1 then _ else _) = _
  by_cases h1 : xs.length = l + 1
  · rw [if_pos h1]
    have hr1 : 1 < (s :: xs.reverse).length := by simp; omega
    have hrl : l < (s :: xs.reverse).length := by simp; omega
    have hrl1 : l + 1 < (s :: xs.reverse).length := by simp; omega
    rw [window_read (L+1) xs s 0 (by omega) (by simp),
      window_read (L+1) xs s 1 (by omega) hr1,
      window_read (L+1) xs s l (by omega) hrl,
      window_read (L+1) xs s (l+1) (by omega) hrl1]
    have hp := lagPairs_init l xs s h1 _ rfl hrl hrl1 hr1
    have hden : ((l : K) + 1 + 1) - l - 1 = 1 := by ring
    have hn2 : ¬ (xs ++ [s]).length ≤ l + 1 := by simp; omega
    rw [alphaSpec_neg l _ hn2, betaSpec_neg l _ hn2]
    simp only [hp, List.length_append, List.length_cons, List.length_nil, h1, zero_add]
    push_cast
    simp only [hden]
    simp only [bind, Except.bind, pure, Except.pure]
    congr 1
    ext
    · simp
      ring
    · simp
      ring
  · rw [if_neg h1]
    by_cases h2 : xs.length ≥ l + 2
    · rw [if_pos h2]
      have hrl : l < (s :: xs.reverse).length := by simp; omega
      rw [window_read (L+1) xs s l (by omega) hrl]
      have hp := lagPairs_append l xs s (by omega) hrl
      obtain ⟨d1, d2⟩ := cast_lag (K := K) xs.length l h2
      have hden : (xs.length : K) + 1 - l - 1 = xs.length - l := by ring
      have hn1 : ¬ xs.length ≤ l + 1 := by omega
      have hn2 : ¬ (xs ++ [s]).length ≤ l + 1 := by simp; omega
      rw [alphaSpec_neg l _ hn2, betaSpec_neg l _ hn2, alphaSpec_neg l _ hn1, betaSpec_neg l _ hn1]
      simp only [hp, List.length_append, List.length_cons, List.length_nil,
        Nat.zero_add, List.map_append, List.sum_append, List.map_cons,
        List.map_nil, List.sum_cons, List.sum_nil]
      generalize (List.map (fun p => ∑ j, p.1 j * p.2 j) (lagPairs l xs)).sum = S
      push_cast
      simp only [hden]
      simp only [bind, Except.bind, pure, Except.pure]
      congr 1
      ext j
      · simp only
        field_simp
        ring
      · simp only
        generalize (List.map (fun p => p.1 j + p.2 j) (lagPairs l xs)).sum = T
        field_simp
        ring
    · rw [if_neg h2]
      have hn1 : xs.length ≤ l + 1 := by omega
      have hn2 : (xs ++ [s]).length ≤ l + 1 := by simp; omega
      rw [alphaSpec_pos l _ hn2, betaSpec_pos l _ hn2, alphaSpec_pos l _ hn1, betaSpec_pos l _ hn1]
      rfl

theorem actAfter_eq (L : Nat) (M : ι → K) (xs : List (ι → K)) (h : xs ≠ []) :
    actAfter L M xs = .ok (actSpec L xs) := by
  induction xs using List.reverseRecOn with
  | nil => exact absurd rfl h
  | append_singleton xs x ih =>
    by_cases hx : xs = []
    · subst hx
      simp only [actAfter, List.nil_append, List.foldlM_cons, List.foldlM_nil, ACTState.init,
        ACTState.consume, if_true]
      change Except.ok _ = Except.ok _
      congr 1
      simp only [actSpec, vmean_single]
      congr 1
      · apply List.ext_getElem (by simp)
        intro k h1 h2
        simp [alphaSpec_pos, betaSpec_pos]
      · simp
    · have hl : xs.length ≠ 0 := by simpa using hx
      rw [actAfter, foldlM_append_ok _ _ _ _ _ (ih hx)]
      simp only [ACTState.consume, actSpec, hl, if_false]
      rw [mapM_ok _ (fun l => (alphaSpec l (xs ++ [x]), betaSpec l (xs ++ [x]))) _ (by
        intro l hl
        exact act_updateLag L l (by simp at hl; omega) xs x hx)]
      change Except.ok _ = Except.ok _
      congr 1
      have hm : (fun i => vmean xs i + (x i - vmean xs i) / ((xs.length + 1 : ℕ) : K))
          = vmean (xs ++ [x]) := by
        funext i
        rw [vmean_append xs x hx i]
        push_cast
        ring
      have hlen : xs.length + 1 = (xs ++ [x]).length := by simp
      rw [← hm, ← hlen, ← window_next]
      rfl

theorem sum_centered_dot (ps : List ((ι → K) × (ι → K))) (m : ι → K) :
    (ps.map (fun p => ∑ j, (p.1 j - m j) * (p.2 j - m j))).sum =
      (ps.map (fun p => ∑ j, p.1 j * p.2 j)).sum
        - ∑ j, m j * (ps.map (fun p => p.1 j + p.2 j)).sum + ps.length * ∑ j, m j * m j := by
  induction ps with
  | nil => simp
  | cons p ps ih =>
    have e1 : ∑ j, (p.1 j - m j) * (p.2 j - m j) =
        ∑ j, p.1 j * p.2 j - ∑ j, m j * (p.1 j + p.2 j) + ∑ j, m j * m j := by
      rw [← Finset.sum_sub_distrib, ← Finset.sum_add_distrib]
      exact Finset.sum_congr rfl (fun j _ => by ring)
    simp only [List.map_cons, List.sum_cons, List.length_cons, ih, e1, mul_add,
      Finset.sum_add_distrib]
    push_cast
    ring

theorem act_getLag (L l : Nat) (hl : l ≤ L) (xs : List (ι → K)) :
    (actSpec L xs).getLag l = .ok (if xs.length ≤ l + 1 then 0 else autoCovTrace l xs) := by
  unfold ACTState.getLag
  simp only [actSpec]
  rw [readAt_ok _ l (by simp; omega)]
  simp only [List.getElem_map, List.getElem_range]
  change Except.ok _ = Except.ok _
  congr 1
  by_cases h : xs.length ≤ l + 1
  · have h' : ¬ xs.length > l + 1 := by omega
    simp [alphaSpec_pos, betaSpec_pos, h, h']
  · have h' : xs.length > l + 1 := by omega
    obtain ⟨d1, d2⟩ := cast_lag (K := K) xs.length l (by omega)
    have hlen : ((xs.length - l : ℕ) : K) = xs.length - l := by
      rw [Nat.cast_sub (by omega)]
    rw [alphaSpec_neg l _ h, betaSpec_neg l _ h]
    simp only [h, h', if_true, if_false, autoCovTrace]
    rw [sum_centered_dot, lagPairs_length, hlen]
    have e1 : ∑ x, vmean xs x * ((List.map (fun p => p.1 x + p.2 x) (lagPairs l xs)).sum /
        ((xs.length : K) - l - 1)) = (∑ j, vmean xs j *
          (List.map (fun p => p.1 j + p.2 j) (lagPairs l xs)).sum) / ((xs.length : K) - l - 1) := by
      rw [Finset.sum_div]
      exact Finset.sum_congr rfl (fun j _ => by ring)
    have e2 : ∑ j, (1 + 1 / ((xs.length : K) - l - 1)) * vmean xs j * vmean xs j
        = (1 + 1 / ((xs.length : K) - l - 1)) * ∑ j, vmean xs j * vmean xs j := by
      rw [Finset.mul_sum]
      exact Finset.sum_congr rfl (fun j _ => by ring)
    rw [e1, e2]
    field_simp
    ring

end Trace

section Matrix

/-- Closed form of `alpha[l]`, `beta[l]`, `eta[l]` of AutoCovarianceMatrix. -/
def acmLagSpec (G : Nat → ι → ι → K) (l : Nat) (xs : List (ι → K)) : ACMLag K ι :=
  if xs.length ≤ l + 1 then ⟨G l, fun _ => 0, fun _ => 0⟩
  else
    ⟨fun i j => (G l i j + ((lagPairs l xs).map (fun p => p.1 i * p.2 j)).sum)
        / ((xs.length : K) - l - 1),
     fun i => ((lagPairs l xs).map (fun p => p.1 i)).sum / ((xs.length : K) - l - 1),
     fun i => ((lagPairs l xs).map (fun p => p.2 i)).sum / ((xs.length : K) - l - 1)⟩

theorem acmLagSpec_pos (G : Nat → ι → ι → K) (l : Nat) (xs : List (ι → K))
    (h : xs.length ≤ l + 1) : acmLagSpec G l xs = ⟨G l, fun _ => 0, fun _ => 0⟩ := if_pos h

theorem acmLagSpec_neg (G : Nat → ι → ι → K) (l : Nat) (xs : List (ι → K))
    (h : ¬ xs.length ≤ l + 1) : acmLagSpec G l xs =
    ⟨fun i j => (G l i j + ((lagPairs l xs).map (fun p => p.1 i * p.2 j)).sum)
        / ((xs.length : K) - l - 1),
     fun i => ((lagPairs l xs).map (fun p => p.1 i)).sum / ((xs.length : K) - l - 1),
     fun i => ((lagPairs l xs).map (fun p => p.2 i)).sum / ((xs.length : K) - l - 1)⟩ := if_neg h

/-- Closed form of the state. -/
def acmSpec (L : Nat) (G : Nat → ι → ι → K) (xs : List (ι → K)) : ACMState K ι :=
  ⟨xs.length, vmean xs, (List.range (L+1)).map (fun l => acmLagSpec G l xs),
    xs.reverse.take (L+1)⟩

theorem acm_updateLag (L l : Nat) (G : Nat → ι → ι → K) (hl : l ≤ L) (xs : List (ι → K))
    (s : ι → K) (hx : xs ≠ []) :
    ACMState.updateLag xs.length (s :: xs.reverse.take (L+1)) s
      ((List.range (L+1)).map (fun l => acmLagSpec G l xs)) l
      = .ok (acmLagSpec G l (xs ++ [s])) := by
  have hpos : 0 < xs.length := List.length_pos_iff.mpr hx
  unfold ACMState.updateLag
  rw [readAt_ok _ l (by simp; omega)]
  simp only [List.getElem_map, List.getElem_range]
  change (if xs.length = l + 1 then _ else _) = _
  by_cases h1 : xs.length = l + 1
  · rw [if_pos h1]
    have hr1 : 1 < (s :: xs.reverse).length := by simp; omega
    have hrl : l < (s :: xs.reverse).length := by simp; omega
    have hrl1 : l + 1 < (s :: xs.reverse).length := by simp; omega
    rw [window_read (L+1) xs s 0 (by omega) (by simp),
      window_read (L+1) xs s 1 (by omega) hr1,
      window_read (L+1) xs s l (by omega) hrl,
      window_read (L+1) xs s (l+1) (by omega) hrl1]
    have hp := lagPairs_init l xs s h1 _ rfl hrl hrl1 hr1
    have hden : ((l : K) + 1 + 1) - l - 1 = 1 := by ring
    have hn1 : xs.length ≤ l + 1 := by omega
    have hn2 : ¬ (xs ++ [s]).length ≤ l + 1 := by simp; omega
    rw [acmLagSpec_pos G l xs hn1, acmLagSpec_neg G l _ hn2, hp]
    simp only [List.length_append, List.length_cons, List.length_nil, h1, zero_add]
    push_cast
    simp only [hden, bind, Except.bind, pure, Except.pure]
    congr 2
    · funext i j
      simp
      ring
    · funext i
      simp
      ring
    · funext i
      simp
      ring
  · rw [if_neg h1]
    by_cases h2 : xs.length ≥ l + 2
    · rw [if_pos h2]
      have hrl : l < (s :: xs.reverse).length := by simp; omega
      rw [window_read (L+1) xs s l (by omega) hrl]
      have hp := lagPairs_append l xs s (by omega) hrl
      obtain ⟨d1, d2⟩ := cast_lag (K := K) xs.length l h2
      have hden : (xs.length : K) + 1 - l - 1 = xs.length - l := by ring
      have hn1 : ¬ xs.length ≤ l + 1 := by omega
      have hn2 : ¬ (xs ++ [s]).length ≤ l + 1 := by simp; omega
      rw [acmLagSpec_neg G l xs hn1, acmLagSpec_neg G l _ hn2, hp]
      simp only [List.map_append, List.sum_append,
        List.map_cons, List.map_nil, List.sum_cons, List.sum_nil, List.length_append,
        List.length_cons, List.length_nil, zero_add]
      push_cast
      simp only [hden, bind, Except.bind, pure, Except.pure]
      congr 2
      · funext i j
        generalize (List.map (fun p => p.1 i * p.2 j) (lagPairs l xs)).sum = T
        field_simp
        ring
      · funext i
        generalize (List.map (fun p => p.1 i) (lagPairs l xs)).sum = T
        field_simp
        ring
      · funext i
        generalize (List.map (fun p => p.2 i) (lagPairs l xs)).sum = T
        field_simp
        ring
    · rw [if_neg h2]
      have hn1 : xs.length ≤ l + 1 := by omega
      have hn2 : (xs ++ [s]).length ≤ l + 1 := by simp; omega
      rw [acmLagSpec_pos G l xs hn1, acmLagSpec_pos G l _ hn2]
      rfl

theorem acmAfter_eq (L : Nat) (G : Nat → ι → ι → K) (M : ι → K) (xs : List (ι → K)) (h : xs ≠ []) :
    acmAfter L G M xs = .ok (acmSpec L G xs) := by
  induction xs using List.reverseRecOn with
  | nil => exact absurd rfl h
  | append_singleton xs x ih =>
    by_cases hx : xs = []
    · subst hx
      simp only [acmAfter, List.nil_append, List.foldlM_cons, List.foldlM_nil, ACMState.init,
        ACMState.consume, if_true]
      change Except.ok _ = Except.ok _
      congr 1
      simp only [acmSpec, vmean_single]
      congr 1
      · apply List.ext_getElem (by simp)
        intro k h1 h2
        simp [acmLagSpec]
    · have hl : xs.length ≠ 0 := by simpa using hx
      rw [acmAfter, foldlM_append_ok _ _ _ _ _ (ih hx)]
      simp only [ACMState.consume, acmSpec, hl, if_false]
      rw [mapM_ok _ (fun l => acmLagSpec G l (xs ++ [x])) _ (by
        intro l hl
        exact acm_updateLag L l G (by simp at hl; omega) xs x hx)]
      change Except.ok _ = Except.ok _
      congr 1
      have hm : (fun i => vmean xs i + (x i - vmean xs i) / ((xs.length + 1 : ℕ) : K))
          = vmean (xs ++ [x]) := by
        funext i
        rw [vmean_append xs x hx i]
        push_cast
        ring
      have hlen : xs.length + 1 = (xs ++ [x]).length := by simp
      rw [← hm, ← hlen, ← window_next]
      rfl

theorem acm_getLag (L l : Nat) (G : Nat → ι → ι → K) (hl : l ≤ L) (xs : List (ι → K)) :
    (acmSpec L G xs).getLag l = .ok (if xs.length ≤ l + 1 then G l else
      fun i j => autoCov l xs i j + G l i j / ((xs.length : K) - l - 1)) := by
  unfold ACMState.getLag
  simp only [acmSpec]
  rw [readAt_ok _ l (by simp; omega)]
  simp only [List.getElem_map, List.getElem_range]
  change Except.ok _ = Except.ok _
  congr 1
  by_cases h : xs.length ≤ l + 1
  · have h' : ¬ xs.length > l + 1 := by omega
    simp [acmLagSpec, h, h']
  · have h' : xs.length > l + 1 := by omega
    obtain ⟨d1, d2⟩ := cast_lag (K := K) xs.length l (by omega)
    have hlen : ((xs.length - l : ℕ) : K) = xs.length - l := by
      rw [Nat.cast_sub (by omega)]
    rw [acmLagSpec_neg G l xs h]
    simp only [h, h', if_true, if_false]
    funext i j
    have e := sum_centered (K := K) ((lagPairs l xs).map (fun p => (p.1 i, p.2 j)))
      (vmean xs i) (vmean xs j)
    simp only [List.map_map, Function.comp_def, List.length_map, lagPairs_length, hlen] at e
    simp only [autoCov, e]
    field_simp
    ring

end Matrix

end SampleFlow
