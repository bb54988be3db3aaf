import Verif.Model.Moments
import Verif.Spec.Statistics
import Mathlib.Tactic.Ring
import Mathlib.Tactic.FieldSimp
import Mathlib.Tactic.LinearCombination
import Mathlib.Algebra.CharZero.Defs
import Mathlib.Algebra.BigOperators.Group.List.Basic
import Mathlib.Algebra.BigOperators.Ring.List
import Mathlib.Algebra.Star.BigOperators

set_option linter.unusedSectionVars false
set_option linter.unusedSimpArgs false

namespace SampleFlow

open Spec

section Mean
variable {K ι : Type} [Field K] [CharZero K]

theorem mean_append (xs : List K) (x : K) :
    ((xs.length : K) + 1) * mean (xs ++ [x]) = xs.sum + x := by
  have h : ((xs.length : K) + 1) ≠ 0 := by exact_mod_cast Nat.succ_ne_zero xs.length
  simp only [mean, List.sum_append, List.sum_cons, List.sum_nil, List.length_append,
    List.length_cons, List.length_nil]
  push_cast
  field_simp
  ring

theorem length_mul_mean (xs : List K) (h : xs ≠ []) : (xs.length : K) * mean xs = xs.sum := by
  have h : (xs.length : K) ≠ 0 := by
    have : xs.length ≠ 0 := by simpa using h
    exact_mod_cast this
  simp only [mean]; field_simp

theorem mean_append' (xs : List K) (x : K) (h : xs ≠ []) :
    mean (xs ++ [x]) = mean xs + (x - mean xs) / ((xs.length : K) + 1) := by
  have h1 : ((xs.length : K) + 1) ≠ 0 := by exact_mod_cast Nat.succ_ne_zero xs.length
  have e := mean_append xs x
  rw [← length_mul_mean xs h] at e
  field_simp
  linear_combination e

theorem vmean_append (xs : List (ι → K)) (x : ι → K) (h : xs ≠ []) (i : ι) :
    vmean (xs ++ [x]) i = vmean xs i + (x i - vmean xs i) / ((xs.length : K) + 1) := by
  have := mean_append' (xs.map (fun x => x i)) (x i) (by simpa using h)
  simpa [vmean] using this

theorem vmean_single (x : ι → K) : vmean [x] = x := by
  funext i; simp [vmean, mean]

theorem meanAfter_eq (G : ι → K) (xs : List (ι → K)) (h : xs ≠ []) :
    meanAfter G xs = ⟨xs.length, vmean xs⟩ := by
  induction xs using List.reverseRecOn with
  | nil => exact absurd rfl h
  | append_singleton xs x ih =>
    by_cases hx : xs = []
    · subst hx
      simp [meanAfter, MeanState.init, MeanState.consume, vmean_single]
    · have ih := ih hx
      simp only [meanAfter] at ih
      simp only [meanAfter, List.foldl_append, ih, List.foldl_cons, List.foldl_nil]
      have hl : xs.length ≠ 0 := by simpa using hx
      simp only [MeanState.consume, hl, if_false, List.length_append, List.length_cons,
        List.length_nil]
      congr 1
      funext i
      rw [vmean_append xs x hx i]
      push_cast
      ring

end Mean

section Cov
variable {K ι : Type} [Field K] [CharZero K] [StarRing K]

theorem star_mean (xs : List K) : star (mean xs) = mean (xs.map star) := by
  simp only [mean, List.length_map, star_div₀, star_natCast]
  congr 1
  induction xs with
  | nil => simp
  | cons x xs ih => simp [ih]

omit [CharZero K] [StarRing K] in
/-- Two sequences (pairs), `∑ (a - ā)(b - b̄) = ∑ ab - n ā b̄`. -/
theorem sum_centered (ps : List (K × K)) (ma mb : K) :
    (ps.map (fun p => (p.1 - ma) * (p.2 - mb))).sum =
      (ps.map (fun p => p.1 * p.2)).sum - ma * (ps.map Prod.snd).sum - (ps.map Prod.fst).sum * mb
        + ps.length * ma * mb := by
  induction ps with
  | nil => simp
  | cons p ps ih =>
    simp only [List.map_cons, List.sum_cons, List.length_cons, ih]
    push_cast
    ring

theorem cov_step (ps : List (K × K)) (a b : K) (h : ps ≠ []) :
    let n : K := ps.length
    let ma := mean (ps.map Prod.fst)
    let mb := mean (ps.map Prod.snd)
    let ma' := mean ((ps ++ [(a,b)]).map Prod.fst)
    let mb' := mean ((ps ++ [(a,b)]).map Prod.snd)
    ((ps ++ [(a,b)]).map (fun p => (p.1 - ma') * (p.2 - mb'))).sum =
      (ps.map (fun p => (p.1 - ma) * (p.2 - mb))).sum + n * ((a - ma) * (b - mb)) / (n + 1) := by
  intro n ma mb ma' mb'
  have hn1 : n + 1 ≠ 0 := by
    simp only [n]; exact_mod_cast Nat.succ_ne_zero ps.length
  have hn : n ≠ 0 := by
    have : ps.length ≠ 0 := by simpa using h
    simp only [n]; exact_mod_cast this
  have e1 : (ps.map Prod.fst).sum = n * ma := by
    have := length_mul_mean (ps.map Prod.fst) (by simpa using h)
    simpa using this.symm
  have e2 : (ps.map Prod.snd).sum = n * mb := by
    have := length_mul_mean (ps.map Prod.snd) (by simpa using h)
    simpa using this.symm
  have e3 : ma' = ma + (a - ma) / (n + 1) := by
    have := mean_append' (ps.map Prod.fst) a (by simpa using h)
    simpa [ma', ma, n] using this
  have e4 : mb' = mb + (b - mb) / (n + 1) := by
    have := mean_append' (ps.map Prod.snd) b (by simpa using h)
    simpa [mb', mb, n] using this
  rw [sum_centered, sum_centered]
  simp only [List.map_append, List.map_cons, List.map_nil, List.sum_append, List.sum_cons,
    List.sum_nil, List.length_append, List.length_cons, List.length_nil, e1, e2, e3, e4]
  push_cast
  change _ = _ + n * _ / _
  have hnn : (ps.length : K) = n := rfl
  rw [hnn]
  field_simp
  ring

/-- `cov` in terms of pairs. -/
theorem cov_eq_pairs (xs : List (ι → K)) (i j : ι) :
    cov xs i j = (((xs.map (fun x => (x i, star (x j))))).map
      (fun p => (p.1 - mean ((xs.map (fun x => (x i, star (x j)))).map Prod.fst)) *
        (p.2 - mean ((xs.map (fun x => (x i, star (x j)))).map Prod.snd)))).sum
      / ((xs.length : K) - 1) := by
  have h1 : mean (xs.map (fun x => x i)) = vmean xs i := rfl
  have h2 : mean (xs.map (fun x => star (x j))) = star (vmean xs j) := by
    rw [vmean, star_mean, List.map_map]; rfl
  simp only [cov, List.map_map, Function.comp_def, star_sub, h1, h2]

theorem covAfter_eq (M : ι → K) (C₀ G : ι → ι → K) (xs : List (ι → K)) (h : xs ≠ []) :
    (covAfter M C₀ G xs).n = xs.length ∧ (covAfter M C₀ G xs).mean = vmean xs ∧
    (covAfter M C₀ G xs).C = if xs.length = 1 then G else cov xs := by
  induction xs using List.reverseRecOn with
  | nil => exact absurd rfl h
  | append_singleton xs x ih =>
    by_cases hx : xs = []
    · subst hx
      simp [covAfter, CovState.init, CovState.consume, vmean_single]
    · obtain ⟨i1, i2, i3⟩ := ih hx
      simp only [covAfter] at i1 i2 i3
      have hl : xs.length ≠ 0 := by simpa using hx
      simp only [covAfter, List.foldl_append, List.foldl_cons, List.foldl_nil, CovState.consume,
        i1, i2, i3, hl, if_false]
      refine ⟨by simp, ?_, ?_⟩
      · funext i
        rw [vmean_append xs x hx i]
        push_cast
        ring
      · have hne : ¬ (xs ++ [x]).length = 1 := by simpa using hx
        rw [if_neg hne]
        funext i j
        rw [cov_eq_pairs (xs ++ [x])]
        rw [List.map_append, List.map_cons, List.map_nil]
        have hstep := cov_step (xs.map (fun x => (x i, star (x j)))) (x i) (star (x j))
          (by simpa using hx)
        simp only at hstep
        rw [hstep]
        have hn1 : ((xs.length : K) + 1) ≠ 0 := by exact_mod_cast Nat.succ_ne_zero xs.length
        have hn : (xs.length : K) ≠ 0 := by exact_mod_cast hl
        have hma : mean (xs.map (fun x => x i)) = vmean xs i := rfl
        have hmb : mean (xs.map (fun x => star (x j))) = star (vmean xs j) := by
          rw [vmean, star_mean, List.map_map]; rfl
        by_cases h1 : xs.length = 1
        · obtain ⟨y, rfl⟩ := List.length_eq_one_iff.mp h1
          simp [mean, vmean]
          ring
        · have h1' : (xs.length : K) - 1 ≠ 0 := by
            rw [sub_ne_zero]; exact_mod_cast h1
          have hc := cov_eq_pairs xs i j
          rw [if_neg h1, hc]
          simp only [List.length_append, List.length_cons, List.length_nil, List.length_map,
            List.map_map, Function.comp_def, hma, hmb, star_sub]
          generalize (List.map (fun x => (x i - vmean xs i) * (star (x j) - star (vmean xs j))) xs).sum = S
          push_cast
          have hnn : ((xs.length : K) + (0 + 1) - 1) = xs.length := by ring
          have hnn' : ((xs.length : K) + 1 - 1) = xs.length := by ring
          simp only [hnn, hnn', zero_add]
          field_simp
          ring

end Cov

section Lag
variable {K ι : Type} [Field K] [CharZero K]

theorem readAt_ok {X : Type} (xs : List X) (l : Nat) (h : l < xs.length) :
    readAt xs l = .ok xs[l] := by
  simp [readAt, h]

theorem mapM_ok {X Y : Type} (f : X → Except Fault Y) (g : X → Y) (xs : List X)
    (h : ∀ x ∈ xs, f x = .ok (g x)) : xs.mapM f = .ok (xs.map g) := by
  induction xs with
  | nil => rfl
  | cons x xs ih =>
    rw [List.mapM_cons, h x (by simp), ih (fun y hy => h y (by simp [hy]))]
    rfl

theorem foldlM_append_ok {S X : Type} (f : S → X → Except Fault S) (s t : S) (xs : List X) (x : X)
    (h : xs.foldlM f s = .ok t) : (xs ++ [x]).foldlM f s = f t x := by
  rw [List.foldlM_append, h]
  simp only [List.foldlM_cons, List.foldlM_nil]
  change (f t x >>= fun i => pure i) = f t x
  cases f t x <;> rfl

theorem lagPairs_append {X : Type} (l : Nat) (xs : List X) (s : X) (h : l ≤ xs.length)
    (h' : l < (s :: xs.reverse).length) :
    lagPairs l (xs ++ [s]) = lagPairs l xs ++ [(s, (s :: xs.reverse)[l])] := by
  have h1 : (xs ++ [s]).drop l = xs.drop l ++ [s] := by
    rw [List.drop_append_of_le_length h]
  have hlen : (xs.drop l).length = xs.length - l := List.length_drop
  have hlt : xs.length - l < (xs ++ [s]).length := by simp; omega
  have h2 : xs ++ [s] = (xs ++ [s]).take (xs.length - l) ++
      ((xs ++ [s])[xs.length - l] :: (xs ++ [s]).drop (xs.length - l + 1)) := by
    rw [List.getElem_cons_drop, List.take_append_drop]
  have h3 : (xs ++ [s])[xs.length - l] = (s :: xs.reverse)[l] := by
    have : (s :: xs.reverse) = (xs ++ [s]).reverse := by simp
    simp only [this, List.getElem_reverse]
    congr 1
    simp
  have h4 : (xs ++ [s]).take (xs.length - l) = xs.take (xs.length - l) := by
    rw [List.take_append_of_le_length (by omega)]
  have h5 : (xs.drop l).zip xs = (xs.drop l).zip (xs.take (xs.length - l)) := by
    conv_lhs => rw [← List.take_append_drop (xs.length - l) xs]
    rw [List.take_append_drop]
    conv_lhs => rhs; rw [← List.take_append_drop (xs.length - l) xs]
    rw [List.zip_eq_zip_take_min]
    simp only [List.length_drop, List.length_append, List.length_take]
    rw [List.take_of_length_le (by simp)]
    congr 1
    rw [List.take_append_of_le_length (by simp)]
    rw [List.take_of_length_le (by simp)]
  unfold lagPairs
  rw [h1, h5]
  conv_lhs => rhs; rw [h2, h3, h4]
  rw [List.zip_append (by simp)]
  simp

theorem lagPairs_length {X : Type} (l : Nat) (xs : List X) :
    (lagPairs l xs).length = xs.length - l := by
  simp [lagPairs]

theorem lagPairs_eq_nil {X : Type} (l : Nat) (xs : List X) (h : xs.length ≤ l) :
    lagPairs l xs = [] := by
  rw [← List.length_eq_zero_iff, lagPairs_length]; omega

end Lag
end SampleFlow
