import Verif.Model.RoundingCos
import Verif.Proofs.RoundingAuto
import Verif.Proofs.SimpleConsumers
import Verif.Proofs.AutoCov

namespace SampleFlow
open Spec

namespace RoundingCos

section generic
variable {D : Type} [Arith D] {d : Nat}

open Arith in
/-- the running average of the code: start with 0, then the steps `m += (c - m)/k` -/
def runMean (cs : List D) : D × Nat := cs.foldl (fun s c => (add s.1 (div (sub c s.1) (ofNat (s.2 + 1))), s.2 + 1)) (ofNat 0, 0)

theorem runMean_count (cs : List D) : (runMean cs).2 = cs.length := by
  induction cs using List.reverseRecOn with
  | nil => rfl
  | append_singleton cs c ih => rw [runMean, List.foldl_append, List.foldl_cons, List.foldl_nil, List.length_append, ← ih]; rfl

theorem runMean_append (cs : List D) (c : D) :
    (runMean (cs ++ [c])).1 = Arith.add (runMean cs).1 (Arith.div (Arith.sub c (runMean cs).1) (Arith.ofNat (cs.length + 1))) := by
  rw [← runMean_count cs, runMean, List.foldl_append, List.foldl_cons, List.foldl_nil]
  rfl

/-- the computed cosines of all pairs at distance `l` -/
def cosines (sqrt : D → D) (l : Nat) (xs : List (Fin d → D)) : List D := (lagPairs l xs).map (fun p => machineCosine sqrt p.1 p.2)

theorem after_inv (sqrt : D → D) (bits H : Nat) (hH : 1 ≤ H) (A₀ : Nat → D) (G1 G2 : Nat → Fin d → D)
    (xs : List (Fin d → D)) (h : xs ≠ []) (hlen : xs.length ≤ 2^bits) :
    ∃ s, cosMachineAfter sqrt bits H A₀ G1 G2 xs = .ok s ∧ s.n = xs.length ∧
      (∀ i, i < H → s.avg i = (runMean (cosines sqrt (i+1) xs)).1) ∧
      (∀ i, i < H → ∀ hi : i < xs.reverse.length, s.prev i = xs.reverse[i]) := by
  induction xs using List.reverseRecOn with
  | nil => exact absurd rfl h
  | append_singleton xs x ih =>
    by_cases hx : xs = []
    · subst hx
      have hH0 : H ≠ 0 := by omega
      refine ⟨⟨1, fun _ => Arith.ofNat 0, fun i => if i = 0 then x else G1 i, G2⟩, ?_, rfl, ?_, ?_⟩
      · simp only [cosMachineAfter, List.nil_append, List.foldlM_cons, List.foldlM_nil, cosMachineConsume,
          hH0, if_false, if_true]
        rfl
      · intro i _
        rw [cosines, lagPairs_eq_nil (i+1) _ (by simp)]
        rfl
      · intro i _ hi
        simp at hi
        subst hi
        simp
    · have hpos : 0 < xs.length := List.length_pos_iff.mpr hx
      have hlt : xs.length < 2^bits := by
        rw [List.length_append] at hlen; simp at hlen; omega
      obtain ⟨s, h1, h2, h3, h4⟩ := ih hx (by omega)
      have hH0 : H ≠ 0 := by omega
      have hn0 : ¬ s.n = 0 := by omega
      have hmod : s.n % 2^bits = xs.length := by rw [h2]; exact Nat.mod_eq_of_lt hlt
      rw [cosMachineAfter] at h1 ⊢
      rw [foldlM_append_ok _ _ _ _ _ h1]
      have hb : ¬ (H < min xs.length H ∨ H < min xs.length (H - 1) + 1) := by omega
      simp only [cosMachineConsume, if_neg hH0, if_neg hn0, hmod, if_neg hb]
      refine ⟨_, rfl, by simp [h2], ?_, ?_⟩
      · intro i hi
        simp only
        by_cases hc : i < xs.length
        · have hl1 : i < min xs.length H := by omega
          rw [if_pos hl1, h3 i hi, h4 i hi (by simpa using hc), h2]
          have hp := lagPairs_append (i+1) xs x (by omega) (by simp; omega)
          simp only [List.getElem_cons_succ] at hp
          simp only [cosines]
          rw [hp, List.map_append, List.map_cons, List.map_nil]
          have := runMean_append (cosines sqrt (i+1) xs) (machineCosine sqrt x (xs.reverse[i]'(by simpa using hc)))
          simp only [cosines, List.length_map, lagPairs_length] at this
          rw [this]
          have e : xs.length + 1 - i - 1 = xs.length - (i + 1) + 1 := by omega
          rw [e]
        · have hl1 : ¬ i < min xs.length H := by omega
          rw [if_neg hl1, h3 i hi]
          simp only [cosines]
          rw [lagPairs_eq_nil (i+1) xs (by omega), lagPairs_eq_nil (i+1) (xs ++ [x]) (by simp; omega)]
      · intro i hi hi'
        have hi'' : i < xs.length + 1 := by simpa using hi'
        simp only
        have hrev : (xs ++ [x]).reverse = x :: xs.reverse := by simp
        simp only [hrev]
        rcases i with _ | k
        · simp
        · rw [if_neg (by omega), if_pos (by simp; omega)]
          simp only [Nat.add_sub_cancel, List.getElem_cons_succ]
          exact h4 k (by omega) (by simp; omega)

/-- the entries of `get()` -/
theorem get_inv (sqrt : D → D) (bits H : Nat) (hH : 1 ≤ H) (A₀ : Nat → D) (G1 G2 : Nat → Fin d → D)
    (xs : List (Fin d → D)) (h : xs ≠ []) (hlen : xs.length ≤ 2^bits) :
    cosMachineGet sqrt bits H A₀ G1 G2 xs = .ok ((List.range H).map (fun i => (runMean (cosines sqrt (i+1) xs)).1)) := by
  obtain ⟨s, h1, -, h3, -⟩ := after_inv sqrt bits H hH A₀ G1 G2 xs h hlen
  unfold cosMachineGet
  rw [h1]
  show Except.ok _ = _
  congr 1
  exact List.map_congr_left fun i hi => h3 i (List.mem_range.mp hi)

/-- if operations with 0 and 1 are exact for the first number, the running average is a MeanValue -/
theorem runMean_machineMean (G : Unit → D) (c : D) (cs : List D) (hc : Arith.add (Arith.ofNat 0) (Arith.div (Arith.sub c (Arith.ofNat 0)) (Arith.ofNat 1)) = c) :
    (runMean (c :: cs)).1 = (machineMean G ((c :: cs).map (fun c (_ : Unit) => c))).get () := by
  have key : ∀ cs : List D, machineMean G ((c :: cs).map (fun c (_ : Unit) => c)) = ⟨(runMean (c :: cs)).2, fun _ => (runMean (c :: cs)).1⟩ := by
    intro cs
    induction cs using List.reverseRecOn with
    | nil =>
      show meanConsume (MeanState.init G) _ = _
      have h0 : (runMean [c]).1 = c := hc
      simp only [meanConsume, MeanState.init, if_true, h0]
      rfl
    | append_singleton cs x ih =>
      rw [← List.cons_append, List.map_append, machineMean, List.foldl_append, ← machineMean, ih]
      have hne : ¬ (runMean (c :: cs)).2 = 0 := by rw [runMean_count]; simp
      simp only [List.map_cons, List.map_nil, List.foldl_cons, List.foldl_nil, meanConsume, if_neg hne]
      rw [runMean_append, runMean_count, runMean_count]
      simp
  rw [key]
  rfl

end generic

section rounding
variable {u : ℝ} {fl : ℝ → ℝ} {d : Nat}

/-- scalar products: error relative to the sum of the absolute values -/
theorem dot_error (h : Rounding u fl) (hu0 : 0 ≤ u) (x y : Fin d → ℝ) :
    |@dotFrom ℝ (roundedArith fl) d (fl ((0:ℕ):ℝ)) x y - ∑ j, x j * y j| ≤ ((1 + u) ^ (d + 1) - 1) * ∑ j, |x j * y j| := by
  have key : ∀ (l : List (Fin d)) (k : Nat) (s S A : ℝ), |S| ≤ A → |s - S| ≤ ((1 + u) ^ (k + 1) - 1) * A →
      |l.foldl (fun s j => fl (s + fl (x j * y j))) s - (S + (l.map (fun j => x j * y j)).sum)| ≤ ((1 + u) ^ (k + l.length + 1) - 1) * (A + (l.map (fun j => |x j * y j|)).sum) := by
    intro l
    induction l with
    | nil => intro k s S A _ hs; simpa using hs
    | cons j l ih =>
      intro k s S A hSA hs
      have hA : 0 ≤ A := (abs_nonneg _).trans hSA
      set p := x j * y j with hp
      set q := (1 + u) ^ (k + 1) with hq
      have hq1 : 1 + u ≤ q := by
        rw [hq, pow_succ]
        exact le_mul_of_one_le_left (by linarith) (one_le_pow₀ (by linarith))
      have e1 := h.error p
      have e2 := h.error (s + fl p)
      have hz : |s + fl p| ≤ q * A + (1 + u) * |p| := by
        have a1 : |s| ≤ |s - S| + |S| := by have := abs_add_le (s - S) S; simpa using this
        have a2 : |fl p| ≤ |fl p - p| + |p| := by have := abs_add_le (fl p - p) p; simpa using this
        have a3 := abs_add_le s (fl p)
        linarith
      have hd : |(s + fl p) - (S + p)| ≤ (q - 1) * A + u * |p| := by
        have := abs_add_le (s - S) (fl p - p)
        rw [show s - S + (fl p - p) = (s + fl p) - (S + p) by ring] at this
        linarith
      have hnew : |fl (s + fl p) - (S + p)| ≤ ((1 + u) ^ (k + 1 + 1) - 1) * (A + |p|) := by
        have a4 := abs_add_le (fl (s + fl p) - (s + fl p)) ((s + fl p) - (S + p))
        rw [sub_add_sub_cancel] at a4
        have a5 : u * |s + fl p| ≤ u * (q * A + (1 + u) * |p|) := mul_le_mul_of_nonneg_left hz hu0
        have a6 : (1 + u) * |p| ≤ q * |p| := mul_le_mul_of_nonneg_right hq1 (abs_nonneg _)
        have a7 : u * ((1 + u) * |p|) ≤ u * (q * |p|) := mul_le_mul_of_nonneg_left a6 hu0
        have a8 : (1 + u) ^ (k + 1 + 1) = (1 + u) * q := by rw [hq, pow_succ (1 + u) (k + 1), mul_comm]
        rw [a8]
        nlinarith
      have := ih (k + 1) (fl (s + fl p)) (S + p) (A + |p|) ((abs_add_le _ _).trans (by linarith)) hnew
      rw [add_assoc S, add_assoc A] at this
      rw [List.foldl_cons, List.map_cons, List.sum_cons, List.map_cons, List.sum_cons, List.length_cons,
        show k + (l.length + 1) + 1 = k + 1 + l.length + 1 by omega]
      exact this
  have := key (List.finRange d) 0 0 0 0 (by simp) (by simp)
  rw [← List.ofFn_eq_map, List.sum_ofFn, ← List.ofFn_eq_map, List.sum_ofFn, zero_add, zero_add, List.length_finRange, zero_add] at this
  rw [Nat.cast_zero, h.zero]
  exact this

/-- sums of squares: lower and upper bounds -/
theorem norm_bounds (h : Rounding u fl) (hu0 : 0 ≤ u) (hu : u ≤ 1) (x : Fin d → ℝ) :
    (1 - u) ^ (d + 1) * ∑ j, x j * x j ≤ @dotFrom ℝ (roundedArith fl) d (fl ((0:ℕ):ℝ)) x x ∧
    @dotFrom ℝ (roundedArith fl) d (fl ((0:ℕ):ℝ)) x x ≤ (1 + u) ^ (d + 1) * ∑ j, x j * x j := by
  have key : ∀ (l : List (Fin d)) (k : Nat) (s S : ℝ), 0 ≤ S → (1 - u) ^ (k + 1) * S ≤ s → s ≤ (1 + u) ^ (k + 1) * S →
      (1 - u) ^ (k + l.length + 1) * (S + (l.map (fun j => x j * x j)).sum) ≤ l.foldl (fun s j => fl (s + fl (x j * x j))) s ∧
      l.foldl (fun s j => fl (s + fl (x j * x j))) s ≤ (1 + u) ^ (k + l.length + 1) * (S + (l.map (fun j => x j * x j)).sum) := by
    intro l
    induction l with
    | nil => intro k s S _ h1 h2; simpa using ⟨h1, h2⟩
    | cons j l ih =>
      intro k s S hS h1 h2
      have hp : 0 ≤ x j * x j := mul_self_nonneg _
      set p := x j * x j
      have hu1 : 0 ≤ 1 - u := by linarith
      have lower : ∀ z : ℝ, 0 ≤ z → (1 - u) * z ≤ fl z := by
        intro z hz
        have := (abs_le.mp (h.error z)).1
        rw [abs_of_nonneg hz] at this
        linarith
      have hqa : (1 - u) ^ (k + 1) ≤ 1 - u := by
        rw [pow_succ]
        exact mul_le_of_le_one_left hu1 (pow_le_one₀ hu1 (by linarith))
      have hqb : 1 + u ≤ (1 + u) ^ (k + 1) := by
        rw [pow_succ]
        exact le_mul_of_one_le_left (by linarith) (one_le_pow₀ (by linarith))
      have hqa0 : 0 ≤ (1 - u) ^ (k + 1) := pow_nonneg hu1 _
      have f1 := lower p hp
      have f2 := h.le hp
      have fp := h.nonneg hp
      have hs0 : 0 ≤ s := le_trans (mul_nonneg hqa0 hS) h1
      have g1 := lower (s + fl p) (by linarith)
      have g2 := h.le (by linarith : 0 ≤ s + fl p)
      have m1 : (1 - u) ^ (k + 1) * p ≤ (1 - u) * p := mul_le_mul_of_nonneg_right hqa hp
      have m2 : (1 + u) * p ≤ (1 + u) ^ (k + 1) * p := mul_le_mul_of_nonneg_right hqb hp
      have n1 : (1 - u) ^ (k + 1 + 1) * (S + p) ≤ fl (s + fl p) := by
        refine le_trans ?_ g1
        rw [pow_succ' (1 - u) (k + 1), mul_assoc]
        refine mul_le_mul_of_nonneg_left ?_ hu1
        rw [mul_add]; linarith
      have n2 : fl (s + fl p) ≤ (1 + u) ^ (k + 1 + 1) * (S + p) := by
        refine le_trans g2 ?_
        rw [pow_succ' (1 + u) (k + 1), mul_assoc]
        refine mul_le_mul_of_nonneg_left ?_ (by linarith)
        rw [mul_add]; linarith
      have := ih (k + 1) (fl (s + fl p)) (S + p) (by linarith) n1 n2
      rw [add_assoc S] at this
      rw [List.foldl_cons, List.map_cons, List.sum_cons, List.length_cons, show k + (l.length + 1) + 1 = k + 1 + l.length + 1 by omega]
      exact this
  have := key (List.finRange d) 0 0 0 le_rfl (by simp) (by simp)
  rw [← List.ofFn_eq_map, List.sum_ofFn, zero_add, List.length_finRange, zero_add] at this
  rw [Nat.cast_zero, h.zero]
  exact this

theorem lower (h : Rounding u fl) (z : ℝ) (hz : 0 ≤ z) : (1 - u) * z ≤ fl z := by
  have := (abs_le.mp (h.error z)).1
  rw [abs_of_nonneg hz] at this
  linarith

theorem sum_sq_pos {x : Fin d → ℝ} (hx : x ≠ 0) : 0 < ∑ j, x j * x j := by
  obtain ⟨j, hj⟩ := Function.ne_iff.mp hx
  exact Finset.sum_pos' (fun j _ => mul_self_nonneg _) ⟨j, Finset.mem_univ j, mul_self_pos.mpr hj⟩

theorem two_sub_le (a Q : ℝ) (ha : 0 < a) (hQ : 0 < Q) (h : 1 ≤ a * Q) : 2 - Q ≤ a := by
  by_contra hc
  nlinarith [sq_nonneg (a - Q)]

/-- the error of a computed cosine, as a relative error of the largest possible value -/
theorem cosine_error_pow (h : Rounding u fl) (hu0 : 0 ≤ u) (hu : u < 1) (x y : Fin d → ℝ) (hx : x ≠ 0) (hy : y ≠ 0) :
    |@machineCosine ℝ (roundedArith fl) d (fun z => fl (Real.sqrt z)) x y - cosAngle x y| ≤ (1 + u) ^ (d + 2) / (1 - u) ^ (d + 3) - 1 := by
  rw [← cosine_eq_cosAngle]
  have hX := sum_sq_pos hx
  have hY := sum_sq_pos hy
  have hs := dot_error h hu0 x y
  obtain ⟨a1, a2⟩ := norm_bounds h hu0 hu.le x
  obtain ⟨b1, b2⟩ := norm_bounds h hu0 hu.le y
  have hA : ∑ j, |x j * y j| ≤ Real.sqrt ((∑ j, x j * x j) * ∑ j, y j * y j) := by
    apply Real.le_sqrt_of_sq_le
    have := Finset.sum_mul_sq_le_sq_mul_sq Finset.univ (fun j => |x j|) (fun j => |y j|)
    simpa only [abs_mul, sq_abs, sq, abs_mul_abs_self] using this
  have hS : |∑ j, x j * y j| ≤ ∑ j, |x j * y j| := Finset.abs_sum_le_sum_abs _ _
  show |fl (@dotFrom ℝ (roundedArith fl) d (fl ((0:ℕ):ℝ)) x y / fl (Real.sqrt (fl (@dotFrom ℝ (roundedArith fl) d (fl ((0:ℕ):ℝ)) x x * @dotFrom ℝ (roundedArith fl) d (fl ((0:ℕ):ℝ)) y y)))) - cosine x y| ≤ _
  unfold cosine
  generalize @dotFrom ℝ (roundedArith fl) d (fl ((0:ℕ):ℝ)) x y = s at *
  generalize @dotFrom ℝ (roundedArith fl) d (fl ((0:ℕ):ℝ)) x x = n1 at *
  generalize @dotFrom ℝ (roundedArith fl) d (fl ((0:ℕ):ℝ)) y y = n2 at *
  generalize (∑ j, x j * x j) = X at *
  generalize (∑ j, y j * y j) = Y at *
  generalize (∑ j, x j * y j) = S at *
  generalize (∑ j, |x j * y j|) = A at *
  have hv : 0 < 1 - u := by linarith
  have hw : 0 < 1 + u := by linarith
  have hXY : 0 < X * Y := mul_pos hX hY
  set R := Real.sqrt (X * Y) with hR
  have hR0 : 0 < R := Real.sqrt_pos.mpr hXY
  have hRR : R ^ 2 = X * Y := Real.sq_sqrt hXY.le
  have n1p : 0 ≤ n1 := le_trans (by positivity) a1
  have n2p : 0 ≤ n2 := le_trans (by positivity) b1
  have p1 : ((1 - u) ^ (d + 1) * X) * ((1 - u) ^ (d + 1) * Y) ≤ n1 * n2 := mul_le_mul a1 b1 (by positivity) n1p
  have p2 : n1 * n2 ≤ ((1 + u) ^ (d + 1) * X) * ((1 + u) ^ (d + 1) * Y) := mul_le_mul a2 b2 n2p (by positivity)
  have q1 := lower h (n1 * n2) (mul_nonneg n1p n2p)
  have q2 := h.le (mul_nonneg n1p n2p)
  set p := fl (n1 * n2)
  have p3 : ((1 - u) ^ (d + 2) * R) ^ 2 ≤ p := by
    have e : ((1 - u) ^ (d + 2) * R) ^ 2 = (1 - u) * ((1 - u) * (((1 - u) ^ (d + 1) * X) * ((1 - u) ^ (d + 1) * Y))) := by
      rw [mul_pow, hRR, pow_succ (1 - u) (d + 1)]; ring
    rw [e]
    refine le_trans ?_ q1
    refine mul_le_mul_of_nonneg_left (le_trans ?_ p1) hv.le
    exact mul_le_of_le_one_left (by positivity) (by linarith)
  have p4 : p ≤ ((1 + u) ^ (d + 2) * R) ^ 2 := by
    have e : ((1 + u) ^ (d + 2) * R) ^ 2 = (1 + u) * ((1 + u) * (((1 + u) ^ (d + 1) * X) * ((1 + u) ^ (d + 1) * Y))) := by
      rw [mul_pow, hRR, pow_succ (1 + u) (d + 1)]; ring
    rw [e]
    refine le_trans q2 ?_
    refine mul_le_mul_of_nonneg_left (le_trans p2 ?_) hw.le
    exact le_mul_of_one_le_left (by positivity) (by linarith)
  have r1 : (1 - u) ^ (d + 2) * R ≤ Real.sqrt p := Real.le_sqrt_of_sq_le p3
  have r2 : Real.sqrt p ≤ (1 + u) ^ (d + 2) * R := by
    rw [Real.sqrt_le_left (by positivity)]; exact p4
  have t1 : (1 - u) ^ (d + 3) * R ≤ fl (Real.sqrt p) := by
    refine le_trans ?_ (lower h _ (Real.sqrt_nonneg p))
    rw [pow_succ' (1 - u) (d + 2), mul_assoc]
    exact mul_le_mul_of_nonneg_left r1 hv.le
  have t2 : fl (Real.sqrt p) ≤ (1 + u) ^ (d + 3) * R := by
    refine le_trans (h.le (Real.sqrt_nonneg p)) ?_
    rw [pow_succ' (1 + u) (d + 2), mul_assoc]
    exact mul_le_mul_of_nonneg_left r2 hw.le
  set q := fl (Real.sqrt p)
  have hq0 : 0 < q := lt_of_lt_of_le (by positivity) t1
  -- the numerator
  set P := (1 + u) ^ (d + 1) with hP
  have hP1 : 1 ≤ P := one_le_pow₀ (by linarith)
  have hsR : |s / R - S / R| ≤ P - 1 := by
    rw [← sub_div, abs_div, abs_of_pos hR0, div_le_iff₀ hR0]
    exact hs.trans (mul_le_mul_of_nonneg_left hA (by linarith))
  have hc : |S / R| ≤ 1 := by
    rw [abs_div, abs_of_pos hR0, div_le_one hR0]; exact hS.trans hA
  have hvP : |s / R| ≤ P := by
    have := abs_add_le (s / R - S / R) (S / R)
    rw [sub_add_cancel] at this
    linarith
  -- the denominator
  set Q := (1 + u) / (1 - u) ^ (d + 3) with hQ
  have hm0 : 0 < (1 - u) ^ (d + 3) := by positivity
  have hmle : (1 - u) ^ (d + 3) ≤ 1 := pow_le_one₀ hv.le (by linarith)
  have hQ1 : 1 ≤ Q := by rw [hQ, one_le_div hm0]; linarith
  have hρ2 : R / q ≤ 1 / (1 - u) ^ (d + 3) := by
    rw [div_le_div_iff₀ hq0 hm0]; linarith
  have hρ1 : 1 / (1 + u) ^ (d + 3) ≤ R / q := by
    rw [div_le_div_iff₀ (by positivity) hq0]; linarith
  have hρ0 : 0 < R / q := div_pos hR0 hq0
  have hprod : s / q = (s / R) * (R / q) := by field_simp
  have hfin : |fl (s / q) - s / q| ≤ u * (|s / R| * (R / q)) := by
    have := h.error (s / q)
    rwa [hprod, abs_mul, abs_of_pos hρ0, ← hprod] at this
  have hup : (1 + u) * (R / q) ≤ Q := by
    have := mul_le_mul_of_nonneg_left hρ2 hw.le
    rwa [mul_one_div] at this
  have hlow : 2 - Q ≤ (1 - u) * (R / q) := by
    have i1 : (1 - u) * (1 / (1 + u) ^ (d + 3)) ≤ (1 - u) * (R / q) := mul_le_mul_of_nonneg_left hρ1 hv.le
    refine le_trans ?_ i1
    have i2 : 1 ≤ ((1 - u) * (1 / (1 + u) ^ (d + 3))) * Q := by
      rw [hQ, pow_succ' (1 - u) (d + 2), pow_succ' (1 + u) (d + 2)]
      have e : (1 - u) * (1 / ((1 + u) * (1 + u) ^ (d + 2))) * ((1 + u) / ((1 - u) * (1 - u) ^ (d + 2))) = 1 / ((1 + u) * (1 - u)) ^ (d + 2) := by
        rw [mul_pow]; field_simp
      rw [e, one_le_div (by positivity)]
      exact pow_le_one₀ (by positivity) (by nlinarith)
    set a := (1 - u) * (1 / (1 + u) ^ (d + 3))
    have ha : 0 < a := by positivity
    exact two_sub_le a Q ha (by linarith) i2
  have hr : |s / R| * |R / q - 1| + u * (|s / R| * (R / q)) ≤ |s / R| * (Q - 1) := by
    rw [show |s / R| * |R / q - 1| + u * (|s / R| * (R / q)) = |s / R| * (|R / q - 1| + u * (R / q)) by ring]
    refine mul_le_mul_of_nonneg_left ?_ (abs_nonneg _)
    rcases abs_cases (R / q - 1) with ⟨e, _⟩ | ⟨e, _⟩ <;> rw [e] <;> linarith
  have htot : |fl (s / q) - S / R| ≤ |fl (s / q) - s / q| + (|s / R| * |R / q - 1| + |s / R - S / R|) := by
    have i1 := abs_add_le (fl (s / q) - s / q) (s / q - S / R)
    have i2 := abs_add_le (s / R * (R / q - 1)) (s / R - S / R)
    rw [show s / R * (R / q - 1) + (s / R - S / R) = s / q - S / R by rw [hprod]; ring, abs_mul] at i2
    rw [sub_add_sub_cancel] at i1
    linarith
  have hPQ : (1 + u) ^ (d + 2) / (1 - u) ^ (d + 3) = P * Q := by
    rw [hP, hQ, pow_succ (1 + u) (d + 1)]; ring
  rw [hPQ]
  have : |s / R| * (Q - 1) ≤ P * (Q - 1) := mul_le_mul_of_nonneg_right hvP (by linarith)
  rw [mul_sub, mul_one] at this
  linarith

/-- the same in units of `u` -/
theorem cosine_error (h : Rounding u fl) (hu0 : 0 ≤ u) (hu : ((d : ℝ) + 3) * u ≤ 1 / 4) (x y : Fin d → ℝ) (hx : x ≠ 0) (hy : y ≠ 0) :
    |@machineCosine ℝ (roundedArith fl) d (fun z => fl (Real.sqrt z)) x y - cosAngle x y| ≤ 4 * ((d : ℝ) + 3) * u := by
  have hd : (0:ℝ) ≤ d := Nat.cast_nonneg d
  have hu1 : u < 1 := by nlinarith
  refine (cosine_error_pow h hu0 hu1 x y hx hy).trans ?_
  have hv : 0 < 1 - u := by linarith
  set t := ((d : ℝ) + 3) * u with ht
  have ht0 : 0 ≤ t := by positivity
  have hb : 1 - t ≤ (1 - u) ^ (d + 3) := by
    have := one_add_mul_le_pow (a := -u) (by linarith) (d + 3)
    push_cast at this
    rw [ht]
    have e : (1:ℝ) + -u = 1 - u := by ring
    rw [e] at this
    linarith
  have hm0 : 0 < (1 - u) ^ (d + 3) := by positivity
  have h1 : (1 + u) ^ (d + 2) * (1 - u) ^ (d + 3) ≤ 1 := by
    rw [pow_succ (1 - u) (d + 2), ← mul_assoc, ← mul_pow]
    have : ((1 + u) * (1 - u)) ^ (d + 2) ≤ 1 := pow_le_one₀ (by nlinarith) (by nlinarith)
    have i2 : 0 ≤ ((1 + u) * (1 - u)) ^ (d + 2) := pow_nonneg (by nlinarith) _
    nlinarith
  set m := (1 - u) ^ (d + 3)
  have h2 : (1 + u) ^ (d + 2) / m ≤ 1 / (m * m) := by
    rw [div_le_div_iff₀ hm0 (by positivity)]
    nlinarith
  have h3 : 1 / (m * m) ≤ 1 / ((1 - t) * (1 - t)) := by
    have : 0 < 1 - t := by linarith
    exact one_div_le_one_div_of_le (by positivity) (mul_le_mul hb hb this.le hm0.le)
  have h4 : 1 / ((1 - t) * (1 - t)) ≤ 1 + 4 * t := by
    have : 0 < 1 - t := by linarith
    rw [div_le_iff₀ (by positivity)]
    nlinarith [mul_nonneg ht0 ht0, mul_nonneg ht0 (mul_nonneg ht0 ht0)]
  have e : 4 * ((d : ℝ) + 3) * u = 4 * t := by rw [ht]; ring
  rw [e]
  linarith

end rounding

end RoundingCos

end SampleFlow
