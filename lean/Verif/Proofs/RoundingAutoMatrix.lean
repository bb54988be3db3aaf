import Verif.Model.RoundingAutoMatrix
import Verif.Proofs.RoundingAuto

namespace SampleFlow.RoundingAutoMatrix

open Spec RoundingAuto

variable {u : ℝ} {fl : ℝ → ℝ} {ι : Type}

/-- one step of a scaled average -/
theorem avg_next (h : Rounding u fl) (hu0 : 0 ≤ u) (hu : u ≤ 1/512) (a A t S B k : ℝ) (hk : 1 ≤ k) (huk : u * k ≤ 1/256)
    (ht : |t| ≤ B) (hA : |A| ≤ B) (hE : |a - A| ≤ u * B * (0.6 * (k - 1) + 7.1)) (hS : |S - (t - a)| ≤ 2.1 * (u * B)) :
    |fl (a + fl (S * fl (1 / k))) - (A + (t - A) / k)| ≤ u * B * (0.6 * k + 7.1) := by
  have hB : 0 ≤ B := (abs_nonneg t).trans ht
  have huB : 0 ≤ u * B := mul_nonneg hu0 hB
  have huB' : u * B ≤ 1/512 * B := mul_le_mul_of_nonneg_right hu hB
  have hukB : u * k * B ≤ 1/256 * B := mul_le_mul_of_nonneg_right huk hB
  have hE2 : u * B * (0.6 * (k - 1) + 7.1) ≤ 0.05 * B := by
    have : u * B * (0.6 * (k - 1) + 7.1) = 0.6 * (u * k * B) + 6.5 * (u * B) := by ring
    linarith
  have step := avg_step h hu0 (by linarith) a A t S B _ (2.1 * (u * B)) k hk ht hA hE hE2 hS (by linarith)
  refine le_of_mul_le_mul_left (step.trans ?_) (by linarith : 0 < k)
  have e : k * (u * B * (0.6 * k + 7.1)) - ((k - 1) * (u * B * (0.6 * (k - 1) + 7.1)) + 2.1 * (u * B) + 4.4 * (u * B) + 1.2 * (u * B) * k) = 0 := by ring
  linarith

/-- how far the stored values for lag `l` may be from the exact ones -/
def Rel (u M : ℝ) (i j : ι) (l : Nat) (xs : List (ι → ℝ)) (e : ACMLag ℝ ι) : Prop :=
  (xs.length ≤ l + 1 → e.alpha i j = 0 ∧ e.beta i = 0 ∧ e.eta j = 0) ∧
  (l + 2 ≤ xs.length →
    |e.alpha i j - (acmLagSpec (fun _ _ _ => 0) l xs).alpha i j| ≤ u * (2 * (M * M)) * (0.6 * ((xs.length : ℝ) - l - 1) + 7.1) ∧
    |e.beta i - (acmLagSpec (fun _ _ _ => 0) l xs).beta i| ≤ u * (2 * M) * (0.6 * ((xs.length : ℝ) - l - 1) + 7.1) ∧
    |e.eta j - (acmLagSpec (fun _ _ _ => 0) l xs).eta j| ≤ u * (2 * M) * (0.6 * ((xs.length : ℝ) - l - 1) + 7.1))

/-- bounds of the exact values -/
theorem spec_bounds (M : ℝ) (i j : ι) (l : Nat) (xs : List (ι → ℝ)) (hn : l + 2 ≤ xs.length) (hi : ∀ x ∈ xs, |x i| ≤ M) (hj : ∀ x ∈ xs, |x j| ≤ M) :
    |(acmLagSpec (fun _ _ _ => 0) l xs).alpha i j| ≤ 2 * (M * M) ∧ |(acmLagSpec (fun _ _ _ => 0) l xs).beta i| ≤ 2 * M ∧
    |(acmLagSpec (fun _ _ _ => 0) l xs).eta j| ≤ 2 * M := by
  have hM0 : 0 ≤ M := by
    obtain ⟨x, hx⟩ := List.exists_mem_of_ne_nil xs (by intro h; simp [h] at hn)
    exact (abs_nonneg _).trans (hi x hx)
  rw [acmLagSpec_neg _ l xs (by omega)]
  refine ⟨?_, ?_, ?_⟩
  · simp only [zero_add]
    refine ratio_bound xs.length l hn _ _ (mul_self_nonneg M) ?_
    rw [← lagPairs_length]
    refine abs_sum_le _ _ _ (fun p hp => ?_)
    rw [abs_mul]
    exact mul_le_mul (hi _ (lagPairs_mem hp).1) (hj _ (lagPairs_mem hp).2) (abs_nonneg _) hM0
  · refine ratio_bound xs.length l hn _ _ hM0 ?_
    rw [← lagPairs_length]
    exact abs_sum_le _ _ _ (fun p hp => hi _ (lagPairs_mem hp).1)
  · refine ratio_bound xs.length l hn _ _ hM0 ?_
    rw [← lagPairs_length]
    exact abs_sum_le _ _ _ (fun p hp => hj _ (lagPairs_mem hp).2)

/-- the exact values after one more sample -/
theorem spec_init (i j : ι) (l : Nat) (xs : List (ι → ℝ)) (s : ι → ℝ) (hn : xs.length = l + 1)
    (h0 : l < (s :: xs.reverse).length) (h1 : l + 1 < (s :: xs.reverse).length) (h2 : 1 < (s :: xs.reverse).length) :
    (acmLagSpec (fun _ _ _ => 0) l (xs ++ [s])).alpha i j = s i * (s :: xs.reverse)[l] j + (s :: xs.reverse)[1] i * (s :: xs.reverse)[l+1] j ∧
    (acmLagSpec (fun _ _ _ => 0) l (xs ++ [s])).beta i = s i + (s :: xs.reverse)[1] i ∧
    (acmLagSpec (fun _ _ _ => 0) l (xs ++ [s])).eta j = (s :: xs.reverse)[l] j + (s :: xs.reverse)[l+1] j := by
  rw [acmLagSpec_neg _ l _ (by simp; omega), lagPairs_init l xs s hn _ rfl h0 h1 h2]
  have hden : (((xs ++ [s]).length : ℕ) : ℝ) - l - 1 = 1 := by
    rw [List.length_append, hn]; simp; ring
  rw [hden]
  simp only [List.map_cons, List.map_nil, List.sum_cons, List.sum_nil]
  refine ⟨by ring, by ring, by ring⟩

theorem spec_next (i j : ι) (l : Nat) (xs : List (ι → ℝ)) (s : ι → ℝ) (hn : l + 2 ≤ xs.length) (h0 : l < (s :: xs.reverse).length) :
    (acmLagSpec (fun _ _ _ => 0) l (xs ++ [s])).alpha i j = (acmLagSpec (fun _ _ _ => 0) l xs).alpha i j +
      (s i * (s :: xs.reverse)[l] j - (acmLagSpec (fun _ _ _ => 0) l xs).alpha i j) / ((xs.length : ℝ) - l) ∧
    (acmLagSpec (fun _ _ _ => 0) l (xs ++ [s])).beta i = (acmLagSpec (fun _ _ _ => 0) l xs).beta i + (s i - (acmLagSpec (fun _ _ _ => 0) l xs).beta i) / ((xs.length : ℝ) - l) ∧
    (acmLagSpec (fun _ _ _ => 0) l (xs ++ [s])).eta j = (acmLagSpec (fun _ _ _ => 0) l xs).eta j +
      ((s :: xs.reverse)[l] j - (acmLagSpec (fun _ _ _ => 0) l xs).eta j) / ((xs.length : ℝ) - l) := by
  rw [acmLagSpec_neg _ l _ (by simp; omega), acmLagSpec_neg _ l xs (by omega), lagPairs_append l xs s (by omega) h0]
  obtain ⟨d1, d2⟩ := cast_lag (K := ℝ) xs.length l hn
  simp only [List.map_append, List.sum_append, List.map_cons, List.map_nil, List.sum_cons, List.sum_nil, List.length_append, List.length_cons,
    List.length_nil, zero_add, Nat.cast_add, Nat.cast_one, add_zero]
  have e : (xs.length : ℝ) + 1 - l - 1 = xs.length - l := by ring
  rw [e]
  refine ⟨?_, ?_, ?_⟩ <;> field_simp <;> ring

/-- the body of the loop -/
theorem lag_rel (h : Rounding u fl) (hu0 : 0 ≤ u) (L l : Nat) (hl : l ≤ L) (xs : List (ι → ℝ)) (s : ι → ℝ) (hxs : xs ≠ [])
    (hun : u * ((xs.length : ℝ) + 1) ≤ 1/256) (M : ℝ) (i j : ι) (hi : ∀ x ∈ xs ++ [s], |x i| ≤ M) (hj : ∀ x ∈ xs ++ [s], |x j| ≤ M)
    (hcount : ∀ n : Nat, n ≤ xs.length + 1 → fl n = n) (lags : List (ACMLag ℝ ι)) (e : ACMLag ℝ ι) (he : readAt lags l = .ok e)
    (hma : fl (e.alpha i j) = e.alpha i j) (hrel : Rel u M i j l xs e) :
    ∃ e', @acmMachineLag ℝ ι (roundedArith fl) xs.length (s :: xs.reverse.take (L+1)) s lags l = .ok e' ∧ fl (e'.alpha i j) = e'.alpha i j ∧ Rel u M i j l (xs ++ [s]) e' := by
  let _ := roundedArith fl
  obtain ⟨a, b, c⟩ := e
  have hpos : 0 < xs.length := List.length_pos_iff.mpr hxs
  have hn1 : (1:ℝ) ≤ xs.length := by exact_mod_cast hpos
  have hunn : u * 1 ≤ u * xs.length := mul_le_mul_of_nonneg_left hn1 hu0
  have hun' : u * xs.length + u ≤ 1/256 := by linarith
  have hu : u ≤ 1/512 := by linarith
  have hsi : |s i| ≤ M := hi s (by simp)
  have hix : ∀ x ∈ xs, |x i| ≤ M := fun x hx => hi x (by simp [hx])
  have hjx : ∀ x ∈ xs, |x j| ≤ M := fun x hx => hj x (by simp [hx])
  have hir : ∀ x ∈ s :: xs.reverse, |x i| ≤ M := fun x hx => hi x (by simp at hx ⊢; tauto)
  have hjr : ∀ x ∈ s :: xs.reverse, |x j| ≤ M := fun x hx => hj x (by simp at hx ⊢; tauto)
  have hM0 : 0 ≤ M := (abs_nonneg _).trans hsi
  have hMM : 0 ≤ M * M := mul_self_nonneg M
  have huM0 : 0 ≤ u * M := mul_nonneg hu0 hM0
  have huM : u * M ≤ 1/512 * M := mul_le_mul_of_nonneg_right hu hM0
  have huT0 : 0 ≤ u * (M * M) := mul_nonneg hu0 hMM
  have huT : u * (M * M) ≤ 1/512 * (M * M) := mul_le_mul_of_nonneg_right hu hMM
  have prod : ∀ x y : ℝ, |x| ≤ M → |y| ≤ M → |x * y| ≤ M * M := fun x y hx hy => by
    rw [abs_mul]; exact mul_le_mul hx hy (abs_nonneg _) hM0
  have hlen : ((xs ++ [s]).length : ℝ) = xs.length + 1 := by simp
  unfold acmMachineLag
  rw [he]
  simp only [bind, Except.bind]
  by_cases h1 : xs.length = l + 1
  · rw [if_pos h1]
    have hr1 : 1 < (s :: xs.reverse).length := by simp; omega
    have hrl : l < (s :: xs.reverse).length := by simp; omega
    have hrl1 : l + 1 < (s :: xs.reverse).length := by simp; omega
    rw [window_read (L+1) xs s 0 (by omega) (by simp), window_read (L+1) xs s 1 (by omega) hr1,
      window_read (L+1) xs s l (by omega) hrl, window_read (L+1) xs s (l+1) (by omega) hrl1]
    have e0 : (s :: xs.reverse)[0]'(by simp) = s := rfl
    simp only [e0]
    have m1 := hir _ (List.getElem_mem hr1)
    have m2 := hjr _ (List.getElem_mem hrl)
    have m3 := hjr _ (List.getElem_mem hrl1)
    obtain ⟨z1, z2, z3⟩ := hrel.1 (by omega)
    change a i j = 0 at z1
    change c j = 0 at z3
    refine ⟨_, rfl, h.idempotent _, ?_, ?_⟩
    · intro hc; simp at hc; omega
    · intro _
      obtain ⟨s1, s2, s3⟩ := spec_init i j l xs s h1 hrl hrl1 hr1
      rw [s1, s2, s3, hlen]
      have hk : (xs.length : ℝ) + 1 - l - 1 = 1 := by rw [h1]; push_cast; ring
      rw [hk]
      refine ⟨?_, ?_, ?_⟩
      · show |fl (fl (a i j + fl (s i * (s :: xs.reverse)[l] j)) + fl ((s :: xs.reverse)[1] i * (s :: xs.reverse)[l+1] j)) - _| ≤ _
        have p1 := prod _ _ hsi m2
        have p2 := prod _ _ m1 m3
        rw [z1, zero_add, h.idempotent]
        generalize s i * (s :: xs.reverse)[l] j = x at *
        generalize (s :: xs.reverse)[1] i * (s :: xs.reverse)[l+1] j = y at *
        have r1 := h.bound hu0 p1
        have g1 := h.size hu0 p1
        have r2 := h.bound hu0 p2
        have g2 := h.size hu0 p2
        generalize fl x = x' at *
        generalize fl y = y' at *
        have c3 : |x' + y'| ≤ 2.1 * (M * M) := (abs_add_le _ _).trans (by linarith)
        have r3 := h.bound hu0 c3
        have e : fl (x' + y') - (x + y) = (fl (x' + y') - (x' + y')) + ((x' - x) + (y' - y)) := by ring
        rw [e]
        have b1 := abs_add_le (fl (x' + y') - (x' + y')) ((x' - x) + (y' - y))
        have b2 := abs_add_le (x' - x) (y' - y)
        linarith
      · show |fl (s i + (s :: xs.reverse)[1] i) - _| ≤ _
        have c1 : |s i + (s :: xs.reverse)[1] i| ≤ 2 * M := (abs_add_le _ _).trans (by linarith)
        have := h.bound hu0 c1
        linarith
      · show |fl (fl (c j + (s :: xs.reverse)[l] j) + (s :: xs.reverse)[l+1] j) - _| ≤ _
        rw [z3, zero_add]
        generalize (s :: xs.reverse)[l] j = x at *
        generalize (s :: xs.reverse)[l+1] j = y at *
        have r1 := h.bound hu0 m2
        have g1 := h.size hu0 m2
        generalize fl x = x' at *
        have c3 : |x' + y| ≤ 2.1 * M := (abs_add_le _ _).trans (by linarith)
        have r3 := h.bound hu0 c3
        have e : fl (x' + y) - (x + y) = (fl (x' + y) - (x' + y)) + (x' - x) := by ring
        rw [e]
        have b1 := abs_add_le (fl (x' + y) - (x' + y)) (x' - x)
        linarith
  · rw [if_neg h1]
    by_cases h2 : xs.length ≥ l + 2
    · rw [if_pos h2]
      have hrl : l < (s :: xs.reverse).length := by simp; omega
      rw [window_read (L+1) xs s l (by omega) hrl]
      have m2 := hjr _ (List.getElem_mem hrl)
      have hcast : ((xs.length - l : ℕ) : ℝ) = xs.length - l := by rw [Nat.cast_sub (by omega)]
      have hc1 : fl ((1:ℕ):ℝ) = 1 := by rw [hcount 1 (by omega)]; simp
      have hc2 : fl ((xs.length - l : ℕ) : ℝ) = xs.length - l := by rw [hcount _ (by omega), hcast]
      have hk1 : (2:ℝ) ≤ xs.length - l := by
        rw [← hcast]; exact_mod_cast (by omega : 2 ≤ xs.length - l)
      have hk2 : (xs.length : ℝ) - l ≤ xs.length := by
        have : (0:ℝ) ≤ l := Nat.cast_nonneg l
        linarith
      have huk : u * ((xs.length : ℝ) - l) ≤ 1/256 := (mul_le_mul_of_nonneg_left hk2 hu0).trans (by linarith)
      obtain ⟨ra, rb, rc⟩ := hrel.2 h2
      obtain ⟨hA, hB, hC⟩ := spec_bounds M i j l xs h2 hix hjx
      refine ⟨_, rfl, h.idempotent _, ?_, ?_⟩
      · intro hc; simp at hc; omega
      · intro _
        obtain ⟨s1, s2, s3⟩ := spec_next i j l xs s h2 hrl
        rw [s1, s2, s3, hlen]
        have hk : (xs.length : ℝ) + 1 - l - 1 = xs.length - l := by ring
        rw [hk]
        change |a i j - _| ≤ _ at ra
        change |b i - _| ≤ _ at rb
        change |c j - _| ≤ _ at rc
        generalize (acmLagSpec (fun _ _ _ => 0) l xs).alpha i j = A at *
        generalize (acmLagSpec (fun _ _ _ => 0) l xs).beta i = B at *
        generalize (acmLagSpec (fun _ _ _ => 0) l xs).eta j = C at *
        generalize hkk : (xs.length : ℝ) - l = k at *
        have hbig : u * (0.6 * (k - 1) + 7.1) ≤ 0.05 := by linarith
        -- averages of components
        have comp : ∀ v V x : ℝ, |x| ≤ M → |V| ≤ 2 * M → |v - V| ≤ u * (2 * M) * (0.6 * (k - 1) + 7.1) →
            |fl (v + fl (fl (x - v) * fl (fl ((1:ℕ):ℝ) / fl ((xs.length - l : ℕ) : ℝ)))) - (V + (x - V) / k)| ≤ u * (2 * M) * (0.6 * k + 7.1) := by
          intro v V x hx hV hv
          rw [hc1, hc2]
          have hsm := mul_le_mul_of_nonneg_right hbig hM0
          have hvb : |v| ≤ 2.1 * M := by
            have := abs_add_le (v - V) V
            rw [sub_add_cancel] at this
            linarith
          have c2 : |x - v| ≤ 3.1 * M := (abs_sub _ _).trans (by linarith)
          have r2 := h.bound hu0 c2
          exact avg_next h hu0 hu v V x _ (2 * M) k (by linarith) huk (by linarith) hV hv (r2.trans (by linarith))
        refine ⟨?_, comp _ _ _ hsi hB rb, comp _ _ _ m2 hC rc⟩
        show |fl (a i j + fl (fl (fl (fl ((0:ℕ):ℝ) - a i j) + fl (s i * (s :: xs.reverse)[l] j)) * fl (fl ((1:ℕ):ℝ) / fl ((xs.length - l : ℕ) : ℝ)))) - _| ≤ _
        rw [fl_zero_sub h (a i j) hma, hc1, hc2]
        have p := prod _ _ hsi m2
        generalize s i * (s :: xs.reverse)[l] j = t at *
        generalize a i j = v at *
        have hsm := mul_le_mul_of_nonneg_right hbig hMM
        have hvb : |v| ≤ 2.1 * (M * M) := by
          have := abs_add_le (v - A) A
          rw [sub_add_cancel] at this
          linarith
        have r1 := h.bound hu0 p
        have g1 := h.size hu0 p
        generalize fl t = t' at *
        have c2 : |-v + t'| ≤ 3.15 * (M * M) := (abs_add_le _ _).trans (by rw [abs_neg]; linarith)
        have r2 := h.bound hu0 c2
        refine avg_next h hu0 hu v A t _ (2 * (M * M)) k (by linarith) huk (by linarith) hA ra ?_
        have e : fl (-v + t') - (t - v) = (fl (-v + t') - (-v + t')) + (t' - t) := by ring
        rw [e]
        have := abs_add_le (fl (-v + t') - (-v + t')) (t' - t)
        linarith
    · rw [if_neg h2]
      refine ⟨⟨a, b, c⟩, rfl, hma, fun _ => hrel.1 (by omega), fun hc => ?_⟩
      simp at hc; omega

/-- the state after `xs` (any arithmetic): everything but the accumulators -/
theorem state_rel (h : Rounding u fl) (hu0 : 0 ≤ u) (L : Nat) (G : Nat → ι → ι → ℝ) (M₀ : ι → ℝ) (xs : List (ι → ℝ)) (hxs : xs ≠ [])
    (hun : u * (xs.length : ℝ) ≤ 1/256) (M : ℝ) (i j : ι) (hG : ∀ l, G l i j = 0) (hi : ∀ x ∈ xs, |x i| ≤ M) (hj : ∀ x ∈ xs, |x j| ≤ M)
    (hcount : ∀ n : Nat, n ≤ xs.length → fl n = n) :
    ∃ lags, @acmMachine ℝ ι (roundedArith fl) L G M₀ xs =
        .ok ⟨xs.length, (@machineMean ℝ ι (roundedArith fl) M₀ xs).mean, lags, xs.reverse.take (L+1)⟩ ∧
      ∀ l ≤ L, ∃ e, readAt lags l = .ok e ∧ fl (e.alpha i j) = e.alpha i j ∧ Rel u M i j l xs e := by
  let _ := roundedArith fl
  induction xs using List.reverseRecOn with
  | nil => exact absurd rfl hxs
  | append_singleton xs x ih =>
    by_cases hx : xs = []
    · subst hx
      refine ⟨(List.range (L+1)).map (fun l => ⟨G l, fun _ => Arith.ofNat 0, fun _ => Arith.ofNat 0⟩), ?_, ?_⟩
      · simp only [acmMachine, List.nil_append, List.foldlM_cons, List.foldlM_nil, ACMState.init, acmMachineConsume, if_true]
        rw [show List.take (L+1) [x].reverse = [x] by simp]
        rfl
      have hz : (Arith.ofNat 0 : ℝ) = 0 := by
        show fl ((0:ℕ):ℝ) = 0
        rw [Nat.cast_zero, h.zero]
      intro l hl
      refine ⟨⟨G l, fun _ => Arith.ofNat 0, fun _ => Arith.ofNat 0⟩, ?_, ?_, fun _ => ⟨hG l, hz, hz⟩, fun hc => ?_⟩
      · rw [readAt_ok _ l (by simp; omega)]
        simp
      · show fl (G l i j) = G l i j
        rw [hG, h.zero]
      · simp at hc
    · have hlen : ((xs ++ [x]).length : ℝ) = xs.length + 1 := by simp
      rw [hlen] at hun
      obtain ⟨lags, e1, e2⟩ := ih hx (by linarith) (fun y hy => hi y (by simp [hy])) (fun y hy => hj y (by simp [hy])) (fun n hn => hcount n (by simp; omega))
      have hl : xs.length ≠ 0 := by simpa using hx
      have step : ∀ l ≤ L, ∃ e', acmMachineLag xs.length (x :: xs.reverse.take (L+1)) x lags l = .ok e' ∧ fl (e'.alpha i j) = e'.alpha i j ∧ Rel u M i j l (xs ++ [x]) e' := by
        intro l hl
        obtain ⟨e, r1, r2, r3⟩ := e2 l hl
        exact lag_rel h hu0 L l hl xs x hx hun M i j hi hj (fun n hn => hcount n (by simp; omega)) lags e r1 r2 r3
      have : Nonempty (ACMLag ℝ ι) := ⟨⟨fun _ _ => 0, fun _ => 0, fun _ => 0⟩⟩
      choose! g hg using step
      refine ⟨(List.range (L+1)).map g, ?_, ?_⟩
      · unfold acmMachine at e1 ⊢
        rw [foldlM_append_ok _ _ _ _ _ e1]
        unfold acmMachineConsume
        rw [if_neg hl]
        dsimp only
        rw [mapM_ok _ g _ (fun l hl => (hg l (by simp at hl; omega)).1)]
        simp only [bind, Except.bind, pure, Except.pure]
        have hs : machineMean M₀ (xs ++ [x]) = meanConsume (machineMean M₀ xs) x := by simp [machineMean]
        have hm : (machineMean M₀ (xs ++ [x])).mean = fun i => Arith.add ((machineMean M₀ xs).mean i)
            (Arith.div (Arith.sub (x i) ((machineMean M₀ xs).mean i)) (Arith.ofNat (xs.length + 1))) := by
          rw [hs]
          unfold meanConsume
          rw [if_neg (by rw [machineMean_len]; exact hl), machineMean_len]
        rw [hm, ← window_next, List.length_append, List.length_singleton]
      · intro l hl
        refine ⟨g l, ?_, (hg l hl).2⟩
        rw [readAt_ok _ l (by simp; omega)]
        simp

/-- in every arithmetic, the program reads no element that does not exist -/
theorem state_lags {D : Type} [Arith D] (L : Nat) (G : Nat → ι → ι → D) (M₀ : ι → D) (xs : List (ι → D)) (hxs : xs ≠ []) :
    ∃ s, acmMachine L G M₀ xs = .ok s ∧ s.n = xs.length ∧ s.previous = xs.reverse.take (L+1) ∧ ∀ l ≤ L, ∃ e, readAt s.lags l = .ok e := by
  induction xs using List.reverseRecOn with
  | nil => exact absurd rfl hxs
  | append_singleton xs x ih =>
    by_cases hx : xs = []
    · subst hx
      refine ⟨⟨1, x, (List.range (L+1)).map (fun l => ⟨G l, fun _ => Arith.ofNat 0, fun _ => Arith.ofNat 0⟩), [x]⟩, ?_, by simp, by simp, ?_⟩
      · simp only [acmMachine, List.nil_append, List.foldlM_cons, List.foldlM_nil, ACMState.init, acmMachineConsume, if_true]
        rfl
      · intro l hl
        exact ⟨_, readAt_ok _ l (by simp; omega)⟩
    · obtain ⟨s, e1, e2, e3, e4⟩ := ih hx
      have hl : xs.length ≠ 0 := by simpa using hx
      have step : ∀ l ≤ L, ∃ e', acmMachineLag s.n (x :: s.previous) x s.lags l = .ok e' := by
        intro l hl
        obtain ⟨e, r1⟩ := e4 l hl
        unfold acmMachineLag
        rw [r1, e2, e3]
        simp only [bind, Except.bind]
        by_cases h1 : xs.length = l + 1
        · rw [if_pos h1, window_read (L+1) xs x 0 (by omega) (by simp), window_read (L+1) xs x 1 (by omega) (by simp; omega),
            window_read (L+1) xs x l (by omega) (by simp; omega), window_read (L+1) xs x (l+1) (by omega) (by simp; omega)]
          exact ⟨_, rfl⟩
        · rw [if_neg h1]
          by_cases h2 : xs.length ≥ l + 2
          · rw [if_pos h2, window_read (L+1) xs x l (by omega) (by simp; omega)]
            exact ⟨_, rfl⟩
          · rw [if_neg h2]
            exact ⟨_, rfl⟩
      have : Nonempty (ACMLag D ι) := ⟨⟨fun _ _ => Arith.ofNat 0, fun _ => Arith.ofNat 0, fun _ => Arith.ofNat 0⟩⟩
      choose! g hg using step
      unfold acmMachine at e1 ⊢
      rw [foldlM_append_ok _ _ _ _ _ e1]
      unfold acmMachineConsume
      rw [if_neg (by rw [e2]; exact hl)]
      dsimp only
      rw [mapM_ok _ g _ (fun l hl => hg l (by simp at hl; omega))]
      refine ⟨_, rfl, by simp [e2], ?_, fun l hl => ⟨g l, ?_⟩⟩
      · dsimp only
        rw [← window_next, e3]
      · rw [readAt_ok _ l (by simp; omega)]
        simp

/-- the mean of one component -/
theorem mean_facts (h : Rounding u fl) (hu0 : 0 ≤ u) (M₀ : ι → ℝ) (xs : List (ι → ℝ)) (hxs : xs ≠ [])
    (hun : u * (xs.length : ℝ) ≤ 1/256) (M : ℝ) (i : ι) (hx : ∀ x ∈ xs, ∀ i, fl (x i) = x i) (hi : ∀ x ∈ xs, |x i| ≤ M)
    (hcount : ∀ n : Nat, n ≤ xs.length → fl n = n) :
    |(@machineMean ℝ ι (roundedArith fl) M₀ xs).mean i| ≤ M ∧ |vmean xs i| ≤ M ∧
      |(@machineMean ℝ ι (roundedArith fl) M₀ xs).mean i - vmean xs i| ≤ u * M * (((xs.length : ℝ) - 1) / 2 + 6) := by
  let _ := roundedArith fl
  have hpos : (1:ℝ) ≤ xs.length := by exact_mod_cast List.length_pos_iff.mpr hxs
  have hunn : u * 1 ≤ u * xs.length := mul_le_mul_of_nonneg_left hpos hu0
  obtain ⟨-, -, ⟨y, hy, hy'⟩, ⟨z, hz, hz'⟩⟩ := machineMean_inv h (by linarith) M₀ xs hxs hx hcount i
  have b1 := abs_le.mp (hi y hy)
  have b2 := abs_le.mp (hi z hz)
  refine ⟨abs_le.mpr ⟨by linarith, by linarith⟩, ?_, ?_⟩
  · have := abs_sum_le xs (fun x => x i) M (fun x hx => hi x hx)
    unfold vmean mean
    rw [List.length_map, abs_div, abs_of_pos (by linarith : (0:ℝ) < xs.length), div_le_iff₀ (by linarith)]
    linarith
  · have := machineMean_error h hu0 (by linarith) M₀ xs hxs M i hx (fun x hx => hi x hx) hcount
    have e : ((xs.map (fun x => x i)).sum / (xs.length : ℝ)) = vmean xs i := by
      unfold vmean mean; rw [List.length_map]
    rw [e] at this
    refine le_of_mul_le_mul_left (this.trans ?_) (by linarith : (0:ℝ) < xs.length)
    have hM0 : 0 ≤ M := (abs_nonneg _).trans (hi y hy)
    have huM : 0 ≤ u * M := mul_nonneg hu0 hM0
    have : u * M * (((xs.length : ℝ) - 1) * xs.length / 2 + 6 * (xs.length - 1)) =
        xs.length * (u * M * ((xs.length - 1) / 2 + 6)) - 6 * (u * M) := by ring
    linarith

/-- a product of a mean and an accumulator -/
theorem prod_error (h : Rounding u fl) (hu0 : 0 ≤ u) (M k N : ℝ) (hk1 : 1 ≤ k) (hkn : k ≤ N) (huN : u * N ≤ 1/256) (m μ b B : ℝ)
    (f1 : |m| ≤ M) (f3 : |m - μ| ≤ u * M * ((N - 1) / 2 + 6)) (rb : |b - B| ≤ u * (2 * M) * (0.6 * k + 7.1)) (hB : |B| ≤ 2 * M) :
    |fl (m * b) - μ * B| ≤ u * (M * M) * (1.2 * k + N + 28) := by
  have hM0 : 0 ≤ M := (abs_nonneg _).trans f1
  have hMM : 0 ≤ M * M := mul_self_nonneg M
  have huk : u * k ≤ u * N := mul_le_mul_of_nonneg_left hkn hu0
  have hu1 : u * 1 ≤ u * k := mul_le_mul_of_nonneg_left hk1 hu0
  have hEsmall : u * (2 * M) * (0.6 * k + 7.1) ≤ 0.1 * M := by
    have : u * (1.2 * k + 14.2) ≤ 0.1 := by linarith
    have := mul_le_mul_of_nonneg_right this hM0
    linarith
  have hb : |b| ≤ 2.1 * M := by
    have := abs_add_le (b - B) B
    rw [sub_add_cancel] at this
    linarith
  have hmb : |m * b| ≤ 2.1 * (M * M) := by
    rw [abs_mul]
    have := mul_le_mul f1 hb (abs_nonneg _) hM0
    linarith
  have r := h.bound hu0 hmb
  have e : fl (m * b) - μ * B = (fl (m * b) - m * b) + (m * (b - B) + (m - μ) * B) := by ring
  rw [e]
  have a1 := abs_add_le (fl (m * b) - m * b) (m * (b - B) + (m - μ) * B)
  have a2 := abs_add_le (m * (b - B)) ((m - μ) * B)
  rw [abs_mul, abs_mul] at a2
  have a3 := mul_le_mul f1 rb (abs_nonneg _) hM0
  have a4 := mul_le_mul f3 hB (abs_nonneg _) ((abs_nonneg _).trans f3)
  have e3 : M * (u * (2 * M) * (0.6 * k + 7.1)) + u * M * ((N - 1) / 2 + 6) * (2 * M) + u * (2.1 * (M * M)) =
      u * (M * M) * (1.2 * k + N + 27.3) := by ring
  have e4 : u * (M * M) * (1.2 * k + N + 28) - u * (M * M) * (1.2 * k + N + 27.3) = 0.7 * (u * (M * M)) := by ring
  have := mul_nonneg hu0 hMM
  linarith

/-- the product of the two means -/
theorem means_error (h : Rounding u fl) (hu0 : 0 ≤ u) (M N c q : ℝ) (hN : 1 ≤ N) (hu : u ≤ 1/512) (hq0 : 0 < q) (hq1 : q ≤ 1)
    (hc' : |c - (1 + q)| ≤ 3.1 * u) (m μ m' μ' : ℝ)
    (f1 : |m| ≤ M) (f2 : |μ| ≤ M) (f3 : |m - μ| ≤ u * M * ((N - 1) / 2 + 6)) (g1 : |m'| ≤ M) (g2 : |μ'| ≤ M)
    (g3 : |m' - μ'| ≤ u * M * ((N - 1) / 2 + 6)) :
    |fl (fl (c * m) * m') - (1 + q) * μ * μ'| ≤ u * (M * M) * (2 * N + 30) := by
  have hM0 : 0 ≤ M := (abs_nonneg _).trans f1
  have hMM : 0 ≤ M * M := mul_self_nonneg M
  have huM0 : 0 ≤ u * M := mul_nonneg hu0 hM0
  have huM : u * M ≤ 1/512 * M := mul_le_mul_of_nonneg_right hu hM0
  have hcb : |c| ≤ 2.01 := by
    have := abs_le.mp hc'
    rw [abs_le]; constructor <;> linarith
  have p1 : |c * m| ≤ 2.01 * M := by
    rw [abs_mul]; exact mul_le_mul hcb f1 (abs_nonneg _) (by norm_num)
  have p2 := h.bound hu0 p1
  have p3 := h.size hu0 p1
  generalize fl (c * m) = z at *
  have p4 : |z * m'| ≤ 2.02 * (M * M) := by
    rw [abs_mul]
    have := mul_le_mul (by linarith : |z| ≤ 2.02 * M) g1 (abs_nonneg _) (by linarith)
    linarith
  have p5 := h.bound hu0 p4
  have e : fl (z * m') - (1 + q) * μ * μ' = (fl (z * m') - z * m') + ((z - c * m) * m' + ((c - (1 + q)) * (m * m') +
      (1 + q) * ((m - μ) * m' + μ * (m' - μ')))) := by ring
  rw [e]
  have a1 := abs_add_le (fl (z * m') - z * m') ((z - c * m) * m' + ((c - (1 + q)) * (m * m') + (1 + q) * ((m - μ) * m' + μ * (m' - μ'))))
  have a2 := abs_add_le ((z - c * m) * m') ((c - (1 + q)) * (m * m') + (1 + q) * ((m - μ) * m' + μ * (m' - μ')))
  have a3 := abs_add_le ((c - (1 + q)) * (m * m')) ((1 + q) * ((m - μ) * m' + μ * (m' - μ')))
  have b1 : |(z - c * m) * m'| ≤ u * (2.01 * M) * M := by
    rw [abs_mul]; exact mul_le_mul p2 g1 (abs_nonneg _) (mul_nonneg hu0 (by linarith))
  have b2 : |(c - (1 + q)) * (m * m')| ≤ 3.1 * u * (M * M) := by
    rw [abs_mul]
    have : |m * m'| ≤ M * M := by rw [abs_mul]; exact mul_le_mul f1 g1 (abs_nonneg _) hM0
    exact mul_le_mul hc' this (abs_nonneg _) (by linarith)
  have b3 : |(1 + q) * ((m - μ) * m' + μ * (m' - μ'))| ≤ 2 * (2 * (u * M * ((N - 1) / 2 + 6) * M)) := by
    rw [abs_mul]
    have s1 := abs_add_le ((m - μ) * m') (μ * (m' - μ'))
    rw [abs_mul, abs_mul] at s1
    have s2 := mul_le_mul f3 g1 (abs_nonneg _) ((abs_nonneg _).trans f3)
    have s4 := mul_le_mul f2 g3 (abs_nonneg _) hM0
    have s3 : |1 + q| ≤ 2 := by rw [abs_of_pos (by linarith)]; linarith
    exact mul_le_mul s3 (by linarith) (abs_nonneg _) (by norm_num)
  have e3 : u * (2.02 * (M * M)) + u * (2.01 * M) * M + 3.1 * u * (M * M) + 2 * (2 * (u * M * ((N - 1) / 2 + 6) * M)) =
      u * (M * M) * (2 * N + 29.13) := by ring
  have e4 : u * (M * M) * (2 * N + 30) - u * (M * M) * (2 * N + 29.13) = 0.87 * (u * (M * M)) := by ring
  have := mul_nonneg hu0 hMM
  linarith

/-- entry `l` of `get` -/
theorem getLag_error (h : Rounding u fl) (hu0 : 0 ≤ u) (L l : Nat) (hl : l ≤ L) (G : Nat → ι → ι → ℝ) (M₀ : ι → ℝ) (xs : List (ι → ℝ)) (hxs : xs ≠ [])
    (hun : u * (xs.length : ℝ) ≤ 1/256) (M : ℝ) (i j : ι) (hG : ∀ l, G l i j = 0) (hx : ∀ x ∈ xs, ∀ i, fl (x i) = x i)
    (hi : ∀ x ∈ xs, |x i| ≤ M) (hj : ∀ x ∈ xs, |x j| ≤ M)
    (hcount : ∀ n : Nat, n ≤ xs.length → fl n = n) (s : ACMState ℝ ι) (hs : @acmMachine ℝ ι (roundedArith fl) L G M₀ xs = .ok s) :
    ∃ r, @acmMachineGetLag ℝ ι (roundedArith fl) s l = .ok r ∧
      (xs.length ≤ l + 1 → r i j = 0) ∧
      (l + 2 ≤ xs.length → |r i j - autoCov l xs i j| ≤ u * (M * M) * (8 * xs.length + 120)) := by
  let _ := roundedArith fl
  obtain ⟨lags, e1, e2⟩ := state_rel h hu0 L G M₀ xs hxs hun M i j hG hi hj hcount
  rw [e1] at hs
  cases hs
  obtain ⟨⟨a, b, c⟩, r1, r2, r3⟩ := e2 l hl
  unfold acmMachineGetLag
  simp only [r1, bind, Except.bind, pure, Except.pure]
  refine ⟨_, rfl, ?_, ?_⟩
  · intro hn
    rw [if_neg (by omega)]
    obtain ⟨z1, z2, z3⟩ := r3.1 hn
    change a i j = 0 at z1
    change b i = 0 at z2
    change c j = 0 at z3
    show fl (fl (a i j - fl (_ * c j)) - fl (b i * _)) = 0
    simp only [z1, z2, z3, mul_zero, zero_mul, h.zero, sub_zero]
  · intro hn
    rw [if_pos (by omega)]
    obtain ⟨ra, rb, rc⟩ := r3.2 hn
    change |a i j - _| ≤ _ at ra
    change |b i - _| ≤ _ at rb
    change |c j - _| ≤ _ at rc
    have hnn : (2:ℝ) ≤ xs.length := by exact_mod_cast (by omega : 2 ≤ xs.length)
    have hunn : u * 2 ≤ u * xs.length := mul_le_mul_of_nonneg_left hnn hu0
    have hu : u ≤ 1/512 := by linarith
    have hMM : 0 ≤ M * M := mul_self_nonneg M
    have huMM := mul_nonneg hu0 hMM
    have hcast : ((xs.length - l - 1 : ℕ) : ℝ) = xs.length - l - 1 := by
      rw [Nat.cast_sub (by omega), Nat.cast_sub (by omega)]; simp
    have hk1 : (1:ℝ) ≤ xs.length - l - 1 := by
      rw [← hcast]; exact_mod_cast (by omega : 1 ≤ xs.length - l - 1)
    have hkn : (xs.length : ℝ) - l - 1 ≤ xs.length - 1 := by
      have : (0:ℝ) ≤ l := Nat.cast_nonneg l
      linarith
    have hc1 : fl ((1:ℕ):ℝ) = 1 := by rw [hcount 1 (by omega)]; simp
    have hc2 : fl ((xs.length - l - 1 : ℕ) : ℝ) = xs.length - l - 1 := by rw [hcount _ (by omega), hcast]
    obtain ⟨f1, f2, f3⟩ := mean_facts h hu0 M₀ xs hxs hun M i hx hi hcount
    obtain ⟨g1, g2, g3⟩ := mean_facts h hu0 M₀ xs hxs hun M j hx hj hcount
    obtain ⟨hA, hB, hC⟩ := spec_bounds M i j l xs hn hi hj
    have exact_value : autoCov l xs i j = (acmLagSpec (fun _ _ _ => 0) l xs).alpha i j - vmean xs i * (acmLagSpec (fun _ _ _ => 0) l xs).eta j -
        (acmLagSpec (fun _ _ _ => 0) l xs).beta i * vmean xs j + (1 + 1 / ((xs.length : ℝ) - l - 1)) * vmean xs i * vmean xs j := by
      have g := acm_getLag L l (fun _ _ _ => (0:ℝ)) hl xs
      rw [if_neg (by omega)] at g
      unfold ACMState.getLag at g
      simp only [acmSpec] at g
      rw [readAt_ok _ l (by simp; omega)] at g
      simp only [List.getElem_map, List.getElem_range, bind, Except.bind, pure, Except.pure, gt_iff_lt, if_pos (show l + 1 < xs.length by omega), Except.ok.injEq] at g
      have g' := congrFun (congrFun g i) j
      simp only [zero_div, add_zero] at g'
      rw [← g']
    rw [exact_value]
    show |fl (fl (fl (a i j - fl (_ * c j)) - fl (b i * _)) + fl (fl (fl (fl ((1:ℕ):ℝ) + fl (fl ((1:ℕ):ℝ) / fl ((xs.length - l - 1 : ℕ) : ℝ))) * _) * _)) - _| ≤ _
    rw [hc1, hc2]
    generalize (machineMean M₀ xs).mean i = m at *
    generalize (machineMean M₀ xs).mean j = m' at *
    generalize (acmLagSpec (fun _ _ _ => 0) l xs).alpha i j = A at *
    generalize (acmLagSpec (fun _ _ _ => 0) l xs).beta i = B at *
    generalize (acmLagSpec (fun _ _ _ => 0) l xs).eta j = C at *
    generalize vmean xs i = μ at *
    generalize vmean xs j = μ' at *
    generalize a i j = a at *
    generalize b i = b at *
    generalize c j = c at *
    generalize hN : (xs.length : ℝ) = N at *
    generalize N - (l : ℝ) - 1 = k at *
    have huk : u * k ≤ u * N := mul_le_mul_of_nonneg_left (by linarith) hu0
    have t1 := prod_error h hu0 M k N hk1 (by linarith) hun m μ c C f1 f3 rc hC
    have t2 := prod_error h hu0 M k N hk1 (by linarith) hun m' μ' b B g1 g3 rb hB
    rw [mul_comm m' b, mul_comm μ' B] at t2
    have hr : |fl (1 / k) - 1 / k| ≤ u := by
      have := h.error (1 / k)
      rw [abs_of_pos (by positivity : 0 < 1 / k)] at this
      have h1k : 1 / k ≤ 1 := by rw [div_le_one (by linarith)]; exact hk1
      have := mul_le_mul_of_nonneg_left h1k hu0
      linarith
    have h1k : 1 / k ≤ 1 := by rw [div_le_one (by linarith)]; exact hk1
    have h1k0 : 0 < 1 / k := by positivity
    generalize 1 / k = q at *
    have hsum : |1 + fl q| ≤ 2.01 := by
      have := abs_le.mp hr
      rw [abs_le]; constructor <;> linarith
    have hc := h.bound hu0 hsum
    generalize fl q = q' at *
    have hc' : |fl (1 + q') - (1 + q)| ≤ 3.1 * u := by
      have e : fl (1 + q') - (1 + q) = (fl (1 + q') - (1 + q')) + (q' - q) := by ring
      rw [e]
      have := abs_add_le (fl (1 + q') - (1 + q')) (q' - q)
      linarith
    generalize fl (1 + q') = w at *
    have t3 := means_error h hu0 M N w q (by linarith) hu h1k0 h1k hc' m μ m' μ' f1 f2 f3 g1 g2 g3
    have hM0 : 0 ≤ M := (abs_nonneg _).trans f1
    have v1 : |μ * C| ≤ 2 * (M * M) := by
      rw [abs_mul]
      have := mul_le_mul f2 hC (abs_nonneg _) hM0
      linarith
    have v2 : |B * μ'| ≤ 2 * (M * M) := by
      rw [abs_mul]
      have := mul_le_mul hB g2 (abs_nonneg _) (by linarith)
      linarith
    have v3 : |(1 + q) * μ * μ'| ≤ 2 * (M * M) := by
      rw [abs_mul, abs_mul]
      have s3 : |1 + q| ≤ 2 := by rw [abs_of_pos (by linarith)]; linarith
      have := mul_le_mul (mul_le_mul s3 f2 (abs_nonneg _) (by norm_num)) g2 (abs_nonneg _) (by linarith)
      linarith
    generalize fl (m * c) = P at *
    generalize fl (b * m') = Q at *
    generalize fl (fl (w * m) * m') = R at *
    generalize μ * C = P' at *
    generalize B * μ' = Q' at *
    generalize (1 + q) * μ * μ' = R' at *
    have hall : u * (1.2 * k + N + 28) ≤ 0.15 := by linarith
    have hall' := mul_le_mul_of_nonneg_right hall hMM
    have hall2 : u * (2 * N + 30) ≤ 0.1 := by linarith
    have hall2' := mul_le_mul_of_nonneg_right hall2 hMM
    have huMM' : u * (M * M) ≤ 1/512 * (M * M) := mul_le_mul_of_nonneg_right hu hMM
    have size : ∀ x X y z : ℝ, |x - X| ≤ y → |X| ≤ z → |x| ≤ y + z := fun x X y z h1 h2 => by
      have := abs_add_le (x - X) X
      rw [sub_add_cancel] at this
      linarith
    have sa : |a| ≤ 2.1 * (M * M) := (size a A _ _ ra hA).trans (by
      have : u * (1.2 * k + 14.2) ≤ 0.1 := by linarith
      have := mul_le_mul_of_nonneg_right this hMM
      linarith)
    have sP : |P| ≤ 2.15 * (M * M) := (size P P' _ _ t1 v1).trans (by linarith)
    have sQ : |Q| ≤ 2.15 * (M * M) := (size Q Q' _ _ t2 v2).trans (by linarith)
    have sR : |R| ≤ 2.1 * (M * M) := (size R R' _ _ t3 v3).trans (by linarith)
    have o1 : |a - P| ≤ 4.25 * (M * M) := (abs_sub _ _).trans (by linarith)
    have w1 := h.bound hu0 o1
    have y1 := h.size hu0 o1
    generalize fl (a - P) = r₁ at *
    have o2 : |r₁ - Q| ≤ 6.5 * (M * M) := (abs_sub _ _).trans (by linarith)
    have w2 := h.bound hu0 o2
    have y2 := h.size hu0 o2
    generalize fl (r₁ - Q) = r₂ at *
    have o3 : |r₂ + R| ≤ 8.7 * (M * M) := (abs_add_le _ _).trans (by linarith)
    have w3 := h.bound hu0 o3
    generalize fl (r₂ + R) = r₃ at *
    have e : r₃ - (A - P' - Q' + R') = (r₃ - (r₂ + R)) + ((r₂ - (r₁ - Q)) + ((r₁ - (a - P)) + ((a - A) + (-(P - P') + (-(Q - Q') + (R - R')))))) := by ring
    rw [e]
    have q1 := abs_add_le (r₃ - (r₂ + R)) ((r₂ - (r₁ - Q)) + ((r₁ - (a - P)) + ((a - A) + (-(P - P') + (-(Q - Q') + (R - R'))))))
    have q2 := abs_add_le (r₂ - (r₁ - Q)) ((r₁ - (a - P)) + ((a - A) + (-(P - P') + (-(Q - Q') + (R - R')))))
    have q3 := abs_add_le (r₁ - (a - P)) ((a - A) + (-(P - P') + (-(Q - Q') + (R - R'))))
    have q4 := abs_add_le (a - A) (-(P - P') + (-(Q - Q') + (R - R')))
    have q5 := abs_add_le (-(P - P')) (-(Q - Q') + (R - R'))
    have q6 := abs_add_le (-(Q - Q')) (R - R')
    rw [abs_neg] at q5 q6
    have fin : u * (M * M) * (8 * N + 120) - (u * (8.7 * (M * M)) + u * (6.5 * (M * M)) + u * (4.25 * (M * M)) + u * (2 * (M * M)) * (0.6 * k + 7.1) +
        u * (M * M) * (1.2 * k + N + 28) + u * (M * M) * (1.2 * k + N + 28) + u * (M * M) * (2 * N + 30)) =
        u * (M * M) * (4 * N - 3.6 * k + 0.35) := by ring
    have := mul_nonneg huMM (by linarith : 0 ≤ 4 * N - 3.6 * k + 0.35)
    linarith

/-! ### without rounding -/

section exact
variable {K : Type} [Field K] [Star K]

theorem lag_exact (n : Nat) (prev : List (ι → K)) (sample : ι → K) (lags : List (ACMLag K ι)) (l : Nat) :
    @acmMachineLag K ι (exactArith K) n prev sample lags l = ACMState.updateLag n prev sample lags l := by
  let _ := exactArith K
  unfold acmMachineLag ACMState.updateLag
  refine bind_congr fun e => ?_
  obtain ⟨a, b, c⟩ := e
  dsimp only
  by_cases h1 : n = l + 1
  · rw [if_pos h1, if_pos h1]
    rfl
  · rw [if_neg h1, if_neg h1]
    by_cases h2 : n ≥ l + 2
    · rw [if_pos h2, if_pos h2]
      refine bind_congr fun pl => ?_
      have hc : ((n - l : ℕ) : K) = n - l := by rw [Nat.cast_sub (by omega)]
      rw [← hc]
      show pure (ACMLag.mk (fun i j => a i j + (((0:ℕ):K) - a i j + sample i * pl j) * (((1:ℕ):K) / ((n - l : ℕ) : K)))
        (fun i => b i + (sample i - b i) * (((1:ℕ):K) / ((n - l : ℕ) : K))) (fun i => c i + (pl i - c i) * (((1:ℕ):K) / ((n - l : ℕ) : K)))) = _
      rw [Nat.cast_zero, Nat.cast_one]
      simp only [zero_sub]
    · rw [if_neg h2, if_neg h2]

theorem consume_exact (L : Nat) (G : Nat → ι → ι → K) (s : ACMState K ι) (x : ι → K) :
    @acmMachineConsume K ι (exactArith K) L G s x = ACMState.consume L G s x := by
  let _ := exactArith K
  unfold acmMachineConsume ACMState.consume
  by_cases h : s.n = 0
  · rw [if_pos h, if_pos h]
    have : (Arith.ofNat 0 : K) = 0 := Nat.cast_zero
    rw [this]
  · rw [if_neg h, if_neg h]
    dsimp only
    have : acmMachineLag s.n (x :: s.previous) x s.lags = ACMState.updateLag s.n (x :: s.previous) x s.lags := by
      funext l
      exact lag_exact _ _ _ _ _
    rw [this]
    rfl

theorem getLag_exact (s : ACMState K ι) (l : Nat) : @acmMachineGetLag K ι (exactArith K) s l = s.getLag l := by
  let _ := exactArith K
  unfold acmMachineGetLag ACMState.getLag
  refine bind_congr fun e => ?_
  obtain ⟨a, b, c⟩ := e
  dsimp only
  by_cases h1 : s.n > l + 1
  · rw [if_pos h1, if_pos h1]
    have hc : ((s.n - l - 1 : ℕ) : K) = s.n - l - 1 := by rw [Nat.cast_sub (by omega), Nat.cast_sub (by omega), Nat.cast_one]
    rw [← hc]
    show pure (fun i j => a i j - s.mean i * c j - b i * s.mean j + (((1:ℕ):K) + ((1:ℕ):K) / ((s.n - l - 1 : ℕ) : K)) * s.mean i * s.mean j) = _
    rw [Nat.cast_one]
  · rw [if_neg h1, if_neg h1]
    rfl

theorem get_exact (L : Nat) (G : Nat → ι → ι → K) (M : ι → K) (xs : List (ι → K)) :
    @acmMachineGet K ι (exactArith K) L G M xs = (do let s ← acmAfter L G M xs; s.get L) := by
  let _ := exactArith K
  unfold acmMachineGet
  have e1 : acmMachine L G M xs = acmAfter L G M xs := by
    unfold acmMachine acmAfter
    congr 1
    funext s x
    exact consume_exact L G s x
  rw [e1]
  refine bind_congr fun s => ?_
  unfold ACMState.get
  congr 1
  funext l
  exact getLag_exact s l

end exact

end SampleFlow.RoundingAutoMatrix
