import Verif.Props.IeeeDouble
import Verif.Proofs.IeeeAccuracyCov

/-! As long as no result overflows, the arithmetic with infinities computes what the arithmetic on real numbers with rounding computes. -/

namespace SampleFlow

open Spec

namespace Ieee

variable {ι : Type} {u tiny Ω η : ℝ} {fl : ℝ → ℝ}

theorem round_inv {v : XR} {c : ℝ} (h : roundResult fl Ω v = .fin c) : ∃ x, v = .fin x ∧ c = fl x := by
  cases v with
  | fin x =>
    simp only [roundResult] at h
    split at h
    · exact absurd h (by simp)
    · split at h
      · exact absurd h (by simp)
      · exact ⟨x, rfl, (XR.fin.inj h).symm⟩
  | posInf => simp [roundResult] at h
  | negInf => simp [roundResult] at h
  | nan => simp [roundResult] at h

theorem add_inv {a b : XR} {c : ℝ} (h : a.add b = .fin c) : ∃ x y, a = .fin x ∧ b = .fin y ∧ c = x + y := by
  cases a <;> cases b <;> simp [XR.add] at h <;> exact ⟨_, _, rfl, rfl, h.symm⟩

theorem neg_inv {a : XR} {c : ℝ} (h : a.neg = .fin c) : a = .fin (-c) := by
  cases a <;> simp [XR.neg] at h
  rw [← h, neg_neg]

theorem sub_inv {a b : XR} {c : ℝ} (h : a.add b.neg = .fin c) : ∃ x y, a = .fin x ∧ b = .fin y ∧ c = x - y := by
  obtain ⟨x, y, h1, h2, h3⟩ := add_inv h
  exact ⟨x, -y, h1, neg_inv h2, by rw [h3]; ring⟩

theorem div_inv {a : XR} {n c : ℝ} (h : a.div (.fin n) = .fin c) : ∃ x, a = .fin x ∧ c = x / n := by
  cases a with
  | fin x =>
    simp only [XR.div] at h
    split at h
    · split at h
      · exact absurd h (by simp)
      · split at h <;> exact absurd h (by simp)
    · exact ⟨x, rfl, (XR.fin.inj h).symm⟩
  | nan => exact absurd h (by simp [XR.div])
  | posInf =>
    simp only [XR.div] at h
    split at h <;> exact absurd h (by simp)
  | negInf =>
    simp only [XR.div] at h
    split at h <;> exact absurd h (by simp)

theorem infTimes_inv {b : Bool} {r c : ℝ} : XR.infTimes b r ≠ .fin c := by
  unfold XR.infTimes
  split
  · simp
  · split <;> simp

theorem mul_inv {a b : XR} {c : ℝ} (h : a.mul b = .fin c) : ∃ x y, a = .fin x ∧ b = .fin y ∧ c = x * y := by
  cases a <;> cases b <;> simp [XR.mul, infTimes_inv] at h
  exact ⟨_, _, rfl, rfl, h.symm⟩

/-- a sample with finite components -/
def emb (r : ι → ℝ) : ι → XR := fun i => .fin (r i)

theorem meanN {D : Type} [Arith D] (G : ι → D) (xs : List (ι → D)) : (machineMean G xs).n = xs.length := by
  induction xs using List.reverseRecOn with
  | nil => rfl
  | append_singleton xs x ih =>
    have hs : machineMean G (xs ++ [x]) = meanConsume (machineMean G xs) x := by simp [machineMean]
    rw [hs]
    unfold meanConsume
    split
    · rename_i h0
      rw [ih] at h0
      simp [h0]
    · simp [ih]

theorem covN {D : Type} [Arith D] (M : ι → D) (C₀ G : ι → ι → D) (xs : List (ι → D)) :
    (machineCov M C₀ G xs).n = xs.length ∧ (machineCov M C₀ G xs).mean = (machineMean M xs).mean := by
  induction xs using List.reverseRecOn with
  | nil => exact ⟨rfl, rfl⟩
  | append_singleton xs x ih =>
    have hs : machineCov M C₀ G (xs ++ [x]) = covConsume G (machineCov M C₀ G xs) x := by simp [machineCov]
    have hs' : machineMean M (xs ++ [x]) = meanConsume (machineMean M xs) x := by simp [machineMean]
    have hn := meanN M xs
    rw [hs, hs']
    unfold covConsume meanConsume
    rw [hn, ih.1, ih.2]
    split
    · rename_i h0
      refine ⟨?_, rfl⟩
      simp [h0]
    · exact ⟨by simp, rfl⟩

/-- a finite mean is what the arithmetic on real numbers computes -/
theorem mean_bridge (h : Format u tiny fl) (hΩ : Machine fl Ω) (G : ι → XR) (G' : ι → ℝ) (xs : List (ι → ℝ)) (hne : xs ≠ []) (hlen : (xs.length : ℝ) ≤ Ω) (i : ι) (c : ℝ)
    (hc : (@machineMean _ _ (ieee fl Ω) G (xs.map emb)).mean i = .fin c) : c = (@machineMean ℝ ι (roundedArith fl) G' xs).mean i := by
  induction xs using List.reverseRecOn generalizing c with
  | nil => exact absurd rfl hne
  | append_singleton xs x ih =>
    have hs : @machineMean _ _ (ieee fl Ω) G ((xs ++ [x]).map emb) = @meanConsume _ _ (ieee fl Ω) (@machineMean _ _ (ieee fl Ω) G (xs.map emb)) (emb x) := by simp [machineMean]
    have hs' : @machineMean _ _ (roundedArith fl) G' (xs ++ [x]) = @meanConsume _ _ (roundedArith fl) (@machineMean _ _ (roundedArith fl) G' xs) x := by simp [machineMean]
    rw [hs] at hc
    rw [hs']
    unfold meanConsume at hc ⊢
    by_cases h0 : xs = []
    · subst h0
      have hc' : XR.fin (x i) = .fin c := hc
      exact (XR.fin.inj hc').symm
    · have hpos : xs.length ≠ 0 := by simpa using h0
      have e1 : (@machineMean _ _ (ieee fl Ω) G (xs.map emb)).n = xs.length := by rw [@meanN ι XR (ieee fl Ω), List.length_map]
      have e2 := @meanN ι ℝ (roundedArith fl) G' xs
      rw [if_neg (by rw [e1]; exact hpos)] at hc
      rw [if_neg (by rw [e2]; exact hpos)]
      have hlen' : ((xs.length + 1 : ℕ) : ℝ) ≤ Ω := by simpa using hlen
      have hc' : roundResult fl Ω (((@machineMean _ _ (ieee fl Ω) G (xs.map emb)).mean i).add (roundResult fl Ω
          ((roundResult fl Ω ((XR.fin (x i)).add ((@machineMean _ _ (ieee fl Ω) G (xs.map emb)).mean i).neg)).div (roundResult fl Ω (.fin (((@machineMean _ _ (ieee fl Ω) G (xs.map emb)).n + 1 : ℕ) : ℝ)))))) = .fin c := hc
      rw [e1, ofNat_fin h hΩ _ hlen'] at hc'
      obtain ⟨c1, h1, k1⟩ := round_inv hc'
      obtain ⟨m, q, h2, h3, k2⟩ := add_inv h1
      obtain ⟨q1, h4, k3⟩ := round_inv h3
      obtain ⟨d, h5, k4⟩ := div_inv h4
      obtain ⟨d1, h6, k5⟩ := round_inv h5
      obtain ⟨y, m', h7, h8, k6⟩ := sub_inv h6
      have hm := ih h0 (le_trans (by push_cast; linarith) hlen') m h2
      have hm' : m' = m := by rw [h2] at h8; exact (XR.fin.inj h8).symm
      have hy : y = x i := (XR.fin.inj h7).symm
      show c = fl ((@machineMean ℝ ι (roundedArith fl) G' xs).mean i + fl (fl (x i - (@machineMean ℝ ι (roundedArith fl) G' xs).mean i) / fl (((@machineMean ℝ ι (roundedArith fl) G' xs).n + 1 : ℕ) : ℝ)))
      rw [e2, k1, k2, k3, k4, k5, k6, hm', hy, hm]

/-- a finite entry of the covariance matrix is what the arithmetic on real numbers computes -/
theorem cov_bridge (h : Format u tiny fl) (hΩ : Machine fl Ω) (M : ι → XR) (M' : ι → ℝ) (C₀ G : ι → ι → XR) (C₀' G' : ι → ι → ℝ) (xs : List (ι → ℝ)) (hne : xs ≠ []) (hlen : (xs.length : ℝ) ≤ Ω) (i j : ι) (c : ℝ)
    (hG : G i j = .fin (G' i j))
    (hc : (@machineCov _ _ (ieee fl Ω) M C₀ G (xs.map emb)).C i j = .fin c) : c = (@machineCov ℝ ι (roundedArith fl) M' C₀' G' xs).C i j := by
  induction xs using List.reverseRecOn generalizing c with
  | nil => exact absurd rfl hne
  | append_singleton xs x ih =>
    have hs : @machineCov _ _ (ieee fl Ω) M C₀ G ((xs ++ [x]).map emb) = @covConsume _ _ (ieee fl Ω) G (@machineCov _ _ (ieee fl Ω) M C₀ G (xs.map emb)) (emb x) := by simp [machineCov]
    have hs' : @machineCov _ _ (roundedArith fl) M' C₀' G' (xs ++ [x]) = @covConsume _ _ (roundedArith fl) G' (@machineCov _ _ (roundedArith fl) M' C₀' G' xs) x := by simp [machineCov]
    rw [hs] at hc
    rw [hs']
    unfold covConsume at hc ⊢
    by_cases h0 : xs = []
    · subst h0
      have hc' : G i j = .fin c := hc
      rw [hG] at hc'
      exact (XR.fin.inj hc').symm
    · have hpos : xs.length ≠ 0 := by simpa using h0
      have e1 : (@machineCov _ _ (ieee fl Ω) M C₀ G (xs.map emb)).n = xs.length := by rw [(@covN ι XR (ieee fl Ω) M C₀ G (xs.map emb)).1, List.length_map]
      have e2 := (@covN ι ℝ (roundedArith fl) M' C₀' G' xs).1
      have f1 := (@covN ι XR (ieee fl Ω) M C₀ G (xs.map emb)).2
      have f2 := (@covN ι ℝ (roundedArith fl) M' C₀' G' xs).2
      rw [if_neg (by rw [e1]; exact hpos)] at hc
      rw [if_neg (by rw [e2]; exact hpos)]
      have hlen' : ((xs.length + 1 : ℕ) : ℝ) ≤ Ω := by simpa using hlen
      have hlen1 : ((1 : ℕ) : ℝ) ≤ Ω := le_trans (by push_cast; linarith [Nat.cast_nonneg (α := ℝ) xs.length]) hlen'
      have hlen2 : (xs.length : ℝ) ≤ Ω := le_trans (by push_cast; linarith) hlen'
      have hc' : roundResult fl Ω (((@machineCov _ _ (ieee fl Ω) M C₀ G (xs.map emb)).C i j).add (roundResult fl Ω
          ((roundResult fl Ω ((roundResult fl Ω ((roundResult fl Ω ((XR.fin (x i)).add ((@machineCov _ _ (ieee fl Ω) M C₀ G (xs.map emb)).mean i).neg)).mul
            (roundResult fl Ω ((XR.fin (x j)).add ((@machineCov _ _ (ieee fl Ω) M C₀ G (xs.map emb)).mean j).neg)))).div (roundResult fl Ω (.fin (((@machineCov _ _ (ieee fl Ω) M C₀ G (xs.map emb)).n + 1 : ℕ) : ℝ))))).add
          (roundResult fl Ω (((@machineCov _ _ (ieee fl Ω) M C₀ G (xs.map emb)).C i j).div
            (roundResult fl Ω ((roundResult fl Ω (.fin (((@machineCov _ _ (ieee fl Ω) M C₀ G (xs.map emb)).n + 1 : ℕ) : ℝ))).add (roundResult fl Ω (.fin ((1 : ℕ) : ℝ))).neg)))).neg))) = .fin c := hc
      have hone : fl ((1:ℕ):ℝ) = ((1:ℕ):ℝ) := by simpa using h.one
      have hsub : |fl ((xs.length + 1 : ℕ) : ℝ) - ((1:ℕ):ℝ)| ≤ Ω := by
        have a1 := fl_le h hΩ hlen'
        have a2 := le_fl h h.one (by push_cast; linarith [Nat.cast_nonneg (α := ℝ) xs.length] : (1:ℝ) ≤ ((xs.length + 1 : ℕ) : ℝ))
        rw [abs_of_nonneg (by push_cast at a2 ⊢; linarith)]
        push_cast at a1 ⊢
        linarith
      rw [e1, f1, ofNat_fin h hΩ _ hlen', ofNat_fin h hΩ _ hlen1, hone, sub_fin h hΩ hsub] at hc'
      obtain ⟨c1, h1, k1⟩ := round_inv hc'
      obtain ⟨cp, q, h2, h3, k2⟩ := add_inv h1
      obtain ⟨q1, h4, k3⟩ := round_inv h3
      obtain ⟨a, b, h5, h6, k4⟩ := sub_inv h4
      obtain ⟨a1, h7, k5⟩ := round_inv h5
      obtain ⟨a2, h8, k6⟩ := div_inv h7
      obtain ⟨a3, h9, k7⟩ := round_inv h8
      obtain ⟨di, dj, h10, h11, k8⟩ := mul_inv h9
      obtain ⟨di1, h12, k9⟩ := round_inv h10
      obtain ⟨dj1, h13, k10⟩ := round_inv h11
      obtain ⟨xi, mi, h14, h15, k11⟩ := sub_inv h12
      obtain ⟨xj, mj, h16, h17, k12⟩ := sub_inv h13
      obtain ⟨b1, h18, k13⟩ := round_inv h6
      obtain ⟨cp', h19, k14⟩ := div_inv h18
      have hcp := ih h0 hlen2 cp h2
      have hcp' : cp' = cp := by rw [h2] at h19; exact (XR.fin.inj h19).symm
      have hmi := mean_bridge h hΩ M M' xs h0 hlen2 i mi h15
      have hmj := mean_bridge h hΩ M M' xs h0 hlen2 j mj h17
      have hxi : xi = x i := (XR.fin.inj h14).symm
      have hxj : xj = x j := (XR.fin.inj h16).symm
      show c = fl ((@machineCov ℝ ι (roundedArith fl) M' C₀' G' xs).C i j +
        fl (fl (fl (fl (x i - (@machineCov ℝ ι (roundedArith fl) M' C₀' G' xs).mean i) * fl (x j - (@machineCov ℝ ι (roundedArith fl) M' C₀' G' xs).mean j)) / fl (((@machineCov ℝ ι (roundedArith fl) M' C₀' G' xs).n + 1 : ℕ) : ℝ)) -
          fl ((@machineCov ℝ ι (roundedArith fl) M' C₀' G' xs).C i j / fl (fl (((@machineCov ℝ ι (roundedArith fl) M' C₀' G' xs).n + 1 : ℕ) : ℝ) - fl ((1 : ℕ) : ℝ)))))
      rw [e2, f2, hone, k1, k2, k3, k4, k5, k6, k7, k8, k9, k10, k11, k12, k13, k14, hcp', hcp, hmi, hmj, hxi, hxj]

/-- the error of rounding to double precision -/
theorem gradual_error (p : Nat) (hp : 1 ≤ p) (e : ℤ) (he : e ≤ 0) (x : ℝ) : |gradual p e x - x| ≤ 2 ^ (-(p : ℤ)) * |x| + 2 ^ (e - 1) := by
  have key : ∀ x : ℝ, 0 ≤ x → |gradual p e x - x| ≤ 2 ^ (-(p : ℤ)) * |x| + 2 ^ (e - 1) := by
    intro x hx
    have hn : (0:ℝ) ≤ 2 ^ (e - 1) := by positivity
    by_cases ht : (2:ℝ) ^ (e + p - 1) ≤ x
    · have := (gradual_format p hp e he).error x (by rw [abs_of_nonneg hx]; exact ht)
      linarith
    · unfold gradual gradualPos
      rw [if_pos hx, if_neg ht]
      have e1 : (roundInt (x / 2 ^ e) : ℝ) * 2 ^ e - x = ((roundInt (x / 2 ^ e) : ℝ) - x / 2 ^ e) * 2 ^ e := by field_simp
      have e2 : (2:ℝ) ^ (e - 1) = 1 / 2 * 2 ^ e := by rw [zpow_sub_one₀ (by norm_num)]; ring
      have h0 : (0:ℝ) < 2 ^ e := by positivity
      rw [e1, e2, abs_mul, abs_of_pos h0]
      have := mul_le_mul_of_nonneg_right (roundInt_error (x / 2 ^ e)) h0.le
      have : (0:ℝ) ≤ 2 ^ (-(p : ℤ)) * |x| := by positivity
      linarith
  rcases le_total 0 x with hx | hx
  · exact key x hx
  · have := key (-x) (by linarith)
    rwa [gradual_neg, abs_neg, show -gradual p e x - -x = -(gradual p e x - x) by ring, abs_neg] at this

theorem double_error (x : ℝ) : |double x - x| ≤ 2 ^ (-53 : ℤ) * |x| + 2 ^ (-1075 : ℤ) := by
  have := gradual_error 53 (by norm_num) (-1074) (by norm_num) x
  norm_num at this ⊢
  exact this

theorem double_nat (n : Nat) (hn : n ≤ 2 ^ 53) : Machine double n := by
  have := double_machine n hn 0 (by norm_num)
  simpa using this

end Ieee
end SampleFlow
