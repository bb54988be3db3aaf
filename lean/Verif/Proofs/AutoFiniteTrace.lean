import Verif.Proofs.AutoFinite

/-! AutoCovarianceTrace in double precision: no overflow for samples of moderate size (C93). -/

namespace SampleFlow.AutoFinite

open Spec Ieee

/-- the unit in which sums are bounded: the square of the largest component -/
noncomputable def U : ℝ := 2 ^ 980

theorem U_pos : 0 < U := by unfold U; positivity

theorem one_le_U : 1 ≤ U := one_le_pow₀ (by norm_num)

theorem machine_U (c : Nat) (hc : c ≤ 2 ^ 53) : Machine double (c * U) := by
  have := double_machine c hc 980 (by norm_num)
  rwa [show (2:ℝ) ^ (980:ℤ) = U from zpow_ofNat 2 980] at this

theorem U_le (c : Nat) (hc : c ≤ 2 ^ 40) : c * U ≤ maxDouble := by
  have h1 : (c:ℝ) ≤ 2 ^ 40 := by exact_mod_cast hc
  have h2 := pow_le_max 1020 (by norm_num)
  rw [show (2:ℝ) ^ 1020 = 2 ^ 40 * 2 ^ 980 by rw [← pow_add]] at h2
  exact (mul_le_mul_of_nonneg_right h1 U_pos.le).trans h2

theorem U_half (c : Nat) (hc : c ≤ 2 ^ 39) : c * U ≤ maxDouble / 2 := by
  have := U_le (2 * c) (by omega)
  push_cast at this
  linarith

/-- sums -/
theorem fold_add_bd {J : Type} (e : Nat) (t : J → XR) : ∀ (l : List J) (c : Nat) (s : XR), (∀ j ∈ l, Bd (e * U) (t j)) → Bd (c * U) s → c + e * l.length ≤ 2 ^ 40 →
    Bd (((c + e * l.length : ℕ) : ℝ) * U) (l.foldl (fun s j => (ieee double maxDouble).add s (t j)) s) := by
  intro l
  induction l with
  | nil => intro c s _ hs _; simpa using hs
  | cons a l ih =>
    intro c s ht hs hc
    rw [List.length_cons, Nat.mul_add, Nat.mul_one] at hc ⊢
    have h1 : Bd (((c + e : ℕ) : ℝ) * U) ((ieee double maxDouble).add s (t a)) :=
      hs.add (ht a (by simp)) (machine_U _ (by omega)) (U_le _ (by omega)) (by push_cast; linarith)
    have := ih (c + e) _ (fun j hj => ht j (by simp [hj])) h1 (by omega)
    rwa [show c + e + e * l.length = c + (e * l.length + e) by ring] at this

theorem fold_sub_bd {J : Type} (e : Nat) (t : J → XR) : ∀ (l : List J) (c : Nat) (s : XR), (∀ j ∈ l, Bd (e * U) (t j)) → Bd (c * U) s → c + e * l.length ≤ 2 ^ 40 →
    Bd (((c + e * l.length : ℕ) : ℝ) * U) (l.foldl (fun s j => (ieee double maxDouble).sub s (t j)) s) := by
  intro l
  induction l with
  | nil => intro c s _ hs _; simpa using hs
  | cons a l ih =>
    intro c s ht hs hc
    rw [List.length_cons, Nat.mul_add, Nat.mul_one] at hc ⊢
    have h1 : Bd (((c + e : ℕ) : ℝ) * U) ((ieee double maxDouble).sub s (t a)) :=
      hs.sub (ht a (by simp)) (machine_U _ (by omega)) (U_le _ (by omega)) (by push_cast; linarith)
    have := ih (c + e) _ (fun j hj => ht j (by simp [hj])) h1 (by omega)
    rwa [show c + e + e * l.length = c + (e * l.length + e) by ring] at this

/-- the sum of `s` and at most `2^20` terms is close to the exact one -/
theorem fold_err {J : Type} (t : J → XR) : ∀ (l : List J) (c : Nat) (a : ℝ), (∀ j ∈ l, Bd U (t j)) → Machine double a → |a| ≤ c * U → c + l.length ≤ 5 * 2 ^ 20 →
    ∃ σ P : ℝ, l.foldl (fun s j => (ieee double maxDouble).add s (t j)) (.fin a) = .fin σ ∧ Machine double σ ∧ |P| ≤ l.length * U ∧
      |σ - (a + P)| ≤ l.length * (2 ^ (-53 : ℤ) * (5 * 2 ^ 20 * U)) := by
  intro l
  induction l with
  | nil => intro c a _ ha _ _; exact ⟨a, 0, rfl, ha, by simp, by simp⟩
  | cons j l ih =>
    intro c a ht ha hac hc
    rw [List.length_cons] at hc
    obtain ⟨τ, hτ, hτm, hτb⟩ := ht j (by simp)
    have hU := U_pos
    have hsum : |a + τ| ≤ ((c + 1 : ℕ) : ℝ) * U := (abs_add_le _ _).trans (by push_cast; linarith)
    have hstep : (ieee double maxDouble).add (.fin a) (t j) = .fin (double (a + τ)) := by
      rw [hτ]
      exact round_fin double_format maxDouble_machine (hsum.trans (U_le _ (by omega)))
    have hb := abs_fl_le double_format (machine_U (c + 1) (by omega)) hsum
    obtain ⟨σ, P, h1, h2, h3, h4⟩ := ih (c + 1) (double (a + τ)) (fun k hk => ht k (by simp [hk])) (machine_fl double_format _) hb (by omega)
    refine ⟨σ, τ + P, ?_, h2, ?_, ?_⟩
    · rw [List.foldl_cons, hstep]
      exact h1
    · have := abs_add_le τ P
      rw [List.length_cons]
      push_cast
      linarith
    · have e := sum_error double_format (by positivity) (by positivity) ha hτm
      have hc5 : ((c + 1 : ℕ) : ℝ) * U ≤ 5 * 2 ^ 20 * U := by
        refine mul_le_mul_of_nonneg_right ?_ hU.le
        have : ((c + 1 : ℕ) : ℝ) ≤ ((5 * 2 ^ 20 : ℕ) : ℝ) := Nat.cast_le.mpr (by omega)
        exact this.trans (le_of_eq (by norm_num))
      have hu : (0:ℝ) ≤ 2 ^ (-53 : ℤ) := by positivity
      have e2 := mul_le_mul_of_nonneg_left (hsum.trans hc5) hu
      have split : σ - (a + (τ + P)) = (σ - (double (a + τ) + P)) + (double (a + τ) - (a + τ)) := by ring
      rw [split]
      have := abs_add_le (σ - (double (a + τ) + P)) (double (a + τ) - (a + τ))
      rw [List.length_cons]
      push_cast
      linarith

/-- one step of the running average of `alpha` does not exceed `2^22 U` -/
theorem alpha_upper {α σ P q : ℝ} (hα : α ≤ (2 ^ 22 : ℕ) * U) (hP : P ≤ 2 ^ 20 * U) (hσ : σ - (-α + P) ≤ U) (hq0 : 0 ≤ q) (hq : q ≤ 1/2) :
    double (α + double (σ * q)) ≤ (2 ^ 22 : ℕ) * U := by
  have hU := one_le_U
  refine fl_le double_format (machine_U _ (by norm_num)) ?_
  by_cases hs : σ ≤ 0
  · have : double (σ * q) ≤ 0 := fl_le double_format (fl_zero double_format) (mul_nonpos_of_nonpos_of_nonneg hs hq0)
    linarith
  · push Not at hs
    have hΔ : σ ≤ ((2 ^ 22 : ℕ) : ℝ) * U - α := by
      have : σ ≤ -α + 2 ^ 20 * U + U := by linarith
      push_cast
      linarith
    have hbig : 2 ≤ ((2 ^ 22 : ℕ) : ℝ) * U - α := by
      have : σ ≤ -α + 2 ^ 20 * U + U := by linarith
      push_cast
      linarith
    generalize hD : ((2 ^ 22 : ℕ) : ℝ) * U - α = Δ at *
    have h1 : σ * q ≤ Δ / 2 := by
      have := mul_le_mul hΔ hq hq0 (by linarith)
      linarith
    have h2 : double (σ * q) ≤ double (Δ / 2) := double_format.mono _ _ h1
    have h3 := double_format.error (Δ / 2) (by
      rw [abs_of_nonneg (by linarith)]
      have : (2:ℝ) ^ (-1022 : ℤ) ≤ 1 := zpow_le_one_of_nonpos₀ (by norm_num) (by norm_num)
      linarith)
    rw [abs_of_nonneg (by linarith : (0:ℝ) ≤ Δ / 2)] at h3
    have h4 := (abs_le.mp h3).2
    have hu : (2:ℝ) ^ (-53 : ℤ) * (Δ / 2) ≤ 1 / 8 * (Δ / 2) := mul_le_mul_of_nonneg_right unit_small (by linarith)
    linarith

theorem alpha_bd {d : Nat} (hd : d ≤ 2 ^ 20) (α q : XR) (hα : Bd ((2 ^ 22 : ℕ) * U) α) (x y : Fin d → XR) (hxy : ∀ j, Bd U ((ieee double maxDouble).mul (x j) (y j)))
    (hq : ∃ r, q = .fin r ∧ 0 ≤ r ∧ r ≤ 1/2) :
    Bd ((2 ^ 22 : ℕ) * U) ((ieee double maxDouble).add α ((ieee double maxDouble).mul (@dotFrom XR (ieee double maxDouble) d ((ieee double maxDouble).sub ((ieee double maxDouble).ofNat 0) α) x y) q)) := by
  obtain ⟨α, rfl, hm, hb⟩ := hα
  obtain ⟨q, rfl, hq0, hq1⟩ := hq
  have hU := U_pos
  have h0 : (ieee double maxDouble).sub ((ieee double maxDouble).ofNat 0) (.fin α) = .fin (-α) := by
    have hΩ : (0:ℝ) ≤ maxDouble := by exact_mod_cast nat_le_max 0 (by norm_num)
    show roundResult double maxDouble ((roundResult double maxDouble (.fin ((0:ℕ):ℝ))).add (XR.fin α).neg) = _
    rw [round_fin double_format maxDouble_machine (x := ((0:ℕ):ℝ)) (by simpa using hΩ), Nat.cast_zero, fl_zero double_format,
      sub_fin double_format maxDouble_machine (by rw [zero_sub, abs_neg]; exact hb.trans (U_le _ (by norm_num))), zero_sub,
      show double (-α) = -α from machine_neg double_format hm]
  rw [h0]
  unfold dotFrom
  obtain ⟨σ, P, h1, h2, h3, h4⟩ := fold_err (fun j => (ieee double maxDouble).mul (x j) (y j)) (List.finRange d) (2 ^ 22) (-α) (fun j _ => hxy j) (machine_neg double_format hm)
    (by rw [abs_neg]; exact hb) (by rw [List.length_finRange]; omega)
  have h1' : (List.finRange d).foldl (fun s j => (ieee double maxDouble).add s ((ieee double maxDouble).mul (x j) (y j))) (.fin (-α)) = .fin σ := h1
  rw [h1']
  rw [List.length_finRange] at h3 h4
  have hd' : (d:ℝ) ≤ 2 ^ 20 := by exact_mod_cast hd
  have hP : |P| ≤ 2 ^ 20 * U := h3.trans (mul_le_mul_of_nonneg_right hd' hU.le)
  have hE : |σ - (-α + P)| ≤ U := by
    refine h4.trans ?_
    have e53 : (2:ℝ) ^ (-53 : ℤ) = 1 / 2 ^ 53 := by rw [zpow_neg]; norm_num
    have : (d:ℝ) * (2 ^ (-53 : ℤ) * (5 * 2 ^ 20 * U)) ≤ 2 ^ 20 * (2 ^ (-53 : ℤ) * (5 * 2 ^ 20 * U)) := mul_le_mul_of_nonneg_right hd' (by positivity)
    refine this.trans ?_
    rw [e53]
    have : (2:ℝ) ^ 20 * (1 / 2 ^ 53 * (5 * 2 ^ 20 * U)) = 5 / 8192 * U := by ring
    rw [this]
    linarith
  obtain ⟨a1, a2⟩ := abs_le.mp hb
  obtain ⟨p1, p2⟩ := abs_le.mp hP
  obtain ⟨e1, e2⟩ := abs_le.mp hE
  have hσb : |σ| ≤ ((2 ^ 23 : ℕ) : ℝ) * U := by
    push_cast at a1 a2 ⊢
    exact abs_le.mpr ⟨by linarith, by linarith⟩
  have hmul : |σ * q| ≤ maxDouble := by
    rw [abs_mul, abs_of_nonneg hq0]
    have h5 := mul_le_mul hσb hq1 hq0 (by positivity)
    have h6 := U_le (2 ^ 23) (by norm_num)
    have h7 : (0:ℝ) ≤ ((2 ^ 23 : ℕ) : ℝ) * U := by positivity
    refine h5.trans (le_trans ?_ h6)
    generalize ((2 ^ 23 : ℕ) : ℝ) * U = t at h7 ⊢
    linarith
  have up := alpha_upper a2 p2 e2 hq0 hq1
  have lo : -(((2 ^ 22 : ℕ) : ℝ) * U) ≤ double (α + double (σ * q)) := by
    have := alpha_upper (α := -α) (σ := -σ) (P := -P) (q := q) (by linarith) (by linarith) (by linarith) hq0 hq1
    rw [neg_mul, double_format.odd, ← neg_add, double_format.odd] at this
    linarith
  have hΩ := U_le (2 ^ 22) (by norm_num)
  show Bd _ (roundResult double maxDouble ((XR.fin α).add (roundResult double maxDouble ((XR.fin σ).mul (XR.fin q)))))
  simp only [XR.mul]
  rw [round_fin double_format maxDouble_machine hmul]
  simp only [XR.add, roundResult]
  rw [if_neg (by linarith), if_neg (by linarith)]
  exact ⟨_, rfl, machine_fl double_format _, abs_le.mpr ⟨lo, up⟩⟩

/-- what is known about the members for a lag -/
def TRel {d : Nat} (e : XR × (Fin d → XR)) : Prop := Bd ((2 ^ 22 : ℕ) * U) e.1 ∧ ∀ j, Bd (2 ^ 492) (e.2 j)

theorem machine_490 (c : Nat) (hc : c ≤ 2 ^ 53) : Machine double (c * 2 ^ 490) := by
  have := double_machine c hc 490 (by norm_num)
  rwa [show (2:ℝ) ^ (490:ℤ) = 2 ^ 490 from zpow_ofNat 2 490] at this

theorem le_490 (c : Nat) (hc : c ≤ 4) : c * (2:ℝ) ^ 490 ≤ maxDouble := by
  have h1 : (c:ℝ) ≤ 4 := by exact_mod_cast hc
  have h2 := pow_le_max 492 (by norm_num)
  rw [show (2:ℝ) ^ 492 = 4 * 2 ^ 490 by rw [show (4:ℝ) = 2 ^ 2 by norm_num, ← pow_add]] at h2
  exact (mul_le_mul_of_nonneg_right h1 (by positivity)).trans h2

theorem tlag_rel {d : Nat} (hd : d ≤ 2 ^ 20) (L l : Nat) (hl : l ≤ L) (xs : List (Fin d → XR)) (x : Fin d → XR) (hlen : xs.length + 1 < 2 ^ 64)
    (hb : ∀ y ∈ xs ++ [x], ∀ j, Bd (2 ^ 490) (y j)) (lags : List (XR × (Fin d → XR))) (e : XR × (Fin d → XR)) (he : readAt lags l = .ok e) (hrel : TRel e) :
    ∃ e', @actMachineLag XR (ieee double maxDouble) d xs.length (x :: xs.reverse.take (L+1)) x lags l = .ok e' ∧ TRel e' := by
  let _ := ieee double maxDouble
  obtain ⟨a, b⟩ := e
  obtain ⟨ra, rb⟩ := hrel
  have mem : ∀ k (hk : k < (x :: xs.reverse).length), (x :: xs.reverse)[k] ∈ xs ++ [x] := by
    intro k hk
    have := List.getElem_mem hk
    rw [List.mem_cons, List.mem_reverse] at this
    rw [List.mem_append, List.mem_singleton]
    exact this.symm
  have prod : ∀ y z : XR, Bd (2 ^ 490) y → Bd (2 ^ 490) z → Bd U ((ieee double maxDouble).mul y z) := fun y z hy hz =>
    hy.mul hz (C := U) (double_pow 980) (pow_le_max 980 (by norm_num)) (by unfold U; rw [← pow_add])
  have sum2 : ∀ y z : XR, Bd (2 ^ 490) y → Bd (2 ^ 490) z → Bd ((2:ℕ) * 2 ^ 490) ((ieee double maxDouble).add y z) := fun y z hy hz =>
    hy.add hz (machine_490 2 (by norm_num)) (le_490 2 (by norm_num)) (by push_cast; rw [two_mul])
  have e492 : (2:ℝ) ^ 492 = 4 * 2 ^ 490 := by rw [show (4:ℝ) = 2 ^ 2 by norm_num, ← pow_add]
  have hp : (0:ℝ) ≤ 2 ^ 490 := by positivity
  unfold actMachineLag
  rw [he]
  simp only [bind, Except.bind]
  by_cases h1 : xs.length = l + 1
  · have hr1 : 1 < (x :: xs.reverse).length := by simp; omega
    have hrl : l < (x :: xs.reverse).length := by simp; omega
    have hrl1 : l + 1 < (x :: xs.reverse).length := by simp; omega
    rw [if_pos h1, window_read (L+1) xs x 0 (by omega) (by simp), window_read (L+1) xs x 1 (by omega) hr1,
      window_read (L+1) xs x l (by omega) hrl, window_read (L+1) xs x (l+1) (by omega) hrl1]
    refine ⟨_, rfl, ?_, ?_⟩
    · have hz : Bd ((0:ℕ) * U) ((ieee double maxDouble).ofNat 0) := by
        refine ⟨0, ?_, fl_zero double_format, by simp⟩
        show roundResult double maxDouble (.fin ((0:ℕ):ℝ)) = _
        rw [ofNat_fin double_format maxDouble_machine 0 (nat_le_max 0 (by norm_num)), Nat.cast_zero, fl_zero double_format]
      have f1 := fold_add_bd 1 (fun j => (ieee double maxDouble).mul ((x :: xs.reverse)[0] j) ((x :: xs.reverse)[l] j)) (List.finRange d) 0 _
        (fun j _ => by rw [Nat.cast_one, one_mul]; exact prod _ _ (hb _ (mem 0 (by simp)) j) (hb _ (mem l hrl) j)) hz (by rw [List.length_finRange]; omega)
      have f2 := fold_add_bd 1 (fun j => (ieee double maxDouble).mul ((x :: xs.reverse)[1] j) ((x :: xs.reverse)[l+1] j)) (List.finRange d) _ _
        (fun j _ => by rw [Nat.cast_one, one_mul]; exact prod _ _ (hb _ (mem 1 hr1) j) (hb _ (mem (l+1) hrl1) j)) f1 (by rw [List.length_finRange]; omega)
      refine f2.mono (mul_le_mul_of_nonneg_right ?_ U_pos.le)
      rw [List.length_finRange]
      exact_mod_cast (by omega)
    · intro j
      have s1 := sum2 _ _ (hb _ (mem 0 (by simp)) j) (hb _ (mem 1 hr1) j)
      have s2 := s1.add (hb _ (mem l hrl) j) (machine_490 3 (by norm_num)) (le_490 3 (by norm_num)) (by push_cast; linarith)
      have s3 := s2.add (hb _ (mem (l+1) hrl1) j) (machine_490 4 (by norm_num)) (le_490 4 (by norm_num)) (by push_cast; linarith)
      refine s3.mono (le_of_eq ?_)
      push_cast
      exact e492.symm
  · rw [if_neg h1]
    by_cases h2 : xs.length ≥ l + 2
    · have hrl : l < (x :: xs.reverse).length := by simp; omega
      rw [if_pos h2, window_read (L+1) xs x l (by omega) hrl]
      obtain ⟨q, hq, -, hq0, -, hq2⟩ := inverse (xs.length - l) (by omega) (by omega)
      have hq' : ∃ r, (ieee double maxDouble).div ((ieee double maxDouble).ofNat 1) ((ieee double maxDouble).ofNat (xs.length - l)) = .fin r ∧ 0 ≤ r ∧ r ≤ 1/2 :=
        ⟨q, hq, hq0, hq2 (by omega)⟩
      refine ⟨_, rfl, ?_, ?_⟩
      · exact alpha_bd hd a _ ra x _ (fun j => prod _ _ (hb x (by simp) j) (hb _ (mem l hrl) j)) hq'
      · intro j
        refine (avg_bd (double_pow 492) (pow_half (by norm_num)) (rb j) ((sum2 _ _ (hb x (by simp) j) (hb _ (mem l hrl) j)).mono ?_) hq').1
        rw [e492, Nat.cast_ofNat]
        exact mul_le_mul_of_nonneg_right (by norm_num) hp
    · rw [if_neg h2]
      exact ⟨(a, b), rfl, ra, rb⟩

theorem tstate_rel {d : Nat} (hd : d ≤ 2 ^ 20) (L : Nat) (M₀ : Fin d → XR) (xs : List (Fin d → XR)) (hxs : xs ≠ []) (hlen : xs.length < 2 ^ 64)
    (hb : ∀ y ∈ xs, ∀ j, Bd (2 ^ 490) (y j)) :
    ∃ s, @actMachine XR (ieee double maxDouble) d L M₀ xs = .ok s ∧ s.n = xs.length ∧ s.previous = xs.reverse.take (L+1) ∧
      s.mean = (@machineMean XR (Fin d) (ieee double maxDouble) M₀ xs).mean ∧ ∀ l ≤ L, ∃ e, readAt s.lags l = .ok e ∧ TRel e := by
  let _ := ieee double maxDouble
  induction xs using List.reverseRecOn with
  | nil => exact absurd rfl hxs
  | append_singleton xs x ih =>
    by_cases hx : xs = []
    · subst hx
      refine ⟨⟨1, x, List.replicate (L+1) (Arith.ofNat 0, fun _ => Arith.ofNat 0), [x]⟩, ?_, by simp, by simp, ?_, ?_⟩
      · simp only [actMachine, List.nil_append, List.foldlM_cons, List.foldlM_nil, ACTState.init, actMachineConsume, if_true]
        rfl
      · simp [machineMean, meanConsume, MeanState.init]
      · intro l hl
        have hz : (Arith.ofNat 0 : XR) = .fin 0 := by
          show roundResult double maxDouble (.fin ((0:ℕ):ℝ)) = _
          rw [ofNat_fin double_format maxDouble_machine 0 (nat_le_max 0 (by norm_num)), Nat.cast_zero, fl_zero double_format]
        refine ⟨(Arith.ofNat 0, fun _ => Arith.ofNat 0), ?_, ?_, ?_⟩
        · rw [readAt_ok _ l (by simp; omega)]
          simp
        · exact ⟨0, hz, fl_zero double_format, by rw [abs_zero]; have := U_pos; positivity⟩
        · exact fun _ => ⟨0, hz, fl_zero double_format, by rw [abs_zero]; positivity⟩
    · have hlen' : (xs ++ [x]).length = xs.length + 1 := by simp
      rw [hlen'] at hlen
      obtain ⟨s, e1, e2, e3, e5, e4⟩ := ih hx (by omega) (fun y hy => hb y (by simp [hy]))
      have hl : xs.length ≠ 0 := by simpa using hx
      have step : ∀ l ≤ L, ∃ e', actMachineLag s.n (x :: s.previous) x s.lags l = .ok e' ∧ TRel e' := by
        intro l hl
        obtain ⟨e, r1, r2⟩ := e4 l hl
        rw [e2, e3]
        exact tlag_rel hd L l hl xs x hlen hb s.lags e r1 r2
      have : Nonempty (XR × (Fin d → XR)) := ⟨(.nan, fun _ => .nan)⟩
      choose! g hg using step
      unfold actMachine at e1 ⊢
      rw [foldlM_append_ok _ _ _ _ _ e1]
      unfold actMachineConsume
      rw [if_neg (by rw [e2]; exact hl)]
      dsimp only
      rw [mapM_ok _ g _ (fun l hl => (hg l (by simp at hl; omega)).1)]
      refine ⟨_, rfl, by simp [e2], ?_, ?_, fun l hl => ⟨g l, ?_, ?_⟩⟩
      · dsimp only
        rw [← window_next, e3]
      · dsimp only
        rw [NanAuto.mean_next M₀ xs x hx, e5, e2]
      · rw [readAt_ok _ l (by simp; omega)]
        simp
      · exact (hg l hl).2

theorem tgetLag_bd {d : Nat} (hd : d ≤ 2 ^ 20) (s : ACTState XR (Fin d)) (l : Nat) (e : XR × (Fin d → XR)) (he : readAt s.lags l = .ok e) (hn : s.n < 2 ^ 64) (hrel : TRel e)
    (hm : ∀ j, Bd (2 ^ 490) (s.mean j)) : ∃ r, @actMachineGetLag XR (ieee double maxDouble) d s l = .ok r ∧ Bd ((2 ^ 24 : ℕ) * U) r := by
  let _ := ieee double maxDouble
  obtain ⟨a, b⟩ := e
  obtain ⟨ra, rb⟩ := hrel
  unfold actMachineGetLag
  rw [he]
  refine ⟨_, rfl, ?_⟩
  have e492 : (2:ℝ) ^ 490 * 2 ^ 492 = (4:ℕ) * U := by unfold U; push_cast; rw [show (4:ℝ) = 2 ^ 2 by norm_num, ← pow_add, ← pow_add]
  have r1 := fold_sub_bd 4 (fun j => (ieee double maxDouble).mul (s.mean j) (b j)) (List.finRange d) (2 ^ 22) a
    (fun j _ => (hm j).mul (rb j) (machine_U 4 (by norm_num)) (U_le 4 (by norm_num)) (le_of_eq e492)) ra (by rw [List.length_finRange]; omega)
  rw [List.length_finRange] at r1
  split
  · rename_i hgt
    obtain ⟨q, hq, hqm, hq0, hq1, -⟩ := inverse (s.n - l - 1) (by omega) (by omega)
    have bq : Bd 1 ((ieee double maxDouble).div ((ieee double maxDouble).ofNat 1) ((ieee double maxDouble).ofNat (s.n - l - 1))) :=
      ⟨q, hq, hqm, by rw [abs_of_nonneg hq0]; exact hq1⟩
    have hΩ : (2:ℝ) ≤ maxDouble := by exact_mod_cast nat_le_max 2 (by norm_num)
    have b1 : Bd 1 ((ieee double maxDouble).ofNat 1) := by
      refine ⟨1, ?_, double_format.one, by rw [abs_one]⟩
      show roundResult double maxDouble (.fin ((1:ℕ):ℝ)) = _
      rw [ofNat_fin double_format maxDouble_machine 1 (nat_le_max 1 (by norm_num)), Nat.cast_one, double_format.one]
    have bc := b1.add bq (C := 2) double_format.two hΩ (by norm_num)
    have bcmm : ∀ j, Bd ((2:ℕ) * U) ((ieee double maxDouble).mul ((ieee double maxDouble).mul ((ieee double maxDouble).add ((ieee double maxDouble).ofNat 1)
        ((ieee double maxDouble).div ((ieee double maxDouble).ofNat 1) ((ieee double maxDouble).ofNat (s.n - l - 1)))) (s.mean j)) (s.mean j)) := by
      intro j
      have bcm := bc.mul (hm j) (double_pow 491) (pow_le_max _ (by norm_num)) (by rw [← pow_succ'])
      exact bcm.mul (hm j) (machine_U 2 (by norm_num)) (U_le 2 (by norm_num)) (by unfold U; push_cast; rw [← pow_add, ← pow_succ'])
    have r2 := fold_add_bd 2 _ (List.finRange d) _ _ (fun j _ => bcmm j) r1 (by rw [List.length_finRange]; omega)
    rw [List.length_finRange] at r2
    refine r2.mono (mul_le_mul_of_nonneg_right ?_ U_pos.le)
    exact_mod_cast (by omega)
  · refine r1.mono (mul_le_mul_of_nonneg_right ?_ U_pos.le)
    exact_mod_cast (by omega)

/-- the result -/
theorem trace_finite {d : Nat} (hd : d ≤ 2 ^ 20) (L : Nat) (M₀ : Fin d → XR) (xs : List (Fin d → XR)) (hxs : xs ≠ []) (hlen : xs.length < 2 ^ 64)
    (hb : ∀ y ∈ xs, ∀ j, Bd (2 ^ 490) (y j)) :
    ∃ r, @actMachineGet XR (ieee double maxDouble) d L M₀ xs = .ok r ∧ r.length = L + 1 ∧ ∀ v ∈ r, Bd ((2 ^ 24 : ℕ) * U) v := by
  let _ := ieee double maxDouble
  obtain ⟨s, e1, e2, e3, e5, e4⟩ := tstate_rel hd L M₀ xs hxs hlen hb
  have hmean : ∀ k, Bd (2 ^ 490) (s.mean k) := by
    intro k
    rw [e5]
    suffices H : ∀ xs : List (Fin d → XR), xs ≠ [] → xs.length < 2 ^ 64 → (∀ y ∈ xs, Bd (2 ^ 490) (y k)) → Within (-(2 ^ 490)) (2 ^ 490) double ((machineMean M₀ xs).mean k) by
      obtain ⟨m, h1, h2, h3, h4⟩ := H xs hxs hlen (fun y hy => hb y hy k)
      exact ⟨m, h1, h2, abs_le.mpr ⟨h3, h4⟩⟩
    intro xs
    induction xs using List.reverseRecOn with
    | nil => intro h; exact absurd rfl h
    | append_singleton xs x ih =>
      intro _ hlen hk
      have w : ∀ y, Bd (2 ^ 490) y → Within (-(2 ^ 490)) (2 ^ 490) double y := by
        rintro y ⟨m, h1, h2, h3⟩
        exact ⟨m, h1, h2, (abs_le.mp h3).1, (abs_le.mp h3).2⟩
      by_cases hx : xs = []
      · subst hx
        have : (machineMean M₀ ([] ++ [x])).mean = x := by simp [machineMean, meanConsume, MeanState.init]
        rw [this]
        exact w _ (hk x (by simp))
      · rw [NanAuto.mean_next M₀ xs x hx]
        have hl : xs.length ≠ 0 := by simpa using hx
        have hb : (2:ℝ) ^ 490 ≤ maxDouble / 2 := pow_half (by norm_num)
        have hp : (0:ℝ) ≤ 2 ^ 490 := by positivity
        have hb1 : (2:ℝ) ^ 490 - -(2 ^ 490) ≤ maxDouble := by generalize (2:ℝ) ^ 490 = t at *; linarith
        have hb2 : |(2:ℝ) ^ 490| ≤ maxDouble := by rw [abs_of_nonneg hp]; generalize (2:ℝ) ^ 490 = t at *; linarith
        simp only [List.length_append, List.length_singleton] at hlen
        refine mean_step double_format (by positivity) unit_small (by positivity) maxDouble_machine (machine_neg double_format (double_pow 490)) (double_pow 490) hb1
          ⟨by rw [abs_neg]; exact hb2, hb2⟩ (by omega) (nat_le_max _ (by omega))
          (ih hx (by omega) (fun y hy => hk y (by simp [hy]))) (w _ (hk x (by simp)))
  have key : ∀ l ≤ L, ∃ v, actMachineGetLag s l = .ok v ∧ Bd ((2 ^ 24 : ℕ) * U) v := by
    intro l hl
    obtain ⟨e, he, hr⟩ := e4 l hl
    exact tgetLag_bd hd s l e he (by rw [e2]; exact hlen) hr hmean
  have : Nonempty XR := ⟨.nan⟩
  choose! f hf using key
  refine ⟨(List.range (L+1)).map f, ?_, by simp, ?_⟩
  · unfold actMachineGet
    rw [e1]
    exact mapM_ok _ f _ (fun l hl => (hf l (by rw [List.mem_range] at hl; omega)).1)
  · intro v hv
    obtain ⟨l, hl, rfl⟩ := List.mem_map.mp hv
    exact (hf l (by rw [List.mem_range] at hl; omega)).2

end SampleFlow.AutoFinite
