import Verif.Proofs.NanAuto
import Verif.Props.IeeeDouble

/-! AutoCovarianceMatrix in double precision: no overflow for samples of moderate size (C93). -/

namespace SampleFlow.AutoFinite

open Spec Ieee

/-- a finite double of size at most `B` -/
def Bd (B : ℝ) (v : XR) : Prop := ∃ m, v = .fin m ∧ Machine double m ∧ |m| ≤ B

theorem Bd.mono {A B : ℝ} {v : XR} (h : Bd A v) (hAB : A ≤ B) : Bd B v := by
  obtain ⟨m, h1, h2, h3⟩ := h
  exact ⟨m, h1, h2, h3.trans hAB⟩

theorem round_bd {C x : ℝ} (hC : Machine double C) (hCΩ : C ≤ maxDouble) (hx : |x| ≤ C) : Bd C (roundResult double maxDouble (.fin x)) :=
  ⟨double x, round_fin double_format maxDouble_machine (hx.trans hCΩ), machine_fl double_format _, abs_fl_le double_format hC hx⟩

theorem Bd.add {A B C : ℝ} {a b : XR} (ha : Bd A a) (hb : Bd B b) (hC : Machine double C) (hCΩ : C ≤ maxDouble) (h : A + B ≤ C) :
    Bd C ((ieee double maxDouble).add a b) := by
  obtain ⟨x, rfl, hx, hx'⟩ := ha
  obtain ⟨y, rfl, hy, hy'⟩ := hb
  exact round_bd hC hCΩ ((abs_add_le x y).trans (by linarith))

theorem Bd.sub {A B C : ℝ} {a b : XR} (ha : Bd A a) (hb : Bd B b) (hC : Machine double C) (hCΩ : C ≤ maxDouble) (h : A + B ≤ C) :
    Bd C ((ieee double maxDouble).sub a b) := by
  obtain ⟨x, rfl, hx, hx'⟩ := ha
  obtain ⟨y, rfl, hy, hy'⟩ := hb
  refine round_bd hC hCΩ ((abs_add_le x (-y)).trans ?_)
  rw [abs_neg]
  linarith

theorem Bd.mul {A B C : ℝ} {a b : XR} (ha : Bd A a) (hb : Bd B b) (hC : Machine double C) (hCΩ : C ≤ maxDouble) (h : A * B ≤ C) :
    Bd C ((ieee double maxDouble).mul a b) := by
  obtain ⟨x, rfl, hx, hx'⟩ := ha
  obtain ⟨y, rfl, hy, hy'⟩ := hb
  refine round_bd hC hCΩ ?_
  rw [abs_mul]
  exact (mul_le_mul hx' hy' (abs_nonneg _) ((abs_nonneg _).trans hx')).trans h

/-- one step of a running average -/
theorem avg_upper {m x b q : ℝ} (hm : Machine double m) (hb : Machine double b) (hmb : m ≤ b) (hxb : x ≤ b) (hq0 : 0 ≤ q) (hq : q ≤ 1/2) :
    double (m + double (double (x - m) * q)) ≤ b := by
  rcases hq0.eq_or_lt with rfl | hq0
  · rw [mul_zero, fl_zero double_format, add_zero, show double m = m from hm]
    exact hmb
  · have := mean_upper double_format (by positivity) unit_small (by positivity) hm hb hmb hxb (n := 1/q) (by rw [le_div_iff₀ hq0]; linarith)
    rwa [div_div_eq_mul_div, div_one] at this

theorem avg_bd {B : ℝ} {m x q : XR} (hB : Machine double B) (hBΩ : B ≤ maxDouble / 2) (hm : Bd B m) (hx : Bd B x) (hq : ∃ r, q = .fin r ∧ 0 ≤ r ∧ r ≤ 1/2) :
    Bd B ((ieee double maxDouble).add m ((ieee double maxDouble).mul ((ieee double maxDouble).sub x m) q)) ∧
    Bd B ((ieee double maxDouble).add m ((ieee double maxDouble).mul ((ieee double maxDouble).add ((ieee double maxDouble).sub ((ieee double maxDouble).ofNat 0) m) x) q)) := by
  obtain ⟨m, rfl, hm1, hm2⟩ := hm
  obtain ⟨x, rfl, hx1, hx2⟩ := hx
  obtain ⟨q, rfl, hq0, hq1⟩ := hq
  have hd : |x - m| ≤ maxDouble := (abs_sub _ _).trans (by linarith)
  have hd' := abs_fl_le double_format maxDouble_machine hd
  have hΩ : 0 ≤ maxDouble := (abs_nonneg _).trans hd
  have hmul : |double (x - m) * q| ≤ maxDouble := by
    rw [abs_mul, abs_of_nonneg hq0]
    have := mul_le_mul hd' hq1 hq0 hΩ
    linarith
  have up := avg_upper hm1 hB (abs_le.mp hm2).2 (abs_le.mp hx2).2 hq0 hq1
  have lo : -B ≤ double (m + double (double (x - m) * q)) := by
    have := avg_upper (machine_neg double_format hm1) hB (by have := (abs_le.mp hm2).1; linarith) (by have := (abs_le.mp hx2).1; linarith : -x ≤ B) hq0 hq1
    rw [show -x - -m = -(x - m) by ring, double_format.odd, neg_mul, double_format.odd, ← neg_add, double_format.odd] at this
    linarith
  have fin : Bd B (roundResult double maxDouble ((XR.fin m).add (roundResult double maxDouble ((XR.fin (double (x - m))).mul (XR.fin q))))) := by
    simp only [XR.mul]
    rw [round_fin double_format maxDouble_machine hmul]
    simp only [XR.add, roundResult]
    rw [if_neg (by linarith), if_neg (by linarith)]
    exact ⟨_, rfl, machine_fl double_format _, abs_le.mpr ⟨lo, up⟩⟩
  constructor
  · show Bd B (roundResult double maxDouble ((XR.fin m).add (roundResult double maxDouble ((roundResult double maxDouble ((XR.fin x).add (XR.fin m).neg)).mul (XR.fin q)))))
    rw [sub_fin double_format maxDouble_machine hd]
    exact fin
  · show Bd B (roundResult double maxDouble ((XR.fin m).add (roundResult double maxDouble ((roundResult double maxDouble
      ((roundResult double maxDouble ((roundResult double maxDouble (.fin ((0:ℕ):ℝ))).add (XR.fin m).neg)).add (XR.fin x))).mul (XR.fin q)))))
    have h0 : |((0:ℕ):ℝ)| ≤ maxDouble := by simpa using hΩ
    have hmΩ : |0 - m| ≤ maxDouble := by rw [zero_sub, abs_neg]; linarith
    rw [round_fin double_format maxDouble_machine h0, Nat.cast_zero, fl_zero double_format, sub_fin double_format maxDouble_machine hmΩ, zero_sub,
      show double (-m) = -m from machine_neg double_format hm1]
    have e : (XR.fin (-m)).add (XR.fin x) = .fin (x - m) := by simp only [XR.add]; rw [add_comm, ← sub_eq_add_neg]
    rw [e, round_fin double_format maxDouble_machine hd]
    exact fin

/-- `1/n` -/
theorem inverse (n : Nat) (hn : 1 ≤ n) (hn' : n < 2 ^ 64) : ∃ r, (ieee double maxDouble).div ((ieee double maxDouble).ofNat 1) ((ieee double maxDouble).ofNat n) = .fin r ∧
    Machine double r ∧ 0 ≤ r ∧ r ≤ 1 ∧ (2 ≤ n → r ≤ 1/2) := by
  have h1 := ofNat_fin double_format maxDouble_machine 1 (nat_le_max 1 (by norm_num))
  have h2 := ofNat_fin double_format maxDouble_machine n (nat_le_max n hn')
  have e1 : double ((1:ℕ):ℝ) = 1 := by rw [Nat.cast_one]; exact double_format.one
  have hge : 1 ≤ double n := le_fl double_format double_format.one (by exact_mod_cast hn)
  have hΩ : (1:ℝ) ≤ maxDouble := by exact_mod_cast nat_le_max 1 (by norm_num)
  refine ⟨double (1 / double n), ?_, machine_fl double_format _, le_fl double_format (fl_zero double_format) (by positivity), ?_, ?_⟩
  · show roundResult double maxDouble ((roundResult double maxDouble (.fin ((1:ℕ):ℝ))).div (roundResult double maxDouble (.fin (n:ℝ)))) = _
    rw [h1, h2, e1]
    exact div_fin double_format maxDouble_machine hge (by rw [abs_one]; exact hΩ)
  · exact fl_le double_format double_format.one (by rw [div_le_one (by linarith)]; exact hge)
  · intro h
    have := two_le_fl double_format h
    have hm : Machine double (1/2) := by
      have := double_machine 1 (by norm_num) (-1) (by norm_num)
      norm_num at this
      norm_num
      exact this
    exact fl_le double_format hm (by rw [div_le_div_iff₀ (by linarith) (by norm_num)]; linarith)

/-- what is known about the members for the lag `l` -/
def Rel {ι : Type} (i j : ι) (l n : Nat) (e : ACMLag XR ι) : Prop :=
  Bd (2 ^ 1019) (e.alpha i j) ∧ Bd (2 ^ 510) (e.beta i) ∧ Bd (2 ^ 510) (e.eta j) ∧
    (n ≤ l + 1 → e.alpha i j = .fin 0 ∧ e.eta j = .fin 0)

theorem pow_half {k : Nat} (hk : k ≤ 1022) : (2:ℝ) ^ k ≤ maxDouble / 2 := by
  have := pow_le_max (k + 1) (by omega)
  rw [pow_succ'] at this
  linarith

theorem lag_rel {ι : Type} (L l : Nat) (hl : l ≤ L) (xs : List (ι → XR)) (x : ι → XR) (hlen : xs.length + 1 < 2 ^ 64) (i j : ι)
    (hi : ∀ y ∈ xs ++ [x], Bd (2 ^ 509) (y i)) (hj : ∀ y ∈ xs ++ [x], Bd (2 ^ 509) (y j))
    (lags : List (ACMLag XR ι)) (e : ACMLag XR ι) (he : readAt lags l = .ok e) (hrel : Rel i j l xs.length e) :
    ∃ e', @acmMachineLag XR ι (ieee double maxDouble) xs.length (x :: xs.reverse.take (L+1)) x lags l = .ok e' ∧ Rel i j l (xs.length + 1) e' := by
  let _ := ieee double maxDouble
  obtain ⟨a, b, c⟩ := e
  obtain ⟨ra, rb, rc, r0⟩ := hrel
  have mem : ∀ k (hk : k < (x :: xs.reverse).length), (x :: xs.reverse)[k] ∈ xs ++ [x] := by
    intro k hk
    have := List.getElem_mem hk
    rw [List.mem_cons, List.mem_reverse] at this
    rw [List.mem_append, List.mem_singleton]
    exact this.symm
  have prod : ∀ y z : XR, Bd (2 ^ 509) y → Bd (2 ^ 509) z → Bd (2 ^ 1018) ((ieee double maxDouble).mul y z) := fun y z hy hz =>
    hy.mul hz (double_pow _) (pow_le_max _ (by norm_num)) (by rw [← pow_add])
  unfold acmMachineLag
  rw [he]
  simp only [bind, Except.bind]
  by_cases h1 : xs.length = l + 1
  · have hr1 : 1 < (x :: xs.reverse).length := by simp; omega
    have hrl : l < (x :: xs.reverse).length := by simp; omega
    have hrl1 : l + 1 < (x :: xs.reverse).length := by simp; omega
    rw [if_pos h1, window_read (L+1) xs x 0 (by omega) (by simp), window_read (L+1) xs x 1 (by omega) hr1,
      window_read (L+1) xs x l (by omega) hrl, window_read (L+1) xs x (l+1) (by omega) hrl1]
    obtain ⟨z1, z2⟩ := r0 (by omega)
    refine ⟨_, rfl, ?_, ?_, ?_, fun h => by omega⟩
    · show Bd _ ((ieee double maxDouble).add ((ieee double maxDouble).add (a i j) ((ieee double maxDouble).mul _ _)) ((ieee double maxDouble).mul _ _))
      change a i j = _ at z1
      rw [z1]
      have h0 : Bd 0 (.fin 0) := ⟨0, rfl, fl_zero double_format, by simp⟩
      have p1 := prod _ _ (hi _ (mem 0 (by simp))) (hj _ (mem l hrl))
      have p2 := prod _ _ (hi _ (mem 1 hr1)) (hj _ (mem (l+1) hrl1))
      have s1 := h0.add p1 (double_pow 1018) (pow_le_max _ (by norm_num)) (by rw [zero_add])
      exact s1.add p2 (double_pow 1019) (pow_le_max _ (by norm_num)) (by rw [pow_succ' 2 1018, two_mul])
    · exact (hi _ (mem 0 (by simp))).add (hi _ (mem 1 hr1)) (double_pow 510) (pow_le_max _ (by norm_num)) (by rw [pow_succ' 2 509, two_mul])
    · show Bd _ ((ieee double maxDouble).add ((ieee double maxDouble).add (c j) _) _)
      change c j = _ at z2
      rw [z2]
      have h0 : Bd 0 (.fin 0) := ⟨0, rfl, fl_zero double_format, by simp⟩
      have s1 := h0.add (hj _ (mem l hrl)) (double_pow 509) (pow_le_max _ (by norm_num)) (by rw [zero_add])
      exact s1.add (hj _ (mem (l+1) hrl1)) (double_pow 510) (pow_le_max _ (by norm_num)) (by rw [pow_succ' 2 509, two_mul])
  · rw [if_neg h1]
    by_cases h2 : xs.length ≥ l + 2
    · have hrl : l < (x :: xs.reverse).length := by simp; omega
      rw [if_pos h2, window_read (L+1) xs x l (by omega) hrl]
      obtain ⟨q, hq, -, hq0, -, hq2⟩ := inverse (xs.length - l) (by omega) (by omega)
      have hq' : ∃ r, (ieee double maxDouble).div ((ieee double maxDouble).ofNat 1) ((ieee double maxDouble).ofNat (xs.length - l)) = .fin r ∧ 0 ≤ r ∧ r ≤ 1/2 :=
        ⟨q, hq, hq0, hq2 (by omega)⟩
      have hx := hi x (by simp)
      refine ⟨_, rfl, ?_, ?_, ?_, fun h => by omega⟩
      · exact (avg_bd (double_pow 1019) (pow_half (by norm_num)) ra
          ((prod _ _ hx (hj _ (mem l hrl))).mono (pow_le_pow_right₀ (by norm_num) (by norm_num))) hq').2
      · exact (avg_bd (double_pow 510) (pow_half (by norm_num)) rb (hx.mono (pow_le_pow_right₀ (by norm_num) (by norm_num))) hq').1
      · exact (avg_bd (double_pow 510) (pow_half (by norm_num)) rc ((hj _ (mem l hrl)).mono (pow_le_pow_right₀ (by norm_num) (by norm_num))) hq').1
    · rw [if_neg h2]
      exact ⟨⟨a, b, c⟩, rfl, ra, rb, rc, fun h => r0 (by omega)⟩

theorem state_rel {ι : Type} (L : Nat) (G : Nat → ι → ι → XR) (M₀ : ι → XR) (xs : List (ι → XR)) (hxs : xs ≠ []) (hlen : xs.length < 2 ^ 64) (i j : ι)
    (hG : ∀ l, G l i j = .fin 0) (hi : ∀ y ∈ xs, Bd (2 ^ 509) (y i)) (hj : ∀ y ∈ xs, Bd (2 ^ 509) (y j)) :
    ∃ s, @acmMachine XR ι (ieee double maxDouble) L G M₀ xs = .ok s ∧ s.n = xs.length ∧ s.previous = xs.reverse.take (L+1) ∧
      s.mean = (@machineMean XR ι (ieee double maxDouble) M₀ xs).mean ∧ ∀ l ≤ L, ∃ e, readAt s.lags l = .ok e ∧ Rel i j l xs.length e := by
  let _ := ieee double maxDouble
  induction xs using List.reverseRecOn with
  | nil => exact absurd rfl hxs
  | append_singleton xs x ih =>
    by_cases hx : xs = []
    · subst hx
      refine ⟨⟨1, x, (List.range (L+1)).map (fun l => ⟨G l, fun _ => Arith.ofNat 0, fun _ => Arith.ofNat 0⟩), [x]⟩, ?_, by simp, by simp, ?_, ?_⟩
      · simp only [acmMachine, List.nil_append, List.foldlM_cons, List.foldlM_nil, ACMState.init, acmMachineConsume, if_true]
        rfl
      · simp [machineMean, meanConsume, MeanState.init]
      · intro l hl
        have hz : (Arith.ofNat 0 : XR) = .fin 0 := by
          show roundResult double maxDouble (.fin ((0:ℕ):ℝ)) = _
          rw [ofNat_fin double_format maxDouble_machine 0 (nat_le_max 0 (by norm_num)), Nat.cast_zero, fl_zero double_format]
        have hb : ∀ k : Nat, Bd (2 ^ k) (.fin 0) := fun k => ⟨0, rfl, fl_zero double_format, by rw [abs_zero]; positivity⟩
        refine ⟨⟨G l, fun _ => Arith.ofNat 0, fun _ => Arith.ofNat 0⟩, ?_, ?_⟩
        · rw [readAt_ok _ l (by simp; omega)]
          simp
        · refine ⟨by show Bd _ (G l i j); rw [hG l]; exact hb _, by rw [hz]; exact hb _, by rw [hz]; exact hb _, fun _ => ⟨hG l, hz⟩⟩
    · have hlen' : (xs ++ [x]).length = xs.length + 1 := by simp
      rw [hlen'] at hlen
      obtain ⟨s, e1, e2, e3, e5, e4⟩ := ih hx (by omega) (fun y hy => hi y (by simp [hy])) (fun y hy => hj y (by simp [hy]))
      have hl : xs.length ≠ 0 := by simpa using hx
      have step : ∀ l ≤ L, ∃ e', acmMachineLag s.n (x :: s.previous) x s.lags l = .ok e' ∧ Rel i j l (xs.length + 1) e' := by
        intro l hl
        obtain ⟨e, r1, r2⟩ := e4 l hl
        rw [e2, e3]
        exact lag_rel L l hl xs x hlen i j hi hj s.lags e r1 r2
      have : Nonempty (ACMLag XR ι) := ⟨⟨fun _ _ => .nan, fun _ => .nan, fun _ => .nan⟩⟩
      choose! g hg using step
      unfold acmMachine at e1 ⊢
      rw [foldlM_append_ok _ _ _ _ _ e1]
      unfold acmMachineConsume
      rw [if_neg (by rw [e2]; exact hl)]
      dsimp only
      rw [mapM_ok _ g _ (fun l hl => (hg l (by simp at hl; omega)).1)]
      refine ⟨_, rfl, by simp [e2], ?_, ?_, fun l hl => ⟨g l, ?_, ?_⟩⟩
      · dsimp only
        rw [← window_next, e3]
      · dsimp only
        rw [NanAuto.mean_next M₀ xs x hx, e5, e2]
      · rw [readAt_ok _ l (by simp; omega)]
        simp
      · rw [hlen']
        exact (hg l hl).2

theorem getLag_bd {ι : Type} (s : ACMState XR ι) (l : Nat) (e : ACMLag XR ι) (he : readAt s.lags l = .ok e) (i j : ι) (hn : s.n < 2 ^ 64) (hrel : Rel i j l s.n e)
    (hmi : Bd (2 ^ 509) (s.mean i)) (hmj : Bd (2 ^ 509) (s.mean j)) :
    ∃ r, @acmMachineGetLag XR ι (ieee double maxDouble) s l = .ok r ∧ Bd (2 ^ 1022) (r i j) := by
  let _ := ieee double maxDouble
  obtain ⟨a, b, c⟩ := e
  obtain ⟨ra, rb, rc, -⟩ := hrel
  unfold acmMachineGetLag
  rw [he]
  refine ⟨_, rfl, ?_⟩
  dsimp only
  have t1 := hmi.mul rc (double_pow 1019) (pow_le_max _ (by norm_num)) (by rw [← pow_add])
  have t2 := rb.mul hmj (double_pow 1019) (pow_le_max _ (by norm_num)) (by rw [← pow_add])
  have r1 := ra.sub t1 (double_pow 1020) (pow_le_max _ (by norm_num)) (by rw [pow_succ' 2 1019, two_mul])
  have r2 := r1.sub t2 (double_pow 1021) (pow_le_max _ (by norm_num)) (by
    rw [show (2:ℝ) ^ 1021 = 4 * 2 ^ 1019 by rw [show (4:ℝ) = 2 ^ 2 by norm_num, ← pow_add], show (2:ℝ) ^ 1020 = 2 * 2 ^ 1019 by rw [← pow_succ']]
    have : (0:ℝ) ≤ 2 ^ 1019 := by positivity
    generalize (2:ℝ) ^ 1019 = t at *
    linarith)
  split
  · rename_i hgt
    obtain ⟨q, hq, hqm, hq0, hq1, -⟩ := inverse (s.n - l - 1) (by omega) (by omega)
    have bq : Bd 1 ((ieee double maxDouble).div ((ieee double maxDouble).ofNat 1) ((ieee double maxDouble).ofNat (s.n - l - 1))) :=
      ⟨q, hq, hqm, by rw [abs_of_nonneg hq0]; exact hq1⟩
    have hΩ : (2:ℝ) ≤ maxDouble := by exact_mod_cast nat_le_max 2 (by norm_num)
    have b1 : Bd 1 ((ieee double maxDouble).ofNat 1) := by
      refine ⟨1, ?_, double_format.one, by rw [abs_one]⟩
      show roundResult double maxDouble (.fin ((1:ℕ):ℝ)) = _
      rw [ofNat_fin double_format maxDouble_machine 1 (nat_le_max 1 (by norm_num)), Nat.cast_one, double_format.one]
    have bc := b1.add bq (C := 2) double_format.two hΩ (by norm_num)
    have bcm := bc.mul hmi (double_pow 510) (pow_le_max _ (by norm_num)) (by rw [← pow_succ'])
    have bcmm := bcm.mul hmj (double_pow 1019) (pow_le_max _ (by norm_num)) (by rw [← pow_add])
    exact r2.add bcmm (double_pow 1022) (pow_le_max _ (by norm_num)) (by
      rw [show (2:ℝ) ^ 1022 = 8 * 2 ^ 1019 by rw [show (8:ℝ) = 2 ^ 3 by norm_num, ← pow_add], show (2:ℝ) ^ 1021 = 4 * 2 ^ 1019 by rw [show (4:ℝ) = 2 ^ 2 by norm_num, ← pow_add]]
      have : (0:ℝ) ≤ 2 ^ 1019 := by positivity
      generalize (2:ℝ) ^ 1019 = t at *
      linarith)
  · exact r2.mono (pow_le_pow_right₀ (by norm_num) (by norm_num))

/-- the result -/
theorem finite_entry {ι : Type} (L : Nat) (G : Nat → ι → ι → XR) (M₀ : ι → XR) (xs : List (ι → XR)) (hxs : xs ≠ []) (hlen : xs.length < 2 ^ 64) (i j : ι)
    (hG : ∀ l, G l i j = .fin 0) (hi : ∀ y ∈ xs, Bd (2 ^ 509) (y i)) (hj : ∀ y ∈ xs, Bd (2 ^ 509) (y j)) :
    ∃ r, @acmMachineGet XR ι (ieee double maxDouble) L G M₀ xs = .ok r ∧ r.length = L + 1 ∧ ∀ v ∈ r, Bd (2 ^ 1022) (v i j) := by
  let _ := ieee double maxDouble
  obtain ⟨s, e1, e2, e3, e5, e4⟩ := state_rel L G M₀ xs hxs hlen i j hG hi hj
  have hmean : ∀ k, (∀ y ∈ xs, Bd (2 ^ 509) (y k)) → Bd (2 ^ 509) (s.mean k) := by
    intro k hk
    rw [e5]
    suffices H : ∀ xs : List (ι → XR), xs ≠ [] → xs.length < 2 ^ 64 → (∀ y ∈ xs, Bd (2 ^ 509) (y k)) → Within (-(2 ^ 509)) (2 ^ 509) double ((machineMean M₀ xs).mean k) by
      obtain ⟨m, h1, h2, h3, h4⟩ := H xs hxs hlen hk
      exact ⟨m, h1, h2, abs_le.mpr ⟨h3, h4⟩⟩
    intro xs
    induction xs using List.reverseRecOn with
    | nil => intro h; exact absurd rfl h
    | append_singleton xs x ih =>
      intro _ hlen hk
      have w : ∀ y, Bd (2 ^ 509) y → Within (-(2 ^ 509)) (2 ^ 509) double y := by
        rintro y ⟨m, h1, h2, h3⟩
        exact ⟨m, h1, h2, (abs_le.mp h3).1, (abs_le.mp h3).2⟩
      by_cases hx : xs = []
      · subst hx
        have : (machineMean M₀ ([] ++ [x])).mean = x := by simp [machineMean, meanConsume, MeanState.init]
        rw [this]
        exact w _ (hk x (by simp))
      · rw [NanAuto.mean_next M₀ xs x hx]
        have hl : xs.length ≠ 0 := by simpa using hx
        have hb : (2:ℝ) ^ 509 ≤ maxDouble / 2 := pow_half (by norm_num)
        have hp : (0:ℝ) ≤ 2 ^ 509 := by positivity
        have hb1 : (2:ℝ) ^ 509 - -(2 ^ 509) ≤ maxDouble := by generalize (2:ℝ) ^ 509 = t at *; linarith
        have hb2 : |(2:ℝ) ^ 509| ≤ maxDouble := by rw [abs_of_nonneg hp]; generalize (2:ℝ) ^ 509 = t at *; linarith
        simp only [List.length_append, List.length_singleton] at hlen
        refine mean_step double_format (by positivity) unit_small (by positivity) maxDouble_machine (machine_neg double_format (double_pow 509)) (double_pow 509) hb1
          ⟨by rw [abs_neg]; exact hb2, hb2⟩ (by omega) (nat_le_max _ (by omega))
          (ih hx (by omega) (fun y hy => hk y (by simp [hy]))) (w _ (hk x (by simp)))
  have key : ∀ l ≤ L, ∃ v, acmMachineGetLag s l = .ok v ∧ Bd (2 ^ 1022) (v i j) := by
    intro l hl
    obtain ⟨e, he, hr⟩ := e4 l hl
    exact getLag_bd s l e he i j (by rw [e2]; exact hlen) (by rw [e2]; exact hr) (hmean i hi) (hmean j hj)
  have : Nonempty (ι → ι → XR) := ⟨fun _ _ => .nan⟩
  choose! f hf using key
  refine ⟨(List.range (L+1)).map f, ?_, by simp, ?_⟩
  · unfold acmMachineGet
    rw [e1]
    exact mapM_ok _ f _ (fun l hl => (hf l (by rw [List.mem_range] at hl; omega)).1)
  · intro v hv
    obtain ⟨l, hl, rfl⟩ := List.mem_map.mp hv
    exact (hf l (by rw [List.mem_range] at hl; omega)).2

end SampleFlow.AutoFinite
