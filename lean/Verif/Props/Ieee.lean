import Verif.Proofs.Ieee
import Mathlib.Tactic.FinCases

/-!
# Property C89: overflow, underflow and infinite samples in MeanValue and CovarianceMatrix

`ieee fl Ω` is the arithmetic of a floating point format with rounding `fl` and largest finite number `Ω` (Model/Ieee.lean); `double` and `maxDouble` are those of IEEE double precision, including gradual underflow
(Spec/Ieee.lean).  `machineMean`, `machineCov`: objects that have consumed the samples in the list.
-/

namespace SampleFlow

open Spec

namespace Ieee

variable {u tiny Ω : ℝ} {fl : ℝ → ℝ}

/-- results of a size up to `Ω` do not overflow -/
theorem round_fin (h : Format u tiny fl) (hΩ : Machine fl Ω) {x : ℝ} (hx : |x| ≤ Ω) : roundResult fl Ω (.fin x) = .fin (fl x) := by
  obtain ⟨h1, h2⟩ := abs_le.mp hx
  have h3 : fl x ≤ Ω := by have := h.mono _ _ h2; rwa [show fl Ω = Ω from hΩ] at this
  have h4 : -Ω ≤ fl x := by have := h.mono _ _ h1; rwa [h.odd, show fl Ω = Ω from hΩ] at this
  simp only [roundResult]
  rw [if_neg (by linarith), if_neg (by linarith)]

theorem fl_zero (h : Format u tiny fl) : fl 0 = 0 := by
  have := h.odd 0
  rw [neg_zero] at this
  linarith

theorem fl_le (h : Format u tiny fl) {x b : ℝ} (hb : Machine fl b) (hx : x ≤ b) : fl x ≤ b := by
  have := h.mono _ _ hx; rwa [show fl b = b from hb] at this

theorem le_fl (h : Format u tiny fl) {x b : ℝ} (hb : Machine fl b) (hx : b ≤ x) : b ≤ fl x := by
  have := h.mono _ _ hx; rwa [show fl b = b from hb] at this

theorem machine_neg (h : Format u tiny fl) {x : ℝ} (hx : Machine fl x) : Machine fl (-x) := by
  unfold Machine at *; rw [h.odd, hx]

theorem machine_fl (h : Format u tiny fl) (x : ℝ) : Machine fl (fl x) := h.idempotent x

theorem abs_fl_le (h : Format u tiny fl) {x b : ℝ} (hb : Machine fl b) (hx : |x| ≤ b) : |fl x| ≤ b := by
  obtain ⟨h1, h2⟩ := abs_le.mp hx
  exact abs_le.mpr ⟨le_fl h (machine_neg h hb) h1, fl_le h hb h2⟩

/-- sums of machine numbers have small relative errors, with underflow or not -/
theorem sum_error (h : Format u tiny fl) (hu : 0 ≤ u) (ht : 0 ≤ tiny) {x y : ℝ} (hx : Machine fl x) (hy : Machine fl y) : |fl (x + y) - (x + y)| ≤ u * |x + y| := by
  by_cases hs : |x + y| ≤ 2 * tiny
  · rw [h.small x y hx hy hs, sub_self, abs_zero]
    positivity
  · exact h.error _ (by linarith)

/-- the update of the mean does not exceed the distance to an upper bound of the samples -/
theorem update_upper (h : Format u tiny fl) (hu0 : 0 ≤ u) (hu : u ≤ 1/8) (ht : 0 ≤ tiny) {m x b n : ℝ} (hm : Machine fl m) (hb : Machine fl b)
    (hmb : m ≤ b) (hxb : x ≤ b) (hn : 2 ≤ n) : fl (fl (x - m) / n) ≤ b - m := by
  have hn0 : 0 < n := by linarith
  have hd : fl (x - m) ≤ fl (b - m) := h.mono _ _ (by linarith)
  have hD : 0 ≤ b - m := by linarith
  have hmn := machine_neg h hm
  have hq : fl (x - m) / n ≤ fl (b - m) / n := div_le_div_of_nonneg_right hd hn0.le
  have hfD : 0 ≤ fl (b - m) := le_fl h (fl_zero h) hD
  have hq2 : fl (b - m) / n ≤ fl (b - m) / 2 := div_le_div_of_nonneg_left hfD (by norm_num) hn
  by_cases hs : b - m ≤ 2 * tiny
  · have e : fl (b - m) = b - m := by
      have := h.small b (-m) hb hmn (by rw [← sub_eq_add_neg, abs_of_nonneg hD]; exact hs)
      rwa [← sub_eq_add_neg] at this
    rw [e] at hq hq2
    refine fl_le h e ?_
    linarith
  · push Not at hs
    have e := sum_error h hu0 ht hb hmn
    rw [← sub_eq_add_neg, abs_of_nonneg hD] at e
    have e1 : fl (b - m) ≤ (1 + u) * (b - m) := by have := (abs_le.mp e).2; linarith
    have e2 : fl (x - m) / n ≤ (1 + u) * (b - m) / 2 := by linarith
    have e3 : tiny ≤ (1 + u) * (b - m) / 2 := by nlinarith
    refine (h.mono _ _ e2).trans ?_
    have e4 := h.error ((1 + u) * (b - m) / 2) (by rw [abs_of_nonneg (by positivity)]; exact e3)
    rw [abs_of_nonneg (by positivity : (0:ℝ) ≤ (1 + u) * (b - m) / 2)] at e4
    have e5 := (abs_le.mp e4).2
    have e6 : (1 + u) * ((1 + u) * (b - m) / 2) ≤ b - m := by nlinarith
    linarith

/-- one step of the mean does not exceed an upper bound of the samples -/
theorem mean_upper (h : Format u tiny fl) (hu0 : 0 ≤ u) (hu : u ≤ 1/8) (ht : 0 ≤ tiny) {m x b n : ℝ} (hm : Machine fl m) (hb : Machine fl b)
    (hmb : m ≤ b) (hxb : x ≤ b) (hn : 2 ≤ n) : fl (m + fl (fl (x - m) / n)) ≤ b := by
  refine fl_le h hb ?_
  have := update_upper h hu0 hu ht hm hb hmb hxb hn
  linarith

theorem mean_lower (h : Format u tiny fl) (hu0 : 0 ≤ u) (hu : u ≤ 1/8) (ht : 0 ≤ tiny) {m x a n : ℝ} (hm : Machine fl m) (ha : Machine fl a)
    (hma : a ≤ m) (hxa : a ≤ x) (hn : 2 ≤ n) : a ≤ fl (m + fl (fl (x - m) / n)) := by
  have := mean_upper h hu0 hu ht (machine_neg h hm) (machine_neg h ha) (by linarith : -m ≤ -a) (by linarith : -x ≤ -a) hn
  rw [show -x - -m = -(x - m) by ring, h.odd, neg_div, h.odd, ← neg_add, h.odd] at this
  linarith

/-- the number of samples as a floating point number -/
theorem ofNat_fin (h : Format u tiny fl) (hΩ : Machine fl Ω) (n : Nat) (hn : (n : ℝ) ≤ Ω) : roundResult fl Ω (.fin n) = .fin (fl n) :=
  round_fin h hΩ (by rw [abs_of_nonneg (by positivity)]; exact hn)

theorem two_le_fl (h : Format u tiny fl) {n : Nat} (hn : 2 ≤ n) : 2 ≤ fl n := le_fl h h.two (by exact_mod_cast hn)

theorem sub_fin (h : Format u tiny fl) (hΩ : Machine fl Ω) {x y : ℝ} (hx : |x - y| ≤ Ω) :
    roundResult fl Ω ((XR.fin x).add (XR.fin y).neg) = .fin (fl (x - y)) := by
  rw [show (XR.fin x).add (XR.fin y).neg = .fin (x - y) by simp only [XR.neg, XR.add]; rw [sub_eq_add_neg]]
  exact round_fin h hΩ hx

theorem div_fin (h : Format u tiny fl) (hΩ : Machine fl Ω) {x n : ℝ} (hn : 1 ≤ n) (hx : |x| ≤ Ω) :
    roundResult fl Ω ((XR.fin x).div (XR.fin n)) = .fin (fl (x / n)) := by
  rw [show (XR.fin x).div (XR.fin n) = .fin (x / n) by simp only [XR.div]; rw [if_neg (by linarith)]]
  refine round_fin h hΩ ?_
  rw [abs_div, abs_of_pos (by linarith : 0 < n)]
  exact (div_le_self (abs_nonneg _) hn).trans hx

/-- what is known about component `i` of the mean -/
def Within (a b : ℝ) (fl : ℝ → ℝ) (v : XR) : Prop := ∃ m, v = .fin m ∧ Machine fl m ∧ a ≤ m ∧ m ≤ b

theorem mean_step (h : Format u tiny fl) (hu0 : 0 ≤ u) (hu : u ≤ 1/8) (ht : 0 ≤ tiny) (hΩ : Machine fl Ω) {a b : ℝ} (ha : Machine fl a) (hb : Machine fl b) (hab : b - a ≤ Ω) (hmax : |a| ≤ Ω ∧ |b| ≤ Ω)
    {m x : XR} {n : Nat} (hn : 2 ≤ n) (hnΩ : (n : ℝ) ≤ Ω) (hm : Within a b fl m) (hx : Within a b fl x) :
    Within a b fl ((ieee fl Ω).add m ((ieee fl Ω).div ((ieee fl Ω).sub x m) ((ieee fl Ω).ofNat n))) := by
  obtain ⟨m, rfl, hm1, hm2, hm3⟩ := hm
  obtain ⟨x, rfl, hx1, hx2, hx3⟩ := hx
  have hd : |x - m| ≤ Ω := abs_le.mpr ⟨by linarith, by linarith⟩
  have hd' := abs_fl_le h hΩ hd
  have hn2 := two_le_fl h hn
  have e : (ieee fl Ω).add (.fin m) ((ieee fl Ω).div ((ieee fl Ω).sub (.fin x) (.fin m)) ((ieee fl Ω).ofNat n)) = .fin (fl (m + fl (fl (x - m) / fl n))) := by
    show roundResult fl Ω ((XR.fin m).add (roundResult fl Ω ((roundResult fl Ω ((XR.fin x).add (XR.fin m).neg)).div (roundResult fl Ω (.fin n))))) = _
    rw [sub_fin h hΩ hd, ofNat_fin h hΩ n hnΩ, div_fin h hΩ (by linarith) hd']
    simp only [XR.add, roundResult]
    have h1 := mean_upper h hu0 hu ht hm1 hb hm3 hx3 hn2
    have h2 := mean_lower h hu0 hu ht hm1 ha hm2 hx2 hn2
    have h3 := (abs_le.mp hmax.1).1
    have h4 := (abs_le.mp hmax.2).2
    rw [if_neg (by linarith), if_neg (by linarith)]
  exact ⟨_, e, machine_fl h _, mean_lower h hu0 hu ht hm1 ha hm2 hx2 hn2, mean_upper h hu0 hu ht hm1 hb hm3 hx3 hn2⟩

end Ieee

open Ieee

section
variable {ι : Type} {u tiny Ω : ℝ} {fl : ℝ → ℝ}

/-- **C89** (MeanValue): in floating point arithmetic with underflow and overflow, the mean of finite samples that all lie between `a` and `b` is a finite number between `a` and `b`, if the difference between `a` and
`b` is not too large for the format. -/
theorem C89_mean_in_range_partial (h : Format u tiny fl) (hu0 : 0 ≤ u) (hu : u ≤ 1/8) (ht : 0 ≤ tiny) (hΩ : Machine fl Ω) (a b : ℝ) (ha : Machine fl a) (hb : Machine fl b) (hmax : |a| ≤ Ω ∧ |b| ≤ Ω)
    (hab : b - a ≤ Ω) (G : ι → XR) (i : ι) (xs : List (ι → XR)) (hne : xs ≠ []) (hlen : (xs.length : ℝ) ≤ Ω)
    (hxs : ∀ x ∈ xs, ∃ r, x i = .fin r ∧ Machine fl r ∧ a ≤ r ∧ r ≤ b) :
    ∃ m, (@machineMean _ _ (ieee fl Ω) G xs).get i = .fin m ∧ a ≤ m ∧ m ≤ b := by
  let _ := ieee fl Ω
  suffices H : ∀ (xs : List (ι → XR)) (s : MeanState (ι → XR)), s.n ≠ 0 → ((s.n + xs.length : ℕ) : ℝ) ≤ Ω → Within a b fl (s.mean i) →
      (∀ x ∈ xs, Within a b fl (x i)) → Within a b fl ((xs.foldl meanConsume s).mean i) by
    cases xs with
    | nil => exact absurd rfl hne
    | cons x xs =>
      have hf : meanConsume (MeanState.init G) x = ⟨1, x⟩ := by simp [meanConsume, MeanState.init]
      obtain ⟨m, h1, -, h2, h3⟩ := H xs ⟨1, x⟩ (by simp) (by
        have : (1 + xs.length : ℕ) = (x :: xs).length := by simp [add_comm]
        rw [this]; exact hlen) (hxs x (by simp)) (fun y hy => hxs y (by simp [hy]))
      refine ⟨m, ?_, h2, h3⟩
      show ((x :: xs).foldl meanConsume (MeanState.init G)).mean i = _
      rw [List.foldl_cons, hf]
      exact h1
  intro xs
  induction xs with
  | nil => intro s _ _ hs _; exact hs
  | cons x xs ih =>
    intro s hn hlen hs hxs
    rw [List.foldl_cons]
    have hstep : (meanConsume s x).n = s.n + 1 ∧ Within a b fl ((meanConsume s x).mean i) := by
      unfold meanConsume
      rw [if_neg hn]
      refine ⟨rfl, ?_⟩
      refine mean_step h hu0 hu ht hΩ ha hb hab hmax (by omega : 2 ≤ s.n + 1) ?_ hs (hxs x (by simp))
      refine le_trans ?_ hlen
      exact_mod_cast (by simp only [List.length_cons]; omega)
    refine ih _ (by rw [hstep.1]; omega) ?_ hstep.2 (fun y hy => hxs y (by simp [hy]))
    rw [hstep.1]
    refine le_trans (le_of_eq ?_) hlen
    simp only [List.length_cons]
    push_cast; ring

/-! ### infinite samples -/

namespace Ieee

/-- infinite or not a number -/
def NotFinite : XR → Prop
  | .fin _ => False
  | _ => True

theorem count_cases (hpos : ∀ n : Nat, 0 ≤ fl n) (n : Nat) : roundResult fl Ω (.fin n) = .posInf ∨ roundResult fl Ω (.fin n) = .negInf ∨ ∃ r, 0 ≤ r ∧ roundResult fl Ω (.fin n) = .fin r := by
  simp only [roundResult]
  split
  · exact Or.inl rfl
  · split
    · exact Or.inr (Or.inl rfl)
    · exact Or.inr (Or.inr ⟨_, hpos n, rfl⟩)

/-- an infinite sample makes the mean infinite or NaN -/
theorem infinite_sample (hpos : ∀ n : Nat, 0 ≤ fl n) (n : Nat) (m x : XR) (hx : x = .posInf ∨ x = .negInf) :
    NotFinite ((ieee fl Ω).add m ((ieee fl Ω).div ((ieee fl Ω).sub x m) ((ieee fl Ω).ofNat n))) := by
  show NotFinite (roundResult fl Ω (m.add (roundResult fl Ω ((roundResult fl Ω (x.add m.neg)).div (roundResult fl Ω (.fin n))))))
  rcases count_cases (Ω := Ω) hpos n with e | e | ⟨r, hr, e⟩ <;> rw [e] <;> rcases hx with rfl | rfl <;> cases m <;> simp [XR.add, XR.neg, XR.div, roundResult, NotFinite, *]

/-- once it is infinite or NaN, the next sample makes it NaN -/
theorem not_finite_then_nan (hpos : ∀ n : Nat, 0 ≤ fl n) (n : Nat) (m x : XR) (hm : NotFinite m) :
    (ieee fl Ω).add m ((ieee fl Ω).div ((ieee fl Ω).sub x m) ((ieee fl Ω).ofNat n)) = .nan := by
  show roundResult fl Ω (m.add (roundResult fl Ω ((roundResult fl Ω (x.add m.neg)).div (roundResult fl Ω (.fin n))))) = .nan
  rcases count_cases (Ω := Ω) hpos n with e | e | ⟨r, hr, e⟩ <;> rw [e] <;> cases m <;> first | exact hm.elim | (cases x <;> simp [XR.add, XR.neg, XR.div, roundResult, *])

end Ieee

/-- **C89** (infinite samples): after an infinite sample, whatever the samples before were, and whatever the next sample and all further samples are, the mean is NaN.  (In every format.) -/
theorem C89_infinite_then_nan (fl : ℝ → ℝ) (Ω : ℝ) (hpos : ∀ n : Nat, 0 ≤ fl n) (G : ι → XR) (i : ι) (before after : List (ι → XR)) (x y : ι → XR) (hx : x i = .posInf ∨ x i = .negInf) :
    (@machineMean _ _ (ieee fl Ω) G (before ++ x :: y :: after)).get i = .nan := by
  let _ := ieee fl Ω
  show ((before ++ x :: y :: after).foldl meanConsume (MeanState.init G)).mean i = .nan
  rw [List.foldl_append, List.foldl_cons, List.foldl_cons]
  generalize List.foldl meanConsume (MeanState.init G) before = s
  have h1 : (meanConsume s x).n ≠ 0 ∧ NotFinite ((meanConsume s x).mean i) := by
    unfold meanConsume
    split
    · refine ⟨by simp, ?_⟩
      rcases hx with h | h <;> simp [h, NotFinite]
    · exact ⟨by simp, infinite_sample hpos _ _ _ hx⟩
  generalize meanConsume s x = s1 at h1
  have h2 : ∀ (s : MeanState (ι → XR)) (z : ι → XR), s.n ≠ 0 → NotFinite (s.mean i) → (meanConsume s z).n ≠ 0 ∧ (meanConsume s z).mean i = .nan := by
    intro s z hn hs
    unfold meanConsume
    rw [if_neg hn]
    exact ⟨by simp, not_finite_then_nan hpos _ _ _ hs⟩
  obtain ⟨h3, h4⟩ := h2 s1 y h1.1 h1.2
  generalize meanConsume s1 y = s2 at h3 h4
  induction after generalizing s2 with
  | nil => exact h4
  | cons z zs ih =>
    rw [List.foldl_cons]
    obtain ⟨h5, h6⟩ := h2 s2 z h3 (by rw [h4]; trivial)
    exact ih _ h5 h6

/-! ### CovarianceMatrix -/

namespace Ieee

/-- one step of an entry of the covariance matrix on real numbers: `c` the entry, `q` the contribution of the sample, `r` the part of the entry subtracted -/
theorem cov_bound_pos (h : Format u tiny fl) (hu0 : 0 ≤ u) (hu : u ≤ 1/8) (ht : 0 ≤ tiny) {Δ B c q r : ℝ} (hΔ : Machine fl Δ) (hΔ0 : 0 ≤ Δ) (hΔB : 3 * Δ ≤ B)
    (hc : Machine fl c) (hc0 : 0 ≤ c) (hcB : c ≤ B) (hq : |q| ≤ Δ) (hr0 : 0 ≤ r) (hrc : r ≤ c) (hqr : Δ ≤ c → q ≤ r) :
    |c + fl (q - r)| ≤ B := by
  obtain ⟨hq1, hq2⟩ := abs_le.mp hq
  rw [abs_le]
  constructor
  · have h1 : -(Δ + c) ≤ q - r := by linarith
    have h2 := h.mono _ _ h1
    rw [h.odd] at h2
    have h3 := (abs_le.mp (sum_error h hu0 ht hΔ hc)).2
    rw [abs_of_nonneg (by linarith : 0 ≤ Δ + c)] at h3
    have h4 : u * (Δ + c) ≤ 1/8 * (Δ + c) := mul_le_mul_of_nonneg_right hu (by linarith)
    linarith
  · by_cases hcΔ : Δ ≤ c
    · have h1 : fl (q - r) ≤ 0 := fl_le h (fl_zero h) (by have := hqr hcΔ; linarith)
      linarith
    · have h1 : fl (q - r) ≤ Δ := fl_le h hΔ (by linarith)
      linarith

theorem cov_bound (h : Format u tiny fl) (hu0 : 0 ≤ u) (hu : u ≤ 1/8) (ht : 0 ≤ tiny) {Δ B c p n k : ℝ} (hΔ : Machine fl Δ) (hΔ0 : 0 ≤ Δ) (hΔB : 3 * Δ ≤ B)
    (hc : Machine fl c) (hcB : |c| ≤ B) (hp : |p| ≤ Δ) (hk : 1 ≤ k) (hkn : k ≤ n) :
    |c + fl (fl (p / n) - fl (c / k))| ≤ B := by
  have hn0 : 0 < n := by linarith
  have hk0 : 0 < k := by linarith
  have main : ∀ c p : ℝ, Machine fl c → 0 ≤ c → c ≤ B → |p| ≤ Δ → |c + fl (fl (p / n) - fl (c / k))| ≤ B := by
    intro c p hc hc0 hcB hp
    have hq : |fl (p / n)| ≤ Δ := by
      refine abs_fl_le h hΔ ?_
      rw [abs_div, abs_of_pos hn0]
      exact (div_le_self (abs_nonneg _) (by linarith)).trans hp
    refine cov_bound_pos h hu0 hu ht hΔ hΔ0 hΔB hc hc0 hcB hq (le_fl h (fl_zero h) (by positivity)) (fl_le h hc (div_le_self hc0 hk)) (fun hcΔ => ?_)
    refine h.mono _ _ ?_
    calc p / n ≤ c / n := div_le_div_of_nonneg_right (((abs_le.mp hp).2).trans hcΔ) hn0.le
      _ ≤ c / k := div_le_div_of_nonneg_left hc0 hk0 hkn
  rcases le_total 0 c with h0 | h0
  · exact main c p hc h0 ((abs_le.mp hcB).2) hp
  · have := main (-c) (-p) (machine_neg h hc) (by linarith) (by have := (abs_le.mp hcB).1; linarith) (by rwa [abs_neg])
    rw [neg_div, neg_div, h.odd, h.odd, show -fl (p / n) - -fl (c / k) = -(fl (p / n) - fl (c / k)) by ring, h.odd, ← neg_add, abs_neg] at this
    exact this

/-- what is known about an entry of the matrix -/
def Entry (B : ℝ) (fl : ℝ → ℝ) (diagonal : Prop) (v : XR) : Prop := ∃ c, v = .fin c ∧ Machine fl c ∧ |c| ≤ B ∧ (diagonal → 0 ≤ c)

theorem cov_step (h : Format u tiny fl) (hu0 : 0 ≤ u) (hu : u ≤ 1/8) (ht : 0 ≤ tiny) (hΩ : Machine fl Ω) {H D Δ B : ℝ} (hD : Machine fl D) (hΔ : Machine fl Δ) (hB : Machine fl B)
    (hHD : 2 * H ≤ D) (hD0 : 0 ≤ D) (hDΔ : D * D ≤ Δ) (hΔB : 3 * Δ ≤ B) (hDΩ : D ≤ Ω) (hBΩ : 2 * B ≤ Ω) (diagonal : Prop)
    {mi mj xi xj c : XR} {n : Nat} (hn : 2 ≤ n) (hnΩ : (n : ℝ) ≤ Ω) (hmi : Within (-H) H fl mi) (hmj : Within (-H) H fl mj) (hxi : Within (-H) H fl xi) (hxj : Within (-H) H fl xj)
    (hd : diagonal → mi = mj ∧ xi = xj) (hc : Entry B fl diagonal c) :
    Entry B fl diagonal ((ieee fl Ω).add c ((ieee fl Ω).sub ((ieee fl Ω).div ((ieee fl Ω).mul ((ieee fl Ω).sub xi mi) ((ieee fl Ω).conj ((ieee fl Ω).sub xj mj))) ((ieee fl Ω).ofNat n))
      ((ieee fl Ω).div c ((ieee fl Ω).sub ((ieee fl Ω).ofNat n) ((ieee fl Ω).ofNat 1))))) := by
  obtain ⟨mi, rfl, hmi1, hmi2, hmi3⟩ := hmi
  obtain ⟨mj, rfl, hmj1, hmj2, hmj3⟩ := hmj
  obtain ⟨xi, rfl, hxi1, hxi2, hxi3⟩ := hxi
  obtain ⟨xj, rfl, hxj1, hxj2, hxj3⟩ := hxj
  obtain ⟨c, rfl, hc1, hc2, hc3⟩ := hc
  have hΔ0 : 0 ≤ Δ := le_trans (by positivity) hDΔ
  have hn2 := two_le_fl h hn
  have hdi : |xi - mi| ≤ D := abs_le.mpr ⟨by linarith, by linarith⟩
  have hdj : |xj - mj| ≤ D := abs_le.mpr ⟨by linarith, by linarith⟩
  have hfi := abs_fl_le h hD hdi
  have hfj := abs_fl_le h hD hdj
  have hprod : |fl (xi - mi) * fl (xj - mj)| ≤ Δ := by
    rw [abs_mul]
    exact (mul_le_mul hfi hfj (abs_nonneg _) hD0).trans hDΔ
  have hp := abs_fl_le h hΔ hprod
  have hnn : |fl n - 1| ≤ Ω := by
    have := fl_le h hΩ hnΩ
    rw [abs_of_nonneg (by linarith)]
    linarith
  have hk1 : 1 ≤ fl (fl n - 1) := le_fl h h.one (by linarith)
  have hkn : fl (fl n - 1) ≤ fl n := fl_le h (machine_fl h _) (by linarith)
  have hone : roundResult fl Ω (.fin ((1 : ℕ) : ℝ)) = .fin 1 := by
    rw [ofNat_fin h hΩ 1 (le_trans (by exact_mod_cast (by omega : 1 ≤ n)) hnΩ)]
    push_cast
    rw [h.one]
  have hq : |fl (fl (fl (xi - mi) * fl (xj - mj)) / fl n)| ≤ Δ := by
    refine abs_fl_le h hΔ ?_
    rw [abs_div, abs_of_pos (by linarith : 0 < fl n)]
    exact (div_le_self (abs_nonneg _) (by linarith)).trans hp
  have hr : |fl (c / fl (fl n - 1))| ≤ B := by
    refine abs_fl_le h hB ?_
    rw [abs_div, abs_of_pos (by linarith : 0 < fl (fl n - 1))]
    exact (div_le_self (abs_nonneg _) hk1).trans hc2
  have hqr : |fl (fl (fl (xi - mi) * fl (xj - mj)) / fl n) - fl (c / fl (fl n - 1))| ≤ Ω := by
    refine (abs_sub _ _).trans ?_
    linarith
  have hres := cov_bound h hu0 hu ht hΔ hΔ0 hΔB hc1 hc2 hp hk1 hkn
  have e : (ieee fl Ω).add (.fin c) ((ieee fl Ω).sub ((ieee fl Ω).div ((ieee fl Ω).mul ((ieee fl Ω).sub (.fin xi) (.fin mi)) ((ieee fl Ω).conj ((ieee fl Ω).sub (.fin xj) (.fin mj)))) ((ieee fl Ω).ofNat n))
      ((ieee fl Ω).div (.fin c) ((ieee fl Ω).sub ((ieee fl Ω).ofNat n) ((ieee fl Ω).ofNat 1)))) =
      .fin (fl (c + fl (fl (fl (fl (xi - mi) * fl (xj - mj)) / fl n) - fl (c / fl (fl n - 1))))) := by
    show roundResult fl Ω ((XR.fin c).add (roundResult fl Ω ((roundResult fl Ω ((roundResult fl Ω ((roundResult fl Ω ((XR.fin xi).add (XR.fin mi).neg)).mul
      (roundResult fl Ω ((XR.fin xj).add (XR.fin mj).neg)))).div (roundResult fl Ω (.fin n)))).add
      (roundResult fl Ω ((XR.fin c).div (roundResult fl Ω ((roundResult fl Ω (.fin n)).add (roundResult fl Ω (.fin ((1 : ℕ) : ℝ))).neg)))).neg))) = _
    rw [sub_fin h hΩ (hdi.trans hDΩ), sub_fin h hΩ (hdj.trans hDΩ), ofNat_fin h hΩ n hnΩ, hone, sub_fin h hΩ hnn, div_fin h hΩ hk1 (by linarith)]
    rw [show (XR.fin (fl (xi - mi))).mul (XR.fin (fl (xj - mj))) = .fin (fl (xi - mi) * fl (xj - mj)) from rfl, round_fin h hΩ (by linarith),
      div_fin h hΩ (by linarith) (by linarith), sub_fin h hΩ hqr]
    rw [show ∀ a b : ℝ, (XR.fin a).add (XR.fin b) = .fin (a + b) from fun _ _ => rfl, round_fin h hΩ (by have := abs_nonneg c; linarith)]
  refine ⟨_, e, machine_fl h _, abs_fl_le h hB hres, fun hdiag => ?_⟩
  obtain ⟨e1, e2⟩ := hd hdiag
  cases e1
  cases e2
  have hc0 := hc3 hdiag
  have hp0 : 0 ≤ fl (fl (xi - mi) * fl (xi - mi)) := le_fl h (fl_zero h) (mul_self_nonneg _)
  have hq0 : 0 ≤ fl (fl (fl (xi - mi) * fl (xi - mi)) / fl n) := le_fl h (fl_zero h) (div_nonneg hp0 (by linarith))
  have hr1 : fl (c / fl (fl n - 1)) ≤ c := fl_le h hc1 (div_le_self hc0 hk1)
  refine le_fl h (fl_zero h) ?_
  have := le_fl h (machine_neg h (machine_fl h (c / fl (fl n - 1)))) (by linarith : -fl (c / fl (fl n - 1)) ≤ fl (fl (fl (xi - mi) * fl (xi - mi)) / fl n) - fl (c / fl (fl n - 1)))
  linarith

end Ieee

/-- **C89** (CovarianceMatrix): if the samples are not larger than `H`, where `H²` is small enough for the format, then the entries of the covariance matrix are finite, those on the diagonal are not negative.  (The memory of the matrix is zero
at the beginning, see C64.) -/
theorem C89_covariance_finite_partial (h : Format u tiny fl) (hu0 : 0 ≤ u) (hu : u ≤ 1/8) (ht : 0 ≤ tiny) (hΩ : Machine fl Ω) (H D Δ B : ℝ) (hH : Machine fl H) (hD : Machine fl D) (hΔ : Machine fl Δ) (hB : Machine fl B)
    (hH0 : 0 ≤ H) (hHD : 2 * H ≤ D) (hDΔ : D * D ≤ Δ) (hΔB : 3 * Δ ≤ B) (hDΩ : D ≤ Ω) (hBΩ : 2 * B ≤ Ω)
    (M : ι → XR) (C₀ G : ι → ι → XR) (i j : ι) (hG : G i j = .fin 0) (xs : List (ι → XR)) (hne : xs ≠ []) (hlen : (xs.length : ℝ) ≤ Ω)
    (hxs : ∀ x ∈ xs, ∃ r s, x i = .fin r ∧ x j = .fin s ∧ Machine fl r ∧ Machine fl s ∧ |r| ≤ H ∧ |s| ≤ H) :
    ∃ c, (@machineCov _ _ (ieee fl Ω) M C₀ G xs).get i j = .fin c ∧ |c| ≤ B ∧ (i = j → 0 ≤ c) := by
  let _ := ieee fl Ω
  have hHm := machine_neg h hH
  have hwi : ∀ x ∈ xs, Within (-H) H fl (x i) := by
    intro x hx
    obtain ⟨r, s, h1, h2, h3, h4, h5, h6⟩ := hxs x hx
    exact ⟨r, h1, h3, (abs_le.mp h5).1, (abs_le.mp h5).2⟩
  have hwj : ∀ x ∈ xs, Within (-H) H fl (x j) := by
    intro x hx
    obtain ⟨r, s, h1, h2, h3, h4, h5, h6⟩ := hxs x hx
    exact ⟨s, h2, h4, (abs_le.mp h6).1, (abs_le.mp h6).2⟩
  have hB0 : 0 ≤ B := by
    have : 0 ≤ D * D := mul_self_nonneg D
    linarith
  have hmax : |(-H)| ≤ Ω ∧ |H| ≤ Ω := by
    rw [abs_neg, abs_of_nonneg hH0]; exact ⟨by linarith, by linarith⟩
  suffices H' : ∀ (xs : List (ι → XR)) (s : CovState XR ι), s.n ≠ 0 → ((s.n + xs.length : ℕ) : ℝ) ≤ Ω → Within (-H) H fl (s.mean i) → Within (-H) H fl (s.mean j) → Entry B fl (i = j) (s.C i j) →
      (∀ x ∈ xs, Within (-H) H fl (x i)) → (∀ x ∈ xs, Within (-H) H fl (x j)) → Entry B fl (i = j) ((xs.foldl (covConsume G) s).C i j) by
    cases xs with
    | nil => exact absurd rfl hne
    | cons x xs =>
      have hf : covConsume G (CovState.init M C₀) x = ⟨1, x, G⟩ := by simp [covConsume, CovState.init]
      obtain ⟨c, h1, -, h2, h3⟩ := H' xs ⟨1, x, G⟩ (by simp) (by
        have : (1 + xs.length : ℕ) = (x :: xs).length := by simp [add_comm]
        rw [this]; exact hlen) (hwi x (by simp)) (hwj x (by simp)) ⟨0, hG, fl_zero h, by rw [abs_zero]; exact hB0, fun _ => le_rfl⟩
        (fun y hy => hwi y (by simp [hy])) (fun y hy => hwj y (by simp [hy]))
      refine ⟨c, ?_, h2, h3⟩
      show ((x :: xs).foldl (covConsume G) (CovState.init M C₀)).C i j = _
      rw [List.foldl_cons, hf]
      exact h1
  clear hwi hwj hxs hlen hne xs
  intro xs
  induction xs with
  | nil => intro s _ _ _ _ hc _ _; exact hc
  | cons x xs ih =>
    intro s hn hlen hmi hmj hc hwi hwj
    rw [List.foldl_cons]
    have hlen1 : ((s.n + 1 : ℕ) : ℝ) ≤ Ω := by
      refine le_trans ?_ hlen
      exact_mod_cast (by simp only [List.length_cons]; omega)
    have hstep : (covConsume G s x).n = s.n + 1 ∧ Within (-H) H fl ((covConsume G s x).mean i) ∧ Within (-H) H fl ((covConsume G s x).mean j) ∧ Entry B fl (i = j) ((covConsume G s x).C i j) := by
      unfold covConsume
      rw [if_neg hn]
      refine ⟨rfl, ?_, ?_, ?_⟩
      · exact mean_step h hu0 hu ht hΩ hHm hH (by linarith) hmax (by omega : 2 ≤ s.n + 1) hlen1 hmi (hwi x (by simp))
      · exact mean_step h hu0 hu ht hΩ hHm hH (by linarith) hmax (by omega : 2 ≤ s.n + 1) hlen1 hmj (hwj x (by simp))
      · exact cov_step h hu0 hu ht hΩ hD hΔ hB hHD (by linarith) hDΔ hΔB hDΩ hBΩ (i = j) (by omega : 2 ≤ s.n + 1) hlen1 hmi hmj (hwi x (by simp)) (hwj x (by simp))
          (by rintro rfl; exact ⟨rfl, rfl⟩) hc
    obtain ⟨h1, h2, h3, h4⟩ := hstep
    refine ih _ (by rw [h1]; omega) ?_ h2 h3 h4 (fun y hy => hwi y (by simp [hy])) (fun y hy => hwj y (by simp [hy]))
    rw [h1]
    refine le_trans (le_of_eq ?_) hlen
    simp only [List.length_cons]
    push_cast; ring

end

end SampleFlow
