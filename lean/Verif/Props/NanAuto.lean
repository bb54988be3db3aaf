import Verif.Proofs.AutoFiniteTrace
import Mathlib.Data.Fin.VecNotation

/-!
# C93: NaN, infinities and overflow in AutoCovarianceTrace and AutoCovarianceMatrix

`actMachineGet`, `acmMachineGet`: the results of get() of objects that have consumed the samples in the list, in the arithmetic of the machine.  `ieee fl Ω` is the arithmetic of a floating point format
(Model/Ieee.lean), `double` and `maxDouble` are those of IEEE double precision.
-/

namespace SampleFlow

open Spec Ieee

section
variable {D ι κ : Type} [Arith D] {d : Nat}

/-- **C93** (trace): if a component of some sample is NaN, all entries are NaN, whatever samples come before and after it.  (In every arithmetic in which operations with NaN have the result NaN.) -/
theorem C93_trace_keeps_nan {nan : D → Prop} (N : NanPropagates nan) (maxLag : Nat) (M₀ : Fin d → D) (xs : List (Fin d → D)) (h : ∃ x ∈ xs, ∃ j, nan (x j)) :
    ∃ r, actMachineGet maxLag M₀ xs = .ok r ∧ r.length = maxLag + 1 ∧ ∀ v ∈ r, nan v := by
  obtain ⟨r, h1, h2, h3, -⟩ := NanAuto.act_entries N maxLag M₀ xs (by rintro rfl; simp at h)
  exact ⟨r, h1, h2, h3 h⟩

/-- **C93** (matrix): if component `i` of some sample is NaN, row `i` and column `i` of all matrices are NaN. -/
theorem C93_matrix_keeps_nan {nan : D → Prop} (N : NanPropagates nan) (maxLag : Nat) (G : Nat → ι → ι → D) (M₀ : ι → D) (xs : List (ι → D)) (i : ι) (h : ∃ x ∈ xs, nan (x i)) :
    ∃ r, acmMachineGet maxLag G M₀ xs = .ok r ∧ r.length = maxLag + 1 ∧ ∀ v ∈ r, ∀ j, nan (v i j) ∧ nan (v j i) := by
  obtain ⟨x, hx, hi⟩ := h
  obtain ⟨r, h1, h2, h3, -⟩ := NanAuto.acm_entries N maxLag G M₀ xs (by rintro rfl; simp at hx)
  exact ⟨r, h1, h2, fun v hv j => ⟨h3 i j ⟨x, hx, .inl hi⟩ v hv, h3 j i ⟨x, hx, .inr hi⟩ v hv⟩⟩

/-- **C93** (matrix): the entries for the components chosen by `f` are those of the matrices of samples with these components only, bit by bit; no other component has any influence. -/
theorem C93_matrix_componentwise (f : κ → ι) (maxLag : Nat) (G : Nat → ι → ι → D) (M₀ : ι → D) (xs : List (ι → D)) :
    acmMachineGet maxLag (fun l a b => G l (f a) (f b)) (M₀ ∘ f) (xs.map (· ∘ f)) =
      (acmMachineGet maxLag G M₀ xs).map (List.map (fun r a b => r (f a) (f b))) :=
  NanAuto.get_part f maxLag G M₀ xs

end

section
variable {ι : Type} {d : Nat}

/-- **C93** (trace, infinities): if a component of some sample is infinite or NaN, no entry is a finite number.  (In every floating point format.) -/
theorem C93_trace_infinite (fl : ℝ → ℝ) (Ω : ℝ) (maxLag : Nat) (M₀ : Fin d → XR) (xs : List (Fin d → XR)) (x : Fin d → XR) (hx : x ∈ xs) (j : Fin d)
    (hj : x j = .posInf ∨ x j = .negInf ∨ x j = .nan) :
    ∃ r, @actMachineGet XR (ieee fl Ω) d maxLag M₀ xs = .ok r ∧ r.length = maxLag + 1 ∧ ∀ v ∈ r, ∀ a : ℝ, v ≠ .fin a := by
  let _ := ieee fl Ω
  obtain ⟨r, h1, h2, h3⟩ := C93_trace_keeps_nan (NanAuto.ieee_not_finite fl Ω) maxLag M₀ xs ⟨x, hx, j, by rcases hj with e | e | e <;> rw [e] <;> trivial⟩
  exact ⟨r, h1, h2, fun v hv a e => by have := h3 v hv; rw [e] at this; exact this⟩

/-- **C93** (matrix, infinities): the same for row and column `i` of the matrices. -/
theorem C93_matrix_infinite (fl : ℝ → ℝ) (Ω : ℝ) (maxLag : Nat) (G : Nat → ι → ι → XR) (M₀ : ι → XR) (xs : List (ι → XR)) (x : ι → XR) (hx : x ∈ xs) (i : ι)
    (hi : x i = .posInf ∨ x i = .negInf ∨ x i = .nan) :
    ∃ r, @acmMachineGet XR ι (ieee fl Ω) maxLag G M₀ xs = .ok r ∧ r.length = maxLag + 1 ∧ ∀ v ∈ r, ∀ j, ∀ a : ℝ, v i j ≠ .fin a ∧ v j i ≠ .fin a := by
  let _ := ieee fl Ω
  obtain ⟨r, h1, h2, h3⟩ := C93_matrix_keeps_nan (NanAuto.ieee_not_finite fl Ω) maxLag G M₀ xs i ⟨x, hx, by rcases hi with e | e | e <;> rw [e] <;> trivial⟩
  refine ⟨r, h1, h2, fun v hv j a => ⟨fun e => ?_, fun e => ?_⟩⟩
  · have := (h3 v hv j).1; rw [e] at this; exact this
  · have := (h3 v hv j).2; rw [e] at this; exact this

/-- **C93** (double precision, matrix), partial: if the uninitialised memory contains zeros, then for finite samples whose components `i` and `j` are of a size up to `2^509 ≈ 1.7·10^153`, the entries
`(i, j)` are finite numbers for all lags.  (Missing: larger samples, for which it is false.) -/
theorem C93_double_finite_partial (maxLag : Nat) (G : Nat → ι → ι → XR) (M₀ : ι → XR) (xs : List (ι → XR)) (hne : xs ≠ []) (hlen : xs.length < 2 ^ 64) (i j : ι)
    (hG : ∀ l, G l i j = .fin 0)
    (hxs : ∀ x ∈ xs, ∃ r s, x i = .fin r ∧ x j = .fin s ∧ Machine double r ∧ Machine double s ∧ |r| ≤ 2 ^ 509 ∧ |s| ≤ 2 ^ 509) :
    ∃ result, @acmMachineGet XR ι (ieee double maxDouble) maxLag G M₀ xs = .ok result ∧ result.length = maxLag + 1 ∧
      ∀ v ∈ result, ∃ a : ℝ, v i j = .fin a ∧ |a| ≤ maxDouble := by
  obtain ⟨r, h1, h2, h3⟩ := AutoFinite.finite_entry maxLag G M₀ xs hne hlen i j hG
    (fun y hy => let ⟨r, _, e, _, m, _, b, _⟩ := hxs y hy; ⟨r, e, m, b⟩) (fun y hy => let ⟨_, s, _, e, _, m, _, b⟩ := hxs y hy; ⟨s, e, m, b⟩)
  refine ⟨r, h1, h2, fun v hv => ?_⟩
  obtain ⟨a, ha, -, hb⟩ := h3 v hv
  exact ⟨a, ha, hb.trans (pow_le_max _ (by norm_num))⟩

/-- **C93** (trace): if the components of the samples (at most `2^20` per sample) are finite doubles of size at most `2^490 ≈ 3·10^147`, all entries are finite, for any number of samples below `2^64`. -/
theorem C93_double_trace_finite_partial (hd : d ≤ 2 ^ 20) (maxLag : Nat) (M₀ : Fin d → XR) (xs : List (Fin d → XR)) (hxs : xs ≠ []) (hlen : xs.length < 2 ^ 64)
    (hb : ∀ x ∈ xs, ∀ j, ∃ a : ℝ, x j = .fin a ∧ Machine double a ∧ |a| ≤ 2 ^ 490) :
    ∃ result, @actMachineGet XR (ieee double maxDouble) d maxLag M₀ xs = .ok result ∧ result.length = maxLag + 1 ∧ ∀ v ∈ result, ∃ a : ℝ, v = .fin a ∧ |a| ≤ maxDouble := by
  obtain ⟨r, h1, h2, h3⟩ := AutoFinite.trace_finite hd maxLag M₀ xs hxs hlen hb
  refine ⟨r, h1, h2, fun v hv => ?_⟩
  obtain ⟨a, ha, -, hb⟩ := h3 v hv
  exact ⟨a, ha, hb.trans (AutoFinite.U_le _ (by norm_num))⟩

theorem NanAuto.square_overflow (r : ℝ) (h : 2 ^ 512 ≤ |r|) : (ieee double maxDouble).mul (.fin r) (.fin r) = .posInf := by
  show roundResult double maxDouble (.fin (r * r)) = _
  have h1 : (2:ℝ) ^ 1024 ≤ r * r := by
    rw [← abs_mul_abs_self r, show (2:ℝ) ^ 1024 = 2 ^ 512 * 2 ^ 512 by rw [← pow_add]]
    exact mul_le_mul h h (by positivity) (abs_nonneg _)
  have h2 : (2:ℝ) ^ 1024 ≤ double (r * r) := le_fl double_format (double_pow 1024) h1
  have h3 : maxDouble < 2 ^ 1024 := by
    unfold maxDouble
    rw [show (2:ℝ) ^ 1024 = 2 ^ 53 * 2 ^ 971 by rw [← pow_add]]
    exact mul_lt_mul_of_pos_right (by norm_num) (by positivity)
  simp only [roundResult]
  rw [if_pos (lt_of_lt_of_le h3 h2)]

/-- **C93** is violated by overflow: if there are at least two samples and a component of one of them is of the size `2^512 ≈ 1.3·10^154` or larger, the lag-0 results are not finite, whatever the exact ones are. -/
theorem C93_violation_overflow (maxLag : Nat) (M₀ : Fin d → XR) (G : Nat → Fin d → Fin d → XR) (xs : List (Fin d → XR)) (h2 : 2 ≤ xs.length) (x : Fin d → XR) (hx : x ∈ xs) (j : Fin d) (r : ℝ)
    (hr : x j = .fin r) (hbig : 2 ^ 512 ≤ |r|) :
    (∃ t, @actMachineGet XR (ieee double maxDouble) d maxLag M₀ xs = .ok t ∧ ∃ v, t[0]? = some v ∧ ∀ a : ℝ, v ≠ .fin a) ∧
    (∃ t, @acmMachineGet XR (Fin d) (ieee double maxDouble) maxLag G M₀ xs = .ok t ∧ ∃ v, t[0]? = some v ∧ ∀ a : ℝ, v j j ≠ .fin a) := by
  let _ := ieee double maxDouble
  have hne : xs ≠ [] := by rintro rfl; simp at hx
  have hm : NotFinite (Arith.mul (x j) (x j)) := by
    rw [hr]
    show NotFinite ((ieee double maxDouble).mul (.fin r) (.fin r))
    rw [NanAuto.square_overflow r hbig]
    trivial
  constructor
  · obtain ⟨t, h1, hl, -, h3⟩ := NanAuto.act_entries (NanAuto.ieee_not_finite double maxDouble) maxLag M₀ xs hne
    have h0 : t[0]? = some (t[0]'(by omega)) := List.getElem?_eq_getElem _
    refine ⟨t, h1, _, h0, fun a e => ?_⟩
    have := h3 h2 ⟨x, hx, j, hm⟩ _ h0
    rw [e] at this
    exact this
  · obtain ⟨t, h1, hl, -, h3⟩ := NanAuto.acm_entries (NanAuto.ieee_not_finite double maxDouble) maxLag G M₀ xs hne
    have h0 : t[0]? = some (t[0]'(by omega)) := List.getElem?_eq_getElem _
    refine ⟨t, h1, _, h0, fun a e => ?_⟩
    have := h3 h2 j j ⟨x, hx, hm⟩ _ h0
    rw [e] at this
    exact this

/-- Such samples: two equal ones, finite doubles, whose autocovariance is zero. -/
theorem C93_violation_overflow_example (M₀ : Fin 1 → XR) :
    Machine double (2 ^ 512) ∧ (2:ℝ) ^ 512 ≤ maxDouble ∧ autoCovTrace 0 [fun _ : Fin 1 => (2:ℝ) ^ 512, fun _ => 2 ^ 512] = 0 ∧
    ∃ t, @actMachineGet XR (ieee double maxDouble) 1 0 M₀ [fun _ => .fin (2 ^ 512), fun _ => .fin (2 ^ 512)] = .ok t ∧ ∃ v, t[0]? = some v ∧ ∀ a : ℝ, v ≠ .fin a := by
  refine ⟨double_pow 512, pow_le_max _ (by norm_num), ?_, ?_⟩
  · generalize (2:ℝ) ^ 512 = t
    simp [autoCovTrace, lagPairs, vmean, mean]
    try ring_nf
  · exact (C93_violation_overflow 0 M₀ (fun _ _ _ => .fin 0) _ (by simp) (fun _ => .fin (2 ^ 512)) (by simp) 0 _ rfl (by rw [abs_of_nonneg (by positivity)])).1

/-! ### instances -/

/-- NaN in the first component of the second of three samples; maximal lag 1 -/
noncomputable example := @C93_trace_keeps_nan XR (ieee double maxDouble) 2 (fun a => a = .nan) (RoundingCos.ieee_nan double maxDouble) 1 (fun _ => .fin 0)
  [![.fin 1, .fin 2], ![.nan, .fin 3], ![.fin 4, .fin 4]] ⟨![.nan, .fin 3], by simp, 0, rfl⟩

noncomputable example := @C93_matrix_keeps_nan XR (Fin 2) (ieee double maxDouble) (fun a => a = .nan) (RoundingCos.ieee_nan double maxDouble) 1 (fun _ _ _ => .fin 0) (fun _ => .fin 0)
  [![.fin 1, .fin 2], ![.nan, .fin 3], ![.fin 4, .fin 4]] 0 ⟨![.nan, .fin 3], by simp, rfl⟩

/-- moderate samples -/
example (M₀ : Fin 2 → XR) : ∃ result, @acmMachineGet XR (Fin 2) (ieee double maxDouble) 1 (fun _ _ _ => .fin 0) M₀ [![.fin 1, .fin 2], ![.fin 2, .fin 1], ![.fin 0, .fin 2]] = .ok result ∧
    result.length = 2 ∧ ∀ v ∈ result, ∃ a : ℝ, v 0 1 = .fin a ∧ |a| ≤ maxDouble := by
  have b1 : |(1:ℝ)| ≤ 2 ^ 509 := by rw [abs_one]; exact one_le_pow₀ (by norm_num)
  have b2 : |(2:ℝ)| ≤ 2 ^ 509 := by
    rw [abs_of_pos (by norm_num)]
    exact le_self_pow₀ (by norm_num) (by norm_num)
  have b0 : |(0:ℝ)| ≤ 2 ^ 509 := by rw [abs_zero]; positivity
  refine C93_double_finite_partial 1 (fun _ _ _ => .fin 0) M₀ _ (by simp) (by simp) 0 1 (fun _ => rfl) ?_
  intro x hx
  simp only [List.mem_cons, List.not_mem_nil, or_false] at hx
  rcases hx with rfl | rfl | rfl
  · exact ⟨1, 2, rfl, rfl, double_format.one, double_format.two, b1, b2⟩
  · exact ⟨2, 1, rfl, rfl, double_format.two, double_format.one, b2, b1⟩
  · exact ⟨0, 2, rfl, rfl, fl_zero double_format, double_format.two, b0, b2⟩

example (M₀ : Fin 2 → XR) : ∃ result, @actMachineGet XR (ieee double maxDouble) 2 1 M₀ [![.fin 1, .fin 2], ![.fin 2, .fin 1], ![.fin 2, .fin 2]] = .ok result ∧
    result.length = 2 ∧ ∀ v ∈ result, ∃ a : ℝ, v = .fin a ∧ |a| ≤ maxDouble := by
  have b1 : |(1:ℝ)| ≤ 2 ^ 490 := by rw [abs_one]; exact one_le_pow₀ (by norm_num)
  have b2 : |(2:ℝ)| ≤ 2 ^ 490 := by
    rw [abs_of_pos (by norm_num)]
    exact le_self_pow₀ (by norm_num) (by norm_num)
  have c1 : ∃ a : ℝ, XR.fin 1 = .fin a ∧ Machine double a ∧ |a| ≤ 2 ^ 490 := ⟨1, rfl, double_format.one, b1⟩
  have c2 : ∃ a : ℝ, XR.fin 2 = .fin a ∧ Machine double a ∧ |a| ≤ 2 ^ 490 := ⟨2, rfl, double_format.two, b2⟩
  refine C93_double_trace_finite_partial (by norm_num) 1 M₀ _ (by simp) (by simp) ?_
  intro x hx j
  simp only [List.mem_cons, List.not_mem_nil, or_false] at hx
  rcases hx with rfl | rfl | rfl <;> fin_cases j
  exacts [c1, c2, c2, c1, c2, c2]

end

end SampleFlow
