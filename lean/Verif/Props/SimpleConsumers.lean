import Verif.Proofs.SimpleConsumers
import Mathlib.Tactic.NormNum
import Mathlib.Tactic.Linarith
import Mathlib.Algebra.Order.Field.Basic

/-!
# Properties C28, C29, C33, C34, C35
-/

namespace SampleFlow
open Spec

/-! ## C28 AverageCosinus -/

/-- C28: for a history length `H ≥ 1`, after `1 ≤ n ≤ 2^bits` nonzero samples (`bits` is the width of `unsigned int`, usually 32), entry `i` (lag `i+1`) is
the arithmetic mean over all pairs at distance `i+1` of the cosine of the angle between them (0 if
there is no such pair), whatever the uninitialised memory contained. Nonzero samples are required
because the code (unlike the totalised real division of the model) computes NaN for them. -/
theorem C28_averageCosinus {ι : Type} [Fintype ι] (bits H : Nat) (hH : 1 ≤ H) (A₀ : Nat → ℝ)
    (G1 G2 : Nat → ι → ℝ) (xs : List (ι → ℝ)) (h : xs ≠ []) (hlen : xs.length ≤ 2^bits)
    (_hz : ∀ x ∈ xs, x ≠ 0) :
    ∃ s, cosAfter bits H A₀ G1 G2 xs = .ok s ∧ ∀ i, i < H →
      s.avg i = if xs.length ≤ i + 1 then 0
        else ((lagPairs (i+1) xs).map (fun p => cosAngle p.1 p.2)).sum / ((xs.length : ℝ) - i - 1) := by
  obtain ⟨s, h1, -, h3, -⟩ := cosAfter_inv bits H hH A₀ G1 G2 xs h hlen
  refine ⟨s, h1, fun i hi => ?_⟩
  rw [h3 i hi]
  split
  · rfl
  · rw [avgCosSpec, mean, List.length_map, lagPairs_length, Nat.cast_sub (by omega)]
    push_cast
    congr 1
    ring

example : ∃ xs : List (Unit → ℝ), xs ≠ [] ∧ xs.length ≤ 2^32 ∧ ∀ x ∈ xs, x ≠ 0 := by
  refine ⟨[fun _ => 1, fun _ => 2], by simp, by norm_num, ?_⟩
  intro x hx
  simp at hx
  rcases hx with rfl | rfl <;> (intro h; have := congrFun h (); simp at this)

/-- C28: a history length of 0 is undefined behaviour at the first sample. -/
theorem C28_history_zero_ub {ι : Type} [Fintype ι] (bits : Nat) (A₀ : Nat → ℝ) (G1 G2 : Nat → ι → ℝ)
    (x : ι → ℝ) (xs : List (ι → ℝ)) :
    cosAfter bits 0 A₀ G1 G2 (x :: xs) = .error .ub := by
  simp only [cosAfter, List.foldlM_cons, CosState.consume, if_true]
  rfl

/-- C28, finding: the sample that follows the first `2^bits` samples is not taken into account at all,
because `static_cast<unsigned int>(n_samples)` is 0. -/
theorem C28_truncation_at_2_32 {ι : Type} [Fintype ι] (bits H : Nat) (hH : 1 ≤ H) (A₀ : Nat → ℝ)
    (G1 G2 : Nat → ι → ℝ) (xs : List (ι → ℝ)) (hlen : xs.length = 2^bits) (x : ι → ℝ) :
    ∃ s s', cosAfter bits H A₀ G1 G2 xs = .ok s ∧ cosAfter bits H A₀ G1 G2 (xs ++ [x]) = .ok s' ∧
      s'.n = 2^bits + 1 ∧ s'.avg = s.avg := by
  have hpos : 0 < 2^bits := Nat.two_pow_pos bits
  have hx : xs ≠ [] := by intro h'; rw [h', List.length_nil] at hlen; omega
  obtain ⟨s, h1, h2, -, -⟩ := cosAfter_inv bits H hH A₀ G1 G2 xs hx (Nat.le_of_eq hlen)
  have hH0 : H ≠ 0 := by omega
  have hn0 : ¬ s.n = 0 := by omega
  have hmod : s.n % 2^bits = 0 := by rw [h2, hlen, Nat.mod_self]
  rw [cosAfter] at h1 ⊢
  rw [h1]
  rw [cosAfter, foldlM_append_ok _ _ _ _ _ h1]
  have hb : ¬ (H < min 0 H ∨ H < min 0 (H - 1) + 1) := by omega
  simp only [CosState.consume, if_neg hH0, if_neg hn0, hmod, if_neg hb]
  refine ⟨s, _, rfl, rfl, by simp [h2, hlen], ?_⟩
  simp

/-! ## C29 AcceptanceRatio -/

/-- C29: the acceptance ratio is `(1 + number of samples different from their predecessor)/n`. The
comparison only needs to be symmetric and transitive (true for `==` of doubles and for
`is_equal` of valarrays of doubles, even with NaNs). -/
theorem C29_acceptanceRatio {α K : Type} [Field K] (eq : α → α → Bool)
    (hsymm : ∀ a b, eq a b = true → eq b a = true)
    (htrans : ∀ a b c, eq a b = true → eq b c = true → eq a c = true)
    (G : α) (xs : List α) (h : xs ≠ []) :
    (arAfter eq G xs).get (K := K) =
      ((1 + (lagPairs 1 xs).countP (fun p => !eq p.1 p.2) : ℕ) : K) / (xs.length : K) := by
  rcases List.eq_nil_or_concat' xs with rfl | ⟨ys, y, rfl⟩
  · exact absurd rfl h
  · obtain ⟨h1, h2, -⟩ := arAfter_inv eq hsymm htrans G ys y
    simp only [ARState.get, h1, h2, changes]
    simp

/-- C29: it lies in (0,1]. -/
theorem C29_acceptanceRatio_range {α K : Type} [Field K] [LinearOrder K] [IsStrictOrderedRing K]
    (eq : α → α → Bool)
    (hsymm : ∀ a b, eq a b = true → eq b a = true)
    (htrans : ∀ a b c, eq a b = true → eq b c = true → eq a c = true)
    (G : α) (xs : List α) (h : xs ≠ []) :
    0 < (arAfter eq G xs).get (K := K) ∧ (arAfter eq G xs).get (K := K) ≤ 1 := by
  rw [C29_acceptanceRatio eq hsymm htrans G xs h]
  have hl : 0 < xs.length := List.length_pos_iff.mpr h
  have hl' : (0 : K) < xs.length := by exact_mod_cast hl
  have hc := changes_lt eq xs h
  rw [changes] at hc
  constructor
  · apply div_pos _ hl'
    exact_mod_cast Nat.lt_of_lt_of_le Nat.zero_lt_one (Nat.le_add_right _ _)
  · rw [div_le_one hl']
    exact_mod_cast (by omega)

/-- C29: without samples the result is 0, whatever division by zero gives. -/
theorem C29_acceptanceRatio_empty {α K : Type} [NatCast K] [Div K] [Zero K] (eq : α → α → Bool) (G : α) :
    (arAfter eq G []).get (K := K) = 0 := by
  simp [arAfter, ARState.get]

/-- C29: the `std::valarray` comparison is symmetric and transitive if the element comparison is, so
that the theorems above apply to valarrays. -/
theorem C29_valarray_equal {β : Type} (ne : β → β → Bool)
    (hs : ∀ a b, ne a b = false → ne b a = false)
    (ht : ∀ a b c, ne a b = false → ne b c = false → ne a c = false) :
    (∀ a b, valarrayIsEqual ne a b = true → valarrayIsEqual ne b a = true) ∧
    (∀ a b c, valarrayIsEqual ne a b = true → valarrayIsEqual ne b c = true →
      valarrayIsEqual ne a c = true) := by
  have key : ∀ a b : List β, valarrayIsEqual ne a b = true ↔ List.Forall₂ (fun x y => ne x y = false) a b := by
    intro a
    induction a with
    | nil => intro b; cases b <;> simp [valarrayIsEqual]
    | cons x a ih =>
      intro b
      cases b with
      | nil => simp [valarrayIsEqual]
      | cons y b =>
        rw [List.forall₂_cons, ← ih b]
        by_cases hl : a.length = b.length <;> simp [valarrayIsEqual, hl]
  constructor
  · intro a b h
    rw [key] at *
    exact (h.flip).imp (fun x y hxy => hs _ _ hxy)
  · intro a b c h1 h2
    rw [key] at *
    induction h1 generalizing c with
    | nil => exact h2
    | cons hxy _ ih =>
      cases h2 with
      | cons hyz h2' => exact .cons (ht _ _ _ hxy hyz) (ih _ h2')

example : (arAfter (fun a b => decide (a = b)) 0 [5, 5, 7, 7, 5]).get (K := ℚ) = 3/5 := by
  rw [C29_acceptanceRatio _ (by simp) (by simp) _ _ (by simp)]
  have : (lagPairs 1 [5, 5, 7, 7, 5]).countP (fun p : Nat × Nat => !decide (p.1 = p.2)) = 2 := by decide
  rw [this]; norm_num

/-! ## C33 MaximumProbabilitySample -/

/-- C33: if no sample's log likelihood equals the lowest double (and at least one sample carries a
likelihood, none carries one of the wrong type), the object holds the *first* of the samples with
the greatest likelihood. -/
theorem C33_maximumProbabilitySample {S D : Type} [LinearOrder D] (lowest : D) (S₀ : S)
    (xs : List (S × LLEntry D)) (hw : ∀ m ∈ xs, m.2 ≠ .wrongType)
    (hl : ∀ m ∈ xs, m.2 ≠ .val lowest) (hne : llVals xs ≠ []) :
    ∃ best ll, maxProbAfter (fun d => decide (d = lowest)) (fun a b => decide (a > b)) lowest S₀ xs
        = .ok ⟨best, ll⟩ ∧
      ∃ pre post, llVals xs = pre ++ (best, ll) :: post ∧
        (∀ p ∈ pre, p.2 < ll) ∧ (∀ p ∈ post, p.2 ≤ ll) := by
  obtain ⟨st, h1, h2⟩ := maxProb_first lowest S₀ xs hw hl
  rcases h2 with ⟨h, -⟩ | h
  · exact absurd h hne
  · exact ⟨st.best, st.highest, h1, h⟩

/-- C33: if all likelihoods are at least the lowest finite double (no -inf), the object holds a
received sample whose likelihood is an upper bound of all received likelihoods. -/
theorem C33_maximumProbabilitySample_finite {S D : Type} [LinearOrder D] (lowest : D) (S₀ : S)
    (xs : List (S × LLEntry D)) (hw : ∀ m ∈ xs, m.2 ≠ .wrongType)
    (hl : ∀ s d, (s, LLEntry.val d) ∈ xs → lowest ≤ d) (hne : llVals xs ≠ []) :
    ∃ best ll, maxProbAfter (fun d => decide (d = lowest)) (fun a b => decide (a > b)) lowest S₀ xs
        = .ok ⟨best, ll⟩ ∧
      (best, LLEntry.val ll) ∈ xs ∧ ∀ s d, (s, LLEntry.val d) ∈ xs → d ≤ ll := by
  obtain ⟨st, h1, -, -, h3, h4⟩ := maxProb_max lowest S₀ xs hw hl
  exact ⟨st.best, st.highest, h1, (mem_llVals _ _ _).mp (h3 hne),
    fun s d hm => h4 (s, d) ((mem_llVals _ _ _).mpr hm)⟩

/-- The premises are satisfiable: likelihoods 3, 7, 7, 2 with "lowest" = -100. -/
example : maxProbAfter (fun d => decide (d = (-100:Int))) (fun a b => decide (a > b)) (-100) "none"
    [("a", .val 3), ("b", .val 7), ("c", .val 7), ("d", .absent), ("e", .val 2)] = .ok ⟨"b", 7⟩ := by
  rfl

/-- C33, samples without a likelihood are ignored; without any the default-constructed sample is
returned. -/
theorem C33_no_likelihood {S D : Type} [LinearOrder D] (lowest : D) (S₀ : S)
    (xs : List (S × LLEntry D)) (h : ∀ m ∈ xs, m.2 = .absent) :
    maxProbAfter (fun d => decide (d = lowest)) (fun a b => decide (a > b)) lowest S₀ xs
        = .ok ⟨S₀, lowest⟩ := by
  induction xs using List.reverseRecOn with
  | nil => rfl
  | append_singleton xs x ih =>
    rw [maxProbAfter, foldlM_append_ok _ _ _ _ _ (ih (fun m hm => h m (by simp [hm])))]
    have := h x (by simp)
    simp [MaxProbState.consume, this]

/-- C33: an entry "relative log likelihood" that is not a `double` is not ignored: `consume` throws. -/
theorem C33_wrong_type_throws {S D : Type} [LinearOrder D] (lowest : D) (S₀ : S)
    (xs : List (S × LLEntry D)) (s : S) (ys : List (S × LLEntry D)) :
    ∃ e, maxProbAfter (fun d => decide (d = lowest)) (fun a b => decide (a > b)) lowest S₀
        (xs ++ (s, .wrongType) :: ys) = .error (.thrown e) := by
  refine ⟨0, ?_⟩
  unfold maxProbAfter
  generalize (⟨S₀, lowest⟩ : MaxProbState S D) = st
  induction xs generalizing st with
  | nil => rfl
  | cons x xs ih =>
    rw [List.cons_append, List.foldlM_cons]
    obtain ⟨a, (_ | _ | d)⟩ := x
    · exact ih st
    · rfl
    · simp only [MaxProbState.consume]
      split
      · exact ih _
      · split <;> exact ih _

/-- C33, finding: the lowest double is also the marker for "no sample yet".  After a sample with
likelihood `lowest`, any further sample replaces it, even one with smaller likelihood (`-inf`); the
reported sample is then not the most likely one. -/
theorem C33_sentinel_violation {S D : Type} [LinearOrder D] (lowest negInf : D)
    (h : negInf < lowest) (S₀ a b : S) :
    maxProbAfter (fun d => decide (d = lowest)) (fun a b => decide (a > b)) lowest S₀
      [(a, .val lowest), (b, .val negInf)] = .ok ⟨b, negInf⟩ := by
  simp only [maxProbAfter, List.foldlM_cons, List.foldlM_nil, MaxProbState.consume, decide_true,
    if_true]
  change (if decide (lowest = lowest) = true then Except.ok (⟨b, negInf⟩ : MaxProbState S D) else _)
    >>= pure = _
  simp

example : (-2 : Int) < -1 := by decide

/-! ## C34 LastSample and CountSamples -/

/-- C34: the last sample is the last one received. -/
theorem C34_lastSample {α : Type} (G : α) (xs : List α) (x : α) : lastAfter G (xs ++ [x]) = x := by
  simp [lastAfter, lastConsume]

/-- C34: the count is the number of samples modulo 2^64. -/
theorem C34_countSamples {α : Type} (xs : List α) : (countAfter xs).toNat = xs.length % 2^64 := by
  have := countAfter_aux xs 0
  simpa [countAfter] using this

/-! ## C35 StreamOutput -/

/-- C35: the output consists of one line per sample, in order (as long as the text of the samples
contains no newline): splitting the output at newlines gives back the texts of the samples. -/
theorem C35_one_line_per_sample (xs : List Printable) (h : ∀ x ∈ xs, '\n' ∉ x.write) :
    splitTerm '\n' (streamAfter xs) = xs.map Printable.write := by
  rw [streamAfter, streamAfter_aux, List.nil_append]
  have : xs.map (fun x => x.write ++ ['\n']) = (xs.map Printable.write).map (fun w => w ++ ['\n']) := by
    rw [List.map_map]; rfl
  rw [this, splitTerm_flatten]
  intro w hw
  simp only [List.mem_map] at hw
  obtain ⟨x, hx, rfl⟩ := hw
  exact h x hx

/-- C35: the components of a vector-valued sample can be read back from its line: splitting at blanks
gives the texts of the components, if these contain no blank. -/
theorem C35_components (ts : List (List Char)) (h : ∀ t ∈ ts, ' ' ∉ t) :
    splitTerm ' ' (Printable.vec (ts.map .scalar)).write = ts := by
  have : (Printable.vec (ts.map .scalar)).write = (ts.map (fun t => t ++ [' '])).flatten := by
    simp [Printable.write, List.map_map, Function.comp_def]
  rw [this, splitTerm_flatten _ _ h]

/-- C35: hence StreamOutput is lossless on streams of vectors of words: different streams give
different outputs. -/
theorem C35_lossless (xs ys : List (List (List Char)))
    (hx : ∀ ts ∈ xs, ∀ t ∈ ts, ' ' ∉ t ∧ '\n' ∉ t) (hy : ∀ ts ∈ ys, ∀ t ∈ ts, ' ' ∉ t ∧ '\n' ∉ t)
    (h : streamAfter (xs.map (fun ts => .vec (ts.map .scalar)))
       = streamAfter (ys.map (fun ts => .vec (ts.map .scalar)))) : xs = ys := by
  have key : ∀ zs : List (List (List Char)), (∀ ts ∈ zs, ∀ t ∈ ts, ' ' ∉ t ∧ '\n' ∉ t) →
      (splitTerm '\n' (streamAfter (zs.map (fun ts => .vec (ts.map .scalar))))).map (splitTerm ' ')
        = zs := by
    intro zs hz
    rw [C35_one_line_per_sample]
    · rw [List.map_map, List.map_map]
      conv_rhs => rw [← List.map_id zs]
      apply List.map_congr_left
      intro ts hts
      exact C35_components ts (fun t ht => (hz ts hts t ht).1)
    · intro x hx
      simp only [List.mem_map] at hx
      obtain ⟨ts, hts, rfl⟩ := hx
      have : (Printable.vec (ts.map .scalar)).write = (ts.map (fun t => t ++ [' '])).flatten := by
        simp [Printable.write, List.map_map, Function.comp_def]
      rw [this]
      simp only [List.mem_flatten, List.mem_map, not_exists, not_and]
      rintro l ⟨t, ht, rfl⟩ hmem
      simp only [List.mem_append, List.mem_singleton] at hmem
      rcases hmem with hmem | hmem
      · exact (hz ts hts t ht).2 hmem
      · exact absurd hmem (by decide)
  rw [← key xs hx, ← key ys hy, h]

example : streamAfter [.vec [.scalar "1".toList, .scalar "2.5".toList], .scalar "7".toList]
    = "1 2.5 \n7\n".toList := by
  simp [streamAfter, streamConsume, Printable.write]

/-! ### Instances: concrete cases that meet the hypotheses of the theorems above -/

example := C28_averageCosinus (ι := Unit) 32 2 (by decide) (fun _ => 7) (fun _ _ => 5) (fun _ _ => 3) [fun _ => 1, fun _ => -2, fun _ => 4] (by simp) (by decide)
  (by intro x hx h0; have := congrFun h0 (); simp at hx; rcases hx with rfl | rfl | rfl <;> simp at this)
example := C28_truncation_at_2_32 (ι := Unit) 32 2 (by decide) (fun _ => 7) (fun _ _ => 5) (fun _ _ => 3) (List.replicate (2^32) (fun _ => 1)) List.length_replicate (fun _ => -2)
example := C29_acceptanceRatio_range (K := ℚ) (fun a b : Nat => decide (a = b)) (by simp) (by simp) 0 [5, 5, 7] (by simp)
example := C29_valarray_equal (fun a b : Nat => a != b) (by simp) (by simp)
example := C33_maximumProbabilitySample (D := Int) (-100) "none" [("a", .val 3), ("b", .val 7), ("c", .val 7), ("d", .absent), ("e", .val 2)] (by simp) (by simp) (by simp [llVals])
example := C33_maximumProbabilitySample_finite (D := Int) (-100) "none" [("a", .val 3), ("b", .val 7), ("c", .val 7), ("d", .absent), ("e", .val (-100))] (by simp) (by simp; omega) (by simp [llVals])
example := C33_no_likelihood (D := Int) (-100) "none" [("a", .absent), ("b", .absent)] (by simp)
example := C33_sentinel_violation (-100 : Int) (-101) (by decide) "none" "a" "b"
example := C35_one_line_per_sample [.vec [.scalar "1".toList, .scalar "2.5".toList], .scalar "7".toList] (by simp [Printable.write])
example := C35_components ["1".toList, "2.5".toList] (by decide)
example := C35_lossless [["1".toList, "2.5".toList], ["3".toList]] [["1".toList, "2.5".toList], ["3".toList]] (by decide) (by decide) rfl

end SampleFlow
