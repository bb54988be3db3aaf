import Verif.Model.SimpleConsumers
import Verif.Proofs.Moments
import Verif.Spec.Sequences

set_option linter.unusedSectionVars false
set_option linter.unusedSimpArgs false

namespace SampleFlow
open Spec

theorem countAfter_aux {α : Type} (xs : List α) (c : UInt64) :
    (xs.foldl countConsume c).toNat = (c.toNat + xs.length) % 2^64 := by
  induction xs generalizing c with
  | nil => simp
  | cons x xs ih =>
    rw [List.foldl_cons, ih, countConsume, UInt64.toNat_add]
    simp
    omega

theorem llVals_append {S D : Type} (xs ys : List (S × LLEntry D)) :
    llVals (xs ++ ys) = llVals xs ++ llVals ys := by
  induction xs with
  | nil => rfl
  | cons x xs ih =>
    obtain ⟨s, e⟩ := x
    cases e <;> simp [llVals, ih]

theorem mem_llVals {S D : Type} (xs : List (S × LLEntry D)) (s : S) (d : D) :
    (s, d) ∈ llVals xs ↔ (s, .val d) ∈ xs := by
  induction xs with
  | nil => simp [llVals]
  | cons x xs ih =>
    obtain ⟨t, e⟩ := x
    cases e <;> simp [llVals, ih]

theorem mem_llVals' {S D : Type} (xs : List (S × LLEntry D)) (p : S × D) :
    p ∈ llVals xs ↔ (p.1, .val p.2) ∈ xs := mem_llVals xs p.1 p.2

section
variable {S D : Type} [LinearOrder D]

theorem maxProb_first (lowest : D) (S₀ : S) (xs : List (S × LLEntry D))
    (hw : ∀ m ∈ xs, m.2 ≠ .wrongType) (hl : ∀ m ∈ xs, m.2 ≠ .val lowest) :
    ∃ st, maxProbAfter (fun d => decide (d = lowest)) (fun a b => decide (a > b)) lowest S₀ xs = .ok st ∧
      ((llVals xs = [] ∧ st = ⟨S₀, lowest⟩) ∨
       ∃ pre post, llVals xs = pre ++ (st.best, st.highest) :: post ∧
        (∀ p ∈ pre, p.2 < st.highest) ∧ (∀ p ∈ post, p.2 ≤ st.highest)) := by
  induction xs using List.reverseRecOn with
  | nil => exact ⟨⟨S₀, lowest⟩, rfl, Or.inl ⟨rfl, rfl⟩⟩
  | append_singleton xs x ih =>
    obtain ⟨st, h1, h2⟩ := ih (fun m hm => hw m (by simp [hm])) (fun m hm => hl m (by simp [hm]))
    rw [maxProbAfter] at h1 ⊢
    rw [foldlM_append_ok _ _ _ _ _ h1]
    obtain ⟨s, e⟩ := x
    have hx := hw (s, e) (by simp)
    have hx' := hl (s, e) (by simp)
    cases e with
    | wrongType => exact absurd rfl hx
    | absent =>
      refine ⟨st, rfl, ?_⟩
      rw [llVals_append]
      simpa [llVals] using h2
    | val ll =>
      have hll : ll ≠ lowest := fun h => hx' (by rw [h])
      rw [llVals_append]
      simp only [llVals, MaxProbState.consume]
      rcases h2 with ⟨hn, rfl⟩ | ⟨pre, post, hv, hpre, hpost⟩
      · refine ⟨⟨s, ll⟩, by simp, Or.inr ⟨[], [], ?_, ?_, ?_⟩⟩
        · simp [hn]
        · simp
        · simp
      · have hst : st.highest ≠ lowest := by
          have : (st.best, st.highest) ∈ llVals xs := by rw [hv]; simp
          rw [mem_llVals] at this
          intro h
          exact hl _ (by simp [this]; exact Or.inl this) (by rw [h])
        simp only [hst, decide_false, Bool.false_eq_true, if_false]
        by_cases hg : ll > st.highest
        · refine ⟨⟨s, ll⟩, by simp [hg], Or.inr ⟨llVals xs, [], by simp, ?_, by simp⟩⟩
          intro p hp
          rw [hv] at hp
          simp only [List.mem_append, List.mem_cons] at hp
          rcases hp with hp | rfl | hp
          · exact lt_trans (hpre p hp) hg
          · exact hg
          · exact lt_of_le_of_lt (hpost p hp) hg
        · refine ⟨st, by simp [hg], Or.inr ⟨pre, post ++ [(s, ll)], by simp [hv], hpre, ?_⟩⟩
          intro p hp
          simp only [List.mem_append, List.mem_singleton] at hp
          rcases hp with hp | rfl
          · exact hpost p hp
          · exact not_lt.mp hg

theorem maxProb_max (lowest : D) (S₀ : S) (xs : List (S × LLEntry D))
    (hw : ∀ m ∈ xs, m.2 ≠ .wrongType)
    (hl : ∀ s d, (s, LLEntry.val d) ∈ xs → lowest ≤ d) :
    ∃ st, maxProbAfter (fun d => decide (d = lowest)) (fun a b => decide (a > b)) lowest S₀ xs = .ok st ∧
      lowest ≤ st.highest ∧
      (llVals xs = [] → st = ⟨S₀, lowest⟩) ∧
      (llVals xs ≠ [] → (st.best, st.highest) ∈ llVals xs) ∧ ∀ p ∈ llVals xs, p.2 ≤ st.highest := by
  induction xs using List.reverseRecOn with
  | nil => exact ⟨⟨S₀, lowest⟩, rfl, le_refl _, fun _ => rfl, by simp [llVals], by simp [llVals]⟩
  | append_singleton xs x ih =>
    obtain ⟨st, h1, h0, h2, h3, h4⟩ := ih (fun m hm => hw m (by simp [hm]))
      (fun s d hm => hl s d (by simp [hm]))
    rw [maxProbAfter] at h1 ⊢
    rw [foldlM_append_ok _ _ _ _ _ h1]
    obtain ⟨s, e⟩ := x
    have hx := hw (s, e) (by simp)
    rw [llVals_append]
    cases e with
    | wrongType => exact absurd rfl hx
    | absent => exact ⟨st, rfl, h0, by simpa [llVals] using h2, by simpa [llVals] using h3,
        by simpa [llVals] using h4⟩
    | val ll =>
      have hlow := hl s ll (by simp)
      simp only [llVals, MaxProbState.consume]
      by_cases hst : st.highest = lowest
      · refine ⟨⟨s, ll⟩, by simp [hst], hlow, by simp, by simp, ?_⟩
        intro p hp
        simp only [List.mem_append, List.mem_singleton] at hp
        rcases hp with hp | rfl
        · have := h4 p hp
          rw [hst] at this
          exact le_trans this hlow
        · exact le_refl _
      · simp only [hst, decide_false, Bool.false_eq_true, if_false]
        by_cases hg : ll > st.highest
        · refine ⟨⟨s, ll⟩, by simp [hg], hlow, by simp, by simp, ?_⟩
          intro p hp
          simp only [List.mem_append, List.mem_singleton] at hp
          rcases hp with hp | rfl
          · exact le_trans (h4 p hp) (le_of_lt hg)
          · exact le_refl _
        · refine ⟨st, by simp [hg], h0, by simp, ?_, ?_⟩
          · intro _
            have hne : llVals xs ≠ [] := fun h => hst (by rw [h2 h])
            simp [h3 hne]
          · intro p hp
            simp only [List.mem_append, List.mem_singleton] at hp
            rcases hp with hp | rfl
            · exact h4 p hp
            · exact not_lt.mp hg
end

/-! ### AcceptanceRatio -/

theorem arAfter_inv {α : Type} (eq : α → α → Bool)
    (hsymm : ∀ a b, eq a b = true → eq b a = true)
    (htrans : ∀ a b c, eq a b = true → eq b c = true → eq a c = true)
    (G : α) (xs : List α) (x : α) :
    (arAfter eq G (xs ++ [x])).n = xs.length + 1 ∧
    (arAfter eq G (xs ++ [x])).accepted = 1 + changes eq (xs ++ [x]) ∧
    ((arAfter eq G (xs ++ [x])).previous = x ∨ eq x (arAfter eq G (xs ++ [x])).previous = true) := by
  induction xs using List.reverseRecOn generalizing x with
  | nil => simp [arAfter, ARState.consume, changes, lagPairs]
  | append_singleton xs y ih =>
    obtain ⟨h1, h2, h3⟩ := ih y
    simp only [arAfter] at h1 h2 h3
    have hp : lagPairs 1 (xs ++ [y] ++ [x]) = lagPairs 1 (xs ++ [y]) ++ [(x, y)] := by
      rw [lagPairs_append 1 (xs ++ [y]) x (by simp) (by simp)]
      simp
    have key : eq x (List.foldl (ARState.consume eq) ⟨0, 0, G⟩ (xs ++ [y])).previous = eq x y := by
      rcases h3 with h3 | h3
      · rw [h3]
      · generalize (List.foldl (ARState.consume eq) ⟨0, 0, G⟩ (xs ++ [y])).previous = p at *
        rw [Bool.eq_iff_iff]
        exact ⟨fun h => htrans _ _ _ h (hsymm _ _ h3), fun h => htrans _ _ _ h h3⟩
    have hstep : arAfter eq G (xs ++ [y] ++ [x]) =
        ARState.consume eq (List.foldl (ARState.consume eq) ⟨0, 0, G⟩ (xs ++ [y])) x := by
      rw [arAfter, List.foldl_append]; rfl
    have hch : changes eq (xs ++ [y] ++ [x]) = changes eq (xs ++ [y]) + (if eq x y then 0 else 1) := by
      simp only [changes, hp, List.countP_append, List.countP_singleton]
      cases eq x y <;> simp
    rw [hstep, hch]
    simp only [ARState.consume, h1, Nat.add_one_ne_zero, if_false, key]
    by_cases he : eq x y = true
    · simp only [he, if_true, h1, h2, List.length_append, List.length_singleton]
      refine ⟨trivial, rfl, Or.inr ?_⟩
      rw [key]; exact he
    · simp only [Bool.not_eq_true] at he
      simp only [he, Bool.false_eq_true, if_false, h1, h2, List.length_append,
        List.length_singleton]
      refine ⟨trivial, by omega, Or.inl trivial⟩

theorem changes_lt {α : Type} (eq : α → α → Bool) (xs : List α) (h : xs ≠ []) :
    changes eq xs + 1 ≤ xs.length := by
  have : changes eq xs ≤ (lagPairs 1 xs).length := List.countP_le_length
  rw [lagPairs_length] at this
  have : xs.length ≠ 0 := by simpa using h
  omega

/-! ### AverageCosinus -/

section Cos
variable {ι : Type} [Fintype ι]

/-- The quotient the code computes is the cosine of the angle. -/
theorem cosine_eq_cosAngle (x y : ι → ℝ) : cosine x y = cosAngle x y := by
  have e : ∀ z : ι → ℝ, ‖(WithLp.toLp 2 z : EuclideanSpace ℝ ι)‖ = Real.sqrt (∑ j, z j * z j) := by
    intro z
    rw [EuclideanSpace.norm_eq]
    congr 1
    refine Finset.sum_congr rfl fun j _ => ?_
    rw [Real.norm_eq_abs, sq_abs, sq]
  rw [cosine, cosAngle, InnerProductGeometry.cos_angle, e, e,
    Real.sqrt_mul (Finset.sum_nonneg fun j _ => mul_self_nonneg _), PiLp.inner_apply]
  congr 1
  refine Finset.sum_congr rfl fun j _ => ?_
  simp [mul_comm]

theorem cosAfter_inv (bits H : Nat) (hH : 1 ≤ H) (A₀ : Nat → ℝ) (G1 G2 : Nat → ι → ℝ)
    (xs : List (ι → ℝ)) (h : xs ≠ []) (hlen : xs.length ≤ 2^bits) :
    ∃ s, cosAfter bits H A₀ G1 G2 xs = .ok s ∧ s.n = xs.length ∧
      (∀ i, i < H → s.avg i = if xs.length ≤ i + 1 then 0 else avgCosSpec (i+1) xs) ∧
      (∀ i, i < H → ∀ hi : i < xs.reverse.length, s.prev i = xs.reverse[i]) := by
  induction xs using List.reverseRecOn with
  | nil => exact absurd rfl h
  | append_singleton xs x ih =>
    by_cases hx : xs = []
    · subst hx
      have hH0 : H ≠ 0 := by omega
      refine ⟨⟨1, fun _ => 0, fun i => if i = 0 then x else G1 i, G2⟩, ?_, rfl, ?_, ?_⟩
      · simp only [cosAfter, List.nil_append, List.foldlM_cons, List.foldlM_nil, CosState.consume,
          hH0, if_false, if_true]
        rfl
      · intro i _; simp
      · intro i _ hi
        simp at hi
        subst hi
        simp
    · have hpos : 0 < xs.length := List.length_pos_iff.mpr hx
      have hlt : xs.length < 2^bits := by
        rw [List.length_append] at hlen; simp at hlen; omega
      obtain ⟨s, h1, h2, h3, h4⟩ := ih hx (by omega)
      have hH0 : H ≠ 0 := by omega
      have hn0 : ¬ s.n = 0 := by omega
      have hmod : s.n % 2^bits = xs.length := by rw [h2]; exact Nat.mod_eq_of_lt hlt
      rw [cosAfter] at h1 ⊢
      rw [foldlM_append_ok _ _ _ _ _ h1]
      have hb : ¬ (H < min xs.length H ∨ H < min xs.length (H - 1) + 1) := by omega
      simp only [CosState.consume, if_neg hH0, if_neg hn0, hmod, if_neg hb]
      refine ⟨_, rfl, by simp [h2], ?_, ?_⟩
      · intro i hi
        simp only
        simp only [cosine_eq_cosAngle]
        by_cases hc : i < xs.length
        · have hl1 : i < min xs.length H := by omega
          rw [if_pos hl1, h3 i hi, h4 i hi (by simpa using hc), h2]
          have hn : ¬ (xs ++ [x]).length ≤ i + 1 := by simp; omega
          rw [if_neg hn]
          have hp := lagPairs_append (i+1) xs x (by omega) (by simp; omega)
          simp only [List.getElem_cons_succ] at hp
          by_cases he : xs.length ≤ i + 1
          · rw [if_pos he]
            have hil : xs.length = i + 1 := by omega
            rw [avgCosSpec, hp, lagPairs_eq_nil (i+1) xs (by omega)]
            simp only [hil, mean, List.nil_append, List.map_cons, List.map_nil, List.sum_cons,
              List.sum_nil, List.length_cons, List.length_nil]
            push_cast
            have : (i : ℝ) + 1 + 1 - i - 1 = 1 := by ring
            rw [this]
            simp
          · rw [if_neg he, avgCosSpec, avgCosSpec, hp, List.map_append, List.map_cons, List.map_nil,
              mean_append' _ _ (by
                rw [ne_eq, List.map_eq_nil_iff, ← List.length_eq_zero_iff, lagPairs_length]; omega)]
            rw [List.length_map, lagPairs_length, Nat.cast_sub (by omega)]
            push_cast
            have : (xs.length : ℝ) - ((i : ℝ) + 1) + 1 = xs.length + 1 - i - 1 := by ring
            rw [this]
        · have hl1 : ¬ i < min xs.length H := by omega
          rw [if_neg hl1, h3 i hi, if_pos (by omega), if_pos (by simp; omega)]
      · intro i hi hi'
        have hi'' : i < xs.length + 1 := by simpa using hi'
        simp only
        have hrev : (xs ++ [x]).reverse = x :: xs.reverse := by simp
        simp only [hrev]
        rcases i with _ | k
        · simp
        · rw [if_neg (by omega), if_pos (by simp; omega)]
          simp only [Nat.add_sub_cancel, List.getElem_cons_succ]
          exact h4 k (by omega) (by simp; omega)

end Cos

/-! ### StreamOutput -/

theorem streamAfter_aux (xs : List Printable) (o : List Char) :
    xs.foldl streamConsume o = o ++ (xs.map (fun x => x.write ++ ['\n'])).flatten := by
  induction xs generalizing o with
  | nil => simp
  | cons x xs ih => simp [ih, streamConsume]

theorem splitTerm_append (c : Char) (w rest : List Char) (h : c ∉ w) :
    splitTerm c (w ++ c :: rest) = w :: splitTerm c rest := by
  induction w with
  | nil => simp [splitTerm]
  | cons a w ih =>
    have ha : a ≠ c := by intro e; exact h (by simp [e])
    have hw : c ∉ w := fun e => h (by simp [e])
    simp only [List.cons_append, splitTerm, if_neg ha, ih hw]

theorem splitTerm_flatten (c : Char) (ws : List (List Char)) (h : ∀ w ∈ ws, c ∉ w) :
    splitTerm c (ws.map (fun w => w ++ [c])).flatten = ws := by
  induction ws with
  | nil => rfl
  | cons w ws ih =>
    simp only [List.map_cons, List.flatten_cons, List.append_assoc, List.singleton_append]
    rw [splitTerm_append c w _ (h w (by simp)), ih (fun v hv => h v (by simp [hv]))]

end SampleFlow
