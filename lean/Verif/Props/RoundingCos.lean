import Verif.Proofs.RoundingCos
import Verif.Props.Rounding
import Verif.Props.IeeeDouble
import Verif.Spec.NanMoments

/-!
# Property C91: AverageCosineBetweenSuccessiveSamples in floating point arithmetic

`cosMachineGet sqrt bits H A₀ G1 G2 xs`: the vector returned by `get()` of an object with history length `H` that has consumed the samples `xs` (Model/RoundingCos.lean); `sqrt` is the square root of the machine, `bits` the
width of `unsigned int`, and `A₀`, `G1`, `G2` the contents of uninitialised memory.  `Rounding`, `Machine`: Spec/Rounding.lean; `double`: Spec/Ieee.lean; `avgCosSpec`, `cosAngle`: Spec/Sequences.lean.
-/

namespace SampleFlow

open Spec RoundingCos RoundingAuto

section
variable {u : ℝ} {fl : ℝ → ℝ} {d : Nat}

/-- With exact arithmetic, the object of this file is the one of C28. -/
theorem C91_exact (bits H : Nat) (A₀ : Nat → ℝ) (G1 G2 : Nat → Fin d → ℝ) (xs : List (Fin d → ℝ)) :
    @cosMachineGet ℝ (exactArith ℝ) d Real.sqrt bits H A₀ G1 G2 xs = (cosAfter bits H A₀ G1 G2 xs).map (fun s => (List.range H).map s.avg) := by
  let _ := exactArith ℝ
  have hc : ∀ x y : Fin d → ℝ, machineCosine Real.sqrt x y = cosine x y := by
    intro x y
    show @dotFrom ℝ (exactArith ℝ) d ((0:ℕ):ℝ) x y / Real.sqrt (@dotFrom ℝ (exactArith ℝ) d ((0:ℕ):ℝ) x x * @dotFrom ℝ (exactArith ℝ) d ((0:ℕ):ℝ) y y) = _
    rw [dotFrom_exact, dotFrom_exact, dotFrom_exact, Nat.cast_zero, zero_add, zero_add, zero_add]
    rfl
  let conv : CosState (Fin d) → CosMachine ℝ d := fun s => ⟨s.n, s.avg, s.prev, s.repl⟩
  have step : ∀ (s : CosState (Fin d)) (x : Fin d → ℝ), cosMachineConsume Real.sqrt bits H G1 G2 (conv s) x = (CosState.consume bits H G1 G2 s x).map conv := by
    intro s x
    simp only [cosMachineConsume, CosState.consume, conv, hc]
    split
    · rfl
    · split
      · have e : (fun _ : Nat => Arith.ofNat (D := ℝ) 0) = fun _ => (0:ℝ) := by funext i; exact Nat.cast_zero
        show Except.ok _ = Except.ok _
        rw [e]
      · split
        · rfl
        · show Except.ok _ = Except.ok _
          congr 2
          funext i
          dsimp only
          split
          · rename_i hi
            have hle : i < s.n := lt_of_lt_of_le (lt_of_lt_of_le hi (min_le_left _ _)) (Nat.mod_le _ _)
            show s.avg i + (cosine x (s.prev i) - s.avg i) / ((s.n + 1 - i - 1 : ℕ) : ℝ) = _
            rw [Nat.cast_sub (by omega), Nat.cast_sub (by omega)]
            push_cast
            rfl
          · rfl
  have fold : ∀ (xs : List (Fin d → ℝ)) (s : CosState (Fin d)), xs.foldlM (cosMachineConsume Real.sqrt bits H G1 G2) (conv s) = (xs.foldlM (CosState.consume bits H G1 G2) s).map conv := by
    intro xs
    induction xs with
    | nil => intro s; rfl
    | cons x xs ih =>
      intro s
      rw [List.foldlM_cons, List.foldlM_cons, step]
      cases CosState.consume bits H G1 G2 s x with
      | error e => rfl
      | ok s' => exact ih s'
  have := fold xs ⟨0, A₀, G1, G2⟩
  unfold cosMachineGet cosMachineAfter
  rw [show (⟨0, A₀, G1, G2⟩ : CosMachine ℝ d) = conv ⟨0, A₀, G1, G2⟩ from rfl, this]
  unfold cosAfter
  cases List.foldlM (CosState.consume bits H G1 G2) ⟨0, A₀, G1, G2⟩ xs with
  | error e => rfl
  | ok s => rfl

/-- every entry is a MeanValue of the computed cosines -/
theorem RoundingCos.entry (h : Rounding u fl) (bits H : Nat) (hH : 1 ≤ H) (A₀ : Nat → ℝ) (G1 G2 : Nat → Fin d → ℝ)
    (xs : List (Fin d → ℝ)) (hne : xs ≠ []) (hlen : xs.length ≤ 2^bits) (h1 : Machine fl 1) (i : Nat) (hi : i + 1 < xs.length) :
    let _ := roundedArith fl
    (runMean (cosines (fun z => fl (Real.sqrt z)) (i+1) xs)).1 =
      (machineMean (fun _ => 0) ((cosines (fun z => fl (Real.sqrt z)) (i+1) xs).map (fun c (_ : Unit) => c))).get () := by
  intro _
  have hpos : (cosines (fun z => fl (Real.sqrt z)) (i+1) xs) ≠ [] := by
    rw [← List.length_pos_iff, cosines, List.length_map, lagPairs_length]; omega
  have hm : ∀ c ∈ cosines (fun z => fl (Real.sqrt z)) (i+1) xs, fl c = c := by
    intro c hc
    obtain ⟨p, -, rfl⟩ := List.mem_map.mp hc
    exact h.idempotent _
  obtain ⟨c, cs, e⟩ := List.exists_cons_of_ne_nil hpos
  rw [e]
  refine runMean_machineMean _ _ _ ?_
  have hc : fl c = c := hm c (by rw [e]; exact List.mem_cons_self)
  show fl (fl ((0:ℕ):ℝ) + fl (fl (c - fl ((0:ℕ):ℝ)) / fl ((1:ℕ):ℝ))) = c
  rw [Nat.cast_zero, Nat.cast_one, h.zero, show fl 1 = 1 from h1, sub_zero, div_one, zero_add, hc, hc, hc]

/-- **C91**: after samples that are not zero, entry `i` of the vector lies, up to `4 (d+3)` units of the last place of 1, between -1 and 1; it is exactly zero if there are no samples at distance `i+1`; and it differs from
the average of the cosines of the angles between all samples at distance `i+1` by at most `u (4 d + n + 23)`, where `n` is the number of pairs at that distance and `d` the number of components. -/
theorem C91_error_partial (h : Rounding u fl) (hu0 : 0 ≤ u) (hu : ((d : ℝ) + 3) * u ≤ 1 / 4) (bits H : Nat) (hH : 1 ≤ H) (A₀ : Nat → ℝ) (G1 G2 : Nat → Fin d → ℝ)
    (xs : List (Fin d → ℝ)) (hne : xs ≠ []) (hlen : xs.length ≤ 2^bits) (hnz : ∀ x ∈ xs, x ≠ 0) (hcount : ∀ n : Nat, n ≤ xs.length → Machine fl n) :
    ∃ r, @cosMachineGet ℝ (roundedArith fl) d (fun z => fl (Real.sqrt z)) bits H A₀ G1 G2 xs = .ok r ∧ r.length = H ∧
      ∀ (i : Nat) (hi : i < r.length), |r[i]| ≤ 1 + 4 * ((d : ℝ) + 3) * u ∧ (xs.length ≤ i + 1 → r[i] = 0) ∧
        (i + 1 < xs.length → |r[i] - avgCosSpec (i+1) xs| ≤ u * (4 * d + ((xs.length : ℝ) - i - 1) + 23)) := by
  let _ := roundedArith fl
  refine ⟨_, get_inv _ bits H hH A₀ G1 G2 xs hne hlen, by simp, ?_⟩
  intro i hi
  simp only [List.getElem_map, List.getElem_range]
  have hd : (0:ℝ) ≤ d := Nat.cast_nonneg d
  have hu14 : u ≤ 1 / 4 := by nlinarith
  have hE0 : 0 ≤ 4 * ((d : ℝ) + 3) * u := by positivity
  by_cases hc : i + 1 < xs.length
  · have hm1 : Machine fl 1 := by have := hcount 1 (by omega); simpa using this
    have e := RoundingCos.entry h bits H hH A₀ G1 G2 xs hne hlen hm1 i hc
    simp only at e
    rw [e]
    set P := lagPairs (i+1) xs with hP
    have hPl : P.length = xs.length - (i + 1) := lagPairs_length _ _
    set cs := cosines (fun z => fl (Real.sqrt z)) (i+1) xs with hcs
    have hcl : cs.length = xs.length - (i + 1) := by rw [hcs, cosines, List.length_map, lagPairs_length]
    have hne' : cs.map (fun c (_ : Unit) => c) ≠ [] := by
      rw [← List.length_pos_iff, List.length_map]; omega
    have hmach : ∀ x ∈ cs.map (fun c (_ : Unit) => c), ∀ k, Machine fl (x k) := by
      intro x hx k
      obtain ⟨c, hc, rfl⟩ := List.mem_map.mp hx
      obtain ⟨p, -, rfl⟩ := List.mem_map.mp hc
      exact h.idempotent _
    have herr : ∀ p ∈ P, |machineCosine (fun z => fl (Real.sqrt z)) p.1 p.2 - cosAngle p.1 p.2| ≤ 4 * ((d : ℝ) + 3) * u := by
      intro p hp
      obtain ⟨m1, m2⟩ := lagPairs_mem hp
      exact cosine_error h hu0 hu p.1 p.2 (hnz _ m1) (hnz _ m2)
    have hbd : ∀ x ∈ cs.map (fun c (_ : Unit) => c), |x ()| ≤ 1 + 4 * ((d : ℝ) + 3) * u := by
      intro x hx
      obtain ⟨c, hc, rfl⟩ := List.mem_map.mp hx
      obtain ⟨p, hp, rfl⟩ := List.mem_map.mp hc
      have i1 := herr p hp
      have i2 := abs_add_le (machineCosine (fun z => fl (Real.sqrt z)) p.1 p.2 - cosAngle p.1 p.2) (cosAngle p.1 p.2)
      rw [sub_add_cancel] at i2
      have i3 : |cosAngle p.1 p.2| ≤ 1 := Real.abs_cos_le_one _
      show |machineCosine (fun z => fl (Real.sqrt z)) p.1 p.2| ≤ _
      linarith
    have hcnt : ∀ n : Nat, n ≤ (cs.map (fun c (_ : Unit) => c)).length → Machine fl n := by
      intro n hn
      rw [List.length_map] at hn
      exact hcount n (by omega)
    have hrange := C63_mean_in_range h hu14 (fun _ => 0) _ hne' hmach hcnt () (-(1 + 4 * ((d : ℝ) + 3) * u)) (1 + 4 * ((d : ℝ) + 3) * u)
      (fun x hx => (abs_le.mp (hbd x hx)).1) (fun x hx => (abs_le.mp (hbd x hx)).2)
    refine ⟨abs_le.mpr hrange, fun hcc => absurd hc (by omega), fun _ => ?_⟩
    have hme := C63_mean_error h hu0 hu14 (fun _ => 0) _ hne' (1 + 4 * ((d : ℝ) + 3) * u) () hmach hbd hcnt
    have hv : vmean (cs.map (fun c (_ : Unit) => c)) () = mean cs := by
      show mean ((cs.map (fun c (_ : Unit) => c)).map (fun x => x ())) = mean cs
      rw [List.map_map]
      exact congrArg mean (List.map_id cs)
    rw [hv, List.length_map, hcl] at hme
    have hlt : ((xs.length - (i + 1) : ℕ) : ℝ) = (xs.length : ℝ) - i - 1 := by
      rw [Nat.cast_sub (by omega)]; push_cast; ring
    rw [hlt] at hme
    have hn1 : (1:ℝ) ≤ (xs.length : ℝ) - i - 1 := by
      rw [← hlt]; exact_mod_cast (by omega : 1 ≤ xs.length - (i + 1))
    set n := (xs.length : ℝ) - i - 1
    have hmean : |mean cs - avgCosSpec (i+1) xs| ≤ 4 * ((d : ℝ) + 3) * u := by
      have hsum : ∀ P : List ((Fin d → ℝ) × (Fin d → ℝ)), (∀ p ∈ P, |machineCosine (fun z => fl (Real.sqrt z)) p.1 p.2 - cosAngle p.1 p.2| ≤ 4 * ((d : ℝ) + 3) * u) →
          |(P.map (fun p => machineCosine (fun z => fl (Real.sqrt z)) p.1 p.2)).sum - (P.map (fun p => cosAngle p.1 p.2)).sum| ≤ P.length * (4 * ((d : ℝ) + 3) * u) := by
        intro P
        induction P with
        | nil => intro _; simp
        | cons p P ih =>
          intro hp
          have a1 := ih fun q hq => hp q (List.mem_cons_of_mem _ hq)
          have a2 := hp p List.mem_cons_self
          rw [List.map_cons, List.sum_cons, List.map_cons, List.sum_cons, List.length_cons]
          have a3 := abs_add_le (machineCosine (fun z => fl (Real.sqrt z)) p.1 p.2 - cosAngle p.1 p.2)
            ((P.map (fun p => machineCosine (fun z => fl (Real.sqrt z)) p.1 p.2)).sum - (P.map (fun p => cosAngle p.1 p.2)).sum)
          rw [add_sub_add_comm]
          push_cast
          linarith
      have := hsum P herr
      rw [hPl, hlt] at this
      have e1 : mean cs = (P.map (fun p => machineCosine (fun z => fl (Real.sqrt z)) p.1 p.2)).sum / n := by
        rw [mean, hcl, hlt, hcs]; rfl
      have e2 : avgCosSpec (i+1) xs = (P.map (fun p => cosAngle p.1 p.2)).sum / n := by
        rw [avgCosSpec, mean, List.length_map, ← hP, hPl, hlt]
      have hnpos : 0 < n := by linarith
      rw [e1, e2, ← sub_div, abs_div, abs_of_pos hnpos, div_le_iff₀ hnpos]
      linarith
    have htri := abs_add_le ((machineMean (fun _ => 0) (cs.map (fun c (_ : Unit) => c))).get () - mean cs) (mean cs - avgCosSpec (i+1) xs)
    rw [sub_add_sub_cancel] at htri
    have hM : 1 + 4 * ((d : ℝ) + 3) * u ≤ 2 := by linarith
    have hfac : 0 ≤ u * ((n - 1) / 2 + 6) := by
      apply mul_nonneg hu0; linarith
    have : u * (1 + 4 * ((d : ℝ) + 3) * u) * ((n - 1) / 2 + 6) ≤ 2 * (u * ((n - 1) / 2 + 6)) := by
      calc u * (1 + 4 * ((d : ℝ) + 3) * u) * ((n - 1) / 2 + 6) = (1 + 4 * ((d : ℝ) + 3) * u) * (u * ((n - 1) / 2 + 6)) := by ring
        _ ≤ _ := mul_le_mul_of_nonneg_right hM hfac
    calc _ ≤ _ := htri
      _ ≤ 2 * (u * ((n - 1) / 2 + 6)) + 4 * ((d : ℝ) + 3) * u := by linarith
      _ = u * (4 * d + n + 23) := by ring
  · have e : (runMean (cosines (fun z => fl (Real.sqrt z)) (i+1) xs)).1 = 0 := by
      rw [cosines, lagPairs_eq_nil _ _ (by omega)]
      show fl ((0:ℕ):ℝ) = 0
      rw [Nat.cast_zero, h.zero]
    rw [e]
    exact ⟨by rw [abs_zero]; linarith, fun _ => rfl, fun hcc => absurd hcc hc⟩

end

/-! ### samples that are not numbers, not finite, or zero -/

section
variable {D : Type} [Arith D] {d : Nat}

/-- a NaN among the computed cosines -/
theorem RoundingCos.runMean_nan {nan : D → Prop} (N : NanPropagates nan) (cs : List D) (h : ∃ c ∈ cs, nan c) : nan (runMean cs).1 := by
  induction cs using List.reverseRecOn with
  | nil => simp at h
  | append_singleton cs c ih =>
    rw [runMean_append]
    obtain ⟨a, ha, hn⟩ := h
    rcases List.mem_append.mp ha with hm | hm
    · exact N.add_left _ _ (ih ⟨a, hm, hn⟩)
    · rw [List.mem_singleton] at hm
      subst hm
      exact N.add_right _ _ (N.div_left _ _ (N.sub_left _ _ hn))

/-- pairs that contain the sample between `before` and `after` -/
theorem RoundingCos.pair_exists {X : Type} (before after : List X) (x : X) (i : Nat) (h : i < before.length ∨ i < after.length) :
    ∃ p ∈ lagPairs (i+1) (before ++ x :: after), p.1 = x ∨ p.2 = x := by
  have hlen : (before ++ x :: after).length = before.length + after.length + 1 := by simp; omega
  have hx : (before ++ x :: after)[before.length]'(by omega) = x := by
    rw [List.getElem_append_right le_rfl]; simp
  rcases h with h | h
  · have hl : before.length - (i + 1) < (lagPairs (i+1) (before ++ x :: after)).length := by rw [lagPairs_length]; omega
    refine ⟨_, List.getElem_mem hl, Or.inl ?_⟩
    simp only [lagPairs, List.getElem_zip, List.getElem_drop]
    have e : i + 1 + (before.length - (i + 1)) = before.length := by omega
    simp only [e, hx]
  · have hl : before.length < (lagPairs (i+1) (before ++ x :: after)).length := by rw [lagPairs_length]; omega
    refine ⟨_, List.getElem_mem hl, Or.inr ?_⟩
    simp only [lagPairs, List.getElem_zip]
    exact hx

/-- if every cosine with `x` is NaN, so is every entry to which `x` contributes -/
theorem RoundingCos.bad_sample {nan : D → Prop} (N : NanPropagates nan) (sqrt : D → D) (x : Fin d → D) (hx : ∀ y, nan (machineCosine sqrt x y) ∧ nan (machineCosine sqrt y x))
    (bits H : Nat) (hH : 1 ≤ H) (A₀ : Nat → D) (G1 G2 : Nat → Fin d → D) (before after : List (Fin d → D)) (hlen : (before ++ x :: after).length ≤ 2^bits) :
    ∃ r, cosMachineGet sqrt bits H A₀ G1 G2 (before ++ x :: after) = .ok r ∧ r.length = H ∧
      ∀ (i : Nat) (hi : i < r.length), (i < before.length ∨ i < after.length) → nan r[i] := by
  refine ⟨_, get_inv _ bits H hH A₀ G1 G2 _ (by simp) hlen, by simp, ?_⟩
  intro i hi hp
  simp only [List.getElem_map, List.getElem_range]
  obtain ⟨p, hm, e⟩ := RoundingCos.pair_exists before after x i hp
  refine RoundingCos.runMean_nan N _ ⟨_, List.mem_map.mpr ⟨p, hm, rfl⟩, ?_⟩
  rcases e with e | e <;> rw [e]
  · exact (hx _).1
  · exact (hx _).2

theorem RoundingCos.dot_nan {nan : D → Prop} (N : NanPropagates nan) (x y : Fin d → D) (j : Fin d) (h : nan (x j) ∨ nan (y j)) (s : D) : nan (dotFrom s x y) := by
  have hp : nan (Arith.mul (x j) (y j)) := by rcases h with h | h; exacts [N.mul_left _ _ h, N.mul_right _ _ h]
  have stays : ∀ (l : List (Fin d)) (s : D), nan s → nan (l.foldl (fun s j => Arith.add s (Arith.mul (x j) (y j))) s) := by
    intro l
    induction l with
    | nil => intro s hs; exact hs
    | cons a l ih => intro s hs; exact ih _ (N.add_left _ _ hs)
  have key : ∀ (l : List (Fin d)) (s : D), j ∈ l → nan (l.foldl (fun s j => Arith.add s (Arith.mul (x j) (y j))) s) := by
    intro l
    induction l with
    | nil => intro s hm; simp at hm
    | cons a l ih =>
      intro s hm
      rcases List.mem_cons.mp hm with rfl | hm
      · exact stays l _ (N.add_right _ _ hp)
      · exact ih _ hm
  exact key _ s (List.mem_finRange j)

/-- **C91** (NaN is not hidden): if a component of a sample is NaN, then the entries for all distances at which this sample has a partner are NaN, in every arithmetic in which operations with NaN have the result NaN. -/
theorem C91_nan_sample {nan : D → Prop} (N : NanPropagates nan) (sqrt : D → D) (x : Fin d → D) (j : Fin d) (hx : nan (x j))
    (bits H : Nat) (hH : 1 ≤ H) (A₀ : Nat → D) (G1 G2 : Nat → Fin d → D) (before after : List (Fin d → D)) (hlen : (before ++ x :: after).length ≤ 2^bits) :
    ∃ r, cosMachineGet sqrt bits H A₀ G1 G2 (before ++ x :: after) = .ok r ∧ r.length = H ∧
      ∀ (i : Nat) (hi : i < r.length), (i < before.length ∨ i < after.length) → nan r[i] :=
  RoundingCos.bad_sample N sqrt x (fun y => ⟨N.div_left _ _ (RoundingCos.dot_nan N x y j (Or.inl hx) _), N.div_left _ _ (RoundingCos.dot_nan N y x j (Or.inr hx) _)⟩)
    bits H hH A₀ G1 G2 before after hlen

end

section
variable {fl : ℝ → ℝ} {Ω : ℝ} {d : Nat}

/-- floating point numbers satisfy what `C91_nan_sample` requires -/
theorem RoundingCos.ieee_nan (fl : ℝ → ℝ) (Ω : ℝ) : @NanPropagates XR (ieee fl Ω) (fun a => a = .nan) := by
  let _ := ieee fl Ω
  constructor
  · rintro a b rfl; rfl
  · rintro a b rfl; cases a <;> rfl
  · rintro a b rfl; rfl
  · rintro a b rfl; cases a <;> rfl
  · rintro a b rfl; rfl
  · rintro a b rfl; cases a <;> rfl
  · rintro a b rfl; rfl
  · rintro a rfl; rfl

/-- a number of which nothing remains -/
def RoundingCos.ZeroOrNan (a : XR) : Prop := a = .fin 0 ∨ a = .nan

theorem RoundingCos.round_zero (h0 : fl 0 = 0) (hΩ : 0 ≤ Ω) {a : XR} (h : ZeroOrNan a) : ZeroOrNan (roundResult fl Ω a) := by
  rcases h with rfl | rfl
  · left
    simp only [roundResult, h0]
    rw [if_neg (by linarith), if_neg (by linarith)]
  · right; rfl

theorem RoundingCos.mul_zero {a b : XR} (h : ZeroOrNan a) : ZeroOrNan (a.mul b) ∧ ZeroOrNan (b.mul a) := by
  rcases h with rfl | rfl
  · cases b <;> simp [XR.mul, XR.infTimes, ZeroOrNan]
  · cases b <;> simp [XR.mul, ZeroOrNan]

theorem RoundingCos.add_zero {a b : XR} (ha : ZeroOrNan a) (hb : ZeroOrNan b) : ZeroOrNan (a.add b) := by
  rcases ha with rfl | rfl <;> rcases hb with rfl | rfl <;> simp [XR.add, ZeroOrNan]

theorem RoundingCos.dot_zero (h0 : fl 0 = 0) (hΩ : 0 ≤ Ω) (x y : Fin d → XR) (h : ∀ j, ZeroOrNan (x j) ∨ ZeroOrNan (y j)) (n : Nat) (hn : n = 0) :
    ZeroOrNan (@dotFrom XR (ieee fl Ω) d ((ieee fl Ω).ofNat n) x y) := by
  subst hn
  have key : ∀ (l : List (Fin d)) (s : XR), ZeroOrNan s → ZeroOrNan (l.foldl (fun s j => (ieee fl Ω).add s ((ieee fl Ω).mul (x j) (y j))) s) := by
    intro l
    induction l with
    | nil => intro s hs; exact hs
    | cons a l ih =>
      intro s hs
      refine ih _ (round_zero h0 hΩ (add_zero hs (round_zero h0 hΩ ?_)))
      rcases h a with h | h
      · exact (RoundingCos.mul_zero h).1
      · exact (RoundingCos.mul_zero h).2
  refine key _ _ (round_zero h0 hΩ ?_)
  left
  rw [Nat.cast_zero]

theorem RoundingCos.zero_cosine (h0 : fl 0 = 0) (hΩ : 0 ≤ Ω) (x y : Fin d → XR) (hx : ∀ j, x j = .fin 0) :
    @machineCosine XR (ieee fl Ω) d (fun z => roundResult fl Ω z.sqrt) x y = .nan ∧ @machineCosine XR (ieee fl Ω) d (fun z => roundResult fl Ω z.sqrt) y x = .nan := by
  have hz : ∀ j, ZeroOrNan (x j) := fun j => Or.inl (hx j)
  have d1 := RoundingCos.dot_zero h0 hΩ x y (fun j => Or.inl (hz j)) 0 rfl
  have d2 := RoundingCos.dot_zero h0 hΩ y x (fun j => Or.inr (hz j)) 0 rfl
  have d3 := RoundingCos.dot_zero h0 hΩ x x (fun j => Or.inl (hz j)) 0 rfl
  have sq : ∀ a : XR, ZeroOrNan a → ZeroOrNan (roundResult fl Ω a.sqrt) := by
    intro a ha
    refine RoundingCos.round_zero h0 hΩ ?_
    rcases ha with rfl | rfl
    · left; simp [XR.sqrt]
    · right; rfl
  have dv : ∀ a b : XR, ZeroOrNan a → ZeroOrNan b → roundResult fl Ω (a.div b) = .nan := by
    rintro a b (rfl | rfl) (rfl | rfl) <;> simp [XR.div, roundResult]
  constructor
  · exact dv _ _ d1 (sq _ (RoundingCos.round_zero h0 hΩ (RoundingCos.mul_zero d3).1))
  · exact dv _ _ d2 (sq _ (RoundingCos.round_zero h0 hΩ (RoundingCos.mul_zero d3).2))

/-- **C91** is violated by a zero vector among the samples: the entries for all distances at which it has a partner are NaN, whatever all other samples are.  (In every format.) -/
theorem C91_violation_zero_sample (h0 : fl 0 = 0) (hΩ : 0 ≤ Ω) (x : Fin d → XR) (hx : ∀ j, x j = .fin 0)
    (bits H : Nat) (hH : 1 ≤ H) (A₀ : Nat → XR) (G1 G2 : Nat → Fin d → XR) (before after : List (Fin d → XR)) (hlen : (before ++ x :: after).length ≤ 2^bits) :
    ∃ r, @cosMachineGet XR (ieee fl Ω) d (fun z => roundResult fl Ω z.sqrt) bits H A₀ G1 G2 (before ++ x :: after) = .ok r ∧ r.length = H ∧
      ∀ (i : Nat) (hi : i < r.length), (i < before.length ∨ i < after.length) → r[i] = .nan := by
  let _ := ieee fl Ω
  exact RoundingCos.bad_sample (RoundingCos.ieee_nan fl Ω) (fun z : XR => roundResult fl Ω z.sqrt) x (fun y => RoundingCos.zero_cosine h0 hΩ x y hx) bits H hH A₀ G1 G2 before after hlen

open Ieee in
theorem RoundingCos.round_not {a : XR} (h : NotFinite a) : NotFinite (roundResult fl Ω a) := by
  cases a <;> first | exact h.elim | trivial

open Ieee in
theorem RoundingCos.mul_not {a b : XR} (h : NotFinite a) : NotFinite (a.mul b) ∧ NotFinite (b.mul a) := by
  cases a <;> first | exact h.elim | (cases b <;> simp only [XR.mul, XR.infTimes] <;> constructor <;> (try split) <;> (try split) <;> trivial)

open Ieee in
theorem RoundingCos.add_not {a b : XR} (h : NotFinite a ∨ NotFinite b) : NotFinite (a.add b) := by
  rcases h with h | h
  · cases a <;> first | exact h.elim | (cases b <;> trivial)
  · cases b <;> first | exact h.elim | (cases a <;> trivial)

open Ieee in
theorem RoundingCos.dot_not (x y : Fin d → XR) (j : Fin d) (h : NotFinite (x j) ∨ NotFinite (y j)) (s : XR) : NotFinite (@dotFrom XR (ieee fl Ω) d s x y) := by
  have hp : NotFinite (roundResult fl Ω ((x j).mul (y j))) := by
    apply RoundingCos.round_not
    rcases h with h | h
    · exact (RoundingCos.mul_not h).1
    · exact (RoundingCos.mul_not h).2
  have stays : ∀ (l : List (Fin d)) (s : XR), NotFinite s → NotFinite (l.foldl (fun s j => (ieee fl Ω).add s ((ieee fl Ω).mul (x j) (y j))) s) := by
    intro l
    induction l with
    | nil => intro s hs; exact hs
    | cons a l ih => intro s hs; exact ih _ (RoundingCos.round_not (RoundingCos.add_not (Or.inl hs)))
  have key : ∀ (l : List (Fin d)) (s : XR), j ∈ l → NotFinite (l.foldl (fun s j => (ieee fl Ω).add s ((ieee fl Ω).mul (x j) (y j))) s) := by
    intro l
    induction l with
    | nil => intro s hm; simp at hm
    | cons a l ih =>
      intro s hm
      rcases List.mem_cons.mp hm with rfl | hm
      · exact stays l _ (RoundingCos.round_not (RoundingCos.add_not (Or.inr hp)))
      · exact ih _ hm
  exact key _ s (List.mem_finRange j)

/-- **C91** (infinite samples): the same as for NaN if a component is infinite or NaN. -/
theorem C91_infinite_sample (x : Fin d → XR) (j : Fin d) (hx : x j = .posInf ∨ x j = .negInf ∨ x j = .nan)
    (bits H : Nat) (hH : 1 ≤ H) (A₀ : Nat → XR) (G1 G2 : Nat → Fin d → XR) (before after : List (Fin d → XR)) (hlen : (before ++ x :: after).length ≤ 2^bits) :
    ∃ r, @cosMachineGet XR (ieee fl Ω) d (fun z => roundResult fl Ω z.sqrt) bits H A₀ G1 G2 (before ++ x :: after) = .ok r ∧ r.length = H ∧
      ∀ (i : Nat) (hi : i < r.length), (i < before.length ∨ i < after.length) → r[i] = .nan := by
  have hn : Ieee.NotFinite (x j) := by rcases hx with e | e | e <;> rw [e] <;> trivial
  have dv : ∀ a b : XR, Ieee.NotFinite a → Ieee.NotFinite b → roundResult fl Ω (a.div b) = .nan := by
    intro a b ha hb
    cases a <;> first | exact ha.elim | (cases b <;> first | exact hb.elim | rfl)
  have sq : ∀ a : XR, Ieee.NotFinite a → Ieee.NotFinite (roundResult fl Ω a.sqrt) := by
    intro a ha
    cases a <;> first | exact ha.elim | trivial
  let _ := ieee fl Ω
  refine RoundingCos.bad_sample (RoundingCos.ieee_nan fl Ω) (fun z : XR => roundResult fl Ω z.sqrt) x (fun y => ⟨?_, ?_⟩) bits H hH A₀ G1 G2 before after hlen
  · exact dv _ _ (RoundingCos.dot_not x y j (Or.inl hn) _) (sq _ (RoundingCos.round_not (RoundingCos.mul_not (RoundingCos.dot_not x x j (Or.inl hn) _)).1))
  · exact dv _ _ (RoundingCos.dot_not y x j (Or.inr hn) _) (sq _ (RoundingCos.round_not (RoundingCos.mul_not (RoundingCos.dot_not x x j (Or.inl hn) _)).2))

/-! ### vectors of extreme length, and cosines above 1 -/

/-- the scalar product of one-component vectors -/
theorem RoundingCos.dot_one {D : Type} [Arith D] (s : D) (x y : Fin 1 → D) : dotFrom s x y = Arith.add s (Arith.mul (x 0) (y 0)) := by
  simp [dotFrom, List.finRange_succ]

/-- two samples -/
theorem RoundingCos.two_samples {D : Type} [Arith D] {d : Nat} (sqrt : D → D) (bits H : Nat) (hH : 1 ≤ H) (hbits : 1 ≤ bits) (A₀ : Nat → D) (G1 G2 : Nat → Fin d → D) (x y : Fin d → D) (c : D)
    (hc : machineCosine sqrt y x = c) :
    ∃ r, cosMachineGet sqrt bits H A₀ G1 G2 [x, y] = .ok r ∧ r[0]? = some (Arith.add (Arith.ofNat 0) (Arith.div (Arith.sub c (Arith.ofNat 0)) (Arith.ofNat 1))) := by
  have h2 : 2 ≤ 2 ^ bits := by calc 2 = 2 ^ 1 := rfl
    _ ≤ 2 ^ bits := Nat.pow_le_pow_right (by norm_num) hbits
  refine ⟨_, get_inv sqrt bits H hH A₀ G1 G2 [x, y] (by simp) h2, ?_⟩
  rw [List.getElem?_map, List.getElem?_range hH, Option.map_some, ← hc]
  rfl

namespace RoundingCos
open Ieee

theorem max_pos : 0 < maxDouble := lt_of_lt_of_le (by norm_num : (0:ℝ) < ((1 : ℕ) : ℝ)) (nat_le_max 1 (by norm_num))

theorem round_keep {z : ℝ} (hz : Machine double z) (h0 : 0 ≤ z) (h1 : z ≤ maxDouble) : roundResult double maxDouble (.fin z) = .fin z := by
  have := max_pos
  simp only [roundResult, show double z = z from hz]
  rw [if_neg (by linarith), if_neg (by linarith)]

theorem double_zpow (k : ℤ) (hk : -1074 ≤ k) : Machine double ((2:ℝ) ^ k) := by
  have := double_machine 1 (by norm_num) k hk
  simpa using this

theorem zpow_le_max (k : ℤ) (hk : k ≤ 1023) : (2:ℝ) ^ k ≤ maxDouble := by
  have h1 : (2:ℝ) ^ k ≤ (2:ℝ) ^ (1023 : ℤ) := zpow_le_zpow_right₀ (by norm_num) hk
  have h2 := pow_le_max 1023 le_rfl
  rw [show (2:ℝ) ^ (1023 : ℤ) = 2 ^ 1023 from zpow_ofNat 2 1023] at h1
  exact h1.trans h2

theorem double_zero : double 0 = 0 := fl_zero double_format

theorem round_0 : roundResult double maxDouble (.fin 0) = .fin 0 := round_keep double_zero le_rfl max_pos.le

theorem round_1 : roundResult double maxDouble (.fin 1) = .fin 1 := round_keep double_format.one zero_le_one (by have := zpow_le_max 0 (by norm_num); simpa using this)

/-- the scalar product of two powers of 2 in double precision -/
theorem dot_pow (k : ℤ) (h1 : -537 ≤ k) (h2 : k ≤ 511) (x y : Fin 1 → XR) (hx : x 0 = .fin (2 ^ k)) (hy : y 0 = .fin (2 ^ k)) :
    @dotFrom XR (ieee double maxDouble) 1 ((ieee double maxDouble).ofNat 0) x y = .fin (2 ^ (2 * k)) := by
  rw [@dot_one XR (ieee double maxDouble)]
  show roundResult double maxDouble ((roundResult double maxDouble (.fin ((0:ℕ):ℝ))).add (roundResult double maxDouble ((x 0).mul (y 0)))) = _
  have e : (2:ℝ) ^ k * 2 ^ k = 2 ^ (2 * k) := by rw [← zpow_add₀ (by norm_num)]; congr 1; ring
  have hr : roundResult double maxDouble (.fin (2 ^ (2 * k))) = .fin (2 ^ (2 * k)) := round_keep (double_zpow _ (by omega)) (by positivity) (zpow_le_max _ (by omega))
  rw [Nat.cast_zero, round_0, hx, hy]
  simp only [XR.mul, e, hr, XR.add, zero_add]

end RoundingCos

open Ieee in
/-- **C91** is violated for long vectors: for two equal samples with the single component `2^257 ≈ 2.3·10^77` the computed cosine is 0 instead of 1, since the product of the squares of the norms overflows. -/
theorem C91_violation_overflow (bits H : Nat) (hH : 1 ≤ H) (hbits : 1 ≤ bits) (A₀ : Nat → XR) (G1 G2 : Nat → Fin 1 → XR) :
    ∃ r, @cosMachineGet XR (ieee double maxDouble) 1 (fun z => roundResult double maxDouble z.sqrt) bits H A₀ G1 G2 [fun _ => .fin (2 ^ (257 : ℤ)), fun _ => .fin (2 ^ (257 : ℤ))] = .ok r ∧
      r[0]? = some (.fin 0) ∧ cosAngle (fun _ : Fin 1 => (2:ℝ) ^ (257 : ℤ)) (fun _ => 2 ^ (257 : ℤ)) = 1 := by
  let _ := ieee double maxDouble
  have hdot := dot_pow 257 (by norm_num) (by norm_num) (fun _ => .fin (2 ^ (257 : ℤ))) (fun _ => .fin (2 ^ (257 : ℤ))) rfl rfl
  have hbig : roundResult double maxDouble ((XR.fin ((2:ℝ) ^ (2 * 257 : ℤ))).mul (.fin (2 ^ (2 * 257 : ℤ)))) = .posInf := by
    have e : (2:ℝ) ^ (2 * 257 : ℤ) * 2 ^ (2 * 257 : ℤ) = 2 ^ (1028 : ℤ) := by rw [← zpow_add₀ (by norm_num)]; norm_num
    simp only [XR.mul, e, roundResult, show double ((2:ℝ) ^ (1028 : ℤ)) = 2 ^ (1028 : ℤ) from double_zpow 1028 (by norm_num)]
    rw [if_pos]
    have h1 : maxDouble < 2 ^ 53 * 2 ^ 971 := by
      unfold maxDouble
      exact mul_lt_mul_of_pos_right (by norm_num) (by positivity)
    have h2 : (2:ℝ) ^ 53 * 2 ^ 971 ≤ 2 ^ (1028 : ℤ) := by
      rw [← pow_add, show (2:ℝ) ^ (1028 : ℤ) = 2 ^ 1028 from zpow_ofNat 2 1028]
      exact pow_le_pow_right₀ (by norm_num) (by norm_num)
    exact lt_of_lt_of_le h1 h2
  have hc : machineCosine (fun z : XR => roundResult double maxDouble z.sqrt) (fun _ : Fin 1 => XR.fin (2 ^ (257 : ℤ))) (fun _ => .fin (2 ^ (257 : ℤ))) = .fin 0 := by
    unfold machineCosine
    dsimp only
    rw [hdot]
    show roundResult double maxDouble ((XR.fin (2 ^ (2 * 257 : ℤ))).div (roundResult double maxDouble (XR.sqrt (roundResult double maxDouble ((XR.fin ((2:ℝ) ^ (2 * 257 : ℤ))).mul (.fin (2 ^ (2 * 257 : ℤ)))))))) = _
    rw [hbig]
    simp only [XR.sqrt, roundResult, XR.div]
    exact round_0
  obtain ⟨r, h1, h2⟩ := RoundingCos.two_samples _ bits H hH hbits A₀ G1 G2 _ _ _ hc
  refine ⟨r, h1, ?_, ?_⟩
  · rw [h2]
    show some (roundResult double maxDouble ((roundResult double maxDouble (.fin ((0:ℕ):ℝ))).add (roundResult double maxDouble ((roundResult double maxDouble ((XR.fin 0).add (roundResult double maxDouble (.fin ((0:ℕ):ℝ))).neg)).div
      (roundResult double maxDouble (.fin ((1:ℕ):ℝ))))))) = _
    rw [Nat.cast_zero, Nat.cast_one, round_0, round_1]
    simp only [XR.neg, XR.add, neg_zero, _root_.add_zero, round_0, XR.div, one_ne_zero, if_false, zero_div]
  · rw [cosAngle, InnerProductGeometry.angle_self, Real.cos_zero]
    intro hz
    have := congrFun (congrArg WithLp.ofLp hz) 0
    simp at this

open Ieee in
/-- **C91** is violated for short vectors: for two equal samples with the single component `2^-300 ≈ 4.9·10^-91` the computed average is plus infinity instead of 1, since the product of the squares of the norms underflows to 0. -/
theorem C91_violation_underflow (bits H : Nat) (hH : 1 ≤ H) (hbits : 1 ≤ bits) (A₀ : Nat → XR) (G1 G2 : Nat → Fin 1 → XR) :
    ∃ r, @cosMachineGet XR (ieee double maxDouble) 1 (fun z => roundResult double maxDouble z.sqrt) bits H A₀ G1 G2 [fun _ => .fin (2 ^ (-300 : ℤ)), fun _ => .fin (2 ^ (-300 : ℤ))] = .ok r ∧
      r[0]? = some .posInf ∧ cosAngle (fun _ : Fin 1 => (2:ℝ) ^ (-300 : ℤ)) (fun _ => 2 ^ (-300 : ℤ)) = 1 := by
  let _ := ieee double maxDouble
  have hdot := dot_pow (-300) (by norm_num) (by norm_num) (fun _ => .fin (2 ^ (-300 : ℤ))) (fun _ => .fin (2 ^ (-300 : ℤ))) rfl rfl
  have hsmall : roundResult double maxDouble ((XR.fin ((2:ℝ) ^ (2 * -300 : ℤ))).mul (.fin (2 ^ (2 * -300 : ℤ)))) = .fin 0 := by
    have e : (2:ℝ) ^ (2 * -300 : ℤ) * 2 ^ (2 * -300 : ℤ) = 2 ^ (-1200 : ℤ) := by rw [← zpow_add₀ (by norm_num)]; norm_num
    have hz : double ((2:ℝ) ^ (-1200 : ℤ)) = 0 := by
      unfold double gradual gradualPos
      have hlt : ¬ ((2:ℝ) ^ (-1074 + ((53:ℕ):ℤ) - 1) ≤ 2 ^ (-1200 : ℤ)) := by
        rw [not_le]
        exact zpow_lt_zpow_right₀ (by norm_num) (by norm_num)
      rw [if_pos (by positivity), if_neg hlt, ← zpow_sub₀ (by norm_num)]
      have : roundInt ((2:ℝ) ^ ((-1200 : ℤ) - -1074)) = 0 := by
        have h1 : (2:ℝ) ^ ((-1200 : ℤ) - -1074) ≤ 2 ^ (-2 : ℤ) := zpow_le_zpow_right₀ (by norm_num) (by norm_num)
        have h2 : (0:ℝ) < (2:ℝ) ^ ((-1200 : ℤ) - -1074) := by positivity
        have h3 : (2:ℝ) ^ (-2 : ℤ) = 1 / 4 := by norm_num
        apply roundInt_eq <;> push_cast <;> linarith
      rw [this]
      simp
    have := max_pos
    simp only [XR.mul, e, roundResult, hz]
    rw [if_neg (by linarith), if_neg (by linarith)]
  have hc : machineCosine (fun z : XR => roundResult double maxDouble z.sqrt) (fun _ : Fin 1 => XR.fin (2 ^ (-300 : ℤ))) (fun _ => .fin (2 ^ (-300 : ℤ))) = .posInf := by
    unfold machineCosine
    dsimp only
    rw [hdot]
    show roundResult double maxDouble ((XR.fin (2 ^ (2 * -300 : ℤ))).div (roundResult double maxDouble (XR.sqrt (roundResult double maxDouble ((XR.fin ((2:ℝ) ^ (2 * -300 : ℤ))).mul (.fin (2 ^ (2 * -300 : ℤ)))))))) = _
    rw [hsmall]
    have hp : (0:ℝ) < 2 ^ (2 * -300 : ℤ) := by positivity
    have hs : roundResult double maxDouble (XR.sqrt (.fin 0)) = .fin 0 := by
      simp only [XR.sqrt, lt_irrefl, if_false, Real.sqrt_zero]
      exact round_0
    rw [hs]
    simp only [XR.div, if_true, hp.ne', hp, if_false, roundResult]
  obtain ⟨r, h1, h2⟩ := RoundingCos.two_samples _ bits H hH hbits A₀ G1 G2 _ _ _ hc
  refine ⟨r, h1, ?_, ?_⟩
  · rw [h2]
    show some (roundResult double maxDouble ((roundResult double maxDouble (.fin ((0:ℕ):ℝ))).add (roundResult double maxDouble ((roundResult double maxDouble (XR.posInf.add (roundResult double maxDouble (.fin ((0:ℕ):ℝ))).neg)).div
      (roundResult double maxDouble (.fin ((1:ℕ):ℝ))))))) = _
    rw [Nat.cast_zero, Nat.cast_one, round_0, round_1]
    simp only [XR.neg, XR.add, roundResult, XR.div, zero_le_one, if_true]
  · rw [cosAngle, InnerProductGeometry.angle_self, Real.cos_zero]
    intro hz
    have := congrFun (congrArg WithLp.ofLp hz) 0
    simp at this

/-- rounding a number whose nearest neighbour is known -/
theorem RoundingCos.nearest_eq (m : Nat) (k : ℤ) (x : ℝ) (h1 : (2:ℝ) ^ (52 + k) ≤ x) (h2 : x < 2 ^ (53 + k)) (h3 : ((m:ℝ) - 1 / 2) * 2 ^ k < x) (h4 : x < ((m:ℝ) + 1 / 2) * 2 ^ k) : nearest 53 x = m * 2 ^ k := by
  have hx : 0 < x := lt_of_lt_of_le (by positivity) h1
  have hlog : Int.log 2 x = 52 + k := by
    apply le_antisymm
    · have : Int.log 2 x < 53 + k := (Int.lt_zpow_iff_log_lt (b := 2) (by norm_num) hx).mp (by exact_mod_cast h2)
      omega
    · exact (Int.zpow_le_iff_le_log (b := 2) (by norm_num) hx).mp (by exact_mod_cast h1)
  have hk : (0:ℝ) < 2 ^ k := by positivity
  unfold nearest roundPos
  have hu : ulp 53 x = 2 ^ k := by unfold ulp; rw [hlog]; congr 1; push_cast; ring
  rw [if_pos hx.le, hu]
  have : roundInt (x / 2 ^ k) = (m : ℤ) := by
    have i1 : (m:ℝ) - 1 / 2 < x / 2 ^ k := by rwa [lt_div_iff₀ hk]
    have i2 : x / 2 ^ k < (m:ℝ) + 1 / 2 := by rwa [div_lt_iff₀ hk]
    apply roundInt_eq <;> push_cast <;> assumption
  rw [this]
  push_cast
  rfl

/-- **C91**: an "average cosine" can be larger than 1: for the two samples `47` and `2^27 + 5` (one component, rounding to 53 significant bits) it is `1 + 2^-52`. -/
theorem C91_violation_above_one (bits H : Nat) (hH : 1 ≤ H) (hbits : 1 ≤ bits) (A₀ : Nat → ℝ) (G1 G2 : Nat → Fin 1 → ℝ) :
    ∃ r, @cosMachineGet ℝ (roundedArith (nearest 53)) 1 (fun z => nearest 53 (Real.sqrt z)) bits H A₀ G1 G2 [fun _ => 47, fun _ => 134217733] = .ok r ∧
      r[0]? = some (1 + 2 ^ (-52 : ℤ)) := by
  let _ := roundedArith (nearest 53)
  have hr := nearest_rounding 53 (by norm_num)
  have nat : ∀ n : Nat, n ≤ 2 ^ 53 → nearest 53 n = n := fun n hn => nearest_nat 53 (by norm_num) n hn
  have n0 : nearest 53 0 = 0 := hr.zero
  have n1 : nearest 53 1 = 1 := by have := nat 1 (by norm_num); simpa using this
  have ha : nearest 53 (134217733 * 134217733) = 18014399851659288 := by
    rw [RoundingCos.nearest_eq 4503599962914822 2] <;> norm_num
  have ha' : nearest 53 18014399851659288 = 18014399851659288 := by
    rw [← ha, hr.idempotent]
  have hb : nearest 53 2209 = 2209 := by have := nat 2209 (by norm_num); simpa using this
  have hab : nearest 53 6308233451 = 6308233451 := by have := nat 6308233451 (by norm_num); simpa using this
  have hp : nearest 53 (18014399851659288 * 2209) = 4857642733436934 * 2 ^ (13 : ℤ) := by
    rw [RoundingCos.nearest_eq 4857642733436934 13] <;> norm_num
  have hs : nearest 53 (Real.sqrt (4857642733436934 * 2 ^ (13 : ℤ))) = 6614662199115775 * 2 ^ (-20 : ℤ) := by
    rw [RoundingCos.nearest_eq 6614662199115775 (-20)]
    · norm_num
    · apply Real.le_sqrt_of_sq_le; norm_num
    · rw [Real.sqrt_lt' (by positivity)]; norm_num
    · apply Real.lt_sqrt_of_sq_lt; norm_num
    · rw [Real.sqrt_lt' (by norm_num)]; norm_num
  have hq : nearest 53 (6308233451 / (6614662199115775 * 2 ^ (-20 : ℤ))) = 1 + 2 ^ (-52 : ℤ) := by
    rw [RoundingCos.nearest_eq 4503599627370497 (-52)] <;> norm_num
  have hm : nearest 53 (1 + 2 ^ (-52 : ℤ)) = 1 + 2 ^ (-52 : ℤ) := by rw [← hq, hr.idempotent]
  have dot : ∀ x y : Fin 1 → ℝ, dotFrom (Arith.ofNat 0) x y = nearest 53 (nearest 53 (x 0 * y 0)) := by
    intro x y
    rw [RoundingCos.dot_one]
    show nearest 53 (nearest 53 ((0:ℕ):ℝ) + nearest 53 (x 0 * y 0)) = _
    rw [Nat.cast_zero, n0, zero_add]
  have hc : machineCosine (fun z => nearest 53 (Real.sqrt z)) (fun _ : Fin 1 => (134217733:ℝ)) (fun _ => 47) = 1 + 2 ^ (-52 : ℤ) := by
    unfold machineCosine
    dsimp only
    rw [dot, dot, dot, ha, ha', show (47:ℝ) * 47 = 2209 by norm_num, hb, hb, show (134217733:ℝ) * 47 = 6308233451 by norm_num, hab, hab]
    show nearest 53 (6308233451 / nearest 53 (Real.sqrt (nearest 53 (18014399851659288 * 2209)))) = _
    rw [hp, hs, hq]
  obtain ⟨r, h1, h2⟩ := RoundingCos.two_samples _ bits H hH hbits A₀ G1 G2 _ _ _ hc
  refine ⟨r, h1, ?_⟩
  rw [h2]
  show some (nearest 53 (nearest 53 ((0:ℕ):ℝ) + nearest 53 (nearest 53 (1 + 2 ^ (-52 : ℤ) - nearest 53 ((0:ℕ):ℝ)) / nearest 53 ((1:ℕ):ℝ)))) = _
  rw [Nat.cast_zero, Nat.cast_one, n0, n1, sub_zero, div_one, zero_add, hm, hm, hm]

end

/-! ### Instances: concrete cases that meet the hypotheses of the theorems above -/

section
theorem RoundingCos.example_nonzero : ∀ x ∈ ([![1, 2], ![3, 4], ![4, 4]] : List (Fin 2 → ℝ)), x ≠ 0 := by
  intro x hx h0
  have := congrFun h0 0
  simp only [List.mem_cons, List.not_mem_nil, or_false] at hx
  rcases hx with rfl | rfl | rfl <;> simp at this

example := C91_error_partial (d := 2) (nearest_rounding 53 (by norm_num)) (by positivity) (by norm_num) 32 2 (by norm_num) (fun _ => 7) (fun _ _ => 5) (fun _ _ => 3) [![1, 2], ![3, 4], ![4, 4]] (by simp)
  (by norm_num) RoundingCos.example_nonzero (fun n hn => exampleMachine n (hn.trans (by norm_num)))

noncomputable example := @C91_nan_sample XR (ieee double maxDouble) 1 (fun a => a = .nan) (RoundingCos.ieee_nan double maxDouble) (fun z => roundResult double maxDouble z.sqrt) (fun _ => .nan) 0 rfl 32 2 (by norm_num)
  (fun _ => .nan) (fun _ _ => .nan) (fun _ _ => .nan) [fun _ => .fin 1] [fun _ => .fin 2] (by simp)

noncomputable example := @C91_violation_zero_sample double maxDouble 1 RoundingCos.double_zero RoundingCos.max_pos.le (fun _ => .fin 0) (fun _ => rfl) 32 2 (by norm_num)
  (fun _ => .nan) (fun _ _ => .nan) (fun _ _ => .nan) [fun _ => .fin 1] [fun _ => .fin 2] (by simp)

noncomputable example := @C91_infinite_sample double maxDouble 1 (fun _ => .negInf) 0 (Or.inr (Or.inl rfl)) 32 2 (by norm_num)
  (fun _ => .nan) (fun _ _ => .nan) (fun _ _ => .nan) [fun _ => .fin 1] [fun _ => .fin 2] (by simp)

end

end SampleFlow
