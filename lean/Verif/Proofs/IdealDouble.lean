import Verif.Model.IdealDouble
import Mathlib.Analysis.SpecialFunctions.Log.ENNRealLogExp

/-!
# The idealised doubles are the extended real numbers and NaN

A check of Model/IdealDouble.lean against Mathlib: except where IEEE 754 says NaN, the operations are those of `EReal`.
-/

namespace SampleFlow.XR

open Classical

/-- The extended real number, if it is not NaN. -/
noncomputable def toE : XR → Option EReal
  | nan => none
  | negInf => some ⊥
  | posInf => some ⊤
  | fin r => some (r : EReal)

@[simp] theorem toE_nan : toE nan = none := rfl
@[simp] theorem toE_negInf : toE negInf = some ⊥ := rfl
@[simp] theorem toE_posInf : toE posInf = some ⊤ := rfl
@[simp] theorem toE_fin (r : ℝ) : toE (fin r) = some (r : EReal) := rfl

theorem toE_injective : Function.Injective toE := by
  intro a b h
  cases a <;> cases b <;> simp_all [toE]

theorem neg_toE (a : XR) : toE a.neg = (toE a).map (fun x => -x) := by
  cases a <;> simp [neg, toE]

/-- `inf - inf` is NaN. -/
theorem add_toE (a b : XR) : toE (a.add b) =
    (toE a).bind fun x => (toE b).bind fun y => if (x = ⊤ ∧ y = ⊥) ∨ (x = ⊥ ∧ y = ⊤) then none else some (x + y) := by
  cases a <;> cases b <;> simp [add, toE]

/-- `0 * inf` is NaN. -/
theorem mul_toE (a b : XR) : toE (a.mul b) =
    (toE a).bind fun x => (toE b).bind fun y =>
      if (x = 0 ∧ (y = ⊤ ∨ y = ⊥)) ∨ ((x = ⊤ ∨ x = ⊥) ∧ y = 0) then none else some (x * y) := by
  have key : ∀ r : ℝ, toE (infTimes true r) = (if r = 0 then none else some (⊤ * (r : EReal))) ∧
      toE (infTimes false r) = (if r = 0 then none else some (⊥ * (r : EReal))) := by
    intro r
    rcases lt_trichotomy r 0 with h | h | h
    · have h' : ¬ 0 < r := not_lt.mpr h.le
      simp [infTimes, h.ne, h', toE, EReal.top_mul_coe_of_neg h, EReal.bot_mul_coe_of_neg h]
    · simp [infTimes, h, toE]
    · simp [infTimes, h.ne', h, toE, EReal.top_mul_coe_of_pos h, EReal.bot_mul_coe_of_pos h]
  cases a <;> cases b <;> simp [mul, key, mul_comm]

/-- `0 / 0` and `inf / inf` are NaN, `x / 0` is infinite. -/
theorem div_toE (a b : XR) : toE (a.div b) =
    (toE a).bind fun x => (toE b).bind fun y =>
      if (x = 0 ∧ y = 0) ∨ ((x = ⊤ ∨ x = ⊥) ∧ (y = ⊤ ∨ y = ⊥)) then none
      else if y = 0 then some (if 0 < x then ⊤ else ⊥) else some (x / y) := by
  have top : ∀ r : ℝ, r ≠ 0 → (⊤ : EReal) / (r : EReal) = if 0 ≤ r then ⊤ else ⊥ := by
    intro r h
    rcases lt_or_gt_of_ne h with h | h
    · rw [if_neg (not_le.mpr h)]; exact EReal.top_div_of_neg_ne_bot (by exact_mod_cast h) (EReal.coe_ne_bot _)
    · rw [if_pos h.le]; exact EReal.top_div_of_pos_ne_top (by exact_mod_cast h) (EReal.coe_ne_top _)
  have bot : ∀ r : ℝ, r ≠ 0 → (⊥ : EReal) / (r : EReal) = if 0 ≤ r then ⊥ else ⊤ := by
    intro r h
    rcases lt_or_gt_of_ne h with h | h
    · rw [if_neg (not_le.mpr h)]; exact EReal.bot_div_of_neg_ne_bot (by exact_mod_cast h) (EReal.coe_ne_bot _)
    · rw [if_pos h.le]; exact EReal.bot_div_of_pos_ne_top (by exact_mod_cast h) (EReal.coe_ne_top _)
  cases a with
  | nan => cases b <;> simp [div]
  | negInf =>
    cases b with
    | fin r =>
      by_cases h : r = 0
      · simp [div, h]
      · simp only [div, toE_negInf, toE_fin, Option.bind_some, EReal.coe_eq_zero, h, bot r h]
        by_cases h0 : 0 ≤ r <;> simp [h0]
    | _ => simp [div]
  | posInf =>
    cases b with
    | fin r =>
      by_cases h : r = 0
      · simp [div, h]
      · simp only [div, toE_posInf, toE_fin, Option.bind_some, EReal.coe_eq_zero, h, top r h]
        by_cases h0 : 0 ≤ r <;> simp [h0]
    | _ => simp [div]
  | fin s =>
    cases b with
    | fin r =>
      by_cases h : r = 0
      · by_cases hs : s = 0
        · simp [div, h, hs]
        · by_cases h0 : 0 < s <;> simp [div, h, hs, h0]
      · simp [div, h, EReal.coe_div]
    | _ => simp [div]

theorem exp_toE (a : XR) : toE a.exp = (toE a).map (fun x => ((EReal.exp x : ENNReal) : EReal)) := by
  cases a <;> simp [exp, Real.exp_nonneg]

/-- The logarithm of a negative number is NaN. -/
theorem log_toE (a : XR) : toE a.log = (toE a).bind (fun x => if x < 0 then none else some (ENNReal.log x.toENNReal)) := by
  cases a with
  | fin r =>
    rcases lt_trichotomy r 0 with h | h | h
    · simp [log, toE, h]
    · simp [log, toE, h]
    · simp only [log, toE_fin, h.ne', not_lt.mpr h.le, if_false, Option.bind_some]
      rw [if_neg (by exact_mod_cast not_lt.mpr h.le), EReal.toENNReal_of_ne_top (EReal.coe_ne_top _), EReal.toReal_coe,
        ENNReal.log_ofReal_of_pos h]
  | _ => simp [log, toE]

theorem ltb_toE (a b : XR) : ltb a b = true ↔ ∃ x y, toE a = some x ∧ toE b = some y ∧ x < y := by
  cases a <;> cases b <;> simp [ltb, toE]

theorem eqb_toE (a b : XR) : eqb a b = true ↔ ∃ x y, toE a = some x ∧ toE b = some y ∧ x = y := by
  cases a <;> cases b <;> simp [eqb, toE, eq_comm]

theorem leb_toE (a b : XR) : leb a b = true ↔ ∃ x y, toE a = some x ∧ toE b = some y ∧ x ≤ y := by
  unfold leb
  rw [Bool.or_eq_true, ltb_toE, eqb_toE]
  constructor
  · rintro (⟨x, y, h1, h2, h3⟩ | ⟨x, y, h1, h2, h3⟩)
    · exact ⟨x, y, h1, h2, h3.le⟩
    · exact ⟨x, y, h1, h2, h3.le⟩
  · rintro ⟨x, y, h1, h2, h3⟩
    rcases h3.lt_or_eq with h | h
    · exact .inl ⟨x, y, h1, h2, h⟩
    · exact .inr ⟨x, y, h1, h2, h⟩

end SampleFlow.XR
