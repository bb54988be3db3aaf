import Verif.Model.IdealDouble

/-!
# Specification vocabulary: "not a number"
-/

namespace SampleFlow.Spec

open SampleFlow FloatOps

/-- The rules of IEEE 754 for the operations of the samplers on NaN, for an arbitrary set `nan` of values of an otherwise
arbitrary arithmetic: comparisons with NaN are false, and arithmetic and `exp` propagate it. -/
structure NanRules {D : Type} [FloatOps D] (nan : D → Prop) : Prop where
  eq_left : ∀ a b, nan a → eq a b = false
  lt_left : ∀ a b, nan a → lt a b = false
  lt_right : ∀ a b, nan b → lt a b = false
  le_right : ∀ a b, nan b → le a b = false
  sub_left : ∀ a b, nan a → nan (sub a b)
  sub_right : ∀ a b, nan b → nan (sub a b)
  mul_left : ∀ a b, nan a → nan (mul a b)
  mul_right : ∀ a b, nan b → nan (mul a b)
  div_left : ∀ a b, nan a → nan (div a b)
  div_right : ∀ a b, nan b → nan (div a b)
  exp : ∀ a, nan a → nan (exp a)

/-- Idealised doubles obey the rules. -/
theorem nanRules_ideal (max : ℝ) : @NanRules XR (idealOps max) (fun d => d = .nan) := by
  letI := idealOps max
  refine ⟨?_, ?_, ?_, ?_, ?_, ?_, ?_, ?_, ?_, ?_, ?_⟩
  · rintro a b rfl; cases b <;> rfl
  · rintro a b rfl; cases b <;> rfl
  · rintro a b rfl; cases a <;> rfl
  · rintro a b rfl; cases a <;> rfl
  · rintro a b rfl; cases b <;> rfl
  · rintro a b rfl; cases a <;> rfl
  · rintro a b rfl; cases b <;> rfl
  · rintro a b rfl; cases a <;> rfl
  · rintro a b rfl; cases b <;> rfl
  · rintro a b rfl; cases a <;> rfl
  · rintro a rfl; rfl

end SampleFlow.Spec
