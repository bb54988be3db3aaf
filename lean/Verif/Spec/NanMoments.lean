import Verif.Model.Rounding

/-!
# Not-a-number in sums, differences, products and quotients (C72)
-/

namespace SampleFlow.Spec

open SampleFlow

/-- IEEE 754: the result of an operation with a NaN operand is NaN.  (`nan` is the set of NaNs; nothing is said about the operations on other values, they may round, overflow, and produce NaN.) -/
structure NanPropagates {D : Type} [Arith D] (nan : D → Prop) : Prop where
  add_left : ∀ a b, nan a → nan (Arith.add a b)
  add_right : ∀ a b, nan b → nan (Arith.add a b)
  sub_left : ∀ a b, nan a → nan (Arith.sub a b)
  sub_right : ∀ a b, nan b → nan (Arith.sub a b)
  mul_left : ∀ a b, nan a → nan (Arith.mul a b)
  mul_right : ∀ a b, nan b → nan (Arith.mul a b)
  div_left : ∀ a b, nan a → nan (Arith.div a b)
  conj : ∀ a, nan a → nan (Arith.conj a)

end SampleFlow.Spec
