import Verif.F32.Ops

/-!
# Specification of interpolation (C80)
-/

set_option autoImplicit false

namespace Verif.Spec

open F32

/-- A finite number that is not near the greatest ones: differences and sums of two of them do not overflow. -/
def Moderate (a : F32) : Prop := a.isFinite = true ∧ |toRat a| ≤ 2 ^ 126

/-- A finite number from 0 to 1. -/
def UnitInterval (t : F32) : Prop := t.isFinite = true ∧ 0 ≤ toRat t ∧ toRat t ≤ 1

/-- `x` is one of the numbers from `a` to `b`, in either order. -/
def BetweenQ (a b x : ℚ) : Prop := a ≤ x ∧ x ≤ b ∨ b ≤ x ∧ x ≤ a

/-- `x` is finite and is `a + t·(b-a)` up to rounding. -/
def Interpolates (a b t x : F32) : Prop :=
  x.isFinite = true ∧ |toRat x - (toRat a + toRat t * (toRat b - toRat a))| ≤ (|toRat a| + |toRat b|) / 2 ^ 22 + 1 / 2 ^ 148

/-- `x` has the value of `a`. -/
def SameValue (x a : F32) : Prop := x.isFinite = true ∧ toRat x = toRat a

end Verif.Spec
