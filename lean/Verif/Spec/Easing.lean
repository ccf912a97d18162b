import Verif.Model.Rect

/-!
# Specification of piecewise-linear and step easing functions

After the comments of `ink/brush/easing_function.h:88-168`.
-/

set_option autoImplicit false

namespace Verif.EasingSpec

open F32

/-- The given points with the implicit (0, 0) and (1, 1). -/
def knots (points : List PointF) : List PointF :=
  ⟨zero, zero⟩ :: points ++ [⟨RectF.one, RectF.one⟩]

/-- The height at `x` of the line through `a` and `b`, computed in binary32 as
`a.y + (b.y - a.y) * ((x - a.x) / (b.x - a.x))`, and as the common height if there is one. -/
def line (a b : PointF) (x : F32) : F32 :=
  if feq a.y b.y then b.y
  else add a.y (mul (sub b.y a.y) (div (sub x a.x) (sub b.x a.x)))

/-- Where `x` lies between two consecutive knots: at or after `a` and before `b`. -/
def Between (points : List PointF) (x : F32) (a b : PointF) : Prop :=
  (∃ l r, knots points = l ++ a :: b :: r) ∧ le a.x x = true ∧ lt x b.x = true

/-- The exact height of step number `k` (from 0) out of `n`. -/
inductive StepKind where
  | jumpEnd | jumpStart | jumpBoth | jumpNone

def stepHeight (n : ℚ) (k : ℚ) : StepKind → ℚ
  | .jumpEnd => k / n
  | .jumpStart => (k + 1) / n
  | .jumpBoth => (k + 1) / (n + 1)
  | .jumpNone => k / (n - 1)

end Verif.EasingSpec
