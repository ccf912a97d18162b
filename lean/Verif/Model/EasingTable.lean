import Verif.Model.Easing

/-!
# Model of the look-up table of a cubic Bezier easing function, in binary32

From `ink/strokes/internal/easing_implementation.cc`.
-/

set_option autoImplicit false

namespace Verif.Easing

open F32

/-- easing_implementation.cc:36-41 `CubicBezierValue`, the three coefficients; the integers are converted to `float`. -/
def coeffs (t : F32) : F32 × F32 × F32 :=
  let s := sub one t
  (mul (mul (mul (ofInt 3) s) s) t, mul (mul (mul (ofInt 3) s) t) t, mul (mul t t) t)

/-- easing_implementation.cc:40, one component; vec.h: the operators of `Vec` act on each component. -/
def combine (c : F32 × F32 × F32) (a b : F32) : F32 := add (add (mul c.1 a) (mul c.2.1 b)) c.2.2

/-- easing_implementation.cc:36-41 `CubicBezierValue` -/
def bezierValue (v1 v2 : PointF) (t : F32) : PointF :=
  ⟨combine (coeffs t) v1.x v2.x, combine (coeffs t) v1.y v2.y⟩

/-- easing_implementation.cc:111-112 `kTableDeltaX` -/
def deltaX : F32 := div one (sub (ofInt tableSize) one)

/-- easing_implementation.cc:116 `kTStep`; 110 `kdBxdtLimit` is 3. The pattern is that of 0.5. -/
def tStep : F32 := div (mul (.fin false 0x3F000000 (by decide)) deltaX) (ofInt 3)

/-- easing_implementation.cc:122 `target_x` -/
def targetX (i : Nat) : F32 := mul (ofInt i) deltaX

/-- easing_implementation.cc:123-127 the inner loop: the new `t`, `last_value` and `value`. The first argument bounds the number
of iterations; `none` if it does not suffice. (C29_bezier_table: 78 suffice, and the result does not depend on it.) -/
def advance (v1 v2 : PointF) (target : F32) : Nat → F32 → PointF → Option (F32 × PointF × PointF)
  | 0, _, _ => none
  | n + 1, t, value =>
    let t' := add t tStep
    let value' := bezierValue v1 v2 t'
    if lt value'.x target then advance v1 v2 target n t' value' else some (t', value, value')

/-- easing_implementation.cc:129-131 one entry. -/
def entry (last value : PointF) (target : F32) : F32 := lerpF last.y value.y (inverseLerpF last.x value.x target)

/-- easing_implementation.cc:121-132 the outer loop, for `n` entries from index `i`. -/
def tableFrom (v1 v2 : PointF) (fuel : Nat) : Nat → Nat → F32 → PointF → Option (List F32)
  | 0, _, _, _ => some []
  | n + 1, i, t, value =>
    (advance v1 v2 (targetX i) fuel t value).bind fun r =>
      (tableFrom v1 v2 fuel n (i + 1) r.1 r.2.2).map (entry r.2.1 r.2.2 (targetX i) :: ·)

/-- easing_implementation.cc:93-134; `none` if an inner loop has more than `fuel` iterations. -/
def table (fuel : Nat) (c : CubicBezier) : Option (List F32) :=
  tableFrom ⟨c.x1, c.y1⟩ ⟨c.x2, c.y2⟩ fuel tableSize 0 zero ⟨zero, zero⟩

/-- easing_implementation.cc:93-134 the table. (For parameters that are not valid, for which the loops need not end, the value here
is a stand-in; valid ones never get it, see C29_bezier_table.) -/
def tabulate (c : CubicBezier) : List F32 := (table 78 c).getD (List.replicate tableSize zero)

end Verif.Easing
