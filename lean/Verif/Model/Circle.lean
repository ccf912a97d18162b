import Mathlib.Analysis.SpecialFunctions.Complex.Arg
import Mathlib.Analysis.SpecialFunctions.Trigonometric.Inverse

/-!
# Model of `Vec` as a direction and a magnitude, and of `Circle`, in real arithmetic

From `ink/geometry/vec.{h,cc}`, `ink/geometry/angle.{h,cc}` and `ink/geometry/internal/circle.{h,cc}`. A `Vec` and a `Point` are complex
numbers: `re` is x and `im` is y. Angles are real numbers, in radians. Functions of the C++ library are replaced by the functions they
approximate: `std::hypot` is the norm, `std::atan2` is `Complex.arg`, `std::acos`, `std::cos` and `std::sin` those of Mathlib. There are
no NaN, no infinities and one zero. `none` is a failed CHECK.
-/

set_option autoImplicit false

namespace Verif.RealGeom

/-- `std::trunc` -/
noncomputable def trunc (x : ℝ) : ℤ := if 0 ≤ x then ⌊x⌋ else ⌈x⌉

/-- `std::fmod` -/
noncomputable def fmod (x y : ℝ) : ℝ := x - trunc (x / y) * y

/-- `std::clamp` -/
noncomputable def clamp (x lo hi : ℝ) : ℝ := if x < lo then lo else if hi < x then hi else x

namespace Angle

/-- angle.cc:45-53 `NormalizedAboutZero` -/
noncomputable def normalizedAboutZero (a : ℝ) : ℝ :=
  let r := fmod a (2 * Real.pi)
  if r > Real.pi then r - 2 * Real.pi
  else if r ≤ -Real.pi then r + 2 * Real.pi
  else r

end Angle

namespace Vec

/-- vec.h:34-36 `FromDirectionAndMagnitude` -/
noncomputable def fromDirectionAndMagnitude (direction magnitude : ℝ) : ℂ := ⟨magnitude * Real.cos direction, magnitude * Real.sin direction⟩

/-- vec.h:39 `Magnitude` -/
noncomputable def magnitude (v : ℂ) : ℝ := Real.sqrt (v.re * v.re + v.im * v.im)

/-- vec.h:52 `Direction`; `std::atan2(y, x)` -/
noncomputable def direction (v : ℂ) : ℝ := Complex.arg v

/-- vec.h:56 `Orthogonal` -/
def orthogonal (v : ℂ) : ℂ := ⟨-v.im, v.re⟩

open Classical in
/-- vec.cc:28-62 `AsUnitVec`, of a vector without NaN and infinities -/
noncomputable def asUnitVec (v : ℂ) : ℂ :=
  if v.re = 0 ∧ v.im = 0 then ⟨1, 0⟩
  else
    let scaled : ℂ := ⟨1 / 2 * v.re, 1 / 2 * v.im⟩
    ⟨scaled.re / magnitude scaled, scaled.im / magnitude scaled⟩

/-- vec.h:71-73 `DotProduct` -/
def dotProduct (a b : ℂ) : ℝ := a.re * b.re + a.im * b.im

/-- vec.h:83-85 `Determinant` -/
def determinant (a b : ℂ) : ℝ := a.re * b.im - a.im * b.re

/-- vec.h:94-97 `AbsoluteAngleBetween` -/
noncomputable def absoluteAngleBetween (a b : ℂ) : ℝ := Real.arccos (clamp (dotProduct (asUnitVec a) (asUnitVec b)) (-1) 1)

open Classical in
/-- vec.cc:64-86 `SignedAngleBetween` -/
noncomputable def signedAngleBetween (a b : ℂ) : ℝ :=
  let aUnit := asUnitVec a
  let bUnit := asUnitVec b
  let angle := Real.arccos (clamp (dotProduct aUnit bUnit) (-1) 1)
  if angle = Real.pi ∨ determinant aUnit bUnit ≥ 0 then angle else -angle

end Vec

/-- circle.h:113-114 `Circle`. The constructor (circle.h:120-123) checks that the radius is not negative. -/
structure Circle where
  center : ℂ
  radius : ℝ

namespace Circle

/-- circle.h:129-131 `GetPoint` -/
noncomputable def getPoint (c : Circle) (angle : ℝ) : ℂ := c.center + Vec.fromDirectionAndMagnitude angle c.radius

/-- circle.h:143-145 `Contains` -/
def Contains (c other : Circle) : Prop := Vec.magnitude (other.center - c.center) + other.radius ≤ c.radius

open Classical in
/-- circle.cc:84-87 `GetArcAngleForChordHeight` -/
noncomputable def getArcAngleForChordHeight (c : Circle) (chordHeight : ℝ) : ℝ :=
  if c.radius = 0 then 0 else 2 * Real.arccos (clamp (1 - chordHeight / c.radius) (-1) 1)

/-- circle.cc:44-46: the number of steps, a whole number between 1 and 32767, converted to an integer -/
noncomputable def steps (arcAngle maxStepAngle : ℝ) : ℕ :=
  (trunc (clamp (⌈|arcAngle / maxStepAngle|⌉ : ℤ) 1 32767)).toNat

/-- circle.cc:51-54, the loop from `i` that adds `n` points -/
noncomputable def arcLoop (c : Circle) (start stepAngle : ℝ) (polyline : List ℂ) (i : ℕ) : ℕ → List ℂ
  | 0 => polyline
  | n + 1 => arcLoop c start stepAngle (polyline ++ [c.getPoint (start + i * stepAngle)]) (i + 1) n

open Classical in
/-- circle.cc:31-56 `AppendArcToPolyline` -/
noncomputable def appendArcToPolyline (c : Circle) (start arcAngle maxChordHeight : ℝ) (polyline : List ℂ) : Option (List ℂ) :=
  if maxChordHeight > 0 then
    if c.radius = 0 then some (polyline ++ [c.center, c.center])
    else
      let maxStepAngle := c.getArcAngleForChordHeight maxChordHeight
      let n := steps arcAngle maxStepAngle
      let stepAngle := arcAngle / n
      let polyline := polyline ++ [c.getPoint start]
      let polyline := arcLoop c start stepAngle polyline 1 (n - 1)
      some (polyline ++ [c.getPoint (start + arcAngle)])
  else none

/-- circle.h:57-60 `TangentAngles` -/
structure TangentAngles where
  left : ℝ
  right : ℝ

open Classical in
/-- circle.cc:58-82 `GetTangentAngles` -/
noncomputable def getTangentAngles (c other : Circle) : Option TangentAngles :=
  let centerOffset := other.center - c.center
  let distance := Vec.magnitude centerOffset
  let deltaRadius := c.radius - other.radius
  if c.center = other.center ∨ |deltaRadius| ≥ distance then none
  else
    let offsetAngle := Real.arccos (deltaRadius / distance)
    let referenceAngle := Vec.direction centerOffset
    some ⟨Angle.normalizedAboutZero (referenceAngle + offsetAngle), Angle.normalizedAboutZero (referenceAngle - offsetAngle)⟩

/-- circle.h:133-141 `GuaranteedRightTangentAngle`. That none contains the other is only checked in debug builds. -/
noncomputable def guaranteedRightTangentAngle (c other : Circle) : ℝ :=
  let centerOffset := other.center - c.center
  Angle.normalizedAboutZero (Vec.direction centerOffset - Real.arccos ((c.radius - other.radius) / Vec.magnitude centerOffset))

end Circle

end Verif.RealGeom
