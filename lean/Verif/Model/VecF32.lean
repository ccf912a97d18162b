import Verif.Model.Angle

/-!
# Model of unit vectors, angles between vectors and steps of arcs, in binary32

From `ink/geometry/vec.{h,cc}` and `ink/geometry/internal/circle.cc`. The functions `hypot`, `acos` and `ceil` of the C++ library are
parameters. `none` is a failed CHECK.
-/

set_option autoImplicit false

namespace Verif.VecF

open F32

abbrev one : F32 := .fin false 0x3F800000 (by decide)

abbrev half : F32 := .fin false 0x3F000000 (by decide)

/-- `static_cast<float>(0.5 * numbers::kSqrt2)` (vec.cc:40) -/
abbrev halfSqrt2 : F32 := .fin false 0x3F3504F3 (by decide)

/-- `std::copysign` of a magnitude that is not negative -/
def copysign (a s : F32) : F32 := if s.signBit then neg a else a

/-- vec.cc:28-62 `AsUnitVec`. The division by a scalar (vec.h:145-148) checks that the scalar is not zero. -/
def asUnitVec (hypot : F32 → F32 → F32) (v : F32 × F32) : Option (F32 × F32) :=
  if v.1.isNaN || v.2.isNaN then some (.nan, .nan)
  else if v.1.isInf then
    if v.2.isInf then some (copysign halfSqrt2 v.1, copysign halfSqrt2 v.2)
    else some (copysign one v.1, copysign zero v.2)
  else if v.2.isInf then some (copysign zero v.1, copysign one v.2)
  else if feq v.1 zero && feq v.2 zero then some (copysign one v.1, copysign zero v.2)
  else
    let x := mul half v.1
    let y := mul half v.2
    let m := hypot x y
    if feq m zero then none else some (div x m, div y m)

/-- vec.h:71-73 `DotProduct` -/
def dotProduct (a b : F32 × F32) : F32 := add (mul a.1 b.1) (mul a.2 b.2)

/-- vec.h:83-85 `Determinant` -/
def determinant (a b : F32 × F32) : F32 := sub (mul a.1 b.2) (mul a.2 b.1)

/-- vec.h:94-97 `AbsoluteAngleBetween` -/
def absoluteAngleBetween (hypot : F32 → F32 → F32) (acos : F32 → F32) (a b : F32 × F32) : Option F32 := do
  let a ← asUnitVec hypot a
  let b ← asUnitVec hypot b
  some (acos (clamp (dotProduct a b) (neg one) one))

/-- vec.cc:64-86 `SignedAngleBetween` -/
def signedAngleBetween (hypot : F32 → F32 → F32) (acos : F32 → F32) (a b : F32 × F32) : Option F32 := do
  let a ← asUnitVec hypot a
  let b ← asUnitVec hypot b
  let angle := acos (clamp (dotProduct a b) (neg one) one)
  some (if feq angle Angle.pi || ge (determinant a b) zero then angle else neg angle)

/-- circle.cc:84-87 `GetArcAngleForChordHeight` -/
def arcAngleForChordHeight (acos : F32 → F32) (radius chordHeight : F32) : F32 :=
  if feq radius zero then zero else mul (ofInt 2) (acos (clamp (sub one (div chordHeight radius)) (neg one) one))

/-- circle.cc:44-46, the number of steps of an arc before it is converted to an integer. The conversion is undefined for NaN. -/
def steps (acos ceil : F32 → F32) (radius arcAngle maxChordHeight : F32) : F32 :=
  clamp (ceil (fabs (div arcAngle (arcAngleForChordHeight acos radius maxChordHeight)))) one (ofInt 32767)

/-- What is used of `std::hypot`: it is a number not less than both absolute values, and zero for zeros. -/
structure HypotOk (hypot : F32 → F32 → F32) : Prop where
  left : ∀ x y, x.isNaN = false → y.isNaN = false → le (fabs x) (hypot x y) = true
  right : ∀ x y, x.isNaN = false → y.isNaN = false → le (fabs y) (hypot x y) = true
  zero : ∀ s t, feq (hypot (szero s) (szero t)) zero = true

/-- What is used of `std::acos`: its values for numbers from -1 to 1 are between zero and π, rounded. -/
structure AcosOk (acos : F32 → F32) : Prop where
  range : ∀ x, le (neg one) x = true → le x one = true → le F32.zero (acos x) = true ∧ le (acos x) Angle.pi = true
  nan : acos .nan = .nan

end Verif.VecF
