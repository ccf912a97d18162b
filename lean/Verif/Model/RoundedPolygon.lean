import Verif.Model.Circle

/-!
# Model of `RoundedPolygon`, in real arithmetic

From `ink/strokes/internal/rounded_polygon.{h,cc}` and `Segment::Project` (`ink/geometry/segment.cc`). Numbers are real numbers, as in
`Verif.Model.Circle`: there is no rounding, no NaN and no infinity. `none` is a failed CHECK or DCHECK, or `std::nullopt` where the
code returns an optional number.
-/

set_option autoImplicit false

namespace Verif.RealGeom

/-- segment.h:28-30 `Segment` -/
structure RealSegment where
  start : ℂ
  stop : ℂ

namespace RealSegment

/-- segment.h:36 `Vector` -/
def vector (s : RealSegment) : ℂ := s.stop - s.start

/-- segment.h:42 `Length` -/
noncomputable def length (s : RealSegment) : ℝ := Vec.magnitude s.vector

open Classical in
/-- segment.cc:32-44 `Project`. In real arithmetic the square of the length of a segment with two different ends is positive, so the
second test never succeeds. -/
noncomputable def project (s : RealSegment) (p : ℂ) : Option ℝ :=
  if s.start = s.stop then none
  else
    let magnitudeSquared := s.vector.re * s.vector.re + s.vector.im * s.vector.im
    if magnitudeSquared ≤ 0 then none
    else some (Vec.dotProduct (p - s.start) s.vector / magnitudeSquared)

end RealSegment

namespace RoundedPolygon

/-- rounded_polygon.h:51-55 `Arc` -/
structure Arc where
  circle : Circle
  startUnit : ℂ
  endUnit : ℂ

open Classical in
/-- rounded_polygon.cc:43-63, the loop of the constructor and the arc after it; the list has the circles from the index `i` of the loop -/
noncomputable def makeLoop (lastToFirst : ℝ) (incoming : ℝ) : List Circle → Option (List Arc)
  | [] => some []
  | [c] => some [⟨c, Vec.fromDirectionAndMagnitude incoming 1, Vec.fromDirectionAndMagnitude lastToFirst 1⟩]
  | c :: d :: cs =>
    if c.Contains d ∨ d.Contains c then none
    else
      let outgoing := c.guaranteedRightTangentAngle d
      (makeLoop lastToFirst outgoing (d :: cs)).map fun arcs =>
        ⟨c, Vec.fromDirectionAndMagnitude incoming 1, Vec.fromDirectionAndMagnitude outgoing 1⟩ :: arcs

open Classical in
/-- rounded_polygon.cc:33-64, the constructor. A polygon is the list of its arcs (rounded_polygon.h:83). -/
noncomputable def make (circles : List Circle) : Option (List Arc) :=
  if circles.length ≤ 1 then none
  else
    circles.head?.bind fun front => circles.getLast?.bind fun back =>
      if front.Contains back ∨ back.Contains front then none
      else
        let lastToFirst := back.guaranteedRightTangentAngle front
        makeLoop lastToFirst lastToFirst circles

/-- rounded_polygon.h:90-99 `GetSegment` -/
noncomputable def getSegment (arcs : List Arc) (index : ℕ) : Option RealSegment :=
  arcs[index]?.bind fun first => arcs[(index + 1) % arcs.length]?.map fun second =>
    ⟨first.circle.center + first.circle.radius * first.endUnit, second.circle.center + second.circle.radius * second.startUnit⟩

/-- rounded_polygon.cc:83, the tolerance `5e-6` -/
noncomputable def tolerance : ℝ := 5 / 1000000

open Classical in
/-- rounded_polygon.cc:77-114 `SignedDistanceToArc` -/
noncomputable def signedDistanceToArc (arc : Arc) (p : ℂ) : Option ℝ :=
  let toPoint := p - arc.circle.center
  let det := Vec.determinant arc.startUnit arc.endUnit
  if |det| < tolerance then none
  else if det < 0 then
    if Vec.determinant arc.startUnit toPoint < 0 ∧ Vec.determinant arc.endUnit toPoint > 0 then none
    else some (Vec.magnitude toPoint - arc.circle.radius)
  else
    if Vec.determinant arc.startUnit toPoint < 0 ∨ Vec.determinant arc.endUnit toPoint > 0 then none
    else some (Vec.magnitude toPoint - arc.circle.radius)

open Classical in
/-- rounded_polygon.cc:120-128 `SignedDistanceToSegment` -/
noncomputable def signedDistanceToSegment (s : RealSegment) (p : ℂ) : Option ℝ :=
  match s.project p with
  | none => none
  | some t => if t < 0 ∨ t > 1 then none else some (-Vec.determinant s.vector (p - s.start) / s.length)

/-- The comparison of an optional number with a number (`operator>` of `std::optional`): nothing is not greater. -/
def greater (d : Option ℝ) (x : ℝ) : Prop := ∃ y, d = some y ∧ y > x

/-- rounded_polygon.cc:132-143 `ContainsCircle`: the loop returns false at the first arc, or segment after it, at more than minus the
radius. The index is always valid, so that there always is a segment. -/
def ContainsCircle (arcs : List Arc) (c : Circle) : Prop :=
  ∀ i arc s, arcs[i]? = some arc → getSegment arcs i = some s →
    ¬(greater (signedDistanceToArc arc c.center) (-c.radius) ∨ greater (signedDistanceToSegment s c.center) (-c.radius))

end RoundedPolygon

end Verif.RealGeom
