import Verif.Model.BrushTipExtrusion
import Verif.Model.SegmentAlgorithms
import Mathlib.Data.Real.Basic

/-!
# Model of the extrusion points of tip shapes, in real arithmetic

From `ink/strokes/internal/circular_extrusion_helpers.cc` and `ink/strokes/internal/brush_tip_shape.cc`. Numbers are real numbers, as in
`Verif.Model.Circle`: there is no rounding, no NaN and no infinity. `none` is a failed CHECK, an index out of range or an endless loop. A
DCHECK does nothing: this is the code of a release build.
-/

set_option autoImplicit false

namespace Verif.RealGeom

namespace Angle

/-- angle.cc:24-43 `Normalized`; without rounding the sum is never the full turn -/
noncomputable def normalized (a : ℝ) : ℝ :=
  let r := fmod a (2 * Real.pi)
  if r < 0 then r + 2 * Real.pi else r

end Angle

/-- algorithms.cc:227-234 `SegmentIntersection`, of points as complex numbers -/
noncomputable def segmentIntersection (a b c d : ℂ) : Option (Option ℂ) :=
  (Geo.segmentIntersection (⟨⟨a.re, a.im⟩, ⟨b.re, b.im⟩⟩ : Geo.Segment ℝ) ⟨⟨c.re, c.im⟩, ⟨d.re, d.im⟩⟩).map
    fun r => r.map fun p => ⟨p.x, p.y⟩

namespace CircularTurn

/-- circular_extrusion_helpers.cc:80 `kCollinearTol` -/
noncomputable def collinearTol : ℝ := 1 / 100000

open Classical in
/-- circular_extrusion_helpers.cc:81-88: snaps the incoming angle to the outgoing one if they are nearly the same -/
noncomputable def snap (incoming outgoing : ℝ) : ℝ :=
  let delta := |incoming - outgoing|
  if delta < collinearTol ∨ delta + collinearTol > 2 * Real.pi then outgoing else incoming

open Classical in
/-- circular_extrusion_helpers.cc:94-99: an angle that is not less than `first` -/
noncomputable def atLeast (first angle : ℝ) : ℝ := if angle < first then angle + 2 * Real.pi else angle

/-- circular_extrusion_helpers.cc:67-99: the incoming and the outgoing tangent angles, ordered from `incoming.left` -/
noncomputable def angles (start middle stop : Circle) : Option (Circle.TangentAngles × Circle.TangentAngles) :=
  match start.getTangentAngles middle, middle.getTangentAngles stop with
  | some incoming, some outgoing =>
    let inLeft := snap incoming.left outgoing.left
    let inRight := snap incoming.right outgoing.right
    some (⟨inLeft, atLeast inLeft inRight⟩, ⟨atLeast inLeft outgoing.left, atLeast inLeft outgoing.right⟩)
  | _, _ => none

open Classical in
/-- circular_extrusion_helpers.cc:41-55 `GetTangentAngleOrderCase` -/
noncomputable def orderCase (incoming outgoing : Circle.TangentAngles) : ℕ :=
  let second := min incoming.right (min outgoing.left outgoing.right)
  if second = outgoing.left then
    if outgoing.right ≤ incoming.right then 3 else 2
  else if second = outgoing.right then
    if outgoing.left ≤ incoming.right then 5 else 1
  else if outgoing.left ≤ outgoing.right then 6
  else 4

/-- circular_extrusion_helpers.cc:101-120 `add_intersection` -/
noncomputable def addIntersection (start middle stop : Circle) (incoming outgoing : ℝ) (result : List ℂ) : Option (List ℂ) :=
  (segmentIntersection (start.getPoint incoming) (middle.getPoint incoming) (middle.getPoint outgoing) (stop.getPoint outgoing)).map
    fun r => match r with
      | some p => result ++ [p]
      | none => result ++ [middle.getPoint incoming, middle.getPoint outgoing]

/-- circular_extrusion_helpers.cc:122-132 `add_left_arc`, of points that are not null -/
noncomputable def leftArc (middle : Circle) (incoming outgoing h : ℝ) (points : List ℂ) : Option (List ℂ) :=
  middle.appendArcToPolyline incoming (outgoing - incoming - 2 * Real.pi) h points

/-- circular_extrusion_helpers.cc:133-142 `add_right_arc`, of points that are not null -/
noncomputable def rightArc (middle : Circle) (incoming outgoing h : ℝ) (points : List ℂ) : Option (List ℂ) :=
  middle.appendArcToPolyline incoming (Angle.normalized (outgoing - incoming)) h points

/-- circular_extrusion_helpers.cc:144-199: whether there is an arc on the left side and whether there is one on the right side -/
noncomputable def arcs (start middle stop : Circle) (incoming outgoing : Circle.TangentAngles) (addIntersections : Bool) : Bool × Bool :=
  if ¬addIntersections then (true, true)
  else
    match orderCase incoming outgoing with
    | 1 => (true, false)
    | 2 => (false, true)
    | 3 => (false, false)
    | 4 => (true, true)
    | _ =>
      let turn := Vec.signedAngleBetween (middle.center - start.center) (stop.center - middle.center)
      if |turn| ≥ 2 * Real.pi / 3 then (true, true) else if turn < 0 then (true, false) else (false, true)

/-- circular_extrusion_helpers.cc:59-200 `AppendCircularTurnExtrusionPoints` with null right points -/
noncomputable def appendLeft (start middle stop : Circle) (h : ℝ) (addIntersections : Bool) (points : List ℂ) : Option (List ℂ) :=
  match angles start middle stop with
  | none => none
  | some (incoming, outgoing) =>
    if (arcs start middle stop incoming outgoing addIntersections).1 then leftArc middle incoming.left outgoing.left h points
    else addIntersection start middle stop incoming.left outgoing.left points

/-- circular_extrusion_helpers.cc:59-200 `AppendCircularTurnExtrusionPoints` with null left points -/
noncomputable def appendRight (start middle stop : Circle) (h : ℝ) (addIntersections : Bool) (points : List ℂ) : Option (List ℂ) :=
  match angles start middle stop with
  | none => none
  | some (incoming, outgoing) =>
    if (arcs start middle stop incoming outgoing addIntersections).2 then rightArc middle incoming.right outgoing.right h points
    else addIntersection start middle stop incoming.right outgoing.right points

end CircularTurn

/-- extrusion_points.h:29-32 `ExtrusionPoints` -/
structure ExtrusionPoints where
  left : List ℂ
  right : List ℂ

namespace TipShape

open Classical in
/-- brush_tip_shape.cc:474-487 `AppendLeftCircularTurnPoints`; the list has the circles from the index `i - 1` of the loop on -/
noncomputable def appendLeftTurns (h : ℝ) (addIntersections : Bool) (points : List ℂ) : List Circle → Option (List ℂ)
  | a :: b :: c :: cs =>
    if b.radius = 0 then appendLeftTurns h addIntersections (points ++ [b.center]) (b :: c :: cs)
    else
      match CircularTurn.appendLeft a b c h addIntersections points with
      | none => none
      | some points => appendLeftTurns h addIntersections points (b :: c :: cs)
  | _ => some points

open Classical in
/-- brush_tip_shape.cc:489-502 `AppendRightCircularTurnPoints` -/
noncomputable def appendRightTurns (h : ℝ) (addIntersections : Bool) (points : List ℂ) : List Circle → Option (List ℂ)
  | a :: b :: c :: cs =>
    if b.radius = 0 then appendRightTurns h addIntersections (points ++ [b.center]) (b :: c :: cs)
    else
      match CircularTurn.appendRight a b c h addIntersections points with
      | none => none
      | some points => appendRightTurns h addIntersections points (b :: c :: cs)
  | _ => some points

/-- brush_tip_shape.cc:530-535, 570-575, 694-699 and 724-729: the circles from `index` to `last`, where `next` is the next index; at most
`n` circles -/
def walk (s : TipShape) (next : ℕ → ℕ) (last : ℕ) (index : ℕ) : ℕ → Option (List Circle)
  | 0 => none
  | n + 1 =>
    match s.circles[index]? with
    | none => none
    | some c => if index = last then some [c] else (s.walk next last (next index) n).map fun cs => c :: cs

open Classical in
/-- brush_tip_shape.cc:619-621 `IsRightPoint` -/
noncomputable def isRightPoint (forward center p : ℂ) : Bool := decide (Vec.determinant forward (p - center) < 0)

/-- brush_tip_shape.cc:656-662, the loop, from the index `i` on: the number of right points and the index of the starting one -/
noncomputable def rightLoopCount (right : ℂ → Bool) (count : ℕ) (starting : Option ℕ) (i : ℕ) : List ℂ → ℕ × Option ℕ
  | [] => (count, starting)
  | p :: ps =>
    if right p then rightLoopCount right (count + 1) starting (i + 1) ps
    else if starting = none ∧ count > 0 then rightLoopCount right count (some (i - 1)) (i + 1) ps
    else rightLoopCount right count starting (i + 1) ps

/-- brush_tip_shape.cc:673-677, the loop, from `i` on, for `n` points -/
def moveLoop (new : List ℂ) (starting : ℕ) (right : List ℂ) (i : ℕ) : ℕ → Option (List ℂ)
  | 0 => some right
  | n + 1 =>
    let j := if i ≤ starting then starting - i else starting + new.length - i
    match new[j]? with
    | none => none
    | some p => moveLoop new starting (right ++ [p]) (i + 1) n

/-- brush_tip_shape.cc:679-682, the loop, `n` times -/
def moveBackLoop (points : ExtrusionPoints) : ℕ → Option ExtrusionPoints
  | 0 => some points
  | n + 1 =>
    match points.right.getLast? with
    | none => none
    | some p => moveBackLoop ⟨points.left ++ [p], points.right.dropLast⟩ n

/-- brush_tip_shape.cc:630-683 `MoveNewRightPointsOutOfLeft`. The new points are the last `count` of the left ones. -/
noncomputable def moveNewRightPointsOutOfLeft (forward center : ℂ) (count : ℕ) (points : ExtrusionPoints) : Option ExtrusionPoints :=
  let new := points.left.drop (points.left.length - count)
  let r := rightLoopCount (isRightPoint forward center) 0 none 0 new
  let starting := if r.2 = none ∧ r.1 > 0 then some (new.length - 1) else r.2
  match starting with
  | none => some points
  | some starting =>
    match moveLoop new starting points.right 0 count with
    | none => none
    | some right => moveBackLoop ⟨points.left.take (points.left.length - count), right⟩ (count - r.1)

/-- brush_tip_shape.cc:687-714 `AppendStartcapExtrusionPoints` -/
noncomputable def appendStartcap (first second : TipShape) (h : ℝ) (points : ExtrusionPoints) : Option ExtrusionPoints :=
  match tangentCircleIndices first second with
  | none => none
  | some ix =>
    match second.circles[ix.right.2]?, first.walk first.nextCw ix.left.1 ix.right.1 first.circles.length, second.circles[ix.left.2]? with
    | some a, some cs, some b =>
      match appendLeftTurns h false points.left (a :: cs ++ [b]) with
      | none => none
      | some left =>
        moveNewRightPointsOutOfLeft (forwardDirection first second) first.center (left.length - points.left.length) ⟨left, points.right⟩
    | _, _, _ => none

/-- brush_tip_shape.cc:742-750, the loop; `before` points stay on the left -/
noncomputable def endcapLoop (right : ℂ → Bool) (before : ℕ) (points : ExtrusionPoints) : ℕ → ExtrusionPoints
  | 0 => points
  | n + 1 =>
    match points.left.getLast? with
    | none => points
    | some p =>
      if points.left.length > before ∧ right p then endcapLoop right before ⟨points.left.dropLast, points.right ++ [p]⟩ n
      else points

/-- brush_tip_shape.cc:716-751 `AppendEndcapExtrusionPoints` -/
noncomputable def appendEndcap (secondToLast last : TipShape) (h : ℝ) (points : ExtrusionPoints) : Option ExtrusionPoints :=
  match tangentCircleIndices secondToLast last with
  | none => none
  | some ix =>
    match secondToLast.circles[ix.left.1]?, last.walk last.nextCw ix.right.2 ix.left.2 last.circles.length,
        secondToLast.circles[ix.right.1]? with
    | some a, some cs, some b =>
      match appendLeftTurns h false points.left (a :: cs ++ [b]) with
      | none => none
      | some left =>
        some (endcapLoop (isRightPoint (forwardDirection secondToLast last) last.center) points.left.length ⟨left, points.right⟩
          (left.length - points.left.length))
    | _, _, _ => none

/-- brush_tip_shape.cc:784-789, the loop, from the index `i` on, for `n` circles -/
def wholeLoop (s : TipShape) (i : ℕ) : ℕ → Option (List Circle)
  | 0 => some []
  | n + 1 =>
    match s.circles[i]?, s.wholeLoop (s.nextCw i) n with
    | some c, some cs => some (c :: cs)
    | _, _ => none

/-- brush_tip_shape.cc:753-796 `AppendWholeShapeExtrusionPoints` -/
noncomputable def appendWholeShape (s : TipShape) (h : ℝ) (forward : ℂ) (points : ExtrusionPoints) : Option ExtrusionPoints :=
  match s.circles with
  | [circle] =>
    let maxChordAngle := min (circle.getArcAngleForChordHeight h) Real.pi
    let rearAngle := Vec.direction (-forward)
    match circle.appendArcToPolyline (rearAngle - maxChordAngle / 2) (maxChordAngle - Real.pi) h points.left,
        circle.appendArcToPolyline (rearAngle + maxChordAngle / 2) (Real.pi - maxChordAngle) h points.right with
    | some left, some right => some ⟨left, right⟩
    | _, _ => none
  | _ =>
    match s.wholeLoop (s.nextCcw 0) (s.circles.length + 2) with
    | none => none
    | some cs =>
      match appendLeftTurns h false points.left cs with
      | none => none
      | some left => moveNewRightPointsOutOfLeft forward s.center (left.length - points.left.length) ⟨left, points.right⟩

/-- brush_tip_shape.cc:458-472 `GetTangentAngles` of two shapes -/
noncomputable def tangentAngles (first second : TipShape) (ix : TangentIndices) : Option Circle.TangentAngles :=
  match first.circles[ix.left.1]?, second.circles[ix.left.2]?, first.circles[ix.right.1]?, second.circles[ix.right.2]? with
  | some a, some b, some c, some d =>
    match a.getTangentAngles b, c.getTangentAngles d with
    | some left, some right => some ⟨left.left, right.right⟩
    | _, _ => none
  | _, _, _, _ => none

open Classical in
/-- brush_tip_shape.cc:527-566, the left side of a turn; the angles are ordered -/
noncomputable def turnLeft (start middle stop : TipShape) (h : ℝ) (inIx outIx : TangentIndices)
    (incoming outgoing : Circle.TangentAngles) (points : List ℂ) : Option (List ℂ) :=
  match start.circles[inIx.left.1]?, middle.circles[inIx.left.2]?, middle.circles[outIx.left.1]?, stop.circles[outIx.left.2]? with
  | some a, some b, some c, some d =>
    if inIx.left.2 = outIx.left.1 ∨ outgoing.left ≥ min incoming.right outgoing.right then
      match middle.walk middle.nextCw outIx.left.1 inIx.left.2 middle.circles.length with
      | none => none
      | some cs => appendLeftTurns h true points (a :: cs ++ [d])
    else
      (segmentIntersection (a.getPoint incoming.left) (b.getPoint incoming.left) (c.getPoint outgoing.left) (d.getPoint outgoing.left)).map
        fun r => match r with
          | some p => points ++ [p]
          | none => points ++ [b.getPoint incoming.left, c.getPoint outgoing.left]
  | _, _, _, _ => none

open Classical in
/-- brush_tip_shape.cc:568-611, the right side of a turn; the angles are ordered -/
noncomputable def turnRight (start middle stop : TipShape) (h : ℝ) (inIx outIx : TangentIndices)
    (incoming outgoing : Circle.TangentAngles) (points : List ℂ) : Option (List ℂ) :=
  match start.circles[inIx.right.1]?, middle.circles[inIx.right.2]?, middle.circles[outIx.right.1]?, stop.circles[outIx.right.2]? with
  | some a, some b, some c, some d =>
    if inIx.right.2 = outIx.right.1 ∨ outgoing.right > incoming.right ∨
        outgoing.left ≥ outgoing.right ∧ incoming.right ≥ outgoing.left then
      match middle.walk middle.nextCcw outIx.right.1 inIx.right.2 middle.circles.length with
      | none => none
      | some cs => appendRightTurns h true points (a :: cs ++ [d])
    else
      (segmentIntersection (a.getPoint incoming.right) (b.getPoint incoming.right) (c.getPoint outgoing.right)
        (d.getPoint outgoing.right)).map fun r => match r with
          | some p => points ++ [p]
          | none => points ++ [b.getPoint incoming.right, c.getPoint outgoing.right]
  | _, _, _, _ => none

/-- brush_tip_shape.cc:506-612 `AppendTurnExtrusionPoints` -/
noncomputable def appendTurn (start middle stop : TipShape) (h : ℝ) (points : ExtrusionPoints) : Option ExtrusionPoints :=
  match tangentCircleIndices start middle, tangentCircleIndices middle stop with
  | some inIx, some outIx =>
    match tangentAngles start middle inIx, tangentAngles middle stop outIx with
    | some incoming, some outgoing =>
      let outgoing : Circle.TangentAngles :=
        ⟨CircularTurn.atLeast incoming.left outgoing.left, CircularTurn.atLeast incoming.left outgoing.right⟩
      let incoming : Circle.TangentAngles := ⟨incoming.left, CircularTurn.atLeast incoming.left incoming.right⟩
      match turnLeft start middle stop h inIx outIx incoming outgoing points.left,
          turnRight start middle stop h inIx outIx incoming outgoing points.right with
      | some left, some right => some ⟨left, right⟩
      | _, _ => none
    | _, _ => none
  | _, _ => none

end TipShape

end Verif.RealGeom
