import Verif.Model.BrushTipShape
import Verif.Model.RoundedPolygon

/-!
# Model of the tangents between two tip shapes and of `BrushTipExtrusion::EvaluateTangentQuality`, in real arithmetic

From `ink/strokes/internal/brush_tip_extrusion.{h,cc}` and, for the circles that tangents connect,
`ink/strokes/internal/brush_tip_shape.cc`. Numbers are real numbers, as in `Verif.Model.Circle`: there is no rounding, no NaN and no
infinity. `none` is a failed CHECK, an index out of range or an endless loop, where the code does not return an optional value. A
DCHECK does nothing: this is the code of a release build.
-/

set_option autoImplicit false

namespace Verif.RealGeom

namespace TipShape

/-- brush_tip_shape.cc:171-176, the variables of `GetRearIndices` -/
structure Rear where
  left : ℕ
  right : ℕ
  dotProduct : ℝ
  leftDeterminant : ℝ
  rightDeterminant : ℝ

open Classical in
/-- brush_tip_shape.cc:178-197, the loop -/
noncomputable def rearLoop (center forward : ℂ) (s : Rear) (i : ℕ) : List Circle → Rear
  | [] => s
  | c :: cs =>
    let offset := c.center - center
    let dotProduct := Vec.dotProduct forward offset
    let determinant := Vec.determinant forward offset
    let s :=
      if dotProduct < s.dotProduct then ⟨i, i, dotProduct, determinant, determinant⟩
      else if dotProduct = s.dotProduct then
        if determinant > s.leftDeterminant then { s with left := i, leftDeterminant := determinant }
        else if determinant < s.rightDeterminant then { s with right := i, rightDeterminant := determinant }
        else s
      else s
    rearLoop center forward s (i + 1) cs

/-- brush_tip_shape.cc:167-200 `GetRearIndices` -/
noncomputable def rearIndices (s : TipShape) (forward : ℂ) : Option (ℕ × ℕ) :=
  match s.circles with
  | [] => none
  | c :: cs =>
    let offset := c.center - s.center
    let determinant := Vec.determinant forward offset
    let r := rearLoop s.center forward ⟨0, 0, Vec.dotProduct forward offset, determinant, determinant⟩ 1 cs
    some (r.left, r.right)

/-- brush_tip_shape.cc:212 `TangentSide` -/
inductive Side where
  | left
  | right
  deriving DecidableEq

open Classical in
/-- brush_tip_shape.cc:213-227 `CalculateTangentProperties`: the turn angle and the length; `none` is `std::nullopt` -/
noncomputable def tangentProperties (start stop : Circle) (direction : ℂ) (side : Side) : Option (ℝ × ℝ) :=
  (start.getTangentAngles stop).map fun angles =>
    let tangentAngle := if side = .left then angles.left else angles.right
    let offset := stop.getPoint tangentAngle - start.getPoint tangentAngle
    let angle := if offset = 0 then 0 else Vec.signedAngleBetween direction offset
    (angle, Vec.magnitude offset)

open Classical in
/-- brush_tip_shape.cc:248-260, the loop; `best` is the index and the tangent that are the leftmost so far -/
noncomputable def leftmostLoop (start : Circle) (direction : ℂ) (best : Option (ℕ × ℝ × ℝ)) (i : ℕ) : List Circle → Option (ℕ × ℝ × ℝ)
  | [] => best
  | c :: cs =>
    match tangentProperties start c direction .left with
    | none => leftmostLoop start direction best (i + 1) cs
    | some t =>
      if t.1 > Real.pi / 2 then leftmostLoop start direction best (i + 1) cs
      else
        match best with
        | none => leftmostLoop start direction (some (i, t)) (i + 1) cs
        | some b =>
          if t.1 > b.2.1 ∨ t.1 = b.2.1 ∧ t.2 < b.2.2 then leftmostLoop start direction (some (i, t)) (i + 1) cs
          else leftmostLoop start direction best (i + 1) cs

open Classical in
/-- brush_tip_shape.cc:241-267 `GetLeftmostTurningIndex`; `none` is `std::nullopt` -/
noncomputable def leftmostTurningIndex (start : Circle) (direction : ℂ) (shape : TipShape) (thresholdAngle : ℝ) : Option ℕ :=
  match leftmostLoop start direction none 0 shape.circles with
  | some b => if b.2.1 ≥ thresholdAngle then some b.1 else none
  | none => none

open Classical in
/-- brush_tip_shape.cc:283-295, the loop -/
noncomputable def rightmostLoop (start : Circle) (direction : ℂ) (best : Option (ℕ × ℝ × ℝ)) (i : ℕ) : List Circle → Option (ℕ × ℝ × ℝ)
  | [] => best
  | c :: cs =>
    match tangentProperties start c direction .right with
    | none => rightmostLoop start direction best (i + 1) cs
    | some t =>
      if t.1 < -(Real.pi / 2) then rightmostLoop start direction best (i + 1) cs
      else
        match best with
        | none => rightmostLoop start direction (some (i, t)) (i + 1) cs
        | some b =>
          if t.1 < b.2.1 ∨ t.1 = b.2.1 ∧ t.2 < b.2.2 then rightmostLoop start direction (some (i, t)) (i + 1) cs
          else rightmostLoop start direction best (i + 1) cs

open Classical in
/-- brush_tip_shape.cc:276-302 `GetRightmostTurningIndex`; `none` is `std::nullopt` -/
noncomputable def rightmostTurningIndex (start : Circle) (direction : ℂ) (shape : TipShape) (limitAngle : ℝ) : Option ℕ :=
  match rightmostLoop start direction none 0 shape.circles with
  | some b => if b.2.1 ≤ limitAngle then some b.1 else none
  | none => none

open Classical in
/-- brush_tip_shape.cc:304-309 `GetForwardDirectionWithFallback` -/
noncomputable def forwardDirection (first second : TipShape) : ℂ :=
  if first.center = second.center then 1 else Vec.asUnitVec (second.center - first.center)

/-- brush_tip_shape.h:121-124 `TangentCircleIndices` -/
structure TangentIndices where
  left : ℕ × ℕ
  right : ℕ × ℕ

/-- brush_tip_shape.cc:363-383, the loop for the left side, for `n` candidates; `some none`: none is found -/
noncomputable def leftLoop (first second : TipShape) (forward : ℂ) (candidate : ℕ) : ℕ → Option (Option (ℕ × ℕ))
  | 0 => some none
  | n + 1 =>
    let next := first.nextCw candidate
    match first.circles[candidate]?, first.circles[next]? with
    | some c, some d =>
      match tangentProperties c d forward .left with
      | none => none
      | some tangent =>
        match leftmostTurningIndex c forward second tangent.1 with
        | some i => some (some (candidate, i))
        | none => leftLoop first second forward next n
    | _, _ => none

/-- brush_tip_shape.cc:399-419, the loop for the right side -/
noncomputable def rightLoop (first second : TipShape) (forward : ℂ) (candidate : ℕ) : ℕ → Option (Option (ℕ × ℕ))
  | 0 => some none
  | n + 1 =>
    let next := first.nextCcw candidate
    match first.circles[candidate]?, first.circles[next]? with
    | some c, some d =>
      match tangentProperties c d forward .right with
      | none => none
      | some tangent =>
        match rightmostTurningIndex c forward second tangent.1 with
        | some i => some (some (candidate, i))
        | none => rightLoop first second forward next n
    | _, _ => none

/-- brush_tip_shape.cc:360-394, the left side, from the rear index on -/
noncomputable def leftSide (first second : TipShape) (forward : ℂ) (rear : ℕ) : Option (ℕ × ℕ) :=
  match leftLoop first second forward rear first.circles.length with
  | none => none
  | some (some found) => some found
  | some none => first.circles[rear]?.map fun c => (rear, (leftmostTurningIndex c forward second (-Real.pi)).getD 0)

/-- brush_tip_shape.cc:396-430, the right side -/
noncomputable def rightSide (first second : TipShape) (forward : ℂ) (rear : ℕ) : Option (ℕ × ℕ) :=
  match rightLoop first second forward rear first.circles.length with
  | none => none
  | some (some found) => some found
  | some none => first.circles[rear]?.map fun c => (rear, (rightmostTurningIndex c forward second Real.pi).getD 0)

/-- brush_tip_shape.cc:313-433 `GetTangentCircleIndices` -/
noncomputable def tangentCircleIndices (first second : TipShape) : Option TangentIndices :=
  if first.circles.length = 1 ∧ second.circles.length = 1 then some ⟨(0, 0), (0, 0)⟩
  else
    let forward := forwardDirection first second
    match first.circles with
    | [c] => some ⟨(0, (leftmostTurningIndex c forward second (-Real.pi)).getD 0),
        (0, (rightmostTurningIndex c forward second Real.pi).getD 0)⟩
    | _ =>
      match first.rearIndices forward with
      | none => none
      | some rear =>
        match first.leftSide second forward rear.1, first.rightSide second forward rear.2 with
        | some left, some right => some ⟨left, right⟩
        | _, _ => none

/-- brush_tip_extrusion.cc:50-52 `add_one_circle_with_offset` -/
noncomputable def withOffset (offset : ℝ) (c : Circle) : Circle := ⟨c.center, c.radius + offset⟩

/-- brush_tip_extrusion.cc:48-62 `add_circles`, from `index` on, for at most `n` circles. For one index this is what the first branch
does. -/
noncomputable def addCircles (s : TipShape) (offset : ℝ) (last : ℕ) (index : ℕ) : ℕ → Option (List Circle)
  | 0 => none
  | n + 1 =>
    if index = last then s.circles[last]?.map fun c => [withOffset offset c]
    else
      match s.circles[index]?, s.addCircles offset last (s.nextCcw index) n with
      | some c, some cs => some (withOffset offset c :: cs)
      | _, _ => none

open Classical in
/-- brush_tip_extrusion.cc:37-68 `ConstructJoinedShape` -/
noncomputable def constructJoinedShape (first second : TipShape) (indices : TangentIndices) (offset : ℝ) :
    Option (List RoundedPolygon.Arc) :=
  if offset ≥ 0 then
    match first.addCircles offset indices.right.1 indices.left.1 first.circles.length,
        second.addCircles offset indices.left.2 indices.right.2 second.circles.length with
    | some a, some b => RoundedPolygon.make (a ++ b)
    | _, _ => none
  else none

open Classical in
/-- brush_tip_extrusion.cc:121-127 and 128-134, a loop over unused circles, from `index` on, for at most `n` circles: whether none of
them is outside -/
noncomputable def unusedLoop (joined : List RoundedPolygon.Arc) (s : TipShape) (last : ℕ) (index : ℕ) : ℕ → Option Bool
  | 0 => none
  | n + 1 =>
    if index = last then some true
    else
      match s.circles[index]? with
      | none => none
      | some c => if RoundedPolygon.ContainsCircle joined c then unusedLoop joined s last (s.nextCcw index) n else some false

end TipShape

/-- brush_tip_extrusion.h:51-62 `TangentQuality` -/
inductive TangentQuality where
  | firstContainsSecond
  | secondContainsFirst
  | bad
  | good
  deriving DecidableEq

/-- brush_tip_extrusion.cc:106-113 -/
noncomputable def joinOffset (a b : RealRect) : ℝ :=
  1 / 1000000 * max |a.xMin| (max |a.xMax| (max |a.yMin| (max |a.yMax| (max |b.xMin| (max |b.xMax| (max |b.yMin| |b.yMax|))))))

open TipShape in
/-- brush_tip_extrusion.cc:70-137 `EvaluateTangentQualityInternal` -/
noncomputable def evaluateInternal (first second : TipShape) : Option TangentQuality :=
  match first.contains second, second.contains first with
  | some true, _ => some .firstContainsSecond
  | some false, some true => some .secondContainsFirst
  | some false, some false =>
    if first.circles.length = 1 ∧ second.circles.length = 1 then some .good
    else
      match tangentCircleIndices first second with
      | none => none
      | some indices =>
        if first.nextCw indices.left.1 = indices.right.1 ∧ second.nextCw indices.right.2 = indices.left.2 then some .good
        else
          match first.bounds, second.bounds with
          | some a, some b =>
            match constructJoinedShape first second indices (joinOffset a b) with
            | none => none
            | some joined =>
              match unusedLoop joined first indices.left.1 (first.nextCcw indices.right.1) first.circles.length with
              | none => none
              | some false => some .bad
              | some true =>
                match unusedLoop joined second indices.right.2 (second.nextCcw indices.left.2) second.circles.length with
                | none => none
                | some false => some .bad
                | some true => some .good
          | _, _ => none
  | _, _ => none

/-- brush_tip_extrusion.h:28-71 `BrushTipExtrusion` that is not a break point -/
structure TipExtrusion where
  state : TipState
  shape : TipShape

/-- brush_tip_extrusion.h:39-42, the constructor -/
noncomputable def TipExtrusion.make (state : TipState) (minSep : ℝ) : Option TipExtrusion :=
  (TipShape.make state minSep).map fun shape => ⟨state, shape⟩

/-- brush_tip_extrusion.cc:139-145 `StatesHaveEqualShapeProperties` -/
def EqualShapeProperties (first second : TipState) : Prop :=
  first.width = second.width ∧ first.height = second.height ∧ first.percentRadius = second.percentRadius ∧
    first.rotation = second.rotation ∧ first.slant = second.slant ∧ first.pinch = second.pinch

open Classical in
/-- brush_tip_extrusion.cc:149-159 `EvaluateTangentQuality`. `Distance` of two points is the magnitude of their difference
(distance.h:70). -/
noncomputable def evaluateTangentQuality (first second : TipExtrusion) (travelThreshold : ℝ) : Option TangentQuality :=
  if Vec.magnitude (first.state.position - second.state.position) > travelThreshold ∧
      EqualShapeProperties first.state second.state then some .good
  else evaluateInternal first.shape second.shape

end Verif.RealGeom
