import Verif.Model.Circle

/-!
# Model of `BrushTipShape`, in real arithmetic

From `ink/strokes/internal/brush_tip_shape.{h,cc}`: the constructor, the perimeter circles, the bounds and `Contains`. Numbers are real
numbers, as in `Verif.Model.Circle`: there is no rounding, no NaN and no infinity. `none` is a failed CHECK. The extrusion points
and the indices of tangent circles are not modelled here.
-/

set_option autoImplicit false

namespace Verif.RealGeom

/-- brush_tip_state.h:26-41 `BrushTipState`, those fields that determine the shape -/
structure TipState where
  position : ℂ
  width : ℝ
  height : ℝ
  percentRadius : ℝ
  rotation : ℝ
  slant : ℝ
  pinch : ℝ

/-- brush_tip_shape.h:155-156 `BrushTipShape`. A `SmallArray` of circles is a list. -/
structure TipShape where
  center : ℂ
  circles : List Circle

/-- rect.h:229-232 `Rect` -/
structure RealRect where
  xMin : ℝ
  yMin : ℝ
  xMax : ℝ
  yMax : ℝ

namespace RealRect

/-- rect.h:44-49 `FromCenterAndDimensions`, of dimensions that are not negative -/
noncomputable def fromCenterAndDimensions (c : ℂ) (w h : ℝ) : RealRect := ⟨c.re - w / 2, c.im - h / 2, c.re + w / 2, c.im + h / 2⟩

/-- rect.h:277-282 `Join` -/
noncomputable def join (r s : RealRect) : RealRect := ⟨min r.xMin s.xMin, min r.yMin s.yMin, max r.xMax s.xMax, max r.yMax s.yMax⟩

/-- rect.h:128-131 `Contains` -/
def Contains (r s : RealRect) : Prop := r.xMin ≤ s.xMin ∧ r.xMax ≥ s.xMax ∧ r.yMin ≤ s.yMin ∧ r.yMax ≥ s.yMax

end RealRect

namespace TipShape

/-- brush_tip_shape.cc:54-64 `CalculateCircleRadius` -/
noncomputable def calculateCircleRadius (percentRadius halfWidth halfHeight minSep : ℝ) : ℝ :=
  let minHalfDimension := min halfWidth halfHeight
  let unmodifiedRadius := percentRadius * minHalfDimension
  if unmodifiedRadius < minSep then 0 else unmodifiedRadius

/-- affine_transform.h:109-113 `Rotate`, applied to a point (affine_transform.cc:54-56) -/
noncomputable def rotate (angle : ℝ) (p : ℂ) : ℂ :=
  ⟨Real.cos angle * p.re + -Real.sin angle * p.im, Real.sin angle * p.re + Real.cos angle * p.im⟩

/-- brush_tip_shape.cc:97-106 `make_circle`. The product of the translation and the rotation is applied as one after the other. -/
noncomputable def makeCircle (s : TipState) (radius x y : ℝ) : Circle :=
  let centerWithSlant := rotate s.slant ⟨0, y⟩ + ⟨x, 0⟩
  ⟨rotate s.rotation centerWithSlant + s.position, radius⟩

open Classical in
/-- brush_tip_shape.cc:66-144 `MakeShapeControlCircles` -/
noncomputable def makeShapeControlCircles (s : TipState) (minSep : ℝ) : Option (List Circle) :=
  if s.width ≥ 0 ∧ s.height ≥ 0 ∧ s.percentRadius ≥ 0 ∧ s.percentRadius ≤ 1 ∧ s.pinch ≥ 0 ∧ s.pinch ≤ 1 then
    let halfWidth := 1 / 2 * s.width
    let halfHeight := 1 / 2 * s.height
    let radius := calculateCircleRadius s.percentRadius halfWidth halfHeight minSep
    let x := halfWidth - radius
    let y := halfHeight - radius
    let x := if 2 * x < minSep then 0 else x
    let y := if 2 * y < minSep then 0 else y
    if x = 0 ∧ y = 0 then some [⟨s.position, radius⟩]
    else if y = 0 then some [makeCircle s radius x 0, makeCircle s radius (-x) 0]
    else if x = 0 then some [makeCircle s radius 0 y, makeCircle s radius 0 (-y)]
    else
      let xAfterPinch := (1 - s.pinch) * x
      if 2 * xAfterPinch < minSep then some [makeCircle s radius x y, makeCircle s radius (-x) y, makeCircle s radius 0 (-y)]
      else some [makeCircle s radius x y, makeCircle s radius (-x) y, makeCircle s radius (-xAfterPinch) (-y),
        makeCircle s radius xAfterPinch (-y)]
  else none

/-- `std::numeric_limits<float>::min()` -/
noncomputable def floatMin : ℝ := 1 / 2 ^ 126

/-- brush_tip_shape.cc:148-153, the constructor -/
noncomputable def make (s : TipState) (minSep : ℝ) : Option TipShape :=
  (makeShapeControlCircles s (max minSep floatMin)).map fun circles => ⟨s.position, circles⟩

/-- brush_tip_shape.cc:900-903 `GetNextPerimeterIndexCw` -/
def nextCw (s : TipShape) (index : ℕ) : ℕ := if index = 0 then s.circles.length - 1 else index - 1

/-- brush_tip_shape.cc:905-908 `GetNextPerimeterIndexCcw` -/
def nextCcw (s : TipShape) (index : ℕ) : ℕ := if index + 1 ≥ s.circles.length then 0 else index + 1

/-- brush_tip_shape.cc:444-447, the loop -/
noncomputable def boundsLoop (bounds : RealRect) : List Circle → RealRect
  | [] => bounds
  | c :: cs =>
    let d := 2 * c.radius
    boundsLoop (bounds.join (RealRect.fromCenterAndDimensions c.center d d)) cs

/-- brush_tip_shape.cc:436-449 `Bounds`. `none`: there is no first circle. -/
noncomputable def bounds (s : TipShape) : Option RealRect :=
  match s.circles with
  | [] => none
  | c :: cs =>
    let d := 2 * c.radius
    some (boundsLoop (RealRect.fromCenterAndDimensions c.center d d) cs)

open Classical in
/-- brush_tip_shape.cc:847-862, the loop over the circles of a shape -/
noncomputable def outsideLoop (corner : Circle) (incoming outgoing : ℝ) : List Circle → Bool
  | [] => false
  | test :: tests =>
    if corner.Contains test then outsideLoop corner incoming outgoing tests
    else if test.Contains corner then true
    else
      let angle := corner.guaranteedRightTangentAngle test
      let angle := if angle < incoming then angle + 2 * Real.pi else angle
      if angle < outgoing then true else outsideLoop corner incoming outgoing tests

/-- brush_tip_shape.cc:805-863 `ShapeIsOutsideOfCorner` -/
noncomputable def shapeIsOutsideOfCorner (shape : TipShape) (corner : Circle) (incoming outgoing : ℝ) : Bool :=
  let outgoing := if outgoing < incoming then outgoing + 2 * Real.pi else outgoing
  outsideLoop corner incoming outgoing shape.circles

/-- brush_tip_shape.cc:886-897, the loop over the corners, from the index `i` on for `n` corners. `none`: an index is out of range. -/
noncomputable def containsLoop (s other : TipShape) (incoming : ℝ) (i : ℕ) : ℕ → Option Bool
  | 0 => some true
  | n + 1 =>
    match s.circles[i]?, s.circles[s.nextCcw i]? with
    | some corner, some next =>
      let outgoing := corner.guaranteedRightTangentAngle next
      if shapeIsOutsideOfCorner other corner incoming outgoing then some false
      else containsLoop s other outgoing (i + 1) n
    | _, _ => none

open Classical in
/-- brush_tip_shape.cc:867-898 `Contains` -/
noncomputable def contains (s other : TipShape) : Option Bool :=
  match s.bounds, other.bounds with
  | some b, some b' =>
    if ¬b.Contains b' then some false
    else
      match s.circles with
      | [circle] => some (other.circles.all fun c => decide (circle.Contains c))
      | _ =>
        match s.circles[s.nextCw 0]?, s.circles[0]? with
        | some last, some first =>
          containsLoop s other (last.guaranteedRightTangentAngle first) 0 s.circles.length
        | _, _ => none
  | _, _ => none

end TipShape

end Verif.RealGeom
