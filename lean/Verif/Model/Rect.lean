import Verif.F32.Basic

/-!
# Model of `Rect`, `Segment::Lerp` and `Envelope`, in binary32

From `ink/geometry/rect.{h,cc}`, `ink/geometry/segment.{h,cc}` and `ink/geometry/envelope.h`.
A failed CHECK is `none`. Formatting, `GetEdge` and `Segment::Project` are not modelled here (the edges are
modelled in `Verif.Model.Geometry`).
-/

set_option autoImplicit false

namespace Verif

/-- point.h `Point` (and vec.h `Vec`), coordinates in binary32. -/
structure PointF where
  x : F32
  y : F32
  deriving DecidableEq, Repr

/-- rect.h:229-232 `Rect` -/
structure RectF where
  xMin : F32
  yMin : F32
  xMax : F32
  yMax : F32
  deriving DecidableEq, Repr

namespace RectF

open F32

/-- The literal `0.5f`. -/
def half : F32 := .fin false 0x3F000000 (by decide)
/-- The literal `-0.5f`. -/
def negHalf : F32 := .fin true 0x3F000000 (by decide)
/-- The literal `1`. -/
def one : F32 := .fin false 0x3F800000 (by decide)
/-- The literal `2`. -/
def two : F32 := .fin false 0x40000000 (by decide)

/-- rect.h:35, 229-232 the default constructor. -/
def dflt : RectF := ⟨zero, zero, zero, zero⟩

/-- rect.h:44-49 `FromCenterAndDimensions` -/
def fromCenterAndDimensions (c : PointF) (w h : F32) : Option RectF :=
  if ge w zero && ge h zero then
    some ⟨sub c.x (div w two), sub c.y (div h two), add c.x (div w two), add c.y (div h two)⟩
  else none

/-- rect.h:52-55 `FromTwoPoints` -/
def fromTwoPoints (a b : PointF) : RectF :=
  ⟨smin a.x b.x, smin a.y b.y, smax a.x b.x, smax a.y b.y⟩

/-- rect.cc:27-35 `Center` -/
def center (r : RectF) : PointF :=
  let x := add (mul half r.xMin) (mul half r.xMax)
  let y := add (mul half r.yMin) (mul half r.yMax)
  ⟨if x.isNaN then zero else x, if y.isNaN then zero else y⟩

/-- rect.h:248 `Width` -/
def width (r : RectF) : F32 := sub r.xMax r.xMin
/-- rect.h:257 `Height` -/
def height (r : RectF) : F32 := sub r.yMax r.yMin

/-- rect.h:267 `SemiWidth` -/
def semiWidth (r : RectF) : F32 := sub (mul half r.xMax) (mul half r.xMin)
/-- rect.h:268 `SemiHeight` -/
def semiHeight (r : RectF) : F32 := sub (mul half r.yMax) (mul half r.yMin)

/-- rect.h:239-246 `SetCenter` -/
def setCenter (r : RectF) (c : PointF) : RectF :=
  let w := r.semiWidth
  let h := r.semiHeight
  ⟨sub c.x w, sub c.y h, add c.x w, add c.y h⟩

/-- rect.h:250-255 `SetWidth` -/
def setWidth (r : RectF) (w : F32) : Option RectF :=
  if ge w zero then
    let c := div (add r.xMin r.xMax) two
    some { r with xMin := sub c (div w two), xMax := add c (div w two) }
  else none

/-- rect.h:259-264 `SetHeight` -/
def setHeight (r : RectF) (h : F32) : Option RectF :=
  if ge h zero then
    let c := div (add r.yMin r.yMax) two
    some { r with yMin := sub c (div h two), yMax := add c (div h two) }
  else none

/-- rect.h:97-101 `AspectRatio` -/
def aspectRatio (r : RectF) : Option F32 :=
  if !(feq r.height zero) then some (div r.width r.height) else none

/-- rect.h:104 `Area` -/
def area (r : RectF) : F32 := mul r.width r.height

/-- rect.h:108-111 `Corners` -/
def corners (r : RectF) : List PointF :=
  [⟨r.xMin, r.yMin⟩, ⟨r.xMax, r.yMin⟩, ⟨r.xMax, r.yMax⟩, ⟨r.xMin, r.yMax⟩]

/-- rect.h:120-123 `Contains(Point)` -/
def contains (r : RectF) (p : PointF) : Bool :=
  le r.xMin p.x && ge r.xMax p.x && le r.yMin p.y && ge r.yMax p.y

/-- rect.h:128-131 `Contains(Rect)` -/
def containsRect (r s : RectF) : Bool :=
  le r.xMin s.xMin && ge r.xMax s.xMax && le r.yMin s.yMin && ge r.yMax s.yMax

/-- rect.h:141-148 `Offset` -/
def offset (r : RectF) (h v : F32) : Option RectF :=
  let r : RectF := ⟨sub r.xMin h, sub r.yMin v, add r.xMax h, add r.yMax v⟩
  let r1 := if lt r.width zero then r.setWidth zero else some r
  r1.bind fun r1 => if lt r1.height zero then r1.setHeight zero else some r1

/-- rect.h:156-161 `Scale` -/
def scale (r : RectF) (sx sy : F32) : Option RectF :=
  if ge sx zero && ge sy zero then
    r.offset (mul (mul negHalf (sub one sx)) r.width) (mul (mul negHalf (sub one sy)) r.height)
  else none

/-- rect.h:165-170 `Translate` -/
def translate (r : RectF) (v : PointF) : RectF :=
  ⟨add r.xMin v.x, add r.yMin v.y, add r.xMax v.x, add r.yMax v.y⟩

/-- rect.h:270-275 `Join(Point)` -/
def join (r : RectF) (p : PointF) : RectF :=
  ⟨smin r.xMin p.x, smin r.yMin p.y, smax r.xMax p.x, smax r.yMax p.y⟩

/-- rect.h:277-282 `Join(Rect)` -/
def joinRect (r s : RectF) : RectF :=
  ⟨smin r.xMin s.xMin, smin r.yMin s.yMin, smax r.xMax s.xMax, smax r.yMax s.yMax⟩

/-- rect.cc:52-65 `ContainingRectWithAspectRatio` -/
def containingRectWithAspectRatio (r : RectF) (a : F32) : Option RectF :=
  if gt a zero then
    r.aspectRatio.bind fun q =>
      if gt a q then fromCenterAndDimensions r.center (mul r.height a) r.height
      else fromCenterAndDimensions r.center r.width (div r.width a)
  else none

/-- rect.cc:67-80 `InteriorRectWithAspectRatio` -/
def interiorRectWithAspectRatio (r : RectF) (a : F32) : Option RectF :=
  if ge a zero then
    r.aspectRatio.bind fun q =>
      if gt a q then fromCenterAndDimensions r.center r.width (div r.width a)
      else fromCenterAndDimensions r.center (mul r.height a) r.height
  else none

/-- rect.h:284-289 `ResizeSettingXMinTo` -/
def resizeXMin (r : RectF) (v : F32) : RectF :=
  { r with xMin := v, xMax := if lt r.xMax v then v else r.xMax }
/-- rect.h:290-295 `ResizeSettingYMinTo` -/
def resizeYMin (r : RectF) (v : F32) : RectF :=
  { r with yMin := v, yMax := if lt r.yMax v then v else r.yMax }
/-- rect.h:296-301 `ResizeSettingXMaxTo` -/
def resizeXMax (r : RectF) (v : F32) : RectF :=
  { r with xMax := v, xMin := if gt r.xMin v then v else r.xMin }
/-- rect.h:302-307 `ResizeSettingYMaxTo` -/
def resizeYMax (r : RectF) (v : F32) : RectF :=
  { r with yMax := v, yMin := if gt r.yMin v then v else r.yMin }

/-- rect.h:309-311 `TranslateSettingXMinTo` -/
def translateXMin (r : RectF) (v : F32) : RectF := r.translate ⟨sub v r.xMin, zero⟩
/-- rect.h:312-314 `TranslateSettingYMinTo` -/
def translateYMin (r : RectF) (v : F32) : RectF := r.translate ⟨zero, sub v r.yMin⟩
/-- rect.h:315-317 `TranslateSettingXMaxTo` -/
def translateXMax (r : RectF) (v : F32) : RectF := r.translate ⟨sub v r.xMax, zero⟩
/-- rect.h:318-320 `TranslateSettingYMaxTo` -/
def translateYMax (r : RectF) (v : F32) : RectF := r.translate ⟨zero, sub v r.yMax⟩

/-- internal/intersects_internal.cc:235-244 `IntersectsInternal(Rect, Rect)` -/
def intersects (a b : RectF) : Bool :=
  if gt a.xMin b.xMax || gt b.xMin a.xMax then false
  else if gt a.yMin b.yMax || gt b.yMin a.yMax then false
  else true

/-- internal/intersects_internal.cc:43 `IntersectsInternal(Point, Rect)` -/
def intersectsPoint (p : PointF) (r : RectF) : Bool := r.contains p

/-- internal/intersects_internal.cc:226-228 `IntersectsInternal(Rect, Point)` -/
def rectIntersectsPoint (r : RectF) (p : PointF) : Bool := intersectsPoint p r

end RectF

/-- The ways a program obtains a `Rect`. -/
inductive RectExpr where
  | dflt
  | fromCenterAndDimensions (c : PointF) (w h : F32)
  | fromTwoPoints (a b : PointF)
  | setCenter (r : RectExpr) (c : PointF)
  | setWidth (r : RectExpr) (w : F32)
  | setHeight (r : RectExpr) (h : F32)
  | offset (r : RectExpr) (h v : F32)
  | scale (r : RectExpr) (sx sy : F32)
  | translate (r : RectExpr) (v : PointF)
  | join (r : RectExpr) (p : PointF)
  | joinRect (r s : RectExpr)
  | containing (r : RectExpr) (a : F32)
  | interior (r : RectExpr) (a : F32)
  | resizeXMin (r : RectExpr) (v : F32)
  | resizeYMin (r : RectExpr) (v : F32)
  | resizeXMax (r : RectExpr) (v : F32)
  | resizeYMax (r : RectExpr) (v : F32)
  | translateXMin (r : RectExpr) (v : F32)
  | translateYMin (r : RectExpr) (v : F32)
  | translateXMax (r : RectExpr) (v : F32)
  | translateYMax (r : RectExpr) (v : F32)

/-- The rectangle built by a history of calls, or `none` if one of them fails a CHECK. -/
def RectExpr.eval : RectExpr → Option RectF
  | .dflt => some RectF.dflt
  | .fromCenterAndDimensions c w h => RectF.fromCenterAndDimensions c w h
  | .fromTwoPoints a b => some (RectF.fromTwoPoints a b)
  | .setCenter r c => r.eval.map (·.setCenter c)
  | .setWidth r w => r.eval.bind (·.setWidth w)
  | .setHeight r h => r.eval.bind (·.setHeight h)
  | .offset r h v => r.eval.bind (·.offset h v)
  | .scale r sx sy => r.eval.bind (·.scale sx sy)
  | .translate r v => r.eval.map (·.translate v)
  | .join r p => r.eval.map (·.join p)
  | .joinRect r s => r.eval.bind fun r => s.eval.map r.joinRect
  | .containing r a => r.eval.bind (·.containingRectWithAspectRatio a)
  | .interior r a => r.eval.bind (·.interiorRectWithAspectRatio a)
  | .resizeXMin r v => r.eval.map (·.resizeXMin v)
  | .resizeYMin r v => r.eval.map (·.resizeYMin v)
  | .resizeXMax r v => r.eval.map (·.resizeXMax v)
  | .resizeYMax r v => r.eval.map (·.resizeYMax v)
  | .translateXMin r v => r.eval.map (·.translateXMin v)
  | .translateYMin r v => r.eval.map (·.translateYMin v)
  | .translateXMax r v => r.eval.map (·.translateXMax v)
  | .translateYMax r v => r.eval.map (·.translateYMax v)

/-- segment.h:27-29 `Segment` -/
structure SegmentF where
  start : PointF
  fin : PointF
  deriving DecidableEq, Repr

namespace SegmentF

/-- segment.cc:26-30 `Lerp` -/
def lerp (s : SegmentF) (t : F32) : PointF :=
  let rev := F32.sub RectF.one t
  ⟨F32.add (F32.mul s.start.x rev) (F32.mul s.fin.x t), F32.add (F32.mul s.start.y rev) (F32.mul s.fin.y t)⟩

/-- segment.h:48 `Midpoint` -/
def midpoint (s : SegmentF) : PointF := s.lerp RectF.half

end SegmentF

/-- What can be added to an envelope. A quad is given by its corners. -/
inductive EnvObj where
  | point (p : PointF)
  | segment (s : SegmentF)
  | triangle (a b c : PointF)
  | rect (r : RectF)
  | quad (a b c d : PointF)
  | envelope (e : Option RectF)

/-- envelope.h:116 `rect_` -/
abbrev Envelope := Option RectF

namespace Envelope

/-- envelope.h:77 `IsEmpty` -/
def isEmpty (e : Envelope) : Bool := e.isNone

def add (e : Envelope) : EnvObj → Envelope
  /- envelope.h:123-129 -/
  | .point p =>
    match e with
    | none => RectF.fromCenterAndDimensions p F32.zero F32.zero
    | some r => some (r.join p)
  /- envelope.h:131-138 -/
  | .segment s =>
    match e with
    | none => some (RectF.fromTwoPoints s.start s.fin)
    | some r => some ((r.join s.start).join s.fin)
  /- envelope.h:140-149 -/
  | .triangle a b c =>
    match e with
    | none => some ((RectF.fromTwoPoints a b).join c)
    | some r => some (((r.join a).join b).join c)
  /- envelope.h:151-157 -/
  | .rect s =>
    match e with
    | none => some s
    | some r => some (r.joinRect s)
  /- envelope.h:159-170 -/
  | .quad a b c d =>
    match e with
    | none => some (((RectF.fromTwoPoints a b).join c).join d)
    | some r => some ((((r.join a).join b).join c).join d)
  /- envelope.h:172-181 -/
  | .envelope f =>
    match f with
    | none => e
    | some s =>
      match e with
      | none => some s
      | some r => some (r.joinRect s)

/-- envelope.h:94-106, `Add` of a range or container, and any sequence of `Add` calls. -/
def addAll (e : Envelope) (l : List EnvObj) : Envelope := l.foldl add e

end Envelope

end Verif
