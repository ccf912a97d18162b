import Verif.Model.Geometry

/-!
# Model of `AffineTransform` and of the histories of a `Quad`

From `ink/geometry/affine_transform.{h,cc}` and `ink/geometry/quad.{h,cc}`, in exact arithmetic like
`Verif.Model.Geometry`. `Vec::Magnitude` needs a square root; the functions that use it take it as the
argument `mag`.
-/

set_option autoImplicit false

namespace Verif.Geo

variable {K : Type} [Field K] [LinearOrder K]

/-- affine_transform.h:224-230 `AffineTransform` -/
@[ext] structure Affine (K : Type) where
  a : K
  b : K
  c : K
  d : K
  e : K
  f : K
  deriving DecidableEq, Repr

/-- vec.cc:27-59 `AsUnitVec`, for finite vectors. The zero vector has direction zero (the sign of zero
is not modelled). Scaling by a half before dividing has no effect in exact arithmetic. -/
def asUnit (mag : Pt K → K) (v : Pt K) : Pt K :=
  if v.x = 0 ∧ v.y = 0 then ⟨1, 0⟩ else ⟨v.x / mag v, v.y / mag v⟩

namespace Affine

/-- affine_transform.h:76 `Identity` -/
def identity : Affine K := ⟨1, 0, 0, 0, 1, 0⟩

/-- affine_transform.h:79-81 `Translate` -/
def translate (v : Pt K) : Affine K := ⟨1, 0, v.x, 0, 1, v.y⟩

/-- affine_transform.h:91-93 `Scale` -/
def scale (x y : K) : Affine K := ⟨x, 0, 0, 0, y, 0⟩

/-- affine_transform.h:109-113 `Rotate`, by the angle with this cosine and sine. -/
def rotate (cos sin : K) : Affine K := ⟨cos, -sin, 0, sin, cos, 0⟩

/-- affine_transform.h:117-119 `ShearX` -/
def shearX (k : K) : Affine K := ⟨1, k, 0, 0, 1, 0⟩

/-- affine_transform.h:123-125 `ShearY` -/
def shearY (k : K) : Affine K := ⟨1, 0, 0, k, 1, 0⟩

/-- affine_transform.cc:39-45 `ScaleAboutPoint`; the overload with one factor (lines 33-37) is the case
`x = y`. -/
def scaleAboutPoint (x y : K) (p : Pt K) : Affine K := ⟨x, 0, p.x - x * p.x, 0, y, p.y - y * p.y⟩

/-- affine_transform.cc:47-52 `RotateAboutPoint` -/
def rotateAboutPoint (cos sin : K) (p : Pt K) : Affine K :=
  ⟨cos, -sin, p.x - p.x * cos + p.y * sin, sin, cos, p.y - p.x * sin - p.y * cos⟩

/-- affine_transform.h:239-252 `Inverse` -/
def inverse (t : Affine K) : Option (Affine K) :=
  let l := t.a * t.e
  let r := t.b * t.d
  if l = r then none
  else
    let det := l - r
    some ⟨t.e / det, -t.b / det, (t.b * t.f - t.c * t.e) / det,
      -t.d / det, t.a / det, (t.c * t.d - t.a * t.f) / det⟩

/-- affine_transform.cc:54-56 `Apply(Point)` -/
def apply (t : Affine K) (p : Pt K) : Pt K := ⟨t.a * p.x + t.b * p.y + t.c, t.d * p.x + t.e * p.y + t.f⟩

/-- affine_transform.cc:58-60 `Apply(Segment)` -/
def applySegment (t : Affine K) (s : Segment K) : Segment K := ⟨t.apply s.start, t.apply s.stop⟩

/-- affine_transform.cc:62-64 `Apply(Triangle)` -/
def applyTriangle (t : Affine K) (s : Triangle K) : Triangle K :=
  ⟨t.apply s.p0, t.apply s.p1, t.apply s.p2⟩

/-- affine_transform.cc:68-70 `ApplyAffineTransformToVec` -/
def applyVec (t : Affine K) (v : Pt K) : Pt K := ⟨t.a * v.x + t.b * v.y, t.d * v.x + t.e * v.y⟩

/-- quad.h:185-201, the constructor with `Normalize`. -/
def mkQuad (center : Pt K) (width height cos sin shear : K) : Quad K :=
  if width < 0 then ⟨center, -width, -height, -cos, -sin, shear⟩
  else ⟨center, width, height, cos, sin, shear⟩

/-- affine_transform.cc:74-98 `Apply(Quad)`. The direction of a vector is given by its unit vector. -/
def applyQuad (mag : Pt K → K) (t : Affine K) (q : Quad K) : Quad K :=
  let u : Pt K := if q.width = 0 then ⟨q.cos, q.sin⟩ else q.semiAxes.1
  let v : Pt K := if q.height = 0 then (u.smul q.shear).add ⟨-u.y, u.x⟩ else q.semiAxes.2
  let u := t.applyVec u
  let v := t.applyVec v
  let m := mag u
  let uDotV := u.dot v
  let uCrossV := u.det v
  let w := if q.width = 0 then 0 else 2 * m
  let h := if q.height = 0 ∨ uCrossV = 0 then 0 else 2 * uCrossV / m
  let dir := asUnit mag u
  let k := if uCrossV = 0 then 0 else uDotV / uCrossV
  mkQuad (t.apply q.center) w h dir.x dir.y k

/-- quad.h:101-103 `Quad::FromRect` -/
def quadFromRect (r : Rect K) : Quad K := mkQuad r.center r.width r.height 1 0 0

/-- affine_transform.cc:100-102 `Apply(Rect)` -/
def applyRect (mag : Pt K → K) (t : Affine K) (r : Rect K) : Quad K := t.applyQuad mag (quadFromRect r)

/-- affine_transform.cc:104-128 `Find(Segment, Segment)`. The sine and cosine of
`Vec::SignedAngleBetween` (vec.cc:61-83) are the determinant and the dot product of the unit vectors. -/
def findSegment (mag : Pt K → K) (src dst : Segment K) : Option (Affine K) :=
  if mag src.vector = 0 then
    if mag dst.vector = 0 then some (translate (dst.start.sub src.start)) else none
  else
    let s := mag dst.vector / mag src.vector
    let ua := asUnit mag src.vector
    let ub := asUnit mag dst.vector
    let sin := s * ua.det ub
    let cos := s * ua.dot ub
    let v1 : Pt K := ⟨-src.start.x, -src.start.y⟩
    let v2 := dst.start
    some ⟨cos, -sin, cos * v1.x - sin * v1.y + v2.x, sin, cos, sin * v1.x + cos * v1.y + v2.y⟩

/-- affine_transform.cc:130-168 `Find(Triangle, Triangle)` -/
def findTriangle (src dst : Triangle K) : Option (Affine K) :=
  let a0 := src.p0
  let a1 := src.p1
  let a2 := src.p2
  let b0 := dst.p0
  let b1 := dst.p1
  let b2 := dst.p2
  let d := a1.x * a0.y - a2.x * a0.y - a0.x * a1.y + a2.x * a1.y + a0.x * a2.y - a1.x * a2.y
  if d = 0 ∨ src.signedArea = 0 then none
  else
    let n0 := b1.x * a0.y - b2.x * a0.y - b0.x * a1.y + b2.x * a1.y + b0.x * a2.y - b1.x * a2.y
    let n1 := b1.x * a0.x - b2.x * a0.x - b0.x * a1.x + b2.x * a1.x + b0.x * a2.x - b1.x * a2.x
    let n2 := b2.x * a1.x * a0.y - b1.x * a2.x * a0.y - b2.x * a0.x * a1.y + b0.x * a2.x * a1.y +
      b1.x * a0.x * a2.y - b0.x * a1.x * a2.y
    let n3 := b1.y * a0.y - b2.y * a0.y - b0.y * a1.y + b2.y * a1.y + b0.y * a2.y - b1.y * a2.y
    let n4 := b1.y * a0.x - b2.y * a0.x - b0.y * a1.x + b2.y * a1.x + b0.y * a2.x - b1.y * a2.x
    let n5 := b2.y * a1.x * a0.y - b1.y * a2.x * a0.y - b2.y * a0.x * a1.y + b0.y * a2.x * a1.y +
      b1.y * a0.x * a2.y - b0.y * a1.x * a2.y
    some ⟨n0 / d, n1 / -d, n2 / d, n3 / d, n4 / -d, n5 / d⟩

/-- affine_transform.cc:170-175 `Find(Rect, Rect)` -/
def findRect (src dst : Rect K) : Option (Affine K) :=
  findTriangle ⟨⟨src.xMin, src.yMin⟩, ⟨src.xMax, src.yMin⟩, ⟨src.xMax, src.yMax⟩⟩
    ⟨⟨dst.xMin, dst.yMin⟩, ⟨dst.xMax, dst.yMin⟩, ⟨dst.xMax, dst.yMax⟩⟩

/-- affine_transform.cc:177-182 `Find(Quad, Quad)` -/
def findQuad (src dst : Quad K) : Option (Affine K) :=
  findTriangle ⟨src.corners.1, src.corners.2.1, src.corners.2.2.1⟩
    ⟨dst.corners.1, dst.corners.2.1, dst.corners.2.2.1⟩

/-- affine_transform.cc:184-192 `operator*` -/
def mul (l r : Affine K) : Affine K :=
  ⟨l.a * r.a + l.b * r.d, l.a * r.b + l.b * r.e, l.a * r.c + l.b * r.f + l.c,
   l.d * r.a + l.e * r.d, l.d * r.b + l.e * r.e, l.d * r.c + l.e * r.f + l.f⟩

end Affine

/-! ## Histories of a `Quad` -/

/-- quad.h:208-213 `Quad` with the cached semi-axes. -/
structure QuadObj (K : Type) where
  quad : Quad K
  cache : Option (Pt K × Pt K) := none
  deriving DecidableEq, Repr

/-- `std::copysign(1.f, x)`; the sign of zero is not modelled. -/
def sgn (x : K) : K := if x < 0 then -1 else 1

/-- The calls of `Quad` that change it, or its cache. -/
inductive QuadOp (K : Type) where
  | setCenter (p : Pt K)
  | setWidth (w : K)
  | setHeight (h : K)
  | setRotation (cos sin : K)
  | setShearFactor (k : K)
  | join (p : Pt K)
  | semiAxes

namespace QuadObj

/-- quad.h:185-193, the constructor. -/
def new (center : Pt K) (width height cos sin shear : K) : QuadObj K :=
  ⟨Affine.mkQuad center width height cos sin shear, none⟩

/-- quad.h:227 `SetCenter` -/
def setCenter (o : QuadObj K) (p : Pt K) : QuadObj K := { o with quad := { o.quad with center := p } }

/-- quad.h:195-201 `Normalize` -/
def normalize (q : Quad K) : Quad K :=
  if q.width < 0 then { q with width := -q.width, height := -q.height, cos := -q.cos, sin := -q.sin }
  else q

/-- quad.h:249-256 `SetWidth` -/
def setWidth (o : QuadObj K) (w : K) : QuadObj K :=
  if w = o.quad.width then o else ⟨normalize { o.quad with width := w }, none⟩

/-- quad.h:228-234 `SetHeight` -/
def setHeight (o : QuadObj K) (h : K) : QuadObj K :=
  if h = o.quad.height then o else ⟨{ o.quad with height := h }, none⟩

/-- quad.h:235-241 `SetRotation` -/
def setRotation (o : QuadObj K) (cos sin : K) : QuadObj K :=
  if cos = o.quad.cos ∧ sin = o.quad.sin then o else ⟨{ o.quad with cos := cos, sin := sin }, none⟩

/-- quad.h:242-248 `SetShearFactor` -/
def setShearFactor (o : QuadObj K) (k : K) : QuadObj K :=
  if k = o.quad.shear then o else ⟨{ o.quad with shear := k }, none⟩

/-- quad.cc:30-43 `SemiAxes`: the result and the new state of the object. -/
def semiAxes (o : QuadObj K) : (Pt K × Pt K) × QuadObj K :=
  match o.cache with
  | some c => (c, o)
  | none => (o.quad.semiAxes, { o with cache := some o.quad.semiAxes })

/-- quad.cc:45-51 `Corners` -/
def corners (o : QuadObj K) : Pt K × Pt K × Pt K × Pt K :=
  let u := o.semiAxes.1.1
  let v := o.semiAxes.1.2
  let c := o.quad.center
  ((c.sub u).sub v, (c.add u).sub v, (c.add u).add v, (c.sub u).add v)

/-- quad.cc:80-98 `Join` -/
def join (o : QuadObj K) (p : Pt K) : QuadObj K :=
  let q := o.quad
  let u := q.unitAxes.1
  let v := q.unitAxes.2
  let d := p.sub q.center
  let uDot := u.dot d
  let uCross := u.det d
  let vCross := v.det d
  let w := max q.width (1 / 2 * q.width + |uDot - q.shear * uCross|)
  let h := sgn q.height * max |q.height| (1 / 2 * |q.height| + |uCross|)
  let uOff := -(1 / 2) * sgn vCross * (w - q.width)
  let vOff := 1 / 2 * sgn uCross * sgn q.height * (h - q.height)
  ⟨{ q with center := (q.center.add (u.smul uOff)).add (v.smul vOff), width := w, height := h }, none⟩

def step (o : QuadObj K) : QuadOp K → QuadObj K
  | .setCenter p => o.setCenter p
  | .setWidth w => o.setWidth w
  | .setHeight h => o.setHeight h
  | .setRotation c s => o.setRotation c s
  | .setShearFactor k => o.setShearFactor k
  | .join p => o.join p
  | .semiAxes => o.semiAxes.2

def run (o : QuadObj K) (ops : List (QuadOp K)) : QuadObj K := ops.foldl step o

end QuadObj

end Verif.Geo
