import Verif.Model.Geometry
import Mathlib.Algebra.Order.Field.Power

/-!
# Model of the intersections that the triangulation of strokes uses, in exact arithmetic

From `ink/geometry/internal/{legacy_vector_utils,legacy_segment_intersection,legacy_triangle_contains}.{h,cc}`. Coordinates are elements of an
ordered field, without rounding, overflow, infinities and NaN. What depends on the format of the numbers (machine epsilon, `nextafter`, the
exponent for scaling) is an argument.
-/

set_option autoImplicit false

namespace Verif.Legacy

open Geo

variable {K : Type} [Field K] [LinearOrder K]

/-- legacy_vector_utils.h:22 `RelativePos` -/
inductive RelativePos | indeterminate | left | collinear | right
  deriving DecidableEq

/-- legacy_vector_utils.h:24-28 `ReverseRelativePosition` -/
def RelativePos.reverse : RelativePos → RelativePos
  | .left => .right
  | .right => .left
  | p => p

/-- What depends on the format of the numbers: `numeric_limits<float>::epsilon`, legacy_vector_utils.cc:30-35 `NextFloat` and `PreviousFloat`,
and legacy_segment_intersection.cc:42-123 `FindSafeExponentForSegmentIntersection` -/
structure Format (K : Type) where
  epsilon : K
  next : K → K
  previous : K → K
  exponent : Segment K → Segment K → ℤ

/-- legacy_vector_utils.cc:69-82 `adjust_for_error` -/
def adjustForError (f : Format K) (v dir : Pt K) : Pt K :=
  ⟨if 0 < dir.x then f.next v.x else if dir.x < 0 then f.previous v.x else v.x,
    if 0 < dir.y then f.next v.y else if dir.y < 0 then f.previous v.y else v.y⟩

/-- legacy_vector_utils.cc:39-99 `PositionRelativeToLine` -/
def positionRelativeToLine (f : Format K) (p1 p2 test : Pt K) : RelativePos :=
  if p1 = p2 then .indeterminate
  else if p1 = test ∨ p2 = test then .collinear
  else
    let line := p2.sub p1
    let det := line.det (test.sub p1)
    if det = 0 then .collinear
    else
      let distance := 2 * f.epsilon * max (max (max |p1.x| |p1.y|) (max |p2.x| |p2.y|)) (max |test.x| |test.y|)
      let error : Pt K := if 0 < det then ⟨-line.y, line.x⟩ else ⟨line.y, -line.x⟩
      let far := max (p1.dot p1) (p2.dot p2) < test.dot test
      let q1 := if far then p1 else adjustForError f p1 error
      let q2 := if far then p2 else adjustForError f p2 error
      let q := if far then adjustForError f test (Pt.smul (-1) error) else test
      if det * det ≤ distance * distance * line.dot line ∧ det * (q2.sub q1).det (q.sub q1) ≤ 0 then .collinear
      else if 0 < det then .left else .right

/-- legacy_segment_intersection.h:30-44: the two intervals of `LegacySegmentIntersection` -/
structure Intervals (K : Type) where
  s0 : K
  s1 : K
  t0 : K
  t1 : K

/-- `std::ldexp` of the coordinates of a segment (legacy_segment_intersection.cc:139-148) -/
def scale (k : K) (s : Segment K) : Segment K := ⟨Pt.smul k s.start, Pt.smul k s.stop⟩

/-- legacy_segment_intersection.cc:149-276: `SegmentIntersectionHelper` after scaling -/
def helper (f : Format K) (a b : Segment K) : Option (Intervals K) :=
  let u := a.stop.sub a.start
  let v := b.stop.sub b.start
  let w := b.start.sub a.start
  let uu := u.dot u
  let vv := v.dot v
  if uu = 0 ∧ vv = 0 then if w.dot w = 0 then some ⟨0, 1, 0, 1⟩ else none
  else
    let aStart := vv ≠ 0 ∧ positionRelativeToLine f b.start b.stop a.start = .collinear
    let aStop := vv ≠ 0 ∧ positionRelativeToLine f b.start b.stop a.stop = .collinear
    let bStart := uu ≠ 0 ∧ positionRelativeToLine f a.start a.stop b.start = .collinear
    let bStop := uu ≠ 0 ∧ positionRelativeToLine f a.start a.stop b.stop = .collinear
    let vw := b.stop.sub a.start
    let uw := a.stop.sub b.start
    if uu ≠ 0 ∧ vv ≠ 0 ∧ (aStart ∧ aStop ∨ bStart ∧ bStop) then
      let x := u.dot w / uu
      let y := u.dot vw / uu
      let opposite := y < x
      let lo := if opposite then y else x
      let hi := if opposite then x else y
      if hi < 0 ∨ 1 < lo then none
      else
        some ⟨if lo < 0 then 0 else lo, if 1 < hi then 1 else hi,
          if lo < 0 then v.dot (Pt.smul (-1) w) / vv else if opposite then 1 else 0, if 1 < hi then v.dot uw / vv else if opposite then 0 else 1⟩
    else
      let p1 := v.dot (Pt.smul (-1) w) / vv
      let p2 := v.dot uw / vv
      let p3 := u.dot w / uu
      let p4 := u.dot vw / uu
      if aStart ∧ 0 ≤ p1 ∧ p1 ≤ 1 then some ⟨0, 0, p1, p1⟩
      else if aStop ∧ 0 ≤ p2 ∧ p2 ≤ 1 then some ⟨1, 1, p2, p2⟩
      else if bStart ∧ 0 ≤ p3 ∧ p3 ≤ 1 then some ⟨p3, p3, 0, 0⟩
      else if bStop ∧ 0 ≤ p4 ∧ p4 ≤ 1 then some ⟨p4, p4, 1, 1⟩
      else
        let d := u.det v
        if d = 0 then none
        else
          let s := w.det v / d
          let t := w.det u / d
          if 0 ≤ s ∧ s ≤ 1 ∧ 0 ≤ t ∧ t ≤ 1 then some ⟨s, s, t, t⟩ else none

/-- legacy_segment_intersection.cc:125-276 `SegmentIntersectionHelper` -/
def segmentIntersection (f : Format K) (a b : Segment K) : Option (Intervals K) :=
  if a.start = b.start ∧ a.stop = b.stop then some ⟨0, 1, 0, 1⟩
  else if a.start = b.stop ∧ a.stop = b.start then some ⟨0, 1, 1, 0⟩
  else helper f (scale (2 ^ f.exponent a b) a) (scale (2 ^ f.exponent a b) b)

/-- legacy_segment_intersection.h:30-44 `LegacySegmentIntersection` -/
structure Intersection (K : Type) extends Intervals K where
  intx : Segment K

/-- legacy_segment_intersection.cc:280-290 `LegacyIntersection` -/
def intersection (f : Format K) (a b : Segment K) : Option (Intersection K) :=
  (segmentIntersection f a b).map fun r => ⟨r, ⟨a.lerp r.s0, a.lerp r.s1⟩⟩

/-- legacy_triangle_contains.cc:24-34 `LegacyTriangleContains` -/
def triangleContains (f : Format K) (t : Triangle K) (p : Pt K) : Bool :=
  if p = t.p0 ∨ p = t.p1 ∨ p = t.p2 then true
  else
    let r1 := positionRelativeToLine f t.p0 t.p1 p
    let r2 := positionRelativeToLine f t.p1 t.p2 p
    if r1 = r2.reverse then false
    else
      let r3 := positionRelativeToLine f t.p2 t.p0 p
      decide (r1 ≠ r3.reverse ∧ r2 ≠ r3.reverse)

end Verif.Legacy
