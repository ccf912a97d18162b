import Verif.Model.Polyline
import Verif.Spec.SegmentAlgorithms
import Verif.Spec.Distance

/-!
# Specification for C59

After the comment of `ProcessPolylineForMeshCreation`, `ink/geometry/internal/polyline_processing.h:76-108`.
-/

set_option autoImplicit false

namespace Verif.Polyline.Spec

open Verif.Geo Verif.Geo.Spec

variable {K : Type} [Field K] [LinearOrder K]

/-- What C15 says of the R-tree: a query shows each element whose bounds meet the rectangle once, in some order. -/
def TreeOk (mkTree : List (Bundle K) → Tree K) : Prop :=
  ∀ segs r, (mkTree segs r).Perm (segs.filter fun b => intersectsRR (segmentBounds b) r)

/-- The segment from a point of the polyline to the next. -/
def side (pts : List (Pt K)) (i : ℕ) : Segment K := ⟨pts.getD i ⟨0, 0⟩, pts.getD (i + 1) ⟨0, 0⟩⟩

/-- A place on a polyline: the index of a segment and a ratio. -/
abbrev Place (K : Type) := ℕ × K

/-- The segment exists and the ratio is on it. -/
def IsPlace (pts : List (Pt K)) (a : Place K) : Prop := a.1 + 1 < pts.length ∧ 0 ≤ a.2 ∧ a.2 ≤ 1

/-- The point at a place. -/
def pointAt (pts : List (Pt K)) (a : Place K) : Pt K := at_ (side pts a.1) a.2

/-- The first place is not after the second. -/
def NotAfter (a b : Place K) : Prop := a.1 < b.1 ∨ a.1 = b.1 ∧ a.2 ≤ b.2

/-- At this place the polyline meets a later segment, which is not the next. -/
def MeetsLater (pts : List (Pt K)) (a : Place K) : Prop :=
  IsPlace pts a ∧ ∃ j, a.1 + 2 ≤ j ∧ j + 1 < pts.length ∧ OnSegment (pointAt pts a) (side pts j)

/-- At this place the polyline meets an earlier segment, which is not the one before. -/
def MeetsEarlier (pts : List (Pt K)) (a : Place K) : Prop :=
  IsPlace pts a ∧ ∃ j, j + 2 ≤ a.1 ∧ OnSegment (pointAt pts a) (side pts j)

/-- The first intersection. -/
def IsFirst (pts : List (Pt K)) (a : Place K) : Prop := MeetsLater pts a ∧ ∀ b, MeetsLater pts b → NotAfter a b

/-- The last intersection. -/
def IsLast (pts : List (Pt K)) (a : Place K) : Prop := MeetsEarlier pts a ∧ ∀ b, MeetsEarlier pts b → NotAfter b a

/-- What the code computes instead of the last intersection: it is on the last segment which meets an earlier one, and among
the places where this segment starts to meet an earlier one it is the last. -/
def IsLastStart (pts : List (Pt K)) (a : Place K) : Prop :=
  MeetsEarlier pts a ∧ (∀ b, MeetsEarlier pts b → b.1 ≤ a.1) ∧
  (∃ j, j + 2 ≤ a.1 ∧ FirstRatio (side pts a.1) (side pts j) a.2) ∧
  ∀ j t, j + 2 ≤ a.1 → FirstRatio (side pts a.1) (side pts j) t → t ≤ a.2

/-- The length of a segment of the polyline. -/
def sideLength (hypot : K → K → K) (pts : List (Pt K)) (i : ℕ) : K :=
  hypot ((side pts i).start.x - (side pts i).stop.x) ((side pts i).start.y - (side pts i).stop.y)

/-- The walking distance from the start of the polyline to a place. -/
def walkFromStart (hypot : K → K → K) (pts : List (Pt K)) (a : Place K) : K :=
  ((List.range a.1).map (sideLength hypot pts)).sum + a.2 * sideLength hypot pts a.1

/-- The walking distance from a place to the end of the polyline. -/
def walkToEnd (hypot : K → K → K) (pts : List (Pt K)) (a : Place K) : K :=
  (1 - a.2) * sideLength hypot pts a.1 +
    ((List.range' (a.1 + 1) (pts.length - 1 - (a.1 + 1))).map (sideLength hypot pts)).sum

/-- The straight-line distance of two points. -/
def straight (hypot : K → K → K) (p q : Pt K) : K := hypot (p.x - q.x) (p.y - q.y)

/-- A place to which the endpoint `p` may be connected: it is the nearest to `p` on its segment, the segment is none of
`p`'s segment and the next, `p` is nearer than the maximal distance, and the walking distances to the place and to the nearest
intersection, if there is one, are as large as demanded. -/
structure Connectable (hypot : K → K → K) (P : Params K) (pts : List (Pt K)) (p : Pt K) (others : ℕ → Prop)
    (walk : Place K → K) (crossing : Option (Place K)) (a : Place K) : Prop where
  place : IsPlace pts a
  other : others a.1
  nearest : ∀ t, 0 ≤ t → t ≤ 1 → straight hypot p (pointAt pts a) ≤ straight hypot p (pointAt pts (a.1, t))
  near : straight hypot p (pointAt pts a) < P.maxConnection
  walked : P.minWalk ≤ walk a
  ratio : P.minConnectionRatio * straight hypot p (pointAt pts a) ≤ walk a
  trim : ∀ c, crossing = some c → P.minTrimmingRatio * straight hypot p (pointAt pts a) ≤ walk c

/-- The first point may be connected to a place on the third segment or later. -/
def ConnectableFirst (hypot : K → K → K) (P : Params K) (pts : List (Pt K)) (c : Option (Place K)) : Place K → Prop :=
  Connectable hypot P pts (pts.getD 0 ⟨0, 0⟩) (fun i => 2 ≤ i) (walkFromStart hypot pts) c

/-- The last point may be connected to a place on the third segment from the end or before. -/
def ConnectableLast (hypot : K → K → K) (P : Params K) (pts : List (Pt K)) (c : Option (Place K)) : Place K → Prop :=
  Connectable hypot P pts (pts.getD (pts.length - 1) ⟨0, 0⟩) (fun i => i + 3 < pts.length) (walkToEnd hypot pts) c

/-- The best of the allowed connections of `p`, if there is one: the shortest. -/
def IsBest (hypot : K → K → K) (pts : List (Pt K)) (p : Pt K) (allowed : Place K → Prop) : Option (Place K) → Prop
  | none => ∀ a, ¬ allowed a
  | some a => allowed a ∧ ∀ b, allowed b → straight hypot p (pointAt pts a) ≤ straight hypot p (pointAt pts b)

/-- Put a point in front, unless it is the first one already. -/
def prepend (p : Pt K) (l : List (Pt K)) : List (Pt K) := if l.head? = some p then l else p :: l

/-- Put a point at the end, unless it is the last one already. -/
def append (l : List (Pt K)) (p : Pt K) : List (Pt K) := if l.getLast? = some p then l else l ++ [p]

/-- The first of two places. -/
def earlier (a b : Place K) : Place K := if a.1 < b.1 ∨ a.1 = b.1 ∧ a.2 < b.2 then a else b

/-- The last of two places. -/
def later (a b : Place K) : Place K := if a.1 > b.1 ∨ a.1 = b.1 ∧ a.2 > b.2 then a else b

/-- The new polyline, from the intersections (the first and the last), and the connections of the first and last point: an
endpoint which is connected gets the point of the connection added; the other one is trimmed to the intersection nearest to
it, where the new connection counts as an intersection. -/
def newPolyline (pts : List (Pt K)) : Option (Place K × Place K) → Option (Place K) → Option (Place K) → List (Pt K)
  | none, none, none => pts
  | some (a, b), none, none => append (prepend (pointAt pts a) ((pts.take (b.1 + 1)).drop (a.1 + 1))) (pointAt pts b)
  | none, some c, none => append (prepend (pointAt pts c) (pts.take (c.1 + 1))) (pointAt pts c)
  | some (_, b), some c, none =>
    append (prepend (pointAt pts c) (pts.take ((later c b).1 + 1))) (pointAt pts (later c b))
  | none, none, some c => append (prepend (pointAt pts c) (pts.drop (c.1 + 1))) (pointAt pts c)
  | some (a, _), none, some c =>
    append (prepend (pointAt pts (earlier c a)) (pts.drop ((earlier c a).1 + 1))) (pointAt pts c)
  | _, some c, some d => append (prepend (pointAt pts c) pts) (pointAt pts d)

end Verif.Polyline.Spec
