import Verif.Model.SegmentAlgorithms
import Verif.Model.Distance

/-!
# Model of the processing of polylines

From `ink/geometry/internal/polyline_processing.{h,cc}`, in exact arithmetic like `Verif.Model.Geometry`. `none` is a failed
check or undefined behaviour. Simplifications:

* The R-tree is modelled by the order in which it shows the elements to a visitor, for each query (`Tree`). That a
  `StaticRTree` shows each element whose bounds meet the query once is C15.
* `hypot` is a parameter, like in `Verif.Model.Distance`.
* An infinite ratio or length, with which the searches start, is `none`.
* `EndpointIsConnectable` takes the index of a segment as a `float`: indices above 2^24, which that would round, are not
  modelled.
-/

set_option autoImplicit false

namespace Verif.Polyline

open Verif.Geo

variable {K : Type} [Field K] [LinearOrder K]

/-- polyline_processing.h:28-32 `SegmentBundle` -/
structure Bundle (K : Type) where
  segment : Segment K
  index : ℕ
  length : K

/-- polyline_processing.h:34-38 `Intersection` -/
structure Inter (K : Type) where
  index : ℕ
  fraction : K
  walk : K

/-- The parameters, polyline_processing.h:49-52. -/
structure Params (K : Type) where
  minWalk : K
  maxConnection : K
  minConnectionRatio : K
  minTrimmingRatio : K

/-- polyline_processing.h:40-53 `PolylineData`. The intersections are not initialised at first: reading them would be
undefined behaviour. -/
structure Data (K : Type) where
  segments : List (Bundle K)
  first : Option (Inter K)
  last : Option (Inter K)
  newFirst : Pt K
  newLast : Pt K
  connectFirst : Bool
  connectLast : Bool
  hasIntersection : Bool

/-- The elements which the R-tree shows to a visitor, in order. -/
abbrev Tree (K : Type) := Rect K → List (Bundle K)

/-- static_rtree.h `VisitIntersectedElements`, with a visitor which always continues. -/
def visitAll {σ : Type} (f : σ → Bundle K → Option σ) : List (Bundle K) → σ → Option σ
  | [], s => some s
  | b :: l, s => (f s b).bind fun s' => visitAll f l s'

/-- polyline_processing.cc:34-52 `WalkDistance` -/
def walkDistance (segs : List (Bundle K)) (index : ℕ) (fraction : K) (backwards : Bool) : Option K :=
  (segs[index]?).map fun b =>
    if backwards then ((segs.drop (index + 1)).map (·.length)).foldl (· + ·) (b.length * (1 - fraction))
    else ((segs.take index).map (·.length)).foldl (· + ·) (b.length * fraction)

/-- polyline_processing.cc:57-61 the loop of `CreateNewPolylineData`, from a given index on. -/
def bundles (hypot : K → K → K) : ℕ → List (Pt K) → List (Bundle K)
  | i, p :: q :: l => ⟨⟨p, q⟩, i, distPP hypot p q⟩ :: bundles hypot (i + 1) (q :: l)
  | _, _ => []

/-- polyline_processing.cc:54-63 `CreateNewPolylineData`. For no points, the capacity to reserve is the greatest `size_t`,
which throws. -/
def createData (hypot : K → K → K) (points : List (Pt K)) : Option (Data K) :=
  if points.isEmpty then none
  else some ⟨bundles hypot 0 points, none, none, ⟨0, 0⟩, ⟨0, 0⟩, false, false, false⟩

/-- polyline_processing.cc:66-69 `segment_bounds` -/
def segmentBounds (b : Bundle K) : Rect K := Rect.fromTwoPoints b.segment.start b.segment.stop

/-- polyline_processing.cc:86-101 the visitor of the first search: the ratios and the segment found so far. -/
def earliestVisitor (cur : Bundle K) (st : Option (K × K × Bundle K)) (other : Bundle K) : Option (Option (K × K × Bundle K)) :=
  if other.index > cur.index + 1 then
    match segmentIntersectionRatio cur.segment other.segment with
    | .crash => none
    | .none => some st
    | .some t s =>
      match st with
      | none => some (some (t, s, other))
      | some (t0, _, _) => if t < t0 then some (some (t, s, other)) else some st
  else some st

/-- polyline_processing.cc:77-126 the first search, over the remaining indices: the index of the first segment which meets a
later one, the ratios, and the other segment. -/
def searchFirst (tree : Tree K) (segs : List (Bundle K)) :
    List ℕ → Option (K × K × Bundle K) → Option (Option (ℕ × K × K × Bundle K))
  | [], _ => some none
  | i :: is, st =>
    (segs[i]?).bind fun cur => (visitAll (earliestVisitor cur) (tree (segmentBounds cur)) st).bind fun st' =>
      match st' with
      | some (t, s, other) => if t ≤ 1 then some (some (i, t, s, other)) else searchFirst tree segs is st'
      | none => searchFirst tree segs is st'

/-- polyline_processing.cc:144-162 the visitor of the second search: the largest ratio so far. -/
def largestVisitor (firstIndex : ℕ) (cur : Bundle K) (st : Option K) (other : Bundle K) : Option (Option K) :=
  if other.index + 1 < cur.index ∧ other.index + 1 > firstIndex then
    match segmentIntersectionRatio cur.segment other.segment with
    | .crash => none
    | .none => some st
    | .some t _ =>
      match st with
      | none => some (some t)
      | some t0 => if t > t0 then some (some t) else some st
  else some st

/-- polyline_processing.cc:134-173 the second search, over the remaining indices. -/
def searchLast (tree : Tree K) (segs : List (Bundle K)) (firstIndex : ℕ) :
    List ℕ → Option K → Option (Option (ℕ × K))
  | [], _ => some none
  | i :: is, st =>
    (segs[i]?).bind fun cur => (visitAll (largestVisitor firstIndex cur) (tree (segmentBounds cur)) st).bind fun st' =>
      match st' with
      | some t => if t ≥ 0 then some (some (i, t)) else searchLast tree segs firstIndex is st'
      | none => searchLast tree segs firstIndex is st'

/-- polyline_processing.cc:71-174 `FindFirstAndLastIntersections` -/
def findIntersections (tree : Tree K) (d : Data K) : Option (Data K) :=
  let n := d.segments.length
  (searchFirst tree d.segments (List.range (n - 2)) none).bind fun found =>
    match found with
    | none => some d
    | some (i, t, s, other) =>
      (d.segments[i]?).bind fun cur =>
      (walkDistance d.segments i t false).bind fun w1 =>
      (walkDistance d.segments other.index s true).bind fun w2 =>
        let p := cur.segment.lerp t
        let d := { d with first := some ⟨i, t, w1⟩, last := some ⟨other.index, s, w2⟩, newFirst := p, newLast := p,
                          hasIntersection := true }
        (searchLast tree d.segments i (List.range' other.index (n - other.index)).reverse none).bind fun found =>
          match found with
          | none => some d
          | some (j, u) =>
            (d.segments[j]?).bind fun cur => (walkDistance d.segments j u true).map fun w =>
              { d with last := some ⟨j, u, w⟩, newLast := cur.segment.lerp u }

/-- `a / b < r` of floats with `a` not negative: dividing by zero gives infinity or NaN, which is not less. -/
def quotientLess (a b r : K) : Bool := decide (b ≠ 0) && decide (a / b < r)

/-- polyline_processing.cc:176-199 `EndpointIsConnectable` -/
def connectable (P : Params K) (d : Data K) (index : ℕ) (fraction distance : K) (backwards : Bool) : Option Bool :=
  (walkDistance d.segments index fraction backwards).bind fun walk =>
    if walk < P.minWalk ∨ quotientLess walk distance P.minConnectionRatio then some false
    else if d.hasIntersection then
      (if backwards then d.last else d.first).map fun i => !quotientLess i.walk distance P.minTrimmingRatio
    else some true

/-- rect.h:44-49 `FromCenterAndDimensions`, with the check of the dimensions. -/
def fromCenter (c : Pt K) (w h : K) : Option (Rect K) :=
  if w ≥ 0 ∧ h ≥ 0 then some ⟨c.x - w / 2, c.y - h / 2, c.x + w / 2, c.y + h / 2⟩ else none

/-- `std::clamp(t, 0.0f, 1.0f)` -/
def clamp01 (t : K) : K := if t < 0 then 0 else if 1 < t then 1 else t

/-- polyline_processing.cc:278-298 and 318-339 the visitors of the searches for connections: the index, the fraction and the
length of the best connection so far. The first point is not connected to the first two segments, the last point not to the
last two. -/
def connectionVisitor (hypot : K → K → K) (P : Params K) (d : Data K) (p : Pt K) (backwards : Bool)
    (st : Option (ℕ × K × K)) (cur : Bundle K) : Option (Option (ℕ × K × K)) :=
  let distance := distPS hypot p cur.segment
  let better := match st with | none => true | some (_, _, l) => decide (distance < l)
  if distance < P.maxConnection ∧ better = true ∧
      (if backwards then cur.index + 2 < d.segments.length else cur.index > 1) then
    (cur.segment.project p).bind fun t => (connectable P d cur.index (clamp01 t) distance backwards).map fun c =>
      if c then some (cur.index, clamp01 t, distance) else st
  else some st

/-- polyline_processing.cc:268-298 and 307-339 the best connection of an endpoint. -/
def searchConnection (hypot : K → K → K) (P : Params K) (tree : Tree K) (d : Data K) (p : Pt K) (backwards : Bool) :
    Option (Option (ℕ × K × K)) :=
  (fromCenter p (P.maxConnection * 2) (P.maxConnection * 2)).bind fun r =>
    visitAll (connectionVisitor hypot P d p backwards) (tree r) none

/-- polyline_processing.cc:300-305: connect the first point. -/
def applyFirst (P : Params K) (best : Option (ℕ × K × K)) (d : Data K) : Option (Data K) :=
  match best with
  | none => some d
  | some (i, t, l) =>
    if l ≤ P.maxConnection then
      (d.segments[i]?).map fun b => { d with connectFirst := true, newFirst := b.segment.lerp t }
    else some d

/-- polyline_processing.cc:341-346: connect the last point. -/
def applyLast (P : Params K) (best : Option (ℕ × K × K)) (d : Data K) : Option (Data K) :=
  match best with
  | none => some d
  | some (i, t, l) =>
    if l ≤ P.maxConnection then
      (d.segments[i]?).map fun b => { d with connectLast := true, newLast := b.segment.lerp t }
    else some d

/-- polyline_processing.cc:204-231 `BetterLastIntersection`; the connection is not initialised if there is none. -/
def betterLast (d : Data K) (c : Option (ℕ × K × K)) : Option Bool :=
  if !d.connectFirst || d.connectLast then some false
  else if !d.hasIntersection then some true
  else c.bind fun (i, t, _) => d.last.map fun l =>
    if i > l.index then true else decide (i = l.index) && decide (t > l.fraction)

/-- polyline_processing.cc:236-263 `BetterFirstIntersection` -/
def betterFirst (d : Data K) (c : Option (ℕ × K × K)) : Option Bool :=
  if d.connectFirst || !d.connectLast then some false
  else if !d.hasIntersection then some true
  else c.bind fun (i, t, _) => d.first.map fun l =>
    if i < l.index then true else decide (i = l.index) && decide (t < l.fraction)

/-- polyline_processing.cc:348-363: update the intersections. The walk distance of an intersection is not updated: if there
was none before, it stays uninitialised; it is not read any more. -/
def updateIntersections (c1 c2 : Option (ℕ × K × K)) (d : Data K) : Option (Data K) :=
  (betterLast d c1).bind fun bl =>
    (if bl then c1.map fun (i, t, _) => { d with last := some ⟨i, t, 0⟩, newLast := d.newFirst }
     else (betterFirst d c2).bind fun bf =>
       if bf then c2.map fun (i, t, _) => { d with first := some ⟨i, t, 0⟩, newFirst := d.newLast }
       else some d).map fun d =>
    if d.connectFirst || d.connectLast then { d with hasIntersection := true } else d

/-- polyline_processing.cc:265-364 `FindBestEndpointConnections` -/
def findConnections (hypot : K → K → K) (P : Params K) (tree : Tree K) (d : Data K) : Option (Data K) :=
  (d.segments.head?).bind fun front =>
  (searchConnection hypot P tree d front.segment.start false).bind fun c1 =>
  (applyFirst P c1 d).bind fun d =>
  (d.segments.getLast?).bind fun back =>
  (searchConnection hypot P tree d back.segment.stop true).bind fun c2 =>
  (applyLast P c2 d).bind fun d => updateIntersections c1 c2 d

/-- polyline_processing.cc:366-393 `CreateNewPolylineFromPolylineData`; reading past the end of the points is `none`. -/
def newPolyline (d : Data K) (points : List (Pt K)) : Option (List (Pt K)) :=
  if !d.hasIntersection then some points
  else
    (if d.connectFirst then some 0 else d.first.map fun i => i.index + 1).bind fun front =>
    (if d.connectLast then some points.length else d.last.map fun i => i.index + 1).bind fun back =>
    (points[front]?).bind fun p => if back > points.length then none else
      let l := (if d.newFirst ≠ p then [d.newFirst] else []) ++ (points.drop front).take (back - front)
      (l.getLast?).map fun q => if d.newLast ≠ q then l ++ [d.newLast] else l

/-- polyline_processing.cc:395-411 `ProcessPolylineForMeshCreation`. `mkTree` is the construction of the R-tree. -/
def process (hypot : K → K → K) (mkTree : List (Bundle K) → Tree K) (P : Params K) (points : List (Pt K)) :
    Option (List (Pt K)) :=
  (createData hypot points).bind fun d =>
  (findIntersections (mkTree d.segments) d).bind fun d =>
  (findConnections hypot P (mkTree d.segments) d).bind fun d => newPolyline d points

end Verif.Polyline
