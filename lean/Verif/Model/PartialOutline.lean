import Verif.Model.LegacyIntersection
import Mathlib.Analysis.Real.Sqrt

/-!
# Model of partial outlines and of the search for clockwise triangles in fans

From `ink/strokes/internal/brush_tip_extruder/{directed_partial_outline,find_clockwise_winding_segment,side}.{h,cc}`. Coordinates are exact
(an ordered field, real numbers where lengths occur); offsets are `uint32_t` with their wrapping. `none` outside of an answer is a read out of
bounds.
-/

set_option autoImplicit false

namespace Verif.PartialOutline

open Geo Legacy

/-- The value of a `uint32_t` that is computed as `x`. -/
def wrap (x : ℤ) : ℕ := (x % 2 ^ 32).toNat

/-- side.h:40 `SideId` -/
inductive SideId | left | right
  deriving DecidableEq

/-- side.h:45-81 `Side::SelfIntersection`, what the modelled functions use -/
structure SelfIntersection where
  startingOffset : ℕ
  retriangulationStarted : Bool

/-- side.h:83-105 `Side::MeshPartitionStart`, what the modelled functions use -/
structure PartitionStart where
  adjacentFirst : ℕ
  oppositeFirst : ℕ
  connectsSides : Bool

/-- side.h:108-111 `Side::IndexOffsetRange` -/
structure Range where
  first : ℕ
  last : ℕ

/-- side.h:44-157 `Side`, what the modelled functions use -/
structure Side where
  selfId : SideId
  indices : List ℕ
  discontinuities : List Range
  partitionStart : PartitionStart
  intersection : Option SelfIntersection

/-- directed_partial_outline.h:51-75 `DirectedPartialOutline` -/
structure Outline where
  starting : List ℕ
  startingStart : ℕ
  nStarting : ℕ
  ending : List ℕ
  endingStart : ℕ
  nEnding : ℕ

/-- directed_partial_outline.cc:54-56 `Size` -/
def Outline.size (o : Outline) : ℕ := wrap (o.nStarting + o.nEnding)

/-- directed_partial_outline.cc:62-69 `operator[]` -/
def Outline.get (o : Outline) (i : ℕ) : Option ℕ :=
  if i < o.nStarting then o.starting[wrap (o.startingStart + o.nStarting - i - 1)]? else o.ending[wrap (o.endingStart + i - o.nStarting)]?

/-- directed_partial_outline.cc:71-76 `LastOutlineIndexOffset` -/
def lastOutlineIndexOffset (s : Side) : ℕ :=
  match s.intersection with
  | some x => if x.retriangulationStarted then x.startingOffset else wrap (s.indices.length - 1)
  | none => wrap (s.indices.length - 1)

/-- directed_partial_outline.cc:78-95 `ConstructPartialOutline` -/
def constructPartialOutline (starting ending : Side) : Outline :=
  let first := starting.partitionStart.adjacentFirst
  let first' := starting.partitionStart.oppositeFirst
  ⟨starting.indices, first, wrap (lastOutlineIndexOffset starting - first + 1), ending.indices, first',
    if starting.partitionStart.connectsSides then wrap (lastOutlineIndexOffset ending - first' + 1) else 0⟩

/-- segment.h `Length` and directed_partial_outline.cc:38 `DistanceBetween`: `Magnitude` of the difference -/
noncomputable def distance (a b : Pt ℝ) : ℝ := Real.sqrt ((a.sub b).dot (a.sub b))

/-- directed_partial_outline.h:105-130 `OutlineIntersectionResult::SegmentIntersection` -/
structure Hit where
  position : Pt ℝ
  startingIndex : ℕ
  endingIndex : ℕ
  outlineValue : ℝ
  segmentValue : ℝ

/-- directed_partial_outline.cc:97-150: the loop of `FindOutlineIntersection` from its index `i + 1` and what follows, for the positions from
index `i` -/
noncomputable def search (f : Format ℝ) (segment : Segment ℝ) (triangle : Option (Triangle ℝ)) (i : ℕ) : List (Pt ℝ) → ℝ → Option Hit × ℝ
  | p :: q :: rest, budget =>
    if 0 < budget then
      if p = q then search f segment triangle (i + 1) (q :: rest) budget
      else
        match intersection f ⟨p, q⟩ segment with
        | some r =>
          (some ⟨Segment.lerp ⟨p, q⟩ r.s0, i, i + 1, r.s0, r.t0⟩, max 0 (budget - distance p (Segment.lerp ⟨p, q⟩ r.s0)))
        | none =>
          if triangle.any (fun t => !t.contains q) then (none, 0)
          else search f segment triangle (i + 1) (q :: rest) (budget - distance q p)
    else (none, max 0 budget)
  | [p], budget =>
    if 0 < budget then
      match intersection f ⟨p, p⟩ segment with
      | some r => (some ⟨⟨0, 0⟩, i, i, r.s0, r.t0⟩, max 0 budget)
      | none => (none, max 0 budget)
    else (none, max 0 budget)
  | [], budget => (none, max 0 budget)

/-- The positions of an outline (`mesh.GetPosition(outline[i])`); the code reads them one after the other. -/
def Outline.positions (o : Outline) (mesh : ℕ → Option (Pt ℝ)) : Option (List (Pt ℝ)) := ((List.range o.size).map fun i => (o.get i).bind mesh).mapM id

/-- directed_partial_outline.cc:97-150 `FindOutlineIntersection` -/
noncomputable def findOutlineIntersection (f : Format ℝ) (o : Outline) (segment : Segment ℝ) (mesh : ℕ → Option (Pt ℝ)) (budget : ℝ)
    (triangle : Option (Triangle ℝ)) : Option (Option Hit × ℝ) :=
  (o.positions mesh).map fun ps => search f segment triangle 0 ps budget

section Fans

variable {K : Type} [Field K] [LinearOrder K]

/-- find_clockwise_winding_segment.cc:41-53: the loop, backwards from the position before `last` -/
def fanLoop (side : SideId) (center : Pt K) : Pt K → List (Pt K) → Option (Segment K)
  | _, [] => none
  | last, current :: rest =>
    if current = last then fanLoop side center last rest
    else
      let t : Triangle K := if side = .left then ⟨center, last, current⟩ else ⟨center, current, last⟩
      if t.signedArea < 0 then some ⟨t.p1, t.p2⟩ else fanLoop side center current rest

/-- find_clockwise_winding_segment.cc:31-56 `FindLastClockwiseWindingTriangleFanSegment`, for the positions of `outer_indices`; with less than
two the loop does nothing -/
def fan (side : SideId) (center : Pt K) (ps : List (Pt K)) : Option (Segment K) :=
  match ps.reverse with
  | last :: rest => fanLoop side center last rest
  | [] => none

/-- The positions of a span of a side, from offset `first` to `last` -/
def span (ps : List (Pt K)) (first last : ℕ) : Option (List (Pt K)) := if last < ps.length then some ((ps.take (last + 1)).drop first) else none

/-- find_clockwise_winding_segment.cc:66-103: the loop over the discontinuities, from the last one, and what follows -/
def multiLoop (side : SideId) (center : Pt K) (ps : List (Pt K)) (range : Range) : ℕ → List Range → Option (Option (Segment K))
  | upper, d :: ds =>
    if upper < range.first then some none
    else
      let first := max d.last range.first
      let last := min upper range.last
      if last < first then multiLoop side center ps range d.first ds
      else
        (span ps first last).bind fun indices =>
          match fan side center indices with
          | some s => some (some s)
          | none =>
            if range.first ≤ d.first then
              ps[d.first]?.bind fun a => ps[d.last]?.bind fun b =>
                match fan side center [a, b] with
                | some s => some (some s)
                | none => multiLoop side center ps range d.first ds
            else multiLoop side center ps range d.first ds
  | upper, [] =>
    let last := min upper range.last
    if last ≤ range.first then some none else (span ps range.first last).map (fan side center)

/-- find_clockwise_winding_segment.cc:58-104 `FindLastClockwiseWindingMultiTriangleFanSegment`, for the positions `ps` of the side -/
def multiFan (side : SideId) (center : Pt K) (ps : List (Pt K)) (discontinuities : List Range) (range : Range) : Option (Option (Segment K)) :=
  if ps = [] ∨ range.last ≤ range.first then some none else multiLoop side center ps range (ps.length - 1) discontinuities.reverse

end Fans

end Verif.PartialOutline
