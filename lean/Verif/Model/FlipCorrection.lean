import Verif.Model.MutableMesh
import Verif.Model.Rect

/-!
# Model of the correction of triangles which quantisation flips, in binary32

From `ink/geometry/mutable_mesh.cc:212-686`. The mesh is given by its triangles (lists of vertex indices
which `ValidateTriangles` has accepted) and a function from vertex indices to positions. The vectors of
`FlippedTriangleCorrectionData` are functions of the index; every index used comes from a triangle, or
is the number of a triangle, so no access is out of range. The hash map of corrected vertices is a
function to `Option`, and the hash sets of triangles are lists without repetitions in increasing order:
only their sizes, their elements and (after sorting, mutable_mesh.cc:587) their sorted order are used.
-/

set_option autoImplicit false

namespace Verif.Flip

open F32 Mesh

/-- triangle.h:36 `SignedArea`, vec.h:83-85 `Determinant`. The product with the `double` 0.5 is exact, and
is rounded once to `float`. -/
def signedArea (a b c : PointF) : F32 :=
  mul RectF.half (sub (mul (sub b.x a.x) (sub c.y b.y)) (mul (sub b.y a.y) (sub c.x b.x)))

/-- `t.SignedArea() < 0` -/
def isFlipped (a b c : PointF) : Bool := lt (signedArea a b c) zero

/-- mutable_mesh.cc:222-246 `kNudgeDeltaBitMasks` -/
def masks : List Nat := [
  0b000001, 0b000010, 0b000100, 0b001000, 0b010000, 0b100000,
  0b000011, 0b001100, 0b110000,
  0b000101, 0b000110, 0b001001, 0b001010, 0b010001, 0b010010, 0b010100,
  0b011000, 0b100001, 0b100010, 0b100100, 0b101000,
  0b000111, 0b001011, 0b001101, 0b001110, 0b010011, 0b011100, 0b100011,
  0b101100, 0b110001, 0b110010, 0b110100, 0b111000,
  0b001111, 0b110011, 0b111100,
  0b010101, 0b010110, 0b011001, 0b011010, 0b100101, 0b100110, 0b101001,
  0b101010,
  0b010111, 0b011011, 0b011101, 0b011110, 0b100111, 0b101011, 0b101101,
  0b101110, 0b110101, 0b110110, 0b111001, 0b111010,
  0b011111, 0b101111, 0b110111, 0b111011, 0b111101, 0b111110,
  0b111111]

/-- mutable_mesh.cc:247-252, the bits of the components. -/
def bitX0 : Nat := 0b100000
/-- mutable_mesh.cc:248 -/
def bitY0 : Nat := 0b010000
/-- mutable_mesh.cc:249 -/
def bitX1 : Nat := 0b001000
/-- mutable_mesh.cc:250 -/
def bitY1 : Nat := 0b000100
/-- mutable_mesh.cc:251 -/
def bitX2 : Nat := 0b000010
/-- mutable_mesh.cc:252 -/
def bitY2 : Nat := 0b000001

/-- mutable_mesh.cc:253 `kNudgeVertexBitmasks` -/
def vertexMask : Fin 3 → Nat
  | 0 => 0b110000
  | 1 => 0b001100
  | 2 => 0b000011

/-- mutable_mesh.cc:254 `kNudgeAllComponentsBitmask` -/
def allMask : Nat := 0b111111

/-- mutable_mesh.cc:257-264 `TriFlipState` -/
inductive TriState
  | notFlipped | flipped | fixed
  deriving DecidableEq

/-- The part of the `FlippedTriangleCorrectionData` which does not change: the mesh and the parameters
(mutable_mesh.cc:271-272), and the bounds (284). -/
structure Env where
  tris : List Tri
  original : Nat → PointF
  cx : Coding
  cy : Coding
  bounds : RectF

/-- mutable_mesh.cc:267-287 `FlippedTriangleCorrectionData`: the part that changes. -/
structure St where
  pos : Nat → PointF
  queue : List Nat
  state : Nat → TriState
  corrected : Nat → Option PointF

/-- mutable_mesh.cc:290-294, the lambda `quantize`. -/
def quantize (c : Coding) (v : F32) : F32 :=
  add (mul (fround (div (sub v c.offset) c.scale)) c.scale) c.offset

/-- mutable_mesh.cc:289-298 `QuantizePoint` -/
def quantizePoint (cx cy : Coding) (p : PointF) : PointF := ⟨quantize cx p.x, quantize cy p.y⟩

/-- The indices of triangle `i`; `TriangleIndices(i)` for `i < TriangleCount()`. -/
def Env.tri (E : Env) (i : Nat) : Tri := E.tris.getD i (0, 0, 0)

/-- A triangle of quantised positions is flipped. -/
def flippedAt (pos : Nat → PointF) (t : Tri) : Bool := isFlipped (pos t.1) (pos t.2.1) (pos t.2.2)

/-- mutable_mesh.cc:300-307 `PopulateQuantizedVertexPositions` -/
def Env.quantized (E : Env) (v : Nat) : PointF := quantizePoint E.cx E.cy (E.original v)

/-- mutable_mesh.cc:300-327 `PopulateQuantizedVertexPositions` and `PopulateFlippedTris` -/
def Env.init (E : Env) : St where
  pos := E.quantized
  queue := (List.range E.tris.length).filter fun i => flippedAt E.quantized (E.tri i)
  state := fun i => if flippedAt E.quantized (E.tri i) then .flipped else .notFlipped
  corrected := fun _ => none

/-- `v` is a vertex of the triangle. -/
def hasVertex (t : Tri) (v : Nat) : Bool := t.1 == v || t.2.1 == v || t.2.2 == v

/-- Two triangles share a vertex. -/
def shares (s t : Tri) : Bool := hasVertex s t.1 || hasVertex s t.2.1 || hasVertex s t.2.2

/-- mutable_mesh.cc:329-350 `PopulateAdjacentTriangleMap`: the entry for `i`. -/
def Env.adjacent (E : Env) (i : Nat) : List Nat :=
  (List.range E.tris.length).filter fun j => j != i && shares (E.tri i) (E.tri j)

/-- mutable_mesh.cc:352-365 `CalculateQuantizationBounds` -/
def quantizationBounds (cx cy : Coding) (bx bY : Nat) : RectF :=
  RectF.fromTwoPoints ⟨cx.offset, cy.offset⟩
    ⟨add cx.offset (mul (floatOfU32 (maxValueForBits bx)) cx.scale),
     add cy.offset (mul (floatOfU32 (maxValueForBits bY)) cy.scale)⟩

/-- mutable_mesh.cc:378-387 `GetBitmaskOfAlreadyCorrectedVertices` -/
def correctedMask (d : St) (t : Tri) : Nat :=
  (if (d.corrected t.1).isSome then vertexMask 0 else 0) |||
  (if (d.corrected t.2.1).isSome then vertexMask 1 else 0) |||
  (if (d.corrected t.2.2).isSome then vertexMask 2 else 0)

/-- `std::copysign` with a first argument that is not negative. The sign of a NaN is not modelled. -/
def copysign (a s : F32) : F32 := if s.signBit then neg a else a

/-- mutable_mesh.cc:397-404, the lambda `get_nudge_direction`. -/
def nudgeVector (E : Env) (d : St) (v : Nat) : PointF :=
  ⟨copysign (mul (ofInt 1) E.cx.scale) (sub (E.original v).x (d.pos v).x),
   copysign (mul (ofInt 1) E.cy.scale) (sub (E.original v).y (d.pos v).y)⟩

/-- One corner in mutable_mesh.cc:414-438 `GetNudgedTriangle`, with the bits of its components. -/
def nudged (E : Env) (d : St) (mask bitX bitY v : Nat) : PointF :=
  let n := nudgeVector E d v
  let q := d.pos v
  quantizePoint E.cx E.cy
    ⟨add q.x (if bitX &&& mask ≠ 0 then n.x else zero),
     add q.y (if bitY &&& mask ≠ 0 then n.y else zero)⟩

/-- mutable_mesh.cc:414-438 `GetNudgedTriangle` and 394-408 `GetNudgeVectors`: the corners of the nudged
triangle. -/
def nudgedTri (E : Env) (d : St) (t : Tri) (mask : Nat) : PointF × PointF × PointF :=
  (nudged E d mask bitX0 bitY0 t.1, nudged E d mask bitX1 bitY1 t.2.1, nudged E d mask bitX2 bitY2 t.2.2)

/-- mutable_mesh.cc:441-472 `NudgeCandidate` -/
structure Candidate where
  mask : Nat
  newlyFixed : List Nat
  newlyFlipped : List Nat

/-- mutable_mesh.cc:450-471 `IsBetterThan` -/
def Candidate.isBetterThan (a b : Candidate) : Bool :=
  if a.newlyFlipped.length < b.newlyFlipped.length then true
  else if a.newlyFlipped.length > b.newlyFlipped.length then false
  else if a.newlyFixed.length > b.newlyFixed.length then true
  else if a.newlyFixed.length < b.newlyFixed.length then false
  else false

/-- mutable_mesh.cc:503-512, the lambda `maybe_get_nudged_vertex`. -/
def nudgedVertex (t : Tri) (mask : Nat) (n : PointF × PointF × PointF) (v : Nat) : Option PointF :=
  if v = t.1 ∧ mask &&& vertexMask 0 ≠ 0 then some n.1
  else if v = t.2.1 ∧ mask &&& vertexMask 1 ≠ 0 then some n.2.1
  else if v = t.2.2 ∧ mask &&& vertexMask 2 ≠ 0 then some n.2.2
  else none

/-- mutable_mesh.cc:515-547, the loop over the adjacent triangles: those which are newly fixed and newly
flipped; `none` if a fixed triangle would be flipped again. -/
def adjacentLoop (E : Env) (d : St) (nv : Nat → Option PointF) :
    List Nat → Option (List Nat × List Nat)
  | [] => some ([], [])
  | a :: as =>
    let t := E.tri a
    let p0 := nv t.1
    let p1 := nv t.2.1
    let p2 := nv t.2.2
    if p0.isNone ∧ p1.isNone ∧ p2.isNone then adjacentLoop E d nv as
    else
      if isFlipped (p0.getD (d.pos t.1)) (p1.getD (d.pos t.2.1)) (p2.getD (d.pos t.2.2)) then
        match d.state a with
        | .notFlipped => (adjacentLoop E d nv as).map fun r => (r.1, a :: r.2)
        | .fixed => none
        | .flipped => adjacentLoop E d nv as
      else
        if d.state a = .flipped then (adjacentLoop E d nv as).map fun r => (a :: r.1, r.2)
        else adjacentLoop E d nv as

/-- `Envelope(nudged_triangle).AsRect()`, dereferenced: envelope.h adds the corners one by one. -/
def envelopeOf (n : PointF × PointF × PointF) : RectF :=
  ((RectF.mk n.1.x n.1.y n.1.x n.1.y).join n.2.1).join n.2.2

/-- mutable_mesh.cc:480-549 `MaybeMakeNudgeCandidate` -/
def maybeCandidate (E : Env) (d : St) (i : Nat) (already mask : Nat) : Option Candidate :=
  let t := E.tri i
  if mask &&& already ≠ 0 then none
  else
    let n := nudgedTri E d t mask
    if isFlipped n.1 n.2.1 n.2.2 then none
    else if !E.bounds.containsRect (envelopeOf n) then none
    else (adjacentLoop E d (nudgedVertex t mask n) (E.adjacent i)).map fun r => ⟨mask, r.1, r.2⟩

/-- mutable_mesh.cc:655-676, the loop over the nudges. -/
def bestNudge (E : Env) (d : St) (i already nAdjFlipped : Nat) :
    List Nat → Option Candidate → Option Candidate
  | [], best => best
  | m :: ms, best =>
    match maybeCandidate E d i already m with
    | none => bestNudge E d i already nAdjFlipped ms best
    | some c =>
      if c.newlyFixed.length = nAdjFlipped ∧ c.newlyFlipped = [] then some c
      else
        match best with
        | none => bestNudge E d i already nAdjFlipped ms (some c)
        | some b => bestNudge E d i already nAdjFlipped ms (if c.isBetterThan b then some c else some b)

/-- mutable_mesh.cc:555-558, the lambda `record_vertex`; `insert` keeps an existing entry. -/
def recordVertex (d : St) (v : Nat) (p : PointF) : St :=
  { d with
    pos := fun u => if u = v then p else d.pos u
    corrected := fun u => if u = v then (match d.corrected v with | some q => some q | none => some p)
      else d.corrected u }

/-- mutable_mesh.cc:551-591 `RecordCorrectionAndAddNewFlippedTrisToQueue`. The newly flipped triangles
are in increasing order. -/
def record (E : Env) (d : St) (i : Nat) (c : Candidate) : St :=
  let t := E.tri i
  let n := nudgedTri E d t c.mask
  let d1 := if c.mask &&& vertexMask 0 ≠ 0 then recordVertex d t.1 n.1 else d
  let d2 := if c.mask &&& vertexMask 1 ≠ 0 then recordVertex d1 t.2.1 n.2.1 else d1
  let d3 := if c.mask &&& vertexMask 2 ≠ 0 then recordVertex d2 t.2.2 n.2.2 else d2
  { d3 with
    state := fun j =>
      if j ∈ c.newlyFlipped then .flipped
      else if j ∈ c.newlyFixed then .fixed
      else if j = i then .fixed
      else d.state j
    queue := d3.queue ++ c.newlyFlipped }

/-- mutable_mesh.cc:628-683, the loop. `none`: the fuel is used up (this does not happen, see
`C46_terminates`); `some none`: no correction is found. -/
def loop (E : Env) : Nat → St → Option (Option (Nat → Option PointF))
  | fuel, d =>
    match d.queue with
    | [] => some (some d.corrected)
    | i :: rest =>
      match fuel with
      | 0 => none
      | fuel + 1 =>
        let d := { d with queue := rest }
        if d.state i = .fixed then loop E fuel d
        else
          let already := correctedMask d (E.tri i)
          if already = allMask then some none
          else
            let n := ((E.adjacent i).filter fun t => t != i && d.state t == .flipped).length
            match bestNudge E d i already n masks none with
            | none => some none
            | some c => loop E fuel (record E d i c)

/-- mutable_mesh.cc:597-686 `GetCorrectedPackedVertexPositions`, for a position with `bx` and `by` bits.
The result is the empty map if no correction is needed, or if none is found. -/
def corrected (tris : List Tri) (original : Nat → PointF) (cx cy : Coding) (bits : Option (List Nat)) :
    Option (Nat → Option PointF) :=
  match bits with
  | some [bx, bY] =>
    if tris.any fun t => flippedAt original t then some fun _ => none
    else
      let E : Env := ⟨tris, original, cx, cy, quantizationBounds cx cy bx bY⟩
      if E.init.queue.isEmpty then some fun _ => none
      else (loop E tris.length E.init).map fun r => r.getD fun _ => none
  | some _ => none
  | none => some fun _ => none

end Verif.Flip
