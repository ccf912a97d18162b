# Formal model of google/ink in Lean 4

The properties are in `properties.jsonl`, the model and its theorems in `lean/Verif`, the status of each property in
`MANIFEST.json`, the experiments with wrong programs in `seeded/LOG.jsonl`.

## Trusted base

* Lean 4.33.0's kernel.
* The axioms `propext`, `Classical.choice`, `Quot.sound` (the standard three). No axiom is declared here; no `sorry`,
  `admit`, `native_decide` or `bv_decide`. The last section lists the axioms of every theorem of the manifest.
* The faithfulness of the model: the Lean definitions under `lean/Verif/Model` were written by reading the C++ in /repo.
  Each definition cites the file and lines it models and states its simplifications.

## Conventions

* `Model` has the definitions transcribed from C++, `Spec` the specifications that are more than a line, `Lemmas` the
  proof machinery, `Props` the property theorems, named `Cnn_...`. `F32` is binary32 arithmetic.
* `..._partial` marks a theorem that proves part of its property; `..._counterexample` proves, by a concrete case, that
  the code breaks a documented promise or that a hypothesis is needed.
* `absl::StatusOr`/`absl::Status` are `Except`/`Option`; error *messages* are not modelled.
* `ABSL_CHECK` failures, out-of-range accesses and other undefined behaviour are distinct outcomes (`none` or an error
  constructor) wherever a property depends on them.
* `float` is modelled by `F32` (`Verif/F32`): IEEE-754 binary32 with one NaN, two infinities, signed zero, subnormals
  and round-to-nearest-even; no FMA contraction, no fast-math, no excess precision. Transcendental functions and `sqrt`
  are not modelled by `F32`; where the code calls them they are parameters of the model with stated assumptions.
* Where geometry is modelled in exact arithmetic over a linearly ordered field the rounding of the C++ `float`
  evaluation is *not* modelled; each such theorem says so.
* Unsigned arithmetic wraps in the model wherever it can wrap in a reachable state; `size_t` has 64 bits.
* Loops without an obvious bound take a bound as an extra argument, with "bound exhausted" as a distinct outcome; the
  theorems show it is not reached, or that it is (`C43_particles_counterexample`).

## Plan per property

| id | model | proof |
|----|-------|-------|
| C01 | StrokeInputBatch as flat float list + flags | refinement to `List StrokeInput`, induction on call history |
| C02 | same, every fallible call | case analysis; success iff the spec list is valid |
| C03 | same | invariant by induction; negations by concrete history for the non-consecutive, Erase and Transform clauses |
| C04 | heap of shared buffers with reference counts (CopyOnWrite) | simulation with unshared values, induction on history |
| C05 | InProgressStroke state machine (queued/processed inputs, real count) | ghost history variables, invariant |
| C06 | same | case analysis on reachable states |
| C07 | same plus abstract shape builder | negation by witness; `_partial` under PredictedInputCount = 0 |
| C08 | same plus StrokeInputModeler bookkeeping | negation by witness; `_partial` for updates with non-empty queue or no prediction |
| C09 | Uri parser and printer over lists of characters | round-trip by induction on strings |
| C10 | same | acceptance iff grammar predicate |
| C11 | MeshFormat::Create and offset computation | iff with the documented predicate; prefix-sum disjointness |
| C12 | bit packing of every attribute type; float coding in F32 | bit-level arithmetic; rounding-error bound |
| C13 | MutableMesh over byte vectors | refinement to lists |
| C14 | PartitionTriangles | loop invariant |
| C15 | StaticRTree: array of branch nodes, bulk load level by level, traversal with a stateful visitor | permutation argument per level; induction on the height |
| C16 | PartitionedMesh::Data flattening, validation of groups | prefix-sum lemmas, iff with the documented predicate |
| C17 | Coverage loops on binary32 sums over the triangles a query visits | monotone partial sums for the early exit; relative error of float sums |
| C18 | Duration32 over F32 | case analysis on special values, witnesses for the negations |
| C19 | Angle over F32 (fmod exact) | rounding lemmas (Sterbenz, monotonicity) |
| C20 | Envelope/Rect over F32 comparisons | fold invariant, lattice argument |
| C21 | Rect/Segment over F32 | rounding bounds near FLT_MAX |
| C22 | intersects_internal in exact arithmetic | algebra / convexity |
| C23 | same; rectangles in F32 comparisons | corollary of C22 |
| C24 | Triangle in exact arithmetic | barycentric coordinates |
| C25 | Quad in exact arithmetic | invariant + algebra |
| C26 | AffineTransform in exact arithmetic | `ring`/`field_simp` |
| C27 | Color over F32, transfer functions abstract | invariant over histories, witness |
| C28 | Color over F32 | rounding-error bound for all 256 values |
| C29 | EasingImplementation over F32, with the construction of the Bezier table | induction on the list of points; rounding lemmas; the 79 parameters of the curve are constants, the curve is steep enough between them |
| C30 | Brush over F32 comparisons | invariant |
| C31 | Stroke with abstract shape generator | invariant; negation by witness |
| C32 | behavior nodes as stack machine; validator | induction on node list |
| C33 | CreateTipState over F32 | clamp lemmas |
| C34 | ApplyModifierToTarget exact / F32 | commutative fold; witness |
| C35 | StrokeInputModeler over an abstract model function | simulation with the one-shot run |
| C36 | StrokeOutline raw buffer | refinement |
| C37 | MutableMeshView over MutableMesh bytes or legacy vectors; StrokeVertex in a mesh | refinement to lists whose elements are marked when changed |
| C38 | SimplifyPolyline, over any distance; Distance of point and segment in binary32 | strong induction on length; convexity of the distance (C48) for whole polylines |
| C39 | StrokeVertex::Label | F32 exactness for small integers |
| C40 | index byte storage; Mesh::Create | byte arithmetic |
| C41 | ApplyOutOfRangeBehavior over F32 | floor/round lemmas |
| C42 | BrushTipModeler bookkeeping | invariant |
| C43 | BrushTipModeler, all node kinds | invariant: every read in range; witness for particles |
| C45 | MutableMesh::AsMeshes on bytes | refinement: columns of referenced vertices, partition (C14), packing (C12), correction (C46) |
| C46 | GetCorrectedPackedPositions as a queue machine over binary32 | decreasing measure; invariant: negative triangles are queued, moved vertices are on the grid |
| C47 | generator of triangle indices, spatial index, VisitIntersectedTriangles, Bounds | induction over the generator; C15; envelopes (C21) |
| C48 | Distance of all pairs of shapes in exact arithmetic | least distance: convexity for point and segment, crossing (C22) for the others |
| C44 | BrushTip/BrushPaint/BrushCoat/BrushFamily validation | iff with the documented predicate |
| C49 | Geometry of the extruder: mesh, vertex tables, sides, breaks, save point; any sequence of primitive changes | invariant that relates saved and current values to a ghost copy; simulation by a stroke without predictions |
| C50 | `BrushTipExtruder`: extrusions, save and restore, outlines, on the geometry of C49; tip shapes and the changes for turns and caps are parameters | simulation of the incremental extruder by a stroke that is extruded once; invariants of outlines and vertex tables |
| C51 | `ConvexHull`: pruning, start point, comparison, scan, in exact arithmetic; `std::sort` is a parameter | invariant of the scan: the stack is strictly convex and its hull contains all points seen; Grassmann-Pluecker identities |
| C52 | `Intersects` and `VisitIntersectedTriangles` of shapes with transforms, `CalculateCollapsedSegment`, in exact arithmetic | C22 and C26 for invertible transforms; a singular transform is rank one: intervals on a line, chain of triangles |
| C53 | SegmentIntersectionRatio and relatives in exact arithmetic | Cramer's rule; intervals of ratios on a common line |
| C54 | CreateForStroke, attribute fetch and the unpacking functions of the vertex shader | splitting of codes by floor and fract in binary32, byte for byte; refinement to `VertexAttribute` |
| C55 | mutation tracking of the mesh and of both sides, envelope of removed geometry, save points, joined updates | invariants: old corners are recorded or unmoved, new corners before the first changed triangle are unchanged or noted; order of the triangles of a strip |
| C56 | cached and current bounds of `brush_tip_extruder.cc`, on the geometry of C49 | invariant: the cache has the positions of the first vertices of each side, without the last one, now and in the saved state; vertices of both sides are a permutation of all vertices |
| C57 | `Circle` over ℝ with the real trigonometric functions; number of steps in binary32 | trigonometry; ceiling; the nearest point of the chord by cases |
| C58 | `Vec` over ℝ (complex numbers), and in binary32 with NaN, infinities and signed zeros | arguments of complex numbers; rounding is monotone, representable bounds |
| C59 | `ProcessPolylineForMeshCreation` in an ordered field; the R-tree is any order of the elements (C15) | invariants of the visitors; C53 for intersections, C48 for distances; cases of the construction |
| C60 | `ConstrainBrushTipExtrusion` and `LerpShapeAttributes` in binary32; shapes and tangent quality are parameters | monotone rounding bounds the interpolation; invariant of the bisection, exact for 24 halvings |
| C61 | `Drawable`, `MeshUniformData` with shared, reference counted buffers, recorded commands | refinement to drawables as separate values, step by step: a buffer with one owner is referred to by nothing else |
| C62 | `ShaderCache` with its three caches, a store whose answers depend on the history, `ValidateBitmap` with 64-bit sizes | refinement to a machine that only knows the bitmaps; terms of shaders evaluated to places and colours |
| C63 | `CreateDrawable` for both kinds of strokes, on top of the caches of C62 and with the coats of C61, specification cache, paths | induction on calls and coats with an invariant of the caches |
| C64 | `Tessellate` for any vertex type and any library, `CreateMeshFromPolyline` with the meshes of C40 | induction on the corners of the triangles with an invariant of the memoised vertices |
| C65 | `BrushTipShape` in real arithmetic: constructor, bounds and `Contains` | support functions: convex regions are compared in all directions; a circle found outside of a corner pokes out in a direction between the normals of its edges, and conversely the last direction before poking out is the tangent angle at a corner that is the farthest there |
| C66 | `RoundedPolygon` in real arithmetic | the support function of the boundary: the point at an angle is the farthest in its direction (induction along the tour, with the sine of the turn); the least gap between the support functions of the polygon and of the circle is attained inside of an arc, where its derivative is 0, or at a tangent, between two circles that touch it |
| C67 | `GetTangentCircleIndices` and `EvaluateTangentQuality` in real arithmetic | the walks find in-range indices (adjacent circles are of the same size and apart); case analysis of the evaluation; C65 for containment and C66 for the unused circles; the used circles of the same size by the tour of their centers; concrete witnesses with rational normals for the defects; for a tip that moves, the walk goes to the circle farthest to the side (it turns less than the next edge exactly there), so that the indices are explicit and every direction's farthest circle is used; for circles of one size the center is inside of a shape, so that there always is a circle in front |
| C68 | `AppendWholeShapeExtrusionPoints`, `AppendStartcapExtrusionPoints`, `AppendEndcapExtrusionPoints`, `AppendTurnExtrusionPoints` and `AppendCircularTurnExtrusionPoints` in real arithmetic | the arcs are a tour of the boundary in the order of their normals; a list of boundary points whose normals go around once is clockwise and near the shape (support functions and separation); splitting into left and right points by the sign changes along the tour; concrete witnesses for the defects |
| C69 | `AppendTurnExtrusionPoints` and `AppendCircularTurnExtrusionPoints` in real arithmetic | each point added is on a circle of the middle tip or on a tangent segment, whose ends are in the hulls; for round tips the tangents are at right angles to the way and the angle between them is that of the turn; the crossing by the theorem on segment intersection (C53) |
| C70 | `DerivativeCalculator` and the margins of labels, in real arithmetic | the averages accumulate the vectors of the triangles that are visited, the others have only older vertices; runs by induction on the list; the crossing of the outset line with the bounding line tells on which side a moved vertex is; in barycentric coordinates a region has a first coordinate of at least 1/19 |
| C71 | the anti-aliasing functions of the shaders, in real arithmetic | the distance of a point to a line under a linear map by areas; the outset by cases on the labels; the sum of the coverage as an integral of two ramps, split at the width of an edge |
| C72 | the colour functions of the shaders, in real arithmetic | the chroma as a complex number that is multiplied by an exponential; the products of the two matrices bound the error of shifts of 0 |
| C73 | the curves and the matrices, in real arithmetic | the two pieces of the curve separately, with rational bounds of the powers at the seam; a bound of the relative error of the root; matrices by linear arithmetic |
| C74 | the functions in exact arithmetic, with any scaling and tolerance | by cases of the positions of end points relative to lines; barycentric coordinates |
| C75 | the functions in exact arithmetic with wrapping offsets | induction over the outline; a fan is split at common positions, discontinuities by induction from the last |
| C76 | `AppendVertexToSide`, `ProcessNewVertices` without handling of self-intersections, `AddExtrusionBreak`, `NStableTriangles` in exact arithmetic | invariant of sides, buffers and triangles over all calls; induction over the loops; each added vertex extends the mesh by what the final state says about it |
| C77 | `PhysicalDistance` in binary32 | a multiple of 2^-13 cm is nearer to the sum than the distance; relative errors of two roundings; monotone rounding |
| C78 | `SmallArray` | refinement to lists, by induction over the history |
| C79 | which vertices are updated after an extension, and the whole history of updates | runs of coincident vertices as `splitBy`; an update in closed form for each run; two updates agree on a part whose runs and triangles they share; induction over the history; every state of the triangulation is a strip, by an invariant of its labels and sides, and later calls change only the last vertex of each side |
| C80 | `Lerp` of numbers, vectors, colours and angles, `InverseLerp`, `LinearMap` and `NormalizedAngleLerp` in binary32; `NormalizedAngleLerp` and `SpiralLerp` in real numbers | monotonicity of rounding; sums of rounding errors; differences of binary32 numbers do not underflow; polar coordinates |
| C81 | `StrokeShapeBuilder` as the composition of the models of C35, C42 and C50 | induction over the updates gives the history of each part; the fixed tip states are those of a run over the stable inputs, whose distances ascend by rounding; the theorems of C35, C42, C43 and C50; which state counts as the last does not matter for gaps between particles; a simulation for earlier uses |
| C82 | `InProgressStroke` with the shape builders of C81 instead of abstract ones, `RegenerateShape` | the calls a builder receives have the real inputs of `GetInputs` (C08); then C81; an invariant for histories without predictions; updates with empty queues add only calls without inputs |
| C83 | `NeedsUpdate` and updates without inputs on the models of C81 and C82 | an update without inputs after one without prediction leaves the modeled inputs; the tip modeler then fixes nothing and gives the same states if all sources have the same values; beyond its range a clamped source has one value, by monotonicity of rounding, and for milliseconds a bound of the error of two products; an invariant ties the predicted inputs counted to the last update of each coat |

## Findings: documented promises the code does not keep

Each is a theorem; the concrete case is in it.

* `StrokeInputBatch` (C03): `Erase` can make two equal inputs neighbours, duplicates that are not adjacent are accepted,
  `Transform` can overflow to non-finite positions, an orientation of a full turn is accepted.
* `InProgressStroke` (C06, C07, C08): a NaN time passes the checks of the elapsed time; the shape can still depend on a
  prediction that is no longer current.
* `MeshFormat` (C11): custom attribute ids from 128 on are documented and rejected.
* Packing (C12, C40): the documented error of half a step does not hold for values far from zero; narrow and huge ranges
  break quantisation; the range of unpacked attributes is not checked.
* `PartitionTriangles` (C14): a limit of fewer than three vertices is not respected.
* `StaticRTree` (C15): querying an empty tree is undefined; the constructor accepts 2^32 elements, whose count is then 0.
* `PartitionedMesh` (C16): 65536 meshes are documented as allowed and refused; an outline of which no vertex is in a
  triangle is an error, and such vertices vanish from other outlines.
* Spatial queries (C47): of a mesh with 65536 or more triangles, only the first 65536 are found, and meshes after it are
  not searched, as triangle indices are `uint16_t`; shapes with groups but no meshes fail a check; the bounds of a packed
  mesh need not contain its vertices.
* Coverage (C17): it can exceed one, is NaN for triangles without area, disagrees with the threshold version close to the
  threshold, and fails a check for shapes with groups but no meshes.
* `AsMeshes` (C45): packing parameters correspond to the attributes that are left, not to those of `Format()`; without
  triangles no argument is checked; non-finite values of omitted attributes and ranges of unreferenced vertices are not
  errors.
* Simplification of outlines (C38): with coordinates so large that their squares overflow, the distance is NaN and a far
  vertex is dropped.
* Conversion to packed meshes (C46): the correction of flipped triangles can move a vertex out of the packable range, and
  its position then wraps around to the other side of the mesh.
* Drawing (C54): the packing parameters of the first mesh of a group are used for all of them, and those of labels and shifts
  are constants in the shader; `Mesh::Create` chooses others and nothing rejects such a mesh, so it is drawn in the wrong
  place and with wrong labels. If bytes reach the shader as 16-bit floats, as its comment says, positions are wrong.
* Updated region (C55): undoing predictions looks for removed geometry among the triangles above the saved number of triangles,
  and the vertices below the saved number of vertices. If predictions delete the current part of the stroke and draw several
  disconnected parts, which have fewer triangles per vertex, then triangles below the first number use vertices above the second:
  these are removed, but are not in the updated region.
* Bounds of a stroke in progress (C56): the cached part of the bounds is cleared only if geometry is deleted. The header requires
  to clear it also if vertices are changed; retriangulation of self-intersections moves vertices that are in it. The bounds then
  keep old positions, and do not contain new ones unless they happen to be inside.
* `Circle::AppendArcToPolyline` (C57): for an arc of angle zero and a chord height of at most 2^-25 of the radius the number of steps
  is 0/0, and converting NaN to an integer is undefined. `GetArcAngleForChordHeight` returns 2π, which is outside of its
  documented range, for chord heights of twice the radius or more.
* `Vec::AsUnitVec` (C58): halving the least float gives zero. For vectors whose components are zero or ±2^-149, but not both zero,
  the magnitude of the halved vector is zero and the CHECK in the division fails. `SignedAngleBetween` and
  `AbsoluteAngleBetween` fail with it.
* `ProcessPolylineForMeshCreation` (C59): a repeated point (a segment of length zero) within the connection distance of an endpoint
  fails the CHECK on the projection, unless a connection which is not longer was found before. Polylines with less than two
  points are not rejected (`points.size() - 1`, `segments.front()`). If the last segment to meet an earlier one overlaps it, the
  polyline is trimmed to the start of the overlap, not to the last intersection.
* `LerpShapeAttributes` (C60): `pinch` is interpolated too, though the documentation lists only the other shape attributes and says
  that the rest is copied. The interpolated slant of two slants of π/2 can be the next float above π/2, outside the documented range.
  Interpolating infinite sizes gives NaN, which fails a CHECK of `BrushTipShape`. The documented error of the search assumes that
  tangents are good up to some amount only.
* `Drawable` (C61): the header says that all drawables of strokes have a brush colour. Those of strokes that are empty or not started
  have none, and `SetBrushColor` fails a CHECK.
* `ShaderCache` (C62): the rotation, opacity, jitters and keyframes of a texture layer are ignored, and sizes in multiples of the stroke
  size are taken for stroke coordinates. `ValidateBitmap` does not check the colour format and the colour space, which the header
  requires to be valid; with an invalid one the renderer crashes.
* `CreateDrawable` (C63): without a context textures are ignored, also missing ones; the documented list of limitations of CPU rendering
  does not have it. A stroke in progress with 65535 vertices is refused although all indices are below 2^16.
* `CreateMeshFromPolyline` (C64): more than 65536 points, or points that are not finite, are refused; the documentation names only
  too few and collinear points.
* `BrushTipShape` (C65): the least separation of circles is compared before the slant; a valid slant of a quarter of a turn can move
  two circles to the same place, although the code expects that circles of a shape never contain one another.
* `RoundedPolygon::ContainsCircle` (C66): an arc of half a turn has parallel normals, so that the tolerance for degenerate arcs ignores it:
  the polygon of two circles of the same size is said to contain circles anywhere beyond its two ends.
* `BrushTipExtrusion::EvaluateTangentQuality` (C67): the short-circuit for shapes all of whose circles are used assumes that used circles are
  covered. This is not so for circles of different sizes: of a circle and a line that crosses it, the joined shape misses the front of the circle.
* `BrushTipShape::GetTangentCircleIndices` (C67): of circles in the same direction the nearest is taken, so that for a tip that is a line
  and moves along itself its rear end is connected with its rear end and the front end is not in the joined shape (a TODO in the code
  suspects the same). `C67_moved` proves that this is the only case.
* `BrushTipShape::GetTangentCircleIndices` (C67): if the only tangent to another shape turns by more than a quarter of a turn, the index 0 is
  used instead (a DCHECK says that this is impossible). If that circle is contained in the other, the CHECK of `RoundedPolygon` fails: the process
  aborts, in release builds as well. A circle of radius 1 and a slanted triangle that pokes out of it behind are an example.
* `AppendCircularTurnExtrusionPoints` (C68): if the incoming and the outgoing tangent are within 0.00001 radians then they are taken for the same,
  and the left arc, whose angle is then computed as the difference minus a full turn, goes once around the circle. This is so for the caps of any rounded
  tip that moves exactly along one of its straight sides, as a rounded square that moves along an axis: the outline gets a loop inside of the shape.
* Shaders (C71): `calculateAntialiasingAndPositionOutset` divides by the width in pixels. It is 0 for a vertex with a side derivative of 0,
  which `DerivativeCalculator` gives to vertices without triangles that have an extent; the position then is infinity times 0.
* Shaders (C72): the matrices between RGB and YIQ are rounded to three digits and are not inverse to each other: a vertex with shifts of 0
  changes red to (1.000428, -0.000276, 0.000476). Shifted components are not clamped, so that a premultiplied component can exceed the opacity.
* `Color` (C73): the pieces of the gamma curve do not meet: encoding steps back by 3*10^-8 at 0.04045 / 12.92, so that encoding is not
  increasing there, and no component is decoded to the numbers of a gap of 10^-8. Decoding takes the upper piece at 0.04045, the standard the lower one.
* `LegacyIntersection` (C74): for two segments that are the same point the result is the whole of both, although a single point is documented
  to have equal bounds; `LegacyTriangleContains` says that a triangle without area contains nothing but its corners.
* `FindOutlineIntersection` (C75): if all vertices of the outline are at one position, `position` of the result is not set and remains (0, 0);
  the first vertex of the outline is not compared with the containing triangle, although the documentation says that all vertices up to the
  intersection must be in it.
* `SimplifyBufferedVertices` (C76): the last vertex of a side is replaced if the next triangle then still turns counter-clockwise, but triangles
  that the vertex belongs to already are not checked: one of them can be turned clockwise. `NStableTriangles` are documented not to change,
  but `AddExtrusionBreak` labels the last vertex of a side as the end of the stroke, which can belong to them.
* `TryAppendVertexAndTriangleToMesh` (geometry.h:314-319) is documented to append the vertex of a degenerate triangle if it is at a new
  position; the code then appends nothing.
* `Intersects` of a `PartitionedMesh` under a transform that cannot be inverted (C52): if the transform maps the diagonal of
  the bounds to a point, e.g. (x, y) to (x - y, 0) for a square, the whole shape is taken for that point and intersections are
  missed. A shape in several pieces is taken for one piece, so points in the gaps count as intersections.
* `ConvexHull` (C51): with more than 500 points the extreme points themselves are pruned, so that the rightmost, leftmost and
  topmost point are missing from the hull; points directly above the lowest one compare as equivalent, and the topmost of them
  can be dropped.
* `Duration32` (C18): zero times infinity and zero over zero are NaN.
* `Angle` (C19): an infinite angle normalises to NaN.
* `Rect` (C21, C23): the center of a rectangle with tiny bounds can be outside; `TranslateSetting...` need not set the
  value; `SetWidth` can overflow; containing an aspect ratio can fail; a NaN rectangle intersects everything.
* `AffineTransform` (C26): applying a transform without inverse to a quad can lose points.
* `Color` (C27): `ScaledToGamut` of an infinite channel is NaN.
* Easing (C29): overflow gives NaN; a step function can exceed 1; a cubic Bezier need not pass through (1, 1).
* Brush behaviors (C33, C42, C43): finite width modifiers can combine to NaN; tip states offset along the travel
  direction are fixed too early without a direction source; a valid tiny particle gap makes the update loop forever.
* `BrushFamily` (C44): texture layer offsets outside [0, 1] are documented as errors and accepted.
* `MutableMeshView` (C37): with more than 1431655765 triangles in legacy vectors, `3 * index` overflows; a change of a
  triangle below `FirstMutatedTriangle` is missed and `Resize` drops triangles.
* `Geometry` of the extruder (C49): `RevertToSavePoint` does not restore derivatives and side margins, which are written
  without saving them. `ClearSinceLastExtrusionBreak` decides by the number of triangles whether geometry must be saved and
  then CHECKs the number of vertices: vertices without triangles, followed by a break, after the save point crash it.
* `ExtendStroke` (C50): if a call has no volatile states its last fixed state counts as the last one of the stroke and is extruded
  even if it is too similar to the one before. It then stays although more states follow, so the stroke depends on how its inputs
  were distributed over calls.
* `StrokeShapeBuilder` (C81): for the same reason the shape that is built again from the inputs of a finished stroke in one update need not be
  the shape that was drawn, if after some update all modeled inputs were stable (`C81_settled_counterexample`); and a prediction that is taken
  back with nothing in its place leaves its shape, so that the last real input may not be drawn (`C81_withdrawn_counterexample`).
* `StrokeInputModeler` (C35): an update without inputs does not withdraw a prediction that added no modeled input;
  `real_input_count` can equal `stable_input_count` and can decrease; withdrawing all inputs leaves the old distance.
* `Stroke` (C31): changing the input model or the paint leaves the old shape; `SetInputs(GetInputs())` empties the stroke.

## What is modelled

| area | files of /repo/ink | model |
|------|--------------------|-------|
| inputs | strokes/input/stroke_input_batch, stroke_input, types/internal/copy_on_write | `Model/StrokeInputBatch` |
| in-progress strokes | strokes/in_progress_stroke, bookkeeping of internal/stroke_input_modeler and stroke_shape_builder | `Model/InProgressStroke` |
| shape builder | internal/stroke_shape_builder: the modeler of inputs, the tip modeler and the extruder together | `Model/ShapeBuilder` |
| strokes | strokes/stroke | `Model/Stroke` |
| URIs | types/uri | `Model/Uri` |
| modeled inputs | strokes/internal/stroke_input_modeler (the library `ink_stroke_modeler` is a parameter) | `Model/StrokeInputModeler` |
| meshes | geometry/mesh_format, mesh, mutable_mesh, internal/mesh_packing | `Model/MeshFormat`, `Mesh`, `MutableMesh`, `AsMeshes`, `MeshPacking`, `FlipCorrection` |
| shapes of strokes | geometry/partitioned_mesh | `Model/PartitionedMesh`, `MutableGroups`, `SpatialQuery` |
| spatial index | geometry/internal/static_rtree | `Model/StaticRTree` |
| shapes, exact | geometry/segment, triangle, quad, rect, internal/intersects_internal, affine_transform, distance, convex_hull, intersects, internal/algorithms, vec, internal/circle, internal/polyline_processing, tessellator, internal/generic_tessellator | `Model/Polyline`, `Circle`, `Geometry`, `AffineTransform`, `Distance`, `ConvexHull`, `MeshIntersects`, `SegmentAlgorithms`, `Interpolation`, `Tessellator` |
| shapes, binary32 | geometry/rect, envelope, angle, segment, vec | `Model/Rect`, `Angle`, `VecF32` |
| time, distance, arrays and colour | types/duration, types/physical_distance, types/small_array, color/color, color_space and conversions | `Model/Duration`, `PhysicalDistance`, `Color`, `ColorSpace` |
| brushes | brush/brush, brush_family, brush_coat, brush_tip, brush_paint, brush_behavior, easing functions | `Model/Brush`, `BrushBehavior`, `Easing`, `EasingTable` |
| tip modelling | strokes/internal/brush_tip_modeler, brush_tip_modeler_helpers, brush_tip_state, noise parameters | `Model/BrushTipModeler`, `BrushBehavior` |
| outlines, vertices | strokes/internal/stroke_outline, stroke_vertex (labels and packing) | `Model/StrokeOutline`, `StrokeVertex` |
| extrusion | strokes/internal/brush_tip_extruder/simplify, mutable_mesh_view, extruded_vertex (conversions), geometry (storage, breaks, save points with any sequence of primitive changes; the triangulation without self-intersections; the update of derivatives), side, derivative_calculator, derivative_calculator_helpers; strokes/internal/brush_tip_extruder; constrain_brush_tip_extrusion (the evaluation of tangents is a parameter); stroke_shape_update; brush_tip_shape (shapes, bounds, containment, tangent circles); rounded_polygon; brush_tip_extrusion; circular_extrusion_helpers; legacy intersections, directed_partial_outline, find_clockwise_winding_segment | `Model/Constrain`, `Simplify`, `MutableMeshView`, `StrokeGeometry`, `BrushTipExtruder`, `StrokeUpdate`, `StrokeBounds`, `BrushTipShape`, `RoundedPolygon`, `BrushTipExtrusion`, `DerivativeCalculator`, `LegacyIntersection`, `PartialOutline`, `Triangulation`, `GeometryDerivatives` |
| drawing | rendering/skia/common_internal: mesh specifications, unpacking in the vertex shader, anti-aliasing and colours in the shaders; packing parameters of strokes/internal/stroke_vertex; rendering/skia/native: drawables and their uniforms, creation from strokes, caches of shaders and specifications; rendering/bitmap | `Model/Shader`, `Antialias`, `Drawable`, `ShaderCache`, `CreateDrawable` |

## Not modelled

The `ink_stroke_modeler` library, the handling of self-intersections inside `brush_tip_extruder/geometry.cc`, libtess2, Skia
itself and the rest of the rendering code, JNI glue, string formatting of error messages, memory allocation failure, and data races
(objects are used from one thread). In the binary32 models gamma curves, `sin`/`cos`
and `sqrt` are parameters.

## Axioms of each theorem of the manifest

As printed by `#print axioms`.

* no axioms: C30_set_others, C31_set_color.

* `propext`: C01_get_out_of_range, C06_nan_time_accepted_counterexample, C07_dry_counterexample, C08_stale_prediction_counterexample, C14_small_limit_counterexample, C23_nan_counterexample, C31_construct, C31_set_inputs, C16_default, C49_clear_counterexample, C49_derivatives_counterexample, C50_batching_counterexample.

* `Quot.sound`, `propext`: C01_size_get, C01_format_accessors, C01_iteration, C11_tiles_disjoint, C11_default, C11_packed_bits_fit, C21_contains_rect, C21_smallest, C21_resize, C23_rect_binary32, C26_compose, C26_monoid, C26_factories, C28_packed_all, C34_combined, C34_interleaving, C34_exact, C44_required_attributes, C37_legacy_resize_counterexample, C54_full_format, C55_offsets, C55_offsets_all, C55_region_counterexample, C56_moved_counterexample, C61_separate, C62_stable, C75_outline, C78_refines, C78_read, C78_excess.

* `Classical.choice`, `Quot.sound`, `propext`: C01_call_refines_list, C01_history_refines_lists, C01_duration, C02_error_changes_nothing, C02_append_all_or_nothing, C03_all_histories_partial, C03_no_transform_partial, C03_valid_sequence_partial, C03_edits_keep_valid_sequence, C03_erase_makes_duplicates_counterexample, C03_nonadjacent_duplicates_counterexample, C03_transform_overflow_counterexample, C03_orientation_full_turn_counterexample, C04_copies_independent, C04_copy_equal, C05_inputs_real_then_prediction, C06_enqueue_accepts_iff, C06_continues_iff_valid_sequence, C06_update_accepts_iff, C06_error_changes_nothing, C07_dry_partial, C07_no_prediction_after_finish, C08_geometry_has_the_real_inputs, C08_geometry_matches_inputs_partial, C09_parse_normalized_roundtrip, C09_equal_iff_same_normalized_string, C09_normalization_idempotent, C09_normalized_is_shortest, C10_parse_accepts_exactly_grammar, C10_grammar_unambiguous, C10_parsed_fields, C11_create_accepts_iff, C11_create_layout, C11_without_attributes, C11_equivalences, C11_ids_from_128_counterexample, C12_integers_roundtrip, C12_unpacked_exact, C12_quantisation_partial, C12_unpacked_params, C12_coding_params_error_iff, C12_half_step_counterexample, C12_narrow_range_counterexample, C12_narrow_range_wraps_counterexample, C12_unpacks_to_infinity_counterexample, C12_nan_is_representable, C13_refines_lists, C13_validate_triangles, C14_partition, C18_never_nan_partial, C18_nan_counterexample, C18_documented_results, C18_order, C18_arithmetic, C18_precision, C18_scaling, C19_normalized, C19_normalized_about_zero, C19_infinite_counterexample, C20_smallest, C20_order_independent, C21_never_inverted, C21_checks, C21_setters_counterexample, C21_center_finite, C21_center_contained_partial, C21_center_counterexample, C21_lerp_finite, C21_lerp_ends, C21_aspect_ratio_partial, C21_containing_counterexample, C22_intersects_iff, C23_intersects_symm, C24_triangle_contains, C24_signed_area, C25_history, C25_setters, C25_join, C25_width_rotation_range, C26_inverse, C26_apply_segment_triangle, C26_apply_quad_partial, C26_apply_rect_partial, C26_apply_quad_counterexample, C26_find_segment, C26_find_triangle, C26_find_quad, C26_find_rect, C27_scaled, C27_no_nan_partial, C27_counterexample, C27_crash, C27_outputs, C27_clamped, C27_conversions, C28_uint8_round_trip, C28_packed_round_trip, C28_argb, C40_create_error_iff, C40_create_contents_partial, C40_unpacked_range_counterexample, C40_read_triangle, C40_write_triangle, C40_write_then_read, C29_linear, C29_linear_at_points_partial, C29_linear_counterexample, C29_steps_partial, C29_steps_counterexample, C29_bezier_in_bounds, C29_predefined, C29_bezier_curve, C29_bezier_table, C29_bezier, C29_predefined_bezier, C29_bezier_end_counterexample, C41_unit_interval, C41_values, C41_identity, C41_infinite, C32_validation, C32_never_underflows, C32_evaluation, C32_damping, C32_null_no_effect, C33_ranges_partial, C33_counterexample, C34_two_modifiers, C34_binary32_counterexample, C34_behaviors, C42_one_pass, C42_unfinished, C42_schedule, C42_direction_counterexample, C43_continuous, C43_one_state_per_input, C43_particles_counterexample, C36_outline, C39_category, C39_encodable, C39_margin, C39_margin_mono, C39_margin_ends, C39_roundtrip, C39_packing, C39_lerp, C39_barycentric, C39_shifts, C39_shift_zero, C39_surface_uv, C30_create, C30_set_size, C30_set_epsilon, C30_default, C30_valid, C31_tip_equality, C31_set_brush, C31_set_family, C31_set_size, C31_set_epsilon, C31_shape_partial, C31_stale_shape, C31_shape_counterexample, C31_alias_counterexample, C44_create_partial, C44_documented_accepted, C44_create_string, C44_create_single, C44_offset_counterexample, C44_default, C15_query_partial, C15_limit_counterexample, C15_empty_counterexample, C16_mutable_partial, C16_outline_counterexample, C16_build_iff_partial, C16_contents, C16_empty_groups, C16_limit_counterexample, C46_terminates, C46_not_needed, C46_corrected_partial, C46_overflow_counterexample, C45_no_triangles, C45_error_iff, C45_contents_partial, C45_params_format_counterexample, C17_meaning, C17_meaning_shape, C17_default, C17_agree_partial, C17_accurate_partial, C17_greater_counterexample, C17_above_one_counterexample, C17_no_area_counterexample, C17_no_meshes_counterexample, C47_created_readable_partial, C47_searchable, C47_bounds, C47_mesh_bounds, C47_bounds_empty, C47_bounds_counterexample, C47_wrap_counterexample, C47_visit_partial, C47_visit_all_partial, C47_meets_partial, C47_visit_shape_partial, C47_default, C47_no_meshes_counterexample, C47_wrap, C38_simplify, C38_needed, C38_overflow_counterexample, C38_within, C48_distance, C48_symm_zero, C37_new_of_mesh, C37_new_of_vectors, C37_refines, C37_unchanged, C37_legacy_overflow_counterexample, C35_modeled, C35_stable, C35_batching, C35_final, C35_accepted, C35_times, C35_spacing, C35_rejected, C35_withdrawn_counterexample, C35_real_count_counterexample, C35_real_count_decreases_counterexample, C35_distance_counterexample, C49_revert_partial, C49_revert_exact, C49_extend_partial, C49_no_trace_partial, C49_clear_partial, C49_clear_input, C50_extend_partial, C50_batching_partial, C50_outlines_partial, C50_dchecks_partial, C51_hull_partial, C51_polygon_partial, C51_sort_defined, C51_edges_partial, C51_large, C51_stacked_counterexample, C51_large_counterexample, C52_visit_partial, C52_visit_shape_partial, C52_invertible, C52_collapsed_partial, C52_object_partial, C52_shapes_partial, C52_symm_partial, C52_diagonal_counterexample, C52_pieces_counterexample, C53_ratio, C53_ratio_special, C53_intersection, C53_lines, C53_barycentric, C53_projection, C54_accepts_iff, C54_drawn_partial, C54_created_partial, C54_stroke_partial, C54_in_progress, C54_group_params_counterexample, C54_default_params_counterexample, C54_half_precision_counterexample, C55_region_partial, C55_region_all_partial, C56_bounds_partial, C57_arc, C57_near, C57_arcAngle, C57_arcAngle_zero, C57_arcAngle_counterexample, C57_contains, C57_tangents, C57_steps_counterexample, C58_polar, C58_unit, C58_angles, C58_products, C58_unit_range, C58_angle_range, C58_nan, C58_unit_counterexample, C59_process, C59_last_partial, C59_unchanged, C59_overlap_counterexample, C59_repeated_counterexample, C59_short_counterexample, C60_result, C60_found, C60_error, C60_interpolated, C60_part, C60_threshold_counterexample, C60_slant_counterexample, C60_infinite_counterexample, C61_values, C61_color, C61_empty_counterexample, C62_paints, C62_bitmap, C62_no_crash, C62_alpha, C62_format_counterexample, C62_rotation_counterexample, C62_strokeSize_counterexample, C63_create, C63_empty, C63_coats, C63_cpu_textures_counterexample, C63_limit_counterexample, C64_tessellate, C64_positions, C64_refused, C64_mesh, C64_many_points_counterexample, C65_make, C65_next, C65_counterclockwise, C65_separated_partial, C65_bounds, C65_size, C65_contains, C65_self, C65_separated_counterexample, C66_make, C66_boundary, C66_contains_inside, C66_contains_partial, C66_contains_counterexample, C67_containment, C67_indices, C67_bad, C67_unused, C67_good_partial, C67_good_counterexample, C67_total_counterexample, C67_moved, C67_moved_counterexample, C67_total_partial, C68_moved_counterexample, C68_whole_counterexample, C68_whole_partial, C68_moved_partial, C68_round_partial, C69_inside, C69_round_partial, C70_frame, C70_total, C70_mean, C70_coincident, C70_region, C70_collinear, C70_alone, C70_largest, C71_distance, C71_defined, C71_outset, C71_region, C71_range, C71_interior, C71_edge, C71_profile, C71_ink, C71_rectangle, C71_degenerate, C72_shift, C72_turn, C72_grey, C72_luminosity, C72_neutral, C72_none, C72_vertex, C72_opacity, C72_fragment, C72_premultiplied, C72_range_counterexample, C73_standard, C73_parameters, C73_round_trip, C73_increasing, C73_decode_encode, C73_encode_counterexample, C73_accurate, C73_bytes, C73_convert_round_trip, C73_white, C73_gamut, C73_gamut_counterexample, C73_matrices, C73_primaries, C73_convert, C74_found, C74_intervals, C74_single_partial, C74_single_counterexample, C74_contains, C74_contains_flat, C75_positions, C75_found, C75_none, C75_answer, C75_position_counterexample, C75_triangle_counterexample, C75_fan, C75_multi, C76_run, C76_batch, C76_order, C76_break, C76_ccw_partial, C76_stable, C76_enabled, C76_simplify_counterexample, C76_label_counterexample, C77_micrometer, C77_limit, C77_round_trip_partial, C77_round_trip_counterexample, C77_monotone, C77_order, C79_total, C79_first, C79_next_partial, C79_drawn_partial, C79_noted, C79_suffix, C79_strip, C79_changes, C79_stroke_partial, C79_shown, C79_reach_counterexample, C80_inverse, C80_inverse_equal, C80_inverse_counterexample, C80_lerp, C80_lerp_between, C80_lerp_counterexample, C80_lerp_vec, C80_map_partial, C80_map_counterexample, C80_colour, C80_angle, C80_equal_counterexample, C80_normalized, C80_shorter_way, C80_spiral, C80_spiral_straight, C81_schedule_partial, C81_finished_partial, C81_dry_partial, C81_reuse_partial, C81_state, C81_unfinished, C81_start, C81_settled_counterexample, C81_withdrawn_counterexample, C82_copied_partial, C82_same_partial, C82_unpredicted_partial, C82_stays_partial, C83_ageless, C83_aged_partial, C83_stays, C83_stays_aged_partial, C83_finished, C83_prediction_counterexample, C83_tiny_counterexample.
