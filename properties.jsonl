{"id": "C01", "title": "StrokeInputBatch behaves as a list of inputs", "statement": "For any history of Create, Append (single, span, batch), Set, Erase, Clear and Transform calls, Size, IsEmpty, Get(i), First, Last, iteration, Has*, GetToolType, GetStrokeUnitLength and GetDuration return exactly what a plain list of StrokeInput values subjected to the same successful edits would return, although the batch stores packed floats plus shared flags.", "quantifier": "every finite sequence of API calls, every argument value, every index in range", "why_tests_cant": "The packed layout depends on which optional properties are present and every edit shifts offsets; tests sample a handful of layouts and histories, not all of them.", "anchors": ["ink/strokes/input/stroke_input_batch.cc: Set, Get, Append, Create, Erase, Clear, GetDuration", "ink/strokes/input/stroke_input_batch.h: ConstIterator, FloatsPerInput"]}
{"id": "C02", "title": "StrokeInputBatch edits are all-or-nothing", "statement": "Append (single, span, batch), Set and Create either succeed or return an error and leave the batch exactly as it was; they succeed exactly when the resulting list is a valid input sequence (each input valid, consecutive inputs compatible).", "quantifier": "every batch reachable by API calls and every argument", "why_tests_cant": "A partially applied edit shows only for particular combinations of position and failing element.", "anchors": ["ink/strokes/input/stroke_input_batch.cc: Append, Set, Create, ValidateInputSequence", "ink/strokes/input/internal/stroke_input_validation_helpers.cc"]}
{"id": "C03", "title": "StrokeInputBatch always holds a valid sequence", "statement": "In every batch reachable through Create, Append and Set, all inputs have the same tool type, stroke unit length and set of optional properties; elapsed time never decreases; positions and times are finite and non-negative times; and no two inputs share an x-y-t triplet. (The code only guarantees the last clause for consecutive inputs, and Erase/Transform can break even that: both are proved.)", "quantifier": "every reachable batch, every pair of indices", "why_tests_cant": "Needs an invariant over all histories; counterexamples need specific erase/transform patterns.", "anchors": ["ink/strokes/input/stroke_input_batch.cc: ValidateConsecutiveInputs use in Append/Set/Create, Erase, Transform", "ink/strokes/input/stroke_input_batch.h: class comment"]}
{"id": "C04", "title": "Copies of a StrokeInputBatch are independent", "statement": "After copying a batch, any history of mutations on either copy never changes what the other copy reports, although both share storage until written.", "quantifier": "every interleaving of operations over any number of copies", "why_tests_cant": "Sharing bugs depend on the interleaving of copies and writes over the shared buffer.", "anchors": ["ink/types/internal/copy_on_write.h: CopyOnWrite", "ink/strokes/input/stroke_input_batch.h"]}
{"id": "C05", "title": "InProgressStroke inputs are the consumed real inputs plus the latest prediction", "statement": "After any history of Start, EnqueueInputs, UpdateShape and FinishInputs, GetInputs equals every real input consumed by UpdateShape so far, in order, followed by the predicted inputs of the most recently consumed batch of new inputs; RealInputCount and PredictedInputCount are the lengths of these two parts.", "quantifier": "every sequence of calls with any inputs and times", "why_tests_cant": "Depends on how predictions and updates interleave, an unbounded set of schedules.", "anchors": ["ink/strokes/in_progress_stroke.cc: EnqueueInputs, UpdateShape, Start, Clear", "ink/strokes/in_progress_stroke.h: GetInputs"]}
{"id": "C06", "title": "InProgressStroke accepts exactly the documented inputs and failures change nothing", "statement": "EnqueueInputs succeeds exactly when the stroke is started, not finished, and real and predicted inputs form a valid continuation of the real inputs so far; UpdateShape succeeds exactly when started and the time is valid and not earlier than the previous one; on error the observable state is unchanged; the internal Append calls never fail after validation.", "quantifier": "every reachable state and every argument", "why_tests_cant": "Errors that surface only after partial mutation need particular histories.", "anchors": ["ink/strokes/in_progress_stroke.cc: EnqueueInputs, ValidateNewInputs, ValidateNewElapsedTime, UpdateShape"]}
{"id": "C07", "title": "A finished, up-to-date InProgressStroke is dry", "statement": "Once InputsAreFinished() is true and NeedsUpdate() is false, no later UpdateShape call changes the stroke (the documented condition for a dry stroke).", "quantifier": "every reachable state, every later sequence of UpdateShape calls", "why_tests_cant": "Requires quantifying over all later update times and earlier prediction patterns.", "anchors": ["ink/strokes/in_progress_stroke.h: class comment, NeedsUpdate", "ink/strokes/in_progress_stroke.cc: UpdateShape, NeedsUpdate"]}
{"id": "C08", "title": "InProgressStroke geometry reflects GetInputs", "statement": "After each successful UpdateShape, the geometry is the one computed from the inputs that GetInputs reports (real part and predicted part), and CopyToStroke returns a stroke whose inputs match its shape.", "quantifier": "every history of calls", "why_tests_cant": "The mismatch appears only in schedules where an update runs with an empty queue.", "anchors": ["ink/strokes/in_progress_stroke.cc: UpdateShape", "ink/strokes/internal/stroke_input_modeler.cc: ExtendStroke"]}
{"id": "C09", "title": "Uri normalisation round-trips", "statement": "For every Uri, parsing its ToNormalizedString() gives back an equal Uri, and two Uris are equal exactly when their normalized strings are equal.", "quantifier": "every Uri obtainable from Parse", "why_tests_cant": "The string space is unbounded; edge cases (empty id, revision, charset) interact.", "anchors": ["ink/types/uri.cc: Parse, ToNormalizedString", "ink/types/uri.h"]}
{"id": "C10", "title": "Uri::Parse accepts exactly the documented grammar", "statement": "Parse(s) succeeds exactly when s is [ink:]//authority-and-path style text matching the documented grammar, and the parsed fields are the ones the grammar assigns; every parsed Uri has the documented field constraints.", "quantifier": "every string", "why_tests_cant": "Unbounded strings; tests check a few dozen.", "anchors": ["ink/types/uri.cc: Parse", "ink/types/uri.h: class comment"]}
{"id": "C11", "title": "MeshFormat::Create accepts exactly valid formats and lays attributes out without overlap", "statement": "Create succeeds exactly when the documented requirements hold; in every created format the attributes occupy disjoint byte ranges, in order, inside the vertex stride, for both the packed and the unpacked layout, and the position attribute is a two-component one.", "quantifier": "every attribute list", "why_tests_cant": "Exponentially many attribute lists.", "anchors": ["ink/geometry/mesh_format.cc: Create", "ink/geometry/mesh_format.h"]}
{"id": "C12", "title": "Packing and unpacking an attribute is lossless up to the quantisation step", "statement": "For every attribute type, values and coding parameters produced by the library, unpacking the packed bytes returns each component within half a quantisation step of the original, different components never share bits, and integers survive exactly.", "quantifier": "every attribute type, every packed integer tuple, every value in range", "why_tests_cant": "2^96 bit patterns per attribute.", "anchors": ["ink/geometry/internal/mesh_packing.cc: PackAttribute, UnpackAttribute, PackSingleFloat, ComputeCodingParams"]}
{"id": "C13", "title": "MutableMesh is a list of vertices and a list of triangles", "statement": "After any history of AppendVertex, AppendTriangleIndices, InsertTriangleIndices, Set*, Truncate*, Resize and Clear, VertexCount, TriangleCount, VertexPosition, FloatVertexAttribute, TriangleIndices agree with the obvious list semantics, for any format, although data live in byte vectors.", "quantifier": "every history, every format, every index", "why_tests_cant": "Byte-offset errors depend on stride and index combinations.", "anchors": ["ink/geometry/mutable_mesh.cc", "ink/geometry/mutable_mesh.h"]}
{"id": "C14", "title": "Splitting a MutableMesh into meshes preserves the triangles", "statement": "Partitioning produces meshes with at most the allowed number of vertices each; concatenating their triangles, with vertex indices mapped back, gives exactly the original triangle sequence; each partition lists each referenced vertex once and no unreferenced vertex.", "quantifier": "every triangle list and every vertex limit >= 3", "why_tests_cant": "Splits only occur for meshes of more than 65536 vertices in production.", "anchors": ["ink/geometry/internal/mesh_packing.cc: PartitionTriangles", "ink/geometry/mutable_mesh.cc: AsMeshes"]}
{"id": "C15", "title": "Spatial index queries visit exactly the intersecting elements", "statement": "For any list of elements, a query visits each element whose bounds intersect the query region exactly once and no other element, and stops as soon as the visitor returns kStop.", "quantifier": "every element list, branching factor and region", "why_tests_cant": "Tree shape depends on the element count in all residues of the branching factor.", "anchors": ["ink/geometry/internal/static_rtree.h", "ink/geometry/internal/static_rtree.cc"]}
{"id": "C16", "title": "PartitionedMesh keeps every group, mesh and outline it was built from", "statement": "A PartitionedMesh built from groups reports those groups, meshes, formats and outlines unchanged and in order; a PartitionedMesh built from a MutableMesh has outlines that designate the same vertices as the given ones; building fails exactly in the documented cases.", "quantifier": "every list of groups and outlines", "why_tests_cant": "Flattened storage of groups/outlines with offsets: all shapes of nesting matter.", "anchors": ["ink/geometry/partitioned_mesh.cc: FromMeshGroups, FromMutableMeshGroups, Data"]}
{"id": "C17", "title": "CoverageIsGreaterThan agrees with Coverage", "statement": "Coverage is in [0,1] and CoverageIsGreaterThan(q,t) equals Coverage(q) > t for every query shape and threshold in range.", "quantifier": "every mesh, query and threshold", "why_tests_cant": "The early exit of the threshold version depends on triangle order and areas.", "anchors": ["ink/geometry/partitioned_mesh.cc: Coverage, CoverageIsGreaterThan"]}
{"id": "C18", "title": "Duration32 arithmetic", "statement": "Duration32 values built from non-NaN arguments keep the documented algebra: addition and subtraction saturate as documented, ordering agrees with seconds, and no operation of a non-NaN duration yields NaN (the last is false for 0*inf and 0/0: both facts are proved).", "quantifier": "every pair of binary32 values, including infinities", "why_tests_cant": "2^64 operand pairs.", "anchors": ["ink/types/duration.h", "ink/types/duration.cc"]}
{"id": "C19", "title": "Angle normalisation lands in range", "statement": "For every finite angle Normalized() is in [0, 2*pi) and NormalizedAboutZero() is in (-pi, pi] as compared in binary32, and both are congruent to the original up to rounding.", "quantifier": "every finite binary32 value", "why_tests_cant": "2^32 values with rounding at the range ends.", "anchors": ["ink/geometry/angle.cc: Normalized, NormalizedAboutZero"]}
{"id": "C20", "title": "Envelope is the smallest rectangle containing what was added", "statement": "After any sequence of Add calls (points, segments, triangles, rects, envelopes), the envelope contains everything added and is contained in every rectangle that does; it is empty exactly when nothing was added; the result does not depend on order.", "quantifier": "every sequence of Add calls with non-NaN coordinates", "why_tests_cant": "Unbounded sequences.", "anchors": ["ink/geometry/envelope.h", "ink/geometry/envelope.cc", "ink/geometry/rect.cc: Join"]}
{"id": "C21", "title": "Rect invariants and finite arithmetic", "statement": "Every Rect built by a factory or setter has XMin<=XMax and YMin<=YMax, and Center, SemiWidth-style computations and Segment::Lerp/Midpoint with ratio in [0,1] give finite results for finite inputs.", "quantifier": "every finite binary32 coordinate", "why_tests_cant": "Overflow only occurs near FLT_MAX.", "anchors": ["ink/geometry/rect.h", "ink/geometry/rect.cc", "ink/geometry/segment.h"]}
{"id": "C22", "title": "Intersects tells whether two shapes share a point", "statement": "For every pair among point, segment, triangle, rect and quad, Intersects(a,b) is true exactly when there is a point belonging to both shapes.", "quantifier": "every pair of shapes (exact arithmetic), including degenerate shapes", "why_tests_cant": "Infinite domain with many degenerate cases.", "anchors": ["ink/geometry/intersects.cc", "ink/geometry/internal/intersects_internal.cc"]}
{"id": "C23", "title": "Intersects is symmetric", "statement": "Intersects(a,b) = Intersects(b,a) for all shapes, and rect-rect and point-rect results hold for true binary32 comparison semantics.", "quantifier": "every pair of shapes", "why_tests_cant": "Same.", "anchors": ["ink/geometry/intersects.cc", "ink/geometry/intersects.h"]}
{"id": "C24", "title": "Triangle containment is exact", "statement": "Triangle::Contains(p) is true exactly when p is a convex combination of the three corners, including degenerate triangles and either winding; SignedArea changes sign with winding.", "quantifier": "all triangles and points (exact arithmetic)", "why_tests_cant": "Infinite domain, degenerate configurations.", "anchors": ["ink/geometry/triangle.cc: Contains, SignedArea"]}
{"id": "C25", "title": "Quad invariants", "statement": "For every history of factories and setters a Quad has non-negative width and normalised rotation; its four corners are the documented ones; Join(p) contains p and the previous quad.", "quantifier": "every history, every value", "why_tests_cant": "Unbounded histories.", "anchors": ["ink/geometry/quad.h", "ink/geometry/quad.cc"]}
{"id": "C26", "title": "AffineTransform algebra", "statement": "(a*b) applied to a point equals a applied to (b applied to the point); Inverse undoes the transform whenever it exists and exists exactly when the determinant is non-zero; Find returns a transform mapping the given shape to the target whenever one exists.", "quantifier": "all transforms and shapes (exact arithmetic)", "why_tests_cant": "Infinite domain.", "anchors": ["ink/geometry/affine_transform.h", "ink/geometry/affine_transform.cc"]}
{"id": "C27", "title": "Color values are never NaN and alpha stays in [0,1]", "statement": "Every Color obtained through any history of factories and conversions has no NaN channel and alpha in [0,1] (false for ScaledToGamut on infinite channels; proved both ways).", "quantifier": "every history, every binary32 argument", "why_tests_cant": "2^128 inputs and unbounded histories.", "anchors": ["ink/color/color.cc", "ink/color/color.h"]}
{"id": "C28", "title": "8-bit colors survive conversion", "statement": "Converting 8-bit RGBA to Color and back gives the same four bytes, for linear and packed representations.", "quantifier": "every 32-bit RGBA value", "why_tests_cant": "2^32 values times formats; needs rounding-error reasoning.", "anchors": ["ink/color/color.cc: FromUint8, AsUint8", "ink/color/color.h: PackUint8Rgba"]}
{"id": "C29", "title": "Easing curves follow their specification", "statement": "Linear and Steps easing functions evaluate to the documented piecewise function for every valid point list, including repeated x values and out-of-range inputs. For valid parameters a cubic Bezier easing function can be set up in bounded time, its curve is a function of x, its value is finite at every x, 0 up to x = 0, and near the curve at the multiples of 1/13 and near the line between these points otherwise.", "quantifier": "every valid control list, every valid pair of control points and every x", "why_tests_cant": "Unbounded lists of points; the loop that fills the table ends only if rounding never keeps x below its target, for every pair of control points.", "anchors": ["ink/strokes/internal/easing_implementation.cc", "ink/brush/easing_function.h"]}
{"id": "C30", "title": "A Brush is always valid", "statement": "After any history of Create, SetSize, SetEpsilon, SetColor, SetFamily, size and epsilon are finite and positive and size >= epsilon; failing setters change nothing and setters fail exactly when the result would be invalid.", "quantifier": "every history, every binary32 value", "why_tests_cant": "Unbounded histories including NaN/inf.", "anchors": ["ink/brush/brush.cc", "ink/brush/brush.h"]}
{"id": "C31", "title": "A Stroke's shape always matches its brush", "statement": "After any history of construction and SetBrush, SetBrushFamily, SetBrushSize, SetBrushEpsilon, SetBrushColor, SetInputs, the number of render groups equals the number of brush coats, failing setters change nothing, and the shape is the one generated from the current brush and inputs (the last clause is false after changing only the input model; proved both ways).", "quantifier": "every history", "why_tests_cant": "Needs all interleavings of setters.", "anchors": ["ink/strokes/stroke.cc", "ink/strokes/stroke.h"]}
{"id": "C32", "title": "A valid BrushBehavior never underflows its value stack", "statement": "If ValidateBrushBehavior accepts a node list then running the behavior nodes in order never pops an empty stack and ends with an empty stack; and every accepted behavior meets the documented node rules.", "quantifier": "every node list and every node evaluation result", "why_tests_cant": "Unbounded node lists.", "anchors": ["ink/brush/brush_behavior.cc: ValidateBrushBehavior", "ink/strokes/internal/brush_tip_modeler_helpers.cc: ProcessBehaviorNode"]}
{"id": "C33", "title": "Tip states stay in their documented ranges", "statement": "For every valid brush tip, whatever the behavior modifiers, the produced tip state has width and height >= 0, corner rounding and pinch in [0,1], slant in [-pi/2, pi/2], hue in [0,1), saturation and opacity multiplier in [0,2], luminosity in [-1,1].", "quantifier": "every valid tip and every finite modifier list", "why_tests_cant": "All binary32 modifier combinations.", "anchors": ["ink/strokes/internal/brush_tip_modeler_helpers.cc: CreateTipState, ApplyModifiersToTipState", "ink/strokes/internal/brush_tip_state.h"]}
{"id": "C34", "title": "Order of behaviors does not affect the tip state", "statement": "Permuting the behaviors of a brush tip yields the same accumulated modifiers and tip state (exact arithmetic; false in binary32 because addition is not associative - both proved).", "quantifier": "every list of targets/modifiers and every permutation", "why_tests_cant": "n! permutations and rounding.", "anchors": ["ink/brush/brush_behavior.h: BrushBehavior comment", "ink/strokes/internal/brush_tip_modeler_helpers.cc: ApplyModifierToTarget"]}
{"id": "C35", "title": "Stable modeled inputs are final and independent of batching", "statement": "Over any history of ExtendStroke calls the inputs counted as stable never change or shrink, and they depend only on the sequence of real inputs, not on how it was split over calls, on the predictions supplied in between or on earlier strokes. The modeled inputs are those of modeling all real inputs and the current prediction at once; consecutive ones are at least the brush epsilon apart, their traveled distances are sums of the distances between them, and the complete elapsed time is never before the last of them.", "quantifier": "every split of the inputs and every prediction pattern, for any underlying stroke-model function", "why_tests_cant": "Unbounded schedules.", "anchors": ["ink/strokes/internal/stroke_input_modeler.cc: ExtendStroke, ModelInput", "ink/strokes/internal/stroke_input_modeler.h"]}
{"id": "C36", "title": "StrokeOutline keeps both sides in order", "statement": "After any history of AppendNewIndices and TruncateIndices, GetIndices is the reversed right side followed by the left side, and GetIndexCounts are their lengths.", "quantifier": "every history", "why_tests_cant": "Two-ended growth of a raw buffer: all interleavings and sizes.", "anchors": ["ink/strokes/internal/stroke_outline.cc", "ink/strokes/internal/stroke_outline.h"]}
{"id": "C37", "title": "Views of stroke meshes: contents and mutation tracking", "statement": "A view of a mutable mesh or of legacy vectors behaves like a list of vertices and a list of triangles: every query returns what the history of edits says, an edit changes what it names and nothing else, and no edit within the documented conditions fails. FirstMutatedVertex (FirstMutatedTriangle) is exactly the index of the first vertex (triangle) that is new or was set since the last reset, so everything below it is unchanged since then. A view accepts a mesh exactly if it has the attributes of stroke vertices.", "quantifier": "every mesh history, every vertex and index vector, every history of edits, resizes and resets", "why_tests_cant": "Unbounded histories; one missed update of a tracker in one combination makes a renderer keep stale data.", "anchors": ["ink/strokes/internal/brush_tip_extruder/mutable_mesh_view.cc", "ink/strokes/internal/stroke_vertex.cc: GetFromMesh, SetInMesh, AppendToMesh"]}
{"id": "C38", "title": "SimplifyPolyline keeps the shape within epsilon", "statement": "SimplifyPolyline appends to the output a subsequence of the input with the same end points, such that every dropped vertex is within epsilon of the segment joining the kept vertices around it, so that the whole polyline is within epsilon of the simplified one. No vertex is kept without need: a kept vertex between the ends is farther than epsilon from the segment between two other kept vertices. Polylines with fewer than three vertices are copied. The recursion terminates.", "quantifier": "every polyline, every epsilon, any existing output; for the vertex-wise claims, any distance function", "why_tests_cant": "Polylines of any length; which vertices are kept depends on a recursive search for the farthest one.", "anchors": ["ink/strokes/internal/brush_tip_extruder/simplify.cc"]}
{"id": "C39", "title": "Outline labels encode and decode faithfully", "statement": "Changing the margin of a vertex label preserves its category, stays within the encodable range, and decoding gives the margin clipped to [0,4]; packing the label in a mesh is lossless.", "quantifier": "every label and every finite margin", "why_tests_cant": "All binary32 margins.", "anchors": ["ink/strokes/internal/stroke_vertex.h", "ink/strokes/internal/stroke_vertex.cc"]}
{"id": "C40", "title": "Mesh index storage round-trips", "statement": "Triangle indices written to a mesh are read back unchanged for every index width, and Mesh creation rejects exactly the index lists that would be out of range.", "quantifier": "every index and every position", "why_tests_cant": "All widths and byte offsets.", "anchors": ["ink/geometry/internal/mesh_packing.cc: WriteTriangleIndices, ReadTriangleIndicesFromByteData", "ink/geometry/mesh.cc: Create"]}
{"id": "C41", "title": "Source out-of-range handling stays in [0,1]", "statement": "For every finite source value, the clamp, repeat and mirror behaviors return a value in [0,1].", "quantifier": "every finite binary32 value", "why_tests_cant": "2^32 values with rounding.", "anchors": ["ink/strokes/internal/brush_tip_modeler_helpers.cc: ApplyOutOfRangeBehavior"]}
{"id": "C42", "title": "Fixed tip states are never revised", "statement": "Over any history of updates, tip states handed out as fixed are never handed out again or withdrawn, and the volatile ones are regenerated from the same saved state, so fixed ++ volatile is a well defined sequence.", "quantifier": "every history of updates", "why_tests_cant": "Unbounded schedules.", "anchors": ["ink/strokes/internal/brush_tip_modeler.cc: UpdateStroke"]}
{"id": "C43", "title": "Modeling the tip of a stroke always succeeds", "statement": "For every valid brush tip and every history of updates that keep the stable inputs, each UpdateStroke returns, without a failed check or an index out of range; the spans of fixed and volatile tip states are inside the stored ones; and a tip without particle gaps gives exactly one tip state per modeled input.", "quantifier": "every valid tip, brush size and history of updates", "why_tests_cant": "Unbounded histories; the particle loop has no bound in the code.", "anchors": ["ink/strokes/internal/brush_tip_modeler.cc: UpdateStroke, ProcessSingleInput, AddNewTipState"]}
{"id": "C44", "title": "BrushFamily::Create accepts exactly the documented families", "statement": "Create succeeds exactly when there are at most MaxBrushCoats coats, every coat has one valid tip and a valid paint (texture layers, keyframes, jitters, enumerators, one common mapping) and the URI, if any, is of the brush family type; it returns a family with exactly these coats, URI and input model; the string overload treats an empty string as no URI and an unparseable one as an error; and the mesh attributes required for a coat have no duplicates and contain a colour shift or surface coordinates exactly when some behavior or texture uses them. (The documented bound [0, 1] on texture layer offsets is not enforced: counterexample.)", "quantifier": "every list of coats, tips, paints with any binary32 values and enumerator integers, every URI", "why_tests_cant": "The parameter space is infinite and contains NaN, infinities and unnamed enumerators at every position.", "anchors": ["ink/brush/brush_family.cc BrushFamily::Create", "ink/brush/brush_coat.cc ValidateBrushCoat, GetRequiredAttributeIds", "ink/brush/brush_paint.cc ValidateBrushPaint", "ink/brush/brush_tip.cc ValidateBrushTip"]}
{"id": "C46", "title": "Quantising a mesh does not flip its triangles", "statement": "When a MutableMesh is converted to packed Meshes, the search for a correction of vertex positions always ends. If no triangle of the original has a negative area but rounding the positions to the packed precision would give one, then after the correction no triangle has a negative area at the positions that will be read back from the mesh; each corrected position is within about one quantisation step of the original, is inside the packable range and reads back exactly. If nothing is flipped by rounding, or the original already had a negative triangle, or positions are unpacked, nothing is moved.", "quantifier": "every list of triangles, every vertex positions, every pair of coding parameters and bit widths", "why_tests_cant": "The search moves one vertex after another and each move can flip neighbours; termination and the final state depend on all triangles together and on float rounding.", "anchors": ["ink/geometry/mutable_mesh.cc: GetCorrectedPackedPositions and helpers, lines 212-686"]}
{"id": "C45", "title": "AsMeshes returns the triangles of a MutableMesh, packed and split", "statement": "For a MutableMesh with triangles, AsMeshes returns an error exactly when a triangle is invalid, the position or an unknown attribute is omitted, a value of an attribute that is kept is not finite, the given packing parameters are invalid for the attributes that are kept or do not cover the referenced values, or the range of a packed attribute overflows. Otherwise it returns meshes of at most 65536 different vertices whose format is the original one without the omitted attributes; every vertex of a returned mesh is a corner of one of its triangles and stems from one vertex of the original; put together, the triangles are those of the original in the same order. Unpacked values are stored exactly, packed values as the nearest value on the grid of the parameters, a vertex in two meshes has the same packed value in both, the bounds are those of the original values, and if the correction of flipped triangles moves vertices, then no triangle of any returned mesh is negative. Without triangles the result is empty.", "quantifier": "every mesh format, every history of edits of a MutableMesh, every list of optional packing parameters, every set of omitted attributes", "why_tests_cant": "The result depends on all triangles through the partition, on all values through the bounds, and on float rounding of each packed value; formats, parameters and omitted attributes combine without bound.", "anchors": ["ink/geometry/mutable_mesh.cc: MutableMesh::AsMeshes, ComputeAttributeBoundsForPartition, ComputeTotalAttributeBounds", "ink/geometry/internal/mesh_packing.cc: CopyAndPackPartitionVertices", "ink/geometry/mutable_mesh.h: AsMeshes documentation"]}
{"id": "C47", "title": "A spatial query of a shape visits exactly the intersected triangles", "statement": "VisitIntersectedTriangles of a PartitionedMesh with a point, segment, triangle, rectangle, quad or another shape calls the visitor once for each triangle of each mesh that intersects the transformed query and for no other, until the visitor stops; the indices it passes name a triangle that exists. No check fails. Bounds is the smallest rectangle that contains the bounds of all meshes, and empty if there is none. A default shape has no triangles.", "quantifier": "every shape, every query and transform, every visitor with state", "why_tests_cant": "The index is built from all triangles of all meshes with wrapping integer indices and a search tree whose layout depends on sorting; a missed triangle shows only for particular sizes and arrangements.", "anchors": ["ink/geometry/partitioned_mesh.cc: VisitIntersectedTriangles, Data::SpatialIndex, Bounds", "ink/geometry/partitioned_mesh.h: TriangleIndexPair", "ink/geometry/mesh.h: Mesh::Bounds"]}
{"id": "C48", "title": "Distance is the least distance between points of two shapes", "statement": "Distance between any two of point, segment, triangle, rectangle and quad is the least distance between a point of the one and a point of the other. It is therefore never negative, symmetric, and zero exactly if the two intersect (as Intersects says). This includes degenerate shapes: segments, triangles and quads collapsed to a segment or a point.", "quantifier": "every pair of the fifteen kinds of pairs, every shape with real coordinates", "why_tests_cant": "Fifteen overloads built on each other with case distinctions for degenerate shapes; a test sees a few configurations of each.", "anchors": ["ink/geometry/distance.h: Distance", "ink/geometry/distance.cc", "ink/geometry/segment.cc: Segment::Project"]}
{"id": "C49", "title": "Undoing predictions restores the geometry of a stroke", "statement": "After a save point, whatever is then done to the geometry of a stroke (vertices and triangles added, moved, re-triangulated, extrusion breaks added, all geometry since the last break deleted), reverting to the save point restores all vertices, triangles, outlines, buffered vertices and the last extrusion break. A stroke that was extended any number of times with input and predictions has the geometry of all its input followed by the last predictions only. Deleting the geometry since the last break does not fail.", "quantifier": "every history of changes before and after the save point, every number of extensions, every way in which the changes depend on the geometry, every iteration order of the hash maps", "why_tests_cant": "The save point records only what is overwritten, with one mechanism for values and another for ends of lists; a value that is missed shows only for a particular interleaving of changes, breaks and deletions.", "anchors": ["ink/strokes/internal/brush_tip_extruder/geometry.cc: SetSavePoint, RevertToSavePoint, ClearSinceLastExtrusionBreak, CaptureGeometrySinceLastExtrusionBreak, AddExtrusionBreak, SetVertex, SetTriangleIndices, UpdateOppositeSideOffset, AppendVertexToMesh, TryBeginIntersectionRetriangulation", "ink/strokes/internal/brush_tip_extruder/geometry.h: GeometrySavePointState", "ink/strokes/internal/brush_tip_extruder/side.h"]}
{"id": "C50", "title": "The shape of an extruded stroke does not depend on its predictions", "statement": "After any sequence of ExtendStroke calls, the extrusions, the mesh (up to derivative attributes) and the outlines of a stroke are those of a stroke that is extruded once from all fixed tip states and the volatile tip states of the last call. How fixed states were distributed over calls and which volatile states earlier calls had does not matter. After each call the outlines contain every vertex of the mesh exactly once, the left and the right ones in the order of the mesh. No assertion about outlines fails.", "quantifier": "every history of calls with any fixed and volatile tip states, every relation between tip shapes, every way in which shapes change the geometry, every iteration order of the hash maps", "why_tests_cant": "Predictions may end a part of the stroke, swallow fixed extrusions back to the last break or begin new parts; outlines are cut and completed incrementally over calls. A wrong count shows only for particular interleavings.", "anchors": ["ink/strokes/internal/brush_tip_extruder.cc: ExtendStroke, Save, Restore, TruncateOutlines, ClearSinceLastExtrusionBreak, TryAppendNonBreakPointState, Extrude, ExtrudeBreakPoint", "ink/strokes/internal/brush_tip_extruder.h: GetOutlines", "ink/strokes/internal/brush_tip_extruder/geometry.cc: RevertToSavePoint, AddExtrusionBreak"]}
{"id": "C51", "title": "ConvexHull returns the corners of the convex hull", "statement": "ConvexHull(points) returns the corners of the convex hull of the points: each corner is one of the points and is listed once, the corners are in counterclockwise order starting with the lowest point (the leftmost of those), any three of them form a proper triangle, and all points are in their convex hull.", "quantifier": "all lists of points of any length, in any order and with any duplicates, and all orders in which std::sort may leave equivalent elements", "why_tests_cant": "The result depends on the positions of all points; the tests use at most twelve points, none with two distinct points directly above the lowest one and none with more than 500 points, where other code runs.", "anchors": ["ink/geometry/convex_hull.h: ConvexHull", "ink/geometry/internal/convex_hull_helper.h: ConvexHull, PruneUsingAkiToussaint", "ink/geometry/triangle.cc: Triangle::Contains"]}
{"id": "C52", "title": "Intersects of shapes with transforms tells whether they share a point", "statement": "For every PartitionedMesh and every affine transform of it, Intersects with a point, segment, triangle, rectangle or quad, or with another transformed PartitionedMesh, is true exactly when a point of the transformed triangles belongs to the other object, also if a transform cannot be inverted; the order of the arguments does not matter. VisitIntersectedTriangles visits exactly the triangles that share a point with the transformed query.", "quantifier": "all shapes with any number of meshes and triangles, all transforms including singular ones, all queries (exact arithmetic)", "why_tests_cant": "Infinitely many shapes and transforms; the code for singular transforms works on the diagonal of the bounds, and fails only for transforms along that diagonal or for shapes in several pieces.", "anchors": ["ink/geometry/intersects.cc: Intersects", "ink/geometry/partitioned_mesh.cc: VisitIntersectedTriangles", "ink/geometry/internal/algorithms.cc: CalculateCollapsedSegment"]}
{"id": "C53", "title": "Intersections of segments and lines, barycentric coordinates and projections are right", "statement": "SegmentIntersectionRatio returns a value exactly if the two segments have a point in common; the two ratios are in [0,1] and are those of the first point of each segment that lies on the other one, zero for a segment that is a point; SegmentIntersection is the first point along the first segment. UniqueLineIntersectionRatio returns the one pair of ratios of the intersection of two lines, and no value if there is none or more than one. GetBarycentricCoordinates gives the only coordinates of the position, and no value exactly for collinear corners. VectorFromPointToSegmentProjection leads to the projection and is orthogonal to the segment.", "quantifier": "all segments, triangles and points, including degenerate, parallel and overlapping ones (exact arithmetic)", "why_tests_cant": "Infinite domain with many special cases: parallel, overlapping in either direction, point-like.", "anchors": ["ink/geometry/internal/algorithms.cc: SegmentIntersectionRatio, SegmentIntersection, UniqueLineIntersectionRatio, GetBarycentricCoordinates, VectorFromPointToSegmentProjection"]}
{"id": "C54", "title": "A stroke is drawn as it is stored", "statement": "The mesh renderer accepts a mesh format exactly if position and opacity shift, side derivative and label, forward derivative and label are adjacent and, like colour shift and texture coordinates, of a supported pair of types. For a mesh in an accepted format with the packing parameters for strokes, the vertex shader reads for every vertex exactly the position, derivatives and labels that VertexAttribute returns, and the opacity, colour shift and texture coordinates up to 2^-20 resp. 2^-22. This holds for the meshes of every finished stroke, whatever edits the mesh has been through, and for strokes in progress exactly.", "quantifier": "all mesh formats, all vertices and bytes, all sequences of edits of a mutable mesh, all omitted attributes", "why_tests_cant": "The decoder is shader code that runs on the GPU; the packing is in C++; agreement has to hold for each of the 2^24 codes and each binary32 scale and offset.", "anchors": ["ink/rendering/skia/common_internal/mesh_specification_data.cc: MeshSpecificationData::CreateForStroke, CreateForInProgressStroke", "ink/rendering/skia/common_internal/sksl_vertex_shader_helper_functions.h: unpackPositionAndOpacityShift, unpackDerivativeAndLabel, unpackHSLColorShift, unpackSurfaceUv", "ink/rendering/skia/native/skia_renderer.cc", "ink/strokes/internal/stroke_vertex.h: MakeCustomPackingArray"]}
{"id": "C55", "title": "Updates reported while a stroke is drawn: offsets and updated region", "statement": "Whenever a stroke in progress is extended, with or without predictions, the reported update is sufficient to bring a copy of the mesh and the screen up to date. Indices and vertices before the reported offsets are unchanged, and if there is no offset nothing has changed. All triangles that disappear, appear or change are inside the updated region, where they were and where they are. Both still hold for several updates that are joined.", "quantifier": "all sequences of extensions with all real and predicted tips, all changes the extruder makes, any number of joined updates", "why_tests_cant": "What has changed depends on all of the history: predictions are undone from a save point whose content depends on breaks, deletions and changes since it was set.", "anchors": ["ink/strokes/internal/brush_tip_extruder.cc: BrushTipExtruder::ExtendStroke, ConstructUpdate", "ink/strokes/internal/brush_tip_extruder/geometry.cc: ResetMutationTracking, RevertToSavePoint, ClearSinceLastExtrusionBreak, SetVertex, CalculateVisuallyUpdatedRegion, FirstVisuallyMutatedTriangle", "ink/strokes/internal/brush_tip_extruder/mutable_mesh_view.cc", "ink/strokes/internal/stroke_shape_update.cc: StrokeShapeUpdate::Add", "ink/strokes/in_progress_stroke.h: GetUpdatedRegion"]}
{"id": "C56", "title": "Bounds of a stroke in progress are those of its mesh", "statement": "After every extension of a stroke in progress its bounds are the smallest rectangle that contains all vertices of its mesh, however many extensions, predictions and deletions went before. Maintaining them never fails and has no influence on the geometry.", "quantifier": "all sequences of extensions with all real and predicted tips, all changes the extruder makes", "why_tests_cant": "The bounds are computed from a cached part that must stay valid when predictions are undone, when geometry is deleted during real or predicted input, and when vertices are moved: it depends on the whole history.", "anchors": ["ink/strokes/internal/brush_tip_extruder.cc: UpdateCachedPartialBounds, UpdateCurrentBounds, ClearCachedPartialBounds", "ink/strokes/internal/brush_tip_extruder.h: GetBounds", "ink/strokes/internal/stroke_shape_builder.cc: ExtendStroke", "ink/strokes/in_progress_stroke.h: GetMeshBounds"]}
{"id": "C57", "title": "Circles: arcs, containment and tangents are right", "statement": "An arc is approximated by evenly spaced points on its circle from its start to its end: at least two, and the least number for which the chord height of each segment is within the requested bound, but at most 32768. All of the arc is within this bound of the segments. One circle contains another exactly if its disc does. Tangent angles are those of all lines that touch both circles from the same side, left and right as named, and are missing exactly if one disc contains the other.", "quantifier": "all circles (also points), all angles, arcs of either direction and any number of turns, all chord heights", "why_tests_cant": "Optimality of the number of points, and the distance of all points of an arc, are statements over a continuum; tangency quantifies over all points of both discs.", "anchors": ["ink/geometry/internal/circle.h: Circle::GetPoint, Contains, GuaranteedRightTangentAngle", "ink/geometry/internal/circle.cc: AppendArcToPolyline, GetTangentAngles, GetArcAngleForChordHeight"]}
{"id": "C58", "title": "Vectors: directions, unit vectors and angles between vectors are right", "statement": "A vector is determined by its direction and magnitude, and has the direction and magnitude it was made from. The unit vector of every vector, also of zero, has magnitude 1 and the same direction. The signed angle between two vectors is the normalised difference of their directions, in (-π, π]; the absolute angle is its absolute value, in [0, π]. Dot product and determinant are those of magnitudes and signed angle. Computing them never fails, and the ranges also hold in floating point.", "quantifier": "all vectors, in floating point also the infinite ones", "why_tests_cant": "The identities hold on a continuum, and the floating-point ranges for all 2^64 vectors, with rounding at the borders of the ranges.", "anchors": ["ink/geometry/vec.h: Vec::FromDirectionAndMagnitude, Direction, Magnitude, DotProduct, Determinant, Orthogonal, AbsoluteAngleBetween", "ink/geometry/vec.cc: Vec::AsUnitVec, SignedAngleBetween", "ink/geometry/angle.cc: NormalizedAboutZero"]}
{"id": "C59", "title": "Polylines are trimmed at their intersections and connected as documented", "statement": "Processing a polyline of at least two points for mesh creation never fails, and returns a polyline as documented: without intersections and connections it is the input. An endpoint is connected exactly if there is an allowed place (far enough by walking distance, near enough by straight line, with the demanded ratios), to the nearest such place; the point is added and this end is not trimmed. An endpoint that is not connected is trimmed to the nearest of all intersections of non-adjacent segments (the first or the last), where the new connection counts.", "quantifier": "all polylines, all parameters, all orders in which the spatial index shows segments", "why_tests_cant": "First, last and nearest quantify over all pairs of points of the polyline, and the result must not depend on the order of the index.", "anchors": ["ink/geometry/internal/polyline_processing.h: ProcessPolylineForMeshCreation", "ink/geometry/internal/polyline_processing.cc: FindFirstAndLastIntersections, FindBestEndpointConnections, EndpointIsConnectable, WalkDistance, CreateNewPolylineFromPolylineData"]}
{"id": "C60", "title": "A constrained brush tip extrusion is valid, has good tangents and is as far along as documented", "statement": "Constraining a proposed extrusion by the last one never fails a check, for tip states with sizes, rounding and pinch in range: no interpolated tip leaves these ranges, whatever the rounding. The result type is the documented one: the proposed extrusion if it has good tangents, one of the two containments, not found exactly if the centres have not moved or the last shape has no good tangents at the new place, and a found extrusion otherwise; only the last has an amount other than -1 and an extrusion. A found extrusion is the interpolation by the returned amount, which is from 0 to 1, and has good tangents. If tangents are good up to some amount only, the returned one is within 0.5^max_iterations of the greatest.", "quantifier": "all pairs of tip states, all shapes and tangent evaluations, all numbers of iterations", "why_tests_cant": "The search evaluates interpolated floats; that none of them leaves the range of a CHECK and that the error is bounded are claims about all pairs of states and all evaluations.", "anchors": ["ink/strokes/internal/constrain_brush_tip_extrusion.h: ConstrainBrushTipExtrusion, ConstrainedBrushTipExtrusion", "ink/strokes/internal/constrain_brush_tip_extrusion.cc: ConstrainBrushTipExtrusion", "ink/strokes/internal/brush_tip_state.cc: BrushTipState::LerpShapeAttributes", "ink/strokes/internal/brush_tip_shape.cc: BrushTipShape::BrushTipShape (checks)", "ink/geometry/internal/algorithms.cc: Lerp"]}
{"id": "C61", "title": "Drawables are values: a draw shows the last transform and colour, and nothing recorded changes later", "statement": "Whatever sequence of creating, copying, destroying, recolouring, transforming and drawing drawables is done, with canvases that keep recorded commands for as long as they like: drawing a drawable sets the matrix to its last transform and draws each of its coats once, in order, every mesh with uniforms that read back the last transform, the last brush colour, the texture mapping and the unpacking transforms, and every path with the last colour times its opacity. A change of a drawable has no effect on its copies, and commands that were recorded keep the values they were recorded with. Setting the transform never fails, and setting the colour fails exactly for drawables without coats.", "quantifier": "all sequences of operations on any number of drawables, all coats, all layouts of uniforms, all times at which a canvas forgets commands", "why_tests_cant": "Buffers of uniforms are shared between copies and with canvases and are written in place if they have one owner; that this is never visible is a claim about all histories.", "anchors": ["ink/rendering/skia/native/skia_renderer.h: SkiaRenderer::Drawable", "ink/rendering/skia/native/skia_renderer.cc: Drawable::Draw, SetObjectToCanvas, SetBrushColor, HasBrushColor, ToSkiaM44", "ink/rendering/skia/native/internal/mesh_uniform_data.cc: MeshUniformData", "ink/rendering/skia/native/internal/mesh_drawable.cc: MeshDrawable::Draw", "ink/rendering/skia/native/internal/path_drawable.cc: SetPaintColor, Draw"]}
{"id": "C62", "title": "A textured paint looks as documented, whatever was drawn before", "statement": "Whatever paints a renderer has been asked to draw, in any order and with any answers of the texture store: a paint without layers has no shader; otherwise it fails with the first error of its textures, or each texel of each layer is placed where origin, size unit, size and offset say, with the wrap modes of the layer and the pixels of the bitmap, and the layers are combined with each other and with the brush colour by their blend modes as documented. The store is asked only for textures for which it has not yet returned a valid bitmap; failures are not remembered, and the first valid bitmap is used ever after. A bitmap is accepted exactly if its sizes are positive, its pixel format is valid and its data has the right size. Nothing crashes if the store returns valid bitmaps or there is none.", "quantifier": "all sequences of requests, all texture stores (also such that answer differently each time), all layers, brush sizes and inputs", "why_tests_cant": "Three caches are filled in any order by any history of requests, some of which fail half way; that results never depend on it is a claim about all histories.", "anchors": ["ink/rendering/skia/native/internal/shader_cache.h: ShaderCache", "ink/rendering/skia/native/internal/shader_cache.cc: GetShaderForPaint, GetShaderForLayer, GetImageForTexture, CreateImageFromBitmap, GetBlenderForPaint", "ink/rendering/bitmap.h: Bitmap", "ink/rendering/bitmap.cc: ValidateBitmap", "ink/rendering/texture_bitmap_store.h: TextureBitmapStore", "ink/brush/brush_paint.h: BrushPaint::TextureLayer, BlendMode"]}
{"id": "C63", "title": "A drawable of a stroke shows its coats, or is refused for a reason, whatever was drawn before", "statement": "Creating a drawable from a stroke or a stroke in progress never crashes. The drawable has one coat for each coat of the stroke that has something to draw, in order. With a context, a coat has the vertices and indices of its meshes unchanged (the 16-bit indices are never truncated), the texture mapping of its first layer and the shader and blend mode of its paint; without a context, the polygons of its outlines and the opacity of its tip. If some coat cannot be drawn, the result is the error of the first one: a texture, an unsupported format, too many vertices or Skia. All of this does not depend on what was drawn before, except that known textures are not asked for again. A stroke that was not started or is empty gives an empty drawable.", "quantifier": "all sequences of calls with and without a context, all strokes and strokes in progress, all texture stores and formats", "why_tests_cant": "The renderer keeps caches of shaders, images and mesh specifications that are filled by every call, also by failing ones; that no history of calls changes a result is a claim about all histories.", "anchors": ["ink/rendering/skia/native/skia_renderer.cc: SkiaRenderer::CreateDrawable, FillTemporaryIndices, GetBrushPaintTextureMapping, OpacityMultiplierForPath", "ink/rendering/skia/native/internal/mesh_specification_cache.cc: MeshSpecificationCache", "ink/rendering/skia/native/internal/mesh_drawable.cc: MeshDrawable::Create", "ink/rendering/skia/native/internal/path_drawable.cc: PathDrawable, MakePolygonPath"]}
{"id": "C64", "title": "Tessellating a polyline keeps the triangles of the tessellator", "statement": "CreateMeshFromPolyline never crashes. Fewer than three points, and polylines for which the tessellation library finds no triangle, are refused. Otherwise the mesh has exactly the triangles of the library, in order and at exactly the positions it returned; its first vertices are the given points in their order, and every vertex that the library added for an intersection is there once, shared by all its triangles. In the generic tessellation, the attributes of an added vertex are computed from the vertices given and added before it and from its neighbours: the input vertices among the next and previous corner of the first triangle it occurs in and the third corners of the two triangles across the edges at it.", "quantifier": "all polylines and contours, all vertex types, all results of the tessellation library that keep its contract", "why_tests_cant": "Tests see the outputs of the library for a few polylines; that indices, memoised vertices and neighbours are right for every output is a claim about all of them.", "anchors": ["ink/geometry/tessellator.cc: CreateMeshFromPolyline", "ink/geometry/internal/generic_tessellator.h: Tessellate, PopulateResult, InterpolateIntersectionVertex, FindNeighbors, FindNeighbor, AdjacentTo", "ink/geometry/internal/point_tessellation_helper.h: PointTessellationHelper"]}
{"id": "C65", "title": "The shape of a brush tip and containment of shapes", "statement": "A brush tip shape is made exactly of tip states with a width and height of at least 0 and a percent radius and pinch in [0, 1]. It is centered at the position of the tip and consists of one to four circles of the same radius, which is 0 or at least the given least radius, in counter-clockwise order around the center. Distances between centers are at least the given least separation. Its bounds are the smallest rectangle around the convex hull of the circles; without rotation and slant that is as large as the tip up to the least separation. A shape contains another one exactly if the convex hull of its circles has all the points of that of the other; so it contains itself.", "quantifier": "all tip states, all least separations, all pairs of shapes", "why_tests_cant": "That a test on tangent angles at each corner decides containment of convex regions is a theorem about all pairs of shapes; tests try a few.", "anchors": ["ink/strokes/internal/brush_tip_shape.cc: BrushTipShape, MakeShapeControlCircles, CalculateCircleRadius, Bounds, Contains, ShapeIsOutsideOfCorner, GetNextPerimeterIndexCw, GetNextPerimeterIndexCcw", "ink/strokes/internal/brush_tip_shape.h: BrushTipShape"]}
{"id": "C66", "title": "Rounded polygons: boundary and containment of circles", "statement": "A rounded polygon is made exactly of two or more circles of which no two neighbours, the last and the first included, contain one the other. Its boundary has one arc for each circle; each segment between two arcs is that of the right-side exterior tangent, is not degenerate, starts where the arc before ends and ends where the arc after starts. A circle is said to be contained in a convex rounded polygon exactly if all of its points belong to it; touching the boundary is allowed.", "quantifier": "all lists of circles of any length, all circles to test", "why_tests_cant": "The test looks at signed distances to those arcs and segments that the center projects to; that these decide containment for every convex polygon and circle is a theorem of geometry, and the tests try a dozen circles.", "anchors": ["ink/strokes/internal/rounded_polygon.cc: RoundedPolygon, SignedDistanceToArc, SignedDistanceToSegment, ContainsCircle", "ink/strokes/internal/rounded_polygon.h: Arc, GetSegment", "ink/geometry/segment.cc: Project"]}
{"id": "C67", "title": "Tangents between two positions of the tip cover what they join", "statement": "Evaluating the tangents between two tip extrusions says that one shape contains the other exactly if it does. Otherwise there always are circles to connect, so that a joined shape exists. If the tangents are said to be bad then the joined shape does not cover the two shapes; if they are said to be good then it does. For a tip that only moves, the joined shape is the convex hull of the tip at both positions. The evaluation always ends with an answer.", "quantifier": "all pairs of valid tip states, all least separations and travel thresholds", "why_tests_cant": "The circles to connect are found by walks around shapes of one to four circles with any rotation, slant, pinch and relative position; tests have a handful of pairs of shapes, and miss those for which the answer is wrong or the process aborts.", "anchors": ["ink/strokes/internal/brush_tip_extrusion.cc: EvaluateTangentQuality, ConstructJoinedShape", "ink/strokes/internal/brush_tip_shape.cc: GetTangentCircleIndices, GetRearIndices, GetLeftmostTurningIndex, GetRightmostTurningIndex"]}
{"id": "C68", "title": "Extrusion points outline the tip and its caps", "statement": "The extrusion points of a whole tip shape, the left ones and then back the right ones, are a polygon that goes once around the shape, clockwise: its corners are on the boundary of the shape, no point of the shape is further from it than the maximum chord height, and each point is on its side of the line through the center in the direction of travel. The start cap and the end cap of a tip that moves outline in the same way the tip at both positions and everything between. This is also so for two round tips of different sizes.", "quantifier": "all valid tip states, all moves, all chord heights, all directions of travel and all points that are there before", "why_tests_cant": "A shape has one to four circles of any size with any slant, pinch and rotation, and it may move in any direction; tests have a few shapes that move along an axis, and compare a few points.", "anchors": ["ink/strokes/internal/brush_tip_shape.cc: AppendWholeShapeExtrusionPoints, AppendStartcapExtrusionPoints, AppendEndcapExtrusionPoints, MoveNewRightPointsOutOfLeft", "ink/strokes/internal/circular_extrusion_helpers.cc: AppendCircularTurnExtrusionPoints"]}
{"id": "C69", "title": "The outline of a turn", "statement": "Where a tip that moves turns, the points that are added to the two sides of the outline are all within the area that the tip covers on its way before or after the turn, and the points that are there stay. For a round tip the outer side of the turn follows the circle of the tip from the end of one tangent to the start of the next, with no chord higher than the maximum; the inner side has the crossing of the two tangents, or their ends if they do not cross. At a full turn back both sides follow half of the circle.", "quantifier": "all valid tip states at three positions, all chord heights and all points that are there before; for round tips all angles of turning", "why_tests_cant": "There are three shapes of one to four circles each and all angles between them; tests have a few turns and compare the points.", "anchors": ["ink/strokes/internal/brush_tip_shape.cc: AppendTurnExtrusionPoints", "ink/strokes/internal/circular_extrusion_helpers.cc: AppendCircularTurnExtrusionPoints"]}
{"id": "C70", "title": "Derivatives and margins of stroke vertices", "statement": "When the derivatives of the vertices of a stroke are updated, positions, triangles, the sides that labels tell and all other vertices stay as they are. The derivative of a vertex has as its length the mean length, and as its direction that of the sum of the unit vectors, of the vectors of all triangles that have the vertex or one next to it like it; such vertices get the same derivatives and margins. A vertex that moves outward by up to its margin stays within its region of each of its triangles, so that one vertex cannot turn a triangle over, nor leave it less than a nineteenth of its area; the margin is 0 where three corners are on a line and, up to one of 126 steps, no smaller than the regions need. The update does not fail if the triangles are of vertices of the mesh.", "quantifier": "all meshes of vertices and triangles and all lists of left and right vertices", "why_tests_cant": "Every mesh has its own triangles around each vertex; tests have a few small meshes and compare the numbers.", "anchors": ["ink/strokes/internal/brush_tip_extruder/derivative_calculator.cc: UpdateMesh, AddDerivativesForTriangle, AddMarginUpperBoundsForTriangle, UpdateMeshDerivatives, UpdateMeshMargins", "ink/strokes/internal/stroke_vertex.cc: Label::WithMargin, Label::DecodeMargin"]}
{"id": "C71", "title": "Anti-aliasing of strokes", "statement": "A stroke that is drawn neither shrinks nor grows through anti-aliasing. The vertex shader measures the width of the stroke in pixels as the distance of two lines on the canvas, for every affine transform. It moves the vertices on the edges outward by no more than half of the width of an edge and, for strokes of at least half a pixel, by no more than their margin, so that a vertex on a side stays within its region of each of its triangles. The fragment shader gives a coverage from 0 to 1 that is 1 inside, 0 on the edge that is drawn, and rises linearly over the width of an edge. The sum of the coverage across a stroke is its width in pixels, also for strokes thinner than a pixel, unless margins keep the outsets smaller.", "quantifier": "all derivatives, labels and object-to-canvas transforms; all places between two vertices", "why_tests_cant": "The shaders are text that runs on the GPU; tests compare a few pictures.", "anchors": ["ink/rendering/skia/common_internal/sksl_vertex_shader_helper_functions.h: calculateAntialiasingAndPositionOutset, decodeMargins", "ink/rendering/skia/common_internal/sksl_fragment_shader_helper_functions.h: simulatedPixelCoverage", "ink/rendering/skia/common_internal/sksl_common_shader_helper_functions.h: targetAntialiasingPixelOutset"]}
{"id": "C72", "title": "Colours of strokes", "statement": "The colour with which a vertex is drawn is that of the brush with its hue turned, its saturation scaled and its luminosity moved by the shifts of the vertex: a whole turn of the hue is none, a saturation shift of -1 gives grey, greys have no hue to shift, a luminosity shift adds to all components. Shifts of 0 keep the colour up to a fifth of a step of 8 bits, so that a mesh with shifts of 0 looks like one without shifts. Opacity is scaled and kept from 0 to 1; anti-aliasing only scales the premultiplied colour.", "quantifier": "all brush colours, shifts and coverages", "why_tests_cant": "The shaders are text that runs on the GPU; tests compare a few pictures.", "anchors": ["ink/rendering/skia/common_internal/sksl_vertex_shader_helper_functions.h: applyOpacityShift, applyHSLAndOpacityShift", "ink/rendering/skia/common_internal/mesh_specification_data.cc: kVertexMain, kVertexMainColorWithHslShift, kVertexMainColorWithoutHslShift, kFragmentMain"]}
{"id": "C73", "title": "Gamma curves and colour spaces", "statement": "Linear and gamma-encoded components are related by the published sRGB function: decoding is increasing, keeps 0 and 1, and encoding gives back exactly what was decoded; the parameters for shaders describe the same curve. Converting a colour from one colour space to another and back gives the same colour up to 10^-15 of its largest component, greys stay as they are, opacity is not changed, and every sRGB colour has a Display P3 colour within the gamut. The matrices are those of the published primaries, with white at D65. With library functions that are accurate to a millionth, bytes of gamma-encoded colours come back.", "quantifier": "all real components, all pairs of colour spaces, both layouts of the matrices", "why_tests_cant": "Tests compare a few colours; the constants of the curve and the matrices have to fit together for all.", "anchors": ["ink/color/color_space.cc: GammaDecode, GammaEncode, ConvertColor, GetGammaDecodingParameters, GetColorSpaceToXyzD65Matrix, GetXyzD65ToColorSpaceMatrix", "ink/color/color.cc: InColorSpace, AsFloat, FromFloat, FromUint8, AsUint8"]}
{"id": "C74", "title": "Intersections used by the extrusion of strokes", "statement": "Two line segments are reported as intersecting if and only if they have a common point, independently of the scaling of coordinates; the reported pair of positions on both segments is ordered along the first one, describes the same points on both, and spans exactly the common points. If there is only one, each pair is twice the same position. A proper triangle contains exactly the points of its interior and boundary.", "quantifier": "all segments, parallel, collinear or points, all proper triangles and all points; any scaling and tolerance", "why_tests_cant": "Tests have some constellations; the function distinguishes many cases by the positions of end points, which have to fit together for all.", "anchors": ["ink/geometry/internal/legacy_segment_intersection.cc: LegacyIntersection", "ink/geometry/internal/legacy_triangle_contains.cc: LegacyTriangleContains"]}
{"id": "C75", "title": "Searching the outline of a stroke and its fans of triangles", "statement": "The partial outline of a stroke lists the indices of one side from the last to the first of its partition, followed by those of the other side from the first to the last if the partition connects them; indices behind the start of an intersection that is being retriangulated do not belong to it. The search along it for a segment finds the first point of the outline on the segment, with its position, its place on both and the rest of the search budget, and finds none only if no piece within the budget touches the segment before the outline leaves the given triangle. The search in a fan of triangles finds the last triangle that turns clockwise, and none if there is none, also across discontinuities of the side.", "quantifier": "all sides, outlines, segments, triangles, budgets, centres, ranges and all ordered lists of discontinuities", "why_tests_cant": "Tests have short outlines and at most one discontinuity; the loops have to be right for any number of vertices.", "anchors": ["ink/strokes/internal/brush_tip_extruder/directed_partial_outline.cc: ConstructPartialOutline, FindOutlineIntersection", "ink/strokes/internal/brush_tip_extruder/find_clockwise_winding_segment.cc: FindLastClockwiseWindingTriangleFanSegment, FindLastClockwiseWindingMultiTriangleFanSegment"]}
{"id": "C76", "title": "The triangles of a stroke", "statement": "Whatever vertices are given to the sides of a stroke, in whatever portions and with whatever breaks, all calls succeed and the mesh has all of them, in their order on each side, unless they are simplified. Each triangle connects a later vertex with the last vertex of the left side and the last one of the right side before it; each new vertex has the triangle with the last vertices of both sides before it exactly if that turns counter-clockwise, and handling self-intersections only matters where it does not. No triangle has vertices from both sides of a break. The triangles reported as stable keep their vertices and positions. All triangles turn counter-clockwise.", "quantifier": "all histories of new vertices on either side, processing, simplification thresholds, tip sizes, winding textures and breaks", "why_tests_cant": "Tests have some short portions; the loops of pairs, fans and pairs must take each vertex exactly once for all numbers on both sides, and what is simplified depends on all calls before.", "anchors": ["ink/strokes/internal/brush_tip_extruder/geometry.cc: Geometry::ProcessNewVertices, TriangulateBufferedVertices, SimplifyBufferedVertices, PrepBufferedVerticesForNextExtrusion, AddExtrusionBreak, NStableTriangles", "ink/strokes/internal/brush_tip_extruder/geometry.h: Geometry"]}
{"id": "C77", "title": "Physical distances", "statement": "Adding a micrometre to a distance of up to 20 m in either direction, or subtracting it, gives a different distance, on the right side. Distances that are numbers are totally ordered. Conversions from and to centimetres, inches and metres keep the order; converting to a distance and back changes a number by at most one part in four million.", "quantifier": "all binary32 distances and numbers", "why_tests_cant": "The test of the documented precision has one distance; it depends on the rounding of every one of a billion.", "anchors": ["ink/types/physical_distance.h: PhysicalDistance"]}
{"id": "C78", "title": "Small arrays", "statement": "An array with room for a fixed number of elements behaves as a list: made from nothing, a count or values and then resized and written to, it has exactly the elements of a list that is changed in the same way, whatever was in memory before, and no call is defined that would exceed its room or its size. Elements that are given up are reset, and equality is that of the elements.", "quantifier": "all element types, capacities, initial memory and histories of calls", "why_tests_cant": "Tests have a few sizes; what was in memory before is not controlled by them.", "anchors": ["ink/types/small_array.h: SmallArray"]}
{"id": "C79", "title": "Derivatives stay up to date while a stroke is drawn", "statement": "While a stroke is drawn, only the end of its mesh is updated after each extension. Whatever the extensions and predictions taken back were, after each update every vertex of a triangle has exactly the derivatives and the margin that an update of the whole mesh would give it. An update does not fail, moves no vertex, and every vertex that it changes is reported as changed.", "quantifier": "all strips of triangles and all sequences of extensions of them, of any length", "why_tests_cant": "Tests compare a few strokes; whether an old vertex is out of date depends on the whole history of extensions, on coincident vertices and on where labels change.", "anchors": ["ink/strokes/internal/brush_tip_extruder/geometry.cc: Geometry::UpdateMeshDerivatives, Geometry::FirstVisuallyMutatedTriangle, UpdateFirstMutatedSideIndexValue", "ink/strokes/internal/brush_tip_extruder/derivative_calculator_helpers.cc: FindFirstExteriorVertices, StartingOffsetForCoincidentConnectedVertices"]}
{"id": "C80", "title": "Interpolation", "statement": "Interpolation with a parameter from 0 to 1 gives `a + t·(b-a)` up to rounding, never moves back, and gives the first value at 0; colours and angles give the second value exactly at 1. Two equal values are interpolated by this value for any finite parameter. The position of a number between two others is from 0 to 1, is exactly 0 and 1 at them, and is 0 if they are equal. A map between ranges sends ends to ends. Normalized interpolation of angles goes the shorter way and gives an angle in [0, 2π). Spiral interpolation of vectors changes length and direction linearly and starts and ends at the given vectors.", "quantifier": "all pairs of numbers, vectors, colours and angles and all parameters", "why_tests_cant": "Tests take a few round numbers; rounding shows at others: at some of them numbers do not end at the second value, or go beyond it.", "anchors": ["ink/geometry/internal/algorithms.cc: Lerp, NormalizedAngleLerp, InverseLerp, LinearMap, SpiralLerp"]}
{"id": "C81", "title": "The shape of a stroke does not depend on how it was drawn", "statement": "If the real inputs of a stroke and its last prediction are the same, the shape (extrusions, mesh, outlines) is the same, in whatever batches the inputs came, whatever was predicted and taken back before, whatever the builder was used for before, and whenever updates happened. In particular a finished stroke whose shape is built again from its inputs in one update looks as it did when it was drawn. A stroke is started with a positive brush epsilon, a finite positive brush size and exactly one tip, and only so. Behaviors see the tool and unit length of the first input and the times and distances of the modeled inputs; the shape changes with time alone exactly if some behavior depends on the time since an input and that time is within its range.", "quantifier": "all histories of updates with real and predicted inputs, all tips, all earlier uses of the builder", "why_tests_cant": "Tests draw a few strokes in a few batches; whether smoothing, tip states and extrusion together keep nothing of a prediction that was taken back must hold for every history.", "anchors": ["ink/strokes/internal/stroke_shape_builder.cc: StartStroke, ExtendStroke, HasUnfinishedTimeBehaviors", "ink/strokes/stroke.cc: RegenerateShape"]}
{"id": "C82", "title": "A dry stroke is the one that was drawn", "statement": "After any calls of an InProgressStroke (starts, inputs with predictions, updates, finishing, errors, earlier strokes), the shape that a Stroke builds from its GetInputs is, coat by coat, what the InProgressStroke shows if no prediction is shown. Two InProgressStrokes with the same brush, real inputs and prediction show the same, whatever calls led there. Once nothing is queued and no prediction is shown, further calls of UpdateShape change nothing that is shown.", "quantifier": "all sequences of API calls, all brushes and coats with tips that do not look at the end of the stroke, all inputs and times", "why_tests_cant": "Tests draw a few strokes with a few schedules of calls; that the batches collected by the queue, the predictions dropped and the builders reused give the same geometry as one update must hold for every history.", "anchors": ["ink/strokes/in_progress_stroke.cc: Start, EnqueueInputs, UpdateShape", "ink/strokes/stroke.cc: RegenerateShape", "ink/strokes/internal/stroke_shape_builder.cc: StartStroke, ExtendStroke"]}
{"id": "C83", "title": "A stroke that needs no update does not change with time", "statement": "If an InProgressStroke says that it needs no update, and counts no predicted inputs, then it shows the same after any further calls of UpdateShape, at whatever later times and whether they are accepted or not. This holds for brushes that depend on the distance that remains, on the predicted distance, on anything else that inputs have, for lines and for particles; and for lines that depend on the time since an input, once that time is past the range of every behavior.", "quantifier": "all histories of API calls, inputs, brushes and coats, all numbers of later updates and all their times", "why_tests_cant": "Tests wait for one interval with one brush; an app that stops updating a stroke relies on the answer for every brush and history, including what rounding does at the ends of the ranges.", "anchors": ["ink/strokes/in_progress_stroke.cc: UpdateShape, NeedsUpdate", "ink/strokes/internal/stroke_shape_builder.cc: ExtendStroke, HasUnfinishedTimeBehaviors", "ink/strokes/internal/brush_tip_modeler.cc: UpdateStroke, HasUnfinishedTimeBehaviors", "ink/strokes/internal/brush_tip_modeler_helpers.cc: ProcessBehaviorNode"]}
