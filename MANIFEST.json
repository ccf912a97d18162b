{
 "claims": [
  {
   "property": "C01",
   "status": "proved",
   "theorems": [
    "Verif.Batch.C01_call_refines_list",
    "Verif.Batch.C01_history_refines_lists",
    "Verif.Batch.C01_size_get",
    "Verif.Batch.C01_get_out_of_range",
    "Verif.Batch.C01_format_accessors",
    "Verif.Batch.C01_duration",
    "Verif.Batch.C01_iteration"
   ],
   "note": "Every call and every history refines plain lists of inputs (Spec/StrokeInputBatch.lean); contracts: operands exist, not moved from, indices in range, no self-append. Iteration, Size/Get, format accessors and GetDuration are covered. Storing an input may change its unit length from one zero to the other (conform)."
  },
  {
   "property": "C02",
   "status": "proved",
   "theorems": [
    "Verif.Batch.C02_error_changes_nothing",
    "Verif.Batch.C02_append_all_or_nothing"
   ],
   "note": "An error status leaves the whole program state unchanged; Append is all or nothing."
  },
  {
   "property": "C03",
   "status": "partial",
   "theorems": [
    "Verif.Batch.C03_all_histories_partial",
    "Verif.Batch.C03_no_transform_partial",
    "Verif.Batch.C03_valid_sequence_partial",
    "Verif.Batch.C03_edits_keep_valid_sequence",
    "Verif.Batch.C03_erase_makes_duplicates_counterexample",
    "Verif.Batch.C03_nonadjacent_duplicates_counterexample",
    "Verif.Batch.C03_transform_overflow_counterexample",
    "Verif.Batch.C03_orientation_full_turn_counterexample"
   ],
   "note": "Proved for all histories up to the documented rules that the code does not enforce: counterexamples are proved for Erase making equal neighbours, non-adjacent duplicates, Transform overflow and orientation equal to a full turn."
  },
  {
   "property": "C04",
   "status": "proved",
   "theorems": [
    "Verif.Batch.C04_copies_independent",
    "Verif.Batch.C04_copy_equal"
   ],
   "note": "Contents, size and format of an object change only through calls that name it as a target, for any history and any sharing."
  },
  {
   "property": "C05",
   "status": "proved",
   "theorems": [
    "Verif.InProgress.C05_inputs_real_then_prediction"
   ],
   "note": "Every history of calls refines a four-list specification: GetInputs is the real inputs followed by the current prediction, and the counts agree. Inputs of a call are contents of batches (one format); compared up to the sign of a zero unit length."
  },
  {
   "property": "C06",
   "status": "proved",
   "theorems": [
    "Verif.InProgress.C06_enqueue_accepts_iff",
    "Verif.InProgress.C06_continues_iff_valid_sequence",
    "Verif.InProgress.C06_update_accepts_iff",
    "Verif.InProgress.C06_error_changes_nothing",
    "Verif.InProgress.C06_nan_time_accepted_counterexample"
   ],
   "note": "EnqueueInputs and UpdateShape succeed exactly under the documented conditions in every reachable state, an error leaves the object unchanged, and no internal check fails. A NaN time passes the time checks (counterexample proved)."
  },
  {
   "property": "C07",
   "status": "partial",
   "theorems": [
    "Verif.InProgress.C07_dry_partial",
    "Verif.InProgress.C07_no_prediction_after_finish",
    "Verif.InProgress.C07_dry_counterexample"
   ],
   "note": "Proved for strokes without a consumed prediction, in particular after one UpdateShape following FinishInputs. The documented claim is false when a prediction is still shown (counterexample proved). Independence of the geometry from the time is in C82 and C83."
  },
  {
   "property": "C08",
   "status": "partial",
   "theorems": [
    "Verif.InProgress.C08_geometry_has_the_real_inputs",
    "Verif.InProgress.C08_geometry_matches_inputs_partial",
    "Verif.InProgress.C08_stale_prediction_counterexample"
   ],
   "note": "Every coat is computed from exactly the real inputs reported, in every reachable state; and from exactly GetInputs after an UpdateShape that had queued or finished inputs or no prediction. False otherwise (counterexample proved)."
  },
  {
   "property": "C09",
   "status": "proved",
   "theorems": [
    "Verif.Uri.C09_parse_normalized_roundtrip",
    "Verif.Uri.C09_equal_iff_same_normalized_string",
    "Verif.Uri.C09_normalization_idempotent",
    "Verif.Uri.C09_normalized_is_shortest"
   ],
   "note": "Parsing the normalized string gives back an equal Uri, equality is equality of normalized strings, and the normalized string is shortest."
  },
  {
   "property": "C10",
   "status": "proved",
   "theorems": [
    "Verif.Uri.C10_parse_accepts_exactly_grammar",
    "Verif.Uri.C10_grammar_unambiguous",
    "Verif.Uri.C10_parsed_fields"
   ],
   "note": "Acceptance is exactly an independent grammar, which is unambiguous, and the parsed fields are those of the grammar."
  },
  {
   "property": "C11",
   "status": "proved",
   "theorems": [
    "Verif.Mesh.C11_create_accepts_iff",
    "Verif.Mesh.C11_create_layout",
    "Verif.Mesh.C11_tiles_disjoint",
    "Verif.Mesh.C11_without_attributes",
    "Verif.Mesh.C11_equivalences",
    "Verif.Mesh.C11_default",
    "Verif.Mesh.C11_packed_bits_fit",
    "Verif.Mesh.C11_ids_from_128_counterexample"
   ],
   "note": "Create succeeds exactly for valid attribute lists (named IDs only: the documented IDs from 128 are rejected, proved), the layout tiles the vertex, WithoutAttributes and the equivalences agree with the attribute lists."
  },
  {
   "property": "C12",
   "status": "partial",
   "theorems": [
    "Verif.Mesh.C12_integers_roundtrip",
    "Verif.Mesh.C12_unpacked_exact",
    "Verif.Mesh.C12_quantisation_partial",
    "Verif.Mesh.C12_unpacked_params",
    "Verif.Mesh.C12_coding_params_error_iff",
    "Verif.Mesh.C12_half_step_counterexample",
    "Verif.Mesh.C12_narrow_range_counterexample",
    "Verif.Mesh.C12_narrow_range_wraps_counterexample",
    "Verif.Mesh.C12_unpacks_to_infinity_counterexample",
    "Verif.Mesh.C12_nan_is_representable"
   ],
   "note": "Integers survive exactly for every packed type; unpacked types are bit-exact; quantisation error is at most half a step plus 2^-20 of the larger bound, for bounds up to 2^126 and non-subnormal steps. The documented bound of half a step alone is false, as are narrow and huge ranges (counterexamples proved)."
  },
  {
   "property": "C13",
   "status": "proved",
   "theorems": [
    "Verif.Mesh.C13_refines_lists",
    "Verif.Mesh.C13_validate_triangles"
   ],
   "note": "Any sequence of calls that respects the documented conditions, any format."
  },
  {
   "property": "C14",
   "status": "proved",
   "theorems": [
    "Verif.Mesh.C14_partition",
    "Verif.Mesh.C14_small_limit_counterexample"
   ],
   "note": "PartitionTriangles, for every triangle list, both index widths and every limit of at least three vertices; a smaller limit breaks it (proved)."
  },
  {
   "property": "C18",
   "status": "partial",
   "theorems": [
    "Verif.C18_never_nan_partial",
    "Verif.C18_nan_counterexample",
    "Verif.C18_documented_results",
    "Verif.C18_order",
    "Verif.C18_arithmetic",
    "Verif.C18_precision",
    "Verif.C18_scaling"
   ],
   "note": "Every history of factories and operators avoids NaN except zero times infinity and zero over zero, which are NaN although the documentation says otherwise (counterexample proved); the documented table, order, rounding, monotonicity and the documented precision."
  },
  {
   "property": "C19",
   "status": "proved",
   "theorems": [
    "Verif.C19_normalized",
    "Verif.C19_normalized_about_zero",
    "Verif.C19_infinite_counterexample"
   ],
   "note": "For every finite angle; an infinite angle normalises to NaN (counterexample proved). 2*pi is the binary32 constant the code uses."
  },
  {
   "property": "C20",
   "status": "proved",
   "theorems": [
    "Verif.C20_smallest",
    "Verif.C20_order_independent"
   ],
   "note": "In binary32, for all sequences of Add with no NaN coordinate, infinities included."
  },
  {
   "property": "C21",
   "status": "partial",
   "theorems": [
    "Verif.C21_never_inverted",
    "Verif.C21_checks",
    "Verif.C21_contains_rect",
    "Verif.C21_smallest",
    "Verif.C21_resize",
    "Verif.C21_setters_counterexample",
    "Verif.C21_center_finite",
    "Verif.C21_center_contained_partial",
    "Verif.C21_center_counterexample",
    "Verif.C21_lerp_finite",
    "Verif.C21_lerp_ends",
    "Verif.C21_aspect_ratio_partial",
    "Verif.C21_containing_counterexample"
   ],
   "note": "No history of factories and setters ever inverts the bounds, for all arguments; Center, SemiWidth, SemiHeight, Lerp on [0,1] and Midpoint are finite for finite inputs; FromTwoPoints and Join are the smallest. Missing: the center of a rectangle with bounds below 2^-125 need not be in it, TranslateSetting* need not set the exact value and SetWidth may overflow (counterexamples proved)."
  },
  {
   "property": "C22",
   "status": "proved",
   "theorems": [
    "Verif.Geo.C22_intersects_iff"
   ],
   "note": "Intersects is true exactly when the two shapes have a common point, for all fifteen pairs of point, segment, triangle, rectangle and quad, degenerate or not, in exact arithmetic over any ordered field."
  },
  {
   "property": "C23",
   "status": "proved",
   "theorems": [
    "Verif.Geo.C23_intersects_symm",
    "Verif.C23_rect_binary32",
    "Verif.C23_nan_counterexample"
   ],
   "note": "Symmetry for all pairs of shapes in exact arithmetic; rect-rect and point-rect also in binary32 comparison semantics, where they are exact for all rectangles without NaN. With a NaN bound a rectangle without points still intersects (counterexample proved)."
  },
  {
   "property": "C24",
   "status": "proved",
   "theorems": [
    "Verif.Geo.C24_triangle_contains",
    "Verif.Geo.C24_signed_area"
   ],
   "note": "Contains and SignedArea for every triangle and point, degenerate or not, in exact arithmetic."
  },
  {
   "property": "C25",
   "status": "proved",
   "theorems": [
    "Verif.Geo.C25_history",
    "Verif.Geo.C25_setters",
    "Verif.Geo.C25_join",
    "Verif.C25_width_rotation_range"
   ],
   "note": "Exact arithmetic: every history of setters, Join and reads keeps width and rotation proper and reports the corners of the current state (the cache is never stale); Join contains the point and the previous quad. In binary32, every history of setters with arguments that are not NaN and finite rotations keeps a nonnegative width and a rotation in [0, 2*pi)."
  },
  {
   "property": "C26",
   "status": "partial",
   "theorems": [
    "Verif.Geo.C26_compose",
    "Verif.Geo.C26_monoid",
    "Verif.Geo.C26_factories",
    "Verif.Geo.C26_inverse",
    "Verif.Geo.C26_apply_segment_triangle",
    "Verif.Geo.C26_apply_quad_partial",
    "Verif.Geo.C26_apply_rect_partial",
    "Verif.Geo.C26_apply_quad_counterexample",
    "Verif.Geo.C26_find_segment",
    "Verif.Geo.C26_find_triangle",
    "Verif.Geo.C26_find_quad",
    "Verif.Geo.C26_find_rect"
   ],
   "note": "Composition, factories, inverse, Apply on points, segments, triangles, and on rectangles and quads for transforms that can be inverted; Find for segments, triangles, rectangles and quads. For transforms that cannot be inverted Apply on a quad may lose points (counterexample proved). Exact arithmetic; the square root is an argument with its specification."
  },
  {
   "property": "C27",
   "status": "partial",
   "theorems": [
    "Verif.Color.C27_scaled",
    "Verif.Color.C27_no_nan_partial",
    "Verif.Color.C27_counterexample",
    "Verif.Color.C27_crash",
    "Verif.Color.C27_outputs",
    "Verif.Color.C27_clamped",
    "Verif.Color.C27_conversions"
   ],
   "note": "Every history of factories and conversions, every binary32 argument, avoids NaN and keeps alpha in [0,1], except ScaledToGamut of a color with a +infinity channel, which is exactly when it produces NaN (proved both ways). The gamma curves are parameters assumed to map non-NaN to non-NaN; the change of primaries is an arbitrary function."
  },
  {
   "property": "C28",
   "status": "proved",
   "theorems": [
    "Verif.Color.C28_uint8_round_trip",
    "Verif.Color.C28_packed_round_trip",
    "Verif.Color.C28_packed_all",
    "Verif.Color.C28_argb"
   ],
   "note": "All 2^32 byte quadruples, all three formats, packed or not, both color spaces; the gamma-encoded format assumes the curves (double arithmetic and pow) undo each other up to 1/1024 on the 256 values; C73_accurate derives that from an accuracy of one millionth."
  },
  {
   "property": "C40",
   "status": "partial",
   "theorems": [
    "Verif.Mesh.C40_create_error_iff",
    "Verif.Mesh.C40_create_contents_partial",
    "Verif.Mesh.C40_unpacked_range_counterexample",
    "Verif.Mesh.C40_read_triangle",
    "Verif.Mesh.C40_write_triangle",
    "Verif.Mesh.C40_write_then_read"
   ],
   "note": "Triangle indices in byte arrays, both widths, any position; Mesh::Create fails exactly for the documented inputs and otherwise keeps vertices, triangles and bounds. Partial: packed values without given coding parameters must be quantisable, and the range of unpacked attributes is not checked (counterexample)."
  },
  {
   "property": "C29",
   "status": "partial",
   "theorems": [
    "Verif.Easing.C29_linear",
    "Verif.Easing.C29_linear_at_points_partial",
    "Verif.Easing.C29_linear_counterexample",
    "Verif.Easing.C29_steps_partial",
    "Verif.Easing.C29_steps_counterexample",
    "Verif.Easing.C29_bezier_in_bounds",
    "Verif.Easing.C29_predefined",
    "Verif.Easing.C29_bezier_curve",
    "Verif.Easing.C29_bezier_table",
    "Verif.Easing.C29_bezier",
    "Verif.Easing.C29_predefined_bezier",
    "Verif.Easing.C29_bezier_end_counterexample"
   ],
   "note": "Linear functions: the documented value at every non-NaN input for every valid point list, and exactly the point's y at each point's x unless the difference to the next y overflows (counterexample: NaN). Steps: value and step boundaries up to stated rounding errors for fewer than 2^24 steps; counterexample to exactness (value above 1). Predefined steps and linear exactly. Cubic Bezier: the table construction ends, is finite and within rise/13 (plus rounding) of the curve at the multiples of 1/13, and evaluation is within the same tolerance of the line between these points; counterexample to passing through (1, 1)."
  },
  {
   "property": "C41",
   "status": "proved",
   "theorems": [
    "Verif.Tip.C41_unit_interval",
    "Verif.Tip.C41_values",
    "Verif.Tip.C41_identity",
    "Verif.Tip.C41_infinite"
   ],
   "note": "All three out-of-range behaviors on every binary32 number, NaN and infinities included."
  },
  {
   "property": "C32",
   "status": "proved",
   "theorems": [
    "Verif.Tip.C32_validation",
    "Verif.Tip.C32_never_underflows",
    "Verif.Tip.C32_evaluation",
    "Verif.Tip.C32_damping",
    "Verif.Tip.C32_null_no_effect"
   ],
   "note": "Validation accepts exactly the documented node lists; the compiled nodes of a valid tip run without underflow and leave an empty stack for every input and history; for lists that are forests of expression trees the result is the value of the trees, damping memory included. The easing tables of the cubic Bezier functions are a parameter."
  },
  {
   "property": "C33",
   "status": "partial",
   "theorems": [
    "Verif.Tip.C33_ranges_partial",
    "Verif.Tip.C33_counterexample"
   ],
   "note": "Every property of the tip state is in its range for every valid tip, size and modifier list whose combined modifier for that property is not NaN (finite for the angles); counterexample: a valid tip whose finite width modifiers combine to NaN."
  },
  {
   "property": "C34",
   "status": "proved",
   "theorems": [
    "Verif.Tip.C34_combined",
    "Verif.Tip.C34_interleaving",
    "Verif.Tip.C34_exact",
    "Verif.Tip.C34_two_modifiers",
    "Verif.Tip.C34_binary32_counterexample",
    "Verif.Tip.C34_behaviors"
   ],
   "note": "Exact arithmetic: any permutation of any modifier list; interleaving of different targets and at most two modifiers per property in binary32 too; counterexample for three modifiers in binary32."
  },
  {
   "property": "C42",
   "status": "proved",
   "theorems": [
    "Verif.Tip.C42_one_pass",
    "Verif.Tip.C42_unfinished",
    "Verif.Tip.C42_schedule",
    "Verif.Tip.C42_direction_counterexample"
   ],
   "note": "Any history of updates: all fixed tip states followed by the volatile ones are one pass over the inputs, each modeled once and only stable ones fixed, far enough from the end that every source measuring the distance or time to the end is past its range; time alone changes the stroke exactly while such a source is in its range. In addition the result does not depend on the schedule for tips without sources about the end of the stroke; a counterexample shows why a direction source is needed when the tip is offset along the travel direction."
  },
  {
   "property": "C43",
   "status": "partial",
   "theorems": [
    "Verif.Tip.C43_continuous",
    "Verif.Tip.C43_one_state_per_input",
    "Verif.Tip.C43_particles_counterexample"
   ],
   "note": "Every valid tip without particle gaps and every history that keeps the stable inputs. Counterexample for particles: a valid tiny particle gap makes an update loop forever."
  },
  {
   "property": "C36",
   "status": "proved",
   "theorems": [
    "Verif.Outline.C36_outline"
   ],
   "note": "Any history of appends and truncations, any contents of fresh memory; no failed check, no access outside the array."
  },
  {
   "property": "C39",
   "status": "proved",
   "theorems": [
    "Verif.Vertex.C39_category",
    "Verif.Vertex.C39_encodable",
    "Verif.Vertex.C39_margin",
    "Verif.Vertex.C39_margin_mono",
    "Verif.Vertex.C39_margin_ends",
    "Verif.Vertex.C39_roundtrip",
    "Verif.Vertex.C39_packing",
    "Verif.Vertex.C39_lerp",
    "Verif.Vertex.C39_barycentric",
    "Verif.Vertex.C39_shifts",
    "Verif.Vertex.C39_shift_zero",
    "Verif.Vertex.C39_surface_uv"
   ],
   "note": "Every non-NaN label and margin: category, range, accuracy, monotonicity, exact ends, round trip, lossless packing; interpolation of labels on edges and in triangles; packing of colour shifts and texture coordinates."
  },
  {
   "property": "C30",
   "status": "proved",
   "theorems": [
    "Verif.Brushes.C30_create",
    "Verif.Brushes.C30_set_size",
    "Verif.Brushes.C30_set_epsilon",
    "Verif.Brushes.C30_default",
    "Verif.Brushes.C30_valid",
    "Verif.Brushes.C30_set_others"
   ],
   "note": "Every history of calls on a default or created brush, with every binary32 argument; setters fail exactly when the result would break the documented rule and then change nothing."
  },
  {
   "property": "C31",
   "status": "partial",
   "theorems": [
    "Verif.Strokes.C31_tip_equality",
    "Verif.Strokes.C31_construct",
    "Verif.Strokes.C31_set_inputs",
    "Verif.Strokes.C31_set_brush",
    "Verif.Strokes.C31_set_family",
    "Verif.Strokes.C31_set_size",
    "Verif.Strokes.C31_set_epsilon",
    "Verif.Strokes.C31_set_color",
    "Verif.Strokes.C31_shape_partial",
    "Verif.Strokes.C31_stale_shape",
    "Verif.Strokes.C31_shape_counterexample",
    "Verif.Strokes.C31_alias_counterexample"
   ],
   "note": "Every history with valid brushes: render groups = coats, failing setters change nothing, the effect of every setter, and the shape is that of a brush with the current size, epsilon and tips. That it is the shape of the current brush is false: C31_stale_shape, C31_shape_counterexample (input model or paint changed), and C31_alias_counterexample (SetInputs(GetInputs()) empties the stroke). Mesh generation is a parameter."
  },
  {
   "property": "C44",
   "status": "partial",
   "theorems": [
    "Verif.Brushes.C44_create_partial",
    "Verif.Brushes.C44_documented_accepted",
    "Verif.Brushes.C44_create_string",
    "Verif.Brushes.C44_create_single",
    "Verif.Brushes.C44_offset_counterexample",
    "Verif.Brushes.C44_default",
    "Verif.Brushes.C44_required_attributes"
   ],
   "note": "Create succeeds exactly under the documented rules, except that texture layer offsets only have to be finite: C44_offset_counterexample shows a documented-invalid family that is accepted."
  },
  {
   "property": "C15",
   "status": "partial",
   "theorems": [
    "Verif.RTree.C15_query_partial",
    "Verif.RTree.C15_limit_counterexample",
    "Verif.RTree.C15_empty_counterexample"
   ],
   "note": "Every branching factor of at least 2, every sorting routine, every non-empty list of fewer than 2^32 elements with bounds without NaN, every region and every visitor; construction never fails a check. Missing: the empty tree, which cannot be queried, and exactly 2^32 elements, which the constructor accepts (both proved as counterexamples)."
  },
  {
   "property": "C16",
   "status": "partial",
   "theorems": [
    "Verif.C16_mutable_partial",
    "Verif.C16_outline_counterexample",
    "Verif.C16_build_iff_partial",
    "Verif.C16_contents",
    "Verif.C16_empty_groups",
    "Verif.C16_default",
    "Verif.C16_limit_counterexample"
   ],
   "note": "FromMeshGroups, WithEmptyGroups and the default shape: every list of groups; building succeeds exactly as documented except that 65536 meshes are refused (C16_limit_counterexample), and the shape shows the same meshes, formats and outlines in order, for fewer than 2^32 groups and outlines. FromMutableMeshGroups (C16_mutable_partial): the meshes are those of C45 and the outlines designate the listed vertices, without those in no triangle; an outline of such vertices only is an undocumented error (C16_outline_counterexample). Missing: values that are not Fine, as for C45."
  },
  {
   "property": "C46",
   "status": "partial",
   "theorems": [
    "Verif.C46_terminates",
    "Verif.C46_not_needed",
    "Verif.C46_corrected_partial",
    "Verif.C46_overflow_counterexample"
   ],
   "note": "Termination and 'nothing to correct' for every mesh and all parameters. The corrected mesh for coding parameters whose step is not tiny compared with the coordinates (Precise). Without that it is false: C46_overflow_counterexample has valid parameters far from the origin whose correction packs to a value outside the bit width."
  },
  {
   "property": "C45",
   "status": "partial",
   "theorems": [
    "Verif.Mesh.C45_no_triangles",
    "Verif.Mesh.C45_error_iff",
    "Verif.Mesh.C45_contents_partial",
    "Verif.Mesh.C45_params_format_counterexample"
   ],
   "note": "The error cases and the empty mesh for every history, parameters and omitted attributes. The contents of the returned meshes for positions that are precise enough (FinePositions) and quantisable values (as C12), where the documentation asks for less; C46_overflow_counterexample shows that it is needed. C45_params_format_counterexample: parameters have to match the attributes that are left, not Format() as documented."
  },
  {
   "property": "C17",
   "status": "partial",
   "theorems": [
    "Verif.PMeshSpec.C17_meaning",
    "Verif.PMeshSpec.C17_meaning_shape",
    "Verif.PMeshSpec.C17_default",
    "Verif.PMeshSpec.C17_agree_partial",
    "Verif.PMeshSpec.C17_accurate_partial",
    "Verif.PMeshSpec.C17_greater_counterexample",
    "Verif.PMeshSpec.C17_above_one_counterexample",
    "Verif.PMeshSpec.C17_no_area_counterexample",
    "Verif.PMeshSpec.C17_no_meshes_counterexample"
   ],
   "note": "What the two functions compute (C17_meaning, for every query kind), for every shape built by FromMeshGroups with fewer than 65536 triangles per mesh. The quotient is within n/2^21 of the exact fraction and in [0, 1 + n/2^22] (C17_accurate_partial); the two functions agree unless the covered area is within about one ulp of the threshold (C17_agree_partial). Exactly as stated it is false: C17_above_one_counterexample, C17_greater_counterexample, C17_no_area_counterexample, C17_no_meshes_counterexample. Transforms and the intersection test are parameters (see C22, C25)."
  },
  {
   "property": "C47",
   "status": "partial",
   "theorems": [
    "Verif.PMeshSpec.C47_created_readable_partial",
    "Verif.PMeshSpec.C47_searchable",
    "Verif.PMeshSpec.C47_bounds",
    "Verif.PMeshSpec.C47_mesh_bounds",
    "Verif.PMeshSpec.C47_bounds_empty",
    "Verif.PMeshSpec.C47_bounds_counterexample",
    "Verif.PMeshSpec.C47_wrap_counterexample",
    "Verif.PMeshSpec.C47_visit_partial",
    "Verif.PMeshSpec.C47_visit_all_partial",
    "Verif.PMeshSpec.C47_meets_partial",
    "Verif.PMeshSpec.C47_visit_shape_partial",
    "Verif.PMeshSpec.C47_default",
    "Verif.PMeshSpec.C47_no_meshes_counterexample",
    "Verif.PMeshSpec.C47_wrap"
   ],
   "note": "Every shape built by FromMeshGroups with fewer than 65536 triangles per mesh, every query, every visitor, every sorting routine. Without that limit it is false: C47_wrap, C47_wrap_counterexample; so it is for shapes with groups but no meshes (C47_no_meshes_counterexample). The bounds are the smallest rectangle around the bounds of the meshes, which need not contain the vertices (C47_bounds_counterexample). Transforms and the intersection test are parameters."
  },
  {
   "property": "C38",
   "status": "partial",
   "theorems": [
    "Verif.Simplify.C38_simplify",
    "Verif.Simplify.C38_needed",
    "Verif.Simplify.C38_overflow_counterexample",
    "Verif.Simplify.C38_within"
   ],
   "note": "For every polyline, epsilon, output and distance function: a simplified polyline in the sense of Spec/Simplify.lean (not greater than epsilon), and every kept vertex is needed (epsilon at least 0). In exact arithmetic all points of the polyline are within epsilon of the simplified one (C38_within). In binary32 a distance can be NaN for coordinates above 2^63, and then a far vertex is dropped: C38_overflow_counterexample."
  },
  {
   "property": "C48",
   "status": "proved",
   "theorems": [
    "Verif.Geo.C48_distance",
    "Verif.Geo.C48_symm_zero"
   ],
   "note": "In exact arithmetic (any ordered field with a hypotenuse function, e.g. the reals, isHypot_real), for all pairs and degenerate shapes. Rounding is not part of the statement."
  },
  {
   "property": "C37",
   "status": "proved",
   "theorems": [
    "Verif.View.C37_new_of_mesh",
    "Verif.View.C37_new_of_vectors",
    "Verif.View.C37_refines",
    "Verif.View.C37_unchanged",
    "Verif.View.C37_legacy_overflow_counterexample",
    "Verif.View.C37_legacy_resize_counterexample"
   ],
   "note": "Views of meshes with any history and of vectors; every history of calls within the documented conditions, with counts below 2^32 and, for legacy vectors, at most 1431655765 triangles. Beyond that, 3 * index overflows and a change is missed: C37_legacy_overflow_counterexample, C37_legacy_resize_counterexample."
  },
  {
   "property": "C35",
   "status": "proved",
   "theorems": [
    "Verif.InputModeler.C35_modeled",
    "Verif.InputModeler.C35_stable",
    "Verif.InputModeler.C35_batching",
    "Verif.InputModeler.C35_final",
    "Verif.InputModeler.C35_accepted",
    "Verif.InputModeler.C35_times",
    "Verif.InputModeler.C35_spacing",
    "Verif.InputModeler.C35_rejected",
    "Verif.InputModeler.C35_withdrawn_counterexample",
    "Verif.InputModeler.C35_real_count_counterexample",
    "Verif.InputModeler.C35_real_count_decreases_counterexample",
    "Verif.InputModeler.C35_distance_counterexample"
   ],
   "note": "For every library (any state, any results, errors included), hypot function, earlier use of the modeler, and history of calls. Also all modeled inputs are those of a one-shot run (C35_modeled), with one exception against the documentation, C35_withdrawn_counterexample; further documented claims about the counts that fail: C35_real_count_counterexample, C35_real_count_decreases_counterexample, C35_distance_counterexample."
  },
  {
   "property": "C49",
   "status": "partial",
   "theorems": [
    "Verif.StrokeGeom.C49_revert_partial",
    "Verif.StrokeGeom.C49_revert_exact",
    "Verif.StrokeGeom.C49_extend_partial",
    "Verif.StrokeGeom.C49_no_trace_partial",
    "Verif.StrokeGeom.C49_clear_partial",
    "Verif.StrokeGeom.C49_clear_input",
    "Verif.StrokeGeom.C49_clear_counterexample",
    "Verif.StrokeGeom.C49_derivatives_counterexample"
   ],
   "note": "Restoration and history independence are proved for all histories. The triangulation is any sequence of the primitive changes through which the code acts on the geometry. Two parts of the claim are false of the code: updates of derivatives and margins for predictions are not undone (C49_derivatives_counterexample; C49_revert_partial is up to these attributes, C49_revert_exact has none), and deleting the geometry since the last break fails a CHECK if the save point was followed by a break with new vertices but no new triangles before it (C49_clear_counterexample); it cannot fail without a break since the save point (C49_clear_partial)."
  },
  {
   "property": "C50",
   "status": "partial",
   "theorems": [
    "Verif.StrokeGeom.C50_extend_partial",
    "Verif.StrokeGeom.C50_batching_partial",
    "Verif.StrokeGeom.C50_outlines_partial",
    "Verif.StrokeGeom.C50_dchecks_partial",
    "Verif.StrokeGeom.ExtruderExample.C50_batching_counterexample"
   ],
   "note": "Every history of calls, every relation between tip shapes. The changes that the triangulation makes for a turn or a cap are parameters, assumed to be made through the primitive changes of C49 and to depend on the contents of the geometry; the assertions are those about outlines. About calls after which the state is defined (see C49_clear_counterexample). If a call has fixed states but no volatile ones the distribution over calls does matter: C50_batching_counterexample."
  },
  {
   "property": "C51",
   "status": "partial",
   "theorems": [
    "Verif.Geo.Hull.C51_hull_partial",
    "Verif.Geo.Hull.C51_polygon_partial",
    "Verif.Geo.Hull.C51_sort_defined",
    "Verif.Geo.Hull.C51_edges_partial",
    "Verif.Geo.Hull.C51_large",
    "Verif.Geo.Hull.Ex.C51_stacked_counterexample",
    "Verif.Geo.Hull.Ex.C51_large_counterexample"
   ],
   "note": "At most 500 points, no two distinct ones directly above the lowest point, every sorting routine that keeps the promises of std::sort, exact arithmetic (C51_hull_partial, C51_edges_partial). Otherwise it is false: points directly above the lowest one compare as equivalent and the topmost can be dropped (C51_stacked_counterexample); with more than 500 points the extreme points are pruned as interior, so the rightmost point is always lost (C51_large, C51_large_counterexample). C51_polygon_partial: the result is a convex polygon for any number of points. C51_sort_defined: the comparison is a strict weak order."
  },
  {
   "property": "C52",
   "status": "partial",
   "theorems": [
    "Verif.Geo.C52_visit_partial",
    "Verif.Geo.C52_visit_shape_partial",
    "Verif.Geo.C52_invertible",
    "Verif.Geo.C52_collapsed_partial",
    "Verif.Geo.C52_object_partial",
    "Verif.Geo.C52_shapes_partial",
    "Verif.Geo.C52_symm_partial",
    "Verif.Geo.Ex.C52_diagonal_counterexample",
    "Verif.Geo.Ex.C52_pieces_counterexample"
   ],
   "note": "Exact arithmetic; the search tree is modelled by what it finds (C15, C47). Complete for transforms that can be inverted (C52_invertible). For others the shape must be in one piece and the diagonal of its bounds must not collapse (C52_object_partial, C52_shapes_partial, C52_visit_shape_partial; without one piece C52_collapsed_partial). Both conditions are needed, the code is wrong otherwise: C52_diagonal_counterexample (the shape is taken for a point) and C52_pieces_counterexample (gaps count as part of the shape). Queries by rectangles and quads need a transform that can be inverted (C26_apply_quad_counterexample)."
  },
  {
   "property": "C53",
   "status": "proved",
   "theorems": [
    "Verif.Geo.C53_ratio",
    "Verif.Geo.C53_ratio_special",
    "Verif.Geo.C53_intersection",
    "Verif.Geo.C53_lines",
    "Verif.Geo.C53_barycentric",
    "Verif.Geo.C53_projection"
   ],
   "note": "Exact arithmetic: coordinates in any ordered field, so rounding is not covered."
  },
  {
   "property": "C54",
   "status": "partial",
   "theorems": [
    "Verif.Shader.C54_accepts_iff",
    "Verif.Shader.C54_drawn_partial",
    "Verif.Shader.C54_created_partial",
    "Verif.Shader.C54_stroke_partial",
    "Verif.Shader.C54_full_format",
    "Verif.Shader.C54_in_progress",
    "Verif.Shader.C54_group_params_counterexample",
    "Verif.Shader.C54_default_params_counterexample",
    "Verif.Shader.C54_half_precision_counterexample"
   ],
   "note": "The GPU is taken to fetch bytes as b/255 in binary32 and to compute in IEEE binary32. Positions packed into one float are covered when the parameters are given, not for the parameters that packing computes. The renderer does not check the parameters, and all meshes of a group are drawn with those of the first: counterexamples. With the 16-bit floats that the shader's comment describes, positions are wrong: counterexample."
  },
  {
   "property": "C55",
   "status": "partial",
   "theorems": [
    "Verif.StrokeGeom.C55_offsets",
    "Verif.StrokeGeom.C55_offsets_all",
    "Verif.StrokeGeom.C55_region_partial",
    "Verif.StrokeGeom.C55_region_all_partial",
    "Verif.StrokeGeom.C55_region_counterexample"
   ],
   "note": "Offsets: for everything the extruder does. Region: as long as self-intersections are not retriangulated, and if after predictions the first triangles, as many as there were before the predictions, only use the first vertices; this is so if predictions do not delete geometry. Without the condition the claim is false: counterexample. Updates of derivatives are taken to note exactly the vertices they write to; the code notes more."
  },
  {
   "property": "C56",
   "status": "partial",
   "theorems": [
    "Verif.StrokeGeom.C56_bounds_partial",
    "Verif.StrokeGeom.C56_moved_counterexample"
   ],
   "note": "For all changes of the geometry except that vertices are moved only if they are the last ones of their side: retriangulation of self-intersections moves others. For these the claim is false: counterexample. Of the rectangle the theorem says which points were added to it; that this determines the smallest rectangle is C20."
  },
  {
   "property": "C57",
   "status": "partial",
   "theorems": [
    "Verif.RealGeom.C57_arc",
    "Verif.RealGeom.C57_near",
    "Verif.RealGeom.C57_arcAngle",
    "Verif.RealGeom.C57_arcAngle_zero",
    "Verif.RealGeom.C57_arcAngle_counterexample",
    "Verif.RealGeom.C57_contains",
    "Verif.RealGeom.C57_tangents",
    "Verif.VecF.C57_steps_counterexample"
   ],
   "note": "In real arithmetic. GetArcAngleForChordHeight returns 2π where the documented range is [0, 2π): counterexample. In binary32 the number of steps of an arc of angle zero can be NaN: counterexample."
  },
  {
   "property": "C58",
   "status": "partial",
   "theorems": [
    "Verif.RealGeom.C58_polar",
    "Verif.RealGeom.C58_unit",
    "Verif.RealGeom.C58_angles",
    "Verif.RealGeom.C58_products",
    "Verif.VecF.C58_unit_range",
    "Verif.VecF.C58_angle_range",
    "Verif.VecF.C58_nan",
    "Verif.VecF.C58_unit_counterexample"
   ],
   "note": "Identities in real arithmetic, ranges in binary32 with hypot and acos of the library as parameters. AsUnitVec, and so the angles, fail a CHECK for the least vectors: counterexample that says exactly for which."
  },
  {
   "property": "C59",
   "status": "partial",
   "theorems": [
    "Verif.Polyline.C59_process",
    "Verif.Polyline.C59_last_partial",
    "Verif.Polyline.C59_unchanged",
    "Verif.Polyline.C59_overlap_counterexample",
    "Verif.Polyline.C59_repeated_counterexample",
    "Verif.Polyline.C59_short_counterexample"
   ],
   "note": "In exact arithmetic, for polylines without repeated points. A repeated point near an endpoint can fail a CHECK, less than two points are undefined behaviour, and where the last segments overlap, the end is trimmed to the start of the overlap instead of the last intersection: three counterexamples."
  },
  {
   "property": "C60",
   "status": "partial",
   "theorems": [
    "Verif.Constrain.C60_result",
    "Verif.Constrain.C60_found",
    "Verif.Constrain.C60_error",
    "Verif.Constrain.C60_interpolated",
    "Verif.Constrain.C60_part",
    "Verif.Constrain.C60_threshold_counterexample",
    "Verif.Constrain.C60_slant_counterexample",
    "Verif.Constrain.C60_infinite_counterexample"
   ],
   "note": "In binary32; the shapes and `EvaluateTangentQuality` are arbitrary. The error is 0.5^min(max_iterations, 24), the code uses 7. Sizes up to 2^126: infinite ones fail a check (counterexample). Without a threshold of good tangents the error is not bounded (counterexample for an arbitrary evaluation). The slant can leave its documented range by rounding (counterexample)."
  },
  {
   "property": "C61",
   "status": "partial",
   "theorems": [
    "Verif.Render.C61_values",
    "Verif.Render.C61_color",
    "Verif.Render.C61_separate",
    "Verif.Render.C61_empty_counterexample"
   ],
   "note": "The drawables of empty strokes have no colour although documented (counterexample). Skia is a parameter: a mesh specification is its uniforms, which are in the buffer and do not overlap; the creation of coats from strokes is not in this claim."
  },
  {
   "property": "C62",
   "status": "partial",
   "theorems": [
    "Verif.Textures.C62_paints",
    "Verif.Textures.C62_stable",
    "Verif.Textures.C62_bitmap",
    "Verif.Textures.C62_no_crash",
    "Verif.Textures.C62_alpha",
    "Verif.Textures.C62_format_counterexample",
    "Verif.Textures.C62_rotation_counterexample",
    "Verif.Textures.C62_strokeSize_counterexample"
   ],
   "note": "In exact arithmetic; shaders of Skia are terms with the meaning that Skia documents. Rotation, opacity, jitter and keyframes have no effect (counterexample); sizes in multiples of the stroke size are not supported (counterexample); invalid enumerations of colours crash instead of being rejected (counterexample)."
  },
  {
   "property": "C63",
   "status": "partial",
   "theorems": [
    "Verif.Render.C63_create",
    "Verif.Render.C63_empty",
    "Verif.Render.C63_coats",
    "Verif.Render.C63_cpu_textures_counterexample",
    "Verif.Render.C63_limit_counterexample"
   ],
   "note": "Skia is a parameter: compiling specifications succeeds, buffers copy bytes. Textures are ignored without a context, which the documented list of limitations does not mention (counterexample); 65535 vertices are refused although their indices fit (counterexample)."
  },
  {
   "property": "C64",
   "status": "partial",
   "theorems": [
    "Verif.Tess.C64_tessellate",
    "Verif.Tess.C64_positions",
    "Verif.Tess.C64_refused",
    "Verif.Tess.C64_mesh",
    "Verif.Tess.C64_many_points_counterexample"
   ],
   "note": "libtess2 is a parameter with a contract: triangles with distinct corners, neighbours share an edge, indices of input vertices are right. That its triangles cover the interior is not part of the claim. More than 65536 points, or points that are not finite, are refused, which the documentation does not say (counterexample)."
  },
  {
   "property": "C65",
   "status": "partial",
   "theorems": [
    "Verif.RealGeom.C65_make",
    "Verif.RealGeom.C65_next",
    "Verif.RealGeom.C65_counterclockwise",
    "Verif.RealGeom.C65_separated_partial",
    "Verif.RealGeom.C65_bounds",
    "Verif.RealGeom.C65_size",
    "Verif.RealGeom.C65_contains",
    "Verif.RealGeom.C65_self",
    "Verif.RealGeom.C65_separated_counterexample"
   ],
   "note": "In real arithmetic. Order and containment for slants of less than a quarter of a turn. The least separation is only kept without slant; with a slant it is multiplied by the cosine, and with a slant of a quarter of a turn, which is valid, circles may coincide (counterexample)."
  },
  {
   "property": "C66",
   "status": "partial",
   "theorems": [
    "Verif.RealGeom.C66_make",
    "Verif.RealGeom.C66_boundary",
    "Verif.RealGeom.C66_contains_inside",
    "Verif.RealGeom.C66_contains_partial",
    "Verif.RealGeom.C66_contains_counterexample"
   ],
   "note": "In real arithmetic, for convex polygons (whose tangents turn once around). Circles inside are always found to be contained. The converse needs that no arc is near to half a turn and that no arc is shorter than the tolerance without being degenerate: C66_contains_counterexample is a polygon of two circles of the same size, which is said to contain a circle far from it."
  },
  {
   "property": "C67",
   "status": "partial",
   "theorems": [
    "Verif.RealGeom.C67_containment",
    "Verif.RealGeom.C67_indices",
    "Verif.RealGeom.C67_bad",
    "Verif.RealGeom.C67_unused",
    "Verif.RealGeom.C67_good_partial",
    "Verif.RealGeom.C67_good_counterexample",
    "Verif.RealGeom.C67_total_counterexample",
    "Verif.RealGeom.C67_moved",
    "Verif.RealGeom.C67_moved_counterexample",
    "Verif.RealGeom.C67_total_partial"
   ],
   "note": "In real arithmetic and in release builds (a DCHECK does nothing), for slants of less than a quarter of a turn. The answers about containment are exact. Bad tangents are bad if the joined shape is convex. Good tangents are good if also the circles of the two shapes are of the same size and no arc is near to half a turn or too short. There is always an answer if the circles of the two shapes are of the same size. For a tip that only moves the joined shape is the convex hull of both positions exactly if it is not a line that moves along itself (C67_moved, C67_moved_counterexample: the front end is not in the joined shape). Two defects of the code for circles of different sizes: C67_good_counterexample (tangents said to be good of a circle and a line that crosses it, where the joined shape misses a part of the circle) and C67_total_counterexample (a circle and a triangle for which a CHECK fails, so that the process aborts)."
  },
  {
   "property": "C68",
   "status": "partial",
   "theorems": [
    "Verif.RealGeom.C68_moved_counterexample",
    "Verif.RealGeom.C68_whole_counterexample",
    "Verif.RealGeom.C68_whole_partial",
    "Verif.RealGeom.C68_moved_partial",
    "Verif.RealGeom.C68_round_partial"
   ],
   "note": "In real arithmetic and in release builds, for slants of less than a quarter of a turn and circles of at most 200000000 chord heights (beyond that the number of points is limited). The code takes turns of less than 0.00001 radians for none, but then adds a full turn: C68_whole_counterexample is a flat rounded triangle, and C68_moved_counterexample a rounded square that moves along its sides; in both the outline goes around a circle and has points inside of the shape. The theorems exclude these angles if the circles are not points. A line that moves along itself is excluded (C67_moved_counterexample)."
  },
  {
   "property": "C69",
   "status": "partial",
   "theorems": [
    "Verif.RealGeom.C69_inside",
    "Verif.RealGeom.C69_round_partial"
   ],
   "note": "C69_inside is for all tips that are valid, in real arithmetic and release builds, whenever the call does not fail a check. C69_round_partial is for round tips of the same radius at three positions of which consecutive ones differ, and circles of at most 200000000 chord heights; missing: tips with more circles, and radii that change."
  },
  {
   "property": "C70",
   "status": "partial",
   "theorems": [
    "Verif.Derivative.C70_frame",
    "Verif.Derivative.C70_total",
    "Verif.Derivative.C70_mean",
    "Verif.Derivative.C70_coincident",
    "Verif.Derivative.C70_region",
    "Verif.Derivative.C70_collinear",
    "Verif.Derivative.C70_alone",
    "Verif.Derivative.C70_largest"
   ],
   "note": "Real arithmetic: no rounding, NaN or infinity. The theorems on triangles are for meshes in which the triangles before one with only older vertices have only older vertices too, as the pass stops at such a triangle. Missing: that a triangle is not turned over if more than one of its vertices move, which the regions alone do not give."
  },
  {
   "property": "C71",
   "status": "partial",
   "theorems": [
    "Verif.Antialias.C71_distance",
    "Verif.Antialias.C71_defined",
    "Verif.Antialias.C71_outset",
    "Verif.Antialias.C71_region",
    "Verif.Antialias.C71_range",
    "Verif.Antialias.C71_interior",
    "Verif.Antialias.C71_edge",
    "Verif.Antialias.C71_profile",
    "Verif.Antialias.C71_ink",
    "Verif.Antialias.C71_rectangle",
    "Verif.Antialias.C71_degenerate"
   ],
   "note": "Real arithmetic: no rounding, NaN or infinity. The ink is proved across a stroke, between two vertices with the same side derivative that are not at its front or back; the error of 2 millionths comes from the bound on the divisor at the ends. Missing: the coverage at corners and caps, and between vertices with different derivatives."
  },
  {
   "property": "C72",
   "status": "partial",
   "theorems": [
    "Verif.Antialias.C72_shift",
    "Verif.Antialias.C72_turn",
    "Verif.Antialias.C72_grey",
    "Verif.Antialias.C72_luminosity",
    "Verif.Antialias.C72_neutral",
    "Verif.Antialias.C72_none",
    "Verif.Antialias.C72_vertex",
    "Verif.Antialias.C72_opacity",
    "Verif.Antialias.C72_fragment",
    "Verif.Antialias.C72_premultiplied",
    "Verif.Antialias.C72_range_counterexample"
   ],
   "note": "Real arithmetic: no rounding, NaN or infinity. That the colour with shifts is a premultiplied colour of the range is false, as components are not clamped (C72_range_counterexample); it is proved for meshes without shifts of the colour."
  },
  {
   "property": "C73",
   "status": "partial",
   "theorems": [
    "Verif.ColorCurve.C73_standard",
    "Verif.ColorCurve.C73_parameters",
    "Verif.ColorCurve.C73_round_trip",
    "Verif.ColorCurve.C73_increasing",
    "Verif.ColorCurve.C73_decode_encode",
    "Verif.ColorCurve.C73_encode_counterexample",
    "Verif.ColorCurve.C73_accurate",
    "Verif.ColorCurve.C73_bytes",
    "Verif.ColorCurve.C73_convert_round_trip",
    "Verif.ColorCurve.C73_white",
    "Verif.ColorCurve.C73_gamut",
    "Verif.ColorCurve.C73_gamut_counterexample",
    "Verif.ColorCurve.C73_matrices",
    "Verif.ColorCurve.C73_primaries",
    "Verif.ColorCurve.C73_convert"
   ],
   "note": "Real arithmetic for the curves and matrices; the bytes in binary32 under the stated accuracy of pow and the multiplications. That decoding always gives back what was encoded is false in a gap of 10^-8 where the two pieces of the curve meet, and encoding is not increasing there (C73_encode_counterexample)."
  },
  {
   "property": "C74",
   "status": "partial",
   "theorems": [
    "Verif.Legacy.C74_found",
    "Verif.Legacy.C74_intervals",
    "Verif.Legacy.C74_single_partial",
    "Verif.Legacy.C74_single_counterexample",
    "Verif.Legacy.C74_contains",
    "Verif.Legacy.C74_contains_flat"
   ],
   "note": "Exact arithmetic: the functions for neighbouring floating-point numbers are the identity. C74_single_partial leaves out two segments that are the same point, where the documented rule is broken (C74_single_counterexample). Triangles without area contain only their corners (C74_contains_flat)."
  },
  {
   "property": "C75",
   "status": "partial",
   "theorems": [
    "Verif.PartialOutline.C75_outline",
    "Verif.PartialOutline.C75_positions",
    "Verif.PartialOutline.C75_found",
    "Verif.PartialOutline.C75_none",
    "Verif.PartialOutline.C75_answer",
    "Verif.PartialOutline.C75_position_counterexample",
    "Verif.PartialOutline.C75_triangle_counterexample",
    "Verif.PartialOutline.C75_fan",
    "Verif.PartialOutline.C75_multi"
   ],
   "note": "Exact arithmetic; offsets with the wrapping of uint32_t. The returned position is not set if all vertices are the same point (C75_position_counterexample), and the first vertex is not compared with the triangle although all have to be in it (C75_triangle_counterexample). Calls of the search by the triangulation are not modelled."
  },
  {
   "property": "C76",
   "status": "partial",
   "theorems": [
    "Verif.Triangulation.C76_run",
    "Verif.Triangulation.C76_batch",
    "Verif.Triangulation.C76_order",
    "Verif.Triangulation.C76_break",
    "Verif.Triangulation.C76_ccw_partial",
    "Verif.Triangulation.C76_stable",
    "Verif.Triangulation.C76_enabled",
    "Verif.Triangulation.C76_simplify_counterexample",
    "Verif.Triangulation.C76_label_counterexample"
   ],
   "note": "Exact arithmetic, without handling of self-intersections, save points and derivatives. C76_ccw_partial has no simplification, which can turn a triangle (C76_simplify_counterexample); labels of vertices of stable triangles change at a break (C76_label_counterexample); C76_batch is about calls without winding textures and simplification."
  },
  {
   "property": "C77",
   "status": "partial",
   "theorems": [
    "Verif.PhysicalDistance.C77_micrometer",
    "Verif.PhysicalDistance.C77_limit",
    "Verif.PhysicalDistance.C77_round_trip_partial",
    "Verif.PhysicalDistance.C77_round_trip_counterexample",
    "Verif.PhysicalDistance.C77_monotone",
    "Verif.PhysicalDistance.C77_order"
   ],
   "note": "C77_round_trip_partial says nothing about zero, numbers below 2^-118 and above 2^120; the conversions are not exact (C77_round_trip_counterexample), which is not documented. Text form and hash are not modelled."
  },
  {
   "property": "C78",
   "status": "proved",
   "theorems": [
    "Verif.SmallArray.C78_refines",
    "Verif.SmallArray.C78_read",
    "Verif.SmallArray.C78_excess"
   ],
   "note": "Calls that fail a DCHECK (undefined in production) have no result in the model."
  },
  {
   "property": "C79",
   "status": "partial",
   "theorems": [
    "Verif.Derivative.C79_total",
    "Verif.Derivative.C79_first",
    "Verif.Derivative.C79_next_partial",
    "Verif.Derivative.C79_drawn_partial",
    "Verif.Derivative.C79_noted",
    "Verif.Derivative.C79_suffix",
    "Verif.Derivative.C79_strip",
    "Verif.Derivative.C79_changes",
    "Verif.Derivative.C79_stroke_partial",
    "Verif.Derivative.C79_shown",
    "Verif.Derivative.C79_reach_counterexample"
   ],
   "note": "In real arithmetic, without self-intersections. `C79_stroke_partial` is for all histories of calls of the extruder (`Stroke`): appended vertices, processing, breaks, predictions taken back; that their meshes are strips and which old vertices they change is proved from the triangulation (`C79_strip`, `C79_changes`). `C79_drawn_partial` is for strips that change in any other way with the same effect (`Became`). Missing: extensions whose first new triangle does not begin at the last kept vertices of both sides while nothing kept is noted (`reach`; `C79_reach_counterexample`: if a prediction is taken back and nothing comes instead, nothing is updated), a last kept vertex at the place of the one before it changed from back to front (`label`), and vertices that are in no triangle."
  },
  {
   "property": "C80",
   "status": "partial",
   "theorems": [
    "Verif.C80_inverse",
    "Verif.C80_inverse_equal",
    "Verif.C80_inverse_counterexample",
    "Verif.C80_lerp",
    "Verif.C80_lerp_between",
    "Verif.C80_lerp_counterexample",
    "Verif.C80_lerp_vec",
    "Verif.C80_map_partial",
    "Verif.C80_map_counterexample",
    "Verif.C80_colour",
    "Verif.C80_angle",
    "Verif.C80_equal_counterexample",
    "Verif.C80_normalized",
    "Verif.RealGeom.C80_shorter_way",
    "Verif.RealGeom.C80_spiral",
    "Verif.RealGeom.C80_spiral_straight"
   ],
   "note": "In binary32, for numbers up to 2^126; the shorter way and the spiral also in real arithmetic. Not true of the code, with counterexamples: numbers and maps do not end exactly at the second value and can go beyond it; between two equal angles or components of colours interpolation can give another one."
  },
  {
   "property": "C81",
   "status": "partial",
   "theorems": [
    "Verif.ShapeBuilder.C81_schedule_partial",
    "Verif.ShapeBuilder.C81_finished_partial",
    "Verif.ShapeBuilder.C81_dry_partial",
    "Verif.ShapeBuilder.C81_reuse_partial",
    "Verif.ShapeBuilder.C81_state",
    "Verif.ShapeBuilder.C81_unfinished",
    "Verif.ShapeBuilder.C81_start",
    "Verif.ShapeBuilder.Example.C81_settled_counterexample",
    "Verif.ShapeBuilder.Example.C81_withdrawn_counterexample"
   ],
   "note": "Independence of the schedule is proved for tips, continuous or with particles, without sources that look at the end of the stroke, histories whose first inputs are real and in which updates without inputs (allowed anywhere) take back only predictions that can be seen in the modeled inputs, stable inputs with times in order, and, for continuous lines, histories in which each update leaves an unstable modeled input; it is false without the last condition (C81_settled_counterexample) and if a prediction that did not reach the modeled inputs is withdrawn (C81_withdrawn_counterexample). C81_dry_partial: under these conditions time alone changes nothing drawn. Independence of earlier uses is proved for all tips and histories up to derivatives. The start, the state and unfinished behaviors are proved for all tips and histories. What a tip state extrudes to is a parameter, as in C50; derivatives are left out, as in C50."
  },
  {
   "property": "C82",
   "status": "partial",
   "theorems": [
    "Verif.StrokeShape.C82_copied_partial",
    "Verif.StrokeShape.C82_same_partial",
    "Verif.StrokeShape.C82_unpredicted_partial",
    "Verif.StrokeShape.C82_stays_partial"
   ],
   "note": "The conditions are those of C81: tips without sources that look at the end of the stroke, stable inputs with times in order, for continuous lines an unstable modeled input after each update, and predictions taken back without new inputs only if they can be seen. Without predictions the latter and the first input being real follow (C82_unpredicted_partial). C81_settled_counterexample and C81_withdrawn_counterexample show that the claim is false without them. What a tip state extrudes to is a parameter, and derivatives are left out, as in C50; the partitioning of the mesh is in C16."
  },
  {
   "property": "C83",
   "status": "partial",
   "theorems": [
    "Verif.StrokeDry.C83_ageless",
    "Verif.StrokeDry.C83_aged_partial",
    "Verif.StrokeDry.C83_stays",
    "Verif.StrokeDry.C83_stays_aged_partial",
    "Verif.StrokeDry.C83_finished",
    "Verif.StrokeDry.Example.C83_prediction_counterexample",
    "Verif.StrokeDry.Example.C83_tiny_counterexample"
   ],
   "note": "C83_ageless and C83_stays are complete for brushes without behaviors that depend on the time since an input: there is no condition on inputs, times, tips or history. For the others C83_aged_partial and C83_stays_aged_partial have lines, ranges from a smaller to a larger number (in milliseconds not positive and below 2^-111; C83_tiny_counterexample shows a smaller one), and modeled times that are finite and not after the last one. Missing: particles, whose times are interpolated and may round past the last one, and reversed ranges, where zero can change its sign. For a stroke that shows a prediction the claim is false, although the comments on NeedsUpdate make it (C83_prediction_counterexample). What a tip state extrudes to is a parameter, and derivatives are left out, as in C50."
  }
 ]
}