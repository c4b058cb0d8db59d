{
 "claims": [
  {
   "property": "C01",
   "status": "proved",
   "theorems": [
    "Nurbs.Props.C01_constructor_accepts_exactly",
    "Nurbs.Props.C01_pairs_constructor"
   ],
   "note": "exact characterisation, any linear order"
  },
  {
   "property": "C02",
   "status": "partial",
   "theorems": [
    "Nurbs.Props.C02_no_nan_refuted",
    "Nurbs.Props.C02_no_nan_partial"
   ],
   "note": "false of the code: {0,NaN,1} is accepted; partial: last entry never NaN, and exact on NaN-free input"
  },
  {
   "property": "C03",
   "status": "proved",
   "theorems": [
    "Nurbs.Props.C03_pairs_roundtrip"
   ],
   "note": ""
  },
  {
   "property": "C04",
   "status": "partial",
   "theorems": [
    "Nurbs.Props.C04_index_first_occurrence_refuted",
    "Nurbs.Props.C04_index_partial"
   ],
   "note": "false of the code for every pair but the last; partial gives the exact value of Index"
  },
  {
   "property": "C05",
   "status": "proved",
   "theorems": [
    "Nurbs.Props.C05_isValid_iff"
   ],
   "note": ""
  },
  {
   "property": "C06",
   "status": "proved",
   "theorems": [
    "Nurbs.Props.C06_findSpanIndex"
   ],
   "note": ""
  },
  {
   "property": "C07",
   "status": "proved",
   "theorems": [
    "Nurbs.Props.C07_findSpan"
   ],
   "note": ""
  },
  {
   "property": "C08",
   "status": "proved",
   "theorems": [
    "Nurbs.Props.C08_insertKnot"
   ],
   "note": ""
  },
  {
   "property": "C09",
   "status": "proved",
   "theorems": [
    "Nurbs.Props.C09_uniform"
   ],
   "note": "exact arithmetic"
  },
  {
   "property": "C10",
   "status": "partial",
   "theorems": [
    "Nurbs.Props.C10_isClamped_refuted",
    "Nurbs.Props.C10_isClamped_partial"
   ],
   "note": "false of the code; partial gives what IsClamped really decides"
  },
  {
   "property": "C11",
   "status": "proved",
   "theorems": [
    "Nurbs.Props.C11_reverse"
   ],
   "note": "exact arithmetic"
  },
  {
   "property": "C12",
   "status": "proved",
   "theorems": [
    "Nurbs.Props.C12_getMultiplicity"
   ],
   "note": ""
  },
  {
   "property": "C13",
   "status": "proved",
   "theorems": [
    "Nurbs.Props.C13_binomial_exact",
    "Nurbs.Props.C13_binomial",
    "Nurbs.Props.C13_binomial_overflow",
    "Nurbs.Props.C13_binomial_edge"
   ],
   "note": ""
  },
  {
   "property": "C14",
   "status": "proved",
   "theorems": [
    "Nurbs.Props.C14_factorial"
   ],
   "note": ""
  },
  {
   "property": "C15",
   "status": "proved",
   "theorems": [
    "Nurbs.Props.C15_grid_read",
    "Nurbs.Props.C15_grid_write",
    "Nurbs.Props.C15_grid_new",
    "Nurbs.Props.C15_grid_count",
    "Nurbs.Props.C15_grid_any_index",
    "Nurbs.Props.C15_grid_refused"
   ],
   "note": ""
  },
  {
   "property": "C16",
   "status": "proved",
   "theorems": [
    "Nurbs.Props.C16_insertV",
    "Nurbs.Props.C16_insert_refused"
   ],
   "note": ""
  },
  {
   "property": "C17",
   "status": "proved",
   "theorems": [
    "Nurbs.Props.C17_insertU",
    "Nurbs.Props.C16_insert_refused"
   ],
   "note": ""
  },
  {
   "property": "C18",
   "status": "proved",
   "theorems": [
    "Nurbs.Props.C18_box_tight"
   ],
   "note": ""
  },
  {
   "property": "C19",
   "status": "partial",
   "theorems": [
    "Nurbs.Props.C19_expand_point_refuted",
    "Nurbs.Props.C19_expand_point_partial"
   ],
   "note": "false of the code: Max is computed from Min"
  },
  {
   "property": "C20",
   "status": "proved",
   "theorems": [
    "Nurbs.Props.C20_evaluate_coxDeBoor"
   ],
   "note": "exact arithmetic"
  },
  {
   "property": "C21",
   "status": "proved",
   "theorems": [
    "Nurbs.Props.C21_nonneg_sum_one"
   ],
   "note": "exact arithmetic"
  },
  {
   "property": "C22",
   "status": "proved",
   "theorems": [
    "Nurbs.Props.C22_evaluateAll",
    "Nurbs.Props.C22_rows",
    "Nurbs.Props.C22_piece_unique",
    "Nurbs.Props.C22_evaluateAll_real"
   ],
   "note": "exact arithmetic; the real version uses Mathlib's iteratedDeriv inside spans"
  },
  {
   "property": "C23",
   "status": "proved",
   "theorems": [
    "Nurbs.Props.C23_evaluate"
   ],
   "note": "exact arithmetic"
  },
  {
   "property": "C24",
   "status": "proved",
   "theorems": [
    "Nurbs.Props.C24_endpoints"
   ],
   "note": "exact arithmetic"
  },
  {
   "property": "C25",
   "status": "proved",
   "theorems": [
    "Nurbs.Props.C25_convex_hull"
   ],
   "note": "exact arithmetic"
  },
  {
   "property": "C26",
   "status": "proved",
   "theorems": [
    "Nurbs.Props.C26_local_control"
   ],
   "note": "exact arithmetic"
  },
  {
   "property": "C27",
   "status": "proved",
   "theorems": [
    "Nurbs.Props.C27_transform_curve",
    "Nurbs.Props.C27_transform_compose",
    "Nurbs.Props.C27_transform_surface"
   ],
   "note": "exact arithmetic"
  },
  {
   "property": "C28",
   "status": "proved",
   "theorems": [
    "Nurbs.Props.C28_scale_weights",
    "Nurbs.Props.C28_isRational_iff",
    "Nurbs.Props.C28_nonrational"
   ],
   "note": "exact arithmetic"
  },
  {
   "property": "C29",
   "status": "partial",
   "theorems": [
    "Nurbs.Props.C29_evaluateAll_partial",
    "Nurbs.Props.C29_evaluateAll_real_partial",
    "Nurbs.Props.C29_every_order_refuted"
   ],
   "note": "proved for every order up to 29 (exact arithmetic); false from order 30 on: Binomial(30,15) overflows int, undefined behaviour proved"
  },
  {
   "property": "C30",
   "status": "proved",
   "theorems": [
    "Nurbs.Props.C30_insertKnot",
    "Nurbs.Props.C30_degree_zero_breaks"
   ],
   "note": "degree >= 1 as stated; degree 0 shown to fail"
  },
  {
   "property": "C31",
   "status": "proved",
   "theorems": [
    "Nurbs.Props.C31_insertKnotList",
    "Nurbs.Props.C31_order_independent",
    "Nurbs.Props.C31_repeated_single",
    "Nurbs.Props.C31_insertKnotTimes"
   ],
   "note": "exact arithmetic"
  },
  {
   "property": "C32",
   "status": "proved",
   "theorems": [
    "Nurbs.Props.C32_remove_undoes_insert",
    "Nurbs.Props.C32_high_multiplicity_refuted"
   ],
   "note": "exact arithmetic, any sqrt with sqrt 0 = 0; larger multiplicities shown to be undefined behaviour"
  },
  {
   "property": "C33",
   "status": "proved",
   "theorems": [
    "Nurbs.Props.C33_exact_removal"
   ],
   "note": "exact arithmetic, any sqrt positive on positive numbers"
  },
  {
   "property": "C34",
   "status": "partial",
   "theorems": [
    "Nurbs.Props.C34_failed_removal_refuted",
    "Nurbs.Props.C34_failed_removal_partial"
   ],
   "note": "false of the code: the early return leaves homogeneous points; true when all weights are 1"
  },
  {
   "property": "C35",
   "status": "partial",
   "theorems": [
    "Nurbs.Props.C35_partial_success_refuted",
    "Nurbs.Props.C35_surface_refuted",
    "Nurbs.Props.C35_counts_partial"
   ],
   "note": "false of the code, for curves and surfaces: shrinks by times instead of t; exact counts proved for every input"
  },
  {
   "property": "C36",
   "status": "partial",
   "theorems": [
    "Nurbs.Props.C36_elevate_partial",
    "Nurbs.Props.C36_once_partial",
    "Nurbs.Props.C36_segment_partial",
    "Nurbs.Props.C36_wrong_curve_refuted"
   ],
   "note": "proved for degree sums up to 29, continuous curves with separated knots whose multiplicities do not jump up at high degree and that fit the buffers (elevation by one up to degree 9: only continuity and separation needed); false of the code from degree 10 on: a triple knot after a single one gives a different curve (bet/gam mix-up in the removal part)"
  },
  {
   "property": "C37",
   "status": "partial",
   "theorems": [
    "Nurbs.Props.C37_exact_partial",
    "Nurbs.Props.C37_once_exact_partial",
    "Nurbs.Props.C37_success_exact_partial",
    "Nurbs.Props.C37_degree_zero_always_throws",
    "Nurbs.Props.C37_buffer_refuted",
    "Nurbs.Props.C37_degree_zero_refuted"
   ],
   "note": "false of the code: buffers too small for many segments; degree 0 throws; the exact condition for leaving the vectors is proved for degrees from 1 and knots at least 1e-6 apart"
  },
  {
   "property": "C38",
   "status": "proved",
   "theorems": [
    "Nurbs.Props.C38_extractBezier",
    "Nurbs.Props.C38_degree_zero_diverges",
    "Nurbs.Props.C38_high_multiplicity_misaligned"
   ],
   "note": "exact arithmetic; the excluded cases are shown to fail"
  },
  {
   "property": "C39",
   "status": "proved",
   "theorems": [
    "Nurbs.Props.C39_getBoundingBox"
   ],
   "note": "exact arithmetic, Archimedean field"
  },
  {
   "property": "C40",
   "status": "partial",
   "theorems": [
    "Nurbs.Props.C40_contains_curve_refuted",
    "Nurbs.Props.C40_rational_refuted",
    "Nurbs.Props.C40_lower_faces_partial"
   ],
   "note": "false of the code: upper faces (C40_contains_curve_refuted, see C19) and rational curves (C40_rational_refuted: subdivision in Cartesian coordinates); lower faces proved for equal weights"
  },
  {
   "property": "C41",
   "status": "proved",
   "theorems": [
    "Nurbs.Props.C41_binarySearch"
   ],
   "note": "exact arithmetic, any square-root function"
  },
  {
   "property": "C42",
   "status": "proved",
   "theorems": [
    "Nurbs.Props.C42_searchParameter"
   ],
   "note": "exact arithmetic, any square-root function, Archimedean field; the int counter itself is unbounded in the model"
  },
  {
   "property": "C43",
   "status": "proved",
   "theorems": [
    "Nurbs.Props.C43_evaluate",
    "Nurbs.Props.C43_outside"
   ],
   "note": "exact arithmetic"
  },
  {
   "property": "C44",
   "status": "proved",
   "theorems": [
    "Nurbs.Props.C44_boundary",
    "Nurbs.Props.C44_corners",
    "Nurbs.Props.C44_convex_hull"
   ],
   "note": "exact arithmetic"
  },
  {
   "property": "C45",
   "status": "partial",
   "theorems": [
    "Nurbs.Props.C45_evaluateAll_partial",
    "Nurbs.Props.C45_evaluateAll_real_partial",
    "Nurbs.Props.C45_patch_unique",
    "Nurbs.Props.C45_large_orders_refuted"
   ],
   "note": "proved for all orders whose binomial products fit in int (orders <= 29 and C(ou,ou/2)*C(ov,ov/2) < 2^31; exact arithmetic); all other orders proved to be undefined behaviour (int overflow)"
  },
  {
   "property": "C46",
   "status": "proved",
   "theorems": [
    "Nurbs.Props.C46_insertKnotU",
    "Nurbs.Props.C46_insertKnotV",
    "Nurbs.Props.C46_insertKnotU_list",
    "Nurbs.Props.C46_insertKnotV_list",
    "Nurbs.Props.C46_insertKnot_times",
    "Nurbs.Props.C46_order_independent",
    "Nurbs.Props.C46_degree_zero_breaks"
   ],
   "note": "exact arithmetic; degree >= 1 as stated, degree 0 shown to fail"
  },
  {
   "property": "C47",
   "status": "proved",
   "theorems": [
    "Nurbs.Props.C47_commute",
    "Nurbs.Props.C47_commute_single"
   ],
   "note": "exact arithmetic"
  },
  {
   "property": "C48",
   "status": "proved",
   "theorems": [
    "Nurbs.Props.C48_failed_removal",
    "Nurbs.Props.C48_empty_surface"
   ],
   "note": "every surface with at least one row/column; for surfaces without control points shown to fail"
  },
  {
   "property": "C49",
   "status": "partial",
   "theorems": [
    "Nurbs.Props.C49_elevateU_partial",
    "Nurbs.Props.C49_elevateV_partial",
    "Nurbs.Props.C49_exact_partial",
    "Nurbs.Props.C49_interior_knots_always_fail",
    "Nurbs.Props.C49_interior_knot_refuted"
   ],
   "note": "proved for surfaces without interior knots in the elevated direction; false of the code otherwise: the grid is enlarged by times only, and with interior knots the assertion always fails"
  },
  {
   "property": "C50",
   "status": "partial",
   "theorems": [
    "Nurbs.Props.C50_align_partial",
    "Nurbs.Props.C50_same_points_partial",
    "Nurbs.Props.C50_jump_refuted"
   ],
   "note": "well-formedness, the correspondence of parameters and the <2x2 case for every surface; the values agree everywhere except possibly at reversed interior knots of multiplicity greater than the degree, where the claim is refuted"
  },
  {
   "property": "C51",
   "status": "proved",
   "theorems": [
    "Nurbs.Props.C51_searchParameter",
    "Nurbs.Props.C51_searchParameterOn",
    "Nurbs.Props.C51_binarySearchOn",
    "Nurbs.Props.C51_direction_needed"
   ],
   "note": "directions 0 and 1, exact arithmetic, any square-root function, Archimedean field; the int counter itself is unbounded in the model"
  },
  {
   "property": "C52",
   "status": "proved",
   "theorems": [
    "Nurbs.Props.C52_segment",
    "Nurbs.Props.C52_make",
    "Nurbs.Props.C52_bad_degree"
   ],
   "note": "exact arithmetic"
  },
  {
   "property": "C53",
   "status": "partial",
   "theorems": [
    "Nurbs.Props.C53_rect_partial",
    "Nurbs.Props.C53_corner_refuted"
   ],
   "note": "three corners and the affine parametrisation proved; the fourth corner holds exactly for parallelograms; refuted in general"
  },
  {
   "property": "C54",
   "status": "proved",
   "theorems": [
    "Nurbs.Props.C54_curve_binary_round_trip"
   ],
   "note": "byte level, 32-bit little-endian int, IEEE doubles as 64 bits"
  },
  {
   "property": "C55",
   "status": "proved",
   "theorems": [
    "Nurbs.Props.C55_curve_truncated",
    "Nurbs.Props.C55_surface_truncated"
   ],
   "note": "byte level"
  },
  {
   "property": "C56",
   "status": "proved",
   "theorems": [
    "Nurbs.Props.C56_surface_binary_round_trip"
   ],
   "note": "byte level"
  },
  {
   "property": "C57",
   "status": "partial",
   "theorems": [
    "Nurbs.Props.C57_text_round_trip_partial",
    "Nurbs.Props.C57_small_number_refuted",
    "Nurbs.Props.C57_below_refuted",
    "Nurbs.Props.C57_nan_refused"
   ],
   "note": "false of the code for small numbers: of any five neighbouring doubles up to 1/16 at least one is lost (C57_below_refuted); proved for numbers of absolute value at least 1/16 and multiples of 2^-17 (zero included)"
  },
  {
   "property": "C58",
   "status": "partial",
   "theorems": [
    "Nurbs.Props.C58_curve_binary_partial",
    "Nurbs.Props.C58_surface_binary_partial",
    "Nurbs.Props.C58_text_appends_refuted",
    "Nurbs.Props.C58_text_always_appends",
    "Nurbs.Props.C58_surface_text_refuted"
   ],
   "note": "true of binary files (every byte sequence); false of text files, which are appended"
  },
  {
   "property": "C59",
   "status": "proved",
   "theorems": [
    "Nurbs.Props.C59_curve_header",
    "Nurbs.Props.C59_surface_header",
    "Nurbs.Props.C59_curve_header_enough"
   ],
   "note": "every byte sequence"
  },
  {
   "property": "C60",
   "status": "proved",
   "theorems": [
    "Nurbs.Props.C60_trim",
    "Nurbs.Props.C60_trim_longest",
    "Nurbs.Props.C60_trim_idempotent"
   ],
   "note": "C-locale white space"
  },
  {
   "property": "C61",
   "status": "proved",
   "theorems": [
    "Nurbs.Props.C61_removal_in_bounds",
    "Nurbs.Props.C61_bounds_needed"
   ],
   "note": "exact arithmetic, any sqrt"
  },
  {
   "property": "C62",
   "status": "proved",
   "theorems": [
    "Nurbs.Props.C62_remove_undoes_insertU",
    "Nurbs.Props.C62_remove_undoes_insertV"
   ],
   "note": "exact arithmetic, any sqrt with sqrt 0 = 0"
  },
  {
   "property": "C63",
   "status": "proved",
   "theorems": [
    "Nurbs.Props.C63_exact_removalU",
    "Nurbs.Props.C63_exact_removalV"
   ],
   "note": "exact arithmetic, any sqrt positive on positive numbers"
  },
  {
   "property": "C64",
   "status": "partial",
   "theorems": [
    "Nurbs.Props.C64_align_directions_partial",
    "Nurbs.Props.C64_aligned_unchanged",
    "Nurbs.Props.C64_twisted_refuted"
   ],
   "note": "proved when opposite edges of the corner quadrilateral agree in axis and sign and are longer than 1e-6; refuted for twisted surfaces"
  },
  {
   "property": "C65",
   "status": "partial",
   "theorems": [
    "Nurbs.Props.C65_text_round_trip_partial",
    "Nurbs.Props.C65_small_number_refuted",
    "Nurbs.Props.C65_below_refuted"
   ],
   "note": "as C57"
  },
  {
   "property": "C66",
   "status": "partial",
   "theorems": [
    "Nurbs.Props.C66_curve_bad_header_partial",
    "Nurbs.Props.C66_surface_bad_header_partial",
    "Nurbs.Props.C66_partial_change_refuted"
   ],
   "note": "true of bad headers, false of later failures"
  },
  {
   "property": "C67",
   "status": "partial",
   "theorems": [
    "Nurbs.Props.C67_surface_lines_partial",
    "Nurbs.Props.C67_surface_points_partial",
    "Nurbs.Props.C67_curve_point_partial",
    "Nurbs.Props.C67_empty_file_partial",
    "Nurbs.Props.C67_curve_refuted",
    "Nurbs.Props.C67_surface_refuted",
    "Nurbs.Props.C67_first_line_refuted"
   ],
   "note": "false of the code: a cut at a line end, or inside the last number of a line, can be accepted. Proved: a surface whose points are incomplete by a whole number, and a curve cut inside a point line before its fourth number, are refused"
  },
  {
   "property": "C68",
   "status": "proved",
   "theorems": [
    "Nurbs.Props.C68_basis_rounding",
    "Nurbs.Props.C68_errFactor_le"
   ],
   "note": "any rounding with unit roundoff u, unbounded exponent"
  },
  {
   "property": "C69",
   "status": "proved",
   "theorems": [
    "Nurbs.Props.C69_curve_rounding",
    "Nurbs.Props.C69_cubic_double"
   ],
   "note": "any rounding with unit roundoff u, unbounded exponent; no contraction of a*b+c"
  },
  {
   "property": "C70",
   "status": "proved",
   "theorems": [
    "Nurbs.Props.C70_surface_rounding",
    "Nurbs.Props.C70_surface_rounding_bound"
   ],
   "note": "as C69"
  },
  {
   "property": "C71",
   "status": "proved",
   "theorems": [
    "Nurbs.Props.C71_uniform_rounding",
    "Nurbs.Props.C71_uniform_double"
   ],
   "note": "unbounded exponent"
  },
  {
   "property": "C72",
   "status": "partial",
   "theorems": [
    "Nurbs.Props.C72_reverse_rounding_partial",
    "Nurbs.Props.C72_reverse_rounding_refuted"
   ],
   "note": "validity and the error of each knot are proved; reversing twice and the multiplicities are not exact in double arithmetic"
  },
  {
   "property": "C73",
   "status": "partial",
   "theorems": [
    "Nurbs.Props.C73_endpoints_rounding_partial",
    "Nurbs.Props.C73_endpoints_rounding_refuted"
   ],
   "note": "not exact in double arithmetic when a weight is not 1; relative error bound proved"
  },
  {
   "property": "C74",
   "status": "proved",
   "theorems": [
    "Nurbs.Props.C74_insertKnot_rounding",
    "Nurbs.Props.C74_insertKnotList_rounding",
    "Nurbs.Props.C74_insertKnotTimes_rounding",
    "Nurbs.Props.C74_double"
   ],
   "note": "any rounding with unit roundoff u, unbounded exponent; no contraction of a*b+c"
  },
  {
   "property": "C75",
   "status": "proved",
   "theorems": [
    "Nurbs.Props.C75_insertKnotU_rounding",
    "Nurbs.Props.C75_insertKnotV_rounding",
    "Nurbs.Props.C75_insertKnotUList_rounding",
    "Nurbs.Props.C75_insertKnotVList_rounding",
    "Nurbs.Props.C75_insertKnotUTimes_rounding",
    "Nurbs.Props.C75_insertKnotVTimes_rounding",
    "Nurbs.Props.C75_double"
   ],
   "note": "any rounding with unit roundoff u, unbounded exponent; no contraction of a*b+c"
  },
  {
   "property": "C76",
   "status": "proved",
   "theorems": [
    "Nurbs.Props.C76_center",
    "Nurbs.Props.C76_length",
    "Nurbs.Props.C76_volume"
   ],
   "note": ""
  },
  {
   "property": "C77",
   "status": "proved",
   "theorems": [
    "Nurbs.Props.C77_binarySearch",
    "Nurbs.Props.C77_binarySearchOn",
    "Nurbs.Props.C77_segment",
    "Nurbs.Props.C77_valley_needed"
   ],
   "note": "exact arithmetic; the square root any strictly increasing function; epsilon > 0"
  },
  {
   "property": "C78",
   "status": "partial",
   "theorems": [
    "Nurbs.Props.C78_curve_partial",
    "Nurbs.Props.C78_curve_early_partial",
    "Nurbs.Props.C78_surface_partial",
    "Nurbs.Props.C78_surfaceOn_partial",
    "Nurbs.Props.C78_curve_refuted"
   ],
   "note": "false of the code: the first step is accepted however far it leads. Proved: a start without a way down is returned unchanged, and a curve search that stops before the limit ends within max(start, epsilon)"
  },
  {
   "property": "C79",
   "status": "proved",
   "theorems": [
    "Nurbs.Props.C79_line",
    "Nurbs.Props.C79_segment",
    "Nurbs.Props.C79_lineOn"
   ],
   "note": "exact arithmetic and exact square root"
  },
  {
   "property": "C80",
   "status": "partial",
   "theorems": [
    "Nurbs.Props.C80_collapsed_v_partial",
    "Nurbs.Props.C80_real_functions",
    "Nurbs.Props.C80_collapsed_u_refuted"
   ],
   "note": "true for a collapsed v edge, false for a collapsed u edge: the direction of the two v edges is taken for that of u"
  },
  {
   "property": "C81",
   "status": "proved",
   "theorems": [
    "Nurbs.Props.C81_basis_orders",
    "Nurbs.Props.C81_curve_orders",
    "Nurbs.Props.C81_surface_orders"
   ],
   "note": "any rounding with unit roundoff u, unbounded exponent; orders up to 29 (int overflow of Binomial beyond)"
  },
  {
   "property": "C82",
   "status": "proved",
   "theorems": [
    "Nurbs.Props.C82_basis_rounding",
    "Nurbs.Props.C82_curve_rounding",
    "Nurbs.Props.C82_tangent_double"
   ],
   "note": "any rounding with unit roundoff u, unbounded exponent; no contraction of a*b+c"
  },
  {
   "property": "C83",
   "status": "proved",
   "theorems": [
    "Nurbs.Props.C83_searchParameter",
    "Nurbs.Props.C83_binarySearch",
    "Nurbs.Props.C83_surface_searchParameter",
    "Nurbs.Props.C83_searchParameterOn",
    "Nurbs.Props.C83_binarySearchOn"
   ],
   "note": "any rounding with unit roundoff u, unbounded exponent; directions other than 0 and 1 excluded (see C51)"
  },
  {
   "property": "C84",
   "status": "proved",
   "theorems": [
    "Nurbs.Props.C84_plane",
    "Nurbs.Props.C84_square",
    "Nurbs.Props.C84_level_u",
    "Nurbs.Props.C84_level_v",
    "Nurbs.Props.C84_unit_square"
   ],
   "note": "exact arithmetic, any exact square root; C84_unit_square is the case of GeomRect over the reals"
  },
  {
   "property": "C85",
   "status": "proved",
   "theorems": [
    "Nurbs.Props.C85_number",
    "Nurbs.Props.C85_curve",
    "Nurbs.Props.C85_surface"
   ],
   "note": "all finite doubles, including those that C57/C65 cannot bring back exactly"
  },
  {
   "property": "C86",
   "status": "proved",
   "theorems": [
    "Nurbs.Props.C86_pieces_meet",
    "Nurbs.Props.C86_curve_smooth",
    "Nurbs.Props.C86_derivative_continuous",
    "Nurbs.Props.C86_from_the_right",
    "Nurbs.Props.C86_left_at_one",
    "Nurbs.Props.C86_basis_smooth",
    "Nurbs.Props.C86_multiplicity_needed",
    "Nurbs.Props.C86_surface_continuous",
    "Nurbs.Props.C86_surface_derivatives"
   ],
   "note": "exact arithmetic; over the reals with the derivatives and continuity of Mathlib (C86_pieces_meet: any ordered field)"
  },
  {
   "property": "C87",
   "status": "partial",
   "theorems": [
    "Nurbs.Props.C87_polynomial",
    "Nurbs.Props.C87_deviation_partial",
    "Nurbs.Props.C87_surfaceU_partial",
    "Nurbs.Props.C87_surfaceV_partial",
    "Nurbs.Props.C87_rational_refuted",
    "Nurbs.Props.C87_surface_rational_refuted"
   ],
   "note": "false for rational curves and surfaces (C87_rational_refuted, C87_surface_rational_refuted: for every factor M and every tolerance a curve, a surface that moves by more than M*eps); proved for polynomial curves (C87_polynomial); for rational curves the bound that does hold (C87_deviation_partial); both bounds for surfaces (C87_surfaceU_partial, C87_surfaceV_partial). Exact arithmetic, exact square root; multiplicity at most the degree"
  },
  {
   "property": "C88",
   "status": "partial",
   "theorems": [
    "Nurbs.Props.C88_polynomial_partial",
    "Nurbs.Props.C88_surfaceU_partial",
    "Nurbs.Props.C88_surfaceV_partial",
    "Nurbs.Props.C88_full_multiplicity_partial",
    "Nurbs.Props.C88_weights_refuted",
    "Nurbs.Props.C88_surface_weights_refuted"
   ],
   "note": "false for rational curves and surfaces (C88_weights_refuted, C88_surface_weights_refuted); proved for polynomial curves and surfaces and for one removal of a knot of multiplicity p. Exact arithmetic, any square root function"
  },
  {
   "property": "C89",
   "status": "partial",
   "theorems": [
    "Nurbs.Props.C89_insertKnot",
    "Nurbs.Props.C89_insertKnotList",
    "Nurbs.Props.C89_extractBezier",
    "Nurbs.Props.C89_elevate_partial",
    "Nurbs.Props.C89_elevate_once_partial",
    "Nurbs.Props.C89_insertKnotUList",
    "Nurbs.Props.C89_insertKnotVList",
    "Nurbs.Props.C89_insertKnotUV",
    "Nurbs.Props.C89_elevateU_partial",
    "Nurbs.Props.C89_elevateV_partial"
   ],
   "note": "insertion and Bezier extraction complete; elevation only where it works (C36, C49). Exact arithmetic"
  },
  {
   "property": "C90",
   "status": "proved",
   "theorems": [
    "Nurbs.Props.C90_rows_sum",
    "Nurbs.Props.C90_start_tangent",
    "Nurbs.Props.C90_end_tangent",
    "Nurbs.Props.C90_edges"
   ],
   "note": "exact arithmetic; surface orders up to 29 along the edge"
  },
  {
   "property": "C91",
   "status": "proved",
   "theorems": [
    "Nurbs.Props.C91_evaluate",
    "Nurbs.Props.C91_insertKnot",
    "Nurbs.Props.C91_insertKnotList",
    "Nurbs.Props.C91_extractBezier",
    "Nurbs.Props.C91_derivative",
    "Nurbs.Props.C91_search",
    "Nurbs.Props.C91_elevate",
    "Nurbs.Props.C91_remove",
    "Nurbs.Props.C91_evaluate_surface",
    "Nurbs.Props.C91_derivative_surface",
    "Nurbs.Props.C91_search_surface",
    "Nurbs.Props.C91_insert_surface",
    "Nurbs.Props.C91_elevateU",
    "Nurbs.Props.C91_elevateV",
    "Nurbs.Props.C91_removeU",
    "Nurbs.Props.C91_removeV",
    "Nurbs.Props.C91_remove_translation_fails"
   ],
   "note": "exact arithmetic; surface elevation for linear maps (Transform) only; C91_remove_translation_fails shows why removal is stated without translations"
  },
  {
   "property": "C92",
   "status": "partial",
   "theorems": [
    "Nurbs.Props.C92_elevate_steps_partial",
    "Nurbs.Props.C92_insert_elevate_partial",
    "Nurbs.Props.C92_insert_elevate_once_partial",
    "Nurbs.Props.C92_determined",
    "Nurbs.Props.C92_determined_surface",
    "Nurbs.Props.C92_multiplicity_needed"
   ],
   "note": "elevation only where it works (C36, C37); C92_multiplicity_needed: a knot of multiplicity p+2 hides a control point. Exact arithmetic"
  },
  {
   "property": "C93",
   "status": "proved",
   "theorems": [
    "Nurbs.Props.C93_variation",
    "Nurbs.Props.C93_refine",
    "Nurbs.Props.C93_monotone",
    "Nurbs.Props.C93_weights_needed"
   ],
   "note": "exact arithmetic, positive weights (C93_weights_needed: false with a negative weight)"
  },
  {
   "property": "C94",
   "status": "proved",
   "theorems": [
    "Nurbs.Props.C94_extractBezier_rounding",
    "Nurbs.Props.C94_double"
   ],
   "note": "rounding without overflow and underflow; the curves compared are evaluated exactly (C69 bounds the rounding of the evaluation)"
  },
  {
   "property": "C95",
   "status": "proved",
   "theorems": [
    "Nurbs.Props.C95_elevate_rounding",
    "Nurbs.Props.C95_double",
    "Nurbs.Props.C95_elevateU_rounding",
    "Nurbs.Props.C95_elevateV_rounding"
   ],
   "note": "Bezier curves (surfaces: Bezier in the elevated direction), the case in which surfaces can be elevated at all (C49); rounding without overflow and underflow; the objects compared are evaluated exactly"
  },
  {
   "property": "C96",
   "status": "partial",
   "theorems": [
    "Nurbs.Props.C96_evaluate",
    "Nurbs.Props.C96_derivative",
    "Nurbs.Props.C96_insert",
    "Nurbs.Props.C96_extractBezier",
    "Nurbs.Props.C96_elevate_partial",
    "Nurbs.Props.C96_elevate_once_partial",
    "Nurbs.Props.C96_elevate_refuted",
    "Nurbs.Props.C96_evaluate_surfaceU",
    "Nurbs.Props.C96_derivative_surfaceU",
    "Nurbs.Props.C96_insert_surfaceU",
    "Nurbs.Props.C96_insert_otherU",
    "Nurbs.Props.C96_surfaceV"
   ],
   "note": "points, derivatives, insertion and extraction complete; false of elevation at degree 10 (C96_elevate_refuted), proved for elevation where it works in both directions. Exact arithmetic"
  },
  {
   "property": "C97",
   "status": "proved",
   "theorems": [
    "Nurbs.Props.C97_evaluate",
    "Nurbs.Props.C97_surface",
    "Nurbs.Props.C97_move_point",
    "Nurbs.Props.C97_insert",
    "Nurbs.Props.C97_insertU",
    "Nurbs.Props.C97_insertV",
    "Nurbs.Props.C97_any_curve",
    "Nurbs.Props.C97_any_surface"
   ],
   "note": "rounding without overflow and underflow (no operation laws are used besides those that make the divisions succeed)"
  },
  {
   "property": "C98",
   "status": "proved",
   "theorems": [
    "Nurbs.Props.C98_marsden",
    "Nurbs.Props.C98_line",
    "Nurbs.Props.C98_polynomial",
    "Nurbs.Props.C98_bilinear",
    "Nurbs.Props.C98_polynomial_surface"
   ],
   "note": "exact arithmetic"
  },
  {
   "property": "C99",
   "status": "proved",
   "theorems": [
    "Nurbs.Props.C99_derivatives",
    "Nurbs.Props.C99_velocity",
    "Nurbs.Props.C99_speed",
    "Nurbs.Props.C99_chord"
   ],
   "note": "exact arithmetic; equal weights (an example shows that the statement is false otherwise)"
  },
  {
   "property": "C100",
   "status": "proved",
   "theorems": [
    "Nurbs.Props.C100_exchange",
    "Nurbs.Props.C100_evaluate",
    "Nurbs.Props.C100_derivative",
    "Nurbs.Props.C100_insert",
    "Nurbs.Props.C100_insert_list",
    "Nurbs.Props.C100_remove",
    "Nurbs.Props.C100_elevate",
    "Nurbs.Props.C100_search",
    "Nurbs.Props.C100_search_on"
   ],
   "note": "exact arithmetic except for removal and elevation, which hold for any arithmetic"
  },
  {
   "property": "C101",
   "status": "proved",
   "theorems": [
    "Nurbs.Props.C101_iso",
    "Nurbs.Props.C101_insert",
    "Nurbs.Props.C101_chord"
   ],
   "note": "exact arithmetic; the chord bound is stated along u, along v it follows with C100"
  },
  {
   "property": "C102",
   "status": "proved",
   "theorems": [
    "Nurbs.Props.C102_circle",
    "Nurbs.Props.C102_onto",
    "Nurbs.Props.C102_full",
    "Nurbs.Props.C102_revolution",
    "Nurbs.Props.C102_round"
   ],
   "note": "exact arithmetic, any ordered field that holds the weights (the reals for the full circle)"
  },
  {
   "property": "C103",
   "status": "partial",
   "theorems": [
    "Nurbs.Props.C103_basis_partial",
    "Nurbs.Props.C103_evaluate_partial",
    "Nurbs.Props.C103_surface_partial",
    "Nurbs.Props.C103_basis_refuted",
    "Nurbs.Props.C103_refuted",
    "Nurbs.Props.C103_overflow"
   ],
   "note": "false for knots closer than about 2^-1023 (C103_refuted) and for homogeneous coordinates beyond the range (C103_overflow); proved for intervals of at least 2^-1000, weights in [2^-100,2^100], coordinates up to 2^400, degree up to 29. Infinities and NaN are one value that spreads through all operations"
  },
  {
   "property": "C104",
   "status": "proved",
   "theorems": [
    "Nurbs.Props.C104_velocity",
    "Nurbs.Props.C104_distance",
    "Nurbs.Props.C104_rate",
    "Nurbs.Props.C104_converges",
    "Nurbs.Props.C104_surface_velocity",
    "Nurbs.Props.C104_surface_distance",
    "Nurbs.Props.C104_surface_converges"
   ],
   "note": "exact arithmetic; the limit statement needs an Archimedean field such as the rationals or the reals"
  },
  {
   "property": "C105",
   "status": "proved",
   "theorems": [
    "Nurbs.Props.C105_curve",
    "Nurbs.Props.C105_surface",
    "Nurbs.Props.C105_same_weights",
    "Nurbs.Props.C105_surface_same_weights",
    "Nurbs.Props.C105_text_curve",
    "Nurbs.Props.C105_text_surface"
   ],
   "note": "evaluation in exact arithmetic on the stored numbers; the text files are bit-exact"
  },
  {
   "property": "C106",
   "status": "proved",
   "theorems": [
    "Nurbs.Props.C106_isUniform",
    "Nurbs.Props.C106_near",
    "Nurbs.Props.C106_equal",
    "Nurbs.Props.C106_unequal_accepted"
   ],
   "note": "exact arithmetic"
  },
  {
   "property": "C107",
   "status": "partial",
   "theorems": [
    "Nurbs.Props.C107_layout_curve",
    "Nurbs.Props.C107_layout_surface",
    "Nurbs.Props.C107_last_line",
    "Nurbs.Props.C107_early_content",
    "Nurbs.Props.C107_unknown_key_curve_partial",
    "Nurbs.Props.C107_unknown_key_surface_partial",
    "Nurbs.Props.C107_degree_curve_partial",
    "Nurbs.Props.C107_degree_surface_partial",
    "Nurbs.Props.C107_nameless_refuted",
    "Nurbs.Props.C107_garbage_accepted"
   ],
   "note": "false of keys without a name (C107_nameless_refuted); everything else proved for every file"
  },
  {
   "property": "C108",
   "status": "partial",
   "theorems": [
    "Nurbs.Props.C108_curve",
    "Nurbs.Props.C108_surface_partial",
    "Nurbs.Props.C108_surface_refuted"
   ],
   "note": "proved for curves; for surfaces false (C108_surface_refuted) and proved except for an overflow of the product of the control point numbers. Running out of memory counts as an exception"
  },
  {
   "property": "C109",
   "status": "partial",
   "theorems": [
    "Nurbs.Props.C109_insertKnot_partial",
    "Nurbs.Props.C109_insertKnotList_partial",
    "Nurbs.Props.C109_insertKnotTimes_partial",
    "Nurbs.Props.C109_insertKnotU_partial",
    "Nurbs.Props.C109_insertKnotUList_partial",
    "Nurbs.Props.C109_insertKnotUTimes_partial",
    "Nurbs.Props.C109_insertKnotV_partial",
    "Nurbs.Props.C109_insertKnotVList_partial",
    "Nurbs.Props.C109_insertKnotVTimes_partial",
    "Nurbs.Props.C109_surface_underflow_refuted",
    "Nurbs.Props.C109_underflow_refuted",
    "Nurbs.Props.C109_overflow_refuted"
   ],
   "note": "false for weights or coordinates near the limits of double (C109_underflow_refuted, C109_overflow_refuted); proved for weights in [2^-100,2^100] and coordinates up to 2^400"
  },
  {
   "property": "C110",
   "status": "partial",
   "theorems": [
    "Nurbs.Props.C110_curve",
    "Nurbs.Props.C110_surface",
    "Nurbs.Props.C110_search",
    "Nurbs.Props.C110_insert",
    "Nurbs.Props.C110_insertList_surface",
    "Nurbs.Props.C110_insertList_partial",
    "Nurbs.Props.C110_remove",
    "Nurbs.Props.C110_elevate",
    "Nurbs.Props.C110_elevate_surface",
    "Nurbs.Props.C110_remove_surface_partial",
    "Nurbs.Props.C110_one_refuted",
    "Nurbs.Props.C110_zero_refuted",
    "Nurbs.Props.C110_remove_zero_refuted",
    "Nurbs.Props.C110_remove_one_refuted"
   ],
   "note": "false of the values 0 and 1 in the list form of Curve::InsertKnot (C110_one_refuted, C110_zero_refuted, for every curve) and in Surface::RemoveKnotU/V (C110_remove_zero_refuted for every surface, C110_remove_one_refuted)"
  },
  {
   "property": "C111",
   "status": "partial",
   "theorems": [
    "Nurbs.Props.C111_exact",
    "Nurbs.Props.C111_exact_surface",
    "Nurbs.Props.C111_tolerance_partial",
    "Nurbs.Props.C111_total_partial",
    "Nurbs.Props.C111_tolerance_surface_partial",
    "Nurbs.Props.C111_total_surface_partial"
   ],
   "note": "without removals proved for all weights, curves and surfaces; with removals for curves and surfaces with weights 1 (for others C87_rational_refuted and C88_weights_refuted)"
  },
  {
   "property": "C112",
   "status": "proved",
   "theorems": [
    "Nurbs.Props.C112_order_curve",
    "Nurbs.Props.C112_order_surface",
    "Nurbs.Props.C112_missing_curve",
    "Nurbs.Props.C112_missing_surface",
    "Nurbs.Props.C112_repeated_curve"
   ],
   "note": "exchange of two sections of different names, by the members they are about; moved along the file by induction"
  },
  {
   "property": "C113",
   "status": "proved",
   "theorems": [
    "Nurbs.Props.C113_curve",
    "Nurbs.Props.C113_surface",
    "Nurbs.Props.C113_one_to_one",
    "Nurbs.Props.C113_one_to_one_surface"
   ],
   "note": "complete; that files which do not load throw is C108 (false of surfaces with more than 2^31-1 points)"
  },
  {
   "property": "C114",
   "status": "partial",
   "theorems": [
    "Nurbs.Props.C114_evaluate",
    "Nurbs.Props.C114_evaluate_surface",
    "Nurbs.Props.C114_search",
    "Nurbs.Props.C114_search_surface",
    "Nurbs.Props.C114_insert",
    "Nurbs.Props.C114_insert_surface",
    "Nurbs.Props.C114_extract",
    "Nurbs.Props.C114_elevate",
    "Nurbs.Props.C114_elevate_surface",
    "Nurbs.Props.C114_remove_partial",
    "Nurbs.Props.C114_remove_exact_partial",
    "Nurbs.Props.C114_remove_exact_surface_partial",
    "Nurbs.Props.C114_remove_refuted",
    "Nurbs.Props.C114_remove_surface_refuted",
    "Nurbs.Props.C114_units_refuted"
   ],
   "note": "false of knot removal with a positive tolerance (C114_remove_refuted, C114_remove_surface_refuted, C114_units_refuted); there the exact effect of the factor is proved for curves (C114_remove_partial); with tolerance 0 it is proved for curves and surfaces. Everything else proved, exact arithmetic"
  },
  {
   "property": "C115",
   "status": "proved",
   "theorems": [
    "Nurbs.Props.C115_curve",
    "Nurbs.Props.C115_same_weights",
    "Nurbs.Props.C115_surface",
    "Nurbs.Props.C115_same_weights_surface",
    "Nurbs.Props.C115_sharp"
   ],
   "note": "exact arithmetic; C115_same_weights and its surface version need interior multiplicities up to p+1 (else a control point has no influence)"
  },
  {
   "property": "C116",
   "status": "partial",
   "theorems": [
    "Nurbs.Props.C116_faces_touch_partial",
    "Nurbs.Props.C116_minimum_partial",
    "Nurbs.Props.C116_rational_refuted"
   ],
   "note": "proved for equal weights; false of rational curves (C116_rational_refuted). Missing: nothing else within interior multiplicities up to the degree, exact arithmetic"
  },
  {
   "property": "C117",
   "status": "proved",
   "theorems": [
    "Nurbs.Props.C117_insert",
    "Nurbs.Props.C117_bezier",
    "Nurbs.Props.C117_pieces",
    "Nurbs.Props.C117_path"
   ],
   "note": "degree >= 1, interior multiplicities up to the degree, exact arithmetic; C117_path for equal weights"
  },
  {
   "property": "C118",
   "status": "partial",
   "theorems": [
    "Nurbs.Props.C118_extractBezier_partial",
    "Nurbs.Props.C118_underflow_refuted"
   ],
   "note": "proved for weights in [2^-99, 2^99], largest coordinate in [2^-600, 2^399] and p times the number of knots up to 2^40; false without limits (C118_underflow_refuted)"
  },
  {
   "property": "C119",
   "status": "proved",
   "theorems": [
    "Nurbs.Props.C119_tolerance",
    "Nurbs.Props.C119_rounds"
   ],
   "note": "all weights; degree >= 1, interior multiplicities up to the degree, exact arithmetic"
  },
  {
   "property": "C120",
   "status": "partial",
   "theorems": [
    "Nurbs.Props.C120_moves_partial",
    "Nurbs.Props.C120_direction_refuted",
    "Nurbs.Props.C120_mirror_refuted"
   ],
   "note": "proved for translations, exchanges of coordinates and a common factor of the weights; false for the direction (C120_direction_refuted) and for mirror images (C120_mirror_refuted), both because the corner Max of the control points is compared wrongly (C40). Exact arithmetic, interior multiplicities up to the degree"
  },
  {
   "property": "C121",
   "status": "partial",
   "theorems": [
    "Nurbs.Props.C121_ends_partial",
    "Nurbs.Props.C121_double_partial",
    "Nurbs.Props.C121_endless_refuted"
   ],
   "note": "false for large coordinates (C121_endless_refuted: endless loop in binary64); proved for p^2*B <= 4*10^9, B the largest coordinate of the control points, and p times the number of knots up to 10^6, without overflow and underflow"
  },
  {
   "property": "C122",
   "status": "proved",
   "theorems": [
    "Nurbs.Props.C122_points",
    "Nurbs.Props.C122_removal",
    "Nurbs.Props.C122_insertion",
    "Nurbs.Props.C122_elevation"
   ],
   "note": "exact arithmetic; derivative orders up to 29"
  },
  {
   "property": "C123",
   "status": "proved",
   "theorems": [
    "Nurbs.Props.C123_ruled"
   ],
   "note": "exact arithmetic; the rows in the v direction"
  }
 ]
}