{
 "claims": [
  {
   "property": "C01",
   "status": "proved",
   "theorems": [
    "PyQC.C01_add",
    "PyQC.C01_sub",
    "PyQC.C01_mul",
    "PyQC.C01_add_raises_iff",
    "PyQC.C01_mul_raises_iff",
    "PyQC.C01_raises_needs_zero_denominator"
   ],
   "note": ""
  },
  {
   "property": "C02",
   "status": "proved",
   "theorems": [
    "PyQC.C02_div_none_iff",
    "PyQC.C02_div"
   ],
   "note": ""
  },
  {
   "property": "C03",
   "status": "proved",
   "theorems": [
    "PyQC.C03_result_eq_iff"
   ],
   "note": ""
  },
  {
   "property": "C04",
   "status": "proved",
   "theorems": [
    "PyQC.C04_add",
    "PyQC.C04_sub",
    "PyQC.C04_mul",
    "PyQC.C04_raises_needs_zero_denominator"
   ],
   "note": ""
  },
  {
   "property": "C05",
   "status": "proved",
   "theorems": [
    "PyQC.C05_div_none_iff",
    "PyQC.C05_div",
    "PyQC.C05_guard_unreachable"
   ],
   "note": ""
  },
  {
   "property": "C06",
   "status": "proved",
   "theorems": [
    "PyQC.C06_result_eq_iff"
   ],
   "note": ""
  },
  {
   "property": "C07",
   "status": "proved",
   "theorems": [
    "PyQC.Machine.C07_ico",
    "PyQC.Machine.C07_dode",
    "PyQC.Machine.C07_values",
    "PyQC.Machine.C07_div",
    "PyQC.Machine.C07_rounding",
    "PyQC.Machine.C07_wrap"
   ],
   "note": ""
  },
  {
   "property": "C08",
   "status": "proved",
   "theorems": [
    "PyQC.C08_add",
    "PyQC.C08_sub",
    "PyQC.C08_mul",
    "PyQC.C08_add_sub_cancel",
    "PyQC.C08_add_comm",
    "PyQC.C08_add_assoc",
    "PyQC.C08_mul_vector_none",
    "PyQC.C08_mul_vector_some",
    "PyQC.C08_sub_vectors_none",
    "PyQC.C08_sub_vectors_some",
    "PyQC.C08_sub_vectors_short",
    "PyQC.C08_mul_vectors_some",
    "PyQC.C08_mul_vectors_ndim4_is_none"
   ],
   "note": ""
  },
  {
   "property": "C09",
   "status": "proved",
   "theorems": [
    "PyQC.C09_inner",
    "PyQC.C09_inner_none",
    "PyQC.C09_outer",
    "PyQC.C09_outer_orthogonal",
    "PyQC.C09_outer_anticomm",
    "PyQC.C09_outer_parallel",
    "PyQC.C09_dot_matrix_vector",
    "PyQC.C09_dot_matrix_matrix",
    "PyQC.C09_dot_none"
   ],
   "note": ""
  },
  {
   "property": "C10",
   "status": "partial",
   "theorems": [
    "PyQC.C10_matrix_vector",
    "PyQC.C10_mismatch_none",
    "PyQC.C10_matrix_matrix_actual",
    "PyQC.C10_matrix_matrix_false",
    "PyQC.C10_matrix_matrix_partial",
    "PyQC.C10_matrix_matrix_index_error"
   ],
   "note": "Matrix inverse, matrix-vector and vector products are proved; the code's matrix-matrix product is proved to differ from the matrix product (witness)."
  },
  {
   "property": "C11",
   "status": "proved",
   "theorems": [
    "PyQC.C11_projection3",
    "PyQC.C11_projection",
    "PyQC.C11_numerical",
    "PyQC.C11_add",
    "PyQC.C11_smul",
    "PyQC.C11_projection_add"
   ],
   "note": ""
  },
  {
   "property": "C12",
   "status": "proved",
   "theorems": [
    "PyQC.C12_injective",
    "PyQC.C12_injective_array",
    "PyQC.C12_rational_needed"
   ],
   "note": ""
  },
  {
   "property": "C13",
   "status": "proved",
   "theorems": [
    "PyQC.C13_perp_par",
    "PyQC.C13_projection",
    "PyQC.C13_idempotent",
    "PyQC.C13_add",
    "PyQC.C13_smul"
   ],
   "note": ""
  },
  {
   "property": "C14",
   "status": "proved",
   "theorems": [
    "PyQC.C14_centroid",
    "PyQC.C14_centroid_empty",
    "PyQC.C14_centroid_perm",
    "PyQC.C14_centroid_shift",
    "PyQC.C14_centroid_convex",
    "PyQC.C14_centroid_obj",
    "PyQC.C14_centroid_obj_empty"
   ],
   "note": ""
  },
  {
   "property": "C15",
   "status": "proved",
   "theorems": [
    "PyQC.C15_volume",
    "PyQC.C15_numerical"
   ],
   "note": ""
  },
  {
   "property": "C16",
   "status": "proved",
   "theorems": [
    "PyQC.C16_permute",
    "PyQC.C16_shift",
    "PyQC.C16_symop"
   ],
   "note": ""
  },
  {
   "property": "C17",
   "status": "proved",
   "theorems": [
    "PyQC.C17_volume",
    "PyQC.C17_empty",
    "PyQC.C17_append",
    "PyQC.C17_reorder",
    "PyQC.C17_nested",
    "PyQC.C17_single",
    "PyQC.C17_none",
    "PyQC.C17_numerical"
   ],
   "note": ""
  },
  {
   "property": "C18",
   "status": "proved",
   "theorems": [
    "PyQC.C18_count",
    "PyQC.C18_signed_permutation",
    "PyQC.C18_group"
   ],
   "note": ""
  },
  {
   "property": "C19",
   "status": "proved",
   "theorems": [
    "PyQC.C19_isometry",
    "PyQC.C19_linear",
    "PyQC.C19_distance"
   ],
   "note": ""
  },
  {
   "property": "C20",
   "status": "proved",
   "theorems": [
    "PyQC.C20_accept",
    "PyQC.C20_identity",
    "PyQC.C20_identity_canonical",
    "PyQC.C20_compose",
    "PyQC.C20_centre",
    "PyQC.C20_inverse",
    "PyQC.C20_compose_obj",
    "PyQC.C20_inverse_obj",
    "PyQC.C20_refuse"
   ],
   "note": ""
  },
  {
   "property": "C21",
   "status": "proved",
   "theorems": [
    "PyQC.C21_orbit",
    "PyQC.C21_volume",
    "PyQC.C21_piece",
    "PyQC.C21_refuse"
   ],
   "note": ""
  },
  {
   "property": "C22",
   "status": "proved",
   "theorems": [
    "PyQC.C22_exact",
    "PyQC.C22_compose",
    "PyQC.C22_restore",
    "PyQC.C22_refuse",
    "PyQC.C22_volume"
   ],
   "note": ""
  },
  {
   "property": "C23",
   "status": "proved",
   "theorems": [
    "PyQC.C23_distinct",
    "PyQC.C23_order_multiplicity",
    "PyQC.C23_perm",
    "PyQC.C23_idempotent",
    "PyQC.C23_api"
   ],
   "note": ""
  },
  {
   "property": "C24",
   "status": "proved",
   "theorems": [
    "PyQC.C24_one_per_point",
    "PyQC.C24_least",
    "PyQC.C24_sorted",
    "PyQC.C24_order_multiplicity",
    "PyQC.C24_idempotent",
    "PyQC.C24_api"
   ],
   "note": ""
  },
  {
   "property": "C25",
   "status": "proved",
   "theorems": [
    "PyQC.C25_vertices",
    "PyQC.C25_tetrahedra",
    "PyQC.C25_triangles",
    "PyQC.C25_edges",
    "PyQC.C25_equivalence",
    "PyQC.C25_degenerate"
   ],
   "note": ""
  },
  {
   "property": "C26",
   "status": "partial",
   "theorems": [
    "PyQC.C26_sound",
    "PyQC.C26_surface_partial",
    "PyQC.C26_single",
    "PyQC.C26_empty",
    "PyQC.C26_fails_close"
   ],
   "note": "Soundness of the surface is proved; completeness is proved when distinct faces have distinct centroids, because faces with close centroids are merged (witness proved)."
  },
  {
   "property": "C27",
   "status": "proved",
   "theorems": [
    "PyQC.C27_all_triangle",
    "PyQC.C27_all_tetrahedron",
    "PyQC.C27_all_refused",
    "PyQC.C27_unique_edges_triangles",
    "PyQC.C27_unique_edges_tetrahedra",
    "PyQC.C27_unique_edges_edges",
    "PyQC.C27_unique_edges_errors",
    "PyQC.C27_unique_triangles",
    "PyQC.C27_crossing_diagonals"
   ],
   "note": ""
  },
  {
   "property": "C28",
   "status": "proved",
   "theorems": [
    "PyQC.C28_partition",
    "PyQC.C28_every_draw",
    "PyQC.C28_empty"
   ],
   "note": ""
  },
  {
   "property": "C29",
   "status": "proved",
   "theorems": [
    "PyQC.C29_terminates",
    "PyQC.C29_edges",
    "PyQC.C29_surface_cleaner"
   ],
   "note": ""
  },
  {
   "property": "C30",
   "status": "partial",
   "theorems": [
    "PyQC.C30_removeVectors_partial",
    "PyQC.C30_removeVector_partial",
    "PyQC.C30_all_removed",
    "PyQC.C30_fails_all_removed"
   ],
   "note": "Proved when at least one piece survives; when all pieces are removed the input is returned (proved)."
  },
  {
   "property": "C31",
   "status": "proved",
   "theorems": [
    "PyQC.C31_exact",
    "PyQC.C31_complete",
    "PyQC.C31_sound",
    "PyQC.C31_degenerate"
   ],
   "note": ""
  },
  {
   "property": "C32",
   "status": "proved",
   "theorems": [
    "PyQC.C32_exact",
    "PyQC.C32_complete",
    "PyQC.C32_sound",
    "PyQC.C32_near",
    "PyQC.C32_reject",
    "PyQC.C32_degenerate",
    "PyQC.C32_perp",
    "PyQC.C32_object_inverted"
   ],
   "note": ""
  },
  {
   "property": "C33",
   "status": "proved",
   "theorems": [
    "PyQC.C33_exact",
    "PyQC.C33_complete",
    "PyQC.C33_parallel",
    "PyQC.C33_sound",
    "PyQC.C33_perp"
   ],
   "note": ""
  },
  {
   "property": "C34",
   "status": "proved",
   "theorems": [
    "PyQC.C34_point",
    "PyQC.C34_iff"
   ],
   "note": ""
  },
  {
   "property": "C35",
   "status": "proved",
   "theorems": [
    "PyQC.C35_radius",
    "PyQC.C35_radius_obj",
    "PyQC.C35_exact",
    "PyQC.C35_sound",
    "PyQC.C35_object"
   ],
   "note": ""
  },
  {
   "property": "C36",
   "status": "proved",
   "theorems": [
    "PyQC.C36_codes",
    "PyQC.C36_contained",
    "PyQC.C36_subset",
    "PyQC.C36_zero_overlap"
   ],
   "note": ""
  },
  {
   "property": "C37",
   "status": "proved",
   "theorems": [
    "PyQC.C37_volume"
   ],
   "note": ""
  },
  {
   "property": "C38",
   "status": "proved",
   "theorems": [
    "PyQC.C38_two",
    "PyQC.C38_objects",
    "PyQC.C38_objects_simple"
   ],
   "note": ""
  },
  {
   "property": "C39",
   "status": "proved",
   "theorems": [
    "PyQC.C39_tetrahedra",
    "PyQC.C39_triangles",
    "PyQC.C39_edges",
    "PyQC.C39_name_with_newline"
   ],
   "note": ""
  },
  {
   "property": "C40",
   "status": "partial",
   "theorems": [
    "PyQC.C40_triangles_partial",
    "PyQC.C40_edges_unreadable"
   ],
   "note": "Round trip of triangle files is proved; files of edges are proved unreadable (IndexError) for every non-empty set of edges."
  },
  {
   "property": "C41",
   "status": "proved",
   "theorems": [
    "PyQC.C41_count",
    "PyQC.C41_group",
    "PyQC.C41_orders"
   ],
   "note": ""
  },
  {
   "property": "C42",
   "status": "proved",
   "theorems": [
    "PyQC.C42_isometry",
    "PyQC.C42_orbit",
    "PyQC.C42_area"
   ],
   "note": ""
  },
  {
   "property": "C43",
   "status": "proved",
   "theorems": [
    "PyQC.C43_area",
    "PyQC.C43_permute",
    "PyQC.C43_shift",
    "PyQC.C43_symop",
    "PyQC.C43_object"
   ],
   "note": ""
  },
  {
   "property": "C44",
   "status": "proved",
   "theorems": [
    "PyQC.C44_compose",
    "PyQC.C44_compose_obj",
    "PyQC.C44_inverse",
    "PyQC.C44_linear",
    "PyQC.C44_scale",
    "PyQC.C44_area"
   ],
   "note": ""
  },
  {
   "property": "C45",
   "status": "partial",
   "theorems": [
    "PyQC.C45_membership",
    "PyQC.C45_identity",
    "PyQC.C45_sound",
    "PyQC.C45_full_partial",
    "PyQC.C45_fails_unreduced"
   ],
   "note": "Proved for reduced site coordinates; fails for unreduced ones (witness proved)."
  },
  {
   "property": "C46",
   "status": "proved",
   "theorems": [
    "PyQC.C46_coset",
    "PyQC.C46_site",
    "PyQC.C46_fails_unreduced"
   ],
   "note": ""
  },
  {
   "property": "C47",
   "status": "proved",
   "theorems": [
    "PyQC.C47_removeOverlaps",
    "PyQC.C47_findOverlaps",
    "PyQC.C47_findOverlaps_any"
   ],
   "note": ""
  },
  {
   "property": "C48",
   "status": "partial",
   "theorems": [
    "PyQC.C48_empty",
    "PyQC.C48_hull",
    "PyQC.C48_convex_partial",
    "PyQC.C48_volume_iff",
    "PyQC.C48_fails_nonconvex"
   ],
   "note": "False of the code for objects that are not convex: C48_fails_nonconvex. C48_hull: whenever it does not raise it returns the convex hull, because the intersection of the hull with the object is the object and the comparison of volumes always succeeds. C48_convex_partial: for convex objects the result fills the same set and has the same exact volume. C48_volume_iff: the volumes agree exactly when the object fills its hull up to measure zero."
  },
  {
   "property": "C49",
   "status": "partial",
   "theorems": [
    "PyQC.C49_dode",
    "PyQC.C49_two",
    "PyQC.C49_few",
    "PyQC.C49_coplanar_partial",
    "PyQC.C49_accepted",
    "PyQC.C49_rejected",
    "PyQC.C49_fails_none",
    "PyQC.C49_fails_verdict"
   ],
   "note": "Soundness and completeness up to the draws are proved; the verdict depends on the draws (witness) and can be None."
  },
  {
   "property": "C50",
   "status": "proved",
   "theorems": [
    "PyQC.C50_tetrahedralization",
    "PyQC.C50_library_failure",
    "PyQC.C50_sound"
   ],
   "note": ""
  },
  {
   "property": "C51",
   "status": "proved",
   "theorems": [
    "PyQC.C51_all",
    "PyQC.C51_none",
    "PyQC.C51_error",
    "PyQC.C51_result"
   ],
   "note": ""
  },
  {
   "property": "C52",
   "status": "proved",
   "theorems": [
    "PyQC.C52_zero",
    "PyQC.C52_nonneg",
    "PyQC.C52_add",
    "PyQC.C52_neg",
    "PyQC.C52_singular",
    "PyQC.C52_nonsquare"
   ],
   "note": ""
  },
  {
   "property": "C53",
   "status": "partial",
   "theorems": [
    "PyQC.C53_status_partial",
    "PyQC.C53_ico_false_success",
    "PyQC.C53_dode_false_success",
    "PyQC.C53_two_objects"
   ],
   "note": "The truthful statuses are proved; the remaining part is false and proved so: both packages return 0 without writing a file in named cases."
  },
  {
   "property": "C54",
   "status": "proved",
   "theorems": [
    "PyQC.C54_pieces",
    "PyQC.C54_same_size",
    "PyQC.C54_vectors",
    "PyQC.C54_none",
    "PyQC.C54_objects",
    "PyQC.C54_not_symmetric"
   ],
   "note": ""
  },
  {
   "property": "C55",
   "status": "proved",
   "theorems": [
    "PyQC.C55_sound",
    "PyQC.C55_border",
    "PyQC.C55_empty_border"
   ],
   "note": ""
  },
  {
   "property": "C56",
   "status": "proved",
   "theorems": [
    "PyQC.C56_sound",
    "PyQC.C56_complete"
   ],
   "note": ""
  },
  {
   "property": "C57",
   "status": "proved",
   "theorems": [
    "PyQC.C57_first_inside",
    "PyQC.C57_second_inside",
    "PyQC.C57_apart",
    "PyQC.C57_crossing_error",
    "PyQC.C57_sound",
    "PyQC.C57_refuse",
    "PyQC.C57_star_error"
   ],
   "note": ""
  },
  {
   "property": "C58",
   "status": "proved",
   "theorems": [
    "PyQC.C58_codes",
    "PyQC.C58_two",
    "PyQC.C58_two_outcome",
    "PyQC.C58_objects",
    "PyQC.C58_objects_inside",
    "PyQC.C58_grid",
    "PyQC.Ico.C58_decidable",
    "PyQC.Ico.C58_objects_tested"
   ],
   "note": ""
  },
  {
   "property": "C59",
   "status": "partial",
   "theorems": [
    "PyQC.C59_shape",
    "PyQC.C59_volume_partial",
    "PyQC.C59_two_outside",
    "PyQC.C59_none_outside",
    "PyQC.C59_disjoint",
    "PyQC.C59_fails_search"
   ],
   "note": "Shape of the result, the volume in the direct branch and all failing branches are proved; in the search branch the volume can be wrong (witness proved)."
  },
  {
   "property": "C60",
   "status": "proved",
   "theorems": [
    "PyQC.C60_plane",
    "PyQC.C60_complete",
    "PyQC.C60_sound",
    "PyQC.C60_off_plane"
   ],
   "note": ""
  },
  {
   "property": "C61",
   "status": "partial",
   "theorems": [
    "PyQC.C61_volume_lines_partial",
    "PyQC.C61_wrong_volume"
   ],
   "note": "The object volume line is proved; each piece line shows the last piece's volume (proved, with a witness of a wrong line)."
  },
  {
   "property": "C62",
   "status": "proved",
   "theorems": [
    "PyQC.C62_tetrahedron",
    "PyQC.C62_object",
    "PyQC.C62_hull"
   ],
   "note": ""
  },
  {
   "property": "C63",
   "status": "proved",
   "theorems": [
    "PyQC.C63_two",
    "PyQC.C63_objects",
    "PyQC.C63_exact",
    "PyQC.C63_two_tiles"
   ],
   "note": ""
  },
  {
   "property": "C64",
   "status": "proved",
   "theorems": [
    "PyQC.C64_hull"
   ],
   "note": "C64_hull under WellFormed, Sharp (face-to-face, corners separated beyond the tolerances) and the TilesHull contract of the Delaunay library."
  },
  {
   "property": "C65",
   "status": "proved",
   "theorems": [
    "PyQC.C65_border_edges",
    "PyQC.C65_outline"
   ],
   "note": "C65_border_edges (ico2) and C65_outline (dode2)."
  },
  {
   "property": "C66",
   "status": "proved",
   "theorems": [
    "PyQC.C66_test",
    "PyQC.C66_level",
    "PyQC.C66_point",
    "PyQC.C66_level_point",
    "PyQC.C66_short_missed"
   ],
   "note": "C66_test, C66_level describe the test, C66_point and C66_level_point the answer; C66_short_missed: crossing segments shorter than about 0.03 are missed."
  },
  {
   "property": "C67",
   "status": "proved",
   "theorems": [
    "PyQC.C67_plane",
    "PyQC.C67_level",
    "PyQC.C67_complete",
    "PyQC.C67_sound",
    "PyQC.C67_degenerate"
   ],
   "note": "C67_plane is the exact region for coplanar points; C67_complete, C67_sound, C67_degenerate its consequences."
  },
  {
   "property": "C68",
   "status": "proved",
   "theorems": [
    "PyQC.C68_codes",
    "PyQC.C68_two",
    "PyQC.C68_two_raises",
    "PyQC.C68_objects",
    "PyQC.C68_objects_inside",
    "PyQC.C68_grid"
   ],
   "note": "C68_objects (never raises, no loss), C68_objects_inside, C68_codes, C68_two; C68_two_raises: called directly on triangles without an edge crossing the function raises UnboundLocalError. C68_grid gives a class of triangles that meet the resolution hypothesis."
  },
  {
   "property": "C69",
   "status": "proved",
   "theorems": [
    "PyQC.C69_triangle",
    "PyQC.C69_object",
    "PyQC.C69_kinds",
    "PyQC.C69_objects",
    "PyQC.C69_exact"
   ],
   "note": "C69_object, C69_objects, C69_exact, C69_kinds. The library hypothesis is met (exists_tiles2)."
  },
  {
   "property": "C70",
   "status": "proved",
   "theorems": [
    "PyQC.C70_convex",
    "PyQC.C70_subtraction"
   ],
   "note": "C70_convex, C70_subtraction. The unmodelled rest of intersection_two_obj_convex is an arbitrary value that is never reached."
  },
  {
   "property": "C71",
   "status": "proved",
   "theorems": [
    "PyQC.C71_hull",
    "PyQC.C71_empty",
    "PyQC.C71_simplification",
    "PyQC.C71_convex",
    "PyQC.C71_grid",
    "PyQC.C71_nonconvex"
   ],
   "note": "C71_hull, C71_simplification, C71_convex; C71_nonconvex is a dart of area 4 that becomes a triangle of area 6; C71_grid gives a class of objects that meet the resolution hypothesis."
  },
  {
   "property": "C72",
   "status": "proved",
   "theorems": [
    "PyQC.C72_covers",
    "PyQC.C72_unique",
    "PyQC.C72_symmetric",
    "PyQC.C72_symmetric_planar",
    "PyQC.C72_has_symmetry",
    "PyQC.C72_generates",
    "PyQC.C72_measure",
    "PyQC.C72_measure_planar",
    "PyQC.C72_part",
    "PyQC.C72_part_planar",
    "PyQC.C72_recovers",
    "PyQC.C72_recovers_planar"
   ],
   "note": "C72_covers, C72_unique (fundamental domain), C72_symmetric, C72_measure, C72_part, C72_recovers and their planar versions. The cone is a subset of perpendicular space given in Spec/Chamber.lean."
  },
  {
   "property": "C73",
   "status": "proved",
   "theorems": [
    "PyQC.Ico.C73_asymmetric",
    "PyQC.Ico.C73_refuse",
    "PyQC.Ico.C73_count",
    "PyQC.Ico.C73_generates"
   ],
   "note": "Stated for objects whose pieces are resolved against the cutting tetrahedron (the same hypothesis as C58; decided by resolvedTest). The example is the symmetric object with 120 tetrahedra of the project examples."
  },
  {
   "property": "C74",
   "status": "proved",
   "theorems": [
    "PyQC.C74_dode_vector",
    "PyQC.C74_block",
    "PyQC.C74_piece",
    "PyQC.C74_index",
    "PyQC.C74_broken",
    "PyQC.C74_equivalent",
    "PyQC.C74_equivalent_refuse",
    "PyQC.C74_orbit_stabiliser"
   ],
   "note": "C74_broken records that two generators raise on every piece or object."
  },
  {
   "property": "C75",
   "status": "partial",
   "theorems": [
    "PyQC.C75_ico_edges",
    "PyQC.C75_dode_edges",
    "PyQC.C75_ico_pieces_partial",
    "PyQC.C75_fails_tetrahedron",
    "PyQC.C75_dode_normal",
    "PyQC.C75_broken",
    "PyQC.C75_empty",
    "PyQC.C75_fails_long_edge"
   ],
   "note": "Proved for sets of edges in both packages and for triangles in dode2 (edges up to length 10). For tetrahedra ico2 draws only one edge per piece (C75_ico_pieces_partial, C75_fails_tetrahedron); C75_broken and C75_fails_long_edge record the other failures."
  },
  {
   "property": "C76",
   "status": "partial",
   "theorems": [
    "PyQC.C76_status",
    "PyQC.C76_empty",
    "PyQC.C76_content_partial",
    "PyQC.C76_index_length",
    "PyQC.C76_fails_count",
    "PyQC.C76_fails_arrays"
   ],
   "note": "C76_content_partial needs equal points stored as equal arrays, and gives the number written after nth= as that of the vertices; C76_fails_count and C76_fails_arrays refute the rest."
  },
  {
   "property": "C77",
   "status": "partial",
   "theorems": [
    "PyQC.C77_content_partial",
    "PyQC.C77_none",
    "PyQC.C77_fails_array",
    "PyQC.C77_fails_example",
    "PyQC.C77_short"
   ],
   "note": "C77_content_partial holds for a Python list of vertices; for the documented array ValueError is raised (C77_fails_array), and the call of the examples raises TypeError (C77_fails_example)."
  },
  {
   "property": "C78",
   "status": "proved",
   "theorems": [
    "PyQC.C78_hulls",
    "PyQC.C78_no_overlap",
    "PyQC.C78_out_of_range",
    "PyQC.C78_zero_is_last",
    "PyQC.C78_empty",
    "PyQC.C78_fails_dode",
    "PyQC.C78_fails_step1"
   ],
   "note": "Proved for ico2 step 2. C78_fails_step1 and C78_fails_dode record that step 1 and the dode2 step 2 raise on every valid input; C78_zero_is_last that the number 0 is accepted."
  },
  {
   "property": "C79",
   "status": "proved",
   "theorems": [
    "PyQC.C79_connected",
    "PyQC.C79_common_triangle",
    "PyQC.C79_connected_triangle",
    "PyQC.C79_fails_merge",
    "PyQC.C79_fails_mergeable",
    "PyQC.C79_fails_dode",
    "PyQC.C79_fails_obj"
   ],
   "note": "Adjacency and the common face are proved for ico2. C79_fails_merge, C79_fails_mergeable, C79_fails_obj and C79_fails_dode record that nothing is ever merged and that the dode2 versions always answer False or raise."
  },
  {
   "property": "C80",
   "status": "proved",
   "theorems": [
    "PyQC.C80_sort",
    "PyQC.C80_order_irrelevant",
    "PyQC.C80_unique",
    "PyQC.C80_fails_sort_obj"
   ],
   "note": "Real arithmetic; np.argsort enters through the two facts of IsArgsort (a permutation, sorted), which merge sort meets (mergeArgsort_ok). C80_fails_sort_obj: sort_obj raises on every object."
  },
  {
   "property": "C81",
   "status": "proved",
   "theorems": [
    "PyQC.C81_volume",
    "PyQC.C81_volume_exact",
    "PyQC.C81_triangle_area",
    "PyQC.C81_dode_area",
    "PyQC.C81_dode_area_exact",
    "PyQC.C81_dode_area_le",
    "PyQC.C81_projection_sets",
    "PyQC.C81_inner",
    "PyQC.C81_matrix_dot"
   ],
   "note": "Real arithmetic (no rounding)."
  },
  {
   "property": "C82",
   "status": "proved",
   "theorems": [
    "PyQC.C82_det_matrix",
    "PyQC.C82_middle_position",
    "PyQC.C82_inside_outside_obj",
    "PyQC.C82_two_segments",
    "PyQC.C82_decomposition",
    "PyQC.C82_not_obj",
    "PyQC.C82_others"
   ],
   "note": "A negative statement: these functions are exported but cannot be used. For the functions whose first statement already fails the model records only that (C82_others)."
  },
  {
   "property": "C83",
   "status": "proved",
   "theorems": [
    "PyQC.C83_number",
    "PyQC.C83_internal",
    "PyQC.C83_distance"
   ],
   "note": "For every Float64 (Model/Float.lean). Rounding.float64 derives its assumptions on np.dot and np.linalg.det from the roundings of the elementary operations; Rounding.binary64 is rounding to nearest, used in the examples."
  },
  {
   "property": "C84",
   "status": "proved",
   "theorems": [
    "PyQC.C84_volume",
    "PyQC.C84_positive",
    "PyQC.C84_determinant"
   ],
   "note": "C84_determinant is the error bound for the LAPACK/numpy algorithm itself."
  },
  {
   "property": "C85",
   "status": "proved",
   "theorems": [
    "PyQC.C85_inside",
    "PyQC.C85_complete",
    "PyQC.C85_reject"
   ],
   "note": "The margin is R³/2³⁷ for data of scale R ≤ 1024."
  },
  {
   "property": "C86",
   "status": "proved",
   "theorems": [
    "PyQC.C86_segment",
    "PyQC.C86_complete"
   ],
   "note": "Margin as in C85."
  },
  {
   "property": "C87",
   "status": "proved",
   "theorems": [
    "PyQC.C87_coplanar"
   ],
   "note": "Margin as in C85."
  },
  {
   "property": "C88",
   "status": "proved",
   "theorems": [
    "PyQC.C88_codes",
    "PyQC.C88_two",
    "PyQC.C88_two_outcome"
   ],
   "note": "resolvedRounded_int: pairs on a coarse grid with moderate determinants are resolved with the margin."
  },
  {
   "property": "C89",
   "status": "proved",
   "theorems": [
    "PyQC.C89_objects",
    "PyQC.C89_inside"
   ],
   "note": "ObjectsRounded bundles the conditions (margin and moderate size; that a common part that is not flat contains a ball is proved in Lemmas/RoundingBall). The example checks them for a crossing pair in binary64 arithmetic; C97 makes them computable."
  },
  {
   "property": "C90",
   "status": "proved",
   "theorems": [
    "PyQC.C90_symmetric",
    "PyQC.C90_symmetric_piece",
    "PyQC.C90_shift",
    "PyQC.C90_projection",
    "PyQC.C90_centroid",
    "PyQC.C90_centroid_obj",
    "PyQC.C90_wrap"
   ],
   "note": "OnGrid d A B (Spec/Machine.lean) is the range. C90_wrap is a failure beyond it."
  },
  {
   "property": "C91",
   "status": "proved",
   "theorems": [
    "PyQC.C91_volume",
    "PyQC.C91_area",
    "PyQC.C91_wrap"
   ],
   "note": "C91_volume, C91_area for every Float64; C91_wrap is a failure beyond the range."
  },
  {
   "property": "C92",
   "status": "proved",
   "theorems": [
    "PyQC.C92_number",
    "PyQC.C92_internal",
    "PyQC.C92_distance",
    "PyQC.C92_area",
    "PyQC.C92_positive"
   ],
   "note": "Errors for every Float64 (Model/Float.lean); Rounding.binary64 is one."
  },
  {
   "property": "C93",
   "status": "proved",
   "theorems": [
    "PyQC.C93_inside",
    "PyQC.C93_complete",
    "PyQC.C93_reject"
   ],
   "note": "Margin R²/2^40, scale R ≤ 8."
  },
  {
   "property": "C94",
   "status": "proved",
   "theorems": [
    "PyQC.C94_parallel",
    "PyQC.C94_sound",
    "PyQC.C94_complete"
   ],
   "note": "Crossings at an end of a segment are decided by rounding, because the code has no tolerance there."
  },
  {
   "property": "C95",
   "status": "proved",
   "theorems": [
    "PyQC.C95_codes",
    "PyQC.C95_two",
    "PyQC.C95_two_outcome",
    "PyQC.C95_raises",
    "PyQC.C95_grid"
   ],
   "note": "C95_grid gives a sufficient condition for ResolvedTriRounded."
  },
  {
   "property": "C96",
   "status": "proved",
   "theorems": [
    "PyQC.C96_lost",
    "PyQC.C96_objects",
    "PyQC.C96_inside"
   ],
   "note": "C96_lost is the negation without the condition `clear`: evaluated in binary64 by the kernel (Lemmas/Binary64.lean)."
  },
  {
   "property": "C97",
   "status": "proved",
   "theorems": [
    "PyQC.C97_decidable",
    "PyQC.C97_small",
    "PyQC.C97_codes",
    "PyQC.C97_two",
    "PyQC.C97_objects"
   ],
   "note": "The tests roundedTest, smallTest, pairTest and objectsTest are computable; the examples evaluate them in the kernel for tetrahedra with irrational coordinates."
  },
  {
   "property": "C98",
   "status": "proved",
   "theorems": [
    "PyQC.C98_crossing",
    "PyQC.C98_two_inside",
    "PyQC.C98_inside",
    "PyQC.C98_two",
    "PyQC.C98_objects",
    "PyQC.C98_volume_wrong"
   ],
   "note": "C98_volume_wrong: the common part of two tetrahedra with coordinates -1,0,1 is returned correctly (volume below 1/1000), but volume() reports more than 1 for it, because the triple product overflows. The range in (a) is a worst-case bound; samePair and sameObjects in (b) are computable tests that compare the 64-bit with the exact computation."
  },
  {
   "property": "C99",
   "status": "partial",
   "theorems": [
    "PyQC.C99_numeral",
    "PyQC.C99_any_cut_dode",
    "PyQC.C99_any_cut_ico",
    "PyQC.C99_never_different_partial",
    "PyQC.C99_missing_newline",
    "PyQC.C99_misread"
   ],
   "note": "False in general: read_xyz drops the last character of every line, so when only the last newline is missing the last digit of the last denominator is lost without notice (C99_missing_newline, C99_misread: 1/10 is read as 1). Proved for every cut: reading raises or returns the object except for that one number (C99_any_cut_ico, C99_any_cut_dode), and the full claim when that denominator has one digit. C99_numeral: which texts are read as a number, and as which."
  },
  {
   "property": "C100",
   "status": "proved",
   "theorems": [
    "PyQC.C100_exact",
    "PyQC.C100_nested",
    "PyQC.C100_outcome",
    "PyQC.C100_no_overlap",
    "PyQC.C100_volume",
    "PyQC.C100_stuck"
   ],
   "note": "Uses the library hypotheses FillsHull (covered region) and TilesHull (volume). C100_stuck exhibits two convex objects with a common interior point for which UnboundLocalError is raised; C100_outcome says exactly when this happens."
  },
  {
   "property": "C101",
   "status": "proved",
   "theorems": [
    "PyQC.C101_cover",
    "PyQC.C101_boundary",
    "PyQC.C101_not_fitting"
   ],
   "note": "C101_not_fitting exhibits an object whose tetrahedra do not overlap but do not fit face to face, with a surface triangle inside the object."
  },
  {
   "property": "C102",
   "status": "proved",
   "theorems": [
    "PyQC.C102_cover",
    "PyQC.C102_outline",
    "PyQC.C102_not_fitting",
    "PyQC.C102_unlucky"
   ],
   "note": "C102_not_fitting: where two triangles meet a third along one edge, every outline contains points inside the object. C102_unlucky: with draws that find no triple the diagonal of a square stays in its outline."
  },
  {
   "property": "C103",
   "status": "proved",
   "theorems": [
    "PyQC.C103_cover",
    "PyQC.C103_border_edges",
    "PyQC.C103_same",
    "PyQC.C103_not_fitting",
    "PyQC.C103_not_fitting_hull"
   ],
   "note": "Flat parts and their edges are defined in Spec/Outline.lean for any set of points, without reference to tetrahedra. C103_not_fitting, C103_not_fitting_hull: when the tetrahedra do not overlap but meet in parts of their faces, generate_border_edges, generate_convex_hull and simplification can raise ValueError."
  },
  {
   "property": "C104",
   "status": "proved",
   "theorems": [
    "PyQC.C104_cover",
    "PyQC.C104_boundary",
    "PyQC.C104_two_names"
   ],
   "note": "C104_two_names: if a common corner has two 6D names with the same perp components, binary64 arithmetic can leave a common face of two tetrahedra in the surface, inside the object."
  },
  {
   "property": "C105",
   "status": "proved",
   "theorems": [
    "PyQC.C105_outline_cover",
    "PyQC.C105_outline",
    "PyQC.C105_border_cover",
    "PyQC.C105_border_edges"
   ],
   "note": "The size and margin conditions are in Spec/OutlineRounded.lean; they are shown for grid objects by comparisons of integers."
  },
  {
   "property": "C106",
   "status": "proved",
   "theorems": [
    "PyQC.C106_returns",
    "PyQC.C106_choices",
    "PyQC.C106_exchange",
    "PyQC.C106_symmetry",
    "PyQC.C106_shift",
    "PyQC.C106_inside",
    "PyQC.C106_parts",
    "PyQC.C106_grouping",
    "PyQC.C106_choices_planar",
    "PyQC.C106_exchange_planar",
    "PyQC.C106_symmetry_planar",
    "PyQC.C106_shift_planar",
    "PyQC.C106_inside_planar",
    "PyQC.C106_parts_planar",
    "PyQC.C106_grouping_planar"
   ],
   "note": "The condition on the tolerances (ResolvedObjects, Spec/Laws.lean) is that of C58 and C63; for one pair of tetrahedra it is decided by integer arithmetic (C58_decidable)."
  },
  {
   "property": "C107",
   "status": "proved",
   "theorems": [
    "PyQC.C107_units",
    "PyQC.C107_units_planar"
   ],
   "note": "The cases given for the hypotheses cover the first part; that all symmetry copies are resolved is left as a hypothesis of the last part."
  },
  {
   "property": "C108",
   "status": "proved",
   "theorems": [
    "PyQC.C108_two",
    "PyQC.C108_same",
    "PyQC.C108_objects"
   ],
   "note": "sameObjects2 (Spec/MachinePlanar.lean) is computable: it runs every integer computation with 64-bit and with unbounded integers and compares, for every outcome of the comparisons and every triangulation. The area computed for the test of kind simple may overflow; the whole triangle that is returned instead still covers the pieces."
  },
  {
   "property": "C109",
   "status": "proved",
   "theorems": [
    "PyQC.C109_decidable",
    "PyQC.C109_small",
    "PyQC.C109_level",
    "PyQC.C109_codes",
    "PyQC.C109_objects",
    "PyQC.C109_objects64"
   ],
   "note": "The tests are in Spec/Surd.lean: exact arithmetic in a + b√3 with rational a, b and a sign decided by squaring. clearTest2, the part of the test that asks for a witness (containment, a proper crossing or separation), is sufficient; roundedTest2, smallTest2 and levelTest are equivalences."
  },
  {
   "property": "C110",
   "status": "proved",
   "theorems": [
    "PyQC.C110_corners",
    "PyQC.C110_touching",
    "PyQC.C110_two",
    "PyQC.C110_objects",
    "PyQC.C110_touching_rounded",
    "PyQC.C110_objects_rounded",
    "PyQC.C110_decidable",
    "PyQC.C110_objects_tested",
    "PyQC.C110_objects_rounded_tested",
    "PyQC.C110_narrow",
    "PyQC.C110_fails_narrow"
   ],
   "note": "C110_objects contains C106 (there contacts were assumed solid). The width is the largest component of the cross product over three corners, which the code compares with 1e-6 before it trusts a triple; C110_narrow describes exactly what happens below that. Rounded version: bound 3 on the coordinates, since the coplanarity tolerance is 1e-10."
  },
  {
   "property": "C111",
   "status": "proved",
   "theorems": [
    "PyQC.C111_two",
    "PyQC.C111_two_rounded",
    "PyQC.C111_objects",
    "PyQC.C111_objects64",
    "PyQC.C111_tested"
   ],
   "note": "C95 and C96 described what is returned if something is returned; here it is proved that the call returns. Unlike for tetrahedra (C110) no width of the contact is needed: a flat common part has at most two corners, so nothing is left to triangulate. C111_objects64 is for kind standard."
  },
  {
   "property": "C112",
   "status": "proved",
   "theorems": [
    "PyQC.C112_kinds",
    "PyQC.C112_two",
    "PyQC.C112_objects",
    "PyQC.C112_exact",
    "PyQC.C112_kinds_planar",
    "PyQC.C112_objects_planar",
    "PyQC.C112_exact_planar"
   ],
   "note": "C62 and C69 prove the same over the real numbers, C89 and C96 prove with rounding that the regions agree; here the exact volume of the result with rounding. C112_kinds and C112_kinds_planar need no condition on the arithmetic or the position. The tiling hypothesis is about the answer for the rounded corners; the examples construct such an answer for binary64."
  },
  {
   "property": "C113",
   "status": "proved",
   "theorems": [
    "PyQC.C113_border_edges",
    "PyQC.C113_hull",
    "PyQC.C113_simplification",
    "PyQC.C113_convex",
    "PyQC.C113_returns",
    "PyQC.C113_hull_planar",
    "PyQC.C113_simplification_planar"
   ],
   "note": "C64, C48 and C71 prove the same over the real numbers. The answer is the hull even when the object does not fill it, because the code compares the object with its intersection with the hull (see C48)."
  },
  {
   "property": "C114",
   "status": "proved",
   "theorems": [
    "PyQC.C114_choices",
    "PyQC.C114_ideal",
    "PyQC.C114_exchange",
    "PyQC.C114_symmetry",
    "PyQC.C114_shift",
    "PyQC.C114_inside",
    "PyQC.C114_parts",
    "PyQC.C114_grouping",
    "PyQC.C114_returns_planar",
    "PyQC.C114_choices_planar",
    "PyQC.C114_ideal_planar",
    "PyQC.C114_exchange_planar",
    "PyQC.C114_symmetry_planar",
    "PyQC.C114_shift_planar",
    "PyQC.C114_inside_planar",
    "PyQC.C114_parts_planar",
    "PyQC.C114_grouping_planar"
   ],
   "note": "C106 proves the same laws over the real numbers. Here each law speaks of any runs that returned (C110 and C111 say when a run returns); a law about moved objects assumes that the moved objects are resolved too, since the margins for rounding depend on the position."
  },
  {
   "property": "C115",
   "status": "proved",
   "theorems": [
    "PyQC.C115_membership",
    "PyQC.C115_identity",
    "PyQC.C115_rational",
    "PyQC.C115_agree",
    "PyQC.C115_site",
    "PyQC.C115_fails_unreduced"
   ],
   "note": "C45 and C46 state the same with the length over the real numbers. C115_fails_unreduced shows that the failure for unreduced sites is there in every arithmetic."
  },
  {
   "property": "C116",
   "status": "proved",
   "theorems": [
    "PyQC.C116_asymmetric",
    "PyQC.C116_returns",
    "PyQC.C116_choices",
    "PyQC.C116_ideal",
    "PyQC.C116_count",
    "PyQC.C116_generates",
    "PyQC.C116_refuse",
    "PyQC.C116_values"
   ],
   "note": "C73 states the same with exact tests. The concrete case of C116_count and C116_generates is conditional: symmetry, cone and reach are shown for the object with 120 tetrahedra, and the test of the margins for one of its 120 pairs only."
  },
  {
   "property": "C117",
   "status": "proved",
   "theorems": [
    "PyQC.C117_outcome",
    "PyQC.C117_outcome_rounded",
    "PyQC.C117_outcome_planar",
    "PyQC.C117_outcome_planar_rounded"
   ],
   "note": "States the control flow for all inputs; that the hull is the convex hull and the sizes are right is C64, C71 and C113."
  },
  {
   "property": "C118",
   "status": "proved",
   "theorems": [
    "PyQC.C118_returns",
    "PyQC.C118_list",
    "PyQC.C118_order",
    "PyQC.C118_complete",
    "PyQC.C118_sound",
    "PyQC.C118_grow",
    "PyQC.C118_no_strain",
    "PyQC.C118_places",
    "PyQC.C118_distance",
    "PyQC.C118_fails_degenerate"
   ],
   "note": "Over the real numbers, without rounding. Zero denominators give infinities or NaN in the code and are not covered. The distance is for structures without strain. The window is compared with the lattice point less the global shift only; the position and the shift of the domain enter the place but not the window, as in the code. C118_fails_degenerate is a disagreement."
  },
  {
   "property": "C119",
   "status": "proved",
   "theorems": [
    "PyQC.C119_elser",
    "PyQC.C119_length",
    "PyQC.C119_distinct",
    "PyQC.C119_distinct_csg",
    "PyQC.C119_fails_csg",
    "PyQC.C119_csg_length",
    "PyQC.C119_fails_phason",
    "PyQC.C119_phason_iff"
   ],
   "note": "Over the real numbers. C119_fails_csg, C119_csg_length and C119_fails_phason record where the code is wrong; the property states these as they are."
  },
  {
   "property": "C120",
   "status": "proved",
   "theorems": [
    "PyQC.C120_add",
    "PyQC.C120_mul",
    "PyQC.C120_sub",
    "PyQC.C120_div_ico",
    "PyQC.C120_div_dode",
    "PyQC.C120_field_ico",
    "PyQC.C120_field_dode",
    "PyQC.C120_fails_decagonal"
   ],
   "note": "Without wrap-around of long; the quotients are taken as exact. C120_fails_decagonal records that the decagonal package is a copy of the dodecagonal arithmetic."
  }
 ]
}