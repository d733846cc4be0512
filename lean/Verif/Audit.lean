import Verif.Props.Adjacent
import Verif.Props.Asymmetric
import Verif.Props.AsymmetricRounded
import Verif.Props.Boundary
import Verif.Props.Broken
import Verif.Props.Chamber
import Verif.Props.Checks
import Verif.Props.Complete
import Verif.Props.Convex
import Verif.Props.ConvexExact
import Verif.Props.Coplanar
import Verif.Props.Decide
import Verif.Props.DecidePlanar
import Verif.Props.DecideRounded
import Verif.Props.Hand
import Verif.Props.Hull
import Verif.Props.HullRounded
import Verif.Props.HullRoundedPlanar
import Verif.Props.Intersect
import Verif.Props.IntersectObj
import Verif.Props.Laws
import Verif.Props.LawsPlanar
import Verif.Props.LawsRounded
import Verif.Props.LawsRoundedPlanar
import Verif.Props.LegacyScalar
import Verif.Props.Machine
import Verif.Props.MachineIntersect
import Verif.Props.MachinePlanar
import Verif.Props.MachineVec
import Verif.Props.MachineWrong
import Verif.Props.Matrix
import Verif.Props.Measure
import Verif.Props.MeasureRounded
import Verif.Props.Numeral
import Verif.Props.Numerical
import Verif.Props.OnSurface
import Verif.Props.Outline
import Verif.Props.OutlineFails
import Verif.Props.OutlineRounded
import Verif.Props.Planar
import Verif.Props.PlanarHull
import Verif.Props.PlanarMeasure
import Verif.Props.PlanarMeasureRounded
import Verif.Props.Podatm
import Verif.Props.Position
import Verif.Props.Projection
import Verif.Props.Reciprocal
import Verif.Props.Returns
import Verif.Props.ReturnsPlanar
import Verif.Props.ReturnsTested
import Verif.Props.Rounding
import Verif.Props.RoundingLost
import Verif.Props.RoundingPlanar
import Verif.Props.Scalar
import Verif.Props.Similarity
import Verif.Props.SimplifyOutcome
import Verif.Props.Single
import Verif.Props.Sites
import Verif.Props.SitesRounded
import Verif.Props.Sort
import Verif.Props.Structure
import Verif.Props.Subtract
import Verif.Props.Surface
import Verif.Props.SurfaceNames
import Verif.Props.Symmetry
import Verif.Props.Triangles
import Verif.Props.Truncated
import Verif.Props.Unique
import Verif.Props.Vector
import Verif.Props.Vesta
import Verif.Props.Volume
import Verif.Props.Xyz
/-! Axioms of every property theorem (only propext, Classical.choice, Quot.sound expected). -/
#print axioms PyQC.C01_add
#print axioms PyQC.C01_sub
#print axioms PyQC.C01_mul
#print axioms PyQC.C01_add_raises_iff
#print axioms PyQC.C01_mul_raises_iff
#print axioms PyQC.C01_raises_needs_zero_denominator
#print axioms PyQC.C02_div_none_iff
#print axioms PyQC.C02_div
#print axioms PyQC.C03_result_eq_iff
#print axioms PyQC.C04_add
#print axioms PyQC.C04_sub
#print axioms PyQC.C04_mul
#print axioms PyQC.C04_raises_needs_zero_denominator
#print axioms PyQC.C05_div_none_iff
#print axioms PyQC.C05_div
#print axioms PyQC.C05_guard_unreachable
#print axioms PyQC.C06_result_eq_iff
#print axioms PyQC.Machine.C07_ico
#print axioms PyQC.Machine.C07_dode
#print axioms PyQC.Machine.C07_values
#print axioms PyQC.Machine.C07_div
#print axioms PyQC.Machine.C07_rounding
#print axioms PyQC.Machine.C07_wrap
#print axioms PyQC.C08_add
#print axioms PyQC.C08_sub
#print axioms PyQC.C08_mul
#print axioms PyQC.C08_add_sub_cancel
#print axioms PyQC.C08_add_comm
#print axioms PyQC.C08_add_assoc
#print axioms PyQC.C08_mul_vector_none
#print axioms PyQC.C08_mul_vector_some
#print axioms PyQC.C08_sub_vectors_none
#print axioms PyQC.C08_sub_vectors_some
#print axioms PyQC.C08_sub_vectors_short
#print axioms PyQC.C08_mul_vectors_some
#print axioms PyQC.C08_mul_vectors_ndim4_is_none
#print axioms PyQC.C09_inner
#print axioms PyQC.C09_inner_none
#print axioms PyQC.C09_outer
#print axioms PyQC.C09_outer_orthogonal
#print axioms PyQC.C09_outer_anticomm
#print axioms PyQC.C09_outer_parallel
#print axioms PyQC.C09_dot_matrix_vector
#print axioms PyQC.C09_dot_matrix_matrix
#print axioms PyQC.C09_dot_none
#print axioms PyQC.C10_matrix_vector
#print axioms PyQC.C10_mismatch_none
#print axioms PyQC.C10_matrix_matrix_actual
#print axioms PyQC.C10_matrix_matrix_false
#print axioms PyQC.C10_matrix_matrix_partial
#print axioms PyQC.C10_matrix_matrix_index_error
#print axioms PyQC.C11_projection3
#print axioms PyQC.C11_projection
#print axioms PyQC.C11_numerical
#print axioms PyQC.C11_add
#print axioms PyQC.C11_smul
#print axioms PyQC.C11_projection_add
#print axioms PyQC.C12_injective
#print axioms PyQC.C12_injective_array
#print axioms PyQC.C12_rational_needed
#print axioms PyQC.C13_perp_par
#print axioms PyQC.C13_projection
#print axioms PyQC.C13_idempotent
#print axioms PyQC.C13_add
#print axioms PyQC.C13_smul
#print axioms PyQC.C14_centroid
#print axioms PyQC.C14_centroid_empty
#print axioms PyQC.C14_centroid_perm
#print axioms PyQC.C14_centroid_shift
#print axioms PyQC.C14_centroid_convex
#print axioms PyQC.C14_centroid_obj
#print axioms PyQC.C14_centroid_obj_empty
#print axioms PyQC.C15_volume
#print axioms PyQC.C15_numerical
#print axioms PyQC.C16_permute
#print axioms PyQC.C16_shift
#print axioms PyQC.C16_symop
#print axioms PyQC.C17_volume
#print axioms PyQC.C17_empty
#print axioms PyQC.C17_append
#print axioms PyQC.C17_reorder
#print axioms PyQC.C17_nested
#print axioms PyQC.C17_single
#print axioms PyQC.C17_none
#print axioms PyQC.C17_numerical
#print axioms PyQC.C18_count
#print axioms PyQC.C18_signed_permutation
#print axioms PyQC.C18_group
#print axioms PyQC.C19_isometry
#print axioms PyQC.C19_linear
#print axioms PyQC.C19_distance
#print axioms PyQC.C20_accept
#print axioms PyQC.C20_identity
#print axioms PyQC.C20_identity_canonical
#print axioms PyQC.C20_compose
#print axioms PyQC.C20_centre
#print axioms PyQC.C20_inverse
#print axioms PyQC.C20_compose_obj
#print axioms PyQC.C20_inverse_obj
#print axioms PyQC.C20_refuse
#print axioms PyQC.C21_orbit
#print axioms PyQC.C21_volume
#print axioms PyQC.C21_piece
#print axioms PyQC.C21_refuse
#print axioms PyQC.C22_exact
#print axioms PyQC.C22_compose
#print axioms PyQC.C22_restore
#print axioms PyQC.C22_refuse
#print axioms PyQC.C22_volume
#print axioms PyQC.C23_distinct
#print axioms PyQC.C23_order_multiplicity
#print axioms PyQC.C23_perm
#print axioms PyQC.C23_idempotent
#print axioms PyQC.C23_api
#print axioms PyQC.C24_one_per_point
#print axioms PyQC.C24_least
#print axioms PyQC.C24_sorted
#print axioms PyQC.C24_order_multiplicity
#print axioms PyQC.C24_idempotent
#print axioms PyQC.C24_api
#print axioms PyQC.C25_vertices
#print axioms PyQC.C25_tetrahedra
#print axioms PyQC.C25_triangles
#print axioms PyQC.C25_edges
#print axioms PyQC.C25_equivalence
#print axioms PyQC.C25_degenerate
#print axioms PyQC.C26_sound
#print axioms PyQC.C26_surface_partial
#print axioms PyQC.C26_single
#print axioms PyQC.C26_empty
#print axioms PyQC.C26_fails_close
#print axioms PyQC.C27_all_triangle
#print axioms PyQC.C27_all_tetrahedron
#print axioms PyQC.C27_all_refused
#print axioms PyQC.C27_unique_edges_triangles
#print axioms PyQC.C27_unique_edges_tetrahedra
#print axioms PyQC.C27_unique_edges_edges
#print axioms PyQC.C27_unique_edges_errors
#print axioms PyQC.C27_unique_triangles
#print axioms PyQC.C27_crossing_diagonals
#print axioms PyQC.C28_partition
#print axioms PyQC.C28_every_draw
#print axioms PyQC.C28_empty
#print axioms PyQC.C29_terminates
#print axioms PyQC.C29_edges
#print axioms PyQC.C29_surface_cleaner
#print axioms PyQC.C30_removeVectors_partial
#print axioms PyQC.C30_removeVector_partial
#print axioms PyQC.C30_all_removed
#print axioms PyQC.C30_fails_all_removed
#print axioms PyQC.C31_exact
#print axioms PyQC.C31_complete
#print axioms PyQC.C31_sound
#print axioms PyQC.C31_degenerate
#print axioms PyQC.C32_exact
#print axioms PyQC.C32_complete
#print axioms PyQC.C32_sound
#print axioms PyQC.C32_near
#print axioms PyQC.C32_reject
#print axioms PyQC.C32_degenerate
#print axioms PyQC.C32_perp
#print axioms PyQC.C32_object_inverted
#print axioms PyQC.C33_exact
#print axioms PyQC.C33_complete
#print axioms PyQC.C33_parallel
#print axioms PyQC.C33_sound
#print axioms PyQC.C33_perp
#print axioms PyQC.C34_point
#print axioms PyQC.C34_iff
#print axioms PyQC.C35_radius
#print axioms PyQC.C35_radius_obj
#print axioms PyQC.C35_exact
#print axioms PyQC.C35_sound
#print axioms PyQC.C35_object
#print axioms PyQC.C36_codes
#print axioms PyQC.C36_contained
#print axioms PyQC.C36_subset
#print axioms PyQC.C36_zero_overlap
#print axioms PyQC.C37_volume
#print axioms PyQC.C38_two
#print axioms PyQC.C38_objects
#print axioms PyQC.C38_objects_simple
#print axioms PyQC.C39_tetrahedra
#print axioms PyQC.C39_triangles
#print axioms PyQC.C39_edges
#print axioms PyQC.C39_name_with_newline
#print axioms PyQC.C40_triangles_partial
#print axioms PyQC.C40_edges_unreadable
#print axioms PyQC.C41_count
#print axioms PyQC.C41_group
#print axioms PyQC.C41_orders
#print axioms PyQC.C42_isometry
#print axioms PyQC.C42_orbit
#print axioms PyQC.C42_area
#print axioms PyQC.C43_area
#print axioms PyQC.C43_permute
#print axioms PyQC.C43_shift
#print axioms PyQC.C43_symop
#print axioms PyQC.C43_object
#print axioms PyQC.C44_compose
#print axioms PyQC.C44_compose_obj
#print axioms PyQC.C44_inverse
#print axioms PyQC.C44_linear
#print axioms PyQC.C44_scale
#print axioms PyQC.C44_area
#print axioms PyQC.C45_membership
#print axioms PyQC.C45_identity
#print axioms PyQC.C45_sound
#print axioms PyQC.C45_full_partial
#print axioms PyQC.C45_fails_unreduced
#print axioms PyQC.C46_coset
#print axioms PyQC.C46_site
#print axioms PyQC.C46_fails_unreduced
#print axioms PyQC.C47_removeOverlaps
#print axioms PyQC.C47_findOverlaps
#print axioms PyQC.C47_findOverlaps_any
#print axioms PyQC.C48_empty
#print axioms PyQC.C48_hull
#print axioms PyQC.C48_convex_partial
#print axioms PyQC.C48_volume_iff
#print axioms PyQC.C48_fails_nonconvex
#print axioms PyQC.C49_dode
#print axioms PyQC.C49_two
#print axioms PyQC.C49_few
#print axioms PyQC.C49_coplanar_partial
#print axioms PyQC.C49_accepted
#print axioms PyQC.C49_rejected
#print axioms PyQC.C49_fails_none
#print axioms PyQC.C49_fails_verdict
#print axioms PyQC.C50_tetrahedralization
#print axioms PyQC.C50_library_failure
#print axioms PyQC.C50_sound
#print axioms PyQC.C51_all
#print axioms PyQC.C51_none
#print axioms PyQC.C51_error
#print axioms PyQC.C51_result
#print axioms PyQC.C52_zero
#print axioms PyQC.C52_nonneg
#print axioms PyQC.C52_add
#print axioms PyQC.C52_neg
#print axioms PyQC.C52_singular
#print axioms PyQC.C52_nonsquare
#print axioms PyQC.C53_status_partial
#print axioms PyQC.C53_ico_false_success
#print axioms PyQC.C53_dode_false_success
#print axioms PyQC.C53_two_objects
#print axioms PyQC.C54_pieces
#print axioms PyQC.C54_same_size
#print axioms PyQC.C54_vectors
#print axioms PyQC.C54_none
#print axioms PyQC.C54_objects
#print axioms PyQC.C54_not_symmetric
#print axioms PyQC.C55_sound
#print axioms PyQC.C55_border
#print axioms PyQC.C55_empty_border
#print axioms PyQC.C56_sound
#print axioms PyQC.C56_complete
#print axioms PyQC.C57_first_inside
#print axioms PyQC.C57_second_inside
#print axioms PyQC.C57_apart
#print axioms PyQC.C57_crossing_error
#print axioms PyQC.C57_sound
#print axioms PyQC.C57_refuse
#print axioms PyQC.C57_star_error
#print axioms PyQC.C58_codes
#print axioms PyQC.C58_two
#print axioms PyQC.C58_two_outcome
#print axioms PyQC.C58_objects
#print axioms PyQC.C58_objects_inside
#print axioms PyQC.C58_grid
#print axioms PyQC.Ico.C58_decidable
#print axioms PyQC.Ico.C58_objects_tested
#print axioms PyQC.C59_shape
#print axioms PyQC.C59_volume_partial
#print axioms PyQC.C59_two_outside
#print axioms PyQC.C59_none_outside
#print axioms PyQC.C59_disjoint
#print axioms PyQC.C59_fails_search
#print axioms PyQC.C60_plane
#print axioms PyQC.C60_complete
#print axioms PyQC.C60_sound
#print axioms PyQC.C60_off_plane
#print axioms PyQC.C61_volume_lines_partial
#print axioms PyQC.C61_wrong_volume
#print axioms PyQC.C62_tetrahedron
#print axioms PyQC.C62_object
#print axioms PyQC.C62_hull
#print axioms PyQC.C63_two
#print axioms PyQC.C63_objects
#print axioms PyQC.C63_exact
#print axioms PyQC.C63_two_tiles
#print axioms PyQC.C64_hull
#print axioms PyQC.C65_border_edges
#print axioms PyQC.C65_outline
#print axioms PyQC.C66_test
#print axioms PyQC.C66_level
#print axioms PyQC.C66_point
#print axioms PyQC.C66_level_point
#print axioms PyQC.C66_short_missed
#print axioms PyQC.C67_plane
#print axioms PyQC.C67_level
#print axioms PyQC.C67_complete
#print axioms PyQC.C67_sound
#print axioms PyQC.C67_degenerate
#print axioms PyQC.C68_codes
#print axioms PyQC.C68_two
#print axioms PyQC.C68_two_raises
#print axioms PyQC.C68_objects
#print axioms PyQC.C68_objects_inside
#print axioms PyQC.C68_grid
#print axioms PyQC.C69_triangle
#print axioms PyQC.C69_object
#print axioms PyQC.C69_kinds
#print axioms PyQC.C69_objects
#print axioms PyQC.C69_exact
#print axioms PyQC.C70_convex
#print axioms PyQC.C70_subtraction
#print axioms PyQC.C71_hull
#print axioms PyQC.C71_empty
#print axioms PyQC.C71_simplification
#print axioms PyQC.C71_convex
#print axioms PyQC.C71_grid
#print axioms PyQC.C71_nonconvex
#print axioms PyQC.C72_covers
#print axioms PyQC.C72_unique
#print axioms PyQC.C72_symmetric
#print axioms PyQC.C72_symmetric_planar
#print axioms PyQC.C72_has_symmetry
#print axioms PyQC.C72_generates
#print axioms PyQC.C72_measure
#print axioms PyQC.C72_measure_planar
#print axioms PyQC.C72_part
#print axioms PyQC.C72_part_planar
#print axioms PyQC.C72_recovers
#print axioms PyQC.C72_recovers_planar
#print axioms PyQC.Ico.C73_asymmetric
#print axioms PyQC.Ico.C73_refuse
#print axioms PyQC.Ico.C73_count
#print axioms PyQC.Ico.C73_generates
#print axioms PyQC.C74_dode_vector
#print axioms PyQC.C74_block
#print axioms PyQC.C74_piece
#print axioms PyQC.C74_index
#print axioms PyQC.C74_broken
#print axioms PyQC.C74_equivalent
#print axioms PyQC.C74_equivalent_refuse
#print axioms PyQC.C74_orbit_stabiliser
#print axioms PyQC.C75_ico_edges
#print axioms PyQC.C75_dode_edges
#print axioms PyQC.C75_ico_pieces_partial
#print axioms PyQC.C75_fails_tetrahedron
#print axioms PyQC.C75_dode_normal
#print axioms PyQC.C75_broken
#print axioms PyQC.C75_empty
#print axioms PyQC.C75_fails_long_edge
#print axioms PyQC.C76_status
#print axioms PyQC.C76_empty
#print axioms PyQC.C76_content_partial
#print axioms PyQC.C76_index_length
#print axioms PyQC.C76_fails_count
#print axioms PyQC.C76_fails_arrays
#print axioms PyQC.C77_content_partial
#print axioms PyQC.C77_none
#print axioms PyQC.C77_fails_array
#print axioms PyQC.C77_fails_example
#print axioms PyQC.C77_short
#print axioms PyQC.C78_hulls
#print axioms PyQC.C78_no_overlap
#print axioms PyQC.C78_out_of_range
#print axioms PyQC.C78_zero_is_last
#print axioms PyQC.C78_empty
#print axioms PyQC.C78_fails_dode
#print axioms PyQC.C78_fails_step1
#print axioms PyQC.C79_connected
#print axioms PyQC.C79_common_triangle
#print axioms PyQC.C79_connected_triangle
#print axioms PyQC.C79_fails_merge
#print axioms PyQC.C79_fails_mergeable
#print axioms PyQC.C79_fails_dode
#print axioms PyQC.C79_fails_obj
#print axioms PyQC.C80_sort
#print axioms PyQC.C80_order_irrelevant
#print axioms PyQC.C80_unique
#print axioms PyQC.C80_fails_sort_obj
#print axioms PyQC.C81_volume
#print axioms PyQC.C81_volume_exact
#print axioms PyQC.C81_triangle_area
#print axioms PyQC.C81_dode_area
#print axioms PyQC.C81_dode_area_exact
#print axioms PyQC.C81_dode_area_le
#print axioms PyQC.C81_projection_sets
#print axioms PyQC.C81_inner
#print axioms PyQC.C81_matrix_dot
#print axioms PyQC.C82_det_matrix
#print axioms PyQC.C82_middle_position
#print axioms PyQC.C82_inside_outside_obj
#print axioms PyQC.C82_two_segments
#print axioms PyQC.C82_decomposition
#print axioms PyQC.C82_not_obj
#print axioms PyQC.C82_others
#print axioms PyQC.C83_number
#print axioms PyQC.C83_internal
#print axioms PyQC.C83_distance
#print axioms PyQC.C84_volume
#print axioms PyQC.C84_positive
#print axioms PyQC.C84_determinant
#print axioms PyQC.C85_inside
#print axioms PyQC.C85_complete
#print axioms PyQC.C85_reject
#print axioms PyQC.C86_segment
#print axioms PyQC.C86_complete
#print axioms PyQC.C87_coplanar
#print axioms PyQC.C88_codes
#print axioms PyQC.C88_two
#print axioms PyQC.C88_two_outcome
#print axioms PyQC.C89_objects
#print axioms PyQC.C89_inside
#print axioms PyQC.C90_symmetric
#print axioms PyQC.C90_symmetric_piece
#print axioms PyQC.C90_shift
#print axioms PyQC.C90_projection
#print axioms PyQC.C90_centroid
#print axioms PyQC.C90_centroid_obj
#print axioms PyQC.C90_wrap
#print axioms PyQC.C91_volume
#print axioms PyQC.C91_area
#print axioms PyQC.C91_wrap
#print axioms PyQC.C92_number
#print axioms PyQC.C92_internal
#print axioms PyQC.C92_distance
#print axioms PyQC.C92_area
#print axioms PyQC.C92_positive
#print axioms PyQC.C93_inside
#print axioms PyQC.C93_complete
#print axioms PyQC.C93_reject
#print axioms PyQC.C94_parallel
#print axioms PyQC.C94_sound
#print axioms PyQC.C94_complete
#print axioms PyQC.C95_codes
#print axioms PyQC.C95_two
#print axioms PyQC.C95_two_outcome
#print axioms PyQC.C95_raises
#print axioms PyQC.C95_grid
#print axioms PyQC.C96_lost
#print axioms PyQC.C96_objects
#print axioms PyQC.C96_inside
#print axioms PyQC.C97_decidable
#print axioms PyQC.C97_small
#print axioms PyQC.C97_codes
#print axioms PyQC.C97_two
#print axioms PyQC.C97_objects
#print axioms PyQC.C98_crossing
#print axioms PyQC.C98_two_inside
#print axioms PyQC.C98_inside
#print axioms PyQC.C98_two
#print axioms PyQC.C98_objects
#print axioms PyQC.C98_volume_wrong
#print axioms PyQC.C99_numeral
#print axioms PyQC.C99_any_cut_dode
#print axioms PyQC.C99_any_cut_ico
#print axioms PyQC.C99_never_different_partial
#print axioms PyQC.C99_missing_newline
#print axioms PyQC.C99_misread
#print axioms PyQC.C100_exact
#print axioms PyQC.C100_nested
#print axioms PyQC.C100_outcome
#print axioms PyQC.C100_no_overlap
#print axioms PyQC.C100_volume
#print axioms PyQC.C100_stuck
#print axioms PyQC.C101_cover
#print axioms PyQC.C101_boundary
#print axioms PyQC.C101_not_fitting
#print axioms PyQC.C102_cover
#print axioms PyQC.C102_outline
#print axioms PyQC.C102_not_fitting
#print axioms PyQC.C102_unlucky
#print axioms PyQC.C103_cover
#print axioms PyQC.C103_border_edges
#print axioms PyQC.C103_same
#print axioms PyQC.C103_not_fitting
#print axioms PyQC.C103_not_fitting_hull
#print axioms PyQC.C104_cover
#print axioms PyQC.C104_boundary
#print axioms PyQC.C104_two_names
#print axioms PyQC.C105_outline_cover
#print axioms PyQC.C105_outline
#print axioms PyQC.C105_border_cover
#print axioms PyQC.C105_border_edges
#print axioms PyQC.C106_returns
#print axioms PyQC.C106_choices
#print axioms PyQC.C106_exchange
#print axioms PyQC.C106_symmetry
#print axioms PyQC.C106_shift
#print axioms PyQC.C106_inside
#print axioms PyQC.C106_parts
#print axioms PyQC.C106_grouping
#print axioms PyQC.C106_choices_planar
#print axioms PyQC.C106_exchange_planar
#print axioms PyQC.C106_symmetry_planar
#print axioms PyQC.C106_shift_planar
#print axioms PyQC.C106_inside_planar
#print axioms PyQC.C106_parts_planar
#print axioms PyQC.C106_grouping_planar
#print axioms PyQC.C107_units
#print axioms PyQC.C107_units_planar
#print axioms PyQC.C108_two
#print axioms PyQC.C108_same
#print axioms PyQC.C108_objects
#print axioms PyQC.C109_decidable
#print axioms PyQC.C109_small
#print axioms PyQC.C109_level
#print axioms PyQC.C109_codes
#print axioms PyQC.C109_objects
#print axioms PyQC.C109_objects64
#print axioms PyQC.C110_corners
#print axioms PyQC.C110_touching
#print axioms PyQC.C110_two
#print axioms PyQC.C110_objects
#print axioms PyQC.C110_touching_rounded
#print axioms PyQC.C110_objects_rounded
#print axioms PyQC.C110_decidable
#print axioms PyQC.C110_objects_tested
#print axioms PyQC.C110_objects_rounded_tested
#print axioms PyQC.C110_narrow
#print axioms PyQC.C110_fails_narrow
#print axioms PyQC.C111_two
#print axioms PyQC.C111_two_rounded
#print axioms PyQC.C111_objects
#print axioms PyQC.C111_objects64
#print axioms PyQC.C111_tested
#print axioms PyQC.C112_kinds
#print axioms PyQC.C112_two
#print axioms PyQC.C112_objects
#print axioms PyQC.C112_exact
#print axioms PyQC.C112_kinds_planar
#print axioms PyQC.C112_objects_planar
#print axioms PyQC.C112_exact_planar
#print axioms PyQC.C113_border_edges
#print axioms PyQC.C113_hull
#print axioms PyQC.C113_simplification
#print axioms PyQC.C113_convex
#print axioms PyQC.C113_returns
#print axioms PyQC.C113_hull_planar
#print axioms PyQC.C113_simplification_planar
#print axioms PyQC.C114_choices
#print axioms PyQC.C114_ideal
#print axioms PyQC.C114_exchange
#print axioms PyQC.C114_symmetry
#print axioms PyQC.C114_shift
#print axioms PyQC.C114_inside
#print axioms PyQC.C114_parts
#print axioms PyQC.C114_grouping
#print axioms PyQC.C114_returns_planar
#print axioms PyQC.C114_choices_planar
#print axioms PyQC.C114_ideal_planar
#print axioms PyQC.C114_exchange_planar
#print axioms PyQC.C114_symmetry_planar
#print axioms PyQC.C114_shift_planar
#print axioms PyQC.C114_inside_planar
#print axioms PyQC.C114_parts_planar
#print axioms PyQC.C114_grouping_planar
#print axioms PyQC.C115_membership
#print axioms PyQC.C115_identity
#print axioms PyQC.C115_rational
#print axioms PyQC.C115_agree
#print axioms PyQC.C115_site
#print axioms PyQC.C115_fails_unreduced
#print axioms PyQC.C116_asymmetric
#print axioms PyQC.C116_returns
#print axioms PyQC.C116_choices
#print axioms PyQC.C116_ideal
#print axioms PyQC.C116_count
#print axioms PyQC.C116_generates
#print axioms PyQC.C116_refuse
#print axioms PyQC.C116_values
#print axioms PyQC.C117_outcome
#print axioms PyQC.C117_outcome_rounded
#print axioms PyQC.C117_outcome_planar
#print axioms PyQC.C117_outcome_planar_rounded
#print axioms PyQC.C118_returns
#print axioms PyQC.C118_list
#print axioms PyQC.C118_order
#print axioms PyQC.C118_complete
#print axioms PyQC.C118_sound
#print axioms PyQC.C118_grow
#print axioms PyQC.C118_no_strain
#print axioms PyQC.C118_places
#print axioms PyQC.C118_distance
#print axioms PyQC.C118_fails_degenerate
#print axioms PyQC.C119_elser
#print axioms PyQC.C119_length
#print axioms PyQC.C119_distinct
#print axioms PyQC.C119_distinct_csg
#print axioms PyQC.C119_fails_csg
#print axioms PyQC.C119_csg_length
#print axioms PyQC.C119_fails_phason
#print axioms PyQC.C119_phason_iff
#print axioms PyQC.C120_add
#print axioms PyQC.C120_mul
#print axioms PyQC.C120_sub
#print axioms PyQC.C120_div_ico
#print axioms PyQC.C120_div_dode
#print axioms PyQC.C120_field_ico
#print axioms PyQC.C120_field_dode
#print axioms PyQC.C120_fails_decagonal
