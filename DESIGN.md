# Formal model of pyqcstrc in Lean 4: design

Subject: `ttyamada/pyqcstrc`, pure-Python packages `src/pyqcstrc/ico2` (icosahedral) and
`src/pyqcstrc/dode2` (dodecagonal). The legacy Cython sources (`src_cython`) are not built by the
package; of them only a few parts are modelled (`Model/Legacy.lean`, C118–C120).

## 1. Trusted base

* Lean 4.33.0 kernel. Axioms allowed: `propext`, `Classical.choice`, `Quot.sound` (checked with
  `#print axioms` for every theorem named in MANIFEST.json, see `Verif/Audit.lean`).
  No `sorry`, `admit`, own axioms, `native_decide`, `bv_decide`.
* Mathlib (single modules imported) for real numbers, matrices, lists.
* The reading of the Python code. The code was not run. Every model definition cites the file and
  lines it models.

### Modelling conventions (the simplifications)

| Python / numpy | model |
|---|---|
| `np.int64` triple `[a,b,c]` | `Num3` = three unbounded `Int`. Exactness under int64 wrap-around and float64 rounding is a separate model (`Model/Machine.lean`, `Model/MachineVec.lean`, `Model/MachineIntersect.lean`, `Model/MachinePlanar.lean`, properties C07, C90, C91, C98, C108) |
| array of shape (k,3) | `Vec k = Fin k → Num3` |
| array of shape (m,6,3) | `Fin m → Vec 6` where m is fixed by the code (4, 3, 2), else `List (Vec 6)` |
| array of shape (n,m,6,3) | `List (Fin m → Vec 6)` |
| functions that test `ndim` | an inductive `NdArr` with one constructor per dimension |
| Python exception | `Except.error` of `PyErr` |
| Python `None` result | `Option.none` inside the result, or a `none` value |
| float64 arithmetic in numericalc | exact real arithmetic `ℝ` (idealisation: no rounding), and again with rounding for the intersections (`Model/Float.lean`, `Model/DodeFloat.lean`, `Model/Lapack.lean`, `Model/MachineIntersect.lean`) |
| `np.linalg.det/norm`, `np.cross`, `np.dot` | their mathematical definitions over ℝ |
| `random.sample` | universally quantified oracle (list of draws) |
| `scipy.spatial.Delaunay` | universally quantified oracle |
| `np.unique(axis=0)` | sort rows lexicographically and drop repeats; `return_index` = first index |
| file contents | list of lines, line = list of characters |
| `print`, timing, `verbose` | dropped |
| NumPy version | NumPy 1, which the package's `numpy>=1.20.0` allows: the subtraction uses `np.float_` (ico2/intsct.py:967, dode2/intsct.py:889), a name NumPy 2 removed, where its case 1 raises AttributeError |

### Parts of the code that are modelled and parts that are not

Generated from the line citations in `Verif/Model/*`. Random generators and the self-test code
under `__main__` are left out of both columns.

<!-- coverage -->
| file | modelled (cited from a definition) | not modelled |
|---|---|---|
| ico2/intsct.py | `decomposition`, `ball_radius_obj`, `ball_radius`, `distance_in_perp_space`, `rough_check_intersection_tetrahedron_obj`, `check_intersection_two_tetrahedron_4`, `intersection_two_segment`, `intersection_segment_surface`, `intersection_two_tetrahedron_4`, `intersection_two_obj_1`, `intersection_two_obj_convex`, `subtraction_two_obj`, `tetrahedron_not_obj_1`, `tetrahedron_not_obj_2` |  |
| ico2/math1.py | `add`, `mul`, `sub`, `div`, `add_vectors`, `sub_vectors`, `mul_vector`, `mul_vectors`, `outer_product`, `inner_product`, `dot_product`, `dot_product_1`, `projection`, `projection3`, `projection_perp`, `mtrixcal`, `centroid`, `centroid_obj`, `coplanar_check`, `matrixpow`, `det_matrix` |  |
| ico2/numericalc.py | `coplanar_check_numeric_tau`, `coplanar_check_numeric`, `point_on_segment`, `on_out_surface`, `numeric_value`, `numerical_vector`, `numerical_vectors`, `length_numerical`, `check_intersection_segment_surface_numerical_6d_tau`, `check_intersection_segment_surface_numerical`, `check_intersection_two_segment_numerical_6d_tau`, `check_intersection_two_segment_numerical`, `triangle_area`, `triangle_area_numerical`, `inside_outside_obj_tau`, `inside_outside_obj`, `inside_outside_tetrahedron_tau`, `inside_outside_tetrahedron`, `obj_volume_6d_numerical`, `tetrahedron_volume_6d_numerical`, `obj_volume_numerical`, `tetrahedron_volume_numerical`, `get_internal_component_numerical`, `get_internal_component_sets_numerical`, `projection_numerical`, `projection_sets_numerical`, `projection3_numerical`, `projection3_sets_numerical`, `matrix_dot`, `inner_product_numerical` |  |
| ico2/occupation_domain.py | `volume`, `symmetric`, `symmetric_0`, `shift`, `write`, `write_vesta`, `write_xyz`, `read_xyz`, `simplification`, `generate_border_edges`, `obj2podatm`, `simple_hand_step1`, `simple_hand_step2`, `site_symmetry`, `write_podatm`, `asymmetric` |  |
| ico2/symmetry.py | `symop_obj`, `symop_vecs`, `symop_vec`, `generator_obj_symmetric_obj`, `generator_obj_symmetric_surface`, `generator_obj_symmetric_tetrahedron`, `generator_obj_symmetric_tetrahedron_specific_symop`, `generator_obj_symmetric_tetrahedron_0`, `generator_obj_symmetric_vec`, `generator_equivalent_vectors`, `generator_equivalent_vec`, `icosasymop` |  |
| ico2/two_occupation_domains.py | `intersection`, `intersection_convex`, `subtraction` |  |
| ico2/utils.py | `shift_object`, `obj_volume_6d`, `tetrahedron_volume_6d`, `tetrahedron_volume`, `remove_doubling`, `remove_doubling_in_perp_space`, `generator_surface_1`, `generator_unique_triangles`, `get_tetrahedron_surface`, `get_common_edges`, `generator_all_edges`, `generator_unique_edges`, `get_triangle_edge`, `get_tetrahedron_edge`, `generate_convex_hull`, `surface_cleaner`, `get_sets_of_coplanar_triangles`, `gen_border_edges_of_coplanar_triangles`, `equivalent`, `equivalent_tetrahedra`, `equivalent_triangles`, `equivalent_edges`, `equivalent_vertices`, `sort_vctors`, `sort_obj`, `decomposition`, `tetrahedralization_points`, `remove_vectors`, `remove_vector`, `merge_two_tetrahedra_in_obj`, `merge_two_tetrahedra`, `check_connectivity_tetrahedra`, `get_common_triangle_in_two_tetrahedra`, `two_segment_into_one`, `coplanar_check_two_triangles`, `breps`, `middle_position` |  |
| dode2/intsct.py | `ball_radius_obj`, `ball_radius`, `distance_in_perp_space`, `rough_check_intersection_triangle_obj`, `check_intersection_two_triangles`, `intersection_two_segment`, `intersection_segment_surface`, `intersection_two_triangles`, `intersection_two_obj_1`, `intersection_two_obj_convex`, `subtraction_two_obj`, `tetrahedron_not_obj_1`, `tetrahedron_not_obj_2` |  |
| dode2/math1.py | `add`, `mul`, `sub`, `div`, `add_vectors`, `sub_vectors`, `mul_vector`, `mul_vectors`, `outer_product`, `inner_product`, `dot_product`, `dot_product_1`, `projection`, `projection3`, `projection_perp`, `mtrixcal`, `centroid`, `centroid_obj`, `coplanar_check`, `matrixpow`, `det_matrix` |  |
| dode2/numericalc.py | `coplanar_check_numeric_tau`, `coplanar_check_numeric`, `point_on_segment`, `on_out_surface`, `numeric_value`, `numerical_vector`, `numerical_vectors`, `length_numerical`, `check_intersection_segment_surface_numerical_6d_tau`, `check_intersection_segment_surface_numerical`, `check_intersection_two_segment_numerical_6d_tau`, `check_intersection_two_segment_numerical`, `triangle_area`, `triangle_area_numerical`, `inside_outside_obj_tau`, `inside_outside_obj`, `inside_outside_triangle_tau`, `inside_outside_triangle`, `obj_volume_6d_numerical`, `triangle_volume_6d_numerical`, `get_internal_component_numerical`, `get_internal_component_sets_numerical`, `projection_numerical`, `projection_sets_numerical`, `projection3_numerical`, `projection3_sets_numerical`, `matrix_dot`, `inner_product_numerical` |  |
| dode2/occupation_domain.py | `volume`, `symmetric`, `symmetric_0`, `shift`, `write`, `write_vesta`, `write_xyz`, `read_xyz`, `simplification`, `generate_border_edges`, `outline`, `obj2podatm`, `simple_hand_step1`, `simple_hand_step2`, `similarity` |  |
| dode2/symmetry.py | `symop_obj`, `symop_vecs`, `symop_vec`, `generator_obj_symmetric_obj`, `generator_obj_symmetric_triangle`, `generator_obj_symmetric_triangle_specific_symop`, `generator_obj_symmetric_triangle_0`, `generator_obj_symmetric_vec`, `generator_equivalent_vectors`, `generator_equivalent_vec`, `dodesymop`, `generator_symmetric_vec_0`, `translation`, `site_symmetry`, `coset`, `site_symmetry_and_coset`, `remove_overlaps`, `find_overlaps`, `similarity_obj`, `similarity_triangle`, `similarity_vec`, `similarity` |  |
| dode2/two_occupation_domains.py | `intersection`, `intersection_convex`, `subtraction` |  |
| dode2/utils.py | `shift_object`, `obj_area_6d`, `triangle_area_6d`, `triangle_area`, `remove_doubling`, `remove_doubling_in_perp_space`, `get_common_edges`, `generator_all_edges`, `generator_unique_edges`, `get_triangle_edge`, `generate_convex_hull`, `surface_cleaner`, `get_sets_of_coplanar_triangles`, `gen_border_edges_of_coplanar_triangles`, `equivalent`, `equivalent_triangles`, `equivalent_edges`, `equivalent_vertices`, `sort_vctors`, `sort_obj`, `decomposition`, `triangulation_points`, `remove_vectors`, `remove_vector`, `merge_two_triangles_in_obj`, `merge_two_triangles`, `check_connectivity_triangles`, `get_common_edge_in_two_triangles`, `two_segment_into_one`, `coplanar_check_two_triangles`, `middle_position` |  |
<!-- coverage -->

Further limits:

* Binary64 rounding: the quotients of the exact arithmetic are in `Model/Machine.lean`; the ico2 intersection with all
  its numerical tests is modelled a second time with rounding (`Model/Float.lean`, C83–C89), for every arithmetic
  accurate to one unit roundoff. Assumed of the libraries: the error bounds of `np.dot` and `np.linalg.det`, which
  `Rounding.float64` derives for summation in order and for elimination with partial pivoting from the accuracy of the
  elementary operations, `log` and `exp`. The dode2 intersection (`Model/DodeFloat.lean`) and the surfaces, outlines and
  border edges of both packages (`Model/FloatSurface.lean`, C104, C105) are modelled with rounding as well. The remaining
  numerical code (simplification, convex hulls, structure factors) is modelled over the real numbers only.
* Of `src_cython` are modelled: `strc` of dode/strc12.pyx with the window test and projections of
  dode/numericalc12.pyx that it calls, the projections and `lphason` of ico/reciprocal.pyx, and `add`, `sub`, `mul`, `div`
  of ico/math1.pyx, dode/math12.pyx and deca/math10.pyx. Everything else there is not modelled; some of it cannot run as it
  stands (ico/diffraction.py is not valid Python 3; `projection` of deca/math10.pyx calls an undefined function). `double` is modelled by the real numbers.
* A file is a list of lines; failures of `open` and the rest of the operating system are not modelled.
* `write_vesta` is a function parameter of the model of `write`.

## 2. Layout

* `Verif/Model/*` executable (or, for real-number code, mathematical) model, no theorems.
* `Verif/Spec/*` small independent vocabulary used in property statements: value of a triple,
  canonical form, perp/par matrices, determinant, convex hull.
* `Verif/Lemmas/*` helper lemmas.
* `Verif/Props/*` the property theorems, each with a non-vacuity `example`.
* `Verif/Audit.lean` `#print axioms`.

Central proof device: for θ the irrational (τ or √3/2) the values form a subfield `K θ ⊂ ℝ`, and
there is a unique canonical triple `norm x` for each `x : K θ`. Each scalar operation is proved to
be `op a b = ok (norm (val a ∘ val b))`. Every exact function of the library then becomes
`ok (norm (field expression))`, and the properties are field or linear-algebra identities.

## 3. Plan per property

| id | modelled | proof |
|---|---|---|
| C01-C03 | ico2 `add mul sub div` branch by branch with gcd normalisation and the two failure branches | number theory: irrationality of τ, gcd uniqueness |
| C04-C06 | dode2 versions | same with √3/2 |
| C07 | int64 wrap + binary64 rounding of the quotients `c/g` | bounds; kernel-evaluated witness for failure |
| C08-C10 | vector functions, products, `dot_product_1` both branches | fold lemmas; witness for the wrong matrix-matrix branch |
| C11-C13 | `mtrixcal projection projection3 projection_perp` and numerical versions | linear algebra over K; irrationality for C12 |
| C14 | `centroid centroid_obj` | fold lemmas |
| C15-C17 | `tetrahedron_volume(_6d) obj_volume_6d` | determinant identities, induction on lists |
| C18-C19 | `matrixpow icosasymop` | generators; `decide +kernel` on the whole table, lifted |
| C20-C22 | `symop_* generator_obj_symmetric_obj shift_object` | group action laws |
| C23-C24 | `remove_doubling*` with a model of `np.unique` | sorted-list lemmas |
| C25 | `equivalent_*` | counting lemmas on C24 |
| C26-C27 | surfaces, edges, unique edges/triangles | sorted-list neighbours lemma |
| C28-C30 | grouping, merging loop, removal | loop invariants, termination measure |
| C31-C36 | numerical predicates and exact intersection point | real geometry |
| C37-C38 | intersection drivers with geometric tests and Delaunay as oracles | loop invariants |
| C39-C40 | writer/reader at character level | parsing lemmas, induction |
| C41-C47 | dode2 symmetry, area, similarity, site symmetry, cosets, list helpers | as C18-C22; finite tables for cosets |
| C48 | `simplification` (ico2) | C64 + C63 show that the comparison of volumes always succeeds, so the result is the hull; negation for a non-convex object, `_partial` for convex ones |
| C49 | `coplanar_check_numeric` with arbitrary draws | real geometry; collinear case returns None: negation + `_partial` |
| C50-C51 | `tetrahedralization_points`, `subtraction_two_obj` with oracles | loop invariants |
| C52 | `matrixpow` | induction |
| C53 | `write` return codes | case analysis; documented codes violated: negation + `_partial` |
| C54 | `equivalent` on two objects | one-way containment; witness that it is not symmetric |
| C55-C56 | `gen_border_edges_of_coplanar_triangles`, `two_segment_into_one` (both packages) | list counting; betweenness over K |
| C57 | `intersection_two_obj_convex` | every corner is in both hulls; result of a library returning subsets of the given points |
| C58 | the general intersection, completeness | extreme points of the common part are corners, edge-face crossings or pass the tests (`Resolved`), then Krein-Milman |
| C59 | `tetrahedron_not_obj_1`, volumes of the difference | case analysis of every branch; witness for the running volume that is not reset |
| C60 | area test for a point on a triangle | equality case of the triangle area inequality plus a quantitative bound |
| C61 | volume lines of the files | character-level text, `%8.6f` is a function parameter |
| C62 | `tetrahedron_volume`, `obj_volume_6d` | Lebesgue measure of the order simplex, change of variables |
| C63 | intersection of two objects, volume | C58 + C38 + countable additivity on almost disjoint solids |
| C64 | `generate_convex_hull` (ico2) | C65 + Krein-Milman + C62 |
| C65 | `generate_border_edges` (ico2), `outline` (dode2) | an extreme corner has a supporting flag; the face and side at the flag occur once, survive every merge and keep the corner |
| C66 | dode2 `intersection_two_segment` and its numerical test | feet of the common perpendicular, Cramer over K; planar case |
| C67 | dode2 `inside_outside_triangle(_tau)` | area of a subtriangle = barycentric coordinate times area |
| C68 | dode2 `check_intersection_two_triangles`, `intersection_two_triangles`, `intersection_two_obj_1`, `intersection` | extreme points of the common part are corners or edge crossings, then Krein-Milman; loop invariants; totality |
| C69 | dode2 `obj_area_6d`, intersection | change of variables in the plane, additivity on almost disjoint triangles |
| C70 | dode2 `intersection_two_obj_convex` (first loop), `subtraction_two_obj`, `generate_border_edges` | evaluation up to the undefined name; C27 and C24 show that it is reached |
| C71 | dode2 `generate_convex_hull`, `simplification` | C65 + Krein-Milman + C69; C68 shows totality |
| C72 | `symmetric` of both packages as a group acting on perpendicular space | every point has a nearest image (finite group, mirrors of the walls), separation of the cones decided by the kernel on the integer matrices, measure theory |
| C73 | `asymmetric` on top of the intersection of two objects | C58/C63 for the cutting tetrahedron, C72 for the cone; resolution of the 120 pairs of the example by exact arithmetic in the kernel |
| C74 | `symmetric_0` and the generators of `symmetry.py` | blocks of the flattened list; orbit–stabiliser by counting fibres |
| C75 | `write_vesta` of both packages as a list of molecules (atoms, bond lines) | a bond line between numbered atoms draws exactly one pair, because atoms are distinct points |
| C76 | `obj2podatm`, `find_common_vertex` as records | induction over pieces; equality of points against equality of arrays |
| C77 | `write_podatm` as records | induction over the lists |
| C78 | `simple_hand_step1`, `simple_hand_step2` | C62 for each list, volumes added by C17 |
| C79 | adjacency of tetrahedra, common face, merging, and the dode2 versions | counting distinct perp corners (C24) and the union/intersection count |
| C80 | `sort_vctors` over any `argsort` that permutes and sorts | permutation of the row numbers; uniqueness of sorted lists |
| C81 | numerical volumes, areas, projections of sets, products | sums over pieces; C11, C15, C17, C43 |
| C82 | the helpers up to the statement that fails | the statements before it succeed on valid input |
| C83 | numerical conversions and distances over any arithmetic `Float64` accurate to one unit roundoff | error propagation (`Approx M k`: size at most M, error at most k units of M) |
| C84 | numerical volume; Gaussian elimination with partial pivoting and exp of the sum of logs | backward analysis of the two elimination steps; error of exp and log |
| C85, C86, C87 | the three geometric tests with rounding | C83 propagated to the compared quantities; a comparison with a margin is not changed |
| C88 | codes and intersection of two tetrahedra with rounding | C85–C87 make all decisions equal to those of C58 |
| C89 | `intersection` of objects with rounding, with the rough check | error of centroid distances; a common part that is not flat contains a ball of radius R/2^47, because its corners span more than the margin; C58 cover lemma |
| C90, C91 | linear functions, volumes and areas with int64 integers, floating-point quotients and rounded sign tests (`Model/MachineVec.lean`) | all intermediate numbers have a common denominator and bounded numerators (`OnGrid`), so every operation equals the exact one; the norm a²+ab−b² of a non-zero number is at least 1, so its sign survives rounding |
| C92–C96 | the numerical tests of dode2 with a rounding after every operation (`Model/DodeFloat.lean`), for every arithmetic with the accuracy of binary64 | error propagation as for ico2 (C83–C89): each compared quantity is off by less than the margin, so clear cases are decided as over the reals; the pieces are then those of the exact intersection. `C96_lost`: binary64 rounding of rationals is computed by `flq`, proved equal to `nearest`, and the tests of one pair are evaluated in the kernel |
| C97 | the conditions of C83–C89 for tetrahedra with exact coordinates, as integer computations (`Spec/GoldenRounded.lean`) | each computed comparison in ℤ[τ] is equivalent to the one over the reals; the floating-point tests then equal the computed ones |
| C98 | the ico2 intersection with rounded comparisons and int64 integers (`Model/MachineIntersect.lean`) | worst-case sizes of every intermediate numerator for the crossings; computed comparison of 64-bit and exact results for the other steps; evaluation of one pair in the kernel for the wrong volume |
| C99 | every prefix of the text of `write_xyz`, read by `read_xyz` | the number of vertices in the first line fixes how many lines are read; every cut before the last number lacks a field of some line; the last number is analysed digit by digit |
| C100 | `intersection_two_obj_convex` for convex objects of many tetrahedra | extreme points of the common part are surface corners of one object in the other or crossings of a surface edge with a surface face (a path from inside to outside leaves through an unshared face); convex bodies with a common interior point whose surfaces do not cross are nested; the hull of the collected points is the common part |
| C101 | `generator_surface_1` as a set of points | a boundary point is reached from outside through an unshared face; near a point inside an unshared face the other side is empty, since a tetrahedron covering it would have a face in the same plane with meeting inside |
| C102 | dode2 `outline` as a set of points | the cone over the plane figure turns sides of triangles into faces of tetrahedra, so the lemmas of C101 apply; joining segments keeps the points covered |
| C103 | `generate_border_edges` as a set of points | the surface is the boundary (C101); a disc of a plane inside the boundary belongs to the triangles of that plane, since the others meet the plane in nowhere dense sets; then as C102 plane by plane |
| C104 | `generator_surface_1` with rounding (`Model/FloatSurface.lean`) | stored centroids of faces with the same corners are equal, those of other faces are further apart than the tolerance plus the error; hence the neighbour test finds exactly the pairs. With two names for a corner the stored centroids differ in the last digit and a third face can come between them: computed for binary64 with rational numbers |
| C105 | `outline` and `generate_border_edges` with rounding | error bounds for the coplanarity test, the segment test and the stored midpoints; then the sets of joined segments are those of C102 and C103 |
| C106 | `intersection`, `volume`, `symop_obj`, `shift` as in C58 and C63 | C63 gives volume and points of one call; symmetry operations and shifts are rigid motions, under which every condition of `Resolved` is invariant (`Lemmas/Motion.lean`) |
| C107 | `intersection` after or before `symmetric` | the cone over the asymmetric unit is a fundamental domain (C72), so unions of its images commute with intersections up to volume zero (`Lemmas/Sweep.lean`) |
| C108 | the dode2 intersection with rounded comparisons and int64 integers (`Model/MachinePlanar.lean`) | the 64-bit and the exact computation are shown equal step by step from the computed comparison; C96 gives the geometry |
| C109 | the hypotheses of C95, C96 and C108 on flat objects, as computable tests (`Spec/Surd.lean`) | values of exact surds: sign of a + b√3 by squaring; each inequality of `ResolvedTriRounded` is shown equivalent to its test |
| C110 | `intersection_two_tetrahedron_4` and the coplanarity check on touching pieces, exact and rounded; width of contact as a computable test (`Spec/Returns.lean`, `Spec/GoldenWide.lean`) | every collected point is an extreme point of the common part; a flat common part puts all of them in one plane; computed corners = extreme points; negation for narrow contacts by a witness |
| C111 | `intersection_two_triangles` on touching triangles and `intersection` of flat objects, exact, rounded and with 64-bit integers | every collected point is an extreme point of the common part; a convex set without interior in the plane has at most two extreme points |
| C112 | `intersection` of ico2 and dode2 with rounded tests, `obj_volume_6d` and `obj_area_6d` of the result | the additivity argument of C62 and C69 for arbitrary tests that are right up to null sets; pieces of a tiling of the corners do not overlap; equal exact volume for the kinds holds for arbitrary tests |
| C113 | `generate_convex_hull` and `simplification` of ico2 and dode2 with a rounding after every floating-point operation | the extreme corners survive the cleaning (C105), a tiling answer for the rounded points extends to a tiling library so that C62 and C69 apply, and C112 gives the volume of the intersection |
| C114 | `intersection` of ico2 and dode2 with a rounding after every floating-point operation, `shift`, the symmetry operations and the exact volume | each run has the exact volume of the common part and covers it up to volume zero (C112), so two runs are compared through the common part; equal volumes give equal triples because exact results are in lowest terms |
| C115 | `site_symmetry`, `coset`, `site_symmetry_and_coset` and `length_numerical` of dode2 with a rounding after every floating-point operation; the sum of six squares of `np.linalg.norm` has an error bound only, met by plain summation | the differences tested are canonical triples whose denominator divides that of the site, so each coordinate has an error below 1e-12; the length of a non-zero rational difference is at least 1/999990 |
| C116 | `asymmetric` of ico2 with the intersection of Model/Float.lean, that is with a rounding after every floating-point operation | the tetrahedron built from the position and the vectors is in lowest terms, so it is the one of the specification; then C89, C110 and C112 for the intersection, and the lemmas of C73 on the common part |
| C117 | `simplification` of both packages, exact and rounded, with the hull and the intersection as they are modelled for C113 | case distinction over the outcomes of the steps, once for all four models; the outcomes are listed in Spec/SimplifyOutcome.lean |
| C118 | `strc` of the Cython package dode (`Model/Legacy.lean`) | membership in nested loops; the area defect of a point in the plane of a triangle is the area times the excess of the sum of absolute barycentric coordinates; the product of a parallel and the conjugate perpendicular coordinate is a quarter of a nonzero integer |
| C119 | the projections of ico/reciprocal.pyx | polynomial identities modulo τ² = τ + 1; irrationality of τ |
| C120 | `add`, `sub`, `mul`, `div` of the three Cython packages | the same numerators and denominator reach the same reduction; for `sub` both are the canonical triple of the difference (C01, C04) |

Hypotheses that stand for code outside this package:

* `FillsHull d`: the tetrahedra returned by the Delaunay library cover the convex hull of the given
  points. `TilesHull d`: moreover their interiors are pairwise disjoint. That a function with these
  properties exists is proved (`exists_tiles`), so the hypotheses are not contradictory.
* `Resolved p o1 o2`: the coordinates of the two objects are not so small that the constant
  `EPS` decides a geometric test wrongly. `C58_grid` gives a class of objects for which it is proved, and
  `C58_decidable` shows that `resolvedTest` (Spec/Golden.lean, integer arithmetic only) decides it.
* `WellFormed o`, `Sharp o`, `SharpTriangles p o` (Spec/Hull.lean): non-degenerate pieces that do not
  overlap, fit face to face, and whose corners are further apart than the tolerances of the code.
  `sharp_grid` and `sharpTriangles_grid` reduce them to integer checks for corners on a grid.
* `FillsHull2`, `TilesHull2`, `ResolvedTri`, `Level z o` (Spec/Planar.lean): the planar counterparts for
  dode2; `Level` says that all corners have the same third perp coordinate. `exists_tiles2` proves that
  the library hypothesis can be met, `C68_grid` gives a class of resolved triangles.

## 4. Where the code disagrees with what a user would expect

Each item is proved with a concrete witness or for all inputs of a class (theorem prefix in
brackets); the corresponding property is `partial` in MANIFEST.json or its statement says so.

* [C07] Beyond about 2^53 the quotients go through binary64 and the result is wrong.
* [C08] `mul_vectors` returns `None` for a 4-dimensional array.
* [C10] The matrix-matrix branch of `dot_product_1` does not compute the matrix product.
* [C25] Degenerate (repeated-corner) edges can be declared equivalent to different edges.
* [C26] Surface triangles with close centroids are lost; an empty object raises `IndexError`.
* [C27] Two crossing diagonals with the same midpoint: one of the edges is lost.
* [C30] If every piece is to be removed, the input is returned unchanged.
* [C32] `inside_outside_obj` answers the opposite of the tetrahedron test.
* [C36] Very small overlapping tetrahedra are classified as disjoint.
* [C40] Files of edges written by `dode2` cannot be read back.
* [C45, C46] Site symmetry and cosets fail for sites that are not in reduced form.
* [C48] `simplification` replaces an object that is not convex by its convex hull, which is larger.
* [C49] The coplanarity verdict depends on the random draws and can be `None`.
* [C51, C59] Subtraction: a disjoint piece raises `AttributeError`, two or more corners outside
  `NameError`, all corners inside give `None`; the running volume is not reset between pieces.
* [C53] Success status 0 is returned in cases where no file is written.
* [C54] `equivalent` is not symmetric.
* [C55] An empty border raises `ValueError`.
* [C57] Convex objects that cross without a corner of one in the other raise `UnboundLocalError`.
* [C60] Points up to about 5e-4 off the plane are accepted by the area test.
* [C61] Each piece line of a file shows the volume of the last piece.
* [C66] Crossing segments of dode2 whose directions span an area below 1e-3 are reported as not crossing.
* [C68] dode2 `intersection_two_triangles` raises `UnboundLocalError` when no edges cross.
* [C70] dode2 `intersection_convex`, `subtraction` and `generate_border_edges` use undefined names and raise
  for every non-empty input.
* [C71] dode2 `simplification` replaces an object that is not convex by its convex hull.
- C74: `generator_obj_symmetric_tetrahedron_specific_symop` and its dode2 counterpart read the undefined name
  `index_of_symmetry_operation` and raise NameError for every piece and object. `generator_equivalent_vectors` hands over
  a function instead of its result and raises AttributeError on every call. Proved as `C74_broken`.
- C75: in ico2 the condition `select=='simple' or 'egdes'` is always true, so for tetrahedra only the edge between the
  first two corners of each piece is drawn (`C75_fails_tetrahedron`), and 'podatm' does not return the vertices.
  'simple' raises AttributeError in both packages, 'podatm' in dode2 (`C75_broken`). The default of dode2 leaves out
  edges longer than 10 (`C75_fails_long_edge`).
- C76: the number after `nth=` is that of the vertices, not of the tetrahedra (`C76_fails_count`); vertices are written
  with absolute coordinates; indices are lost when one point is stored as two arrays (`C76_fails_arrays`).
- C77: the documented argument, an array, raises ValueError (`C77_fails_array`); the call sequence of examples 4 and 5
  raises TypeError (`C77_fails_example`).
- C78: `simple_hand_step1` raises TypeError on every non-empty object (`C78_fails_step1`), `simple_hand_step2` of dode2
  AttributeError on every valid input (`C78_fails_dode`); the number 0 silently means the last vertex.
- C79: `merge_two_tetrahedra` of ico2 never returns a tetrahedron and raises TypeError on pieces that could be merged
  (`C79_fails_merge`, `C79_fails_mergeable`); the dode2 adjacency test stacks the first triangle on itself and always
  answers False (`C79_fails_dode`); the versions for objects return the object unchanged (`C79_fails_obj`).
- C80: `sort_obj` raises NameError on every object (`C80_fails_sort_obj`).
- C82: the helpers listed there raise or return None on every valid input.
- C90, C91: int64 wrap-around. A shift can land on the other side of the origin (`C90_wrap`); the volume of a tetrahedron
  with coordinates of size 2^21 is computed as 0 (`C91_wrap`).
- C96: the crossing test of dode2 compares the parameters with 0 and 1 without a tolerance, so a crossing at a corner is
  decided by rounding. If two triangles overlap and all crossings of their edges are at corners, `intersection` can return
  None (`C96_lost`, with coordinates in thirds). The ico2 test has a tolerance there.

- C98: `volume` of an intersection. The common part of two tetrahedra with coordinates -1, 0 and 1 has corners with
  denominators 61, 229 and 779. The product of these denominators overflows 64 bits in the triple product, so `volume` reports more than 1
  for a piece of volume below 1/1000 (`C98_volume_wrong`). No exception is raised.

- C99: `read_xyz` removes the last character of every line. When the last newline of a file is missing, the last digit of the
  last denominator is lost: 1/10 is read as 1 without any notice (`C99_missing_newline`, `C99_misread`).

- C100: two convex objects with a common interior point, neither containing the other, one of which has no surface corner in the
  other, raise `UnboundLocalError` instead of giving the common part (`C100_outcome`, `C100_stuck`).

- C101: for tetrahedra that do not overlap but do not fit face to face, the surface contains triangles whose points are inside the
  object (`C101_not_fitting`).

- C103: tetrahedra that do not overlap but meet in parts of their faces can have a plane in which every edge of the surface
  belongs to two faces. Then `generate_border_edges`, `generate_convex_hull` and `simplification` raise ValueError, for one
  tetrahedron above three (`C103_not_fitting`, `C103_not_fitting_hull`).
- C102: where two triangles meet a third along one edge the outline contains points inside the object (`C102_not_fitting`); with
  unlucky random draws it contains inner edges even if all triangles fit (`C102_unlucky`).

- C104: with one 6D vector for each corner the rounded surface is the boundary; two vectors with the same perp components for one
  corner can leave an inner face in the surface (`C104_two_names`). The neighbour test of `generator_surface_1` looks only at the
  next entries of a list sorted by floating-point numbers.

- C118: the tolerance of the Cython window test is an absolute area, so a triangle with three equal corners accepts every point
  (`C118_fails_degenerate`); the relative tolerance is commented out (dode/numericalc12.pyx:341).
- C119: `projection_qperp_ico_csg` has a wrong sign in the third component (`C119_fails_csg`, `C119_csg_length`); `lphason` uses
  wrong entries in its second and third rows (`C119_fails_phason`).
- C120: the decagonal package computes with √3 (`C120_fails_decagonal`).

## 5. Testing the theorems with wrong programs

`seeded/LOG.jsonl` records the edits made to scratch copies of the model, the theorems whose proofs
failed and those that were tightened as a result.
For the rows L01–L18 only the property file of the claim was compiled; `theorems_failed` there names the theorems of that file
that fail or rest on a failed lemma. The edit of L17 changes a branch that is never reached, so that program is equivalent.
