{"id": "C01", "title": "Exact icosahedral scalar addition, subtraction and multiplication", "statement": "ico2 math1.add, sub and mul applied to two TAU-style numbers with non-zero denominators never raise; they return a triple (a,b,c) whose real value (a+b*tau)/c is exactly the sum, difference or product of the two input values, in lowest terms (gcd(a,b,c)=1) and with c>0. They raise only when all three unnormalised components vanish, which needs a zero denominator.", "quantifier": "all pairs of integer triples with non-zero third component (mathematical integers); the raising case over all integer triples", "why_tests_cant": "The claim ranges over infinitely many triples including negative and non-reduced denominators; the repository's tests sample values below 10.", "anchors": ["src/pyqcstrc/ico2/math1.py: add, mul, sub"]}
{"id": "C02", "title": "Exact icosahedral scalar division", "statement": "ico2 math1.div(x,y), for operands with non-zero denominators, returns None exactly when y has value zero, and otherwise returns the canonical triple whose value is exactly x/y. In particular no non-zero divisor is ever mistaken for zero and the result never has a zero denominator.", "quantifier": "all pairs of integer triples with non-zero denominators", "why_tests_cant": "The generic branch divides by the norm form b0^2+b0*b1-b1^2, which vanishes for no non-zero integers only because sqrt 5 is irrational; no sample of inputs shows that.", "anchors": ["src/pyqcstrc/ico2/math1.py: div"]}
{"id": "C03", "title": "Icosahedral results are canonical: array equality is value equality", "statement": "Any two TAU-style results produced by add, sub, mul or non-None div are equal as integer arrays if and only if they are equal as real numbers. So the library's np.all(a==b) comparisons of computed volumes and coordinates are exact tests of real equality.", "quantifier": "all pairs of results of scalar operations on operands with non-zero denominators", "why_tests_cant": "It needs uniqueness of the lowest-terms representation over all integers, which rests on the irrationality of the golden ratio.", "anchors": ["src/pyqcstrc/ico2/math1.py: add, mul, sub, div", "src/pyqcstrc/ico2/utils.py: equivalent_vertices", "src/pyqcstrc/ico2/intsct.py: intersection_two_obj_1"]}
{"id": "C04", "title": "Exact dodecagonal scalar addition, subtraction and multiplication", "statement": "dode2 math1.add, sub and mul on numbers (a+b*sqrt(3)/2)/c with non-zero denominators never raise and return the canonical (lowest terms, positive denominator) triple whose value is exactly the sum, difference or product.", "quantifier": "all pairs of integer triples with non-zero third component", "why_tests_cant": "Infinite input domain with sign and reduction cases.", "anchors": ["src/pyqcstrc/dode2/math1.py: add, mul, sub"]}
{"id": "C05", "title": "Exact dodecagonal scalar division", "statement": "dode2 math1.div(x,y), for operands with non-zero denominators, returns None exactly when y has value zero and otherwise the canonical triple of value x/y; the branch guarding 4*b0^2-3*b1^2=0 is never taken for non-zero b.", "quantifier": "all pairs of integer triples with non-zero denominators", "why_tests_cant": "Absence of a failing divisor rests on the irrationality of sqrt 3 over all integers.", "anchors": ["src/pyqcstrc/dode2/math1.py: div"]}
{"id": "C06", "title": "Dodecagonal results are canonical: array equality is value equality", "statement": "Any two results of the dode2 scalar operations are equal as integer arrays iff they are equal as real numbers.", "quantifier": "all pairs of results of dode2 scalar operations on operands with non-zero denominators", "why_tests_cant": "Uniqueness of representation over all integers.", "anchors": ["src/pyqcstrc/dode2/math1.py: add, mul, sub, div"]}
{"id": "C07", "title": "Machine arithmetic agrees with exact arithmetic inside a safe range, and not beyond", "statement": "With numpy int64 products and float64 division by the gcd, ico2 and dode2 add, sub and mul return exactly the mathematical result whenever every input component is at most 2^25 in absolute value, and div whenever it is at most 2^16; there are int64 inputs outside the range for which the returned triple is wrong.", "quantifier": "all int64 triples within the bound; existence of a failing triple outside it", "why_tests_cant": "The bound is a statement about every value in a 2^26-wide six-dimensional box; failures only occur at magnitudes tests never reach.", "anchors": ["src/pyqcstrc/ico2/math1.py: add, sub, mul, div", "src/pyqcstrc/dode2/math1.py: add, sub, mul, div"]}
{"id": "C08", "title": "Vector operations are exact and componentwise", "statement": "add_vectors, sub_vectors and mul_vector return, in every component, the canonical exact sum, difference or scalar multiple; subtracting what was added gives back the canonical form of the original vector, addition is commutative and associative as arrays. sub_vectors on sets of vectors works row by row over the first set: further rows of the second are ignored, a shorter second set raises IndexError. Arrays with the wrong number of dimensions are refused with None.", "quantifier": "all vectors of any length with non-zero denominators and all scalars with non-zero denominators", "why_tests_cant": "Universally quantified algebraic laws.", "anchors": ["src/pyqcstrc/ico2/math1.py: add_vectors, sub_vectors, mul_vector, mul_vectors", "src/pyqcstrc/dode2/math1.py: add_vectors, sub_vectors, mul_vector"]}
{"id": "C09", "title": "Inner and outer products are exact; the outer product is orthogonal to its factors", "statement": "inner_product returns the exact canonical sum of products of components (None when lengths differ); outer_product returns the exact cross product, whose inner product with either factor is exactly [0,0,1], which changes sign when the factors are swapped, and which is zero for parallel vectors.", "quantifier": "all vectors with non-zero denominators", "why_tests_cant": "Algebraic laws over an infinite domain.", "anchors": ["src/pyqcstrc/ico2/math1.py: inner_product, outer_product, dot_product", "src/pyqcstrc/dode2/math1.py: inner_product, outer_product"]}
{"id": "C10", "title": "Integer matrix times vector is exact; integer matrix times matrix should be too", "statement": "dot_product_1(M,v), for an integer matrix M and a vector v, returns the exact canonical matrix-vector product. dot_product_1(M,N) for an integer matrix and a matrix of TAU-style numbers returns the exact matrix product.", "quantifier": "all integer matrices and all vectors or matrices with non-zero denominators", "why_tests_cant": "All matrices cannot be sampled; the second branch is not exercised by the library's own tests.", "anchors": ["src/pyqcstrc/ico2/math1.py: dot_product_1", "src/pyqcstrc/dode2/math1.py: dot_product_1"]}
{"id": "C11", "title": "Projections are exact, linear and consistent between functions", "statement": "projection3(v) is exactly the perp part returned by projection(v); both are linear in v (as arrays, up to canonical form) and their real values equal the formulas used by projection_numerical and projection3_numerical applied to the real values of v. Hence exact and numerical code see the same point of perpendicular space. The same holds for the dodecagonal package.", "quantifier": "all 6D vectors with non-zero denominators", "why_tests_cant": "Exact agreement of two independently written formulas for all inputs.", "anchors": ["src/pyqcstrc/ico2/math1.py: projection, projection3, mtrixcal", "src/pyqcstrc/ico2/numericalc.py: projection_numerical, projection3_numerical, get_internal_component_numerical", "src/pyqcstrc/dode2/math1.py: projection, projection3", "src/pyqcstrc/dode2/numericalc.py: projection_numerical, projection3_numerical"]}
{"id": "C12", "title": "Lattice points are determined by their perpendicular-space image", "statement": "If two 6D vectors have rational components (second integer zero), equality of their projection3 arrays implies that all six components are equal in value. So removing duplicates in perpendicular space never merges two different icosahedral lattice points.", "quantifier": "all pairs of 6D vectors with rational components and non-zero denominators", "why_tests_cant": "Rests on irrationality of the golden ratio; infinitely many pairs.", "anchors": ["src/pyqcstrc/ico2/math1.py: projection3", "src/pyqcstrc/ico2/utils.py: remove_doubling_in_perp_space, equivalent_vertices"]}
{"id": "C13", "title": "projection_perp is the projector onto perpendicular space", "statement": "projection_perp(v) has the same perp image as v and zero parallel image, applying it twice gives the same array as applying it once, and it is linear.", "quantifier": "all 6D vectors with non-zero denominators", "why_tests_cant": "Universally quantified algebraic identity over a table of 36 constants.", "anchors": ["src/pyqcstrc/ico2/math1.py: projection_perp, projection"]}
{"id": "C14", "title": "Centroids are exact means", "statement": "centroid of a non-empty list of n vertices is, componentwise, the canonical exact mean; it does not depend on the order of the vertices, moves with the vertices under shifts, and lies in their convex hull in perpendicular space. centroid_obj is the mean of the centroids of the pieces.", "quantifier": "all non-empty vertex lists of any length, all vertex orders, all shifts", "why_tests_cant": "Arbitrary list lengths and orders.", "anchors": ["src/pyqcstrc/ico2/math1.py: centroid, centroid_obj", "src/pyqcstrc/dode2/math1.py: centroid, centroid_obj"]}
{"id": "C15", "title": "Tetrahedron volume is exact and non-negative", "statement": "tetrahedron_volume_6d(t) is the canonical exact value of |det(v1-v0,v2-v0,v3-v0)|/6 of the perpendicular-space vertices; it is never negative, is zero exactly when the vertices are coplanar, and has the same real value as tetrahedron_volume_6d_numerical.", "quantifier": "all tetrahedra with non-zero denominators", "why_tests_cant": "Exactness and sign handling over all inputs.", "anchors": ["src/pyqcstrc/ico2/utils.py: tetrahedron_volume, tetrahedron_volume_6d", "src/pyqcstrc/ico2/numericalc.py: tetrahedron_volume_numerical"]}
{"id": "C16", "title": "Tetrahedron volume is a geometric invariant", "statement": "tetrahedron_volume_6d returns the same array after any permutation of the four vertices, any shift by a 6D vector and any of the 120 icosahedral operations about any centre.", "quantifier": "all tetrahedra, all 24 vertex orders, all shifts, all centres, all 120 operations", "why_tests_cant": "Infinite families of transformations.", "anchors": ["src/pyqcstrc/ico2/utils.py: tetrahedron_volume_6d, shift_object", "src/pyqcstrc/ico2/symmetry.py: symop_vecs, icosasymop"]}
{"id": "C17", "title": "Object volume is additive and order independent", "statement": "obj_volume_6d of a list of tetrahedra is the exact sum of the volumes of its pieces: zero for the empty list, additive under concatenation, unchanged by reordering the pieces, equal for the nested (ndim 5) form and its flattening, and None only for other dimensions.", "quantifier": "all objects of any number of tetrahedra, all reorderings and splittings", "why_tests_cant": "Unbounded number of pieces and orders.", "anchors": ["src/pyqcstrc/ico2/utils.py: obj_volume_6d", "src/pyqcstrc/ico2/occupation_domain.py: volume"]}
{"id": "C18", "title": "icosasymop returns the icosahedral group m-3-5", "statement": "icosasymop returns 120 pairwise distinct integer signed-permutation matrices containing the identity, closed under matrix product and inverse (transpose); all have determinant +1 or -1 and inversion is among them.", "quantifier": "all members and all ordered pairs of members of the returned list (14400 products), hence all finite products of members", "why_tests_cant": "Closure must hold for every word in the operations, not just for sampled pairs.", "anchors": ["src/pyqcstrc/ico2/symmetry.py: icosasymop", "src/pyqcstrc/ico2/math1.py: matrixpow"]}
{"id": "C19", "title": "Icosahedral operations act as isometries of perpendicular and of parallel space", "statement": "For every op returned by icosasymop there are orthogonal 3x3 maps R and S such that for all v the perp part of op*v is R applied to the perp part of v and the parallel part is S applied to the parallel part. So distances, areas and volumes in perp space are preserved.", "quantifier": "all 120 operations, all 6D vectors", "why_tests_cant": "All vectors and all operations at once.", "anchors": ["src/pyqcstrc/ico2/symmetry.py: icosasymop, symop_vec", "src/pyqcstrc/ico2/math1.py: projection, dot_product_1"]}
{"id": "C20", "title": "Applying symmetry operations about a centre is a group action", "statement": "symop_vec/symop_vecs/symop_obj about a fixed centre: the identity matrix returns the canonical form of the input, applying op2 then op1 equals applying the product matrix op1*op2, the centre is mapped to itself, and applying op and then its inverse restores the input. symop_obj accepts a vector, a piece or an object, keeps its shape and applies the operation to every vector of it.", "quantifier": "all integer 6x6 matrices (in particular all 120 operations), all vectors, lists and objects, all centres", "why_tests_cant": "Composition laws over infinite domains.", "anchors": ["src/pyqcstrc/ico2/symmetry.py: symop_vec, symop_vecs, symop_obj", "src/pyqcstrc/dode2/symmetry.py: symop_vec"]}
{"id": "C21", "title": "Symmetrised objects are orbit-closed with 120 times the volume", "statement": "symmetric(obj,centre) has exactly 120 pieces per input piece, total volume exactly 120 times volume(obj), contains the canonical form of each input piece, and is mapped to itself as a set by every icosahedral operation about the centre.", "quantifier": "all objects of any size, all centres, all 120 operations", "why_tests_cant": "Unbounded objects; orbit closure needs the group law.", "anchors": ["src/pyqcstrc/ico2/occupation_domain.py: symmetric", "src/pyqcstrc/ico2/symmetry.py: generator_obj_symmetric_obj"]}
{"id": "C22", "title": "shift is an exact translation action", "statement": "shift(obj,t) adds t exactly to every vertex of every piece, keeps the number of pieces and their order, shift by t then by -t restores the canonical object, successive shifts compose to the shift by the sum, the volume is unchanged, and objects that are not 4-dimensional arrays are refused with None.", "quantifier": "all objects of any size, all pairs of shifts", "why_tests_cant": "Unbounded objects and composition law.", "anchors": ["src/pyqcstrc/ico2/utils.py: shift_object", "src/pyqcstrc/ico2/occupation_domain.py: shift", "src/pyqcstrc/dode2/utils.py: shift_object"]}
{"id": "C23", "title": "remove_doubling keeps exactly the distinct vectors", "statement": "remove_doubling returns the distinct rows of its input in strictly increasing lexicographic order: same set of vectors, no repetition, independent of the order and multiplicity of the input, idempotent, and unchanged when the input is nested one level deeper.", "quantifier": "all lists of 6D vectors of any length, all reorderings", "why_tests_cant": "Arbitrary length, order and multiplicity.", "anchors": ["src/pyqcstrc/ico2/utils.py: remove_doubling", "src/pyqcstrc/dode2/utils.py: remove_doubling"]}
{"id": "C24", "title": "remove_doubling_in_perp_space keeps exactly one vector per perpendicular-space point", "statement": "Every output vector is one of the inputs, no two outputs have the same perp image, every input has the same perp image as exactly one output, the output is independent of input order and multiplicity, and running it again changes nothing.", "quantifier": "all lists of 6D vectors with non-zero denominators, of any length and order", "why_tests_cant": "Arbitrary length, order and multiplicity; representative choice must be deterministic.", "anchors": ["src/pyqcstrc/ico2/utils.py: remove_doubling_in_perp_space", "src/pyqcstrc/dode2/utils.py: remove_doubling_in_perp_space"]}
{"id": "C25", "title": "Equivalence of vertices, edges, triangles and tetrahedra is equality of vertex sets", "statement": "equivalent_vertices is equality of perp points. For pieces with pairwise distinct perp vertices, equivalent_edges, equivalent_triangles and equivalent_tetrahedra are true exactly when the two pieces have the same set of perp vertices, and are therefore reflexive, symmetric and transitive on such pieces.", "quantifier": "all pairs (triples) of pieces with non-zero denominators and distinct vertices; a degenerate counterexample shows the guard is needed", "why_tests_cant": "Equivalence-relation laws over all pieces.", "anchors": ["src/pyqcstrc/ico2/utils.py: equivalent_vertices, equivalent_edges, equivalent_triangles, equivalent_tetrahedra"]}
{"id": "C26", "title": "The surface of an object is the set of its unpaired faces", "statement": "For an object of two or more tetrahedra generator_surface_1 returns exactly the faces whose perpendicular-space centroid is shared by no other face of the object, each once; for a single tetrahedron it returns all four faces. So a face shared by two tetrahedra never appears.", "quantifier": "all objects of any number of tetrahedra", "why_tests_cant": "Unbounded objects and all sort orders.", "anchors": ["src/pyqcstrc/ico2/utils.py: generator_surface_1, get_tetrahedron_surface"]}
{"id": "C27", "title": "Edges and triangles are deduplicated by centroid", "statement": "generator_unique_edges and generator_unique_triangles return a subset of the object's edges (faces) with one representative for each distinct perpendicular-space centroid; generator_all_edges returns exactly 3 edges per triangle and 6 per tetrahedron and refuses other pieces with None.", "quantifier": "all objects of any size", "why_tests_cant": "Unbounded objects.", "anchors": ["src/pyqcstrc/ico2/utils.py: generator_unique_edges, generator_unique_triangles, generator_all_edges, get_triangle_edge, get_tetrahedron_edge"]}
{"id": "C28", "title": "Grouping coplanar triangles is a partition", "statement": "get_sets_of_coplanar_triangles splits a non-empty surface into non-empty groups whose concatenation is a reordering of the input: no triangle is lost or duplicated; every triangle of a group was judged coplanar with the group's first triangle, and no two group leaders were judged coplanar.", "quantifier": "all non-empty triangle lists and every outcome of the coplanarity test, including its random choices", "why_tests_cant": "Unbounded lists and nondeterministic predicate.", "anchors": ["src/pyqcstrc/ico2/utils.py: get_sets_of_coplanar_triangles, coplanar_check_two_triangles", "src/pyqcstrc/dode2/utils.py: get_sets_of_coplanar_triangles"]}
{"id": "C29", "title": "Merging collinear border edges terminates and stops only when nothing can be merged", "statement": "The merging loop of surface_cleaner always terminates, after at most n-1 merges for n edges; on exit no two remaining edges can be merged, and every remaining edge joins end points that occur in the input edges.", "quantifier": "all edge lists of any length and every behaviour of the pairwise merge test", "why_tests_cant": "Termination is not testable.", "anchors": ["src/pyqcstrc/ico2/utils.py: surface_cleaner, two_segment_into_one", "src/pyqcstrc/dode2/utils.py: surface_cleaner"]}
{"id": "C30", "title": "remove_vectors removes exactly the listed vectors", "statement": "remove_vectors(A,B) returns the elements of A that do not occur in B, in order, and remove_vector(A,v) the elements of A different from v.", "quantifier": "all lists of vectors of any length", "why_tests_cant": "Arbitrary lists; the all-removed corner case is easy to miss.", "anchors": ["src/pyqcstrc/ico2/utils.py: remove_vectors, remove_vector", "src/pyqcstrc/dode2/utils.py: remove_vectors, remove_vector"]}
{"id": "C31", "title": "point_on_segment accepts exactly the points of the segment, up to tolerance", "statement": "In real arithmetic, point_on_segment accepts every perp-space point of a non-degenerate segment, and every accepted point is at distance at most the segment length from the first end and satisfies |PA.BA - |PA||BA|| < 1e-6; with tolerance zero acceptance would be exactly membership.", "quantifier": "all points and segments with non-zero denominators", "why_tests_cant": "Continuum of positions.", "anchors": ["src/pyqcstrc/ico2/numericalc.py: point_on_segment"]}
{"id": "C32", "title": "Point-in-tetrahedron test is complete, and sound up to the stated tolerance", "statement": "In real arithmetic, inside_outside_tetrahedron accepts every point of the closed non-degenerate tetrahedron; every accepted point has all four barycentric coordinates greater than -EPS/2; a degenerate tetrahedron accepts no point. So a point deeper than the tolerance outside is never accepted.", "quantifier": "all points and all tetrahedra of real 3-space", "why_tests_cant": "Continuum of inputs; soundness is about all points outside.", "anchors": ["src/pyqcstrc/ico2/numericalc.py: inside_outside_tetrahedron, inside_outside_tetrahedron_tau, tetrahedron_volume_numerical"]}
{"id": "C33", "title": "Segment-triangle test is correct up to tolerance for non-parallel pairs", "statement": "In real arithmetic, when the segment direction and triangle satisfy |P.CD| >= EPS, check_intersection_segment_surface_numerical returns True exactly when the line meets the plane of the triangle at parameters t in [-EPS,1+EPS], u in [-EPS,1+EPS], v >= -EPS, u+v <= 1+EPS; in particular every genuine intersection is reported. When |P.CD| < EPS it always returns False.", "quantifier": "all segments and triangles of real 3-space", "why_tests_cant": "Continuum of inputs.", "anchors": ["src/pyqcstrc/ico2/numericalc.py: check_intersection_segment_surface_numerical"]}
{"id": "C34", "title": "The exact segment-triangle intersection point lies on both", "statement": "If intersection_segment_surface returns a point, its perp image is exactly A+t(B-A) on the segment's line and exactly C+u(D-C)+v(E-C) in the triangle's plane for the same t,u,v that the numerical test accepted; it never fails with a division error once the test has accepted.", "quantifier": "all segments and triangles with non-zero denominators", "why_tests_cant": "Exact incidence for all inputs.", "anchors": ["src/pyqcstrc/ico2/intsct.py: intersection_segment_surface", "src/pyqcstrc/ico2/numericalc.py: check_intersection_segment_surface_numerical"]}
{"id": "C35", "title": "The rough bounding-ball rejection never discards an overlapping piece", "statement": "If a point of perpendicular space lies in the tetrahedron and within the given distance of the given centre, rough_check_intersection_tetrahedron_obj returns True. With centre and radius computed from an object by centroid_obj and ball_radius_obj, a tetrahedron sharing any point with any tetrahedron of the object is never rejected.", "quantifier": "all tetrahedra, all objects, all common points", "why_tests_cant": "A false negative is a measure-zero event in sampling and would silently lose volume.", "anchors": ["src/pyqcstrc/ico2/intsct.py: ball_radius_obj, ball_radius, distance_in_perp_space, rough_check_intersection_tetrahedron_obj, intersection_two_obj_1"]}
{"id": "C36", "title": "Tetrahedron-pair classification codes mean what they say", "statement": "check_intersection_two_tetrahedron_4 returns 1 exactly when all four vertices of the first tetrahedron pass the inside test of the second, 2 exactly when not 1 and the converse holds, 3 exactly when neither and some edge of one hits a face of the other, else 0. Code 1 implies every point of the first is in the second up to tolerance.", "quantifier": "all pairs of tetrahedra", "why_tests_cant": "Continuum of configurations.", "anchors": ["src/pyqcstrc/ico2/intsct.py: check_intersection_two_tetrahedron_4"]}
{"id": "C37", "title": "'simple' and 'standard' intersections have the same volume", "statement": "For the same two objects, intersection with kind 'simple' and with kind 'standard' return objects of exactly equal volume, or both return None.", "quantifier": "all pairs of objects and every outcome of the geometric tests and of the tetrahedralisation", "why_tests_cant": "Must hold whatever the geometric predicates and Delaunay return.", "anchors": ["src/pyqcstrc/ico2/two_occupation_domains.py: intersection", "src/pyqcstrc/ico2/intsct.py: intersection_two_obj_1"]}
{"id": "C38", "title": "Intersection pieces lie inside both operands", "statement": "Every vertex of every tetrahedron returned for the intersection of two tetrahedra is, in perpendicular space, inside both tetrahedra up to the numerical tolerance (or is an exact edge/face crossing of the two).", "quantifier": "all pairs of tetrahedra and every behaviour of the tetrahedralisation", "why_tests_cant": "Continuum of configurations.", "anchors": ["src/pyqcstrc/ico2/intsct.py: intersection_two_tetrahedron_4, intersection_segment_surface"]}
{"id": "C39", "title": "Icosahedral .xyz files round-trip exactly", "statement": "For a non-empty object of tetrahedra, read_xyz of the file produced by write_xyz (select 'tetrahedron') returns exactly the same integer array, whatever the coordinates printed in floating point; reading the same file as vertices returns the flattened vertex list.", "quantifier": "all non-empty objects, all integers of any sign and number of digits, all file names without a newline", "why_tests_cant": "Encode/decode over unbounded objects and integers; column alignment depends on piece indices.", "anchors": ["src/pyqcstrc/ico2/occupation_domain.py: write_xyz, read_xyz"]}
{"id": "C40", "title": "Dodecagonal .xyz files round-trip exactly", "statement": "For a non-empty object of triangles, dode2 read_xyz after write_xyz returns the same array; writing a set of edges with select 'edge' and reading it back returns the same vertices.", "quantifier": "all non-empty objects of triangles or edges", "why_tests_cant": "Encode/decode over unbounded objects.", "anchors": ["src/pyqcstrc/dode2/occupation_domain.py: write_xyz, read_xyz"]}
{"id": "C41", "title": "dodesymop returns the dodecagonal point group of order 24", "statement": "dodesymop returns 24 pairwise distinct invertible integer matrices, containing the identity, closed under product and inverse; the 12-fold generator has order exactly 12 and the mirror order 2.", "quantifier": "all members and all ordered pairs of members, hence all finite products", "why_tests_cant": "Closure over all words.", "anchors": ["src/pyqcstrc/dode2/symmetry.py: dodesymop"]}
{"id": "C42", "title": "Dodecagonal operations act as isometries of perpendicular and parallel space", "statement": "For every dodecagonal op there are orthogonal maps R,S such that the perp (par) part of op*v is R (S) applied to the perp (par) part of v, for all v; hence symmetric() returns 24 pieces per input piece with 24 times the area.", "quantifier": "all 24 operations, all 6D vectors, all objects", "why_tests_cant": "All vectors and objects.", "anchors": ["src/pyqcstrc/dode2/symmetry.py: dodesymop, symop_vec, generator_obj_symmetric_obj", "src/pyqcstrc/dode2/math1.py: projection", "src/pyqcstrc/dode2/occupation_domain.py: symmetric"]}
{"id": "C43", "title": "Dodecagonal triangle area is exact for triangles in a perpendicular plane", "statement": "dode2 triangle_area_6d is the canonical exact value of half the absolute z-component of the cross product of two sides; it is non-negative, invariant under vertex permutation and shifts, and equals the true area whenever the three vertices share their last coordinate; obj_area_6d is the exact sum.", "quantifier": "all triangles with non-zero denominators, all objects", "why_tests_cant": "Exactness for all inputs.", "anchors": ["src/pyqcstrc/dode2/utils.py: triangle_area, triangle_area_6d, obj_area_6d"]}
{"id": "C44", "title": "Similarity transformations compose", "statement": "dode2 similarity by m followed by similarity by n equals similarity by m+n for all integers m,n (so similarity by -m undoes similarity by m), it is linear, and it scales perpendicular space by a fixed factor per step.", "quantifier": "all integers m,n (of either sign) and all vectors", "why_tests_cant": "All integers and vectors.", "anchors": ["src/pyqcstrc/dode2/symmetry.py: similarity, similarity_obj, similarity_vec"]}
{"id": "C45", "title": "Site symmetry operations fix the site modulo the searched translations", "statement": "dode2 site_symmetry(site) contains the index of an operation iff the operation maps the site to itself up to one of the listed lattice translations, always contains the identity, and for every site the corresponding operations should form the full site-symmetry group modulo the lattice.", "quantifier": "all rational sites", "why_tests_cant": "All sites.", "anchors": ["src/pyqcstrc/dode2/symmetry.py: site_symmetry, translation, dodesymop"]}
{"id": "C46", "title": "Coset representatives tile the symmetry group", "statement": "dode2 coset(H) for a subgroup H of the point group returns representatives whose cosets are pairwise disjoint and together cover all 24 operations, so the number of representatives times the order of H is 24.", "quantifier": "all subgroups given as index lists", "why_tests_cant": "All subgroups and orders of listing.", "anchors": ["src/pyqcstrc/dode2/symmetry.py: coset, site_symmetry_and_coset"]}
{"id": "C47", "title": "Overlap helpers on index lists", "statement": "dode2 remove_overlaps returns the sorted distinct elements of a list; find_overlaps of two duplicate-free lists reports true exactly when they share an element.", "quantifier": "all lists of any length", "why_tests_cant": "Arbitrary lists.", "anchors": ["src/pyqcstrc/dode2/symmetry.py: remove_overlaps, find_overlaps"]}
{"id": "C48", "title": "Simplification preserves the object", "statement": "simplification(obj) returns an object with the same volume as obj.", "quantifier": "all objects, every behaviour of the geometric kernel consistent with geometry", "why_tests_cant": "All shapes, including non-convex ones.", "anchors": ["src/pyqcstrc/ico2/occupation_domain.py: simplification", "src/pyqcstrc/dode2/occupation_domain.py: simplification"]}
{"id": "C49", "title": "Coplanarity verdict does not depend on the random samples", "statement": "For a set of four or more points in perpendicular space, whatever triples random.sample draws, coplanar_check_numeric returns a true value if the points are coplanar and False if some point is off the plane of the accepted triple by more than the tolerance; up to three points are always coplanar. The same holds for coplanar_check of dode2 in its own internal space and for the test of two triangles, where None counts as not coplanar.", "quantifier": "all point sets and all sequences of random samples", "why_tests_cant": "Random schedule.", "anchors": ["src/pyqcstrc/ico2/numericalc.py: coplanar_check_numeric", "src/pyqcstrc/ico2/math1.py: coplanar_check", "src/pyqcstrc/dode2/math1.py: coplanar_check"]}
{"id": "C50", "title": "Tetrahedralisation returns only non-degenerate pieces on the given points", "statement": "tetrahedralization_points returns only tetrahedra whose vertices are among the given points and whose exact volume is non-zero, keeps every non-degenerate simplex proposed by Delaunay, and the total volume equals the sum over all proposed simplices; None iff none is left.", "quantifier": "all point lists and all outputs of the Delaunay library", "why_tests_cant": "Holds whatever the external library returns.", "anchors": ["src/pyqcstrc/ico2/utils.py: tetrahedralization_points, decomposition"]}
{"id": "C51", "title": "Subtraction is all-or-nothing", "statement": "subtraction(obj1,obj2) returns None as soon as the difference of one piece could not be computed, and otherwise the concatenation of the differences of all pieces of obj1 in order; a None result never hides partially computed pieces.", "quantifier": "all pairs of objects and all outcomes of the per-piece subtraction", "why_tests_cant": "All failure positions.", "anchors": ["src/pyqcstrc/ico2/intsct.py: subtraction_two_obj", "src/pyqcstrc/ico2/two_occupation_domains.py: subtraction"]}
{"id": "C52", "title": "matrixpow is the integer power", "statement": "matrixpow(M,n) is the identity for n=0 and the n-fold product for n>0, matrixpow(M,m+n)=matrixpow(M,m)*matrixpow(M,n) for m,n>=0, for invertible M and negative n it is the power of the inverse, and non-square matrices are refused with None.", "quantifier": "all square matrices and all integers", "why_tests_cant": "All exponents and sizes.", "anchors": ["src/pyqcstrc/ico2/math1.py: matrixpow", "src/pyqcstrc/dode2/math1.py: matrixpow"]}
{"id": "C53", "title": "API entry points report their documented status", "statement": "write returns 0 on success and 1 on failure as documented: for an empty object and for an unknown format it returns 1 and creates no output file; intersection, intersection_convex and subtraction return None for arguments that are not 4-dimensional.", "quantifier": "all arguments", "why_tests_cant": "All format strings and dimensions.", "anchors": ["src/pyqcstrc/ico2/occupation_domain.py: write", "src/pyqcstrc/dode2/occupation_domain.py: write", "src/pyqcstrc/ico2/two_occupation_domains.py: intersection, intersection_convex, subtraction"]}
{"id": "C54", "title": "equivalent compares vertex sets one way only", "statement": "equivalent(a,b) on two arrays of vertices is True exactly when every perpendicular-space vertex of b is a vertex of a (a having distinct vertices); for pieces with the same number of distinct vertices that is equality of vertex sets. Two single vectors are compared by their perp points. Objects that are not single pieces are never equivalent, and arrays of different nesting give None. The relation is not symmetric for pieces of different sizes.", "quantifier": "all pairs of vectors, vertex arrays and objects with non-zero denominators", "why_tests_cant": "The vertex count guard compares an array with itself, which tests on same-size pieces never notice; the claim ranges over all pairs of pieces.", "anchors": ["src/pyqcstrc/ico2/utils.py:equivalent", "src/pyqcstrc/dode2/utils.py:equivalent"]}
{"id": "C55", "title": "Border edges are the sides that belong to one triangle only", "statement": "gen_border_edges_of_coplanar_triangles returns only sides of the given triangles that are a side of exactly one of them, no two with the same midpoint; when sides with equal midpoints have equal end points it returns all of them. If a group has no such side, surface_cleaner raises ValueError.", "quantifier": "all lists of triangles with distinct perp vertices and non-zero denominators", "why_tests_cant": "Unbounded lists; the property relates every side to every triangle.", "anchors": ["src/pyqcstrc/ico2/utils.py: gen_border_edges_of_coplanar_triangles, surface_cleaner", "src/pyqcstrc/dode2/utils.py: gen_border_edges_of_coplanar_triangles"]}
{"id": "C56", "title": "Two segments are joined only at a shared end lying between the other two", "statement": "two_segment_into_one never raises; a result joins the other ends of two segments that share an end point in perpendicular space, and that shared point lies on the result up to the tolerance. Segments that share an end lying between two distinct other ends are always joined.", "quantifier": "all pairs of segments with non-zero denominators", "why_tests_cant": "Continuum of positions and all four orientations.", "anchors": ["src/pyqcstrc/ico2/utils.py: two_segment_into_one", "src/pyqcstrc/dode2/utils.py: two_segment_into_one"]}
{"id": "C57", "title": "Intersection of convex objects", "statement": "intersection_convex returns the first object when its surface corners are all inside the second, the second when its surface corners are all inside the first and the first's are not, None when they are apart, and otherwise tetrahedra of non-zero volume with all corners in both objects up to the tolerance, whatever the triangulation library proposes. Crossing objects neither of which has a corner in the other should also be intersected; instead UnboundLocalError is raised.", "quantifier": "all pairs of objects with non-zero denominators whose surface sides with equal midpoints have equal ends; all library outcomes", "why_tests_cant": "Ranges over all pairs of objects and every outcome of an external library.", "anchors": ["src/pyqcstrc/ico2/intsct.py: intersection_two_obj_convex", "src/pyqcstrc/ico2/two_occupation_domains.py: intersection_convex"]}
{"id": "C58", "title": "Nothing of the common part of two objects is lost", "statement": "When the tolerances of the geometric tests do not matter for the pieces involved (no corner or crossing falls into a tolerance band, nothing is nearly flat without being flat) and the tetrahedralisation library fills the convex hull of the points it is given, then: two pieces are classified as 'first inside second' exactly when the first solid is contained in the second, as 'apart' exactly when they have no point in common; the pieces returned for two crossing tetrahedra cover exactly the common part of the two solids; and the object returned by intersection covers the common part of the two objects except for a set of volume zero, and with kind 'standard' is contained in it.", "quantifier": "all pairs of tetrahedra and all pairs of objects whose pairs of pieces are resolved by the tolerances, every sequence of random draws of the coplanarity test, every tetrahedralisation that fills the hull, both kinds", "why_tests_cant": "The claim quantifies over all positions of two tetrahedra in space and over the library's answer and the random draws; missing one of 48 edge-face crossings only shows for particular positions.", "anchors": ["src/pyqcstrc/ico2/intsct.py:intersection_two_tetrahedron_4", "src/pyqcstrc/ico2/intsct.py:check_intersection_two_tetrahedron_4", "src/pyqcstrc/ico2/intsct.py:intersection_two_obj_1", "src/pyqcstrc/ico2/two_occupation_domains.py:intersection"]}
{"id": "C59", "title": "The difference has the volume of the piece minus the common part", "statement": "When subtraction returns an object for a piece, every returned tetrahedron joins the single corner of the piece outside the other object to an outer face of the common part, and its total volume is the volume of the piece minus that of the common part. A piece with several corners outside raises an exception, one with all corners inside gives None, one with no common part should be returned unchanged.", "quantifier": "all pieces, all objects with non-zero denominators, all orders of the face list and all outcomes of the randomised triangulation", "why_tests_cant": "Ranges over all tetrahedra and objects and over the randomised choices; the failing cases depend on volumes of subsets.", "anchors": ["src/pyqcstrc/ico2/intsct.py: tetrahedron_not_obj, subtraction_two_obj", "src/pyqcstrc/ico2/two_occupation_domains.py: subtraction"]}
{"id": "C60", "title": "The area test for a point on a triangle accepts every point of it and nothing far from it", "statement": "on_out_surface accepts every point of the closed triangle. For a point of the triangle's plane it accepts exactly when the area times the excess of the absolute barycentric coordinates is below the tolerance. An accepted point off the plane has a height bounded in terms of the tolerance, area and side lengths, which is not as small as the tolerance.", "quantifier": "all points and all triangles with non-zero area, both packages", "why_tests_cant": "Continuum of points and triangles; the tolerance enters through square roots.", "anchors": ["src/pyqcstrc/ico2/numericalc.py: on_out_surface", "src/pyqcstrc/dode2/numericalc.py: on_out_surface"]}
{"id": "C61", "title": "Volume lines of a written tetrahedron file report the volumes", "statement": "After writing an object of tetrahedra in the xyz format, the text after the vertex lines reports the exact volume of the object and, for each numbered piece, the exact volume of that piece.", "quantifier": "every non-empty valid object of tetrahedra, every one-line file name, every way of printing the decimal coordinates", "why_tests_cant": "The claim relates every piece of every object to a line of the file; a test with pieces of equal volume passes although the line of each piece shows the last piece's volume.", "anchors": ["src/pyqcstrc/ico2/occupation_domain.py:write_xyz", "src/pyqcstrc/ico2/occupation_domain.py:write"]}
{"id": "C62", "title": "Exact volumes are the Lebesgue measures of the solids", "statement": "The exact volume reported for a tetrahedron is the Lebesgue measure of the convex hull of its four perpendicular-space points. The exact volume reported for an object is at least the measure of the region it covers, and equal to it exactly when no two pieces overlap. Tetrahedralising points that are not in one plane, with a library that fills the hull without overlaps, gives an object whose exact volume is the measure of the convex hull.", "quantifier": "all tetrahedra and objects with non-zero denominators; all finite lists of points; every library behaviour that tiles convex hulls", "why_tests_cant": "It equates a rational-arithmetic result with a measure for a continuum of shapes and for any number of pieces.", "anchors": ["src/pyqcstrc/ico2/utils.py: tetrahedron_volume_6d, obj_volume_6d", "src/pyqcstrc/ico2/utils.py: tetrahedralization_points"]}
{"id": "C63", "title": "The exact volume of an intersection is the measure of the common part", "statement": "For two objects whose own pieces do not overlap, whose pairs of pieces are resolved by the tolerances of the code, and for a tetrahedralisation library that fills convex hulls without overlaps, the exact volume of the object returned by the intersection is the Lebesgue measure of the common part, the returned pieces do not overlap, and they cover the common part and nothing else up to sets of measure zero. This holds for both kinds of result, 'standard' and 'simple'.", "quantifier": "all pairs of objects of any size meeting the hypotheses, both kinds, every library behaviour that tiles, all random draws of the coplanarity test", "why_tests_cant": "The sum runs over all pairs of pieces of arbitrary objects; no finite set of shapes shows that nothing is lost or counted twice.", "anchors": ["src/pyqcstrc/ico2/intsct.py: intersection_two_obj_1, intersection_two_tetrahedron_4", "src/pyqcstrc/ico2/two_occupation_domains.py: intersection"]}
{"id": "C64", "title": "generate_convex_hull fills the convex hull exactly", "statement": "generate_convex_hull(obj), for tetrahedra that meet face to face, returns non-degenerate, non-overlapping tetrahedra on vertices of obj whose union is exactly the convex hull of all vertices of obj; their exact volume is the volume of that hull.", "quantifier": "every well-formed object whose corners are further apart than the code's tolerances, every outcome of the random draws, every Delaunay library that tiles hulls", "why_tests_cant": "Tests compare a few volumes; that no vertex of the hull is ever lost when coplanar faces are merged and collinear edges glued is a statement about all objects and all random draws.", "anchors": ["src/pyqcstrc/ico2/utils.py: generate_convex_hull, surface_cleaner, generator_surface_1", "src/pyqcstrc/ico2/utils.py: tetrahedralization_points"]}
{"id": "C65", "title": "Border edges keep every corner of the object", "statement": "generate_border_edges(obj) (ico2) and outline(obj) (dode2) return segments whose ends are vertices of obj, and every corner of the convex hull of obj is an end of one of them.", "quantifier": "every object of tetrahedra (ico2) or coplanar triangles (dode2) that fit together, every outcome of the random draws", "why_tests_cant": "Tests look at drawings of a few objects; losing a corner for one grouping of coplanar faces or one order of glueing would go unnoticed.", "anchors": ["src/pyqcstrc/ico2/occupation_domain.py: generate_border_edges", "src/pyqcstrc/dode2/occupation_domain.py: outline", "src/pyqcstrc/ico2/utils.py: surface_cleaner"]}
{"id": "C66", "title": "Crossing point of two segments (dode2)", "statement": "intersection_two_segment returns None exactly when the numerical test rejects; otherwise it returns an exact, reduced 6D vector on the first segment, at the foot of the common perpendicular. For two segments at the same height the test accepts exactly when they have a common point and their directions span an area of at least 1e-3, and the returned point is then their only common point. It never raises.", "quantifier": "every pair of 6D segments with non-zero denominators", "why_tests_cant": "The crossing point is a solution of a linear system in Q(sqrt 3); tests can only try some pairs and compare decimals.", "anchors": ["src/pyqcstrc/dode2/intsct.py: intersection_two_segment", "src/pyqcstrc/dode2/numericalc.py: check_intersection_two_segment_numerical_6d_tau, check_intersection_two_segment_numerical"]}
{"id": "C67", "title": "Inside test for a triangle (dode2)", "statement": "A point of the plane of a triangle is accepted by inside_outside_triangle_tau exactly when the triangle is not degenerate and the sum of the absolute barycentric coordinates of the point is less than 1 + 1e-6. So no point of a triangle is ever rejected, and an accepted point is at most half a millionth (relative) outside. A degenerate triangle contains nothing.", "quantifier": "every 6D point and every triangle", "why_tests_cant": "Tests try a few points; the exact acceptance region is a statement about all points and all sizes of triangles.", "anchors": ["src/pyqcstrc/dode2/numericalc.py: inside_outside_triangle_tau, inside_outside_triangle, triangle_area_numerical"]}
{"id": "C68", "title": "The intersection of two planar occupation domains loses nothing (dode2)", "statement": "intersection(obj1, obj2) of two objects in one plane never raises; it returns None or a non-empty object whose triangles cover the common part up to area zero; with kind 'standard' every returned triangle lies inside the common part. The classification of two triangles (first inside second, second inside first, disjoint, crossing) is exact.", "quantifier": "every two objects of triangles at one height whose pairs of triangles are resolved by the tolerances, both kinds, every triangulation library that fills convex hulls", "why_tests_cant": "Tests look at a few pairs of polygons; that no configuration of two triangles loses part of the intersection is a statement about all of them.", "anchors": ["src/pyqcstrc/dode2/intsct.py: check_intersection_two_triangles, intersection_two_triangles, intersection_two_obj_1", "src/pyqcstrc/dode2/two_occupation_domains.py: intersection", "src/pyqcstrc/dode2/utils.py: triangulation_points"]}
{"id": "C69", "title": "Exact areas are areas, and the intersection has the right one (dode2)", "statement": "The exact area of a triangle or object in a plane is its Lebesgue measure (at least that, with equality exactly when no two triangles overlap). The exact area of intersection(obj1, obj2) is the measure of the common part, the returned triangles do not overlap, and both kinds return exactly the same area, or both None.", "quantifier": "every level object; every two resolved level objects without overlaps; every triangulation library that tiles convex hulls", "why_tests_cant": "Tests compare a few decimals of a few areas.", "anchors": ["src/pyqcstrc/dode2/utils.py: triangle_area_6d, obj_area_6d, triangulation_points", "src/pyqcstrc/dode2/intsct.py: intersection_two_obj_1", "src/pyqcstrc/dode2/two_occupation_domains.py: intersection"]}
{"id": "C70", "title": "Operations of dode2 that cannot succeed", "statement": "intersection_convex of two non-empty objects of triangles, subtraction of any two objects of triangles and generate_border_edges of any object raise (NameError, NameError, AttributeError) and never return a result.", "quantifier": "every pair of well-formed non-empty objects of triangles", "why_tests_cant": "A test that fails shows one failing input; that no input at all can succeed is universal.", "anchors": ["src/pyqcstrc/dode2/two_occupation_domains.py: intersection_convex, subtraction", "src/pyqcstrc/dode2/intsct.py: intersection_two_obj_convex, subtraction_two_obj", "src/pyqcstrc/dode2/occupation_domain.py: generate_border_edges"]}
{"id": "C71", "title": "Convex hull and simplification of planar objects (dode2)", "statement": "generate_convex_hull(obj), for triangles of one height that fit together, returns non-degenerate, non-overlapping triangles on vertices of obj whose union is exactly the convex hull of obj; their exact area is the area of the hull. simplification(obj) never raises and returns exactly this hull; so it keeps region and area of convex objects, and for other objects the area grows exactly when the hull is larger than the object.", "quantifier": "every object of triangles at one height whose corners are further apart than the code's tolerances, every outcome of the random draws, every triangulation library that tiles hulls", "why_tests_cant": "Tests compare a few areas; the statement ranges over all objects, draws and triangulations.", "anchors": ["src/pyqcstrc/dode2/utils.py: generate_convex_hull, surface_cleaner, triangulation_points", "src/pyqcstrc/dode2/occupation_domain.py: simplification"]}
{"id": "C72", "title": "Asymmetric units", "statement": "The cone between a five-fold, a three-fold and a two-fold axis (ico2) and the wedge of 15 degrees (dode2) are asymmetric units of the operations used by symmetric: every vector is moved into the cone by one of the operations, and into its interior by at most one. Hence symmetric(obj, centre) of a well-formed object inside the cone, or inside an image of it, consists of copies that do not overlap; its exact volume is the volume of the region it covers and 120 (24) times that of the unit. Every symmetric object has 120 (24) times the volume of its part in the cone, and symmetric applied to that part gives the object back up to measure zero.", "quantifier": "every 6D vector, every centre, every well-formed object without overlaps (in dode2 at one height)", "why_tests_cant": "A test can only sample vectors and objects; that the cones of all 120 operations fill space without overlaps is universal.", "anchors": ["src/pyqcstrc/ico2/symmetry.py: generator_obj_symmetric_obj, generator_obj_symmetric_tetrahedron", "src/pyqcstrc/dode2/symmetry.py: generator_obj_symmetric_obj", "src/pyqcstrc/ico2/occupation_domain.py: symmetric", "src/pyqcstrc/dode2/occupation_domain.py: symmetric"]}
{"id": "C73", "title": "The asymmetric part of an object", "statement": "asymmetric(obj, position, vecs) returns the common part of the object and the tetrahedron spanned by the position and five times the three vectors: the result lies in both, misses only a set of volume zero, has no overlapping pieces, and its exact volume is that of the common part. When the vectors span the fundamental cone and the object has the symmetry of the group, the result has at most 1/120 of the volume of the object; it has exactly 1/120 when the tetrahedron reaches over the part of the object in the cone, and then symmetric gives the object back up to volume zero. Anything but three vectors is refused with ValueError.", "quantifier": "every well-formed object without overlaps, position and three vectors whose pairs with the cutting tetrahedron are resolved by the tolerances; every result of the tetrahedralisation library that tiles the hull", "why_tests_cant": "The object, the position and the vectors are unbounded; the relation between the asymmetric part and the whole object is a statement about regions and their volumes.", "anchors": ["src/pyqcstrc/ico2/occupation_domain.py: asymmetric", "src/pyqcstrc/ico2/intsct.py: intersection_two_obj_1"]}
{"id": "C74", "title": "Single operations and equivalent vectors", "statement": "symmetric_0(obj, centre, k) returns exactly the pieces of symmetric(obj, centre) that belong to the k-th operation; negative indices count from the end, all others outside the group raise IndexError. generator_equivalent_vec returns exactly the distinct images of the given vectors in lexicographic order, and the number of images of a vector times the number of operations that leave it in place is the order of the group (120 or 24). The generators for a list of operations and for equivalent vectors in perpendicular space raise on every piece and object. The generator for one vector in dode2 returns the image at the position of the index in the list of all images.", "quantifier": "every well-formed object, piece, vector and centre, every integer index, both packages", "why_tests_cant": "The index, the object and the vector are unbounded; orbit counting is a statement about every vector.", "anchors": ["src/pyqcstrc/ico2/symmetry.py: generator_obj_symmetric_tetrahedron_0, generator_obj_symmetric_tetrahedron_specific_symop, generator_equivalent_vec, generator_equivalent_vectors", "src/pyqcstrc/dode2/symmetry.py: generator_obj_symmetric_triangle_0, generator_equivalent_vec, generator_equivalent_vectors", "src/pyqcstrc/ico2/occupation_domain.py: symmetric_0", "src/pyqcstrc/dode2/symmetry.py: generator_symmetric_vec_0"]}
{"id": "C75", "title": "VESTA files show the object", "statement": "write_vesta writes a file in which every perpendicular-space vertex of the object is an atom once, and in which exactly the edges of the object are drawn as bonds; for a set of edges it draws exactly these edges; the result is 0 when a file was written. Nothing is written for None or an empty object.", "quantifier": "every non-empty well-formed set of edges, triangles or tetrahedra, every option, both packages", "why_tests_cant": "The object is unbounded; which bonds a viewer draws depends on every pair of atoms and on their distances.", "anchors": ["src/pyqcstrc/ico2/occupation_domain.py: write_vesta", "src/pyqcstrc/dode2/occupation_domain.py: write_vesta"]}
{"id": "C76", "title": "Export of an object to .pod and .atm files", "statement": "obj2podatm writes files exactly when some perpendicular-space point is a vertex of every piece; then the position is such a vertex, every other vertex is listed once, the index list names for each piece in turn its other vertices, and the number after nth= is the number of pieces.", "quantifier": "every non-empty well-formed object of both packages", "why_tests_cant": "The object, and the way equal points are stored as arrays, are unbounded.", "anchors": ["src/pyqcstrc/ico2/occupation_domain.py: obj2podatm", "src/pyqcstrc/dode2/occupation_domain.py: obj2podatm", "src/pyqcstrc/ico2/occupation_domain.py: find_common_vertex"]}
{"id": "C77", "title": "Vertex lists in .pod and .atm files", "statement": "write_podatm(obj, position, vlist, shift) writes, for each list of vertex numbers (counted from 1), an entry with the position and the first vertex plus the shift, and a list of distinct vertices relative to the first one with indices that give the remaining vertices of the list in order; None writes nothing; a list that is too short is refused.", "quantifier": "every list of vertices, position, shift and list of number lists", "why_tests_cant": "The lists are unbounded.", "anchors": ["src/pyqcstrc/ico2/occupation_domain.py: write_podatm"]}
{"id": "C78", "title": "Simplification by hand", "statement": "simple_hand_step2(obj, merge_list) of ico2 returns an object that covers exactly the convex hulls of the vertices named by the lists (numbers counted from 1); its exact volume is the sum of the volumes of these hulls, hence the covered volume when they do not overlap. A number above the number of vertices raises IndexError. The first step, which should list the vertices, and the dode2 version of the second step are broken: they raise on every non-empty object and every valid input.", "quantifier": "every list of vertices, every non-empty list of lists of valid numbers whose points are not in one plane; every result of the tetrahedralisation library that tiles the hull", "why_tests_cant": "Vertices and lists are unbounded; the statement is about regions and volumes.", "anchors": ["src/pyqcstrc/ico2/occupation_domain.py: simple_hand_step1, simple_hand_step2", "src/pyqcstrc/dode2/occupation_domain.py: simple_hand_step1, simple_hand_step2"]}
{"id": "C79", "title": "Adjacent tetrahedra", "statement": "For two tetrahedra with four distinct perpendicular-space vertices each, check_connectivity_tetrahedra answers True exactly when they have exactly three vertices in common, and get_common_triangle_in_two_tetrahedra returns a face of the first one whose vertices are common to both, or None exactly when fewer than three are common. (Merging two pieces, and all of this for triangles in dode2, does not work: see the theorems marked fails.)", "quantifier": "every two well-formed tetrahedra with distinct vertices, in every order of the vertices and every representation of the numbers", "why_tests_cant": "Equality of points in perpendicular space is decided on unbounded integers, and the order of the vertices is arbitrary.", "anchors": ["src/pyqcstrc/ico2/utils.py: check_connectivity_tetrahedra, get_common_triangle_in_two_tetrahedra, merge_two_tetrahedra, merge_two_tetrahedra_in_obj", "src/pyqcstrc/dode2/utils.py: check_connectivity_triangles, get_common_edge_in_two_triangles, merge_two_triangles, merge_two_triangles_in_obj"]}
{"id": "C80", "title": "Sorting vectors", "statement": "sort_vctors returns exactly the given vectors, each as often as it was given, ordered by their first perpendicular-space coordinate; the sequence of these coordinates does not depend on the order of the input, and for different coordinates neither does the result.", "quantifier": "every list of vectors of both packages, and every behaviour of the argsort of the library among equal entries", "why_tests_cant": "The list is unbounded and the library's choice among equal entries is unspecified.", "anchors": ["src/pyqcstrc/ico2/utils.py: sort_vctors, sort_obj", "src/pyqcstrc/dode2/utils.py: sort_vctors, sort_obj"]}
{"id": "C81", "title": "Numerical helpers agree with the exact functions", "statement": "In real arithmetic: obj_volume_numerical is the sum of the volumes of the given tetrahedra and on the perpendicular-space points of an object the value of the exact volume; triangle_area is the area of the triangle; obj_volume_6d_numerical of dode2 is the sum of the areas, equal to the exact area when the vertices of each triangle have the same height and never below it; the set versions of the projections act on each row in order; inner_product_numerical is the value of inner_product and matrix_dot the product of matrices.", "quantifier": "every object, triangle, list of vectors, matrix", "why_tests_cant": "The values range over all integer triples and all lengths.", "anchors": ["src/pyqcstrc/ico2/numericalc.py: obj_volume_numerical, triangle_area, projection_sets_numerical, projection3_sets_numerical, inner_product_numerical, matrix_dot", "src/pyqcstrc/dode2/numericalc.py: obj_volume_6d_numerical, triangle_volume_6d_numerical, triangle_area, projection_sets_numerical, projection3_sets_numerical, inner_product_numerical, matrix_dot"]}
{"id": "C82", "title": "Helpers that never return a result", "statement": "det_matrix, middle_position and inside_outside_obj_tau raise on every valid input, as do the ico2 test and intersection of two segments and site_symmetry; the decomposition helper of the ico2 intersection module never returns tetrahedra; tetrahedron_not_obj_2 of ico2 and the unfinished helpers return None or raise.", "quantifier": "every valid input", "why_tests_cant": "A test shows one failing input; that no valid input works is a statement about all of them.", "anchors": ["src/pyqcstrc/ico2/math1.py: det_matrix", "src/pyqcstrc/dode2/math1.py: det_matrix, projection_perp", "src/pyqcstrc/ico2/utils.py: middle_position, get_common_edges, breps", "src/pyqcstrc/dode2/utils.py: middle_position, get_common_edges", "src/pyqcstrc/ico2/numericalc.py: inside_outside_obj_tau, check_intersection_two_segment_numerical_6d_tau", "src/pyqcstrc/dode2/numericalc.py: inside_outside_obj_tau", "src/pyqcstrc/ico2/intsct.py: decomposition, intersection_two_segment, tetrahedron_not_obj_2", "src/pyqcstrc/dode2/intsct.py: tetrahedron_not_obj_1, tetrahedron_not_obj_2", "src/pyqcstrc/ico2/occupation_domain.py: site_symmetry"]}
{"id": "C83", "title": "Conversion to floating point", "statement": "The floating-point value of an exact number, the floating-point perpendicular-space coordinates of a vector and the floating-point distance of two points differ from the exact ones by at most 9, 75 and 32 unit roundoffs of the scale of the data.", "quantifier": "every number and vector with int64 entries of moderate size (scale up to 1024), and every rounding of the individual operations with the accuracy of binary64", "why_tests_cant": "Rounding errors depend on the input and on the library; a test sees one input on one machine.", "anchors": ["src/pyqcstrc/ico2/numericalc.py: numeric_value, numerical_vector, projection3_numerical, get_internal_component_numerical, length_numerical", "src/pyqcstrc/ico2/intsct.py: distance_in_perp_space"]}
{"id": "C84", "title": "Accuracy of numerical volumes", "statement": "The volume of a tetrahedron computed in floating point, with a determinant by Gaussian elimination, differs from the exact volume by at most 7224 unit roundoffs of the cube of the scale; a tetrahedron of larger volume never gets the volume 0.", "quantifier": "every tetrahedron of moderate size, every rounding of the individual operations", "why_tests_cant": "Rounding errors depend on the input and on the library; a test sees one input on one machine.", "anchors": ["src/pyqcstrc/ico2/numericalc.py: tetrahedron_volume_numerical"]}
{"id": "C85", "title": "Inside test with rounding", "statement": "With floating-point rounding, no point of a closed tetrahedron whose volume exceeds a million margins is rejected, no point further outside than the tolerance and the margin is accepted, and whenever the compared numbers differ by the margin the answer is that of real arithmetic.", "quantifier": "every point and tetrahedron of moderate size, every rounding of the individual operations", "why_tests_cant": "Rounding errors depend on the input and on the library; a test sees one input on one machine.", "anchors": ["src/pyqcstrc/ico2/numericalc.py: inside_outside_tetrahedron_tau, inside_outside_tetrahedron"]}
{"id": "C86", "title": "Segment-triangle test with rounding", "statement": "With floating-point rounding, every genuine intersection of a segment and a triangle that is not nearly parallel is reported, and whenever the compared numbers differ by the margin the answer is that of real arithmetic.", "quantifier": "every segment and triangle of moderate size, every rounding of the individual operations", "why_tests_cant": "Rounding errors depend on the input and on the library; a test sees one input on one machine.", "anchors": ["src/pyqcstrc/ico2/numericalc.py: check_intersection_segment_surface_numerical_6d_tau, check_intersection_segment_surface_numerical"]}
{"id": "C87", "title": "Coplanarity test with rounding", "statement": "With floating-point rounding, the answer True means that all points lie in the plane of one of the drawn triples up to 1e-10 and a quarter of the margin, False that some point does not (less a quarter of the margin), and None that all drawn triples are nearly collinear.", "quantifier": "every list of at least four points of moderate size, all draws of triples, every rounding of the individual operations", "why_tests_cant": "Rounding errors depend on the input and on the library; a test sees one input on one machine.", "anchors": ["src/pyqcstrc/ico2/numericalc.py: coplanar_check_numeric_tau, coplanar_check_numeric", "src/pyqcstrc/ico2/math1.py: coplanar_check"]}
{"id": "C88", "title": "Intersection of two tetrahedra with rounding", "statement": "For two tetrahedra that are resolved by the tolerances with the margin, the code computed in floating point is the right one, and the returned pieces are exactly the common part.", "quantifier": "every pair of tetrahedra of moderate size resolved with the margin, all draws, every rounding of the individual operations, every tetrahedralisation that fills the hull", "why_tests_cant": "Rounding errors depend on the input and on the library; a test sees one input on one machine.", "anchors": ["src/pyqcstrc/ico2/intsct.py: check_intersection_two_tetrahedron_4, intersection_two_tetrahedron_4, intersection_segment_surface"]}
{"id": "C89", "title": "Intersection of two objects with rounding", "statement": "For two objects of moderate size whose pieces are resolved with the margin, the pieces returned by intersection in floating point cover the common part up to volume zero, and with kind='standard' they lie in it. The preceding rough check does not lose anything either.", "quantifier": "all such objects with any number of pieces, both kinds, all draws, every rounding of the individual operations, every tetrahedralisation that fills the hull", "why_tests_cant": "Rounding errors depend on the input and on the library; a test sees one input on one machine.", "anchors": ["src/pyqcstrc/ico2/two_occupation_domains.py: intersection", "src/pyqcstrc/ico2/intsct.py: intersection_two_obj_1, rough_check_intersection_tetrahedron_obj, ball_radius, ball_radius_obj"]}
{"id": "C90", "title": "Linear functions with int64 and float64 numbers", "statement": "Computed with wrapping 64-bit integers and floating-point quotients and products, symmetric, shift, the projection to perpendicular space, centroid and centroid_obj return exactly what they return with unbounded integers, as long as the coordinates have a common denominator d and numerators up to N in a stated range (for symmetric and shift: d ≤ 2^25, N·d ≤ 2^49). Beyond it a shift can wrap to the other side of the origin.", "quantifier": "every object with any number of pieces whose coordinates lie in the range, every centre and shift in the range, both packages", "why_tests_cant": "Overflow and rounding depend on the input; a test sees a few inputs, all of them small.", "anchors": ["src/pyqcstrc/ico2/occupation_domain.py: symmetric, shift", "src/pyqcstrc/dode2/occupation_domain.py: symmetric, shift", "src/pyqcstrc/ico2/math1.py: projection3, centroid, centroid_obj, dot_product_1", "src/pyqcstrc/dode2/math1.py: projection3, centroid, centroid_obj, dot_product_1"]}
{"id": "C91", "title": "Volumes and areas with int64 and float64 numbers", "statement": "With wrapping 64-bit integers, floating-point quotients and a sign test in rounded arithmetic, volume returns exactly the sum of the volumes of the pieces (ico2) or of their areas (dode2), for coordinates with a common denominator in a stated range, without any further condition when they are small (numerators up to 6 in ico2, 34 in dode2), and otherwise when no piece is extremely thin. For coordinates of size 2^21 the computed volume can be 0.", "quantifier": "every object with any number of pieces in the range, every rounding of the floating-point operations with the accuracy of binary64", "why_tests_cant": "Overflow and rounding depend on the input; a test sees a few inputs, all of them small.", "anchors": ["src/pyqcstrc/ico2/occupation_domain.py: volume", "src/pyqcstrc/ico2/utils.py: obj_volume_6d, tetrahedron_volume_6d, tetrahedron_volume", "src/pyqcstrc/dode2/occupation_domain.py: volume", "src/pyqcstrc/dode2/utils.py: obj_area_6d, triangle_area_6d, triangle_area"]}
{"id": "C92", "title": "Conversion to floating-point numbers in dode2", "statement": "Computed with rounding, the value of a number, the internal coordinates of a point, the distance of two points and the area of a triangle differ from the exact ones by at most a stated number of unit roundoffs of the scale; an area larger than that is never computed as 0.", "quantifier": "every number, point and triangle of moderate size, every rounding of the floating-point operations with the accuracy of binary64", "why_tests_cant": "The outcome depends on every rounding; a test sees the roundings of a few inputs on one machine.", "anchors": ["src/pyqcstrc/dode2/numericalc.py: numeric_value, numerical_vector, projection3_numerical, get_internal_component_numerical, triangle_area_numerical", "src/pyqcstrc/dode2/intsct.py: distance_in_perp_space"]}
{"id": "C93", "title": "Inside test of a triangle with rounding", "statement": "The inside test of dode2 computed with rounding accepts exactly the points it accepts over the real numbers, if the compared areas are apart by a margin; every point of a triangle whose area is not tiny is accepted, and every point further outside than tolerance and margin is rejected.", "quantifier": "every input of moderate size that is apart from the thresholds by a stated margin, every rounding of the floating-point operations with the accuracy of binary64", "why_tests_cant": "The outcome depends on every rounding; a test sees the roundings of a few inputs on one machine.", "anchors": ["src/pyqcstrc/dode2/numericalc.py: inside_outside_triangle, inside_outside_triangle_tau"]}
{"id": "C94", "title": "Crossing test of two segments with rounding", "statement": "The crossing test of dode2 computed with rounding never reports parallel segments; what it reports for clear segments at one height is a common point; a crossing inside both segments is always reported.", "quantifier": "every input of moderate size that is apart from the thresholds by a stated margin, every rounding of the floating-point operations with the accuracy of binary64", "why_tests_cant": "The outcome depends on every rounding; a test sees the roundings of a few inputs on one machine.", "anchors": ["src/pyqcstrc/dode2/numericalc.py: check_intersection_two_segment_numerical, check_intersection_two_segment_numerical_6d_tau"]}
{"id": "C95", "title": "Two triangles with rounding", "statement": "For two triangles that are resolved in spite of rounding, the classification computed with rounding is 1 exactly when the first lies in the second, 2 exactly when only the second lies in the first, 3 only if they have a common point, 0 only if no edges cross inside both; when they cross, the pieces returned are exactly the common part; called on triangles whose edges do not meet the function raises UnboundLocalError.", "quantifier": "every input of moderate size that is apart from the thresholds by a stated margin, every rounding of the floating-point operations with the accuracy of binary64", "why_tests_cant": "The outcome depends on every rounding; a test sees the roundings of a few inputs on one machine.", "anchors": ["src/pyqcstrc/dode2/intsct.py: check_intersection_two_triangles, intersection_two_triangles, intersection_two_segment, intersection_segment_surface", "src/pyqcstrc/dode2/numericalc.py: check_intersection_segment_surface_numerical"]}
{"id": "C96", "title": "Intersection of dode2 objects with rounding", "statement": "With every numerical test computed with rounding, intersection of two dode2 objects loses nothing of positive area and, for kind 'standard', returns nothing outside, if every pair of triangles is resolved and every pair with a common part of positive area is nested or has two edges that cross inside both. Without the last condition this is false: two triangles with a common disc of radius 1/10 have the intersection None in binary64 arithmetic.", "quantifier": "every two objects with any number of triangles that meet the stated conditions, every rounding with the accuracy of binary64, every triangulation that fills the hull", "why_tests_cant": "The outcome depends on every rounding; a test sees the roundings of a few inputs on one machine.", "anchors": ["src/pyqcstrc/dode2/two_occupation_domains.py: intersection", "src/pyqcstrc/dode2/intsct.py: intersection_two_obj_1, rough_check_intersection_triangle_obj, ball_radius_obj, ball_radius"]}
{"id": "C97", "title": "Whether rounding can matter for a pair of objects is decidable", "statement": "For tetrahedra with exact coordinates it can be decided with integer arithmetic alone whether every comparison made by intersection is far enough from its threshold that rounding cannot change it. If it is, the classification made in floating point equals the one computed with integers and is right, and the pieces returned are, up to volume zero, the common part.", "quantifier": "all objects with exact coordinates, all whole scales up to 1024, every rounding with the accuracy of binary64, both kinds, every tetrahedralisation that fills the hull", "why_tests_cant": "Rounding errors depend on the input and on the library; a test sees one input on one machine.", "anchors": ["src/pyqcstrc/ico2/intsct.py: check_intersection_two_tetrahedron_4, intersection_two_tetrahedron_4, intersection_two_obj_1", "src/pyqcstrc/ico2/two_occupation_domains.py: intersection"]}
{"id": "C98", "title": "Intersection with 64-bit integers and rounding: what is guaranteed", "statement": "With 64-bit integers that wrap around and rounded comparisons: (a) for tetrahedra whose coordinates have a common denominator d and numerators up to N with N^7 d <= 200000 and N^6 d^3 <= 10^6, the crossings of edges and faces are the exact ones, and for resolved objects nothing outside the common part is returned; (b) it can be computed beforehand whether all integer computations of an intersection stay exact, and if they do nothing but a null set is lost; (c) the volume reported for a correctly computed intersection can be wrong even for objects with coordinates -1, 0 and 1.", "quantifier": "all objects in the stated range or passing the computed tests, every floating-point arithmetic with the accuracy of binary64, all random draws, both kinds, every tetrahedralisation that fills the hull; (c) one pair of tetrahedra in every such arithmetic", "why_tests_cant": "Overflow is silent and depends on the sizes of intermediate results; a test sees one input.", "anchors": ["src/pyqcstrc/ico2/intsct.py: intersection_segment_surface, intersection_two_tetrahedron_4, intersection_two_obj_1", "src/pyqcstrc/ico2/utils.py: tetrahedralization_points, obj_volume_6d", "src/pyqcstrc/ico2/two_occupation_domains.py: intersection"]}
{"id": "C99", "title": "A cut-off .xyz file is never silently read as another object", "statement": "When writing an .xyz file stopped at any point, or an editor dropped the last newline, read_xyz either raises an exception or returns the object that was to be written.", "quantifier": "all well-formed objects and every prefix of the text written for them", "why_tests_cant": "The cut can be after any character of a file of any size.", "anchors": ["src/pyqcstrc/ico2/occupation_domain.py: write_xyz, read_xyz", "src/pyqcstrc/dode2/occupation_domain.py: write_xyz, read_xyz"]}
{"id": "C100", "title": "The intersection of convex objects is exactly their common part", "statement": "For two convex objects made of any number of tetrahedra, away from the tolerances of the tests, intersection_convex returns the object contained in the other if there is one, and otherwise an object covering exactly the common part; its volume is that of the common part. It returns None only if the objects have no common interior point, always if they do not meet, and never returns an object if they only touch. The exception: when neither object contains the other and one surface has no corner in the other object, UnboundLocalError is raised.", "quantifier": "all pairs of well-formed objects covering convex regions, whose faces and edges are told apart by their middles and whose corners and edges are clear of the tolerances; all libraries that fill convex hulls", "why_tests_cant": "Ranges over all pairs of convex polyhedra with any number of faces and subdivisions; equality of two infinite sets of points.", "anchors": ["src/pyqcstrc/ico2/intsct.py: intersection_two_obj_convex, intersection_segment_surface, tetrahedralization_points", "src/pyqcstrc/ico2/two_occupation_domains.py: intersection_convex", "src/pyqcstrc/ico2/utils.py: generator_surface_1, generator_unique_edges"]}
{"id": "C101", "title": "The surface of an object covers its boundary", "statement": "For a well-formed object whose tetrahedra fit together face to face, the triangles returned by generator_surface_1 cover exactly the boundary of the region the object covers. Without fitting, every boundary point is still on one of the triangles, but triangles may lie inside the object.", "quantifier": "all well-formed objects whose faces are told apart by their centroids; for the equality, all those whose faces in one plane with meeting insides coincide", "why_tests_cant": "Equality of two infinite sets of points, for objects with any number of tetrahedra in any arrangement.", "anchors": ["src/pyqcstrc/ico2/utils.py: generator_surface_1"]}
{"id": "C102", "title": "The outline of a flat object is its boundary", "statement": "For triangles of one plane that do not overlap, whatever the random draws, the segments returned by dode2's outline cover the boundary of the region in its plane. If moreover the triangles fit edge to edge and the random draws find a triple of corners that is not nearly collinear, the segments cover exactly the boundary.", "quantifier": "all lists of non-degenerate, non-overlapping triangles of one plane for which the tolerances of the code do not matter; all random draws (all those that find a triple, for the equality)", "why_tests_cant": "Equality of two infinite sets of points for any number of triangles in any arrangement and for every outcome of the random draws.", "anchors": ["src/pyqcstrc/dode2/occupation_domain.py: outline", "src/pyqcstrc/dode2/utils.py: surface_cleaner", "src/pyqcstrc/dode2/utils.py: generator_unique_edges"]}
{"id": "C103", "title": "The border edges of an object are the edges of the flat parts of its boundary", "statement": "For a well-formed object whose tetrahedra fit together, whatever the random draws, the segments returned by generate_border_edges cover every edge of every flat part of the boundary. If moreover the tetrahedra fit edge to edge and the draws find a triple of corners that is not nearly collinear, the segments cover exactly those edges; hence two objects that occupy the same points have border edges that cover the same points, however they are cut into tetrahedra.", "quantifier": "all well-formed objects whose tetrahedra fit together and for which the tolerances of the code do not matter; all random draws (all those that find a triple, for the equality)", "why_tests_cant": "Equality of two infinite sets of points for any number of tetrahedra in any arrangement and for every outcome of the random draws.", "anchors": ["src/pyqcstrc/ico2/occupation_domain.py: generate_border_edges", "src/pyqcstrc/ico2/utils.py: surface_cleaner", "src/pyqcstrc/ico2/utils.py: generator_surface_1"]}
{"id": "C104", "title": "The surface with rounding", "statement": "With floating-point rounding, for a well-formed object of moderate size whose different faces do not nearly coincide, generator_surface_1 returns triangles that cover the boundary of the object. If moreover the tetrahedra fit face to face and equal corners are given by the same 6D vector, the triangles cover exactly the boundary.", "quantifier": "all well-formed objects of moderate size, all arithmetics accurate to one unit roundoff (binary64 among them)", "why_tests_cant": "Equality of two infinite sets of points for any object, with the rounding errors of every operation.", "anchors": ["src/pyqcstrc/ico2/utils.py: generator_surface_1", "src/pyqcstrc/ico2/numericalc.py: get_internal_component_numerical"]}
{"id": "C105", "title": "The outline and the border edges with rounding", "statement": "With floating-point rounding and whatever the random draws, dode2's outline covers the boundary of a flat object and ico2's generate_border_edges covers the edges of the flat parts of the boundary of an object, for objects of moderate size whose parts fit together with some margin. They cover nothing else if the parts fit edge to edge and the draws find a triple of corners that is clearly not collinear.", "quantifier": "all such objects, all arithmetics accurate to one unit roundoff (binary64 among them), all random draws (all those that find a clear triple, for the equality)", "why_tests_cant": "Equality of two infinite sets of points for any object and any outcome of the random draws, with the rounding errors of every operation.", "anchors": ["src/pyqcstrc/dode2/occupation_domain.py: outline", "src/pyqcstrc/ico2/occupation_domain.py: generate_border_edges", "src/pyqcstrc/ico2/utils.py: surface_cleaner", "src/pyqcstrc/dode2/utils.py: surface_cleaner"]}
{"id": "C106", "title": "Laws of the intersection", "statement": "For objects whose pieces are resolved against each other by the tolerances, intersection behaves like the intersection of sets. Its exact volume (area in dode2), and the points it covers up to volume zero, do not depend on kind, on the random draws or on how convex hulls are tiled. They stay the same when the two objects are exchanged, when one of them is given in parts, and when three objects are intersected in the other grouping. An object inside the other comes back with its exact volume. Moving both objects by a symmetry operation or by a shift moves the result. The call returns in dode2, and in ico2 whenever tetrahedra that touch have a common interior point.", "quantifier": "all such pairs of ico2 objects and of level dode2 objects (triples for the grouping), all symmetry operations, centres and shifts, all kinds, random draws and tilings", "why_tests_cant": "The laws relate calls on arbitrary objects, in which tetrahedra, random draws and tilings differ from call to call, and compare infinite sets of points and exact volumes.", "anchors": ["src/pyqcstrc/ico2/two_occupation_domains.py: intersection", "src/pyqcstrc/ico2/intsct.py: intersection_two_obj_1, intersection_two_tetrahedron_4", "src/pyqcstrc/ico2/symmetry.py: symop_obj", "src/pyqcstrc/ico2/occupation_domain.py: shift, volume", "src/pyqcstrc/dode2/two_occupation_domains.py: intersection", "src/pyqcstrc/dode2/intsct.py: intersection_two_obj_1, intersection_two_triangles", "src/pyqcstrc/dode2/symmetry.py: symop_obj", "src/pyqcstrc/dode2/occupation_domain.py: shift, volume"]}
{"id": "C107", "title": "Intersections may be computed in the asymmetric unit", "statement": "Let two objects (level objects in dode2) lie in one asymmetric unit of a site. Applying symmetric to their intersection gives the common part of their symmetric objects, up to volume zero, and its exact volume (area in dode2) is the volume of that common part. Intersecting the symmetric objects directly gives the same exact volume and covers the same points up to volume zero.", "quantifier": "all pairs of objects in an asymmetric unit whose tetrahedra are resolved against each other (against all symmetry copies for the direct intersection), all centres, kinds, random draws and tilings", "why_tests_cant": "It compares two computations over 120 or 24 copies of arbitrary objects, by infinite sets of points and by exact volumes.", "anchors": ["src/pyqcstrc/ico2/two_occupation_domains.py: intersection", "src/pyqcstrc/ico2/occupation_domain.py: symmetric, volume", "src/pyqcstrc/ico2/symmetry.py: icosasymop, generator_obj_symmetric_obj", "src/pyqcstrc/dode2/two_occupation_domains.py: intersection", "src/pyqcstrc/dode2/occupation_domain.py: symmetric, volume", "src/pyqcstrc/dode2/symmetry.py: dodesymop, generator_obj_symmetric_obj"]}
{"id": "C108", "title": "Intersection of dode2 objects with 64-bit integers and rounding", "statement": "With 64-bit integers that wrap around and rounded comparisons: it can be computed beforehand, from the two dode2 objects alone, whether all integer computations their intersection may need stay exact. If they do, kind 'standard' returns the same pieces in the same order, or raises the same error, as with unbounded integers. If the objects are also resolved in spite of rounding, nothing but a set of area zero is lost, for both kinds, and kind 'standard' returns nothing outside the common part.", "quantifier": "all pairs of objects that pass the computed test, every floating-point arithmetic with the accuracy of binary64, both kinds, every triangulation that fills the hull", "why_tests_cant": "Overflow is silent and depends on the sizes of intermediate results, which depend on the outcome of every rounded comparison and on the triangulation.", "anchors": ["src/pyqcstrc/dode2/two_occupation_domains.py: intersection", "src/pyqcstrc/dode2/intsct.py: intersection_two_obj_1, intersection_two_triangles, intersection_two_segment, rough_check_intersection_triangle_obj", "src/pyqcstrc/dode2/utils.py: triangulation_points, triangle_area_6d", "src/pyqcstrc/dode2/math1.py: add, sub, mul, div, projection3"]}
{"id": "C109", "title": "The conditions for flat objects can be computed exactly", "statement": "Whether two dode2 objects meet all conditions under which the rounded comparisons of their intersection decide as over the real numbers can be computed from their coordinates with integers alone, without rounding: for a pair of triangles at one height the computed answer is True exactly when the pair is resolved in spite of rounding, and likewise for the size of the coordinates and for the common height. When the answer for two objects is True, the pairs of triangles are classified as by their geometry, nothing but a set of area zero is lost from the intersection, and kind 'standard' returns nothing outside; also with 64-bit integers if their computed condition holds too.", "quantifier": "all pairs of triangles and objects, every whole-number bound on the coordinates from 1 to 8, every floating-point arithmetic with the accuracy of binary64, both kinds, every triangulation that fills the hull", "why_tests_cant": "The conditions are inequalities between irrational numbers; evaluating them with the very floating-point numbers whose trust is in question would settle nothing.", "anchors": ["src/pyqcstrc/dode2/two_occupation_domains.py: intersection", "src/pyqcstrc/dode2/intsct.py: intersection_two_obj_1, check_intersection_two_triangles, intersection_two_triangles, rough_check_intersection_triangle_obj", "src/pyqcstrc/dode2/numericalc.py: inside_outside_triangle, numeric_value, check_intersection_two_segment_numerical, get_internal_component_numerical"]}
{"id": "C110", "title": "The intersection of touching pieces returns, and adds no corners", "statement": "Two tetrahedra whose common part has no interior point (they meet in a corner, an edge, a triangle or a polygon) and whose contact is not too narrow give None, whatever three points are sampled for the coplanarity check and without a call of the triangulation library; so the intersection of two resolved objects returns a value although pieces touch, and it covers their intersection up to volume zero. All corners of the returned pieces are corners of the common part of two input pieces, and every corner of a solid common part occurs. The same holds in floating-point arithmetic with a slightly wider contact, and the condition on the width can be computed exactly. It cannot be left out: for a contact in a small quadrilateral a flat tetrahedron is returned instead of None.", "quantifier": "all pairs of non-degenerate tetrahedra and objects in resolved position, all sampled triples, both kinds, every triangulation that fills the hull; with rounding every arithmetic with the accuracy of binary64 and every bound on the coordinates up to 3", "why_tests_cant": "Whether the check says coplanar depends on which points are drawn at random and on how the corners lie; a test sees one draw of one contact.", "anchors": ["src/pyqcstrc/ico2/intsct.py: intersection_two_tetrahedron_4, intersection_two_obj_1", "src/pyqcstrc/ico2/numericalc.py: coplanar_check_numeric_tau, coplanar_check_numeric", "src/pyqcstrc/ico2/utils.py: remove_doubling_in_perp_space, tetrahedralization_points", "src/pyqcstrc/ico2/two_occupation_domains.py: intersection"]}
{"id": "C111", "title": "The intersection of flat objects returns when triangles only touch, and adds no corners", "statement": "Two triangles at one height whose edges cross or touch give None exactly when their common part has no interior (they meet in a point or along an edge), and otherwise pieces that cover exactly the common part and whose corners are all the corners of the common part and no other points. So the intersection of two resolved objects returns a value although triangles touch, covers their intersection up to area zero, and with kind 'standard' covers nothing else. The same holds in floating-point arithmetic, with 64-bit integers, and under conditions computed exactly from the coordinates.", "quantifier": "all pairs of triangles and objects at one height in resolved position, both kinds, every triangulation that fills the hull; with rounding every arithmetic with the accuracy of binary64 and every bound on the coordinates from 1 to 8", "why_tests_cant": "Whether the function gets through without an exception depends on how many distinct points the pair contributes; a test sees one contact of one shape.", "anchors": ["src/pyqcstrc/dode2/two_occupation_domains.py: intersection", "src/pyqcstrc/dode2/intsct.py: intersection_two_obj_1, check_intersection_two_triangles, intersection_two_triangles", "src/pyqcstrc/dode2/utils.py: triangulation_points, remove_doubling_in_perp_space"]}
{"id": "C112", "title": "The volume of an intersection computed in floating-point arithmetic is the measure of the common part", "statement": "The corners and volumes of an intersection are exact integers but the tests that select them are made in floating-point arithmetic. Whatever that arithmetic, the random draws and the triangulation library do, the two kinds of intersection raise the same exception, both give None, or give objects of exactly equal volume (area for dode2). If the pieces of each object do not overlap, every pair is resolved in spite of rounding, and the library answers for the rounded corners with a tiling of the hull of the corners, the exact volume of the result is the Lebesgue measure of the common part, None is returned only when that is zero, and the returned pieces do not overlap and cover nothing outside the common part, up to measure zero.", "quantifier": "all well formed objects, both kinds, every rounding with the accuracy of binary64, every random draws; for the measure all objects without overlaps resolved at a bound R on the coordinates (1 to 1024 for ico2, 1 to 8 for dode2) and every library that tiles", "why_tests_cant": "A wrong verdict of one test changes the volume without any error; only a proof over all positions and roundings can exclude it.", "anchors": ["src/pyqcstrc/ico2/two_occupation_domains.py: intersection", "src/pyqcstrc/ico2/intsct.py: intersection_two_obj_1, intersection_two_tetrahedra", "src/pyqcstrc/ico2/utils.py: obj_volume_6d, tetrahedralization_points", "src/pyqcstrc/dode2/two_occupation_domains.py: intersection", "src/pyqcstrc/dode2/intsct.py: intersection_two_obj_1, intersection_two_triangles", "src/pyqcstrc/dode2/utils.py: obj_area_6d, triangulation_points"]}
{"id": "C113", "title": "The convex hull and the simplification of an object are right in floating-point arithmetic", "statement": "The convex hull is built from border edges found by floating-point tests and random samples, and simplification compares the exact volume of an intersection. With any arithmetic of the accuracy of binary64 and whatever is drawn, for pieces that fit together and are of moderate size the border edges can be computed, end in vertices of the object and reach every extreme point of its hull; if the library tiles hulls of vertices given their rounded coordinates, the hull is returned as pieces without overlap on vertices of the object that fill exactly its convex hull, with the exact volume of the hull. If the hull and the object are resolved in spite of rounding, simplification answers with the hull (dode2: always; ico2: or raises what the intersection raises, and does not raise for small coordinates and wide contacts), so a convex object keeps its region and its exact volume.", "quantifier": "all objects whose pieces fit together with a bound R on the coordinates (1 to 32; 1 to 8 for dode2 simplification), every rounding with the accuracy of binary64, every random draw, every library that tiles", "why_tests_cant": "The hull depends on random samples, thresholds and rounding; a lost vertex gives a smaller hull without any error.", "anchors": ["src/pyqcstrc/ico2/utils.py: generate_convex_hull, generate_border_edges, tetrahedralization_points", "src/pyqcstrc/ico2/occupation_domain.py: simplification", "src/pyqcstrc/dode2/utils.py: generate_convex_hull, generate_border_edges, triangulation_points", "src/pyqcstrc/dode2/occupation_domain.py: simplification"]}
{"id": "C114", "title": "The intersection computed in floating-point arithmetic obeys the laws of sets", "statement": "For two objects that are resolved in spite of rounding, the exact volume (ico2) or area (dode2) of the intersection and, up to volume zero, the points it covers do not depend on the floating-point arithmetic, the kind, the random draws or how the library tiles hulls, and are those found when every test is computed with real numbers. Exchanging the objects changes neither. Moving both objects by a vector or by a symmetry operation moves the intersection. An object inside another one is its intersection with it. The intersection with an object made of two parts is as large as the intersections with the parts together. The order in which three objects are intersected does not matter.", "quantifier": "all objects of pieces without overlap that are resolved in spite of rounding with a bound R on the coordinates (1 to 1024; 1 to 8 for dode2), every pair of roundings with the accuracy of binary64, every kind, random draw and library that tiles, every lattice shift and symmetry operation", "why_tests_cant": "Two runs with different rounding take different branches and return different pieces; that these always have the same exact volume cannot be sampled.", "anchors": ["src/pyqcstrc/ico2/two_occupation_domains.py: intersection", "src/pyqcstrc/ico2/intsct.py: intersection_two_obj_1", "src/pyqcstrc/ico2/symmetry.py: symop_obj", "src/pyqcstrc/ico2/occupation_domain.py: shift, volume", "src/pyqcstrc/dode2/two_occupation_domains.py: intersection", "src/pyqcstrc/dode2/intsct.py: intersection_two_obj_1"]}
{"id": "C115", "title": "Site symmetry and cosets of dodecagonal sites are right in floating-point arithmetic", "statement": "The symmetry operations of a site are found by comparing a length computed in floating-point arithmetic with 1e-6. With any arithmetic of the accuracy of binary64 and any order of summation, the operations returned include those that bring the site back to a distance below 1e-6 - 1e-11 after a listed translation, and no others than those that bring it back below 1e-6 + 1e-11; the identity is always returned. For a rational site with a common denominator up to 999990 they are exactly the operations that map the site to itself after a listed translation, so all arithmetics return the same operations and the same cosets. For a rational site in a reduced cell they are exactly the operations that fix the site modulo the lattice, they form a subgroup, and every operation lies in the coset of exactly one returned representative.", "quantifier": "all sites with a common denominator up to 2^62 whose first four coordinates are of moderate size (the last two are arbitrary), both values of ndim, every rounding with the accuracy of binary64, every way of adding six squares with the usual error bound", "why_tests_cant": "A threshold test on a rounded length may go either way near the threshold; that no rational site is affected concerns all sites and all roundings.", "anchors": ["src/pyqcstrc/dode2/symmetry.py: site_symmetry, coset, site_symmetry_and_coset", "src/pyqcstrc/dode2/numericalc.py: length_numerical, numerical_vector"]}
{"id": "C116", "title": "The asymmetric part of an object is right in floating-point arithmetic (ico2)", "statement": "Cutting an object to its asymmetric part decides every test in floating-point arithmetic. If the object and the tetrahedron spanned by the position and five times the three vectors are resolved in spite of rounding, then with any arithmetic of the accuracy of binary64, any draws and any tetrahedralisation that tiles the hulls: the result lies in both, misses only a set of measure zero of their common part, has no overlaps, and its exact volume is the volume of the common part; no result means that the common part has measure zero. The call returns if the contacts are also wide. For an icosahedrally symmetric object and vectors spanning the fundamental cone the exact volume of the result is at most 1/120 of that of the object, exactly 1/120 when five times the vectors reach far enough, and then generating the symmetric object from the result gives the object back up to measure zero. Anything but three vectors is refused with ValueError. Its exact volume, and what it covers up to measure zero, depend neither on the arithmetic nor on the draws nor on how hulls are tiled, and are those found when all tests are computed with real numbers. Only the values of the position and the vectors matter, not how the fractions are written.", "quantifier": "all objects, positions and triples of vectors with nonzero denominators that meet the stated margins, every rounding with the accuracy of binary64, all draws and library answers", "why_tests_cant": "Whether a threshold is crossed depends on roundings in every pair of tetrahedra; tests sample objects and one machine's rounding.", "anchors": ["src/pyqcstrc/ico2/occupation_domain.py: asymmetric", "src/pyqcstrc/ico2/intersection.py: intersection_two_obj_1", "src/pyqcstrc/ico2/math1.py: mul_vectors"]}
{"id": "C117", "title": "What simplification can answer with, for every object", "statement": "For every object, whatever is drawn and whatever the tetrahedralisation or triangulation library answers, in exact and in floating-point arithmetic: simplification answers None exactly for an empty object. Otherwise its answer is the computed convex hull if the intersection of the hull with the object has exactly the size (volume or area) of the object, and the object itself, unchanged, if not. If no hull is found a TypeError is raised, if hull and object have no intersection an AttributeError, and exceptions of these steps are passed on.", "quantifier": "all ico2 and dode2 objects with nonzero denominators, convex or not, resolved or not; all draws; all library answers; every rounding with the accuracy of binary64", "why_tests_cant": "Which branch is taken depends on a library answer and on draws; no test covers all of them, and the None answer for a non-empty object must never occur.", "anchors": ["src/pyqcstrc/ico2/occupation_domain.py: simplification", "src/pyqcstrc/dode2/occupation_domain.py: simplification", "src/pyqcstrc/ico2/utils.py: generate_convex_hull", "src/pyqcstrc/dode2/utils.py: generate_convex_hull"]}
{"id": "C118", "title": "Atomic structures generated from dodecagonal occupation domains", "statement": "The Cython function strc lists an atom for a domain and a lattice point of the box exactly when the (phason-strained) perpendicular component of the lattice point, less that of the shift, is in a triangle of the domain up to an area of 1e-6. No lattice point whose component is in the domain is missing, and for a level domain with triangles of at least the area A no barycentric coordinate of a listed one is below -1e-6/(2A). The rows are in strictly increasing order of indices and domain, different lattice points of one domain have different places, a larger box only adds rows with larger indices, a zero phason matrix is the same as none, and without strain the atoms of a bounded domain keep a distance that does not depend on the size of the box. A triangle with three equal corners accepts every lattice point.", "quantifier": "all lists of domains with nonzero denominators, all phason matrices, all box sizes, all shifts; real arithmetic", "why_tests_cant": "The box has (2n+1)^4 points for every n, and the distance bound speaks about all n at once and rests on the irrationality of the square root of 3.", "anchors": ["src_cython/dode/strc12.pyx: strc", "src_cython/dode/numericalc12.pyx: inout_occupation_domain_numerical, inside_outside_triangle_numerical, projection_1_numerical, projection_2_numerical"]}
{"id": "C119", "title": "Projections of icosahedral reflection indices", "statement": "In Elser's setting the parallel and perpendicular components of a reflection are the projections of the 6D index vector scaled by 1/sqrt(2+tau), their squared lengths add up to twice that of the index vector, and different reflections have different parallel and different perpendicular components. In the setting of Cahn, Shechtman and Gratias different reflections have different parallel components; the perpendicular component is wrong (a reflection that is not zero is sent to zero; with the other sign of one index the lengths add up). The phason shift is the matrix product exactly for matrices that meet four equations.", "quantifier": "all integer index vectors, all phason matrices; real arithmetic", "why_tests_cant": "Distinctness over all integer vectors rests on the irrationality of tau; floating-point values of different reflections come arbitrarily close.", "anchors": ["src_cython/ico/reciprocal.pyx: projection_qpar_ico_elser, projection_qperp_ico_elser, projection_qpar_ico_csg, projection_qperp_ico_csg, lphason"]}
{"id": "C120", "title": "The Cython scalar arithmetic agrees with the Python one", "statement": "add, mul and div of the Cython packages give the same triples as those of ico2 (icosahedral) and dode2 (dodecagonal, decagonal) and fail for the same inputs; sub gives the same triples for nonzero denominators. Hence they are the field operations with results in lowest terms. The decagonal package computes with the square root of 3, so its product is not that of the golden ratio.", "quantifier": "all pairs of integer triples (for sub: with nonzero denominators); integers without wrap-around", "why_tests_cant": "The two versions of sub take different routes through gcd and sign; agreement is claimed for all integers.", "anchors": ["src_cython/ico/math1.pyx: add, sub, mul, div", "src_cython/dode/math12.pyx: add, sub, mul, div", "src_cython/deca/math10.pyx: add, sub, mul, div"]}
