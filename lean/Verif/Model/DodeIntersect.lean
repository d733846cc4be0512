import Verif.Model.Intersect
/-!
# Model: intersection of triangles, convex hull and simplification in dode2

Files: dode2/numericalc.py, dode2/intsct.py, dode2/utils.py, dode2/occupation_domain.py,
dode2/two_occupation_domains.py. Numerical tests are made over the real numbers; `scipy.spatial.Delaunay` (in the plane)
is a parameter.
-/
namespace PyQC
namespace Dode
open Matrix

/-! ## Numerical tests -/

/-- `get_internal_component_sets_numerical`, dode2/numericalc.py:645-654, on an array of shape (m,6,3). -/
noncomputable def internalSetsNumerical {m : Nat} (vts : Simplex m) : Fin m → Fin 3 → ℝ :=
  fun i => projection3Numerical (numericalVector sin60 (vts i))

open Classical in
/-- `check_intersection_two_segment_numerical`, dode2/numericalc.py:349-433. -/
noncomputable def segmentsMeet (ln1 ln2 : Fin 2 → Fin 3 → ℝ) : Bool :=
  let vecAB := ln1 1 - ln1 0
  let vecAC := ln2 0 - ln1 0
  let vecCD := ln2 1 - ln2 0
  let t1 := vecAC ⬝ᵥ vecCD * vecCD ⬝ᵥ vecAB - vecCD ⬝ᵥ vecCD * vecAC ⬝ᵥ vecAB
  let t2 := vecAB ⬝ᵥ vecCD * vecCD ⬝ᵥ vecAB - vecAB ⬝ᵥ vecAB * vecCD ⬝ᵥ vecCD
  if |t2| < EPS then false
  else
    let s := t1 / t2
    let t := (-(vecAC ⬝ᵥ vecCD) + s * vecAB ⬝ᵥ vecCD) / vecCD ⬝ᵥ vecCD
    if s ≥ 0 ∧ s ≤ 1 ∧ t ≥ 0 ∧ t ≤ 1 then
      let dd := ∑ i, ((ln2 0 i - ln1 0 i) - s * (ln1 1 i - ln1 0 i) + t * (ln2 1 i - ln2 0 i)) ^ 2
      if dd < EPS then true else false
    else false

/-- `check_intersection_two_segment_numerical_6d_tau`, dode2/numericalc.py:327-347. -/
noncomputable def segmentsMeetTau (s1 s2 : Simplex 2) : Bool :=
  segmentsMeet (internalSetsNumerical s1) (internalSetsNumerical s2)

/-- Edge combinations of a triangle, dode2/numericalc.py:312-313, dode2/intsct.py:168-171, 297, 353-356. -/
def combE : List (Fin 3 × Fin 3) := [(0, 1), (0, 2), (1, 2)]

/-- `check_intersection_segment_surface_numerical`, dode2/numericalc.py:250-325: some edge of the triangle meets the
segment. -/
noncomputable def segmentMeetsTriangle (ln : Fin 2 → Fin 3 → ℝ) (tr : Fin 3 → Fin 3 → ℝ) : Bool :=
  combE.any fun j => segmentsMeet ln ![tr j.1, tr j.2]

/-- `check_intersection_segment_surface_numerical_6d_tau`, dode2/numericalc.py:231-247. -/
noncomputable def segmentMeetsTriangleTau (segment : Simplex 2) (triangle : Simplex 3) : Bool :=
  segmentMeetsTriangle (internalSetsNumerical segment) (internalSetsNumerical triangle)

open Classical in
/-- `inside_outside_triangle`, dode2/numericalc.py:533-566. `small_triangle` makes an array of four rows; the fourth is
not used by `triangle_area_numerical`. -/
noncomputable def insideTriangle (pt : Fin 3 → ℝ) (t : Fin 3 → Fin 3 → ℝ) : Bool :=
  let area0 := Ico.triangleAreaNumerical t
  let area1 := Ico.triangleAreaNumerical (Ico.smallTriangle 0 pt t)
  let area2 := Ico.triangleAreaNumerical (Ico.smallTriangle 1 pt t)
  let area3 := Ico.triangleAreaNumerical (Ico.smallTriangle 2 pt t)
  if |area0 - area1 - area2 - area3| < EPS * area0 then true else false

/-- `inside_outside_triangle_tau`, dode2/numericalc.py:519-531. -/
noncomputable def insideTau (v : Vec 6) (t : Simplex 3) : Bool :=
  insideTriangle (projection3Numerical (numericalVector sin60 v)) (internalSetsNumerical t)

/-- `inside_outside_obj`, dode2/numericalc.py:499-517: the loop body uses the unassigned name `triangle`, so the
function raises NameError unless the object is empty; then it returns True. -/
def insideOutsideObj (_pt : Fin 3 → ℝ) (o : List (Fin 3 → Fin 3 → ℝ)) : Py Bool :=
  match o with
  | [] => .ok true
  | _ :: _ => .error .nameError

/-! ## Two triangles -/

/-- `np.stack` of two vertices. -/
def segmentOf (t : Simplex 3) (e : Fin 3 × Fin 3) : Simplex 2 := ![t e.1, t e.2]

/-- `check_intersection_two_triangles`, dode2/intsct.py:99-192. -/
noncomputable def checkTwoTriangles (s t : Simplex 3) : Nat :=
  if (List.ofFn s).all fun v => insideTau v t then 1
  else if (List.ofFn t).all fun v => insideTau v s then 2
  else if combE.any fun c => segmentMeetsTriangleTau (segmentOf s c) t ||
      segmentMeetsTriangleTau (segmentOf t c) s then 3
  else 0

/-- `intersection_two_segment`, dode2/intsct.py:194-248. `div` returning `None` makes the following `mul_vector` raise
TypeError. -/
noncomputable def intersectionTwoSegment (segment1 segment2 : Simplex 2) : Py (Option (Vec 6)) :=
  if segmentsMeetTau segment1 segment2 then do
    let vecAB6 ← subVectors arith (segment1 1) (segment1 0)
    let vecAB ← projection3 vecAB6
    let tmp ← subVectors arith (segment2 1) (segment2 0)
    let vecCD ← projection3 tmp
    let tmp ← subVectors arith (segment2 0) (segment1 0)
    let vecAC ← projection3 tmp
    let tmp1 ← innerProduct arith vecAB vecCD
    let tmp1 ← needSome tmp1
    let tmp2 ← innerProduct arith vecCD vecAB
    let tmp2 ← needSome tmp2
    let tmp3 ← mul tmp1 tmp2
    let tmp1 ← innerProduct arith vecAB vecAB
    let tmp1 ← needSome tmp1
    let tmp2 ← innerProduct arith vecCD vecCD
    let tmp2 ← needSome tmp2
    let tmp4 ← mul tmp1 tmp2
    let bunbo ← sub tmp3 tmp4
    let tmp1 ← innerProduct arith vecAC vecCD
    let tmp1 ← needSome tmp1
    let tmp2 ← innerProduct arith vecCD vecAB
    let tmp2 ← needSome tmp2
    let tmp3 ← mul tmp1 tmp2
    let tmp1 ← innerProduct arith vecCD vecCD
    let tmp1 ← needSome tmp1
    let tmp2 ← innerProduct arith vecAC vecAB
    let tmp2 ← needSome tmp2
    let tmp4 ← mul tmp1 tmp2
    let bunshi ← sub tmp3 tmp4
    let s ← needSome (div bunshi bunbo)
    let tmp ← mulVector arith vecAB6 s
    let r ← addVectors arith (segment1 0) tmp
    .ok (some r)
  else .ok none

/-- `intersection_segment_surface`, dode2/intsct.py:250-316: the crossings with the three edges; `None`, here the empty
list, if there is none. -/
noncomputable def intersectionSegmentSurface (segment : Simplex 2) (surface : Simplex 3) : Py (List (Vec 6)) :=
  if segmentMeetsTriangleTau segment surface then
    foldPy (fun acc j => do
      let v ← intersectionTwoSegment segment (segmentOf surface j)
      .ok (acc ++ v.toList)) [] combE
  else .ok []

/-- The loop over the edges, dode2/intsct.py:358-383: the points collected in `tmp` and `counter`, which counts the
edges with at least one crossing. -/
noncomputable def crossingPoints (s t : Simplex 3) : Py (List (Vec 6) × Nat) :=
  foldPy (fun acc c => do
    let v ← intersectionSegmentSurface (segmentOf s c) t
    let acc := (acc.1 ++ v, if v = [] then acc.2 else acc.2 + 1)
    let w ← intersectionSegmentSurface (segmentOf t c) s
    .ok (acc.1 ++ w, if w = [] then acc.2 else acc.2 + 1)) ([], 0) combE

/-! ### Triangulation -/

/-- Outcome of `Delaunay(points)` in the plane, dode2/utils.py:578-589: `none` when it raises (the result is then
`None`), else the vertex numbers of the simplices. -/
abbrev Delaunay2 := List (Fin 2 → ℝ) → Option (List (Fin 3 → Nat))

/-- `np.array([points[i[0]],points[i[1]],points[i[2]]])`, dode2/utils.py:604. -/
def pickSimplex (points : List (Vec 6)) (i : Fin 3 → Nat) : Py (Simplex 3) :=
  fillFin 3 fun k => getIdx points (i k)

/-- The loop over the simplices, dode2/utils.py:603-613: keep those of non-zero area. -/
def keepSimplices (points : List (Vec 6)) : List (Fin 3 → Nat) → Py (Obj 3)
  | [] => .ok []
  | i :: rest => do
    let tmp3 ← pickSimplex points i
    let vol ← triangleArea6d tmp3
    let r ← keepSimplices points rest
    if vol.a = 0 ∧ vol.b = 0 then .ok r else .ok (tmp3 :: r)

/-- `triangulation_points`, dode2/utils.py:591-619. An empty list of simplices also gives `None`. -/
noncomputable def triangulationPoints (delaunay : Delaunay2) (points : List (Vec 6)) : Py (Option (Obj 3)) := do
  let tmp ← fillList (fun v => do
    let w ← projection3 v
    let n := numericalVector sin60 w
    .ok (![n 0, n 1] : Fin 2 → ℝ)) points
  match delaunay tmp with
  | none => .ok none
  | some ltmp => do
    let r ← keepSimplices points ltmp
    if r.length ≠ 0 then .ok (some r) else .ok none

/-- `tmp.reshape(1,3,6,3)` of three points. -/
def reshape3 (pts : List (Vec 6)) : Py (Obj 3) :=
  if h : pts.length = 3 then .ok [fun i => pts.get (Fin.cast h.symm i)] else .error .valueError

/-- The part of `intersection_two_triangles` after the points have been collected, dode2/intsct.py:405-420. -/
noncomputable def triangulateCommon (delaunay : Delaunay2) (tmp : List (Vec 6)) (counter : Nat) : Py (Option (Obj 3)) :=
  if counter ≥ 3 then do
    let tmp ← removeDoublingPerp .dode tmp
    if tmp.length > 3 then triangulationPoints delaunay tmp
    else if tmp.length = 3 then do
      let o ← reshape3 tmp
      .ok (some o)
    else .ok none
  else .ok none

/-- `intersection_two_triangles`, dode2/intsct.py:318-420. When no edge has a crossing, `tmp` is unassigned at line
384. -/
noncomputable def intersectionTwoTriangles (delaunay : Delaunay2) (s t : Simplex 3) : Py (Option (Obj 3)) := do
  let (pts, counter) ← crossingPoints s t
  if counter = 0 then .error .unboundLocalError
  else do
    let in1 := (List.ofFn s).filter fun v => insideTau v t
    let in2 := (List.ofFn t).filter fun v => insideTau v s
    triangulateCommon delaunay (pts ++ in1 ++ in2) (counter + in1.length + in2.length)

/-! ### Two objects -/

/-- The loop over the triangles of `obj2` for one triangle of `obj1`, dode2/intsct.py:465-504: returns whether the loop
was left with `flag==1`, and the pieces collected in `tmp_common4`. -/
def innerLoop (flag : Simplex 3 → Simplex 3 → Py Nat) (inter : Simplex 3 → Simplex 3 → Py (Option (Obj 3)))
    (t1 : Simplex 3) : Obj 3 → Obj 3 → Py (Bool × Obj 3)
  | acc, [] => .ok (false, acc)
  | acc, t2 :: rest => do
    let f ← flag t1 t2
    if f = 1 then .ok (true, acc)
    else if f = 2 then innerLoop flag inter t1 (acc ++ [t2]) rest
    else if f = 3 then do
      let r ← inter t1 t2
      match r with
      | none => innerLoop flag inter t1 acc rest
      | some o => innerLoop flag inter t1 (acc ++ o) rest
    else innerLoop flag inter t1 acc rest

/-- What one triangle of `obj1` adds to `common4`, dode2/intsct.py:458-554. `select` is 'simple' or anything else. -/
def onePiece (select : Ico.Kind) (rough : Simplex 3 → Py Bool) (flag : Simplex 3 → Simplex 3 → Py Nat)
    (inter : Simplex 3 → Simplex 3 → Py (Option (Obj 3))) (obj2 : Obj 3) (t1 : Simplex 3) : Py (Obj 3) := do
  let r ← rough t1
  if r then do
    let (inside, tmp) ← innerLoop flag inter t1 [] obj2
    let first : Obj 3 := if inside then [t1] else []
    if tmp.length ≠ 0 then
      match select with
      | .simple => do
        let vol1 ← triangleArea6d t1
        let vol2 ← objArea6d (.d4 tmp)
        if some vol1 = vol2 then .ok (first ++ [t1]) else .ok (first ++ tmp)
      | .standard => .ok (first ++ tmp)
    else .ok first
  else .ok []

/-- `intersection_two_obj_1`, dode2/intsct.py:422-560, for given outcomes of the rough check, of the classification and
of the intersection of two triangles. -/
def intersectionTwoObj (select : Ico.Kind) (rough : Simplex 3 → Py Bool) (flag : Simplex 3 → Simplex 3 → Py Nat)
    (inter : Simplex 3 → Simplex 3 → Py (Option (Obj 3))) (obj1 obj2 : Obj 3) : Py (Option (Obj 3)) := do
  let parts ← fillList (onePiece select rough flag inter obj2) obj1
  if parts.flatten.length ≠ 0 then .ok (some parts.flatten) else .ok none

/-- `intersection_two_obj_1` with the code's own tests; `delaunay` may differ for each pair. -/
noncomputable def intersectionTwoObj1 (select : Ico.Kind) (delaunay : Simplex 3 → Simplex 3 → Delaunay2)
    (obj1 obj2 : Obj 3) : Py (Option (Obj 3)) := do
  let cent2 ← centroidObj arith obj2
  let dd2 ← ballRadiusObj .dode obj2 cent2
  intersectionTwoObj select (fun t => roughCheck .dode t cent2 dd2) (fun s t => .ok (checkTwoTriangles s t))
    (fun s t => intersectionTwoTriangles (delaunay s t) s t) obj1 obj2

/-- `intersection`, dode2/two_occupation_domains.py:23-62: `None` unless both arguments have four dimensions.
Simplification: pieces with other numbers of vertices than three are not modelled (result `None`). -/
noncomputable def intersectionApi (select : Ico.Kind) (delaunay : Simplex 3 → Simplex 3 → Delaunay2) (a b : NdArr) :
    Py (Option (Obj 3)) :=
  match a, b with
  | @NdArr.d4 3 o1, @NdArr.d4 3 o2 => intersectionTwoObj1 select delaunay o1 o2
  | _, _ => .ok none

/-! ## Convex intersection, subtraction -/

/-- The first part of `intersection_two_obj_convex`, dode2/intsct.py:589-617: the loop over the vertices of `obj1` calls
the undefined name `inside_outside_ttriangle_tau` for the first triangle of `obj2`. -/
def convexFirstLoop (vertices1 : List (Vec 6)) (obj2 : Obj 3) : Py Unit :=
  match vertices1, obj2 with
  | _ :: _, _ :: _ => .error .nameError
  | _, _ => .ok ()

/-- `intersection_two_obj_convex`, dode2/intsct.py:562-701, up to the end of the first loop. With two non-empty objects
the rest is never reached; it is not modelled, and stands for any outcome. -/
noncomputable def intersectionTwoObjConvex (rest : Py (Option (Obj 3))) (obj1 obj2 : Obj 3) : Py (Option (Obj 3)) := do
  let edge1 ← generatorUniqueEdges .dode obj1
  let _ ← generatorUniqueEdges .dode obj2
  let vertices1 ← removeDoublingPerp .dode (flattenObj edge1)
  let _ ← convexFirstLoop vertices1 obj2
  rest

/-- `intersection_convex`, dode2/two_occupation_domains.py:64-93. -/
noncomputable def intersectionConvexApi (rest : Py (Option (Obj 3))) (a b : NdArr) : Py (Option (Obj 3)) :=
  match a, b with
  | @NdArr.d4 3 o1, @NdArr.d4 3 o2 => intersectionTwoObjConvex rest o1 o2
  | _, _ => .ok none

/-- `subtraction_two_obj`, dode2/intsct.py:708-764: the first statement calls `generator_surface_1`, whose import is
commented out (dode2/intsct.py:43). -/
def subtractionTwoObj (_obj1 _obj2 : Obj 3) : Py (Option (Obj 3)) := .error .nameError

/-- `subtraction`, dode2/two_occupation_domains.py:95-120. -/
def subtractionApi (a b : NdArr) : Py (Option (Obj 3)) :=
  match a, b with
  | @NdArr.d4 3 o1, @NdArr.d4 3 o2 => subtractionTwoObj o1 o2
  | _, _ => .ok none

/-- `generate_border_edges`, dode2/occupation_domain.py:1122-1137: `utils` has no `generator_surface_1`. -/
def generateBorderEdges (_obj : Obj 3) : Py (Obj 2) := .error .attributeError

/-! ## Convex hull, simplification -/

/-- `generate_convex_hull`, dode2/utils.py:298-325. -/
noncomputable def generateConvexHull (draws : Nat → Nat → (n : Nat) → Draws n) (delaunay : Delaunay2) (obj : Obj 3) :
    Py (Option (Obj 3)) := do
  let edges ← surfaceCleaner .dode (surfaceCop .dode draws obj) obj
  let vts ← removeDoublingPerpApi .dode (.d4 edges)
  triangulationPoints delaunay vts

/-- `simplification`, dode2/occupation_domain.py:1084-1120. `np.all(obj==None)` is true of `None` and of an empty array,
which are both the argument `[]` here; the result is then `None`. When the hull is `None` the loop of
`intersection_two_obj_1` raises TypeError; when the intersection is `None`, `obj_area_6d` raises AttributeError. -/
noncomputable def simplification (hd : Nat → Nat → (n : Nat) → Draws n) (hl : Delaunay2)
    (delaunay : Simplex 3 → Simplex 3 → Delaunay2) (obj : Obj 3) : Py (Option (Obj 3)) :=
  if obj = [] then .ok none
  else do
    let vol0 ← objArea6d (.d4 obj)
    let hull ← generateConvexHull hd hl obj
    match hull with
    | none => .error .typeError
    | some hull => do
      let tmp ← intersectionTwoObj1 .standard delaunay hull obj
      match tmp with
      | none => .error .attributeError
      | some tmp => do
        let vol1 ← objArea6d (.d4 tmp)
        if vol0 = vol1 then .ok (some hull) else .ok (some obj)

end Dode
end PyQC
