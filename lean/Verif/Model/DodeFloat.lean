import Verif.Model.MachineVec
import Verif.Model.DodeIntersect
/-!
# The numerical tests of dode2 with rounding

The functions of `dode2/numericalc.py` and `dode2/intsct.py` as in `Model/DodeIntersect.lean`, but with a rounding after
every floating-point operation, as in `Model/Float.lean`. The square `x**2` is taken to be the rounded product `x*x`.
-/
namespace PyQC
namespace Float64
variable (F : Float64)

/-- `numeric_value`, dode2/numericalc.py:163-175, with `TAU=np.sqrt(3)/2.0`, dode2/numericalc.py:10. -/
noncomputable def dodeValue (t : Num3) : ℝ :=
  F.fl (F.fl (F.fl t.a + F.fl (F.fl t.b * F.SIN)) / F.fl t.c)

/-- `numerical_vector`, dode2/numericalc.py:177-192. -/
noncomputable def dodeVector {n : Nat} (v : Vec n) : Fin n → ℝ := fun i => F.dodeValue (v i)

/-- `projection3_numerical`, dode2/numericalc.py:686-700. -/
noncomputable def dodeProjection3 (vn : Fin 6 → ℝ) : Fin 3 → ℝ :=
  ![F.fl (F.fl (F.fl (-F.SIN * vn 0) + vn 1) - F.fl (1 / 2 * vn 3)),
    F.fl (F.fl (F.fl (-(1 / 2) * vn 0) + vn 2) - F.fl (F.SIN * vn 3)),
    vn 5]

/-- `get_internal_component_numerical` and `get_internal_component_sets_numerical`, dode2/numericalc.py:635-654. -/
noncomputable def dodeInternal (v : Vec 6) : Fin 3 → ℝ := F.dodeProjection3 (F.dodeVector v)

/-- `triangle_area_numerical`, dode2/numericalc.py:462-487. -/
noncomputable def triangleArea (t : Fin 3 → Fin 3 → ℝ) : ℝ :=
  let v1 := F.sub (t 1) (t 0)
  let v2 := F.sub (t 2) (t 0)
  let v3 := F.cross v2 v1
  let q : Fin 3 → ℝ := fun i => F.fl (v3 i * v3 i)
  F.fl (F.fl (Real.sqrt (F.fl (F.fl (q 0 + q 1) + q 2))) / 2)

open Classical in
/-- `inside_outside_triangle`, dode2/numericalc.py:533-566. -/
noncomputable def insideTriangle (pt : Fin 3 → ℝ) (t : Fin 3 → Fin 3 → ℝ) : Bool :=
  let area0 := F.triangleArea t
  let area1 := F.triangleArea (Ico.smallTriangle 0 pt t)
  let area2 := F.triangleArea (Ico.smallTriangle 1 pt t)
  let area3 := F.triangleArea (Ico.smallTriangle 2 pt t)
  if |F.fl (F.fl (F.fl (area0 - area1) - area2) - area3)| < F.fl (F.eps * area0) then true else false

/-- `inside_outside_triangle_tau`, dode2/numericalc.py:519-531. -/
noncomputable def dodeInsideTau (v : Vec 6) (t : Simplex 3) : Bool :=
  F.insideTriangle (F.dodeInternal v) fun i => F.dodeInternal (t i)

open Classical in
/-- `check_intersection_two_segment_numerical`, dode2/numericalc.py:349-433. -/
noncomputable def segmentsMeet (ln1 ln2 : Fin 2 → Fin 3 → ℝ) : Bool :=
  let vecAB := F.sub (ln1 1) (ln1 0)
  let vecAC := F.sub (ln2 0) (ln1 0)
  let vecCD := F.sub (ln2 1) (ln2 0)
  let t1 := F.fl (F.fl (F.dot vecAC vecCD * F.dot vecCD vecAB) - F.fl (F.dot vecCD vecCD * F.dot vecAC vecAB))
  let t2 := F.fl (F.fl (F.dot vecAB vecCD * F.dot vecCD vecAB) - F.fl (F.dot vecAB vecAB * F.dot vecCD vecCD))
  if |t2| < F.eps then false
  else
    let s := F.fl (t1 / t2)
    let t := F.fl (F.fl (-F.dot vecAC vecCD + F.fl (s * F.dot vecAB vecCD)) / F.dot vecCD vecCD)
    if s ≥ 0 ∧ s ≤ 1 ∧ t ≥ 0 ∧ t ≤ 1 then
      let term : Fin 3 → ℝ := fun i =>
        F.fl (F.fl (vecAC i - F.fl (s * vecAB i)) + F.fl (t * vecCD i))
      let dd := (List.finRange 3).foldl (fun dd i => F.fl (dd + F.fl (term i * term i))) 0
      if dd < F.eps then true else false
    else false

/-- `check_intersection_two_segment_numerical_6d_tau`, dode2/numericalc.py:327-347. -/
noncomputable def segmentsMeetTau (s1 s2 : Simplex 2) : Bool :=
  F.segmentsMeet (fun i => F.dodeInternal (s1 i)) fun i => F.dodeInternal (s2 i)

/-- `check_intersection_segment_surface_numerical`, dode2/numericalc.py:250-325. -/
noncomputable def segmentMeetsEdges (ln : Fin 2 → Fin 3 → ℝ) (tr : Fin 3 → Fin 3 → ℝ) : Bool :=
  Dode.combE.any fun j => F.segmentsMeet ln ![tr j.1, tr j.2]

/-- `check_intersection_segment_surface_numerical_6d_tau`, dode2/numericalc.py:231-247. -/
noncomputable def segmentMeetsEdgesTau (segment : Simplex 2) (triangle : Simplex 3) : Bool :=
  F.segmentMeetsEdges (fun i => F.dodeInternal (segment i)) fun i => F.dodeInternal (triangle i)

/-! ### Two triangles -/

/-- `check_intersection_two_triangles`, dode2/intsct.py:99-192. -/
noncomputable def checkTwoTriangles (s t : Simplex 3) : Nat :=
  if (List.ofFn s).all fun v => F.dodeInsideTau v t then 1
  else if (List.ofFn t).all fun v => F.dodeInsideTau v s then 2
  else if Dode.combE.any fun c => F.segmentMeetsEdgesTau (Dode.segmentOf s c) t ||
      F.segmentMeetsEdgesTau (Dode.segmentOf t c) s then 3
  else 0

/-- `intersection_two_segment`, dode2/intsct.py:194-248: the test is numerical, the point is computed with integers. -/
noncomputable def intersectionTwoSegment (segment1 segment2 : Simplex 2) : Py (Option (Vec 6)) :=
  if F.segmentsMeetTau segment1 segment2 then do
    let vecAB6 ← subVectors Dode.arith (segment1 1) (segment1 0)
    let vecAB ← Dode.projection3 vecAB6
    let tmp ← subVectors Dode.arith (segment2 1) (segment2 0)
    let vecCD ← Dode.projection3 tmp
    let tmp ← subVectors Dode.arith (segment2 0) (segment1 0)
    let vecAC ← Dode.projection3 tmp
    let tmp1 ← innerProduct Dode.arith vecAB vecCD
    let tmp1 ← needSome tmp1
    let tmp2 ← innerProduct Dode.arith vecCD vecAB
    let tmp2 ← needSome tmp2
    let tmp3 ← Dode.mul tmp1 tmp2
    let tmp1 ← innerProduct Dode.arith vecAB vecAB
    let tmp1 ← needSome tmp1
    let tmp2 ← innerProduct Dode.arith vecCD vecCD
    let tmp2 ← needSome tmp2
    let tmp4 ← Dode.mul tmp1 tmp2
    let bunbo ← Dode.sub tmp3 tmp4
    let tmp1 ← innerProduct Dode.arith vecAC vecCD
    let tmp1 ← needSome tmp1
    let tmp2 ← innerProduct Dode.arith vecCD vecAB
    let tmp2 ← needSome tmp2
    let tmp3 ← Dode.mul tmp1 tmp2
    let tmp1 ← innerProduct Dode.arith vecCD vecCD
    let tmp1 ← needSome tmp1
    let tmp2 ← innerProduct Dode.arith vecAC vecAB
    let tmp2 ← needSome tmp2
    let tmp4 ← Dode.mul tmp1 tmp2
    let bunshi ← Dode.sub tmp3 tmp4
    let s ← needSome (Dode.div bunshi bunbo)
    let tmp ← mulVector Dode.arith vecAB6 s
    let r ← addVectors Dode.arith (segment1 0) tmp
    .ok (some r)
  else .ok none

/-- `intersection_segment_surface`, dode2/intsct.py:250-316. -/
noncomputable def intersectionSegmentEdges (segment : Simplex 2) (surface : Simplex 3) : Py (List (Vec 6)) :=
  if F.segmentMeetsEdgesTau segment surface then
    foldPy (fun acc j => do
      let v ← F.intersectionTwoSegment segment (Dode.segmentOf surface j)
      .ok (acc ++ v.toList)) [] Dode.combE
  else .ok []

/-- The loop over the edges, dode2/intsct.py:358-383. -/
noncomputable def dodeCrossingPoints (s t : Simplex 3) : Py (List (Vec 6) × Nat) :=
  foldPy (fun acc c => do
    let v ← F.intersectionSegmentEdges (Dode.segmentOf s c) t
    let acc := (acc.1 ++ v, if v = [] then acc.2 else acc.2 + 1)
    let w ← F.intersectionSegmentEdges (Dode.segmentOf t c) s
    .ok (acc.1 ++ w, if w = [] then acc.2 else acc.2 + 1)) ([], 0) Dode.combE

/-- The coordinates handed to `Delaunay`, dode2/utils.py:593-600: the projection is exact, its conversion is rounded. -/
noncomputable def delaunayInput2 (points : List (Vec 6)) : Py (List (Fin 2 → ℝ)) :=
  fillList (fun v => do
    let w ← Dode.projection3 v
    let n := F.dodeVector w
    .ok (![n 0, n 1] : Fin 2 → ℝ)) points

/-- `triangulation_points`, dode2/utils.py:591-619. -/
noncomputable def triangulationPoints (delaunay : Dode.Delaunay2) (points : List (Vec 6)) : Py (Option (Obj 3)) := do
  let tmp ← F.delaunayInput2 points
  match delaunay tmp with
  | none => .ok none
  | some ltmp => do
    let r ← Dode.keepSimplices points ltmp
    if r.length ≠ 0 then .ok (some r) else .ok none

/-- The part of `intersection_two_triangles` after the points have been collected, dode2/intsct.py:405-420. -/
noncomputable def triangulateCommon (delaunay : Dode.Delaunay2) (tmp : List (Vec 6)) (counter : Nat) : Py (Option (Obj 3)) :=
  if counter ≥ 3 then do
    let tmp ← removeDoublingPerp .dode tmp
    if tmp.length > 3 then F.triangulationPoints delaunay tmp
    else if tmp.length = 3 then do
      let o ← Dode.reshape3 tmp
      .ok (some o)
    else .ok none
  else .ok none

/-- `intersection_two_triangles`, dode2/intsct.py:318-420. -/
noncomputable def intersectionTwoTriangles (delaunay : Dode.Delaunay2) (s t : Simplex 3) : Py (Option (Obj 3)) := do
  let (pts, counter) ← F.dodeCrossingPoints s t
  if counter = 0 then .error .unboundLocalError
  else do
    let in1 := (List.ofFn s).filter fun v => F.dodeInsideTau v t
    let in2 := (List.ofFn t).filter fun v => F.dodeInsideTau v s
    F.triangulateCommon delaunay (pts ++ in1 ++ in2) (counter + in1.length + in2.length)

/-! ### Two objects -/

/-- `distance_in_perp_space`, dode2/intsct.py:85-88, with `length_numerical`, dode2/numericalc.py:213-229. -/
noncomputable def dodeDistance (v w : Vec 6) : Py ℝ := do
  let a ← subVectors Dode.arith v w
  let a ← Dode.projection3 a
  .ok (F.norm3 (F.dodeVector a))

open Classical in
/-- The loop of `ball_radius_obj`, dode2/intsct.py:68-78. -/
noncomputable def dodeBallRadiusVts (vts : List (Vec 6)) (centre : Vec 6) : Py ℝ :=
  foldPy (fun dd v => do
    let dd1 ← F.dodeDistance v centre
    .ok (if dd1 > dd then dd1 else dd)) 0 vts

/-- `ball_radius_obj`, dode2/intsct.py:53-78, with the vertices of the object. -/
noncomputable def dodeBallRadiusObj (o : Obj 3) (centre : Vec 6) : Py ℝ := do
  let vertices ← removeDoublingPerp .dode (flattenObj o)
  F.dodeBallRadiusVts vertices centre

/-- `ball_radius`, dode2/intsct.py:80-83. -/
noncomputable def dodeBallRadius (s : Simplex 3) (centre : Vec 6) : Py ℝ := do
  let vertices ← removeDoublingPerp .dode (List.ofFn s)
  F.dodeBallRadiusVts vertices centre

open Classical in
/-- `rough_check_intersection_triangle_obj`, dode2/intsct.py:90-97. -/
noncomputable def dodeRoughCheck (s : Simplex 3) (centre : Vec 6) (distance : ℝ) : Py Bool := do
  let cen1 ← centroid Dode.arith (List.ofFn s)
  let dd1 ← F.dodeBallRadius s cen1
  let dd0 ← F.dodeDistance cen1 centre
  .ok (if dd0 ≤ F.fl (dd1 + distance) then true else false)

/-- `intersection_two_obj_1`, dode2/intsct.py:422-560. -/
noncomputable def dodeIntersectionTwoObj1 (select : Ico.Kind) (delaunay : Simplex 3 → Simplex 3 → Dode.Delaunay2)
    (obj1 obj2 : Obj 3) : Py (Option (Obj 3)) := do
  let cent2 ← centroidObj Dode.arith obj2
  let dd2 ← F.dodeBallRadiusObj obj2 cent2
  Dode.intersectionTwoObj select (fun t => F.dodeRoughCheck t cent2 dd2) (fun s t => .ok (F.checkTwoTriangles s t))
    (fun s t => F.intersectionTwoTriangles (delaunay s t) s t) obj1 obj2

/-- `intersection`, dode2/two_occupation_domains.py:23-62. -/
noncomputable def dodeIntersectionApi (select : Ico.Kind) (delaunay : Simplex 3 → Simplex 3 → Dode.Delaunay2)
    (a b : NdArr) : Py (Option (Obj 3)) :=
  match a, b with
  | @NdArr.d4 3 o1, @NdArr.d4 3 o2 => F.dodeIntersectionTwoObj1 select delaunay o1 o2
  | _, _ => .ok none

end Float64
end PyQC
