import Verif.Model.MachineIntersect
import Verif.Model.DodeFloat
/-!
# The dode2 intersection with machine integers and rounding

The functions of the second half of `Model/DodeFloat.lean` once more: the comparisons are rounded as there, and the exact part
is computed with int64 integers that wrap around. No idealisation of numbers is left.
-/
namespace PyQC
namespace Float64
variable (F : Float64)
open Machine

/-- `intersection_two_segment`, dode2/intsct.py:194-248: the test is numerical, the point is computed with machine
integers. -/
noncomputable def intersectionTwoSegment64 (segment1 segment2 : Simplex 2) : Py (Option (Vec 6)) :=
  if F.segmentsMeetTau segment1 segment2 then do
    let vecAB6 ← subVectors (arith .dode) (segment1 1) (segment1 0)
    let vecAB ← Machine.projection3 .dode vecAB6
    let tmp ← subVectors (arith .dode) (segment2 1) (segment2 0)
    let vecCD ← Machine.projection3 .dode tmp
    let tmp ← subVectors (arith .dode) (segment2 0) (segment1 0)
    let vecAC ← Machine.projection3 .dode tmp
    let tmp1 ← innerProduct (arith .dode) vecAB vecCD
    let tmp1 ← needSome tmp1
    let tmp2 ← innerProduct (arith .dode) vecCD vecAB
    let tmp2 ← needSome tmp2
    let tmp3 ← Machine.Dode.mul tmp1 tmp2
    let tmp1 ← innerProduct (arith .dode) vecAB vecAB
    let tmp1 ← needSome tmp1
    let tmp2 ← innerProduct (arith .dode) vecCD vecCD
    let tmp2 ← needSome tmp2
    let tmp4 ← Machine.Dode.mul tmp1 tmp2
    let bunbo ← Machine.Dode.sub tmp3 tmp4
    let tmp1 ← innerProduct (arith .dode) vecAC vecCD
    let tmp1 ← needSome tmp1
    let tmp2 ← innerProduct (arith .dode) vecCD vecAB
    let tmp2 ← needSome tmp2
    let tmp3 ← Machine.Dode.mul tmp1 tmp2
    let tmp1 ← innerProduct (arith .dode) vecCD vecCD
    let tmp1 ← needSome tmp1
    let tmp2 ← innerProduct (arith .dode) vecAC vecAB
    let tmp2 ← needSome tmp2
    let tmp4 ← Machine.Dode.mul tmp1 tmp2
    let bunshi ← Machine.Dode.sub tmp3 tmp4
    let s ← needSome (Machine.Dode.div bunshi bunbo)
    let tmp ← mulVector (arith .dode) vecAB6 s
    let r ← addVectors (arith .dode) (segment1 0) tmp
    .ok (some r)
  else .ok none

/-- `intersection_segment_surface`, dode2/intsct.py:250-316. -/
noncomputable def intersectionSegmentEdges64 (segment : Simplex 2) (surface : Simplex 3) : Py (List (Vec 6)) :=
  if F.segmentMeetsEdgesTau segment surface then
    foldPy (fun acc j => do
      let v ← F.intersectionTwoSegment64 segment (Dode.segmentOf surface j)
      .ok (acc ++ v.toList)) [] Dode.combE
  else .ok []

/-- The loop over the edges, dode2/intsct.py:358-383. -/
noncomputable def dodeCrossingPoints64 (s t : Simplex 3) : Py (List (Vec 6) × Nat) :=
  foldPy (fun acc c => do
    let v ← F.intersectionSegmentEdges64 (Dode.segmentOf s c) t
    let acc := (acc.1 ++ v, if v = [] then acc.2 else acc.2 + 1)
    let w ← F.intersectionSegmentEdges64 (Dode.segmentOf t c) s
    .ok (acc.1 ++ w, if w = [] then acc.2 else acc.2 + 1)) ([], 0) Dode.combE

/-- The coordinates handed to `Delaunay`, dode2/utils.py:593-600: the projection is computed with machine integers, its
conversion is rounded. -/
noncomputable def delaunayInput2_64 (points : List (Vec 6)) : Py (List (Fin 2 → ℝ)) :=
  fillList (fun v => do
    let w ← Machine.projection3 .dode v
    let n := F.dodeVector w
    .ok (![n 0, n 1] : Fin 2 → ℝ)) points

/-- The loop over the simplices, dode2/utils.py:603-613: keep those of non-zero area. -/
noncomputable def dodeKeepSimplices64 (points : List (Vec 6)) : List (Fin 3 → Nat) → Py (Obj 3)
  | [] => .ok []
  | i :: rest => do
    let tmp3 ← Dode.pickSimplex points i
    let vol ← F.dodeArea6d tmp3
    let r ← dodeKeepSimplices64 points rest
    if vol.a = 0 ∧ vol.b = 0 then .ok r else .ok (tmp3 :: r)

/-- `triangulation_points`, dode2/utils.py:591-619. -/
noncomputable def triangulationPoints64 (delaunay : Dode.Delaunay2) (points : List (Vec 6)) : Py (Option (Obj 3)) := do
  let tmp ← F.delaunayInput2_64 points
  match delaunay tmp with
  | none => .ok none
  | some ltmp => do
    let r ← F.dodeKeepSimplices64 points ltmp
    if r.length ≠ 0 then .ok (some r) else .ok none

/-- The part of `intersection_two_triangles` after the points have been collected, dode2/intsct.py:405-420. -/
noncomputable def triangulateCommon64 (delaunay : Dode.Delaunay2) (tmp : List (Vec 6)) (counter : Nat) : Py (Option (Obj 3)) :=
  if counter ≥ 3 then do
    let tmp ← removeDoublingPerp64 .dode tmp
    if tmp.length > 3 then F.triangulationPoints64 delaunay tmp
    else if tmp.length = 3 then do
      let o ← Dode.reshape3 tmp
      .ok (some o)
    else .ok none
  else .ok none

/-- `intersection_two_triangles`, dode2/intsct.py:318-420. -/
noncomputable def intersectionTwoTriangles64 (delaunay : Dode.Delaunay2) (s t : Simplex 3) : Py (Option (Obj 3)) := do
  let (pts, counter) ← F.dodeCrossingPoints64 s t
  if counter = 0 then .error .unboundLocalError
  else do
    let in1 := (List.ofFn s).filter fun v => F.dodeInsideTau v t
    let in2 := (List.ofFn t).filter fun v => F.dodeInsideTau v s
    F.triangulateCommon64 delaunay (pts ++ in1 ++ in2) (counter + in1.length + in2.length)

/-! ### Two objects -/

/-- `distance_in_perp_space`, dode2/intsct.py:85-88, with `length_numerical`, dode2/numericalc.py:213-229. -/
noncomputable def dodeDistance64 (v w : Vec 6) : Py ℝ := do
  let a ← subVectors (arith .dode) v w
  let a ← Machine.projection3 .dode a
  .ok (F.norm3 (F.dodeVector a))

open Classical in
/-- The loop of `ball_radius_obj`, dode2/intsct.py:68-78. -/
noncomputable def dodeBallRadiusVts64 (vts : List (Vec 6)) (centre : Vec 6) : Py ℝ :=
  foldPy (fun dd v => do
    let dd1 ← F.dodeDistance64 v centre
    .ok (if dd1 > dd then dd1 else dd)) 0 vts

/-- `ball_radius_obj`, dode2/intsct.py:53-78, with the vertices of the object. -/
noncomputable def dodeBallRadiusObj64 (o : Obj 3) (centre : Vec 6) : Py ℝ := do
  let vertices ← removeDoublingPerp64 .dode (flattenObj o)
  F.dodeBallRadiusVts64 vertices centre

/-- `ball_radius`, dode2/intsct.py:80-83. -/
noncomputable def dodeBallRadius64 (s : Simplex 3) (centre : Vec 6) : Py ℝ := do
  let vertices ← removeDoublingPerp64 .dode (List.ofFn s)
  F.dodeBallRadiusVts64 vertices centre

open Classical in
/-- `rough_check_intersection_triangle_obj`, dode2/intsct.py:90-97. -/
noncomputable def dodeRoughCheck64 (s : Simplex 3) (centre : Vec 6) (distance : ℝ) : Py Bool := do
  let cen1 ← centroid (arith .dode) (List.ofFn s)
  let dd1 ← F.dodeBallRadius64 s cen1
  let dd0 ← F.dodeDistance64 cen1 centre
  .ok (if dd0 ≤ F.fl (dd1 + distance) then true else false)

/-- What one triangle of `obj1` adds to `common4`, dode2/intsct.py:458-554: the areas compared for kind 'simple' are
computed with machine integers. -/
noncomputable def dodeOnePiece64 (select : Ico.Kind) (rough : Simplex 3 → Py Bool) (flag : Simplex 3 → Simplex 3 → Py Nat)
    (inter : Simplex 3 → Simplex 3 → Py (Option (Obj 3))) (obj2 : Obj 3) (t1 : Simplex 3) : Py (Obj 3) := do
  let r ← rough t1
  if r then do
    let (inside, tmp) ← Dode.innerLoop flag inter t1 [] obj2
    let first : Obj 3 := if inside then [t1] else []
    if tmp.length ≠ 0 then
      match select with
      | .simple => do
        let vol1 ← F.dodeArea6d t1
        let vol2 ← F.objArea6d (.d4 tmp)
        if some vol1 = vol2 then .ok (first ++ [t1]) else .ok (first ++ tmp)
      | .standard => .ok (first ++ tmp)
    else .ok first
  else .ok []

/-- `intersection_two_obj_1`, dode2/intsct.py:422-560. -/
noncomputable def dodeIntersectionTwoObj64 (select : Ico.Kind) (delaunay : Simplex 3 → Simplex 3 → Dode.Delaunay2)
    (obj1 obj2 : Obj 3) : Py (Option (Obj 3)) := do
  let cent2 ← centroidObj (arith .dode) obj2
  let dd2 ← F.dodeBallRadiusObj64 obj2 cent2
  let parts ← fillList (F.dodeOnePiece64 select (fun t => F.dodeRoughCheck64 t cent2 dd2)
    (fun s t => .ok (F.checkTwoTriangles s t)) (fun s t => F.intersectionTwoTriangles64 (delaunay s t) s t) obj2) obj1
  if parts.flatten.length ≠ 0 then .ok (some parts.flatten) else .ok none

/-- `intersection`, dode2/two_occupation_domains.py:23-62. -/
noncomputable def dodeIntersectionApi64 (select : Ico.Kind) (delaunay : Simplex 3 → Simplex 3 → Dode.Delaunay2)
    (a b : NdArr) : Py (Option (Obj 3)) :=
  match a, b with
  | @NdArr.d4 3 o1, @NdArr.d4 3 o2 => F.dodeIntersectionTwoObj64 select delaunay o1 o2
  | _, _ => .ok none

end Float64
end PyQC
