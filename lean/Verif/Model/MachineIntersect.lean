import Verif.Model.MachineVec
/-!
# The ico2 intersection with machine integers and rounding

The functions of the second half of `Model/Float.lean` once more: the comparisons are rounded as there, and the exact part
is computed with int64 integers that wrap around. No idealisation of numbers is left.
-/
namespace PyQC
namespace Machine

/-- `remove_doubling_in_perp_space` on an array of shape (n,6,3), ico2/utils.py:182-196, dode2/utils.py:187-201. -/
def removeDoublingPerp64 (p : Package) (vts : List (Vec 6)) : Py (List (Vec 6)) := do
  let vts := removeDoubling vts
  let a ← fillList (Machine.projection3 p) vts
  .ok ((uniqueBy (fun x => rowKey x.1) (a.zip vts)).map Prod.snd)

end Machine

namespace Float64
variable (F : Float64)
open Machine

/-- `intersection_segment_surface`, ico2/intsct.py:286-331: the test is numerical, the point is computed with
machine integers. -/
noncomputable def intersectionSegmentSurface64 (segment : Simplex 2) (surface : Simplex 3) : Py (Option (Vec 6)) :=
  if F.segmentMeetsTriangleTau segment surface then do
    let vec6AB ← subVectors (arith .ico) (segment 1) (segment 0)
    let vecAB ← Machine.projection3 .ico vec6AB
    let tmp ← subVectors (arith .ico) (surface 1) (surface 0)
    let vecCD ← Machine.projection3 .ico tmp
    let tmp ← subVectors (arith .ico) (surface 2) (surface 0)
    let vecCE ← Machine.projection3 .ico tmp
    let tmp ← subVectors (arith .ico) (segment 0) (surface 0)
    let vecCA ← Machine.projection3 .ico tmp
    let vecP ← outerProduct (arith .ico) vecAB vecCE
    let vecQ ← outerProduct (arith .ico) vecCA vecCD
    let bunbo ← innerProduct (arith .ico) vecP vecCD
    let bunbo ← needSome bunbo
    let bunshi ← innerProduct (arith .ico) vecQ vecCE
    let bunshi ← needSome bunshi
    let t ← needSome (Machine.Ico.div bunshi bunbo)
    let tmp ← mulVector (arith .ico) vec6AB t
    let r ← addVectors (arith .ico) (segment 0) tmp
    .ok (some r)
  else .ok none

/-- The intersection points collected in the loop over the combinations, ico2/intsct.py:401-434. -/
noncomputable def crossingPoints64 (s t : Simplex 4) : Py (List (Vec 6)) :=
  foldPy (fun acc c => do
    let v ← F.intersectionSegmentSurface64 (Ico.segmentOf s c.1) (Ico.surfaceOf t c.2)
    let acc := acc ++ v.toList
    let w ← F.intersectionSegmentSurface64 (Ico.segmentOf t c.1) (Ico.surfaceOf s c.2)
    .ok (acc ++ w.toList)) [] combEF

/-- The coordinates handed to `Delaunay`, ico2/utils.py:843-852: the projection is computed with machine integers, its conversion
is rounded. -/
noncomputable def delaunayInput64 (points : List (Vec 6)) : Py (List (Fin 3 → ℝ)) :=
  fillList (fun v => do
    let w ← Machine.projection3 .ico v
    .ok (F.numericalVector w)) points

/-- The loop over the simplices, ico2/utils.py:858-869: keep those of non-zero volume. -/
noncomputable def keepSimplices64 (points : List (Vec 6)) : List (Fin 4 → Nat) → Py (Obj 4)
  | [] => .ok []
  | i :: rest => do
    let tmp3 ← Ico.pickSimplex points i
    let vol ← F.icoVolume6d tmp3
    let r ← keepSimplices64 points rest
    if vol.a = 0 ∧ vol.b = 0 then .ok r else .ok (tmp3 :: r)

/-- `tetrahedralization_points`, ico2/utils.py:841-873. -/
noncomputable def tetrahedralizationPoints64 (delaunay : Ico.Delaunay) (points : List (Vec 6)) : Py (Option (Obj 4)) :=
  match points with
  | [] => .error .unboundLocalError
  | points => do
    let tmp ← F.delaunayInput64 points
    match delaunay tmp with
    | none => .error .typeError
    | some ltmp => do
      let r ← F.keepSimplices64 points ltmp
      if r.length ≠ 0 then .ok (some r) else .ok none

/-- The part of `intersection_two_tetrahedron_4` after the points have been collected, ico2/intsct.py:481-505. -/
noncomputable def tetrahedralizeCommon64 (draws : (n : Nat) → Draws n) (delaunay : Ico.Delaunay)
    (tmp : List (Vec 6)) : Py (Option (Obj 4)) :=
  if tmp.length ≥ 4 then do
    let tmp ← removeDoublingPerp64 .ico tmp
    if tmp.length ≥ 4 then
      if F.coplanarCheck draws tmp = some true then .ok none
      else do
        let tmp4 ← if tmp.length = 4 then (do let o ← Ico.reshape4 tmp; .ok (some o))
          else F.tetrahedralizationPoints64 delaunay tmp
        match tmp4 with
        | none => .error .attributeError
        | some o => do
          let _ ← F.objVolume6d (.d4 o)
          .ok (some o)
    else .ok none
  else .ok none

/-- `intersection_two_tetrahedron_4`, ico2/intsct.py:333-505. -/
noncomputable def intersectionTwoTetrahedra64 (draws : (n : Nat) → Draws n) (delaunay : Ico.Delaunay)
    (s t : Simplex 4) : Py (Option (Obj 4)) := do
  let pts ← F.crossingPoints64 s t
  let in1 := (List.ofFn s).filter fun v => F.insideTau v t
  let in2 := (List.ofFn t).filter fun v => F.insideTau v s
  F.tetrahedralizeCommon64 draws delaunay (pts ++ in1 ++ in2)

/-! ### Two objects -/

/-- `distance_in_perp_space`, ico2/intsct.py:101-104, with `length_numerical`, ico2/numericalc.py:211-225. -/
noncomputable def distanceInPerpSpace64 (v w : Vec 6) : Py ℝ := do
  let a ← subVectors (arith .ico) v w
  let a ← Machine.projection3 .ico a
  .ok (F.norm3 (F.numericalVector a))

open Classical in
/-- The loop of `ball_radius_obj`, ico2/intsct.py:85-93. -/
noncomputable def ballRadiusVts64 (vts : List (Vec 6)) (centre : Vec 6) : Py ℝ :=
  foldPy (fun dd v => do
    let dd1 ← F.distanceInPerpSpace64 v centre
    .ok (if dd1 > dd then dd1 else dd)) 0 vts

/-- `ball_radius_obj`, ico2/intsct.py:67-94, with the vertices of the object. -/
noncomputable def ballRadiusObj64 (o : Obj 4) (centre : Vec 6) : Py ℝ := do
  let vertices ← removeDoublingPerp64 .ico (flattenObj o)
  F.ballRadiusVts64 vertices centre

/-- `ball_radius`, ico2/intsct.py:96-99. -/
noncomputable def ballRadius64 (s : Simplex 4) (centre : Vec 6) : Py ℝ := do
  let vertices ← removeDoublingPerp64 .ico (List.ofFn s)
  F.ballRadiusVts64 vertices centre

open Classical in
/-- `rough_check_intersection_tetrahedron_obj`, ico2/intsct.py:106-113. -/
noncomputable def roughCheck64 (s : Simplex 4) (centre : Vec 6) (distance : ℝ) : Py Bool := do
  let cen1 ← centroid (arith .ico) (List.ofFn s)
  let dd1 ← F.ballRadius64 s cen1
  let dd0 ← F.distanceInPerpSpace64 cen1 centre
  .ok (if dd0 ≤ F.fl (dd1 + distance) then true else false)

/-- What one tetrahedron of `obj1` adds to `common4`, ico2/intsct.py:546-633: the volumes compared for kind 'simple' are
computed with machine integers. -/
noncomputable def onePiece64 (kind : Ico.Kind) (rough : Simplex 4 → Py Bool) (flag : Simplex 4 → Simplex 4 → Py Nat)
    (inter : Simplex 4 → Simplex 4 → Py (Option (Obj 4))) (obj2 : Obj 4) (t1 : Simplex 4) : Py (Obj 4) := do
  let r ← rough t1
  if r then do
    let (inside, tmp) ← Ico.innerLoop flag inter t1 [] obj2
    let first : Obj 4 := if inside then [t1] else []
    if tmp.length ≠ 0 then
      match kind with
      | .simple => do
        let vol1 ← F.icoVolume6d t1
        let vol2 ← F.objVolume6d (.d4 tmp)
        if some vol1 = vol2 then .ok (first ++ [t1]) else .ok (first ++ tmp)
      | .standard => .ok (first ++ tmp)
    else .ok first
  else .ok []

/-- `intersection_two_obj_1`, ico2/intsct.py:507-638. -/
noncomputable def intersectionTwoObj64 (kind : Ico.Kind) (draws : Simplex 4 → Simplex 4 → (n : Nat) → Draws n)
    (delaunay : Simplex 4 → Simplex 4 → Ico.Delaunay) (obj1 obj2 : Obj 4) : Py (Option (Obj 4)) := do
  let cent2 ← centroidObj (arith .ico) obj2
  let dd2 ← F.ballRadiusObj64 obj2 cent2
  let parts ← fillList (F.onePiece64 kind (fun t => F.roughCheck64 t cent2 dd2) (fun s t => .ok (F.checkTwoTetrahedra s t))
    (fun s t => F.intersectionTwoTetrahedra64 (draws s t) (delaunay s t) s t) obj2) obj1
  if parts.flatten.length ≠ 0 then .ok (some parts.flatten) else .ok none

/-- `intersection`, ico2/two_occupation_domains.py:24-63. -/
noncomputable def intersectionApi64 (kind : Ico.Kind) (draws : Simplex 4 → Simplex 4 → (n : Nat) → Draws n)
    (delaunay : Simplex 4 → Simplex 4 → Ico.Delaunay) (a b : NdArr) : Py (Option (Obj 4)) :=
  match a, b with
  | @NdArr.d4 4 o1, @NdArr.d4 4 o2 => F.intersectionTwoObj64 kind draws delaunay o1 o2
  | _, _ => .ok none

end Float64
end PyQC
