import Verif.Model.Coplanar
import Verif.Model.Volume
/-!
# Geometric tests and intersection of tetrahedra

`ico2/numericalc.py` (inside tests, segment-triangle test) over the real numbers, `ico2/intsct.py` and
`ico2/utils.py` (tetrahedralisation). `scipy.spatial.Delaunay` and `random.sample` are parameters.
-/
namespace PyQC
open Matrix

/-! ## Numerical tests -/

namespace Ico

/-- `small_tetrahedron`, ico2/numericalc.py:482-489: vertex `indx` replaced by the point. -/
def smallTetrahedron (indx : Fin 4) (pt : Fin 3 → ℝ) (t : Fin 4 → Fin 3 → ℝ) : Fin 4 → Fin 3 → ℝ :=
  fun i => if i = indx then pt else t i

open Classical in
/-- `inside_outside_tetrahedron`, ico2/numericalc.py:470-506. -/
noncomputable def insideTetrahedron (pt : Fin 3 → ℝ) (t : Fin 4 → Fin 3 → ℝ) : Bool :=
  let vol0 := tetrahedronVolumeNumerical t
  let vol1 := tetrahedronVolumeNumerical (smallTetrahedron 0 pt t)
  let vol2 := tetrahedronVolumeNumerical (smallTetrahedron 1 pt t)
  let vol3 := tetrahedronVolumeNumerical (smallTetrahedron 2 pt t)
  let vol4 := tetrahedronVolumeNumerical (smallTetrahedron 3 pt t)
  if |vol0 - vol1 - vol2 - vol3 - vol4| < EPS * vol0 then true else false

/-- `inside_outside_tetrahedron_tau`, ico2/numericalc.py:453-468. -/
noncomputable def insideTau (v : Vec 6) (t : Simplex 4) : Bool :=
  insideTetrahedron (internalNumerical v) (internalSetsNumerical t)

/-- `inside_outside_obj`, ico2/numericalc.py:433-451. -/
noncomputable def insideOutsideObj (pt : Fin 3 → ℝ) (o : List (Fin 4 → Fin 3 → ℝ)) : Bool :=
  if (o.any fun t => insideTetrahedron pt t) then false else true

open Classical in
/-- `check_intersection_segment_surface_numerical`, ico2/numericalc.py:249-298. -/
noncomputable def segmentMeetsTriangle (ln : Fin 2 → Fin 3 → ℝ) (tr : Fin 3 → Fin 3 → ℝ) : Bool :=
  let vecAB := ln 1 - ln 0
  let vecCD := tr 1 - tr 0
  let vecCE := tr 2 - tr 0
  let vecCA := ln 0 - tr 0
  let vecP := vecAB ⨯₃ vecCE
  let vecQ := vecCA ⨯₃ vecCD
  let bunbo := vecP ⬝ᵥ vecCD
  if |bunbo| < EPS then false
  else
    let u := vecP ⬝ᵥ vecCA / bunbo
    if u ≥ 0 - EPS ∧ u ≤ 1 + EPS then
      let v := vecQ ⬝ᵥ vecAB / bunbo
      if v ≥ 0 - EPS ∧ u + v ≤ 1 + EPS then
        let t := vecQ ⬝ᵥ vecCE / bunbo
        if t ≥ 0 - EPS ∧ t ≤ 1 + EPS then true else false
      else false
    else false

/-- `check_intersection_segment_surface_numerical_6d_tau`, ico2/numericalc.py:231-247. -/
noncomputable def segmentMeetsTriangleTau (segment : Simplex 2) (triangle : Simplex 3) : Bool :=
  segmentMeetsTriangle (internalSetsNumerical segment) (internalSetsNumerical triangle)

/-- `triangle_area_numerical`, ico2/numericalc.py:396-421, dode2/numericalc.py:462-487. -/
noncomputable def triangleAreaNumerical (a : Fin 3 → Fin 3 → ℝ) : ℝ :=
  norm3 ((a 2 - a 0) ⨯₃ (a 1 - a 0)) / 2

/-- `func` of `on_out_surface`, ico2/numericalc.py:138-145. -/
def smallTriangle (indx : Fin 3) (pt : Fin 3 → ℝ) (t : Fin 3 → Fin 3 → ℝ) : Fin 3 → Fin 3 → ℝ :=
  fun i => if i = indx then pt else t i

end Ico

open Classical in
/-- `on_out_surface`, ico2/numericalc.py:122-161, dode2/numericalc.py:122-161. -/
noncomputable def onOutSurface (p : Package) (point : Vec 6) (triangle : Simplex 3) : Bool :=
  let pt := p.internalNumerical point
  let tr := fun i => p.internalNumerical (triangle i)
  let area0 := Ico.triangleAreaNumerical tr
  let area1 := Ico.triangleAreaNumerical (Ico.smallTriangle 0 pt tr) +
    Ico.triangleAreaNumerical (Ico.smallTriangle 1 pt tr) + Ico.triangleAreaNumerical (Ico.smallTriangle 2 pt tr)
  if |area0 - area1| < EPS then true else false

/-! ## Rough check -/

/-- `numerical_vector` with the constant of the package, ico2/numericalc.py:177-193,
dode2/numericalc.py:179-195. -/
noncomputable def Package.numericalVector3 (p : Package) (a : Vec 3) : Fin 3 → ℝ :=
  match p with
  | .ico => numericalVector tau a
  | .dode => numericalVector sin60 a

/-- `distance_in_perp_space`, ico2/intsct.py:101-104, dode2/intsct.py:85-88, with `length_numerical`,
ico2/numericalc.py:211-225. -/
noncomputable def distanceInPerpSpace (p : Package) (v w : Vec 6) : Py ℝ := do
  let a ← subVectors p.arith v w
  let a ← p.projection3 a
  .ok (norm3 (p.numericalVector3 a))

open Classical in
/-- The loop of `ball_radius_obj`, ico2/intsct.py:85-93: largest distance of a vertex to the centre. -/
noncomputable def ballRadiusVts (p : Package) (vts : List (Vec 6)) (centre : Vec 6) : Py ℝ :=
  foldPy (fun dd v => do
    let dd1 ← distanceInPerpSpace p v centre
    .ok (if dd1 > dd then dd1 else dd)) 0 vts

/-- `ball_radius_obj` of an object (ndim 4), ico2/intsct.py:67-94, dode2/intsct.py:53-78. -/
noncomputable def ballRadiusObj (p : Package) {m : Nat} (o : Obj m) (centre : Vec 6) : Py ℝ := do
  let vertices ← removeDoublingPerp p (flattenObj o)
  ballRadiusVts p vertices centre

/-- `ball_radius` of one piece (ndim 3), ico2/intsct.py:96-99, dode2/intsct.py:80-83. -/
noncomputable def ballRadius (p : Package) {m : Nat} (s : Simplex m) (centre : Vec 6) : Py ℝ := do
  let vertices ← removeDoublingPerp p (List.ofFn s)
  ballRadiusVts p vertices centre

open Classical in
/-- `rough_check_intersection_tetrahedron_obj`, ico2/intsct.py:106-113, and
`rough_check_intersection_triangle_obj`, dode2/intsct.py:90-97. -/
noncomputable def roughCheck (p : Package) {m : Nat} (s : Simplex m) (centre : Vec 6) (distance : ℝ) : Py Bool := do
  let cen1 ← centroid p.arith (List.ofFn s)
  let dd1 ← ballRadius p s cen1
  let dd0 ← distanceInPerpSpace p cen1 centre
  .ok (if dd0 ≤ dd1 + distance then true else false)

/-! ## Two tetrahedra -/

/-- Edge and face combinations, ico2/intsct.py:187-211 and 371-395. -/
def combEF : List ((Fin 4 × Fin 4) × (Fin 4 × Fin 4 × Fin 4)) :=
  [((0, 1), (0, 1, 2)), ((0, 1), (0, 1, 3)), ((0, 1), (0, 2, 3)), ((0, 1), (1, 2, 3)),
   ((0, 2), (0, 1, 2)), ((0, 2), (0, 1, 3)), ((0, 2), (0, 2, 3)), ((0, 2), (1, 2, 3)),
   ((0, 3), (0, 1, 2)), ((0, 3), (0, 1, 3)), ((0, 3), (0, 2, 3)), ((0, 3), (1, 2, 3)),
   ((1, 2), (0, 1, 2)), ((1, 2), (0, 1, 3)), ((1, 2), (0, 2, 3)), ((1, 2), (1, 2, 3)),
   ((1, 3), (0, 1, 2)), ((1, 3), (0, 1, 3)), ((1, 3), (0, 2, 3)), ((1, 3), (1, 2, 3)),
   ((2, 3), (0, 1, 2)), ((2, 3), (0, 1, 3)), ((2, 3), (0, 2, 3)), ((2, 3), (1, 2, 3))]

namespace Ico

/-- `np.stack` of two vertices. -/
def segmentOf (t : Simplex 4) (e : Fin 4 × Fin 4) : Simplex 2 := ![t e.1, t e.2]
/-- `np.stack` of three vertices. -/
def surfaceOf (t : Simplex 4) (f : Fin 4 × Fin 4 × Fin 4) : Simplex 3 := ![t f.1, t f.2.1, t f.2.2]

/-- `check_intersection_two_tetrahedron_4`, ico2/intsct.py:115-240. -/
noncomputable def checkTwoTetrahedra (s t : Simplex 4) : Nat :=
  if (List.ofFn s).all fun v => insideTau v t then 1
  else if (List.ofFn t).all fun v => insideTau v s then 2
  else if combEF.any fun c => segmentMeetsTriangleTau (segmentOf s c.1) (surfaceOf t c.2) ||
      segmentMeetsTriangleTau (segmentOf t c.1) (surfaceOf s c.2) then 3
  else 0

/-- `intersection_segment_surface`, ico2/intsct.py:286-331. `div` returning `None` makes the following
`mul_vector` raise TypeError. -/
noncomputable def intersectionSegmentSurface (segment : Simplex 2) (surface : Simplex 3) :
    Py (Option (Vec 6)) :=
  if segmentMeetsTriangleTau segment surface then do
    let vec6AB ← subVectors arith (segment 1) (segment 0)
    let vecAB ← projection3 vec6AB
    let tmp ← subVectors arith (surface 1) (surface 0)
    let vecCD ← projection3 tmp
    let tmp ← subVectors arith (surface 2) (surface 0)
    let vecCE ← projection3 tmp
    let tmp ← subVectors arith (segment 0) (surface 0)
    let vecCA ← projection3 tmp
    let vecP ← outerProduct arith vecAB vecCE
    let vecQ ← outerProduct arith vecCA vecCD
    let bunbo ← innerProduct arith vecP vecCD
    let bunbo ← needSome bunbo
    let bunshi ← innerProduct arith vecQ vecCE
    let bunshi ← needSome bunshi
    let t ← needSome (div bunshi bunbo)
    let tmp ← mulVector arith vec6AB t
    let r ← addVectors arith (segment 0) tmp
    .ok (some r)
  else .ok none

/-- The intersection points collected in the loop over the combinations, ico2/intsct.py:401-434. -/
noncomputable def crossingPoints (s t : Simplex 4) : Py (List (Vec 6)) :=
  foldPy (fun acc c => do
    let v ← intersectionSegmentSurface (segmentOf s c.1) (surfaceOf t c.2)
    let acc := acc ++ v.toList
    let w ← intersectionSegmentSurface (segmentOf t c.1) (surfaceOf s c.2)
    .ok (acc ++ w.toList)) [] combEF

/-! ### Tetrahedralisation -/

/-- Outcome of `Delaunay(points)`, ico2/utils.py:828-839: `none` when it raises (the result is then
`None`), else the vertex numbers of the simplices. -/
abbrev Delaunay := List (Fin 3 → ℝ) → Option (List (Fin 4 → Nat))

/-- `np.array([p[i[0]],p[i[1]],p[i[2]],p[i[3]]])`, ico2/utils.py:859. -/
def pickSimplex (points : List (Vec 6)) (i : Fin 4 → Nat) : Py (Simplex 4) :=
  fillFin 4 fun k => getIdx points (i k)

/-- The loop over the simplices, ico2/utils.py:858-869: keep those of non-zero volume. -/
def keepSimplices (points : List (Vec 6)) : List (Fin 4 → Nat) → Py (Obj 4)
  | [] => .ok []
  | i :: rest => do
    let tmp3 ← pickSimplex points i
    let vol ← tetrahedronVolume6d tmp3
    let r ← keepSimplices points rest
    if vol.a = 0 ∧ vol.b = 0 then .ok r else .ok (tmp3 :: r)

/-- `tetrahedralization_points`, ico2/utils.py:841-873. When `decomposition` returns `None` the loop over
it raises TypeError. An empty list of points leaves `tmp` unassigned. -/
noncomputable def tetrahedralizationPoints (delaunay : Delaunay) (points : List (Vec 6)) : Py (Option (Obj 4)) :=
  match points with
  | [] => .error .unboundLocalError
  | points => do
    let tmp ← fillList (fun v => do
      let w ← projection3 v
      .ok (numericalVector tau w)) points
    match delaunay tmp with
    | none => .error .typeError
    | some ltmp => do
      let r ← keepSimplices points ltmp
      if r.length ≠ 0 then .ok (some r) else .ok none

/-- `coplanar_check`, ico2/math1.py:574-632, with `coplanar_check_numeric_tau`. -/
noncomputable def coplanarCheck (draws : (n : Nat) → Draws n) (pts : List (Vec 6)) : Option Bool :=
  coplanarCheckNumeric (pts.map internalNumerical) (draws _)

/-- `tmp.reshape(1,4,6,3)` of four points. -/
def reshape4 (pts : List (Vec 6)) : Py (Obj 4) :=
  if h : pts.length = 4 then .ok [fun i => pts.get (Fin.cast h.symm i)] else .error .valueError

/-- The part of `intersection_two_tetrahedron_4` after the points have been collected,
ico2/intsct.py:481-505. `obj_volume_6d(None)` raises AttributeError. -/
noncomputable def tetrahedralizeCommon (draws : (n : Nat) → Draws n) (delaunay : Delaunay)
    (tmp : List (Vec 6)) : Py (Option (Obj 4)) :=
  if tmp.length ≥ 4 then do
    let tmp ← removeDoublingPerp .ico tmp
    if tmp.length ≥ 4 then
      if coplanarCheck draws tmp = some true then .ok none
      else do
        let tmp4 ← if tmp.length = 4 then (do let o ← reshape4 tmp; .ok (some o))
          else tetrahedralizationPoints delaunay tmp
        match tmp4 with
        | none => .error .attributeError
        | some o => do
          let _ ← objVolume6d (.d4 o)
          .ok (some o)
    else .ok none
  else .ok none

/-- `intersection_two_tetrahedron_4`, ico2/intsct.py:333-505. -/
noncomputable def intersectionTwoTetrahedra (draws : (n : Nat) → Draws n) (delaunay : Delaunay)
    (s t : Simplex 4) : Py (Option (Obj 4)) := do
  let pts ← crossingPoints s t
  let in1 := (List.ofFn s).filter fun v => insideTau v t
  let in2 := (List.ofFn t).filter fun v => insideTau v s
  tetrahedralizeCommon draws delaunay (pts ++ in1 ++ in2)

/-! ### Two objects -/

/-- `kind` argument. Every value other than 'simple' is treated as 'standard'. -/
inductive Kind
  | standard
  | simple
  deriving DecidableEq

/-- The loop over the tetrahedra of `obj2` for one tetrahedron of `obj1`, ico2/intsct.py:551-598:
returns whether the loop was left with `flag==1`, and the pieces collected in `tmp_common4`. -/
def innerLoop (flag : Simplex 4 → Simplex 4 → Py Nat) (inter : Simplex 4 → Simplex 4 → Py (Option (Obj 4)))
    (t1 : Simplex 4) : Obj 4 → Obj 4 → Py (Bool × Obj 4)
  | acc, [] => .ok (false, acc)
  | acc, t2 :: rest => do
    let f ← flag t1 t2
    if f = 1 then .ok (true, acc)
    else if f = 2 then innerLoop flag inter t1 (acc ++ [t2]) rest
    else if f = 3 then do
      let r ← inter t1 t2
      match r with
      | none => innerLoop flag inter t1 acc rest
      | some o => innerLoop flag inter t1 (acc ++ o) rest
    else innerLoop flag inter t1 acc rest

/-- What one tetrahedron of `obj1` adds to `common4`, ico2/intsct.py:546-633. -/
def onePiece (kind : Kind) (rough : Simplex 4 → Py Bool) (flag : Simplex 4 → Simplex 4 → Py Nat)
    (inter : Simplex 4 → Simplex 4 → Py (Option (Obj 4))) (obj2 : Obj 4) (t1 : Simplex 4) : Py (Obj 4) := do
  let r ← rough t1
  if r then do
    let (inside, tmp) ← innerLoop flag inter t1 [] obj2
    let first : Obj 4 := if inside then [t1] else []
    if tmp.length ≠ 0 then
      match kind with
      | .simple => do
        let vol1 ← tetrahedronVolume6d t1
        let vol2 ← objVolume6d (.d4 tmp)
        if some vol1 = vol2 then .ok (first ++ [t1]) else .ok (first ++ tmp)
      | .standard => .ok (first ++ tmp)
    else .ok first
  else .ok []

/-- `intersection_two_obj_1`, ico2/intsct.py:507-638, for given outcomes of the rough check, of the
classification and of the intersection of two tetrahedra. -/
def intersectionTwoObj (kind : Kind) (rough : Simplex 4 → Py Bool) (flag : Simplex 4 → Simplex 4 → Py Nat)
    (inter : Simplex 4 → Simplex 4 → Py (Option (Obj 4))) (obj1 obj2 : Obj 4) : Py (Option (Obj 4)) := do
  let parts ← fillList (onePiece kind rough flag inter obj2) obj1
  if parts.flatten.length ≠ 0 then .ok (some parts.flatten) else .ok none

/-- `intersection_two_obj_1` with the code's own tests; `draws` and `delaunay` may differ for each pair. -/
noncomputable def intersectionTwoObj1 (kind : Kind) (draws : Simplex 4 → Simplex 4 → (n : Nat) → Draws n)
    (delaunay : Simplex 4 → Simplex 4 → Delaunay) (obj1 obj2 : Obj 4) : Py (Option (Obj 4)) := do
  let cent2 ← centroidObj arith obj2
  let dd2 ← ballRadiusObj .ico obj2 cent2
  intersectionTwoObj kind (fun t => roughCheck .ico t cent2 dd2) (fun s t => .ok (checkTwoTetrahedra s t))
    (fun s t => intersectionTwoTetrahedra (draws s t) (delaunay s t) s t) obj1 obj2

/-- `intersection`, ico2/two_occupation_domains.py:24-63: `None` unless both arguments have four
dimensions. -/
noncomputable def intersectionApi (kind : Kind) (draws : Simplex 4 → Simplex 4 → (n : Nat) → Draws n)
    (delaunay : Simplex 4 → Simplex 4 → Delaunay) (a b : NdArr) : Py (Option (Obj 4)) :=
  match a, b with
  | @NdArr.d4 4 o1, @NdArr.d4 4 o2 => intersectionTwoObj1 kind draws delaunay o1 o2
  | _, _ => .ok none

end Ico
end PyQC
