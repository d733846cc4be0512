import Verif.Model.Intersect
/-!
# The numerical tests with rounding

The functions of `ico2/numericalc.py` as in `Model/Numeric.lean`, `Model/Intersect.lean` and `Model/Coplanar.lean`, but
with a rounding after every floating-point operation. Nothing is assumed about the roundings except the usual error
bounds, so that every rounding mode, fused operation and order of summation of the numerical library is covered.
-/
namespace PyQC
open Matrix

/-- The unit roundoff of binary64. -/
noncomputable def ulp : ℝ := 1 / 2 ^ 53
/-- Half the smallest positive binary64 number. -/
noncomputable def tiny : ℝ := 1 / 2 ^ 1075

/-- Floating-point arithmetic: `fl x` is the number stored when the exact result of an operation is `x`; `dot` is
`np.dot` of vectors with three components, `det` is `np.linalg.det` of a 3×3 matrix of stored numbers. The bounds are
those of binary64. They are required only below the overflow threshold, and for `det` only for moderate entries.
`Rounding.float64` (Lemmas/Lapack.lean) shows that they hold for the algorithms of numpy and LAPACK. -/
structure Float64 where
  fl : ℝ → ℝ
  dot : (Fin 3 → ℝ) → (Fin 3 → ℝ) → ℝ
  det : Matrix (Fin 3) (Fin 3) ℝ → ℝ
  fl_err : ∀ x, |x| ≤ 2 ^ 1000 → |fl x - x| ≤ ulp * |x| + tiny
  dot_err : ∀ x y, (∀ i, |x i| ≤ 2 ^ 400 ∧ |y i| ≤ 2 ^ 400) →
    |dot x y - x ⬝ᵥ y| ≤ 4 * ulp * ∑ i, |x i| * |y i| + 8 * tiny
  det_err : ∀ A M, 1 ≤ M → M ≤ 2 ^ 12 → (∀ i j, |A i j| ≤ M ∧ ∃ x, A i j = fl x) →
    |det A - A.det| ≤ 4000 * ulp * M ^ 3

namespace Float64
variable (F : Float64)

/-- `TAU=(1+np.sqrt(5))/2.0`, ico2/numericalc.py:10. -/
noncomputable def TAU : ℝ := F.fl (F.fl (1 + F.fl (Real.sqrt 5)) / 2)

/-- `EPS=1e-6`, ico2/numericalc.py:11. -/
noncomputable def eps : ℝ := F.fl EPS

/-- `numeric_value`, ico2/numericalc.py:164-176: the integers are converted first. -/
noncomputable def numericValue (t : Num3) : ℝ :=
  F.fl (F.fl (F.fl t.a + F.fl (F.fl t.b * F.TAU)) / F.fl t.c)

/-- `numerical_vector`, ico2/numericalc.py:178-193. -/
noncomputable def numericalVector {n : Nat} (v : Vec n) : Fin n → ℝ := fun i => F.numericValue (v i)

/-- `projection3_numerical`, ico2/numericalc.py:624-635. -/
noncomputable def projection3 (vn : Fin 6 → ℝ) : Fin 3 → ℝ :=
  ![F.fl (-F.fl (vn 1 + vn 2) + F.fl (F.TAU * F.fl (vn 0 - vn 4))),
    F.fl (-F.fl (vn 0 + vn 4) + F.fl (F.TAU * F.fl (vn 3 + vn 5))),
    F.fl (F.fl (vn 3 - vn 5) + F.fl (F.TAU * F.fl (vn 1 - vn 2)))]

/-- `get_internal_component_numerical` and `get_internal_component_sets_numerical`, ico2/numericalc.py:573-592. -/
noncomputable def internal (v : Vec 6) : Fin 3 → ℝ := F.projection3 (F.numericalVector v)

/-- Difference of two arrays. -/
noncomputable def sub {n : Nat} (x y : Fin n → ℝ) : Fin n → ℝ := fun i => F.fl (x i - y i)

/-- `np.cross` of two vectors with three components. -/
noncomputable def cross (x y : Fin 3 → ℝ) : Fin 3 → ℝ :=
  ![F.fl (F.fl (x 1 * y 2) - F.fl (x 2 * y 1)), F.fl (F.fl (x 2 * y 0) - F.fl (x 0 * y 2)),
    F.fl (F.fl (x 0 * y 1) - F.fl (x 1 * y 0))]

/-- `tetrahedron_volume_numerical`, ico2/numericalc.py:550-562. -/
noncomputable def tetrahedronVolume (t : Fin 4 → Fin 3 → ℝ) : ℝ :=
  F.fl (|F.det (Matrix.of fun i j : Fin 3 => F.fl (t i.succ j - t 0 j))| / 6)

open Classical in
/-- `inside_outside_tetrahedron`, ico2/numericalc.py:470-506. -/
noncomputable def insideTetrahedron (pt : Fin 3 → ℝ) (t : Fin 4 → Fin 3 → ℝ) : Bool :=
  let vol0 := F.tetrahedronVolume t
  let vol1 := F.tetrahedronVolume (Ico.smallTetrahedron 0 pt t)
  let vol2 := F.tetrahedronVolume (Ico.smallTetrahedron 1 pt t)
  let vol3 := F.tetrahedronVolume (Ico.smallTetrahedron 2 pt t)
  let vol4 := F.tetrahedronVolume (Ico.smallTetrahedron 3 pt t)
  if |F.fl (F.fl (F.fl (F.fl (vol0 - vol1) - vol2) - vol3) - vol4)| < F.fl (F.eps * vol0) then true else false

/-- `inside_outside_tetrahedron_tau`, ico2/numericalc.py:453-468. -/
noncomputable def insideTau (v : Vec 6) (t : Simplex 4) : Bool :=
  F.insideTetrahedron (F.internal v) fun i => F.internal (t i)

open Classical in
/-- `check_intersection_segment_surface_numerical`, ico2/numericalc.py:249-298. -/
noncomputable def segmentMeetsTriangle (ln : Fin 2 → Fin 3 → ℝ) (tr : Fin 3 → Fin 3 → ℝ) : Bool :=
  let vecAB := F.sub (ln 1) (ln 0)
  let vecCD := F.sub (tr 1) (tr 0)
  let vecCE := F.sub (tr 2) (tr 0)
  let vecCA := F.sub (ln 0) (tr 0)
  let vecP := F.cross vecAB vecCE
  let vecQ := F.cross vecCA vecCD
  let bunbo := F.dot vecP vecCD
  if |bunbo| < F.eps then false
  else
    let u := F.fl (F.dot vecP vecCA / bunbo)
    if u ≥ F.fl (0 - F.eps) ∧ u ≤ F.fl (1 + F.eps) then
      let v := F.fl (F.dot vecQ vecAB / bunbo)
      if v ≥ F.fl (0 - F.eps) ∧ F.fl (u + v) ≤ F.fl (1 + F.eps) then
        let t := F.fl (F.dot vecQ vecCE / bunbo)
        if t ≥ F.fl (0 - F.eps) ∧ t ≤ F.fl (1 + F.eps) then true else false
      else false
    else false

/-- `check_intersection_segment_surface_numerical_6d_tau`, ico2/numericalc.py:231-247. -/
noncomputable def segmentMeetsTriangleTau (segment : Simplex 2) (triangle : Simplex 3) : Bool :=
  F.segmentMeetsTriangle (fun i => F.internal (segment i)) fun i => F.internal (triangle i)

open Classical in
/-- `coplanar_check_numeric`, ico2/numericalc.py:31-82. -/
noncomputable def coplanarCheckNumeric (pns : List (Fin 3 → ℝ)) (draws : Draws pns.length) : Option Bool :=
  let normal : Fin pns.length × Fin pns.length × Fin pns.length → Fin 3 → ℝ := fun d =>
    F.cross (F.sub (pns.get d.2.1) (pns.get d.1)) (F.sub (pns.get d.2.2) (pns.get d.1))
  if pns.length > 3 then
    match draws.find? (fun d => !decide (∀ c, |normal d c| < F.eps)) with
    | none => none
    | some d =>
      if ∀ i, i ≠ d.1 → i ≠ d.2.1 → i ≠ d.2.2 →
          |F.dot (normal d) (F.sub (pns.get i) (pns.get d.1))| < F.fl (1 / 10 ^ 10) then some true
      else some false
  else some true

/-! ### The intersection of two tetrahedra -/

/-- `check_intersection_two_tetrahedron_4`, ico2/intsct.py:115-240. -/
noncomputable def checkTwoTetrahedra (s t : Simplex 4) : Nat :=
  if (List.ofFn s).all fun v => F.insideTau v t then 1
  else if (List.ofFn t).all fun v => F.insideTau v s then 2
  else if combEF.any fun c => F.segmentMeetsTriangleTau (Ico.segmentOf s c.1) (Ico.surfaceOf t c.2) ||
      F.segmentMeetsTriangleTau (Ico.segmentOf t c.1) (Ico.surfaceOf s c.2) then 3
  else 0

/-- `intersection_segment_surface`, ico2/intsct.py:286-331: the test is numerical, the point is computed with
integers. -/
noncomputable def intersectionSegmentSurface (segment : Simplex 2) (surface : Simplex 3) : Py (Option (Vec 6)) :=
  if F.segmentMeetsTriangleTau segment surface then do
    let vec6AB ← subVectors Ico.arith (segment 1) (segment 0)
    let vecAB ← Ico.projection3 vec6AB
    let tmp ← subVectors Ico.arith (surface 1) (surface 0)
    let vecCD ← Ico.projection3 tmp
    let tmp ← subVectors Ico.arith (surface 2) (surface 0)
    let vecCE ← Ico.projection3 tmp
    let tmp ← subVectors Ico.arith (segment 0) (surface 0)
    let vecCA ← Ico.projection3 tmp
    let vecP ← outerProduct Ico.arith vecAB vecCE
    let vecQ ← outerProduct Ico.arith vecCA vecCD
    let bunbo ← innerProduct Ico.arith vecP vecCD
    let bunbo ← needSome bunbo
    let bunshi ← innerProduct Ico.arith vecQ vecCE
    let bunshi ← needSome bunshi
    let t ← needSome (Ico.div bunshi bunbo)
    let tmp ← mulVector Ico.arith vec6AB t
    let r ← addVectors Ico.arith (segment 0) tmp
    .ok (some r)
  else .ok none

/-- The intersection points collected in the loop over the combinations, ico2/intsct.py:401-434. -/
noncomputable def crossingPoints (s t : Simplex 4) : Py (List (Vec 6)) :=
  foldPy (fun acc c => do
    let v ← F.intersectionSegmentSurface (Ico.segmentOf s c.1) (Ico.surfaceOf t c.2)
    let acc := acc ++ v.toList
    let w ← F.intersectionSegmentSurface (Ico.segmentOf t c.1) (Ico.surfaceOf s c.2)
    .ok (acc ++ w.toList)) [] combEF

/-- The coordinates handed to `Delaunay`, ico2/utils.py:843-852: the projection is exact, its conversion is rounded. -/
noncomputable def delaunayInput (points : List (Vec 6)) : Py (List (Fin 3 → ℝ)) :=
  fillList (fun v => do
    let w ← Ico.projection3 v
    .ok (F.numericalVector w)) points

/-- `tetrahedralization_points`, ico2/utils.py:841-873. -/
noncomputable def tetrahedralizationPoints (delaunay : Ico.Delaunay) (points : List (Vec 6)) : Py (Option (Obj 4)) :=
  match points with
  | [] => .error .unboundLocalError
  | points => do
    let tmp ← F.delaunayInput points
    match delaunay tmp with
    | none => .error .typeError
    | some ltmp => do
      let r ← Ico.keepSimplices points ltmp
      if r.length ≠ 0 then .ok (some r) else .ok none

/-- `coplanar_check`, ico2/math1.py:574-632, with `coplanar_check_numeric_tau`. -/
noncomputable def coplanarCheck (draws : (n : Nat) → Draws n) (pts : List (Vec 6)) : Option Bool :=
  F.coplanarCheckNumeric (pts.map F.internal) (draws _)

/-- The part of `intersection_two_tetrahedron_4` after the points have been collected, ico2/intsct.py:481-505. -/
noncomputable def tetrahedralizeCommon (draws : (n : Nat) → Draws n) (delaunay : Ico.Delaunay)
    (tmp : List (Vec 6)) : Py (Option (Obj 4)) :=
  if tmp.length ≥ 4 then do
    let tmp ← removeDoublingPerp .ico tmp
    if tmp.length ≥ 4 then
      if F.coplanarCheck draws tmp = some true then .ok none
      else do
        let tmp4 ← if tmp.length = 4 then (do let o ← Ico.reshape4 tmp; .ok (some o))
          else F.tetrahedralizationPoints delaunay tmp
        match tmp4 with
        | none => .error .attributeError
        | some o => do
          let _ ← Ico.objVolume6d (.d4 o)
          .ok (some o)
    else .ok none
  else .ok none

/-- `intersection_two_tetrahedron_4`, ico2/intsct.py:333-505. -/
noncomputable def intersectionTwoTetrahedra (draws : (n : Nat) → Draws n) (delaunay : Ico.Delaunay)
    (s t : Simplex 4) : Py (Option (Obj 4)) := do
  let pts ← F.crossingPoints s t
  let in1 := (List.ofFn s).filter fun v => F.insideTau v t
  let in2 := (List.ofFn t).filter fun v => F.insideTau v s
  F.tetrahedralizeCommon draws delaunay (pts ++ in1 ++ in2)

/-! ### Two objects -/

/-- `np.linalg.norm` of a vector with three components: the square root of `np.dot` of the vector with itself. -/
noncomputable def norm3 (v : Fin 3 → ℝ) : ℝ := F.fl (Real.sqrt (F.dot v v))

/-- `distance_in_perp_space`, ico2/intsct.py:101-104, with `length_numerical`, ico2/numericalc.py:211-225. -/
noncomputable def distanceInPerpSpace (v w : Vec 6) : Py ℝ := do
  let a ← subVectors Ico.arith v w
  let a ← Ico.projection3 a
  .ok (F.norm3 (F.numericalVector a))

open Classical in
/-- The loop of `ball_radius_obj`, ico2/intsct.py:85-93. -/
noncomputable def ballRadiusVts (vts : List (Vec 6)) (centre : Vec 6) : Py ℝ :=
  foldPy (fun dd v => do
    let dd1 ← F.distanceInPerpSpace v centre
    .ok (if dd1 > dd then dd1 else dd)) 0 vts

/-- `ball_radius_obj`, ico2/intsct.py:67-94, with the vertices of the object. -/
noncomputable def ballRadiusObj (o : Obj 4) (centre : Vec 6) : Py ℝ := do
  let vertices ← removeDoublingPerp .ico (flattenObj o)
  F.ballRadiusVts vertices centre

/-- `ball_radius`, ico2/intsct.py:96-99. -/
noncomputable def ballRadius (s : Simplex 4) (centre : Vec 6) : Py ℝ := do
  let vertices ← removeDoublingPerp .ico (List.ofFn s)
  F.ballRadiusVts vertices centre

open Classical in
/-- `rough_check_intersection_tetrahedron_obj`, ico2/intsct.py:106-113. -/
noncomputable def roughCheck (s : Simplex 4) (centre : Vec 6) (distance : ℝ) : Py Bool := do
  let cen1 ← centroid Ico.arith (List.ofFn s)
  let dd1 ← F.ballRadius s cen1
  let dd0 ← F.distanceInPerpSpace cen1 centre
  .ok (if dd0 ≤ F.fl (dd1 + distance) then true else false)

/-- `intersection_two_obj_1`, ico2/intsct.py:507-638. -/
noncomputable def intersectionTwoObj1 (kind : Ico.Kind) (draws : Simplex 4 → Simplex 4 → (n : Nat) → Draws n)
    (delaunay : Simplex 4 → Simplex 4 → Ico.Delaunay) (obj1 obj2 : Obj 4) : Py (Option (Obj 4)) := do
  let cent2 ← centroidObj Ico.arith obj2
  let dd2 ← F.ballRadiusObj obj2 cent2
  Ico.intersectionTwoObj kind (fun t => F.roughCheck t cent2 dd2) (fun s t => .ok (F.checkTwoTetrahedra s t))
    (fun s t => F.intersectionTwoTetrahedra (draws s t) (delaunay s t) s t) obj1 obj2

/-- `intersection`, ico2/two_occupation_domains.py:24-63. -/
noncomputable def intersectionApi (kind : Ico.Kind) (draws : Simplex 4 → Simplex 4 → (n : Nat) → Draws n)
    (delaunay : Simplex 4 → Simplex 4 → Ico.Delaunay) (a b : NdArr) : Py (Option (Obj 4)) :=
  match a, b with
  | @NdArr.d4 4 o1, @NdArr.d4 4 o2 => F.intersectionTwoObj1 kind draws delaunay o1 o2
  | _, _ => .ok none

end Float64
end PyQC
