import Verif.Model.Export
import Verif.Model.Coplanar
import Verif.Model.Unit
/-!
# Remaining helpers: adjacency and merging of pieces, sorting, numerical volumes, helpers that cannot work
-/
namespace PyQC
open Matrix

/-! ## Adjacency and merging -/

/-- `check_connectivity_tetrahedra`, ico2/utils.py:963-993 (the code after the first `return` is a comment). -/
def Ico.checkConnectivity (s t : Simplex 4) : Py Bool := do
  let a ← removeDoublingPerp .ico (List.ofFn s ++ List.ofFn t)
  .ok (decide (a.length = 5))

/-- The inner loop of `get_common_triangle_in_two_tetrahedra`, ico2/utils.py:1003-1009: is a face of the second
tetrahedron equivalent to this one? -/
def Ico.anyEquivalent (f : Simplex 3) : List (Simplex 3) → Py Bool
  | [] => .ok false
  | g :: gs => do
    let e ← equivalentTriangles .ico f g
    if e then .ok true else Ico.anyEquivalent f gs

/-- The outer loop of `get_common_triangle_in_two_tetrahedra`, ico2/utils.py:1002-1013. -/
def Ico.firstCommon (surface2 : List (Simplex 3)) : List (Simplex 3) → Py (Option (Simplex 3))
  | [] => .ok none
  | f :: fs => do
    let e ← Ico.anyEquivalent f surface2
    if e then .ok (some f) else Ico.firstCommon surface2 fs

/-- `get_common_triangle_in_two_tetrahedra`, ico2/utils.py:995-1017. -/
def Ico.getCommonTriangle (s t : Simplex 4) : Py (Option (Simplex 3)) :=
  Ico.firstCommon (tetrahedronSurface t) (tetrahedronSurface s)

/-- The loop of `merge_two_tetrahedra`, ico2/utils.py:947-952, over the corners of the common triangle. `ab` are the
first two rows of `line_segment`, the only ones `point_on_segment` uses. `np.stack(tmp,line_segment)` takes the array
`line_segment` as the axis and raises TypeError. -/
noncomputable def Ico.mergeCorners (ab : Simplex 2) : List (Vec 6) → Py (Option (Simplex 4))
  | [] => .ok none
  | v :: vs => if pointOnSegment .ico v ab then .error .typeError else Ico.mergeCorners ab vs

/-- The first two rows of an array of rows. -/
def firstTwo : List (Vec 6) → Py (Simplex 2)
  | a :: b :: _ => .ok ![a, b]
  | _ => .error .indexError

/-- `merge_two_tetrahedra`, ico2/utils.py:938-961. Iterating over `None` raises TypeError. -/
noncomputable def Ico.mergeTwo (s t : Simplex 4) : Py (Option (Simplex 4)) := do
  let c ← Ico.checkConnectivity s t
  if c then do
    let vtx1 := removeVectors (List.ofFn s) (List.ofFn t)
    let vtx2 := removeVectors (List.ofFn t) (List.ofFn s)
    let common ← Ico.getCommonTriangle s t
    let common ← needSome common
    let ab ← firstTwo (vtx1 ++ vtx2)
    Ico.mergeCorners ab (List.ofFn common)
  else .ok none

/-- `merge_two_tetrahedra_in_obj`, ico2/utils.py:931-936, `merge_two_triangles_in_obj`, dode2/utils.py:677-682. -/
def mergeInObj {m : Nat} (o : Obj m) : Obj m := o

/-- `check_connectivity_triangles`, dode2/utils.py:709-717: the first triangle is stacked on itself. -/
def Dode.checkConnectivity (s _t : Simplex 3) : Py Bool := do
  let a ← removeDoublingPerp .dode (List.ofFn s ++ List.ofFn s)
  .ok (decide (a.length = 4))

/-- `get_common_edge_in_two_triangles`, dode2/utils.py:719-740: `edges1` is not defined. -/
def Dode.getCommonEdge (_s _t : Simplex 3) : Py (Option (Simplex 2)) := .error .nameError

/-- `merge_two_triangles`, dode2/utils.py:684-707. -/
def Dode.mergeTwo (s t : Simplex 3) : Py (Option (Simplex 3)) := do
  let c ← Dode.checkConnectivity s t
  if c then do
    let common ← Dode.getCommonEdge s t
    let _ ← needSome common
    .error .typeError
  else .ok none

/-! ## Sorting -/

/-- What `np.argsort` of a column promises: the row numbers in an order that sorts the column. Which order is chosen
among equal entries is not promised (the default sort is not stable). -/
structure IsArgsort (argsort : List ℝ → List Nat) : Prop where
  perm : ∀ l, (argsort l).Perm (List.range l.length)
  sorted : ∀ l, (argsort l).Pairwise fun i j => ∀ x y, l[i]? = some x → l[j]? = some y → x ≤ y

/-- `sort_vctors`, ico2/utils.py:786-801, dode2/utils.py:539-553. Only the first column of `argsort(vns,axis=0)` is
used. -/
noncomputable def sortVectors (argsort : List ℝ → List Nat) (p : Package) (vts : List (Vec 6)) : Py (List (Vec 6)) :=
  let tmp := argsort (vts.map fun v => p.internalNumerical v 0)
  fillList (fun i => pyItem vts (i : Nat)) tmp

/-- `sort_obj`, ico2/utils.py:803-823, dode2/utils.py:555-574: the first statement reads the undefined name `vts`. -/
def sortObj {m : Nat} (_o : Obj m) : Py (Obj m) := .error .nameError

/-! ## Numerical volumes and areas -/

/-- `triangle_area`, ico2/numericalc.py:369-394, dode2/numericalc.py:435-460: area of a triangle given by exact
coordinates in three dimensions. -/
noncomputable def triangleAreaTau (p : Package) (a : Fin 3 → Vec 3) : ℝ :=
  let num := fun i => p.numericalVector3 (a i)
  norm3 ((num 2 - num 0) ⨯₃ (num 1 - num 0)) / 2

/-- `obj_volume_numerical`, ico2/numericalc.py:537-548. -/
noncomputable def Ico.objVolumeNumerical (o : List (Fin 4 → Fin 3 → ℝ)) : ℝ :=
  o.foldl (fun vol t => vol + Ico.tetrahedronVolumeNumerical t) 0

/-- `triangle_volume_6d_numerical`, dode2/numericalc.py:586-596. -/
noncomputable def Dode.triangleVolume6dNumerical (t : Simplex 3) : ℝ :=
  Ico.triangleAreaNumerical fun i => Package.dode.internalNumerical (t i)

/-- `obj_volume_6d_numerical`, dode2/numericalc.py:573-584. -/
noncomputable def Dode.objVolume6dNumerical (o : Obj 3) : ℝ :=
  o.foldl (fun vol t => vol + Dode.triangleVolume6dNumerical t) 0

/-- `projection_numerical` of the package. -/
noncomputable def Package.projNumerical (p : Package) (vn : Fin 6 → ℝ) : Fin 6 → ℝ :=
  match p with
  | .ico => Ico.projectionNumerical vn
  | .dode => Dode.projectionNumerical vn

/-- `projection_sets_numerical`, ico2/numericalc.py:610-622, dode2/numericalc.py:672-684. -/
noncomputable def projectionSetsNumerical (p : Package) (vns : List (Fin 6 → ℝ)) : List (Fin 6 → ℝ) :=
  vns.map p.projNumerical

/-- `projection3_sets_numerical`, ico2/numericalc.py:637-649, dode2/numericalc.py:702-714. -/
noncomputable def projection3SetsNumerical (p : Package) (vns : List (Fin 6 → ℝ)) : List (Fin 3 → ℝ) :=
  vns.map fun vn =>
    match p with
    | .ico => Ico.projection3Numerical vn
    | .dode => Dode.projection3Numerical vn

/-- `inner_product_numerical`, ico2/numericalc.py:660-661, dode2/numericalc.py:725-726: `np.dot` of two vectors. -/
def innerProductNumerical {n : Nat} (v w : Fin n → ℝ) : ℝ := v ⬝ᵥ w

/-- `matrix_dot`, ico2/numericalc.py:657-658, dode2/numericalc.py:722-723: `np.dot` of two matrices. -/
def matrixDot {k m n : Nat} (a : Matrix (Fin k) (Fin m) ℝ) (b : Matrix (Fin m) (Fin n) ℝ) : Matrix (Fin k) (Fin n) ℝ :=
  fun i j => (fun l => a i l) ⬝ᵥ (fun l => b l j)

/-! ## Helpers that cannot work -/

/-- `det_matrix`, ico2/math1.py:656-697, dode2/math1.py:640-681: the fourth product reads the undefined name `c`. -/
def detMatrix (p : Package) (m : Fin 3 → Vec 3) : Py Num3 := do
  let t3 ← p.arith.mul (m 0 0) (m 1 1)
  let _ ← p.arith.mul t3 (m 2 2)
  let _ ← p.arith.mul (m 0 2) (m 1 0)
  .error .nameError

/-- `middle_position`, ico2/utils.py:1086-1094, dode2/utils.py:793-801: the second turn of the loop reads the undefined
name `tmp2`. -/
def middlePosition (p : Package) (v w : Vec 6) : Py (Vec 6) := do
  let x ← p.arith.add (v 0) (w 0)
  let _ ← p.arith.mul x ⟨1, 0, 2⟩
  let x ← p.arith.add (v 1) (w 1)
  let _ ← p.arith.mul x ⟨1, 0, 2⟩
  .error .nameError

/-- `inside_outside_obj_tau`, ico2/numericalc.py:423-431, dode2/numericalc.py:489-497: `numerical_vectors` unpacks the
shape into three numbers, which raises ValueError for an object (four dimensions); for a single piece the undefined name
`ln` is read. -/
def insideOutsideObjTau (_point : Vec 6) (obj : NdArr) : Py Bool :=
  match obj with
  | .d3 _ => .error .nameError
  | _ => .error .valueError

/-- `l[k]` for the rows of an array. -/
def rowOf {α : Type} (l : List α) (k : Nat) : Py α :=
  match l[k]? with
  | some x => .ok x
  | none => .error .indexError

open Classical in
/-- The loop of `check_intersection_two_segment_numerical`, ico2/numericalc.py:347-366. Idealisation: a division by zero
gives 0 (in numpy `inf` or `nan` with a warning). -/
noncomputable def Ico.segmentCombs (vecAB vecCD vecCA : Fin 3 → ℝ) : Nat → List (Fin 3 × Fin 3 × Fin 3) → Nat
  | out, [] => out
  | out, (i, j, k) :: rest =>
    let bunbo := vecAB i * vecCD j - vecCD i * vecAB j
    if |bunbo| < EPS then
      let t := (vecAB i * vecCA j - vecCA i * vecAB j) / bunbo
      let s := (vecCD i * vecCA j - vecCA i * vecCD j) / bunbo
      if (t ≥ 0 ∧ t ≤ 1) ∧ (s ≥ 0 ∧ s ≤ 1) ∧ |-s * vecAB k + t * vecCD k - vecCA k| ≤ EPS then out
      else Ico.segmentCombs vecAB vecCD vecCA (out + 1) rest
    else Ico.segmentCombs vecAB vecCD vecCA (out + 1) rest

/-- `check_intersection_two_segment_numerical`, ico2/numericalc.py:322-367: the direction of the second segment is
computed from its third row. -/
noncomputable def Ico.checkTwoSegment (ln1 ln2 : List (Fin 3 → ℝ)) : Py Nat := do
  let b ← rowOf ln1 1
  let a ← rowOf ln1 0
  let d ← rowOf ln2 2
  let c ← rowOf ln2 0
  let c' ← rowOf ln2 1
  .ok (Ico.segmentCombs (b - a) (d - c) (a - c') 0 [(0, 1, 2), (1, 2, 0), (2, 0, 1)])

/-- `check_intersection_two_segment_numerical_6d_tau`, ico2/numericalc.py:300-320. -/
noncomputable def Ico.checkTwoSegmentTau {m : Nat} (s t : Simplex m) : Py Nat :=
  Ico.checkTwoSegment (List.ofFn fun i => Package.ico.internalNumerical (s i))
    (List.ofFn fun i => Package.ico.internalNumerical (t i))

/-- `intersection_two_segment`, ico2/intsct.py:243-284: the test `check_intersection_two_segment_numerical` is not
imported in this module. -/
def Ico.intersectionTwoSegment (_s _t : Simplex 2) : Py (Option (Vec 6)) := .error .nameError

/-- `decomposition` of ico2/intsct.py:53-65 (not the one of utils.py): `Delaunay` is not imported in this module, and
the bare `except` catches the NameError. Were it imported, `tmp` would be unassigned at line 63. -/
def Ico.decompositionIntsct (_pts : List (Fin 3 → ℝ)) : Py (List Nat) :=
  match (.error .nameError : Py (List (Fin 4 → Nat))) with
  | .error _ => .ok [0]
  | .ok _ => .error .unboundLocalError

/-- `site_symmetry`, ico2/occupation_domain.py:1337-1530: for the centrings 'i' and 'f' `generator_equivalent_vec` is
called without its second argument, for every other one `projection_numerical` is called with six arguments instead of
one; both raise TypeError. `centred`: the centring is 'i' or 'f'. -/
def Ico.siteSymmetry (_position : Vec 6) (centred : Bool) : Py (List Nat × List Nat) :=
  if centred then .error .typeError else .error .typeError

/-- `projection_perp`, dode2/math1.py:469-481: `None`. -/
def Dode.projectionPerp (_v : Vec 6) : Option (Vec 6) := none

/-- `get_common_edges`, ico2/utils.py:389-392, dode2/utils.py:210-213: `None`. -/
def getCommonEdges (_o : Obj 3) : Option (Obj 2) := none

/-- `breps`, ico2/utils.py:1075-1083: `None`. -/
def Ico.breps (_t : Simplex 4) : Option (Obj 3) := none

/-- `generator_symmetric_vec_0`, dode2/symmetry.py:163-165. -/
def Dode.symmetricVec0 (v centre : Vec 6) (k : Int) : Py (Vec 6) := do
  let op ← pyItem Dode.dodesymop k
  symopVec .dode op v centre

/-- `coplanar_check`, dode2/math1.py:558-616, and `coplanar_check_numeric_tau`, dode2/numericalc.py:13-29. -/
noncomputable def Dode.coplanarCheck (draws : (n : Nat) → Draws n) (pts : List (Vec 6)) : Option Bool :=
  coplanarCheckNumeric (pts.map Package.dode.internalNumerical) (draws _)

/-- The number of corners of a triangle that lie on some triangle of a surface, ico2/intsct.py:1197-1204. -/
noncomputable def Ico.cornersOn (surface : Obj 3) (t : Simplex 3) : Nat :=
  (List.ofFn t).countP fun v => surface.any fun u => onOutSurface .ico v u

/-- The loop of `tetrahedron_not_obj_2`, ico2/intsct.py:1194-1212: number of triangles collected so far. `np.vappend`
does not exist. -/
noncomputable def Ico.collectOn (surface : Obj 3) : Nat → List (Simplex 3) → Py Nat
  | n, [] => .ok n
  | n, t :: ts =>
    if Ico.cornersOn surface t = 4 then
      if n = 0 then Ico.collectOn surface (n + 1) ts else .error .attributeError
    else Ico.collectOn surface n ts

/-- `tetrahedron_not_obj_2`, ico2/intsct.py:1148-1217. The volume of `None` raises AttributeError. -/
noncomputable def Ico.tetrahedronNotObj2 (draws : Simplex 4 → Simplex 4 → (n : Nat) → Draws n)
    (delaunay : Simplex 4 → Simplex 4 → Delaunay) (t o : Obj 4) : Py (Option (Obj 4)) := do
  let _ ← Ico.objVolume6d (.d4 t)
  let common ← Ico.intersectionTwoObj1 .standard draws delaunay t o
  match common with
  | none => .error .attributeError
  | some common =>
    let _ ← Ico.objVolume6d (.d4 common)
    let surface2 ← generatorSurface1 common
    let surface3 ← generatorSurface1 o
    let _ ← Ico.collectOn surface3 0 surface2
    .ok none

/-- `tetrahedron_not_obj_2`, dode2/intsct.py:1070-1139: the first statement calls `obj_volume_6d`, which is not imported. -/
def Dode.tetrahedronNotObj2 (_t _o : Obj 4) : Py (Option (Obj 4)) := .error .nameError

/-- `tetrahedron_not_obj_1`, dode2/intsct.py:766-1068: after the common part has been computed, `generator_surface_1` is
called, which is not imported. `common` stands for that computation. -/
def Dode.tetrahedronNotObj1 {α : Type} (common : Py α) : Py (Option (Obj 4)) := do
  let _ ← common
  .error .nameError

end PyQC
