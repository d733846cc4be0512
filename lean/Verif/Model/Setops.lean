import Verif.Model.Intersect
/-!
# Model: intersection of convex objects and subtraction of objects

Files: ico2/intsct.py:640-1146, ico2/two_occupation_domains.py:65-119.
-/
namespace PyQC
namespace Ico

/-- The vertices of one object that are inside some tetrahedron of the other, ico2/intsct.py:682-700 and
711-728. -/
noncomputable def insideVertices (vertices : List (Vec 6)) (obj : Obj 4) : List (Vec 6) :=
  vertices.filter fun v => obj.any fun t => insideTau v t

/-- One step of the double loops, ico2/intsct.py:746-753 and 757-764. `intersection_segment_surface` performs the
test again; when it returns `None` the stacking would raise ValueError (unreachable: the same test has just
succeeded). -/
noncomputable def crossOne (tr : Simplex 3) (ed : Simplex 2) : Py (List (Vec 6)) :=
  if segmentMeetsTriangleTau ed tr then do
    let v ← intersectionSegmentSurface ed tr
    match v with
    | none => .error .valueError
    | some v => .ok [v]
  else .ok []

/-- One of the two double loops collecting intersection points, ico2/intsct.py:744-754 and 755-765. -/
noncomputable def surfaceCrossings (surf : Obj 3) (edges : Obj 2) : Py (List (Vec 6)) := do
  let r ← fillList (fun tr => fillList (crossOne tr) edges) surf
  .ok (r.map List.flatten).flatten

/-- `intersection_two_obj_convex`, ico2/intsct.py:640-779. `point_a1` and `point_b1` are only assigned
when some vertex is inside the other object. -/
noncomputable def intersectionTwoObjConvex (delaunay : Delaunay) (obj1 obj2 : Obj 4) : Py (Option (Obj 4)) := do
  let surf1 ← generatorSurface1 obj1
  let surf2 ← generatorSurface1 obj2
  let edge1 ← generatorUniqueEdges .ico surf1
  let edge2 ← generatorUniqueEdges .ico surf2
  let vertices1 ← removeDoublingPerp .ico (flattenObj edge1)
  let a1 := insideVertices vertices1 obj2
  let vertices2 ← removeDoublingPerp .ico (flattenObj edge2)
  let b1 := insideVertices vertices2 obj1
  if a1.length = vertices1.length then .ok (some obj1)
  else if b1.length = vertices2.length then .ok (some obj2)
  else do
    let p ← surfaceCrossings surf1 edge2
    let q ← surfaceCrossings surf2 edge1
    let pts := p ++ q
    if pts.length = 0 then .ok none
    else do
      let point1 ← removeDoublingPerp .ico pts
      if a1.length = 0 then .error .unboundLocalError
      else if b1.length = 0 then .error .unboundLocalError
      else do
        let points ← removeDoublingPerp .ico (point1 ++ a1 ++ b1)
        tetrahedralizationPoints delaunay points

/-- `intersection_convex`, ico2/two_occupation_domains.py:65-94. -/
noncomputable def intersectionConvexApi (delaunay : Delaunay) (a b : NdArr) : Py (Option (Obj 4)) :=
  match a, b with
  | @NdArr.d4 4 o1, @NdArr.d4 4 o2 => intersectionTwoObjConvex delaunay o1 o2
  | _, _ => .ok none

/-! ### Subtraction -/

/-- Indices `itertools.combinations(lst,num)` in order, as lists. -/
def combinations {α : Type} : Nat → List α → List (List α)
  | 0, _ => [[]]
  | _ + 1, [] => []
  | k + 1, x :: xs => (combinations k xs).map (x :: ·) ++ combinations (k + 1) xs

/-- The inner loops of the search, ico2/intsct.py:993-1004: `vol` is not reset between combinations. Returns the
last value of `vol` and the first combination after which it equals the target. -/
def searchCombos (vol2 : Num3) : Num3 → List (Obj 4) → Py (Num3 × Option (Obj 4))
  | vol, [] => .ok (vol, none)
  | vol, comb :: rest => do
    let vol ← foldPy (fun vol t => do
      let v ← tetrahedronVolume6d t
      arith.add vol v) vol comb
    if vol = vol2 then .ok (vol, some comb) else searchCombos vol2 vol rest

/-- The outer loop over `num`, ico2/intsct.py:990-1012. -/
def searchSizes (vol2 : Num3) (tmp : Obj 4) : Num3 → List Nat → Py (Option (Obj 4))
  | _, [] => .ok none
  | vol, num :: rest => do
    let (vol, r) ← searchCombos vol2 vol (combinations num tmp)
    match r with
    | some c => .ok (some c)
    | none => searchSizes vol2 tmp vol rest

/-- The search for a set of tetrahedra of the right volume, ico2/intsct.py:988-1026: sizes 1 to
`len(tmp)-2`; when there is no such size `flag` is unassigned. -/
def searchVolume (vol2 : Num3) (tmp : Obj 4) : Py (Option (Obj 4)) :=
  if tmp.length ≤ 2 then .error .unboundLocalError
  else searchSizes vol2 tmp ⟨0, 0, 1⟩ ((List.range (tmp.length - 2)).map (· + 1))

/-- The tetrahedron made of a point and a triangle, ico2/intsct.py:966. -/
def cone (v : Vec 6) (t : Simplex 3) : Simplex 4 := ![v, t 0, t 1, t 2]

/-- Case 1 of `tetrahedron_not_obj_1`, ico2/intsct.py:927-1032. `order` is the outcome of sorting the triangles
by distance (any reordering). The vertex outside and the difference of volumes are given. Line 967 uses `np.float_`, a name of
NumPy 1; with NumPy 2 this case raises AttributeError. -/
def subtractCone (order : Obj 3 → Obj 3) (v : Vec 6) (triangles : Obj 3) (vol2 : Num3) : Py (Option (Obj 4)) := do
  let tmp := (order triangles).map (cone v)
  let vol ← objVolume6d (.d4 tmp)
  if vol = some vol2 then .ok (some tmp) else searchVolume vol2 tmp

/-- `tetrahedron_not_obj_1`, ico2/intsct.py:844-1146. `common` is the outcome of `intersection_two_obj_1` on the
tetrahedron and the object: `None` makes `generator_surface_1` raise AttributeError. When no face of the common part is on
the surface of the object `tmp` is unassigned. A second vertex outside the object raises NameError (`tmp1a`), so only zero
or one vertices outside are possible after the loop; with none the function returns `None`. -/
noncomputable def tetrahedronNotObj (order : Obj 3 → Obj 3) (common : Py (Option (Obj 4))) (t : Simplex 4) (obj : Obj 4)
    (surfaceObj : Obj 3) : Py (Option (Obj 4)) := do
  let c ← common
  match c with
  | none => .error .attributeError
  | some c => do
    let surfaceCommon ← generatorSurface1 c
    let vol0 ← objVolume6d (.d4 [t])
    let vol0 ← needSome vol0
    let vol1 ← objVolume6d (.d4 c)
    let vol1 ← needSome vol1
    let vol2 ← arith.sub vol0 vol1
    let triangles := surfaceCommon.filter fun tr => (List.ofFn tr).all fun v => surfaceObj.any fun s => onOutSurface .ico v s
    if triangles.length = 0 then .error .unboundLocalError
    else
      match (List.ofFn t).filter fun v => !(obj.any fun u => insideTau v u) with
      | [] => .ok none
      | [v] => subtractCone order v triangles vol2
      | _ => .error .nameError

/-- The loop of `subtraction_two_obj`, ico2/intsct.py:817-835, for a given per-piece subtraction. -/
def subtractLoop (piece : Simplex 4 → Py (Option (Obj 4))) : Option (Obj 4) → Obj 4 → Py (Option (Obj 4))
  | out, [] => .ok out
  | out, t :: rest => do
    let a ← piece t
    match a with
    | none => .ok none
    | some a => subtractLoop piece (some (out.getD [] ++ a)) rest

/-- `subtraction_two_obj`, ico2/intsct.py:786-842. -/
noncomputable def subtractionTwoObj (order : Obj 3 → Obj 3) (draws : Simplex 4 → Simplex 4 → (n : Nat) → Draws n)
    (delaunay : Simplex 4 → Simplex 4 → Delaunay) (obj1 obj2 : Obj 4) : Py (Option (Obj 4)) := do
  let surf2 ← generatorSurface1 obj2
  subtractLoop (fun t =>
    tetrahedronNotObj order (intersectionTwoObj1 .standard draws delaunay [t] obj2) t obj2 surf2) none obj1

/-- `subtraction`, ico2/two_occupation_domains.py:96-119. -/
noncomputable def subtractionApi (order : Obj 3 → Obj 3) (draws : Simplex 4 → Simplex 4 → (n : Nat) → Draws n)
    (delaunay : Simplex 4 → Simplex 4 → Delaunay) (a b : NdArr) : Py (Option (Obj 4)) :=
  match a, b with
  | @NdArr.d4 4 o1, @NdArr.d4 4 o2 => subtractionTwoObj order draws delaunay o1 o2
  | _, _ => .ok none

end Ico
end PyQC
