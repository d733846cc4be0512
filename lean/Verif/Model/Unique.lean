import Verif.Model.Math
import Verif.Model.Numeric
import Mathlib.Data.List.Sort
import Mathlib.Data.List.Lex
/-!
# `utils.py` of both packages: removing doubles, equivalence, edges, surfaces

`np.unique(a, axis=0)` sorts rows lexicographically and keeps one of each; with `return_index=True` it
also returns the index of the first occurrence of every kept row.
-/
namespace PyQC

section
variable {α κ : Type} [LinearOrder κ]

/-- Keep the first element of every key. -/
def firstOcc (key : α → κ) : List κ → List α → List α
  | _, [] => []
  | seen, x :: xs => if key x ∈ seen then firstOcc key seen xs else x :: firstOcc key (key x :: seen) xs

/-- `b = np.unique(keys, return_index=True, axis=0)[1]; [l[i] for i in b]`: the first element of every
key, in increasing order of the keys. -/
def uniqueBy (key : α → κ) (l : List α) : List α :=
  (firstOcc key [] l).insertionSort fun x y => key x ≤ key y

end

/-- The integers of a row, in memory order; rows are compared lexicographically. -/
def rowKey {n : Nat} (v : Vec n) : List Int := (List.ofFn v).flatMap fun x => [x.a, x.b, x.c]

/-- `remove_doubling` on an array of shape (n,6,3), ico2/utils.py:156, dode2/utils.py:161. -/
def removeDoubling (vts : List (Vec 6)) : List (Vec 6) := uniqueBy rowKey vts

/-- `vts.reshape(n1*n2,6,3)`, ico2/utils.py:152-154. -/
def flattenObj {m : Nat} (o : Obj m) : List (Vec 6) := o.flatMap fun s => List.ofFn s

/-- `remove_doubling`, ico2/utils.py:136-159, dode2/utils.py:141-164, with its dispatch on `ndim`. -/
def removeDoublingApi (a : NdArr) : Option (List (Vec 6)) :=
  match a with
  | .d3 s => some (removeDoubling (List.ofFn s))
  | .d4 o => some (removeDoubling (flattenObj o))
  | _ => none

/-- `remove_doubling_in_perp_space` on an array of shape (n,6,3), ico2/utils.py:182-196,
dode2/utils.py:187-201. -/
def removeDoublingPerp (p : Package) (vts : List (Vec 6)) : Py (List (Vec 6)) := do
  let vts := removeDoubling vts
  let a ← fillList p.projection3 vts
  .ok ((uniqueBy (fun x => rowKey x.1) (a.zip vts)).map Prod.snd)

/-- `remove_doubling_in_perp_space`, ico2/utils.py:161-196, dode2/utils.py:166-201. For other numbers
of dimensions `remove_doubling` returns `None` and `len(None)` raises TypeError. -/
def removeDoublingPerpApi (p : Package) (a : NdArr) : Py (List (Vec 6)) :=
  match a with
  | .d3 s => removeDoublingPerp p (List.ofFn s)
  | .d4 o => removeDoublingPerp p (flattenObj o)
  | _ => .error .typeError

/-- `equivalent_vertices`, ico2/utils.py:775-781, dode2/utils.py:526-532. -/
def equivalentVertices (p : Package) (v w : Vec 6) : Py Bool := do
  let a ← p.projection3 v
  let b ← p.projection3 w
  .ok (decide (a = b))

/-- Common body of `equivalent_tetrahedra` (k = 4), `equivalent_triangles` (k = 3) and
`equivalent_edges` (k = 2), ico2/utils.py:723-773, dode2/utils.py:506-524: stack the vertices, remove
doubles in perp space, compare the number left with `k`. -/
def equivalentPieces (p : Package) (k : Nat) {m n : Nat} (s : Simplex m) (t : Simplex n) : Py Bool := do
  let a ← removeDoublingPerp p (List.ofFn s ++ List.ofFn t)
  .ok (decide (a.length = k))

/-- `equivalent_tetrahedra`, ico2/utils.py:723-731. -/
def equivalentTetrahedra (p : Package) (s t : Simplex 4) : Py Bool := equivalentPieces p 4 s t
/-- `equivalent_triangles`, ico2/utils.py:755-763, dode2/utils.py:506-514. -/
def equivalentTriangles (p : Package) (s t : Simplex 3) : Py Bool := equivalentPieces p 3 s t
/-- `equivalent_edges`, ico2/utils.py:765-773, dode2/utils.py:516-524. -/
def equivalentEdges (p : Package) (s t : Simplex 2) : Py Bool := equivalentPieces p 2 s t

/-- `equivalent`, ico2/utils.py:678-721, dode2/utils.py:464-504. `check1` compares the vertex number of
its first argument with itself, so that guard is always passed. Other combinations of dimensions give
`None`. -/
def equivalentApi (p : Package) (a b : NdArr) : Py (Option Bool) :=
  match a, b with
  | @NdArr.d3 m s, .d3 t => do
    let r ← equivalentPieces p m s t
    .ok (some r)
  | @NdArr.d4 m o, .d4 o' =>
    match o, o' with
    | [s], [t] => do
      let r ← equivalentPieces p m s t
      .ok (some r)
    | _, _ => .ok (some false)
  | @NdArr.d2 n v, @NdArr.d2 n' w =>
    if h : n = 6 ∧ n' = 6 then do
      let r ← equivalentVertices p (fun i => v (Fin.cast h.1.symm i)) (fun i => w (Fin.cast h.2.symm i))
      .ok (some r)
    else .error .indexError
  | _, _ => .ok none

/-- `remove_vectors`, ico2/utils.py:882-902, dode2/utils.py:628-648: keep the vectors of the first list
that equal no vector of the second; if none is left the input is returned unchanged. -/
def removeVectors (vts1 vts2 : List (Vec 6)) : List (Vec 6) :=
  let out := vts1.filter fun v => !(vts2.any fun w => decide (v = w))
  if out.length ≠ 0 then out else vts1

/-- `remove_vector`, ico2/utils.py:904-922, dode2/utils.py:650-668. -/
def removeVector (vts : List (Vec 6)) (vt : Vec 6) : List (Vec 6) :=
  let out := vts.filter fun v => !decide (v = vt)
  if out.length ≠ 0 then out else vts

/-! ## Edges and faces -/

/-- `get_triangle_edge`, ico2/utils.py:464-482, dode2/utils.py:276-293. -/
def triangleEdges (t : Simplex 3) : List (Simplex 2) := [![t 0, t 1], ![t 0, t 2], ![t 1, t 2]]

/-- `get_tetrahedron_edge`, ico2/utils.py:485-508. -/
def tetrahedronEdges (t : Simplex 4) : List (Simplex 2) :=
  [![t 0, t 1], ![t 0, t 2], ![t 0, t 3], ![t 1, t 2], ![t 1, t 3], ![t 2, t 3]]

/-- `get_tetrahedron_surface`, ico2/utils.py:368-386. -/
def tetrahedronSurface (t : Simplex 4) : List (Simplex 3) :=
  [![t 0, t 1, t 2], ![t 0, t 1, t 3], ![t 0, t 2, t 3], ![t 1, t 2, t 3]]

/-- `generator_all_edges`, ico2/utils.py:394-427 (triangles and tetrahedra), dode2/utils.py:215-241
(triangles only); `None` for other pieces. -/
def generatorAllEdges (p : Package) {m : Nat} (o : Obj m) : Option (Obj 2) :=
  match m, o with
  | 3, o => some (o.flatMap triangleEdges)
  | 4, o =>
    match p with
    | .ico => some (o.flatMap tetrahedronEdges)
    | .dode => none
  | _, _ => none

/-- `get_internal_component_numerical`, ico2/numericalc.py:573-581, dode2/numericalc.py:635-643. -/
noncomputable def Package.internalNumerical (p : Package) (vt : Vec 6) : Fin 3 → ℝ :=
  match p with
  | .ico => Ico.projection3Numerical (numericalVector tau vt)
  | .dode => Dode.projection3Numerical (numericalVector sin60 vt)

/-- Perp coordinates of the centroid of a piece, ico2/utils.py:453-454, dode2/utils.py:265-266. -/
noncomputable def centroidKey (p : Package) {m : Nat} (s : Simplex m) : Py (List ℝ) := do
  let vt ← centroid p.arith (List.ofFn s)
  .ok (List.ofFn (p.internalNumerical vt))

/-- One piece per centroid, in the order of the centroids, ico2/utils.py:450-462, 355-366,
dode2/utils.py:262-274. -/
noncomputable def uniqueByCentroid (p : Package) {m : Nat} (o : Obj m) : Py (Obj m) := do
  let a ← fillList (centroidKey p) o
  .ok ((uniqueBy (fun x => x.1) (a.zip o)).map Prod.snd)

/-- `generator_unique_edges`, ico2/utils.py:430-462, dode2/utils.py:244-274. For tetrahedra the dode2
version takes `len(None)`: TypeError; pieces with other numbers of vertices leave `edges` unassigned. -/
noncomputable def generatorUniqueEdges (p : Package) {m : Nat} (o : Obj m) : Py (Obj 2) :=
  match m, o with
  | 2, o => uniqueByCentroid p o
  | 3, o => uniqueByCentroid p (o.flatMap triangleEdges)
  | 4, o =>
    match p with
    | .ico => uniqueByCentroid p (o.flatMap tetrahedronEdges)
    | .dode => .error .typeError
  | _, _ => .error .unboundLocalError

/-- `generator_unique_triangles`, ico2/utils.py:324-366: all faces of a single tetrahedron. -/
noncomputable def generatorUniqueTriangles (o : Obj 4) : Py (Obj 3) :=
  let triangles := o.flatMap tetrahedronSurface
  if o.length = 1 then .ok triangles else uniqueByCentroid .ico triangles

/-- `np.allclose(a,b)` with the default tolerances: `|a-b| <= 1e-8 + 1e-5*|b|` in every component. -/
def allclose (a b : List ℝ) : Prop :=
  List.Forall₂ (fun x y => |x - y| ≤ 1 / 10 ^ 8 + 1 / 10 ^ 5 * |y|) a b

open Classical in
/-- The neighbour test of `generator_surface_1`, ico2/utils.py:285-302, on the sorted list: an entry is
kept unless it is close to the entry before it or to the entry after it. -/
noncomputable def keepIsolated {α : Type} : Option (List ℝ) → List (List ℝ × α) → List α
  | _, [] => []
  | prev, (k, x) :: rest =>
    if (∃ q, prev = some q ∧ allclose k q) ∨ (∃ y, rest.head? = some y ∧ allclose k y.1) then
      keepIsolated (some k) rest
    else x :: keepIsolated (some k) rest

/-- `generator_surface_1`, ico2/utils.py:203-318: all four faces of a single tetrahedron; otherwise sort
the faces by the perp coordinates of their centroids (`np.lexsort`, a stable sort with x as first key)
and keep those not close to a neighbour. The empty object raises IndexError. -/
noncomputable def generatorSurface1 (o : Obj 4) : Py (Obj 3) :=
  let triangles := o.flatMap tetrahedronSurface
  if o.length = 1 then .ok triangles
  else do
    let xyz ← fillList (centroidKey .ico) triangles
    if triangles.length = 0 then .error .indexError
    else .ok (keepIsolated none ((xyz.zip triangles).insertionSort fun x y => x.1 ≤ y.1))

end PyQC
