import Verif.Model.DodeFloat
import Verif.Model.Simplify
/-!
# Surfaces, border edges and outlines with rounding

The functions of `Model/Unique.lean`, `Model/Coplanar.lean` and `Model/Simplify.lean` that use floating-point numbers, with
a rounding after every floating-point operation, as in `Model/Float.lean`.
-/
namespace PyQC
namespace Float64
variable (F : Float64)

/-- `get_internal_component_numerical`, ico2/numericalc.py:573-581, dode2/numericalc.py:635-643. -/
noncomputable def internalOf (p : Package) (v : Vec 6) : Fin 3 → ℝ :=
  match p with
  | .ico => F.internal v
  | .dode => F.dodeInternal v

/-! ## Doubles -/

/-- Perp coordinates of the centroid of a piece, ico2/utils.py:453-454, dode2/utils.py:265-266: the centroid is computed
with integers. -/
noncomputable def centroidKey (p : Package) {m : Nat} (s : Simplex m) : Py (List ℝ) := do
  let vt ← centroid p.arith (List.ofFn s)
  .ok (List.ofFn (F.internalOf p vt))

/-- One piece per stored centroid, in the order of the centroids, ico2/utils.py:450-462, 355-366, dode2/utils.py:262-274. -/
noncomputable def uniqueByCentroid (p : Package) {m : Nat} (o : Obj m) : Py (Obj m) := do
  let a ← fillList (F.centroidKey p) o
  .ok ((uniqueBy (fun x => x.1) (a.zip o)).map Prod.snd)

/-- `generator_unique_edges`, ico2/utils.py:430-462, dode2/utils.py:244-274, as in `Model/Unique.lean`. -/
noncomputable def generatorUniqueEdges (p : Package) {m : Nat} (o : Obj m) : Py (Obj 2) :=
  match m, o with
  | 2, o => F.uniqueByCentroid p o
  | 3, o => F.uniqueByCentroid p (o.flatMap triangleEdges)
  | 4, o =>
    match p with
    | .ico => F.uniqueByCentroid p (o.flatMap tetrahedronEdges)
    | .dode => .error .typeError
  | _, _ => .error .unboundLocalError

/-! ## The surface -/

/-- `np.allclose(a,b)`: `abs(a-b) <= atol+rtol*abs(b)` in every component. -/
def allclose (a b : List ℝ) : Prop :=
  List.Forall₂ (fun x y => |F.fl (x - y)| ≤ F.fl (F.fl (1 / 10 ^ 8) + F.fl (F.fl (1 / 10 ^ 5) * |y|))) a b

open Classical in
/-- The neighbour test of `generator_surface_1`, ico2/utils.py:285-302, on the sorted list. -/
noncomputable def keepIsolated {α : Type} : Option (List ℝ) → List (List ℝ × α) → List α
  | _, [] => []
  | prev, (k, x) :: rest =>
    if (∃ q, prev = some q ∧ F.allclose k q) ∨ (∃ y, rest.head? = some y ∧ F.allclose k y.1) then
      keepIsolated (some k) rest
    else x :: keepIsolated (some k) rest

/-- `generator_surface_1`, ico2/utils.py:203-318. -/
noncomputable def generatorSurface1 (o : Obj 4) : Py (Obj 3) :=
  let triangles := o.flatMap tetrahedronSurface
  if o.length = 1 then .ok triangles
  else do
    let xyz ← fillList (F.centroidKey .ico) triangles
    if triangles.length = 0 then .error .indexError
    else .ok (F.keepIsolated none ((xyz.zip triangles).insertionSort fun x y => x.1 ≤ y.1))

/-! ## Coplanar triangles -/

/-- `coplanar_check_two_triangles`, ico2/utils.py:1049-1066, dode2/utils.py:772-789: doubles are removed with integers. -/
noncomputable def coplanarCheckTwoTriangles (p : Package) (draws : (n : Nat) → Draws n) (s t : Simplex 3) : Py Bool := do
  let vtx ← removeDoublingPerp p (List.ofFn s ++ List.ofFn t)
  .ok (decide (F.coplanarCheckNumeric (vtx.map (F.internalOf p)) (draws _) = some true))

/-- The test made for the triangles number `i` and `j`, ico2/utils.py:620-624, dode2/utils.py:407-411. -/
noncomputable def surfaceCop (p : Package) (draws : Nat → Nat → (n : Nat) → Draws n) (surface : Obj 3)
    (i j : Nat) : Py Bool :=
  F.coplanarCheckTwoTriangles p (draws i j) (surface.getD i fun _ => zeroVec 6) (surface.getD j fun _ => zeroVec 6)

/-! ## Border edges -/

/-- `gen_border_edges_of_coplanar_triangles`, ico2/utils.py:644-666, dode2/utils.py:431-453: the edges are counted with
integers. -/
noncomputable def borderEdges (p : Package) (tri : Obj 3) : Py (Obj 2) := do
  let uniqueEdges ← F.generatorUniqueEdges p tri
  let edges := tri.flatMap triangleEdges
  let counts ← fillList (fun e => countEqual p e 0 edges) uniqueEdges
  .ok ((uniqueEdges.zip counts).filterMap fun x => if x.2 = 1 then some x.1 else none)

/-! ## Joining segments -/

open Classical in
/-- `point_on_segment` on stored perp coordinates, ico2/numericalc.py:108-120, dode2/numericalc.py:108-120. -/
noncomputable def pointOnSegmentNumerical (P A B : Fin 3 → ℝ) : Bool :=
  let vecPA := F.sub P A
  let vecBA := F.sub B A
  let lPA := F.norm3 vecPA
  let lBA := F.norm3 vecBA
  if lBA > 0 ∧ |F.fl (F.dot vecPA vecBA - F.fl (lPA * lBA))| < F.eps then
    let s := F.fl (lPA / lBA)
    if s ≥ 0 ∧ s ≤ 1 then true else false
  else false

/-- `point_on_segment`, ico2/numericalc.py:84-120, dode2/numericalc.py:84-120. -/
noncomputable def pointOnSegment (p : Package) (point : Vec 6) (ln : Simplex 2) : Bool :=
  F.pointOnSegmentNumerical (F.internalOf p point) (F.internalOf p (ln 0)) (F.internalOf p (ln 1))

/-- The loop of `two_segment_into_one`, ico2/utils.py:1028-1043. -/
noncomputable def twoSegmentLoop (p : Package) (s t : Simplex 2) :
    List (Fin 2 × Fin 2 × Fin 2 × Fin 2) → Py (Option (Simplex 2))
  | [] => .ok none
  | (a, b, c, d) :: rest => do
    let eq ← equivalentVertices p (s a) (t c)
    if eq then
      let edgeNew : Simplex 2 := ![s b, t d]
      if F.pointOnSegment p (s a) edgeNew then .ok (some edgeNew) else twoSegmentLoop p s t rest
    else twoSegmentLoop p s t rest

/-- `two_segment_into_one`, ico2/utils.py:1019-1047, dode2/utils.py:742-770. -/
noncomputable def twoSegmentIntoOne (p : Package) (s t : Simplex 2) : Py (Option (Simplex 2)) :=
  F.twoSegmentLoop p s t segCombs

/-- `surface_cleaner`, ico2/utils.py:540-605, dode2/utils.py:327-392. -/
noncomputable def surfaceCleaner (p : Package) (cop : Nat → Nat → Py Bool) (surface : Obj 3) : Py (Obj 2) := do
  let lstSets ← setsOfCoplanar cop surface
  let borders ← fillList (F.borderEdges p) lstSets
  if borders.any List.isEmpty then .error .valueError
  else
    let edges ← F.generatorUniqueEdges p borders.flatten
    mergeAll (F.twoSegmentIntoOne p) edges

/-- `outline`, dode2/occupation_domain.py:1139-1151. -/
noncomputable def outline (draws : Nat → Nat → (n : Nat) → Draws n) (obj : Obj 3) : Py (Obj 2) :=
  F.surfaceCleaner .dode (F.surfaceCop .dode draws obj) obj

/-- `generate_border_edges`, ico2/occupation_domain.py:1156-1171; also steps 1 and 2 of `generate_convex_hull`,
ico2/utils.py:526-531. -/
noncomputable def generateBorderEdges (draws : Nat → Nat → (n : Nat) → Draws n) (obj : Obj 4) : Py (Obj 2) := do
  let surface ← F.generatorSurface1 obj
  F.surfaceCleaner .ico (F.surfaceCop .ico draws surface) surface

end Float64
end PyQC
