import Verif.Model.Intersect
/-!
# Model: border edges, convex hull and simplification (ico2); outline (dode2)
-/
namespace PyQC

/-- `outline`, dode2/occupation_domain.py:1139-1151. -/
noncomputable def outline (draws : Nat → Nat → (n : Nat) → Draws n) (obj : Obj 3) : Py (Obj 2) :=
  surfaceCleaner .dode (surfaceCop .dode draws obj) obj

namespace Ico

/-- `generate_border_edges`, ico2/occupation_domain.py:1156-1171; also steps 1 and 2 of `generate_convex_hull`,
ico2/utils.py:526-531. -/
noncomputable def generateBorderEdges (draws : Nat → Nat → (n : Nat) → Draws n) (obj : Obj 4) : Py (Obj 2) := do
  let surface ← generatorSurface1 obj
  surfaceCleaner .ico (surfaceCop .ico draws surface) surface

/-- `generate_convex_hull`, ico2/utils.py:512-538. -/
noncomputable def generateConvexHull (draws : Nat → Nat → (n : Nat) → Draws n) (delaunay : Delaunay) (obj : Obj 4) :
    Py (Option (Obj 4)) := do
  let edges ← generateBorderEdges draws obj
  let vts ← removeDoublingPerpApi .ico (.d4 edges)
  tetrahedralizationPoints delaunay vts

/-- `simplification`, ico2/occupation_domain.py:1118-1154. `np.all(obj==None)` is true of `None` and of an empty array,
which are both the argument `[]` here; the result is then `None`. When the hull is `None` the loop of
`intersection_two_obj_1` raises TypeError; when the intersection is `None`, `obj_volume_6d` raises AttributeError.
`hd` and `hl` are the random draws and the Delaunay library used for the hull, `draws` and `delaunay` those used for
the intersection. -/
noncomputable def simplification (hd : Nat → Nat → (n : Nat) → Draws n) (hl : Delaunay)
    (draws : Simplex 4 → Simplex 4 → (n : Nat) → Draws n) (delaunay : Simplex 4 → Simplex 4 → Delaunay) (obj : Obj 4) :
    Py (Option (Obj 4)) :=
  if obj = [] then .ok none
  else do
    let vol0 ← objVolume6d (.d4 obj)
    let hull ← generateConvexHull hd hl obj
    match hull with
    | none => .error .typeError
    | some hull => do
      let tmp ← intersectionTwoObj1 .standard draws delaunay hull obj
      match tmp with
      | none => .error .attributeError
      | some tmp => do
        let vol1 ← objVolume6d (.d4 tmp)
        if vol0 = vol1 then .ok (some hull) else .ok (some obj)

end Ico
end PyQC
