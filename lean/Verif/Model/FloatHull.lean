import Verif.Model.FloatSurface
/-!
# Convex hull and simplification with rounding

The functions of `Model/Simplify.lean` and `Model/DodeIntersect.lean` that use floating-point numbers, with a rounding
after every floating-point operation, as in `Model/Float.lean`. Integers are not bounded here.
-/
namespace PyQC
namespace Float64
variable (F : Float64)

/-- `generate_convex_hull`, ico2/utils.py:512-538. -/
noncomputable def generateConvexHull (draws : Nat → Nat → (n : Nat) → Draws n) (delaunay : Ico.Delaunay) (obj : Obj 4) :
    Py (Option (Obj 4)) := do
  let edges ← F.generateBorderEdges draws obj
  let vts ← removeDoublingPerpApi .ico (.d4 edges)
  F.tetrahedralizationPoints delaunay vts

/-- `simplification`, ico2/occupation_domain.py:1118-1154. `None` and an empty array are both the argument `[]`, as in
`Ico.simplification`; volumes are computed with integers. -/
noncomputable def simplification (hd : Nat → Nat → (n : Nat) → Draws n) (hl : Ico.Delaunay)
    (draws : Simplex 4 → Simplex 4 → (n : Nat) → Draws n) (delaunay : Simplex 4 → Simplex 4 → Ico.Delaunay) (obj : Obj 4) :
    Py (Option (Obj 4)) :=
  if obj = [] then .ok none
  else do
    let vol0 ← Ico.objVolume6d (.d4 obj)
    let hull ← F.generateConvexHull hd hl obj
    match hull with
    | none => .error .typeError
    | some hull => do
      let tmp ← F.intersectionTwoObj1 .standard draws delaunay hull obj
      match tmp with
      | none => .error .attributeError
      | some tmp => do
        let vol1 ← Ico.objVolume6d (.d4 tmp)
        if vol0 = vol1 then .ok (some hull) else .ok (some obj)

/-- `generate_convex_hull`, dode2/utils.py:298-325. -/
noncomputable def dodeGenerateConvexHull (draws : Nat → Nat → (n : Nat) → Draws n) (delaunay : Dode.Delaunay2) (obj : Obj 3) :
    Py (Option (Obj 3)) := do
  let edges ← F.surfaceCleaner .dode (F.surfaceCop .dode draws obj) obj
  let vts ← removeDoublingPerpApi .dode (.d4 edges)
  F.triangulationPoints delaunay vts

/-- `simplification`, dode2/occupation_domain.py:1084-1120. `None` and an empty array are both the argument `[]`, as in
`Dode.simplification`; areas are computed with integers. -/
noncomputable def dodeSimplification (hd : Nat → Nat → (n : Nat) → Draws n) (hl : Dode.Delaunay2)
    (delaunay : Simplex 3 → Simplex 3 → Dode.Delaunay2) (obj : Obj 3) : Py (Option (Obj 3)) :=
  if obj = [] then .ok none
  else do
    let vol0 ← Dode.objArea6d (.d4 obj)
    let hull ← F.dodeGenerateConvexHull hd hl obj
    match hull with
    | none => .error .typeError
    | some hull => do
      let tmp ← F.dodeIntersectionTwoObj1 .standard delaunay hull obj
      match tmp with
      | none => .error .attributeError
      | some tmp => do
        let vol1 ← Dode.objArea6d (.d4 tmp)
        if vol0 = vol1 then .ok (some hull) else .ok (some obj)

end Float64
end PyQC
