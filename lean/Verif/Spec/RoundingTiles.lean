import Verif.Spec.RoundingPlanar
/-!
# Specification vocabulary: what the triangulation library should answer for rounded corners
-/
namespace PyQC

/-- An answer of the tetrahedralisation library for the points `pts`: it fills their convex hull, with tetrahedra whose
interiors are disjoint. -/
def TilesHullOf (pts : List (Fin 3 → ℝ)) (answer : Option (List (Fin 4 → Nat))) : Prop :=
  FillsHullOf pts answer ∧ ∀ l, answer = some l → ∀ h : ∀ i ∈ l, ∀ k, i k < pts.length,
    (l.attach.map fun i k => pts[i.1 k]'(h i.1 i.2 k)).Pairwise fun a b => interior (solid a) ∩ interior (solid b) = ∅

/-- An answer of the triangulation library for the points `pts`: it fills their convex hull, with triangles whose
interiors are disjoint. -/
def TilesHullOf2 (pts : List (Fin 2 → ℝ)) (answer : Option (List (Fin 3 → Nat))) : Prop :=
  FillsHullOf2 pts answer ∧ ∀ l, answer = some l → ∀ h : ∀ i ∈ l, ∀ k, i k < pts.length,
    (l.attach.map fun i k => pts[i.1 k]'(h i.1 i.2 k)).Pairwise fun a b : Fin 3 → Fin 2 → ℝ =>
      interior (convexHull ℝ (Set.range a)) ∩ interior (convexHull ℝ (Set.range b)) = ∅

end PyQC
