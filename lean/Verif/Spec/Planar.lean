import Verif.Spec.Hull
/-!
# Specification vocabulary: triangles in a horizontal plane of perp space (dode2)
-/
namespace PyQC

/-- All corners of the object lie in the plane of height `z` of perp space. -/
def Level (z : ℝ) (o : Obj 3) : Prop := ∀ t ∈ o, ∀ i, Package.dode.perp (t i) 2 = z

/-- The points of a set at height `z`, as points of the plane. -/
def slice (z : ℝ) (A : Set (Fin 3 → ℝ)) : Set (Fin 2 → ℝ) := {p | ![p 0, p 1, z] ∈ A}

/-- The first two coordinates. -/
def xy (x : Fin 3 → ℝ) : Fin 2 → ℝ := ![x 0, x 1]

/-- The internal-space position of a vector, as a point of the plane. -/
noncomputable def plane (v : Vec 6) : Fin 2 → ℝ := xy (Package.dode.perp v)

/-- Signed area of the parallelogram spanned by two directions of the plane. -/
def cross2 (a b : Fin 2 → ℝ) : ℝ := a 0 * b 1 - a 1 * b 0

/-- The acceptance region of the segment test of dode2: the directions span an area of at least 10⁻³, and the common
perpendicular of the two lines meets both segments and is shorter than 10⁻³. -/
def SegmentsClose (A B C D : Fin 3 → ℝ) : Prop :=
  1 / 10 ^ 6 ≤ crossProduct (B - A) (D - C) ⬝ᵥ crossProduct (B - A) (D - C) ∧
  ∃ s t : ℝ, 0 ≤ s ∧ s ≤ 1 ∧ 0 ≤ t ∧ t ≤ 1 ∧
    ((C + t • (D - C)) - (A + s • (B - A))) ⬝ᵥ (B - A) = 0 ∧ ((C + t • (D - C)) - (A + s • (B - A))) ⬝ᵥ (D - C) = 0 ∧
    ((C + t • (D - C)) - (A + s • (B - A))) ⬝ᵥ ((C + t • (D - C)) - (A + s • (B - A))) < 1 / 10 ^ 6

/-- The acceptance region of the inside test of dode2 in the plane of the triangle: the triangle is not degenerate and
the absolute values of the barycentric coordinates add up to less than 1 + 10⁻⁶ (exactly 1 inside). -/
def AcceptsTri (q : Fin 3 → Fin 3 → ℝ) (x : Fin 3 → ℝ) : Prop :=
  triArea q ≠ 0 ∧ ∃ w, IsBary q w x ∧ ∑ i, |w i| < 1 + 1 / 10 ^ 6

/-- `x` is where an edge of `S` crosses an edge of `T` that is not parallel to it. -/
def EdgeEdge (S T : Fin 3 → Fin 3 → ℝ) (x : Fin 3 → ℝ) : Prop :=
  ∃ i j k l : Fin 3, i < j ∧ k < l ∧ crossProduct (S j - S i) (T l - T k) ≠ 0 ∧
    ∃ a b : ℝ, 0 ≤ a ∧ a ≤ 1 ∧ 0 ≤ b ∧ b ≤ 1 ∧ x = S i + a • (S j - S i) ∧ x = T k + b • (T l - T k)

/-- The pair of triangles is resolved by the tolerances of the code: neither is degenerate; a corner of one accepted by
the inside test of the other is inside; edges that are not parallel span an area of at least 10⁻³. -/
structure ResolvedTri (S T : Fin 3 → Fin 3 → ℝ) : Prop where
  areaS : triArea S ≠ 0
  areaT : triArea T ≠ 0
  cornerS : ∀ i, AcceptsTri T (S i) → S i ∈ solid T
  cornerT : ∀ i, AcceptsTri S (T i) → T i ∈ solid S
  span : ∀ i j k l : Fin 3, i < j → k < l → crossProduct (S j - S i) (T l - T k) ≠ 0 →
    1 / 10 ^ 6 ≤ crossProduct (S j - S i) (T l - T k) ⬝ᵥ crossProduct (S j - S i) (T l - T k)

/-- The points of the plane lie on a line. -/
def InLine (pts : List (Fin 2 → ℝ)) : Prop := ∃ n : Fin 2 → ℝ, n ≠ 0 ∧ ∃ d, ∀ x ∈ pts, n ⬝ᵥ x = d

/-- The triangulation library fills the convex hull: it answers with triangles on the given points, and for points not
on one line it answers, and every point of the hull lies in one of the triangles that is not degenerate. -/
structure FillsHull2 (delaunay : List (Fin 2 → ℝ) → Option (List (Fin 3 → Nat))) : Prop where
  index : ∀ pts l, delaunay pts = some l → ∀ i ∈ l, ∀ k, i k < pts.length
  fills : ∀ pts, ¬ InLine pts → ∃ l, delaunay pts = some l ∧ ∀ h : ∀ i ∈ l, ∀ k, i k < pts.length,
    ∀ x ∈ convexHull ℝ {y | y ∈ pts}, ∃ i, ∃ hi : i ∈ l,
      cross2 (pts[i 1]'(h i hi 1) - pts[i 0]'(h i hi 0)) (pts[i 2]'(h i hi 2) - pts[i 0]'(h i hi 0)) ≠ 0 ∧
      x ∈ convexHull ℝ (Set.range fun k => pts[i k]'(h i hi k))

/-- The triangulation library fills the convex hull, and no two of its triangles overlap. -/
structure TilesHull2 (delaunay : List (Fin 2 → ℝ) → Option (List (Fin 3 → Nat))) : Prop extends FillsHull2 delaunay where
  apart : ∀ pts l, delaunay pts = some l → ∀ h : ∀ i ∈ l, ∀ k, i k < pts.length,
    (l.attach.map fun i k => pts[i.1 k]'(h i.1 i.2 k)).Pairwise fun a b : Fin 3 → Fin 2 → ℝ =>
      interior (convexHull ℝ (Set.range a)) ∩ interior (convexHull ℝ (Set.range b)) = ∅

/-- No two triangles of the object overlap in the plane. -/
def NoOverlap2 (z : ℝ) (o : Obj 3) : Prop :=
  o.Pairwise fun a b => interior (slice z (solid (Package.dode.perps a))) ∩
    interior (slice z (solid (Package.dode.perps b))) = ∅

end PyQC
