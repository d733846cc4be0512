import Verif.Spec.Position
/-!
# Specification vocabulary: regions of objects, and pairs of tetrahedra for which the tolerances do not matter
-/
namespace PyQC

/-- The points covered by an object: the union of its pieces in perp space. -/
def Package.region (p : Package) {m : Nat} (o : Obj m) : Set (Fin 3 → ℝ) := {x | ∃ a ∈ o, x ∈ solid (p.perps a)}

/-- The points lie in a plane. -/
def InPlane (pns : List (Fin 3 → ℝ)) : Prop := ∃ n : Fin 3 → ℝ, n ≠ 0 ∧ ∃ d, ∀ x ∈ pns, n ⬝ᵥ x = d

/-- `x` is where an edge of `S` crosses a face of `T` that is not parallel to it. -/
def EdgeFace (S T : Fin 4 → Fin 3 → ℝ) (x : Fin 3 → ℝ) : Prop :=
  ∃ i j k l m : Fin 4, i < j ∧ k < l ∧ l < m ∧
    Matrix.det (Matrix.of ![S j - S i, T m - T k, T l - T k]) ≠ 0 ∧
    ∃ t u v : ℝ, Meets (S i) (S j) (T k) (T l) (T m) t u v ∧ x = S i + t • (S j - S i) ∧
      0 ≤ t ∧ t ≤ 1 ∧ 0 ≤ u ∧ 0 ≤ v ∧ u + v ≤ 1

/-- A corner of one of the tetrahedra, or a crossing of an edge of one with a face of the other. -/
def Candidate (S T : Fin 4 → Fin 3 → ℝ) (x : Fin 3 → ℝ) : Prop :=
  x ∈ Set.range S ∨ x ∈ Set.range T ∨ EdgeFace S T x ∨ EdgeFace T S x

/-- No corner of `S` and no edge of `S` falls into the tolerances of the tests against `T`: a corner accepted by the
inside test is inside; an edge and a face that are not parallel span at least 10⁻⁶; an edge that hits a face up to
the tolerance hits it. -/
structure Clear (S T : Fin 4 → Fin 3 → ℝ) : Prop where
  corner : ∀ i, Accepts T (S i) → S i ∈ solid T
  span : ∀ i j k l m : Fin 4, i < j → k < l → l < m →
    Matrix.det (Matrix.of ![S j - S i, T m - T k, T l - T k]) ≠ 0 →
    1 / 10 ^ 6 ≤ |Matrix.det (Matrix.of ![S j - S i, T m - T k, T l - T k])|
  hit : ∀ i j k l m : Fin 4, i < j → k < l → l < m → Hits (S i) (S j) (T k) (T l) (T m) →
    ∃ t u v : ℝ, Meets (S i) (S j) (T k) (T l) (T m) t u v ∧ 0 ≤ t ∧ t ≤ 1 ∧ 0 ≤ u ∧ 0 ≤ v ∧ u + v ≤ 1

/-- The pair is resolved by the tolerances of the code: both tetrahedra have non-zero volume, the tests of each
against the other are clear, and four candidate corners that are coplanar up to 10⁻¹⁰ are coplanar. -/
structure Resolved (S T : Fin 4 → Fin 3 → ℝ) : Prop where
  volS : tetVol S ≠ 0
  volT : tetVol T ≠ 0
  clearST : Clear S T
  clearTS : Clear T S
  flat : ∀ a b c d, Candidate S T a → Candidate S T b → Candidate S T c → Candidate S T d →
    |crossProduct (b - a) (c - a) ⬝ᵥ (d - a)| < 1 / 10 ^ 10 → crossProduct (b - a) (c - a) ⬝ᵥ (d - a) = 0

/-- The tetrahedralisation library fills the convex hull: for points not all in one plane it answers with tetrahedra
on the given points, and every point of the hull lies in one of them that is not flat. -/
def FillsHull (delaunay : List (Fin 3 → ℝ) → Option (List (Fin 4 → Nat))) : Prop :=
  ∀ pts : List (Fin 3 → ℝ), ¬ InPlane pts → ∃ l, delaunay pts = some l ∧
    ∃ h : ∀ i ∈ l, ∀ k, i k < pts.length, ∀ x ∈ convexHull ℝ {y | y ∈ pts}, ∃ i, ∃ hi : i ∈ l,
      tetVol (fun k => pts[i k]'(h i hi k)) ≠ 0 ∧ x ∈ solid (fun k => pts[i k]'(h i hi k))

end PyQC

namespace PyQC

/-- The tetrahedralisation library fills the convex hull, and no two of the tetrahedra it answers with have a common
interior point. -/
def TilesHull (delaunay : List (Fin 3 → ℝ) → Option (List (Fin 4 → Nat))) : Prop :=
  FillsHull delaunay ∧ ∀ pts l, delaunay pts = some l → ∀ h : ∀ i ∈ l, ∀ k, i k < pts.length,
    (l.attach.map fun i k => pts[i.1 k]'(h i.1 i.2 k)).Pairwise fun a b => interior (solid a) ∩ interior (solid b) = ∅

/-- No two pieces of the object have a common interior point. -/
def Package.NoOverlap (p : Package) {m : Nat} (o : Obj m) : Prop :=
  o.Pairwise fun a b => interior (solid (p.perps a)) ∩ interior (solid (p.perps b)) = ∅

end PyQC
