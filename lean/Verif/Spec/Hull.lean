import Verif.Spec.Resolve
import Verif.Spec.Order
/-!
# Specification vocabulary: objects whose border the tolerances of the code resolve
-/
namespace PyQC

/-- The corners of an object in perp space. -/
def Package.corners (p : Package) {m : Nat} (o : Obj m) : Set (Fin 3 → ℝ) := {x | ∃ s ∈ o, ∃ i, p.perp (s i) = x}

/-- The points with positive barycentric coordinates: the inside of a segment, triangle or tetrahedron. -/
def inside {m : Nat} (q : Fin m → Fin 3 → ℝ) : Set (Fin 3 → ℝ) := {x | ∃ w, IsBary q w x ∧ ∀ i, 0 < w i}

/-- A well-formed object: it has pieces, all denominators are non-zero, no tetrahedron is flat, no two overlap. -/
structure WellFormed (o : Obj 4) : Prop where
  ne : o ≠ []
  ok : Obj.Ok o
  vol : ∀ s ∈ o, tetVol (Package.ico.perps s) ≠ 0
  apart : Package.ico.NoOverlap o

/-- The tetrahedra fit together face to face, and the tolerances of the code do not matter: four corners that are
coplanar up to 10⁻¹⁰ are coplanar; a corner within 10⁻³·√2 of the segment between two others lies on it; faces with
close centroids, and faces in one plane that overlap, have the same corners; edges with the same midpoint have the
same ends. -/
structure Sharp (o : Obj 4) : Prop where
  flat : ∀ a ∈ Package.ico.corners o, ∀ b ∈ Package.ico.corners o, ∀ c ∈ Package.ico.corners o,
    ∀ d ∈ Package.ico.corners o,
    |crossProduct (b - a) (c - a) ⬝ᵥ (d - a)| < 1 / 10 ^ 10 → crossProduct (b - a) (c - a) ⬝ᵥ (d - a) = 0
  line : ∀ a ∈ Package.ico.corners o, ∀ b ∈ Package.ico.corners o, ∀ c ∈ Package.ico.corners o,
    ∀ x ∈ segment ℝ a b, dist3 c x ^ 2 < 2 / 10 ^ 6 → c ∈ segment ℝ a b
  faces : ∀ i j, Close (Package.ico.centroidPerp (face o i)) (Package.ico.centroidPerp (face o j)) →
    Set.range (Package.ico.perps (face o i)) = Set.range (Package.ico.perps (face o j))
  meet : ∀ i j, (∃ n : Fin 3 → ℝ, n ≠ 0 ∧ ∃ d, ∀ k, n ⬝ᵥ Package.ico.perps (face o i) k = d ∧
      n ⬝ᵥ Package.ico.perps (face o j) k = d) →
    (inside (Package.ico.perps (face o i)) ∩ inside (Package.ico.perps (face o j))).Nonempty →
    Set.range (Package.ico.perps (face o i)) = Set.range (Package.ico.perps (face o j))
  edges : ∀ s ∈ o, ∀ t ∈ o, ∀ i j k l : Fin 4, i ≠ j → k ≠ l →
    Package.ico.centroidPerp (edge s i j) = Package.ico.centroidPerp (edge t k l) →
    Set.range (Package.ico.perps (edge s i j)) = Set.range (Package.ico.perps (edge t k l))

/-- Triangles that fit together side by side: all denominators are non-zero, none is degenerate, no two that lie in one
plane overlap, and the tolerances of the code do not matter (as in `Sharp`). -/
structure SharpTriangles (p : Package) (o : Obj 3) : Prop where
  ne : o ≠ []
  ok : Obj.Ok o
  proper : ∀ t ∈ o, crossProduct (p.perp (t 1) - p.perp (t 0)) (p.perp (t 2) - p.perp (t 0)) ≠ 0
  apart : ∀ i j : Fin o.length, i ≠ j →
    (∃ n : Fin 3 → ℝ, n ≠ 0 ∧ ∃ d, ∀ k, n ⬝ᵥ p.perps (o.get i) k = d ∧ n ⬝ᵥ p.perps (o.get j) k = d) →
    inside (p.perps (o.get i)) ∩ inside (p.perps (o.get j)) = ∅
  flat : ∀ a ∈ p.corners o, ∀ b ∈ p.corners o, ∀ c ∈ p.corners o, ∀ d ∈ p.corners o,
    |crossProduct (b - a) (c - a) ⬝ᵥ (d - a)| < 1 / 10 ^ 10 → crossProduct (b - a) (c - a) ⬝ᵥ (d - a) = 0
  line : ∀ a ∈ p.corners o, ∀ b ∈ p.corners o, ∀ c ∈ p.corners o,
    ∀ x ∈ segment ℝ a b, dist3 c x ^ 2 < 2 / 10 ^ 6 → c ∈ segment ℝ a b
  edges : ∀ s ∈ o, ∀ t ∈ o, ∀ i j k l : Fin 3, i ≠ j → k ≠ l →
    p.centroidPerp (edge s i j) = p.centroidPerp (edge t k l) →
    Set.range (p.perps (edge s i j)) = Set.range (p.perps (edge t k l))

end PyQC
