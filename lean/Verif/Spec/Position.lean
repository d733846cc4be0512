import Verif.Spec.Geometry
import Mathlib.Analysis.Convex.Combination
/-!
# Specification vocabulary: points, segments, triangles and tetrahedra of real 3-space
-/
namespace PyQC

/-- `w` are barycentric coordinates of `x` with respect to the points `q`. -/
def IsBary {m : Nat} (q : Fin m → Fin 3 → ℝ) (w : Fin m → ℝ) (x : Fin 3 → ℝ) : Prop :=
  ∑ i, w i = 1 ∧ x = ∑ i, w i • q i

/-- The closed solid (tetrahedron, triangle, segment) with the given corners. -/
def solid {m : Nat} (q : Fin m → Fin 3 → ℝ) : Set (Fin 3 → ℝ) := convexHull ℝ (Set.range q)

/-- `x` lies in the solid with corners `q` up to `δ`: it has barycentric coordinates all at least `-δ`. -/
def NearSolid {m : Nat} (δ : ℝ) (q : Fin m → Fin 3 → ℝ) (x : Fin 3 → ℝ) : Prop :=
  ∃ w, IsBary q w x ∧ ∀ i, -δ ≤ w i

/-- The line through `A`, `B` meets the plane through `C`, `D`, `E` at parameter `t` on the line and
`u`, `v` in the plane. -/
def Meets (A B C D E : Fin 3 → ℝ) (t u v : ℝ) : Prop :=
  A + t • (B - A) = C + u • (D - C) + v • (E - C)

/-- The acceptance region of the inside test: the tetrahedron is not flat and the absolute values of the
barycentric coordinates add up to less than 1 + 10⁻⁶ (they add up to exactly 1 inside). -/
def Accepts (q : Fin 4 → Fin 3 → ℝ) (x : Fin 3 → ℝ) : Prop :=
  tetVol q ≠ 0 ∧ ∃ w, IsBary q w x ∧ ∑ i, |w i| < 1 + 1 / 10 ^ 6

/-- The acceptance region of the segment-triangle test: the three directions span at least 10⁻⁶, and
the line meets the plane with parameters in the segment and in the triangle up to 10⁻⁶. -/
def Hits (A B C D E : Fin 3 → ℝ) : Prop :=
  1 / 10 ^ 6 ≤ |Matrix.det (Matrix.of ![B - A, E - C, D - C])| ∧
  ∃ t u v, Meets A B C D E t u v ∧ -(1 / 10 ^ 6) ≤ t ∧ t ≤ 1 + 1 / 10 ^ 6 ∧
    -(1 / 10 ^ 6) ≤ u ∧ u ≤ 1 + 1 / 10 ^ 6 ∧ -(1 / 10 ^ 6) ≤ v ∧ u + v ≤ 1 + 1 / 10 ^ 6

/-- Euclidean distance in real 3-space. -/
noncomputable def dist3 (x y : Fin 3 → ℝ) : ℝ :=
  Real.sqrt ((x 0 - y 0) ^ 2 + (x 1 - y 1) ^ 2 + (x 2 - y 2) ^ 2)

end PyQC

namespace PyQC

/-- Every corner of the first tetrahedron is accepted by the second. -/
def AllAccepted (s t : Fin 4 → Fin 3 → ℝ) : Prop := ∀ i, Accepts t (s i)

/-- Some edge of the first tetrahedron hits some face of the second. -/
def EdgeHitsFace (s t : Fin 4 → Fin 3 → ℝ) : Prop :=
  ∃ i j k l m : Fin 4, i < j ∧ k < l ∧ l < m ∧ Hits (s i) (s j) (t k) (t l) (t m)

end PyQC
