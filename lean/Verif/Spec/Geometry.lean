import Verif.Spec.Space
import Mathlib.LinearAlgebra.AffineSpace.FiniteDimensional
/-!
# Specification vocabulary: volumes and areas in real 3-space
-/
namespace PyQC

/-- Volume of the tetrahedron with corners `q 0, q 1, q 2, q 3`. -/
noncomputable def tetVol (q : Fin 4 → Fin 3 → ℝ) : ℝ :=
  |Matrix.det (Matrix.of ![q 1 - q 0, q 2 - q 0, q 3 - q 0])| / 6

/-- Area of the projection onto the xy plane of the triangle with corners `q 0, q 1, q 2`. -/
noncomputable def triAreaXY (q : Fin 3 → Fin 3 → ℝ) : ℝ :=
  |(q 1 0 - q 0 0) * (q 2 1 - q 0 1) - (q 1 1 - q 0 1) * (q 2 0 - q 0 0)| / 2

/-- Area of the triangle with corners `q 0, q 1, q 2`: half the length of the cross product of two
sides. -/
noncomputable def triArea (q : Fin 3 → Fin 3 → ℝ) : ℝ :=
  Real.sqrt (crossProduct (q 1 - q 0) (q 2 - q 0) ⬝ᵥ crossProduct (q 1 - q 0) (q 2 - q 0)) / 2

/-- Perp points of the vertices of a piece. -/
noncomputable def Package.perps (p : Package) {m : Nat} (s : Simplex m) : Fin m → Fin 3 → ℝ :=
  fun i => p.perp (s i)

end PyQC
