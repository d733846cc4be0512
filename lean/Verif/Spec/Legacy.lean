import Verif.Spec.Geometry
/-!
# Specification vocabulary: lattice points and quasiperiodic structures
-/
namespace PyQC

/-- The lattice point of the dodecagonal structure with the given indices; the last two 6D coordinates are not used. -/
def latticePoint (h : Fin 4 → Int) : Fin 6 → ℝ := ![h 0, h 1, h 2, h 3, 0, 0]

/-- The point of perpendicular space under a linear phason strain `u`: each parallel component moves it. -/
noncomputable def strainedPerp (u : Fin 2 → Fin 2 → ℝ) (x : Fin 6 → ℝ) : Fin 3 → ℝ :=
  let e := Package.dode.parMat.mulVec x
  Package.dode.perpMat.mulVec x + ![u 0 0 * e 0 + u 1 0 * e 1, u 0 1 * e 0 + u 1 1 * e 1, 0]

/-- The point `x` belongs to the triangle `q` up to an area of 10⁻⁶: the three triangles it forms with the sides add up to the area
of `q`. -/
def NearTriangle (q : Fin 3 → Fin 3 → ℝ) (x : Fin 3 → ℝ) : Prop :=
  |triArea q - ∑ i, triArea (Function.update q i x)| < 1 / 10 ^ 6

/-- Squared Euclidean length. -/
def lengthSq {n : Nat} (x : Fin n → ℝ) : ℝ := ∑ i, x i ^ 2

end PyQC
