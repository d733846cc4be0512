import Verif.Spec.Value
import Verif.Model.Math
import Mathlib.LinearAlgebra.Matrix.Notation
import Mathlib.LinearAlgebra.CrossProduct
import Mathlib.LinearAlgebra.Matrix.Determinant.Basic
/-!
# Specification vocabulary: parallel and perpendicular space

The maps from 6D space to parallel and perpendicular space, written as explicit real matrices.
-/
namespace PyQC

/-- The irrational of the package: golden ratio or √3/2. -/
noncomputable def Package.theta : Package → ℝ
  | .ico => tau
  | .dode => sin60

/-- 6D to perpendicular space. -/
noncomputable def Package.perpMat : Package → Matrix (Fin 3) (Fin 6) ℝ
  | .ico => !![tau, -1, -1, 0, -tau, 0;
               -1, 0, 0, tau, -1, tau;
               0, tau, -tau, 1, 0, -1]
  | .dode => !![-sin60, 1, 0, -1/2, 0, 0;
                -1/2, 0, 1, -sin60, 0, 0;
                0, 0, 0, 0, 0, 1]

/-- 6D to parallel space. -/
noncomputable def Package.parMat : Package → Matrix (Fin 3) (Fin 6) ℝ
  | .ico => !![1, tau, tau, 0, -1, 0;
               tau, 0, 0, 1, tau, 1;
               0, 1, -1, -tau, 0, tau]
  | .dode => !![sin60, 1, 0, -1/2, 0, 0;
                -1/2, 0, 1, sin60, 0, 0;
                0, 0, 0, 0, 1, 0]

/-- Real 6D coordinates of a vector of the package. -/
noncomputable def Package.val (p : Package) {n : Nat} (v : Vec n) : Fin n → ℝ := Vec.val p.theta v

/-- Point of perpendicular space of a 6D vector. -/
noncomputable def Package.perp (p : Package) (v : Vec 6) : Fin 3 → ℝ :=
  p.perpMat.mulVec (Vec.val p.theta v)

/-- Point of parallel space of a 6D vector. -/
noncomputable def Package.par (p : Package) (v : Vec 6) : Fin 3 → ℝ :=
  p.parMat.mulVec (Vec.val p.theta v)

end PyQC
