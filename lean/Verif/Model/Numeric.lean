import Verif.Spec.Value
import Mathlib.LinearAlgebra.Matrix.Determinant.Basic
/-!
# `numericalc.py` over the real numbers

Idealisation: float64 arithmetic is replaced by exact real arithmetic.
-/
namespace PyQC

/-- `EPS` of ico2/numericalc.py:11 and dode2/numericalc.py:11. -/
noncomputable def EPS : ℝ := 1 / 10 ^ 6

/-- `numerical_vector`, ico2/numericalc.py:177-192, dode2/numericalc.py:177-192. -/
noncomputable def numericalVector (θ : ℝ) {n : Nat} (vt : Vec n) : Fin n → ℝ :=
  fun i => ((vt i).a + (vt i).b * θ) / (vt i).c

namespace Ico

/-- `projection_numerical`, ico2/numericalc.py:594-608. -/
noncomputable def projectionNumerical (vn : Fin 6 → ℝ) : Fin 6 → ℝ :=
  ![(vn 0 - vn 4) + tau * (vn 1 + vn 2),
    (vn 3 + vn 5) + tau * (vn 0 + vn 4),
    (vn 1 - vn 2) - tau * (vn 3 - vn 5),
    -(vn 1 + vn 2) + tau * (vn 0 - vn 4),
    -(vn 0 + vn 4) + tau * (vn 3 + vn 5),
    (vn 3 - vn 5) + tau * (vn 1 - vn 2)]

/-- `projection3_numerical`, ico2/numericalc.py:624-635. -/
noncomputable def projection3Numerical (vn : Fin 6 → ℝ) : Fin 3 → ℝ :=
  ![-(vn 1 + vn 2) + tau * (vn 0 - vn 4),
    -(vn 0 + vn 4) + tau * (vn 3 + vn 5),
    (vn 3 - vn 5) + tau * (vn 1 - vn 2)]

end Ico

namespace Dode

/-- `projection_numerical`, dode2/numericalc.py:656-670. -/
noncomputable def projectionNumerical (vn : Fin 6 → ℝ) : Fin 6 → ℝ :=
  ![sin60 * vn 0 + vn 1 - 0.5 * vn 3,
    -0.5 * vn 0 + vn 2 + sin60 * vn 3,
    vn 4,
    -sin60 * vn 0 + vn 1 - 0.5 * vn 3,
    -0.5 * vn 0 + vn 2 - sin60 * vn 3,
    vn 5]

/-- `projection3_numerical`, dode2/numericalc.py:686-700. -/
noncomputable def projection3Numerical (vn : Fin 6 → ℝ) : Fin 3 → ℝ :=
  ![-sin60 * vn 0 + vn 1 - 0.5 * vn 3,
    -0.5 * vn 0 + vn 2 - sin60 * vn 3,
    vn 5]

end Dode
end PyQC

namespace PyQC

namespace Ico

/-- `get_internal_component_numerical`, ico2/numericalc.py:573-581. -/
noncomputable def internalNumerical (vt : Vec 6) : Fin 3 → ℝ :=
  projection3Numerical (numericalVector tau vt)

/-- `get_internal_component_sets_numerical`, ico2/numericalc.py:583-592, on an array of shape
(m,6,3). -/
noncomputable def internalSetsNumerical {m : Nat} (vts : Simplex m) : Fin m → Fin 3 → ℝ :=
  fun i => projection3Numerical (numericalVector tau (vts i))

/-- `tetrahedron_volume_numerical`, ico2/numericalc.py:550-562: rows `tetrahedron[i+1]-tetrahedron[0]`,
absolute value of the determinant over 6. -/
noncomputable def tetrahedronVolumeNumerical (t : Fin 4 → Fin 3 → ℝ) : ℝ :=
  |Matrix.det (fun i : Fin 3 => fun j : Fin 3 => t i.succ j - t 0 j : Matrix (Fin 3) (Fin 3) ℝ)| / 6

/-- `tetrahedron_volume_6d_numerical`, ico2/numericalc.py:524-535. -/
noncomputable def tetrahedronVolume6dNumerical (t : Simplex 4) : ℝ :=
  tetrahedronVolumeNumerical (internalSetsNumerical t)

/-- `obj_volume_6d_numerical`, ico2/numericalc.py:510-522. -/
noncomputable def objVolume6dNumerical (o : Obj 4) : ℝ :=
  o.foldl (fun vol t => vol + tetrahedronVolume6dNumerical t) 0

end Ico
end PyQC
