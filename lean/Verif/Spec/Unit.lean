import Verif.Spec.Resolve
/-!
# Specification vocabulary: the tetrahedron with which `asymmetric` cuts an object
-/
namespace PyQC

/-- The corners of the cutting tetrahedron: the position, and the position plus five times each of the three vectors. -/
noncomputable def unitCorners (position : Vec 6) (w : Fin 3 → Vec 6) : Fin 4 → Fin 3 → ℝ :=
  Fin.cons (Package.ico.perp position) fun i => Package.ico.perp position + (5 : ℝ) • Package.ico.perp (w i)

/-- The cone spanned by the three vectors. -/
def spannedCone (w : Fin 3 → Vec 6) : Set (Fin 3 → ℝ) :=
  {x | ∃ a : Fin 3 → ℝ, (∀ i, 0 ≤ a i) ∧ x = ∑ i, a i • Package.ico.perp (w i)}

end PyQC
