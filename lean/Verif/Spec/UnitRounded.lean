import Verif.Spec.Unit
import Verif.Spec.LawsRounded
/-!
# Specification vocabulary: the tetrahedron with which `asymmetric` cuts an object, as exact triples
-/
namespace PyQC

/-- The tetrahedron with the position, and the position plus five times each of the three vectors, as corners, all
numbers in lowest terms. -/
structure CuttingTetrahedron (position : Vec 6) (w : Fin 3 → Vec 6) (U : Simplex 4) : Prop where
  canon : ∀ i, Vec.Canon (U i)
  apex : Package.ico.val (U 0) = Package.ico.val position
  edge : ∀ i : Fin 3, Package.ico.val (U i.succ) = Package.ico.val position + (5 : ℝ) • Package.ico.val (w i)

end PyQC
