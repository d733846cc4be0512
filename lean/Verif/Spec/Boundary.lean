import Verif.Spec.Hull
/-!
# Specification vocabulary: tetrahedra that fit together face to face
-/
namespace PyQC

/-- Faces with close centroids have the same corners, and so have faces in one plane whose insides meet. -/
structure FaceToFace (o : Obj 4) : Prop where
  faces : ∀ i j, Close (Package.ico.centroidPerp (face o i)) (Package.ico.centroidPerp (face o j)) →
    Set.range (Package.ico.perps (face o i)) = Set.range (Package.ico.perps (face o j))
  meet : ∀ i j, (∃ n : Fin 3 → ℝ, n ≠ 0 ∧ ∃ d, ∀ k, n ⬝ᵥ Package.ico.perps (face o i) k = d ∧
      n ⬝ᵥ Package.ico.perps (face o j) k = d) →
    (inside (Package.ico.perps (face o i)) ∩ inside (Package.ico.perps (face o j))).Nonempty →
    Set.range (Package.ico.perps (face o i)) = Set.range (Package.ico.perps (face o j))

end PyQC
