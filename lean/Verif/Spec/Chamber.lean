import Verif.Spec.Resolve
/-!
# Specification vocabulary: fundamental domains of the point groups in perpendicular space
-/
namespace PyQC

/-- A fundamental cone of the point group of the package. For ico2 it is spanned by a five-fold, a three-fold and a
two-fold axis (those of the asymmetric unit in examples/example1.py of the project); for dode2 it is the wedge of 15
degrees, without restriction of the height. -/
def Package.chamber : Package → Set (Fin 3 → ℝ)
  | .ico => {x | ∃ a b c : ℝ, 0 ≤ a ∧ 0 ≤ b ∧ 0 ≤ c ∧
      x = a • ![tau + 1, -tau, 0] + b • ![tau + 1, 0, 1] + c • ![tau + 1, 0, 0]}
  | .dode => {x | ∃ a b h : ℝ, 0 ≤ a ∧ 0 ≤ b ∧ x = a • ![1, 0, 0] + b • ![1 + sin60, 1 / 2, 0] + h • ![0, 0, 1]}

end PyQC
