import Verif.Model.Export
import Verif.Spec.Position
import Verif.Spec.Space
/-!
# Specification vocabulary: what exported files mean
-/
namespace PyQC

/-- The program VESTA draws a bond between the points `x` and `y` of a molecule: they are the positions of two different
atoms, and a bond line for these two atoms (in either order), or one for all pairs of atoms, has a range containing
their distance. -/
def VestaMol.Draws (mol : VestaMol) (x y : Fin 3 → ℝ) : Prop :=
  ∃ i j, i ≠ j ∧ mol.atoms[i]? = some x ∧ mol.atoms[j]? = some y ∧
    ((∃ b ∈ mol.bonds, (b.first = i ∧ b.second = j ∨ b.first = j ∧ b.second = i) ∧
        b.lo ≤ dist3 x y ∧ dist3 x y ≤ b.hi) ∨
      ∃ lo hi, mol.allPairs = some (lo, hi) ∧ lo ≤ dist3 x y ∧ dist3 x y ≤ hi)

/-- The edge between two vertices of a piece has the perp ends `x` and `y`. -/
def Package.IsEdge (p : Package) {m : Nat} (s : Simplex m) (i j : Fin m) (x y : Fin 3 → ℝ) : Prop :=
  p.perps s i = x ∧ p.perps s j = y ∨ p.perps s i = y ∧ p.perps s j = x

end PyQC

namespace PyQC

/-- The vertices with the given numbers, counted from 1. -/
def numbered (vs : List (Vec 6)) (l : List Int) : List (Vec 6) := l.filterMap fun j => vs[(j - 1).toNat]?

end PyQC
