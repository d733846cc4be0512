import Verif.Spec.Space
/-!
# Specification vocabulary: order of rows, centroids of pieces
-/
namespace PyQC

/-- Order of triples by numerator, then irrational part, then denominator. -/
def Num3.Before (x y : Num3) : Prop :=
  x.a < y.a ∨ (x.a = y.a ∧ (x.b < y.b ∨ (x.b = y.b ∧ x.c < y.c)))

/-- Lexicographic order of vectors: equal entries up to some place, and there a smaller triple. -/
def Vec.Before {n : Nat} (v w : Vec n) : Prop :=
  ∃ i, (∀ j < i, v j = w j) ∧ (v i).Before (w i)

/-- Perp point of the centroid of a piece: the mean of the perp points of its vertices. -/
noncomputable def Package.centroidPerp (p : Package) {m : Nat} (s : Simplex m) : Fin 3 → ℝ :=
  ((m : ℝ)⁻¹) • ∑ i, p.perp (s i)

end PyQC

namespace PyQC

/-- The face of tetrahedron number `j.1` of the object that omits its vertex number `j.2`. -/
def face (o : Obj 4) (j : Fin o.length × Fin 4) : Simplex 3 := fun i => o.get j.1 (j.2.succAbove i)

/-- No other face of the object has the same perp centroid. -/
def Unpaired (o : Obj 4) (j : Fin o.length × Fin 4) : Prop :=
  ∀ j', j' ≠ j → Package.ico.centroidPerp (face o j') ≠ Package.ico.centroidPerp (face o j)

/-- Two points are close in every coordinate: `|x-y| <= 1e-8 + 1e-5*|y|`. -/
def Close {n : Nat} (x y : Fin n → ℝ) : Prop := ∀ i, |x i - y i| ≤ 1 / 10 ^ 8 + 1 / 10 ^ 5 * |y i|

/-- The edge joining vertices `i` and `j` of a piece. -/
def edge {m : Nat} (s : Simplex m) (i j : Fin m) : Simplex 2 := ![s i, s j]

end PyQC
