import Verif.Model.Basic
import Mathlib.Algebra.Order.Group.Unbundled.Int
/-!
# Specification vocabulary: numbers with a common denominator
-/
namespace PyQC

/-- Expanded to the denominator `d`, the fraction `[a, b, c]` has numerators of size at most `A` and `B`. -/
def OnGrid (d A B : Int) (x : Num3) : Prop := ∃ k, x.c * k = d ∧ |x.a * k| ≤ A ∧ |x.b * k| ≤ B

/-- All entries of a vector have the common denominator `d` and numerators of size at most `N`. -/
def VecOnGrid {n : Nat} (d N : Int) (v : Vec n) : Prop := ∀ i, OnGrid d N N (v i)

/-- All corners of all pieces have the common denominator `d` and numerators of size at most `N`. -/
def ObjOnGrid {m : Nat} (d N : Int) (o : Obj m) : Prop := ∀ s ∈ o, ∀ i, VecOnGrid d N (s i)

end PyQC
