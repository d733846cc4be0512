import Verif.Model.Xyz
/-!
# What a damaged `.xyz` file can be read as
-/
namespace PyQC

/-- The vector with another denominator in its last coordinate. -/
def Vec.withLast (v : Vec 6) (c : Int) : Vec 6 := fun i => if i = 5 then ⟨(v 5).a, (v 5).b, c⟩ else v i

/-- The piece with another denominator in the last coordinate of its last vertex. -/
def Simplex.withLast {k : Nat} (s : Simplex (k + 1)) (c : Int) : Simplex (k + 1) := fun i =>
  if i = Fin.last k then (s (Fin.last k)).withLast c else s i

end PyQC
