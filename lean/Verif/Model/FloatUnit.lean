import Verif.Model.Unit
import Verif.Model.Float
/-!
# `asymmetric` of ico2 with rounding
-/
namespace PyQC
namespace Float64
variable (F : Float64)

/-- `asymmetric`, ico2/occupation_domain.py:1644-1673, as `Ico.asymmetricApi`, with the tests of the intersection computed
in floating-point arithmetic. -/
noncomputable def asymmetricApi (draws : Simplex 4 → Simplex 4 → (n : Nat) → Draws n)
    (delaunay : Simplex 4 → Simplex 4 → Ico.Delaunay) (obj : Obj 4) (position : Vec 6) (vecs : NdArr) : Py (Option (Obj 4)) := do
  match ← mulVectorsApi Ico.arith vecs ⟨5, 0, 1⟩ with
  | some (@NdArr.d3 m w) =>
    if h : m = 3 then do
      let aum : Obj 4 := [Fin.cons Ico.unitOrigin fun i => w (Fin.cast h.symm i)]
      let aum ← shiftObj .ico aum position
      F.intersectionTwoObj1 .standard draws delaunay obj aum
    else .error .valueError
  | _ => .error .valueError

end Float64
end PyQC
