import Verif.Model.Symmetry
import Verif.Model.Unique
import Verif.Model.Intersect
/-!
# Asymmetric units and single operations: `asymmetric`, `symmetric_0` and the generators of `symmetry.py`
-/
namespace PyQC

/-- `l[k]` of a Python list with an integer index: negative indices count from the end, others outside the list raise
IndexError. -/
def pyIndex {α : Type} (l : List α) (k : Int) : Py α :=
  if 0 ≤ k then
    match l[k.toNat]? with
    | some x => .ok x
    | none => .error .indexError
  else if 0 ≤ k + l.length then
    match l[(k + l.length).toNat]? with
    | some x => .ok x
    | none => .error .indexError
  else .error .indexError

/-- `generator_obj_symmetric_tetrahedron_0`, ico2/symmetry.py:105-107, and `generator_obj_symmetric_triangle_0`,
dode2/symmetry.py:113-117: one operation of the list, given by its index. -/
def symmetricIndexApi (p : Package) (a : NdArr) (centre : Vec 6) (k : Int) : Py (Option NdArr) := do
  let op ← pyIndex p.symops k
  symopApi p op a centre

/-- `symmetric_0`, ico2/occupation_domain.py:50-71, dode2/occupation_domain.py:49-70: `None` unless the array has three
or four dimensions. -/
def symmetric0Api (p : Package) (a : NdArr) (centre : Vec 6) (k : Int) : Py (Option NdArr) :=
  match a with
  | .d3 _ => symmetricIndexApi p a centre k
  | .d4 _ => symmetricIndexApi p a centre k
  | _ => .ok none

/-- `generator_obj_symmetric_tetrahedron_specific_symop`, ico2/symmetry.py:90-103, and
`generator_obj_symmetric_triangle_specific_symop`, dode2/symmetry.py:96-111: the list of indices is the parameter
`list_of_symmetry_operation_index`, but the body reads `index_of_symmetry_operation`, which is not defined anywhere. -/
def symmetricSpecificApi (_p : Package) (a : NdArr) (_centre : Vec 6) (_ks : List Int) : Py (Option NdArr) :=
  match a with
  | .d3 _ => .error .nameError
  | .d4 _ => .error .nameError
  | _ => .ok none

/-- `generator_obj_symmetric_vec`, ico2/symmetry.py:109-110, dode2/symmetry.py:119-122; the same code as
`generator_obj_symmetric_surface` and `generator_obj_symmetric_tetrahedron`, ico2/symmetry.py:84-88, and
`generator_obj_symmetric_triangle`, dode2/symmetry.py:88-94. -/
def symmetricVecApi (p : Package) (a : NdArr) (centre : Vec 6) : Py (Option NdArr) := symmetricApi p a centre

/-- `generator_equivalent_vectors`, ico2/symmetry.py:112-114, dode2/symmetry.py:124-128: the function
`generator_obj_symmetric_obj` itself, not its result, is handed to `remove_doubling_in_perp_space`, whose first line
reads the attribute `ndim` of its argument. -/
def equivalentVectorsApi (_p : Package) (_a : NdArr) (_centre : Vec 6) : Py (List (Vec 6)) := .error .attributeError

/-- `generator_equivalent_vec`, ico2/symmetry.py:116-118, dode2/symmetry.py:130-134: when `generator_obj_symmetric_obj`
returns `None`, reading its attribute `ndim` raises AttributeError. -/
def equivalentVecApi (p : Package) (a : NdArr) (centre : Vec 6) : Py (Option (List (Vec 6))) := do
  match ← symmetricApi p a centre with
  | some b => .ok (removeDoublingApi b)
  | none => .error .attributeError

namespace Ico

/-- The origin `v0` of `asymmetric`, ico2/occupation_domain.py:1661. -/
def unitOrigin : Vec 6 := fun _ => ⟨0, 0, 1⟩

/-- `asymmetric`, ico2/occupation_domain.py:1644-1673: the three vectors are multiplied by 5, the tetrahedron they span
with the origin is moved to the position and intersected with the object. For another number of vectors the 18·(n+1)
integers cannot be reshaped to (1,4,6,3), and for arrays without three dimensions `mul_vectors` returns `None`; both
raise ValueError. -/
noncomputable def asymmetricApi (draws : Simplex 4 → Simplex 4 → (n : Nat) → Draws n)
    (delaunay : Simplex 4 → Simplex 4 → Delaunay) (obj : Obj 4) (position : Vec 6) (vecs : NdArr) : Py (Option (Obj 4)) := do
  match ← mulVectorsApi arith vecs ⟨5, 0, 1⟩ with
  | some (@NdArr.d3 m w) =>
    if h : m = 3 then do
      let aum : Obj 4 := [Fin.cons unitOrigin fun i => w (Fin.cast h.symm i)]
      let aum ← shiftObj .ico aum position
      intersectionTwoObj1 .standard draws delaunay obj aum
    else .error .valueError
  | _ => .error .valueError

end Ico
end PyQC
