import Verif.Model.Matrix
/-!
# `symmetry.py` of both packages: applying operations, the point groups, symmetrised objects

The matrices returned by `matrixpow` are float64 arrays with integer entries; modelled as integers.
-/
namespace PyQC

/-- `symop_vec`, ico2/symmetry.py:51-57, dode2/symmetry.py:58-64. -/
def symopVec (p : Package) (op : IMat 6 6) (vt centre : Vec 6) : Py (Vec 6) := do
  let vt ← subVectors p.arith vt centre
  let vt ← dotProduct1 p.arith op vt
  addVectors p.arith vt centre

/-- `symop_vecs`, ico2/symmetry.py:40-49, dode2/symmetry.py:47-56. -/
def symopVecs (p : Package) {m : Nat} (op : IMat 6 6) (s : Simplex m) (centre : Vec 6) :
    Py (Simplex m) :=
  fillFin m fun i => symopVec p op (s i) centre

/-- `symop_obj` on an array of shape (n,m,6,3), ico2/symmetry.py:27-33, dode2/symmetry.py:34-40. -/
def symopObj (p : Package) {m : Nat} (op : IMat 6 6) (o : Obj m) (centre : Vec 6) : Py (Obj m) :=
  fillList (fun s => symopVecs p op s centre) o

/-- `symop_obj`, ico2/symmetry.py:20-38, dode2/symmetry.py:27-45, with its dispatch on `ndim`. An array
of shape (n,3) with n ≠ 6 does not fit the 6D centre; modelled as IndexError. -/
def symopApi (p : Package) (op : IMat 6 6) (a : NdArr) (centre : Vec 6) : Py (Option NdArr) :=
  match a with
  | .d3 s => do
    let r ← symopVecs p op s centre
    .ok (some (.d3 r))
  | .d4 o => do
    let r ← symopObj p op o centre
    .ok (some (.d4 r))
  | @NdArr.d2 n v =>
    if h : n = 6 then do
      let r ← symopVec p op (fun i => v (Fin.cast h.symm i)) centre
      .ok (some (.d2 r))
    else .error .indexError
  | _ => .ok none

namespace Ico

/-- Five-fold generator, ico2/symmetry.py:122-127. -/
def m1Mat : IMat 6 6 :=
  ![![1, 0, 0, 0, 0, 0], ![0, 0, 1, 0, 0, 0], ![0, 0, 0, 1, 0, 0], ![0, 0, 0, 0, 1, 0],
    ![0, 0, 0, 0, 0, 1], ![0, 1, 0, 0, 0, 0]]

/-- Generator named mirror, ico2/symmetry.py:129-134. -/
def m2Mat : IMat 6 6 :=
  ![![-1, 0, 0, 0, 0, 0], ![0, -1, 0, 0, 0, 0], ![0, 0, 0, 0, 0, -1], ![0, 0, 0, 0, -1, 0],
    ![0, 0, 0, -1, 0, 0], ![0, 0, -1, 0, 0, 0]]

/-- Two-fold generator, ico2/symmetry.py:136-141. -/
def m3Mat : IMat 6 6 :=
  ![![0, 0, 0, 0, 0, -1], ![0, -1, 0, 0, 0, 0], ![0, 0, 0, 1, 0, 0], ![0, 0, 1, 0, 0, 0],
    ![0, 0, 0, 0, -1, 0], ![-1, 0, 0, 0, 0, 0]]

/-- Three-fold generator, ico2/symmetry.py:143-148. -/
def m4Mat : IMat 6 6 :=
  ![![0, 1, 0, 0, 0, 0], ![0, 0, 1, 0, 0, 0], ![1, 0, 0, 0, 0, 0], ![0, 0, 0, 0, 0, 1],
    ![0, 0, 0, -1, 0, 0], ![0, 0, 0, 0, -1, 0]]

/-- Inversion, ico2/symmetry.py:150-155. -/
def m5Mat : IMat 6 6 :=
  ![![-1, 0, 0, 0, 0, 0], ![0, -1, 0, 0, 0, 0], ![0, 0, -1, 0, 0, 0], ![0, 0, 0, -1, 0, 0],
    ![0, 0, 0, 0, -1, 0], ![0, 0, 0, 0, 0, -1]]

/-- `icosasymop`, ico2/symmetry.py:120-172: five nested loops, products
`m5^m · m4^l · m3^k · m2^j · m1^i` in this order. -/
def icosasymop : List (IMat 6 6) :=
  (List.range 2).flatMap fun m => (List.range 3).flatMap fun l => (List.range 2).flatMap fun k =>
    (List.range 2).flatMap fun j => (List.range 5).map fun i =>
      npDot (npDot (npDot (npDot (npPow m5Mat m) (npPow m4Mat l)) (npPow m3Mat k)) (npPow m2Mat j))
        (npPow m1Mat i)

end Ico

namespace Dode

/-- Twelve-fold generator, dode2/symmetry.py:141-146. -/
def m1Mat : IMat 6 6 :=
  ![![0, 1, 0, 0, 0, 0], ![0, 0, 1, 0, 0, 0], ![0, 0, 0, 1, 0, 0], ![-1, 0, 1, 0, 0, 0],
    ![0, 0, 0, 0, 1, 0], ![0, 0, 0, 0, 0, 1]]

/-- Mirror, dode2/symmetry.py:148-153. -/
def m2Mat : IMat 6 6 :=
  ![![0, 0, 0, 1, 0, 0], ![0, 0, 1, 0, 0, 0], ![0, 1, 0, 0, 0, 0], ![1, 0, 0, 0, 0, 0],
    ![0, 0, 0, 0, 1, 0], ![0, 0, 0, 0, 0, 1]]

/-- `dodesymop`, dode2/symmetry.py:136-161: `m2^i1 · m1^i2`. -/
def dodesymop : List (IMat 6 6) :=
  (List.range 2).flatMap fun i1 => (List.range 12).map fun i2 =>
    npDot (npPow m2Mat i1) (npPow m1Mat i2)

end Dode

/-- The point group used by `generator_obj_symmetric_obj` of the package. -/
def Package.symops : Package → List (IMat 6 6)
  | .ico => Ico.icosasymop
  | .dode => Dode.dodesymop

/-- `generator_obj_symmetric_obj` on an array of shape (n,m,6,3), ico2/symmetry.py:63-82,
dode2/symmetry.py:66-86: one transformed copy per operation, operations outermost, reshaped to a flat
list of pieces. -/
def symmetricObj (p : Package) {m : Nat} (o : Obj m) (centre : Vec 6) : Py (Obj m) := do
  let copies ← fillList (fun op => symopObj p op o centre) p.symops
  .ok copies.flatten

/-- The same on an array of shape (m,6,3): the result has shape (number of operations,m,6,3). -/
def symmetricPiece (p : Package) {m : Nat} (s : Simplex m) (centre : Vec 6) : Py (Obj m) :=
  fillList (fun op => symopVecs p op s centre) p.symops

/-- `symmetric`, ico2/occupation_domain.py:27-48, dode2/occupation_domain.py:25-47, with its dispatch
on `ndim`. -/
def symmetricApi (p : Package) (a : NdArr) (centre : Vec 6) : Py (Option NdArr) :=
  match a with
  | .d3 s => do
    let r ← symmetricPiece p s centre
    .ok (some (.d4 r))
  | .d4 o => do
    let r ← symmetricObj p o centre
    .ok (some (.d4 r))
  | _ => .ok none

end PyQC
