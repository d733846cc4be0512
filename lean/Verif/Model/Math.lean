import Verif.Model.Scalar
/-!
# Vector level of `math1.py`

`ico2/math1.py:138-400` and `dode2/math1.py:144-406` differ only in docstrings, so these functions
are modelled once, over the scalar functions `A` of the package (`Ico.arith` or `Dode.arith`).
Line numbers below are those of `ico2/math1.py`; add 6 for `dode2/math1.py`.
-/
namespace PyQC

/-- Arrays by number of dimensions, for the functions that dispatch on `ndim`.
`d1` shape `(3,)`, `d2` shape `(n,3)`, `d3` shape `(m,6,3)`, `d4` shape `(k,m,6,3)`, `d5` shape
`(j,k,m,6,3)`, `other` any other number of dimensions. -/
inductive NdArr where
  | d1 (x : Num3)
  | d2 {n : Nat} (v : Vec n)
  | d3 {m : Nat} (s : Simplex m)
  | d4 {m : Nat} (o : Obj m)
  | d5 {m : Nat} (os : List (Obj m))
  | other (ndim : Nat)

/-- An integer matrix "NOT in TAU-style", shape `(s,t)`. The symmetry matrices are float arrays with
integer entries (matrixpow starts from `np.identity`); modelled as integers. -/
abbrev IMat (s t : Nat) := Fin s → Fin t → Int

/-- A matrix of TAU-style numbers, shape `(s,t,3)`. -/
abbrev TMat (s t : Nat) := Fin s → Fin t → Num3

variable (A : Arith)

/-- `add_vectors`, ico2/math1.py:138-156. -/
def addVectors {n : Nat} (v w : Vec n) : Py (Vec n) :=
  fillFin n fun i => A.add (v i) (w i)

/-- `mul_vector` on an array of shape (n,3), ico2/math1.py:180-198. -/
def mulVector {n : Nat} (v : Vec n) (k : Num3) : Py (Vec n) :=
  fillFin n fun i => A.mul (v i) k

/-- `sub_vectors` on arrays of shape (n,3), ico2/math1.py:158-175: `v + (-1)*w`. -/
def subVectors {n : Nat} (v w : Vec n) : Py (Vec n) := do
  let w' ← mulVector A w ⟨-1, 0, 1⟩
  addVectors A v w'

/-- `mul_vector`, ico2/math1.py:180-201, including the `ndim` test: only 2-dimensional arrays are
accepted, otherwise `None`. -/
def mulVectorApi (v : NdArr) (k : Num3) : Py (Option NdArr) :=
  match v with
  | .d2 v => do
    let r ← mulVector A v k
    .ok (some (.d2 r))
  | _ => .ok none

/-- `sub_vectors`, ico2/math1.py:158-178, including the `ndim` test. The loop runs over the first array: a longer second
array is cut to its length, a shorter one raises IndexError. -/
def subVectorsApi (v w : NdArr) : Py (Option NdArr) :=
  match v, w with
  | @NdArr.d2 n v, @NdArr.d2 n' w => do
    let w' ← mulVector A w ⟨-1, 0, 1⟩
    let r ← fillFin n fun i => if h : i.1 < n' then A.add (v i) (w' ⟨i.1, h⟩) else .error .indexError
    .ok (some (.d2 r))
  | _, _ => .ok none

/-- `mul_vectors`, ico2/math1.py:203-229. The `ndim == 4` branch computes the product and then falls
off the end of the function: it returns `None`. -/
def mulVectorsApi (vts : NdArr) (k : Num3) : Py (Option NdArr) :=
  match vts with
  | @NdArr.d3 m s => do
    let r ← fillFin m fun i => mulVector A (s i) k
    .ok (some (.d3 r))
  | @NdArr.d4 m o => do
    let _ ← fillList (fun s => fillFin m fun i => mulVector A (s i) k) o
    .ok none
  | _ => .ok none

/-- `outer_product`, ico2/math1.py:231-257. -/
def outerProduct (v w : Vec 3) : Py (Vec 3) := do
  let a ← A.mul (v 1) (w 2)
  let b ← A.mul (v 2) (w 1)
  let c1 ← A.sub a b
  let a ← A.mul (v 2) (w 0)
  let b ← A.mul (v 0) (w 2)
  let c2 ← A.sub a b
  let a ← A.mul (v 0) (w 1)
  let b ← A.mul (v 1) (w 0)
  let c3 ← A.sub a b
  .ok ![c1, c2, c3]

/-- The accumulation loop of `inner_product`, `dot_product` and `dot_product_1`,
e.g. ico2/math1.py:279-282: `a=[0,0,1]; for i: a = add(a, mul(x_i, y_i))`. -/
def sumProducts {n : Nat} (x y : Fin n → Num3) : Py Num3 :=
  foldPy (fun a i => do
    let b ← A.mul (x i) (y i)
    A.add a b) ⟨0, 0, 1⟩ (List.finRange n)

/-- `inner_product`, ico2/math1.py:259-283: `None` when the lengths differ. -/
def innerProduct {m n : Nat} (v : Vec m) (w : Vec n) : Py (Option Num3) :=
  if h : m = n then do
    let r ← sumProducts A v (fun i => w (Fin.cast h i))
    .ok (some r)
  else .ok none

/-- `dot_product` of a matrix and a vector, ico2/math1.py:302-317 (`None` on a shape mismatch). -/
def dotProductMV {s t1 t2 : Nat} (M : TMat s t1) (v : Vec t2) : Py (Option (Vec s)) :=
  if h : t1 = t2 then do
    let r ← fillFin s fun k => sumProducts A (M k) (fun j => v (Fin.cast h j))
    .ok (some r)
  else .ok none

/-- `dot_product` of two matrices, ico2/math1.py:319-335 (`None` on a shape mismatch). -/
def dotProductMM {s t1 t2 u : Nat} (M : TMat s t1) (N : TMat t2 u) : Py (Option (TMat s u)) :=
  if h : t1 = t2 then do
    let r ← fillFin s fun k => fillFin u fun j =>
      sumProducts A (M k) (fun i => N (Fin.cast h i) j)
    .ok (some r)
  else .ok none

/-- `dot_product_1` of an integer matrix and a vector of matching length, ico2/math1.py:356-370:
entry `k` is the sum over `j` of `mul([mat1[k][j],0,1], mat2[j])`. -/
def dotProduct1 {s t : Nat} (M : IMat s t) (v : Vec t) : Py (Vec s) :=
  fillFin s fun k => sumProducts A (fun j => ⟨M k j, 0, 1⟩) v

/-- `dot_product_1` with the shape test, ico2/math1.py:356-370. -/
def dotProduct1Api {s t1 t2 : Nat} (M : IMat s t1) (v : Vec t2) : Py (Option (Vec s)) :=
  if h : t1 = t2 then do
    let r ← dotProduct1 A M (fun j => v (Fin.cast h j))
    .ok (some r)
  else .ok none

/-- `dot_product_1` of an integer matrix and a TAU-style matrix, ico2/math1.py:372-390. As written,
the entry read is `mat1[k][j]` (line 386), indexed by the output column `j` and not by the summation
index `i`. Reading `mat1[k][j]` with `j` not smaller than the number of columns of `mat1` raises
IndexError. -/
def dotProduct1MM {s t1 t2 u : Nat} (M : IMat s t1) (N : TMat t2 u) : Py (Option (TMat s u)) :=
  if h : t1 = t2 then do
    let r ← fillFin s fun k => fillFin u fun j =>
      foldPy (fun a (i : Fin t1) =>
        if hj : j.val < t1 then do
          let b ← A.mul ⟨M k ⟨j.val, hj⟩, 0, 1⟩ (N (Fin.cast h i) j)
          A.add a b
        else .error .indexError) ⟨0, 0, 1⟩ (List.finRange t1)
    .ok (some r)
  else .ok none

/-- `mtrixcal`, ico2/math1.py:491-525 and dode2/math1.py:482-509. -/
def mtrixcal (m1 m2 m3 m4 m5 m6 : Num3) (v : Vec 6) : Py Num3 := do
  let a1 ← A.mul m1 (v 0)
  let a2 ← A.mul m2 (v 1)
  let a3 ← A.mul m3 (v 2)
  let a4 ← A.mul m4 (v 3)
  let a5 ← A.mul m5 (v 4)
  let a6 ← A.mul m6 (v 5)
  let a1 ← A.add a1 a2
  let a1 ← A.add a1 a3
  let a1 ← A.add a1 a4
  let a1 ← A.add a1 a5
  A.add a1 a6

/-- `centroid`, ico2/math1.py:527-551 and dode2/math1.py:511-535, of a list of 6D vertices (array of
shape (num,6,3)). For the empty list the final multiplication by `[1,0,0]` raises ValueError. -/
def centroid (obj : List (Vec 6)) : Py (Vec 6) :=
  fillFin 6 fun i2 => do
    let v2 ← foldPy (fun acc v => A.add acc (v i2)) ⟨0, 0, 1⟩ obj
    A.mul v2 ⟨1, 0, obj.length⟩

/-- The zero vector `[[0,0,1],...]`. -/
def zeroVec (n : Nat) : Vec n := fun _ => ⟨0, 0, 1⟩

/-- `centroid_obj`, ico2/math1.py:553-572 and dode2/math1.py:537-556. -/
def centroidObj {m : Nat} (obj : Obj m) : Py (Vec 6) := do
  let tmp ← foldPy (fun acc s => do
    let p ← centroid A (List.ofFn s)
    addVectors A acc p) (zeroVec 6) obj
  mulVector A tmp ⟨1, 0, obj.length⟩

namespace Ico

/-- Constant `m0 .. m4` of ico2/math1.py:418-422. -/
def m0 : Num3 := ⟨0, 0, 1⟩
/-- see `m0` -/
def m1 : Num3 := ⟨1, 0, 1⟩
/-- see `m0` -/
def m2 : Num3 := ⟨-1, 0, 1⟩
/-- see `m0` -/
def m3 : Num3 := ⟨0, 1, 1⟩
/-- see `m0` -/
def m4 : Num3 := ⟨0, -1, 1⟩

/-- `projection`, ico2/math1.py:403-429: parallel part, then perpendicular part. -/
def projection (vt : Vec 6) : Py (Vec 3 × Vec 3) := do
  let v1e ← mtrixcal arith m1 m3 m3 m0 m2 m0 vt
  let v2e ← mtrixcal arith m3 m0 m0 m1 m3 m1 vt
  let v3e ← mtrixcal arith m0 m1 m2 m4 m0 m3 vt
  let v1i ← mtrixcal arith m3 m2 m2 m0 m4 m0 vt
  let v2i ← mtrixcal arith m2 m0 m0 m3 m2 m3 vt
  let v3i ← mtrixcal arith m0 m3 m4 m1 m0 m2 vt
  .ok (![v1e, v2e, v3e], ![v1i, v2i, v3i])

/-- `projection3`, ico2/math1.py:431-458. -/
def projection3 (vt : Vec 6) : Py (Vec 3) := do
  let v1i ← mtrixcal arith m3 m2 m2 m0 m4 m0 vt
  let v2i ← mtrixcal arith m2 m0 m0 m3 m2 m3 vt
  let v3i ← mtrixcal arith m0 m3 m4 m1 m0 m2 vt
  .ok ![v1i, v2i, v3i]

/-- Constants of `projection_perp`, ico2/math1.py:473-475. -/
def p1 : Num3 := ⟨1, 0, 2⟩
/-- see `p1` -/
def p2 : Num3 := ⟨-1, 2, 10⟩
/-- see `p1` -/
def p3 : Num3 := ⟨1, -2, 10⟩

/-- `projection_perp`, ico2/math1.py:460-482. -/
def projectionPerp (vt : Vec 6) : Py (Vec 6) := do
  let h1 ← mtrixcal arith p1 p3 p3 p3 p3 p3 vt
  let h2 ← mtrixcal arith p3 p1 p3 p2 p2 p3 vt
  let h3 ← mtrixcal arith p3 p3 p1 p3 p2 p2 vt
  let h4 ← mtrixcal arith p3 p2 p3 p1 p3 p2 vt
  let h5 ← mtrixcal arith p3 p2 p2 p3 p1 p3 vt
  let h6 ← mtrixcal arith p3 p3 p2 p2 p3 p1 vt
  .ok ![h1, h2, h3, h4, h5, h6]

end Ico

namespace Dode

/-- Constants `M0 .. M6` of dode2/math1.py:424-430. -/
def M0 : Num3 := ⟨0, 0, 1⟩
/-- see `M0` -/
def M1 : Num3 := ⟨1, 0, 1⟩
/-- see `M0` -/
def M4 : Num3 := ⟨-1, 0, 2⟩
/-- see `M0` -/
def M5 : Num3 := ⟨0, 1, 1⟩
/-- see `M0` -/
def M6 : Num3 := ⟨0, -1, 1⟩

/-- `projection`, dode2/math1.py:409-437. -/
def projection (vt : Vec 6) : Py (Vec 3 × Vec 3) := do
  let v1e ← mtrixcal arith M5 M1 M0 M4 M0 M0 vt
  let v2e ← mtrixcal arith M4 M0 M1 M5 M0 M0 vt
  let v1i ← mtrixcal arith M6 M1 M0 M4 M0 M0 vt
  let v2i ← mtrixcal arith M4 M0 M1 M6 M0 M0 vt
  let v3e ← mtrixcal arith M0 M0 M0 M0 M1 M0 vt
  let v3i ← mtrixcal arith M0 M0 M0 M0 M0 M1 vt
  .ok (![v1e, v2e, v3e], ![v1i, v2i, v3i])

/-- `projection3`, dode2/math1.py:439-467. -/
def projection3 (vt : Vec 6) : Py (Vec 3) := do
  let v1i ← mtrixcal arith M6 M1 M0 M4 M0 M0 vt
  let v2i ← mtrixcal arith M4 M0 M1 M6 M0 M0 vt
  let v3i ← mtrixcal arith M0 M0 M0 M0 M0 M1 vt
  .ok ![v1i, v2i, v3i]

end Dode
end PyQC

namespace PyQC

/-- The two packages modelled: `src/pyqcstrc/ico2` and `src/pyqcstrc/dode2`. Code that is textually
the same in both is modelled once with the package as a parameter. -/
inductive Package where
  | ico
  | dode
deriving DecidableEq

namespace Package

/-- The scalar functions of the package's `math1.py`. -/
def arith : Package → Arith
  | .ico => Ico.arith
  | .dode => Dode.arith

/-- `projection`: ico2/math1.py:403-429, dode2/math1.py:409-437. -/
def projection : Package → Vec 6 → Py (Vec 3 × Vec 3)
  | .ico => Ico.projection
  | .dode => Dode.projection

/-- `projection3`: ico2/math1.py:431-458, dode2/math1.py:439-467. -/
def projection3 : Package → Vec 6 → Py (Vec 3)
  | .ico => Ico.projection3
  | .dode => Dode.projection3

end Package
end PyQC
