import Verif.Model.Machine
import Verif.Model.Float
import Verif.Model.Symmetry
import Verif.Model.Volume
/-!
# Vectors, symmetry and volumes with machine numbers

The functions of `Model/Math.lean`, `Model/Symmetry.lean` and `Model/Volume.lean` once more, with the int64 arithmetic of
`Model/Machine.lean` and with rounded floating-point comparisons (`Model/Float.lean`): no idealisation of numbers is left.
-/
namespace PyQC
namespace Machine

/-- The scalar functions of a package, ico2/math1.py:14-136, dode2/math1.py:15-142. With them the functions of
`Model/Math.lean` become machine functions. -/
def arith : Package → Arith
  | .ico => ⟨add, Ico.mul, Ico.sub, Ico.div⟩
  | .dode => ⟨add, Dode.mul, Dode.sub, Dode.div⟩

/-! ## Symmetry operations -/

/-- The tail of `mul` when the products are float64 numbers, ico2/math1.py:59-68, dode2/math1.py:60-69: they are
truncated to int64 for the gcd, and divided by it as floats. -/
def reduceFloat (f1 f2 f3 : ℚ) : Py Num3 :=
  let g := gcd3 (wrap64 (trunc f1)) (wrap64 (trunc f2)) (wrap64 (trunc f3))
  if g = 0 then .error .valueError
  else
    let q1 := toFloat64 (f1 / toFloat64 g)
    let q2 := toFloat64 (f2 / toFloat64 g)
    let q3 := toFloat64 (f3 / toFloat64 g)
    if q3 < 0 then .ok ⟨trunc (-q1), trunc (-q2), trunc (-q3)⟩
    else .ok ⟨trunc q1, trunc q2, trunc q3⟩

/-- float64 product of a float and an int64. -/
def fmul (x : ℚ) (y : Int) : ℚ := toFloat64 (x * toFloat64 y)

/-- `mul([z,0,1],y)` of `dot_product_1`, ico2/math1.py:366-368, dode2/math1.py:372-374: the entries `z` of the symmetry
matrices are floats, so the first factor is an array of floats. -/
def mulFloat (p : Package) (z : Int) (y : Num3) : Py Num3 :=
  match p with
  | .ico => reduceFloat (toFloat64 (fmul z y.a + fmul 0 y.b)) (toFloat64 (toFloat64 (fmul z y.b + fmul 0 y.a) + fmul 0 y.b))
      (fmul 1 y.c)
  | .dode => reduceFloat (toFloat64 (fmul (toFloat64 (4 * z)) y.a + fmul (toFloat64 (3 * 0)) y.b))
      (toFloat64 (4 * toFloat64 (fmul z y.b + fmul 0 y.a))) (fmul (toFloat64 (4 * 1)) y.c)

/-- `dot_product_1` of a float matrix with integer entries and a vector, ico2/math1.py:356-370,
dode2/math1.py:362-376. -/
def dotProduct1 (p : Package) {s t : Nat} (M : IMat s t) (v : Vec t) : Py (Vec s) :=
  fillFin s fun k => foldPy (fun a j => do
    let b ← mulFloat p (M k j) (v j)
    (arith p).add a b) ⟨0, 0, 1⟩ (List.finRange t)

/-- `symop_vec`, ico2/symmetry.py:51-57, dode2/symmetry.py:58-64. -/
def symopVec (p : Package) (op : IMat 6 6) (vt centre : Vec 6) : Py (Vec 6) := do
  let vt ← subVectors (arith p) vt centre
  let vt ← dotProduct1 p op vt
  addVectors (arith p) vt centre

/-- `symop_vecs`, ico2/symmetry.py:40-49, dode2/symmetry.py:47-56. -/
def symopVecs (p : Package) {m : Nat} (op : IMat 6 6) (s : Simplex m) (centre : Vec 6) : Py (Simplex m) :=
  fillFin m fun i => symopVec p op (s i) centre

/-- `symop_obj` on an array of shape (n,m,6,3), ico2/symmetry.py:27-33, dode2/symmetry.py:34-40. -/
def symopObj (p : Package) {m : Nat} (op : IMat 6 6) (o : Obj m) (centre : Vec 6) : Py (Obj m) :=
  fillList (fun s => symopVecs p op s centre) o

/-- `symmetric`, ico2/occupation_domain.py:27-48, dode2/occupation_domain.py:25-47, with `generator_obj_symmetric_obj`,
ico2/symmetry.py:63-82, dode2/symmetry.py:66-86. The products of the generators, computed with floats, have entries -1, 0
and 1, which floats represent exactly. -/
def symmetricApi (p : Package) (a : NdArr) (centre : Vec 6) : Py (Option NdArr) :=
  match a with
  | .d3 s => do
    let r ← fillList (fun op => symopVecs p op s centre) p.symops
    .ok (some (.d4 r))
  | .d4 o => do
    let copies ← fillList (fun op => symopObj p op o centre) p.symops
    .ok (some (.d4 copies.flatten))
  | _ => .ok none

/-- `shift`, ico2/occupation_domain.py:73-88, dode2/occupation_domain.py:72-87, with `shift_object`,
ico2/utils.py:34-49, dode2/utils.py:36-51. -/
def shiftApi (p : Package) (a : NdArr) (t : Vec 6) : Py (Option NdArr) :=
  match a with
  | @NdArr.d4 m o => do
    let r ← fillList (fun s => fillFin m fun i => addVectors (arith p) (s i) t) o
    .ok (some (.d4 r))
  | _ => .ok none

/-! ## Projection -/

/-- `projection3`: ico2/math1.py:431-458, dode2/math1.py:439-467. -/
def projection3 (p : Package) (vt : Vec 6) : Py (Vec 3) :=
  match p with
  | .ico => do
    let v1i ← mtrixcal (arith .ico) Ico.m3 Ico.m2 Ico.m2 Ico.m0 Ico.m4 Ico.m0 vt
    let v2i ← mtrixcal (arith .ico) Ico.m2 Ico.m0 Ico.m0 Ico.m3 Ico.m2 Ico.m3 vt
    let v3i ← mtrixcal (arith .ico) Ico.m0 Ico.m3 Ico.m4 Ico.m1 Ico.m0 Ico.m2 vt
    .ok ![v1i, v2i, v3i]
  | .dode => do
    let v1i ← mtrixcal (arith .dode) Dode.M6 Dode.M1 Dode.M0 Dode.M4 Dode.M0 Dode.M0 vt
    let v2i ← mtrixcal (arith .dode) Dode.M4 Dode.M0 Dode.M1 Dode.M6 Dode.M0 Dode.M0 vt
    let v3i ← mtrixcal (arith .dode) Dode.M0 Dode.M0 Dode.M0 Dode.M0 Dode.M0 Dode.M1 vt
    .ok ![v1i, v2i, v3i]

end Machine

/-! ## Volumes and areas -/

namespace Float64
variable (F : Float64)
open Machine

/-- `TAU=np.sqrt(3)/2`, dode2/utils.py:34. -/
noncomputable def SIN : ℝ := F.fl (F.fl (Real.sqrt 3) / 2)

open Classical in
/-- `tetrahedron_volume`, ico2/utils.py:106-131. -/
noncomputable def icoVolume (vts : Fin 4 → Vec 3) : Py Num3 := do
  let v1 ← subVectors (arith .ico) (vts 1) (vts 0)
  let v2 ← subVectors (arith .ico) (vts 2) (vts 0)
  let v3 ← subVectors (arith .ico) (vts 3) (vts 0)
  let v ← outerProduct (arith .ico) v1 v2
  let v' ← innerProduct (arith .ico) v v3
  let v'' ← needSome v'
  if F.numericValue v'' < 0 then Machine.Ico.mul v'' ⟨-1, 0, 6⟩ else Machine.Ico.mul v'' ⟨1, 0, 6⟩

/-- `tetrahedron_volume_6d` of an array of shape (4,6,3), ico2/utils.py:84-101. -/
noncomputable def icoVolume6d (t : Simplex 4) : Py Num3 := do
  let vts ← fillFin 4 fun i => Machine.projection3 .ico (t i)
  F.icoVolume vts

/-- Loop of `obj_volume_6d`, ico2/utils.py:66-70. -/
noncomputable def sumVolumes {m : Nat} (w : Num3) (o : Obj m) : Py Num3 :=
  foldPy (fun w s => do
    let t ← Ico.asTetra s
    let v ← F.icoVolume6d t
    Machine.add w v) w o

/-- `volume`, ico2/occupation_domain.py:24-25, with `obj_volume_6d`, ico2/utils.py:54-82. -/
noncomputable def objVolume6d : NdArr → Py (Option Num3)
  | .d4 o => do
    let w ← F.sumVolumes ⟨0, 0, 1⟩ o
    .ok (some w)
  | .d5 os => do
    let w ← foldPy (fun w o => F.sumVolumes w o) ⟨0, 0, 1⟩ os
    .ok (some w)
  | .d3 s => do
    let t ← Ico.asTetra s
    let v ← F.icoVolume6d t
    .ok (some v)
  | _ => .ok none

open Classical in
/-- `triangle_area`, dode2/utils.py:111-136. -/
noncomputable def dodeArea (vts : Fin 3 → Vec 3) : Py Num3 := do
  let v1 ← subVectors (arith .dode) (vts 1) (vts 0)
  let v2 ← subVectors (arith .dode) (vts 2) (vts 0)
  let v ← outerProduct (arith .dode) v1 v2
  if F.fl (F.fl (v 2).a + F.fl (F.fl (v 2).b * F.SIN)) < 0 then Machine.Dode.mul (v 2) ⟨-1, 0, 2⟩
  else Machine.Dode.mul (v 2) ⟨1, 0, 2⟩

/-- `triangle_area_6d` of an array of shape (3,6,3), dode2/utils.py:86-106. -/
noncomputable def dodeArea6d (t : Simplex 3) : Py Num3 := do
  let vts ← fillFin 3 fun i => Machine.projection3 .dode (t i)
  F.dodeArea vts

/-- Loop of `obj_area_6d`, dode2/utils.py:68-72. -/
noncomputable def sumAreas {m : Nat} (w : Num3) (o : Obj m) : Py Num3 :=
  foldPy (fun w s => do
    let t ← Dode.asTriangle s
    let v ← F.dodeArea6d t
    Machine.add w v) w o

/-- `volume`, dode2/occupation_domain.py:22-23, with `obj_area_6d`, dode2/utils.py:56-84. -/
noncomputable def objArea6d : NdArr → Py (Option Num3)
  | .d4 o => do
    let w ← F.sumAreas ⟨0, 0, 1⟩ o
    .ok (some w)
  | .d5 os => do
    let w ← foldPy (fun w o => F.sumAreas w o) ⟨0, 0, 1⟩ os
    .ok (some w)
  | .d3 s => do
    let t ← Dode.asTriangle s
    let v ← F.dodeArea6d t
    .ok (some v)
  | _ => .ok none

end Float64
end PyQC
