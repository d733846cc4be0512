import Verif.Model.Math
/-!
# Volumes, areas and shifts: `ico2/utils.py:34-131`, `dode2/utils.py:36-136`
-/
namespace PyQC

/-- Exact test of `u + w*sqrt(d) < 0` for integers `u w` and `d > 0`. Used for the float comparisons
`val < 0.0` of the code (idealisation: the comparison is made on the exact real number). -/
def negSqrt (d : Nat) (u w : Int) : Bool :=
  if u < 0 then decide (w ≤ 0) || decide (w ^ 2 * d < u ^ 2)
  else decide (w < 0) && decide (u ^ 2 < w ^ 2 * d)

/-- `a + b*TAU < 0.0` with the package's `TAU` (ico2: `(1+sqrt 5)/2`, so `2*(a+b*TAU) = (2a+b)+b*sqrt 5`;
dode2: `sqrt(3)/2`, so `2*(a+b*TAU) = 2a + b*sqrt 3`). Idealisation: exact instead of float64. -/
def Package.negNum : Package → Int → Int → Bool
  | .ico, a, b => negSqrt 5 (2 * a + b) b
  | .dode, a, b => negSqrt 3 (2 * a) b

/-- `numeric_value(t) < 0.0`, ico2/numericalc.py:163-175 and ico2/utils.py:127-128, for a non-zero
denominator. A zero denominator gives inf or nan in numpy; modelled as "not negative" (it does not
occur, every number tested is a result of `inner_product`). -/
def Package.isNeg (p : Package) (t : Num3) : Bool :=
  if 0 < t.c then p.negNum t.a t.b else if t.c < 0 then p.negNum (-t.a) (-t.b) else false

/-- Use of an `Optional` result as an array: `None` raises TypeError. -/
def needSome {α : Type} : Option α → Py α
  | some x => .ok x
  | none => .error .typeError

namespace Ico

/-- `tetrahedron_volume`, ico2/utils.py:106-131. -/
def tetrahedronVolume (vts : Fin 4 → Vec 3) : Py Num3 := do
  let v1 ← subVectors arith (vts 1) (vts 0)
  let v2 ← subVectors arith (vts 2) (vts 0)
  let v3 ← subVectors arith (vts 3) (vts 0)
  let v ← outerProduct arith v1 v2
  let v' ← innerProduct arith v v3
  let v'' ← needSome v'
  if Package.ico.isNeg v'' then mul v'' ⟨-1, 0, 6⟩ else mul v'' ⟨1, 0, 6⟩

/-- `tetrahedron_volume_6d` of an array of shape (4,6,3), ico2/utils.py:84-101. -/
def tetrahedronVolume6d (t : Simplex 4) : Py Num3 := do
  let vts ← fillFin 4 fun i => projection3 (t i)
  tetrahedronVolume vts

/-- View a piece of `m` vertices as a tetrahedron: `tetrahedron[i]` for `i` in `range(4)`
(ico2/utils.py:97-99) raises IndexError when there are fewer vertices, and ignores further ones. -/
def asTetra {m : Nat} (s : Simplex m) : Py (Simplex 4) :=
  if h : 4 ≤ m then .ok fun i => s (Fin.castLE h i) else .error .indexError

/-- Loop of `obj_volume_6d`, ico2/utils.py:66-70, over pieces of any number of vertices. -/
def sumVolumes {m : Nat} (w : Num3) (o : Obj m) : Py Num3 :=
  foldPy (fun w s => do
    let t ← asTetra s
    let v ← tetrahedronVolume6d t
    add w v) w o

/-- `obj_volume_6d`, ico2/utils.py:54-82, with its dispatch on `ndim`; also `volume`,
ico2/occupation_domain.py:24-25. -/
def objVolume6d : NdArr → Py (Option Num3)
  | .d4 o => do
    let w ← sumVolumes ⟨0, 0, 1⟩ o
    .ok (some w)
  | .d5 os => do
    let w ← foldPy (fun w o => sumVolumes w o) ⟨0, 0, 1⟩ os
    .ok (some w)
  | .d3 s => do
    let t ← asTetra s
    let v ← tetrahedronVolume6d t
    .ok (some v)
  | _ => .ok none

end Ico

namespace Dode

/-- `triangle_area`, dode2/utils.py:111-136: only the third component of the outer product is used. -/
def triangleArea (vts : Fin 3 → Vec 3) : Py Num3 := do
  let v1 ← subVectors arith (vts 1) (vts 0)
  let v2 ← subVectors arith (vts 2) (vts 0)
  let v ← outerProduct arith v1 v2
  if Package.dode.negNum (v 2).a (v 2).b then mul (v 2) ⟨-1, 0, 2⟩ else mul (v 2) ⟨1, 0, 2⟩

/-- `triangle_area_6d` of an array of shape (3,6,3), dode2/utils.py:86-106. -/
def triangleArea6d (t : Simplex 3) : Py Num3 := do
  let vts ← fillFin 3 fun i => projection3 (t i)
  triangleArea vts

/-- `triangle[i]` for `i` in `range(3)`, dode2/utils.py:100-101. -/
def asTriangle {m : Nat} (s : Simplex m) : Py (Simplex 3) :=
  if h : 3 ≤ m then .ok fun i => s (Fin.castLE h i) else .error .indexError

/-- Loop of `obj_area_6d`, dode2/utils.py:68-72, over pieces of any number of vertices. -/
def sumAreas {m : Nat} (w : Num3) (o : Obj m) : Py Num3 :=
  foldPy (fun w s => do
    let t ← asTriangle s
    let v ← triangleArea6d t
    add w v) w o

/-- `obj_area_6d`, dode2/utils.py:56-84; also `volume`, dode2/occupation_domain.py:22-23. -/
def objArea6d : NdArr → Py (Option Num3)
  | .d4 o => do
    let w ← sumAreas ⟨0, 0, 1⟩ o
    .ok (some w)
  | .d5 os => do
    let w ← foldPy (fun w o => sumAreas w o) ⟨0, 0, 1⟩ os
    .ok (some w)
  | .d3 s => do
    let t ← asTriangle s
    let v ← triangleArea6d t
    .ok (some v)
  | _ => .ok none

end Dode

/-- Loop of `shift_object`, ico2/utils.py:37-46, dode2/utils.py:39-48. -/
def shiftObj (p : Package) {m : Nat} (o : Obj m) (t : Vec 6) : Py (Obj m) :=
  fillList (fun s => fillFin m fun i => addVectors p.arith (s i) t) o

/-- `shift_object`, ico2/utils.py:34-49, dode2/utils.py:36-51; also `shift`,
ico2/occupation_domain.py:73-88, dode2/occupation_domain.py:72-87. -/
def shiftApi (p : Package) (a : NdArr) (t : Vec 6) : Py (Option NdArr) :=
  match a with
  | .d4 o => do
    let r ← shiftObj p o t
    .ok (some (.d4 r))
  | _ => .ok none

end PyQC
