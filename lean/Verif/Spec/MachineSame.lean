import Verif.Model.MachineIntersect
import Verif.Spec.GoldenRounded
/-!
# A test for the 64-bit integers of an intersection to stay exact

For given tetrahedra it is computed which comparisons the code makes and which points it finds; the test runs each integer
computation twice, with 64-bit and with unbounded integers, and compares. Volumes of pieces are only compared with zero, as in
the code.
-/
namespace PyQC

/-- The integer part of `intersection_segment_surface`, with the given operations. -/
def crossingWith (A : Arith) (proj : Vec 6 → Py (Vec 3)) (div : Num3 → Num3 → Option Num3) (segment : Simplex 2)
    (surface : Simplex 3) : Py (Vec 6) := do
  let vec6AB ← subVectors A (segment 1) (segment 0)
  let vecAB ← proj vec6AB
  let tmp ← subVectors A (surface 1) (surface 0)
  let vecCD ← proj tmp
  let tmp ← subVectors A (surface 2) (surface 0)
  let vecCE ← proj tmp
  let tmp ← subVectors A (segment 0) (surface 0)
  let vecCA ← proj tmp
  let vecP ← outerProduct A vecAB vecCE
  let vecQ ← outerProduct A vecCA vecCD
  let bunbo ← innerProduct A vecP vecCD
  let bunbo ← needSome bunbo
  let bunshi ← innerProduct A vecQ vecCE
  let bunshi ← needSome bunshi
  let t ← needSome (div bunshi bunbo)
  let tmp ← mulVector A vec6AB t
  addVectors A (segment 0) tmp

/-- The triple product of three edges, six times the volume up to the sign, with the given operations. -/
def tripleWith (A : Arith) (proj : Vec 6 → Py (Vec 3)) (t : Simplex 4) : Py Num3 := do
  let vts ← fillFin 4 fun i => proj (t i)
  let v1 ← subVectors A (vts 1) (vts 0)
  let v2 ← subVectors A (vts 2) (vts 0)
  let v3 ← subVectors A (vts 3) (vts 0)
  let v ← outerProduct A v1 v2
  let v' ← innerProduct A v v3
  needSome v'

/-- With 64-bit integers the crossing is the exact one. -/
def sameCrossing (segment : Simplex 2) (surface : Simplex 3) : Bool :=
  decide (crossingWith (Machine.arith .ico) (Machine.projection3 .ico) Machine.Ico.div segment surface =
    crossingWith Ico.arith Ico.projection3 Ico.div segment surface)

def isZero3 (x : Num3) : Bool := decide (x.a = 0 ∧ x.b = 0)

/-- Both signs of a sixth of `x`, computed with the product `m`, are zero exactly if `y` is. -/
def zeroAlike (m : Num3 → Num3 → Py Num3) (x y : Py Num3) : Bool :=
  match x, y with
  | .ok x, .ok y =>
    match m x ⟨-1, 0, 6⟩, m x ⟨1, 0, 6⟩ with
    | .ok p, .ok q => isZero3 p == isZero3 y && isZero3 q == isZero3 y
    | _, _ => false
  | _, _ => false

/-- The volume computed with 64-bit integers is zero exactly if the volume is, whatever its sign is found to be. -/
def sameZero (t : Simplex 4) : Bool :=
  zeroAlike Machine.Ico.mul (tripleWith (Machine.arith .ico) (Machine.projection3 .ico) t) (Ico.tetrahedronVolume6d t)

/-- Every projection of these points is exact. -/
def samePoints (l : List (Vec 6)) : Bool := l.all fun v => decide (Machine.projection3 .ico v = Ico.projection3 v)

/-- The distance computed with 64-bit integers is taken of the exact difference. -/
def sameDistance (v w : Vec 6) : Bool :=
  decide ((do let a ← subVectors (Machine.arith .ico) v w; Machine.projection3 .ico a : Py (Vec 3)) =
    (do let a ← subVectors Ico.arith v w; Ico.projection3 a : Py (Vec 3)))

/-- The crossing of an edge of `s` and a face of `t`, if the code finds one. -/
def crossingOf (s t : Simplex 4) (c : (Fin 4 × Fin 4) × (Fin 4 × Fin 4 × Fin 4)) : List (Vec 6) :=
  if meetsTest (Ico.segmentOf s c.1) (Ico.surfaceOf t c.2) then
    match crossingWith Ico.arith Ico.projection3 Ico.div (Ico.segmentOf s c.1) (Ico.surfaceOf t c.2) with
    | .ok v => [v]
    | .error _ => []
  else []

/-- The points the code collects for two tetrahedra. -/
def collected (s t : Simplex 4) : List (Vec 6) :=
  (combEF.flatMap fun c => crossingOf s t c ++ crossingOf t s c) ++ ((List.ofFn s).filter fun v => insideTest v t) ++
    ((List.ofFn t).filter fun v => insideTest v s)

/-- All quadruples of these points. -/
def quadruples (l : List (Vec 6)) : List (Simplex 4) :=
  l.flatMap fun a => l.flatMap fun b => l.flatMap fun c => l.map fun d => ![a, b, c, d]

/-- All integer computations for two tetrahedra are exact. If there are more than four points, every choice of four of them
is tested, because the tetrahedralisation library may choose them. -/
def samePair (s t : Simplex 4) : Bool :=
  (combEF.all fun c =>
    (!meetsTest (Ico.segmentOf s c.1) (Ico.surfaceOf t c.2) || sameCrossing (Ico.segmentOf s c.1) (Ico.surfaceOf t c.2)) &&
    (!meetsTest (Ico.segmentOf t c.1) (Ico.surfaceOf s c.2) || sameCrossing (Ico.segmentOf t c.1) (Ico.surfaceOf s c.2))) &&
  samePoints (collected s t) &&
  match removeDoublingPerp .ico (collected s t) with
  | .ok l => decide (l.length ≤ 4) || (quadruples l).all sameZero
  | .error _ => false

/-- All integer computations of the rough check are exact. -/
def sameRough (a b : Obj 4) : Bool :=
  decide (centroidObj (Machine.arith .ico) b = centroidObj Ico.arith b) && samePoints (flattenObj b) && samePoints (flattenObj a) &&
  match centroidObj Ico.arith b with
  | .error _ => true
  | .ok c => (b.all fun t => (List.ofFn t).all fun v => sameDistance v c) &&
      a.all fun s => decide (centroid (Machine.arith .ico) (List.ofFn s) = centroid Ico.arith (List.ofFn s)) &&
        match centroid Ico.arith (List.ofFn s) with
        | .error _ => true
        | .ok c' => ((List.ofFn s).all fun v => sameDistance v c') && sameDistance c' c

/-- All integer computations of the intersection of two objects are exact. -/
def sameObjects (a b : Obj 4) : Bool := sameRough a b && a.all fun s => b.all fun t => samePair s t

end PyQC
