import Mathlib.Data.List.Dedup
import Verif.Spec.MachineSame
import Verif.Model.MachinePlanar
/-!
# A test for the 64-bit integers of a planar intersection to stay exact

The test runs each integer computation the intersection of two flat objects can make twice, with 64-bit and with unbounded
integers, and compares. It does not ask which of the computations are made: it allows for every outcome of the numerical
comparisons and for every answer of the triangulation library. Areas of pieces are only compared with zero, as in the code.
-/
namespace PyQC

/-- The integer part of `intersection_two_segment`, with the given operations. -/
def crossing2With (A : Arith) (proj : Vec 6 → Py (Vec 3)) (segment1 segment2 : Simplex 2) : Py (Vec 6) := do
  let vecAB6 ← subVectors A (segment1 1) (segment1 0)
  let vecAB ← proj vecAB6
  let tmp ← subVectors A (segment2 1) (segment2 0)
  let vecCD ← proj tmp
  let tmp ← subVectors A (segment2 0) (segment1 0)
  let vecAC ← proj tmp
  let tmp1 ← innerProduct A vecAB vecCD
  let tmp1 ← needSome tmp1
  let tmp2 ← innerProduct A vecCD vecAB
  let tmp2 ← needSome tmp2
  let tmp3 ← A.mul tmp1 tmp2
  let tmp1 ← innerProduct A vecAB vecAB
  let tmp1 ← needSome tmp1
  let tmp2 ← innerProduct A vecCD vecCD
  let tmp2 ← needSome tmp2
  let tmp4 ← A.mul tmp1 tmp2
  let bunbo ← A.sub tmp3 tmp4
  let tmp1 ← innerProduct A vecAC vecCD
  let tmp1 ← needSome tmp1
  let tmp2 ← innerProduct A vecCD vecAB
  let tmp2 ← needSome tmp2
  let tmp3 ← A.mul tmp1 tmp2
  let tmp1 ← innerProduct A vecCD vecCD
  let tmp1 ← needSome tmp1
  let tmp2 ← innerProduct A vecAC vecAB
  let tmp2 ← needSome tmp2
  let tmp4 ← A.mul tmp1 tmp2
  let bunshi ← A.sub tmp3 tmp4
  let s ← needSome (A.div bunshi bunbo)
  let tmp ← mulVector A vecAB6 s
  addVectors A (segment1 0) tmp

/-- The third component of the outer product of two edges, twice the area up to the sign, with the given operations. -/
def doubleWith (A : Arith) (proj : Vec 6 → Py (Vec 3)) (t : Simplex 3) : Py Num3 := do
  let vts ← fillFin 3 fun i => proj (t i)
  let v1 ← subVectors A (vts 1) (vts 0)
  let v2 ← subVectors A (vts 2) (vts 0)
  let v ← outerProduct A v1 v2
  .ok (v 2)

/-- With 64-bit integers the crossing point of two lines is the exact one. -/
def sameCrossing2 (segment1 segment2 : Simplex 2) : Bool :=
  decide (crossing2With (Machine.arith .dode) (Machine.projection3 .dode) segment1 segment2 =
    crossing2With Dode.arith Dode.projection3 segment1 segment2)

/-- Both signs of half of `x`, computed with the product `m`, are zero exactly if `y` is. -/
def zeroAlike2 (m : Num3 → Num3 → Py Num3) (x y : Py Num3) : Bool :=
  match x, y with
  | .ok x, .ok y =>
    match m x ⟨-1, 0, 2⟩, m x ⟨1, 0, 2⟩ with
    | .ok p, .ok q => isZero3 p == isZero3 y && isZero3 q == isZero3 y
    | _, _ => false
  | _, _ => false

/-- The area computed with 64-bit integers is zero exactly if the area is, whatever its sign is found to be. -/
def sameZero2 (t : Simplex 3) : Bool :=
  zeroAlike2 Machine.Dode.mul (doubleWith (Machine.arith .dode) (Machine.projection3 .dode) t) (Dode.triangleArea6d t)

/-- Every projection of these points is exact. -/
def samePoints2 (l : List (Vec 6)) : Bool := l.all fun v => decide (Machine.projection3 .dode v = Dode.projection3 v)

/-- The distance computed with 64-bit integers is taken of the exact difference. -/
def sameDistance2 (v w : Vec 6) : Bool :=
  decide ((do let a ← subVectors (Machine.arith .dode) v w; Machine.projection3 .dode a : Py (Vec 3)) =
    (do let a ← subVectors Dode.arith v w; Dode.projection3 a : Py (Vec 3)))

/-- The crossing points of the lines through an edge of `s` and an edge of `t`, on the edges of `s`. -/
def lineCrossings (s t : Simplex 3) : List (Vec 6) :=
  Dode.combE.flatMap fun c => Dode.combE.flatMap fun j =>
    match crossing2With Dode.arith Dode.projection3 (Dode.segmentOf s c) (Dode.segmentOf t j) with
    | .ok v => [v]
    | .error _ => []

/-- Every point the code can collect for two triangles. -/
def possible (s t : Simplex 3) : List (Vec 6) :=
  (lineCrossings s t ++ lineCrossings t s ++ List.ofFn s ++ List.ofFn t).dedup

/-- All triples of these points. -/
def triples (l : List (Vec 6)) : List (Simplex 3) :=
  l.flatMap fun a => l.flatMap fun b => l.map fun c => ![a, b, c]

/-- All integer computations for two triangles are exact. -/
def samePair2 (s t : Simplex 3) : Bool :=
  (Dode.combE.all fun c => Dode.combE.all fun j => sameCrossing2 (Dode.segmentOf s c) (Dode.segmentOf t j) &&
    sameCrossing2 (Dode.segmentOf t c) (Dode.segmentOf s j)) &&
  samePoints2 (possible s t) && (triples (possible s t)).all sameZero2

/-- All integer computations of the rough check are exact. -/
def sameRough2 (a b : Obj 3) : Bool :=
  decide (centroidObj (Machine.arith .dode) b = centroidObj Dode.arith b) && samePoints2 (flattenObj b) && samePoints2 (flattenObj a) &&
  match centroidObj Dode.arith b with
  | .error _ => true
  | .ok c => (b.all fun t => (List.ofFn t).all fun v => sameDistance2 v c) &&
      a.all fun s => decide (centroid (Machine.arith .dode) (List.ofFn s) = centroid Dode.arith (List.ofFn s)) &&
        match centroid Dode.arith (List.ofFn s) with
        | .error _ => true
        | .ok c' => ((List.ofFn s).all fun v => sameDistance2 v c') && sameDistance2 c' c

/-- All integer computations of the intersection of two flat objects are exact. -/
def sameObjects2 (a b : Obj 3) : Bool := sameRough2 a b && a.all fun s => b.all fun t => samePair2 s t

end PyQC
