import Verif.Spec.Golden
import Verif.Spec.RoundingPlanar
/-!
# A test for pairs of triangles to be resolved in spite of rounding

Exact arithmetic with numbers a + b√3, and with it the conditions of `ResolvedTriRounded`, `ObjectsRounded2` and
`Small .dode` for a whole number R, computed for triangles with exact coordinates. `Verif.Lemmas.Surd` contains the proof
that the computation is right.
-/
namespace PyQC

/-- The number a + b√3 with integers a, b. -/
structure Surd where
  a : ℤ
  b : ℤ

namespace Surd

/-- The real number. -/
noncomputable def val (g : Surd) : ℝ := g.a + g.b * Real.sqrt 3

def add (g h : Surd) : Surd := ⟨g.a + h.a, g.b + h.b⟩
def sub (g h : Surd) : Surd := ⟨g.a - h.a, g.b - h.b⟩
def neg (g : Surd) : Surd := ⟨-g.a, -g.b⟩
def mul (g h : Surd) : Surd := ⟨g.a * h.a + 3 * (g.b * h.b), g.a * h.b + g.b * h.a⟩
/-- Integer multiples. -/
def scale (k : ℤ) (g : Surd) : Surd := ⟨k * g.a, k * g.b⟩

/-- Is a + b√3 at least 0? -/
def nonneg (g : Surd) : Bool :=
  if 0 ≤ g.b then decide (0 ≤ g.a) || decide (g.a * g.a ≤ 3 * (g.b * g.b))
  else decide (0 ≤ g.a) && decide (3 * (g.b * g.b) ≤ g.a * g.a)

def isZero (g : Surd) : Bool := decide (g.a = 0) && decide (g.b = 0)
def le (g h : Surd) : Bool := (h.sub g).nonneg
/-- `g`, with the sign of `s`. -/
def signed (s g : Surd) : Surd := if s.nonneg then g else g.neg
def abs (g : Surd) : Surd := signed g g

end Surd

/-- A point of the plane with exact coordinates. -/
structure P2 where
  x : Surd
  y : Surd

namespace P2
def sub (p q : P2) : P2 := ⟨p.x.sub q.x, p.y.sub q.y⟩
def scale (k : ℤ) (p : P2) : P2 := ⟨p.x.scale k, p.y.scale k⟩
/-- The signed area of the parallelogram. -/
def cross (p q : P2) : Surd := (p.x.mul q.y).sub (p.y.mul q.x)
/-- The square of the length. -/
def square (p : P2) : Surd := (p.x.mul p.x).add (p.y.mul p.y)
/-- Twice the signed area of a triangle. -/
def tri (p q r : P2) : Surd := (q.sub p).cross (r.sub p)
end P2

namespace Surd

/-- Twice the signed area. -/
def area (b : Fin 3 → P2) : Surd := (b 0).tri (b 1) (b 2)

/-- Twice the signed areas of the triangles with one corner replaced by `x`. -/
def parts (b : Fin 3 → P2) (x : P2) : Surd × Surd × Surd := (x.tri (b 1) (b 2), (b 0).tri x (b 2), (b 0).tri (b 1) x)

/-- The sum of the areas of the three triangles. -/
def total (b : Fin 3 → P2) (x : P2) : Surd :=
  let p := parts b x
  (p.1.abs.add p.2.1.abs).add p.2.2.abs

/-- The point `x` is in the triangle `b`. -/
def inTri (b : Fin 3 → P2) (x : P2) : Bool :=
  let d := area b
  let p := parts b x
  (d.signed p.1).nonneg && (d.signed p.2.1).nonneg && (d.signed p.2.2).nonneg

/-- Either the point `x` is in the triangle `b`, or the inside test rejects it. -/
def cornerOkTri (b : Fin 3 → P2) (x : P2) : Bool :=
  inTri b x || le (scale 1000001 (area b).abs) (scale 1000000 (total b x))

/-- The inside test of the point `x` against `b` is decided with the margin. -/
def insideApartTri (n R : ℕ) (b : Fin 3 → P2) (x : P2) : Bool :=
  !le (scale (2 ^ 40) ((scale 1000000 (total b x)).sub (scale 1000001 (area b).abs)).abs) ⟨2 * 10 ^ 6 * n ^ 2 * R ^ 2, 0⟩

/-- The crossing of the lines AB and CD: the area spanned and the numerators of the positions on the two lines. -/
structure Cross2 where
  e : Surd
  s : Surd
  t : Surd

def lines (A B C D : P2) : Cross2 := ⟨(B.sub A).cross (D.sub C), (C.sub A).cross (D.sub C), (C.sub A).cross (B.sub A)⟩

/-- A position is zero, or not within the margin. -/
def posOk (n R : ℕ) (e x : Surd) : Bool := x.isZero || !le (scale (2 ^ 30) ((e.mul e).mul x.abs)) ⟨n ^ 6 * R ^ 6, 0⟩

/-- The crossing test of two edges is decided in spite of rounding. -/
def crossOk2 (n R : ℕ) (c : Cross2) : Bool :=
  c.e.isZero || (le ⟨n ^ 4 * (2 ^ 20 + 10 ^ 6 * R ^ 5), 0⟩ (scale (10 ^ 6 * 2 ^ 20) (c.e.mul c.e)) &&
    posOk n R c.e c.s && posOk n R c.e (c.s.sub c.e) && posOk n R c.e c.t && posOk n R c.e (c.t.sub c.e))

def edges3 : List (Fin 3 × Fin 3) := [(0, 1), (0, 2), (1, 2)]

/-- The test for triangles with corners `a i / n` and `b i / n`. -/
def roundedTri (n R : ℕ) (a b : Fin 3 → P2) : Bool :=
  !(area a).isZero && !(area b).isZero &&
  [(0 : Fin 3), 1, 2].all (fun i => cornerOkTri b (a i) && cornerOkTri a (b i) && insideApartTri n R b (a i) &&
    insideApartTri n R a (b i)) &&
  edges3.all fun ij => edges3.all fun kl => crossOk2 n R (lines (a ij.1) (a ij.2) (b kl.1) (b kl.2))

/-- All corners of `a` are in `b`. -/
def containedTri (a b : Fin 3 → P2) : Bool := [(0 : Fin 3), 1, 2].all fun i => inTri b (a i)

/-- The crossing lies strictly inside both segments. -/
def Cross2.proper (c : Cross2) : Bool :=
  !c.e.isZero && !(c.e.signed c.s).neg.nonneg && !((c.e.signed c.s).sub c.e.abs).nonneg &&
    !(c.e.signed c.t).neg.nonneg && !((c.e.signed c.t).sub c.e.abs).nonneg

/-- Two edges cross strictly inside both. -/
def properTri (a b : Fin 3 → P2) : Bool :=
  edges3.any fun ij => edges3.any fun kl => (lines (a ij.1) (a ij.2) (b kl.1) (b kl.2)).proper

/-- The sides, in cyclic order. -/
def sides3 : List (Fin 3 × Fin 3) := [(0, 1), (1, 2), (2, 0)]

/-- All corners of `b` lie beyond one side of `a`. -/
def beyondTri (a b : Fin 3 → P2) : Bool :=
  sides3.any fun k => [(0 : Fin 3), 1, 2].all fun i => ((area a).signed ((a k.1).tri (a k.2) (b i))).neg.nonneg

/-- The point `x / (n m)` is on the inner side of a side of the triangle with corners `b i / n`, at least `R / 2^47` from it. -/
def farSide (n m R : ℕ) (b : Fin 3 → P2) (x : P2) (k : Fin 3 × Fin 3) : Bool :=
  let p := (b k.1).scale m
  let q := (b k.2).scale m
  let g := (area b).signed (p.tri q x)
  g.nonneg && le (scale (R ^ 2 * (n * m) ^ 2) (q.sub p).square) (scale (2 ^ 94) (g.mul g))

/-- The disc with the radius `R / 2^47` about `x / (n m)` is in both triangles. -/
def discTri (n m R : ℕ) (a b : Fin 3 → P2) (x : P2) : Bool :=
  sides3.all fun k => farSide n m R a x k && farSide n m R b x k

/-- About 2⁴⁰ times the number. -/
def about (g : Surd) : ℤ := g.a * 1099511627776 + g.b * 1904410004001

/-- Points of the common part, about 2⁴⁰ times. -/
def sample (a b : Fin 3 → P2) : List (ℤ × ℤ) :=
  ([(0 : Fin 3), 1, 2].filterMap fun i => if inTri b (a i) then some ((a i).x.about, (a i).y.about) else none) ++
  ([(0 : Fin 3), 1, 2].filterMap fun i => if inTri a (b i) then some ((b i).x.about, (b i).y.about) else none) ++
  edges3.flatMap fun ij => edges3.filterMap fun kl =>
    let c := lines (a ij.1) (a ij.2) (b kl.1) (b kl.2)
    if c.proper then
      let d := (a ij.2).sub (a ij.1)
      some ((a ij.1).x.about + c.s.about * d.x.about / c.e.about, (a ij.1).y.about + c.s.about * d.y.about / c.e.about)
    else none

/-- A point that should be in the middle of the common part; the test verifies it. -/
def middle (a b : Fin 3 → P2) : ℕ × P2 :=
  let l := sample a b
  (l.length * 2 ^ 40 + 1 - min l.length 1, ⟨⟨(l.map Prod.fst).sum, 0⟩, ⟨(l.map Prod.snd).sum, 0⟩⟩)

/-- The common part is thin because a line separates the triangles, or it is clear and contains a disc. -/
def clearTri (n R : ℕ) (a b : Fin 3 → P2) : Bool :=
  beyondTri a b || beyondTri b a ||
    ((containedTri a b || containedTri b a || properTri a b) && discTri n (middle a b).1 R a b (middle a b).2)

end Surd

/-- 2n times the number, when n is a multiple of the denominator. -/
def Num3.surd (n : ℕ) (t : Num3) : Surd := ⟨2 * (t.a * (n / t.c)), t.b * (n / t.c)⟩

/-- 4n times the perpendicular component, first two coordinates. -/
def Vec.surd (n : ℕ) (v : Vec 6) : P2 :=
  let g := fun i => (v i).surd n
  let r := fun i => Surd.mul ⟨0, 1⟩ ((v i).surd n)
  ⟨(((g 1).scale 2).sub (g 3)).sub (r 0), (((g 2).scale 2).sub (g 0)).sub (r 3)⟩

/-- Common denominator of the corners of a triangle. -/
def Simplex.den3 (s : Simplex 3) : ℕ := Nat.lcm (Vec.den (s 0)) (Nat.lcm (Vec.den (s 1)) (Vec.den (s 2)))

/-- The corners, with strictly evaluated selection. -/
def pick3 (p0 p1 p2 : P2) : Fin 3 → P2
  | 0 => p0
  | 1 => p1
  | 2 => p2

def Simplex.surd (n : ℕ) (s : Simplex 3) : Fin 3 → P2 := pick3 (Vec.surd n (s 0)) (Vec.surd n (s 1)) (Vec.surd n (s 2))

/-- The test for two triangles of the package, at the scale `R`. -/
def roundedTest2 (R : ℕ) (s t : Simplex 3) : Bool :=
  let n := Nat.lcm (Simplex.den3 s) (Simplex.den3 t)
  Surd.roundedTri (4 * n) R (Simplex.surd n s) (Simplex.surd n t)

/-- The test for the common part of two triangles. -/
def clearTest2 (R : ℕ) (s t : Simplex 3) : Bool :=
  let n := Nat.lcm (Simplex.den3 s) (Simplex.den3 t)
  Surd.clearTri (4 * n) R (Simplex.surd n s) (Simplex.surd n t)

/-- The test for a vector to be of moderate size. -/
def smallTest2 (R : ℕ) (v : Vec 6) : Bool :=
  let n := Vec.den v
  let g := Vec.surd n v
  ((List.finRange 6).all fun i => decide ((v i).c ≠ 0 ∧ |(v i).c| ≤ 2 ^ 63 ∧ |(v i).a| + 2 * |(v i).b| ≤ R * |(v i).c|)) &&
    [g.x, g.y, ((v 5).surd n).scale 2].all fun x => x.abs.le ⟨R * (4 * n), 0⟩

/-- The corners of an object are at the height given by the number `h`. -/
def levelTest (h : Num3) (o : Obj 3) : Bool :=
  o.all fun t => (List.ofFn t).all fun v => decide ((v 5).a * h.c = h.a * (v 5).c) && decide ((v 5).b * h.c = h.b * (v 5).c)

end PyQC
