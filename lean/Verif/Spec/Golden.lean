import Verif.Spec.Resolve
/-!
# Exact arithmetic with numbers a + bτ, and a test for pairs of tetrahedra to be resolved

The conditions of `Resolved` speak about real numbers. For tetrahedra with exact coordinates they can be computed: this
file contains the computation, `Verif.Lemmas.Golden` the proof that it is right.
-/
namespace PyQC

/-- The number a + bτ with integers a, b. -/
structure Gold where
  a : ℤ
  b : ℤ

namespace Gold

/-- The real number. -/
noncomputable def val (g : Gold) : ℝ := g.a + g.b * tau

def add (g h : Gold) : Gold := ⟨g.a + h.a, g.b + h.b⟩
def sub (g h : Gold) : Gold := ⟨g.a - h.a, g.b - h.b⟩
def neg (g : Gold) : Gold := ⟨-g.a, -g.b⟩
/-- τ² = τ + 1. -/
def mul (g h : Gold) : Gold := ⟨g.a * h.a + g.b * h.b, g.a * h.b + g.b * h.a + g.b * h.b⟩
/-- Integer multiples. -/
def scale (k : ℤ) (g : Gold) : Gold := ⟨k * g.a, k * g.b⟩

/-- Is a + bτ at least 0? With p = 2a + b this is p + b√5 ≥ 0. -/
def nonneg (g : Gold) : Bool :=
  if 0 ≤ g.b then decide (0 ≤ 2 * g.a + g.b) || decide ((2 * g.a + g.b) * (2 * g.a + g.b) ≤ 5 * (g.b * g.b))
  else decide (0 ≤ 2 * g.a + g.b) && decide (5 * (g.b * g.b) ≤ (2 * g.a + g.b) * (2 * g.a + g.b))

def isZero (g : Gold) : Bool := decide (g.a = 0) && decide (g.b = 0)
def le (g h : Gold) : Bool := (h.sub g).nonneg
/-- `g`, with the sign of `s`. -/
def signed (s g : Gold) : Gold := if s.nonneg then g else g.neg
def abs (g : Gold) : Gold := signed g g

end Gold

/-- A vector with exact coordinates. -/
structure G3 where
  x : Gold
  y : Gold
  z : Gold

namespace G3
noncomputable def val (p : G3) : Fin 3 → ℝ := ![p.x.val, p.y.val, p.z.val]
def add (p q : G3) : G3 := ⟨p.x.add q.x, p.y.add q.y, p.z.add q.z⟩
def sub (p q : G3) : G3 := ⟨p.x.sub q.x, p.y.sub q.y, p.z.sub q.z⟩
def smul (k : Gold) (p : G3) : G3 := ⟨k.mul p.x, k.mul p.y, k.mul p.z⟩
/-- The triple product (p × q) · r. -/
def trip (p q r : G3) : Gold :=
  ((((p.y.mul q.z).sub (p.z.mul q.y)).mul r.x).add (((p.z.mul q.x).sub (p.x.mul q.z)).mul r.y)).add
    (((p.x.mul q.y).sub (p.y.mul q.x)).mul r.z)
end G3

namespace Gold

/-- Six-fold volume. -/
def det (a : Fin 4 → G3) : Gold := ((a 1).sub (a 0)).trip ((a 2).sub (a 0)) ((a 3).sub (a 0))

/-- The tetrahedron `b` with its corner `k` replaced. -/
def replace (b : Fin 4 → G3) (k : Fin 4) (x : G3) : Fin 4 → G3 := fun l => if l = k then x else b l

def edges : List (Fin 4 × Fin 4) := [(0, 1), (0, 2), (0, 3), (1, 2), (1, 3), (2, 3)]
def faces : List (Fin 4 × Fin 4 × Fin 4) := [(0, 1, 2), (0, 1, 3), (0, 2, 3), (1, 2, 3)]

/-- Either the point `x` is in the tetrahedron `b`, or the inside test rejects it. -/
def cornerOk (b : Fin 4 → G3) (x : G3) : Bool :=
  let d := det b
  let n0 := det (replace b 0 x)
  let n1 := det (replace b 1 x)
  let n2 := det (replace b 2 x)
  let n3 := det (replace b 3 x)
  ((d.signed n0).nonneg && (d.signed n1).nonneg && (d.signed n2).nonneg && (d.signed n3).nonneg) ||
    le (scale 1000001 d.abs) (scale 1000000 (((n0.abs.add n1.abs).add n2.abs).add n3.abs))

/-- The crossing of a line with a plane: the determinant (made positive) and the numerators of the parameters. -/
structure Cross where
  e : Gold
  t : Gold
  u : Gold
  v : Gold

def cross (A B C D E : G3) : Cross :=
  let e := (B.sub A).trip (E.sub C) (D.sub C)
  ⟨e.abs, e.signed ((A.sub C).trip (D.sub C) (E.sub C)), e.signed ((B.sub A).trip (E.sub C) (A.sub C)),
    e.signed ((A.sub C).trip (D.sub C) (B.sub A))⟩

/-- The crossing lies in the segment and in the triangle. -/
def Cross.inside (c : Cross) : Bool :=
  c.t.nonneg && c.t.le c.e && c.u.nonneg && c.v.nonneg && (c.u.add c.v).le c.e

/-- The crossing lies in the segment and in the triangle up to the tolerance 10⁻⁶. -/
def Cross.near (c : Cross) : Bool :=
  ((scale 1000000 c.t).add c.e).nonneg && (scale 1000000 c.t).le (scale 1000001 c.e) &&
  ((scale 1000000 c.u).add c.e).nonneg && (scale 1000000 c.u).le (scale 1000001 c.e) &&
  ((scale 1000000 c.v).add c.e).nonneg && (scale 1000000 (c.u.add c.v)).le (scale 1000001 c.e)

/-- An edge and a face: parallel, or they span at least 10⁻⁶ and no crossing is accepted by tolerance only. -/
def crossOk (n : ℕ) (c : Cross) : Bool :=
  c.e.isZero || (le ⟨n ^ 3, 0⟩ (scale 1000000 c.e) && (!c.near || c.inside))

def clear (n : ℕ) (a b : Fin 4 → G3) : Bool :=
  [(0 : Fin 4), 1, 2, 3].all (fun i => cornerOk b (a i)) &&
  edges.all fun ij => faces.all fun klm => crossOk n (cross (a ij.1) (a ij.2) (b klm.1) (b klm.2.1) (b klm.2.2))

/-- A point `p / q`. -/
structure Frac where
  p : G3
  q : Gold

/-- The same point. -/
def Frac.same (f g : Frac) : Bool :=
  ((g.q.mul f.p.x).sub (f.q.mul g.p.x)).isZero && ((g.q.mul f.p.y).sub (f.q.mul g.p.y)).isZero &&
  ((g.q.mul f.p.z).sub (f.q.mul g.p.z)).isZero

def Frac.insert (f : Frac) (l : List Frac) : List Frac := if l.any f.same then l else f :: l

/-- The crossings of edges of `a` with faces of `b`. -/
def crossings (a b : Fin 4 → G3) : List Frac :=
  edges.flatMap fun ij => faces.filterMap fun klm =>
    let c := cross (a ij.1) (a ij.2) (b klm.1) (b klm.2.1) (b klm.2.2)
    if c.e.isZero then none else
    if c.inside then some ⟨(G3.smul c.e (a ij.1)).add (G3.smul c.t ((a ij.2).sub (a ij.1))), c.e⟩ else none

/-- Corners and crossings, each point once. -/
def candidates (a b : Fin 4 → G3) : List Frac :=
  (([(0 : Fin 4), 1, 2, 3].map fun i => Frac.mk (a i) ⟨1, 0⟩) ++ ([(0 : Fin 4), 1, 2, 3].map fun i => Frac.mk (b i) ⟨1, 0⟩) ++
    crossings a b ++ crossings b a).foldr Frac.insert []

/-- Four points are coplanar, or not even up to 10⁻¹⁰. -/
def flatOk (n : ℕ) (f g h k : Frac) : Bool :=
  let d := (((f.q.mul (g.p.trip h.p k.p)).sub (g.q.mul (f.p.trip h.p k.p))).add (h.q.mul (f.p.trip g.p k.p))).sub
    (k.q.mul (f.p.trip g.p h.p))
  d.isZero || le (scale (n ^ 3) (((f.q.mul g.q).mul h.q).mul k.q)) (scale 10000000000 d.abs)

/-- For all pairs in the order of the list. -/
def all2 {α : Type} (P : α → α → Bool) : List α → Bool
  | [] => true
  | x :: l => l.all (P x) && all2 P l
def all3 {α : Type} (P : α → α → α → Bool) : List α → Bool
  | [] => true
  | x :: l => all2 (P x) l && all3 P l
def all4 {α : Type} (P : α → α → α → α → Bool) : List α → Bool
  | [] => true
  | x :: l => all3 (P x) l && all4 P l

/-- The test for tetrahedra with corners `a i / n` and `b i / n`. -/
def resolved (n : ℕ) (a b : Fin 4 → G3) : Bool :=
  !(det a).isZero && !(det b).isZero && clear n a b && clear n b a && all4 (flatOk n) (candidates a b)

end Gold

/-- Common denominator of the coordinates of a vector. -/
def Vec.den (v : Vec 6) : ℕ :=
  Nat.lcm (v 0).c.natAbs (Nat.lcm (v 1).c.natAbs (Nat.lcm (v 2).c.natAbs
    (Nat.lcm (v 3).c.natAbs (Nat.lcm (v 4).c.natAbs (v 5).c.natAbs))))

/-- Common denominator of the corners of a tetrahedron. -/
def Simplex.den (s : Simplex 4) : ℕ :=
  Nat.lcm (Vec.den (s 0)) (Nat.lcm (Vec.den (s 1)) (Nat.lcm (Vec.den (s 2)) (Vec.den (s 3))))

/-- n times the number, when n is a multiple of the denominator. -/
def Num3.gold (n : ℕ) (t : Num3) : Gold := ⟨t.a * (n / t.c), t.b * (n / t.c)⟩

/-- n times the perpendicular component. -/
def Vec.gold (n : ℕ) (v : Vec 6) : G3 :=
  let g := fun i => (v i).gold n
  let t := fun i => Gold.mul ⟨0, 1⟩ ((v i).gold n)
  ⟨(((t 0).sub (g 1)).sub (g 2)).sub (t 4), (((t 3).sub (g 0)).sub (g 4)).add (t 5), (((t 1).sub (t 2)).add (g 3)).sub (g 5)⟩

/-- The corners, with strictly evaluated selection. -/
def pick4 (p0 p1 p2 p3 : G3) : Fin 4 → G3
  | 0 => p0
  | 1 => p1
  | 2 => p2
  | 3 => p3

def Simplex.gold (n : ℕ) (s : Simplex 4) : Fin 4 → G3 :=
  pick4 (Vec.gold n (s 0)) (Vec.gold n (s 1)) (Vec.gold n (s 2)) (Vec.gold n (s 3))

/-- The test for two tetrahedra of the package. -/
def resolvedTest (s t : Simplex 4) : Bool :=
  let n := Nat.lcm (Simplex.den s) (Simplex.den t)
  Gold.resolved n (Simplex.gold n s) (Simplex.gold n t)

end PyQC
