import Verif.Spec.Golden
/-!
# A test for the corners of the contact of two tetrahedra to be wide

Exact computation of the corners of the common part of two tetrahedra, and of the condition `WideContacts`;
`Verif.Lemmas.GoldenWide` contains the proof that it is right.
-/
namespace PyQC
namespace Gold

/-- Is the point in the tetrahedron `b`? -/
def inSolid (b : Fin 4 → G3) (x : G3) : Bool :=
  let d := det b
  (d.signed (det (replace b 0 x))).nonneg && (d.signed (det (replace b 1 x))).nonneg &&
    (d.signed (det (replace b 2 x))).nonneg && (d.signed (det (replace b 3 x))).nonneg

/-- The corners of `a` that are in `b`. -/
def cornersIn (a b : Fin 4 → G3) : List Frac :=
  ([(0 : Fin 4), 1, 2, 3].filter fun i => inSolid b (a i)).map fun i => Frac.mk (a i) ⟨1, 0⟩

/-- The corners of the common part, each once. -/
def corners (a b : Fin 4 → G3) : List Frac :=
  (cornersIn a b ++ cornersIn b a ++ crossings a b ++ crossings b a).foldr Frac.insert []

/-- Four points are coplanar. -/
def coplanar (f g h k : Frac) : Bool :=
  ((((f.q.mul (g.p.trip h.p k.p)).sub (g.q.mul (f.p.trip h.p k.p))).add (h.q.mul (f.p.trip g.p k.p))).sub
    (k.q.mul (f.p.trip g.p h.p))).isZero

/-- p × q, component by component. -/
def times (p q : G3) : G3 :=
  ⟨(p.y.mul q.z).sub (p.z.mul q.y), (p.z.mul q.x).sub (p.x.mul q.z), (p.x.mul q.y).sub (p.y.mul q.x)⟩

/-- The triangle has a normal vector with a component of at least p/q; `n` is the denominator of all coordinates. -/
def wide (n p q : ℕ) (f g h : Frac) : Bool :=
  let m := ((G3.smul h.q (times f.p g.p)).add (G3.smul f.q (times g.p h.p))).add (G3.smul g.q (times h.p f.p))
  let d := scale (p * n ^ 2) ((f.q.mul g.q).mul h.q)
  d.le (scale q m.x.abs) || d.le (scale q m.y.abs) || d.le (scale q m.z.abs)

/-- The common part is solid, or any three of its corners are wide. -/
def wideContact (n p q : ℕ) (a b : Fin 4 → G3) : Bool :=
  let l := corners a b
  !all4 coplanar l || l.all fun f => l.all fun g => l.all fun h => f.same g || f.same h || g.same h || wide n p q f g h

end Gold

/-- The test for two tetrahedra of the package, with the bound p/q. -/
def wideTest (p q : ℕ) (s t : Simplex 4) : Bool :=
  let n := Nat.lcm (Simplex.den s) (Simplex.den t)
  Gold.wideContact n p q (Simplex.gold n s) (Simplex.gold n t)

end PyQC
