import Verif.Spec.Golden
import Verif.Spec.Rounding
/-!
# A test for pairs of tetrahedra to be resolved in spite of rounding

The conditions of `ResolvedRounded` and `Small` for a whole number R, computed with integers for tetrahedra with exact
coordinates. `Verif.Lemmas.GoldenRounded` contains the proof that the computation is right.
-/
namespace PyQC
namespace Gold

/-- More than the margin away from 0: `g / (10⁶ n³)` is larger than `R³ / 2³⁷` in size. -/
def far (n R : ℕ) (g : Gold) : Bool := !le (scale (2 ^ 37) g.abs) ⟨10 ^ 6 * n ^ 3 * R ^ 3, 0⟩

/-- The inside test of the point `x` against `b` is decided with the margin. -/
def insideApart (n R : ℕ) (b : Fin 4 → G3) (x : G3) : Bool :=
  let s := (((det (replace b 0 x)).abs.add (det (replace b 1 x)).abs).add (det (replace b 2 x)).abs).add (det (replace b 3 x)).abs
  !le (scale (2 ^ 37) ((scale 1000000 s).sub (scale 1000001 (det b).abs)).abs) ⟨6 * 10 ^ 6 * n ^ 3 * R ^ 3, 0⟩

/-- The comparisons of a segment and a triangle are decided with the margin. -/
def segmentApart (n R : ℕ) (c : Cross) : Bool :=
  far n R ((scale 1000000 c.e).sub ⟨n ^ 3, 0⟩) &&
  (!le ⟨n ^ 3, 0⟩ (scale 1000000 c.e) ||
    (far n R ((scale 1000000 c.u).add c.e) && far n R ((scale 1000000 c.u).sub (scale 1000001 c.e)) &&
     far n R ((scale 1000000 c.v).add c.e) && far n R ((scale 1000000 (c.u.add c.v)).sub (scale 1000001 c.e)) &&
     far n R ((scale 1000000 c.t).add c.e) && far n R ((scale 1000000 c.t).sub (scale 1000001 c.e))))

def apart (n R : ℕ) (a b : Fin 4 → G3) : Bool :=
  [(0 : Fin 4), 1, 2, 3].all (fun i => insideApart n R b (a i)) &&
  edges.all fun ij => faces.all fun klm => segmentApart n R (cross (a ij.1) (a ij.2) (b klm.1) (b klm.2.1) (b klm.2.2))

/-- Four points are coplanar, or not even up to 10⁻¹⁰ and a quarter of the margin. -/
def flatApart (n R : ℕ) (f g h k : Frac) : Bool :=
  let d := (((f.q.mul (g.p.trip h.p k.p)).sub (g.q.mul (f.p.trip h.p k.p))).add (h.q.mul (f.p.trip g.p k.p))).sub
    (k.q.mul (f.p.trip g.p h.p))
  d.isZero || le (scale (n ^ 3 * (2 ^ 39 + 10 ^ 10 * R ^ 3)) (((f.q.mul g.q).mul h.q).mul k.q)) (scale (10 ^ 10 * 2 ^ 39) d.abs)

/-- The test for tetrahedra with corners `a i / n` and `b i / n`. -/
def rounded (n R : ℕ) (a b : Fin 4 → G3) : Bool :=
  !(det a).isZero && !(det b).isZero && clear n a b && clear n b a && apart n R a b && apart n R b a &&
    all4 (flatApart n R) (candidates a b)

/-- A segment is found to meet a triangle: they span at least 10⁻⁶ and the crossing lies in both up to 10⁻⁶. -/
def hits (n : ℕ) (c : Cross) : Bool := le ⟨n ^ 3, 0⟩ (scale 1000000 c.e) && c.near

/-- A point is found to lie inside. -/
def accepts (b : Fin 4 → G3) (x : G3) : Bool :=
  let s := (((det (replace b 0 x)).abs.add (det (replace b 1 x)).abs).add (det (replace b 2 x)).abs).add (det (replace b 3 x)).abs
  !(det b).isZero && !le (scale 1000001 (det b).abs) (scale 1000000 s)

end Gold

/-- The test for two tetrahedra of the package, at the scale `R`. -/
def roundedTest (R : ℕ) (s t : Simplex 4) : Bool :=
  let n := Nat.lcm (Simplex.den s) (Simplex.den t)
  Gold.rounded n R (Simplex.gold n s) (Simplex.gold n t)

/-- The test for a vector to be of moderate size. -/
def smallTest (R : ℕ) (v : Vec 6) : Bool :=
  let n := Vec.den v
  let g := Vec.gold n v
  ((List.finRange 6).all fun i => decide ((v i).c ≠ 0 ∧ |(v i).c| ≤ 2 ^ 63 ∧ |(v i).a| + 2 * |(v i).b| ≤ R * |(v i).c|)) &&
    [g.x, g.y, g.z].all fun x => x.abs.le ⟨R * n, 0⟩

/-- The numerical test whether the segment meets the triangle, computed exactly. -/
def meetsTest (sg : Simplex 2) (tr : Simplex 3) : Bool :=
  let n := Nat.lcm (Vec.den (sg 0)) (Nat.lcm (Vec.den (sg 1)) (Nat.lcm (Vec.den (tr 0)) (Nat.lcm (Vec.den (tr 1)) (Vec.den (tr 2)))))
  Gold.hits n (Gold.cross (Vec.gold n (sg 0)) (Vec.gold n (sg 1)) (Vec.gold n (tr 0)) (Vec.gold n (tr 1)) (Vec.gold n (tr 2)))

/-- The numerical inside test, computed exactly. -/
def insideTest (v : Vec 6) (t : Simplex 4) : Bool :=
  let n := Nat.lcm (Vec.den v) (Simplex.den t)
  Gold.accepts (Simplex.gold n t) (Vec.gold n v)

end PyQC
