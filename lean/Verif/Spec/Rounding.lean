import Verif.Spec.Resolve
import Verif.Model.Intersect
/-!
# Specification vocabulary: vectors of moderate size, and the margin used for rounding
-/
namespace PyQC

/-- A vector of moderate size: the components are int64 numbers with non-zero denominators, `|a| + 2|b| ≤ R |c|` for
each entry `[a, b, c]`, and the perp point has coordinates of size at most `R`. -/
structure Small (p : Package) (R : ℝ) (v : Vec 6) : Prop where
  den : ∀ i, (v i).c ≠ 0
  int64 : ∀ i, |((v i).c : ℝ)| ≤ 2 ^ 63
  size : ∀ i, |((v i).a : ℝ)| + 2 * |((v i).b : ℝ)| ≤ R * |((v i).c : ℝ)|
  perp : ∀ j, |p.perp v j| ≤ R

/-- A number of moderate size: int64 entries `[a, b, c]` with `c ≠ 0` and `|a| + 2|b| ≤ R |c|`. -/
structure SmallNum (R : ℝ) (t : Num3) : Prop where
  den : t.c ≠ 0
  int64 : |(t.c : ℝ)| ≤ 2 ^ 63
  size : |(t.a : ℝ)| + 2 * |(t.b : ℝ)| ≤ R * |(t.c : ℝ)|

/-- The coordinates whose length is taken when the distance of two points is computed, the internal coordinates of
the exact difference, are numbers of moderate size. -/
def DistanceSmall (R : ℝ) (v w : Vec 6) : Prop :=
  ∀ a b, subVectors Ico.arith v w = .ok a → Ico.projection3 a = .ok b → ∀ j, SmallNum R (b j)

/-- Both sets contain a common ball of radius `ρ`. -/
def CommonBall (ρ : ℝ) (A B : Set (Fin 3 → ℝ)) : Prop := ∃ x, ∀ y, dist3 y x ≤ ρ → y ∈ A ∩ B

/-- The margin: if the numbers compared in a test differ by more than this over the real numbers, rounding does not
change the outcome. -/
noncomputable def margin (R : ℝ) : ℝ := R ^ 3 / 2 ^ 37

/-- The comparisons of the inside test are decided with the margin `m`: for the barycentric coordinates of `x`, the
excess of the sum of absolute values over 1, times the volume, is not within `m` of 10⁻⁶ times the volume. -/
def InsideApart (m : ℝ) (q : Fin 4 → Fin 3 → ℝ) (x : Fin 3 → ℝ) : Prop :=
  ∃ w, IsBary q w x ∧ m < tetVol q * |∑ i, |w i| - 1 - 1 / 10 ^ 6|

/-- The comparisons of the segment–triangle test are decided with the margin `m`: the span of the three directions is
not within `m` of 10⁻⁶, and if it is larger, the parameters of the meeting point, times the span, are not within `m`
of the bounds they are compared with. -/
structure SegmentApart (m : ℝ) (A B C D E : Fin 3 → ℝ) : Prop where
  span : m < |(|Matrix.det (Matrix.of ![B - A, E - C, D - C])| - 1 / 10 ^ 6)|
  params : ∀ t u v, Meets A B C D E t u v → 1 / 10 ^ 6 ≤ |Matrix.det (Matrix.of ![B - A, E - C, D - C])| →
    ∀ x ∈ [u + 1 / 10 ^ 6, u - (1 + 1 / 10 ^ 6), v + 1 / 10 ^ 6, u + v - (1 + 1 / 10 ^ 6), t + 1 / 10 ^ 6, t - (1 + 1 / 10 ^ 6)],
      m < |Matrix.det (Matrix.of ![B - A, E - C, D - C])| * |x|

/-- Every test of a corner or an edge of `S` against `T` is decided with the margin `m`. -/
structure Apart (m : ℝ) (S T : Fin 4 → Fin 3 → ℝ) : Prop where
  corner : ∀ i, InsideApart m T (S i)
  edge : ∀ i j k l n : Fin 4, i < j → k < l → l < n → SegmentApart m (S i) (S j) (T k) (T l) (T n)

/-- The pair is resolved by the tolerances of the code in spite of rounding: it is resolved, every test is decided with
the margin, and four candidate corners that are coplanar up to 10⁻¹⁰ and a quarter of the margin are coplanar. -/
structure ResolvedRounded (R : ℝ) (S T : Fin 4 → Fin 3 → ℝ) : Prop where
  resolved : Resolved S T
  apartST : Apart (margin R) S T
  apartTS : Apart (margin R) T S
  flat : ∀ a b c d, Candidate S T a → Candidate S T b → Candidate S T c → Candidate S T d →
    |crossProduct (b - a) (c - a) ⬝ᵥ (d - a)| < 1 / 10 ^ 10 + margin R / 4 → crossProduct (b - a) (c - a) ⬝ᵥ (d - a) = 0

/-- An answer of the tetrahedralisation library for the points `pts`: it fills their convex hull. -/
def FillsHullOf (pts : List (Fin 3 → ℝ)) (answer : Option (List (Fin 4 → Nat))) : Prop :=
  ∃ l, answer = some l ∧
    ∃ h : ∀ i ∈ l, ∀ k, i k < pts.length, ∀ x ∈ convexHull ℝ {y | y ∈ pts}, ∃ i, ∃ hi : i ∈ l,
      tetVol (fun k => pts[i k]'(h i hi k)) ≠ 0 ∧ x ∈ solid (fun k => pts[i k]'(h i hi k))

/-- Two objects that are resolved in spite of rounding, at the scale `R`: every pair of pieces is, and corners,
crossing points and the distances compared have moderate size. -/
structure ObjectsRounded (R : ℝ) (obj1 obj2 : Obj 4) : Prop where
  small1 : ∀ s ∈ obj1, ∀ i, Small .ico R (s i)
  small2 : ∀ t ∈ obj2, ∀ i, Small .ico R (t i)
  crossing : ∀ s ∈ obj1, ∀ t ∈ obj2, ∀ pts, Ico.crossingPoints s t = .ok pts → ∀ v ∈ pts, Small .ico R v
  pairs : ∀ s ∈ obj1, ∀ t ∈ obj2, ResolvedRounded R (Package.ico.perps s) (Package.ico.perps t)
  dist2 : ∀ c, centroidObj Ico.arith obj2 = .ok c → ∀ t ∈ obj2, ∀ i, DistanceSmall R (t i) c
  dist1 : ∀ s ∈ obj1, ∀ c, centroid Ico.arith (List.ofFn s) = .ok c → ∀ i, DistanceSmall R (s i) c
  dist0 : ∀ c, centroidObj Ico.arith obj2 = .ok c → ∀ s ∈ obj1, ∀ c', centroid Ico.arith (List.ofFn s) = .ok c' →
    DistanceSmall R c' c

end PyQC
