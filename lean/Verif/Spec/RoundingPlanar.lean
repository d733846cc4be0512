import Verif.Spec.Rounding
import Verif.Spec.Planar
/-!
# Specification vocabulary: margins for the planar tests of dode2 with rounding
-/
namespace PyQC
open Matrix

/-- The margin of the inside test of a triangle. -/
noncomputable def margin2 (R : ℝ) : ℝ := R ^ 2 / 2 ^ 40

/-- The comparison of the inside test is decided with the margin `m`: for the barycentric coordinates of `x`, the excess
of the sum of absolute values over 1, times the area, is not within `m` of 10⁻⁶ times the area. -/
def InsideApartTri (m : ℝ) (q : Fin 3 → Fin 3 → ℝ) (x : Fin 3 → ℝ) : Prop :=
  ∃ w, IsBary q w x ∧ m < triArea q * |∑ i, |w i| - 1 - 1 / 10 ^ 6|

/-- Area of the parallelogram spanned by two directions. -/
noncomputable def parallelogram (a b : Fin 3 → ℝ) : ℝ := Real.sqrt (crossProduct a b ⬝ᵥ crossProduct a b)

/-- Two segments in a plane whose crossing test is decided in spite of rounding: they are parallel, or they span an area
whose square exceeds 10⁻⁶ by `R⁵/2²⁰`, and the position of the crossing point on either line, counted from either end in
units of the segment, is zero or, times the cube of that area, larger than `R⁶/2³⁰`. -/
structure CrossApart (R : ℝ) (A B C D : Fin 3 → ℝ) : Prop where
  span : crossProduct (B - A) (D - C) ≠ 0 → 1 / 10 ^ 6 + R ^ 5 / 2 ^ 20 ≤ parallelogram (B - A) (D - C) ^ 2
  params : crossProduct (B - A) (D - C) ≠ 0 → ∀ s t : ℝ, A + s • (B - A) = C + t • (D - C) →
    ∀ x ∈ [s, s - 1, t, t - 1], x = 0 ∨ R ^ 6 / 2 ^ 30 < parallelogram (B - A) (D - C) ^ 3 * |x|

/-- Some edge of `S` and some edge of `T` cross at a point inside both. -/
def ProperCrossing (S T : Fin 3 → Fin 3 → ℝ) : Prop :=
  ∃ i j k l : Fin 3, i < j ∧ k < l ∧ crossProduct (S j - S i) (T l - T k) ≠ 0 ∧
    ∃ a b : ℝ, 0 < a ∧ a < 1 ∧ 0 < b ∧ b < 1 ∧ S i + a • (S j - S i) = T k + b • (T l - T k)

/-- The pair of triangles is resolved by the tolerances of the code in spite of rounding: neither is degenerate; a corner
of one accepted by the inside test of the other is inside; the inside tests and the crossing tests of the edges are
decided with their margins. -/
structure ResolvedTriRounded (R : ℝ) (S T : Fin 3 → Fin 3 → ℝ) : Prop where
  areaS : triArea S ≠ 0
  areaT : triArea T ≠ 0
  cornerS : ∀ i, AcceptsTri T (S i) → S i ∈ solid T
  cornerT : ∀ i, AcceptsTri S (T i) → T i ∈ solid S
  insideS : ∀ i, InsideApartTri (margin2 R) T (S i)
  insideT : ∀ i, InsideApartTri (margin2 R) S (T i)
  cross : ∀ i j k l : Fin 3, i < j → k < l → CrossApart R (S i) (S j) (T k) (T l)

/-- `x` is a point the intersection of two triangles can have as a corner: a corner of one that lies in the other, or a
crossing point of two edges. -/
def Candidate2 (S T : Fin 3 → Fin 3 → ℝ) (x : Fin 3 → ℝ) : Prop :=
  (∃ i, x = S i ∧ x ∈ solid T) ∨ (∃ i, x = T i ∧ x ∈ solid S) ∨ EdgeEdge S T x

/-- An answer of the triangulation library for the points `pts`: it fills their convex hull. -/
def FillsHullOf2 (pts : List (Fin 2 → ℝ)) (answer : Option (List (Fin 3 → Nat))) : Prop :=
  ∃ l, answer = some l ∧
    ∃ h : ∀ i ∈ l, ∀ k, i k < pts.length, ∀ x ∈ convexHull ℝ {y | y ∈ pts}, ∃ i, ∃ hi : i ∈ l,
      cross2 (pts[i 1]'(h i hi 1) - pts[i 0]'(h i hi 0)) (pts[i 2]'(h i hi 2) - pts[i 0]'(h i hi 0)) ≠ 0 ∧
      x ∈ convexHull ℝ (Set.range fun k => pts[i k]'(h i hi k))

/-- Both sets contain a common horizontal disc of radius `ρ` at height `z`. -/
def CommonDisc (z ρ : ℝ) (A B : Set (Fin 3 → ℝ)) : Prop :=
  ∃ x, x 2 = z ∧ ∀ y, y 2 = z → dist3 y x ≤ ρ → y ∈ A ∩ B

/-- The coordinates whose length is taken when the distance of two points is computed, the internal coordinates of
the exact difference, are numbers of moderate size. -/
def DistanceSmall2 (R : ℝ) (v w : Vec 6) : Prop :=
  ∀ a b, subVectors Dode.arith v w = .ok a → Dode.projection3 a = .ok b → ∀ j, SmallNum R (b j)

/-- Two objects of triangles at height `z` that are resolved in spite of rounding, at the scale `R`: every pair is; if
the common part of a pair has an interior, one triangle contains the other or two edges cross inside both, and the
common part contains a disc of the radius `R / 2^47`; corners and the distances compared have moderate size. -/
structure ObjectsRounded2 (R z : ℝ) (obj1 obj2 : Obj 3) : Prop where
  small1 : ∀ s ∈ obj1, ∀ i, Small .dode R (s i)
  small2 : ∀ t ∈ obj2, ∀ i, Small .dode R (t i)
  pairs : ∀ s ∈ obj1, ∀ t ∈ obj2, ResolvedTriRounded R (Package.dode.perps s) (Package.dode.perps t)
  clear : ∀ s ∈ obj1, ∀ t ∈ obj2,
    (interior (slice z (solid (Package.dode.perps s) ∩ solid (Package.dode.perps t)))).Nonempty →
    solid (Package.dode.perps s) ⊆ solid (Package.dode.perps t) ∨ solid (Package.dode.perps t) ⊆ solid (Package.dode.perps s) ∨
      ProperCrossing (Package.dode.perps s) (Package.dode.perps t)
  thick : ∀ s ∈ obj1, ∀ t ∈ obj2,
    (interior (slice z (solid (Package.dode.perps s) ∩ solid (Package.dode.perps t)))).Nonempty →
    CommonDisc z (R / 2 ^ 47) (solid (Package.dode.perps s)) (solid (Package.dode.perps t))
  dist2 : ∀ c, centroidObj Dode.arith obj2 = .ok c → ∀ t ∈ obj2, ∀ i, DistanceSmall2 R (t i) c
  dist1 : ∀ s ∈ obj1, ∀ c, centroid Dode.arith (List.ofFn s) = .ok c → ∀ i, DistanceSmall2 R (s i) c
  dist0 : ∀ c, centroidObj Dode.arith obj2 = .ok c → ∀ s ∈ obj1, ∀ c', centroid Dode.arith (List.ofFn s) = .ok c' →
    DistanceSmall2 R c' c

end PyQC
