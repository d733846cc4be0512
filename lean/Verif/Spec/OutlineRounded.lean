import Verif.Model.Float
import Verif.Spec.Outline
import Verif.Spec.Rounding
/-!
# Specification vocabulary: surfaces and border edges with rounding
-/
namespace PyQC

/-- Rounding does not bring numbers beyond 2¹⁰⁰⁰ down to one. -/
def KeepsHuge (F : Float64) : Prop := ∀ x, 2 ^ 1000 < x → 1 < F.fl x

/-- The corners have moderate size and small denominators. -/
def Moderate (p : Package) (R : ℝ) {m : Nat} (o : Obj m) : Prop :=
  ∀ s ∈ o, ∀ i, Small p R (s i) ∧ ∀ k, |(s i k).c| ≤ 2 ^ 16

/-- The coordinates agree within twice the tolerance of `np.allclose`. -/
def Near {n : Nat} (x y : Fin n → ℝ) : Prop := ∀ i, |x i - y i| ≤ 2 / 10 ^ 8 + 2 / 10 ^ 5 * |y i|

/-- Corners at the same point of perp space are given by the same 6D vector. -/
def OneName (p : Package) {m : Nat} (o : Obj m) : Prop :=
  ∀ s ∈ o, ∀ t ∈ o, ∀ i j, p.perp (s i) = p.perp (t j) → s i = t j

/-- Triangles that fit together, as in `SharpTriangles`, and for which what is nearly so within the tolerances of the
code and the margin for rounding is exactly so. -/
structure SharpRounded (p : Package) (R : ℝ) (o : Obj 3) : Prop where
  sharp : SharpTriangles p o
  moderate : Moderate p R o
  flat : ∀ a ∈ p.corners o, ∀ b ∈ p.corners o, ∀ c ∈ p.corners o, ∀ d ∈ p.corners o,
    |crossProduct (b - a) (c - a) ⬝ᵥ (d - a)| < 1 / 10 ^ 10 + margin R → crossProduct (b - a) (c - a) ⬝ᵥ (d - a) = 0
  line : ∀ a ∈ p.corners o, ∀ b ∈ p.corners o, ∀ c ∈ p.corners o,
    ∀ x ∈ segment ℝ a b, dist3 c x ^ 2 < 3 / 10 ^ 6 → c ∈ segment ℝ a b
  edges : ∀ s ∈ o, ∀ t ∈ o, ∀ i j k l : Fin 3, i ≠ j → k ≠ l →
    (∀ c, |p.centroidPerp (edge s i j) c - p.centroidPerp (edge t k l) c| ≤ margin R) →
    Set.range (p.perps (edge s i j)) = Set.range (p.perps (edge t k l))

/-- Tetrahedra that fit together, as in `Sharp`, and for which what is nearly so within the tolerances of the code and the
margin for rounding is exactly so. -/
structure SharpObject (R : ℝ) (o : Obj 4) : Prop where
  sharp : Sharp o
  moderate : Moderate .ico R o
  names : OneName .ico o
  flat : ∀ a ∈ Package.ico.corners o, ∀ b ∈ Package.ico.corners o, ∀ c ∈ Package.ico.corners o, ∀ d ∈ Package.ico.corners o,
    |crossProduct (b - a) (c - a) ⬝ᵥ (d - a)| < 1 / 10 ^ 10 + margin R → crossProduct (b - a) (c - a) ⬝ᵥ (d - a) = 0
  line : ∀ a ∈ Package.ico.corners o, ∀ b ∈ Package.ico.corners o, ∀ c ∈ Package.ico.corners o,
    ∀ x ∈ segment ℝ a b, dist3 c x ^ 2 < 3 / 10 ^ 6 → c ∈ segment ℝ a b
  faces : ∀ i j, Near (Package.ico.centroidPerp (face o i)) (Package.ico.centroidPerp (face o j)) →
    Set.range (Package.ico.perps (face o i)) = Set.range (Package.ico.perps (face o j))
  edges : ∀ s ∈ o, ∀ t ∈ o, ∀ i j k l : Fin 4, i ≠ j → k ≠ l →
    (∀ c, |Package.ico.centroidPerp (edge s i j) c - Package.ico.centroidPerp (edge t k l) c| ≤ margin R) →
    Set.range (Package.ico.perps (edge s i j)) = Set.range (Package.ico.perps (edge t k l))

/-- Whatever the order in which the corners of the two triangles are listed, one of the triples drawn is clearly not
collinear. -/
def FindsClearTriple (p : Package) (draws : (n : Nat) → List (Fin n × Fin n × Fin n)) (s t : Simplex 3) : Prop :=
  ∀ pts : List (Fin 3 → ℝ), pts.Nodup → (∀ x, x ∈ pts ↔ ∃ i, x = p.perp (s i) ∨ x = p.perp (t i)) → 3 < pts.length →
    ∃ d ∈ draws pts.length, ∃ a b c, pts[(d.1 : Nat)]? = some a ∧ pts[(d.2.1 : Nat)]? = some b ∧
      pts[(d.2.2 : Nat)]? = some c ∧ ∃ k, 2 / 10 ^ 6 ≤ |crossProduct (b - a) (c - a) k|

end PyQC
