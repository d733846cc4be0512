import Verif.Spec.Hull
import Mathlib.Analysis.Convex.Intrinsic
/-!
# Specification vocabulary: flat parts of a surface and its creases
-/
namespace PyQC
open Topology

/-- The points of the plane `n·x = d` around which a whole disc of the plane belongs to `F`. -/
def flatPart (F : Set (Fin 3 → ℝ)) (n : Fin 3 → ℝ) (d : ℝ) : Set (Fin 3 → ℝ) :=
  {x | n ⬝ᵥ x = d ∧ F ∈ 𝓝[{y | n ⬝ᵥ y = d}] x}

/-- The edges of the flat parts of `F`. -/
def creases (F : Set (Fin 3 → ℝ)) : Set (Fin 3 → ℝ) :=
  {x | ∃ n : Fin 3 → ℝ, n ≠ 0 ∧ ∃ d, x ∈ closure (flatPart F n d) ∧ x ∉ flatPart F n d}

/-- No corner lies strictly between the ends of an edge. -/
def EdgeToEdge (p : Package) {m : Nat} (o : Obj m) : Prop :=
  ∀ s ∈ o, ∀ i j, i ≠ j → ∀ V ∈ p.corners o, V ∉ openSegment ℝ (p.perp (s i)) (p.perp (s j))

/-- Whatever the order in which the corners of the two triangles are listed, one of the triples drawn is not nearly
collinear. -/
def FindsTriple (p : Package) (draws : (n : Nat) → List (Fin n × Fin n × Fin n)) (s t : Simplex 3) : Prop :=
  ∀ pts : List (Fin 3 → ℝ), pts.Nodup → (∀ x, x ∈ pts ↔ ∃ i, x = p.perp (s i) ∨ x = p.perp (t i)) → 3 < pts.length →
    ∃ d ∈ draws pts.length, ∃ a b c, pts[(d.1 : Nat)]? = some a ∧ pts[(d.2.1 : Nat)]? = some b ∧
      pts[(d.2.2 : Nat)]? = some c ∧ ∃ k, 1 / 10 ^ 6 ≤ |crossProduct (b - a) (c - a) k|

end PyQC
