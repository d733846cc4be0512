import Verif.Spec.Resolve
import Verif.Spec.Planar
import Verif.Model.Intersect
import Verif.Model.DodeIntersect
import Mathlib.MeasureTheory.Measure.Lebesgue.Basic
/-!
# Specification vocabulary: laws of the intersection
-/
namespace PyQC
open MeasureTheory

/-- Two sets of points differ by a set of volume zero. -/
def Almost {n : Nat} (A B : Set (Fin n → ℝ)) : Prop := volume (A \ B) = 0 ∧ volume (B \ A) = 0

/-- Two ico2 objects the intersection is exact for: denominators are not zero, no object overlaps itself, and the
tolerances do not matter for any pair of tetrahedra. -/
structure ResolvedObjects (a b : Obj 4) : Prop where
  ok1 : Obj.Ok a
  ok2 : Obj.Ok b
  apart1 : Package.ico.NoOverlap a
  apart2 : Package.ico.NoOverlap b
  pairs : ∀ s ∈ a, ∀ t ∈ b, Resolved (Package.ico.perps s) (Package.ico.perps t)

/-- The exact volume of the outcome of an intersection; `None` stands for the empty object. -/
def exactVolume (r : Option (Obj 4)) : Py (Option Num3) := Ico.objVolume6d (.d4 (r.getD []))

/-- What the outcome of an intersection covers; `None` covers nothing. -/
def content (r : Option (Obj 4)) : Set (Fin 3 → ℝ) := Package.ico.region (r.getD [])

/-- Two level dode2 objects the intersection is exact for. -/
structure ResolvedObjects2 (z : ℝ) (a b : Obj 3) : Prop where
  ne : b ≠ []
  ok1 : Obj.Ok a
  ok2 : Obj.Ok b
  level1 : Level z a
  level2 : Level z b
  apart1 : NoOverlap2 z a
  apart2 : NoOverlap2 z b
  pairs : ∀ s ∈ a, ∀ t ∈ b, ResolvedTri (Package.dode.perps s) (Package.dode.perps t)

/-- The exact area of the outcome of an intersection; `None` stands for the empty object. -/
def exactArea (r : Option (Obj 3)) : Py (Option Num3) := Dode.objArea6d (.d4 (r.getD []))

/-- What the outcome of an intersection covers at height `z`; `None` covers nothing. -/
def content2 (z : ℝ) (r : Option (Obj 3)) : Set (Fin 2 → ℝ) := slice z (Package.dode.region (r.getD []))

end PyQC
