import Verif.Spec.Laws
import Verif.Spec.RoundingTiles
import Verif.Model.Float
import Verif.Model.DodeFloat
/-!
# Specification vocabulary: runs of the intersection in floating-point arithmetic

A run fixes the two objects and the outcome. The arithmetic, the scale, the `kind`, the draws and the answers of the
triangulation library are whatever they were in that run, and may differ between runs.
-/
namespace PyQC

/-- Two ico2 objects and a library the intersection is exact for when its tests are made with the floating-point numbers
`F`, at the scale `R`: denominators are not zero, no object overlaps itself, every pair of tetrahedra is resolved in spite
of rounding, and the tetrahedralisations of rounded corners tile the hulls of the corners. -/
structure RoundedObjects (F : Float64) (R : ℝ) (delaunay : Simplex 4 → Simplex 4 → Ico.Delaunay) (a b : Obj 4) : Prop where
  scale1 : 1 ≤ R
  scale2 : R ≤ 2 ^ 10
  ok1 : Obj.Ok a
  ok2 : Obj.Ok b
  apart1 : Package.ico.NoOverlap a
  apart2 : Package.ico.NoOverlap b
  rounded : ObjectsRounded R a b
  tiles : ∀ s ∈ a, ∀ t ∈ b, ∀ r pns,
    (∀ v ∈ r, Vec.Ok v ∧ Candidate (Package.ico.perps s) (Package.ico.perps t) (Package.ico.perp v)) →
    F.delaunayInput r = .ok pns → ¬ InPlane (r.map Package.ico.perp) →
    TilesHullOf (r.map Package.ico.perp) (delaunay s t pns)

/-- Some run of the ico2 intersection of `a` and `b` in floating-point arithmetic had the outcome `r`. -/
def RoundedRun (a b : Obj 4) (r : Option (Obj 4)) : Prop :=
  ∃ (F : Float64) (R : ℝ) (kind : Ico.Kind) (draws : Simplex 4 → Simplex 4 → (n : Nat) → Draws n)
    (delaunay : Simplex 4 → Simplex 4 → Ico.Delaunay), RoundedObjects F R delaunay a b ∧
    F.intersectionApi kind draws delaunay (.d4 a) (.d4 b) = .ok r

/-- Two level dode2 objects and a library the intersection is exact for with the floating-point numbers `F`. -/
structure RoundedObjects2 (F : Float64) (R z : ℝ) (delaunay : Simplex 3 → Simplex 3 → Dode.Delaunay2) (a b : Obj 3) :
    Prop where
  scale1 : 1 ≤ R
  scale2 : R ≤ 8
  ok1 : Obj.Ok a
  ok2 : Obj.Ok b
  level1 : Level z a
  level2 : Level z b
  apart1 : NoOverlap2 z a
  apart2 : NoOverlap2 z b
  rounded : ObjectsRounded2 R z a b
  tiles : ∀ s ∈ a, ∀ t ∈ b, ∀ r pns,
    (∀ v ∈ r, Vec.Ok v ∧ Candidate2 (Package.dode.perps s) (Package.dode.perps t) (Package.dode.perp v)) →
    F.delaunayInput2 r = .ok pns → ¬ InLine (r.map plane) → TilesHullOf2 (r.map plane) (delaunay s t pns)

/-- Some run of the dode2 intersection of `a` and `b`, at the height `z`, in floating-point arithmetic had the outcome
`r`. -/
def RoundedRun2 (z : ℝ) (a b : Obj 3) (r : Option (Obj 3)) : Prop :=
  ∃ (F : Float64) (R : ℝ) (kind : Ico.Kind) (delaunay : Simplex 3 → Simplex 3 → Dode.Delaunay2),
    RoundedObjects2 F R z delaunay a b ∧ F.dodeIntersectionApi kind delaunay (.d4 a) (.d4 b) = .ok r

end PyQC
