import Verif.Lemmas.Golden
import Verif.Props.Complete
/-!
# C58: whether a pair of tetrahedra is resolved can be computed exactly
-/
namespace PyQC
namespace Ico

/-- C58: the condition under which the intersection of two tetrahedra is proved complete is decided by a computation with
integers: for tetrahedra with non-zero denominators, `resolvedTest` answers True exactly when the pair is resolved. -/
theorem C58_decidable (s t : Simplex 4) (hs : Simplex.Ok s) (ht : Simplex.Ok t) :
    resolvedTest s t = true ↔ Resolved (Package.ico.perps s) (Package.ico.perps t) := resolvedTest_iff hs ht

/-- C58: with the computed condition instead of the geometric one. -/
theorem C58_objects_tested (kind : Kind) (draws : Simplex 4 → Simplex 4 → (n : Nat) → Draws n)
    (delaunay : Simplex 4 → Simplex 4 → Delaunay) (a b : Obj 4)
    (hD : ∀ s ∈ a, ∀ t ∈ b, FillsHull (delaunay s t)) (ha : Obj.Ok a) (hb : Obj.Ok b)
    (h : (a.all fun s => b.all fun t => resolvedTest s t) = true)
    (r : Option (Obj 4)) (hr : intersectionApi kind draws delaunay (.d4 a) (.d4 b) = .ok r) :
    MeasureTheory.volume ((Package.ico.region a ∩ Package.ico.region b) \ Package.ico.region (r.getD [])) = 0 := by
  refine C58_objects kind draws delaunay a b hD ha hb (fun s hs t ht => ?_) r hr
  rw [List.all_eq_true] at h
  exact (resolvedTest_iff (ha s hs) (hb t ht)).mp (List.all_eq_true.mp (h s hs) t ht)

/-- A tetrahedron between a five-fold, a three-fold and a two-fold axis, with irrational perpendicular coordinates. -/
def exAxesTet : Simplex 4 :=
  ![fun _ => ⟨0, 0, 1⟩,
    ![⟨1, 0, 2⟩, ⟨-1, 0, 2⟩, ⟨-1, 0, 2⟩, ⟨-1, 0, 2⟩, ⟨-1, 0, 2⟩, ⟨-1, 0, 2⟩],
    ![⟨1, 0, 2⟩, ⟨-1, 0, 2⟩, ⟨-1, 0, 2⟩, ⟨1, 0, 2⟩, ⟨-1, 0, 2⟩, ⟨-1, 0, 2⟩],
    ![⟨1, 0, 2⟩, ⟨-1, 0, 2⟩, ⟨-1, 0, 2⟩, ⟨0, 0, 1⟩, ⟨-1, 0, 2⟩, ⟨0, 0, 1⟩]]

/-- Its corners on the axes multiplied by τ, and half of the last corner instead of the origin: it overlaps the first. -/
def exMovedTet : Simplex 4 :=
  ![![⟨1, 0, 4⟩, ⟨-1, 0, 4⟩, ⟨-1, 0, 4⟩, ⟨0, 0, 1⟩, ⟨-1, 0, 4⟩, ⟨0, 0, 1⟩],
    ![⟨0, 1, 2⟩, ⟨0, -1, 2⟩, ⟨0, -1, 2⟩, ⟨0, -1, 2⟩, ⟨0, -1, 2⟩, ⟨0, -1, 2⟩],
    ![⟨0, 1, 2⟩, ⟨0, -1, 2⟩, ⟨0, -1, 2⟩, ⟨0, 1, 2⟩, ⟨0, -1, 2⟩, ⟨0, -1, 2⟩],
    ![⟨0, 1, 2⟩, ⟨0, -1, 2⟩, ⟨0, -1, 2⟩, ⟨0, 0, 1⟩, ⟨0, -1, 2⟩, ⟨0, 0, 1⟩]]

/-- The pair passes the test, so it is resolved. -/
example : Resolved (Package.ico.perps exAxesTet) (Package.ico.perps exMovedTet) :=
  (C58_decidable _ _ (by decide) (by decide)).mp (by decide +kernel)

/-- A pair that is not resolved: the second tetrahedron is flat. -/
example : ¬ Resolved (Package.ico.perps exAxesTet) (Package.ico.perps ![exAxesTet 0, exAxesTet 1, exAxesTet 2, exAxesTet 2]) :=
  fun h => absurd ((C58_decidable _ _ (by decide) (by decide)).mpr h) (by decide +kernel)

end Ico
end PyQC
