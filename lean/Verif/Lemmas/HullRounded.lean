import Verif.Model.FloatHull
import Verif.Props.OutlineRounded
import Verif.Props.PlanarHull
import Verif.Lemmas.PlanarMeasureRounded
/-!
# Convex hulls with rounding: the points handed to the library, and what its answer gives
-/
namespace PyQC
open Matrix MeasureTheory Rounding

section Ico
open Ico

/-- A tiling answer for some points extends to a library that tiles. -/
theorem tetrahedralization_at {pts : List (Vec 6)} (hp : ∀ v ∈ pts, Vec.Ok v) {answer : Option (List (Fin 4 → Nat))}
    (h : TilesHullOf (pts.map Package.ico.perp) answer) :
    ∃ D : Delaunay, TilesHull D ∧ D (pts.map Package.ico.perp) = answer ∧
      tetrahedralizationPoints (fun _ => answer) pts = tetrahedralizationPoints D pts := by
  classical
  obtain ⟨D, hD⟩ := exists_tiles
  have e : (if pts.map Package.ico.perp = pts.map Package.ico.perp then answer else D (pts.map Package.ico.perp)) = answer := if_pos rfl
  refine ⟨fun x => if x = pts.map Package.ico.perp then answer else D x, ⟨fun x hx => ?_, fun x l hl => ?_⟩, e, ?_⟩
  · by_cases hxe : x = pts.map Package.ico.perp
    · subst hxe
      simp only [if_pos rfl]
      exact h.1
    · simp only [if_neg hxe]
      exact hD.1 x hx
  · by_cases hxe : x = pts.map Package.ico.perp
    · subst hxe
      rw [show (fun x => if x = pts.map Package.ico.perp then answer else D x) (pts.map Package.ico.perp) = answer from e] at hl
      exact h.2 l hl
    · simp only [if_neg hxe] at hl
      exact hD.2 x l hl
  · match pts, hp, e with
    | [], _, _ => rfl
    | v :: vs, hp, e =>
      unfold tetrahedralizationPoints
      simp only
      rw [fillList_ok (g := Package.ico.perp) (fun v hv => by
        rw [show Ico.projection3 v = Package.ico.projection3 v from rfl, Package.ico.projection3_ok (hp v hv), bind_ok']
        exact congrArg Except.ok Package.ico.val_projection3), bind_ok', bind_ok']
      rw [e]

variable (F : Float64) (hF : KeepsHuge F) {R : ℝ} (hR : 1 ≤ R) (hR2 : R ≤ 32)
include hF hR hR2

/-- Border edges with rounding: every end is a vertex, and every extreme point of the hull is an end. -/
theorem border_points_rounded (draws : Nat → Nat → (n : Nat) → Draws n) (o : Obj 4) (h : WellFormed o) (hs : SharpObject R o) :
    ∃ out, F.generateBorderEdges draws o = .ok out ∧ (∀ e ∈ out, ∀ i, ∃ s ∈ o, ∃ j, e i = s j) ∧
      ∀ V ∈ (convexHull ℝ (Package.ico.corners o)).extremePoints ℝ, ∃ e ∈ out, ∃ i, Package.ico.perp (e i) = V := by
  obtain ⟨J, hJ, hJ2, hJ3, hsh, -⟩ := surface_object F hR hR2 o h hs
  obtain ⟨out, h1, h3, h4, -⟩ := cleaner_rounded_full F hF hR hR2 .ico draws _ hsh
  refine ⟨out, ?_, fun e he i => ?_, surface_extremes h hs.sharp hJ2 hJ3 h4⟩
  · unfold Float64.generateBorderEdges
    rw [hJ, bind_ok', h1]
  · obtain ⟨t, ht, j, e1⟩ := h3 e he i
    obtain ⟨f, -, rfl⟩ := List.mem_map.1 ht
    exact ⟨_, List.get_mem _ _, _, e1⟩

/-- The points handed to the library: vertices of the object, with the same convex hull. -/
theorem hull_points_rounded (draws : Nat → Nat → (n : Nat) → Draws n) (o : Obj 4) (h : WellFormed o) (hs : SharpObject R o) :
    ∃ pts : List (Vec 6), (∀ delaunay, F.generateConvexHull draws delaunay o = F.tetrahedralizationPoints delaunay pts) ∧
      (∀ v ∈ pts, ∃ s ∈ o, ∃ j, v = s j) ∧ (∀ v ∈ pts, Vec.Ok v) ∧ ¬ InPlane (pts.map Package.ico.perp) ∧
      convexHull ℝ {x | ∃ v ∈ pts, Package.ico.perp v = x} = convexHull ℝ (Package.ico.corners o) := by
  obtain ⟨out, h1, h2, h3⟩ := border_points_rounded F hF hR hR2 draws o h hs
  obtain ⟨pts, h4, h5⟩ := hull_points_of h h2 h3
  refine ⟨pts, fun delaunay => ?_, h5⟩
  unfold Float64.generateConvexHull
  rw [h1, bind_ok', h4, bind_ok']

end Ico

section Dode
open Dode

theorem triangulation_at {pts : List (Vec 6)} (hp : ∀ v ∈ pts, Vec.Ok v) {answer : Option (List (Fin 3 → Nat))}
    (h : TilesHullOf2 (pts.map plane) answer) :
    ∃ D : Delaunay2, TilesHull2 D ∧ D (pts.map plane) = answer ∧
      triangulationPoints (fun _ => answer) pts = triangulationPoints D pts := by
  classical
  obtain ⟨D, hD⟩ := exists_tiles2
  have e : (if pts.map plane = pts.map plane then answer else D (pts.map plane)) = answer := if_pos rfl
  refine ⟨fun x => if x = pts.map plane then answer else D x, ⟨⟨fun x l hl => ?_, fun x hx => ?_⟩, fun x l hl => ?_⟩, e, ?_⟩
  · by_cases hxe : x = pts.map plane
    · subst hxe
      rw [e] at hl
      obtain ⟨l', hl', hi, -⟩ := h.1
      rw [hl] at hl'
      cases hl'
      exact hi
    · simp only [if_neg hxe] at hl
      exact hD.index x l hl
  · by_cases hxe : x = pts.map plane
    · subst hxe
      simp only [if_pos rfl]
      obtain ⟨l', hl', hi, hc⟩ := h.1
      exact ⟨l', hl', fun _ => hc⟩
    · simp only [if_neg hxe]
      exact hD.fills x hx
  · by_cases hxe : x = pts.map plane
    · subst hxe
      rw [e] at hl
      exact h.2 l hl
    · simp only [if_neg hxe] at hl
      exact hD.apart x l hl
  · unfold triangulationPoints
    rw [triangulation_input hp, bind_ok', bind_ok', show (fun x => if x = pts.map plane then answer else D x) (pts.map plane) = answer from e]

variable (F : Float64) (hF : KeepsHuge F) {R : ℝ} (hR : 1 ≤ R) (hR2 : R ≤ 32)
include hF hR hR2

theorem outline_points_rounded (draws : Nat → Nat → (n : Nat) → Draws n) (o : Obj 3) (h : SharpRounded .dode R o)
    (hp : ∃ n : Fin 3 → ℝ, n ≠ 0 ∧ ∃ d, ∀ x ∈ Package.dode.corners o, n ⬝ᵥ x = d) :
    ∃ out, F.outline draws o = .ok out ∧ (∀ e ∈ out, ∀ i, ∃ t ∈ o, ∃ j, e i = t j) ∧
      ∀ V ∈ (convexHull ℝ (Package.dode.corners o)).extremePoints ℝ, ∃ e ∈ out, ∃ i, Package.dode.perp (e i) = V := by
  obtain ⟨out, h1, h3, h4, -⟩ := cleaner_rounded_full F hF hR hR2 .dode draws o h
  exact ⟨out, h1, h3, outline_extremes h.sharp hp h4⟩

theorem planar_hull_points_rounded (draws : Nat → Nat → (n : Nat) → Draws n) (o : Obj 3) (h : SharpRounded .dode R o) {z : ℝ}
    (hz : Level z o) :
    ∃ pts : List (Vec 6), (∀ delaunay, F.dodeGenerateConvexHull draws delaunay o = F.triangulationPoints delaunay pts) ∧
      (∀ v ∈ pts, ∃ s ∈ o, ∃ j, v = s j) ∧ (∀ v ∈ pts, Vec.Ok v) ∧ ¬ InLine (pts.map plane) ∧
      convexHull ℝ {x | ∃ v ∈ pts, Package.dode.perp v = x} = convexHull ℝ (Package.dode.corners o) := by
  obtain ⟨out, h1, h2, h3⟩ := outline_points_rounded F hF hR hR2 draws o h ⟨![0, 0, 1], fun e => by simpa using congrFun e 2, z,
    fun x hx => by rw [vec3_dotProduct]; simpa using corners_level hz x hx⟩
  obtain ⟨pts, h4, h5⟩ := planar_hull_points_of h.sharp hz h2 h3
  refine ⟨pts, fun delaunay => ?_, h5⟩
  unfold Float64.dodeGenerateConvexHull
  change (F.outline draws o >>= _) = _
  rw [h1, bind_ok', h4, bind_ok']

end Dode
/-- There is a library that answers with a given tetrahedron when its corners are among the points and it contains them. -/
theorem exists_tiles_fixed (q : Fin 4 → Fin 3 → ℝ) (hv : tetVol q ≠ 0) : ∃ D : Ico.Delaunay, TilesHull D ∧
    ∀ pts : List (Fin 3 → ℝ), (∀ k, q k ∈ pts) → (∀ x ∈ pts, x ∈ solid q) → ∃ j, D pts = some [j] ∧ ∀ k, pts[j k]? = some (q k) := by
  classical
  obtain ⟨D, hD⟩ := exists_tiles
  let good (pts : List (Fin 3 → ℝ)) (j : Fin 4 → Nat) : Prop := (∀ k, pts[j k]? = some (q k)) ∧ ∀ x ∈ pts, x ∈ solid q
  refine ⟨fun pts => if h : ∃ j, good pts j then some [h.choose] else D pts, ⟨?_, ?_⟩, ?_⟩
  · intro pts hp
    by_cases h : ∃ j, good pts j
    · obtain ⟨h1, h2⟩ := h.choose_spec
      choose hlt he using fun k => List.getElem?_eq_some_iff.1 (h1 k)
      have e : (fun k => pts[h.choose k]'(hlt k)) = q := funext he
      refine ⟨[h.choose], dif_pos h, ?_, ?_⟩
      · intro i hi k
        rw [List.mem_singleton.1 hi]; exact hlt k
      · intro x hx
        refine ⟨h.choose, List.mem_singleton_self _, ?_, ?_⟩
        · rw [e]; exact hv
        · rw [e]; exact convexHull_min (fun y hy => h2 y hy) (convex_convexHull ℝ _) hx
    · simp only [dif_neg h]
      exact hD.1 pts hp
  · intro pts l hl hlt
    by_cases h : ∃ j, good pts j
    · simp only [dif_pos h] at hl
      cases hl
      exact List.pairwise_singleton _ _
    · simp only [dif_neg h] at hl
      exact hD.2 pts l hl hlt
  · intro pts hq hall
    choose i hi using fun k => List.get_of_mem (hq k)
    have hg : ∃ j, good pts j := ⟨fun k => (i k : Nat), fun k => List.getElem?_eq_some_iff.2 ⟨(i k).2, hi k⟩, hall⟩
    exact ⟨_, dif_pos hg, hg.choose_spec.1⟩

end PyQC
