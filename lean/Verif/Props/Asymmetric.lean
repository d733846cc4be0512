import Verif.Spec.Unit
import Verif.Props.Vector
import Verif.Props.Chamber
import Verif.Lemmas.UnitTable
/-!
# C73: the asymmetric part of an object
-/
namespace PyQC
open Matrix MeasureTheory

namespace Ico

/-- The cutting tetrahedron and what `asymmetric` does with it. -/
theorem asymmetric_eq (position : Vec 6) (w : Simplex 3) (hp : Vec.Ok position) (hw : Simplex.Ok w) :
    ∃ U : Simplex 4, Simplex.Ok U ∧ Package.ico.perps U = unitCorners position w ∧ ∀ draws delaunay obj,
      asymmetricApi draws delaunay obj position (.d3 w) = intersectionApi .standard draws delaunay (.d4 obj) (.d4 [U]) := by
  obtain ⟨r, hr, h1⟩ := C08_mul_vectors_some .ico w ⟨5, 0, 1⟩ hw (by decide)
  have hok : Obj.Ok [(Fin.cons unitOrigin r : Simplex 4)] := by
    intro s hs i
    rw [List.mem_singleton] at hs
    subst hs
    refine Fin.cases ?_ (fun j => ?_) i
    · change Vec.Ok unitOrigin
      decide
    · exact (h1 j).2.ok
  refine ⟨fun i => nvec (kvec Package.ico.theta ((Fin.cons unitOrigin r : Simplex 4) i) + kvec Package.ico.theta position),
    fun i => nvec_ok _, ?_, fun draws delaunay obj => ?_⟩
  · have e : ∀ v : Vec 6, Package.ico.perp (nvec (kvec Package.ico.theta v + kvec Package.ico.theta position)) =
        Package.ico.perp v + Package.ico.perp position := by
      intro v
      unfold Package.perp
      rw [← mulVec_add]
      congr 1
      funext j
      simp [Vec.val, nvec, kvec]
    funext i
    refine (e _).trans ?_
    refine Fin.cases ?_ (fun j => ?_) i
    · change Package.ico.perp unitOrigin + _ = Package.ico.perp position
      rw [show Package.ico.perp unitOrigin = 0 from ?_, zero_add]
      unfold Package.perp
      rw [show Vec.val Package.ico.theta unitOrigin = 0 from ?_, mulVec_zero]
      funext j
      simp [Vec.val, unitOrigin, Num3.val]
    · change Package.ico.perp (r j) + _ = Package.ico.perp position + (5 : ℝ) • Package.ico.perp (w j)
      rw [add_comm]
      congr 1
      have := (h1 j).1
      unfold Package.val at this
      unfold Package.perp
      rw [this, mulVec_smul]
      congr 1
      simp [Num3.val]
  · have hs := shiftObj_ok .ico hok hp
    have hr' : mulVectorsApi arith (.d3 w) ⟨5, 0, 1⟩ = .ok (some (.d3 r)) := hr
    unfold asymmetricApi
    rw [hr', bind_ok']
    simp only [dif_pos]
    change (do
      let aum ← shiftObj .ico [(Fin.cons unitOrigin r : Simplex 4)] position
      intersectionTwoObj1 .standard draws delaunay obj aum) = _
    rw [hs, bind_ok']
    rfl

/-- C73: the asymmetric part is the common part of the object and the cutting tetrahedron: it lies in both, misses a set
of measure zero, has no overlaps, and its exact volume is that of the common part. -/
theorem C73_asymmetric (draws : Simplex 4 → Simplex 4 → (n : Nat) → Draws n) (delaunay : Simplex 4 → Simplex 4 → Delaunay)
    (obj : Obj 4) (position : Vec 6) (w : Simplex 3) (hD : ∀ s t, TilesHull (delaunay s t)) (ho : Obj.Ok obj)
    (hp : Vec.Ok position) (hw : Simplex.Ok w) (no : Package.ico.NoOverlap obj)
    (h : ∀ s ∈ obj, Resolved (Package.ico.perps s) (unitCorners position w)) (r : Option (Obj 4))
    (hr : asymmetricApi draws delaunay obj position (.d3 w) = .ok r) :
    let C := Package.ico.region obj ∩ solid (unitCorners position w)
    Package.ico.region (r.getD []) ⊆ C ∧ volume (C \ Package.ico.region (r.getD [])) = 0 ∧ (r = none → volume C = 0) ∧
      ∀ o, r = some o → Obj.Ok o ∧ Package.ico.NoOverlap o ∧
        ∃ v, objVolume6d (.d4 o) = .ok (some v) ∧ volume C = ENNReal.ofReal (v.val tau) := by
  intro C
  obtain ⟨U, hU, eU, e⟩ := asymmetric_eq position w hp hw
  rw [e] at hr
  have hU' : Obj.Ok [U] := by
    intro s hs
    rw [List.mem_singleton] at hs
    exact hs ▸ hU
  have h' : ∀ s ∈ obj, ∀ t ∈ [U], Resolved (Package.ico.perps s) (Package.ico.perps t) := by
    intro s hs t ht
    rw [List.mem_singleton] at ht
    rw [ht, eU]
    exact h s hs
  have hreg : Package.ico.region [U] = solid (unitCorners position w) := by
    rw [← eU]
    ext x
    exact ⟨fun ⟨a, ha, hx⟩ => by rw [List.mem_singleton] at ha; exact ha ▸ hx, fun hx => ⟨U, List.mem_singleton.mpr rfl, hx⟩⟩
  have hC : C = Package.ico.region obj ∩ Package.ico.region [U] := by rw [hreg]
  rw [hC]
  have no2 : Package.ico.NoOverlap [U] := List.pairwise_singleton _ _
  refine ⟨C58_objects_inside draws delaunay obj [U] (fun s _ t _ => (hD s t).1) (by simp) ho hU' h' r hr,
    C58_objects .standard draws delaunay obj [U] (fun s _ t _ => (hD s t).1) ho hU' h' r hr, ?_, ?_⟩
  · exact (C63_objects .standard draws delaunay obj [U] (fun s _ t _ => hD s t) ho hU' no no2 h' r hr).1
  · intro o e'
    obtain ⟨v, hv, ev⟩ :=
      (C63_objects .standard draws delaunay obj [U] (fun s _ t _ => hD s t) ho hU' no no2 h' r hr).2 o e'
    subst e'
    exact ⟨intersectionApi_ok ho hU' hr,
      (C63_exact .standard draws delaunay obj [U] (fun s _ t _ => hD s t) ho hU' no no2 h' o hr).1, v, hv, ev⟩

/-- C73: anything but three vectors is refused with ValueError. -/
theorem C73_refuse (draws : Simplex 4 → Simplex 4 → (n : Nat) → Draws n) (delaunay : Simplex 4 → Simplex 4 → Delaunay)
    (obj : Obj 4) (position : Vec 6) :
    (∀ (m : Nat) (w : Simplex m), m ≠ 3 → Simplex.Ok w →
      asymmetricApi draws delaunay obj position (.d3 w) = .error .valueError) ∧
    (∀ (m : Nat) (w : Obj m), Obj.Ok w → asymmetricApi draws delaunay obj position (.d4 w) = .error .valueError) := by
  constructor
  · intro m w hm hw
    obtain ⟨r, hr, -⟩ := C08_mul_vectors_some .ico w ⟨5, 0, 1⟩ hw (by decide)
    have hr' : mulVectorsApi arith (.d3 w) ⟨5, 0, 1⟩ = .ok (some (.d3 r)) := hr
    unfold asymmetricApi
    rw [hr', bind_ok']
    simp only [dif_neg hm]
  · intro m w hw
    have hr' : mulVectorsApi arith (.d4 w) ⟨5, 0, 1⟩ = .ok none := C08_mul_vectors_ndim4_is_none .ico w _ hw (by decide)
    unfold asymmetricApi
    rw [hr', bind_ok']

theorem unit_in_cone {position : Vec 6} {w : Fin 3 → Vec 6} {x : Fin 3 → ℝ} (h : x ∈ solid (unitCorners position w)) :
    x - Package.ico.perp position ∈ spannedCone w := by
  obtain ⟨a, ⟨h1, h2⟩, h0⟩ := mem_solid_iff.mp h
  refine ⟨fun i => 5 * a i.succ, fun i => by have := h0 i.succ; positivity, ?_⟩
  funext j
  have := congrFun h2 j
  simp only [Fin.sum_univ_succ, unitCorners, Fin.cons_zero, Fin.cons_succ, Pi.add_apply, Pi.smul_apply, smul_eq_mul,
    Pi.sub_apply, Finset.sum_apply, Fin.sum_univ_zero] at this h1 ⊢
  linear_combination this + Package.ico.perp position j * h1

/-- An object with the exact volume of the common part of a symmetric object and the cutting tetrahedron. -/
theorem common_count {obj o : Obj 4} {position : Vec 6} {w : Simplex 3} (ho : Obj.Ok obj)
    (hp : Vec.Ok position) (no : Package.ico.NoOverlap obj) (hs : HasSymmetry .ico obj position)
    (hcone : spannedCone w = Package.ico.chamber) (oo : Obj.Ok o) {v : Num3} (hv : objVolume6d (.d4 o) = .ok (some v))
    (ev : volume (Package.ico.region obj ∩ solid (unitCorners position w)) = ENNReal.ofReal (v.val tau)) :
    ∃ V, objVolume6d (.d4 obj) = .ok (some V) ∧ 120 * v.val tau ≤ V.val tau ∧
      (V.val tau = 120 * v.val tau ↔ volume ({x | x ∈ Package.ico.region obj ∧
        x - Package.ico.perp position ∈ Package.ico.chamber} \ solid (unitCorners position w)) = 0) := by
  obtain ⟨V, hV, -, e1⟩ := C62_object obj ho
  have hm := C72_measure obj position ho hp hs
  rw [e1.mpr no] at hm
  set A := {x | x ∈ Package.ico.region obj ∧ x - Package.ico.perp position ∈ Package.ico.chamber} with hA
  have hC : Package.ico.region obj ∩ solid (unitCorners position w) = A ∩ solid (unitCorners position w) := by
    ext x
    exact ⟨fun ⟨a, b⟩ => ⟨⟨a, hcone ▸ unit_in_cone b⟩, b⟩, fun ⟨a, b⟩ => ⟨a.1, b⟩⟩
  rw [hC] at ev
  have hsplit := measure_inter_add_sdiff (μ := volume) A (solid_measurable (unitCorners position w))
  rw [ev] at hsplit
  have p1 : 0 ≤ V.val tau := volume_nonneg ho hV
  have p2 : 0 ≤ v.val tau := volume_nonneg oo hv
  rw [← hsplit, mul_add, show (120 : ENNReal) = ENNReal.ofReal 120 by norm_num, ← ENNReal.ofReal_mul (by norm_num)] at hm
  have hfin : volume (A \ solid (unitCorners position w)) ≠ ⊤ := by
    intro ht
    rw [ht, ENNReal.mul_top (by norm_num), add_top] at hm
    exact ENNReal.ofReal_ne_top hm
  obtain ⟨d, d0, hd⟩ : ∃ d : ℝ, 0 ≤ d ∧ volume (A \ solid (unitCorners position w)) = ENNReal.ofReal d :=
    ⟨_, ENNReal.toReal_nonneg, (ENNReal.ofReal_toReal hfin).symm⟩
  rw [hd, ← ENNReal.ofReal_mul (by norm_num), ← ENNReal.ofReal_add (by positivity) (by positivity),
    ENNReal.ofReal_eq_ofReal_iff p1 (by positivity)] at hm
  refine ⟨V, hV, by linarith, ?_⟩
  rw [hd, ENNReal.ofReal_eq_zero]
  constructor
  · intro e
    linarith
  · intro e
    linarith

/-- C73: for a symmetric object and vectors that span the fundamental cone, the asymmetric part has at most 1/120 of the
exact volume, and exactly 1/120 when the five-fold vectors reach over the whole part in the cone, up to measure zero. -/
theorem C73_count (draws : Simplex 4 → Simplex 4 → (n : Nat) → Draws n) (delaunay : Simplex 4 → Simplex 4 → Delaunay)
    (obj : Obj 4) (position : Vec 6) (w : Simplex 3) (hD : ∀ s t, TilesHull (delaunay s t)) (ho : Obj.Ok obj)
    (hp : Vec.Ok position) (hw : Simplex.Ok w) (no : Package.ico.NoOverlap obj) (hs : HasSymmetry .ico obj position)
    (hcone : spannedCone w = Package.ico.chamber)
    (h : ∀ s ∈ obj, Resolved (Package.ico.perps s) (unitCorners position w)) (o : Obj 4)
    (hr : asymmetricApi draws delaunay obj position (.d3 w) = .ok (some o)) :
    ∃ V v, objVolume6d (.d4 obj) = .ok (some V) ∧ objVolume6d (.d4 o) = .ok (some v) ∧
      120 * v.val tau ≤ V.val tau ∧
      (V.val tau = 120 * v.val tau ↔ volume ({x | x ∈ Package.ico.region obj ∧
        x - Package.ico.perp position ∈ Package.ico.chamber} \ solid (unitCorners position w)) = 0) := by
  obtain ⟨-, -, -, h4⟩ := C73_asymmetric draws delaunay obj position w hD ho hp hw no h _ hr
  obtain ⟨oo, -, v, hv, ev⟩ := h4 o rfl
  obtain ⟨V, hV, h1, h2⟩ := common_count ho hp no hs hcone oo hv ev
  exact ⟨V, v, hV, hv, h1, h2⟩

/-- An object without overlaps that is the common part up to measure zero generates the symmetric object. -/
theorem common_generates {obj : Obj 4} {position : Vec 6} {w : Simplex 3} (ho : Obj.Ok obj)
    (hp : Vec.Ok position) (no : Package.ico.NoOverlap obj) (hs : HasSymmetry .ico obj position)
    (hcone : spannedCone w = Package.ico.chamber)
    (reach : volume ({x | x ∈ Package.ico.region obj ∧ x - Package.ico.perp position ∈ Package.ico.chamber} \
      solid (unitCorners position w)) = 0) {r : Option (Obj 4)}
    (h1 : Package.ico.region (r.getD []) ⊆ Package.ico.region obj ∩ solid (unitCorners position w))
    (h2 : volume ((Package.ico.region obj ∩ solid (unitCorners position w)) \ Package.ico.region (r.getD [])) = 0)
    (h3 : r = none → volume (Package.ico.region obj ∩ solid (unitCorners position w)) = 0)
    (h4 : ∀ o, r = some o → Obj.Ok o ∧ Package.ico.NoOverlap o) :
    (r = none → volume (Package.ico.region obj) = 0) ∧
    ∀ o, r = some o → ∃ q : Obj 4, ∃ V W, symmetricApi .ico (.d4 o) position = .ok (some (.d4 q)) ∧
      objVolume6d (.d4 obj) = .ok (some V) ∧ objVolume6d (.d4 q) = .ok (some W) ∧ W.val tau = V.val tau ∧
      Package.ico.region q ⊆ Package.ico.region obj ∧ volume (Package.ico.region obj \ Package.ico.region q) = 0 := by
  set A := {x | x ∈ Package.ico.region obj ∧ x - Package.ico.perp position ∈ Package.ico.chamber} with hA
  constructor
  · intro e
    have hm := C72_measure obj position ho hp hs
    have : volume A = 0 := by
      refine measure_mono_null (t := (Package.ico.region obj ∩ solid (unitCorners position w)) ∪
        (A \ solid (unitCorners position w))) (fun x hx => ?_) (measure_union_null (h3 e) reach)
      by_cases hU : x ∈ solid (unitCorners position w)
      · exact Or.inl ⟨hx.1, hU⟩
      · exact Or.inr ⟨hx, hU⟩
    rw [hm, this, mul_zero]
  · rintro o rfl
    obtain ⟨oo, noo⟩ := h4 o rfl
    obtain ⟨q, V, v, W, hV, -, -, hq, hW, e, hsub, hz⟩ := C72_part obj o position ho oo hp hs no noo
      (fun x hx => ⟨(h1 hx).1, hcone ▸ unit_in_cone (h1 hx).2⟩) (by
        refine measure_mono_null (t := ((Package.ico.region obj ∩ solid (unitCorners position w)) \ Package.ico.region o) ∪
          (A \ solid (unitCorners position w))) (fun x hx => ?_) (measure_union_null h2 reach)
        by_cases hU : x ∈ solid (unitCorners position w)
        · exact Or.inl ⟨⟨hx.1.1, hU⟩, hx.2⟩
        · exact Or.inr ⟨hx.1, hU⟩)
    exact ⟨q, V, W, hq, hV, hW, e, hsub, hz⟩

/-- C73: in the second case `symmetric` turns the asymmetric part into the object again, up to measure zero. -/
theorem C73_generates (draws : Simplex 4 → Simplex 4 → (n : Nat) → Draws n) (delaunay : Simplex 4 → Simplex 4 → Delaunay)
    (obj : Obj 4) (position : Vec 6) (w : Simplex 3) (hD : ∀ s t, TilesHull (delaunay s t)) (ho : Obj.Ok obj)
    (hp : Vec.Ok position) (hw : Simplex.Ok w) (no : Package.ico.NoOverlap obj) (hs : HasSymmetry .ico obj position)
    (hcone : spannedCone w = Package.ico.chamber)
    (h : ∀ s ∈ obj, Resolved (Package.ico.perps s) (unitCorners position w))
    (reach : volume ({x | x ∈ Package.ico.region obj ∧ x - Package.ico.perp position ∈ Package.ico.chamber} \
      solid (unitCorners position w)) = 0) (r : Option (Obj 4))
    (hr : asymmetricApi draws delaunay obj position (.d3 w) = .ok r) :
    (r = none → volume (Package.ico.region obj) = 0) ∧
    ∀ o, r = some o → ∃ q : Obj 4, ∃ V W, symmetricApi .ico (.d4 o) position = .ok (some (.d4 q)) ∧
      objVolume6d (.d4 obj) = .ok (some V) ∧ objVolume6d (.d4 q) = .ok (some W) ∧ W.val tau = V.val tau ∧
      Package.ico.region q ⊆ Package.ico.region obj ∧ volume (Package.ico.region obj \ Package.ico.region q) = 0 := by
  obtain ⟨h1, h2, h3, h4⟩ := C73_asymmetric draws delaunay obj position w hD ho hp hw no h r hr
  exact common_generates ho hp no hs hcone reach h1 h2 h3 fun o e => ⟨(h4 o e).1, (h4 o e).2.1⟩

/-! ### A concrete case: the symmetric object of the asymmetric unit of examples/example1.py, cut with its axes -/

/-- The five-fold, three-fold and two-fold axis. -/
def exAxes : Simplex 3 := ![exUnit 1, exUnit 2, exUnit 3]

theorem perp_exAxes : (fun i => Package.ico.perp (exAxes i)) = ![![tau + 1, -tau, 0], ![tau + 1, 0, 1], ![tau + 1, 0, 0]] := by
  funext i
  fin_cases i
  · exact congrFun perps_exUnit 1
  · exact congrFun perps_exUnit 2
  · exact congrFun perps_exUnit 3

theorem exAxes_cone : spannedCone exAxes = Package.ico.chamber := by
  have h : ∀ i, Package.ico.perp (exAxes i) = (![![tau + 1, -tau, 0], ![tau + 1, 0, 1], ![tau + 1, 0, 0]] : Fin 3 → Fin 3 → ℝ) i :=
    fun i => congrFun perp_exAxes i
  ext x
  simp only [spannedCone, Package.chamber, Set.mem_ofPred_eq, h, Fin.sum_univ_three]
  constructor
  · rintro ⟨a, ha, rfl⟩
    exact ⟨a 0, a 1, a 2, ha 0, ha 1, ha 2, rfl⟩
  · rintro ⟨a, b, c, ha, hb, hc, rfl⟩
    exact ⟨![a, b, c], fun i => by fin_cases i <;> assumption, rfl⟩

theorem exOrigin : Package.ico.perp (fun _ => ⟨0, 0, 1⟩) = 0 := congrFun perps_exUnit 0

theorem unitCorners_exAxes : unitCorners (fun _ => ⟨0, 0, 1⟩) exAxes = Package.ico.perps unitFive := by
  funext i
  unfold unitCorners
  rw [exOrigin]
  refine Fin.cases ?_ (fun j => ?_) i
  · exact exOrigin.symm
  · change 0 + (5 : ℝ) • Package.ico.perp (exAxes j) = Package.ico.perp (unitFive j.succ)
    rw [zero_add]
    unfold Package.perp
    rw [← mulVec_smul]
    congr 1
    funext k
    fin_cases j <;> fin_cases k <;> simp [Vec.val, Num3.val, exAxes, exUnit, unitFive] <;> norm_num

theorem perps_actHalf (op : IMat 6 6) :
    Package.ico.perps (symS .ico op (fun _ => ⟨0, 0, 1⟩) exUnit) = Package.ico.perps (actHalf op unitHalf) := by
  funext i
  change Package.ico.perp (symV .ico op _ (exUnit i)) = Package.ico.perp (actHalf op unitHalf i)
  unfold Package.perp symV
  rw [val_nvec, coe_ksym, coe_kvec, coe_kvec]
  have h0 : Vec.val Package.ico.theta (fun _ => ⟨0, 0, 1⟩ : Vec 6) = 0 := by
    funext i; simp [Vec.val, Num3.val]
  rw [h0, sub_zero, add_zero]
  congr 1
  funext k
  fin_cases i <;>
    simp [mulVec, dotProduct, Fin.sum_univ_succ, realMat, Vec.val, Num3.val, actHalf, unitHalf, exUnit] <;> ring

theorem exResolved : ∀ s ∈ orbit .ico [exUnit] (fun _ => ⟨0, 0, 1⟩),
    Resolved (Package.ico.perps s) (unitCorners (fun _ => ⟨0, 0, 1⟩) exAxes) := by
  intro s hs
  obtain ⟨op, hop, h⟩ := List.mem_flatMap.mp hs
  rw [List.map_singleton, List.mem_singleton] at h
  subst h
  have hop' : op ∈ Ico.icosasymop := hop
  rw [icosasymop_eq] at hop'
  obtain ⟨c, hc, rfl⟩ := List.mem_map.mp hop'
  rw [perps_actHalf, unitCorners_exAxes]
  exact (resolvedTest_iff (actHalf_ok _ _) (by decide)).mp (unit_table c hc)

theorem exReach : volume ({x | x ∈ Package.ico.region (orbit .ico [exUnit] (fun _ => ⟨0, 0, 1⟩)) ∧
    x - Package.ico.perp (fun _ => ⟨0, 0, 1⟩) ∈ Package.ico.chamber} \ solid (unitCorners (fun _ => ⟨0, 0, 1⟩) exAxes)) = 0 := by
  have hc : Vec.Ok (fun _ => ⟨0, 0, 1⟩ : Vec 6) := by decide
  obtain ⟨q, hq, h1, h2⟩ := C72_recovers [exUnit] _ exUnit_ok hc (List.pairwise_singleton _ _) exUnit_region
  rw [symmetricApi_orbit (p := .ico) exUnit_ok hc] at hq
  cases hq
  refine measure_mono_null ?_ h2
  refine fun x hx => ⟨hx.1, fun hx' => hx.2 ?_⟩
  obtain ⟨s, hs, hm⟩ := hx'
  rw [List.mem_singleton] at hs
  subst hs
  refine (convexHull_min ?_ (convex_convexHull ℝ _)) hm
  have z : (0 : Fin 3 → ℝ) ∈ solid (unitCorners (fun _ => ⟨0, 0, 1⟩) exAxes) :=
    subset_convexHull ℝ _ ⟨0, exOrigin⟩
  have hstep : ∀ j : Fin 3, Package.ico.perp (exAxes j) ∈ solid (unitCorners (fun _ => ⟨0, 0, 1⟩) exAxes) := by
    intro j
    have h5 : (5 : ℝ) • Package.ico.perp (exAxes j) ∈ solid (unitCorners (fun _ => ⟨0, 0, 1⟩) exAxes) := by
      refine subset_convexHull ℝ _ ⟨j.succ, ?_⟩
      change Package.ico.perp _ + _ = _
      rw [exOrigin, zero_add]
    have := (convex_convexHull ℝ (Set.range (unitCorners (fun _ => ⟨0, 0, 1⟩) exAxes))).smul_mem_of_zero_mem z h5
      (t := 1 / 5) ⟨by norm_num, by norm_num⟩
    rw [smul_smul] at this
    norm_num at this
    exact this
  rintro _ ⟨i, rfl⟩
  refine Fin.cases ?_ (fun j => ?_) i
  · rw [show Package.ico.perps exUnit 0 = 0 from exOrigin]
    exact z
  · have := hstep j
    fin_cases j <;> exact this

/-- The example meets the hypotheses of `C73_asymmetric`, `C73_count` and `C73_generates`: for the symmetric object with
120 tetrahedra, whenever `asymmetric` returns an object, it has exactly 1/120 of the volume and `symmetric` restores the
given object from it. -/
example : ∃ q : Obj 4, symmetricApi .ico (.d4 [exUnit]) (fun _ => ⟨0, 0, 1⟩) = .ok (some (.d4 q)) ∧
    ∃ D : Delaunay, TilesHull D ∧ ∀ draws r, asymmetricApi draws (fun _ _ => D) q (fun _ => ⟨0, 0, 1⟩) (.d3 exAxes) = .ok r →
      ∃ o V v W, ∃ q' : Obj 4, r = some o ∧ objVolume6d (.d4 q) = .ok (some V) ∧ objVolume6d (.d4 o) = .ok (some v) ∧
        V.val tau = 120 * v.val tau ∧ symmetricApi .ico (.d4 o) (fun _ => ⟨0, 0, 1⟩) = .ok (some (.d4 q')) ∧
        objVolume6d (.d4 q') = .ok (some W) ∧ W.val tau = V.val tau ∧ Package.ico.region q' ⊆ Package.ico.region q := by
  have hc : Vec.Ok (fun _ => ⟨0, 0, 1⟩ : Vec 6) := by decide
  have hw : Simplex.Ok exAxes := by decide
  have hq := symmetricApi_orbit (p := .ico) exUnit_ok hc
  obtain ⟨q', hq', sy⟩ := C72_has_symmetry .ico [exUnit] _ exUnit_ok hc
  obtain ⟨q'', w, hq'', no, -, -, hvol⟩ := C72_symmetric [exUnit] _ exUnit_ok hc (List.pairwise_singleton _ _) exUnit_in
  rw [hq] at hq' hq''
  cases hq'
  cases hq''
  obtain ⟨D, hD⟩ := exists_tiles
  refine ⟨_, hq, D, hD, fun draws r hr => ?_⟩
  obtain ⟨g1, g2⟩ := C73_generates draws (fun _ _ => D) _ _ exAxes (fun _ _ => hD) (orbit_ok _ _) hc hw no sy exAxes_cone
    exResolved exReach r hr
  have pos : volume (Package.ico.region (orbit .ico [exUnit] (fun _ => ⟨0, 0, 1⟩))) ≠ 0 := by
    intro h0
    obtain ⟨op, hop⟩ : ∃ op, op ∈ Package.ico.symops := ⟨_, symops_one .ico⟩
    have hs : symS .ico op (fun _ => ⟨0, 0, 1⟩) exUnit ∈ orbit .ico [exUnit] (fun _ => ⟨0, 0, 1⟩) :=
      List.mem_flatMap.mpr ⟨op, hop, by simp⟩
    have hsub : solid (Package.ico.perps (symS .ico op (fun _ => ⟨0, 0, 1⟩) exUnit)) ⊆
        Package.ico.region (orbit .ico [exUnit] (fun _ => ⟨0, 0, 1⟩)) := fun x hx => ⟨_, hs, hx⟩
    have h1 := measure_mono_null hsub h0
    rw [volume_solid, ENNReal.ofReal_eq_zero] at h1
    exact (exResolved _ hs).1 (le_antisymm h1 (tetVol_nonneg _))
  cases r with
  | none => exact absurd (g1 rfl) pos
  | some o =>
    obtain ⟨q', V, W, h1, h2, h3, h4, h5, -⟩ := g2 o rfl
    obtain ⟨V', v, k1, k2, -, k4⟩ := C73_count draws (fun _ _ => D) _ _ exAxes (fun _ _ => hD) (orbit_ok _ _) hc hw no sy
      exAxes_cone exResolved o hr
    rw [h2] at k1
    cases k1
    exact ⟨o, V, v, W, q', rfl, h2, k2, k4.mpr exReach, h1, h3, h4, h5⟩

end Ico
end PyQC
