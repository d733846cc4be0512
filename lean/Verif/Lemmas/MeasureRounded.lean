import Verif.Props.Measure
import Verif.Props.Rounding
import Verif.Lemmas.MachinePlanar
import Verif.Spec.RoundingTiles
/-!
# Volumes of intersections, for any arithmetic of the numerical tests
-/
namespace PyQC
open Matrix Ico MeasureTheory

/-- A point computed with integers is well formed, if the computation returns. -/
theorem crossingWith_valid {sg : Simplex 2} {tr : Simplex 3} (hs : Simplex.Ok sg) (ht : Simplex.Ok tr) {v : Vec 6}
    (h : crossingWith arith projection3 div sg tr = .ok v) : Vec.Ok v := by
  have hA : Lawful Ico.arith Package.ico.theta := Package.ico.lawful
  unfold crossingWith at h
  have e : ∀ v, Ico.projection3 v = Package.ico.projection3 v := fun _ => rfl
  have hS : ∀ x : Num3, needSome (some x) = .ok x := fun _ => rfl
  simp only [subVectors_ok hA (hs 1) (hs 0), subVectors_ok hA (ht 1) (ht 0), subVectors_ok hA (ht 2) (ht 0),
    subVectors_ok hA (hs 0) (ht 0), bind_ok', e, Package.ico.projection3_ok (nvec_ok _), kvec_nvec,
    outerProduct_ok hA (nvec_ok _) (nvec_ok _), innerProduct_ok hA (nvec_ok _) (nvec_ok _), hS] at h
  have key : ∀ x y : K Package.ico.theta, needSome (div (norm x) (norm y)) = if y = 0 then .error .typeError else .ok (norm (x / y)) := by
    intro x y
    by_cases hy : y = 0
    · rw [show div (norm x) (norm y) = none from hA.div_zero (norm_c _) (norm_c _) (by rw [kval_norm]; exact hy), if_pos hy]; rfl
    · rw [show div (norm x) (norm y) = some _ from hA.div_ok (norm_c _) (norm_c _) (by rw [kval_norm]; exact hy), if_neg hy,
        kval_norm, kval_norm]; rfl
  rw [key] at h
  split at h
  · rw [bind_error'] at h; cases h
  · rw [bind_ok', mulVector_ok hA (nvec_ok _) (norm_c _), bind_ok', addVectors_ok hA (hs 0) (nvec_ok _)] at h
    cases h
    exact nvec_ok _

theorem crossingsF_valid (F : Float64) {s t : Simplex 4} (hs : Simplex.Ok s) (ht : Simplex.Ok t) {pts : List (Vec 6)}
    (h : F.crossingPoints s t = .ok pts) : ∀ v ∈ pts, Vec.Ok v := by
  have one : ∀ {sg : Simplex 2} {tr : Simplex 3}, Simplex.Ok sg → Simplex.Ok tr → ∀ {o}, F.intersectionSegmentSurface sg tr = .ok o →
      ∀ v ∈ o.toList, Vec.Ok v := by
    intro sg tr h1 h2 o ho v hv
    rw [segmentSurface_with] at ho
    split at ho
    · cases hx : crossingWith arith projection3 div sg tr with
      | error e => rw [hx] at ho; cases ho
      | ok p =>
        rw [hx] at ho
        cases ho
        have : v = p := by simpa using hv
        subst this
        exact crossingWith_valid h1 h2 hx
    · cases ho; simp at hv
  refine Planar.foldPy_inv (P := fun l : List (Vec 6) => ∀ v ∈ l, Vec.Ok v) ?_ (by simp) h
  intro b hb c hc r hr v hv
  cases h1 : F.intersectionSegmentSurface (segmentOf s c.1) (surfaceOf t c.2) with
  | error e => rw [h1, bind_error'] at hr; cases hr
  | ok l1 =>
    rw [h1, bind_ok'] at hr
    simp only at hr
    cases h2 : F.intersectionSegmentSurface (segmentOf t c.1) (surfaceOf s c.2) with
    | error e => rw [h2, bind_error'] at hr; cases hr
    | ok l2 =>
      rw [h2, bind_ok'] at hr
      cases hr
      simp only [List.mem_append] at hv
      rcases hv with (hv | hv) | hv
      · exact hb v hv
      · exact one (fun i => by fin_cases i <;> exact hs _) (fun i => by fin_cases i <;> exact ht _) h1 v hv
      · exact one (fun i => by fin_cases i <;> exact ht _) (fun i => by fin_cases i <;> exact hs _) h2 v hv

/-- Whatever the numerical tests and the library say, the pieces of two tetrahedra are well formed. -/
theorem intersectionTwoF_valid (F : Float64) {draws : (n : Nat) → Draws n} {delaunay : Delaunay} {s t : Simplex 4}
    (hs : Simplex.Ok s) (ht : Simplex.Ok t) {o : Obj 4}
    (h : F.intersectionTwoTetrahedra draws delaunay s t = .ok (some o)) : Obj.Ok o := by
  unfold Float64.intersectionTwoTetrahedra at h
  cases hc : F.crossingPoints s t with
  | error e => rw [hc, bind_error'] at h; cases h
  | ok pts =>
    rw [hc, bind_ok'] at h
    have hp : ∀ v ∈ pts ++ (List.ofFn s).filter (fun v => F.insideTau v t) ++ (List.ofFn t).filter (fun v => F.insideTau v s),
        Vec.Ok v := by
      intro v hv
      rw [List.mem_append, List.mem_append, List.mem_filter, List.mem_filter] at hv
      rcases hv with (hv | ⟨hv, -⟩) | ⟨hv, -⟩
      · exact crossingsF_valid F hs ht hc v hv
      · obtain ⟨i, rfl⟩ := (List.mem_ofFn' _ _).mp hv; exact hs i
      · obtain ⟨i, rfl⟩ := (List.mem_ofFn' _ _).mp hv; exact ht i
    exact fun a ha i => hp _ ((common_mem_rounded F hp h).2 a ha i)

/-! ## Two objects, for any tests -/

/-- The two kinds, for any tests. -/
theorem intersectionTwoObj_kinds {rough : Simplex 4 → Py Bool} {flag : Simplex 4 → Simplex 4 → Py Nat}
    {inter : Simplex 4 → Simplex 4 → Py (Option (Obj 4))} {obj1 obj2 : Obj 4} (ok1 : Obj.Ok obj1) (ok2 : Obj.Ok obj2)
    (hi : ∀ s ∈ obj1, ∀ t ∈ obj2, ∀ o, inter s t = .ok (some o) → Obj.Ok o) :
    (∃ e, intersectionTwoObj .standard rough flag inter obj1 obj2 = .error e ∧
      intersectionTwoObj .simple rough flag inter obj1 obj2 = .error e) ∨
    (intersectionTwoObj .standard rough flag inter obj1 obj2 = .ok none ∧
      intersectionTwoObj .simple rough flag inter obj1 obj2 = .ok none) ∨
    ∃ a b v, intersectionTwoObj .standard rough flag inter obj1 obj2 = .ok (some a) ∧
      intersectionTwoObj .simple rough flag inter obj1 obj2 = .ok (some b) ∧ Obj.Ok a ∧ Obj.Ok b ∧
      objVolume6d (.d4 a) = .ok (some v) ∧ objVolume6d (.d4 b) = .ok (some v) := by
  unfold intersectionTwoObj
  rcases fillList_sameVol (l := obj1) (fun t ht => onePiece_sameVol (rough := rough) (flag := flag) (inter := inter)
    (ok1 t ht) ok2 (fun u hu o ho => hi t ht u hu o ho)) with ⟨e, h1, h2⟩ | ⟨x, y, h1, h2, ox, oy, hv, hn⟩
  · exact .inl ⟨e, by rw [h1, bind_error'], by rw [h2, bind_error']⟩
  · rw [h1, bind_ok', h2, bind_ok']
    by_cases hx : x.flatten = []
    · have hy := hn.1 hx
      rw [hx, hy]
      exact .inr (.inl ⟨rfl, rfl⟩)
    · have hy := fun h => hx (hn.2 h)
      rw [if_pos (fun h => hx (List.length_eq_zero_iff.1 h)), if_pos (fun h => hy (List.length_eq_zero_iff.1 h))]
      refine .inr (.inr ⟨_, _, _, rfl, rfl, ox, oy, objVolume_ok ox, ?_⟩)
      rw [objVolume_ok oy, hv]

/-- The exact volume of the result, for any tests that are right about the pieces. -/
theorem intersectionTwoObj_volume {kind : Kind} {rough : Simplex 4 → Py Bool} {flag : Simplex 4 → Simplex 4 → Py Nat}
    {inter : Simplex 4 → Simplex 4 → Py (Option (Obj 4))} {obj1 obj2 : Obj 4} (ok1 : Obj.Ok obj1) (ok2 : Obj.Ok obj2)
    (no1 : Package.ico.NoOverlap obj1) (no2 : Package.ico.NoOverlap obj2)
    (hi : ∀ s ∈ obj1, ∀ t ∈ obj2, ∀ o, inter s t = .ok (some o) → Obj.Ok o)
    (hrough : ∀ s ∈ obj1, rough s = .ok false → ∀ t ∈ obj2, volume (solid (Package.ico.perps s) ∩ solid (Package.ico.perps t)) = 0)
    (h1 : ∀ s ∈ obj1, ∀ t ∈ obj2, flag s t = .ok 1 → solid (Package.ico.perps s) ⊆ solid (Package.ico.perps t))
    (h2 : ∀ s ∈ obj1, ∀ t ∈ obj2, flag s t = .ok 2 → solid (Package.ico.perps t) ⊆ solid (Package.ico.perps s))
    (h0 : ∀ s ∈ obj1, ∀ t ∈ obj2, ∀ f, flag s t = .ok f → f ≠ 1 → f ≠ 2 → f ≠ 3 →
      volume (solid (Package.ico.perps s) ∩ solid (Package.ico.perps t)) = 0)
    (h3 : ∀ s ∈ obj1, ∀ t ∈ obj2, ∀ r, flag s t = .ok 3 → inter s t = .ok r →
      msum (r.getD []) = volume (solid (Package.ico.perps s) ∩ solid (Package.ico.perps t)))
    {r : Option (Obj 4)} (hr : intersectionTwoObj kind rough flag inter obj1 obj2 = .ok r) :
    (r = none → volume (Package.ico.region obj1 ∩ Package.ico.region obj2) = 0) ∧
    ∀ o, r = some o → Obj.Ok o ∧ ∃ w, objVolume6d (.d4 o) = .ok (some w) ∧
      volume (Package.ico.region obj1 ∩ Package.ico.region obj2) = ENNReal.ofReal (w.val tau) := by
  have hsplit : (kind = .standard ∧ intersectionTwoObj .standard rough flag inter obj1 obj2 = .ok r) ∨
      (kind = .simple ∧ intersectionTwoObj .simple rough flag inter obj1 obj2 = .ok r) := by
    cases kind
    · exact .inl ⟨rfl, hr⟩
    · exact .inr ⟨rfl, hr⟩
  rcases intersectionTwoObj_kinds (rough := rough) (flag := flag) ok1 ok2 hi with
    ⟨e, e1, e2⟩ | ⟨e1, e2⟩ | ⟨a, b, v, e1, e2, oa, ob, e3, e4⟩
  · rcases hsplit with ⟨-, hr⟩ | ⟨-, hr⟩
    · rw [e1] at hr; cases hr
    · rw [e2] at hr; cases hr
  · have hz : volume (Package.ico.region obj1 ∩ Package.ico.region obj2) = 0 :=
      (intersectionTwoObj_measure no1 no2 hrough h1 h2 h0 h3 e1).symm
    have : r = none := by
      rcases hsplit with ⟨-, hr⟩ | ⟨-, hr⟩
      · rw [e1] at hr; cases hr; rfl
      · rw [e2] at hr; cases hr; rfl
    subst this
    exact ⟨fun _ => hz, by simp⟩
  · have hv : volume (Package.ico.region obj1 ∩ Package.ico.region obj2) = ENNReal.ofReal (v.val tau) := by
      have hm := intersectionTwoObj_measure no1 no2 hrough h1 h2 h0 h3 e1
      obtain ⟨w, hw, -, hval⟩ := C17_volume a oa
      rw [e3] at hw
      cases hw
      rw [hval, ← hm, ← msum_val]; rfl
    rcases hsplit with ⟨-, hr⟩ | ⟨-, hr⟩
    · rw [e1] at hr; cases hr
      exact ⟨by simp, fun o ho => by cases ho; exact ⟨oa, v, e3, hv⟩⟩
    · rw [e2] at hr; cases hr
      exact ⟨by simp, fun o ho => by cases ho; exact ⟨ob, v, e4, hv⟩⟩

/-- An object that covers a set up to volume zero and has exactly its volume does not overlap and covers nothing else. -/
theorem exact_of_volume {o : Obj 4} (oko : Obj.Ok o) {C : Set (Fin 3 → ℝ)} (hCm : MeasurableSet C)
    (hz : volume (C \ Package.ico.region o) = 0) {w : Num3} (hw : objVolume6d (.d4 o) = .ok (some w))
    (hv : volume C = ENNReal.ofReal (w.val tau)) :
    Package.ico.NoOverlap o ∧ volume (Package.ico.region o \ C) = 0 := by
  obtain ⟨w', hw', -, hval⟩ := C17_volume o oko
  rw [hw] at hw'
  cases hw'
  rw [hval, ← msum_val] at hv
  have h1 : volume C ≤ volume (C ∩ Package.ico.region o) := by
    exact (measure_le_inter_add_sdiff _ _ (Package.ico.region o)).trans (by rw [hz, add_zero])
  have h2 : volume (C ∩ Package.ico.region o) ≤ volume (Package.ico.region o) := measure_mono Set.inter_subset_right
  have h3 := region_le_msum o
  have e1 : volume (Package.ico.region o) = msum o := le_antisymm h3 (by rw [← hv]; exact h1.trans h2)
  refine ⟨(region_eq_msum o).1 e1, ?_⟩
  have e2 : volume (Package.ico.region o ∩ C) = volume (Package.ico.region o) := by
    refine le_antisymm (measure_mono Set.inter_subset_left) ?_
    rw [e1, ← hv, Set.inter_comm]; exact h1
  have e3 := measure_inter_add_sdiff (μ := volume) (Package.ico.region o) hCm
  rw [e2] at e3
  exact (ENNReal.add_right_inj (region_finite o)).1 (e3.trans (add_zero _).symm)

/-! ## Two tetrahedra, with rounding -/

/-- Pieces of points that are not in one plane do not overlap, if the library tiles. -/
theorem common_apart_rounded (F : Float64) {draws : (n : Nat) → Draws n} {delaunay : Delaunay}
    {pts : List (Vec 6)} (hp : ∀ v ∈ pts, Vec.Ok v) (hn : ¬ InPlane (pts.map Package.ico.perp))
    (hD : ∀ r pns, (∀ x ∈ r, x ∈ pts) → F.delaunayInput r = .ok pns → ¬ InPlane (r.map Package.ico.perp) →
      TilesHullOf (r.map Package.ico.perp) (delaunay pns)) {o : Obj 4}
    (h : F.tetrahedralizeCommon draws delaunay pts = .ok (some o)) : Package.ico.NoOverlap o := by
  unfold Float64.tetrahedralizeCommon at h
  by_cases h4 : pts.length ≥ 4
  · rw [if_pos h4] at h
    obtain ⟨r, hr, hsub, hpw, huniq⟩ := C24_one_per_point .ico pts hp
    have hnr : ¬ InPlane (r.map Package.ico.perp) := fun hi => hn (inPlane_of_subset hi fun x hx => by
      rw [List.mem_map] at hx ⊢
      obtain ⟨v, hv, e⟩ := hx
      obtain ⟨y, ⟨hy, e2⟩, -⟩ := huniq v hv
      exact ⟨y, hy, e2.trans e⟩)
    rw [hr, bind_ok'] at h
    by_cases hr4 : r.length ≥ 4
    · rw [if_pos hr4] at h
      by_cases hc : F.coplanarCheck draws r = some true
      · rw [if_pos hc] at h; cases h
      · rw [if_neg hc] at h
        have hfin : ∀ {x : Option (Obj 4)}, (match x with
            | none => .error .attributeError
            | some o => do
              let _ ← objVolume6d (.d4 o)
              .ok (some o) : Py (Option (Obj 4))) = .ok (some o) → x = some o := by
          intro x hx
          cases x with
          | none => cases hx
          | some o' =>
            simp only at hx
            cases hv : objVolume6d (.d4 o') with
            | error e => rw [hv, bind_error'] at hx; cases hx
            | ok v => rw [hv, bind_ok'] at hx; cases hx; rfl
        simp only at h
        by_cases hl : r.length = 4
        · rw [if_pos hl] at h
          unfold reshape4 at h
          rw [dif_pos hl, bind_ok', bind_ok'] at h
          cases hfin (x := some _) h
          exact List.pairwise_singleton _ _
        · rw [if_neg hl] at h
          have hrok : ∀ v ∈ r, Vec.Ok v := fun v hv => hp v (hsub v hv)
          cases ho : F.tetrahedralizationPoints delaunay r with
          | error e => rw [ho, bind_error'] at h; cases h
          | ok o' =>
            rw [ho, bind_ok'] at h
            have := hfin (x := o') h
            subst this
            obtain ⟨pns, hpns, hT⟩ := tetrahedralization_rounded F delaunay hrok
            rw [hT] at ho
            exact tetrahedralization_apart (hD r pns hsub hpns hnr).2 hrok ho
    · rw [if_neg hr4] at h; cases h
  · rw [if_neg h4] at h; cases h

section
variable (F : Float64) {R : ℝ} (hR : 1 ≤ R) (hR2 : R ≤ 2 ^ 10)
include hR hR2

theorem two_msum_rounded {draws : (n : Nat) → Draws n} {delaunay : Delaunay} {s t : Simplex 4}
    (hD : ∀ r pns, (∀ v ∈ r, Vec.Ok v ∧ Candidate (Package.ico.perps s) (Package.ico.perps t) (Package.ico.perp v)) →
      F.delaunayInput r = .ok pns → ¬ InPlane (r.map Package.ico.perp) → TilesHullOf (r.map Package.ico.perp) (delaunay pns))
    (hs : Simplex.Ok s) (ht : Simplex.Ok t) (ss : ∀ i, Small .ico R (s i)) (st : ∀ i, Small .ico R (t i))
    (sc : ∀ pts, crossingPoints s t = .ok pts → ∀ v ∈ pts, Small .ico R v)
    (h : ResolvedRounded R (Package.ico.perps s) (Package.ico.perps t)) {r : Option (Obj 4)}
    (hr : F.intersectionTwoTetrahedra draws delaunay s t = .ok r) :
    msum (r.getD []) = volume (solid (Package.ico.perps s) ∩ solid (Package.ico.perps t)) := by
  obtain ⟨hsub, hz⟩ := C88_two_outcome F hR hR2 draws delaunay s t (fun r pns h1 h2 h3 => (hD r pns h1 h2 h3).1)
    hs ht ss st sc h r hr
  by_cases hi : (interior (solid (Package.ico.perps s) ∩ solid (Package.ico.perps t))).Nonempty
  · have hno : Package.ico.NoOverlap (r.getD []) := by
      cases r with
      | none => exact List.Pairwise.nil
      | some o =>
        rw [intersection_rounded_eq F hR hR2 hs ht ss st h.apartST h.apartTS] at hr
        refine common_apart_rounded F (fun v hv => (commonPts_near hs ht hv).1) (fun hpl => ?_) (fun r pns hr h1 h2 =>
          hD r pns (fun v hv => ⟨(commonPts_near hs ht (hr v hv)).1, (commonPts_exact hs ht h.resolved (hr v hv)).1⟩) h1 h2) hr
        rw [← commonPts_hull hs ht h.resolved, map_perp_set] at hi
        exact hull_flat hpl hi
    rw [← (region_eq_msum _).2 hno]
    refine le_antisymm (measure_mono hsub) ?_
    exact (measure_le_inter_add_sdiff _ _ _).trans (by rw [hz, add_zero]; exact measure_mono Set.inter_subset_right)
  · have h0 := common_null hi
    rw [h0]
    generalize r.getD [] = o at hsub
    clear hr hz
    induction o with
    | nil => rfl
    | cons a o ih =>
      rw [region_cons] at hsub
      have ha : volume (solid (Package.ico.perps a)) = 0 :=
        measure_mono_null (Set.subset_union_left.trans hsub) h0
      show volume _ + msum o = 0
      rw [ha, ih (Set.subset_union_right.trans hsub), add_zero]

end

end PyQC
