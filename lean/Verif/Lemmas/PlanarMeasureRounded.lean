import Verif.Props.PlanarMeasure
import Verif.Lemmas.TilesRounded
/-!
# Areas of intersections of flat objects, for any arithmetic of the numerical tests
-/
namespace PyQC
open Matrix MeasureTheory Dode Planar

/-- A point computed with integers is well formed, if the computation returns. -/
theorem crossing2With_valid {s1 s2 : Simplex 2} (h1 : Simplex.Ok s1) (h2 : Simplex.Ok s2) {v : Vec 6}
    (h : crossing2With arith projection3 s1 s2 = .ok v) : Vec.Ok v := by
  have hA : Lawful Dode.arith Package.dode.theta := Package.dode.lawful
  unfold crossing2With at h
  have e : ∀ v, Dode.projection3 v = Package.dode.projection3 v := fun _ => rfl
  have hS : ∀ x : Num3, needSome (some x) = .ok x := fun _ => rfl
  simp only [subVectors_ok hA (h1 1) (h1 0), subVectors_ok hA (h2 1) (h2 0), subVectors_ok hA (h2 0) (h1 0), bind_ok', e,
    Package.dode.projection3_ok (nvec_ok _), kvec_nvec, innerProduct_ok hA (nvec_ok _) (nvec_ok _), hS,
    hA.mul_ok (norm_c _) (norm_c _), hA.sub_ok (norm_c _) (norm_c _), kval_norm] at h
  have key : ∀ x y : K Package.dode.theta,
      needSome (Dode.arith.div (norm x) (norm y)) = if y = 0 then .error .typeError else .ok (norm (x / y)) := by
    intro x y
    by_cases hy : y = 0
    · rw [hA.div_zero (norm_c _) (norm_c _) (by rw [kval_norm]; exact hy), if_pos hy]; rfl
    · rw [hA.div_ok (norm_c _) (norm_c _) (by rw [kval_norm]; exact hy), if_neg hy, kval_norm, kval_norm]; rfl
  rw [key] at h
  split at h
  · rw [bind_error'] at h; cases h
  · rw [bind_ok', mulVector_ok hA (nvec_ok _) (norm_c _), bind_ok', addVectors_ok hA (h1 0) (nvec_ok _)] at h
    cases h
    exact nvec_ok _

theorem lineCrossings_valid {s t : Simplex 3} (hs : Simplex.Ok s) (ht : Simplex.Ok t) {v : Vec 6}
    (hv : v ∈ lineCrossings s t) : Vec.Ok v := by
  unfold lineCrossings at hv
  obtain ⟨c, -, hv⟩ := List.mem_flatMap.1 hv
  obtain ⟨j, -, hv⟩ := List.mem_flatMap.1 hv
  cases hx : crossing2With arith projection3 (segmentOf s c) (segmentOf t j) with
  | error e => rw [hx] at hv; simp at hv
  | ok p =>
    rw [hx] at hv
    have : v = p := by simpa using hv
    subst this
    exact crossing2With_valid (fun i => by fin_cases i <;> exact hs _) (fun i => by fin_cases i <;> exact ht _) hx

theorem possible_valid {s t : Simplex 3} (hs : Simplex.Ok s) (ht : Simplex.Ok t) {v : Vec 6} (hv : v ∈ possible s t) :
    Vec.Ok v := by
  unfold possible at hv
  rw [List.mem_dedup] at hv
  simp only [List.mem_append] at hv
  rcases hv with ((hv | hv) | hv) | hv
  · exact lineCrossings_valid hs ht hv
  · exact lineCrossings_valid ht hs hv
  · obtain ⟨i, rfl⟩ := (List.mem_ofFn' _ _).mp hv; exact hs i
  · obtain ⟨i, rfl⟩ := (List.mem_ofFn' _ _).mp hv; exact ht i

/-- Whatever the numerical tests and the library say, the pieces of two triangles are well formed. -/
theorem twoTrianglesF_valid (F : Float64) {delaunay : Delaunay2} {s t : Simplex 3}
    (hs : Simplex.Ok s) (ht : Simplex.Ok t) {o : Obj 3}
    (h : F.intersectionTwoTriangles delaunay s t = .ok (some o)) : Obj.Ok o := by
  unfold Float64.intersectionTwoTriangles at h
  cases hc : F.dodeCrossingPoints s t with
  | error e => rw [hc, bind_error'] at h; cases h
  | ok p =>
    rw [hc, bind_ok'] at h
    obtain ⟨pts, counter⟩ := p
    simp only at h
    split at h
    · cases h
    · have hp : ∀ v ∈ pts ++ (List.ofFn s).filter (fun v => F.dodeInsideTau v t) ++
          (List.ofFn t).filter (fun v => F.dodeInsideTau v s), Vec.Ok v := by
        intro v hv
        rw [List.mem_append, List.mem_append, List.mem_filter, List.mem_filter] at hv
        rcases hv with (hv | ⟨hv, -⟩) | ⟨hv, -⟩
        · exact possible_valid hs ht (crossings_mem F hc v hv)
        · obtain ⟨i, rfl⟩ := (List.mem_ofFn' _ _).mp hv; exact hs i
        · obtain ⟨i, rfl⟩ := (List.mem_ofFn' _ _).mp hv; exact ht i
      exact fun a ha i => hp _ ((triCommonF_mem F hp h).1 a ha i)

/-! ## Two objects, for any tests -/

/-- The two kinds, for any tests. -/
theorem Planar.intersectionTwoObj_kinds {rough : Simplex 3 → Py Bool} {flag : Simplex 3 → Simplex 3 → Py Nat}
    {inter : Simplex 3 → Simplex 3 → Py (Option (Obj 3))} {obj1 obj2 : Obj 3} (ok1 : Obj.Ok obj1) (ok2 : Obj.Ok obj2)
    (hi : ∀ s ∈ obj1, ∀ t ∈ obj2, ∀ o, inter s t = .ok (some o) → Obj.Ok o) :
    (∃ e, intersectionTwoObj .standard rough flag inter obj1 obj2 = .error e ∧
      intersectionTwoObj .simple rough flag inter obj1 obj2 = .error e) ∨
    (intersectionTwoObj .standard rough flag inter obj1 obj2 = .ok none ∧
      intersectionTwoObj .simple rough flag inter obj1 obj2 = .ok none) ∨
    ∃ a b v, intersectionTwoObj .standard rough flag inter obj1 obj2 = .ok (some a) ∧
      intersectionTwoObj .simple rough flag inter obj1 obj2 = .ok (some b) ∧ Obj.Ok a ∧ Obj.Ok b ∧
      objArea6d (.d4 a) = .ok (some v) ∧ objArea6d (.d4 b) = .ok (some v) := by
  unfold intersectionTwoObj
  rcases Planar.fillList_sameVol (l := obj1) (fun t ht => Planar.onePiece_sameVol (rough := rough) (flag := flag) (inter := inter)
    (ok1 t ht) ok2 (fun u hu o ho => hi t ht u hu o ho)) with ⟨e, h1, h2⟩ | ⟨x, y, h1, h2, ox, oy, hv, hn⟩
  · exact .inl ⟨e, by rw [h1, bind_error'], by rw [h2, bind_error']⟩
  · rw [h1, bind_ok', h2, bind_ok']
    by_cases hx : x.flatten = []
    · have hy := hn.1 hx
      rw [hx, hy]
      exact .inr (.inl ⟨rfl, rfl⟩)
    · have hy := fun h => hx (hn.2 h)
      rw [if_pos (fun h => hx (List.length_eq_zero_iff.1 h)), if_pos (fun h => hy (List.length_eq_zero_iff.1 h))]
      refine .inr (.inr ⟨_, _, _, rfl, rfl, ox, oy, objArea_ok ox, ?_⟩)
      rw [objArea_ok oy, hv]

/-- The exact area of the result, for any tests that are right about the pieces. -/
theorem Planar.intersectionTwoObj_area {kind : Ico.Kind} {rough : Simplex 3 → Py Bool} {flag : Simplex 3 → Simplex 3 → Py Nat}
    {inter : Simplex 3 → Simplex 3 → Py (Option (Obj 3))} {obj1 obj2 : Obj 3} {z : ℝ} (ok1 : Obj.Ok obj1) (ok2 : Obj.Ok obj2)
    (z1 : Level z obj1) (z2 : Level z obj2) (no1 : NoOverlap2 z obj1) (no2 : NoOverlap2 z obj2)
    (hi : ∀ s ∈ obj1, ∀ t ∈ obj2, ∀ o, inter s t = .ok (some o) → Obj.Ok o)
    (hl : ∀ s ∈ obj1, ∀ t ∈ obj2, ∀ o, flag s t = .ok 3 → inter s t = .ok (some o) → Level z o)
    (hrough : ∀ s ∈ obj1, rough s = .ok false → ∀ t ∈ obj2, volume (body z s ∩ body z t) = 0)
    (h1 : ∀ s ∈ obj1, ∀ t ∈ obj2, flag s t = .ok 1 → body z s ⊆ body z t)
    (h2 : ∀ s ∈ obj1, ∀ t ∈ obj2, flag s t = .ok 2 → body z t ⊆ body z s)
    (h0 : ∀ s ∈ obj1, ∀ t ∈ obj2, ∀ f, flag s t = .ok f → f ≠ 1 → f ≠ 2 → f ≠ 3 → volume (body z s ∩ body z t) = 0)
    (h3 : ∀ s ∈ obj1, ∀ t ∈ obj2, ∀ r, flag s t = .ok 3 → inter s t = .ok r →
      Planar.msum z (r.getD []) = volume (body z s ∩ body z t))
    {r : Option (Obj 3)} (hr : intersectionTwoObj kind rough flag inter obj1 obj2 = .ok r) :
    (r = none → volume (slice z (Package.dode.region obj1 ∩ Package.dode.region obj2)) = 0) ∧
    ∀ o, r = some o → Obj.Ok o ∧ Level z o ∧ ∃ w, objArea6d (.d4 o) = .ok (some w) ∧
      volume (slice z (Package.dode.region obj1 ∩ Package.dode.region obj2)) = ENNReal.ofReal (w.val sin60) := by
  have hlev : ∀ {kind : Ico.Kind} {o : Obj 3}, intersectionTwoObj kind rough flag inter obj1 obj2 = .ok (some o) → Level z o := by
    intro kind o ho
    obtain ⟨-, hm⟩ := Planar.intersectionTwoObj_mem (Q := fun _ a => ∀ i, Package.dode.perp (a i) 2 = z)
      (fun s hs _ _ _ => z1 s hs) (fun s _ t ht _ => z2 t ht) (fun s hs t ht o hf hi a ha => hl s hs t ht o hf hi a ha) ho
    intro a ha
    obtain ⟨s, hs, h | ⟨-, rfl⟩⟩ := hm a ha
    · exact h
    · exact z1 a hs
  have hsplit : (kind = .standard ∧ intersectionTwoObj .standard rough flag inter obj1 obj2 = .ok r) ∨
      (kind = .simple ∧ intersectionTwoObj .simple rough flag inter obj1 obj2 = .ok r) := by
    cases kind
    · exact .inl ⟨rfl, hr⟩
    · exact .inr ⟨rfl, hr⟩
  rcases Planar.intersectionTwoObj_kinds (rough := rough) (flag := flag) ok1 ok2 hi with
    ⟨e, e1, e2⟩ | ⟨e1, e2⟩ | ⟨a, b, v, e1, e2, oa, ob, e3, e4⟩
  · rcases hsplit with ⟨-, hr⟩ | ⟨-, hr⟩
    · rw [e1] at hr; cases hr
    · rw [e2] at hr; cases hr
  · have hz : volume (slice z (Package.dode.region obj1 ∩ Package.dode.region obj2)) = 0 :=
      (Planar.intersectionTwoObj_measure no1 no2 hrough h1 h2 h0 h3 e1).symm
    have : r = none := by
      rcases hsplit with ⟨-, hr⟩ | ⟨-, hr⟩
      · rw [e1] at hr; cases hr; rfl
      · rw [e2] at hr; cases hr; rfl
    subst this
    exact ⟨fun _ => hz, by simp⟩
  · have hv : volume (slice z (Package.dode.region obj1 ∩ Package.dode.region obj2)) = ENNReal.ofReal (v.val sin60) := by
      have hm := Planar.intersectionTwoObj_measure no1 no2 hrough h1 h2 h0 h3 e1
      obtain ⟨⟨w, hw, -, hval⟩, -⟩ := C43_object a oa
      rw [e3] at hw
      cases hw
      rw [hval, ← Planar.msum_val (hlev e1)]
      exact hm.symm
    rcases hsplit with ⟨-, hr⟩ | ⟨-, hr⟩
    · rw [e1] at hr; cases hr
      exact ⟨by simp, fun o ho => by cases ho; exact ⟨oa, hlev e1, v, e3, hv⟩⟩
    · rw [e2] at hr; cases hr
      exact ⟨by simp, fun o ho => by cases ho; exact ⟨ob, hlev e2, v, e4, hv⟩⟩

/-- An object that covers a set up to area zero and has exactly its area does not overlap and covers nothing else. -/
theorem exact_of_area {z : ℝ} {o : Obj 3} (oko : Obj.Ok o) (zo : Level z o) {C : Set (Fin 2 → ℝ)} (hCm : MeasurableSet C)
    (hz : volume (C \ cover z o) = 0) {w : Num3} (hw : objArea6d (.d4 o) = .ok (some w))
    (hv : volume C = ENNReal.ofReal (w.val sin60)) : NoOverlap2 z o ∧ volume (cover z o \ C) = 0 := by
  obtain ⟨⟨w', hw', -, hval⟩, -⟩ := C43_object o oko
  rw [hw] at hw'
  cases hw'
  rw [hval, ← Planar.msum_val zo] at hv
  have h1 : volume C ≤ volume (C ∩ cover z o) := by
    exact (measure_le_inter_add_sdiff _ _ (cover z o)).trans (by rw [hz, add_zero])
  have h2 : volume (C ∩ cover z o) ≤ volume (cover z o) := measure_mono Set.inter_subset_right
  have h3 := Planar.region_le_msum z o
  have e1 : volume (cover z o) = Planar.msum z o := le_antisymm h3 (by rw [← hv]; exact h1.trans h2)
  refine ⟨(Planar.region_eq_msum z o).1 e1, ?_⟩
  have e2 : volume (cover z o ∩ C) = volume (cover z o) := by
    refine le_antisymm (measure_mono Set.inter_subset_left) ?_
    rw [e1, ← hv, Set.inter_comm]; exact h1
  have e3 := measure_inter_add_sdiff (μ := volume) (cover z o) hCm
  rw [e2] at e3
  exact (ENNReal.add_right_inj (Planar.region_finite o)).1 (e3.trans (add_zero _).symm)

/-! ## Two triangles, with rounding -/

theorem triangulation2_rounded (F : Float64) (delaunay : Delaunay2) {r : List (Vec 6)} (hr : ∀ v ∈ r, Vec.Ok v)
    {pns : List (Fin 2 → ℝ)} (hp : F.delaunayInput2 r = .ok pns) :
    F.triangulationPoints delaunay r = triangulationPoints (fun _ => delaunay pns) r := by
  unfold Float64.triangulationPoints triangulationPoints
  rw [hp, bind_ok', triangulation_input hr, bind_ok']
  rfl

/-- Pieces of points that are not on a line do not overlap, if the library tiles. -/
theorem common_apart_rounded2 (F : Float64) {delaunay : Delaunay2} {pts : List (Vec 6)} (hp : ∀ v ∈ pts, Vec.Ok v) {z : ℝ}
    (hz : ∀ v ∈ pts, Package.dode.perp v 2 = z) (hn : ¬ InLine (pts.map plane))
    (hD : ∀ r pns, (∀ x ∈ r, x ∈ pts) → F.delaunayInput2 r = .ok pns → ¬ InLine (r.map plane) →
      TilesHullOf2 (r.map plane) (delaunay pns)) {count : Nat} {o : Obj 3}
    (h : F.triangulateCommon delaunay pts count = .ok (some o)) : NoOverlap2 z o := by
  unfold Float64.triangulateCommon at h
  by_cases h3 : count ≥ 3
  · rw [if_pos h3] at h
    obtain ⟨r, hr, hsub, -, huniq⟩ := C24_one_per_point .dode pts hp
    rw [hr, bind_ok'] at h
    by_cases hl : r.length > 3
    · rw [if_pos hl] at h
      have hrok : ∀ v ∈ r, Vec.Ok v := fun v hv => hp v (hsub v hv)
      have hnr : ¬ InLine (r.map plane) := fun hi => hn (inLine_of_subset hi fun y hy => by
        obtain ⟨v, hv, rfl⟩ := List.mem_map.1 hy
        obtain ⟨w, ⟨hw, e⟩, -⟩ := huniq v hv
        exact List.mem_map.2 ⟨w, hw, congrArg xy e⟩)
      obtain ⟨pns, hpns⟩ := delaunayInput2_ok F hrok
      rw [triangulation2_rounded F delaunay hrok hpns] at h
      obtain ⟨⟨l, hd, hidx, -⟩, hap⟩ := hD r pns hsub hpns hnr
      refine triangulation_apart (fun l' hl' => ?_) (fun l' hl' => hap l' hl') hrok (fun v hv => hz v (hsub v hv)) h
      have : l = l' := by
        rw [hd] at hl'
        exact Option.some.inj hl'
      subst this
      exact hidx
    · rw [if_neg hl] at h
      by_cases he : r.length = 3
      · rw [if_pos he] at h
        unfold Dode.reshape3 at h
        rw [dif_pos he, bind_ok'] at h
        cases h
        exact List.pairwise_singleton _ _
      · rw [if_neg he] at h; cases h
  · rw [if_neg h3] at h; cases h

section
variable (F : Float64) {R : ℝ} (hR : 1 ≤ R) (hR8 : R ≤ 8)
include hR hR8

theorem two_level_rounded {delaunay : Delaunay2} {s t : Simplex 3} (hs : Simplex.Ok s) (ht : Simplex.Ok t) {z : ℝ}
    (zs : ∀ i, Package.dode.perp (s i) 2 = z) (zt : ∀ i, Package.dode.perp (t i) 2 = z)
    (ss : ∀ i, Small .dode R (s i)) (st : ∀ i, Small .dode R (t i))
    (h : ResolvedTriRounded R (Package.dode.perps s) (Package.dode.perps t)) {o : Obj 3}
    (hr : F.intersectionTwoTriangles delaunay s t = .ok (some o)) : Level z o := by
  have zs : Flat z (Package.dode.perps s) := zs
  have zt : Flat z (Package.dode.perps t) := zt
  rw [twoTrianglesF_eq F delaunay hs ht (soundMeets F hR hR8 zs zt ss st h) (soundMeets F hR hR8 zt zs st ss h.symm)] at hr
  split at hr
  · cases hr
  · have hm := (triCommonF_mem F (fun v hv => (commonPtsF_candidate F hR hR8 hs ht zs zt ss st h hv).1) hr).1
    exact fun a ha k => (commonPtsF_candidate F hR hR8 hs ht zs zt ss st h (hm a ha k)).2.1

theorem two_msum_rounded2 {delaunay : Delaunay2} {s t : Simplex 3}
    (hD : ∀ r pns, (∀ v ∈ r, Vec.Ok v ∧ Candidate2 (Package.dode.perps s) (Package.dode.perps t) (Package.dode.perp v)) →
      F.delaunayInput2 r = .ok pns → ¬ InLine (r.map plane) → TilesHullOf2 (r.map plane) (delaunay pns))
    (hs : Simplex.Ok s) (ht : Simplex.Ok t) {z : ℝ} (zs : ∀ i, Package.dode.perp (s i) 2 = z)
    (zt : ∀ i, Package.dode.perp (t i) 2 = z) (ss : ∀ i, Small .dode R (s i)) (st : ∀ i, Small .dode R (t i))
    (h : ResolvedTriRounded R (Package.dode.perps s) (Package.dode.perps t)) (h3 : F.checkTwoTriangles s t = 3)
    {r : Option (Obj 3)} (hr : F.intersectionTwoTriangles delaunay s t = .ok r) :
    Planar.msum z (r.getD []) = volume (body z s ∩ body z t) := by
  obtain ⟨hsub, hz⟩ := C95_two_outcome F hR hR8 delaunay s t (fun r pns h1 h2 h3 => (hD r pns h1 h2 h3).1)
    hs ht z zs zt ss st h h3 r hr
  have zs : Flat z (Package.dode.perps s) := zs
  have zt : Flat z (Package.dode.perps t) := zt
  by_cases hi : (interior (slice z (solid (Package.dode.perps s) ∩ solid (Package.dode.perps t)))).Nonempty
  · have hno : NoOverlap2 z (r.getD []) := by
      cases r with
      | none => exact List.Pairwise.nil
      | some o =>
        rw [twoTrianglesF_eq F delaunay hs ht (soundMeets F hR hR8 zs zt ss st h) (soundMeets F hR hR8 zt zs st ss h.symm)] at hr
        have hcand := fun v hv => commonPtsF_candidate F hR hR8 hs ht zs zt ss st h (v := v) hv
        split at hr
        · cases hr
        · refine common_apart_rounded2 F (fun v hv => (hcand v hv).1) (fun v hv => (hcand v hv).2.1) ?_ (fun r pns hr h1 h2 =>
            hD r pns (fun v hv => ⟨(hcand v (hr v hv)).1, (hcand v (hr v hv)).2.2⟩) h1 h2) hr
          apply not_inLine
          have hlev : ∀ y ∈ {x | ∃ v ∈ commonPtsF F s t, Package.dode.perp v = x}, y 2 = z := by
            rintro y ⟨v, hv, rfl⟩; exact (hcand v hv).2.1
          rw [← commonPtsF_hull F hR hR8 hs ht zs zt ss st h, slice_hull hlev] at hi
          have hset : xy '' {x | ∃ v ∈ commonPtsF F s t, Package.dode.perp v = x} = {y | y ∈ (commonPtsF F s t).map plane} := by
            ext y
            constructor
            · rintro ⟨x, ⟨v, hv, rfl⟩, rfl⟩; exact List.mem_map.2 ⟨v, hv, rfl⟩
            · intro hy
              obtain ⟨v, hv, rfl⟩ := List.mem_map.1 hy
              exact ⟨_, ⟨v, hv, rfl⟩, rfl⟩
          rw [hset] at hi
          exact hi
    rw [← (Planar.region_eq_msum z _).2 hno]
    refine le_antisymm (measure_mono (slice_mono hsub)) ?_
    refine (measure_le_inter_add_sdiff _ (body z s ∩ body z t) (cover z (r.getD []))).trans ?_
    have hz' : volume ((body z s ∩ body z t) \ cover z (r.getD [])) = 0 := hz
    rw [hz', add_zero]
    exact measure_mono Set.inter_subset_right
  · have h0 : volume (body z s ∩ body z t) = 0 := slice_null ((solid_convex _).inter (solid_convex _)) hi
    rw [h0]
    have hsub' : cover z (r.getD []) ⊆ body z s ∩ body z t := slice_mono hsub
    generalize r.getD [] = o at hsub'
    clear hr hz hsub
    induction o with
    | nil => rfl
    | cons a o ih =>
      rw [Planar.region_cons] at hsub'
      have ha : volume (body z a) = 0 := measure_mono_null (Set.subset_union_left.trans hsub') h0
      rw [Planar.msum_cons, ha, ih (Set.subset_union_right.trans hsub'), add_zero]

end

/-! ## Tilings for rounded corners -/

/-- If the rounding keeps the points of a class apart, some library behaviour tiles the hulls of such points. -/
theorem tiles_rounded2 (F : Float64) (P : Vec 6 → Prop) (hok : ∀ v, P v → Vec.Ok v)
    (hinj : ∀ v w, P v → P w →
      (∀ c : Fin 3, c ≠ 2 → F.dodeVector (nvec (Package.dode.kperp.mulVec (kvec Package.dode.theta v))) c =
        F.dodeVector (nvec (Package.dode.kperp.mulVec (kvec Package.dode.theta w))) c) → plane v = plane w) :
    ∃ delaunay : Delaunay2, ∀ r pns, (∀ v ∈ r, P v) → F.delaunayInput2 r = .ok pns → ¬ InLine (r.map plane) →
      TilesHullOf2 (r.map plane) (delaunay pns) := by
  classical
  obtain ⟨D, hD⟩ := exists_tiles2
  refine ⟨fun pns => if h : ∃ r, (∀ v ∈ r, P v) ∧ F.delaunayInput2 r = .ok pns then D (h.choose.map plane) else none,
    fun r pns hr hi hn => ?_⟩
  have h : ∃ r, (∀ v ∈ r, P v) ∧ F.delaunayInput2 r = .ok pns := ⟨r, hr, hi⟩
  have hin : ∀ r : List (Vec 6), (∀ v ∈ r, P v) → F.delaunayInput2 r =
      .ok (r.map fun v => ![F.dodeVector (nvec (Package.dode.kperp *ᵥ kvec Package.dode.theta v)) 0,
        F.dodeVector (nvec (Package.dode.kperp *ᵥ kvec Package.dode.theta v)) 1]) := fun r hr =>
    fillList_ok fun v hv => by
      rw [show Dode.projection3 v = Package.dode.projection3 v from rfl, Package.dode.projection3_ok (hok v (hr v hv)), bind_ok']
  have e : h.choose.map plane = r.map plane := by
    obtain ⟨h1, h2⟩ := h.choose_spec
    generalize h.choose = r' at h1 h2
    rw [hin r' h1, ← hi, hin r hr] at h2
    have h3 := Except.ok.inj h2
    refine List.ext_getElem (by simpa using congrArg List.length h3) fun n a b => ?_
    simp only [List.length_map] at a b
    simp only [List.getElem_map]
    refine hinj _ _ (h1 _ (List.getElem_mem _)) (hr _ (List.getElem_mem _)) ?_
    have := List.getElem_of_eq h3 (i := n) (by simpa using a)
    simp only [List.getElem_map] at this
    intro c hc
    fin_cases c
    · exact congrFun this 0
    · exact congrFun this 1
    · exact absurd rfl hc
  simp only [dif_pos h, e]
  obtain ⟨l, h1, h2⟩ := hD.fills _ hn
  exact ⟨⟨l, h1, hD.index _ _ h1, h2 (hD.index _ _ h1)⟩, fun l hl => hD.apart _ _ hl⟩

/-- Coordinates that are fractions with small denominators are kept apart. -/
theorem plane_eq_of_rounded (F : Float64) {R : ℝ} (hR : 1 ≤ R) (hR2 : R ≤ 2 ^ 10) {N : ℕ} (hN : 18 * R / 2 ^ 53 * N ^ 2 < 1)
    (hN2 : (N : ℤ) ≤ 2 ^ 20) {v w : Vec 6}
    (hv : ∀ c : Fin 3, c ≠ 2 → ∃ p q : ℤ, q ≠ 0 ∧ |q| ≤ N ∧ Package.dode.perp v c = (p : ℝ) / q)
    (hw : ∀ c : Fin 3, c ≠ 2 → ∃ p q : ℤ, q ≠ 0 ∧ |q| ≤ N ∧ Package.dode.perp w c = (p : ℝ) / q)
    (bv : ∀ c : Fin 3, c ≠ 2 → |Package.dode.perp v c| ≤ R) (bw : ∀ c : Fin 3, c ≠ 2 → |Package.dode.perp w c| ≤ R)
    (h : ∀ c : Fin 3, c ≠ 2 → F.dodeVector (nvec (Package.dode.kperp.mulVec (kvec Package.dode.theta v))) c =
      F.dodeVector (nvec (Package.dode.kperp.mulVec (kvec Package.dode.theta w))) c) : plane v = plane w := by
  have : Quad sin60 := Package.dode.quad
  have key : ∀ c : Fin 3, c ≠ 2 → Package.dode.perp v c = Package.dode.perp w c := by
    intro c hc
    obtain ⟨p, q, h0, h1, e1⟩ := hv c hc
    obtain ⟨p', q', h0', h1', e1'⟩ := hw c hc
    have av : ((nvec (Package.dode.kperp.mulVec (kvec Package.dode.theta v))) c).val sin60 = Package.dode.perp v c :=
      congrFun (Package.dode.val_projection3 (v := v)) c
    have aw : ((nvec (Package.dode.kperp.mulVec (kvec Package.dode.theta w))) c).val sin60 = Package.dode.perp w c :=
      congrFun (Package.dode.val_projection3 (v := w)) c
    have bv' := bv c hc
    have bw' := bw c hc
    have s1 := C92_number F hR hR2 _ (smallNum_rational (θ := sin60) (nvec_canon _ c) h0 (av.trans e1) (h1.trans hN2) (by rw [av]; exact bv'))
    have s2 := C92_number F hR hR2 _ (smallNum_rational (θ := sin60) (nvec_canon _ c) h0' (aw.trans e1') (h1'.trans hN2) (by rw [aw]; exact bw'))
    rw [av] at s1
    rw [aw] at s2
    refine fraction_eq h0 h0' h1 h1' e1 e1' hN ?_
    have hc := h c hc
    unfold Float64.dodeVector at hc
    rw [hc] at s1
    rw [abs_le] at s1 s2 ⊢
    constructor <;> linarith [s1.1, s1.2, s2.1, s2.2]
  funext c
  fin_cases c
  · exact key 0 (by decide)
  · exact key 1 (by decide)

/-- Candidates for triangles with integer corners are fractions with small denominators. -/
theorem candidate2_quot {z : ℝ} {S T : Fin 3 → Fin 3 → ℝ} {a b : Fin 3 → Fin 2 → ℤ} (hS : ∀ i, S i = ![(a i 0 : ℝ), a i 1, z])
    (hT : ∀ i, T i = ![(b i 0 : ℝ), b i 1, z]) {D : ℕ} (hD1 : 1 ≤ D)
    (hD : ∀ i j k l : Fin 3, i < j → k < l → |(a j 0 - a i 0) * (b l 1 - b k 1) - (a j 1 - a i 1) * (b l 0 - b k 0)| ≤ D)
    {x : Fin 3 → ℝ} (h : Candidate2 S T x) (c : Fin 3) (hc : c ≠ 2) : ∃ p q : ℤ, q ≠ 0 ∧ |q| ≤ D ∧ x c = (p : ℝ) / q := by
  have hone : |(1 : ℤ)| ≤ D := by rw [abs_one]; exact_mod_cast hD1
  rcases h with ⟨i, rfl, -⟩ | ⟨i, rfl, -⟩ | ⟨i, j, k, l, hij, hkl, h0, s, t, -, -, -, -, rfl, h2⟩
  · fin_cases c
    · exact ⟨a i 0, 1, one_ne_zero, hone, by simp [hS]⟩
    · exact ⟨a i 1, 1, one_ne_zero, hone, by simp [hS]⟩
    · exact absurd rfl hc
  · fin_cases c
    · exact ⟨b i 0, 1, one_ne_zero, hone, by simp [hT]⟩
    · exact ⟨b i 1, 1, one_ne_zero, hone, by simp [hT]⟩
    · exact absurd rfl hc
  · have g0 := congrFun h2 0
    have g1 := congrFun h2 1
    simp [hS, hT] at g0 g1
    set q : ℤ := (a j 0 - a i 0) * (b l 1 - b k 1) - (a j 1 - a i 1) * (b l 0 - b k 0) with hq
    have hq0 : q ≠ 0 := by
      intro hq0
      apply h0
      rw [hS, hS, hT, hT]
      have hq0' : ((a j 0 : ℝ) - a i 0) * (b l 1 - b k 1) - (a j 1 - a i 1) * (b l 0 - b k 0) = 0 := by exact_mod_cast hq0
      funext m
      fin_cases m
      · simp [cross_apply]
      · simp [cross_apply]
      · simpa [cross_apply] using hq0'
    have hq' : (q : ℝ) ≠ 0 := by exact_mod_cast hq0
    set e : ℤ := (b k 0 - a i 0) * (b l 1 - b k 1) - (b k 1 - a i 1) * (b l 0 - b k 0) with he
    have hs : s * q = e := by
      rw [hq, he]; push_cast
      linear_combination ((b l 1 : ℝ) - b k 1) * g0 - ((b l 0 : ℝ) - b k 0) * g1
    have hs' : s = e / q := by rw [eq_div_iff hq']; exact hs
    fin_cases c
    · refine ⟨a i 0 * q + e * (a j 0 - a i 0), q, hq0, hD i j k l hij hkl, ?_⟩
      simp [hS, hs']
      field_simp
    · refine ⟨a i 1 * q + e * (a j 1 - a i 1), q, hq0, hD i j k l hij hkl, ?_⟩
      simp [hS, hs']
      field_simp
    · exact absurd rfl hc

theorem candidate2_bound {S T : Fin 3 → Fin 3 → ℝ} {R : ℝ} (hS : ∀ i c, |S i c| ≤ R) (hT : ∀ i c, |T i c| ≤ R)
    {x : Fin 3 → ℝ} (h : Candidate2 S T x) (c : Fin 3) : |x c| ≤ R := by
  rcases h with ⟨i, rfl, -⟩ | ⟨i, rfl, -⟩ | ⟨i, j, -, -, -, -, -, s, -, h0, h1, -, -, rfl, -⟩
  · exact hS i c
  · exact hT i c
  · exact segment_bound (hS i c) (hS j c) h0 h1

/-- For the two triangles of the examples, in binary64 arithmetic, a tiling of the common corners exists. -/
theorem exLevel_tiles : ∃ delaunay : Delaunay2, ∀ r pns,
    (∀ v ∈ r, Vec.Ok v ∧ Candidate2 (Package.dode.perps exLevel) (Package.dode.perps exLevelInv) (Package.dode.perp v)) →
      Rounding.binary64.float64.delaunayInput2 r = .ok pns → ¬ InLine (r.map plane) →
      TilesHullOf2 (r.map plane) (delaunay pns) := by
  have hq : ∀ {x}, Candidate2 (Package.dode.perps exLevel) (Package.dode.perps exLevelInv) x → ∀ c : Fin 3, c ≠ 2 →
      ∃ p q : ℤ, q ≠ 0 ∧ |q| ≤ (8 : ℕ) ∧ x c = (p : ℝ) / q := fun h => by
    refine candidate2_quot (z := 0) (a := ![![0, 0], ![2, 0], ![0, 2]]) (b := ![![1, 1], ![-1, 1], ![1, -1]])
      ?_ ?_ (by norm_num) (by decide +kernel) h
    · rw [perps_exLevel]
      intro i; fin_cases i <;> simp
    · rw [perps_exLevelInv]
      intro i; fin_cases i <;> simp
  have hb : ∀ {x}, Candidate2 (Package.dode.perps exLevel) (Package.dode.perps exLevelInv) x → ∀ c, |x c| ≤ ((2 : ℕ) : ℝ) :=
    fun h => candidate2_bound (by rw [perps_exLevel]; intro i j; fin_cases i <;> fin_cases j <;> simp)
      (by rw [perps_exLevelInv]; intro i j; fin_cases i <;> fin_cases j <;> simp) h
  exact tiles_rounded2 _ _ (fun v h => h.1) fun v w hv hw => plane_eq_of_rounded _ (R := (2 : ℕ)) (N := 8) (by norm_num)
    (by norm_num) (by norm_num) (by norm_num) (hq hv.2) (hq hw.2) (fun c _ => hb hv.2 c) (fun c _ => hb hw.2 c)

end PyQC
