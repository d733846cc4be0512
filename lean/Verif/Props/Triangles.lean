import Verif.Props.Planar
import Verif.Lemmas.PlanarTile
/-!
# C68: the intersection of objects made of triangles (dode2)

All corners are at one height `z` of perp space, as in every object of the package. `volume` is Mathlib's Lebesgue
measure on the real plane.
-/
namespace PyQC
open Matrix MeasureTheory Dode

/-! ## Two triangles -/

/-- C68: the code for two triangles of a resolved pair is 1 exactly when the first lies in the second, 2 exactly when
that fails and the second lies in the first, 0 exactly when they have no point in common, and 3 otherwise. -/
theorem C68_codes (s t : Simplex 3) (z : ℝ) (zs : ∀ i, Package.dode.perp (s i) 2 = z) (zt : ∀ i, Package.dode.perp (t i) 2 = z)
    (h : ResolvedTri (Package.dode.perps s) (Package.dode.perps t)) :
    let A := solid (Package.dode.perps s)
    let B := solid (Package.dode.perps t)
    (checkTwoTriangles s t = 1 ↔ A ⊆ B) ∧ (checkTwoTriangles s t = 2 ↔ ¬ A ⊆ B ∧ B ⊆ A) ∧
      (checkTwoTriangles s t = 3 ↔ ¬ A ⊆ B ∧ ¬ B ⊆ A ∧ (A ∩ B).Nonempty) ∧
      (checkTwoTriangles s t = 0 ↔ A ∩ B = ∅) := by
  intro A B
  have zs : Flat z (Package.dode.perps s) := zs
  have zt : Flat z (Package.dode.perps t) := zt
  have aS := (triArea_flat_ne zs).1 h.areaS
  have aT := (triArea_flat_ne zt).1 h.areaT
  have hall : ∀ {s t : Simplex 3}, Flat z (Package.dode.perps s) → Flat z (Package.dode.perps t) →
      triArea (Package.dode.perps t) ≠ 0 →
      (∀ i, AcceptsTri (Package.dode.perps t) (Package.dode.perps s i) → Package.dode.perps s i ∈ solid (Package.dode.perps t)) →
      (((List.ofFn s).all fun v => insideTau v t) = true ↔ solid (Package.dode.perps s) ⊆ solid (Package.dode.perps t)) := by
    intro s t zs zt ht hc
    rw [List.all_eq_true]
    constructor
    · intro ha
      refine convexHull_min ?_ (solid_convex _)
      rintro x ⟨i, rfl⟩
      exact hc i ((inside_iff_accepts zt (zs i)).1 (ha (s i) ((List.mem_ofFn' _ _).mpr ⟨i, rfl⟩)))
    · intro hsub v hv
      obtain ⟨i, rfl⟩ := (List.mem_ofFn' _ _).mp hv
      exact (inside_iff_accepts zt (zs i)).2 (acceptsTri_of_mem ht (hsub (subset_convexHull ℝ _ ⟨i, rfl⟩)))
  have h1 := hall zs zt h.areaT h.cornerS
  have h2 := hall zt zs h.areaS h.cornerT
  have hedge : (combE.any fun c => segmentMeetsTriangleTau (segmentOf s c) t || segmentMeetsTriangleTau (segmentOf t c) s) = true ↔
      ∃ x, EdgeEdge (Package.dode.perps s) (Package.dode.perps t) x := by
    simp only [meetsTau_iff, List.any_eq_true, Bool.or_eq_true]
    constructor
    · have key : ∀ {s t : Simplex 3}, Flat z (Package.dode.perps s) → Flat z (Package.dode.perps t) →
          ∀ {c e : Fin 3 × Fin 3}, c ∈ combE → e ∈ combE → segmentsMeetTau (segmentOf s c) (segmentOf t e) = true →
          ∃ x, EdgeEdge (Package.dode.perps s) (Package.dode.perps t) x := by
        intro s t zs zt c e hc he hm
        rw [dode_meet_iff] at hm
        have hne := close_not_parallel hm
        obtain ⟨-, a, b, a0, a1, b0, b1, e'⟩ := (close_planar (z := z) (zs c.1) (zs c.2) (zt e.1) (zt e.2)).1 hm
        exact ⟨_, c.1, c.2, e.1, e.2, mem_combE.1 hc, mem_combE.1 he, hne, a, b, a0, a1, b0, b1, rfl, e'⟩
      rintro ⟨c, hc, ⟨e, he, hm⟩ | ⟨e, he, hm⟩⟩
      · exact key zs zt hc he hm
      · obtain ⟨x, hx⟩ := key zt zs hc he hm
        exact ⟨x, edgeEdge_symm hx⟩
    · rintro ⟨x, i, j, k, l, hij, hkl, hc, a, b, a0, a1, b0, b1, e1, e2⟩
      exact ⟨(i, j), mem_combE.2 hij, .inl ⟨(k, l), mem_combE.2 hkl,
        meets_of_edgeEdge h zs zt hij hkl hc a0 a1 b0 b1 (e1.symm.trans e2)⟩⟩
  have hnone : ∀ {P Q : Fin 3 → Fin 3 → ℝ}, Flat z P → Flat z Q → crossZ Q ≠ 0 → (¬ ∃ x, EdgeEdge P Q x) → ¬ solid P ⊆ solid Q →
      ∀ i, P i ∉ solid Q := by
    intro P Q hP hQ hq hno hsub i hi
    apply hsub
    refine convexHull_min ?_ (solid_convex Q)
    rintro x ⟨j, rfl⟩
    by_contra hj
    rcases lt_trichotomy i j with hij | rfl | hij
    · exact hno (exit_planar hP hQ hq hij (.inl ⟨hi, hj⟩))
    · exact hj hi
    · exact hno (exit_planar hP hQ hq hij (.inr ⟨hi, hj⟩))
  have hempty : ¬ A ⊆ B → ¬ B ⊆ A → ((¬ ∃ x, EdgeEdge (Package.dode.perps s) (Package.dode.perps t) x) ↔ A ∩ B = ∅) := by
    intro n1 n2
    constructor
    · intro hno
      rw [← Set.subset_empty_iff]
      have := common_subset_hull (S := Package.dode.perps s) (T := Package.dode.perps t) (P := ∅) Set.finite_empty (by
        intro x hx
        rcases extreme_planar zs zt aS aT hx with ⟨i, rfl, hm⟩ | ⟨i, rfl, hm⟩ | he
        · exact absurd hm (hnone zs zt aT hno n1 i)
        · exact absurd hm (hnone zt zs aS (fun ⟨x, hx⟩ => hno ⟨x, edgeEdge_symm hx⟩) n2 i)
        · exact absurd ⟨x, he⟩ hno)
      rwa [convexHull_empty] at this
    · rintro he ⟨x, hx⟩
      exact (Set.eq_empty_iff_forall_notMem.1 he) x (edgeEdge_mem hx)
  have hAne : A.Nonempty := ⟨_, subset_convexHull ℝ _ ⟨0, rfl⟩⟩
  have hBne : B.Nonempty := ⟨_, subset_convexHull ℝ _ ⟨0, rfl⟩⟩
  have hAB : A ∩ B = ∅ → ¬ A ⊆ B ∧ ¬ B ⊆ A := by
    intro he
    refine ⟨fun hsub => ?_, fun hsub => ?_⟩
    · rw [Set.inter_eq_left.2 hsub] at he
      exact hAne.ne_empty he
    · rw [Set.inter_eq_right.2 hsub] at he
      exact hBne.ne_empty he
  unfold checkTwoTriangles
  by_cases c1 : ((List.ofFn s).all fun v => insideTau v t) = true
  · rw [if_pos c1]
    rw [h1] at c1
    refine ⟨by simpa using c1, by simpa using fun h => absurd c1 h, by simpa using fun h => absurd c1 h, ?_⟩
    simp only [one_ne_zero, false_iff]
    exact fun he => (hAB he).1 c1
  · rw [if_neg c1]
    rw [h1] at c1
    by_cases c2 : ((List.ofFn t).all fun v => insideTau v s) = true
    · rw [if_pos c2]
      rw [h2] at c2
      refine ⟨by simpa using c1, by simpa using ⟨c1, c2⟩, ?_, ?_⟩
      · simp only [Nat.reduceEqDiff, false_iff]
        exact fun h => h.2.1 c2
      · simp only [OfNat.ofNat_ne_zero, false_iff]
        exact fun he => (hAB he).2 c2
    · rw [if_neg c2]
      rw [h2] at c2
      by_cases c3 : (combE.any fun c => segmentMeetsTriangleTau (segmentOf s c) t || segmentMeetsTriangleTau (segmentOf t c) s) = true
      · rw [if_pos c3]
        rw [hedge] at c3
        have hne : (A ∩ B).Nonempty := Set.nonempty_iff_ne_empty.2 fun he => (hempty c1 c2).2 he c3
        refine ⟨by simpa using c1, by simpa using fun _ => c2, by simpa using ⟨c1, c2, hne⟩, ?_⟩
        simp only [OfNat.ofNat_ne_zero, false_iff]
        exact hne.ne_empty
      · rw [if_neg c3]
        rw [hedge] at c3
        have he := (hempty c1 c2).1 c3
        refine ⟨by simpa using c1, by simpa using fun _ => c2, ?_, by simpa using he⟩
        simp only [OfNat.zero_ne_ofNat, false_iff]
        exact fun h => h.2.2.ne_empty he

theorem dode_region_hull {pts : List (Vec 6)} {o : Obj 3} (h : ∀ a ∈ o, ∀ k, a k ∈ pts) :
    Package.dode.region o ⊆ convexHull ℝ {x | ∃ v ∈ pts, Package.dode.perp v = x} := by
  rintro x ⟨a, ha, hx⟩
  refine convexHull_mono ?_ hx
  rintro y ⟨k, rfl⟩
  exact ⟨a k, h a ha k, rfl⟩

/-- C68 for two triangles: for a resolved level pair with an edge crossing and a triangulation library that fills
convex hulls, nothing is raised. The returned pieces have corners at height `z`, lie in the common part and cover it up
to area zero; they cover it exactly unless the common part has no interior. -/
theorem C68_two (delaunay : Delaunay2) (hD : FillsHull2 delaunay) (s t : Simplex 3) (hs : Simplex.Ok s) (ht : Simplex.Ok t)
    (z : ℝ) (zs : ∀ i, Package.dode.perp (s i) 2 = z) (zt : ∀ i, Package.dode.perp (t i) 2 = z)
    (h : ResolvedTri (Package.dode.perps s) (Package.dode.perps t))
    (hx : ∃ x, EdgeEdge (Package.dode.perps s) (Package.dode.perps t) x) :
    ∃ r, intersectionTwoTriangles delaunay s t = .ok r ∧ r ≠ some [] ∧ Obj.Ok (r.getD []) ∧ Level z (r.getD []) ∧
      Package.dode.region (r.getD []) ⊆ solid (Package.dode.perps s) ∩ solid (Package.dode.perps t) ∧
      volume (slice z ((solid (Package.dode.perps s) ∩ solid (Package.dode.perps t)) \ Package.dode.region (r.getD []))) = 0 ∧
      ((interior (slice z (solid (Package.dode.perps s) ∩ solid (Package.dode.perps t)))).Nonempty →
        Package.dode.region (r.getD []) = solid (Package.dode.perps s) ∩ solid (Package.dode.perps t)) := by
  have zs : Flat z (Package.dode.perps s) := zs
  have zt : Flat z (Package.dode.perps t) := zt
  have hull := commonPts2_hull hs ht zs zt h
  have hcount : hitEdges s t + hitEdges t s ≠ 0 := by
    obtain ⟨x, i, j, k, l, hij, hkl, hc, a, b, a0, a1, b0, b1, e1, e2⟩ := hx
    intro h0
    have := (hit_iff hs ht).1 (by omega : hitEdges s t = 0) i j k l hij hkl
    rw [meets_of_edgeEdge h zs zt hij hkl hc a0 a1 b0 b1 (e1.symm.trans e2)] at this
    cases this
  have hp : ∀ v ∈ commonPts2 s t, Vec.Ok v := fun v hv => (commonPts2_ok hs ht zs zt hv).1
  have hz : ∀ v ∈ commonPts2 s t, Package.dode.perp v 2 = z := fun v hv => (commonPts2_ok hs ht zs zt hv).2
  obtain ⟨r, hr, hm, hne, hf⟩ := triangulateCommon_fills hD hp hz (count_small hs ht zs zt)
  have hsub : Package.dode.region (r.getD []) ⊆ solid (Package.dode.perps s) ∩ solid (Package.dode.perps t) := by
    rw [← hull]; exact dode_region_hull hm
  have hfull : (interior (slice z (solid (Package.dode.perps s) ∩ solid (Package.dode.perps t)))).Nonempty →
      Package.dode.region (r.getD []) = solid (Package.dode.perps s) ∩ solid (Package.dode.perps t) := by
    intro hi
    refine Set.Subset.antisymm hsub ?_
    rw [← hull]
    apply hf
    apply not_inLine
    have hlev : ∀ y ∈ {x | ∃ v ∈ commonPts2 s t, Package.dode.perp v = x}, y 2 = z := by
      rintro y ⟨v, hv, rfl⟩; exact hz v hv
    rw [← hull, slice_hull hlev] at hi
    have hset : xy '' {x | ∃ v ∈ commonPts2 s t, Package.dode.perp v = x} = {y | y ∈ (commonPts2 s t).map plane} := by
      ext y
      constructor
      · rintro ⟨x, ⟨v, hv, rfl⟩, rfl⟩; exact List.mem_map.2 ⟨v, hv, rfl⟩
      · intro hy
        obtain ⟨v, hv, rfl⟩ := List.mem_map.1 hy
        exact ⟨_, ⟨v, hv, rfl⟩, rfl⟩
    rw [hset] at hi
    exact hi
  refine ⟨r, ?_, hne, fun a ha k => hp _ (hm a ha k), fun a ha k => hz _ (hm a ha k), hsub, ?_, hfull⟩
  · rw [intersectionTwoTriangles_eq delaunay hs ht, if_neg hcount, hr]
  · by_cases hi : (interior (slice z (solid (Package.dode.perps s) ∩ solid (Package.dode.perps t)))).Nonempty
    · rw [hfull hi, Set.sdiff_self]
      exact measure_empty
    · exact measure_mono_null (slice_mono Set.sdiff_subset)
        (slice_null ((solid_convex _).inter (solid_convex _)) hi)

/-- C68: called directly on triangles without a crossing of edges, the function raises UnboundLocalError. -/
theorem C68_two_raises (delaunay : Delaunay2) (s t : Simplex 3) (hs : Simplex.Ok s) (ht : Simplex.Ok t)
    (hx : ∀ i j k l : Fin 3, i < j → k < l → ¬ SegmentsClose (Package.dode.perps s i) (Package.dode.perps s j)
      (Package.dode.perps t k) (Package.dode.perps t l))
    (hx' : ∀ i j k l : Fin 3, i < j → k < l → ¬ SegmentsClose (Package.dode.perps t i) (Package.dode.perps t j)
      (Package.dode.perps s k) (Package.dode.perps s l)) :
    intersectionTwoTriangles delaunay s t = .error .unboundLocalError := by
  rw [intersectionTwoTriangles_eq delaunay hs ht, if_pos]
  have h1 : hitEdges s t = 0 := (hit_iff hs ht).2 fun i j k l hij hkl => by
    rw [← Bool.not_eq_true, dode_meet_iff]; exact hx i j k l hij hkl
  have h2 : hitEdges t s = 0 := (hit_iff ht hs).2 fun i j k l hij hkl => by
    rw [← Bool.not_eq_true, dode_meet_iff]; exact hx' i j k l hij hkl
  rw [h1, h2]

/-! ## Two objects -/

namespace Planar

theorem intersectionTwoObj1_eq (kind : Ico.Kind) (delaunay : Simplex 3 → Simplex 3 → Delaunay2) {obj1 obj2 : Obj 3}
    (h2 : Obj.Ok obj2) (h0 : obj2 ≠ []) :
    ∃ (c : Vec 6) (d : ℝ), Vec.Ok c ∧ centroidObj arith obj2 = .ok c ∧ ballRadiusObj .dode obj2 c = .ok d ∧
      intersectionTwoObj1 kind delaunay obj1 obj2 = intersectionTwoObj kind (fun t => roughCheck .dode t c d)
        (fun s t => .ok (checkTwoTriangles s t)) (fun s t => intersectionTwoTriangles (delaunay s t) s t) obj1 obj2 := by
  obtain ⟨c, hc, hok⟩ : ∃ c, centroidObj arith obj2 = .ok c ∧ Vec.Ok c :=
    ⟨_, centroidObj_ok Package.dode.lawful h0 (by decide) h2, nvec_ok _⟩
  obtain ⟨R, hR, -⟩ := C35_radius_obj .dode (by decide) obj2 h0 c h2 hok
  refine ⟨c, R, hok, hc, hR, ?_⟩
  unfold intersectionTwoObj1
  rw [hc, bind_ok', hR, bind_ok']

theorem innerLoop_total {flag : Simplex 3 → Simplex 3 → Py Nat} {inter : Simplex 3 → Simplex 3 → Py (Option (Obj 3))}
    {t1 : Simplex 3} (l : Obj 3) (h1 : ∀ t ∈ l, ∃ f, flag t1 t = .ok f)
    (h3 : ∀ t ∈ l, flag t1 t = .ok 3 → ∃ r, inter t1 t = .ok r) (acc : Obj 3) :
    ∃ r, innerLoop flag inter t1 acc l = .ok r := by
  induction l generalizing acc with
  | nil => exact ⟨_, rfl⟩
  | cons t l ih =>
    have ih' := ih (fun t ht => h1 t (by simp [ht])) (fun t ht => h3 t (by simp [ht]))
    unfold innerLoop
    obtain ⟨f, hf⟩ := h1 t (by simp)
    rw [hf, bind_ok']
    by_cases f1 : f = 1
    · rw [if_pos f1]; exact ⟨_, rfl⟩
    · rw [if_neg f1]
      by_cases f2 : f = 2
      · rw [if_pos f2]; exact ih' _
      · rw [if_neg f2]
        by_cases f3 : f = 3
        · rw [if_pos f3]
          obtain ⟨o, ho⟩ := h3 t (by simp) (by rw [hf, f3])
          rw [ho, bind_ok']
          cases o with
          | none => exact ih' _
          | some o => exact ih' _
        · rw [if_neg f3]; exact ih' _

theorem intersectionTwoObj_total {kind : Ico.Kind} {rough : Simplex 3 → Py Bool} {flag : Simplex 3 → Simplex 3 → Py Nat}
    {inter : Simplex 3 → Simplex 3 → Py (Option (Obj 3))} {obj1 obj2 : Obj 3} (ok1 : Obj.Ok obj1) (ok2 : Obj.Ok obj2)
    (hr : ∀ s ∈ obj1, ∃ b, rough s = .ok b) (h1 : ∀ s ∈ obj1, ∀ t ∈ obj2, ∃ f, flag s t = .ok f)
    (h3 : ∀ s ∈ obj1, ∀ t ∈ obj2, flag s t = .ok 3 → ∃ r, inter s t = .ok r ∧ Obj.Ok (r.getD [])) :
    ∃ r, intersectionTwoObj kind rough flag inter obj1 obj2 = .ok r := by
  have hone : ∀ s ∈ obj1, ∃ p, onePiece kind rough flag inter obj2 s = .ok p := by
    intro s hs
    unfold onePiece
    obtain ⟨b, hb⟩ := hr s hs
    rw [hb, bind_ok']
    cases b with
    | false => exact ⟨_, rfl⟩
    | true =>
      rw [if_pos rfl]
      obtain ⟨⟨inside, tmp⟩, hl⟩ := innerLoop_total (flag := flag) (inter := inter) (t1 := s) obj2 (h1 s hs)
        (fun t ht hf => let ⟨r, hr, _⟩ := h3 s hs t ht hf; ⟨r, hr⟩) []
      have htmp : Obj.Ok tmp := (innerLoop_all (Q := Simplex.Ok) obj2 (fun t ht _ => ok2 t ht)
        (fun t ht o hf ho => by
          obtain ⟨r, hr, hok⟩ := h3 s hs t ht hf
          rw [ho] at hr
          cases hr
          exact hok) [] (by simp) _ hl).1
      rw [hl, bind_ok']
      simp only
      by_cases hn : tmp.length ≠ 0
      · rw [if_pos hn]
        cases kind with
        | standard => exact ⟨_, rfl⟩
        | simple =>
          simp only
          rw [triangleArea6d_ok (ok1 s hs), bind_ok', objArea_ok htmp, bind_ok']
          split
          · exact ⟨_, rfl⟩
          · exact ⟨_, rfl⟩
      · rw [if_neg hn]; exact ⟨_, rfl⟩
  unfold intersectionTwoObj
  have hfill : ∃ parts, fillList (onePiece kind rough flag inter obj2) obj1 = .ok parts := by
    clear h1 h3 ok1 hr
    induction obj1 with
    | nil => exact ⟨[], rfl⟩
    | cons a l ih =>
      obtain ⟨p, hp⟩ := hone a (by simp)
      obtain ⟨ps, hps⟩ := ih (fun s hs => hone s (by simp [hs]))
      unfold fillList
      rw [hp]
      simp only
      rw [hps]
      exact ⟨_, rfl⟩
  obtain ⟨parts, hparts⟩ := hfill
  rw [hparts, bind_ok']
  split
  · exact ⟨_, rfl⟩
  · exact ⟨_, rfl⟩

/-- A pair with code 3 has a crossing of edges. -/
theorem edge_of_code {s t : Simplex 3} {z : ℝ} (zs : Flat z (Package.dode.perps s)) (zt : Flat z (Package.dode.perps t))
    (h : checkTwoTriangles s t = 3) : ∃ x, EdgeEdge (Package.dode.perps s) (Package.dode.perps t) x := by
  have key : ∀ {s t : Simplex 3}, Flat z (Package.dode.perps s) → Flat z (Package.dode.perps t) →
      ∀ {c e : Fin 3 × Fin 3}, c ∈ combE → e ∈ combE → segmentsMeetTau (segmentOf s c) (segmentOf t e) = true →
      ∃ x, EdgeEdge (Package.dode.perps s) (Package.dode.perps t) x := by
    intro s t zs zt c e hc he hm
    rw [dode_meet_iff] at hm
    have hne := close_not_parallel hm
    obtain ⟨-, a, b, a0, a1, b0, b1, e'⟩ := (close_planar (z := z) (zs c.1) (zs c.2) (zt e.1) (zt e.2)).1 hm
    exact ⟨_, c.1, c.2, e.1, e.2, mem_combE.1 hc, mem_combE.1 he, hne, a, b, a0, a1, b0, b1, rfl, e'⟩
  unfold checkTwoTriangles at h
  split at h
  · cases h
  · split at h
    · cases h
    · split at h
      · rename_i h3
        simp only [meetsTau_iff, List.any_eq_true, Bool.or_eq_true] at h3
        obtain ⟨c, hc, ⟨e, he, hm⟩ | ⟨e, he, hm⟩⟩ := h3
        · exact key zs zt hc he hm
        · obtain ⟨x, hx⟩ := key zt zs hc he hm
          exact ⟨x, edgeEdge_symm hx⟩
      · cases h

end Planar

open Planar

/-- C68 for objects, both kinds: when all corners of two well-formed objects are at one height, every pair of triangles
is resolved and the triangulation library fills convex hulls, the intersection never raises, returns `None` or a
non-empty object, and loses nothing: the returned pieces cover the common part up to area zero. -/
theorem C68_objects (kind : Ico.Kind) (delaunay : Simplex 3 → Simplex 3 → Delaunay2) (obj1 obj2 : Obj 3) (z : ℝ)
    (hD : ∀ s ∈ obj1, ∀ t ∈ obj2, FillsHull2 (delaunay s t)) (h0 : obj2 ≠ []) (ok1 : Obj.Ok obj1) (ok2 : Obj.Ok obj2)
    (z1 : Level z obj1) (z2 : Level z obj2)
    (h : ∀ s ∈ obj1, ∀ t ∈ obj2, ResolvedTri (Package.dode.perps s) (Package.dode.perps t)) :
    ∃ r, intersectionApi kind delaunay (.d4 obj1) (.d4 obj2) = .ok r ∧ r ≠ some [] ∧
      volume (slice z ((Package.dode.region obj1 ∩ Package.dode.region obj2) \ Package.dode.region (r.getD []))) = 0 := by
  obtain ⟨c, d, hcok, hc, hd, e⟩ := Planar.intersectionTwoObj1_eq kind delaunay (obj1 := obj1) ok2 h0
  have htwo : ∀ s ∈ obj1, ∀ t ∈ obj2, (.ok (checkTwoTriangles s t) : Py Nat) = .ok 3 →
      ∃ r, intersectionTwoTriangles (delaunay s t) s t = .ok r ∧ r ≠ some [] ∧ Obj.Ok (r.getD []) ∧ Level z (r.getD []) ∧
      Package.dode.region (r.getD []) ⊆ solid (Package.dode.perps s) ∩ solid (Package.dode.perps t) ∧
      volume (slice z ((solid (Package.dode.perps s) ∩ solid (Package.dode.perps t)) \ Package.dode.region (r.getD []))) = 0 ∧
      ((interior (slice z (solid (Package.dode.perps s) ∩ solid (Package.dode.perps t)))).Nonempty →
        Package.dode.region (r.getD []) = solid (Package.dode.perps s) ∩ solid (Package.dode.perps t)) := by
    intro s hs t ht hf
    exact C68_two _ (hD s hs t ht) s t (ok1 s hs) (ok2 t ht) z (z1 s hs) (z2 t ht) (h s hs t ht)
      (edge_of_code (z1 s hs) (z2 t ht) (Except.ok.inj hf))
  obtain ⟨r, hr⟩ := intersectionTwoObj_total (kind := kind) (rough := fun t => roughCheck .dode t c d)
    (flag := fun s t => .ok (checkTwoTriangles s t)) (inter := fun s t => intersectionTwoTriangles (delaunay s t) s t)
    ok1 ok2 (fun s hs => by
      obtain ⟨R, -, -, b, hb, -⟩ := roughCheck_ok .dode (by decide) s c (ok1 s hs) hcok d
      exact ⟨b, hb⟩) (fun s _ t _ => ⟨_, rfl⟩)
    (fun s hs t ht hf => by
      obtain ⟨r, hr, -, hok, -⟩ := htwo s hs t ht hf
      exact ⟨r, hr, hok⟩)
  refine ⟨r, ?_, ?_, ?_⟩
  · change intersectionTwoObj1 kind delaunay obj1 obj2 = _
    rw [e]; exact hr
  · rintro rfl
    unfold intersectionTwoObj at hr
    cases hf : fillList (onePiece kind (fun t => roughCheck .dode t c d) (fun s t => .ok (checkTwoTriangles s t))
      (fun s t => intersectionTwoTriangles (delaunay s t) s t) obj2) obj1 with
    | error e => rw [hf, bind_error'] at hr; cases hr
    | ok parts =>
      rw [hf, bind_ok'] at hr
      by_cases hn : parts.flatten.length ≠ 0
      · rw [if_pos hn] at hr
        have := Option.some.inj (Except.ok.inj hr)
        rw [this] at hn
        exact hn rfl
      · rw [if_neg hn] at hr; cases hr
  · refine Planar.intersectionTwoObj_cover (z := z) ?_ ?_ ?_ hr
    · intro s hs hro t ht
      refine measure_mono_null (t := ∅) ?_ measure_empty
      rw [Set.subset_empty_iff, Set.eq_empty_iff_forall_notMem]
      rintro x ⟨hx, hx'⟩
      have := C35_object .dode (by decide) s obj2 (ok1 s hs) ok2 t ht _ hx hx'
      rw [show Package.dode.arith = arith from rfl, hc, bind_ok', hd, bind_ok', hro] at this
      cases this
    · intro s hs t ht f hf f1 f2 f3
      have hf := Except.ok.inj hf
      obtain ⟨c1, c2, c3, c0⟩ := C68_codes s t z (z1 s hs) (z2 t ht) (h s hs t ht)
      have he : solid (Package.dode.perps s) ∩ solid (Package.dode.perps t) = ∅ := by
        rw [← c0]
        have : checkTwoTriangles s t = 0 ∨ checkTwoTriangles s t = 1 ∨ checkTwoTriangles s t = 2 ∨
            checkTwoTriangles s t = 3 := by
          unfold checkTwoTriangles
          split
          · simp
          · split
            · simp
            · split <;> simp
        omega
      exact measure_mono_null (t := ∅) (fun x hx => Set.eq_empty_iff_forall_notMem.1 he _ hx) measure_empty
    · intro s hs t ht r' hf hr'
      obtain ⟨r'', h1, -, -, -, -, h2, -⟩ := htwo s hs t ht hf
      rw [hr'] at h1
      cases h1
      exact h2

/-- C68 for objects, the converse: with kind 'standard' the returned pieces lie in the common part of the two
objects. -/
theorem C68_objects_inside (delaunay : Simplex 3 → Simplex 3 → Delaunay2) (obj1 obj2 : Obj 3) (z : ℝ)
    (hD : ∀ s ∈ obj1, ∀ t ∈ obj2, FillsHull2 (delaunay s t)) (h0 : obj2 ≠ []) (ok1 : Obj.Ok obj1) (ok2 : Obj.Ok obj2)
    (z1 : Level z obj1) (z2 : Level z obj2)
    (h : ∀ s ∈ obj1, ∀ t ∈ obj2, ResolvedTri (Package.dode.perps s) (Package.dode.perps t)) (r : Option (Obj 3))
    (hr : intersectionApi .standard delaunay (.d4 obj1) (.d4 obj2) = .ok r) :
    Package.dode.region (r.getD []) ⊆ Package.dode.region obj1 ∩ Package.dode.region obj2 := by
  change intersectionTwoObj1 .standard delaunay obj1 obj2 = _ at hr
  obtain ⟨c, d, -, -, -, e⟩ := Planar.intersectionTwoObj1_eq .standard delaunay (obj1 := obj1) ok2 h0
  rw [e] at hr
  cases r with
  | none => rintro x ⟨a, ha, -⟩; simp at ha
  | some r =>
    obtain ⟨-, h2⟩ := Planar.intersectionTwoObj_mem
      (Q := fun s a => ∃ t ∈ obj2, solid (Package.dode.perps a) ⊆ solid (Package.dode.perps s) ∩ solid (Package.dode.perps t))
      (fun s hs t ht hf => ⟨t, ht, fun x hx => ⟨hx, (C68_codes s t z (z1 s hs) (z2 t ht) (h s hs t ht)).1.1 (Except.ok.inj hf) hx⟩⟩)
      (fun s hs t ht hf => ⟨t, ht, fun x hx =>
        ⟨((C68_codes s t z (z1 s hs) (z2 t ht) (h s hs t ht)).2.1.1 (Except.ok.inj hf)).2 hx, hx⟩⟩)
      (fun s hs t ht o hf hi a ha => ⟨t, ht, fun x hx => by
        obtain ⟨r', hr', -, -, -, hsub, -⟩ := C68_two _ (hD s hs t ht) s t (ok1 s hs) (ok2 t ht) z (z1 s hs) (z2 t ht)
          (h s hs t ht) (edge_of_code (z1 s hs) (z2 t ht) (Except.ok.inj hf))
        rw [hi] at hr'
        cases hr'
        exact hsub ⟨a, ha, hx⟩⟩) hr
    rintro x ⟨a, ha, hx⟩
    obtain ⟨s, hs, ⟨t, ht, hsub⟩ | ⟨hk, -⟩⟩ := h2 a ha
    · exact ⟨⟨s, hs, (hsub hx).1⟩, ⟨t, ht, (hsub hx).2⟩⟩
    · cases hk

/-! ## Cases that meet the hypotheses -/

/-- A sufficient condition for a pair to be resolved: corners on a grid of spacing `1/n` with `n ≤ 31`, and areas below
half a million grid cells. -/
theorem C68_grid (s t : Simplex 3) (z : ℝ) (a b : Fin 3 → Fin 2 → ℤ) (n : ℕ) (hn : 0 < n) (hn2 : n ^ 4 ≤ 10 ^ 6)
    (hs : ∀ i, Package.dode.perp (s i) = ![(a i 0 : ℝ) / n, a i 1 / n, z])
    (ht : ∀ i, Package.dode.perp (t i) = ![(b i 0 : ℝ) / n, b i 1 / n, z])
    (ha0 : triZ (a 0) (a 1) (a 2) ≠ 0) (hb0 : triZ (b 0) (b 1) (b 2) ≠ 0)
    (ha : |triZ (a 0) (a 1) (a 2)| < 10 ^ 6) (hb : |triZ (b 0) (b 1) (b 2)| < 10 ^ 6) :
    ResolvedTri (Package.dode.perps s) (Package.dode.perps t) :=
  resolvedTri_int (z := z) hn hn2 (fun i => congrFun (hs i) 2) (fun i => congrFun (ht i) 2) (fun i => congrFun (hs i) 0)
    (fun i => congrFun (hs i) 1) (fun i => congrFun (ht i) 0) (fun i => congrFun (ht i) 1) ha0 hb0 ha hb

theorem flatFrac_ok {x y n : Int} (h : n ≠ 0) : Vec.Ok (flatFrac x y n) := by
  intro i; fin_cases i <;> first | exact h | exact one_ne_zero

/-- The triangle x, y ≤ 1, x + y ≥ 0. -/
def exLevelInv : Simplex 3 := ![flatFrac 1 1 1, flatFrac (-1) 1 1, flatFrac 1 (-1) 1]

theorem perps_exLevelInv : Package.dode.perps exLevelInv = ![![1, 1, 0], ![-1, 1, 0], ![1, -1, 0]] := by
  funext i
  fin_cases i <;> refine (perp_flatFrac _ _ _).trans ?_ <;> funext j <;> fin_cases j <;> norm_num

theorem exLevel_ok : Simplex.Ok exLevel := by intro i; fin_cases i <;> exact flatFrac_ok (by decide)
theorem exLevelInv_ok : Simplex.Ok exLevelInv := by intro i; fin_cases i <;> exact flatFrac_ok (by decide)

theorem exLevelInv_flat (i : Fin 3) : Package.dode.perp (exLevelInv i) 2 = 0 := by
  change Package.dode.perps exLevelInv i 2 = 0
  rw [perps_exLevelInv]; fin_cases i <;> rfl

theorem exLevel_resolved : ResolvedTri (Package.dode.perps exLevel) (Package.dode.perps exLevelInv) := by
  refine C68_grid exLevel exLevelInv 0 ![![0, 0], ![2, 0], ![0, 2]] ![![1, 1], ![-1, 1], ![1, -1]] 1 (by norm_num) (by norm_num)
    (fun i => ?_) (fun i => ?_) (by decide) (by decide) (by decide) (by decide)
  · change Package.dode.perps exLevel i = _
    rw [perps_exLevel]; fin_cases i <;> simp
  · change Package.dode.perps exLevelInv i = _
    rw [perps_exLevelInv]; fin_cases i <;> simp

theorem exLevel_slice : slice 0 (solid (Package.dode.perps exLevel)) = {p | 0 ≤ p 0 ∧ 0 ≤ p 1 ∧ p 0 + p 1 ≤ 2} := by
  ext p
  change ![p 0, p 1, 0] ∈ solid (Package.dode.perps exLevel) ↔ 0 ≤ p 0 ∧ 0 ≤ p 1 ∧ p 0 + p 1 ≤ 2
  rw [mem_solid_iff, perps_exLevel]
  constructor
  · rintro ⟨w, hw, h0⟩
    obtain ⟨e, hj⟩ := isBary_three.1 hw
    have h1 := hj 0
    have h2 := hj 1
    simp at h1 h2
    have := h0 0; have := h0 1; have := h0 2
    exact ⟨by linarith, by linarith, by linarith⟩
  · rintro ⟨h1, h2, h3⟩
    refine ⟨![1 - p 0 / 2 - p 1 / 2, p 0 / 2, p 1 / 2], isBary_three.2 ⟨by simp; ring, fun j => ?_⟩, fun i => ?_⟩
    · fin_cases j <;> simp
    · fin_cases i <;> simp <;> linarith

theorem exLevelInv_slice : slice 0 (solid (Package.dode.perps exLevelInv)) = {p | p 0 ≤ 1 ∧ p 1 ≤ 1 ∧ 0 ≤ p 0 + p 1} := by
  ext p
  change ![p 0, p 1, 0] ∈ solid (Package.dode.perps exLevelInv) ↔ p 0 ≤ 1 ∧ p 1 ≤ 1 ∧ 0 ≤ p 0 + p 1
  rw [mem_solid_iff, perps_exLevelInv]
  constructor
  · rintro ⟨w, hw, h0⟩
    obtain ⟨e, hj⟩ := isBary_three.1 hw
    have h1 := hj 0
    have h2 := hj 1
    simp at h1 h2
    have := h0 0; have := h0 1; have := h0 2
    exact ⟨by linarith, by linarith, by linarith⟩
  · rintro ⟨h1, h2, h3⟩
    refine ⟨![1 - (1 - p 0) / 2 - (1 - p 1) / 2, (1 - p 0) / 2, (1 - p 1) / 2],
      isBary_three.2 ⟨by simp; ring, fun j => ?_⟩, fun i => ?_⟩
    · fin_cases j <;> simp <;> ring
    · fin_cases i <;> simp <;> linarith

/-- The common part is the unit square. -/
theorem exLevel_common : slice 0 (solid (Package.dode.perps exLevel) ∩ solid (Package.dode.perps exLevelInv)) = Set.Icc 0 1 := by
  rw [slice_inter, exLevel_slice, exLevelInv_slice]
  ext p
  simp only [Set.mem_inter_iff, Set.mem_ofPred_eq, Set.mem_Icc, Pi.le_def, Fin.forall_fin_two, Pi.zero_apply, Pi.one_apply]
  constructor
  · rintro ⟨⟨h1, h2, h3⟩, h4, h5, h6⟩; exact ⟨⟨h1, h2⟩, h4, h5⟩
  · rintro ⟨⟨h1, h2⟩, h4, h5⟩; exact ⟨⟨h1, h2, by linarith⟩, h4, h5, by linarith⟩

theorem exLevel_interior :
    (interior (slice 0 (solid (Package.dode.perps exLevel) ∩ solid (Package.dode.perps exLevelInv)))).Nonempty := by
  rw [exLevel_common]
  refine ⟨fun _ => 1 / 2, ?_⟩
  rw [mem_interior_iff_mem_nhds]
  exact pi_Icc_mem_nhds (fun i => by simp) (fun i => by simp; norm_num)

theorem exLevel_edge : ∃ x, EdgeEdge (Package.dode.perps exLevel) (Package.dode.perps exLevelInv) x := by
  refine ⟨![1, 0, 0], 0, 1, 0, 2, by decide, by decide, ?_, 1 / 2, 1 / 2, by norm_num, by norm_num, by norm_num, by norm_num, ?_, ?_⟩
  · rw [perps_exLevel, perps_exLevelInv]
    intro h
    have := congrFun h 2
    simp [cross_apply] at this
    norm_num at this
  · rw [perps_exLevel]
    funext j; fin_cases j <;> simp
  · rw [perps_exLevelInv]
    funext j; fin_cases j <;> simp <;> norm_num

theorem exLevel_code : checkTwoTriangles exLevel exLevelInv = 3 := by
  rw [(C68_codes _ _ 0 exLevel_flat exLevelInv_flat exLevel_resolved).2.2.1]
  refine ⟨fun h => ?_, fun h => ?_, ?_⟩
  · have := slice_mono (z := 0) h
    rw [exLevel_slice, exLevelInv_slice] at this
    have := (this (show (![2, 0] : Fin 2 → ℝ) ∈ _ by simp)).1
    norm_num at this
  · have := slice_mono (z := 0) h
    rw [exLevel_slice, exLevelInv_slice] at this
    have := (this (show (![-1, 1] : Fin 2 → ℝ) ∈ _ by simp)).1
    norm_num at this
  · obtain ⟨x, hx⟩ := exLevel_edge
    exact ⟨x, edgeEdge_mem hx⟩

/-- The hypotheses of `C68_codes` and `C68_two` are met by two triangles whose common part is the unit square, and the
pieces returned cover exactly that square. -/
example : ∃ delaunay, FillsHull2 delaunay ∧ ∃ o, intersectionTwoTriangles delaunay exLevel exLevelInv = .ok (some o) ∧
    slice 0 (Package.dode.region o) = Set.Icc 0 1 := by
  obtain ⟨delaunay, hD⟩ := exists_tiles2
  obtain ⟨r, hr, -, -, -, -, -, h⟩ := C68_two delaunay hD.toFillsHull2 exLevel exLevelInv exLevel_ok exLevelInv_ok 0 exLevel_flat exLevelInv_flat
    exLevel_resolved exLevel_edge
  have e := h exLevel_interior
  cases r with
  | none =>
    exfalso
    have : slice 0 (Package.dode.region ([] : Obj 3)) = Set.Icc 0 1 := by rw [← exLevel_common]; exact congrArg _ e
    have h0 : (0 : Fin 2 → ℝ) ∈ slice 0 (Package.dode.region ([] : Obj 3)) := by
      rw [this]; simp [Pi.le_def]
    obtain ⟨a, ha, -⟩ := h0
    simp at ha
  | some o => exact ⟨delaunay, hD.toFillsHull2, o, hr, by rw [← exLevel_common]; exact congrArg _ e⟩

/-- The hypotheses of `C68_objects` and `C68_objects_inside` are met by the same two triangles as objects. -/
example : ∃ delaunay : Simplex 3 → Simplex 3 → Delaunay2, (∀ s t, FillsHull2 (delaunay s t)) ∧ ∃ r,
    intersectionApi .standard delaunay (.d4 [exLevel]) (.d4 [exLevelInv]) = .ok r ∧
    slice 0 (Package.dode.region (r.getD [])) ⊆ Set.Icc 0 1 ∧
    volume (Set.Icc 0 1 \ slice 0 (Package.dode.region (r.getD []))) = 0 := by
  obtain ⟨delaunay, hD⟩ := exists_tiles2
  have ok1 : Obj.Ok [exLevel] := by intro t ht; rw [List.mem_singleton.1 ht]; exact exLevel_ok
  have ok2 : Obj.Ok [exLevelInv] := by intro t ht; rw [List.mem_singleton.1 ht]; exact exLevelInv_ok
  have z1 : Level 0 [exLevel] := by intro t ht; rw [List.mem_singleton.1 ht]; exact exLevel_flat
  have z2 : Level 0 [exLevelInv] := by intro t ht; rw [List.mem_singleton.1 ht]; exact exLevelInv_flat
  have hres : ∀ s ∈ [exLevel], ∀ t ∈ [exLevelInv], ResolvedTri (Package.dode.perps s) (Package.dode.perps t) := by
    simpa using exLevel_resolved
  have hreg : Package.dode.region [exLevel] ∩ Package.dode.region [exLevelInv] =
      solid (Package.dode.perps exLevel) ∩ solid (Package.dode.perps exLevelInv) := by
    ext x
    simp [Package.region]
  obtain ⟨r, hr, -, hv⟩ := C68_objects .standard (fun _ _ => delaunay) [exLevel] [exLevelInv] 0 (fun _ _ _ _ => hD.toFillsHull2) (by simp)
    ok1 ok2 z1 z2 hres
  have hin := C68_objects_inside (fun _ _ => delaunay) [exLevel] [exLevelInv] 0 (fun _ _ _ _ => hD.toFillsHull2) (by simp) ok1 ok2 z1 z2
    hres r hr
  rw [hreg] at hv hin
  refine ⟨fun _ _ => delaunay, fun _ _ => hD.toFillsHull2, r, hr, ?_, ?_⟩
  · rw [← exLevel_common]; exact slice_mono hin
  · rw [← exLevel_common, ← slice_sdiff]; exact hv

end PyQC
