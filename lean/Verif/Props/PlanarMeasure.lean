import Verif.Props.Triangles
/-!
# C69: areas of objects made of triangles (dode2) are Lebesgue measures

`volume` is Mathlib's Lebesgue measure on the real plane. All corners are at one height `z` of perp space.
-/
namespace PyQC
open Matrix MeasureTheory Dode Planar

/-- C69: the exact area of a level triangle is the Lebesgue measure of the convex hull of its three perp points. -/
theorem C69_triangle (t : Simplex 3) (h : Simplex.Ok t) (z : ℝ) (hz : ∀ i, Package.dode.perp (t i) 2 = z) :
    ∃ w, triangleArea6d t = .ok w ∧ ENNReal.ofReal (w.val sin60) = volume (slice z (solid (Package.dode.perps t))) := by
  obtain ⟨w, hw, -, hv, -⟩ := C43_area t h
  exact ⟨w, hw, by rw [hv, volume_triangle (q := Package.dode.perps t) hz]⟩

/-- C69: the exact area of a level object is at least the Lebesgue measure of the region it covers, and equal to it
exactly when no two triangles overlap. -/
theorem C69_object (o : Obj 3) (h : Obj.Ok o) (z : ℝ) (hz : Level z o) :
    ∃ w, objArea6d (.d4 o) = .ok (some w) ∧ volume (slice z (Package.dode.region o)) ≤ ENNReal.ofReal (w.val sin60) ∧
      (volume (slice z (Package.dode.region o)) = ENNReal.ofReal (w.val sin60) ↔ NoOverlap2 z o) := by
  obtain ⟨⟨w, hw, -, hv⟩, -⟩ := C43_object o h
  refine ⟨w, hw, ?_, ?_⟩
  · rw [hv, ← Planar.msum_val hz]; exact Planar.region_le_msum z o
  · rw [hv, ← Planar.msum_val hz]; exact Planar.region_eq_msum z o

/-! ## No overlaps -/

/-- Triangles proposed by a library that tiles do not overlap. -/
theorem triangulation_apart {delaunay : Delaunay2} {pts : List (Vec 6)}
    (hI : ∀ l, delaunay (pts.map plane) = some l → ∀ i ∈ l, ∀ k, i k < (pts.map plane).length)
    (hD : ∀ l, delaunay (pts.map plane) = some l → ∀ h : ∀ i ∈ l, ∀ k, i k < (pts.map plane).length,
      (l.attach.map fun i k => (pts.map plane)[i.1 k]'(h i.1 i.2 k)).Pairwise fun a b : Fin 3 → Fin 2 → ℝ =>
        interior (convexHull ℝ (Set.range a)) ∩ interior (convexHull ℝ (Set.range b)) = ∅)
    (hp : ∀ v ∈ pts, Vec.Ok v) {z : ℝ} (hz : ∀ v ∈ pts, Package.dode.perp v 2 = z) {o : Obj 3}
    (ho : triangulationPoints delaunay pts = .ok (some o)) : NoOverlap2 z o := by
  obtain ⟨hn, hs⟩ := triangulationPoints_eq (delaunay := delaunay) hp
  cases hd : delaunay (pts.map plane) with
  | none => rw [hn hd] at ho; cases ho
  | some l =>
    have hrange : ∀ i ∈ l, ∀ k, i k < pts.length := fun i hi k => by simpa using hI l hd i hi k
    obtain ⟨r, hr, -, hsub, -⟩ := hs l hd hrange
    rw [ho] at hr
    have : o = r := by
      by_cases h0 : r.length ≠ 0
      · rw [if_pos h0] at hr; cases hr; rfl
      · rw [if_neg h0] at hr; cases hr
    subst this
    have hpw := hD l hd (fun i hi k => by simpa using hrange i hi k)
    unfold NoOverlap2
    refine List.Pairwise.sublist hsub ?_
    unfold proposed2
    rw [List.pairwise_map] at hpw ⊢
    refine hpw.imp ?_
    intro a b hab
    simp only [List.getElem_map] at hab
    rw [slice_solid (q := Package.dode.perps _) (fun k => hz _ (List.getElem_mem _)),
      slice_solid (q := Package.dode.perps _) (fun k => hz _ (List.getElem_mem _))]
    exact hab

theorem triangulation_noOverlap {delaunay : Delaunay2} (hD : TilesHull2 delaunay) {pts : List (Vec 6)}
    (hp : ∀ v ∈ pts, Vec.Ok v) {z : ℝ} (hz : ∀ v ∈ pts, Package.dode.perp v 2 = z) {o : Obj 3}
    (ho : triangulationPoints delaunay pts = .ok (some o)) : NoOverlap2 z o :=
  triangulation_apart (hD.index _) (hD.apart _) hp hz ho

theorem intersectionTwoTriangles_noOverlap {delaunay : Delaunay2} (hD : TilesHull2 delaunay) {s t : Simplex 3}
    (hs : Simplex.Ok s) (ht : Simplex.Ok t) {z : ℝ} (zs : ∀ i, Package.dode.perp (s i) 2 = z)
    (zt : ∀ i, Package.dode.perp (t i) 2 = z) {o : Obj 3}
    (h : intersectionTwoTriangles delaunay s t = .ok (some o)) : NoOverlap2 z o := by
  rw [intersectionTwoTriangles_eq delaunay hs ht] at h
  by_cases h0 : hitEdges s t + hitEdges t s = 0
  · rw [if_pos h0] at h; cases h
  · rw [if_neg h0] at h
    have hp : ∀ v ∈ commonPts2 s t, Vec.Ok v := fun v hv => (commonPts2_ok hs ht zs zt hv).1
    have hz : ∀ v ∈ commonPts2 s t, Package.dode.perp v 2 = z := fun v hv => (commonPts2_ok hs ht zs zt hv).2
    generalize commonPts2 s t = pts at h hp hz
    unfold triangulateCommon at h
    by_cases h3 : commonCount s t ≥ 3
    · rw [if_pos h3] at h
      obtain ⟨r, hr, hsub, -⟩ := C24_one_per_point .dode pts hp
      rw [hr, bind_ok'] at h
      by_cases hl : r.length > 3
      · rw [if_pos hl] at h
        exact triangulation_noOverlap hD (fun v hv => hp v (hsub v hv)) (fun v hv => hz v (hsub v hv)) h
      · rw [if_neg hl] at h
        by_cases he : r.length = 3
        · rw [if_pos he] at h
          unfold Dode.reshape3 at h
          rw [dif_pos he, bind_ok'] at h
          cases h
          exact List.pairwise_singleton _ _
        · rw [if_neg he] at h; cases h
    · rw [if_neg h3] at h; cases h

/-! ## The kinds 'standard' and 'simple' -/

/-- C69: for level objects whose pairs of triangles are resolved, the two kinds of intersection both return `None` or
return objects of exactly equal area. -/
theorem C69_kinds (delaunay : Simplex 3 → Simplex 3 → Delaunay2) (obj1 obj2 : Obj 3) (z : ℝ)
    (hD : ∀ s ∈ obj1, ∀ t ∈ obj2, FillsHull2 (delaunay s t)) (h0 : obj2 ≠ []) (ok1 : Obj.Ok obj1) (ok2 : Obj.Ok obj2)
    (z1 : Level z obj1) (z2 : Level z obj2)
    (h : ∀ s ∈ obj1, ∀ t ∈ obj2, ResolvedTri (Package.dode.perps s) (Package.dode.perps t)) :
    let std := intersectionApi .standard delaunay (.d4 obj1) (.d4 obj2)
    let simple := intersectionApi .simple delaunay (.d4 obj1) (.d4 obj2)
    (std = .ok none ∧ simple = .ok none) ∨
      ∃ a b v, std = .ok (some a) ∧ simple = .ok (some b) ∧ objArea6d (.d4 a) = .ok (some v) ∧
        objArea6d (.d4 b) = .ok (some v) := by
  intro std simple
  obtain ⟨r1, hr1, -⟩ := C68_objects .standard delaunay obj1 obj2 z hD h0 ok1 ok2 z1 z2 h
  obtain ⟨c, d, -, hc, hd, e1⟩ := Planar.intersectionTwoObj1_eq .standard delaunay (obj1 := obj1) ok2 h0
  obtain ⟨c', d', -, hc', hd', e2⟩ := Planar.intersectionTwoObj1_eq .simple delaunay (obj1 := obj1) ok2 h0
  rw [hc] at hc'; cases hc'
  rw [hd] at hd'; cases hd'
  have s1 : std = intersectionTwoObj1 .standard delaunay obj1 obj2 := rfl
  have s2 : simple = intersectionTwoObj1 .simple delaunay obj1 obj2 := rfl
  have hok : intersectionTwoObj1 .standard delaunay obj1 obj2 = .ok r1 := hr1
  rw [s1, s2]
  rw [e1] at hok ⊢
  rw [e2]
  unfold intersectionTwoObj at hok ⊢
  rcases Planar.fillList_sameVol (l := obj1) (fun t ht => Planar.onePiece_sameVol (rough := fun t => roughCheck .dode t c d)
    (flag := fun s t => .ok (checkTwoTriangles s t))
    (inter := fun s t => if checkTwoTriangles s t = 3 then intersectionTwoTriangles (delaunay s t) s t else .ok none) (ok1 t ht) ok2
    (fun u hu o ho => by
      by_cases h3 : checkTwoTriangles t u = 3
      · simp only [h3, if_true] at ho
        obtain ⟨r, hr, -, hk, -⟩ := C68_two _ (hD t ht u hu) t u (ok1 t ht) (ok2 u hu) z (z1 t ht) (z2 u hu) (h t ht u hu)
          (edge_of_code (z1 t ht) (z2 u hu) h3)
        rw [ho] at hr
        cases hr
        exact hk
      · simp only [h3, if_false] at ho
        cases ho)) with
    ⟨e, h1, h2⟩ | ⟨x, y, h1, h2, ox, oy, hv, hn⟩
  all_goals
    have hin : ∀ kind, onePiece kind (fun t => roughCheck .dode t c d) (fun s t => .ok (checkTwoTriangles s t))
        (fun s t => if checkTwoTriangles s t = 3 then intersectionTwoTriangles (delaunay s t) s t else .ok none) obj2 =
        onePiece kind (fun t => roughCheck .dode t c d) (fun s t => .ok (checkTwoTriangles s t))
        (fun s t => intersectionTwoTriangles (delaunay s t) s t) obj2 := by
      intro kind
      funext t
      have hl : ∀ l acc, innerLoop (fun s t => .ok (checkTwoTriangles s t))
          (fun s t => if checkTwoTriangles s t = 3 then intersectionTwoTriangles (delaunay s t) s t else .ok none) t acc l =
          innerLoop (fun s t => .ok (checkTwoTriangles s t)) (fun s t => intersectionTwoTriangles (delaunay s t) s t) t acc l := by
        intro l
        induction l with
        | nil => intro acc; rfl
        | cons u l ih =>
          intro acc
          unfold innerLoop
          simp only [bind_ok', ih]
          by_cases h3 : checkTwoTriangles t u = 3
          · simp only [h3, if_true]
          · simp only [if_neg h3]
      unfold onePiece
      simp only [hl]
    rw [hin] at h1 h2
  · rw [h1, bind_error'] at hok; cases hok
  · rw [h1, bind_ok', h2, bind_ok']
    by_cases hx : x.flatten = []
    · have hy := hn.1 hx
      rw [hx, hy]
      exact .inl ⟨rfl, rfl⟩
    · have hy := fun h => hx (hn.2 h)
      rw [if_pos (fun h => hx (List.length_eq_zero_iff.1 h)), if_pos (fun h => hy (List.length_eq_zero_iff.1 h))]
      refine .inr ⟨_, _, _, rfl, rfl, objArea_ok ox, ?_⟩
      rw [objArea_ok oy, hv]

/-! ## The area of an intersection -/

/-- Every piece of a result is well formed and level. -/
theorem planar_result_ok {kind : Ico.Kind} {delaunay : Simplex 3 → Simplex 3 → Delaunay2} {obj1 obj2 : Obj 3} {z : ℝ}
    (hD : ∀ s ∈ obj1, ∀ t ∈ obj2, FillsHull2 (delaunay s t)) (h0 : obj2 ≠ []) (ok1 : Obj.Ok obj1) (ok2 : Obj.Ok obj2)
    (z1 : Level z obj1) (z2 : Level z obj2)
    (h : ∀ s ∈ obj1, ∀ t ∈ obj2, ResolvedTri (Package.dode.perps s) (Package.dode.perps t)) {r : Obj 3}
    (hr : intersectionApi kind delaunay (.d4 obj1) (.d4 obj2) = .ok (some r)) : Obj.Ok r ∧ Level z r := by
  change intersectionTwoObj1 kind delaunay obj1 obj2 = _ at hr
  obtain ⟨c, d, -, -, -, e⟩ := Planar.intersectionTwoObj1_eq kind delaunay (obj1 := obj1) ok2 h0
  rw [e] at hr
  obtain ⟨-, h2⟩ := Planar.intersectionTwoObj_mem
    (Q := fun _ a => Simplex.Ok a ∧ ∀ i, Package.dode.perp (a i) 2 = z) (fun s hs _ _ _ => ⟨ok1 s hs, z1 s hs⟩)
    (fun s _ t ht _ => ⟨ok2 t ht, z2 t ht⟩) (fun s hs t ht o hf hi a ha => by
      obtain ⟨r', hr', -, hk, hl, -⟩ := C68_two _ (hD s hs t ht) s t (ok1 s hs) (ok2 t ht) z (z1 s hs) (z2 t ht)
        (h s hs t ht) (edge_of_code (z1 s hs) (z2 t ht) (Except.ok.inj hf))
      rw [hi] at hr'
      cases hr'
      exact ⟨hk a ha, hl a ha⟩) hr
  have key : ∀ a ∈ r, Simplex.Ok a ∧ ∀ i, Package.dode.perp (a i) 2 = z := by
    intro a ha
    obtain ⟨s, hs, h | ⟨-, rfl⟩⟩ := h2 a ha
    · exact h
    · exact ⟨ok1 a hs, z1 a hs⟩
  exact ⟨fun a ha => (key a ha).1, fun a ha => (key a ha).2⟩

theorem planar_standard_msum {delaunay : Simplex 3 → Simplex 3 → Delaunay2} {obj1 obj2 : Obj 3} {z : ℝ}
    (hD : ∀ s ∈ obj1, ∀ t ∈ obj2, TilesHull2 (delaunay s t)) (h0 : obj2 ≠ []) (ok1 : Obj.Ok obj1) (ok2 : Obj.Ok obj2)
    (z1 : Level z obj1) (z2 : Level z obj2) (no1 : NoOverlap2 z obj1) (no2 : NoOverlap2 z obj2)
    (h : ∀ s ∈ obj1, ∀ t ∈ obj2, ResolvedTri (Package.dode.perps s) (Package.dode.perps t)) {r : Option (Obj 3)}
    (hr : intersectionTwoObj1 .standard delaunay obj1 obj2 = .ok r) :
    Planar.msum z (r.getD []) = volume (slice z (Package.dode.region obj1 ∩ Package.dode.region obj2)) := by
  obtain ⟨c, d, -, hc, hd, e⟩ := Planar.intersectionTwoObj1_eq .standard delaunay (obj1 := obj1) ok2 h0
  rw [e] at hr
  refine Planar.intersectionTwoObj_measure (z := z) no1 no2 ?_ ?_ ?_ ?_ ?_ hr
  · intro s hs hro t ht
    refine measure_mono_null (t := ∅) ?_ measure_empty
    rintro x ⟨hx, hx'⟩
    have := C35_object .dode (by decide) s obj2 (ok1 s hs) ok2 t ht _ hx hx'
    rw [show Package.dode.arith = arith from rfl, hc, bind_ok', hd, bind_ok', hro] at this
    cases this
  · intro s hs t ht hf
    exact slice_mono ((C68_codes s t z (z1 s hs) (z2 t ht) (h s hs t ht)).1.1 (Except.ok.inj hf))
  · intro s hs t ht hf
    exact slice_mono ((C68_codes s t z (z1 s hs) (z2 t ht) (h s hs t ht)).2.1.1 (Except.ok.inj hf)).2
  · intro s hs t ht f hf f1 f2 f3
    have hf := Except.ok.inj hf
    obtain ⟨c1, c2, c3, c0⟩ := C68_codes s t z (z1 s hs) (z2 t ht) (h s hs t ht)
    have he : solid (Package.dode.perps s) ∩ solid (Package.dode.perps t) = ∅ := by
      rw [← c0]
      have : checkTwoTriangles s t = 0 ∨ checkTwoTriangles s t = 1 ∨ checkTwoTriangles s t = 2 ∨
          checkTwoTriangles s t = 3 := by
        unfold checkTwoTriangles
        split
        · simp
        · split
          · simp
          · split <;> simp
      omega
    exact measure_mono_null (t := ∅) (fun x hx => Set.eq_empty_iff_forall_notMem.1 he _ hx) measure_empty
  · intro s hs t ht r' hf hr'
    obtain ⟨r'', h1, -, -, -, hsub, hz, -⟩ := C68_two _ (hD s hs t ht).toFillsHull2 s t (ok1 s hs) (ok2 t ht) z (z1 s hs)
      (z2 t ht) (h s hs t ht) (edge_of_code (z1 s hs) (z2 t ht) (Except.ok.inj hf))
    rw [hr'] at h1
    cases h1
    have hno : NoOverlap2 z (r'.getD []) := by
      cases r' with
      | none => exact List.Pairwise.nil
      | some o => exact intersectionTwoTriangles_noOverlap (hD s hs t ht) (ok1 s hs) (ok2 t ht) (z1 s hs) (z2 t ht) hr'
    rw [← (Planar.region_eq_msum z _).2 hno]
    refine le_antisymm (measure_mono (slice_mono hsub)) ?_
    refine (measure_le_inter_add_sdiff _ (body z s ∩ body z t) (cover z (r'.getD []))).trans ?_
    have hz' : volume ((body z s ∩ body z t) \ cover z (r'.getD [])) = 0 := hz
    rw [hz', add_zero]
    exact measure_mono Set.inter_subset_right

/-- C69 for intersections, both kinds: when the triangles of each object do not overlap, every pair of triangles is
resolved and the triangulation library tiles convex hulls, the exact area of the returned object is the Lebesgue measure
of the common part of the two objects; nothing is returned only when that measure is zero. -/
theorem C69_objects (kind : Ico.Kind) (delaunay : Simplex 3 → Simplex 3 → Delaunay2) (obj1 obj2 : Obj 3) (z : ℝ)
    (hD : ∀ s ∈ obj1, ∀ t ∈ obj2, TilesHull2 (delaunay s t)) (h0 : obj2 ≠ []) (ok1 : Obj.Ok obj1) (ok2 : Obj.Ok obj2)
    (z1 : Level z obj1) (z2 : Level z obj2) (no1 : NoOverlap2 z obj1) (no2 : NoOverlap2 z obj2)
    (h : ∀ s ∈ obj1, ∀ t ∈ obj2, ResolvedTri (Package.dode.perps s) (Package.dode.perps t)) (r : Option (Obj 3))
    (hr : intersectionApi kind delaunay (.d4 obj1) (.d4 obj2) = .ok r) :
    (r = none → volume (slice z (Package.dode.region obj1 ∩ Package.dode.region obj2)) = 0) ∧
    ∀ o, r = some o → ∃ w, objArea6d (.d4 o) = .ok (some w) ∧
      volume (slice z (Package.dode.region obj1 ∩ Package.dode.region obj2)) = ENNReal.ofReal (w.val sin60) := by
  have hF : ∀ s ∈ obj1, ∀ t ∈ obj2, FillsHull2 (delaunay s t) := fun s hs t ht => (hD s hs t ht).toFillsHull2
  have key : ∀ a, intersectionTwoObj1 .standard delaunay obj1 obj2 = .ok (some a) → ∀ v,
      objArea6d (.d4 a) = .ok (some v) →
      volume (slice z (Package.dode.region obj1 ∩ Package.dode.region obj2)) = ENNReal.ofReal (v.val sin60) := by
    intro a ha v hv
    have hm := planar_standard_msum hD h0 ok1 ok2 z1 z2 no1 no2 h ha
    obtain ⟨oka, za⟩ := planar_result_ok (kind := .standard) hF h0 ok1 ok2 z1 z2 h ha
    obtain ⟨⟨w, hw, -, hval⟩, -⟩ := C43_object a oka
    rw [hv] at hw
    cases hw
    rw [hval, ← hm, ← Planar.msum_val za]; rfl
  have hcases := C69_kinds delaunay obj1 obj2 z hF h0 ok1 ok2 z1 z2 h
  simp only at hcases
  have hsplit : (kind = .standard ∧ intersectionApi .standard delaunay (.d4 obj1) (.d4 obj2) = .ok r) ∨
      (kind = .simple ∧ intersectionApi .simple delaunay (.d4 obj1) (.d4 obj2) = .ok r) := by
    cases kind
    · exact .inl ⟨rfl, hr⟩
    · exact .inr ⟨rfl, hr⟩
  rcases hcases with ⟨h1, h2⟩ | ⟨a, b, v, h1, h2, h3, h4⟩
  · have hm := planar_standard_msum hD h0 ok1 ok2 z1 z2 no1 no2 h h1
    have hz : volume (slice z (Package.dode.region obj1 ∩ Package.dode.region obj2)) = 0 := hm.symm
    have : r = none := by
      rcases hsplit with ⟨-, hr⟩ | ⟨-, hr⟩
      · rw [h1] at hr; cases hr; rfl
      · rw [h2] at hr; cases hr; rfl
    subst this
    exact ⟨fun _ => hz, by simp⟩
  · have hv := key a h1 v h3
    rcases hsplit with ⟨-, hr⟩ | ⟨-, hr⟩
    · rw [h1] at hr; cases hr
      exact ⟨by simp, fun o ho => by cases ho; exact ⟨v, h3, hv⟩⟩
    · rw [h2] at hr; cases hr
      exact ⟨by simp, fun o ho => by cases ho; exact ⟨v, h4, hv⟩⟩

/-- C69 for intersections, both kinds: under the same hypotheses the returned triangles do not overlap, and they cover the
common part of the two objects and nothing else, up to sets of area zero. -/
theorem C69_exact (kind : Ico.Kind) (delaunay : Simplex 3 → Simplex 3 → Delaunay2) (obj1 obj2 : Obj 3) (z : ℝ)
    (hD : ∀ s ∈ obj1, ∀ t ∈ obj2, TilesHull2 (delaunay s t)) (h0 : obj2 ≠ []) (ok1 : Obj.Ok obj1) (ok2 : Obj.Ok obj2)
    (z1 : Level z obj1) (z2 : Level z obj2) (no1 : NoOverlap2 z obj1) (no2 : NoOverlap2 z obj2)
    (h : ∀ s ∈ obj1, ∀ t ∈ obj2, ResolvedTri (Package.dode.perps s) (Package.dode.perps t)) (o : Obj 3)
    (hr : intersectionApi kind delaunay (.d4 obj1) (.d4 obj2) = .ok (some o)) :
    NoOverlap2 z o ∧
    volume (slice z ((Package.dode.region obj1 ∩ Package.dode.region obj2) \ Package.dode.region o)) = 0 ∧
    volume (slice z (Package.dode.region o \ (Package.dode.region obj1 ∩ Package.dode.region obj2))) = 0 := by
  have hF : ∀ s ∈ obj1, ∀ t ∈ obj2, FillsHull2 (delaunay s t) := fun s hs t ht => (hD s hs t ht).toFillsHull2
  obtain ⟨r, hr', -, hz⟩ := C68_objects kind delaunay obj1 obj2 z hF h0 ok1 ok2 z1 z2 h
  rw [hr] at hr'
  cases hr'
  obtain ⟨w, hw, hv⟩ := (C69_objects kind delaunay obj1 obj2 z hD h0 ok1 ok2 z1 z2 no1 no2 h _ hr).2 o rfl
  obtain ⟨oko, zo⟩ := planar_result_ok hF h0 ok1 ok2 z1 z2 h hr
  obtain ⟨⟨w', hw', -, hval⟩, -⟩ := C43_object o oko
  rw [hw] at hw'
  cases hw'
  rw [hval, ← Planar.msum_val zo] at hv
  set C : Set (Fin 2 → ℝ) := cover z obj1 ∩ cover z obj2 with hC
  replace hz : volume (C \ cover z o) = 0 := hz
  replace hv : volume C = Planar.msum z o := hv
  have hCm : MeasurableSet C := (Planar.region_measurable (z := z) obj1).inter (Planar.region_measurable (z := z) obj2)
  have h1 : volume C ≤ volume (C ∩ cover z o) := by
    exact (measure_le_inter_add_sdiff _ _ (cover z o)).trans (by rw [hz, add_zero])
  have h2 : volume (C ∩ cover z o) ≤ volume (cover z o) := measure_mono Set.inter_subset_right
  have h3 := Planar.region_le_msum z o
  have e1 : volume (cover z o) = Planar.msum z o := le_antisymm h3 (by rw [← hv]; exact h1.trans h2)
  refine ⟨(Planar.region_eq_msum z o).1 e1, hz, ?_⟩
  have e2 : volume (cover z o ∩ C) = volume (cover z o) := by
    refine le_antisymm (measure_mono Set.inter_subset_left) ?_
    rw [e1, ← hv, Set.inter_comm]; exact h1
  have e3 := measure_inter_add_sdiff (μ := volume) (cover z o) hCm
  rw [e2] at e3
  exact (ENNReal.add_right_inj (Planar.region_finite (z := z) o)).1 (e3.trans (add_zero _).symm)

/-! ## Cases that meet the hypotheses -/

/-- A triangle of area 2. -/
example : volume (slice 0 (solid (Package.dode.perps exLevel))) = ENNReal.ofReal 2 := by
  obtain ⟨w, hw, hv⟩ := C69_triangle exLevel exLevel_ok 0 exLevel_flat
  rw [show triangleArea6d exLevel = .ok ⟨2, 0, 1⟩ by decide +kernel] at hw
  cases hw
  rw [← hv]
  congr 1
  simp [Num3.val]

/-- Overlapping triangles are counted twice: `C69_object` is strict there. -/
example : ¬ NoOverlap2 0 [exLevel, exLevel] ∧ objArea6d (.d4 [exLevel, exLevel]) = .ok (some ⟨4, 0, 1⟩) := by
  refine ⟨fun h => ?_, by decide +kernel⟩
  have h := List.pairwise_pair.1 h
  rw [Set.inter_self] at h
  have := exLevel_interior
  rw [slice_inter, interior_inter, h, Set.empty_inter] at this
  exact Set.not_nonempty_empty this

/-- The hypotheses of `C69_objects`, `C69_exact` and `C69_kinds` are met by two triangles that cross in the unit square:
both kinds return an object of exact area 1. -/
example : ∃ delaunay : Simplex 3 → Simplex 3 → Delaunay2, (∀ s t, TilesHull2 (delaunay s t)) ∧ ∀ kind, ∃ o w,
    intersectionApi kind delaunay (.d4 [exLevel]) (.d4 [exLevelInv]) = .ok (some o) ∧
    objArea6d (.d4 o) = .ok (some w) ∧ w.val sin60 = 1 ∧ NoOverlap2 0 o := by
  obtain ⟨delaunay, hD⟩ := exists_tiles2
  have ok1 : Obj.Ok [exLevel] := by intro t ht; rw [List.mem_singleton.1 ht]; exact exLevel_ok
  have ok2 : Obj.Ok [exLevelInv] := by intro t ht; rw [List.mem_singleton.1 ht]; exact exLevelInv_ok
  have z1 : Level 0 [exLevel] := by intro t ht; rw [List.mem_singleton.1 ht]; exact exLevel_flat
  have z2 : Level 0 [exLevelInv] := by intro t ht; rw [List.mem_singleton.1 ht]; exact exLevelInv_flat
  have hres : ∀ s ∈ [exLevel], ∀ t ∈ [exLevelInv], ResolvedTri (Package.dode.perps s) (Package.dode.perps t) := by
    simpa using exLevel_resolved
  have hreg : Package.dode.region [exLevel] ∩ Package.dode.region [exLevelInv] =
      solid (Package.dode.perps exLevel) ∩ solid (Package.dode.perps exLevelInv) := by
    ext x
    simp [Package.region]
  have harea : volume (slice 0 (Package.dode.region [exLevel] ∩ Package.dode.region [exLevelInv])) = 1 := by
    rw [hreg, exLevel_common, Real.volume_Icc_pi]
    simp
  refine ⟨fun _ _ => delaunay, fun _ _ => hD, fun kind => ?_⟩
  obtain ⟨r, hr, -⟩ := C68_objects kind (fun _ _ => delaunay) [exLevel] [exLevelInv] 0 (fun _ _ _ _ => hD.toFillsHull2)
    (by simp) ok1 ok2 z1 z2 hres
  obtain ⟨hn, hs⟩ := C69_objects kind (fun _ _ => delaunay) [exLevel] [exLevelInv] 0 (fun _ _ _ _ => hD) (by simp) ok1 ok2 z1 z2
    (List.pairwise_singleton _ _) (List.pairwise_singleton _ _) hres r hr
  cases r with
  | none => rw [harea] at hn; exact absurd (hn rfl) one_ne_zero
  | some o =>
    obtain ⟨w, hw, hv⟩ := hs o rfl
    rw [harea] at hv
    refine ⟨o, w, hr, hw, ?_, (C69_exact kind (fun _ _ => delaunay) [exLevel] [exLevelInv] 0 (fun _ _ _ _ => hD) (by simp) ok1 ok2
      z1 z2 (List.pairwise_singleton _ _) (List.pairwise_singleton _ _) hres o hr).1⟩
    have := congrArg ENNReal.toReal hv
    rw [ENNReal.toReal_one] at this
    by_cases hp : 0 ≤ w.val sin60
    · rw [ENNReal.toReal_ofReal hp] at this; exact this.symm
    · rw [ENNReal.ofReal_of_nonpos (not_le.1 hp).le] at this; simp at this

end PyQC
