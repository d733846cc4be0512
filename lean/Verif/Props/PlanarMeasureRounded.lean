import Verif.Lemmas.PlanarMeasureRounded
/-!
# C112 for flat objects (dode2): the area of an intersection computed with rounding
-/
namespace PyQC
open Matrix MeasureTheory Dode Planar

/-- C112 for flat objects: whatever the floating-point arithmetic and the triangulation library do, the two kinds of
intersection either both raise the same exception, or both return `None`, or return objects of exactly equal area. -/
theorem C112_kinds_planar (F : Float64) (delaunay : Simplex 3 → Simplex 3 → Delaunay2) (obj1 obj2 : Obj 3)
    (ok1 : Obj.Ok obj1) (ok2 : Obj.Ok obj2) :
    let std := F.dodeIntersectionApi .standard delaunay (.d4 obj1) (.d4 obj2)
    let simple := F.dodeIntersectionApi .simple delaunay (.d4 obj1) (.d4 obj2)
    (∃ e, std = .error e ∧ simple = .error e) ∨ (std = .ok none ∧ simple = .ok none) ∨
      ∃ a b v, std = .ok (some a) ∧ simple = .ok (some b) ∧ objArea6d (.d4 a) = .ok (some v) ∧
        objArea6d (.d4 b) = .ok (some v) := by
  intro std simple
  have hs : ∀ kind, F.dodeIntersectionApi kind delaunay (.d4 obj1) (.d4 obj2) =
    F.dodeIntersectionTwoObj1 kind delaunay obj1 obj2 := fun _ => rfl
  simp only [std, simple, hs]
  unfold Float64.dodeIntersectionTwoObj1
  cases hc : centroidObj arith obj2 with
  | error e => exact .inl ⟨e, by rw [bind_error'], by rw [bind_error']⟩
  | ok c =>
  simp only [bind_ok']
  cases hd : F.dodeBallRadiusObj obj2 c with
  | error e => exact .inl ⟨e, by rw [bind_error'], by rw [bind_error']⟩
  | ok d =>
  simp only [bind_ok']
  rcases Planar.intersectionTwoObj_kinds (rough := fun s => F.dodeRoughCheck s c d) (flag := fun s t => .ok (F.checkTwoTriangles s t))
    (inter := fun s t => F.intersectionTwoTriangles (delaunay s t) s t) ok1 ok2
    (fun s hs t ht o ho => twoTrianglesF_valid F (ok1 s hs) (ok2 t ht) ho) with h | h | ⟨a, b, v, h1, h2, -, -, h3, h4⟩
  · exact .inl h
  · exact .inr (.inl h)
  · exact .inr (.inr ⟨a, b, v, h1, h2, h3, h4⟩)

section
variable (F : Float64) {R : ℝ} (hR : 1 ≤ R) (hR8 : R ≤ 8)
include hR hR8

theorem objects_area_rounded (kind : Ico.Kind) {delaunay : Simplex 3 → Simplex 3 → Delaunay2} {obj1 obj2 : Obj 3} {z : ℝ}
    (hD : ∀ s ∈ obj1, ∀ t ∈ obj2, ∀ r pns,
      (∀ v ∈ r, Vec.Ok v ∧ Candidate2 (Package.dode.perps s) (Package.dode.perps t) (Package.dode.perp v)) →
      F.delaunayInput2 r = .ok pns → ¬ InLine (r.map plane) → TilesHullOf2 (r.map plane) (delaunay s t pns))
    (ok1 : Obj.Ok obj1) (ok2 : Obj.Ok obj2) (z1 : Level z obj1) (z2 : Level z obj2) (no1 : NoOverlap2 z obj1)
    (no2 : NoOverlap2 z obj2) (h : ObjectsRounded2 R z obj1 obj2) {r : Option (Obj 3)}
    (hr : F.dodeIntersectionApi kind delaunay (.d4 obj1) (.d4 obj2) = .ok r) :
    (r = none → volume (slice z (Package.dode.region obj1 ∩ Package.dode.region obj2)) = 0) ∧
    ∀ o, r = some o → Obj.Ok o ∧ Level z o ∧ ∃ w, objArea6d (.d4 o) = .ok (some w) ∧
      volume (slice z (Package.dode.region obj1 ∩ Package.dode.region obj2)) = ENNReal.ofReal (w.val sin60) := by
  by_cases h0 : obj2 = []
  · subst h0
    change F.dodeIntersectionTwoObj1 kind delaunay obj1 [] = _ at hr
    unfold Float64.dodeIntersectionTwoObj1 at hr
    cases hc : centroidObj arith ([] : Obj 3) with
    | error e => rw [hc, bind_error'] at hr; cases hr
    | ok c =>
    rw [hc, bind_ok'] at hr
    cases hd : F.dodeBallRadiusObj ([] : Obj 3) c with
    | error e => rw [hd, bind_error'] at hr; cases hr
    | ok d =>
    rw [hd, bind_ok'] at hr
    exact Planar.intersectionTwoObj_area ok1 ok2 z1 z2 no1 no2 (by simp) (by simp) (by simp) (by simp) (by simp) (by simp)
      (by simp) hr
  · obtain ⟨rough, e, hro⟩ := objects2_rounded_eq F hR hR8 kind delaunay h0 ok1 ok2 z1 z2 h.thick h.dist2 h.dist1 h.dist0
    rw [e] at hr
    have hcode := fun s hs t ht =>
      C95_codes F hR hR8 s t z (z1 s hs) (z2 t ht) (h.small1 s hs) (h.small2 t ht) (h.pairs s hs t ht)
    refine Planar.intersectionTwoObj_area ok1 ok2 z1 z2 no1 no2 ?_ ?_ ?_ ?_ ?_ ?_ ?_ hr
    · exact fun s hs t ht o ho => twoTrianglesF_valid F (ok1 s hs) (ok2 t ht) ho
    · exact fun s hs t ht o _ ho => two_level_rounded F hR hR8 (ok1 s hs) (ok2 t ht) (z1 s hs) (z2 t ht) (h.small1 s hs)
        (h.small2 t ht) (h.pairs s hs t ht) ho
    · intro s hs hf t ht
      obtain ⟨b, hb, hfalse⟩ := hro s hs
      rw [hf] at hb
      exact slice_null ((solid_convex _).inter (solid_convex _)) (hfalse (Except.ok.inj hb).symm t ht)
    · exact fun s hs t ht hf => slice_mono ((hcode s hs t ht).1.1 (Except.ok.inj hf))
    · exact fun s hs t ht hf => slice_mono ((hcode s hs t ht).2.1.1 (Except.ok.inj hf)).2
    · intro s hs t ht f hf f1 f2 f3
      have hf := Except.ok.inj hf
      obtain ⟨c1, c2, c3, c0, cm⟩ := hcode s hs t ht
      refine slice_null ((solid_convex _).inter (solid_convex _)) fun hi => ?_
      have hzero : F.checkTwoTriangles s t = 0 := by
        simp only [List.mem_cons, List.not_mem_nil, or_false] at cm
        omega
      obtain ⟨n1, n2, n3⟩ := c0 hzero
      rcases h.clear s hs t ht hi with hA | hB | hP
      · exact n1 hA
      · exact n2 hB
      · exact n3 hP
    · exact fun s hs t ht r' hf hr' => two_msum_rounded2 F hR hR8 (hD s hs t ht) (ok1 s hs) (ok2 t ht) (z1 s hs) (z2 t ht)
        (h.small1 s hs) (h.small2 t ht) (h.pairs s hs t ht) (Except.ok.inj hf) hr'

/-- C112 for flat objects, both kinds: when the triangles of each object do not overlap, every pair of triangles is
resolved in spite of rounding and the triangulations of rounded corners tile the hulls of the corners, then the exact area
of the object returned when all numerical tests are computed with rounding is the Lebesgue measure of the common part;
nothing is returned only when that measure is zero. -/
theorem C112_objects_planar (kind : Ico.Kind) (delaunay : Simplex 3 → Simplex 3 → Delaunay2) (obj1 obj2 : Obj 3) (z : ℝ)
    (hD : ∀ s ∈ obj1, ∀ t ∈ obj2, ∀ r pns,
      (∀ v ∈ r, Vec.Ok v ∧ Candidate2 (Package.dode.perps s) (Package.dode.perps t) (Package.dode.perp v)) →
      F.delaunayInput2 r = .ok pns → ¬ InLine (r.map plane) → TilesHullOf2 (r.map plane) (delaunay s t pns))
    (ok1 : Obj.Ok obj1) (ok2 : Obj.Ok obj2) (z1 : Level z obj1) (z2 : Level z obj2) (no1 : NoOverlap2 z obj1)
    (no2 : NoOverlap2 z obj2) (h : ObjectsRounded2 R z obj1 obj2) (r : Option (Obj 3))
    (hr : F.dodeIntersectionApi kind delaunay (.d4 obj1) (.d4 obj2) = .ok r) :
    (r = none → volume (slice z (Package.dode.region obj1 ∩ Package.dode.region obj2)) = 0) ∧
    ∀ o, r = some o → ∃ w, objArea6d (.d4 o) = .ok (some w) ∧
      volume (slice z (Package.dode.region obj1 ∩ Package.dode.region obj2)) = ENNReal.ofReal (w.val sin60) := by
  obtain ⟨h1, h2⟩ := objects_area_rounded F hR hR8 kind hD ok1 ok2 z1 z2 no1 no2 h hr
  exact ⟨h1, fun o ho => (h2 o ho).2.2⟩

/-- C112 for flat objects, both kinds: under the same hypotheses the returned triangles do not overlap, and they cover the
common part of the two objects and nothing else, up to sets of area zero. -/
theorem C112_exact_planar (kind : Ico.Kind) (delaunay : Simplex 3 → Simplex 3 → Delaunay2) (obj1 obj2 : Obj 3) (z : ℝ)
    (hD : ∀ s ∈ obj1, ∀ t ∈ obj2, ∀ r pns,
      (∀ v ∈ r, Vec.Ok v ∧ Candidate2 (Package.dode.perps s) (Package.dode.perps t) (Package.dode.perp v)) →
      F.delaunayInput2 r = .ok pns → ¬ InLine (r.map plane) → TilesHullOf2 (r.map plane) (delaunay s t pns))
    (ok1 : Obj.Ok obj1) (ok2 : Obj.Ok obj2) (z1 : Level z obj1) (z2 : Level z obj2) (no1 : NoOverlap2 z obj1)
    (no2 : NoOverlap2 z obj2) (h : ObjectsRounded2 R z obj1 obj2) (o : Obj 3)
    (hr : F.dodeIntersectionApi kind delaunay (.d4 obj1) (.d4 obj2) = .ok (some o)) :
    NoOverlap2 z o ∧
    volume (slice z ((Package.dode.region obj1 ∩ Package.dode.region obj2) \ Package.dode.region o)) = 0 ∧
    volume (slice z (Package.dode.region o \ (Package.dode.region obj1 ∩ Package.dode.region obj2))) = 0 := by
  obtain ⟨oko, zo, w, hw, hv⟩ := (objects_area_rounded F hR hR8 kind hD ok1 ok2 z1 z2 no1 no2 h hr).2 o rfl
  have hz := C96_objects F hR hR8 kind delaunay obj1 obj2 z (fun s hs t ht r pns a b c => (hD s hs t ht r pns a b c).1)
    ok1 ok2 z1 z2 h _ hr
  obtain ⟨h1, h2⟩ := exact_of_area oko zo ((Planar.region_measurable obj1).inter (Planar.region_measurable obj2)) hz hw hv
  exact ⟨h1, hz, h2⟩

end

/-- The hypotheses of `C112_objects_planar` and `C112_exact_planar` are met by two crossing triangles in binary64
arithmetic: a result is returned, without overlaps, and its exact area is 1, the area of the unit square that is their
common part. -/
example : ∃ delaunay : Delaunay2, ∃ o, Rounding.binary64.float64.dodeIntersectionApi .standard
    (fun _ _ => delaunay) (.d4 [exLevel]) (.d4 [exLevelInv]) = .ok (some o) ∧ NoOverlap2 0 o ∧
    ∃ w, objArea6d (.d4 o) = .ok (some w) ∧ w.val sin60 = 1 := by
  obtain ⟨delaunay, hD⟩ := exLevel_tiles
  have ok1 : Obj.Ok [exLevel] := by intro t ht; rw [List.mem_singleton.1 ht]; exact exLevel_ok
  have ok2 : Obj.Ok [exLevelInv] := by intro t ht; rw [List.mem_singleton.1 ht]; exact exLevelInv_ok
  have z1 : Level 0 [exLevel] := by intro t ht; rw [List.mem_singleton.1 ht]; exact exLevel_flat
  have z2 : Level 0 [exLevelInv] := by intro t ht; rw [List.mem_singleton.1 ht]; exact exLevelInv_flat
  obtain ⟨o, ho, -, -, e⟩ := C95_two Rounding.binary64.float64 (R := (2 : ℕ)) (by norm_num) (by norm_num) delaunay _ _
    (fun r pns a b c => (hD r pns a b c).1) exLevel_ok exLevelInv_ok 0 exLevel_flat exLevelInv_flat exLevel_small
    exLevelInv_small exLevel_rounded (exLevel_codeF _) exLevel_interior
  obtain ⟨rough, e2, hro⟩ := objects2_rounded_eq Rounding.binary64.float64 (R := (2 : ℕ)) (by norm_num) (by norm_num) .standard
    (fun _ _ => delaunay) (by simp) ok1 ok2 z1 z2 exLevel_objects.thick
    exLevel_objects.dist2 exLevel_objects.dist1 exLevel_objects.dist0
  have hres : Rounding.binary64.float64.dodeIntersectionApi .standard
      (fun _ _ => delaunay) (.d4 [exLevel]) (.d4 [exLevelInv]) = .ok (some o) := by
    rw [e2]
    obtain ⟨b, hb, hf⟩ := hro exLevel (by simp)
    have h0 : o ≠ [] := by
      rintro rfl
      obtain ⟨x, hx⟩ := exLevel_interior.mono interior_subset
      rw [← e] at hx
      obtain ⟨a, ha, -⟩ := hx
      simp at ha
    cases b with
    | false => exact absurd exLevel_interior (hf rfl exLevelInv (by simp))
    | true => simp [intersectionTwoObj, fillList, onePiece, innerLoop, hb, exLevel_codeF, ho, h0, bind_ok']
  have hD' : ∀ s ∈ [exLevel], ∀ t ∈ [exLevelInv], ∀ r pns,
      (∀ v ∈ r, Vec.Ok v ∧ Candidate2 (Package.dode.perps s) (Package.dode.perps t) (Package.dode.perp v)) →
      Rounding.binary64.float64.delaunayInput2 r = .ok pns → ¬ InLine (r.map plane) →
      TilesHullOf2 (r.map plane) (delaunay pns) := by
    intro s hs t ht
    rw [List.mem_singleton.1 hs, List.mem_singleton.1 ht]
    exact hD
  obtain ⟨w, hw, hv⟩ := (C112_objects_planar _ (R := (2 : ℕ)) (by norm_num) (by norm_num) .standard _ _ _ 0 hD' ok1 ok2 z1 z2
    (List.pairwise_singleton _ _) (List.pairwise_singleton _ _) exLevel_objects _ hres).2 o rfl
  refine ⟨delaunay, o, hres, (C112_exact_planar _ (R := (2 : ℕ)) (by norm_num) (by norm_num) .standard _ _ _ 0 hD' ok1 ok2 z1 z2
    (List.pairwise_singleton _ _) (List.pairwise_singleton _ _) exLevel_objects _ hres).1, w, hw, ?_⟩
  have h1 : slice 0 (Package.dode.region [exLevel] ∩ Package.dode.region [exLevelInv]) =
      slice 0 (solid (Package.dode.perps exLevel) ∩ solid (Package.dode.perps exLevelInv)) := by
    ext x; simp [slice, Package.region]
  rw [h1, exLevel_common, Real.volume_Icc_pi] at hv
  simp at hv
  exact ENNReal.ofReal_eq_one.1 hv.symm

/-- The hypotheses of `C112_kinds_planar` are met. -/
example : Obj.Ok [exLevel] ∧ Obj.Ok [exLevelInv] :=
  ⟨by intro t ht; rw [List.mem_singleton.1 ht]; exact exLevel_ok, by intro t ht; rw [List.mem_singleton.1 ht]; exact exLevelInv_ok⟩

end PyQC
