import Verif.Props.PlanarMeasure
import Verif.Props.Hull
/-!
# C70, C71: operations of dode2 that always fail; convex hull and simplification of planar objects
-/
namespace PyQC
open Matrix MeasureTheory Dode

/-! ## C70 -/

/-- C70: `intersection_convex` of dode2 raises NameError for any two non-empty objects, whatever the rest of the code
would do. -/
theorem C70_convex (rest : Py (Option (Obj 3))) (o1 o2 : Obj 3) (h1 : Obj.Ok o1) (h2 : Obj.Ok o2) (n1 : o1 ≠ [])
    (n2 : o2 ≠ []) : intersectionConvexApi rest (.d4 o1) (.d4 o2) = .error .nameError := by
  change intersectionTwoObjConvex rest o1 o2 = _
  obtain ⟨E, hE, e1, -, e3⟩ := C27_unique_edges_triangles .dode o1 h1
  obtain ⟨E', hE', -⟩ := C27_unique_edges_triangles .dode o2 h2
  obtain ⟨V, hV, -, -, hex⟩ := C24_one_per_point .dode (flattenObj E) (by
    intro v hv
    obtain ⟨e, he, hv⟩ := List.mem_flatMap.1 hv
    obtain ⟨k, rfl⟩ := List.mem_ofFn.1 hv
    obtain ⟨t, ht, i, j, -, rfl⟩ := e1 e he
    fin_cases k
    · exact h1 t ht i
    · exact h1 t ht j)
  have hne : V ≠ [] := by
    obtain ⟨t, ht⟩ := List.exists_mem_of_ne_nil _ n1
    obtain ⟨e, ⟨he, -⟩, -⟩ := e3 t ht 0 1 (by decide)
    obtain ⟨v, ⟨hv, -⟩, -⟩ := hex (e 0) (List.mem_flatMap.2 ⟨e, he, List.mem_ofFn.2 ⟨0, rfl⟩⟩)
    exact List.ne_nil_of_mem hv
  unfold intersectionTwoObjConvex
  rw [hE, bind_ok', hE', bind_ok', hV, bind_ok']
  cases V with
  | nil => exact absurd rfl hne
  | cons v V => cases o2 with
    | nil => exact absurd rfl n2
    | cons t o2 => rfl

/-- C70: `subtraction` and `generate_border_edges` of dode2 raise for every object. -/
theorem C70_subtraction (o1 o2 : Obj 3) : subtractionApi (.d4 o1) (.d4 o2) = .error .nameError ∧
    generateBorderEdges o1 = .error .attributeError := ⟨rfl, rfl⟩

/-- The hypotheses of `C70_convex` are met by a square. -/
example : intersectionConvexApi (.ok none) (.d4 exSquare) (.d4 exSquare) = .error .nameError :=
  C70_convex _ _ _ (by decide) (by decide) (by simp [exSquare]) (by simp [exSquare])

/-! ## C71: convex hull -/

/-- A point in the interior of a level triangle has positive barycentric coordinates. -/
theorem interior_inside2 {z : ℝ} {q : Fin 3 → Fin 3 → ℝ} (hq : Flat z q) {p : Fin 2 → ℝ}
    (hp : p ∈ interior (slice z (solid q))) : atHeight z p ∈ inside q := by
  let c : Fin 3 → ℝ := (1 / 3 : ℝ) • (q 0 + q 1 + q 2)
  have hcz : c 2 = z := by simp [c, hq 0, hq 1, hq 2]; ring
  have hcont : Continuous fun ε : ℝ => p + ε • (p - xy c) := by fun_prop
  have hmem : (fun ε : ℝ => p + ε • (p - xy c)) ⁻¹' interior (slice z (solid q)) ∈ nhds (0 : ℝ) :=
    (isOpen_interior.preimage hcont).mem_nhds (by simpa using hp)
  obtain ⟨δ, δ0, hδ⟩ := Metric.mem_nhds_iff.1 hmem
  have h1 := interior_subset (hδ (show δ / 2 ∈ Metric.ball (0 : ℝ) δ by
    rw [Metric.mem_ball, Real.dist_eq, sub_zero, abs_of_pos (by positivity)]; linarith))
  have ε0 : 0 < δ / 2 := by positivity
  generalize δ / 2 = ε at h1 ε0
  obtain ⟨w, hw, hn⟩ := mem_solid_iff.1 (mem_slice.1 h1)
  have hε : (1 : ℝ) + ε ≠ 0 := by positivity
  refine ⟨fun i => (w i + ε / 3) / (1 + ε), ⟨?_, ?_⟩, fun i => div_pos (by linarith [hn i]) (by positivity)⟩
  · have := hw.1
    rw [Fin.sum_univ_three] at this ⊢
    field_simp
    linarith
  · have hj := hw.2
    have h3 : atHeight z (p + ε • (p - xy c)) = (1 + ε) • atHeight z p - ε • c := by
      funext j
      fin_cases j
      · change p 0 + ε * (p 0 - c 0) = (1 + ε) * p 0 - ε * c 0; ring
      · change p 1 + ε * (p 1 - c 1) = (1 + ε) * p 1 - ε * c 1; ring
      · change z = (1 + ε) * z - ε * c 2; rw [hcz]; ring
    replace hj := h3.symm.trans hj
    rw [Fin.sum_univ_three] at hj
    rw [Fin.sum_univ_three]
    funext j
    have hj := congrFun hj j
    simp only [c, Pi.sub_apply, Pi.smul_apply, Pi.add_apply, smul_eq_mul] at hj ⊢
    field_simp
    linarith

theorem sharp_noOverlap {o : Obj 3} (h : SharpTriangles .dode o) {z : ℝ} (hz : Level z o) : NoOverlap2 z o := by
  unfold NoOverlap2
  rw [List.pairwise_iff_get]
  intro i j hij
  have h1 := h.apart i j hij.ne ⟨![0, 0, 1], fun e => by simpa using congrFun e 2, z, fun k => by
    constructor
    · rw [vec3_dotProduct]; simpa using (show Package.dode.perps (o.get i) k 2 = z from hz _ (List.get_mem o i) k)
    · rw [vec3_dotProduct]; simpa using (show Package.dode.perps (o.get j) k 2 = z from hz _ (List.get_mem o j) k)⟩
  refine Set.eq_empty_of_forall_notMem fun p hp => ?_
  have : atHeight z p ∈ inside (Package.dode.perps (o.get i)) ∩ inside (Package.dode.perps (o.get j)) :=
    ⟨interior_inside2 (q := Package.dode.perps (o.get i)) (hz _ (List.get_mem o i)) hp.1,
      interior_inside2 (q := Package.dode.perps (o.get j)) (hz _ (List.get_mem o j)) hp.2⟩
  rw [h1] at this
  exact this

theorem sharp_area {o : Obj 3} (h : SharpTriangles .dode o) {z : ℝ} (hz : Level z o) {t : Simplex 3} (ht : t ∈ o) :
    crossZ (Package.dode.perps t) ≠ 0 := by
  intro h0
  refine h.proper t ht ?_
  have := triNormal_flat (q := Package.dode.perps t) (hz t ht)
  rw [h0] at this
  refine this.trans ?_
  funext j; fin_cases j <;> rfl

theorem corners_level {o : Obj 3} {z : ℝ} (hz : Level z o) : ∀ x ∈ Package.dode.corners o, x 2 = z := by
  rintro x ⟨t, ht, i, rfl⟩
  exact hz t ht i

/-- The distinct points among the ends of the segments have the same convex hull as the object. -/
theorem planar_hull_points_of {o : Obj 3} (h : SharpTriangles .dode o) {z : ℝ} (hz : Level z o) {out : Obj 2}
    (h2 : ∀ e ∈ out, ∀ i, ∃ s ∈ o, ∃ j, e i = s j)
    (h3 : ∀ V ∈ (convexHull ℝ (Package.dode.corners o)).extremePoints ℝ, ∃ e ∈ out, ∃ i, Package.dode.perp (e i) = V) :
    ∃ pts : List (Vec 6), removeDoublingPerpApi .dode (.d4 out) = .ok pts ∧
      (∀ v ∈ pts, ∃ s ∈ o, ∃ j, v = s j) ∧ (∀ v ∈ pts, Vec.Ok v) ∧ ¬ InLine (pts.map plane) ∧
      convexHull ℝ {x | ∃ v ∈ pts, Package.dode.perp v = x} = convexHull ℝ (Package.dode.corners o) := by
  have hoko : ∀ v ∈ flattenObj out, ∃ s ∈ o, ∃ j, v = s j := by
    intro v hv
    obtain ⟨e, he, hv⟩ := List.mem_flatMap.1 hv
    obtain ⟨i, rfl⟩ := List.mem_ofFn.1 hv
    exact h2 e he i
  obtain ⟨pts, hp1, hp2, -, hp4⟩ := C24_one_per_point .dode (flattenObj out) (by
    intro v hv
    obtain ⟨s, hs, j, rfl⟩ := hoko v hv
    exact h.ok s hs j)
  have hptso : ∀ v ∈ pts, ∃ s ∈ o, ∃ j, v = s j := fun v hv => hoko v (hp2 v hv)
  have hpok : ∀ v ∈ pts, Vec.Ok v := by
    intro v hv
    obtain ⟨s, hs, j, rfl⟩ := hptso v hv
    exact h.ok s hs j
  have hhull : convexHull ℝ {x | ∃ v ∈ pts, Package.dode.perp v = x} = convexHull ℝ (Package.dode.corners o) := by
    refine hull_of_extreme (corners_set_finite .dode o) ?_ ?_
    · rintro x ⟨v, hv, rfl⟩
      obtain ⟨s, hs, j, rfl⟩ := hptso v hv
      exact corners_mem hs j
    · intro V hV
      obtain ⟨e, he, i, hi⟩ := h3 V hV
      obtain ⟨v, ⟨hv, hv'⟩, -⟩ := hp4 (e i) (List.mem_flatMap.2 ⟨e, he, List.mem_ofFn.2 ⟨i, rfl⟩⟩)
      exact ⟨v, hv, hv'.trans hi⟩
  refine ⟨pts, hp1, hptso, hpok, ?_, hhull⟩
  · rintro ⟨n, hn, d, hd⟩
    obtain ⟨t, ht⟩ := List.exists_mem_of_ne_nil _ h.ne
    have key : ∀ i, n 0 * Package.dode.perps t i 0 + n 1 * Package.dode.perps t i 1 = d := by
      intro i
      have hmem : Package.dode.perps t i ∈ convexHull ℝ {x | ∃ v ∈ pts, Package.dode.perp v = x} := by
        rw [hhull]; exact subset_convexHull ℝ _ (corners_mem ht i)
      have := hull_inPlane (n := ![n 0, n 1, 0]) (d := d) (P := {x | ∃ v ∈ pts, Package.dode.perp v = x}) (by
        rintro y ⟨v, hv, rfl⟩
        have := hd _ (List.mem_map_of_mem hv)
        rw [vec3_dotProduct]
        simpa [plane, xy, dotProduct, Fin.sum_univ_two] using this) _ hmem
      rw [vec3_dotProduct] at this
      simpa using this
    have k0 := key 0; have k1 := key 1; have k2 := key 2
    have hc := sharp_area h hz ht
    unfold crossZ at hc
    apply hn
    have e1 : n 0 * ((Package.dode.perps t 1 0 - Package.dode.perps t 0 0) * (Package.dode.perps t 2 1 - Package.dode.perps t 0 1) -
        (Package.dode.perps t 1 1 - Package.dode.perps t 0 1) * (Package.dode.perps t 2 0 - Package.dode.perps t 0 0)) = 0 := by
      linear_combination (Package.dode.perps t 2 1 - Package.dode.perps t 0 1) * (k1 - k0) -
        (Package.dode.perps t 1 1 - Package.dode.perps t 0 1) * (k2 - k0)
    have e2 : n 1 * ((Package.dode.perps t 1 0 - Package.dode.perps t 0 0) * (Package.dode.perps t 2 1 - Package.dode.perps t 0 1) -
        (Package.dode.perps t 1 1 - Package.dode.perps t 0 1) * (Package.dode.perps t 2 0 - Package.dode.perps t 0 0)) = 0 := by
      linear_combination (Package.dode.perps t 1 0 - Package.dode.perps t 0 0) * (k2 - k0) -
        (Package.dode.perps t 2 0 - Package.dode.perps t 0 0) * (k1 - k0)
    funext j
    fin_cases j
    · exact (mul_eq_zero.1 e1).resolve_right hc
    · exact (mul_eq_zero.1 e2).resolve_right hc

/-- The points handed to the triangulation library have the same convex hull as the object. -/
theorem planar_hull_points (draws : Nat → Nat → (n : Nat) → Draws n) (o : Obj 3) (h : SharpTriangles .dode o) {z : ℝ}
    (hz : Level z o) :
    ∃ pts : List (Vec 6), (∀ delaunay, generateConvexHull draws delaunay o = triangulationPoints delaunay pts) ∧
      (∀ v ∈ pts, ∃ s ∈ o, ∃ j, v = s j) ∧ (∀ v ∈ pts, Vec.Ok v) ∧ ¬ InLine (pts.map plane) ∧
      convexHull ℝ {x | ∃ v ∈ pts, Package.dode.perp v = x} = convexHull ℝ (Package.dode.corners o) := by
  obtain ⟨out, h1, h2, h3⟩ := C65_outline draws o h ⟨![0, 0, 1], fun e => by simpa using congrFun e 2, z, fun x hx => by
    rw [vec3_dotProduct]; simpa using corners_level hz x hx⟩
  obtain ⟨pts, h4, h5⟩ := planar_hull_points_of h hz h2 h3
  refine ⟨pts, fun delaunay => ?_, h5⟩
  unfold generateConvexHull
  change (outline draws o >>= _) = _
  rw [h1, bind_ok', h4, bind_ok']

/-- C71: for triangles of one height that fit together, whatever the random draws and with a library that tiles convex
hulls, `generate_convex_hull` of dode2 returns triangles without overlap, none degenerate, on vertices of the object,
that fill exactly the convex hull of the object; their exact area is the Lebesgue measure of the hull. -/
theorem C71_hull (draws : Nat → Nat → (n : Nat) → Draws n) (delaunay : Delaunay2) (hD : TilesHull2 delaunay) (o : Obj 3)
    (h : SharpTriangles .dode o) (z : ℝ) (hz : Level z o) :
    ∃ r w, generateConvexHull draws delaunay o = .ok (some r) ∧ Obj.Ok r ∧ Level z r ∧ NoOverlap2 z r ∧
      (∀ t ∈ r, triArea (Package.dode.perps t) ≠ 0) ∧ (∀ t ∈ r, ∀ k, ∃ s ∈ o, ∃ j, t k = s j) ∧
      Package.dode.region r = convexHull ℝ (Package.dode.corners o) ∧
      objArea6d (.d4 r) = .ok (some w) ∧
      ENNReal.ofReal (w.val sin60) = volume (slice z (convexHull ℝ (Package.dode.corners o))) := by
  obtain ⟨pts, h1, hptso, hpok, hnl, hhull⟩ := planar_hull_points draws o h hz
  have hpz : ∀ v ∈ pts, Package.dode.perp v 2 = z := by
    intro v hv
    obtain ⟨s, hs, j, rfl⟩ := hptso v hv
    exact hz s hs j
  obtain ⟨q, hq, h2, -, h4⟩ := triangulation_fills hD.toFillsHull2 hpok hpz
  have h4 := h4 hnl
  rw [hhull] at h4
  cases q with
  | none =>
    obtain ⟨t, ht⟩ := List.exists_mem_of_ne_nil _ h.ne
    obtain ⟨a, ha, -⟩ := h4 (subset_convexHull ℝ _ (corners_mem ht 0))
    simp at ha
  | some r =>
    simp only [Option.getD_some] at h2 h4
    have hrok : Obj.Ok r := fun t ht k => hpok _ ((h2 t ht).1 k)
    have hrz : Level z r := fun t ht k => hpz _ ((h2 t ht).1 k)
    have hno := triangulation_noOverlap hD hpok hpz hq
    have hreg : Package.dode.region r = convexHull ℝ (Package.dode.corners o) := by
      refine Set.Subset.antisymm ((region_subset_corners .dode r).trans (convexHull_mono ?_)) h4
      rintro x ⟨t, ht, i, rfl⟩
      obtain ⟨s, hs, j, e⟩ := hptso _ ((h2 t ht).1 i)
      exact ⟨s, hs, j, by rw [e]⟩
    obtain ⟨w, hw, -, hw2⟩ := C69_object r hrok z hrz
    refine ⟨r, w, (h1 delaunay).trans hq, hrok, hrz, hno, fun t ht => ?_, fun t ht k => hptso _ ((h2 t ht).1 k), hreg, hw, ?_⟩
    · rw [triArea_flat (q := Package.dode.perps t) (hrz t ht)]; exact (h2 t ht).2
    · rw [← hw2.2 hno, hreg]

/-! ## C71: simplification -/

theorem area_nonneg {o : Obj 3} {v : Num3} (h : Obj.Ok o) (hv : objArea6d (.d4 o) = .ok (some v)) : 0 ≤ v.val sin60 := by
  obtain ⟨⟨w, hw, -, e⟩, -⟩ := C43_object o h
  rw [hv] at hw
  cases hw
  rw [e]
  refine List.sum_nonneg fun x hx => ?_
  obtain ⟨t, -, rfl⟩ := List.mem_map.1 hx
  rw [triAreaXY_crossZ]; positivity

/-- Exact areas that are equal as measures are equal triples. -/
theorem area_triple {o o' : Obj 3} {v v' : Num3} (h : Obj.Ok o) (h' : Obj.Ok o') (hv : objArea6d (.d4 o) = .ok (some v))
    (hv' : objArea6d (.d4 o') = .ok (some v')) (e : ENNReal.ofReal (v.val sin60) = ENNReal.ofReal (v'.val sin60)) : v = v' := by
  have p1 := area_nonneg h hv
  have p2 := area_nonneg h' hv'
  obtain ⟨⟨w, hw, c1, -⟩, -⟩ := C43_object o h
  rw [hv] at hw
  cases hw
  obtain ⟨⟨w, hw, c2, -⟩, -⟩ := C43_object o' h'
  rw [hv'] at hw
  cases hw
  exact canon_unique (θ := sin60) c1 c2 ((ENNReal.ofReal_eq_ofReal_iff p1 p2).1 e)

/-- C71: nothing is simplified to nothing. -/
theorem C71_empty (hd hl delaunay) : simplification hd hl delaunay [] = .ok none := rfl

/-- C71: on triangles of one height that fit together, when the tolerances do not matter for the intersection of the
object with triangles on its own vertices, `simplification` of dode2 never raises and always answers with the convex
hull of the object. Its area is the area of the object exactly when the object fills its convex hull up to area zero,
and larger otherwise. -/
theorem C71_simplification (hd : Nat → Nat → (n : Nat) → Draws n) (hl : Delaunay2) (hD : TilesHull2 hl)
    (delaunay : Simplex 3 → Simplex 3 → Delaunay2) (hD' : ∀ s t, TilesHull2 (delaunay s t)) (o : Obj 3)
    (h : SharpTriangles .dode o) (z : ℝ) (hz : Level z o)
    (hres : ∀ s : Simplex 3, (∀ k, ∃ t ∈ o, ∃ j, s k = t j) → triArea (Package.dode.perps s) ≠ 0 →
      ∀ t ∈ o, ResolvedTri (Package.dode.perps s) (Package.dode.perps t)) :
    ∃ r v w, simplification hd hl delaunay o = .ok (some r) ∧ generateConvexHull hd hl o = .ok (some r) ∧
      Package.dode.region r = convexHull ℝ (Package.dode.corners o) ∧ NoOverlap2 z r ∧
      objArea6d (.d4 o) = .ok (some v) ∧ ENNReal.ofReal (v.val sin60) = volume (slice z (Package.dode.region o)) ∧
      objArea6d (.d4 r) = .ok (some w) ∧
      ENNReal.ofReal (w.val sin60) = volume (slice z (convexHull ℝ (Package.dode.corners o))) ∧
      v.val sin60 ≤ w.val sin60 ∧
      (w = v ↔ volume (slice z (convexHull ℝ (Package.dode.corners o) \ Package.dode.region o)) = 0) := by
  obtain ⟨r, w, h1, hrok, hrz, hno, hra, h3, h4, h5, h6⟩ := C71_hull hd hl hD o h z hz
  have hoo := sharp_noOverlap h hz
  obtain ⟨v, hv, -, hv2⟩ := C69_object o h.ok z hz
  have hvol := (hv2.2 hoo).symm
  have hsub := region_subset_corners .dode o
  have hinter : Package.dode.region r ∩ Package.dode.region o = Package.dode.region o := by
    rw [Set.inter_eq_right, h4]; exact hsub
  have hfin : volume (slice z (Package.dode.region o)) ≠ ⊤ := by rw [← hvol]; exact ENNReal.ofReal_ne_top
  have hle : volume (slice z (Package.dode.region o)) ≤ volume (slice z (convexHull ℝ (Package.dode.corners o))) :=
    measure_mono (slice_mono hsub)
  have hmeas : MeasurableSet (slice z (Package.dode.region o)) := Planar.region_measurable o
  have hpos : 0 < volume (slice z (Package.dode.region o)) := by
    obtain ⟨s, hs⟩ := List.exists_mem_of_ne_nil _ h.ne
    refine lt_of_lt_of_le ?_ (measure_mono (slice_mono fun x hx => (⟨s, hs, hx⟩ : x ∈ Package.dode.region o)))
    have e := volume_triangle (q := Package.dode.perps s) (hz s hs)
    rw [e, ENNReal.ofReal_pos, triAreaXY_crossZ]
    have := abs_pos.2 (sharp_area h hz hs)
    positivity
  have hall : ∀ s ∈ r, ∀ t ∈ o, ResolvedTri (Package.dode.perps s) (Package.dode.perps t) := fun s hs t ht =>
    hres s (h3 s hs) (hra s hs) t ht
  refine ⟨r, v, w, ?_, h1, h4, hno, hv, hvol, h5, h6, ?_, ?_, ?_⟩
  · obtain ⟨q, hq, -⟩ := C68_objects .standard delaunay r o z (fun s _ t _ => (hD' s t).toFillsHull2) h.ne hrok h.ok hrz hz hall
    obtain ⟨g1, g2⟩ := C69_objects .standard delaunay r o z (fun s _ t _ => hD' s t) h.ne hrok h.ok hrz hz hno hoo hall q hq
    rw [hinter] at g1 g2
    unfold simplification
    rw [if_neg h.ne, hv, bind_ok', h1, bind_ok']
    change (intersectionApi .standard delaunay (.d4 r) (.d4 o) >>= _) = _
    rw [hq, bind_ok']
    cases q with
    | none => exact absurd (g1 rfl) hpos.ne'
    | some q =>
      obtain ⟨u, hu, hu2⟩ := g2 q rfl
      change (objArea6d (.d4 q) >>= _) = _
      have hqok := (planar_result_ok (fun s _ t _ => (hD' s t).toFillsHull2) h.ne hrok h.ok hrz hz hall hq).1
      rw [hu, bind_ok', if_pos]
      rw [area_triple h.ok hqok hv hu (hvol.trans hu2)]
  · rw [← hvol, ← h6] at hle
    exact (ENNReal.ofReal_le_ofReal_iff (area_nonneg hrok h5)).1 hle
  · rintro rfl
    rw [slice_sdiff, measure_sdiff (slice_mono hsub) hmeas.nullMeasurableSet hfin, ← hvol, ← h6, tsub_self]
  · intro h0
    refine area_triple hrok h.ok h5 hv ?_
    rw [hvol, h6]
    refine le_antisymm ?_ hle
    rw [slice_sdiff, measure_sdiff (slice_mono hsub) hmeas.nullMeasurableSet hfin] at h0
    exact tsub_eq_zero_iff_le.1 h0

/-- C71: when the object fills a convex region, `simplification` keeps the region and the exact area. -/
theorem C71_convex (hd : Nat → Nat → (n : Nat) → Draws n) (hl : Delaunay2) (hD : TilesHull2 hl)
    (delaunay : Simplex 3 → Simplex 3 → Delaunay2) (hD' : ∀ s t, TilesHull2 (delaunay s t)) (o : Obj 3)
    (h : SharpTriangles .dode o) (z : ℝ) (hz : Level z o)
    (hres : ∀ s : Simplex 3, (∀ k, ∃ t ∈ o, ∃ j, s k = t j) → triArea (Package.dode.perps s) ≠ 0 →
      ∀ t ∈ o, ResolvedTri (Package.dode.perps s) (Package.dode.perps t))
    (hc : Convex ℝ (Package.dode.region o)) :
    ∃ r, simplification hd hl delaunay o = .ok (some r) ∧ Package.dode.region r = Package.dode.region o ∧
      objArea6d (.d4 r) = objArea6d (.d4 o) := by
  obtain ⟨r, v, w, h1, -, h3, -, h5, -, h6, -, -, h7⟩ := C71_simplification hd hl hD delaunay hD' o h z hz hres
  have hreg : convexHull ℝ (Package.dode.corners o) = Package.dode.region o := by
    refine Set.Subset.antisymm (convexHull_min ?_ hc) (region_subset_corners .dode o)
    rintro x ⟨s, hs, i, rfl⟩
    exact ⟨s, hs, subset_convexHull ℝ _ ⟨i, rfl⟩⟩
  refine ⟨r, h1, h3.trans hreg, ?_⟩
  rw [h6, h5, h7.2]
  rw [hreg, Set.sdiff_self]
  exact (congrArg volume (Set.eq_empty_of_forall_notMem fun _ h => h)).trans measure_empty

/-- A sufficient condition for the resolution hypothesis of `C71_simplification`: corners on a grid of spacing `1/n` with
`n ≤ 31` and at most 300 grid steps from the origin. -/
theorem C71_grid (o : Obj 3) (z : ℝ) (A : Fin o.length → Fin 3 → Fin 2 → ℤ) (n : ℕ) (hn : 0 < n) (hn2 : n ^ 4 ≤ 10 ^ 6)
    (hA : ∀ a i, Package.dode.perp (o.get a i) = ![(A a i 0 : ℝ) / n, A a i 1 / n, z])
    (hM : ∀ a i j, |A a i j| ≤ 300) (h0 : ∀ a, triZ (A a 0) (A a 1) (A a 2) ≠ 0) (s : Simplex 3)
    (hs : ∀ k, ∃ t ∈ o, ∃ j, s k = t j) (hs0 : triArea (Package.dode.perps s) ≠ 0) (t : Simplex 3) (ht : t ∈ o) :
    ResolvedTri (Package.dode.perps s) (Package.dode.perps t) := by
  have hb : ∀ p q r : Fin 2 → ℤ, (∀ j, |p j| ≤ 300) → (∀ j, |q j| ≤ 300) → (∀ j, |r j| ≤ 300) → |triZ p q r| < 10 ^ 6 := by
    intro p q r hp hq hr
    have e : ∀ x y : ℤ, |x| ≤ 300 → |y| ≤ 300 → |x - y| ≤ 600 := by
      intro x y hx hy; rw [abs_le] at *; omega
    unfold triZ
    refine lt_of_le_of_lt (abs_sub _ _) ?_
    rw [abs_mul, abs_mul]
    have m1 := mul_le_mul (e _ _ (hq 0) (hp 0)) (e _ _ (hr 1) (hp 1)) (abs_nonneg _) (by norm_num)
    have m2 := mul_le_mul (e _ _ (hq 1) (hp 1)) (e _ _ (hr 0) (hp 0)) (abs_nonneg _) (by norm_num)
    norm_num at m1 m2 ⊢
    linarith
  have hk : ∀ k, ∃ a : Fin 2 → ℤ, Package.dode.perp (s k) = ![(a 0 : ℝ) / n, a 1 / n, z] ∧ ∀ j, |a j| ≤ 300 := by
    intro k
    obtain ⟨t, ht, j, e⟩ := hs k
    obtain ⟨i, rfl⟩ := List.get_of_mem ht
    exact ⟨A i j, by rw [e]; exact hA i j, hM i j⟩
  choose a ha ha' using hk
  obtain ⟨i, rfl⟩ := List.get_of_mem ht
  refine C68_grid s (o.get i) z a (A i) n hn hn2 ha (hA i) ?_ (h0 i) (hb _ _ _ (ha' 0) (ha' 1) (ha' 2))
    (hb _ _ _ (hM i 0) (hM i 1) (hM i 2))
  intro e
  refine (triArea_flat_ne (q := Package.dode.perps s) (z := z) fun k => congrFun (ha k) 2).1 hs0 ?_
  rw [crossZ_int (S := Package.dode.perps s) (n := n) (a := a) (fun k => congrFun (ha k) 0) (fun k => congrFun (ha k) 1), e]
  simp

/-! ## Examples -/

/-- Two triangles that make up a dart, with a reflex corner at the origin. -/
def exDart2 : Obj 3 := [![flat2 0 0, flat2 0 2, flat2 2 (-1)], ![flat2 0 0, flat2 0 2, flat2 (-2) (-1)]]

def exDart2Z : Fin 2 → Fin 3 → Fin 3 → ℤ :=
  ![![![0, 0, 0], ![0, 2, 0], ![2, -1, 0]], ![![0, 0, 0], ![0, 2, 0], ![-2, -1, 0]]]

theorem exDart2_perp (a : Fin 2) (i j : Fin 3) : Package.dode.perp (exDart2.get a i) j = (exDart2Z a i j : ℝ) / (1 : ℕ) := by
  fin_cases a <;> fin_cases i <;> refine (congrFun (perp_flat2 _ _) j).trans ?_ <;> fin_cases j <;> simp [exDart2Z]

theorem exDart2_sharp : SharpTriangles .dode exDart2 := by
  refine sharpTriangles_grid .dode exDart2 exDart2Z 1 2 (by norm_num) (by simp [exDart2]) (by decide) exDart2_perp (by decide)
      (by norm_num) (by norm_num) (by norm_num) (by decide +kernel) ?_ (by decide +kernel)
  have : ∀ i j : Fin 2, i ≠ j → ∃ m ∈ exDirs, SepZ (exDart2Z i) (exDart2Z j) m := by decide +kernel
  intro i j hij
  obtain ⟨m, -, hm⟩ := this i j hij
  exact .inr ⟨m, hm⟩

theorem exDart2_level : Level 0 exDart2 := by
  intro t ht i
  obtain ⟨a, rfl⟩ := List.get_of_mem ht
  refine (exDart2_perp a i 2).trans ?_
  have : ∀ (a : Fin 2) (i : Fin 3), exDart2Z a i 2 = 0 := by decide
  rw [this a i]; simp

theorem exDart2_resolved (s : Simplex 3) (hs : ∀ k, ∃ t ∈ exDart2, ∃ j, s k = t j) (h0 : triArea (Package.dode.perps s) ≠ 0) :
    ∀ t ∈ exDart2, ResolvedTri (Package.dode.perps s) (Package.dode.perps t) := by
  refine C71_grid exDart2 0 (fun a i j => exDart2Z a i j.castSucc) 1 (by norm_num) (by norm_num) ?_ (by decide) (by decide) s hs h0
  intro a i
  funext j
  refine (exDart2_perp a i j).trans ?_
  have : ∀ (a : Fin 2) (i : Fin 3), exDart2Z a i 2 = 0 := by decide
  fin_cases j
  · rfl
  · rfl
  · change ((exDart2Z a i 2 : ℤ) : ℝ) / _ = 0
    rw [this a i]; simp

def exDart2Hull : Simplex 3 := ![flat2 0 2, flat2 2 (-1), flat2 (-2) (-1)]

theorem perps_exDart2Hull : Package.dode.perps exDart2Hull = ![![0, 2, 0], ![2, -1, 0], ![-2, -1, 0]] := by
  funext i
  fin_cases i <;> refine (perp_flat2 _ _).trans ?_ <;> funext j <;> fin_cases j <;> norm_num

theorem exDart2_hull : convexHull ℝ (Package.dode.corners exDart2) = solid (Package.dode.perps exDart2Hull) := by
  have h3 : ∀ k, Package.dode.perps exDart2Hull k ∈ solid (Package.dode.perps exDart2Hull) := fun k =>
    subset_convexHull ℝ _ ⟨k, rfl⟩
  refine Set.Subset.antisymm (convexHull_min ?_ (convex_convexHull ℝ _)) (convexHull_mono ?_)
  · rintro x ⟨t, ht, i, rfl⟩
    have h0 : Package.dode.perp (flat2 0 0) ∈ solid (Package.dode.perps exDart2Hull) := by
      rw [perp_flat2, perps_exDart2Hull]
      refine mem_solid_iff.2 ⟨fun _ => 1 / 3, ⟨?_, ?_⟩, ?_⟩
      · rw [Fin.sum_univ_three]; norm_num
      · funext j
        rw [Finset.sum_apply, Fin.sum_univ_three]
        fin_cases j <;> simp <;> norm_num
      · intro i; norm_num
    simp only [exDart2, List.mem_cons, List.not_mem_nil, or_false] at ht
    rcases ht with rfl | rfl <;> fin_cases i
    · exact h0
    · exact h3 0
    · exact h3 1
    · exact h0
    · exact h3 0
    · exact h3 2
  · rintro x ⟨k, rfl⟩
    fin_cases k
    · exact ⟨_, List.mem_cons_self, 1, rfl⟩
    · exact ⟨_, List.mem_cons_self, 2, rfl⟩
    · exact ⟨_, List.mem_cons_of_mem _ List.mem_cons_self, 2, rfl⟩

/-- C71 for an object that is not convex: all hypotheses of `C71_simplification` hold for a dart of area 4, but
`simplification` always returns an object of area 6, its convex hull. -/
theorem C71_nonconvex : SharpTriangles .dode exDart2 ∧ Level 0 exDart2 ∧
    (∀ s : Simplex 3, (∀ k, ∃ t ∈ exDart2, ∃ j, s k = t j) → triArea (Package.dode.perps s) ≠ 0 →
      ∀ t ∈ exDart2, ResolvedTri (Package.dode.perps s) (Package.dode.perps t)) ∧
    ∀ hd hl delaunay, TilesHull2 hl → (∀ s t, TilesHull2 (delaunay s t)) →
      ∃ r v w, simplification hd hl delaunay exDart2 = .ok (some r) ∧ objArea6d (.d4 exDart2) = .ok (some v) ∧
        objArea6d (.d4 r) = .ok (some w) ∧ v.val sin60 = 4 ∧ w.val sin60 = 6 := by
  refine ⟨exDart2_sharp, exDart2_level, exDart2_resolved, fun hd hl delaunay hD hD' => ?_⟩
  obtain ⟨r, v, w, h1, h2, -, -, h5, -, h6, h7, -⟩ := C71_simplification hd hl hD delaunay hD' exDart2 exDart2_sharp 0
    exDart2_level exDart2_resolved
  obtain ⟨r', w', g1, hrok, -⟩ := C71_hull hd hl hD exDart2 exDart2_sharp 0 exDart2_level
  rw [h2] at g1
  cases g1
  refine ⟨r, v, w, h1, h5, h6, ?_, ?_⟩
  · obtain ⟨⟨u, hu, -, e⟩, -⟩ := C43_object exDart2 exDart2_sharp.ok
    rw [h5] at hu
    cases hu
    have p1 : Package.dode.perps ![flat2 0 0, flat2 0 2, flat2 2 (-1)] = ![![0, 0, 0], ![0, 2, 0], ![2, -1, 0]] := by
      funext i
      fin_cases i <;> refine (perp_flat2 _ _).trans ?_ <;> funext j <;> fin_cases j <;> norm_num
    have p2 : Package.dode.perps ![flat2 0 0, flat2 0 2, flat2 (-2) (-1)] = ![![0, 0, 0], ![0, 2, 0], ![-2, -1, 0]] := by
      funext i
      fin_cases i <;> refine (perp_flat2 _ _).trans ?_ <;> funext j <;> fin_cases j <;> norm_num
    rw [e]
    change triAreaXY (Package.dode.perps ![flat2 0 0, flat2 0 2, flat2 2 (-1)]) +
      (triAreaXY (Package.dode.perps ![flat2 0 0, flat2 0 2, flat2 (-2) (-1)]) + 0) = 4
    rw [p1, p2]
    simp [triAreaXY]
    norm_num
  · rw [exDart2_hull] at h7
    have e := volume_triangle (q := Package.dode.perps exDart2Hull) (z := 0) (by
      rw [perps_exDart2Hull]; intro i; fin_cases i <;> rfl)
    have e2 : triAreaXY (Package.dode.perps exDart2Hull) = 6 := by
      rw [perps_exDart2Hull]; simp [triAreaXY]; norm_num
    rw [e, e2] at h7
    exact (ENNReal.ofReal_eq_ofReal_iff (area_nonneg hrok h6) (by norm_num)).1 h7

/-- The library hypotheses are met: some library tiles convex hulls, so `C71_nonconvex` says something. -/
example : ∃ hl : Delaunay2, TilesHull2 hl := exists_tiles2

theorem exSquare_sharp : SharpTriangles .dode exSquare := by
  refine sharpTriangles_grid .dode exSquare exSquareZ 1 1 (by norm_num) (by simp [exSquare]) (by decide) exSquare_perp (by decide)
      (by norm_num) (by norm_num) (by norm_num) (by decide +kernel) ?_ (by decide +kernel)
  have : ∀ i j : Fin 2, i ≠ j → ∃ m ∈ exDirs, SepZ (exSquareZ i) (exSquareZ j) m := by decide +kernel
  intro i j hij
  obtain ⟨m, -, hm⟩ := this i j hij
  exact .inr ⟨m, hm⟩

theorem exSquare_level : Level 0 exSquare := by
  intro t ht i
  obtain ⟨a, rfl⟩ := List.get_of_mem ht
  refine (exSquare_perp a i 2).trans ?_
  have : ∀ (a : Fin 2) (i : Fin 3), exSquareZ a i 2 = 0 := by decide
  rw [this a i]; simp

theorem exSquare_resolved (s : Simplex 3) (hs : ∀ k, ∃ t ∈ exSquare, ∃ j, s k = t j) (h0 : triArea (Package.dode.perps s) ≠ 0) :
    ∀ t ∈ exSquare, ResolvedTri (Package.dode.perps s) (Package.dode.perps t) := by
  refine C71_grid exSquare 0 (fun a i j => exSquareZ a i j.castSucc) 1 (by norm_num) (by norm_num) ?_ (by decide) (by decide) s hs h0
  intro a i
  funext j
  refine (exSquare_perp a i j).trans ?_
  have : ∀ (a : Fin 2) (i : Fin 3), exSquareZ a i 2 = 0 := by decide
  fin_cases j
  · rfl
  · rfl
  · change ((exSquareZ a i 2 : ℤ) : ℝ) / _ = 0
    rw [this a i]; simp

theorem exSquare_region : Package.dode.region exSquare = Set.Icc ![0, 0, 0] ![1, 1, 0] := by
  have p1 : Package.dode.perps ![flat2 0 0, flat2 1 0, flat2 1 1] = ![![0, 0, 0], ![1, 0, 0], ![1, 1, 0]] := by
    funext i
    fin_cases i <;> refine (perp_flat2 _ _).trans ?_ <;> funext j <;> fin_cases j <;> norm_num
  have p2 : Package.dode.perps ![flat2 0 0, flat2 1 1, flat2 0 1] = ![![0, 0, 0], ![1, 1, 0], ![0, 1, 0]] := by
    funext i
    fin_cases i <;> refine (perp_flat2 _ _).trans ?_ <;> funext j <;> fin_cases j <;> norm_num
  refine Set.Subset.antisymm ?_ ?_
  · refine (region_subset_corners .dode exSquare).trans (convexHull_min ?_ (convex_Icc _ _))
    rintro x ⟨t, ht, i, rfl⟩
    obtain ⟨a, rfl⟩ := List.get_of_mem ht
    have : ∀ (a : Fin 2) (i j : Fin 3), (![0, 0, 0] : Fin 3 → ℤ) j ≤ exSquareZ a i j ∧ exSquareZ a i j ≤ (![1, 1, 0] : Fin 3 → ℤ) j := by
      decide
    have hj : ∀ j, Package.dode.perp (exSquare.get a i) j = (exSquareZ a i j : ℝ) := fun j =>
      (exSquare_perp a i j).trans (by simp)
    constructor
    · intro j
      refine le_of_le_of_eq ?_ (hj j).symm
      have := (Int.cast_le (R := ℝ)).2 (this a i j).1
      fin_cases j <;> simpa using this
    · intro j
      refine le_of_eq_of_le (hj j) ?_
      have := (Int.cast_le (R := ℝ)).2 (this a i j).2
      fin_cases j <;> simpa using this
  · rintro x ⟨h1, h2⟩
    have l0 : 0 ≤ x 0 := h1 0
    have l1 : 0 ≤ x 1 := h1 1
    have u0 : x 0 ≤ 1 := h2 0
    have u1 : x 1 ≤ 1 := h2 1
    have e2 : x 2 = 0 := le_antisymm (h2 2) (h1 2)
    rcases le_total (x 1) (x 0) with hle | hle
    · refine ⟨_, List.mem_cons_self, ?_⟩
      rw [p1]
      refine mem_solid_iff.2 ⟨![1 - x 0, x 0 - x 1, x 1], ⟨?_, ?_⟩, ?_⟩
      · rw [Fin.sum_univ_three]; simp
      · funext j
        rw [Finset.sum_apply, Fin.sum_univ_three]
        fin_cases j <;> simp [e2]
      · intro i; fin_cases i <;> simp <;> linarith
    · refine ⟨_, List.mem_cons_of_mem _ List.mem_cons_self, ?_⟩
      rw [p2]
      refine mem_solid_iff.2 ⟨![1 - x 1, x 0, x 1 - x 0], ⟨?_, ?_⟩, ?_⟩
      · rw [Fin.sum_univ_three]; simp
      · funext j
        rw [Finset.sum_apply, Fin.sum_univ_three]
        fin_cases j <;> simp [e2]
      · intro i; fin_cases i <;> simp <;> linarith

/-- The hypotheses of `C71_convex` are met by two triangles that make up a square. -/
example (hd : Nat → Nat → (n : Nat) → Draws n) : ∃ (hl : Delaunay2) (r : Obj 3),
    simplification hd hl (fun _ _ => hl) exSquare = .ok (some r) ∧ Package.dode.region r = Set.Icc ![0, 0, 0] ![1, 1, 0] := by
  obtain ⟨hl, hD⟩ := exists_tiles2
  obtain ⟨r, h1, h2, -⟩ := C71_convex hd hl hD (fun _ _ => hl) (fun _ _ => hD) exSquare exSquare_sharp 0 exSquare_level
    exSquare_resolved (by rw [exSquare_region]; exact convex_Icc _ _)
  exact ⟨hl, r, h1, h2.trans exSquare_region⟩

end PyQC
