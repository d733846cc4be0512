import Verif.Lemmas.HullRounded
import Verif.Props.ReturnsPlanar
import Verif.Props.PlanarMeasureRounded
import Verif.Props.DecidePlanar
/-!
# C113 for flat objects (dode2): convex hull and simplification computed with rounding
-/
namespace PyQC
open Matrix MeasureTheory Dode Planar Rounding

section
variable (F : Float64) (hF : KeepsHuge F) {R : ℝ} (hR : 1 ≤ R)
include hF hR

/-- C113 for flat objects: with rounding, whatever the random draws, for triangles of one height that fit together and of
moderate size and with a library that tiles the hulls of vertices of the object when given their rounded coordinates,
`generate_convex_hull` returns triangles without overlap on vertices of the object that fill exactly the convex hull of
the object, and their exact area is the Lebesgue measure of the hull. -/
theorem C113_hull_planar (hR2 : R ≤ 32) (draws : Nat → Nat → (n : Nat) → Draws n) (delaunay : Delaunay2) (o : Obj 3)
    (hD : ∀ r pns, (∀ v ∈ r, ∃ s ∈ o, ∃ j, v = s j) → F.delaunayInput2 r = .ok pns → ¬ InLine (r.map plane) →
      TilesHullOf2 (r.map plane) (delaunay pns))
    (h : SharpRounded .dode R o) (z : ℝ) (hz : Level z o) :
    ∃ r w, F.dodeGenerateConvexHull draws delaunay o = .ok (some r) ∧ Obj.Ok r ∧ Level z r ∧ NoOverlap2 z r ∧
      (∀ t ∈ r, triArea (Package.dode.perps t) ≠ 0) ∧ (∀ t ∈ r, ∀ k, ∃ s ∈ o, ∃ j, t k = s j) ∧
      Package.dode.region r = convexHull ℝ (Package.dode.corners o) ∧
      objArea6d (.d4 r) = .ok (some w) ∧
      ENNReal.ofReal (w.val sin60) = volume (slice z (convexHull ℝ (Package.dode.corners o))) := by
  obtain ⟨pts, h1, hptso, hpok, hnl, hhull⟩ := planar_hull_points_rounded F hF hR hR2 draws o h hz
  have hpz : ∀ v ∈ pts, Package.dode.perp v 2 = z := by
    intro v hv
    obtain ⟨s, hs, j, rfl⟩ := hptso v hv
    exact hz s hs j
  obtain ⟨pns, hpns⟩ := delaunayInput2_ok F hpok
  have hT := triangulation2_rounded F delaunay hpok hpns
  obtain ⟨D, hDt, -, e⟩ := triangulation_at hpok (hD pts pns hptso hpns hnl)
  obtain ⟨q, hq, h2, -, h4⟩ := triangulation_fills hDt.toFillsHull2 hpok hpz
  have h4 := h4 hnl
  rw [hhull] at h4
  cases q with
  | none =>
    obtain ⟨t, ht⟩ := List.exists_mem_of_ne_nil _ h.sharp.ne
    obtain ⟨a, ha, -⟩ := h4 (subset_convexHull ℝ _ (corners_mem ht 0))
    simp at ha
  | some r =>
    simp only [Option.getD_some] at h2 h4
    have hrok : Obj.Ok r := fun t ht k => hpok _ ((h2 t ht).1 k)
    have hrz : Level z r := fun t ht k => hpz _ ((h2 t ht).1 k)
    have hno := triangulation_noOverlap hDt hpok hpz hq
    have hreg : Package.dode.region r = convexHull ℝ (Package.dode.corners o) := by
      refine Set.Subset.antisymm ((region_subset_corners .dode r).trans (convexHull_mono ?_)) h4
      rintro x ⟨t, ht, i, rfl⟩
      obtain ⟨s, hs, j, e⟩ := hptso _ ((h2 t ht).1 i)
      exact ⟨s, hs, j, by rw [e]⟩
    obtain ⟨w, hw, -, hw2⟩ := C69_object r hrok z hrz
    refine ⟨r, w, by rw [h1, hT, e, hq], hrok, hrz, hno, fun t ht => ?_, fun t ht k => hptso _ ((h2 t ht).1 k), hreg, hw, ?_⟩
    · rw [triArea_flat (q := Package.dode.perps t) (hrz t ht)]; exact (h2 t ht).2
    · rw [← hw2.2 hno, hreg]

/-- C113 for flat objects: with rounding, when the computed hull and the object are resolved in spite of rounding and the
libraries tile, `simplification` raises nothing and answers with the convex hull of the object, even when the object does
not fill it. -/
theorem C113_simplification_planar (hR8 : R ≤ 8) (hd : Nat → Nat → (n : Nat) → Draws n) (hl : Delaunay2)
    (delaunay : Simplex 3 → Simplex 3 → Delaunay2) (o : Obj 3)
    (hD : ∀ r pns, (∀ v ∈ r, ∃ s ∈ o, ∃ j, v = s j) → F.delaunayInput2 r = .ok pns → ¬ InLine (r.map plane) →
      TilesHullOf2 (r.map plane) (hl pns))
    (hD' : ∀ hull, F.dodeGenerateConvexHull hd hl o = .ok (some hull) → ∀ s ∈ hull, ∀ t ∈ o, ∀ r pns,
      (∀ v ∈ r, Vec.Ok v ∧ Candidate2 (Package.dode.perps s) (Package.dode.perps t) (Package.dode.perp v)) →
      F.delaunayInput2 r = .ok pns → ¬ InLine (r.map plane) → TilesHullOf2 (r.map plane) (delaunay s t pns))
    (h : SharpRounded .dode R o) (z : ℝ) (hz : Level z o)
    (hres : ∀ r, F.dodeGenerateConvexHull hd hl o = .ok (some r) → ObjectsRounded2 R z r o) :
    ∃ r v w, F.dodeSimplification hd hl delaunay o = .ok (some r) ∧ F.dodeGenerateConvexHull hd hl o = .ok (some r) ∧
      Package.dode.region r = convexHull ℝ (Package.dode.corners o) ∧ NoOverlap2 z r ∧
      objArea6d (.d4 o) = .ok (some v) ∧ ENNReal.ofReal (v.val sin60) = volume (slice z (Package.dode.region o)) ∧
      objArea6d (.d4 r) = .ok (some w) ∧
      ENNReal.ofReal (w.val sin60) = volume (slice z (convexHull ℝ (Package.dode.corners o))) ∧
      (Convex ℝ (Package.dode.region o) → Package.dode.region r = Package.dode.region o ∧ w = v) := by
  obtain ⟨r, w, h1, hrok, hrz, hno, hra, h3, h4, h5, h6⟩ := C113_hull_planar F hF hR (hR8.trans (by norm_num)) hd hl o hD h z hz
  have hoo := sharp_noOverlap h.sharp hz
  obtain ⟨v, hv, -, hv2⟩ := C69_object o h.sharp.ok z hz
  have hvol := (hv2.2 hoo).symm
  have hsub := region_subset_corners .dode o
  have hinter : Package.dode.region r ∩ Package.dode.region o = Package.dode.region o := by
    rw [Set.inter_eq_right, h4]; exact hsub
  have hpos : 0 < volume (slice z (Package.dode.region o)) := by
    obtain ⟨s, hs⟩ := List.exists_mem_of_ne_nil _ h.sharp.ne
    refine lt_of_lt_of_le ?_ (measure_mono (slice_mono fun x hx => (⟨s, hs, hx⟩ : x ∈ Package.dode.region o)))
    have e := volume_triangle (q := Package.dode.perps s) (hz s hs)
    rw [e, ENNReal.ofReal_pos, triAreaXY_crossZ]
    have := abs_pos.2 (sharp_area h.sharp hz hs)
    positivity
  refine ⟨r, v, w, ?_, h1, h4, hno, hv, hvol, h5, h6, fun hc => ?_⟩
  · obtain ⟨q, hq, -⟩ := C111_objects F hR hR8 .standard delaunay r o z
      (fun s hs t ht x pns a b c => (hD' r h1 s hs t ht x pns a b c).1) h.sharp.ne hrok h.sharp.ok hrz hz (hres r h1)
    obtain ⟨g1, g2⟩ := objects_area_rounded F hR hR8 .standard (hD' r h1) hrok h.sharp.ok hrz hz hno hoo (hres r h1) hq
    rw [hinter] at g1 g2
    unfold Float64.dodeSimplification
    rw [if_neg h.sharp.ne, hv, bind_ok', h1, bind_ok']
    change (F.dodeIntersectionApi .standard delaunay (.d4 r) (.d4 o) >>= _) = _
    rw [hq, bind_ok']
    cases q with
    | none => exact absurd (g1 rfl) hpos.ne'
    | some q =>
      obtain ⟨oq, -, u, hu, hu2⟩ := g2 q rfl
      change (objArea6d (.d4 q) >>= _) = _
      rw [hu, bind_ok', if_pos]
      rw [area_triple h.sharp.ok oq hv hu (hvol.trans hu2)]
  · have hreg : convexHull ℝ (Package.dode.corners o) = Package.dode.region o := by
      refine Set.Subset.antisymm (convexHull_min ?_ hc) hsub
      rintro x ⟨s, hs, i, rfl⟩
      exact ⟨s, hs, subset_convexHull ℝ _ ⟨i, rfl⟩⟩
    rw [hreg] at h4 h6
    exact ⟨h4, area_triple hrok h.sharp.ok h5 hv (h6.trans hvol.symm)⟩

end

/-! ## The square -/

/-- The vertices of the square. -/
def exSquareVs : List (Vec 6) := [flat2 0 0, flat2 1 0, flat2 1 1, flat2 0 1]

/-- All triangles on vertices of the square are resolved against the square, in spite of rounding. -/
theorem exSquare_test : (exSquareVs.all fun a => exSquareVs.all fun b => exSquareVs.all fun c =>
    decide (a = b ∨ b = c ∨ a = c) || objectsTest2 1 ⟨0, 0, 1⟩ [![a, b, c]] exSquare) = true := by decide +kernel

theorem exSquare_vertex {v : Vec 6} (h : ∃ s ∈ exSquare, ∃ j, v = s j) : v ∈ exSquareVs := by
  obtain ⟨s, hs, j, rfl⟩ := h
  have : ∀ s ∈ exSquare, ∀ j, s j ∈ exSquareVs := by decide +kernel
  exact this s hs j

theorem exSquare_coords {v : Vec 6} (h : v ∈ exSquareVs) : ∃ x y : ℤ, (0 ≤ x ∧ x ≤ 1) ∧ (0 ≤ y ∧ y ≤ 1) ∧
    Package.dode.perp v = ![(x : ℝ), y, 0] := by
  simp only [exSquareVs, List.mem_cons, List.not_mem_nil, or_false] at h
  rcases h with rfl | rfl | rfl | rfl
  · exact ⟨0, 0, by simp, by simp, perp_flat2 0 0⟩
  · exact ⟨1, 0, by simp, by simp, perp_flat2 1 0⟩
  · exact ⟨1, 1, by simp, by simp, perp_flat2 1 1⟩
  · exact ⟨0, 1, by simp, by simp, perp_flat2 0 1⟩

theorem exSquare_objects {r : Obj 3} (hr : ∀ t ∈ r, ∀ k, ∃ s ∈ exSquare, ∃ j, t k = s j)
    (ha : ∀ t ∈ r, triArea (Package.dode.perps t) ≠ 0) (h0 : r ≠ []) : ObjectsRounded2 1 0 r exSquare := by
  have key : ∀ t ∈ r, ObjectsRounded2 1 0 [t] exSquare := by
    intro t ht
    have hk := fun k => exSquare_vertex (hr t ht k)
    have h := exSquare_test
    simp only [List.all_eq_true] at h
    have h := h _ (hk 0) _ (hk 1) _ (hk 2)
    have et : ![t 0, t 1, t 2] = t := by funext k; fin_cases k <;> rfl
    rw [et, Bool.or_eq_true, decide_eq_true_eq] at h
    have hne : ∀ i j, i ≠ j → t i ≠ t j := by
      intro i j hij e
      refine ha t ht ?_
      have e' : Package.dode.perps t i = Package.dode.perps t j := congrArg Package.dode.perp e
      have h0 : ∀ q : Fin 3 → Fin 3 → ℝ, q i = q j → crossProduct (q 1 - q 0) (q 2 - q 0) = 0 := by
        intro q e
        fin_cases i <;> fin_cases j <;> first | exact absurd rfl hij | skip
        all_goals
          simp only [Fin.zero_eta, Fin.mk_one, Fin.reduceFinMk] at e
          simp [e]
      rw [triArea, h0 _ e']
      simp
    have h := h.resolve_left (by
      rintro (e | e | e)
      · exact hne 0 1 (by decide) e
      · exact hne 1 2 (by decide) e
      · exact hne 0 2 (by decide) e)
    have ok1 : Obj.Ok [t] := by
      intro s hs k
      rw [List.mem_singleton.1 hs]
      obtain ⟨s', hs', j, e⟩ := hr t ht k
      rw [e]; exact exSquare_sharp.ok s' hs' j
    have := (objectsTest2_spec (h := ⟨0, 0, 1⟩) ok1 exSquare_sharp.ok exSquare_sharp.ne h).2.2
    have e0 : (⟨0, 0, 1⟩ : Num3).val sin60 = 0 := by simp [Num3.val]
    rw [e0, Nat.cast_one] at this
    exact this
  obtain ⟨t, ht⟩ := List.exists_mem_of_ne_nil _ h0
  refine ⟨fun s hs => (key s hs).small1 s (by simp), (key t ht).small2, fun s hs => (key s hs).pairs s (by simp), fun s hs => (key s hs).clear s (by simp),
    fun s hs => (key s hs).thick s (by simp), (key t ht).dist2, fun s hs => (key s hs).dist1 s (by simp),
    fun c hc s hs => (key s hs).dist0 c hc s (by simp)⟩

/-- A tiling library for vertices of the square. -/
theorem exSquare_library (F : Float64) : ∃ hl : Delaunay2, ∀ r pns, (∀ v ∈ r, ∃ s ∈ exSquare, ∃ j, v = s j) →
    F.delaunayInput2 r = .ok pns → ¬ InLine (r.map plane) → TilesHullOf2 (r.map plane) (hl pns) := by
  have hf : ∀ {v : Vec 6}, (∃ s ∈ exSquare, ∃ j, v = s j) → ∀ c : Fin 3, c ≠ 2 →
      ∃ p q : ℤ, q ≠ 0 ∧ |q| ≤ (1 : ℕ) ∧ Package.dode.perp v c = (p : ℝ) / q := by
    intro v h c hc
    obtain ⟨x, y, -, -, e⟩ := exSquare_coords (exSquare_vertex h)
    rw [e]
    fin_cases c
    · exact ⟨x, 1, by norm_num, by norm_num, by simp⟩
    · exact ⟨y, 1, by norm_num, by norm_num, by simp⟩
    · exact absurd rfl hc
  have hb : ∀ {v : Vec 6}, (∃ s ∈ exSquare, ∃ j, v = s j) → ∀ c : Fin 3, c ≠ 2 → |Package.dode.perp v c| ≤ (1 : ℝ) := by
    intro v h c hc
    obtain ⟨x, y, ⟨hx, hx'⟩, ⟨hy, hy'⟩, e⟩ := exSquare_coords (exSquare_vertex h)
    rw [e, abs_le]
    have : (0 : ℝ) ≤ x := by exact_mod_cast hx
    have : (x : ℝ) ≤ 1 := by exact_mod_cast hx'
    have : (0 : ℝ) ≤ y := by exact_mod_cast hy
    have : (y : ℝ) ≤ 1 := by exact_mod_cast hy'
    fin_cases c
    · exact ⟨by simp; linarith, by simpa⟩
    · exact ⟨by simp; linarith, by simpa⟩
    · exact absurd rfl hc
  exact tiles_rounded2 F _ (fun v ⟨s, hs, j, e⟩ => e ▸ exSquare_sharp.ok s hs j) fun v w hv hw =>
    plane_eq_of_rounded F le_rfl (by norm_num) (N := 1) (by norm_num) (by norm_num) (hf hv) (hf hw) (hb hv) (hb hw)

/-- A tiling library for the pairs of triangles on vertices of the square. -/
theorem exSquare_pairs (F : Float64) : ∃ delaunay : Simplex 3 → Simplex 3 → Delaunay2,
    ∀ s t : Simplex 3, (∀ k, s k ∈ exSquareVs) → (∀ k, t k ∈ exSquareVs) → ∀ r pns,
      (∀ v ∈ r, Vec.Ok v ∧ Candidate2 (Package.dode.perps s) (Package.dode.perps t) (Package.dode.perp v)) →
      F.delaunayInput2 r = .ok pns → ¬ InLine (r.map plane) → TilesHullOf2 (r.map plane) (delaunay s t pns) := by
  have key : ∀ s t : Simplex 3, ∃ D : Delaunay2, (∀ k, s k ∈ exSquareVs) → (∀ k, t k ∈ exSquareVs) → ∀ r pns,
      (∀ v ∈ r, Vec.Ok v ∧ Candidate2 (Package.dode.perps s) (Package.dode.perps t) (Package.dode.perp v)) →
      F.delaunayInput2 r = .ok pns → ¬ InLine (r.map plane) → TilesHullOf2 (r.map plane) (D pns) := by
    intro s t
    by_cases hst : (∀ k, s k ∈ exSquareVs) ∧ ∀ k, t k ∈ exSquareVs
    swap
    · exact ⟨fun _ => none, fun h1 h2 => absurd ⟨h1, h2⟩ hst⟩
    choose x y hx hy e using fun k => exSquare_coords (hst.1 k)
    choose x' y' hx' hy' e' using fun k => exSquare_coords (hst.2 k)
    have hS : ∀ i, Package.dode.perps s i = ![((![x i, y i] : Fin 2 → ℤ) 0 : ℝ), ((![x i, y i] : Fin 2 → ℤ) 1 : ℝ), 0] := fun i => e i
    have hT : ∀ i, Package.dode.perps t i = ![((![x' i, y' i] : Fin 2 → ℤ) 0 : ℝ), ((![x' i, y' i] : Fin 2 → ℤ) 1 : ℝ), 0] := fun i => e' i
    have hdet : ∀ i j k l : Fin 3, i < j → k < l → |(x j - x i) * (y' l - y' k) - (y j - y i) * (x' l - x' k)| ≤ (2 : ℕ) := by
      intro i j k l _ _
      have b : ∀ u v : ℤ, 0 ≤ u ∧ u ≤ 1 → 0 ≤ v ∧ v ≤ 1 → |v - u| ≤ 1 := fun u v hu hv => by rw [abs_le]; omega
      calc _ ≤ |(x j - x i) * (y' l - y' k)| + |(y j - y i) * (x' l - x' k)| := abs_sub _ _
        _ = |x j - x i| * |y' l - y' k| + |y j - y i| * |x' l - x' k| := by rw [abs_mul, abs_mul]
        _ ≤ 1 * 1 + 1 * 1 := add_le_add (mul_le_mul (b _ _ (hx i) (hx j)) (b _ _ (hy' k) (hy' l)) (abs_nonneg _) zero_le_one)
          (mul_le_mul (b _ _ (hy i) (hy j)) (b _ _ (hx' k) (hx' l)) (abs_nonneg _) zero_le_one)
        _ ≤ _ := by norm_num
    have hb : ∀ {v : Vec 6}, v ∈ exSquareVs → ∀ c, |Package.dode.perp v c| ≤ (1 : ℝ) := by
      intro v h c
      obtain ⟨x, y, ⟨hx, hx'⟩, ⟨hy, hy'⟩, e⟩ := exSquare_coords h
      rw [e, abs_le]
      have : (0 : ℝ) ≤ x := by exact_mod_cast hx
      have : (x : ℝ) ≤ 1 := by exact_mod_cast hx'
      have : (0 : ℝ) ≤ y := by exact_mod_cast hy
      have : (y : ℝ) ≤ 1 := by exact_mod_cast hy'
      fin_cases c
      · exact ⟨by simp; linarith, by simpa⟩
      · exact ⟨by simp; linarith, by simpa⟩
      · simp
    have hb1 : ∀ i c, |Package.dode.perps s i c| ≤ (1 : ℝ) := fun i c => hb (hst.1 i) c
    have hb2 : ∀ i c, |Package.dode.perps t i c| ≤ (1 : ℝ) := fun i c => hb (hst.2 i) c
    have hq : ∀ {x}, Candidate2 (Package.dode.perps s) (Package.dode.perps t) x → ∀ c : Fin 3, c ≠ 2 →
        ∃ p q : ℤ, q ≠ 0 ∧ |q| ≤ (2 : ℕ) ∧ x c = (p : ℝ) / q := fun h c hc =>
      candidate2_quot (z := 0) hS hT (by norm_num) hdet h c hc
    obtain ⟨D, hD⟩ := tiles_rounded2 F (fun v => Vec.Ok v ∧ Candidate2 (Package.dode.perps s) (Package.dode.perps t) (Package.dode.perp v))
      (fun v h => h.1) fun v w hv hw => plane_eq_of_rounded F le_rfl (by norm_num) (N := 2) (by norm_num) (by norm_num)
        (hq hv.2) (hq hw.2) (fun c _ => candidate2_bound hb1 hb2 hv.2 c) (fun c _ => candidate2_bound hb1 hb2 hw.2 c)
    exact ⟨D, fun _ _ => hD⟩
  choose D hD using key
  exact ⟨D, hD⟩

/-- The hypotheses of `C113_hull_planar` and `C113_simplification_planar` are met, in binary64 arithmetic, by two triangles
that make up a square: `simplification` answers with triangles that fill the square, whatever is drawn. -/
example : ∃ hl : Delaunay2, ∃ delaunay : Simplex 3 → Simplex 3 → Delaunay2, ∀ hd, ∃ r,
    binary64.float64.dodeSimplification hd hl delaunay exSquare = .ok (some r) ∧
    Package.dode.region r = Set.Icc ![0, 0, 0] ![1, 1, 0] ∧ objArea6d (.d4 r) = objArea6d (.d4 exSquare) := by
  obtain ⟨hl, hD⟩ := exSquare_library binary64.float64
  obtain ⟨delaunay, hD'⟩ := exSquare_pairs binary64.float64
  refine ⟨hl, delaunay, fun hd => ?_⟩
  obtain ⟨r, w, h1, -, -, -, h2, h3, h4, -⟩ := C113_hull_planar _ keepsHuge64 le_rfl (by norm_num) hd hl exSquare hD exSquare_rounded 0
    exSquare_level
  have h0 : r ≠ [] := by
    rintro rfl
    obtain ⟨s, hs⟩ := List.exists_mem_of_ne_nil _ exSquare_sharp.ne
    obtain ⟨a, ha, -⟩ := h4.symm.subset (subset_convexHull ℝ _ (corners_mem hs 0))
    simp at ha
  obtain ⟨r', v, w', h5, h6, -, -, h7, -, h8, -, h9⟩ := C113_simplification_planar _ keepsHuge64 le_rfl (by norm_num) hd hl delaunay exSquare hD
    (by
      intro hull h
      rw [h1] at h
      cases h
      exact fun s hs t ht => hD' s t (fun k => exSquare_vertex (h3 s hs k)) fun k => exSquare_vertex ⟨t, ht, k, rfl⟩)
    exSquare_rounded 0 exSquare_level (by
      intro r h
      rw [h1] at h
      cases h
      exact exSquare_objects h3 h2 h0)
  obtain ⟨h10, h11⟩ := h9 (by rw [exSquare_region]; exact convex_Icc _ _)
  exact ⟨r', h5, h10.trans exSquare_region, by rw [h8, h7, h11]⟩

end PyQC
