import Verif.Lemmas.HullRounded
import Verif.Props.MeasureRounded
import Verif.Props.DecideRounded
import Verif.Props.ReturnsTested
/-!
# C113: convex hull and simplification computed with rounding
-/
namespace PyQC
open Matrix Ico MeasureTheory Rounding

section
variable (F : Float64) (hF : KeepsHuge F) {R : ℝ} (hR : 1 ≤ R) (hR2 : R ≤ 32)
include hF hR hR2

/-- C113: with rounding, whatever the random draws, for tetrahedra that fit together and of moderate size,
`generate_border_edges` raises nothing; every end of an edge is a vertex of the object; every extreme point of the convex
hull of the object is the end of an edge. -/
theorem C113_border_edges (draws : Nat → Nat → (n : Nat) → Draws n) (o : Obj 4) (h : WellFormed o) (hs : SharpObject R o) :
    ∃ out, F.generateBorderEdges draws o = .ok out ∧ (∀ e ∈ out, ∀ i, ∃ s ∈ o, ∃ j, e i = s j) ∧
      ∀ V ∈ (convexHull ℝ (Package.ico.corners o)).extremePoints ℝ, ∃ e ∈ out, ∃ i, Package.ico.perp (e i) = V :=
  border_points_rounded F hF hR hR2 draws o h hs

/-- C113: with rounding, whatever the random draws, for tetrahedra that fit together and of moderate size and with a
library that tiles the hulls of vertices of the object when given their rounded coordinates, `generate_convex_hull` returns
tetrahedra without overlap on vertices of the object that fill exactly the convex hull of the object, and their exact
volume is the Lebesgue measure of the hull. -/
theorem C113_hull (draws : Nat → Nat → (n : Nat) → Draws n) (delaunay : Delaunay) (o : Obj 4)
    (hD : ∀ r pns, (∀ v ∈ r, ∃ s ∈ o, ∃ j, v = s j) → F.delaunayInput r = .ok pns → ¬ InPlane (r.map Package.ico.perp) →
      TilesHullOf (r.map Package.ico.perp) (delaunay pns))
    (h : WellFormed o) (hs : SharpObject R o) :
    ∃ r w, F.generateConvexHull draws delaunay o = .ok (some r) ∧ WellFormed r ∧
      (∀ t ∈ r, ∀ k, ∃ s ∈ o, ∃ j, t k = s j) ∧
      Package.ico.region r = convexHull ℝ (Package.ico.corners o) ∧
      objVolume6d (.d4 r) = .ok (some w) ∧ ENNReal.ofReal (w.val tau) = volume (convexHull ℝ (Package.ico.corners o)) := by
  obtain ⟨pts, h1, hptso, hpok, hnp, hhull⟩ := hull_points_rounded F hF hR hR2 draws o h hs
  obtain ⟨pns, hpns, hT⟩ := tetrahedralization_rounded F delaunay hpok
  obtain ⟨D, hDt, -, e⟩ := tetrahedralization_at hpok (hD pts pns hptso hpns hnp)
  obtain ⟨r, w, r1, r2, r3, r4⟩ := C62_hull D hDt pts hpok hnp
  obtain ⟨s1, s2⟩ := C50_sound D pts hpok r r1
  exact ⟨r, w, by rw [h1, hT, e, r1], ⟨s1, fun t ht k => hpok _ ((s2 t ht).1 k), fun t ht => (s2 t ht).2,
    tetrahedralization_noOverlap hDt hpok r1⟩, fun t ht k => hptso _ ((s2 t ht).1 k), r3.trans hhull, r2, hhull ▸ r4⟩

/-- C113: with rounding, when the computed hull and the object are resolved in spite of rounding and the libraries tile,
`simplification` never answers with the object: it answers with the convex hull of the object, or raises the exception
raised by the intersection of the hull and the object. -/
theorem C113_simplification (hd : Nat → Nat → (n : Nat) → Draws n) (hl : Delaunay)
    (draws : Simplex 4 → Simplex 4 → (n : Nat) → Draws n) (delaunay : Simplex 4 → Simplex 4 → Delaunay) (o : Obj 4)
    (hD : ∀ r pns, (∀ v ∈ r, ∃ s ∈ o, ∃ j, v = s j) → F.delaunayInput r = .ok pns → ¬ InPlane (r.map Package.ico.perp) →
      TilesHullOf (r.map Package.ico.perp) (hl pns))
    (hD' : ∀ hull, F.generateConvexHull hd hl o = .ok (some hull) → ∀ s ∈ hull, ∀ t ∈ o, ∀ r pns,
      (∀ v ∈ r, Vec.Ok v ∧ Candidate (Package.ico.perps s) (Package.ico.perps t) (Package.ico.perp v)) →
      F.delaunayInput r = .ok pns → ¬ InPlane (r.map Package.ico.perp) → TilesHullOf (r.map Package.ico.perp) (delaunay s t pns))
    (h : WellFormed o) (hs : SharpObject R o)
    (hres : ∀ r, F.generateConvexHull hd hl o = .ok (some r) → ObjectsRounded R r o) :
    ∃ r v w, F.generateConvexHull hd hl o = .ok (some r) ∧ WellFormed r ∧
      Package.ico.region r = convexHull ℝ (Package.ico.corners o) ∧
      objVolume6d (.d4 o) = .ok (some v) ∧ ENNReal.ofReal (v.val tau) = volume (Package.ico.region o) ∧
      objVolume6d (.d4 r) = .ok (some w) ∧ ENNReal.ofReal (w.val tau) = volume (convexHull ℝ (Package.ico.corners o)) ∧
      ((∃ e, F.intersectionApi .standard draws delaunay (.d4 r) (.d4 o) = .error e ∧
        F.simplification hd hl draws delaunay o = .error e) ∨ F.simplification hd hl draws delaunay o = .ok (some r)) := by
  obtain ⟨r, w, h1, h2, h3, h4, h5, h6⟩ := C113_hull F hF hR hR2 hd hl o hD h hs
  obtain ⟨v, hv, hvc, hvs⟩ := C17_volume o h.ok
  obtain ⟨v', hv', -, hv2⟩ := C62_object o h.ok
  rw [hv] at hv'
  cases hv'
  have hvol := (hv2.2 h.apart).symm
  have hinter : Package.ico.region r ∩ Package.ico.region o = Package.ico.region o := by
    rw [Set.inter_eq_right, h4]; exact region_subset_corners .ico o
  refine ⟨r, v, w, h1, h2, h4, hv, hvol, h5, h6, ?_⟩
  have hstep : F.simplification hd hl draws delaunay o =
      (F.intersectionApi .standard draws delaunay (.d4 r) (.d4 o) >>= fun tmp => match tmp with
        | none => .error .attributeError
        | some tmp => do
          let vol1 ← objVolume6d (.d4 tmp)
          if some v = vol1 then .ok (some r) else .ok (some o)) := by
    unfold Float64.simplification
    rw [if_neg h.ne, hv, bind_ok', h1, bind_ok']
    rfl
  rw [hstep]
  have hpos : 0 < volume (Package.ico.region o) := by
    obtain ⟨s, hs⟩ := List.exists_mem_of_ne_nil _ h.ne
    refine lt_of_lt_of_le ?_ (measure_mono (fun x hx => (⟨s, hs, hx⟩ : x ∈ Package.ico.region o)))
    rw [volume_solid, ENNReal.ofReal_pos]
    refine lt_of_le_of_ne ?_ (Ne.symm (h.vol s hs))
    rw [tetVol_det4]; positivity
  cases hq : F.intersectionApi .standard draws delaunay (.d4 r) (.d4 o) with
  | error e => exact .inl ⟨e, rfl, rfl⟩
  | ok q =>
    right
    obtain ⟨g1, g2⟩ := objects_volume_rounded F hR (hR2.trans (by norm_num)) .standard (hD' r h1) h2.ok h.ok
      h2.apart h.apart (hres r h1) hq
    rw [hinter] at g1 g2
    rw [bind_ok']
    cases q with
    | none => exact absurd (g1 rfl) hpos.ne'
    | some q =>
      obtain ⟨oq, u, hu, hu2⟩ := g2 q rfl
      change (objVolume6d (.d4 q) >>= _) = _
      rw [hu, bind_ok', if_pos]
      rw [volume_triple h.ok oq hv hu (hvol.trans hu2)]

/-- C113: under the same hypotheses, when the object fills a convex region, every answer of `simplification` fills the same
region and has exactly the same volume. -/
theorem C113_convex (hd : Nat → Nat → (n : Nat) → Draws n) (hl : Delaunay)
    (draws : Simplex 4 → Simplex 4 → (n : Nat) → Draws n) (delaunay : Simplex 4 → Simplex 4 → Delaunay) (o : Obj 4)
    (hD : ∀ r pns, (∀ v ∈ r, ∃ s ∈ o, ∃ j, v = s j) → F.delaunayInput r = .ok pns → ¬ InPlane (r.map Package.ico.perp) →
      TilesHullOf (r.map Package.ico.perp) (hl pns))
    (hD' : ∀ hull, F.generateConvexHull hd hl o = .ok (some hull) → ∀ s ∈ hull, ∀ t ∈ o, ∀ r pns,
      (∀ v ∈ r, Vec.Ok v ∧ Candidate (Package.ico.perps s) (Package.ico.perps t) (Package.ico.perp v)) →
      F.delaunayInput r = .ok pns → ¬ InPlane (r.map Package.ico.perp) → TilesHullOf (r.map Package.ico.perp) (delaunay s t pns))
    (h : WellFormed o) (hs : SharpObject R o)
    (hres : ∀ r, F.generateConvexHull hd hl o = .ok (some r) → ObjectsRounded R r o)
    (hc : Convex ℝ (Package.ico.region o)) (q : Option (Obj 4)) (hq : F.simplification hd hl draws delaunay o = .ok q) :
    ∃ r, q = some r ∧ WellFormed r ∧ Package.ico.region r = Package.ico.region o ∧
      objVolume6d (.d4 r) = objVolume6d (.d4 o) := by
  obtain ⟨r, v, w, -, h1, h3, h4, h5, h6, h7, h8⟩ := C113_simplification F hF hR hR2 hd hl draws delaunay o hD hD' h hs hres
  rcases h8 with ⟨e, -, h8⟩ | h8
  · rw [hq] at h8; cases h8
  rw [hq] at h8
  cases h8
  have hreg : convexHull ℝ (Package.ico.corners o) = Package.ico.region o := by
    refine Set.Subset.antisymm (convexHull_min ?_ hc) (region_subset_corners .ico o)
    rintro x ⟨s, hs, i, rfl⟩
    exact ⟨s, hs, subset_convexHull ℝ _ ⟨i, rfl⟩⟩
  refine ⟨r, rfl, h1, h3.trans hreg, ?_⟩
  rw [h6, h4]
  rw [hreg] at h7
  exact congrArg (fun x => Except.ok (some x)) (volume_triple h1.ok h.ok h6 h4 (h7.trans h5.symm))

/-- C113: when moreover the scale is small, the draws are samples and contacts are wide, `simplification` raises nothing:
it answers with the convex hull of the object. -/
theorem C113_returns (hR3 : margin R ≤ 4 / 10 ^ 10) (hd : Nat → Nat → (n : Nat) → Draws n) (hl : Delaunay)
    (draws : Simplex 4 → Simplex 4 → (n : Nat) → Draws n) (hs' : ∀ s t, Sampled (draws s t))
    (delaunay : Simplex 4 → Simplex 4 → Delaunay) (o : Obj 4)
    (hD : ∀ r pns, (∀ v ∈ r, ∃ s ∈ o, ∃ j, v = s j) → F.delaunayInput r = .ok pns → ¬ InPlane (r.map Package.ico.perp) →
      TilesHullOf (r.map Package.ico.perp) (hl pns))
    (hD' : ∀ hull, F.generateConvexHull hd hl o = .ok (some hull) → ∀ s ∈ hull, ∀ t ∈ o, ∀ r pns,
      (∀ v ∈ r, Vec.Ok v ∧ Candidate (Package.ico.perps s) (Package.ico.perps t) (Package.ico.perp v)) →
      F.delaunayInput r = .ok pns → ¬ InPlane (r.map Package.ico.perp) → TilesHullOf (r.map Package.ico.perp) (delaunay s t pns))
    (h : WellFormed o) (hs : SharpObject R o)
    (hres : ∀ r, F.generateConvexHull hd hl o = .ok (some r) → ObjectsRounded R r o ∧
      WideContacts (1 / 10 ^ 6 + R ^ 2 / 2 ^ 41) .ico r o) :
    ∃ r w, F.simplification hd hl draws delaunay o = .ok (some r) ∧ WellFormed r ∧
      Package.ico.region r = convexHull ℝ (Package.ico.corners o) ∧
      objVolume6d (.d4 r) = .ok (some w) ∧ ENNReal.ofReal (w.val tau) = volume (convexHull ℝ (Package.ico.corners o)) := by
  obtain ⟨r, v, w, h1, h2, h3, -, -, h4, h5, h6⟩ := C113_simplification F hF hR hR2 hd hl draws delaunay o hD hD' h hs
    fun r hr => (hres r hr).1
  refine ⟨r, w, ?_, h2, h3, h4, h5⟩
  obtain ⟨q, hq, -⟩ := C110_objects_rounded F hR (hR2.trans (by norm_num)) hR3 .standard draws delaunay hs' r o
    (fun s hs t ht x pns a b c => (hD' r h1 s hs t ht x pns a b c).1) h.ne h2.ok h.ok (hres r h1).1 (hres r h1).2
  rcases h6 with ⟨e, h6, -⟩ | h6
  · rw [hq] at h6; cases h6
  · exact h6

end

/-! ## Two halves of a tetrahedron -/

theorem exHalves_corners : convexHull ℝ (Package.ico.corners [exHalfA, exHalfB]) = solid (Package.ico.perps exCorner) := by
  refine Set.Subset.antisymm (convexHull_min ?_ (convex_convexHull ℝ _)) (convexHull_mono ?_)
  · rintro x ⟨t, ht, i, rfl⟩
    rw [← exHalves_region]
    exact ⟨t, ht, subset_convexHull ℝ _ ⟨i, rfl⟩⟩
  · rintro x ⟨k, rfl⟩
    have e : ∀ k, ∃ t ∈ ([exHalfA, exHalfB] : Obj 4), ∃ i, t i = exCorner k := by decide +kernel
    obtain ⟨t, ht, i, e⟩ := e k
    exact ⟨t, ht, i, congrArg Package.ico.perp e⟩

theorem exHalves_apart (F : Float64) {v w : Vec 6} (hv : ∃ s ∈ [exHalfA, exHalfB], ∃ j, v = s j) (hw : ∃ s ∈ [exHalfA, exHalfB], ∃ j, w = s j)
    (h : F.numericalVector (nvec (Package.ico.kperp.mulVec (kvec Package.ico.theta v))) =
      F.numericalVector (nvec (Package.ico.kperp.mulVec (kvec Package.ico.theta w)))) : Package.ico.perp v = Package.ico.perp w := by
  have hf : ∀ {v}, (∃ s ∈ [exHalfA, exHalfB], ∃ j, v = s j) → ∀ c, ∃ p q : ℤ, q ≠ 0 ∧ |q| ≤ (2 : ℕ) ∧ Package.ico.perp v c = (p : ℝ) / q := by
    rintro v ⟨s, hs, j, rfl⟩ c
    obtain ⟨a, rfl⟩ := List.get_of_mem hs
    exact ⟨exHalvesZ a j c, 2, by norm_num, by norm_num, by rw [exHalves_perp]; norm_num⟩
  have hb : ∀ {v}, (∃ s ∈ [exHalfA, exHalfB], ∃ j, v = s j) → ∀ c, |Package.ico.perp v c| ≤ (1 : ℝ) := by
    rintro v ⟨s, hs, j, rfl⟩ c
    obtain ⟨a, rfl⟩ := List.get_of_mem hs
    have : ∀ (a : Fin 2) (j : Fin 4) (c : Fin 3), |exHalvesZ a j c| ≤ 2 := by decide +kernel
    have h2 : |(exHalvesZ a j c : ℝ)| ≤ 2 := by exact_mod_cast this a j c
    rw [exHalves_perp, abs_div]
    norm_num
    linarith
  exact perp_eq_of_rounded F le_rfl (by norm_num) (N := 2) (by norm_num) (by norm_num) (hf hv) (hf hw) (hb hv) (hb hw) h

/-- With a suitable library the hull of the two halves is the tetrahedron. -/
theorem exHalves_hull (F : Float64) (hF : KeepsHuge F) : ∃ hl : Delaunay,
    (∀ r pns, (∀ v ∈ r, ∃ s ∈ [exHalfA, exHalfB], ∃ j, v = s j) → F.delaunayInput r = .ok pns → ¬ InPlane (r.map Package.ico.perp) →
      TilesHullOf (r.map Package.ico.perp) (hl pns)) ∧
    ∀ hd, F.generateConvexHull hd hl [exHalfA, exHalfB] = .ok (some [exCorner]) := by
  have hvol : tetVol (Package.ico.perps exCorner) ≠ 0 := by rw [tetVol_exCorner]; norm_num
  obtain ⟨D, hDt, hDf⟩ := exists_tiles_fixed (Package.ico.perps exCorner) hvol
  obtain ⟨hl, hhl⟩ := library_rounded F D (fun v => ∃ s ∈ [exHalfA, exHalfB], ∃ j, v = s j)
    (fun v ⟨s, hs, j, e⟩ => e ▸ exHalves_wf.ok s hs j) (fun v w hv hw => exHalves_apart F hv hw)
  refine ⟨hl, fun r pns hr hi hn => ?_, fun hd => ?_⟩
  · rw [hhl r pns hr hi]
    exact ⟨hDt.1 _ hn, fun l hl => hDt.2 _ _ hl⟩
  obtain ⟨pts, h1, hptso, hpok, hnp, hhull⟩ := hull_points_rounded F hF le_rfl (by norm_num) hd _ exHalves_wf exHalves_rounded
  rw [exHalves_corners] at hhull
  have hmem : ∀ k, Package.ico.perps exCorner k ∈ pts.map Package.ico.perp := by
    intro k
    by_contra hn
    have hQ1 : ∃ f : Fin 3 → ℝ, ∀ y ∈ Package.ico.corners [exHalfA, exHalfB], y ≠ Package.ico.perps exCorner k →
        f ⬝ᵥ Package.ico.perps exCorner k < f ⬝ᵥ y := by
      refine ⟨![![1, 1, 1], ![-1, 0, 0], ![0, -1, 0], ![0, 0, -1]] k, fun y hy hne => ?_⟩
      rcases exHalves_corner hy with rfl | ⟨l, rfl⟩
      · rw [perps_exCorner]
        fin_cases k <;> simp
        norm_num
      · have hkl : l ≠ k := fun e => hne (by rw [e])
        rw [perps_exCorner]
        fin_cases k <;> fin_cases l <;> first | exact absurd rfl hkl | simp
    obtain ⟨f, hf⟩ := hQ1
    have g1 : Package.ico.perps exCorner k ∈ convexHull ℝ {x | ∃ v ∈ pts, Package.ico.perp v = x} := by
      rw [hhull]; exact subset_convexHull ℝ _ ⟨k, rfl⟩
    have hconv : Convex ℝ {y | f ⬝ᵥ Package.ico.perps exCorner k < f ⬝ᵥ y} := by
      refine convex_halfSpace_gt ⟨?_, ?_⟩ _
      · intro x y; exact dotProduct_add _ _ _
      · intro c x; exact dotProduct_smul _ _ _
    have g2 : {x | ∃ v ∈ pts, Package.ico.perp v = x} ⊆ {y | f ⬝ᵥ Package.ico.perps exCorner k < f ⬝ᵥ y} := by
      rintro x ⟨v, hv, rfl⟩
      obtain ⟨s, hs, j, rfl⟩ := hptso v hv
      exact hf _ (corners_mem hs j) fun e => hn (List.mem_map.2 ⟨_, hv, e⟩)
    have g3 : Package.ico.perps exCorner k ∈ {y | f ⬝ᵥ Package.ico.perps exCorner k < f ⬝ᵥ y} := convexHull_min g2 hconv g1
    exact lt_irrefl (f ⬝ᵥ Package.ico.perps exCorner k) g3
  obtain ⟨j, hj, hjk⟩ := hDf (pts.map Package.ico.perp) hmem (by
    intro x hx
    obtain ⟨v, hv, rfl⟩ := List.mem_map.1 hx
    rw [← hhull]
    exact subset_convexHull ℝ _ ⟨v, hv, rfl⟩)
  obtain ⟨pns, hpns, hT⟩ := tetrahedralization_rounded F hl hpok
  rw [h1, hT, hhl pts pns hptso hpns, hj]
  choose hlt he using fun k => List.getElem?_eq_some_iff.1 (hjk k)
  have hlt' : ∀ k, j k < pts.length := fun k => by simpa using hlt k
  have hs : (fun k => pts[j k]'(hlt' k)) = exCorner := by
    funext k
    have hk := he k
    rw [List.getElem_map] at hk
    obtain ⟨s, hs, i, e⟩ := hptso _ (List.getElem_mem (hlt' k))
    have : ∀ k, ∃ t ∈ ([exHalfA, exHalfB] : Obj 4), ∃ i, exCorner k = t i := by decide +kernel
    obtain ⟨t, ht, i', e'⟩ := this k
    rw [e, e']
    refine exHalves_names s hs t ht i i' ?_
    rw [← e, ← e', hk]
    rfl
  have hlt2 : ∀ i ∈ [j], ∀ k, i k < pts.length := fun i hi k => by rw [List.mem_singleton.1 hi]; exact hlt' k
  rcases C50_tetrahedralization (fun _ => some [j]) pts (by rintro rfl; exact hnp (inPlane_few (by simp))) hpok [j] rfl hlt2 with
    ⟨r, e, hne, hsub, -⟩ | ⟨-, e⟩
  · rw [e]
    have hall : ([j].attach.map fun i => fun k => pts[i.1 k]'(hlt2 i.1 i.2 k) : Obj 4) = [exCorner] := by
      simpa using hs
    rw [hall] at hsub
    rcases List.sublist_singleton.1 hsub with rfl | rfl
    · exact absurd rfl hne
    · rfl
  · refine absurd (e (fun k => pts[j k]'(hlt' k)) (by simp)) ?_
    rw [hs]
    exact hvol

theorem exHalves_test : returnsTestRounded 1 [exCorner] [exHalfA, exHalfB] = true := by decide +kernel

/-- A tiling library for the pairs of the tetrahedron with its halves. -/
theorem exHalves_pairs (F : Float64) : ∃ delaunay : Simplex 4 → Simplex 4 → Delaunay,
    ∀ s ∈ [exCorner], ∀ t ∈ [exHalfA, exHalfB], ∀ r pns,
      (∀ v ∈ r, Vec.Ok v ∧ Candidate (Package.ico.perps s) (Package.ico.perps t) (Package.ico.perp v)) →
      F.delaunayInput r = .ok pns → ¬ InPlane (r.map Package.ico.perp) → TilesHullOf (r.map Package.ico.perp) (delaunay s t pns) := by
  have key : ∀ a : Fin 2, ∃ delaunay : Delaunay, ∀ r pns,
      (∀ v ∈ r, Vec.Ok v ∧ Candidate (Package.ico.perps exCorner) (Package.ico.perps (([exHalfA, exHalfB] : Obj 4).get a)) (Package.ico.perp v)) →
      F.delaunayInput r = .ok pns → ¬ InPlane (r.map Package.ico.perp) → TilesHullOf (r.map Package.ico.perp) (delaunay pns) := by
    intro a
    have hS : ∀ i c, Package.ico.perps exCorner i c =
        ((![![0, 0, 0], ![2, 0, 0], ![0, 2, 0], ![0, 0, 2]] : Fin 4 → Fin 3 → ℤ) i c : ℝ) / (2 : ℕ) := by
      rw [perps_exCorner]
      intro i c
      fin_cases i <;> fin_cases c <;> simp
    have hT : ∀ i c, Package.ico.perps (([exHalfA, exHalfB] : Obj 4).get a) i c = (exHalvesZ a i c : ℝ) / (2 : ℕ) :=
      fun i c => exHalves_perp a i c
    have hd : ∀ a : Fin 2, (∀ i j k l m : Fin 4, i < j → k < l → l < m →
        |edgeFaceZ ![![0, 0, 0], ![2, 0, 0], ![0, 2, 0], ![0, 0, 2]] (exHalvesZ a) i j k l m| ≤ (8 : ℕ)) ∧
        ∀ i j k l m : Fin 4, i < j → k < l → l < m →
          |edgeFaceZ (exHalvesZ a) ![![0, 0, 0], ![2, 0, 0], ![0, 2, 0], ![0, 0, 2]] i j k l m| ≤ (8 : ℕ) := by decide +kernel
    have hb1 : ∀ i c, |Package.ico.perps exCorner i c| ≤ (1 : ℝ) := by
      rw [perps_exCorner]; intro i c; fin_cases i <;> fin_cases c <;> simp
    have hb2 : ∀ i c, |Package.ico.perps (([exHalfA, exHalfB] : Obj 4).get a) i c| ≤ (1 : ℝ) := by
      intro i c
      have : ∀ (a : Fin 2) (j : Fin 4) (c : Fin 3), |exHalvesZ a j c| ≤ 2 := by decide +kernel
      have h2 : |(exHalvesZ a i c : ℝ)| ≤ 2 := by exact_mod_cast this a i c
      rw [hT, abs_div]
      norm_num
      linarith
    have hf : ∀ {x}, Candidate (Package.ico.perps exCorner) (Package.ico.perps (([exHalfA, exHalfB] : Obj 4).get a)) x →
        ∀ c, ∃ p q : ℤ, q ≠ 0 ∧ |q| ≤ (16 : ℕ) ∧ x c = (p : ℝ) / q := fun h c => by
      obtain ⟨q, p, h0, h1, h2⟩ := candidate_quot (n := 2) (by norm_num) hS hT (by norm_num) (hd a).1 (hd a).2 h
      refine ⟨p c, 2 * q, by omega, ?_, by rw [h2 c]; push_cast; rfl⟩
      rw [abs_mul]
      push_cast at h1 ⊢
      norm_num
      omega
    exact tiles_rounded F _ (fun v h => h.1) fun v w hv hw => perp_eq_of_rounded F le_rfl (by norm_num) (N := 16)
      (by norm_num) (by norm_num) (hf hv.2) (hf hw.2) (candidate_bound hb1 hb2 hv.2) (candidate_bound hb1 hb2 hw.2)
  choose D hD using key
  refine ⟨fun _ t => if t = exHalfA then D 0 else D 1, fun s hs t ht => ?_⟩
  rw [List.mem_singleton.1 hs]
  simp only [List.mem_cons, List.not_mem_nil, or_false] at ht
  rcases ht with rfl | rfl
  · simp only [↓reduceIte]; exact hD 0
  · simp only [if_neg (show ¬ exHalfB = exHalfA by decide +kernel)]; exact hD 1

/-- The hypotheses of `C113_hull`, `C113_simplification`, `C113_convex` and `C113_returns` are met, in binary64 arithmetic,
by two halves of a tetrahedron: `simplification` answers with the tetrahedron, whatever is drawn. -/
example : ∃ hl : Delaunay, ∃ delaunay : Simplex 4 → Simplex 4 → Delaunay, ∀ hd draws, (∀ s t, Sampled (draws s t)) →
    binary64.float64.generateConvexHull hd hl [exHalfA, exHalfB] = .ok (some [exCorner]) ∧
    binary64.float64.simplification hd hl draws delaunay [exHalfA, exHalfB] = .ok (some [exCorner]) ∧
    objVolume6d (.d4 [exCorner]) = objVolume6d (.d4 [exHalfA, exHalfB]) := by
  obtain ⟨hl, hD, hhull⟩ := exHalves_hull binary64.float64 keepsHuge64
  obtain ⟨delaunay, hD'⟩ := exHalves_pairs binary64.float64
  refine ⟨hl, delaunay, fun hd draws hs => ?_⟩
  have ok1 : Obj.Ok [exCorner] := by intro t ht; rw [List.mem_singleton.1 ht]; exact exCorner_ok
  have hres := returnsTestRounded_spec ok1 exHalves_wf.ok exHalves_wf.ne exHalves_test
  rw [Nat.cast_one] at hres
  have hD2 : ∀ hull, binary64.float64.generateConvexHull hd hl [exHalfA, exHalfB] = .ok (some hull) →
      ∀ s ∈ hull, ∀ t ∈ [exHalfA, exHalfB], ∀ r pns,
      (∀ v ∈ r, Vec.Ok v ∧ Candidate (Package.ico.perps s) (Package.ico.perps t) (Package.ico.perp v)) →
      binary64.float64.delaunayInput r = .ok pns → ¬ InPlane (r.map Package.ico.perp) →
      TilesHullOf (r.map Package.ico.perp) (delaunay s t pns) := by
    intro hull h
    rw [hhull] at h
    cases h
    exact hD'
  have hres' : ∀ r, binary64.float64.generateConvexHull hd hl [exHalfA, exHalfB] = .ok (some r) →
      ObjectsRounded 1 r [exHalfA, exHalfB] ∧ WideContacts (1 / 10 ^ 6 + 1 ^ 2 / 2 ^ 41) .ico r [exHalfA, exHalfB] := by
    intro r h
    rw [hhull] at h
    cases h
    exact hres
  obtain ⟨r, v, w, h1, -, -, -, -, -, -, h2⟩ := C113_simplification _ keepsHuge64 le_rfl (by norm_num) hd hl draws delaunay _ hD hD2
    exHalves_wf exHalves_rounded fun r h => (hres' r h).1
  obtain ⟨r', w', h3, -⟩ := C113_returns _ keepsHuge64 le_rfl (by norm_num) (by unfold margin; norm_num) hd hl draws hs delaunay _ hD hD2
    exHalves_wf exHalves_rounded hres'
  rw [hhull] at h1
  cases h1
  have h4 : binary64.float64.simplification hd hl draws delaunay [exHalfA, exHalfB] = .ok (some [exCorner]) := by
    rcases h2 with ⟨e, -, h2⟩ | h2
    · rw [h3] at h2; cases h2
    · exact h2
  refine ⟨hhull hd, h4, ?_⟩
  obtain ⟨r, h5, -, -, h6⟩ := C113_convex _ keepsHuge64 le_rfl (by norm_num) hd hl draws delaunay _ hD hD2 exHalves_wf exHalves_rounded
    (fun r h => (hres' r h).1) (by rw [exHalves_region]; exact convex_convexHull ℝ _) _ h4
  cases h5
  exact h6

end PyQC
