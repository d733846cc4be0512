import Verif.Lemmas.CornersPlanar
import Verif.Props.DecidePlanar
/-!
# C111 The intersection of flat objects returns, also for triangles that only touch
-/
namespace PyQC
open Matrix MeasureTheory Dode

/-- Collected points that are corners of a part without interior are not triangulated. -/
theorem few_corners {A : Set (Fin 3 → ℝ)} (hA : Convex ℝ A) {z : ℝ} (hflat : ¬ (interior (slice z A)).Nonempty) {r : List (Vec 6)}
    (hz : ∀ v ∈ r, Package.dode.perp v 2 = z) (hr : ∀ v ∈ r, Package.dode.perp v ∈ A.extremePoints ℝ)
    (hpw : r.Pairwise fun x y => Package.dode.perp x ≠ Package.dode.perp y) : r.length ≤ 2 := by
  by_contra hl
  rcases r with _ | ⟨a, _ | ⟨b, _ | ⟨c, l⟩⟩⟩
  · simp at hl
  · simp at hl
  · simp at hl
  · have ma : a ∈ a :: b :: c :: l := by simp
    have mb : b ∈ a :: b :: c :: l := by simp
    have mc : c ∈ a :: b :: c :: l := by simp
    simp only [List.pairwise_cons] at hpw
    obtain ⟨h1, h2, -⟩ := hpw
    refine extreme_line (hr a ma) (hr b mb) (hr c mc) (hz a ma) (hz b mb) (hz c mc) ?_ (h1 b (by simp)) (h1 c (by simp)) (h2 c (by simp))
    refine inLine_of_flat (slice_convex hA) hflat fun x hx => ?_
    have key : ∀ v ∈ a :: b :: c :: l, xy (Package.dode.perp v) ∈ slice z A := fun v hv =>
      (xy_mem_slice (hz v hv)).2 (hr v hv).1
    simp only [List.mem_cons, List.not_mem_nil, or_false] at hx
    rcases hx with rfl | rfl | rfl
    exacts [key a ma, key b mb, key c mc]

/-- The collected points are corners of the common part. -/
theorem commonPts2_extreme {s t : Simplex 3} {z : ℝ} (hs : Simplex.Ok s) (ht : Simplex.Ok t) (zs : Flat z (Package.dode.perps s))
    (zt : Flat z (Package.dode.perps t)) (h : ResolvedTri (Package.dode.perps s) (Package.dode.perps t)) {v : Vec 6}
    (hv : v ∈ commonPts2 s t) :
    Package.dode.perp v ∈ (solid (Package.dode.perps s) ∩ solid (Package.dode.perps t)).extremePoints ℝ := by
  have hm := commonPts2_mem hs ht zs zt h hv
  refine candidate2_extreme zs zt h.areaS h.areaT ?_
  unfold commonPts2 at hv
  rw [List.mem_append, List.mem_append, List.mem_filter, List.mem_filter] at hv
  rcases hv with (hv | ⟨hv, -⟩) | ⟨hv, -⟩
  · obtain ⟨i, j, k, l, hij, hkl, h2 | h2⟩ := mem_crossings.1 hv
    · obtain ⟨-, a, b, a0, a1, b0, b1, e1, e2, h0⟩ := crossPt2_exact hs ht zs zt h2
      exact .inr (.inr ⟨i, j, k, l, hij, hkl, h0, a, b, a0, a1, b0, b1, e1, e2⟩)
    · obtain ⟨-, a, b, a0, a1, b0, b1, e1, e2, h0⟩ := crossPt2_exact ht hs zt zs h2
      exact .inr (.inr (edgeEdge_symm ⟨i, j, k, l, hij, hkl, h0, a, b, a0, a1, b0, b1, e1, e2⟩))
  · obtain ⟨i, rfl⟩ := (List.mem_ofFn' _ _).mp hv
    exact .inl ⟨i, rfl, hm.2⟩
  · obtain ⟨i, rfl⟩ := (List.mem_ofFn' _ _).mp hv
    exact .inr (.inl ⟨i, rfl, hm.1⟩)

/-! ## Over the real numbers -/

/-- C111: two triangles with a crossing of edges: the call returns `None` exactly when their common part has no interior,
and otherwise pieces that cover exactly the common part, whose corners are all the corners of the common part. -/
theorem C111_two (delaunay : Delaunay2) (hD : FillsHull2 delaunay) (s t : Simplex 3) (hs : Simplex.Ok s) (ht : Simplex.Ok t)
    (z : ℝ) (zs : ∀ i, Package.dode.perp (s i) 2 = z) (zt : ∀ i, Package.dode.perp (t i) 2 = z)
    (h : ResolvedTri (Package.dode.perps s) (Package.dode.perps t))
    (hx : ∃ x, EdgeEdge (Package.dode.perps s) (Package.dode.perps t) x) :
    ∃ r, intersectionTwoTriangles delaunay s t = .ok r ∧
      (r = none ↔ interior (slice z (solid (Package.dode.perps s) ∩ solid (Package.dode.perps t))) = ∅) ∧
      ∀ o, r = some o → Package.dode.region o = solid (Package.dode.perps s) ∩ solid (Package.dode.perps t) ∧
        {x | ∃ a ∈ o, ∃ k, Package.dode.perp (a k) = x} =
          (solid (Package.dode.perps s) ∩ solid (Package.dode.perps t)).extremePoints ℝ := by
  obtain ⟨r, hr, hne, hok, hlev, hsub, -, hfull⟩ := C68_two delaunay hD s t hs ht z zs zt h hx
  have zs : Flat z (Package.dode.perps s) := zs
  have zt : Flat z (Package.dode.perps t) := zt
  have hp : ∀ v ∈ commonPts2 s t, Vec.Ok v := fun v hv => (commonPts2_ok hs ht zs zt hv).1
  have hz : ∀ v ∈ commonPts2 s t, Package.dode.perp v 2 = z := fun v hv => (commonPts2_ok hs ht zs zt hv).2
  have hr' := hr
  rw [intersectionTwoTriangles_eq delaunay hs ht] at hr'
  split at hr'
  · cases hr'
  obtain ⟨r', e', hm, -, -⟩ := triangulateCommon_fills hD hp hz (count_small hs ht zs zt)
  rw [hr'] at e'
  cases e'
  by_cases hi : (interior (slice z (solid (Package.dode.perps s) ∩ solid (Package.dode.perps t)))).Nonempty
  · have hf := hfull hi
    refine ⟨r, hr, ⟨?_, fun h0 => absurd h0 hi.ne_empty⟩, ?_⟩
    · rintro rfl
      exfalso
      obtain ⟨x, hx⟩ := hi
      have : ![x 0, x 1, z] ∈ solid (Package.dode.perps s) ∩ solid (Package.dode.perps t) :=
        interior_subset (s := slice z _) hx
      rw [← hf] at this
      obtain ⟨a, ha, -⟩ := this
      simp at ha
    · rintro o rfl
      refine ⟨hf, Set.Subset.antisymm ?_ ?_⟩
      · rintro x ⟨a, ha, k, rfl⟩
        exact commonPts2_extreme hs ht zs zt h (hm a ha k)
      · intro x hx
        obtain ⟨a, ha, hxa⟩ : x ∈ Package.dode.region o := by rw [show Package.dode.region o = _ from hf]; exact hx.1
        have hsub' : solid (Package.dode.perps a) ⊆ solid (Package.dode.perps s) ∩ solid (Package.dode.perps t) :=
          fun y hy => hsub ⟨a, ha, hy⟩
        obtain ⟨k, hk⟩ := extremePoints_convexHull_subset (𝕜 := ℝ) (inter_extremePoints_subset_extremePoints_of_subset hsub' ⟨hxa, hx⟩)
        exact ⟨a, ha, k, hk⟩
  · have hnone : r = none := by
      obtain ⟨q, hq, hqs, hpw, -⟩ := C24_one_per_point .dode (commonPts2 s t) hp
      have hl := few_corners ((solid_convex _).inter (solid_convex _)) hi (fun v hv => hz v (hqs v hv))
        (fun v hv => commonPts2_extreme hs ht zs zt h (hqs v hv)) hpw
      unfold triangulateCommon at hr'
      split at hr'
      · rw [hq, bind_ok', if_neg (by omega), if_neg (by omega)] at hr'
        cases hr'; rfl
      · cases hr'; rfl
    subst hnone
    exact ⟨none, hr, ⟨fun _ => Set.not_nonempty_iff_eq_empty.1 hi, fun _ => rfl⟩, fun o h => by cases h⟩

/-! ## With rounding -/

section
variable (F : Float64) {R : ℝ} (hR : 1 ≤ R) (hR8 : R ≤ 8)
include hR hR8

/-- C111 with rounding: two triangles found to overlap (code 3): the call returns `None` exactly when their common part
has no interior, and otherwise pieces that cover exactly the common part, whose corners are all the corners of the common
part. -/
theorem C111_two_rounded (delaunay : Delaunay2) (s t : Simplex 3)
    (hD : ∀ r pns, (∀ v ∈ r, Vec.Ok v ∧ Candidate2 (Package.dode.perps s) (Package.dode.perps t) (Package.dode.perp v)) →
      F.delaunayInput2 r = .ok pns → ¬ InLine (r.map plane) → FillsHullOf2 (r.map plane) (delaunay pns))
    (hs : Simplex.Ok s) (ht : Simplex.Ok t) (z : ℝ) (zs : ∀ i, Package.dode.perp (s i) 2 = z)
    (zt : ∀ i, Package.dode.perp (t i) 2 = z) (ss : ∀ i, Small .dode R (s i)) (st : ∀ i, Small .dode R (t i))
    (h : ResolvedTriRounded R (Package.dode.perps s) (Package.dode.perps t)) (h3 : F.checkTwoTriangles s t = 3) :
    ∃ r, F.intersectionTwoTriangles delaunay s t = .ok r ∧ Obj.Ok (r.getD []) ∧
      (r = none ↔ interior (slice z (solid (Package.dode.perps s) ∩ solid (Package.dode.perps t))) = ∅) ∧
      ∀ o, r = some o → Package.dode.region o = solid (Package.dode.perps s) ∩ solid (Package.dode.perps t) ∧
        {x | ∃ a ∈ o, ∃ k, Package.dode.perp (a k) = x} =
          (solid (Package.dode.perps s) ∩ solid (Package.dode.perps t)).extremePoints ℝ := by
  have zs : Flat z (Package.dode.perps s) := zs
  have zt : Flat z (Package.dode.perps t) := zt
  have s1 := soundMeets F hR hR8 zs zt ss st h
  have s2 := soundMeets F hR hR8 zt zs st ss h.symm
  have hcand := fun v (hv : v ∈ commonPtsF F s t) => commonPtsF_candidate F hR hR8 hs ht zs zt ss st h hv
  have hext : ∀ v ∈ commonPtsF F s t,
      Package.dode.perp v ∈ (solid (Package.dode.perps s) ∩ solid (Package.dode.perps t)).extremePoints ℝ :=
    fun v hv => candidate2_extreme zs zt h.areaS h.areaT (hcand v hv).2.2
  by_cases hi : (interior (slice z (solid (Package.dode.perps s) ∩ solid (Package.dode.perps t)))).Nonempty
  · obtain ⟨o, ho, hok, -, e⟩ := C95_two F hR hR8 delaunay s t hD hs ht z zs zt ss st h h3 hi
    have ho' := ho
    rw [twoTrianglesF_eq F delaunay hs ht s1 s2] at ho'
    split at ho'
    · cases ho'
    have hm := (triCommonF_mem F (fun v hv => (hcand v hv).1) ho').1
    refine ⟨some o, ho, hok, ⟨fun h => (by cases h), fun h0 => absurd h0 hi.ne_empty⟩, ?_⟩
    rintro o' h'
    cases h'
    refine ⟨e, Set.Subset.antisymm ?_ ?_⟩
    · rintro x ⟨a, ha, k, rfl⟩
      exact hext _ (hm a ha k)
    · intro x hx
      obtain ⟨a, ha, hxa⟩ : x ∈ Package.dode.region o := by rw [e]; exact hx.1
      have hsub' : solid (Package.dode.perps a) ⊆ solid (Package.dode.perps s) ∩ solid (Package.dode.perps t) :=
        fun y hy => by rw [← e]; exact ⟨a, ha, hy⟩
      obtain ⟨k, hk⟩ := extremePoints_convexHull_subset (𝕜 := ℝ) (inter_extremePoints_subset_extremePoints_of_subset hsub' ⟨hxa, hx⟩)
      exact ⟨a, ha, k, hk⟩
  · have hcount : hitF F s t + hitF F t s ≠ 0 := by
      intro h0
      have n1 := (hitF_zero hs ht s1).1 (by omega)
      have n2 := (hitF_zero ht hs s2).1 (by omega)
      unfold Float64.checkTwoTriangles at h3
      split at h3
      · cases h3
      · split at h3
        · cases h3
        · split at h3
          · rename_i c3
            simp only [meetsTauF_iff, List.any_eq_true, Bool.or_eq_true] at c3
            obtain ⟨c, hc, ⟨e, he, hm⟩ | ⟨e, he, hm⟩⟩ := c3
            · rw [n1 c hc e he] at hm; cases hm
            · rw [n2 c hc e he] at hm; cases hm
          · cases h3
    refine ⟨none, ?_, (fun a ha => by cases ha), ⟨fun _ => Set.not_nonempty_iff_eq_empty.1 hi, fun _ => rfl⟩, fun o h => by cases h⟩
    rw [twoTrianglesF_eq F delaunay hs ht s1 s2, if_neg hcount]
    obtain ⟨q, hq, hqs, hpw, -⟩ := C24_one_per_point .dode (commonPtsF F s t) (fun v hv => (hcand v hv).1)
    have hl := few_corners ((solid_convex _).inter (solid_convex _)) hi (fun v hv => (hcand v (hqs v hv)).2.1)
      (fun v hv => hext v (hqs v hv)) hpw
    unfold Float64.triangulateCommon
    split
    · rw [hq, bind_ok', if_neg (by omega), if_neg (by omega)]
    · rfl

/-- C111 with rounding, two objects: the call returns, and what it returns covers the intersection of the objects up to
area zero; with kind 'standard' it covers nothing else. Triangles may touch. -/
theorem C111_objects (kind : Ico.Kind) (delaunay : Simplex 3 → Simplex 3 → Delaunay2) (a b : Obj 3) (z : ℝ)
    (hD : ∀ s ∈ a, ∀ t ∈ b, ∀ r pns,
      (∀ v ∈ r, Vec.Ok v ∧ Candidate2 (Package.dode.perps s) (Package.dode.perps t) (Package.dode.perp v)) →
      F.delaunayInput2 r = .ok pns → ¬ InLine (r.map plane) → FillsHullOf2 (r.map plane) (delaunay s t pns))
    (h0 : b ≠ []) (ha : Obj.Ok a) (hb : Obj.Ok b) (za : Level z a) (zb : Level z b) (h : ObjectsRounded2 R z a b) :
    ∃ r, F.dodeIntersectionApi kind delaunay (.d4 a) (.d4 b) = .ok r ∧
      volume (slice z ((Package.dode.region a ∩ Package.dode.region b) \ Package.dode.region (r.getD []))) = 0 ∧
      (kind = .standard → Package.dode.region (r.getD []) ⊆ Package.dode.region a ∩ Package.dode.region b) := by
  obtain ⟨rough, e, hro⟩ := objects2_rounded_eq F hR hR8 kind delaunay h0 ha hb za zb h.thick h.dist2 h.dist1 h.dist0
  obtain ⟨r, hr⟩ := Planar.intersectionTwoObj_total (kind := kind) (rough := rough)
    (flag := fun s t => .ok (F.checkTwoTriangles s t)) (inter := fun s t => F.intersectionTwoTriangles (delaunay s t) s t)
    ha hb (fun s hs => by
      obtain ⟨b, hb, -⟩ := hro s hs
      exact ⟨b, hb⟩) (fun s _ t _ => ⟨_, rfl⟩)
    (fun s hs t ht hf => by
      obtain ⟨r, hr, hok, -⟩ := C111_two_rounded F hR hR8 (delaunay s t) s t (hD s hs t ht) (ha s hs) (hb t ht) z (za s hs) (zb t ht)
        (h.small1 s hs) (h.small2 t ht) (h.pairs s hs t ht) (Except.ok.inj hf)
      exact ⟨r, hr, hok⟩)
  rw [← e] at hr
  refine ⟨r, hr, C96_objects F hR hR8 kind delaunay a b z hD ha hb za zb h r hr, ?_⟩
  rintro rfl
  exact C96_inside F hR hR8 delaunay a b z hD h0 ha hb za zb h r hr

/-- C111 with rounding and 64-bit integers. -/
theorem C111_objects64 (delaunay : Simplex 3 → Simplex 3 → Delaunay2) (a b : Obj 3) (z : ℝ)
    (hD : ∀ s ∈ a, ∀ t ∈ b, ∀ r pns,
      (∀ v ∈ r, Vec.Ok v ∧ Candidate2 (Package.dode.perps s) (Package.dode.perps t) (Package.dode.perp v)) →
      F.delaunayInput2 r = .ok pns → ¬ InLine (r.map plane) → FillsHullOf2 (r.map plane) (delaunay s t pns))
    (h0 : b ≠ []) (ha : Obj.Ok a) (hb : Obj.Ok b) (za : Level z a) (zb : Level z b) (h : ObjectsRounded2 R z a b)
    (h' : sameObjects2 a b = true) :
    ∃ r, F.dodeIntersectionApi64 .standard delaunay (.d4 a) (.d4 b) = .ok r ∧
      volume (slice z ((Package.dode.region a ∩ Package.dode.region b) \ Package.dode.region (r.getD []))) = 0 ∧
      Package.dode.region (r.getD []) ⊆ Package.dode.region a ∩ Package.dode.region b := by
  obtain ⟨r, hr, h1, h2⟩ := C111_objects F hR hR8 .standard delaunay a b z hD h0 ha hb za zb h
  exact ⟨r, by rw [C108_same F delaunay a b h', hr], h1, h2 rfl⟩

end

/-- C111: all conditions computed from the coordinates. -/
theorem C111_tested (F : Float64) (R : ℕ) (hR : 1 ≤ R) (hR8 : R ≤ 8) (h : Num3) (a b : Obj 3) (ha : Obj.Ok a) (hb : Obj.Ok b)
    (h0 : b ≠ []) (hTest : objectsTest2 R h a b = true) (kind : Ico.Kind) (delaunay : Simplex 3 → Simplex 3 → Delaunay2)
    (hD : ∀ s ∈ a, ∀ t ∈ b, ∀ r pns,
      (∀ v ∈ r, Vec.Ok v ∧ Candidate2 (Package.dode.perps s) (Package.dode.perps t) (Package.dode.perp v)) →
      F.delaunayInput2 r = .ok pns → ¬ InLine (r.map plane) → FillsHullOf2 (r.map plane) (delaunay s t pns)) :
    ∃ r, F.dodeIntersectionApi kind delaunay (.d4 a) (.d4 b) = .ok r ∧
      volume (slice (h.val sin60) ((Package.dode.region a ∩ Package.dode.region b) \ Package.dode.region (r.getD []))) = 0 ∧
      (kind = .standard → Package.dode.region (r.getD []) ⊆ Package.dode.region a ∩ Package.dode.region b) := by
  obtain ⟨za, zb, h'⟩ := objectsTest2_spec ha hb h0 hTest
  exact C111_objects F (R := R) (by exact_mod_cast hR) (by exact_mod_cast hR8) kind delaunay a b _ hD h0 ha hb za zb h'

/-! ## Concrete cases -/

/-- The triangle with corners (1, 0), (0, 1), (1, 1); it shares an edge with `exHexA` and lies on the other side. -/
def exHexC : Simplex 3 := ![exHex6 0 1 0 0, exHex6 0 0 1 0, exHex6 0 1 1 0]

/-- The hypotheses of `C111_tested` are met by triangles of which some share an edge and some overlap. -/
theorem exHexC_test : objectsTest2 2 ⟨0, 0, 1⟩ [exHexA, exHexC] [exHexC, exHexB] = true := by decide +kernel

theorem exHexC_ok : Obj.Ok [exHexA, exHexC] ∧ Obj.Ok [exHexC, exHexB] := by unfold Obj.Ok; constructor <;> decide

/-- The call returns for them, with the rounding of binary64. -/
example : ∃ r, Rounding.binary64.float64.dodeIntersectionApi .standard (fun _ _ pns => some (allTriples pns.length))
    (.d4 [exHexA, exHexC]) (.d4 [exHexC, exHexB]) = .ok r ∧
    Package.dode.region (r.getD []) ⊆ Package.dode.region [exHexA, exHexC] ∩ Package.dode.region [exHexC, exHexB] := by
  obtain ⟨r, h1, -, h2⟩ := C111_tested Rounding.binary64.float64 2 (by norm_num) (by norm_num) ⟨0, 0, 1⟩ _ _ exHexC_ok.1 exHexC_ok.2
    (by simp) exHexC_test .standard (fun _ _ pns => some (allTriples pns.length)) (fun s _ t _ r pns _ hi hn => triples_fill _ r pns hi hn)
  exact ⟨r, h1, h2 rfl⟩

/-- The triangles with the common edge give `None`, whatever fills hulls. -/
example (delaunay : Delaunay2) (hD : FillsHull2 delaunay) : intersectionTwoTriangles delaunay exHexA exHexC = .ok none := by
  obtain ⟨za, zb, hr⟩ := objectsTest2_spec exHexC_ok.1 exHexC_ok.2 (by simp) exHexC_test
  have okC : Simplex.Ok exHexC := exHexC_ok.2 _ (by simp)
  have zA := za exHexA (by simp)
  have zC := zb exHexC (by simp)
  have gA := simplex_pgrid (n := 1) (by norm_num) exHex_ok.1 (by decide) zA
  have gC := simplex_pgrid (n := 1) (by norm_num) okC (by decide) zC
  have aA := (Surd.notZero_iff (Surd.area (Simplex.surd 1 exHexA))).1 (by decide +kernel)
  have hres := (hr.pairs exHexA (by simp) exHexC (by simp)).resolved (by norm_num)
  obtain ⟨r, h1, h2, -⟩ := C111_two delaunay hD exHexA exHexC exHex_ok.1 okC _ zA zC hres (by
    refine ⟨Package.dode.perps exHexA 1, 0, 1, 0, 2, by decide, by decide, ?_, 1, 0, by norm_num, by norm_num, by norm_num, by norm_num, by module, ?_⟩
    · intro e
      have hn := (Surd.notZero_iff (((Simplex.surd 1 exHexA 1).sub (Simplex.surd 1 exHexA 0)).cross
        ((Simplex.surd 1 exHexC 2).sub (Simplex.surd 1 exHexC 0)))).1 (by decide +kernel)
      have := congrFun e 2
      rw [gA 0, gA 1, gC 0, gC 2] at this
      simp only [cross_apply, Pi.sub_apply, cons_val_zero, cons_val_one, cons_val, Pi.zero_apply] at this
      apply hn
      simp only [Surd.val_cross, P2.sub, Surd.val_sub]
      norm_num at this
      linarith
    · have : Package.dode.perps exHexC 0 = Package.dode.perps exHexA 1 := rfl
      rw [this]; module)
  rw [h2.2 (Set.not_nonempty_iff_eq_empty.1 (Surd.beyondTri_spec (by norm_num) gA gC aA (by decide +kernel)))] at h1
  exact h1

end PyQC
