import Verif.Spec.LawsRounded
import Verif.Props.Laws
import Verif.Props.HullRounded
import Verif.Props.MeasureRounded
/-!
# C114: laws of the intersection computed with rounding (ico2)

Different runs may use different floating-point arithmetics, kinds, draws and answers of the library.
-/
namespace PyQC
open Matrix MeasureTheory Ico Rounding

/-- What the results so far say about one run. -/
theorem RoundedRun.spec {a b : Obj 4} {r : Option (Obj 4)} (h : RoundedRun a b r) :
    Obj.Ok (r.getD []) ∧ Package.ico.NoOverlap (r.getD []) ∧
      Almost (content r) (Package.ico.region a ∩ Package.ico.region b) ∧
      ∃ w, exactVolume r = .ok (some w) ∧ ENNReal.ofReal (w.val tau) = volume (Package.ico.region a ∩ Package.ico.region b) := by
  obtain ⟨F, R, kind, draws, delaunay, h, hr⟩ := h
  obtain ⟨h1, h2⟩ := objects_volume_rounded F h.scale1 h.scale2 kind h.tiles h.ok1 h.ok2 h.apart1 h.apart2 h.rounded hr
  cases r with
  | none =>
    have hz := h1 rfl
    refine ⟨fun s hs => by simp at hs, List.Pairwise.nil, ⟨?_, ?_⟩, ⟨0, 0, 1⟩, ?_, ?_⟩
    · simp [content, region_nil]
    · simpa [content, region_nil] using hz
    · rfl
    · rw [hz]; simp [Num3.val]
  | some o =>
    obtain ⟨ok, w, hw, hv⟩ := h2 o rfl
    obtain ⟨h3, h4, h5⟩ := C112_exact F h.scale1 h.scale2 kind draws delaunay a b h.tiles h.ok1 h.ok2 h.apart1 h.apart2 h.rounded o hr
    exact ⟨ok, h3, ⟨h5, h4⟩, w, hw, hv.symm⟩

/-- Two runs whose arguments have common parts of equal volume have outcomes of equal exact volume. -/
theorem RoundedRun.same {a b a' b' : Obj 4} {r r' : Option (Obj 4)} (h : RoundedRun a b r) (h' : RoundedRun a' b' r')
    (e : volume (Package.ico.region a ∩ Package.ico.region b) = volume (Package.ico.region a' ∩ Package.ico.region b')) :
    exactVolume r = exactVolume r' := by
  obtain ⟨o1, -, -, w, hw, hv⟩ := h.spec
  obtain ⟨o2, -, -, w', hw', hv'⟩ := h'.spec
  exact exact_triple o1 o2 hw hw' (by rw [hv, hv', e])

/-- C114: the exact volume of an intersection, and what it covers up to volume zero, do not depend on the floating-point
arithmetic, on the `kind`, on what is drawn, or on how the library tiles convex hulls. -/
theorem C114_choices (a b : Obj 4) (r r' : Option (Obj 4)) (h : RoundedRun a b r) (h' : RoundedRun a b r') :
    exactVolume r = exactVolume r' ∧ Almost (content r) (content r') :=
  ⟨h.same h' rfl, h.spec.2.2.1.trans h'.spec.2.2.1.symm⟩

/-- C114: rounding does not change the outcome: the exact volume is the one found, and the points covered are up to
volume zero those covered, when all tests are computed with real numbers. -/
theorem C114_ideal (a b : Obj 4) (r : Option (Obj 4)) (h : RoundedRun a b r) (kind : Kind)
    (draws : Simplex 4 → Simplex 4 → (n : Nat) → Draws n) (delaunay : Simplex 4 → Simplex 4 → Delaunay)
    (hD : ∀ s t, TilesHull (delaunay s t)) (r' : Option (Obj 4))
    (hr' : intersectionApi kind draws delaunay (.d4 a) (.d4 b) = .ok r') :
    exactVolume r = exactVolume r' ∧ Almost (content r) (content r') := by
  obtain ⟨o1, -, c, w, hw, hv⟩ := h.spec
  obtain ⟨_, _, _, _, _, h, _⟩ := h
  obtain ⟨o2, -, c', w', hw', hv'⟩ := intersection_result hD
    ⟨h.ok1, h.ok2, h.apart1, h.apart2, fun s hs t ht => (h.rounded.pairs s hs t ht).resolved⟩ hr'
  exact ⟨exact_triple o1 o2 hw hw' (by rw [hv, hv']), c.trans c'.symm⟩

/-- C114: exchanging the two objects changes neither the exact volume nor, up to volume zero, what is covered. -/
theorem C114_exchange (a b : Obj 4) (r r' : Option (Obj 4)) (h : RoundedRun a b r) (h' : RoundedRun b a r') :
    exactVolume r = exactVolume r' ∧ Almost (content r) (content r') := by
  have c := h'.spec.2.2.1
  rw [Set.inter_comm] at c
  exact ⟨h.same h' (by rw [Set.inter_comm]), h.spec.2.2.1.trans c.symm⟩

theorem RoundedRun.motion {f : (Fin 3 → ℝ) → Fin 3 → ℝ} (hf : IsMotion f) {φ : Simplex 4 → Simplex 4}
    (hφ : ∀ s i, Package.ico.perps (φ s) i = f (Package.ico.perps s i)) {a b : Obj 4} {r r' : Option (Obj 4)}
    (h : RoundedRun a b r) (h' : RoundedRun (a.map φ) (b.map φ) r') :
    exactVolume r = exactVolume r' ∧ Almost (content r') (Package.ico.region ((r.getD []).map φ)) := by
  have e : Package.ico.region (a.map φ) ∩ Package.ico.region (b.map φ) = f '' (Package.ico.region a ∩ Package.ico.region b) := by
    rw [region_motion hf hφ, region_motion hf hφ, Set.image_inter hf.injective]
  refine ⟨h.same h' (by rw [e, hf.volume]), ?_⟩
  have h2 := h'.spec.2.2.1
  rw [e] at h2
  rw [region_motion hf hφ]
  exact h2.trans (h.spec.2.2.1.symm.motion hf)

/-- C114: applying a symmetry operation of the icosahedral group about a centre to both objects applies it to their
intersection. -/
theorem C114_symmetry (a b : Obj 4) (r : Option (Obj 4)) (h : RoundedRun a b r) (op : IMat 6 6)
    (hop : op ∈ Package.ico.symops) (c : Vec 6) (hc : Vec.Ok c) :
    ∃ a' b' q, symopObj .ico op a c = .ok a' ∧ symopObj .ico op b c = .ok b' ∧ symopObj .ico op (r.getD []) c = .ok q ∧
      ∀ r', RoundedRun a' b' r' → exactVolume r = exactVolume r' ∧ Almost (content r') (Package.ico.region q) := by
  have hf := isMotion_spin (rot_spec hop).2 (Package.ico.perp c)
  have hφ : ∀ (s : Simplex 4) i, Package.ico.perps (symS .ico op c s) i =
    spin (Package.ico.rot op) (Package.ico.perp c) (Package.ico.perps s i) := fun s i => perps_symS hop c s i
  have ok := h.spec.1
  obtain ⟨F, R, kind, draws, delaunay, h0, hr⟩ := h
  exact ⟨_, _, _, symopObj_ok op h0.ok1 hc, symopObj_ok op h0.ok2 hc, symopObj_ok op ok hc, fun r' h' =>
    RoundedRun.motion hf hφ ⟨F, R, kind, draws, delaunay, h0, hr⟩ h'⟩

/-- C114: moving both objects by the same vector moves their intersection. -/
theorem C114_shift (a b : Obj 4) (r : Option (Obj 4)) (h : RoundedRun a b r) (v : Vec 6) (hv : Vec.Ok v) :
    ∃ a' b' q : Obj 4, shiftApi .ico (.d4 a) v = .ok (some (.d4 a')) ∧ shiftApi .ico (.d4 b) v = .ok (some (.d4 b')) ∧
      shiftApi .ico (.d4 (r.getD [])) v = .ok (some (.d4 q)) ∧
      ∀ r', RoundedRun a' b' r' → exactVolume r = exactVolume r' ∧ Almost (content r') (Package.ico.region q) := by
  have hf := isMotion_shift (Package.ico.perp v)
  have hφ : ∀ (s : Simplex 4) i, Package.ico.perps (fun i => nvec (kvec Package.ico.theta (s i) + kvec Package.ico.theta v)) i =
    Package.ico.perps s i + Package.ico.perp v := fun s i => perp_nvec_add (p := .ico) (s i) v
  have hs : ∀ o : Obj 4, Obj.Ok o → shiftApi .ico (.d4 o) v =
      .ok (some (.d4 (o.map fun s i => nvec (kvec Package.ico.theta (s i) + kvec Package.ico.theta v)))) := fun o ho => by
    simp only [shiftApi, shiftObj_ok .ico ho hv, bind_ok']
  have ok := h.spec.1
  obtain ⟨F, R, kind, draws, delaunay, h0, hr⟩ := h
  exact ⟨_, _, _, hs a h0.ok1, hs b h0.ok2, hs _ ok, fun r' h' =>
    RoundedRun.motion hf hφ ⟨F, R, kind, draws, delaunay, h0, hr⟩ h'⟩

/-- C114: an object inside another one is its intersection with it. -/
theorem C114_inside (a b : Obj 4) (hin : Package.ico.region a ⊆ Package.ico.region b) (r : Option (Obj 4))
    (h : RoundedRun a b r) : exactVolume r = objVolume6d (.d4 a) ∧ Almost (content r) (Package.ico.region a) := by
  obtain ⟨h1, -, h2, w, hw, hv⟩ := h.spec
  obtain ⟨_, _, _, _, _, h, _⟩ := h
  rw [Set.inter_eq_left.2 hin] at h2 hv
  obtain ⟨u, hu, -, he⟩ := C62_object a h.ok1
  exact ⟨exact_triple h1 h.ok1 hw hu (by rw [hv, he.2 h.apart1]), h2⟩

/-- C114: the intersection with an object made of two parts is as large as the intersections with the parts together. -/
theorem C114_parts (a b1 b2 : Obj 4) (r r1 r2 : Option (Obj 4)) (h : RoundedRun a (b1 ++ b2) r) (h1 : RoundedRun a b1 r1)
    (h2 : RoundedRun a b2 r2) :
    exactVolume r = objVolume6d (.d4 (r1.getD [] ++ r2.getD [])) ∧ Almost (content r) (content r1 ∪ content r2) := by
  obtain ⟨o, -, c, w, hw, hv⟩ := h.spec
  obtain ⟨o1, -, c1, w1, hw1, hv1⟩ := h1.spec
  obtain ⟨o2, -, c2, w2, hw2, hv2⟩ := h2.spec
  obtain ⟨_, _, _, _, _, h, _⟩ := h
  have n := List.pairwise_append.1 h.apart2
  have oo : Obj.Ok (r1.getD [] ++ r2.getD []) := fun s hs => (List.mem_append.1 hs).elim (o1 s) (o2 s)
  constructor
  · obtain ⟨u, hu, -, eu⟩ := C17_volume _ oo
    obtain ⟨u1, hu1, -, eu1⟩ := C17_volume _ o1
    obtain ⟨u2, hu2, -, eu2⟩ := C17_volume _ o2
    have p1 := volume_nonneg o1 hw1
    have p2 := volume_nonneg o2 hw2
    rw [show objVolume6d _ = _ from hw1] at hu1
    rw [show objVolume6d _ = _ from hw2] at hu2
    cases hu1
    cases hu2
    refine exact_triple o oo hw hu ?_
    rw [eu, List.map_append, List.sum_append, ← eu1, ← eu2, ENNReal.ofReal_add p1 p2, hv, hv1, hv2,
      inter_region_sum (region_measurable a) h.apart2, inter_region_sum (region_measurable a) n.1,
      inter_region_sum (region_measurable a) n.2.1, List.map_append, List.sum_append]
  · rw [region_append, Set.inter_union_distrib_left] at c
    exact c.trans (c1.symm.union c2.symm)

/-- C114: the order in which three objects are intersected does not matter. -/
theorem C114_grouping (a b c : Obj 4) (ab bc r r' : Option (Obj 4)) (hab : RoundedRun a b ab) (hbc : RoundedRun b c bc)
    (h : RoundedRun (ab.getD []) c r) (h' : RoundedRun a (bc.getD []) r') :
    exactVolume r = exactVolume r' ∧ Almost (content r) (content r') := by
  have f1 := hab.spec.2.2.1.inter (Almost.refl (Package.ico.region c))
  have f2 := (Almost.refl (Package.ico.region a)).inter hbc.spec.2.2.1
  rw [Set.inter_assoc] at f1
  have f := f1.trans f2.symm
  exact ⟨h.same h' f.volume_eq, (h.spec.2.2.1.trans f).trans h'.spec.2.2.1.symm⟩

/-! ## The whole tetrahedron and its halves -/

theorem Candidate.symm {S T : Fin 4 → Fin 3 → ℝ} {x : Fin 3 → ℝ} (h : Candidate S T x) : Candidate T S x := by
  rcases h with h | h | h | h
  · exact .inr (.inl h)
  · exact .inl h
  · exact .inr (.inr (.inr h))
  · exact .inr (.inr (.inl h))

theorem exHalves_tests : objectsTest 1 [exCorner] [exHalfA, exHalfB] = true ∧ objectsTest 1 [exHalfA, exHalfB] [exCorner] = true ∧
    objectsTest 1 [exCorner] [exHalfA] = true ∧ objectsTest 1 [exCorner] [exHalfB] = true := by decide +kernel

/-- A tiling library for the pairs of the tetrahedron with its halves, in both orders. -/
theorem exHalves_both (F : Float64) : ∃ delaunay : Simplex 4 → Simplex 4 → Delaunay, ∀ t ∈ [exHalfA, exHalfB], ∀ r pns,
    F.delaunayInput r = .ok pns → ¬ InPlane (r.map Package.ico.perp) →
    ((∀ v ∈ r, Vec.Ok v ∧ Candidate (Package.ico.perps exCorner) (Package.ico.perps t) (Package.ico.perp v)) →
      TilesHullOf (r.map Package.ico.perp) (delaunay exCorner t pns)) ∧
    ((∀ v ∈ r, Vec.Ok v ∧ Candidate (Package.ico.perps t) (Package.ico.perps exCorner) (Package.ico.perp v)) →
      TilesHullOf (r.map Package.ico.perp) (delaunay t exCorner pns)) := by
  obtain ⟨D, hD⟩ := exHalves_pairs F
  refine ⟨fun s t => if s = exCorner then D s t else D t s, fun t ht r pns hi hn => ⟨fun h => ?_, fun h => ?_⟩⟩
  · simp only [↓reduceIte]
    exact hD _ (by simp) t ht r pns h hi hn
  · have hne : t ≠ exCorner := by
      have : ∀ t ∈ [exHalfA, exHalfB], t ≠ exCorner := by decide +kernel
      exact this t ht
    simp only [if_neg hne]
    exact hD _ (by simp) t ht r pns (fun v hv => ⟨(h v hv).1, (h v hv).2.symm⟩) hi hn

/-- The halves are inside the tetrahedron, not conversely, and they are not flat. -/
theorem exHalves_inside : ∀ t ∈ [exHalfA, exHalfB], ¬ solid (Package.ico.perps exCorner) ⊆ solid (Package.ico.perps t) ∧
    solid (Package.ico.perps t) ⊆ solid (Package.ico.perps exCorner) ∧ (interior (solid (Package.ico.perps t))).Nonempty := by
  intro t ht
  have hr := exHalf_resolved exCorner (by simp) t ht
  have hc : checkTwoTetrahedra exCorner t = 2 := by
    simp only [List.mem_cons, List.not_mem_nil, or_false] at ht
    rcases ht with rfl | rfl
    · exact exHalf_codes.1
    · exact exHalf_codes.2
  obtain ⟨h1, h2⟩ := (C58_codes _ _ hr).2.1.1 hc
  refine ⟨h1, h2, ?_⟩
  have hd := det4_ne_iff.2 hr.volT
  refine ⟨∑ i, (1 / 4 : ℝ) • Package.ico.perps t i, (interior_bc hd).2 fun i => ?_⟩
  rw [bc_eq hd (w := fun _ => 1 / 4) ⟨by norm_num, rfl⟩]
  norm_num

section
variable {rough : Simplex 4 → Py Bool} {flag : Simplex 4 → Simplex 4 → Nat} {inter : Simplex 4 → Simplex 4 → Py (Option (Obj 4))}
  {s t u : Simplex 4}

theorem whole_two (hr : rough s = .ok true) (ht : flag s t = 2) (hu : flag s u = 2) :
    intersectionTwoObj .standard rough (fun s t => .ok (flag s t)) inter [s] [t, u] = .ok (some [t, u]) := by
  simp [intersectionTwoObj, fillList, onePiece, innerLoop, hr, ht, hu, bind_ok']

theorem whole_two_simple {v : Num3} (hr : rough s = .ok true) (ht : flag s t = 2) (hu : flag s u = 2)
    (h1 : tetrahedronVolume6d s = .ok v) (h2 : objVolume6d (.d4 [t, u]) = .ok (some v)) :
    intersectionTwoObj .simple rough (fun s t => .ok (flag s t)) inter [s] [t, u] = .ok (some [s]) := by
  simp [intersectionTwoObj, fillList, onePiece, innerLoop, hr, ht, hu, bind_ok', h1, h2]

theorem two_whole (ht : rough t = .ok true) (hu : rough u = .ok true) (ft : flag t s = 1) (fu : flag u s = 1) :
    intersectionTwoObj .standard rough (fun s t => .ok (flag s t)) inter [t, u] [s] = .ok (some [t, u]) := by
  simp [intersectionTwoObj, fillList, onePiece, innerLoop, ht, hu, ft, fu, bind_ok']

theorem one_whole (hr : rough s = .ok true) (ht : flag s t = 1) :
    intersectionTwoObj .standard rough (fun s t => .ok (flag s t)) inter [s] [t] = .ok (some [s]) := by
  simp [intersectionTwoObj, fillList, onePiece, innerLoop, hr, ht, bind_ok']

theorem whole_one (hr : rough s = .ok true) (ht : flag s t = 2) :
    intersectionTwoObj .standard rough (fun s t => .ok (flag s t)) inter [s] [t] = .ok (some [t]) := by
  simp [intersectionTwoObj, fillList, onePiece, innerLoop, hr, ht, bind_ok']

end

/-- The hypotheses of the theorems of this file are met, in any floating-point arithmetic, by a tetrahedron and its two halves, with
different outcomes for the two kinds. -/
theorem exHalves_runs_of (F : Float64) : RoundedRun [exCorner] [exHalfA, exHalfB] (some [exHalfA, exHalfB]) ∧
    RoundedRun [exCorner] [exHalfA, exHalfB] (some [exCorner]) ∧ RoundedRun [exHalfA, exHalfB] [exCorner] (some [exHalfA, exHalfB]) ∧
    RoundedRun [exCorner] [exHalfA] (some [exHalfA]) ∧ RoundedRun [exCorner] [exHalfB] (some [exHalfB]) := by
  obtain ⟨delaunay, hD⟩ := exHalves_both F
  have okc : Obj.Ok [exCorner] := singleton_ok exCorner_ok
  have okh : ∀ t ∈ [exHalfA, exHalfB], Obj.Ok [t] := fun t ht => singleton_ok (exHalves_wf.ok t ht)
  obtain ⟨t1, t2, t3, t4⟩ := exHalves_tests
  have g1 := objectsTest_spec okc exHalves_wf.ok (by simp) t1
  have g2 := objectsTest_spec exHalves_wf.ok okc (by simp) t2
  have g3 := objectsTest_spec okc (okh exHalfA (by simp)) (by simp) t3
  have g4 := objectsTest_spec okc (okh exHalfB (by simp)) (by simp) t4
  rw [Nat.cast_one] at g1 g2 g3 g4
  have no1 := exHalf_noOverlap
  have r1 : RoundedObjects F 1 delaunay [exCorner] [exHalfA, exHalfB] :=
    ⟨le_rfl, by norm_num, okc, exHalves_wf.ok, List.pairwise_singleton _ _, no1, g1, fun s hs t ht r pns a b c => by
      rw [List.mem_singleton] at hs; subst hs; exact (hD t ht r pns b c).1 a⟩
  have r2 : RoundedObjects F 1 delaunay [exHalfA, exHalfB] [exCorner] :=
    ⟨le_rfl, by norm_num, exHalves_wf.ok, okc, no1, List.pairwise_singleton _ _, g2, fun s hs t ht r pns a b c => by
      rw [List.mem_singleton] at ht; subst ht; exact (hD s hs r pns b c).2 a⟩
  have r3 : ∀ h ∈ [exHalfA, exHalfB], ObjectsRounded 1 [exCorner] [h] → RoundedObjects F 1 delaunay [exCorner] [h] :=
    fun h hh g => ⟨le_rfl, by norm_num, okc, okh h hh, List.pairwise_singleton _ _, List.pairwise_singleton _ _, g,
      fun s hs t ht r pns a b c => by
        rw [List.mem_singleton] at hs ht; subst hs ht; exact (hD _ hh r pns b c).1 a⟩
  have c2 : ∀ t ∈ [exHalfA, exHalfB], F.checkTwoTetrahedra exCorner t = 2 := fun t ht =>
    (C88_codes _ (R := 1) le_rfl (by norm_num) _ _ (g1.small1 _ (by simp)) (g1.small2 t ht) (g1.pairs _ (by simp) t ht)).2.1.2
      ⟨(exHalves_inside t ht).1, (exHalves_inside t ht).2.1⟩
  have c1 : ∀ t ∈ [exHalfA, exHalfB], F.checkTwoTetrahedra t exCorner = 1 := fun t ht =>
    (C88_codes _ (R := 1) le_rfl (by norm_num) _ _ (g1.small2 t ht) (g1.small1 _ (by simp)) (g2.pairs t ht _ (by simp))).1.2
      (exHalves_inside t ht).2.1
  have touch : ∀ t ∈ [exHalfA, exHalfB], (interior (solid (Package.ico.perps exCorner) ∩ solid (Package.ico.perps t))).Nonempty ∧
      (interior (solid (Package.ico.perps t) ∩ solid (Package.ico.perps exCorner))).Nonempty := fun t ht => by
    have e := Set.inter_eq_left.2 (exHalves_inside t ht).2.1
    refine ⟨?_, ?_⟩
    · rw [Set.inter_comm, e]; exact (exHalves_inside t ht).2.2
    · rw [e]; exact (exHalves_inside t ht).2.2
  have cA := c2 exHalfA (by simp)
  have cB := c2 exHalfB (by simp)
  have cA' := c1 exHalfA (by simp)
  have cB' := c1 exHalfB (by simp)
  have hv1 : tetrahedronVolume6d exCorner = .ok ⟨1, 0, 6⟩ := by decide +kernel
  have hv2 : objVolume6d (.d4 [exHalfA, exHalfB]) = .ok (some ⟨1, 0, 6⟩) := by decide +kernel
  have run : ∀ kind (a b : Obj 4) o, RoundedObjects F 1 delaunay a b → b ≠ [] →
      (∀ s ∈ a, ∃ t ∈ b, (interior (solid (Package.ico.perps s) ∩ solid (Package.ico.perps t))).Nonempty) →
      (∀ rough inter, (∀ s ∈ a, rough s = .ok true) →
        intersectionTwoObj kind rough (fun s t => .ok (F.checkTwoTetrahedra s t)) inter a b = .ok (some o)) →
      RoundedRun a b (some o) := by
    intro kind a b o h h0 hi hr
    refine ⟨F, 1, kind, fun _ _ _ => [], delaunay, h, ?_⟩
    obtain ⟨rough, e, hro⟩ := objects_rounded_eq F h.scale1 h.scale2 kind (fun _ _ _ => []) delaunay h0 h.ok1 h.ok2
      h.rounded
    rw [e]
    refine hr _ _ fun s hs => ?_
    obtain ⟨b', hb, hf⟩ := hro s hs
    cases b' with
    | true => exact hb
    | false =>
      obtain ⟨t, ht, hne⟩ := hi s hs
      exact absurd hne (hf rfl t ht)
  have tc : ∀ b : Obj 4, (∃ t ∈ b, t ∈ [exHalfA, exHalfB]) → ∀ s ∈ [exCorner], ∃ t ∈ b,
      (interior (solid (Package.ico.perps s) ∩ solid (Package.ico.perps t))).Nonempty := by
    rintro b ⟨t, ht, ht'⟩ s hs
    rw [List.mem_singleton.1 hs]
    exact ⟨t, ht, (touch t ht').1⟩
  refine ⟨run .standard _ _ _ r1 (by simp) (tc _ ⟨exHalfA, by simp, by simp⟩) ?_, run .simple _ _ _ r1 (by simp) (tc _ ⟨exHalfA, by simp, by simp⟩) ?_,
    run .standard _ _ _ r2 (by simp) (fun s hs => ⟨exCorner, by simp, (touch s hs).2⟩) ?_,
    run .standard _ _ _ (r3 _ (by simp) g3) (by simp) (tc _ ⟨exHalfA, by simp, by simp⟩) ?_,
    run .standard _ _ _ (r3 _ (by simp) g4) (by simp) (tc _ ⟨exHalfB, by simp, by simp⟩) ?_⟩
  · exact fun rough inter hro => whole_two (hro exCorner (by simp)) cA cB
  · exact fun rough inter hro => whole_two_simple (hro exCorner (by simp)) cA cB hv1 hv2
  · exact fun rough inter hro => two_whole (hro exHalfA (by simp)) (hro exHalfB (by simp)) cA' cB'
  · exact fun rough inter hro => whole_one (hro exCorner (by simp)) cA
  · exact fun rough inter hro => whole_one (hro exCorner (by simp)) cB

/-- The same in binary64 arithmetic. -/
theorem exHalves_runs : RoundedRun [exCorner] [exHalfA, exHalfB] (some [exHalfA, exHalfB]) ∧
    RoundedRun [exCorner] [exHalfA, exHalfB] (some [exCorner]) ∧ RoundedRun [exHalfA, exHalfB] [exCorner] (some [exHalfA, exHalfB]) ∧
    RoundedRun [exCorner] [exHalfA] (some [exHalfA]) ∧ RoundedRun [exCorner] [exHalfB] (some [exHalfB]) :=
  exHalves_runs_of binary64.float64

/-- The hypotheses of `C114_choices`, `C114_exchange`, `C114_inside`, `C114_parts` and `C114_grouping` are met by these
runs. -/
example : RoundedRun [exHalfA, exHalfB] [exCorner] (some [exHalfA, exHalfB]) ∧
    Package.ico.region [exHalfA, exHalfB] ⊆ Package.ico.region [exCorner] ∧
    exactVolume (some [exCorner]) = exactVolume (some [exHalfA, exHalfB]) ∧
    RoundedRun [exCorner] ([exHalfA] ++ [exHalfB]) (some [exCorner]) ∧
    RoundedRun ((some [exHalfA, exHalfB]).getD []) [exCorner] (some [exHalfA, exHalfB]) ∧
    RoundedRun [exCorner] ((some [exHalfA, exHalfB]).getD []) (some [exCorner]) := by
  obtain ⟨h1, h2, h3, h4, h5⟩ := exHalves_runs
  refine ⟨h3, ?_, (C114_choices _ _ _ _ h2 h1).1, h2, h3, h2⟩
  rintro x ⟨t, ht, hx⟩
  exact ⟨exCorner, by simp, (exHalves_inside t ht).2.1 hx⟩

/-! ## A tetrahedron moved -/

/-- A tetrahedron with corners on a grid, intersected with itself. -/
theorem itself_run (F : Float64) {R : ℕ} (hR : 1 ≤ R) (hR2 : R ≤ 2 ^ 10) {s : Simplex 4} (ok : Simplex.Ok s)
    (test : objectsTest R [s] [s] = true) {a : Fin 4 → Fin 3 → ℤ} (hS : ∀ i c, Package.ico.perps s i c = (a i c : ℝ))
    (hb : ∀ i c, |a i c| ≤ R) {D : ℕ} (hD1 : 1 ≤ D)
    (hD : ∀ i j k l m : Fin 4, i < j → k < l → l < m → |edgeFaceZ a a i j k l m| ≤ D)
    (hN : 18 * (R : ℝ) / 2 ^ 53 * (D : ℝ) ^ 2 < 1) (hN2 : (D : ℤ) ≤ 2 ^ 20) : RoundedRun [s] [s] (some [s]) := by
  have ok1 := singleton_ok ok
  have g := objectsTest_spec ok1 ok1 (by simp) test
  have hR' : (1 : ℝ) ≤ R := by exact_mod_cast hR
  have hR2' : (R : ℝ) ≤ 2 ^ 10 := by exact_mod_cast hR2
  have hS' : ∀ i c, Package.ico.perps s i c = (a i c : ℝ) / (1 : ℕ) := fun i c => by rw [hS]; simp
  have hb' : ∀ i c, |Package.ico.perps s i c| ≤ (R : ℝ) := fun i c => by rw [hS]; exact_mod_cast hb i c
  have hf : ∀ {x}, Candidate (Package.ico.perps s) (Package.ico.perps s) x → ∀ c, ∃ p q : ℤ, q ≠ 0 ∧ |q| ≤ D ∧ x c = (p : ℝ) / q :=
    fun h c => by
      obtain ⟨q, p, h0, h1, h2⟩ := candidate_quot (n := 1) (by norm_num) hS' hS' hD1 hD hD h
      exact ⟨p c, q, h0, h1, by rw [h2 c]; simp⟩
  obtain ⟨delaunay, hd⟩ := tiles_rounded F (fun v => Vec.Ok v ∧ Candidate (Package.ico.perps s) (Package.ico.perps s) (Package.ico.perp v))
    (fun v h => h.1) fun v w hv hw => perp_eq_of_rounded F hR' hR2' hN hN2 (hf hv.2) (hf hw.2) (candidate_bound hb' hb' hv.2)
      (candidate_bound hb' hb' hw.2)
  refine ⟨F, R, .standard, fun _ _ _ => [], fun _ _ => delaunay, ⟨hR', hR2', ok1, ok1, List.pairwise_singleton _ _,
    List.pairwise_singleton _ _, g, fun s' hs t ht r pns a b c => ?_⟩, ?_⟩
  · rw [List.mem_singleton] at hs ht; subst hs ht; exact hd r pns a b c
  obtain ⟨rough, e, hro⟩ := objects_rounded_eq F hR' hR2' .standard (fun _ _ _ => []) (fun _ _ => delaunay) (by simp) ok1 ok1 g
  rw [e]
  have hc := (C88_codes F hR' hR2' s s (g.small1 s (by simp)) (g.small1 s (by simp)) (g.pairs s (by simp) s (by simp))).1.2 subset_rfl
  obtain ⟨b, hb, hf⟩ := hro s (by simp)
  cases b with
  | true => exact one_whole hb hc
  | false =>
    refine absurd ?_ (hf rfl s (by simp))
    rw [Set.inter_self]
    have hd := det4_ne_iff.2 (g.pairs s (by simp) s (by simp)).resolved.volT
    refine ⟨∑ i, (1 / 4 : ℝ) • Package.ico.perps s i, (interior_bc hd).2 fun i => ?_⟩
    rw [bc_eq hd (w := fun _ => 1 / 4) ⟨by norm_num, rfl⟩]
    norm_num

/-- A point whose internal coordinates are integers, with numbers in lowest terms. -/
def gridPoint (x y z : Int) : Vec 6 :=
  let half : Int → Num3 := fun k => if k % 2 = 0 then ⟨k / 2, 0, 1⟩ else ⟨k, 0, 2⟩
  ![half (-y), half (-x), half (-x), half z, half (-y), half (-z)]

/-- `exCorner` moved by one unit along the first axis. -/
def exCornerMoved : Simplex 4 := ![gridPoint 1 0 0, gridPoint 2 0 0, gridPoint 1 1 0, gridPoint 1 0 1]
/-- `exCorner` inverted through the origin. -/
def exCornerMirror : Simplex 4 := ![gridPoint 0 0 0, gridPoint (-1) 0 0, gridPoint 0 (-1) 0, gridPoint 0 0 (-1)]
/-- The inversion. -/
def invOp : IMat 6 6 := fun i j => if i = j then -1 else 0

theorem exCorner_shift : shiftObj .ico [exCorner] (cart 1 0 0 1) = .ok [exCornerMoved] := by decide +kernel
theorem exCorner_mirror : invOp ∈ Package.ico.symops ∧ symopObj .ico invOp [exCorner] (fun _ => ⟨0, 0, 1⟩) = .ok [exCornerMirror] := by
  decide +kernel

theorem perps_exCornerMoved (i : Fin 4) (c : Fin 3) : Package.ico.perps exCornerMoved i c =
    ((![![1, 0, 0], ![2, 0, 0], ![1, 1, 0], ![1, 0, 1]] : Fin 4 → Fin 3 → ℤ) i c : ℝ) := by
  have h := exCorner_shift
  rw [shiftObj_ok .ico (singleton_ok exCorner_ok) (cart_ok (by decide))] at h
  have h := List.singleton_inj.1 (Except.ok.inj h)
  rw [← h]
  refine (congrFun (perp_nvec_add (p := .ico) (exCorner i) (cart 1 0 0 1)) c).trans ?_
  change (Package.ico.perps exCorner i + _) c = _
  rw [perps_exCorner, perp_cart]
  fin_cases i <;> fin_cases c <;> norm_num

theorem perps_exCornerMirror (i : Fin 4) (c : Fin 3) : Package.ico.perps exCornerMirror i c =
    ((![![0, 0, 0], ![-1, 0, 0], ![0, -1, 0], ![0, 0, -1]] : Fin 4 → Fin 3 → ℤ) i c : ℝ) := by
  fin_cases i <;> fin_cases c <;>
    simp [Package.perps, Package.perp, Package.perpMat, Package.theta, Matrix.mulVec, dotProduct, Fin.sum_univ_six, Vec.val,
      exCornerMirror, gridPoint, Num3.val] <;> ring

theorem exCornerMoved_run : RoundedRun [exCornerMoved] [exCornerMoved] (some [exCornerMoved]) :=
  itself_run binary64.float64 (R := 2) (by norm_num) (by norm_num) (by decide +kernel) (by decide +kernel) perps_exCornerMoved
    (by decide +kernel) (D := 8) (by norm_num) (by decide +kernel) (by norm_num) (by norm_num)

theorem exCornerMirror_run : RoundedRun [exCornerMirror] [exCornerMirror] (some [exCornerMirror]) :=
  itself_run binary64.float64 (R := 2) (by norm_num) (by norm_num) (by decide +kernel) (by decide +kernel) perps_exCornerMirror
    (by decide +kernel) (D := 8) (by norm_num) (by decide +kernel) (by norm_num) (by norm_num)

theorem exCorner_run : RoundedRun [exCorner] [exCorner] (some [exCorner]) :=
  itself_run binary64.float64 (R := 2) (by norm_num) (by norm_num) exCorner_ok (by decide +kernel)
    (a := ![![0, 0, 0], ![1, 0, 0], ![0, 1, 0], ![0, 0, 1]])
    (fun i c => by rw [perps_exCorner]; fin_cases i <;> fin_cases c <;> simp)
    (by decide +kernel) (D := 8) (by norm_num) (by decide +kernel) (by norm_num) (by norm_num)

/-- The hypotheses of `C114_shift`, `C114_symmetry` and `C114_ideal` are met, in binary64 arithmetic, by a tetrahedron, its
images under a shift and the inversion, and its halves. -/
example : RoundedRun [exCorner] [exCorner] (some [exCorner]) ∧
    shiftApi .ico (.d4 [exCorner]) (cart 1 0 0 1) = .ok (some (.d4 [exCornerMoved])) ∧ Vec.Ok (cart 1 0 0 1) ∧
    RoundedRun [exCornerMoved] [exCornerMoved] (some [exCornerMoved]) ∧
    invOp ∈ Package.ico.symops ∧ symopObj .ico invOp [exCorner] (fun _ => ⟨0, 0, 1⟩) = .ok [exCornerMirror] ∧
    RoundedRun [exCornerMirror] [exCornerMirror] (some [exCornerMirror]) ∧
    ∃ delaunay : Simplex 4 → Simplex 4 → Delaunay, (∀ s t, TilesHull (delaunay s t)) ∧ ∀ draws,
      intersectionApi .simple draws delaunay (.d4 [exCorner]) (.d4 [exHalfA, exHalfB]) = .ok (some [exCorner]) := by
  obtain ⟨D, hD⟩ := exists_tiles
  exact ⟨exCorner_run, by simp only [shiftApi, exCorner_shift, bind_ok'], cart_ok (by decide), exCornerMoved_run, exCorner_mirror.1,
    exCorner_mirror.2, exCornerMirror_run, fun _ _ => D, fun _ _ => hD, fun draws => (exHalf_result draws _).2⟩

end PyQC
