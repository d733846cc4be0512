import Verif.Spec.Laws
import Verif.Lemmas.MotionPlanar
import Verif.Lemmas.Sweep
import Verif.Props.PlanarHull
import Verif.Props.Laws
/-!
# C106 Laws of the intersection, C107 intersections of asymmetric units (dode2)
-/
namespace PyQC
open Matrix MeasureTheory Dode

/-- What the results so far say about one call: it returns, with the common part. -/
theorem planar_result (kind : Ico.Kind) {delaunay : Simplex 3 → Simplex 3 → Delaunay2} (hD : ∀ s t, TilesHull2 (delaunay s t))
    {z : ℝ} {a b : Obj 3} (h : ResolvedObjects2 z a b) :
    ∃ r, intersectionApi kind delaunay (.d4 a) (.d4 b) = .ok r ∧ Obj.Ok (r.getD []) ∧ Level z (r.getD []) ∧
      NoOverlap2 z (r.getD []) ∧
      Almost (content2 z r) (slice z (Package.dode.region a ∩ Package.dode.region b)) ∧
      ∃ w, exactArea r = .ok (some w) ∧
        ENNReal.ofReal (w.val sin60) = volume (slice z (Package.dode.region a ∩ Package.dode.region b)) := by
  have hF : ∀ s ∈ a, ∀ t ∈ b, FillsHull2 (delaunay s t) := fun s _ t _ => (hD s t).toFillsHull2
  obtain ⟨r, hr, -⟩ := C68_objects kind delaunay a b z hF h.ne h.ok1 h.ok2 h.level1 h.level2 h.pairs
  have h1 := C69_objects kind delaunay a b z (fun s _ t _ => hD s t) h.ne h.ok1 h.ok2 h.level1 h.level2 h.apart1 h.apart2 h.pairs r hr
  refine ⟨r, hr, ?_⟩
  cases r with
  | none =>
    have hz := h1.1 rfl
    refine ⟨fun s hs => by simp at hs, fun s hs => by simp at hs, List.Pairwise.nil, ⟨?_, ?_⟩, ⟨0, 0, 1⟩, ?_, ?_⟩
    · have : content2 z none = ∅ := Planar.region_nil
      simp [this]
    · exact measure_mono_null Set.sdiff_subset hz
    · rfl
    · rw [hz]; simp [Num3.val]
  | some o =>
    obtain ⟨h2, h3, h4⟩ := C69_exact kind delaunay a b z (fun s _ t _ => hD s t) h.ne h.ok1 h.ok2 h.level1 h.level2 h.apart1
      h.apart2 h.pairs o hr
    obtain ⟨w, hw, hv⟩ := h1.2 o rfl
    obtain ⟨ok, lv⟩ := planar_result_ok hF h.ne h.ok1 h.ok2 h.level1 h.level2 h.pairs hr
    exact ⟨ok, lv, h2, ⟨h4, h3⟩, w, hw, hv.symm⟩

theorem exact_area {o o' : Obj 3} {v v' : Num3} (h : Obj.Ok o) (h' : Obj.Ok o') (hv : objArea6d (.d4 o) = .ok (some v))
    (hv' : objArea6d (.d4 o') = .ok (some v')) (e : ENNReal.ofReal (v.val sin60) = ENNReal.ofReal (v'.val sin60)) :
    objArea6d (.d4 o) = objArea6d (.d4 o') := by
  rw [hv, hv', area_triple h h' hv hv' e]

/-- Two calls whose arguments have almost the same common part. -/
theorem planar_same (kind kind' : Ico.Kind) {delaunay delaunay' : Simplex 3 → Simplex 3 → Delaunay2}
    (hD : ∀ s t, TilesHull2 (delaunay s t)) (hD' : ∀ s t, TilesHull2 (delaunay' s t)) {z : ℝ} {a b a' b' : Obj 3}
    (h : ResolvedObjects2 z a b) (h' : ResolvedObjects2 z a' b')
    (e : Almost (slice z (Package.dode.region a ∩ Package.dode.region b)) (slice z (Package.dode.region a' ∩ Package.dode.region b'))) :
    ∃ r r', intersectionApi kind delaunay (.d4 a) (.d4 b) = .ok r ∧ intersectionApi kind' delaunay' (.d4 a') (.d4 b') = .ok r' ∧
      exactArea r = exactArea r' ∧ Almost (content2 z r) (content2 z r') := by
  obtain ⟨r, hr, ok, -, -, c, w, hw, hv⟩ := planar_result kind hD h
  obtain ⟨r', hr', ok', -, -, c', w', hw', hv'⟩ := planar_result kind' hD' h'
  exact ⟨r, r', hr, hr', exact_area ok ok' hw hw' (by rw [hv, hv', e.volume_eq]), (c.trans e).trans c'.symm⟩

/-! ## C106 -/

/-- C106 (dode2): the call returns; the exact area of an intersection, and what it covers up to area zero, do not depend on
the `kind` or on how the library tiles convex hulls. -/
theorem C106_choices_planar (kind kind' : Ico.Kind) (delaunay delaunay' : Simplex 3 → Simplex 3 → Delaunay2)
    (hD : ∀ s t, TilesHull2 (delaunay s t)) (hD' : ∀ s t, TilesHull2 (delaunay' s t)) (z : ℝ) (a b : Obj 3)
    (h : ResolvedObjects2 z a b) :
    ∃ r r', intersectionApi kind delaunay (.d4 a) (.d4 b) = .ok r ∧ intersectionApi kind' delaunay' (.d4 a) (.d4 b) = .ok r' ∧
      exactArea r = exactArea r' ∧ Almost (content2 z r) (content2 z r') :=
  planar_same kind kind' hD hD' h h (Almost.refl _)

theorem ResolvedObjects2.symm {z : ℝ} {a b : Obj 3} (h : ResolvedObjects2 z a b) (h0 : a ≠ []) : ResolvedObjects2 z b a :=
  ⟨h0, h.ok2, h.ok1, h.level2, h.level1, h.apart2, h.apart1, fun s hs t ht => (h.pairs t ht s hs).symm⟩

/-- C106 (dode2): exchanging the two objects changes neither the exact area nor, up to area zero, what is covered. -/
theorem C106_exchange_planar (kind kind' : Ico.Kind) (delaunay delaunay' : Simplex 3 → Simplex 3 → Delaunay2)
    (hD : ∀ s t, TilesHull2 (delaunay s t)) (hD' : ∀ s t, TilesHull2 (delaunay' s t)) (z : ℝ) (a b : Obj 3) (h0 : a ≠ [])
    (h : ResolvedObjects2 z a b) :
    ∃ r r', intersectionApi kind delaunay (.d4 a) (.d4 b) = .ok r ∧ intersectionApi kind' delaunay' (.d4 b) (.d4 a) = .ok r' ∧
      exactArea r = exactArea r' ∧ Almost (content2 z r) (content2 z r') :=
  planar_same kind kind' hD hD' h (h.symm h0) (by rw [Set.inter_comm]; exact Almost.refl _)

theorem ResolvedObjects2.motion {f : (Fin 3 → ℝ) → Fin 3 → ℝ} {g : (Fin 2 → ℝ) → Fin 2 → ℝ} {z z' : ℝ}
    (hf : FlatMotion f g z z') {φ : Simplex 3 → Simplex 3}
    (hφ : ∀ s i, Package.dode.perps (φ s) i = f (Package.dode.perps s i)) (hok : ∀ s, Simplex.Ok (φ s)) {a b : Obj 3}
    (h : ResolvedObjects2 z a b) : ResolvedObjects2 z' (a.map φ) (b.map φ) := by
  have ok : ∀ o : Obj 3, Obj.Ok (o.map φ) := fun o s hs => by
    obtain ⟨t, -, rfl⟩ := List.mem_map.mp hs
    exact hok t
  have lv : ∀ o : Obj 3, Level z o → Level z' (o.map φ) := fun o ho s hs i => by
    obtain ⟨t, ht, rfl⟩ := List.mem_map.mp hs
    exact (congrFun (hφ t i) 2).trans (hf.level _ (ho t ht i))
  have ap : ∀ o : Obj 3, NoOverlap2 z o → NoOverlap2 z' (o.map φ) := fun o ho => by
    refine List.pairwise_map.mpr (List.Pairwise.imp (fun {a b} hab => ?_) ho)
    rw [show Package.dode.perps (φ a) = fun i => f (Package.dode.perps a i) from funext (hφ a),
      show Package.dode.perps (φ b) = fun i => f (Package.dode.perps b i) from funext (hφ b), hf.motion.solid, hf.motion.solid,
      hf.slice, hf.slice, hf.interior, hf.interior, ← Set.image_inter hf.injective, hab, Set.image_empty]
  refine ⟨by simpa using h.ne, ok a, ok b, lv a h.level1, lv b h.level2, ap a h.apart1, ap b h.apart2, fun s hs t ht => ?_⟩
  obtain ⟨s, hs', rfl⟩ := List.mem_map.mp hs
  obtain ⟨t, ht', rfl⟩ := List.mem_map.mp ht
  rw [show Package.dode.perps (φ s) = fun i => f (Package.dode.perps s i) from funext (hφ s),
    show Package.dode.perps (φ t) = fun i => f (Package.dode.perps t i) from funext (hφ t)]
  exact hf.motion.resolvedTri (h.pairs s hs' t ht')

theorem Almost.flat {f : (Fin 3 → ℝ) → Fin 3 → ℝ} {g : (Fin 2 → ℝ) → Fin 2 → ℝ} {z z' : ℝ}
    (hf : FlatMotion f g z z') {A B : Set (Fin 2 → ℝ)} (h : Almost A B) : Almost (g '' A) (g '' B) := by
  constructor
  · rw [← Set.image_sdiff hf.injective, hf.volume]; exact h.1
  · rw [← Set.image_sdiff hf.injective, hf.volume]; exact h.2

theorem planar_motion_law {f : (Fin 3 → ℝ) → Fin 3 → ℝ} {g : (Fin 2 → ℝ) → Fin 2 → ℝ} {z z' : ℝ}
    (hf : FlatMotion f g z z') {φ : Simplex 3 → Simplex 3}
    (hφ : ∀ s i, Package.dode.perps (φ s) i = f (Package.dode.perps s i)) (hok : ∀ s, Simplex.Ok (φ s))
    (kind kind' : Ico.Kind) {delaunay delaunay' : Simplex 3 → Simplex 3 → Delaunay2}
    (hD : ∀ s t, TilesHull2 (delaunay s t)) (hD' : ∀ s t, TilesHull2 (delaunay' s t)) {a b : Obj 3}
    (h : ResolvedObjects2 z a b) :
    ∃ r r', intersectionApi kind delaunay (.d4 a) (.d4 b) = .ok r ∧ Obj.Ok (r.getD []) ∧
      intersectionApi kind' delaunay' (.d4 (a.map φ)) (.d4 (b.map φ)) = .ok r' ∧
      exactArea r = exactArea r' ∧ Almost (content2 z' r') (slice z' (Package.dode.region ((r.getD []).map φ))) := by
  obtain ⟨r, hr, ok, -, -, c, w, hw, hv⟩ := planar_result kind hD h
  obtain ⟨r', hr', ok', -, -, c', w', hw', hv'⟩ := planar_result kind' hD' (h.motion hf hφ hok)
  have e : slice z' (Package.dode.region (a.map φ) ∩ Package.dode.region (b.map φ)) =
      g '' slice z (Package.dode.region a ∩ Package.dode.region b) := by
    rw [region_motion hf.motion hφ, region_motion hf.motion hφ, ← Set.image_inter hf.motion.injective, hf.slice]
  rw [e] at c' hv'
  refine ⟨r, r', hr, ok, hr', exact_area ok ok' hw hw' (by rw [hv, hv', hf.volume]), ?_⟩
  rw [region_motion hf.motion hφ, hf.slice]
  exact c'.trans (c.symm.flat hf)

/-- C106 (dode2): applying a symmetry operation of the dodecagonal group about a centre to both objects applies it to their
intersection. -/
theorem C106_symmetry_planar (kind kind' : Ico.Kind) (delaunay delaunay' : Simplex 3 → Simplex 3 → Delaunay2)
    (hD : ∀ s t, TilesHull2 (delaunay s t)) (hD' : ∀ s t, TilesHull2 (delaunay' s t)) (z : ℝ) (a b : Obj 3)
    (h : ResolvedObjects2 z a b) (op : IMat 6 6) (hop : op ∈ Package.dode.symops) (c : Vec 6) (hc : Vec.Ok c) :
    ∃ a' b' r r' q, symopObj .dode op a c = .ok a' ∧ symopObj .dode op b c = .ok b' ∧ ResolvedObjects2 z a' b' ∧
      intersectionApi kind delaunay (.d4 a) (.d4 b) = .ok r ∧ intersectionApi kind' delaunay' (.d4 a') (.d4 b') = .ok r' ∧
      exactArea r = exactArea r' ∧ symopObj .dode op (r.getD []) c = .ok q ∧
      Almost (content2 z r') (slice z (Package.dode.region q)) := by
  have hf := flatMotion_spin hop z (Package.dode.perp c)
  have hφ : ∀ (s : Simplex 3) i, Package.dode.perps (symS .dode op c s) i =
    spin (Package.dode.rot op) (Package.dode.perp c) (Package.dode.perps s i) := fun s i => perps_symS hop c s i
  obtain ⟨r, r', hr, ok, hr', h1, h2⟩ := planar_motion_law hf hφ (symS_ok op c) kind kind' hD hD' h
  exact ⟨_, _, r, r', _, symopObj_ok op h.ok1 hc, symopObj_ok op h.ok2 hc, h.motion hf hφ (symS_ok op c), hr, hr', h1,
    symopObj_ok op ok hc, h2⟩

/-- C106 (dode2): moving both objects by the same vector moves their intersection. -/
theorem C106_shift_planar (kind kind' : Ico.Kind) (delaunay delaunay' : Simplex 3 → Simplex 3 → Delaunay2)
    (hD : ∀ s t, TilesHull2 (delaunay s t)) (hD' : ∀ s t, TilesHull2 (delaunay' s t)) (z : ℝ) (a b : Obj 3)
    (h : ResolvedObjects2 z a b) (v : Vec 6) (hv : Vec.Ok v) :
    ∃ (a' b' : Obj 3) (r r' : Option (Obj 3)) (q : Obj 3), shiftApi .dode (.d4 a) v = .ok (some (.d4 a')) ∧
      shiftApi .dode (.d4 b) v = .ok (some (.d4 b')) ∧ ResolvedObjects2 (z + Package.dode.perp v 2) a' b' ∧
      intersectionApi kind delaunay (.d4 a) (.d4 b) = .ok r ∧ intersectionApi kind' delaunay' (.d4 a') (.d4 b') = .ok r' ∧
      exactArea r = exactArea r' ∧ shiftApi .dode (.d4 (r.getD [])) v = .ok (some (.d4 q)) ∧
      Almost (content2 (z + Package.dode.perp v 2) r') (slice (z + Package.dode.perp v 2) (Package.dode.region q)) := by
  have hf := flatMotion_shift z (Package.dode.perp v)
  have hφ : ∀ (s : Simplex 3) i, Package.dode.perps (fun i => nvec (kvec Package.dode.theta (s i) + kvec Package.dode.theta v)) i =
    Package.dode.perps s i + Package.dode.perp v := fun s i => perp_nvec_add (p := .dode) (s i) v
  have hok : ∀ s : Simplex 3, Simplex.Ok fun i => nvec (kvec Package.dode.theta (s i) + kvec Package.dode.theta v) :=
    fun s i => nvec_ok _
  have hs : ∀ o : Obj 3, Obj.Ok o → shiftApi .dode (.d4 o) v =
      .ok (some (.d4 (o.map fun s i => nvec (kvec Package.dode.theta (s i) + kvec Package.dode.theta v)))) := fun o ho => by
    simp only [shiftApi, shiftObj_ok .dode ho hv, bind_ok']
  obtain ⟨r, r', hr, ok, hr', h1, h2⟩ := planar_motion_law hf hφ hok kind kind' hD hD' h
  exact ⟨_, _, r, r', _, hs a h.ok1, hs b h.ok2, h.motion hf hφ hok, hr, hr', h1, hs _ ok, h2⟩

/-- C106 (dode2): an object inside another one is its intersection with it. -/
theorem C106_inside_planar (kind : Ico.Kind) (delaunay : Simplex 3 → Simplex 3 → Delaunay2) (hD : ∀ s t, TilesHull2 (delaunay s t))
    (z : ℝ) (a b : Obj 3) (h : ResolvedObjects2 z a b) (hin : Package.dode.region a ⊆ Package.dode.region b) :
    ∃ r, intersectionApi kind delaunay (.d4 a) (.d4 b) = .ok r ∧ exactArea r = objArea6d (.d4 a) ∧
      Almost (content2 z r) (slice z (Package.dode.region a)) := by
  obtain ⟨r, hr, h1, -, -, h2, w, hw, hv⟩ := planar_result kind hD h
  rw [Set.inter_eq_left.2 hin] at h2 hv
  obtain ⟨u, hu, -, he⟩ := C69_object a h.ok1 z h.level1
  exact ⟨r, hr, exact_area h1 h.ok1 hw hu (by rw [hv, he.2 h.apart1]), h2⟩

/-- C106 (dode2): the intersection with an object made of two parts is as large as the intersections with the parts
together. -/
theorem C106_parts_planar (kind kind1 kind2 : Ico.Kind) (delaunay delaunay1 delaunay2 : Simplex 3 → Simplex 3 → Delaunay2)
    (hD : ∀ s t, TilesHull2 (delaunay s t)) (hD1 : ∀ s t, TilesHull2 (delaunay1 s t)) (hD2 : ∀ s t, TilesHull2 (delaunay2 s t))
    (z : ℝ) (a b1 b2 : Obj 3) (n1 : b1 ≠ []) (n2 : b2 ≠ []) (h : ResolvedObjects2 z a (b1 ++ b2)) :
    ∃ r r1 r2, intersectionApi kind delaunay (.d4 a) (.d4 (b1 ++ b2)) = .ok r ∧
      intersectionApi kind1 delaunay1 (.d4 a) (.d4 b1) = .ok r1 ∧ intersectionApi kind2 delaunay2 (.d4 a) (.d4 b2) = .ok r2 ∧
      exactArea r = objArea6d (.d4 (r1.getD [] ++ r2.getD [])) ∧ Almost (content2 z r) (content2 z r1 ∪ content2 z r2) := by
  have n := List.pairwise_append.1 h.apart2
  have g1 : ResolvedObjects2 z a b1 := ⟨n1, h.ok1, fun s hs => h.ok2 s (List.mem_append_left _ hs), h.level1,
    fun s hs => h.level2 s (List.mem_append_left _ hs), h.apart1, n.1, fun s hs t ht => h.pairs s hs t (List.mem_append_left _ ht)⟩
  have g2 : ResolvedObjects2 z a b2 := ⟨n2, h.ok1, fun s hs => h.ok2 s (List.mem_append_right _ hs), h.level1,
    fun s hs => h.level2 s (List.mem_append_right _ hs), h.apart1, n.2.1, fun s hs t ht => h.pairs s hs t (List.mem_append_right _ ht)⟩
  obtain ⟨r, hr, o, -, -, c, w, hw, hv⟩ := planar_result kind hD h
  obtain ⟨r1, hr1, o1, -, -, c1, w1, hw1, hv1⟩ := planar_result kind1 hD1 g1
  obtain ⟨r2, hr2, o2, -, -, c2, w2, hw2, hv2⟩ := planar_result kind2 hD2 g2
  have oo : Obj.Ok (r1.getD [] ++ r2.getD []) := fun s hs => (List.mem_append.1 hs).elim (o1 s) (o2 s)
  refine ⟨r, r1, r2, hr, hr1, hr2, ?_, ?_⟩
  · obtain ⟨⟨u, hu, -, eu⟩, -⟩ := C43_object _ oo
    obtain ⟨⟨u1, hu1, -, eu1⟩, -⟩ := C43_object _ o1
    obtain ⟨⟨u2, hu2, -, eu2⟩, -⟩ := C43_object _ o2
    have p1 := area_nonneg o1 hw1
    have p2 := area_nonneg o2 hw2
    rw [show objArea6d _ = _ from hw1] at hu1
    rw [show objArea6d _ = _ from hw2] at hu2
    cases hu1
    cases hu2
    have hm := Planar.region_measurable (z := z) a
    refine exact_area o oo hw hu ?_
    rw [slice_inter] at hv hv1 hv2
    change _ = volume (Planar.cover z a ∩ Planar.cover z _) at hv hv1 hv2
    rw [eu, List.map_append, List.sum_append, ← eu1, ← eu2, ENNReal.ofReal_add p1 p2, hv, hv1, hv2,
      Planar.inter_region_sum hm h.apart2, Planar.inter_region_sum hm n.1,
      Planar.inter_region_sum hm n.2.1, List.map_append, List.sum_append]
  · rw [slice_inter, show slice z (Package.dode.region (b1 ++ b2)) = slice z (Package.dode.region b1) ∪ slice z (Package.dode.region b2)
      from Planar.region_append b1 b2, Set.inter_union_distrib_left] at c
    exact c.trans (c1.symm.union c2.symm)

/-- C106 (dode2): the order in which three objects are intersected does not matter. -/
theorem C106_grouping_planar (k1 k2 k3 k4 : Ico.Kind) (l1 l2 l3 l4 : Simplex 3 → Simplex 3 → Delaunay2)
    (h1 : ∀ s t, TilesHull2 (l1 s t)) (h2 : ∀ s t, TilesHull2 (l2 s t)) (h3 : ∀ s t, TilesHull2 (l3 s t))
    (h4 : ∀ s t, TilesHull2 (l4 s t)) (z : ℝ) (a b c : Obj 3) (ab bc : Option (Obj 3)) (hab : ResolvedObjects2 z a b)
    (hbc : ResolvedObjects2 z b c) (rab : intersectionApi k1 l1 (.d4 a) (.d4 b) = .ok ab)
    (rbc : intersectionApi k2 l2 (.d4 b) (.d4 c) = .ok bc) (habc : ResolvedObjects2 z (ab.getD []) c)
    (habc' : ResolvedObjects2 z a (bc.getD [])) :
    ∃ r r', intersectionApi k3 l3 (.d4 (ab.getD [])) (.d4 c) = .ok r ∧ intersectionApi k4 l4 (.d4 a) (.d4 (bc.getD [])) = .ok r' ∧
      exactArea r = exactArea r' ∧ Almost (content2 z r) (content2 z r') := by
  obtain ⟨r1, e, -, -, -, e1, -⟩ := planar_result k1 h1 hab
  rw [rab] at e
  cases e
  obtain ⟨r2, e, -, -, -, e2, -⟩ := planar_result k2 h2 hbc
  rw [rbc] at e
  cases e
  have f1 := e1.inter (Almost.refl (slice z (Package.dode.region c)))
  have f2 := (Almost.refl (slice z (Package.dode.region a))).inter e2
  rw [slice_inter, Set.inter_assoc] at f1
  exact planar_same k3 k4 h3 h4 habc habc' (f1.trans f2.symm)

/-! ## C107 -/

theorem orbit_pairs2 {a b : Obj 3} {c : Vec 6}
    (h : ∀ s ∈ a, ∀ t ∈ orbit .dode b c, ResolvedTri (Package.dode.perps s) (Package.dode.perps t)) :
    ∀ s ∈ orbit .dode a c, ∀ t ∈ orbit .dode b c, ResolvedTri (Package.dode.perps s) (Package.dode.perps t) := by
  intro s hs t ht
  obtain ⟨g, hg, hs⟩ := List.mem_flatMap.mp hs
  obtain ⟨s, hs', rfl⟩ := List.mem_map.mp hs
  obtain ⟨k, hk, ht⟩ := List.mem_flatMap.mp ht
  obtain ⟨t, ht', rfl⟩ := List.mem_map.mp ht
  obtain ⟨g', hg', e1, e2⟩ := symops_inv hg
  have hk' := symops_mul hg' hk
  have := h s hs' (symS .dode (npDot g' k) c t) (List.mem_flatMap.mpr ⟨_, hk', List.mem_map_of_mem ht'⟩)
  have := (isMotion_spin (rot_spec hg).2 (Package.dode.perp c)).resolvedTri this
  have eS : (fun i => spin (Package.dode.rot g) (Package.dode.perp c) (Package.dode.perps s i)) = Package.dode.perps (symS .dode g c s) :=
    funext fun i => (perps_symS hg c s i).symm
  have eT : (fun i => spin (Package.dode.rot g) (Package.dode.perp c) (Package.dode.perps (symS .dode (npDot g' k) c t) i)) =
      Package.dode.perps (symS .dode k c t) := by
    funext i
    rw [perps_symS hk', perps_symS hk]
    simp only [spin, add_sub_cancel_right, mulVec_mulVec]
    rw [rot_mul hg' hk, ← Matrix.mul_assoc, ← rot_mul hg hg', e1, rot_one, Matrix.one_mul]
  rwa [eS, eT] at this

theorem slice_sweep (z : ℝ) (c : Vec 6) (A : Set (Fin 3 → ℝ)) :
    slice z (sweep Package.dode.symops.toFinset Package.dode.rot (Package.dode.perp c) A) =
      sweep Package.dode.symops.toFinset rot2 (xy (Package.dode.perp c)) (slice z A) := by
  ext p
  rw [mem_slice]
  simp only [sweep, Set.mem_iUnion]
  refine exists_congr fun g => exists_congr fun hg => ?_
  rw [← slice_spin (List.mem_toFinset.mp hg)]
  rfl

/-- C107 (dode2): two level objects in one asymmetric unit can be intersected first and completed by the symmetry
afterwards: the symmetric object generated by the intersection covers the common part of the two symmetric objects up to
area zero, its exact area is the area of that part, and when the tolerances do not matter for the pairs of a triangle of
the first unit and a triangle of the second symmetric object, intersecting the symmetric objects gives the same exact area
and covers the same points up to area zero. -/
theorem C107_units_planar (kind kind' : Ico.Kind) (delaunay delaunay' : Simplex 3 → Simplex 3 → Delaunay2)
    (hD : ∀ s t, TilesHull2 (delaunay s t)) (hD' : ∀ s t, TilesHull2 (delaunay' s t)) (z : ℝ) (a b : Obj 3)
    (h : ResolvedObjects2 z a b) (c : Vec 6) (hc : Vec.Ok c) (hin : InUnit .dode (a ++ b) c) :
    ∃ (r : Option (Obj 3)) (A B R : Obj 3) (w : Num3), intersectionApi kind delaunay (.d4 a) (.d4 b) = .ok r ∧
      symmetricApi .dode (.d4 a) c = .ok (some (.d4 A)) ∧ symmetricApi .dode (.d4 b) c = .ok (some (.d4 B)) ∧
      symmetricApi .dode (.d4 (r.getD [])) c = .ok (some (.d4 R)) ∧
      Almost (slice z (Package.dode.region R)) (slice z (Package.dode.region A ∩ Package.dode.region B)) ∧
      objArea6d (.d4 R) = .ok (some w) ∧
      ENNReal.ofReal (w.val sin60) = volume (slice z (Package.dode.region A ∩ Package.dode.region B)) ∧
      ((∀ s ∈ a, ∀ t ∈ B, ResolvedTri (Package.dode.perps s) (Package.dode.perps t)) →
        ∃ q, intersectionApi kind' delaunay' (.d4 A) (.d4 B) = .ok q ∧
          exactArea q = objArea6d (.d4 R) ∧ Almost (content2 z q) (slice z (Package.dode.region R))) := by
  obtain ⟨r, hr, ok, lv, -, hcov, u, hu, hv⟩ := planar_result kind hD h
  have okab : Obj.Ok (a ++ b) := fun s hs => (List.mem_append.1 hs).elim (h.ok1 s) (h.ok2 s)
  have F := fund2
  obtain ⟨op, hop, hcone⟩ := hin.cone okab hc
  rw [List.map_append] at hcone
  have cone : ∀ o : Obj 3, (∀ s ∈ o.map (symS .dode op c), s ∈ List.map (symS .dode op c) a ++ List.map (symS .dode op c) b) →
      slice z (Package.dode.region (o.map (symS .dode op c))) ⊆ coneAt wall2 (xy (Package.dode.perp c)) := fun o ho => by
    rw [← slice_cone z]
    refine slice_mono ?_
    rintro x ⟨s, hs, hx⟩
    exact solid_cone (hcone s (ho s hs)) hx
  have ha := cone a (fun s hs => List.mem_append_left _ hs)
  have hb := cone b (fun s hs => List.mem_append_right _ hs)
  have eo : ∀ o : Obj 3, slice z (Package.dode.region (orbit .dode o c)) =
      sweep Package.dode.symops.toFinset rot2 (xy (Package.dode.perp c))
        (slice z (Package.dode.region (o.map (symS .dode op c)))) := fun o => by
    rw [← slice_sweep, ← region_sweep, region_perm (orbit_unit o c hop)]
  have ho := fund2.orth op (List.mem_toFinset.mpr hop)
  have esp : slice z (Package.dode.region (a.map (symS .dode op c))) ∩ slice z (Package.dode.region (b.map (symS .dode op c))) =
      spin (rot2 op) (xy (Package.dode.perp c)) '' slice z (Package.dode.region a ∩ Package.dode.region b) := by
    rw [region_map hop, region_map hop, slice_spin hop, slice_spin hop, slice_inter, Set.image_inter (spin_injective ho _)]
  have hal : Almost (slice z (Package.dode.region (orbit .dode (r.getD []) c)))
      (slice z (Package.dode.region (orbit .dode a c) ∩ Package.dode.region (orbit .dode b c))) := by
    have h1 := (hcov.spin ho (xy (Package.dode.perp c)))
    rw [← esp, content2, ← slice_spin hop, ← region_map hop] at h1
    have h2 := F.sweep_almost (c := xy (Package.dode.perp c)) h1
    rw [slice_inter, eo, eo a, eo b]
    exact h2.trans (F.sweep_inter ha hb).symm
  have hvol : volume (slice z (Package.dode.region (orbit .dode a c) ∩ Package.dode.region (orbit .dode b c))) =
      24 * volume (slice z (Package.dode.region a ∩ Package.dode.region b)) := by
    have := F.sweep_measure (c := xy (Package.dode.perp c))
      ((Planar.region_measurable (z := z) (a.map (symS .dode op c))).inter
        (Planar.region_measurable (z := z) (b.map (symS .dode op c)))) (fun x hx => ha hx.1)
    change volume (sweep _ _ _ (slice z (Package.dode.region (a.map (symS .dode op c))) ∩
      slice z (Package.dode.region (b.map (symS .dode op c))))) = _ * volume (slice z (Package.dode.region (a.map (symS .dode op c))) ∩
      slice z (Package.dode.region (b.map (symS .dode op c)))) at this
    rw [slice_inter, eo a, eo b, (F.sweep_inter ha hb).volume_eq, this, card_symops, esp, volume_spin ho]
    norm_num [Package.order]
  obtain ⟨R, w, w', hR, hw, hw', e⟩ := C42_area (r.getD []) c ok hc
  have := symmetricApi_orbit (p := .dode) ok hc
  rw [hR] at this
  cases this
  rw [show objArea6d _ = _ from hu] at hw
  cases hw
  have hV : ENNReal.ofReal (w'.val sin60) =
      volume (slice z (Package.dode.region (orbit .dode a c) ∩ Package.dode.region (orbit .dode b c))) := by
    rw [e, ENNReal.ofReal_mul (by norm_num), hv, hvol]
    norm_num
  refine ⟨r, _, _, _, w', hr, symmetricApi_orbit h.ok1 hc, symmetricApi_orbit h.ok2 hc, hR, hal, hw', hV, fun hp => ?_⟩
  have inA : InUnit .dode a c := by
    obtain ⟨g, hg, H⟩ := hin
    exact ⟨g, hg, fun s hs => H s (List.mem_append_left _ hs)⟩
  have inB : InUnit .dode b c := by
    obtain ⟨g, hg, H⟩ := hin
    exact ⟨g, hg, fun s hs => H s (List.mem_append_right _ hs)⟩
  have hne : orbit .dode b c ≠ [] := by
    obtain ⟨t, ht⟩ := List.exists_mem_of_ne_nil b h.ne
    exact List.ne_nil_of_mem (List.mem_flatMap.mpr ⟨op, hop, List.mem_map_of_mem ht⟩)
  have h' : ResolvedObjects2 z (orbit .dode a c) (orbit .dode b c) := ⟨hne, orbit_ok a c, orbit_ok b c, orbit_level h.level1,
    orbit_level h.level2, unit_noOverlap2 h.ok1 hc inA h.apart1, unit_noOverlap2 h.ok2 hc inB h.apart2, orbit_pairs2 hp⟩
  obtain ⟨q, hq, okq, -, -, cq, v, hv1, hv2⟩ := planar_result kind' hD' h'
  exact ⟨q, hq, exact_area okq (orbit_ok _ c) hv1 hw' (by rw [hv2, hV]), cq.trans hal.symm⟩

/-! ## Cases that meet the hypotheses -/

theorem exLevelLaw_objects : ResolvedObjects2 0 [exLevel] [exLevelInv] :=
  ⟨by simp, fun t ht => by rw [List.mem_singleton.1 ht]; exact exLevel_ok, fun t ht => by rw [List.mem_singleton.1 ht]; exact exLevelInv_ok,
    fun t ht => by rw [List.mem_singleton.1 ht]; exact exLevel_flat, fun t ht => by rw [List.mem_singleton.1 ht]; exact exLevelInv_flat,
    List.pairwise_singleton _ _, List.pairwise_singleton _ _, by simpa using exLevel_resolved⟩

/-- The hypotheses of the laws are met by two triangles that overlap in the unit square. -/
example : (∃ delaunay, TilesHull2 delaunay) ∧ ResolvedObjects2 0 [exLevel] [exLevelInv] ∧
    slice 0 (Package.dode.region [exLevel] ∩ Package.dode.region [exLevelInv]) = Set.Icc 0 1 := by
  refine ⟨exists_tiles2, exLevelLaw_objects, ?_⟩
  rw [← exLevel_common]
  congr 1
  ext x
  simp [Package.region]

/-- A triangle that is not too small is resolved against itself. -/
theorem resolvedTri_self {q : Fin 3 → Fin 3 → ℝ} (h : 1 / 10 ^ 6 ≤ crossProduct (q 1 - q 0) (q 2 - q 0) ⬝ᵥ crossProduct (q 1 - q 0) (q 2 - q 0)) :
    ResolvedTri q q := by
  have ha : triArea q ≠ 0 := by
    unfold triArea
    have : 0 < Real.sqrt (crossProduct (q 1 - q 0) (q 2 - q 0) ⬝ᵥ crossProduct (q 1 - q 0) (q 2 - q 0)) :=
      Real.sqrt_pos.2 (lt_of_lt_of_le (by norm_num) h)
    positivity
  have hc : ∀ i, q i ∈ solid q := fun i => subset_convexHull ℝ _ ⟨i, rfl⟩
  refine ⟨ha, ha, fun i _ => hc i, fun i _ => hc i, fun i j k l hij hkl hne => ?_⟩
  have key : crossProduct (q j - q i) (q l - q k) = 0 ∨ crossProduct (q j - q i) (q l - q k) = crossProduct (q 1 - q 0) (q 2 - q 0) ∨
      crossProduct (q j - q i) (q l - q k) = -crossProduct (q 1 - q 0) (q 2 - q 0) := by
    have pair : ∀ i j : Fin 3, i < j → (i = 0 ∧ j = 1) ∨ (i = 0 ∧ j = 2) ∨ (i = 1 ∧ j = 2) := by decide
    rcases pair i j hij with ⟨rfl, rfl⟩ | ⟨rfl, rfl⟩ | ⟨rfl, rfl⟩ <;> rcases pair k l hkl with ⟨rfl, rfl⟩ | ⟨rfl, rfl⟩ | ⟨rfl, rfl⟩ <;>
      first
      | exact .inl (cross_self _)
      | (refine .inr (.inl ?_); ext m; fin_cases m <;> simp [cross_apply] <;> ring1)
      | (refine .inr (.inr ?_); ext m; fin_cases m <;> simp [cross_apply] <;> ring1)
  rcases key with e | e | e
  · exact absurd e hne
  · rwa [e]
  · rwa [e, neg_dotProduct_neg]

theorem exWedge_objects : ResolvedObjects2 0 [exWedge] [exWedge] :=
  ⟨by simp, exWedge_ok, exWedge_ok, exWedge_level, exWedge_level, List.pairwise_singleton _ _, List.pairwise_singleton _ _,
    fun s hs t ht => by
      rw [List.mem_singleton] at hs ht
      subst hs ht
      refine resolvedTri_self ?_
      rw [perps_exWedge]
      simp [cross_apply, dotProduct, Fin.sum_univ_three]
      norm_num⟩

/-- The hypotheses of `C107_units_planar` are met by a wedge of the regular dodecagon, taken twice. -/
example : ResolvedObjects2 0 [exWedge] [exWedge] ∧ InUnit .dode ([exWedge] ++ [exWedge]) (fun _ => ⟨0, 0, 1⟩) := by
  have hc : Vec.Ok (fun _ => ⟨0, 0, 1⟩ : Vec 6) := by decide
  refine ⟨exWedge_objects, _, symops_one .dode, fun s hs i => ⟨_, symopVec_ok _ (exWedge_ok s (by simpa using hs) i) hc, ?_⟩⟩
  rw [perp_symV' (symops_one .dode), rot_one, one_mulVec, add_sub_cancel_right]
  exact exWedge_region _ ⟨s, by simpa using hs, subset_convexHull ℝ _ ⟨i, rfl⟩⟩

end PyQC
