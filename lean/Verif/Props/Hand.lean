import Verif.Props.Measure
import Verif.Props.Hull
import Verif.Props.Podatm
/-!
# C78: simplification by hand

The user lists the vertices of an object (step 1), chooses sets of vertex numbers, and gets the convex hulls of these sets
(step 2).
-/
namespace PyQC
open MeasureTheory

theorem fillList_error_head {α β : Type} {f : α → Py β} {x : α} {l : List α} {e : PyErr} (h : f x = .error e) :
    fillList f (x :: l) = .error e := by
  rw [fillList, h]

theorem handMerge_ok {vs : List (Vec 6)} {l : List Int} (h0 : l ≠ []) (hl : ∀ j ∈ l, 1 ≤ j ∧ j ≤ vs.length) :
    handMerge vs l = .ok (numbered vs l) := by
  unfold handMerge
  match l, h0 with
  | a :: as, _ =>
    rw [pyItem_ok (x := a) (le_refl 0) rfl, bind_ok']
    have : ∀ l : List Int, (∀ j ∈ l, 1 ≤ j ∧ j ≤ vs.length) →
        fillList (fun i => pyItem vs (i - 1)) l = .ok (numbered vs l) := by
      intro l
      induction l with
      | nil => intro _; rfl
      | cons j l ih =>
        intro h
        have hj := h j (by simp)
        have e : vs[(j - 1).toNat]? = some (vs[(j - 1).toNat]'(by omega)) := List.getElem?_eq_getElem (by omega)
        have ih' := ih fun i hi => h i (by simp [hi])
        unfold numbered at ih' ⊢
        rw [fillList, pyItem_ok (by omega) e, ih', List.filterMap_cons, e]
    exact this _ hl

theorem numbered_ok {vs : List (Vec 6)} (hv : ∀ v ∈ vs, Vec.Ok v) (l : List Int) : ∀ v ∈ numbered vs l, Vec.Ok v := by
  intro v h
  obtain ⟨j, -, hj⟩ := List.mem_filterMap.mp h
  exact hv v (List.mem_of_getElem? hj)

/-- The convex hull of the numbered vertices in perpendicular space. -/
noncomputable def hullOf (vs : List (Vec 6)) (l : List Int) : Set (Fin 3 → ℝ) :=
  convexHull ℝ {x | ∃ v ∈ numbered vs l, Package.ico.perp v = x}

/-- One list of numbers. -/
theorem handOne {delaunay : Ico.Delaunay} (hD : TilesHull delaunay) {vs : List (Vec 6)} (hv : ∀ v ∈ vs, Vec.Ok v)
    {l : List Int} (hl : ∀ j ∈ l, 1 ≤ j ∧ j ≤ vs.length) (hn : ¬ InPlane ((numbered vs l).map Package.ico.perp)) :
    ∃ o w, handMerge vs l = .ok (numbered vs l) ∧ Ico.tetrahedralizationPoints delaunay (numbered vs l) = .ok (some o) ∧
      Obj.Ok o ∧ Ico.objVolume6d (.d4 o) = .ok (some w) ∧ Package.ico.region o = hullOf vs l ∧
      ENNReal.ofReal (w.val tau) = volume (hullOf vs l) := by
  have h0 : l ≠ [] := by
    rintro rfl
    exact hn (inPlane_few (by simp [numbered]))
  obtain ⟨o, w, h1, h2, h3, h4⟩ := C62_hull delaunay hD (numbered vs l) (numbered_ok hv l) hn
  have hok : Obj.Ok o := fun t ht i =>
    numbered_ok hv l _ (((C50_sound delaunay _ (numbered_ok hv l) o h1).2 t ht).1 i)
  exact ⟨o, w, handMerge_ok h0 hl, h1, hok, h2, h3, h4⟩

theorem handLoop_ok {delaunay : Ico.Delaunay} (hD : TilesHull delaunay) {vs : List (Vec 6)} (hv : ∀ v ∈ vs, Vec.Ok v)
    (ls : List (List Int)) (hl : ∀ l ∈ ls, ∀ j ∈ l, 1 ≤ j ∧ j ≤ vs.length)
    (hn : ∀ l ∈ ls, ¬ InPlane ((numbered vs l).map Package.ico.perp)) (a : Obj 4) (w : Num3) (ha : Obj.Ok a)
    (hw : Ico.objVolume6d (.d4 a) = .ok (some w)) :
    ∃ o w', Ico.handLoop delaunay vs (some a) ls = .ok (some o) ∧ Obj.Ok o ∧ Ico.objVolume6d (.d4 o) = .ok (some w') ∧
      Package.ico.region o = Package.ico.region a ∪ {x | ∃ l ∈ ls, x ∈ hullOf vs l} ∧
      ENNReal.ofReal (w'.val tau) = ENNReal.ofReal (w.val tau) + (ls.map fun l => volume (hullOf vs l)).sum := by
  induction ls generalizing a w with
  | nil => exact ⟨a, w, rfl, ha, hw, by simp, by simp⟩
  | cons l ls ih =>
    obtain ⟨b, wb, h1, h2, h3, h4, h5, h6⟩ := handOne hD hv (hl l (by simp)) (hn l (by simp))
    obtain ⟨w1, w2, w', e1, e2, e3, -, e5⟩ := C17_append a b ha h3
    rw [hw] at e1
    rw [h4] at e2
    cases e1
    cases e2
    have hab : Obj.Ok (a ++ b) := fun t ht => (List.mem_append.mp ht).elim (ha t) (h3 t)
    obtain ⟨o, w'', g1, g2, g3, g4, g5⟩ := ih (fun l' h => hl l' (by simp [h])) (fun l' h => hn l' (by simp [h]))
      (a ++ b) w' hab e3
    refine ⟨o, w'', ?_, g2, g3, ?_, ?_⟩
    · rw [Ico.handLoop, h1, bind_ok', h2, bind_ok']
      exact g1
    · rw [g4, region_append, h5]
      ext x
      simp [or_assoc]
    · rw [g5, e5, ENNReal.ofReal_add (volume_nonneg ha hw) (volume_nonneg h3 h4), h6, List.map_cons, List.sum_cons, add_assoc]

/-- C78: for a library that tiles convex hulls, vertices with non-zero denominators, and at least one list of numbers,
each in the range 1 to the number of vertices and naming points that do not lie in one plane, `simple_hand_step2` of
ico2 returns an object: it covers exactly the convex hulls of the numbered vertices, and its exact volume is the sum of
the volumes of these hulls (so it is the volume covered when the hulls chosen by hand do not overlap). -/
theorem C78_hulls (delaunay : Ico.Delaunay) (hD : TilesHull delaunay) (vs : List (Vec 6)) (hv : ∀ v ∈ vs, Vec.Ok v)
    (ls : List (List Int)) (h0 : ls ≠ []) (hl : ∀ l ∈ ls, ∀ j ∈ l, 1 ≤ j ∧ j ≤ vs.length)
    (hn : ∀ l ∈ ls, ¬ InPlane ((numbered vs l).map Package.ico.perp)) :
    ∃ o w, Ico.simpleHandStep2 delaunay vs ls = .ok (some o) ∧ Ico.objVolume6d (.d4 o) = .ok (some w) ∧
      Package.ico.region o = {x | ∃ l ∈ ls, x ∈ convexHull ℝ {x | ∃ v ∈ numbered vs l, Package.ico.perp v = x}} ∧
      ENNReal.ofReal (w.val tau) =
        (ls.map fun l => volume (convexHull ℝ {x | ∃ v ∈ numbered vs l, Package.ico.perp v = x})).sum := by
  match ls, h0 with
  | l :: ls, _ =>
    obtain ⟨b, wb, h1, h2, h3, h4, h5, h6⟩ := handOne hD hv (hl l (by simp)) (hn l (by simp))
    obtain ⟨o, w, g1, -, g3, g4, g5⟩ := handLoop_ok hD hv ls (fun l' h => hl l' (by simp [h]))
      (fun l' h => hn l' (by simp [h])) b wb h3 h4
    refine ⟨o, w, ?_, g3, ?_, ?_⟩
    · rw [Ico.simpleHandStep2]
      simp only [h1, bind_ok', h2]
      exact g1
    · rw [g4, h5]
      ext x
      simp [hullOf]
    · rw [g5, h6, List.map_cons, List.sum_cons]
      rfl

/-- C78: when the hulls chosen by hand do not overlap, the exact volume of the result is the volume of the region it
covers. -/
theorem C78_no_overlap (delaunay : Ico.Delaunay) (hD : TilesHull delaunay) (vs : List (Vec 6)) (hv : ∀ v ∈ vs, Vec.Ok v)
    (ls : List (List Int)) (h0 : ls ≠ []) (hl : ∀ l ∈ ls, ∀ j ∈ l, 1 ≤ j ∧ j ≤ vs.length)
    (hn : ∀ l ∈ ls, ¬ InPlane ((numbered vs l).map Package.ico.perp))
    (apart : ls.Pairwise fun a b => volume
      (convexHull ℝ {x | ∃ v ∈ numbered vs a, Package.ico.perp v = x} ∩
        convexHull ℝ {x | ∃ v ∈ numbered vs b, Package.ico.perp v = x}) = 0) :
    ∃ o w, Ico.simpleHandStep2 delaunay vs ls = .ok (some o) ∧ Ico.objVolume6d (.d4 o) = .ok (some w) ∧
      ENNReal.ofReal (w.val tau) = volume (Package.ico.region o) := by
  obtain ⟨o, w, h1, h2, h3, h4⟩ := C78_hulls delaunay hD vs hv ls h0 hl hn
  refine ⟨o, w, h1, h2, ?_⟩
  rw [h4, h3]
  have meas : ∀ l : List Int, MeasurableSet (hullOf vs l) := fun l => by
    have : {x | ∃ v ∈ numbered vs l, Package.ico.perp v = x}.Finite := by
      refine ((numbered vs l).map Package.ico.perp).finite_toSet.subset ?_
      rintro x ⟨v, hv, rfl⟩
      exact List.mem_map_of_mem hv
    exact (this.isCompact_convexHull ℝ).isClosed.measurableSet
  clear h0 hl hn h1 h3 h4
  change (ls.map fun l => volume (hullOf vs l)).sum = volume {x | ∃ l ∈ ls, x ∈ hullOf vs l}
  change ls.Pairwise fun a b => volume (hullOf vs a ∩ hullOf vs b) = 0 at apart
  induction ls with
  | nil => simp
  | cons l ls ih =>
    rw [List.pairwise_cons] at apart
    have e : {x | ∃ l' ∈ l :: ls, x ∈ hullOf vs l'} = hullOf vs l ∪ {x | ∃ l' ∈ ls, x ∈ hullOf vs l'} := by
      ext x; simp
    rw [List.map_cons, List.sum_cons, ih apart.2, e, measure_union₀']
    · exact (meas l).nullMeasurableSet
    · have e' : hullOf vs l ∩ {x | ∃ l' ∈ ls, x ∈ hullOf vs l'} = ⋃ l' ∈ {l' | l' ∈ ls}, hullOf vs l ∩ hullOf vs l' := by
        ext x; simp
      change volume (hullOf vs l ∩ _) = 0
      rw [e', measure_biUnion_null_iff (Set.Finite.countable (List.finite_toSet ls))]
      exact fun l' h => apart.1 l' h

/-- C78: a number outside `-(n-1)..n` raises IndexError. -/
theorem C78_out_of_range (delaunay : Ico.Delaunay) (vs : List (Vec 6)) (j : Int) (l : List Int) (ls : List (List Int))
    (hj : (vs.length : Int) < j ∨ j - 1 < -(vs.length : Int)) :
    Ico.simpleHandStep2 delaunay vs ((j :: l) :: ls) = .error .indexError := by
  have e : pyItem vs (j - 1) = .error .indexError := by
    unfold pyItem
    rcases hj with hj | hj
    · have h1 : ¬ j - 1 < 0 := by omega
      rw [if_neg h1, if_neg h1, List.getElem?_eq_none (by omega)]
    · have h1 : j - 1 < 0 := by omega
      have h2 : j - 1 + (vs.length : Int) < 0 := by omega
      simp only [if_pos h1, if_pos h2]
  have : handMerge vs (j :: l) = .error .indexError := by
    unfold handMerge
    rw [pyItem_ok (x := j) (le_refl 0) rfl, bind_ok', fillList_error_head (f := fun i => pyItem vs (i - 1)) e]
  rw [Ico.simpleHandStep2]
  simp only [this, bind_error']

/-- C78 is not checked for small numbers: the number 0 silently means the last vertex. -/
theorem C78_zero_is_last (delaunay : Ico.Delaunay) (vs : List (Vec 6)) (h : vs ≠ []) (l : List Int) (ls : List (List Int)) :
    Ico.simpleHandStep2 delaunay vs ((0 :: l) :: ls) = Ico.simpleHandStep2 delaunay vs ((vs.length :: l) :: ls) := by
  have hpos : 0 < vs.length := List.length_pos_of_ne_nil h
  have e : pyItem vs (0 - 1) = pyItem vs ((vs.length : Int) - 1) := by
    unfold pyItem
    have h1 : ¬ (vs.length : Int) - 1 < 0 := by omega
    simp only [if_pos (show (0 : Int) - 1 < 0 by decide), if_neg h1, show (0 : Int) - 1 + vs.length = vs.length - 1 by omega]
  have : handMerge vs (0 :: l) = handMerge vs ((vs.length : Int) :: l) := by
    unfold handMerge
    rw [pyItem_ok (x := 0) (le_refl 0) rfl, bind_ok', pyItem_ok (x := (vs.length : Int)) (le_refl 0) rfl, bind_ok',
      fillList, fillList, e]
  rw [Ico.simpleHandStep2, Ico.simpleHandStep2]
  simp only [this]

/-- C78: without lists, UnboundLocalError. -/
theorem C78_empty (delaunay : Ico.Delaunay) (vs : List (Vec 6)) :
    Ico.simpleHandStep2 delaunay vs [] = .error .unboundLocalError ∧
      Dode.simpleHandStep2 vs [] = .error .unboundLocalError := ⟨rfl, rfl⟩

/-- C78 fails for dode2: with valid lists `simple_hand_step2` always raises AttributeError. -/
theorem C78_fails_dode (vs : List (Vec 6)) (ls : List (List Int)) (h0 : ls ≠ [])
    (hl : ∀ l ∈ ls, l ≠ [] ∧ ∀ j ∈ l, 1 ≤ j ∧ j ≤ vs.length) :
    Dode.simpleHandStep2 vs ls = .error .attributeError := by
  match ls, h0 with
  | l :: ls, _ =>
    rw [Dode.simpleHandStep2]
    simp only [handMerge_ok (hl l (by simp)).1 (hl l (by simp)).2, bind_ok']

/-- C78 fails for the first step: `simple_hand_step1` raises TypeError for every object with at least one piece. -/
theorem C78_fails_step1 (p : Package) {m : Nat} (o : Obj (m + 1)) (h0 : o ≠ []) (ho : Obj.Ok o) :
    simpleHandStep1 p o = .error .typeError := by
  obtain ⟨r, hr, hsub, -, hall⟩ := C24_one_per_point (p := p) (flattenObj o) (flattenObj_ok ho)
  have h1 : ∃ v, v ∈ flattenObj o := by
    obtain ⟨s, hs⟩ := List.exists_mem_of_ne_nil _ h0
    exact ⟨s 0, mem_flattenObj'.mpr ⟨s, hs, 0, rfl⟩⟩
  obtain ⟨v, hv⟩ := h1
  obtain ⟨y, ⟨hy, -⟩, -⟩ := hall v hv
  unfold simpleHandStep1
  rw [hr, bind_ok']
  match r, hy with
  | x :: r, _ =>
    rw [fillList_error_head (e := .typeError), bind_error']
    rw [p.projection3_ok (flattenObj_ok ho x (hsub x (by simp))), bind_ok']

/-! ## Cases that meet the hypotheses -/

theorem numbered_five (a b c d e : Vec 6) : numbered [a, b, c, d, e] [1, 2, 4, 5] = [a, b, d, e] ∧
    numbered [a, b, c, d, e] [2, 3, 4, 5] = [b, c, d, e] := ⟨rfl, rfl⟩

theorem points_four (s : Simplex 4) : {x | ∃ v ∈ [s 0, s 1, s 2, s 3], Package.ico.perp v = x} =
    Set.range (Package.ico.perps s) := by
  ext x
  constructor
  · rintro ⟨v, hv, rfl⟩
    simp only [List.mem_cons, List.not_mem_nil, or_false] at hv
    rcases hv with rfl | rfl | rfl | rfl <;> exact ⟨_, rfl⟩
  · rintro ⟨k, rfl⟩
    refine ⟨s k, ?_, rfl⟩
    fin_cases k <;> simp

/-- The five vertices of the halves of a tetrahedron, and the two halves chosen by hand. -/
example : ∃ delaunay : Ico.Delaunay, TilesHull delaunay ∧ ∃ o w,
    Ico.simpleHandStep2 delaunay [cart 0 0 0 1, cart 1 0 0 2, cart 1 0 0 1, cart 0 1 0 1, cart 0 0 1 1]
      [[1, 2, 4, 5], [2, 3, 4, 5]] = .ok (some o) ∧ Ico.objVolume6d (.d4 o) = .ok (some w) ∧
      ENNReal.ofReal (w.val tau) = volume (Package.ico.region o) := by
  obtain ⟨D, hD⟩ := exists_tiles
  have eA : [cart 0 0 0 1, cart 1 0 0 2, cart 0 1 0 1, cart 0 0 1 1] = [exHalfA 0, exHalfA 1, exHalfA 2, exHalfA 3] := by
    simp [exHalfA]
  have eB : [cart 1 0 0 2, cart 1 0 0 1, cart 0 1 0 1, cart 0 0 1 1] = [exHalfB 0, exHalfB 1, exHalfB 2, exHalfB 3] := by
    simp [exHalfB]
  refine ⟨D, hD, C78_no_overlap D hD _ ?_ _ (by simp) (by decide) ?_ ?_⟩
  · intro v hv
    simp only [List.mem_cons, List.not_mem_nil, or_false] at hv
    rcases hv with rfl | rfl | rfl | rfl | rfl <;> exact cart_ok (by decide)
  · intro l hl
    simp only [List.mem_cons, List.not_mem_nil, or_false] at hl
    rintro ⟨n, hn, d, h⟩
    apply hn
    rcases hl with rfl | rfl
    · rw [(numbered_five _ _ _ _ _).1] at h
      simp only [List.map_cons, List.map_nil, perp_cart, List.mem_cons, List.not_mem_nil, or_false, forall_eq_or_imp,
        forall_eq, dotProduct, Fin.sum_univ_three] at h
      simp at h
      funext i
      fin_cases i <;> simp <;> linarith [h.1, h.2.1, h.2.2.1, h.2.2.2]
    · rw [(numbered_five _ _ _ _ _).2] at h
      simp only [List.map_cons, List.map_nil, perp_cart, List.mem_cons, List.not_mem_nil, or_false, forall_eq_or_imp,
        forall_eq, dotProduct, Fin.sum_univ_three] at h
      simp at h
      funext i
      fin_cases i <;> simp <;> linarith [h.1, h.2.1, h.2.2.1, h.2.2.2]
  · refine List.pairwise_pair.2 ?_
    rw [(numbered_five _ _ _ _ _).1, (numbered_five _ _ _ _ _).2, eA, eB, points_four, points_four]
    have h := exHalf_noOverlap
    unfold Package.NoOverlap at h
    rw [List.pairwise_pair] at h
    exact (no_common_iff _ _).mp h

/-- One non-empty object. -/
example : simpleHandStep1 .ico [exCorner] = .error .typeError :=
  C78_fails_step1 .ico _ (by simp) fun t ht => by rw [List.mem_singleton.mp ht]; exact exCorner_ok

end PyQC
