import Verif.Lemmas.PlanarCross
/-!
# The points collected for two level triangles
-/
namespace PyQC
open Matrix

variable {z : ℝ} {s t : Simplex 3}

theorem mem_combE {c : Fin 3 × Fin 3} : c ∈ Dode.combE ↔ c.1 < c.2 := by
  revert c; decide

theorem mem_edgeCrossings {sg : Simplex 2} {v : Vec 6} :
    v ∈ edgeCrossings sg t ↔ ∃ k l : Fin 3, k < l ∧ crossPt2 sg (Dode.segmentOf t (k, l)) = some v := by
  unfold edgeCrossings
  rw [List.mem_flatMap]
  constructor
  · rintro ⟨c, hc, hv⟩
    exact ⟨c.1, c.2, mem_combE.1 hc, Option.mem_toList.1 hv⟩
  · rintro ⟨k, l, h, hv⟩
    exact ⟨(k, l), mem_combE.2 h, Option.mem_toList.2 hv⟩

theorem mem_crossings {v : Vec 6} : v ∈ crossings s t ↔ ∃ i j k l : Fin 3, i < j ∧ k < l ∧
    (crossPt2 (Dode.segmentOf s (i, j)) (Dode.segmentOf t (k, l)) = some v ∨
      crossPt2 (Dode.segmentOf t (i, j)) (Dode.segmentOf s (k, l)) = some v) := by
  unfold crossings
  rw [List.mem_flatMap]
  constructor
  · rintro ⟨c, hc, hv⟩
    rcases List.mem_append.1 hv with h | h
    · obtain ⟨k, l, h1, h2⟩ := mem_edgeCrossings.1 h
      exact ⟨c.1, c.2, k, l, mem_combE.1 hc, h1, .inl h2⟩
    · obtain ⟨k, l, h1, h2⟩ := mem_edgeCrossings.1 h
      exact ⟨c.1, c.2, k, l, mem_combE.1 hc, h1, .inr h2⟩
  · rintro ⟨i, j, k, l, h1, h2, h | h⟩
    · exact ⟨(i, j), mem_combE.2 h1, List.mem_append_left _ (mem_edgeCrossings.2 ⟨k, l, h2, h⟩)⟩
    · exact ⟨(i, j), mem_combE.2 h1, List.mem_append_right _ (mem_edgeCrossings.2 ⟨k, l, h2, h⟩)⟩

theorem close_not_parallel {A B C D : Fin 3 → ℝ} (h : SegmentsClose A B C D) : (B - A) ⨯₃ (D - C) ≠ 0 := by
  intro h0
  have := h.1
  rw [h0] at this
  norm_num at this

/-- A level vector perpendicular to two level directions that are not parallel is zero. -/
theorem level_zero {a d v : Fin 3 → ℝ} (ha : a 2 = 0) (hd : d 2 = 0) (hv : v 2 = 0) (h : a ⨯₃ d ≠ 0) (f1 : v ⬝ᵥ a = 0)
    (f2 : v ⬝ᵥ d = 0) : v = 0 := by
  have hK : a 0 * d 1 - a 1 * d 0 ≠ 0 := by
    intro h0
    apply h
    funext j
    fin_cases j <;> simp [cross_apply, ha, hd, h0]
  rw [vec3_dotProduct, hv, zero_mul, add_zero] at f1 f2
  funext j
  fin_cases j
  · refine (mul_eq_zero.1 (?_ : (a 0 * d 1 - a 1 * d 0) * v 0 = 0)).resolve_left hK
    linear_combination d 1 * f1 - a 1 * f2
  · refine (mul_eq_zero.1 (?_ : (a 0 * d 1 - a 1 * d 0) * v 1 = 0)).resolve_left hK
    linear_combination a 0 * f2 - d 0 * f1
  · exact hv

theorem feet_level {A B C D r : Fin 3 → ℝ} {a b : ℝ} (hA : A 2 = z) (hB : B 2 = z) (hC : C 2 = z) (hD : D 2 = z)
    (h : (B - A) ⨯₃ (D - C) ≠ 0) (hr : r = A + a • (B - A)) (f1 : (C + b • (D - C) - r) ⬝ᵥ (B - A) = 0)
    (f2 : (C + b • (D - C) - r) ⬝ᵥ (D - C) = 0) : C + b • (D - C) = r := by
  refine sub_eq_zero.1 (level_zero ?_ ?_ ?_ h f1 f2)
  · simp [hA, hB]
  · simp [hC, hD]
  · simp [hr, hA, hB, hC, hD]

/-- The crossing found for two level edges is where they cross. -/
theorem crossPt2_exact (hs : Simplex.Ok s) (ht : Simplex.Ok t) (zs : Flat z (Package.dode.perps s)) (zt : Flat z (Package.dode.perps t))
    {i j k l : Fin 3} {v : Vec 6} (hv : crossPt2 (Dode.segmentOf s (i, j)) (Dode.segmentOf t (k, l)) = some v) :
    Vec.Ok v ∧ ∃ a b : ℝ, 0 ≤ a ∧ a ≤ 1 ∧ 0 ≤ b ∧ b ≤ 1 ∧
      Package.dode.perp v = Package.dode.perps s i + a • (Package.dode.perps s j - Package.dode.perps s i) ∧
      Package.dode.perp v = Package.dode.perps t k + b • (Package.dode.perps t l - Package.dode.perps t k) ∧
      (Package.dode.perps s j - Package.dode.perps s i) ⨯₃ (Package.dode.perps t l - Package.dode.perps t k) ≠ 0 := by
  obtain ⟨e1, e2⟩ := crossPt2_eq (segOf_ok hs (i, j)) (segOf_ok ht (k, l))
  rw [hv] at e1 e2
  have hm : Dode.segmentsMeetTau (Dode.segmentOf s (i, j)) (Dode.segmentOf t (k, l)) = true := e2.symm
  obtain ⟨a, b, r, hr, hc, a0, a1, b0, b1, -, hp, f1, f2, f3⟩ := twoSegment_ok (segOf_ok hs (i, j)) (segOf_ok ht (k, l)) hm
  rw [e1] at hr
  cases hr
  have hne := close_not_parallel ((dode_meet_iff _ _).1 hm)
  exact ⟨hc.ok, a, b, a0, a1, b0, b1, hp, (feet_level (z := z) (zs i) (zs j) (zt k) (zt l) hne hp f1 f2).symm, hne⟩

theorem meets_symm (zs : Flat z (Package.dode.perps s)) (zt : Flat z (Package.dode.perps t)) (c e : Fin 3 × Fin 3) :
    Dode.segmentsMeetTau (Dode.segmentOf s c) (Dode.segmentOf t e) = Dode.segmentsMeetTau (Dode.segmentOf t e) (Dode.segmentOf s c) := by
  have key : ∀ {s t : Simplex 3} (_ : Flat z (Package.dode.perps s)) (_ : Flat z (Package.dode.perps t)) (c e : Fin 3 × Fin 3),
      Dode.segmentsMeetTau (Dode.segmentOf s c) (Dode.segmentOf t e) = true →
      Dode.segmentsMeetTau (Dode.segmentOf t e) (Dode.segmentOf s c) = true := by
    intro s t zs zt c e h
    rw [dode_meet_iff] at h ⊢
    obtain ⟨h6, a, b, a0, a1, b0, b1, e'⟩ := (close_planar (z := z) (zs c.1) (zs c.2) (zt e.1) (zt e.2)).1 h
    refine (close_planar (z := z) (zt e.1) (zt e.2) (zs c.1) (zs c.2)).2 ⟨?_, b, a, b0, b1, a0, a1, e'.symm⟩
    rw [← cross_anticomm, neg_dotProduct, dotProduct_neg, neg_neg]
    exact h6
  exact Bool.eq_iff_iff.2 ⟨key zs zt c e, key zt zs e c⟩

/-! ## Counting -/

theorem edgeCrossings_length {sg : Simplex 2} (h1 : Simplex.Ok sg) (ht : Simplex.Ok t) : (edgeCrossings sg t).length =
    (Dode.segmentsMeetTau sg (Dode.segmentOf t (0, 1))).toNat + (Dode.segmentsMeetTau sg (Dode.segmentOf t (0, 2))).toNat +
      (Dode.segmentsMeetTau sg (Dode.segmentOf t (1, 2))).toNat := by
  have key : ∀ j, (crossPt2 sg (Dode.segmentOf t j)).toList.length = (Dode.segmentsMeetTau sg (Dode.segmentOf t j)).toNat := by
    intro j
    rw [← (crossPt2_eq h1 (segOf_ok ht j)).2]
    cases crossPt2 sg (Dode.segmentOf t j) <;> rfl
  unfold edgeCrossings Dode.combE
  simp only [List.flatMap_cons, List.flatMap_nil, List.length_append, List.length_nil, key]
  omega

theorem table_count (a b c d e f g h i : Bool) :
    let row (x y z : Bool) : Nat := if x.toNat + y.toNat + z.toNat = 0 then 0 else 1
    row a b c + row d e f + row g h i + (row a d g + row b e h + row c f i) ≤ 2 →
    2 * (a.toNat + b.toNat + c.toNat + d.toNat + e.toNat + f.toNat + g.toNat + h.toNat + i.toNat) ≤
      row a b c + row d e f + row g h i + (row a d g + row b e h + row c f i) := by
  revert a b c d e f g h i
  decide

/-- A count below three means fewer than three points. -/
theorem count_small (hs : Simplex.Ok s) (ht : Simplex.Ok t) (zs : Flat z (Package.dode.perps s)) (zt : Flat z (Package.dode.perps t))
    (h : commonCount s t ≤ 2) : (commonPts2 s t).length ≤ 2 := by
  unfold commonCount at h
  unfold commonPts2
  rw [List.length_append, List.length_append]
  have hit : ∀ s t : Simplex 3, hitEdges s t =
      (if (edgeCrossings (Dode.segmentOf s (0, 1)) t).length = 0 then 0 else 1) +
      (if (edgeCrossings (Dode.segmentOf s (0, 2)) t).length = 0 then 0 else 1) +
      (if (edgeCrossings (Dode.segmentOf s (1, 2)) t).length = 0 then 0 else 1) := by
    intro s t
    have key : ∀ l : List (Vec 6), (if (!l.isEmpty) = true then 1 else 0 : Nat) = if l.length = 0 then 0 else 1 := by
      intro l; cases l <;> simp
    unfold hitEdges
    rw [combE_count]
    simp only [key]
  have hcr : (crossings s t).length =
      (edgeCrossings (Dode.segmentOf s (0, 1)) t).length + (edgeCrossings (Dode.segmentOf s (0, 2)) t).length +
      (edgeCrossings (Dode.segmentOf s (1, 2)) t).length + ((edgeCrossings (Dode.segmentOf t (0, 1)) s).length +
      (edgeCrossings (Dode.segmentOf t (0, 2)) s).length + (edgeCrossings (Dode.segmentOf t (1, 2)) s).length) := by
    unfold crossings Dode.combE
    simp only [List.flatMap_cons, List.flatMap_nil, List.length_append, List.length_nil]
    omega
  rw [hit, hit] at h
  rw [hcr]
  simp only [edgeCrossings_length (segOf_ok hs _) ht, edgeCrossings_length (segOf_ok ht _) hs] at h ⊢
  simp only [meets_symm zt zs] at h ⊢
  have := table_count (Dode.segmentsMeetTau (Dode.segmentOf s (0, 1)) (Dode.segmentOf t (0, 1)))
    (Dode.segmentsMeetTau (Dode.segmentOf s (0, 1)) (Dode.segmentOf t (0, 2)))
    (Dode.segmentsMeetTau (Dode.segmentOf s (0, 1)) (Dode.segmentOf t (1, 2)))
    (Dode.segmentsMeetTau (Dode.segmentOf s (0, 2)) (Dode.segmentOf t (0, 1)))
    (Dode.segmentsMeetTau (Dode.segmentOf s (0, 2)) (Dode.segmentOf t (0, 2)))
    (Dode.segmentsMeetTau (Dode.segmentOf s (0, 2)) (Dode.segmentOf t (1, 2)))
    (Dode.segmentsMeetTau (Dode.segmentOf s (1, 2)) (Dode.segmentOf t (0, 1)))
    (Dode.segmentsMeetTau (Dode.segmentOf s (1, 2)) (Dode.segmentOf t (0, 2)))
    (Dode.segmentsMeetTau (Dode.segmentOf s (1, 2)) (Dode.segmentOf t (1, 2)))
  simp only at this
  generalize ((List.ofFn s).filter (fun v => Dode.insideTau v t)).length = c1 at *
  generalize ((List.ofFn t).filter (fun v => Dode.insideTau v s)).length = c2 at *
  have h2 := this (by omega)
  omega

theorem hit_iff (hs : Simplex.Ok s) (ht : Simplex.Ok t) : hitEdges s t = 0 ↔
    ∀ i j k l : Fin 3, i < j → k < l → Dode.segmentsMeetTau (Dode.segmentOf s (i, j)) (Dode.segmentOf t (k, l)) = false := by
  unfold hitEdges
  rw [List.length_eq_zero_iff, List.filter_eq_nil_iff]
  constructor
  · intro h i j k l hij hkl
    have := h (i, j) (mem_combE.2 hij)
    rw [Bool.not_eq_true, Bool.not_eq_false', List.isEmpty_iff, edgeCrossings, List.flatMap_eq_nil_iff] at this
    have h3 := this (k, l) (mem_combE.2 hkl)
    have h2 := (crossPt2_eq (segOf_ok hs (i, j)) (segOf_ok ht (k, l))).2
    rw [Option.toList_eq_nil_iff] at h3
    rw [← h2, h3]; rfl
  · intro h c hc
    rw [Bool.not_eq_true, Bool.not_eq_false', List.isEmpty_iff, edgeCrossings, List.flatMap_eq_nil_iff]
    intro e he
    have h2 := (crossPt2_eq (segOf_ok hs c) (segOf_ok ht e)).2
    have h3 := h c.1 c.2 e.1 e.2 (mem_combE.1 hc) (mem_combE.1 he)
    rw [show ((c.1, c.2) : Fin 3 × Fin 3) = c from rfl, show ((e.1, e.2) : Fin 3 × Fin 3) = e from rfl] at h3
    rw [h3] at h2
    rw [Option.toList_eq_nil_iff]
    exact Option.isNone_iff_eq_none.1 (Option.isSome_eq_false_iff.1 h2)

/-! ## The collected points span the common part -/

theorem meets_of_edgeEdge (h : ResolvedTri (Package.dode.perps s) (Package.dode.perps t))
    (zs : Flat z (Package.dode.perps s)) (zt : Flat z (Package.dode.perps t)) {i j k l : Fin 3} (hij : i < j) (hkl : k < l)
    (hc : (Package.dode.perps s j - Package.dode.perps s i) ⨯₃ (Package.dode.perps t l - Package.dode.perps t k) ≠ 0) {a b : ℝ}
    (a0 : 0 ≤ a) (a1 : a ≤ 1) (b0 : 0 ≤ b) (b1 : b ≤ 1)
    (e : Package.dode.perps s i + a • (Package.dode.perps s j - Package.dode.perps s i) =
      Package.dode.perps t k + b • (Package.dode.perps t l - Package.dode.perps t k)) :
    Dode.segmentsMeetTau (Dode.segmentOf s (i, j)) (Dode.segmentOf t (k, l)) = true := by
  rw [dode_meet_iff]
  exact (close_planar (z := z) (zs i) (zs j) (zt k) (zt l)).2 ⟨h.span i j k l hij hkl hc, a, b, a0, a1, b0, b1, e⟩

theorem crossPt2_complete (hs : Simplex.Ok s) (ht : Simplex.Ok t) (h : ResolvedTri (Package.dode.perps s) (Package.dode.perps t))
    (zs : Flat z (Package.dode.perps s)) (zt : Flat z (Package.dode.perps t)) {x : Fin 3 → ℝ}
    (hx : EdgeEdge (Package.dode.perps s) (Package.dode.perps t) x) : ∃ v ∈ crossings s t, Package.dode.perp v = x := by
  obtain ⟨i, j, k, l, hij, hkl, hc, a, b, a0, a1, b0, b1, e1, e2⟩ := hx
  have hm := meets_of_edgeEdge h zs zt hij hkl hc a0 a1 b0 b1 (e1.symm.trans e2)
  have h2 := (crossPt2_eq (segOf_ok hs (i, j)) (segOf_ok ht (k, l))).2
  rw [hm] at h2
  obtain ⟨v, hv⟩ := Option.isSome_iff_exists.1 h2
  obtain ⟨-, a', b', -, -, -, -, e3, e4, -⟩ := crossPt2_exact hs ht zs zt hv
  refine ⟨v, mem_crossings.2 ⟨i, j, k, l, hij, hkl, .inl hv⟩, ?_⟩
  rw [e3, e1, (crossing_unique hc (e3.symm.trans e4) (e1.symm.trans e2)).1]

theorem inside_iff_accepts (zt : Flat z (Package.dode.perps t)) {v : Vec 6} (hv : Package.dode.perp v 2 = z) :
    Dode.insideTau v t = true ↔ AcceptsTri (Package.dode.perps t) (Package.dode.perp v) := by
  rw [dode_insideTau, insideTriangle_flat zt hv]

/-- Every collected point has non-zero denominators and height `z`. -/
theorem commonPts2_ok (hs : Simplex.Ok s) (ht : Simplex.Ok t) (zs : Flat z (Package.dode.perps s)) (zt : Flat z (Package.dode.perps t))
    {v : Vec 6} (hv : v ∈ commonPts2 s t) : Vec.Ok v ∧ Package.dode.perp v 2 = z := by
  have hh : ∀ {A B : Fin 3 → ℝ} (a : ℝ), A 2 = z → B 2 = z → (A + a • (B - A)) 2 = z := by
    intro A B a hA hB; simp [hA, hB]
  unfold commonPts2 at hv
  rw [List.mem_append, List.mem_append, mem_crossings, List.mem_filter, List.mem_filter] at hv
  rcases hv with (⟨i, j, k, l, -, -, hv | hv⟩ | ⟨hv, -⟩) | ⟨hv, -⟩
  · obtain ⟨h1, a, b, -, -, -, -, e, -⟩ := crossPt2_exact hs ht zs zt hv
    exact ⟨h1, by rw [e]; exact hh a (zs i) (zs j)⟩
  · obtain ⟨h1, a, b, -, -, -, -, e, -⟩ := crossPt2_exact ht hs zt zs hv
    exact ⟨h1, by rw [e]; exact hh a (zt i) (zt j)⟩
  · obtain ⟨i, rfl⟩ := (List.mem_ofFn' _ _).mp hv
    exact ⟨hs i, zs i⟩
  · obtain ⟨i, rfl⟩ := (List.mem_ofFn' _ _).mp hv
    exact ⟨ht i, zt i⟩

theorem commonPts2_mem (hs : Simplex.Ok s) (ht : Simplex.Ok t) (zs : Flat z (Package.dode.perps s)) (zt : Flat z (Package.dode.perps t))
    (h : ResolvedTri (Package.dode.perps s) (Package.dode.perps t)) {v : Vec 6} (hv : v ∈ commonPts2 s t) :
    Package.dode.perp v ∈ solid (Package.dode.perps s) ∩ solid (Package.dode.perps t) := by
  unfold commonPts2 at hv
  rw [List.mem_append, List.mem_append, mem_crossings, List.mem_filter, List.mem_filter] at hv
  rcases hv with (⟨i, j, k, l, -, -, hv | hv⟩ | ⟨hv, ha⟩) | ⟨hv, ha⟩
  · obtain ⟨-, a, b, a0, a1, b0, b1, e1, e2, -⟩ := crossPt2_exact hs ht zs zt hv
    exact ⟨e1 ▸ edge_mem a0 a1, e2 ▸ edge_mem b0 b1⟩
  · obtain ⟨-, a, b, a0, a1, b0, b1, e1, e2, -⟩ := crossPt2_exact ht hs zt zs hv
    exact ⟨e2 ▸ edge_mem b0 b1, e1 ▸ edge_mem a0 a1⟩
  · obtain ⟨i, rfl⟩ := (List.mem_ofFn' _ _).mp hv
    exact ⟨subset_convexHull ℝ _ ⟨i, rfl⟩, h.cornerS i ((inside_iff_accepts zt (zs i)).1 ha)⟩
  · obtain ⟨i, rfl⟩ := (List.mem_ofFn' _ _).mp hv
    exact ⟨h.cornerT i ((inside_iff_accepts zs (zt i)).1 ha), subset_convexHull ℝ _ ⟨i, rfl⟩⟩

/-- The collected points span exactly the common part. -/
theorem commonPts2_hull (hs : Simplex.Ok s) (ht : Simplex.Ok t) (zs : Flat z (Package.dode.perps s)) (zt : Flat z (Package.dode.perps t))
    (h : ResolvedTri (Package.dode.perps s) (Package.dode.perps t)) :
    convexHull ℝ {x | ∃ v ∈ commonPts2 s t, Package.dode.perp v = x} =
      solid (Package.dode.perps s) ∩ solid (Package.dode.perps t) := by
  apply Set.Subset.antisymm
  · refine convexHull_min ?_ ((solid_convex _).inter (solid_convex _))
    rintro x ⟨v, hv, rfl⟩
    exact commonPts2_mem hs ht zs zt h hv
  · refine common_subset_hull ?_ ?_
    · exact ((commonPts2 s t).map Package.dode.perp).finite_toSet.subset fun x ⟨v, hv, e⟩ => List.mem_map.2 ⟨v, hv, e⟩
    · intro x hx
      rcases extreme_planar zs zt ((triArea_flat_ne zs).1 h.areaS) ((triArea_flat_ne zt).1 h.areaT) hx with
        ⟨i, rfl, hm⟩ | ⟨i, rfl, hm⟩ | he
      · refine ⟨s i, ?_, rfl⟩
        exact List.mem_append_left _ (List.mem_append_right _ (List.mem_filter.2 ⟨(List.mem_ofFn' _ _).mpr ⟨i, rfl⟩,
          (inside_iff_accepts zt (zs i)).2 (acceptsTri_of_mem h.areaT hm)⟩))
      · refine ⟨t i, ?_, rfl⟩
        exact List.mem_append_right _ (List.mem_filter.2 ⟨(List.mem_ofFn' _ _).mpr ⟨i, rfl⟩,
          (inside_iff_accepts zs (zt i)).2 (acceptsTri_of_mem h.areaS hm)⟩)
      · obtain ⟨v, hv, e⟩ := crossPt2_complete hs ht h zs zt he
        exact ⟨v, List.mem_append_left _ (List.mem_append_left _ hv), e⟩

end PyQC
