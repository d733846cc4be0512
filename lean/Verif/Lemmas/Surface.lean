import Verif.Lemmas.Unique
/-!
# Centroid keys, faces of a surface
-/
namespace PyQC

theorem Package.internalNumerical_eq (p : Package) (v : Vec 6) : p.internalNumerical v = p.perp v := by
  funext i
  cases p
  · fin_cases i <;>
      simp [internalNumerical, perp, perpMat, theta, Ico.projection3Numerical, numericalVector, Matrix.mulVec,
        dotProduct, Fin.sum_univ_six, Vec.val, Num3.val] <;> ring
  · fin_cases i <;>
      simp [internalNumerical, perp, perpMat, theta, Dode.projection3Numerical, numericalVector, Matrix.mulVec,
        dotProduct, Fin.sum_univ_six, Vec.val, Num3.val] <;> ring

theorem perp_centroid (p : Package) {m : Nat} {s : Simplex m} (hm : 0 < m) (hs : Simplex.Ok s) :
    ∃ r, centroid p.arith (List.ofFn s) = .ok r ∧ p.perp r = p.centroidPerp s := by
  have h0 : List.ofFn s ≠ [] := by
    intro h
    have := congrArg List.length h
    simp at this
    omega
  refine ⟨_, centroid_ok p.lawful h0 (by
    intro v hv
    obtain ⟨i, rfl⟩ := List.mem_ofFn.mp hv
    exact hs i), ?_⟩
  have hv : Vec.val p.theta (nvec (fun i => (((List.ofFn s).length : K p.theta)⁻¹ •
      ((List.ofFn s).map (kvec p.theta)).sum) i)) = ((m : ℝ)⁻¹) • ∑ i, Vec.val p.theta (s i) := by
    rw [val_nvec, List.map_ofFn, List.sum_ofFn]
    funext i
    simp only [List.length_ofFn, Pi.smul_apply, smul_eq_mul, MulMemClass.coe_mul, Finset.sum_apply]
    congr 1
    rw [AddSubmonoidClass.coe_finsetSum]
    rfl
  show p.perpMat.mulVec (Vec.val p.theta _) = _
  rw [show Vec.val p.theta _ = _ from hv, Matrix.mulVec_smul, Matrix.mulVec_sum]
  rfl

theorem centroidKey_ok (p : Package) {m : Nat} {s : Simplex m} (hm : 0 < m) (hs : Simplex.Ok s) :
    centroidKey p s = .ok (List.ofFn (p.centroidPerp s)) := by
  obtain ⟨r, hr, hp⟩ := perp_centroid p hm hs
  unfold centroidKey
  rw [hr, bind_ok', p.internalNumerical_eq, hp]

theorem uniqueByCentroid_ok (p : Package) {m : Nat} {o : Obj m} (hm : 0 < m) (ho : Obj.Ok o) :
    uniqueByCentroid p o = .ok (uniqueBy (fun s => List.ofFn (p.centroidPerp s)) o) := by
  unfold uniqueByCentroid
  rw [fillList_ok (fun s hs => centroidKey_ok p hm (ho s hs)), bind_ok',
    uniqueBy_zip (fun x => x) (fun s => List.ofFn (p.centroidPerp s))]

theorem ok_triangleEdges {o : Obj 3} (ho : Obj.Ok o) : Obj.Ok (o.flatMap triangleEdges) := by
  intro e he
  obtain ⟨t, ht, he⟩ := List.mem_flatMap.mp he
  have := ho t ht
  simp only [triangleEdges, List.mem_cons, List.not_mem_nil, or_false] at he
  rcases he with rfl | rfl | rfl <;> intro i <;> fin_cases i <;> exact this _

theorem ok_tetrahedronEdges {o : Obj 4} (ho : Obj.Ok o) : Obj.Ok (o.flatMap tetrahedronEdges) := by
  intro e he
  obtain ⟨t, ht, he⟩ := List.mem_flatMap.mp he
  have := ho t ht
  simp only [tetrahedronEdges, List.mem_cons, List.not_mem_nil, or_false] at he
  rcases he with rfl | rfl | rfl | rfl | rfl | rfl <;> intro i <;> fin_cases i <;> exact this _

theorem ok_tetrahedronSurface {o : Obj 4} (ho : Obj.Ok o) : Obj.Ok (o.flatMap tetrahedronSurface) := by
  intro e he
  obtain ⟨t, ht, he⟩ := List.mem_flatMap.mp he
  have := ho t ht
  simp only [tetrahedronSurface, List.mem_cons, List.not_mem_nil, or_false] at he
  rcases he with rfl | rfl | rfl | rfl <;> intro i <;> fin_cases i <;> exact this _

theorem allclose_refl (a : List ℝ) : allclose a a := by
  unfold allclose
  rw [List.forall₂_same]
  intro x _
  simp only [sub_self, abs_zero]
  positivity

/-- The neighbour test on a sorted list keeps only entries whose key is unique in the whole list; it
keeps all of them if close keys are equal. -/
theorem keepIsolated_aux {α : Type} (pre L : List (List ℝ × α))
    (hs : (pre ++ L).Pairwise fun x y => x.1 ≤ y.1) :
    (keepIsolated (pre.getLast?.map Prod.fst) L).Sublist
      ((L.filter fun e => decide ((pre ++ L).countP (fun f => decide (f.1 = e.1)) = 1)).map Prod.snd) ∧
    ((∀ x ∈ pre ++ L, ∀ y ∈ pre ++ L, allclose x.1 y.1 → x.1 = y.1) →
      keepIsolated (pre.getLast?.map Prod.fst) L =
      (L.filter fun e => decide ((pre ++ L).countP (fun f => decide (f.1 = e.1)) = 1)).map Prod.snd) := by
  induction L generalizing pre with
  | nil => simp [keepIsolated]
  | cons e L ih =>
    have eapp : pre ++ e :: L = (pre ++ [e]) ++ L := by simp
    have hlast : ((pre ++ [e]).getLast?.map Prod.fst) = some e.1 := by simp
    have ih' := ih (pre ++ [e]) (by rw [← eapp]; exact hs)
    rw [hlast, ← eapp] at ih'
    obtain ⟨ih1, ih2⟩ := ih'
    rw [List.filter_cons]
    obtain ⟨k, x⟩ := e
    unfold keepIsolated
    by_cases hc : (∃ q, pre.getLast?.map Prod.fst = some q ∧ allclose k q) ∨
        (∃ y, L.head? = some y ∧ allclose k y.1)
    · rw [if_pos hc]
      constructor
      · split
        · exact (ih1.trans (List.sublist_cons_self _ _))
        · exact ih1
      · intro hsep
        rw [if_neg]
        · exact ih2 hsep
        · -- some neighbour has the same key
          simp only [decide_eq_true_iff]
          intro hcount
          rcases hc with ⟨q, hq, hcl⟩ | ⟨y, hy, hcl⟩
          · obtain ⟨z, hz, rfl⟩ := Option.map_eq_some_iff.mp hq
            have hzm : z ∈ pre := List.mem_of_getLast? hz
            have e1 := hsep (k, x) (by simp) z (by simp [hzm]) hcl
            have h1 : 0 < pre.countP (fun f => decide (f.1 = k)) :=
              List.countP_pos_iff.mpr ⟨z, hzm, by simpa using e1.symm⟩
            rw [List.countP_append, List.countP_cons, if_pos (by simp)] at hcount
            omega
          · have hym : y ∈ L := List.mem_of_head? hy
            have e1 := hsep (k, x) (by simp) y (by simp [hym]) hcl
            have h1 : 0 < L.countP (fun f => decide (f.1 = k)) :=
              List.countP_pos_iff.mpr ⟨y, hym, by simpa using e1.symm⟩
            rw [List.countP_append, List.countP_cons, if_pos (by simp)] at hcount
            omega
    · rw [if_neg hc]
      push Not at hc
      obtain ⟨hc1, hc2⟩ := hc
      have hp : pre.countP (fun f => decide (f.1 = k)) = 0 := by
        rw [List.countP_eq_zero]
        intro z hz hzk
        simp only [decide_eq_true_iff] at hzk
        -- then the last entry before has key k
        have hne : pre ≠ [] := List.ne_nil_of_mem hz
        have hl := List.getLast?_eq_some_getLast hne
        have hle1 : z.1 ≤ (pre.getLast hne).1 := by
          have hpp := (List.pairwise_append.mp hs).1
          obtain ⟨a, ha⟩ : ∃ a, pre = a ++ [pre.getLast hne] := ⟨_, (List.dropLast_append_getLast hne).symm⟩
          rw [ha] at hz hpp
          rcases List.mem_append.mp hz with h | h
          · exact (List.pairwise_append.mp hpp).2.2 z h _ (by simp)
          · rw [List.mem_singleton.mp h]
        have hle2 : (pre.getLast hne).1 ≤ k :=
          (List.pairwise_append.mp hs).2.2 _ (List.getLast_mem hne) (k, x) (by simp)
        have : (pre.getLast hne).1 = k := le_antisymm hle2 (hzk ▸ hle1)
        refine hc1 (pre.getLast hne).1 (by rw [hl]; rfl) ?_
        rw [this]; exact allclose_refl k
      have hq : L.countP (fun f => decide (f.1 = k)) = 0 := by
        rw [List.countP_eq_zero]
        intro z hz hzk
        simp only [decide_eq_true_iff] at hzk
        have hss := (List.pairwise_append.mp hs).2.1
        cases L with
        | nil => simp at hz
        | cons y L =>
          have h1 : k ≤ y.1 := (List.pairwise_cons.mp hss).1 y (by simp)
          have h2 : y.1 ≤ z.1 := by
            rcases List.mem_cons.mp hz with rfl | h
            · exact le_rfl
            · exact (List.pairwise_cons.mp (List.pairwise_cons.mp hss).2).1 z h
          refine hc2 y rfl ?_
          rw [le_antisymm (hzk ▸ h2) h1]; exact allclose_refl k
      have hcount : (pre ++ (k, x) :: L).countP (fun f => decide (f.1 = k)) = 1 := by
        rw [List.countP_append, List.countP_cons, hp, hq]
        simp
      rw [if_pos (by simpa using hcount)]
      constructor
      · exact ih1.cons_cons _
      · intro hsep; rw [ih2 hsep]; rfl

theorem zip_map_self {α β : Type} (g : α → β) (l : List α) : (l.map g).zip l = l.map fun x => (g x, x) := by
  induction l with
  | nil => rfl
  | cons x l ih => simp [ih]

end PyQC
