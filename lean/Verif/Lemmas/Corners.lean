import Verif.Lemmas.Extreme
/-!
# The candidate points in both tetrahedra are corners of the common part
-/
namespace PyQC
open Matrix

variable {S T : Fin 4 → Fin 3 → ℝ}

/-- Between two points of a tetrahedron, the direction is parallel to every face through an inner point of the segment. -/
theorem segment_dir {q : Fin 4 → Fin 3 → ℝ} (h : det4 q ≠ 0) {x y z : Fin 3 → ℝ} (hy : y ∈ solid q) (hz : z ∈ solid q)
    (hx : x ∈ openSegment ℝ y z) {w : Fin 4 → ℝ} (hw : IsBary q w x) (i : Fin 4) (hi : w i = 0) :
    dirCoord h (y - z) i = 0 := by
  obtain ⟨wy, hwy, hy0⟩ := mem_solid_iff.1 hy
  obtain ⟨wz, hwz, hz0⟩ := mem_solid_iff.1 hz
  obtain ⟨a, b, ha, hb, hab, rfl⟩ := hx
  have hb' : IsBary q (a • wy + b • wz) (a • y + b • z) := by
    constructor
    · simp only [Pi.add_apply, Pi.smul_apply, smul_eq_mul, Finset.sum_add_distrib, ← Finset.mul_sum, hwy.1, hwz.1]
      linarith
    · simp only [Pi.add_apply, Pi.smul_apply, smul_eq_mul, add_smul, Finset.sum_add_distrib, mul_smul, ← Finset.smul_sum]
      rw [← hwy.2, ← hwz.2]
  have e := congrFun (bary_unique h hw hb') i
  simp only [Pi.add_apply, Pi.smul_apply, smul_eq_mul, hi] at e
  have h1 := mul_nonneg ha.le (hy0 i)
  have h2 := mul_nonneg hb.le (hz0 i)
  have y0 : wy i = 0 := (mul_eq_zero.1 (by linarith : a * wy i = 0)).resolve_left ha.ne'
  have z0 : wz i = 0 := (mul_eq_zero.1 (by linarith : b * wz i = 0)).resolve_left hb.ne'
  have hd : dirCoord h (y - z) = wy - wz := by
    refine dirCoord_unique h ?_ ?_
    · simp only [Pi.sub_apply, Finset.sum_sub_distrib, hwy.1, hwz.1, sub_self]
    · simp only [Pi.sub_apply, sub_smul, Finset.sum_sub_distrib]
      rw [← hwy.2, ← hwz.2]
  rw [hd, Pi.sub_apply, y0, z0, sub_zero]

theorem isBary_corner (q : Fin 4 → Fin 3 → ℝ) (i : Fin 4) : IsBary q (Pi.single i 1) (q i) := by
  constructor
  · simp
  · simp [Pi.single_apply]

theorem isBary_edge (q : Fin 4 → Fin 3 → ℝ) (i j : Fin 4) (t : ℝ) :
    IsBary q (Pi.single i (1 - t) + Pi.single j t) (q i + t • (q j - q i)) := by
  constructor
  · simp [Finset.sum_add_distrib]
  · simp only [Pi.add_apply, add_smul, Finset.sum_add_distrib]
    simp only [Pi.single_apply, ite_smul, zero_smul, Finset.sum_ite_eq', Finset.mem_univ, if_true]
    module

theorem isBary_face (q : Fin 4 → Fin 3 → ℝ) (k l m : Fin 4) (u v : ℝ) :
    IsBary q (Pi.single k (1 - u - v) + Pi.single l u + Pi.single m v) (q k + u • (q l - q k) + v • (q m - q k)) := by
  constructor
  · simp [Finset.sum_add_distrib]; ring
  · simp only [Pi.add_apply, add_smul, Finset.sum_add_distrib]
    simp only [Pi.single_apply, ite_smul, zero_smul, Finset.sum_ite_eq', Finset.mem_univ, if_true]
    module

/-- A direction with coordinates at two corners only is parallel to the edge. -/
theorem dir_edge {q : Fin 4 → Fin 3 → ℝ} (h : det4 q ≠ 0) {d : Fin 3 → ℝ} {i j : Fin 4} (hij : i ≠ j)
    (h0 : ∀ a, a ≠ i → a ≠ j → dirCoord h d a = 0) : ∃ c : ℝ, d = c • (q j - q i) := by
  obtain ⟨e1, e2⟩ := dirCoord_spec h d
  have hc : dirCoord h d = Pi.single i (dirCoord h d i) + Pi.single j (dirCoord h d j) := by
    funext a
    by_cases hi : a = i
    · subst hi; simp [Pi.single_apply, hij]
    · by_cases hj : a = j
      · subst hj; simp [Pi.single_apply, hi]
      · rw [h0 a hi hj]; simp [Pi.single_apply, hi, hj]
  rw [hc] at e1 e2
  simp only [Pi.add_apply, add_smul, Finset.sum_add_distrib] at e1 e2
  simp only [Pi.single_apply, ite_smul, zero_smul, Finset.sum_ite_eq', Finset.mem_univ, if_true] at e1 e2
  refine ⟨dirCoord h d j, ?_⟩
  rw [show dirCoord h d i = - dirCoord h d j by linarith] at e2
  refine e2.symm.trans ?_
  module

/-- A direction with coordinates at three corners only is parallel to the face. -/
theorem dir_face {q : Fin 4 → Fin 3 → ℝ} (h : det4 q ≠ 0) {d : Fin 3 → ℝ} {k l m : Fin 4} (hkl : k ≠ l) (hkm : k ≠ m)
    (hlm : l ≠ m) (h0 : ∀ a, a ≠ k → a ≠ l → a ≠ m → dirCoord h d a = 0) :
    ∃ u v : ℝ, d = u • (q l - q k) + v • (q m - q k) := by
  obtain ⟨e1, e2⟩ := dirCoord_spec h d
  have hc : dirCoord h d = Pi.single k (dirCoord h d k) + Pi.single l (dirCoord h d l) + Pi.single m (dirCoord h d m) := by
    funext a
    by_cases hk : a = k
    · subst hk; simp [Pi.single_apply, hkl, hkm]
    · by_cases hl : a = l
      · subst hl; simp [Pi.single_apply, hk, hlm]
      · by_cases hm : a = m
        · subst hm; simp [Pi.single_apply, hk, hl]
        · rw [h0 a hk hl hm]; simp [Pi.single_apply, hk, hl, hm]
  rw [hc] at e1 e2
  simp only [Pi.add_apply, add_smul, Finset.sum_add_distrib] at e1 e2
  simp only [Pi.single_apply, ite_smul, zero_smul, Finset.sum_ite_eq', Finset.mem_univ, if_true] at e1 e2
  refine ⟨dirCoord h d l, dirCoord h d m, ?_⟩
  rw [show dirCoord h d k = - dirCoord h d l - dirCoord h d m by linarith] at e2
  refine e2.symm.trans ?_
  module

theorem edgeFace_extreme (hS : det4 S ≠ 0) (hT : det4 T ≠ 0) {x : Fin 3 → ℝ} (hx : EdgeFace S T x)
    (hm : x ∈ solid S ∩ solid T) : x ∈ (solid S ∩ solid T).extremePoints ℝ := by
  obtain ⟨i, j, k, l, m, hij, hkl, hlm, hd, t, u, v, hme, e, -⟩ := hx
  rw [mem_extremePoints_iff_left]
  refine ⟨hm, fun y hy z hz hs => ?_⟩
  obtain ⟨c, hc⟩ := dir_edge hS (d := y - z) hij.ne (fun a ai aj =>
    segment_dir hS hy.1 hz.1 hs (e ▸ isBary_edge S i j t) a (by simp [Pi.single_apply, ai, aj]))
  have e' : x = T k + u • (T l - T k) + v • (T m - T k) := e.trans hme
  obtain ⟨p, q, hpq⟩ := dir_face hT (d := y - z) hkl.ne (hkl.trans hlm).ne hlm.ne (fun a ak al am =>
    segment_dir hT hy.2 hz.2 hs (e' ▸ isBary_face T k l m u v) a (by simp [Pi.single_apply, ak, al, am]))
  have h0 : c * Matrix.det (Matrix.of ![S j - S i, T m - T k, T l - T k]) = 0 := by
    have h3 : ∀ a, c * (S j a - S i a) = p * (T l a - T k a) + q * (T m a - T k a) := by
      intro a
      have := congrFun (hc.symm.trans hpq) a
      simpa using this
    rw [Matrix.det_fin_three]
    simp only [Matrix.of_apply, Matrix.cons_val_zero, Matrix.cons_val_one, Matrix.cons_val, Pi.sub_apply]
    linear_combination ((T m 1 - T k 1) * (T l 2 - T k 2) - (T m 2 - T k 2) * (T l 1 - T k 1)) * h3 0 -
      ((T m 0 - T k 0) * (T l 2 - T k 2) - (T m 2 - T k 2) * (T l 0 - T k 0)) * h3 1 +
      ((T m 0 - T k 0) * (T l 1 - T k 1) - (T m 1 - T k 1) * (T l 0 - T k 0)) * h3 2
  rw [(mul_eq_zero.1 h0).resolve_right hd, zero_smul] at hc
  have hyz := sub_eq_zero.1 hc
  subst hyz
  rw [openSegment_same] at hs
  exact hs.symm

theorem corner_extreme (hS : det4 S ≠ 0) {A : Set (Fin 3 → ℝ)} {i : Fin 4} (hm : S i ∈ solid S ∩ A) :
    S i ∈ (solid S ∩ A).extremePoints ℝ := by
  rw [mem_extremePoints_iff_left]
  refine ⟨hm, fun y hy z hz hs => ?_⟩
  have h0 : ∀ a, a ≠ i → dirCoord hS (y - z) a = 0 := fun a ai =>
    segment_dir hS hy.1 hz.1 hs (isBary_corner S i) a (by simp [Pi.single_apply, ai])
  obtain ⟨e1, e2⟩ := dirCoord_spec hS (y - z)
  have hi : dirCoord hS (y - z) i = 0 := by
    rw [Finset.sum_eq_single i (fun a _ ha => h0 a ha) (by simp)] at e1
    exact e1
  have hyz : y = z := by
    rw [← sub_eq_zero, ← e2]
    refine Finset.sum_eq_zero fun a _ => ?_
    by_cases ha : a = i
    · rw [ha, hi, zero_smul]
    · rw [h0 a ha, zero_smul]
  subst hyz
  rw [openSegment_same] at hs
  exact hs.symm

/-- A candidate that lies in both tetrahedra is a corner of the common part. -/
theorem candidate_extreme (hS : det4 S ≠ 0) (hT : det4 T ≠ 0) {x : Fin 3 → ℝ} (hx : Candidate S T x)
    (hm : x ∈ solid S ∩ solid T) : x ∈ (solid S ∩ solid T).extremePoints ℝ := by
  rcases hx with ⟨i, rfl⟩ | ⟨i, rfl⟩ | h | h
  · exact corner_extreme hS hm
  · rw [Set.inter_comm] at hm ⊢
    exact corner_extreme hT hm
  · exact edgeFace_extreme hS hT h hm
  · rw [Set.inter_comm] at hm ⊢
    exact edgeFace_extreme hT hS h hm

end PyQC
