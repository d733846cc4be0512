import Verif.Lemmas.PlanarTri
/-!
# The Lebesgue measure of a triangle in the plane

The unit square is the union of two congruent triangles, one for each order of the coordinates; every triangle is an
affine image of one of them.
-/
namespace PyQC
open MeasureTheory

/-- The points of the unit square with increasing coordinates. -/
def orderSet2 : Set (Fin 2 → ℝ) := {x | Monotone x ∧ x ∈ Set.Icc (0 : Fin 2 → ℝ) 1}

theorem orderSet2_measurable : MeasurableSet orderSet2 := by
  have h : orderSet2 = {x | x 0 ≤ x 1} ∩ Set.Icc (0 : Fin 2 → ℝ) 1 := by
    ext x
    simp only [orderSet2, Set.mem_inter_iff, Set.mem_ofPred_eq]
    constructor
    · rintro ⟨h, h'⟩; exact ⟨h (by decide), h'⟩
    · rintro ⟨h1, h'⟩
      refine ⟨?_, h'⟩
      intro i j hij
      fin_cases i <;> fin_cases j <;> first | exact le_refl _ | exact h1 | (exfalso; revert hij; decide)
  rw [h]
  exact (measurableSet_le (measurable_pi_apply 0) (measurable_pi_apply 1)).inter measurableSet_Icc

theorem perm_preserving2 (σ : Equiv.Perm (Fin 2)) :
    MeasurePreserving (fun x : Fin 2 → ℝ => x ∘ σ) volume volume := by
  have h := volume_measurePreserving_piCongrLeft (fun _ : Fin 2 => ℝ) σ.symm
  have he : (MeasurableEquiv.piCongrLeft (fun _ : Fin 2 => ℝ) σ.symm : (Fin 2 → ℝ) → (Fin 2 → ℝ)) =
      fun x => x ∘ σ := by
    funext x i
    have := Equiv.piCongrLeft_apply_apply (fun _ : Fin 2 => ℝ) σ.symm x (σ i)
    rw [Equiv.symm_apply_apply] at this
    exact this
  rw [he] at h
  exact h

theorem diag_null2 (i j : Fin 2) (h : i ≠ j) : volume {x : Fin 2 → ℝ | x i = x j} = 0 := by
  let s : Submodule ℝ (Fin 2 → ℝ) := LinearMap.ker ((LinearMap.proj (R := ℝ) (φ := fun _ : Fin 2 => ℝ) i) - LinearMap.proj (R := ℝ) (φ := fun _ : Fin 2 => ℝ) j)
  have hs : s ≠ ⊤ := by
    intro ht
    have : (Pi.single i 1 : Fin 2 → ℝ) ∈ s := ht ▸ Submodule.mem_top
    simp [s, LinearMap.mem_ker, Pi.single_eq_of_ne h.symm] at this
  have := Measure.addHaar_submodule (volume : Measure (Fin 2 → ℝ)) s hs
  convert this using 2
  ext x
  simp [s, LinearMap.mem_ker, sub_eq_zero]

/-- One half of the unit square. -/
theorem orderSet2_volume : volume orderSet2 = ENNReal.ofReal (1 / 2) := by
  let O : Equiv.Perm (Fin 2) → Set (Fin 2 → ℝ) := fun σ => (fun x : Fin 2 → ℝ => x ∘ σ) ⁻¹' orderSet2
  have hO : ∀ σ, volume (O σ) = volume orderSet2 := fun σ =>
    (perm_preserving2 σ).measure_preimage orderSet2_measurable.nullMeasurableSet
  have hcov : (⋃ σ, O σ) = Set.Icc (0 : Fin 2 → ℝ) 1 := by
    ext x
    simp only [Set.mem_iUnion]
    constructor
    · rintro ⟨σ, _, h0, h1⟩
      refine ⟨fun i => ?_, fun i => ?_⟩
      · have := h0 (σ.symm i); simpa using this
      · have := h1 (σ.symm i); simpa using this
    · rintro ⟨h0, h1⟩
      exact ⟨Tuple.sort x, Tuple.monotone_sort x, fun i => h0 (Tuple.sort x i), fun i => h1 (Tuple.sort x i)⟩
  have hdis : Pairwise (Function.onFun (AEDisjoint volume) O) := by
    intro σ τ hne
    have hsub : O σ ∩ O τ ⊆ ⋃ i : Fin 2, ⋃ j : Fin 2, ⋃ _ : i ≠ j, {x : Fin 2 → ℝ | x i = x j} := by
      rintro x ⟨⟨h1, _⟩, h2, _⟩
      have he := Tuple.unique_monotone h1 h2
      by_contra hx
      apply hne
      have hinj : Function.Injective x := by
        intro i j hij
        by_contra hij'
        exact hx (Set.mem_iUnion.2 ⟨i, Set.mem_iUnion.2 ⟨j, Set.mem_iUnion.2 ⟨hij', hij⟩⟩⟩)
      ext1 i
      exact hinj (congrFun he i)
    refine measure_mono_null hsub ?_
    refine measure_iUnion_null fun i => measure_iUnion_null fun j => measure_iUnion_null fun h => diag_null2 i j h
  have hsum := measure_iUnion₀ hdis (fun σ =>
    ((perm_preserving2 σ).measurable orderSet2_measurable).nullMeasurableSet)
  rw [hcov, Real.volume_Icc_pi] at hsum
  simp only [hO, tsum_fintype, Finset.sum_const, Finset.card_univ, Fintype.card_perm, Fintype.card_fin] at hsum
  have h2 : (1 : ENNReal) = 2 * volume orderSet2 := by
    have : (Nat.factorial 2) = 2 := rfl
    rw [this] at hsum
    simpa using hsum
  rw [ENNReal.ofReal_div_of_pos (by norm_num), ENNReal.ofReal_one]
  have h22 : ENNReal.ofReal 2 = 2 := by simp
  rw [h22, ENNReal.eq_div_iff (by norm_num) (by norm_num)]
  exact h2.symm

/-- The linear part of the map from the order triangle to a triangle. -/
noncomputable def sideMap (q : Fin 3 → Fin 2 → ℝ) : (Fin 2 → ℝ) →ₗ[ℝ] (Fin 2 → ℝ) :=
  Matrix.toLin' (Matrix.of ![q 2 - q 1, q 1 - q 0]).transpose

theorem sideMap_apply (q : Fin 3 → Fin 2 → ℝ) (x : Fin 2 → ℝ) :
    sideMap q x = x 0 • (q 2 - q 1) + x 1 • (q 1 - q 0) := by
  funext k
  simp [sideMap, Matrix.mulVec, dotProduct, Fin.sum_univ_two, Matrix.transpose]
  ring

theorem sideMap_det (q : Fin 3 → Fin 2 → ℝ) : |LinearMap.det (sideMap q)| = |cross2 (q 1 - q 0) (q 2 - q 0)| := by
  rw [sideMap, LinearMap.det_toLin', Matrix.det_transpose, ← abs_neg]
  congr 1
  simp [Matrix.det_fin_two, cross2]
  ring

theorem mem_triangle {q : Fin 3 → Fin 2 → ℝ} {y : Fin 2 → ℝ} : y ∈ convexHull ℝ (Set.range q) ↔
    ∃ w : Fin 3 → ℝ, (w 0 + w 1 + w 2 = 1 ∧ y = w 0 • q 0 + w 1 • q 1 + w 2 • q 2) ∧ ∀ i, 0 ≤ w i := by
  have hf : Flat 0 (fun k => atHeight 0 (q k)) := fun k => rfl
  have e := slice_solid hf
  simp only [xy_atHeight] at e
  rw [← e, mem_slice, mem_solid_iff]
  refine exists_congr fun w => and_congr_left fun _ => ?_
  unfold IsBary
  rw [Fin.sum_univ_three, Fin.sum_univ_three]
  refine and_congr_right fun _ => ?_
  constructor
  · intro h
    have := congrArg xy h
    rw [xy_atHeight] at this
    rw [this]
    funext j
    fin_cases j <;> simp [xy, atHeight]
  · rintro rfl
    funext j
    fin_cases j <;> simp [atHeight]

theorem triangle_eq_image (q : Fin 3 → Fin 2 → ℝ) :
    convexHull ℝ (Set.range q) = (fun x => q 0 + x) '' (sideMap q '' orderSet2) := by
  ext y
  rw [mem_triangle, Set.image_image]
  constructor
  · rintro ⟨w, ⟨h1, rfl⟩, h0⟩
    have := h0 0; have := h0 1; have := h0 2
    refine ⟨![w 2, w 1 + w 2], ⟨?_, ?_, ?_⟩, ?_⟩
    · intro i j hij
      fin_cases i <;> fin_cases j <;> simp at hij ⊢ <;> linarith
    · intro i
      fin_cases i <;> simp <;> linarith
    · intro i
      fin_cases i <;> simp <;> linarith
    · funext k
      have : w 0 = 1 - w 1 - w 2 := by linarith
      simp only [sideMap_apply, Pi.add_apply, Pi.smul_apply, Pi.sub_apply, smul_eq_mul, this,
        Matrix.cons_val_zero, Matrix.cons_val_one, Matrix.cons_val]
      ring
  · rintro ⟨x, ⟨hm, h0, h1⟩, rfl⟩
    have h01 : x 0 ≤ x 1 := hm (by decide)
    have h00 : 0 ≤ x 0 := h0 0
    have h11 : x 1 ≤ 1 := h1 1
    refine ⟨![1 - x 1, x 1 - x 0, x 0], ⟨?_, ?_⟩, ?_⟩
    · simp
    · funext k
      simp only [sideMap_apply, Pi.add_apply, Pi.smul_apply, Pi.sub_apply, smul_eq_mul,
        Matrix.cons_val_zero, Matrix.cons_val_one, Matrix.cons_val]
      ring
    · intro i
      fin_cases i <;> simp <;> linarith

/-- The Lebesgue measure of a triangle is half the absolute determinant of two sides. -/
theorem volume_triangle2 (q : Fin 3 → Fin 2 → ℝ) :
    volume (convexHull ℝ (Set.range q)) = ENNReal.ofReal (|cross2 (q 1 - q 0) (q 2 - q 0)| / 2) := by
  rw [triangle_eq_image, Set.image_add_left, measure_preimage_add, Measure.addHaar_image_linearMap, sideMap_det,
    orderSet2_volume, ← ENNReal.ofReal_mul (abs_nonneg _)]
  congr 1
  ring

theorem volume_triangle {z : ℝ} {q : Fin 3 → Fin 3 → ℝ} (h : Flat z q) :
    volume (slice z (solid q)) = ENNReal.ofReal (triAreaXY q) := by
  rw [slice_solid h, volume_triangle2, cross2_crossZ q, triAreaXY_crossZ]

end PyQC
