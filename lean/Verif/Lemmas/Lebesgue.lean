import Verif.Lemmas.Position
import Mathlib.MeasureTheory.Measure.Lebesgue.EqHaar
import Mathlib.MeasureTheory.Constructions.Pi
import Mathlib.Data.Fin.Tuple.Sort
import Mathlib.Analysis.Convex.Measure
/-!
# The Lebesgue measure of a tetrahedron

Mathlib has no formula for the volume of a simplex. The unit cube of real 3-space is the union of six congruent
simplices, one for each order of the coordinates, so each has volume 1/6; every tetrahedron is an affine image of one
of them.
-/
namespace PyQC
open MeasureTheory

/-- The points of the unit cube with increasing coordinates. -/
def orderSet : Set (Fin 3 → ℝ) := {x | Monotone x ∧ x ∈ Set.Icc (0 : Fin 3 → ℝ) 1}

theorem orderSet_measurable : MeasurableSet orderSet := by
  have h : orderSet = {x | x 0 ≤ x 1} ∩ {x | x 1 ≤ x 2} ∩ Set.Icc (0 : Fin 3 → ℝ) 1 := by
    ext x
    simp only [orderSet, Set.mem_inter_iff, Set.mem_ofPred_eq]
    constructor
    · rintro ⟨h, h'⟩; exact ⟨⟨h (by decide), h (by decide)⟩, h'⟩
    · rintro ⟨⟨h1, h2⟩, h'⟩
      refine ⟨?_, h'⟩
      intro i j hij
      fin_cases i <;> fin_cases j <;> first | exact le_refl _ | exact h1 | exact h2 | exact h1.trans h2 | (exfalso; revert hij; decide)
  rw [h]
  exact ((measurableSet_le (measurable_pi_apply 0) (measurable_pi_apply 1)).inter
    (measurableSet_le (measurable_pi_apply 1) (measurable_pi_apply 2))).inter measurableSet_Icc

theorem perm_preserving (σ : Equiv.Perm (Fin 3)) :
    MeasurePreserving (fun x : Fin 3 → ℝ => x ∘ σ) volume volume := by
  have h := volume_measurePreserving_piCongrLeft (fun _ : Fin 3 => ℝ) σ.symm
  have he : (MeasurableEquiv.piCongrLeft (fun _ : Fin 3 => ℝ) σ.symm : (Fin 3 → ℝ) → (Fin 3 → ℝ)) =
      fun x => x ∘ σ := by
    funext x i
    have := Equiv.piCongrLeft_apply_apply (fun _ : Fin 3 => ℝ) σ.symm x (σ i)
    rw [Equiv.symm_apply_apply] at this
    exact this
  rw [he] at h
  exact h

theorem diag_null (i j : Fin 3) (h : i ≠ j) : volume {x : Fin 3 → ℝ | x i = x j} = 0 := by
  let s : Submodule ℝ (Fin 3 → ℝ) := LinearMap.ker ((LinearMap.proj (R := ℝ) (φ := fun _ : Fin 3 => ℝ) i) - LinearMap.proj (R := ℝ) (φ := fun _ : Fin 3 => ℝ) j)
  have hs : s ≠ ⊤ := by
    intro ht
    have : (Pi.single i 1 : Fin 3 → ℝ) ∈ s := ht ▸ Submodule.mem_top
    simp [s, LinearMap.mem_ker, Pi.single_eq_of_ne h.symm] at this
  have := Measure.addHaar_submodule (volume : Measure (Fin 3 → ℝ)) s hs
  convert this using 2
  ext x
  simp [s, LinearMap.mem_ker, sub_eq_zero]

/-- One sixth of the unit cube. -/
theorem orderSet_volume : volume orderSet = ENNReal.ofReal (1 / 6) := by
  let O : Equiv.Perm (Fin 3) → Set (Fin 3 → ℝ) := fun σ => (fun x : Fin 3 → ℝ => x ∘ σ) ⁻¹' orderSet
  have hO : ∀ σ, volume (O σ) = volume orderSet := fun σ =>
    (perm_preserving σ).measure_preimage orderSet_measurable.nullMeasurableSet
  have hcov : (⋃ σ, O σ) = Set.Icc (0 : Fin 3 → ℝ) 1 := by
    ext x
    simp only [Set.mem_iUnion]
    constructor
    · rintro ⟨σ, _, h0, h1⟩
      refine ⟨fun i => ?_, fun i => ?_⟩
      · have := h0 (σ.symm i); simpa using this
      · have := h1 (σ.symm i); simpa using this
    · rintro ⟨h0, h1⟩
      exact ⟨Tuple.sort x, Tuple.monotone_sort x, fun i => h0 (Tuple.sort x i), fun i => h1 (Tuple.sort x i)⟩
  have hdis : Pairwise (Function.onFun (AEDisjoint volume) O) := by
    intro σ τ hne
    have hsub : O σ ∩ O τ ⊆ ⋃ i : Fin 3, ⋃ j : Fin 3, ⋃ _ : i ≠ j, {x : Fin 3 → ℝ | x i = x j} := by
      rintro x ⟨⟨h1, _⟩, h2, _⟩
      have he := Tuple.unique_monotone h1 h2
      by_contra hx
      apply hne
      have hinj : Function.Injective x := by
        intro i j hij
        by_contra hij'
        exact hx (Set.mem_iUnion.2 ⟨i, Set.mem_iUnion.2 ⟨j, Set.mem_iUnion.2 ⟨hij', hij⟩⟩⟩)
      ext1 i
      exact hinj (congrFun he i)
    refine measure_mono_null hsub ?_
    refine measure_iUnion_null fun i => measure_iUnion_null fun j => measure_iUnion_null fun h => diag_null i j h
  have hsum := measure_iUnion₀ hdis (fun σ =>
    ((perm_preserving σ).measurable orderSet_measurable).nullMeasurableSet)
  rw [hcov, Real.volume_Icc_pi] at hsum
  simp only [hO, tsum_fintype, Finset.sum_const, Finset.card_univ, Fintype.card_perm, Fintype.card_fin] at hsum
  have h6 : (1 : ENNReal) = 6 * volume orderSet := by
    have : (Nat.factorial 3) = 6 := rfl
    rw [this] at hsum
    simpa using hsum
  rw [ENNReal.ofReal_div_of_pos (by norm_num), ENNReal.ofReal_one]
  have h66 : ENNReal.ofReal 6 = 6 := by simp
  rw [h66, ENNReal.eq_div_iff (by norm_num) (by norm_num)]
  exact h6.symm

/-- The linear part of the map from the order simplex to a tetrahedron. -/
noncomputable def edgeMap (q : Fin 4 → Fin 3 → ℝ) : (Fin 3 → ℝ) →ₗ[ℝ] (Fin 3 → ℝ) :=
  Matrix.toLin' (Matrix.of ![q 3 - q 2, q 2 - q 1, q 1 - q 0]).transpose

theorem edgeMap_apply (q : Fin 4 → Fin 3 → ℝ) (x : Fin 3 → ℝ) :
    edgeMap q x = x 0 • (q 3 - q 2) + x 1 • (q 2 - q 1) + x 2 • (q 1 - q 0) := by
  funext k
  simp [edgeMap, Matrix.mulVec, dotProduct, Fin.sum_univ_three, Matrix.transpose]
  ring

theorem edgeMap_det (q : Fin 4 → Fin 3 → ℝ) : |LinearMap.det (edgeMap q)| = |det4 q| := by
  rw [edgeMap, LinearMap.det_toLin', Matrix.det_transpose, ← abs_neg (det4 q)]
  congr 1
  rw [det4_eq]
  simp [Matrix.det_fin_three]
  ring

theorem solid_eq_image (q : Fin 4 → Fin 3 → ℝ) : solid q = (fun x => q 0 + x) '' (edgeMap q '' orderSet) := by
  ext y
  rw [mem_solid_iff, Set.image_image]
  constructor
  · rintro ⟨w, ⟨h1, rfl⟩, h0⟩
    rw [Fin.sum_univ_four] at h1
    refine ⟨![w 3, w 2 + w 3, w 1 + w 2 + w 3], ⟨?_, ?_, ?_⟩, ?_⟩
    · intro i j hij
      have := h0 0; have := h0 1; have := h0 2; have := h0 3
      fin_cases i <;> fin_cases j <;> simp at hij ⊢ <;> linarith
    · intro i
      have := h0 0; have := h0 1; have := h0 2; have := h0 3
      fin_cases i <;> simp <;> linarith
    · intro i
      have := h0 0; have := h0 1; have := h0 2; have := h0 3
      fin_cases i <;> simp <;> linarith
    · funext k
      have : w 0 = 1 - w 1 - w 2 - w 3 := by linarith
      simp only [edgeMap_apply, Fin.sum_univ_four, Pi.add_apply, Pi.smul_apply, Pi.sub_apply, smul_eq_mul, this,
        Matrix.cons_val_zero, Matrix.cons_val_one, Matrix.cons_val]
      ring
  · rintro ⟨x, ⟨hm, h0, h1⟩, rfl⟩
    have h01 : x 0 ≤ x 1 := hm (by decide)
    have h12 : x 1 ≤ x 2 := hm (by decide)
    have h00 : 0 ≤ x 0 := h0 0
    have h21 : x 2 ≤ 1 := h1 2
    refine ⟨![1 - x 2, x 2 - x 1, x 1 - x 0, x 0], ⟨?_, ?_⟩, ?_⟩
    · simp [Fin.sum_univ_four]
    · funext k
      simp only [edgeMap_apply, Fin.sum_univ_four, Pi.add_apply, Pi.smul_apply, Pi.sub_apply, smul_eq_mul,
        Matrix.cons_val_zero, Matrix.cons_val_one, Matrix.cons_val]
      ring
    · intro i
      fin_cases i <;> simp <;> linarith

/-- The Lebesgue measure of a tetrahedron is a sixth of the absolute determinant of its edges. -/
theorem volume_solid (q : Fin 4 → Fin 3 → ℝ) : volume (solid q) = ENNReal.ofReal (tetVol q) := by
  rw [solid_eq_image, Set.image_add_left, measure_preimage_add, Measure.addHaar_image_linearMap, edgeMap_det,
    orderSet_volume, ← ENNReal.ofReal_mul (abs_nonneg _), tetVol_det4]
  congr 1
  ring

end PyQC
