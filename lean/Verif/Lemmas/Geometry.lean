import Verif.Spec.Geometry
import Mathlib.LinearAlgebra.Matrix.NonsingularInverse
/-!
# Volumes of tetrahedra in real 3-space
-/
namespace PyQC
open Matrix

/-- The 4×4 matrix with rows `(1, q i)`. -/
noncomputable def bary (q : Fin 4 → Fin 3 → ℝ) : Matrix (Fin 4) (Fin 4) ℝ :=
  Matrix.of fun i => ![1, q i 0, q i 1, q i 2]

theorem det_bary (q : Fin 4 → Fin 3 → ℝ) :
    (bary q).det = Matrix.det (Matrix.of ![q 1 - q 0, q 2 - q 0, q 3 - q 0]) := by
  rw [Matrix.det_fin_three, Matrix.det_succ_row_zero]
  simp only [Fin.sum_univ_four, Matrix.det_fin_three, bary]
  simp [Fin.succAbove, Fin.lt_def]
  ring

theorem tetVol_eq_bary (q : Fin 4 → Fin 3 → ℝ) : tetVol q = |(bary q).det| / 6 := by
  rw [det_bary]; rfl

theorem tetVol_perm (q : Fin 4 → Fin 3 → ℝ) (σ : Equiv.Perm (Fin 4)) :
    tetVol (fun i => q (σ i)) = tetVol q := by
  rw [tetVol_eq_bary, tetVol_eq_bary]
  have : bary (fun i => q (σ i)) = (bary q).submatrix σ id := rfl
  rw [this, Matrix.det_permute, abs_mul]
  rcases Int.units_eq_one_or (Equiv.Perm.sign σ) with h | h <;> simp [h]

theorem tetVol_affine (q : Fin 4 → Fin 3 → ℝ) (R : Matrix (Fin 3) (Fin 3) ℝ) (c : Fin 3 → ℝ) :
    tetVol (fun i => R.mulVec (q i) + c) = |R.det| * tetVol q := by
  unfold tetVol
  have : Matrix.of ![(R.mulVec (q 1) + c) - (R.mulVec (q 0) + c),
      (R.mulVec (q 2) + c) - (R.mulVec (q 0) + c), (R.mulVec (q 3) + c) - (R.mulVec (q 0) + c)] =
      Matrix.of ![q 1 - q 0, q 2 - q 0, q 3 - q 0] * Rᵀ := by
    ext i j
    fin_cases i <;> simp [Matrix.mul_apply, Matrix.mulVec, dotProduct, Fin.sum_univ_three] <;> ring
  rw [this, Matrix.det_mul, Matrix.det_transpose, abs_mul]
  ring

theorem tetVol_shift (q : Fin 4 → Fin 3 → ℝ) (c : Fin 3 → ℝ) :
    tetVol (fun i => q i + c) = tetVol q := by
  have := tetVol_affine q 1 c
  simpa using this

theorem abs_det_of_orthogonal {R : Matrix (Fin 3) (Fin 3) ℝ} (h : Rᵀ * R = 1) : |R.det| = 1 := by
  have := congrArg Matrix.det h
  rw [Matrix.det_mul, Matrix.det_transpose, Matrix.det_one] at this
  have h2 : |R.det| * |R.det| = 1 := by rw [← abs_mul, this, abs_one]
  nlinarith [abs_nonneg R.det]

theorem tetVol_nonneg (q : Fin 4 → Fin 3 → ℝ) : 0 ≤ tetVol q := by
  unfold tetVol; positivity

theorem affineIndependent_iff_det (q : Fin 4 → Fin 3 → ℝ) :
    AffineIndependent ℝ q ↔ Matrix.det (Matrix.of ![q 1 - q 0, q 2 - q 0, q 3 - q 0]) ≠ 0 := by
  rw [affineIndependent_iff_linearIndependent_vsub ℝ q 0]
  rw [← isUnit_iff_ne_zero, ← Matrix.isUnit_iff_isUnit_det, ← Matrix.linearIndependent_rows_iff_isUnit]
  let e : Fin 3 ≃ {x : Fin 4 // x ≠ 0} := finSuccAboveEquiv 0
  rw [← linearIndependent_equiv e]
  have : ((fun i : {x : Fin 4 // x ≠ 0} => q i -ᵥ q 0) ∘ e) =
      (Matrix.of ![q 1 - q 0, q 2 - q 0, q 3 - q 0]).row := by
    funext i
    fin_cases i <;> rfl
  rw [this]

theorem coplanar_iff_tetVol (q : Fin 4 → Fin 3 → ℝ) :
    tetVol q = 0 ↔ Coplanar ℝ (Set.range q) := by
  have h1 := affineIndependent_iff_det q
  have h2 := finrank_vectorSpan_le_iff_not_affineIndependent ℝ q (n := 2) (by simp)
  rw [coplanar_iff_finrank_le_two, h2, h1, not_ne_iff]
  unfold tetVol
  constructor
  · intro h
    have : |Matrix.det (Matrix.of ![q 1 - q 0, q 2 - q 0, q 3 - q 0])| = 0 := by linarith
    exact abs_eq_zero.mp this
  · intro h; rw [h]; simp

end PyQC

namespace PyQC
open Matrix

/-- Block matrices: xy plane and z axis do not mix. -/
def Block (R : Matrix (Fin 3) (Fin 3) ℝ) : Prop := R 0 2 = 0 ∧ R 1 2 = 0 ∧ R 2 0 = 0 ∧ R 2 1 = 0

theorem Block.one : Block 1 := by simp [Block]

theorem Block.mul {R S : Matrix (Fin 3) (Fin 3) ℝ} (h : Block R) (k : Block S) : Block (R * S) := by
  obtain ⟨h1, h2, h3, h4⟩ := h
  obtain ⟨k1, k2, k3, k4⟩ := k
  refine ⟨?_, ?_, ?_, ?_⟩ <;> simp [Matrix.mul_apply, Fin.sum_univ_three, *]

theorem Block.abs_det {R : Matrix (Fin 3) (Fin 3) ℝ} (h : Block R) (ho : Rᵀ * R = 1) :
    |R 0 0 * R 1 1 - R 0 1 * R 1 0| = 1 := by
  obtain ⟨h1, h2, h3, h4⟩ := h
  have e00 := congrFun (congrFun ho 0) 0
  have e01 := congrFun (congrFun ho 0) 1
  have e11 := congrFun (congrFun ho 1) 1
  simp [Matrix.mul_apply, Fin.sum_univ_three, h3, h4] at e00 e01 e11
  have : (R 0 0 * R 1 1 - R 0 1 * R 1 0) ^ 2 = 1 := by
    have : (R 0 0 * R 1 1 - R 0 1 * R 1 0) ^ 2 =
      (R 0 0 * R 0 0 + R 1 0 * R 1 0) * (R 0 1 * R 0 1 + R 1 1 * R 1 1) -
        (R 0 0 * R 0 1 + R 1 0 * R 1 1) ^ 2 := by ring
    rw [this, e00, e01, e11]; ring
  have h2 : |R 0 0 * R 1 1 - R 0 1 * R 1 0| ^ 2 = 1 := by rw [sq_abs, this]
  have := abs_nonneg (R 0 0 * R 1 1 - R 0 1 * R 1 0)
  nlinarith

theorem triAreaXY_affine (q : Fin 3 → Fin 3 → ℝ) {R : Matrix (Fin 3) (Fin 3) ℝ} (h : Block R)
    (c : Fin 3 → ℝ) :
    triAreaXY (fun i => R.mulVec (q i) + c) = |R 0 0 * R 1 1 - R 0 1 * R 1 0| * triAreaXY q := by
  obtain ⟨h1, h2, h3, h4⟩ := h
  unfold triAreaXY
  rw [← mul_div_assoc, ← abs_mul]
  congr 2
  simp [Matrix.mulVec, dotProduct, Fin.sum_univ_three, h1, h2]
  ring

theorem triAreaXY_shift (q : Fin 3 → Fin 3 → ℝ) (c : Fin 3 → ℝ) :
    triAreaXY (fun i => q i + c) = triAreaXY q := by
  have := triAreaXY_affine q Block.one c
  simpa using this

theorem triAreaXY_perm (q : Fin 3 → Fin 3 → ℝ) (σ : Equiv.Perm (Fin 3)) :
    triAreaXY (fun i => q (σ i)) = triAreaXY q := by
  have key : ∀ q : Fin 3 → Fin 3 → ℝ, triAreaXY q =
      |(Matrix.of fun i => ![1, q i 0, q i 1] : Matrix (Fin 3) (Fin 3) ℝ).det| / 2 := by
    intro q
    rw [Matrix.det_fin_three]
    unfold triAreaXY
    congr 2
    simp
    ring
  rw [key, key]
  have : (Matrix.of fun i => ![1, q (σ i) 0, q (σ i) 1] : Matrix (Fin 3) (Fin 3) ℝ) =
      (Matrix.of fun i => ![1, q i 0, q i 1] : Matrix (Fin 3) (Fin 3) ℝ).submatrix σ id := rfl
  rw [this, Matrix.det_permute, abs_mul]
  rcases Int.units_eq_one_or (Equiv.Perm.sign σ) with h | h <;> simp [h]

theorem triArea_eq_XY (q : Fin 3 → Fin 3 → ℝ) (h1 : q 1 2 = q 0 2) (h2 : q 2 2 = q 0 2) :
    triArea q = triAreaXY q := by
  unfold triArea triAreaXY
  rw [← Real.sqrt_sq_eq_abs]
  congr 2
  simp [cross_apply, dotProduct, Fin.sum_univ_three, h1, h2]
  ring

end PyQC
