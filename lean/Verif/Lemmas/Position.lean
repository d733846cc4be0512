import Verif.Spec.Position
import Verif.Model.Intersect
import Verif.Lemmas.Grouping
/-!
# Barycentric coordinates in real 3-space
-/
namespace PyQC
open Matrix

/-- Signed six-fold volume. -/
noncomputable def det4 (q : Fin 4 → Fin 3 → ℝ) : ℝ :=
  Matrix.det (Matrix.of ![q 1 - q 0, q 2 - q 0, q 3 - q 0])

theorem det4_eq (q : Fin 4 → Fin 3 → ℝ) : det4 q =
    (q 1 0 - q 0 0) * (q 2 1 - q 0 1) * (q 3 2 - q 0 2) - (q 1 0 - q 0 0) * (q 2 2 - q 0 2) * (q 3 1 - q 0 1)
    - (q 1 1 - q 0 1) * (q 2 0 - q 0 0) * (q 3 2 - q 0 2) + (q 1 1 - q 0 1) * (q 2 2 - q 0 2) * (q 3 0 - q 0 0)
    + (q 1 2 - q 0 2) * (q 2 0 - q 0 0) * (q 3 1 - q 0 1) - (q 1 2 - q 0 2) * (q 2 1 - q 0 1) * (q 3 0 - q 0 0) := by
  unfold det4
  rw [Matrix.det_fin_three]
  simp

theorem tetVol_det4 (q : Fin 4 → Fin 3 → ℝ) : tetVol q = |det4 q| / 6 := rfl

theorem volNum_eq (q : Fin 4 → Fin 3 → ℝ) : Ico.tetrahedronVolumeNumerical q = |det4 q| / 6 := by
  unfold Ico.tetrahedronVolumeNumerical
  congr 2

theorem isBary_four {q : Fin 4 → Fin 3 → ℝ} {w : Fin 4 → ℝ} {x : Fin 3 → ℝ} :
    IsBary q w x ↔ w 0 + w 1 + w 2 + w 3 = 1 ∧
      ∀ j, x j = w 0 * q 0 j + w 1 * q 1 j + w 2 * q 2 j + w 3 * q 3 j := by
  unfold IsBary
  rw [Fin.sum_univ_four, funext_iff]
  simp [Fin.sum_univ_four]

/-- Replacing one corner multiplies the signed volume by the barycentric coordinate. -/
theorem det4_small {q : Fin 4 → Fin 3 → ℝ} {w : Fin 4 → ℝ} {x : Fin 3 → ℝ} (h : IsBary q w x) (i : Fin 4) :
    det4 (Ico.smallTetrahedron i x q) = w i * det4 q := by
  obtain ⟨h1, hx⟩ := isBary_four.1 h
  have e0 : w 0 = 1 - w 1 - w 2 - w 3 := by linarith
  fin_cases i <;> simp only [det4_eq, Ico.smallTetrahedron] <;> simp [hx, e0] <;> ring

/-- The barycentric coordinates by Cramer's rule. -/
theorem exists_bary {q : Fin 4 → Fin 3 → ℝ} (h : det4 q ≠ 0) (x : Fin 3 → ℝ) :
    IsBary q (fun i => det4 (Ico.smallTetrahedron i x q) / det4 q) x := by
  rw [isBary_four]
  constructor
  · rw [← add_div, ← add_div, ← add_div, div_eq_one_iff_eq h]
    simp only [det4_eq, Ico.smallTetrahedron]
    simp
    ring
  · intro j
    rw [div_mul_eq_mul_div, div_mul_eq_mul_div, div_mul_eq_mul_div, div_mul_eq_mul_div,
      ← add_div, ← add_div, ← add_div, eq_div_iff h]
    simp only [det4_eq, Ico.smallTetrahedron]
    fin_cases j <;> simp <;> ring

theorem bary_unique {q : Fin 4 → Fin 3 → ℝ} (h : det4 q ≠ 0) {w w' : Fin 4 → ℝ} {x : Fin 3 → ℝ}
    (hw : IsBary q w x) (hw' : IsBary q w' x) : w = w' := by
  funext i
  have := (det4_small hw i).symm.trans (det4_small hw' i)
  exact mul_right_cancel₀ h this

theorem inside_bary {q : Fin 4 → Fin 3 → ℝ} {w : Fin 4 → ℝ} {x : Fin 3 → ℝ} (hw : IsBary q w x) :
    Ico.insideTetrahedron x q = true ↔ det4 q ≠ 0 ∧ ∑ i, |w i| < 1 + EPS := by
  unfold Ico.insideTetrahedron
  simp only [volNum_eq, det4_small hw, abs_mul]
  set d := |det4 q| with hd
  have hd0 : 0 ≤ d := abs_nonneg _
  have hs : (1 : ℝ) ≤ ∑ i, |w i| := by
    rw [← hw.1]
    exact Finset.sum_le_sum fun i _ => le_abs_self _
  have e : d / 6 - |w 0| * d / 6 - |w 1| * d / 6 - |w 2| * d / 6 - |w 3| * d / 6 =
      -((∑ i, |w i| - 1) * (d / 6)) := by
    rw [Fin.sum_univ_four]; ring
  rw [e, abs_neg, abs_of_nonneg (mul_nonneg (by linarith) (by positivity))]
  have hdz : det4 q ≠ 0 ↔ 0 < d := abs_pos.symm
  rw [hdz]
  have key : (∑ i, |w i| - 1) * (d / 6) < EPS * (d / 6) ↔ 0 < d ∧ ∑ i, |w i| < 1 + EPS := by
    constructor
    · intro h
      rcases hd0.eq_or_lt with h0 | h0
      · rw [← h0] at h; simp at h
      · refine ⟨h0, ?_⟩
        have := lt_of_mul_lt_mul_right h (by positivity)
        linarith
    · rintro ⟨h0, h⟩
      exact mul_lt_mul_of_pos_right (by linarith) (by positivity)
  rw [← key]
  by_cases hc : (∑ i, |w i| - 1) * (d / 6) < EPS * (d / 6)
  · simp [hc]
  · simp [hc]

theorem inside_degenerate {q : Fin 4 → Fin 3 → ℝ} (h : det4 q = 0) (x : Fin 3 → ℝ) :
    Ico.insideTetrahedron x q = false := by
  unfold Ico.insideTetrahedron
  simp only [volNum_eq, h]
  rw [if_neg]
  simp
  
theorem inside_iff {q : Fin 4 → Fin 3 → ℝ} {x : Fin 3 → ℝ} :
    Ico.insideTetrahedron x q = true ↔ det4 q ≠ 0 ∧ ∃ w, IsBary q w x ∧ ∑ i, |w i| < 1 + EPS := by
  constructor
  · intro h
    have hd : det4 q ≠ 0 := fun h0 => by rw [inside_degenerate h0] at h; exact absurd h (by decide)
    exact ⟨hd, _, exists_bary hd x, ((inside_bary (exists_bary hd x)).1 h).2⟩
  · rintro ⟨hd, w, hw, hs⟩
    exact (inside_bary hw).2 ⟨hd, hs⟩

theorem mem_solid_iff {m : Nat} {q : Fin m → Fin 3 → ℝ} {x : Fin 3 → ℝ} :
    x ∈ solid q ↔ ∃ w, IsBary q w x ∧ ∀ i, 0 ≤ w i := by
  unfold solid IsBary
  rw [convexHull_range_eq_exists_affineCombination]
  constructor
  · rintro ⟨s, w, h0, h1, rfl⟩
    refine ⟨fun i => if i ∈ s then w i else 0, ⟨?_, ?_⟩, ?_⟩
    · rw [Finset.sum_ite_mem, Finset.univ_inter, h1]
    · rw [Finset.affineCombination_eq_linear_combination _ _ _ h1]
      simp only [ite_smul, zero_smul]
      rw [Finset.sum_ite_mem, Finset.univ_inter]
    · intro i
      dsimp only
      split
      · exact h0 i (by assumption)
      · exact le_rfl
  · rintro ⟨w, ⟨h1, rfl⟩, h0⟩
    exact ⟨Finset.univ, w, fun i _ => h0 i, h1, by rw [Finset.affineCombination_eq_linear_combination _ _ _ h1]⟩

theorem solid_convex {m : Nat} (q : Fin m → Fin 3 → ℝ) : Convex ℝ (solid q) := convex_convexHull ℝ _

theorem nearSolid_convex {m : Nat} (δ : ℝ) (q : Fin m → Fin 3 → ℝ) : Convex ℝ {x | NearSolid δ q x} := by
  rintro x ⟨w, ⟨h1, rfl⟩, h0⟩ y ⟨w', ⟨h1', rfl⟩, h0'⟩ a b ha hb hab
  refine ⟨fun i => a * w i + b * w' i, ⟨?_, ?_⟩, fun i => ?_⟩
  · rw [Finset.sum_add_distrib, ← Finset.mul_sum, ← Finset.mul_sum, h1, h1']; linarith
  · rw [Finset.smul_sum, Finset.smul_sum, ← Finset.sum_add_distrib]
    refine Finset.sum_congr rfl fun i _ => ?_
    rw [add_smul, mul_smul, mul_smul]
  · have e : -δ = a * -δ + b * -δ := by rw [← add_mul, hab, one_mul]
    have h2 := mul_le_mul_of_nonneg_left (h0 i) ha
    have h3 := mul_le_mul_of_nonneg_left (h0' i) hb
    dsimp only
    linarith

/-- A solid whose corners are near `q` is near `q`. -/
theorem solid_near {m n : Nat} {δ : ℝ} {s : Fin n → Fin 3 → ℝ} {q : Fin m → Fin 3 → ℝ}
    (h : ∀ i, NearSolid δ q (s i)) {x : Fin 3 → ℝ} (hx : x ∈ solid s) : NearSolid δ q x := by
  have : solid s ⊆ {x | NearSolid δ q x} :=
    convexHull_min (by rintro _ ⟨i, rfl⟩; exact h i) (nearSolid_convex δ q)
  exact this hx

theorem neg_part_lt {m : Nat} {w : Fin m → ℝ} {ε : ℝ} (h1 : ∑ i, w i = 1) (h : ∑ i, |w i| < 1 + ε) (i : Fin m) :
    -(ε / 2) < w i := by
  have h2 : ∑ i, (|w i| - w i) < ε := by rw [Finset.sum_sub_distrib, h1]; linarith
  have h3 : |w i| - w i ≤ ∑ i, (|w i| - w i) :=
    Finset.single_le_sum (f := fun i => |w i| - w i) (fun j _ => sub_nonneg.2 (le_abs_self _)) (Finset.mem_univ i)
  have h4 := neg_abs_le (w i)
  rcases abs_cases (w i) with ⟨e, _⟩ | ⟨e, _⟩ <;> rw [e] at h3 <;> [skip; linarith]
  have : 0 < ε := by
    have : 0 ≤ ∑ i, (|w i| - w i) := Finset.sum_nonneg fun j _ => sub_nonneg.2 (le_abs_self _)
    linarith
  linarith

theorem inside_near {q : Fin 4 → Fin 3 → ℝ} {x : Fin 3 → ℝ} (h : Ico.insideTetrahedron x q = true) :
    NearSolid (EPS / 2) q x := by
  obtain ⟨_, w, hw, hs⟩ := inside_iff.1 h
  exact ⟨w, hw, fun i => (neg_part_lt hw.1 hs i).le⟩

/-! ## Segment and triangle -/

theorem meets_iff {A B C D E : Fin 3 → ℝ} {t u v : ℝ} :
    Meets A B C D E t u v ↔ ∀ j, A j - C j = u * (D j - C j) + v * (E j - C j) - t * (B j - A j) := by
  unfold Meets
  rw [funext_iff]
  simp only [Pi.add_apply, Pi.smul_apply, Pi.sub_apply, smul_eq_mul]
  refine forall_congr' fun j => ⟨fun h => by linarith, fun h => by linarith⟩

theorem moller {A B C D E : Fin 3 → ℝ} (hb : ((B - A) ⨯₃ (E - C)) ⬝ᵥ (D - C) ≠ 0) (t u v : ℝ) :
    Meets A B C D E t u v ↔
      u = ((B - A) ⨯₃ (E - C)) ⬝ᵥ (A - C) / ((B - A) ⨯₃ (E - C)) ⬝ᵥ (D - C) ∧
      v = ((A - C) ⨯₃ (D - C)) ⬝ᵥ (B - A) / ((B - A) ⨯₃ (E - C)) ⬝ᵥ (D - C) ∧
      t = ((A - C) ⨯₃ (D - C)) ⬝ᵥ (E - C) / ((B - A) ⨯₃ (E - C)) ⬝ᵥ (D - C) := by
  rw [meets_iff, eq_div_iff hb, eq_div_iff hb, eq_div_iff hb]
  constructor
  · intro h
    simp only [cross_apply, vec3_dotProduct, Pi.sub_apply, Matrix.cons_val_zero, Matrix.cons_val_one,
      Matrix.cons_val, h]
    refine ⟨?_, ?_, ?_⟩ <;> ring
  · rintro ⟨h1, h2, h3⟩ j
    apply mul_right_cancel₀ hb
    have : (u * (D j - C j) + v * (E j - C j) - t * (B j - A j)) * ((B - A) ⨯₃ (E - C)) ⬝ᵥ (D - C) =
        (u * ((B - A) ⨯₃ (E - C)) ⬝ᵥ (D - C)) * (D j - C j) +
        (v * ((B - A) ⨯₃ (E - C)) ⬝ᵥ (D - C)) * (E j - C j) -
        (t * ((B - A) ⨯₃ (E - C)) ⬝ᵥ (D - C)) * (B j - A j) := by ring
    rw [this, h1, h2, h3]
    simp only [cross_apply, vec3_dotProduct, Pi.sub_apply, Matrix.cons_val_zero, Matrix.cons_val_one,
      Matrix.cons_val]
    fin_cases j <;> simp <;> ring

/-- The denominator of the test is the determinant of the three directions. -/
theorem bunbo_det (A B C D E : Fin 3 → ℝ) :
    ((B - A) ⨯₃ (E - C)) ⬝ᵥ (D - C) = Matrix.det (Matrix.of ![B - A, E - C, D - C]) := by
  rw [Matrix.det_fin_three]
  simp only [cross_apply, vec3_dotProduct, Pi.sub_apply, Matrix.of_apply, Matrix.cons_val_zero,
    Matrix.cons_val_one, Matrix.cons_val]
  ring

theorem segTri_iff (ln : Fin 2 → Fin 3 → ℝ) (tr : Fin 3 → Fin 3 → ℝ) :
    Ico.segmentMeetsTriangle ln tr = true ↔
      EPS ≤ |Matrix.det (Matrix.of ![ln 1 - ln 0, tr 2 - tr 0, tr 1 - tr 0])| ∧
      ∃ t u v, Meets (ln 0) (ln 1) (tr 0) (tr 1) (tr 2) t u v ∧ -EPS ≤ t ∧ t ≤ 1 + EPS ∧
        -EPS ≤ u ∧ u ≤ 1 + EPS ∧ -EPS ≤ v ∧ u + v ≤ 1 + EPS := by
  rw [← bunbo_det]
  unfold Ico.segmentMeetsTriangle
  dsimp only
  set b := ((ln 1 - ln 0) ⨯₃ (tr 2 - tr 0)) ⬝ᵥ (tr 1 - tr 0) with hbd
  by_cases hb : |b| < EPS
  · rw [if_pos hb]
    constructor
    · intro h; exact absurd h (by decide)
    · rintro ⟨h, _⟩; exact absurd hb (not_lt.2 h)
  · rw [if_neg hb]
    have hb0 : b ≠ 0 := by
      intro h
      apply hb
      rw [h, abs_zero]
      norm_num [EPS]
    have hm := fun t u v => moller (A := ln 0) (B := ln 1) (C := tr 0) (D := tr 1) (E := tr 2) hb0 t u v
    rw [← hbd] at hm
    set u := ((ln 1 - ln 0) ⨯₃ (tr 2 - tr 0)) ⬝ᵥ (ln 0 - tr 0) / b
    set v := ((ln 0 - tr 0) ⨯₃ (tr 1 - tr 0)) ⬝ᵥ (ln 1 - ln 0) / b
    set t := ((ln 0 - tr 0) ⨯₃ (tr 1 - tr 0)) ⬝ᵥ (tr 2 - tr 0) / b
    have key : (∃ t u v, Meets (ln 0) (ln 1) (tr 0) (tr 1) (tr 2) t u v ∧ -EPS ≤ t ∧ t ≤ 1 + EPS ∧
        -EPS ≤ u ∧ u ≤ 1 + EPS ∧ -EPS ≤ v ∧ u + v ≤ 1 + EPS) ↔
        -EPS ≤ t ∧ t ≤ 1 + EPS ∧ -EPS ≤ u ∧ u ≤ 1 + EPS ∧ -EPS ≤ v ∧ u + v ≤ 1 + EPS := by
      constructor
      · rintro ⟨t', u', v', h, hr⟩
        obtain ⟨rfl, rfl, rfl⟩ := (hm t' u' v').1 h
        exact hr
      · intro h
        exact ⟨t, u, v, (hm t u v).2 ⟨rfl, rfl, rfl⟩, h⟩
    rw [key, zero_sub]
    simp only [not_lt.1 hb, true_and, ge_iff_le]
    by_cases h1 : -EPS ≤ u ∧ u ≤ 1 + EPS
    · by_cases h2 : -EPS ≤ v ∧ u + v ≤ 1 + EPS
      · by_cases h3 : -EPS ≤ t ∧ t ≤ 1 + EPS
        · simp [h1, h2, h3]
        · rw [if_pos h1, if_pos h2, if_neg h3]
          simp only [Bool.false_eq_true, false_iff]
          tauto
      · rw [if_pos h1, if_neg h2]
        simp only [Bool.false_eq_true, false_iff]
        tauto
    · rw [if_neg h1]
      simp only [Bool.false_eq_true, false_iff]
      tauto

end PyQC
