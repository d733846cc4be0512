import Verif.Lemmas.Field
import Verif.Model.Legacy
import Verif.Spec.Legacy
/-!
# C119: projections of icosahedral reflection indices
-/
namespace PyQC

open Legacy

theorem legacy_tau_pos : 0 < tau := by
  unfold tau
  positivity

theorem const2_pos : 0 < const2 := by
  have := legacy_tau_pos
  unfold const2 const1
  positivity

theorem const1_pos : 0 < const1 := by
  have := legacy_tau_pos
  unfold const1
  positivity

theorem const1_sq : const1 ^ 2 * (2 * (2 + tau)) = 1 := by
  have := legacy_tau_pos
  unfold const1
  rw [div_pow, Real.sq_sqrt (by positivity)]
  field_simp

theorem const2_sq : const2 ^ 2 * (2 + tau) = 1 := by
  unfold const2
  rw [mul_pow, Real.sq_sqrt (by norm_num)]
  linarith [const1_sq]

/-- C119: in Elser's setting the two projections of a reflection are those of the 6D vector with the same components, scaled by
1/√(2+τ). -/
theorem C119_elser (h : Fin 6 → Int) :
    qparElser h = const2 • Package.ico.parMat.mulVec (fun i => (h i : ℝ)) ∧
      qperpElser h = const2 • Package.ico.perpMat.mulVec (fun i => (h i : ℝ)) := by
  constructor <;> funext i <;> fin_cases i <;>
    simp [qparElser, qperpElser, Package.parMat, Package.perpMat, dotProduct, Fin.sum_univ_six] <;> ring

/-- C119: the two projections share out the length of the index vector: |q∥|² + |q⊥|² = 2|h|². -/
theorem C119_length (h : Fin 6 → Int) :
    lengthSq (qparElser h) + lengthSq (qperpElser h) = 2 * ∑ i, (h i : ℝ) ^ 2 := by
  have h1 := const2_sq
  have h2 := tau_sq
  simp only [lengthSq, qparElser, qperpElser, Fin.sum_univ_six, Fin.sum_univ_three, Matrix.cons_val]
  push_cast
  generalize const2 = c at *
  generalize tau = t at *
  linear_combination (2 * ((h 0 : ℝ) ^ 2 + h 1 ^ 2 + h 2 ^ 2 + h 3 ^ 2 + h 4 ^ 2 + h 5 ^ 2)) * h1 +
    (2 * c ^ 2 * ((h 0 : ℝ) ^ 2 + h 1 ^ 2 + h 2 ^ 2 + h 3 ^ 2 + h 4 ^ 2 + h 5 ^ 2)) * h2

theorem scaled_zero {c : ℝ} (hc : 0 < c) {p q : Int} (h : ((p : ℝ) + tau * (q : ℝ)) * c = 0) : p = 0 ∧ q = 0 :=
  irr_zero_int tau (by rcases mul_eq_zero.1 h with h | h; · linarith
                       · exact absurd h hc.ne')

/-- C119: no two reflections coincide in Elser's setting, neither in parallel nor in perpendicular space. -/
theorem C119_distinct (g h : Fin 6 → Int) : (qparElser g = qparElser h → g = h) ∧ (qperpElser g = qperpElser h → g = h) := by
  constructor <;> intro e
  · have e0 := congrFun e 0; have e1 := congrFun e 1; have e2 := congrFun e 2
    simp only [qparElser, Matrix.cons_val] at e0 e1 e2
    have a0 := scaled_zero const2_pos (p := g 0 - g 4 - (h 0 - h 4)) (q := g 1 + g 2 - (h 1 + h 2)) (by push_cast at *; linarith)
    have a1 := scaled_zero const2_pos (p := g 3 + g 5 - (h 3 + h 5)) (q := g 0 + g 4 - (h 0 + h 4)) (by push_cast at *; linarith)
    have a2 := scaled_zero const2_pos (p := g 1 - g 2 - (h 1 - h 2)) (q := -g 3 + g 5 - (-h 3 + h 5)) (by push_cast at *; linarith)
    funext k
    fin_cases k <;> simp <;> omega
  · have e0 := congrFun e 0; have e1 := congrFun e 1; have e2 := congrFun e 2
    simp only [qperpElser, Matrix.cons_val] at e0 e1 e2
    have a0 := scaled_zero const2_pos (p := -g 1 - g 2 - (-h 1 - h 2)) (q := g 0 - g 4 - (h 0 - h 4)) (by push_cast at *; linarith)
    have a1 := scaled_zero const2_pos (p := -g 0 - g 4 - (-h 0 - h 4)) (q := g 3 + g 5 - (h 3 + h 5)) (by push_cast at *; linarith)
    have a2 := scaled_zero const2_pos (p := g 3 - g 5 - (h 3 - h 5)) (q := g 1 - g 2 - (h 1 - h 2)) (by push_cast at *; linarith)
    funext k
    fin_cases k <;> simp <;> omega

/-- C119: nor in parallel space in the setting of Cahn, Shechtman and Gratias. -/
theorem C119_distinct_csg (g h : Fin 6 → Int) (e : qparCsg g = qparCsg h) : g = h := by
  have e0 := congrFun e 0; have e1 := congrFun e 1; have e2 := congrFun e 2
  simp only [qparCsg, Matrix.cons_val] at e0 e1 e2
  have a0 := scaled_zero const1_pos (p := g 0 - g 3 - (h 0 - h 3)) (q := g 1 + g 4 - (h 1 + h 4)) (by push_cast at *; linarith)
  have a1 := scaled_zero const1_pos (p := g 2 - g 5 - (h 2 - h 5)) (q := g 0 + g 3 - (h 0 + h 3)) (by push_cast at *; linarith)
  have a2 := scaled_zero const1_pos (p := g 1 - g 4 - (h 1 - h 4)) (q := g 2 + g 5 - (h 2 + h 5)) (by push_cast at *; linarith)
  funext k
  fin_cases k <;> simp <;> omega

/-- The perpendicular projection that completes `qparCsg`: the last component has `h 4 - h 1` where the code has `h 1 + h 4`. -/
noncomputable def qperpCsgFixed (h : Fin 6 → Int) : Fin 3 → ℝ :=
  ![(((h 1 + h 4 : Int) : ℝ) + tau * ((-h 0 + h 3 : Int) : ℝ)) * const1,
    (((h 0 + h 3 : Int) : ℝ) + tau * ((-h 2 + h 5 : Int) : ℝ)) * const1,
    (((h 2 + h 5 : Int) : ℝ) + tau * ((-h 1 + h 4 : Int) : ℝ)) * const1]

/-- C119, disagreement: the perpendicular projection in that setting sends a reflection that is not zero to zero. -/
theorem C119_fails_csg : qperpCsg ![0, 1, 0, 0, -1, 0] = 0 := by
  funext i
  fin_cases i <;> simp [qperpCsg]

/-- C119, disagreement: with the code's sign the lengths do not add up; with the other sign they do. -/
theorem C119_csg_length :
    (∀ h : Fin 6 → Int, lengthSq (qparCsg h) + lengthSq (qperpCsgFixed h) = ∑ i, (h i : ℝ) ^ 2) ∧
      lengthSq (qparCsg ![0, 1, 0, 0, -1, 0]) + lengthSq (qperpCsg ![0, 1, 0, 0, -1, 0]) ≠ 2 := by
  have h1 := const1_sq
  have h2 := tau_sq
  have h3 := legacy_tau_pos
  constructor
  · intro h
    simp only [lengthSq, qparCsg, qperpCsgFixed, Fin.sum_univ_six, Fin.sum_univ_three, Matrix.cons_val]
    push_cast
    generalize const1 = c at *
    generalize tau = t at *
    linear_combination ((h 0 : ℝ) ^ 2 + h 1 ^ 2 + h 2 ^ 2 + h 3 ^ 2 + h 4 ^ 2 + h 5 ^ 2) * h1 +
      (2 * c ^ 2 * ((h 0 : ℝ) ^ 2 + h 1 ^ 2 + h 2 ^ 2 + h 3 ^ 2 + h 4 ^ 2 + h 5 ^ 2)) * h2
  · rw [C119_fails_csg]
    simp [lengthSq, qparCsg, Fin.sum_univ_three]
    intro h
    nlinarith [mul_pos h3 (pow_pos const1_pos 2)]

/-- C119, disagreement: the phason shift of a reflection is not the product of the phason matrix with its perpendicular component:
the second and third rows use wrong components. -/
theorem C119_fails_phason : ∃ (p : Matrix (Fin 3) (Fin 3) ℝ) (q : Fin 3 → ℝ), lphason p q ≠ p.mulVec q := by
  refine ⟨!![0, 0, 0; 1, 0, 0; 0, 0, 0], ![1, 0, 0], fun h => ?_⟩
  have := congrFun h 1
  simp [lphason, Matrix.mulVec, dotProduct, Fin.sum_univ_three] at this

/-- C119: the phason shift is right for every component exactly when four entries of the matrix meet these equations. -/
theorem C119_phason_iff (p : Matrix (Fin 3) (Fin 3) ℝ) : (∀ q, lphason p q = p.mulVec q) ↔
    p 1 0 = 0 ∧ p 1 1 = p 0 1 ∧ p 2 0 = 0 ∧ p 2 1 = p 0 1 := by
  constructor
  · intro h
    have a := h ![1, 0, 0]; have b := h ![0, 1, 0]; have c := h ![0, 0, 1]
    have a1 := congrFun a 1; have a2 := congrFun a 2; have b1 := congrFun b 1; have b2 := congrFun b 2; have c2 := congrFun c 2
    simp [lphason, Matrix.mulVec, dotProduct, Fin.sum_univ_three] at a1 a2 b1 b2 c2
    refine ⟨?_, ?_, ?_, ?_⟩ <;> linarith
  · rintro ⟨h1, h2, h3, h4⟩ q
    funext i
    fin_cases i <;> simp [lphason, Matrix.mulVec, dotProduct, Fin.sum_univ_three, h1, h2, h3, h4]

/-- A concrete reflection: its projection is not zero. -/
example : qparElser ![1, 0, 0, 0, 0, 0] ≠ 0 ∧ qperpElser ![1, 0, 0, 0, 0, 0] ≠ 0 := by
  constructor <;> intro h
  · have := congrFun h 0
    simp [qparElser, const2_pos.ne'] at this
  · have := congrFun h 1
    simp [qperpElser, const2_pos.ne'] at this

end PyQC
