import Verif.Model.Matrix
import Verif.Lemmas.Isometry
import Mathlib.LinearAlgebra.Matrix.ZPow
/-!
# C52: `matrixpow`
-/
namespace PyQC
open Matrix

theorem matrixpow_natCast {n : Nat} (M : Matrix (Fin n) (Fin n) ℝ) (k : Nat) :
    matrixpow M (k : Int) = .ok (some (M ^ k)) := by
  unfold matrixpow
  rw [dif_pos rfl]
  simp only
  by_cases hk : (k : Int) = 0
  · have : k = 0 := by omega
    subst this
    rw [if_pos (by rfl), pow_zero, npIdentity_eq]
  · rw [if_neg hk, if_neg (by omega)]
    have : ((k : Int)).toNat = k := by omega
    rw [this]
    exact congrArg (fun x => Except.ok (some x)) (npPow_eq (R := ℝ) M k)

theorem matrixpow_negSucc {n : Nat} (M : Matrix (Fin n) (Fin n) ℝ) (h : M.det ≠ 0) (k : Nat) (hk : 0 < k) :
    matrixpow M (-(k : Int)) = .ok (some (M⁻¹ ^ k)) := by
  unfold matrixpow
  rw [dif_pos rfl]
  simp only
  rw [if_neg (by omega), if_pos (by omega), if_neg (by exact h)]
  have : (-(-(k : Int))).toNat = k := by omega
  rw [this]
  exact congrArg (fun x => Except.ok (some x)) (npPow_eq (R := ℝ) M⁻¹ k)

/-- C52: for `n = 0` the identity matrix, for every size and matrix. -/
theorem C52_zero {n : Nat} (M : Matrix (Fin n) (Fin n) ℝ) :
    matrixpow M 0 = .ok (some (fun i j => if i = j then 1 else 0)) := by
  have := matrixpow_natCast M 0
  rw [pow_zero] at this
  refine this.trans ?_
  congr 2

/-- C52: for `n ≥ 0` the `n`-fold product, with the recurrence that defines it entry by entry. -/
theorem C52_nonneg {n : Nat} (M : Matrix (Fin n) (Fin n) ℝ) (k : Nat) :
    matrixpow M (k : Int) = .ok (some (M ^ k)) ∧
    ∃ A : Fin n → Fin n → ℝ, matrixpow M (k : Int) = .ok (some A) ∧
      matrixpow M ((k : Int) + 1) = .ok (some fun i j => ∑ l, A i l * M l j) := by
  refine ⟨matrixpow_natCast M k, _, matrixpow_natCast M k, ?_⟩
  have := matrixpow_natCast M (k + 1)
  push_cast at this
  refine this.trans ?_
  congr 2

/-- C52: additivity in the exponent for `m, n ≥ 0`. -/
theorem C52_add {n : Nat} (M : Matrix (Fin n) (Fin n) ℝ) (k l : Nat) :
    ∃ A B : Fin n → Fin n → ℝ, matrixpow M (k : Int) = .ok (some A) ∧
      matrixpow M (l : Int) = .ok (some B) ∧
      matrixpow M ((k : Int) + l) = .ok (some fun i j => ∑ r, A i r * B r j) := by
  refine ⟨_, _, matrixpow_natCast M k, matrixpow_natCast M l, ?_⟩
  have := matrixpow_natCast M (k + l)
  push_cast at this
  refine this.trans ?_
  congr 2
  rw [pow_add]
  rfl

/-- C52: for invertible `M` and `k > 0`, exponent `-k` gives the `k`-th power of the inverse, which is
the inverse of `matrixpow(M,k)`; with it, additivity holds for all integers. -/
theorem C52_neg {n : Nat} (M : Matrix (Fin n) (Fin n) ℝ) (h : M.det ≠ 0) :
    (∀ k : Nat, 0 < k → matrixpow M (-(k : Int)) = .ok (some (M⁻¹ ^ k)) ∧
      M⁻¹ ^ k * M ^ k = 1 ∧ M ^ k * M⁻¹ ^ k = 1) ∧
    ∀ a b : Int, ∃ A B : Matrix (Fin n) (Fin n) ℝ, matrixpow M a = .ok (some A) ∧
      matrixpow M b = .ok (some B) ∧ matrixpow M (a + b) = .ok (some (A * B)) := by
  have hu : IsUnit M.det := isUnit_iff_ne_zero.mpr h
  constructor
  · intro k hk
    refine ⟨matrixpow_negSucc M h k hk, ?_, ?_⟩
    · rw [Matrix.inv_pow', Matrix.nonsing_inv_mul]
      rw [Matrix.det_pow]; exact hu.pow k
    · rw [Matrix.inv_pow', Matrix.mul_nonsing_inv]
      rw [Matrix.det_pow]; exact hu.pow k
  · have key : ∀ a : Int, matrixpow M a = .ok (some (M ^ a)) := by
      intro a
      rcases lt_or_ge a 0 with ha | ha
      · obtain ⟨k, rfl⟩ : ∃ k : Nat, a = -(k : Int) := ⟨(-a).toNat, by omega⟩
        rw [matrixpow_negSucc M h k (by omega), Matrix.inv_pow', Matrix.zpow_neg_natCast]
      · obtain ⟨k, rfl⟩ : ∃ k : Nat, a = (k : Int) := ⟨a.toNat, by omega⟩
        rw [matrixpow_natCast, zpow_natCast]
    intro a b
    exact ⟨_, _, key a, key b, by rw [key, Matrix.zpow_add hu]⟩

/-- C52: a singular matrix with negative exponent raises LinAlgError. -/
theorem C52_singular {n : Nat} (M : Matrix (Fin n) (Fin n) ℝ) (h : M.det = 0) (k : Int) (hk : k < 0) :
    matrixpow M k = .error .linAlgError := by
  unfold matrixpow
  rw [dif_pos rfl]
  simp only
  rw [if_neg (by omega), if_pos hk, if_pos (by exact h)]

/-- C52: a non-square matrix is refused with `None`, whatever the exponent. -/
theorem C52_nonsquare {m n : Nat} (M : Fin m → Fin n → ℝ) (h : m ≠ n) (k : Int) :
    matrixpow M k = .ok none := by
  unfold matrixpow
  rw [dif_neg h]

example : (!![2, 1; 0, 3] : Matrix (Fin 2) (Fin 2) ℝ).det ≠ 0 := by norm_num [Matrix.det_fin_two]
example : (!![1, 2; 2, 4] : Matrix (Fin 2) (Fin 2) ℝ).det = 0 := by norm_num [Matrix.det_fin_two]
example : matrixpow (!![2, 1; 0, 3] : Matrix (Fin 2) (Fin 2) ℝ) 2 = .ok (some !![4, 5; 0, 9]) := by
  have := matrixpow_natCast (!![2, 1; 0, 3] : Matrix (Fin 2) (Fin 2) ℝ) 2
  refine this.trans ?_
  congr 2
  rw [pow_two]
  ext i j
  fin_cases i <;> fin_cases j <;> norm_num [Matrix.mul_apply, Fin.sum_univ_two]

end PyQC
