import Verif.Lemmas.Volume
import Verif.Model.Symmetry
/-!
# The symmetry operations act on perpendicular and parallel space by orthogonal matrices
-/
namespace PyQC
open Matrix

theorem npDot_eq {R : Type} [NonUnitalNonAssocSemiring R] {a b c : Nat} (M : Matrix (Fin a) (Fin b) R)
    (N : Matrix (Fin b) (Fin c) R) : npDot M N = M * N := by
  funext i k
  simp only [npDot, Matrix.mul_apply]
  rw [Fin.sum_univ_def, List.sum_eq_foldl, List.foldl_map]

theorem npIdentity_eq {R : Type} [Zero R] [One R] {n : Nat} :
    npIdentity R n = (1 : Matrix (Fin n) (Fin n) R) := by
  funext i j
  simp [npIdentity, Matrix.one_apply]

theorem npPow_eq {R : Type} [Semiring R] {n : Nat} (M : Matrix (Fin n) (Fin n) R) (k : Nat) :
    npPow M k = M ^ k := by
  induction k with
  | zero => rw [pow_zero]; exact npIdentity_eq
  | succ k ih =>
    rw [pow_succ, ← ih]
    exact npDot_eq (npPow M k) M

/-- Real version of an integer matrix. -/
noncomputable def realMat {a b : Nat} (M : IMat a b) : Matrix (Fin a) (Fin b) ℝ := fun i j => (M i j : ℝ)

theorem realMat_mul {a b c : Nat} (M : IMat a b) (N : IMat b c) :
    realMat (npDot M N) = realMat M * realMat N := by
  funext i j
  have h : npDot M N i j = ∑ k, M i k * N k j :=
    (congrFun (congrFun (npDot_eq (R := Int) M N) i) j).trans Matrix.mul_apply
  simp only [realMat, h, Matrix.mul_apply]
  push_cast
  rfl

theorem realMat_one {n : Nat} : realMat (npIdentity Int n) = 1 := by
  funext i j
  simp only [realMat, npIdentity, Matrix.one_apply]
  split_ifs <;> simp

/-- `M` acts on perp and par space by orthogonal matrices. -/
def Iso (p : Package) (M : IMat 6 6) : Prop :=
  ∃ R S : Matrix (Fin 3) (Fin 3) ℝ, Rᵀ * R = 1 ∧ Sᵀ * S = 1 ∧
    p.perpMat * realMat M = R * p.perpMat ∧ p.parMat * realMat M = S * p.parMat

theorem Iso.one (p : Package) : Iso p (npIdentity Int 6) :=
  ⟨1, 1, by simp, by simp, by simp [realMat_one], by simp [realMat_one]⟩

theorem Iso.mul {p : Package} {M N : IMat 6 6} (hM : Iso p M) (hN : Iso p N) : Iso p (npDot M N) := by
  obtain ⟨R, S, h1, h2, h3, h4⟩ := hM
  obtain ⟨R', S', k1, k2, k3, k4⟩ := hN
  refine ⟨R * R', S * S', ?_, ?_, ?_, ?_⟩
  · rw [transpose_mul, Matrix.mul_assoc, ← Matrix.mul_assoc Rᵀ, h1, Matrix.one_mul, k1]
  · rw [transpose_mul, Matrix.mul_assoc, ← Matrix.mul_assoc Sᵀ, h2, Matrix.one_mul, k2]
  · rw [realMat_mul, ← Matrix.mul_assoc, h3, Matrix.mul_assoc, k3, Matrix.mul_assoc]
  · rw [realMat_mul, ← Matrix.mul_assoc, h4, Matrix.mul_assoc, k4, Matrix.mul_assoc]

theorem Iso.pow {p : Package} {M : IMat 6 6} (hM : Iso p M) (k : Nat) : Iso p (npPow M k) := by
  induction k with
  | zero => exact Iso.one p
  | succ k ih => exact ih.mul hM

local macro "iso_tac" : tactic => `(tactic| (
  have h := tau_sq
  try simp only [Package.perpMat, Package.parMat]
  generalize tau = t at *
  ext i j
  fin_cases i <;> fin_cases j <;>
    simp [Matrix.mul_apply, Fin.sum_univ_succ, realMat, Ico.m1Mat, Ico.m2Mat, Ico.m3Mat, Ico.m4Mat,
      Ico.m5Mat] <;>
    (try ring_nf) <;> (try simp only [h]) <;> (try ring_nf)))

local macro "iso_tac2" : tactic => `(tactic| (
  have h := sin60_sq
  try simp only [Package.perpMat, Package.parMat]
  generalize sin60 = t at *
  ext i j
  fin_cases i <;> fin_cases j <;>
    simp [Matrix.mul_apply, Fin.sum_univ_succ, realMat, Dode.m1Mat, Dode.m2Mat] <;>
    (try ring_nf) <;> (try simp only [h]) <;> (try ring_nf)))

theorem iso_m1 : Iso .ico Ico.m1Mat := by
  refine ⟨!![1/2, -1/2*tau, -1/2+1/2*tau; -1/2*tau, 1/2-1/2*tau, 1/2; 1/2-1/2*tau, -1/2, -1/2*tau],
    !![1/2, -1/2+1/2*tau, -1/2*tau; -1/2+1/2*tau, 1/2*tau, 1/2; 1/2*tau, -1/2, -1/2+1/2*tau],
    ?_, ?_, ?_, ?_⟩ <;> iso_tac

theorem iso_m2 : Iso .ico Ico.m2Mat := by
  refine ⟨!![-1/2, 1/2*tau, -1/2+1/2*tau; 1/2*tau, -1/2+1/2*tau, 1/2; -1/2+1/2*tau, 1/2, -1/2*tau],
    !![-1/2, 1/2-1/2*tau, -1/2*tau; 1/2-1/2*tau, -1/2*tau, 1/2; -1/2*tau, 1/2, -1/2+1/2*tau],
    ?_, ?_, ?_, ?_⟩ <;> iso_tac

theorem iso_m3 : Iso .ico Ico.m3Mat := by
  refine ⟨!![-1/2, -1/2*tau, -1/2+1/2*tau; -1/2*tau, -1/2+1/2*tau, -1/2; -1/2+1/2*tau, -1/2, -1/2*tau],
    !![-1/2, -1/2+1/2*tau, -1/2*tau; -1/2+1/2*tau, -1/2*tau, -1/2; -1/2*tau, -1/2, -1/2+1/2*tau],
    ?_, ?_, ?_, ?_⟩ <;> iso_tac

theorem iso_m4 : Iso .ico Ico.m4Mat := by
  refine ⟨!![1/2-1/2*tau, 1/2, 1/2*tau; 1/2, 1/2*tau, 1/2-1/2*tau; -1/2*tau, -1/2+1/2*tau, -1/2],
    !![1/2*tau, 1/2, 1/2-1/2*tau; 1/2, 1/2-1/2*tau, 1/2*tau; -1/2+1/2*tau, -1/2*tau, -1/2],
    ?_, ?_, ?_, ?_⟩ <;> iso_tac

theorem iso_m5 : Iso .ico Ico.m5Mat := by
  refine ⟨!![-1, 0, 0; 0, -1, 0; 0, 0, -1], !![-1, 0, 0; 0, -1, 0; 0, 0, -1],
    ?_, ?_, ?_, ?_⟩ <;> iso_tac

theorem iso_d1 : Iso .dode Dode.m1Mat := by
  refine ⟨!![-sin60, 1/2, 0; -1/2, -sin60, 0; 0, 0, 1], !![sin60, 1/2, 0; -1/2, sin60, 0; 0, 0, 1],
    ?_, ?_, ?_, ?_⟩ <;> iso_tac2

theorem iso_d2 : Iso .dode Dode.m2Mat := by
  refine ⟨!![0, 1, 0; 1, 0, 0; 0, 0, 1], !![0, 1, 0; 1, 0, 0; 0, 0, 1],
    ?_, ?_, ?_, ?_⟩ <;> iso_tac2

theorem iso_symops {p : Package} {op : IMat 6 6} (h : op ∈ p.symops) : Iso p op := by
  cases p
  · simp only [Package.symops, Ico.icosasymop, List.mem_flatMap, List.mem_map] at h
    obtain ⟨m, -, l, -, k, -, j, -, i, -, rfl⟩ := h
    exact ((((iso_m5.pow m).mul (iso_m4.pow l)).mul (iso_m3.pow k)).mul (iso_m2.pow j)).mul
      (iso_m1.pow i)
  · simp only [Package.symops, Dode.dodesymop, List.mem_flatMap, List.mem_map] at h
    obtain ⟨i1, -, i2, -, rfl⟩ := h
    exact (iso_d2.pow i1).mul (iso_d1.pow i2)

end PyQC
