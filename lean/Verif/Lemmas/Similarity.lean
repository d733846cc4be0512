import Verif.Model.DodeSym
import Verif.Lemmas.Symmetry
import Mathlib.Algebra.Group.Units.Basic
/-!
# Similarity transformations are integer powers of one unit matrix
-/
namespace PyQC
open Matrix

/-- The step matrix as a unit of the integer matrix ring. -/
def simUnit : (Matrix (Fin 6) (Fin 6) Int)ˣ where
  val := fun i j => Dode.simUp j i
  inv := fun i j => Dode.simDown j i
  val_inv := by decide +kernel
  inv_val := by decide +kernel

theorem similarity_eq (m : Int) :
    Dode.similarity m = ((simUnit ^ m : (Matrix (Fin 6) (Fin 6) Int)ˣ) : Matrix (Fin 6) (Fin 6) Int) := by
  unfold Dode.similarity
  rcases lt_trichotomy m 0 with h | h | h
  · rw [if_neg (by omega), if_pos h]
    obtain ⟨k, rfl⟩ : ∃ k : Nat, m = -(k : Int) := ⟨(-m).toNat, by omega⟩
    rw [zpow_neg, zpow_natCast, ← inv_pow, Units.val_pow_eq_pow_val]
    have : (-(-(k : Int))).toNat = k := by omega
    rw [this]
    exact npPow_eq _ _
  · subst h
    rw [if_neg (by omega), if_neg (by omega), zpow_zero, Units.val_one]
    exact npIdentity_eq
  · rw [if_pos h]
    obtain ⟨k, rfl⟩ : ∃ k : Nat, m = (k : Int) := ⟨m.toNat, by omega⟩
    rw [zpow_natCast, Units.val_pow_eq_pow_val]
    exact npPow_eq _ _

theorem similarity_add (m n : Int) :
    npDot (Dode.similarity m) (Dode.similarity n) = Dode.similarity (m + n) := by
  rw [similarity_eq, similarity_eq, similarity_eq, zpow_add, Units.val_mul]
  exact npDot_eq _ _

theorem similarity_zero : Dode.similarity 0 = npIdentity Int 6 := rfl

/-- Field version of `similarity_vec`. -/
noncomputable def ksim (m : Int) (x : Fin 6 → K Package.dode.theta) : Fin 6 → K Package.dode.theta :=
  (kmat Package.dode.theta (Dode.similarity m)).mulVec x

theorem ksim_add (m n : Int) (x : Fin 6 → K Package.dode.theta) :
    ksim m (ksim n x) = ksim (m + n) x := by
  simp only [ksim, Matrix.mulVec_mulVec, ← kmat_mul, similarity_add]

theorem ksim_zero (x : Fin 6 → K Package.dode.theta) : ksim 0 x = x := by
  simp [ksim, similarity_zero, kmat_one]

theorem similarityVec_ok {v : Vec 6} (hv : Vec.Ok v) (m : Int) :
    Dode.similarityVec v m = .ok (nvec (ksim m (kvec Package.dode.theta v))) :=
  dotProduct1_ok Package.dode.lawful _ hv

theorem similarityTriangle_ok {k : Nat} {s : Simplex k} (hs : Simplex.Ok s) (m : Int) :
    Dode.similarityTriangle s m = .ok (fun i => nvec (ksim m (kvec Package.dode.theta (s i)))) :=
  fillFin_ok fun i => similarityVec_ok (hs i) m

theorem similarityObj_ok {k : Nat} {o : Obj k} (ho : Obj.Ok o) (m : Int) :
    Dode.similarityObj o m =
      .ok (o.map fun s i => nvec (ksim m (kvec Package.dode.theta (s i)))) :=
  fillList_ok fun s hs => similarityTriangle_ok (ho s hs) m

/-- `M` acts on the space of `P` by a rotation of the plane scaled by `√k`, and trivially on the
axis. -/
def Scales (P : Matrix (Fin 3) (Fin 6) ℝ) (M : IMat 6 6) (k : ℝ) : Prop :=
  ∃ a b : ℝ, a ^ 2 + b ^ 2 = k ∧ P * realMat M = !![a, b, 0; -b, a, 0; 0, 0, 1] * P

theorem Scales.mul {P : Matrix (Fin 3) (Fin 6) ℝ} {M N : IMat 6 6} {k l : ℝ} (hM : Scales P M k)
    (hN : Scales P N l) : Scales P (npDot M N) (k * l) := by
  obtain ⟨a, b, h1, h2⟩ := hM
  obtain ⟨c, d, h3, h4⟩ := hN
  refine ⟨a * c - b * d, a * d + b * c, by rw [← h1, ← h3]; ring, ?_⟩
  rw [realMat_mul, ← Matrix.mul_assoc, h2, Matrix.mul_assoc, h4, ← Matrix.mul_assoc]
  congr 1
  ext i j
  fin_cases i <;> fin_cases j <;> simp [Matrix.mul_apply, Fin.sum_univ_three] <;> ring

theorem Scales.one (P : Matrix (Fin 3) (Fin 6) ℝ) : Scales P (npIdentity Int 6) 1 := by
  refine ⟨1, 0, by norm_num, ?_⟩
  rw [realMat_one, Matrix.mul_one]
  have : (!![1, 0, 0; -0, 1, 0; 0, 0, 1] : Matrix (Fin 3) (Fin 3) ℝ) = 1 := by
    ext i j; fin_cases i <;> fin_cases j <;> simp
  rw [this, Matrix.one_mul]

theorem Scales.zpow {P : Matrix (Fin 3) (Fin 6) ℝ} {k : ℝ} (hk : k ≠ 0)
    (h1 : Scales P (Dode.similarity 1) k) (h2 : Scales P (Dode.similarity (-1)) k⁻¹) (m : Int) :
    Scales P (Dode.similarity m) (k ^ m) := by
  induction m using Int.induction_on with
  | zero => rw [zpow_zero]; exact Scales.one P
  | succ n ih => rw [zpow_add_one₀ hk, ← similarity_add]; exact ih.mul h1
  | pred n ih => rw [sub_eq_add_neg, zpow_add₀ hk, zpow_neg_one, ← similarity_add]; exact ih.mul h2

theorem npPow_one {n : Nat} (M : IMat n n) : npPow M 1 = M := by
  rw [npPow, npPow]; exact one_npDot M
theorem similarity_one : Dode.similarity 1 = fun i j => Dode.simUp j i := by
  unfold Dode.similarity
  rw [if_pos (by norm_num), show (1 : Int).toNat = 1 from rfl, npPow_one]
theorem similarity_neg_one : Dode.similarity (-1) = fun i j => Dode.simDown j i := by
  unfold Dode.similarity
  rw [if_neg (by norm_num), if_pos (by norm_num), show (-(-1) : Int).toNat = 1 from rfl, npPow_one]

local macro "sim_tac" : tactic => `(tactic| (
  have h := sin60_sq
  try simp only [Package.perpMat, Package.parMat, similarity_one, similarity_neg_one]
  generalize sin60 = t at *
  ext i j
  fin_cases i <;> fin_cases j <;>
    simp [Matrix.mul_apply, Fin.sum_univ_succ, realMat, Dode.simUp, Dode.simDown] <;>
    (try ring_nf) <;> (try simp only [h]) <;> (try ring_nf)))

theorem two_sub_sqrt3_ne : (2 - Real.sqrt 3) ≠ 0 := by
  have : Real.sqrt 3 < 2 := by rw [Real.sqrt_lt' (by norm_num)]; norm_num
  linarith

theorem inv_two_sub_sqrt3 : (2 - Real.sqrt 3)⁻¹ = 2 + Real.sqrt 3 := by
  have h : Real.sqrt 3 ^ 2 = 3 := Real.sq_sqrt (by norm_num)
  rw [inv_eq_one_div, div_eq_iff two_sub_sqrt3_ne]
  linear_combination h

theorem sqrt3_eq : Real.sqrt 3 = 2 * sin60 := by unfold sin60; ring

theorem scales_perp (m : Int) :
    Scales Package.dode.perpMat (Dode.similarity m) ((2 - Real.sqrt 3) ^ m) := by
  apply Scales.zpow two_sub_sqrt3_ne
  · refine ⟨1 - sin60, 1 / 2, ?_, ?_⟩
    · rw [sqrt3_eq]; linear_combination sin60_sq
    · sim_tac
  · rw [inv_two_sub_sqrt3]
    refine ⟨1 / 2, -(1 + sin60), ?_, ?_⟩
    · rw [sqrt3_eq]; linear_combination sin60_sq
    · sim_tac

theorem scales_par (m : Int) :
    Scales Package.dode.parMat (Dode.similarity m) ((2 + Real.sqrt 3) ^ m) := by
  have hne : (2 + Real.sqrt 3) ≠ 0 := by positivity
  apply Scales.zpow hne
  · refine ⟨1 + sin60, 1 / 2, ?_, ?_⟩
    · rw [sqrt3_eq]; linear_combination sin60_sq
    · sim_tac
  · rw [← inv_two_sub_sqrt3, inv_inv]
    refine ⟨1 / 2, -(1 - sin60), ?_, ?_⟩
    · rw [sqrt3_eq]; linear_combination sin60_sq
    · sim_tac
end PyQC
