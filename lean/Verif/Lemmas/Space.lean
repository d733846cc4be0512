import Verif.Lemmas.Vector
import Verif.Spec.Space
/-!
# Projections compute in the field
-/
namespace PyQC

noncomputable instance Package.quad (p : Package) : Quad p.theta :=
  match p with
  | .ico => inferInstanceAs (Quad tau)
  | .dode => inferInstanceAs (Quad sin60)

theorem Package.lawful (p : Package) : Lawful p.arith p.theta :=
  match p with
  | .ico => Ico.lawful
  | .dode => Dode.lawful

/-- Coefficients of `projection3`. -/
def Package.perpCoef : Package → Fin 3 → Fin 6 → Num3
  | .ico => ![![Ico.m3, Ico.m2, Ico.m2, Ico.m0, Ico.m4, Ico.m0],
              ![Ico.m2, Ico.m0, Ico.m0, Ico.m3, Ico.m2, Ico.m3],
              ![Ico.m0, Ico.m3, Ico.m4, Ico.m1, Ico.m0, Ico.m2]]
  | .dode => ![![Dode.M6, Dode.M1, Dode.M0, Dode.M4, Dode.M0, Dode.M0],
               ![Dode.M4, Dode.M0, Dode.M1, Dode.M6, Dode.M0, Dode.M0],
               ![Dode.M0, Dode.M0, Dode.M0, Dode.M0, Dode.M0, Dode.M1]]

/-- Coefficients of the parallel part of `projection`. -/
def Package.parCoef : Package → Fin 3 → Fin 6 → Num3
  | .ico => ![![Ico.m1, Ico.m3, Ico.m3, Ico.m0, Ico.m2, Ico.m0],
              ![Ico.m3, Ico.m0, Ico.m0, Ico.m1, Ico.m3, Ico.m1],
              ![Ico.m0, Ico.m1, Ico.m2, Ico.m4, Ico.m0, Ico.m3]]
  | .dode => ![![Dode.M5, Dode.M1, Dode.M0, Dode.M4, Dode.M0, Dode.M0],
               ![Dode.M4, Dode.M0, Dode.M1, Dode.M5, Dode.M0, Dode.M0],
               ![Dode.M0, Dode.M0, Dode.M0, Dode.M0, Dode.M1, Dode.M0]]

/-- Perp projection over the field. -/
noncomputable def Package.kperp (p : Package) : Matrix (Fin 3) (Fin 6) (K p.theta) :=
  fun i j => kval p.theta (p.perpCoef i j)

/-- Par projection over the field. -/
noncomputable def Package.kpar (p : Package) : Matrix (Fin 3) (Fin 6) (K p.theta) :=
  fun i j => kval p.theta (p.parCoef i j)

theorem Package.coe_kperp (p : Package) (i : Fin 3) (j : Fin 6) :
    (p.kperp i j : ℝ) = p.perpMat i j := by
  show (p.perpCoef i j).val p.theta = _
  cases p <;> fin_cases i <;> fin_cases j <;>
    simp [perpCoef, perpMat, theta, Num3.val, Ico.m0, Ico.m1, Ico.m2, Ico.m3, Ico.m4,
      Dode.M0, Dode.M1, Dode.M4, Dode.M6]

theorem Package.coe_kpar (p : Package) (i : Fin 3) (j : Fin 6) :
    (p.kpar i j : ℝ) = p.parMat i j := by
  show (p.parCoef i j).val p.theta = _
  cases p <;> fin_cases i <;> fin_cases j <;>
    simp [parCoef, parMat, theta, Num3.val, Ico.m0, Ico.m1, Ico.m2, Ico.m3, Ico.m4,
      Dode.M0, Dode.M1, Dode.M4, Dode.M5]

theorem coe_mulVec {θ : ℝ} [Quad θ] {m n : Nat} (M : Matrix (Fin m) (Fin n) (K θ))
    (x : Fin n → K θ) (i : Fin m) :
    ((M.mulVec x i : K θ) : ℝ) =
      Matrix.mulVec (fun i j => (M i j : ℝ)) (fun j => (x j : ℝ)) i := by
  simp [Matrix.mulVec, dotProduct]

theorem Package.coe_kperp_mulVec (p : Package) (v : Vec 6) :
    (fun i => ((p.kperp.mulVec (kvec p.theta v) i : K p.theta) : ℝ)) = p.perp v := by
  funext i
  rw [coe_mulVec]
  simp only [p.coe_kperp]
  rfl

theorem Package.coe_kpar_mulVec (p : Package) (v : Vec 6) :
    (fun i => ((p.kpar.mulVec (kvec p.theta v) i : K p.theta) : ℝ)) = p.par v := by
  funext i
  rw [coe_mulVec]
  simp only [p.coe_kpar]
  rfl

theorem Package.projection3_ok (p : Package) {v : Vec 6} (hv : Vec.Ok v) :
    p.projection3 v = .ok (nvec (p.kperp.mulVec (kvec p.theta v))) := by
  cases p
  · simp (disch := first | assumption | decide) only [projection3, Ico.projection3,
      mtrixcal_ok Ico.lawful, bind_ok']
    congr 1
    funext i
    fin_cases i <;>
      simp [nvec, Matrix.mulVec, dotProduct, Fin.sum_univ_six, kperp, perpCoef] <;> rfl
  · simp (disch := first | assumption | decide) only [projection3, Dode.projection3,
      mtrixcal_ok Dode.lawful, bind_ok']
    congr 1
    funext i
    fin_cases i <;>
      simp [nvec, Matrix.mulVec, dotProduct, Fin.sum_univ_six, kperp, perpCoef] <;> rfl

theorem Package.projection_ok (p : Package) {v : Vec 6} (hv : Vec.Ok v) :
    p.projection v = .ok (nvec (p.kpar.mulVec (kvec p.theta v)),
      nvec (p.kperp.mulVec (kvec p.theta v))) := by
  cases p
  · simp (disch := first | assumption | decide) only [projection, Ico.projection,
      mtrixcal_ok Ico.lawful, bind_ok']
    congr 2 <;> funext i
    · fin_cases i <;>
        simp [nvec, Matrix.mulVec, dotProduct, Fin.sum_univ_six, kpar, parCoef] <;> rfl
    · fin_cases i <;>
        simp [nvec, Matrix.mulVec, dotProduct, Fin.sum_univ_six, kperp, perpCoef] <;> rfl
  · simp (disch := first | assumption | decide) only [projection, Dode.projection,
      mtrixcal_ok Dode.lawful, bind_ok']
    congr 2 <;> funext i
    · fin_cases i <;>
        simp [nvec, Matrix.mulVec, dotProduct, Fin.sum_univ_six, kpar, parCoef] <;> rfl
    · fin_cases i <;>
        simp [nvec, Matrix.mulVec, dotProduct, Fin.sum_univ_six, kperp, perpCoef] <;> rfl

/-- A successful `projection3` returns the perp point. -/
theorem Package.val_projection3 (p : Package) {v : Vec 6} :
    Vec.val p.theta (nvec (p.kperp.mulVec (kvec p.theta v))) = p.perp v := by
  rw [val_nvec, p.coe_kperp_mulVec]

theorem Package.kperp_eq_iff (p : Package) {v w : Vec 6} :
    p.kperp.mulVec (kvec p.theta v) = p.kperp.mulVec (kvec p.theta w) ↔ p.perp v = p.perp w := by
  rw [← p.coe_kperp_mulVec, ← p.coe_kperp_mulVec]
  constructor
  · intro h; rw [h]
  · intro h; funext i; exact Subtype.ext (congrFun h i)

end PyQC
