import Verif.Model.Math
import Mathlib.LinearAlgebra.Matrix.NonsingularInverse
import Mathlib.Data.Real.Basic
/-!
# Integer and real matrices: `np.dot`, `matrixpow`
-/
namespace PyQC

/-- `np.dot` of two 2-dimensional arrays: entry (i,k) is the sum over j of `M[i][j]*N[j][k]`. -/
def npDot {R : Type} [Zero R] [Add R] [Mul R] {a b c : Nat} (M : Fin a → Fin b → R)
    (N : Fin b → Fin c → R) : Fin a → Fin c → R :=
  fun i k => (List.finRange b).foldl (fun acc j => acc + M i j * N j k) 0

/-- `np.identity`. -/
def npIdentity (R : Type) [Zero R] [One R] (n : Nat) : Fin n → Fin n → R :=
  fun i j => if i = j then 1 else 0

/-- The loop `tmp = np.identity(mx); for i in range(n): tmp = np.dot(tmp, ma)`,
ico2/math1.py:647-650, dode2/math1.py:631-634. -/
def npPow {R : Type} [Zero R] [One R] [Add R] [Mul R] {n : Nat} (M : Fin n → Fin n → R) :
    Nat → Fin n → Fin n → R
  | 0 => npIdentity R n
  | k + 1 => npDot (npPow M k) M

/-- `matrixpow`, ico2/math1.py:634-654, dode2/math1.py:618-638, over the real numbers: `None` for a
non-square matrix, `np.linalg.inv` raises LinAlgError for a singular one. Idealisation: exact real
arithmetic. -/
noncomputable def matrixpow {mx my : Nat} (ma : Fin mx → Fin my → ℝ) (n : Int) :
    Py (Option (Fin mx → Fin mx → ℝ)) :=
  open Classical in
  if h : mx = my then
    let sq : Matrix (Fin mx) (Fin mx) ℝ := fun i j => ma i (Fin.cast h j)
    if n = 0 then .ok (some (npIdentity ℝ mx))
    else if n < 0 then
      if sq.det = 0 then .error .linAlgError
      else .ok (some (npPow (sq⁻¹ : Matrix _ _ ℝ) (-n).toNat))
    else .ok (some (npPow sq n.toNat))
  else .ok none

end PyQC
