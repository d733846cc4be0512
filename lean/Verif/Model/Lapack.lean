import Verif.Model.Float
import Mathlib.Analysis.SpecialFunctions.Log.Basic
import Mathlib.Data.Int.Log
import Mathlib.Algebra.Order.Round
/-!
# One arithmetic that `Float64` describes

`np.dot` and `np.linalg.det` are library functions. The model assumes only error bounds for them (`Float64`). Here is
what the libraries do: a dot product is summed term by term, and a determinant is computed by Gaussian elimination with
partial pivoting (LAPACK `getrf`) as the exponential of the sum of the logarithms of the pivots (numpy). The theorem
`Rounding.float64` shows that the error bounds hold for it whatever the roundings are.
-/
namespace PyQC
open Matrix

/-- Rounding of elementary operations: `fl x` is stored when the exact result is `x`, `log` and `exp` are the library
functions, with an error of at most one unit in the last place. The smallest positive number is 2⁻¹⁰⁷⁴. -/
structure Rounding where
  fl : ℝ → ℝ
  log : ℝ → ℝ
  exp : ℝ → ℝ
  fl_err : ∀ x, |x| ≤ 2 ^ 1000 → |fl x - x| ≤ ulp * |x| + tiny
  fl_min : ∀ x, fl x = 0 ∨ 1 / 2 ^ 1074 ≤ |fl x|
  log_err : ∀ x, 0 < x → |log x - Real.log x| ≤ 2 * ulp * |Real.log x| + tiny
  exp_err : ∀ x, x ≤ 600 → |exp x - Real.exp x| ≤ 2 * ulp * Real.exp x + tiny

namespace Rounding
variable (r : Rounding)

/-- `np.dot` of vectors with three components (library), called in ico2/numericalc.py:69, 111, 274-285, 661. -/
noncomputable def dot (x y : Fin 3 → ℝ) : ℝ :=
  r.fl (r.fl (r.fl (x 0 * y 0) + r.fl (x 1 * y 1)) + r.fl (x 2 * y 2))

/-- Subtraction of a multiple of the pivot row `p, q` from the row `p', q'`: the second entry. -/
noncomputable def elim (p q p' q' : ℝ) : ℝ := r.fl (q' - r.fl (r.fl (p' / p) * q))

open Classical in
/-- Pivots of a 2×2 matrix with rows `a, b` and `c, d`, with the sign of the row exchange. -/
noncomputable def pivots2 (a b c d : ℝ) : ℝ × ℝ × ℝ :=
  if |c| ≤ |a| then (1, a, r.elim a b c d) else (-1, c, r.elim c d a b)

open Classical in
/-- `sign * exp(log|d1| + log|d2| + log|d3|)`; a zero pivot gives 0. -/
noncomputable def fromPivots (sign d1 d2 d3 : ℝ) : ℝ :=
  if d1 = 0 ∨ d2 = 0 ∨ d3 = 0 then 0
  else sign * (SignType.sign (d1 * d2 * d3) : ℝ) * r.exp (r.fl (r.fl (r.log |d1| + r.log |d2|) + r.log |d3|))

open Classical in
/-- Elimination with the pivot row `x`. -/
noncomputable def det3 (sign : ℝ) (x y z : Fin 3 → ℝ) : ℝ :=
  if x 0 = 0 then 0
  else
    let q := r.pivots2 (r.elim (x 0) (x 1) (y 0) (y 1)) (r.elim (x 0) (x 2) (y 0) (y 2))
      (r.elim (x 0) (x 1) (z 0) (z 1)) (r.elim (x 0) (x 2) (z 0) (z 2))
    r.fromPivots (sign * q.1) (x 0) q.2.1 q.2.2

open Classical in
/-- `np.linalg.det` of a 3×3 matrix (library), called in ico2/numericalc.py:550-562. -/
noncomputable def det (A : Matrix (Fin 3) (Fin 3) ℝ) : ℝ :=
  if |A 1 0| ≤ |A 0 0| ∧ |A 2 0| ≤ |A 0 0| then r.det3 1 (A 0) (A 1) (A 2)
  else if |A 2 0| ≤ |A 1 0| then r.det3 (-1) (A 1) (A 0) (A 2)
  else r.det3 (-1) (A 2) (A 1) (A 0)

/-! ## Rounding to nearest -/

/-- The distance of neighbouring binary64 numbers near `x` (no overflow). -/
noncomputable def spacing (x : ℝ) : ℝ := (2 : ℝ) ^ max (Int.log 2 |x| - 52) (-1074)

/-- The nearest integer, the even one of two. -/
def roundEven {K : Type*} [Field K] [LinearOrder K] [FloorRing K] (x : K) : ℤ :=
  if Int.fract x < 1 / 2 then ⌊x⌋
  else if 1 / 2 < Int.fract x then ⌊x⌋ + 1
  else if ⌊x⌋ % 2 = 0 then ⌊x⌋ else ⌊x⌋ + 1

/-- The nearest binary64 number (ties to even, no overflow). -/
noncomputable def nearest (x : ℝ) : ℝ := roundEven (x / spacing x) * spacing x

end Rounding
end PyQC
