import Verif.Model.DodeFloat
import Verif.Model.DodeSym
/-!
# Site symmetry and cosets of dode2 with rounding

The functions of `dode2/symmetry.py` as in `Model/DodeSym.lean`, but with the length of a difference computed in
floating-point arithmetic.
-/
namespace PyQC

/-- The sum of the squares of six stored numbers, as `np.linalg.norm` computes it (`sqnorm = x.dot(x)`). Only an error
bound is assumed, so that every order of summation, vector unit and fused operation is covered; `F.leftSquares`
(Lemmas/RoundingSite.lean) shows that plain summation from the left meets it. -/
structure Squares where
  sum : (Fin 6 → ℝ) → ℝ
  err : ∀ x, (∀ i, |x i| ≤ 2 ^ 400) → |sum x - ∑ i, x i * x i| ≤ 16 * ulp * ∑ i, x i * x i + 32 * tiny

namespace Float64
variable (F : Float64) (S : Squares)

/-- `length_numerical`, dode2/numericalc.py:213-226: `np.linalg.norm(numerical_vector(vt))` of a 6D vector. -/
noncomputable def lengthNumerical (vt : Vec 6) : ℝ := F.fl (Real.sqrt (S.sum (F.dodeVector vt)))

open Classical in
/-- The inner loop of `site_symmetry` for one operation, dode2/symmetry.py:217-224. -/
noncomputable def bringsBack (site site1 : Vec 6) : List (Vec 6) → Py Bool
  | [] => .ok false
  | top :: rest => do
    let site2 ← addVectors Dode.arith site1 top
    let tmp ← subVectors Dode.arith site site2
    if F.lengthNumerical S tmp < F.eps then .ok true else bringsBack site site1 rest

/-- The outer loop of `site_symmetry`, dode2/symmetry.py:213-224, and of `site_symmetry_and_coset`, 346-360. -/
noncomputable def siteLoop (site : Vec 6) (traop : List (Vec 6)) : Nat → List (IMat 6 6) → Py (List Nat)
  | _, [] => .ok []
  | i2, op :: ops => do
    let site1 ← symopVec .dode op site Dode.V0
    let hit ← F.bringsBack S site site1 traop
    let rest ← siteLoop site traop (i2 + 1) ops
    .ok (if hit then i2 :: rest else rest)

/-- `site_symmetry`, dode2/symmetry.py:194-225. -/
noncomputable def siteSymmetry (site : Vec 6) (ndim : Int) : Py (List Nat) := do
  let list1 ← F.siteLoop S site (Dode.translation ndim) 0 Dode.dodesymop
  .ok (Dode.removeOverlaps list1)

/-- `coset`, dode2/symmetry.py:227-287. -/
noncomputable def coset (site : Vec 6) (ndim : Int) : Py (List Nat) := do
  let list1 ← F.siteSymmetry S site ndim
  Dode.cosetFrom list1

/-- `site_symmetry_and_coset`, dode2/symmetry.py:289-429 with `verbose = 0`. -/
noncomputable def siteSymmetryAndCoset (site : Vec 6) (ndim : Int) : Py (List Nat × List Nat) := do
  let list1 ← F.siteSymmetry S site ndim
  let list5 ← Dode.cosetFrom list1
  .ok (list1, list5)

end Float64
end PyQC
