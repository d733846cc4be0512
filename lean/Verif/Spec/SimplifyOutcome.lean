import Verif.Model.Basic
/-!
# Specification vocabulary: what a simplification may answer with
-/
namespace PyQC

/-- What `simplification` did (`out`) with the object `obj`, in terms of the sizes (volumes or areas) the package computes,
the convex hull it computes for `obj`, and the intersection `cut h` it computes for a hull `h` and the object. -/
structure SimplifyOutcome {m : Nat} (size : Obj m → Py (Option Num3)) (hull : Py (Option (Obj m)))
    (cut : Obj m → Py (Option (Obj m))) (obj : Obj m) (out : Py (Option (Obj m))) : Prop where
  /-- Without an object the answer is `None`. -/
  empty : obj = [] → out = .ok none
  /-- With an object the answer is never `None`. -/
  only : out = .ok none → obj = []
  /-- The answer is the hull if its intersection with the object has the size of the object, else the object unchanged. -/
  answer : ∀ r, out = .ok (some r) → ∃ h t, hull = .ok (some h) ∧ cut h = .ok (some t) ∧
    ((size t = size obj ∧ r = h) ∨ (size t ≠ size obj ∧ r = obj))
  /-- No hull: `TypeError`. -/
  noHull : obj ≠ [] → hull = .ok none → out = .error .typeError
  /-- Hull and object have no intersection: `AttributeError`. -/
  noCut : obj ≠ [] → ∀ h, hull = .ok (some h) → cut h = .ok none → out = .error .attributeError
  /-- Exceptions of the two steps are passed on. -/
  hullRaises : obj ≠ [] → ∀ e, hull = .error e → out = .error e
  cutRaises : obj ≠ [] → ∀ h e, hull = .ok (some h) → cut h = .error e → out = .error e

end PyQC
