import Verif.Spec.Space
import Verif.Model.Symmetry
/-!
# Specification vocabulary: sites of the dodecagonal lattice
-/
namespace PyQC

/-- The point `M·x`. -/
noncomputable def applyMat (M : IMat 6 6) (x : Fin 6 → ℝ) : Fin 6 → ℝ := fun i => ∑ j, (M i j : ℝ) * x j

/-- Euclidean distance in 6D. -/
noncomputable def dist6 (x y : Fin 6 → ℝ) : ℝ := Real.sqrt (∑ i, (x i - y i) ^ 2)

/-- The translations searched by `site_symmetry`: components -1, 0 or 1, the sixth 0, and for
`ndim = 4` also the fifth 0. -/
def Listed (ndim : Int) (t : Fin 6 → Int) : Prop :=
  (∀ i, t i = -1 ∨ t i = 0 ∨ t i = 1) ∧ t 5 = 0 ∧ (ndim = 4 → t 4 = 0)

instance (ndim : Int) (t : Fin 6 → Int) : Decidable (Listed ndim t) := by unfold Listed; infer_instance

/-- The operation maps the point to itself modulo the 6D integer lattice. -/
def FixesModLattice (M : IMat 6 6) (x : Fin 6 → ℝ) : Prop :=
  ∃ t : Fin 6 → Int, x = fun i => applyMat M x i + t i

/-- Operation with index `i` in the list `dodesymop()`. -/
def opAt (i : Nat) : IMat 6 6 := Dode.dodesymop.getD i (npIdentity Int 6)

/-- The index list denotes a subgroup of the point group: distinct valid indices, containing the
identity (index 0), closed under products. -/
structure IsSubgroup (H : List Nat) : Prop where
  nodup : H.Nodup
  valid : ∀ i ∈ H, i < 24
  one : 0 ∈ H
  mul : ∀ i ∈ H, ∀ j ∈ H, ∃ k ∈ H, npDot (opAt i) (opAt j) = opAt k

end PyQC
