import Verif.Model.Basic
import Mathlib.NumberTheory.Real.GoldenRatio
import Mathlib.Analysis.Real.Sqrt
/-!
# Specification vocabulary: what a triple means

Independent of the model's functions.
-/
namespace PyQC

/-- The golden ratio `TAU = (1+sqrt 5)/2` (ico2). -/
noncomputable abbrev tau : ℝ := (1 + Real.sqrt 5) / 2

/-- `SIN = sqrt 3 / 2` (dode2). -/
noncomputable abbrev sin60 : ℝ := Real.sqrt 3 / 2

/-- The real number a triple stands for: `(a + b*θ)/c`. (Meaningful when `c ≠ 0`.) -/
noncomputable def Num3.val (θ : ℝ) (x : Num3) : ℝ := ((x.a : ℝ) + x.b * θ) / x.c

/-- Lowest terms with positive denominator. -/
def Num3.Canon (x : Num3) : Prop :=
  0 < x.c ∧ Nat.gcd (Nat.gcd x.a.natAbs x.b.natAbs) x.c.natAbs = 1

instance (x : Num3) : Decidable x.Canon := by unfold Num3.Canon; infer_instance

/-- All denominators of a vector are non-zero, i.e. it denotes a point. -/
def Vec.Ok {n : Nat} (v : Vec n) : Prop := ∀ i, (v i).c ≠ 0

instance {n : Nat} (v : Vec n) : Decidable (Vec.Ok v) := by unfold Vec.Ok; infer_instance

/-- All entries canonical. -/
def Vec.Canon {n : Nat} (v : Vec n) : Prop := ∀ i, (v i).Canon

instance {n : Nat} (v : Vec n) : Decidable (Vec.Canon v) := by unfold Vec.Canon; infer_instance

/-- Real coordinates of a vector. -/
noncomputable def Vec.val {n : Nat} (θ : ℝ) (v : Vec n) : Fin n → ℝ := fun i => (v i).val θ

/-- All vertices of a piece denote points. -/
def Simplex.Ok {m : Nat} (s : Simplex m) : Prop := ∀ i, Vec.Ok (s i)

instance {m : Nat} (s : Simplex m) : Decidable (Simplex.Ok s) := by
  unfold Simplex.Ok; infer_instance

/-- All pieces of an object denote sets of points. -/
def Obj.Ok {m : Nat} (o : Obj m) : Prop := ∀ s ∈ o, Simplex.Ok s

instance {m : Nat} (o : Obj m) : Decidable (Obj.Ok o) := by
  unfold Obj.Ok; infer_instance

end PyQC
