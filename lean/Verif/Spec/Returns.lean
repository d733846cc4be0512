import Verif.Spec.Resolve
import Verif.Model.Coplanar
import Mathlib.Analysis.Convex.Extreme
/-!
# Specification vocabulary: when a call returns, also for pieces that only touch

`random.sample(lst, 3)` delivers three different elements. `None` as a verdict on coplanarity means that all drawn triples
were nearly collinear.
-/
namespace PyQC

/-- What `random.sample` delivers for at least four points: one triple or more, each of three different points. -/
def Sampled (draws : (n : Nat) → Draws n) : Prop :=
  ∀ n, 3 < n → draws n ≠ [] ∧ ∀ d ∈ draws n, d.1 ≠ d.2.1 ∧ d.1 ≠ d.2.2 ∧ d.2.1 ≠ d.2.2

/-- Any three different corners of the convex set are the corners of a triangle that is not too small: the normal vector
whose length is twice the area of the triangle has a component of at least ε. -/
def WideCorners (ε : ℝ) (A : Set (Fin 3 → ℝ)) : Prop :=
  ∀ a ∈ A.extremePoints ℝ, ∀ b ∈ A.extremePoints ℝ, ∀ c ∈ A.extremePoints ℝ, a ≠ b → a ≠ c → b ≠ c →
    ∃ k, ε ≤ |crossProduct (b - a) (c - a) k|

/-- Where two pieces of the objects touch without common interior point, the corners of the contact are wide. -/
def WideContacts (ε : ℝ) (p : Package) {m : Nat} (a b : Obj m) : Prop :=
  ∀ s ∈ a, ∀ t ∈ b, ¬ (interior (solid (p.perps s) ∩ solid (p.perps t))).Nonempty →
    WideCorners ε (solid (p.perps s) ∩ solid (p.perps t))

end PyQC
