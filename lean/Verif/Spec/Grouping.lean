import Mathlib.Data.List.Perm.Basic
/-!
# Specification vocabulary: grouping and merging
-/
namespace PyQC

/-- `groups` is a partition of the positions `0..n-1`. The first position of a group is its leader and its
smallest; the others were judged coplanar with it (`judged i lead`); leaders of different groups were judged
not coplanar. -/
structure IsGrouping (n : Nat) (judged : Nat → Nat → Bool) (groups : List (List (Fin n))) : Prop where
  partition : groups.flatten.Perm (List.finRange n)
  group : ∀ g ∈ groups, ∃ lead rest, g = lead :: rest ∧ rest.Pairwise (· < ·) ∧
    ∀ i ∈ rest, lead < i ∧ judged i lead = true
  leaders : groups.Pairwise fun g h => ∀ a : Fin n, a ∈ g.head? → ∀ b : Fin n, b ∈ h.head? → judged b a = false

/-- `l` becomes `l'` by `k` merges: take two elements at different places that can be merged, remove them and
append the result. -/
inductive MergeSteps {α : Type} (merge : α → α → Option α) : List α → Nat → List α → Prop
  | refl (l) : MergeSteps merge l 0 l
  | step {l₁ l₂ l₃ l' : List α} {a b c : α} {k : Nat} : merge a b = some c →
      MergeSteps merge (l₁ ++ l₂ ++ l₃ ++ [c]) k l' →
      MergeSteps merge (l₁ ++ a :: (l₂ ++ b :: l₃)) (k + 1) l'

end PyQC
