/-!
Numbers in text.
-/

namespace PyQC

/-- A non-empty word of decimal digits. -/
def Digits (g : List Char) : Prop := g ≠ [] ∧ ∀ c ∈ g, '0' ≤ c ∧ c ≤ '9'

/-- The number written with these digits. -/
def decimal (g : List Char) : Nat := g.foldl (fun n c => 10 * n + (c.toNat - '0'.toNat)) 0

end PyQC
