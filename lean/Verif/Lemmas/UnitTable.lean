import Verif.Lemmas.Golden
import Verif.Lemmas.Groups
/-!
# The images of the asymmetric unit of the examples are resolved against its five-fold enlargement

Checked by the kernel for each of the 120 operations with the exact test `resolvedTest`.
-/
namespace PyQC

/-- The image of a simplex with half-integer coordinates. -/
def actHalf (op : IMat 6 6) (s : Simplex 4) : Simplex 4 := fun i j =>
  ⟨op j 0 * (s i 0).a + op j 1 * (s i 1).a + op j 2 * (s i 2).a + op j 3 * (s i 3).a + op j 4 * (s i 4).a +
    op j 5 * (s i 5).a, 0, 2⟩

/-- The asymmetric unit, all coordinates over 2. -/
def unitHalf : Simplex 4 :=
  ![fun _ => ⟨0, 0, 2⟩,
    ![⟨1, 0, 2⟩, ⟨-1, 0, 2⟩, ⟨-1, 0, 2⟩, ⟨-1, 0, 2⟩, ⟨-1, 0, 2⟩, ⟨-1, 0, 2⟩],
    ![⟨1, 0, 2⟩, ⟨-1, 0, 2⟩, ⟨-1, 0, 2⟩, ⟨1, 0, 2⟩, ⟨-1, 0, 2⟩, ⟨-1, 0, 2⟩],
    ![⟨1, 0, 2⟩, ⟨-1, 0, 2⟩, ⟨-1, 0, 2⟩, ⟨0, 0, 2⟩, ⟨-1, 0, 2⟩, ⟨0, 0, 2⟩]]

/-- Five times the asymmetric unit. -/
def unitFive : Simplex 4 :=
  ![fun _ => ⟨0, 0, 1⟩,
    ![⟨5, 0, 2⟩, ⟨-5, 0, 2⟩, ⟨-5, 0, 2⟩, ⟨-5, 0, 2⟩, ⟨-5, 0, 2⟩, ⟨-5, 0, 2⟩],
    ![⟨5, 0, 2⟩, ⟨-5, 0, 2⟩, ⟨-5, 0, 2⟩, ⟨5, 0, 2⟩, ⟨-5, 0, 2⟩, ⟨-5, 0, 2⟩],
    ![⟨5, 0, 2⟩, ⟨-5, 0, 2⟩, ⟨-5, 0, 2⟩, ⟨0, 0, 2⟩, ⟨-5, 0, 2⟩, ⟨0, 0, 2⟩]]

set_option maxRecDepth 100000 in
private theorem unit_table_0 : ∀ c ∈ (icoCodes.drop 0).take 8,
    resolvedTest (actHalf (spC c) unitHalf) unitFive = true := by decide +kernel

set_option maxRecDepth 100000 in
private theorem unit_table_8 : ∀ c ∈ (icoCodes.drop 8).take 8,
    resolvedTest (actHalf (spC c) unitHalf) unitFive = true := by decide +kernel

set_option maxRecDepth 100000 in
private theorem unit_table_16 : ∀ c ∈ (icoCodes.drop 16).take 8,
    resolvedTest (actHalf (spC c) unitHalf) unitFive = true := by decide +kernel

set_option maxRecDepth 100000 in
private theorem unit_table_24 : ∀ c ∈ (icoCodes.drop 24).take 8,
    resolvedTest (actHalf (spC c) unitHalf) unitFive = true := by decide +kernel

set_option maxRecDepth 100000 in
private theorem unit_table_32 : ∀ c ∈ (icoCodes.drop 32).take 8,
    resolvedTest (actHalf (spC c) unitHalf) unitFive = true := by decide +kernel

set_option maxRecDepth 100000 in
private theorem unit_table_40 : ∀ c ∈ (icoCodes.drop 40).take 8,
    resolvedTest (actHalf (spC c) unitHalf) unitFive = true := by decide +kernel

set_option maxRecDepth 100000 in
private theorem unit_table_48 : ∀ c ∈ (icoCodes.drop 48).take 8,
    resolvedTest (actHalf (spC c) unitHalf) unitFive = true := by decide +kernel

set_option maxRecDepth 100000 in
private theorem unit_table_56 : ∀ c ∈ (icoCodes.drop 56).take 8,
    resolvedTest (actHalf (spC c) unitHalf) unitFive = true := by decide +kernel

set_option maxRecDepth 100000 in
private theorem unit_table_64 : ∀ c ∈ (icoCodes.drop 64).take 8,
    resolvedTest (actHalf (spC c) unitHalf) unitFive = true := by decide +kernel

set_option maxRecDepth 100000 in
private theorem unit_table_72 : ∀ c ∈ (icoCodes.drop 72).take 8,
    resolvedTest (actHalf (spC c) unitHalf) unitFive = true := by decide +kernel

set_option maxRecDepth 100000 in
private theorem unit_table_80 : ∀ c ∈ (icoCodes.drop 80).take 8,
    resolvedTest (actHalf (spC c) unitHalf) unitFive = true := by decide +kernel

set_option maxRecDepth 100000 in
private theorem unit_table_88 : ∀ c ∈ (icoCodes.drop 88).take 8,
    resolvedTest (actHalf (spC c) unitHalf) unitFive = true := by decide +kernel

set_option maxRecDepth 100000 in
private theorem unit_table_96 : ∀ c ∈ (icoCodes.drop 96).take 8,
    resolvedTest (actHalf (spC c) unitHalf) unitFive = true := by decide +kernel

set_option maxRecDepth 100000 in
private theorem unit_table_104 : ∀ c ∈ (icoCodes.drop 104).take 8,
    resolvedTest (actHalf (spC c) unitHalf) unitFive = true := by decide +kernel

set_option maxRecDepth 100000 in
private theorem unit_table_112 : ∀ c ∈ (icoCodes.drop 112).take 8,
    resolvedTest (actHalf (spC c) unitHalf) unitFive = true := by decide +kernel

theorem unit_table (c : List Nat) (hc : c ∈ icoCodes) :
    resolvedTest (actHalf (spC c) unitHalf) unitFive = true := by
  have split : icoCodes =
    (icoCodes.drop 0).take 8 ++
    (icoCodes.drop 8).take 8 ++
    (icoCodes.drop 16).take 8 ++
    (icoCodes.drop 24).take 8 ++
    (icoCodes.drop 32).take 8 ++
    (icoCodes.drop 40).take 8 ++
    (icoCodes.drop 48).take 8 ++
    (icoCodes.drop 56).take 8 ++
    (icoCodes.drop 64).take 8 ++
    (icoCodes.drop 72).take 8 ++
    (icoCodes.drop 80).take 8 ++
    (icoCodes.drop 88).take 8 ++
    (icoCodes.drop 96).take 8 ++
    (icoCodes.drop 104).take 8 ++
    (icoCodes.drop 112).take 8 := by decide +kernel
  rw [split] at hc
  simp only [List.mem_append] at hc
  rcases hc with (((((((((((((hc | hc) | hc) | hc) | hc) | hc) | hc) | hc) | hc) | hc) | hc) | hc) | hc) | hc) | hc
  · exact unit_table_0 c hc
  · exact unit_table_8 c hc
  · exact unit_table_16 c hc
  · exact unit_table_24 c hc
  · exact unit_table_32 c hc
  · exact unit_table_40 c hc
  · exact unit_table_48 c hc
  · exact unit_table_56 c hc
  · exact unit_table_64 c hc
  · exact unit_table_72 c hc
  · exact unit_table_80 c hc
  · exact unit_table_88 c hc
  · exact unit_table_96 c hc
  · exact unit_table_104 c hc
  · exact unit_table_112 c hc

theorem actHalf_ok (op : IMat 6 6) (s : Simplex 4) : Simplex.Ok (actHalf op s) := fun _ _ => by
  change (2 : ℤ) ≠ 0
  decide

end PyQC
