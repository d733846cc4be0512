import Verif.Spec.Laws
import Verif.Lemmas.Fundamental
/-!
# Images of a set under all operations of a point group
-/
namespace PyQC
open Matrix MeasureTheory

section
variable {n : Nat} {A B C D : Set (Fin n → ℝ)}

theorem Almost.refl (A : Set (Fin n → ℝ)) : Almost A A := by simp [Almost]

theorem Almost.symm (h : Almost A B) : Almost B A := ⟨h.2, h.1⟩

theorem Almost.trans (h : Almost A B) (h' : Almost B C) : Almost A C := by
  constructor
  · refine measure_mono_null (t := A \ B ∪ B \ C) ?_ (measure_union_null h.1 h'.1)
    rintro x ⟨h1, h2⟩
    by_cases hx : x ∈ B
    · exact .inr ⟨hx, h2⟩
    · exact .inl ⟨h1, hx⟩
  · refine measure_mono_null (t := B \ A ∪ C \ B) ?_ (measure_union_null h.2 h'.2)
    rintro x ⟨h1, h2⟩
    by_cases hx : x ∈ B
    · exact .inl ⟨hx, h2⟩
    · exact .inr ⟨h1, hx⟩

theorem Almost.inter (h : Almost A B) (h' : Almost C D) : Almost (A ∩ C) (B ∩ D) := by
  constructor
  · refine measure_mono_null (t := A \ B ∪ C \ D) ?_ (measure_union_null h.1 h'.1)
    rintro x ⟨⟨h1, h2⟩, h3⟩
    by_cases hx : x ∈ B
    · exact .inr ⟨h2, fun h => h3 ⟨hx, h⟩⟩
    · exact .inl ⟨h1, hx⟩
  · refine measure_mono_null (t := B \ A ∪ D \ C) ?_ (measure_union_null h.2 h'.2)
    rintro x ⟨⟨h1, h2⟩, h3⟩
    by_cases hx : x ∈ A
    · exact .inr ⟨h2, fun h => h3 ⟨hx, h⟩⟩
    · exact .inl ⟨h1, hx⟩

theorem Almost.union (h : Almost A B) (h' : Almost C D) : Almost (A ∪ C) (B ∪ D) := by
  constructor
  · refine measure_mono_null (t := A \ B ∪ C \ D) ?_ (measure_union_null h.1 h'.1)
    rintro x ⟨h1 | h1, h2⟩
    · exact .inl ⟨h1, fun h => h2 (.inl h)⟩
    · exact .inr ⟨h1, fun h => h2 (.inr h)⟩
  · refine measure_mono_null (t := B \ A ∪ D \ C) ?_ (measure_union_null h.2 h'.2)
    rintro x ⟨h1 | h1, h2⟩
    · exact .inl ⟨h1, fun h => h2 (.inl h)⟩
    · exact .inr ⟨h1, fun h => h2 (.inr h)⟩

theorem Almost.volume_eq (h : Almost A B) : volume A = volume B := by
  have key : ∀ {A B : Set (Fin n → ℝ)}, volume (A \ B) = 0 → volume A ≤ volume B := fun {A B} h =>
    (measure_le_inter_add_sdiff _ A B).trans (by rw [h, add_zero]; exact measure_mono Set.inter_subset_right)
  exact le_antisymm (key h.1) (key h.2)

theorem spin_injective {M : Matrix (Fin n) (Fin n) ℝ} (h : Mᵀ * M = 1) (c : Fin n → ℝ) : Function.Injective (spin M c) :=
  Function.LeftInverse.injective (spin_left h c)

theorem Almost.spin {M : Matrix (Fin n) (Fin n) ℝ} (hM : Mᵀ * M = 1) (c : Fin n → ℝ) (h : Almost A B) :
    Almost (PyQC.spin M c '' A) (PyQC.spin M c '' B) := by
  constructor
  · rw [← Set.image_sdiff (spin_injective hM c), volume_spin hM]; exact h.1
  · rw [← Set.image_sdiff (spin_injective hM c), volume_spin hM]; exact h.2

end

section
variable {n : Nat} {ι : Type} {S : Finset ι} {R : ι → Matrix (Fin n) (Fin n) ℝ} {α : Fin 3 → Fin n → ℝ} {c : Fin n → ℝ}
variable {A B : Set (Fin n → ℝ)}

/-- All images of a set under the operations about a centre. -/
def sweep (S : Finset ι) (R : ι → Matrix (Fin n) (Fin n) ℝ) (c : Fin n → ℝ) (A : Set (Fin n → ℝ)) : Set (Fin n → ℝ) :=
  ⋃ g ∈ S, spin (R g) c '' A

theorem mem_sweep {x : Fin n → ℝ} : x ∈ sweep S R c A ↔ ∃ g ∈ S, ∃ y ∈ A, spin (R g) c y = x := by
  simp [sweep]

/-- Different images of the cone have only boundary points in common. -/
theorem Fund.null (F : Fund S R α) {g h : ι} (hg : g ∈ S) (hh : h ∈ S) (hne : g ≠ h) :
    volume (spin (R g) c '' coneAt α c ∩ spin (R h) c '' coneAt α c) = 0 := by
  have hsub : spin (R g) c '' coneAt α c ∩ spin (R h) c '' coneAt α c ⊆
      ⋃ i, {x | (R g).mulVec (α i) ⬝ᵥ x + -((R g).mulVec (α i) ⬝ᵥ c) = 0} := by
    rintro x ⟨hx, hy⟩
    have h1 := (mem_spin_cone (F.orth g hg) c).mp hx
    have h2 := (mem_spin_cone (F.orth h hh) c).mp hy
    by_contra hno
    simp only [Set.mem_iUnion, not_exists] at hno
    refine F.sep g hg h hh hne (x - c) (fun i => ?_) h2
    refine lt_of_le_of_ne (h1 i) fun h0 => hno i ?_
    show _ = _
    rw [← wall_form, ← h0]
  exact measure_mono_null hsub (measure_iUnion_null fun i => hyperplane_null (F.wall_ne hg i) _)

theorem Fund.sweep_measure (F : Fund S R α) (hA : MeasurableSet A) (h : A ⊆ coneAt α c) :
    volume (sweep S R c A) = S.card * volume A := by
  unfold sweep
  rw [measure_biUnion_finset₀]
  · rw [Finset.sum_congr rfl (fun g hg => volume_spin (F.orth g hg) c _), Finset.sum_const, nsmul_eq_mul]
  · intro g hg k hk hne
    exact measure_mono_null (Set.inter_subset_inter (Set.image_mono h) (Set.image_mono h)) (F.null hg hk hne)
  · intro g hg
    rw [spin_image (F.orth g hg)]
    exact ((spin_continuous _ c).measurable hA).nullMeasurableSet

/-- Sweeping and intersecting commute for sets in the cone. -/
theorem Fund.sweep_inter (F : Fund S R α) (hA : A ⊆ coneAt α c) (hB : B ⊆ coneAt α c) :
    Almost (sweep S R c A ∩ sweep S R c B) (sweep S R c (A ∩ B)) := by
  classical
  constructor
  · refine measure_mono_null (t := ⋃ g ∈ S, ⋃ k ∈ S, if g = k then (∅ : Set (Fin n → ℝ)) else
      spin (R g) c '' coneAt α c ∩ spin (R k) c '' coneAt α c) ?_ ?_
    · rintro x ⟨⟨h1, h2⟩, h3⟩
      obtain ⟨g, hg, y, hy, e⟩ := mem_sweep.1 h1
      obtain ⟨k, hk, y', hy', e'⟩ := mem_sweep.1 h2
      simp only [Set.mem_iUnion]
      refine ⟨g, hg, k, hk, ?_⟩
      have hne : g ≠ k := by
        rintro rfl
        have : y = y' := spin_injective (F.orth g hg) c (e.trans e'.symm)
        subst this
        exact h3 (mem_sweep.2 ⟨g, hg, y, ⟨hy, hy'⟩, e⟩)
      rw [if_neg hne]
      exact ⟨⟨y, hA hy, e⟩, ⟨y', hB hy', e'⟩⟩
    · refine (measure_biUnion_null_iff S.countable_toSet).2 fun g hg => (measure_biUnion_null_iff S.countable_toSet).2 fun k hk => ?_
      split
      · exact measure_empty
      · exact F.null hg hk ‹_›
  · rw [Set.sdiff_eq_empty.2, measure_empty]
    intro x hx
    obtain ⟨g, hg, y, hy, e⟩ := mem_sweep.1 hx
    exact ⟨mem_sweep.2 ⟨g, hg, y, hy.1, e⟩, mem_sweep.2 ⟨g, hg, y, hy.2, e⟩⟩

theorem Fund.sweep_almost (F : Fund S R α) (h : Almost A B) : Almost (sweep S R c A) (sweep S R c B) := by
  have key : ∀ {A B : Set (Fin n → ℝ)}, volume (A \ B) = 0 → volume (sweep S R c A \ sweep S R c B) = 0 := by
    intro A B h
    refine measure_mono_null (t := ⋃ g ∈ S, spin (R g) c '' (A \ B)) ?_ ?_
    · rintro x ⟨h1, h2⟩
      obtain ⟨g, hg, y, hy, e⟩ := mem_sweep.1 h1
      simp only [Set.mem_iUnion]
      exact ⟨g, hg, y, ⟨hy, fun hB => h2 (mem_sweep.2 ⟨g, hg, y, hB, e⟩)⟩, e⟩
    · exact (measure_biUnion_null_iff S.countable_toSet).2 fun g hg => by rw [volume_spin (F.orth g hg)]; exact h
  exact ⟨key h.1, key h.2⟩

end
end PyQC
