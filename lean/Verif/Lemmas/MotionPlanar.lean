import Verif.Lemmas.Motion
import Verif.Lemmas.Planar
import Verif.Lemmas.PlanarTri
import Verif.Spec.Planar
/-!
# Rigid motions of the plane of a level object
-/
namespace PyQC
open Matrix MeasureTheory

section
variable {f : (Fin 3 → ℝ) → Fin 3 → ℝ}

theorem dot_orthogonal {M : Matrix (Fin 3) (Fin 3) ℝ} (h : Mᵀ * M = 1) (u v : Fin 3 → ℝ) :
    M.mulVec u ⬝ᵥ M.mulVec v = u ⬝ᵥ v := by
  rw [dotProduct_mulVec, vecMul_mulVec, h, vecMul_one]

theorem cross_orthogonal {M : Matrix (Fin 3) (Fin 3) ℝ} (h : Mᵀ * M = 1) (u v : Fin 3 → ℝ) :
    crossProduct (M.mulVec u) (M.mulVec v) ⬝ᵥ crossProduct (M.mulVec u) (M.mulVec v) =
      crossProduct u v ⬝ᵥ crossProduct u v := by
  rw [cross_lagrange, cross_lagrange, dot_orthogonal h, dot_orthogonal h, dot_orthogonal h]

theorem IsMotion.cross (h : IsMotion f) (a b c d : Fin 3 → ℝ) :
    crossProduct (f a - f b) (f c - f d) ⬝ᵥ crossProduct (f a - f b) (f c - f d) =
      crossProduct (a - b) (c - d) ⬝ᵥ crossProduct (a - b) (c - d) := by
  obtain ⟨M, c', hM, hf⟩ := h
  have e : ∀ x y, f x - f y = M.mulVec (x - y) := fun x y => by rw [hf, hf, mulVec_sub]; abel
  rw [e, e, cross_orthogonal hM]

theorem IsMotion.triArea (h : IsMotion f) (q : Fin 3 → Fin 3 → ℝ) : triArea (fun i => f (q i)) = triArea q := by
  unfold PyQC.triArea
  rw [h.cross]

theorem IsMotion.acceptsTri (h : IsMotion f) {q : Fin 3 → Fin 3 → ℝ} {x : Fin 3 → ℝ} (hm : AcceptsTri q x) :
    AcceptsTri (fun i => f (q i)) (f x) := by
  obtain ⟨h1, w, h2, h3⟩ := hm
  exact ⟨by rw [h.triArea]; exact h1, w, h.combo h2, h3⟩

/-- Rigid motions keep the pairs of triangles for which the tolerances do not matter. -/
theorem IsMotion.resolvedTri (h : IsMotion f) {S T : Fin 3 → Fin 3 → ℝ} (hr : ResolvedTri S T) :
    ResolvedTri (fun i => f (S i)) (fun i => f (T i)) := by
  obtain ⟨g, hg, h1, h2⟩ := h.inverse
  refine ⟨by rw [h.triArea]; exact hr.areaS, by rw [h.triArea]; exact hr.areaT, fun i hi => ?_, fun i hi => ?_,
    fun i j k l hij hkl hne => ?_⟩
  · have := hg.acceptsTri hi
    simp only [h1] at this
    rw [h.solid]
    exact ⟨_, hr.cornerS i this, rfl⟩
  · have := hg.acceptsTri hi
    simp only [h1] at this
    rw [h.solid]
    exact ⟨_, hr.cornerT i this, rfl⟩
  · rw [h.cross]
    refine hr.span i j k l hij hkl ?_
    rw [← dotProduct_self_eq_zero.ne] at hne ⊢
    rwa [h.cross] at hne

theorem ResolvedTri.symm {S T : Fin 3 → Fin 3 → ℝ} (h : ResolvedTri S T) : ResolvedTri T S :=
  ⟨h.areaT, h.areaS, h.cornerT, h.cornerS, fun i j k l hij hkl hne => by
    rw [← cross_anticomm, neg_dotProduct_neg]
    exact h.span k l i j hkl hij (by rw [← cross_anticomm, neg_ne_zero]; exact hne)⟩

end

/-- A motion of space that takes the plane of height `z` to the plane of height `z'`, and moves it by `g`. -/
structure FlatMotion (f : (Fin 3 → ℝ) → Fin 3 → ℝ) (g : (Fin 2 → ℝ) → Fin 2 → ℝ) (z z' : ℝ) : Prop where
  motion : IsMotion f
  level : ∀ x, x 2 = z → f x 2 = z'
  slice : ∀ A, slice z' (f '' A) = g '' slice z A
  injective : Function.Injective g
  volume : ∀ A, volume (g '' A) = volume A
  interior : ∀ A, interior (g '' A) = g '' interior A

theorem flatMotion_spin {op : IMat 6 6} (h : op ∈ Package.dode.symops) (z : ℝ) (c : Fin 3 → ℝ) :
    FlatMotion (spin (Package.dode.rot op) c) (spin (rot2 op) (xy c)) z z where
  motion := isMotion_spin (rot_spec h).2 c
  level x hx := by
    rw [← atHeight_xy hx, spin_atHeight h]
    rfl
  slice := slice_spin h z c
  injective := Function.LeftInverse.injective (spin_left (fund2.orth op (List.mem_toFinset.mpr h)) _)
  volume := volume_spin (fund2.orth op (List.mem_toFinset.mpr h)) _
  interior A := by
    have ho := fund2.orth op (List.mem_toFinset.mpr h)
    let e : (Fin 2 → ℝ) ≃ₜ (Fin 2 → ℝ) := ⟨⟨spin (rot2 op) (xy c), spin (rot2 op)ᵀ (xy c), spin_left ho _,
      fun x => by
        have := spin_left (M := (rot2 op)ᵀ) (by rw [transpose_transpose]; exact mul_eq_one_comm.mp ho) (xy c) x
        rwa [transpose_transpose] at this⟩, spin_continuous _ _, spin_continuous _ _⟩
    exact (e.image_interior A).symm

theorem flatMotion_shift (z : ℝ) (v : Fin 3 → ℝ) :
    FlatMotion (fun x => x + v) (fun x => x + xy v) z (z + v 2) where
  motion := isMotion_shift v
  level x hx := by simp [hx]
  slice A := by
    ext p
    constructor
    · rintro ⟨x, hx, e⟩
      refine ⟨xy x, ?_, ?_⟩
      · have : x 2 = z := by
          have := congrFun e 2
          simpa using this
        exact (xy_mem_slice this).2 hx
      · funext j
        have h0 := congrFun e 0
        have h1 := congrFun e 1
        fin_cases j <;> simpa [xy] using by assumption
    · rintro ⟨q, hq, rfl⟩
      refine ⟨_, hq, ?_⟩
      funext j
      fin_cases j <;> simp [xy]
  injective := add_left_injective _
  volume A := by rw [Set.image_add_right, measure_preimage_add_right]
  interior A := ((Homeomorph.addRight (xy v)).image_interior A).symm

end PyQC
