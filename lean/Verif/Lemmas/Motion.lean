import Verif.Spec.Resolve
import Verif.Lemmas.Geometry
import Verif.Lemmas.Position
import Verif.Lemmas.Fundamental
/-!
# Rigid motions: the tests of the intersection do not notice them
-/
namespace PyQC
open Matrix MeasureTheory

/-- A rigid motion of real 3-space, possibly with a reflection. -/
def IsMotion (f : (Fin 3 → ℝ) → Fin 3 → ℝ) : Prop :=
  ∃ (M : Matrix (Fin 3) (Fin 3) ℝ) (c : Fin 3 → ℝ), Mᵀ * M = 1 ∧ ∀ x, f x = M.mulVec x + c

section
variable {f : (Fin 3 → ℝ) → Fin 3 → ℝ}

theorem isMotion_spin {M : Matrix (Fin 3) (Fin 3) ℝ} (h : Mᵀ * M = 1) (c : Fin 3 → ℝ) : IsMotion (spin M c) :=
  ⟨M, c - M.mulVec c, h, fun x => by simp only [spin, mulVec_sub]; abel⟩

theorem isMotion_shift (c : Fin 3 → ℝ) : IsMotion (fun x => x + c) := ⟨1, c, by simp, fun x => by simp⟩

theorem IsMotion.inverse (h : IsMotion f) : ∃ g, IsMotion g ∧ (∀ x, g (f x) = x) ∧ ∀ x, f (g x) = x := by
  obtain ⟨M, c, hM, hf⟩ := h
  have hM' : M * Mᵀ = 1 := mul_eq_one_comm.mp hM
  refine ⟨fun x => Mᵀ.mulVec x + -Mᵀ.mulVec c, ⟨Mᵀ, -Mᵀ.mulVec c, by rw [transpose_transpose]; exact hM', fun x => rfl⟩, fun x => ?_, fun x => ?_⟩
  · simp only [hf, mulVec_add, mulVec_mulVec, hM, one_mulVec]; abel
  · simp only [hf, mulVec_add, mulVec_neg, mulVec_mulVec, hM', one_mulVec]; abel

theorem IsMotion.eq_spin (h : IsMotion f) : ∃ (M : Matrix (Fin 3) (Fin 3) ℝ) (c : Fin 3 → ℝ), Mᵀ * M = 1 ∧ ∀ x, f x = M.mulVec x + c := h

theorem IsMotion.combo (h : IsMotion f) {m : Nat} {q : Fin m → Fin 3 → ℝ} {w : Fin m → ℝ} {x : Fin 3 → ℝ} (hb : IsBary q w x) :
    IsBary (fun i => f (q i)) w (f x) := by
  obtain ⟨M, c, hM, hf⟩ := h
  refine ⟨hb.1, ?_⟩
  simp only [hf, smul_add, Finset.sum_add_distrib, ← Finset.sum_smul, hb.1, one_smul, hb.2]
  congr 1
  rw [mulVec_sum]
  exact Finset.sum_congr rfl fun i _ => mulVec_smul _ _ _

theorem IsMotion.solid (h : IsMotion f) {m : Nat} (q : Fin m → Fin 3 → ℝ) : solid (fun i => f (q i)) = f '' solid q := by
  have key : ∀ {f : (Fin 3 → ℝ) → Fin 3 → ℝ}, IsMotion f → ∀ q : Fin m → Fin 3 → ℝ, f '' PyQC.solid q ⊆ PyQC.solid fun i => f (q i) := by
    rintro f h q x ⟨y, hy, rfl⟩
    obtain ⟨w, hw, h0⟩ := mem_solid_iff.1 hy
    exact mem_solid_iff.2 ⟨w, h.combo hw, h0⟩
  refine Set.Subset.antisymm (fun x hx => ?_) (key h q)
  obtain ⟨g, hg, h1, h2⟩ := h.inverse
  have := key hg (fun i => f (q i)) ⟨x, hx, rfl⟩
  simp only [h1] at this
  exact ⟨g x, this, h2 x⟩

theorem IsMotion.sub (h : IsMotion f) : ∃ M : Matrix (Fin 3) (Fin 3) ℝ, |M.det| = 1 ∧ ∀ x y, f x - f y = M.mulVec (x - y) := by
  obtain ⟨M, c, hM, hf⟩ := h
  exact ⟨M, abs_det_of_orthogonal hM, fun x y => by rw [hf, hf, mulVec_sub]; abel⟩

theorem det_rows (M : Matrix (Fin 3) (Fin 3) ℝ) (u v w : Fin 3 → ℝ) :
    det (of ![M.mulVec u, M.mulVec v, M.mulVec w]) = det (of ![u, v, w]) * M.det := by
  have : of ![M.mulVec u, M.mulVec v, M.mulVec w] = of ![u, v, w] * Mᵀ := by
    ext i j
    fin_cases i <;> simp [mul_apply, mulVec, dotProduct, Fin.sum_univ_three] <;> ring
  rw [this, det_mul, det_transpose]

theorem triple_det (u v w : Fin 3 → ℝ) : crossProduct u v ⬝ᵥ w = det (of ![u, v, w]) := by
  rw [det_fin_three]
  simp [cross_apply, dotProduct, Fin.sum_univ_three]
  ring

theorem IsMotion.det (h : IsMotion f) (a b c d e g : Fin 3 → ℝ) :
    |det (of ![f a - f b, f c - f d, f e - f g])| = |det (of ![a - b, c - d, e - g])| := by
  obtain ⟨M, hM, hs⟩ := h.sub
  rw [hs, hs, hs, det_rows, abs_mul, hM, mul_one]

theorem IsMotion.tetVol (h : IsMotion f) (q : Fin 4 → Fin 3 → ℝ) : tetVol (fun i => f (q i)) = tetVol q := by
  unfold PyQC.tetVol
  rw [h.det]

theorem IsMotion.meets (h : IsMotion f) {A B C D E : Fin 3 → ℝ} {t u v : ℝ} (hm : Meets A B C D E t u v) :
    Meets (f A) (f B) (f C) (f D) (f E) t u v := by
  obtain ⟨M, c, hM, hf⟩ := h
  have := congrArg (fun x => M.mulVec x + c) hm
  unfold Meets
  simp only [hf, mulVec_add, mulVec_smul, mulVec_sub] at this ⊢
  have e : ∀ x y : Fin 3 → ℝ, x + c - (y + c) = x - y := fun x y => by abel
  rw [e, e, e]
  refine Eq.trans ?_ (this.trans ?_) <;> abel

theorem IsMotion.hits (h : IsMotion f) {A B C D E : Fin 3 → ℝ} (hm : Hits A B C D E) : Hits (f A) (f B) (f C) (f D) (f E) := by
  obtain ⟨h1, t, u, v, h2, h3⟩ := hm
  exact ⟨by rw [h.det]; exact h1, t, u, v, h.meets h2, h3⟩

theorem IsMotion.accepts (h : IsMotion f) {q : Fin 4 → Fin 3 → ℝ} {x : Fin 3 → ℝ} (hm : Accepts q x) :
    Accepts (fun i => f (q i)) (f x) := by
  obtain ⟨h1, w, h2, h3⟩ := hm
  exact ⟨by rw [h.tetVol]; exact h1, w, h.combo h2, h3⟩

theorem IsMotion.segment (h : IsMotion f) (a b : Fin 3 → ℝ) (t : ℝ) : f (a + t • (b - a)) = f a + t • (f b - f a) := by
  obtain ⟨M, c, hM, hf⟩ := h
  simp only [hf, mulVec_add, mulVec_smul, mulVec_sub]
  have e : ∀ x y : Fin 3 → ℝ, x + c - (y + c) = x - y := fun x y => by abel
  rw [e]
  abel

theorem IsMotion.edgeFace (h : IsMotion f) {S T : Fin 4 → Fin 3 → ℝ} {x : Fin 3 → ℝ} (hm : EdgeFace S T x) :
    EdgeFace (fun i => f (S i)) (fun i => f (T i)) (f x) := by
  obtain ⟨i, j, k, l, m, hij, hkl, hlm, hd, t, u, v, h1, rfl, h3⟩ := hm
  refine ⟨i, j, k, l, m, hij, hkl, hlm, ?_, t, u, v, h.meets h1, h.segment _ _ _, h3⟩
  rw [← abs_ne_zero] at hd ⊢
  rwa [h.det]

theorem IsMotion.candidate (h : IsMotion f) {S T : Fin 4 → Fin 3 → ℝ} {x : Fin 3 → ℝ} (hm : Candidate S T x) :
    Candidate (fun i => f (S i)) (fun i => f (T i)) (f x) := by
  rcases hm with ⟨i, rfl⟩ | ⟨i, rfl⟩ | hm | hm
  · exact .inl ⟨i, rfl⟩
  · exact .inr (.inl ⟨i, rfl⟩)
  · exact .inr (.inr (.inl (h.edgeFace hm)))
  · exact .inr (.inr (.inr (h.edgeFace hm)))

theorem IsMotion.clear (h : IsMotion f) {S T : Fin 4 → Fin 3 → ℝ} (hc : Clear S T) :
    Clear (fun i => f (S i)) (fun i => f (T i)) := by
  obtain ⟨g, hg, h1, h2⟩ := h.inverse
  refine ⟨fun i hi => ?_, fun i j k l m hij hkl hlm hd => ?_, fun i j k l m hij hkl hlm hh => ?_⟩
  · have := hg.accepts hi
    simp only [h1] at this
    rw [h.solid]
    exact ⟨_, hc.corner i this, rfl⟩
  · rw [h.det]
    refine hc.span i j k l m hij hkl hlm ?_
    rw [← abs_ne_zero] at hd ⊢
    rwa [h.det] at hd
  · have := hg.hits hh
    simp only [h1] at this
    obtain ⟨t, u, v, h3, h4⟩ := hc.hit i j k l m hij hkl hlm this
    exact ⟨t, u, v, h.meets h3, h4⟩

/-- Rigid motions keep the pairs for which the tolerances do not matter. -/
theorem IsMotion.resolved (h : IsMotion f) {S T : Fin 4 → Fin 3 → ℝ} (hr : Resolved S T) :
    Resolved (fun i => f (S i)) (fun i => f (T i)) := by
  obtain ⟨g, hg, h1, h2⟩ := h.inverse
  refine ⟨by rw [h.tetVol]; exact hr.volS, by rw [h.tetVol]; exact hr.volT, h.clear hr.clearST, h.clear hr.clearTS,
    fun a b c d ha hb hc hd ht => ?_⟩
  have hcand : ∀ a, Candidate (fun i => f (S i)) (fun i => f (T i)) a → Candidate S T (g a) := fun a ha => by
    have := hg.candidate ha
    simpa only [h1] using this
  have e : |crossProduct (b - a) (c - a) ⬝ᵥ (d - a)| = |crossProduct (g b - g a) (g c - g a) ⬝ᵥ (g d - g a)| := by
    rw [triple_det, triple_det, hg.det]
  rw [e] at ht
  have := hr.flat _ _ _ _ (hcand a ha) (hcand b hb) (hcand c hc) (hcand d hd) ht
  rw [← abs_eq_zero, e, this, abs_zero]

theorem Resolved.symm {S T : Fin 4 → Fin 3 → ℝ} (h : Resolved S T) : Resolved T S := by
  have hc : ∀ a, Candidate T S a → Candidate S T a := by
    rintro a (h | h | h | h)
    · exact .inr (.inl h)
    · exact .inl h
    · exact .inr (.inr (.inr h))
    · exact .inr (.inr (.inl h))
  exact ⟨h.volT, h.volS, h.clearTS, h.clearST, fun a b c d ha hb h' hd => h.flat a b c d (hc a ha) (hc b hb) (hc c h') (hc d hd)⟩

theorem IsMotion.volume (h : IsMotion f) (A : Set (Fin 3 → ℝ)) : volume (f '' A) = volume A := by
  obtain ⟨M, c, hM, hf⟩ := h
  have e : f '' A = (fun x => c + x) '' (spin M 0 '' A) := by
    rw [Set.image_image]
    refine Set.image_congr fun x _ => ?_
    simp only [hf, spin, sub_zero, add_zero, add_comm]
  rw [e, Set.image_add_left, measure_preimage_add, volume_spin hM]

theorem IsMotion.injective (h : IsMotion f) : Function.Injective f := by
  obtain ⟨g, -, h1, -⟩ := h.inverse
  exact Function.LeftInverse.injective h1

theorem IsMotion.continuous (h : IsMotion f) : Continuous f := by
  obtain ⟨M, c, hM, hf⟩ := h
  have : f = fun x => M.mulVec x + c := funext hf
  rw [this]
  fun_prop

theorem IsMotion.interior (h : IsMotion f) (A : Set (Fin 3 → ℝ)) : interior (f '' A) = f '' interior A := by
  obtain ⟨g, hg, h1, h2⟩ := h.inverse
  let e : (Fin 3 → ℝ) ≃ₜ (Fin 3 → ℝ) := ⟨⟨f, g, h1, h2⟩, h.continuous, hg.continuous⟩
  exact (e.image_interior A).symm

end
end PyQC
