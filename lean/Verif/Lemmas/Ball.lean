import Verif.Lemmas.Intersect
import Verif.Props.Coplanar
/-!
# Bounding balls
-/
namespace PyQC
open Matrix

theorem dist3_eq (x y : Fin 3 → ℝ) : dist3 x y = norm3 (x - y) := by
  unfold dist3 norm3
  rw [vec3_dotProduct]
  congr 1
  simp only [Pi.sub_apply]
  ring

theorem norm3_add_le (u v : Fin 3 → ℝ) : norm3 (u + v) ≤ norm3 u + norm3 v := by
  have h0 := add_nonneg (norm3_nonneg u) (norm3_nonneg v)
  refine le_of_sq_le_sq ?_ h0
  have h := dot_le_norm3 u v
  have e : norm3 (u + v) * norm3 (u + v) = u ⬝ᵥ u + v ⬝ᵥ v + 2 * (u ⬝ᵥ v) := by
    rw [norm3_sq, add_dotProduct, dotProduct_add, dotProduct_add, dotProduct_comm v u]; ring
  have e2 : (norm3 u + norm3 v) * (norm3 u + norm3 v) = u ⬝ᵥ u + v ⬝ᵥ v + 2 * (norm3 u * norm3 v) := by
    rw [← norm3_sq u, ← norm3_sq v]; ring
  nlinarith

theorem dist3_triangle (x y z : Fin 3 → ℝ) : dist3 x z ≤ dist3 x y + dist3 y z := by
  rw [dist3_eq, dist3_eq, dist3_eq, show x - z = (x - y) + (y - z) by abel]
  exact norm3_add_le _ _

theorem dist3_comm (x y : Fin 3 → ℝ) : dist3 x y = dist3 y x := by
  unfold dist3
  congr 1
  ring

theorem dist3_nonneg (x y : Fin 3 → ℝ) : 0 ≤ dist3 x y := Real.sqrt_nonneg _

theorem ball_convex (c : Fin 3 → ℝ) (R : ℝ) : Convex ℝ {x | dist3 x c ≤ R} := by
  intro x hx y hy a b ha hb hab
  change dist3 _ _ ≤ _ at hx hy ⊢
  rw [dist3_eq] at *
  have e : a • x + b • y - c = a • (x - c) + b • (y - c) := by
    funext i
    simp only [Pi.sub_apply, Pi.add_apply, Pi.smul_apply, smul_eq_mul]
    have : c i = a * c i + b * c i := by rw [← add_mul, hab, one_mul]
    linarith
  rw [e]
  refine (norm3_add_le _ _).trans ?_
  rw [norm3_smul ha, norm3_smul hb]
  have h1 := mul_le_mul_of_nonneg_left hx ha
  have h2 := mul_le_mul_of_nonneg_left hy hb
  have : R = a * R + b * R := by rw [← add_mul, hab, one_mul]
  linarith

theorem solid_ball {m : Nat} {q : Fin m → Fin 3 → ℝ} {c : Fin 3 → ℝ} {R : ℝ} (h : ∀ i, dist3 (q i) c ≤ R)
    {x : Fin 3 → ℝ} (hx : x ∈ solid q) : dist3 x c ≤ R :=
  convexHull_min (s := Set.range q) (t := {x | dist3 x c ≤ R}) (by rintro _ ⟨i, rfl⟩; exact h i)
    (ball_convex c R) hx

theorem numericalVector3_eq (p : Package) (a : Vec 3) : p.numericalVector3 a = Vec.val p.theta a := by
  cases p <;> rfl

theorem distance_ok (p : Package) {v w : Vec 6} (hv : Vec.Ok v) (hw : Vec.Ok w) :
    distanceInPerpSpace p v w = .ok (dist3 (p.perp v) (p.perp w)) := by
  unfold distanceInPerpSpace
  rw [subVectors_ok p.lawful hv hw, bind_ok', p.projection3_ok (nvec_ok _), bind_ok', numericalVector3_eq,
    kvec_nvec, Matrix.mulVec_sub, val_nvec', rvec_sub, p.rvec_kperp, p.rvec_kperp, dist3_eq]

/-- The loop computes the largest distance, or the starting value. -/
theorem ballLoop_ok (p : Package) {c : Vec 6} (hc : Vec.Ok c) (l : List (Vec 6)) (hl : ∀ v ∈ l, Vec.Ok v) (d : ℝ) :
    ∃ R, foldPy (fun dd v => do
      let dd1 ← distanceInPerpSpace p v c
      .ok (if dd1 > dd then dd1 else dd)) d l = .ok R ∧ d ≤ R ∧
      (∀ v ∈ l, dist3 (p.perp v) (p.perp c) ≤ R) ∧ (R = d ∨ ∃ v ∈ l, dist3 (p.perp v) (p.perp c) = R) := by
  induction l generalizing d with
  | nil => exact ⟨d, rfl, le_rfl, by simp, .inl rfl⟩
  | cons v vs ih =>
    have hv := hl v (by simp)
    simp only [foldPy, distance_ok p hv hc, bind_ok']
    obtain ⟨R, hR, h1, h2, h3⟩ := ih (fun w hw => hl w (by simp [hw]))
      (if dist3 (p.perp v) (p.perp c) > d then dist3 (p.perp v) (p.perp c) else d)
    have hd : d ≤ R ∧ dist3 (p.perp v) (p.perp c) ≤ R := by
      by_cases h : dist3 (p.perp v) (p.perp c) > d
      · rw [if_pos h] at h1; exact ⟨h.le.trans h1, h1⟩
      · rw [if_neg h] at h1; exact ⟨h1, (not_lt.1 h).trans h1⟩
    refine ⟨R, hR, hd.1, ?_, ?_⟩
    · intro w hw
      rcases List.mem_cons.1 hw with rfl | hw
      · exact hd.2
      · exact h2 w hw
    · rcases h3 with h3 | ⟨w, hw, e⟩
      · by_cases h : dist3 (p.perp v) (p.perp c) > d
        · rw [if_pos h] at h3; exact .inr ⟨v, by simp, h3.symm⟩
        · rw [if_neg h] at h3; exact .inl h3
      · exact .inr ⟨w, by simp [hw], e⟩

theorem ballRadius_list (p : Package) {c : Vec 6} (hc : Vec.Ok c) {l : List (Vec 6)} (hl : ∀ v ∈ l, Vec.Ok v)
    (h0 : l ≠ []) :
    ∃ R, (do let vts ← removeDoublingPerp p l; ballRadiusVts p vts c) = .ok R ∧
      (∀ v ∈ l, dist3 (p.perp v) (p.perp c) ≤ R) ∧ ∃ v ∈ l, dist3 (p.perp v) (p.perp c) = R := by
  obtain ⟨r, hr, hsub, -, hall⟩ := C24_one_per_point p l hl
  rw [hr, bind_ok']
  obtain ⟨R, hR, h1, h2, h3⟩ := ballLoop_ok p hc r (fun v hv => hl v (hsub v hv)) 0
  refine ⟨R, hR, ?_, ?_⟩
  · intro v hv
    obtain ⟨y, ⟨hy, e⟩, -⟩ := hall v hv
    rw [← e]; exact h2 y hy
  · rcases h3 with h3 | ⟨v, hv, e⟩
    · obtain ⟨v, hv⟩ := List.exists_mem_of_ne_nil l h0
      obtain ⟨y, ⟨hy, e⟩, -⟩ := hall v hv
      exact ⟨y, hsub y hy, le_antisymm (h2 y hy) (by rw [h3]; exact dist3_nonneg _ _)⟩
    · exact ⟨v, hsub v hv, e⟩

end PyQC
