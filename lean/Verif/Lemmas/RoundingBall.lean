import Verif.Lemmas.RoundingCommon
/-!
# A pair resolved in spite of rounding has a common ball, if its common part is not flat
-/
namespace PyQC
open Matrix Ico

/-- Points of a tetrahedron are not further out than its corners. -/
theorem solid_coord {q : Fin 4 → Fin 3 → ℝ} {m : ℝ} (h : ∀ i j, |q i j| ≤ m) {x : Fin 3 → ℝ} (hx : x ∈ solid q) (j : Fin 3) :
    |x j| ≤ m := by
  obtain ⟨w, hw, h0⟩ := mem_solid_iff.1 hx
  have e : x j = ∑ i, w i * q i j := by rw [hw.2]; simp
  rw [e]
  calc |∑ i, w i * q i j| ≤ ∑ i, |w i * q i j| := Finset.abs_sum_le_sum_abs _ _
    _ ≤ ∑ i, w i * m := Finset.sum_le_sum fun i _ => by
        rw [abs_mul, abs_of_nonneg (h0 i)]; exact mul_le_mul_of_nonneg_left (h i j) (h0 i)
    _ = m := by rw [← Finset.sum_mul, hw.1, one_mul]

theorem coord_le_dist3 (x y : Fin 3 → ℝ) (j : Fin 3) : |x j - y j| ≤ dist3 x y := by
  unfold dist3
  apply Real.abs_le_sqrt
  have h0 := sq_nonneg (x 0 - y 0)
  have h1 := sq_nonneg (x 1 - y 1)
  have h2 := sq_nonneg (x 2 - y 2)
  fin_cases j <;> simp only [Fin.zero_eta, Fin.mk_one, Fin.reduceFinMk] <;> linarith

theorem trip_bound {d u v : Fin 3 → ℝ} {ρ L : ℝ} (hd : ∀ j, |d j| ≤ ρ) (hu : ∀ j, |u j| ≤ L) (hv : ∀ j, |v j| ≤ L) :
    |d 0 * (u 1 * v 2 - u 2 * v 1) + d 1 * (u 2 * v 0 - u 0 * v 2) + d 2 * (u 0 * v 1 - u 1 * v 0)| ≤ 6 * ρ * L ^ 2 := by
  have hL : 0 ≤ L := (abs_nonneg _).trans (hu 0)
  have hρ : 0 ≤ ρ := (abs_nonneg _).trans (hd 0)
  have h1 : ∀ i j, |u i * v j| ≤ L * L := fun i j => by
    rw [abs_mul]; exact mul_le_mul (hu i) (hv j) (abs_nonneg _) hL
  have h2 : ∀ i j k l, |u i * v j - u k * v l| ≤ 2 * (L * L) := fun i j k l => by
    have := abs_sub (u i * v j) (u k * v l)
    have := h1 i j
    have := h1 k l
    linarith
  have h3 : ∀ a i j k l, |d a * (u i * v j - u k * v l)| ≤ ρ * (2 * (L * L)) := fun a i j k l => by
    rw [abs_mul]; exact mul_le_mul (hd a) (h2 i j k l) (abs_nonneg _) hρ
  have a1 := abs_add_le (d 0 * (u 1 * v 2 - u 2 * v 1) + d 1 * (u 2 * v 0 - u 0 * v 2)) (d 2 * (u 0 * v 1 - u 1 * v 0))
  have a2 := abs_add_le (d 0 * (u 1 * v 2 - u 2 * v 1)) (d 1 * (u 2 * v 0 - u 0 * v 2))
  have b1 := h3 0 1 2 2 1
  have b2 := h3 1 2 0 0 2
  have b3 := h3 2 0 1 1 0
  nlinarith

/-- The centre of a tetrahedron. -/
noncomputable def middle (q : Fin 4 → Fin 3 → ℝ) : Fin 3 → ℝ := fun j => (q 0 j + q 1 j + q 2 j + q 3 j) / 4

/-- A tetrahedron with corners of size at most `M` and six-fold volume at least `96 M² ρ` contains the ball of radius `ρ`
around its centre. -/
theorem ball_in_solid {q : Fin 4 → Fin 3 → ℝ} {M ρ : ℝ} (hM : ∀ i j, |q i j| ≤ M) (h0 : det4 q ≠ 0)
    (h : 96 * M ^ 2 * ρ ≤ |det4 q|) {y : Fin 3 → ℝ} (hy : dist3 y (middle q) ≤ ρ) : y ∈ solid q := by
  rw [mem_solid_iff]
  refine ⟨_, exists_bary h0 y, fun k => ?_⟩
  have hd : ∀ j, |(y - middle q) j| ≤ ρ := fun j => (coord_le_dist3 y (middle q) j).trans hy
  have he : ∀ a b j, |(q a - q b) j| ≤ 2 * M := fun a b j => by
    have := abs_sub (q a j) (q b j)
    have := hM a j
    have := hM b j
    rw [Pi.sub_apply]
    linarith
  have key : |det4 (smallTetrahedron k y q) - det4 q / 4| ≤ 6 * ρ * (2 * M) ^ 2 := by
    have e : ∀ a b c, |(y - middle q) 0 * ((q b - q a) 1 * (q c - q a) 2 - (q b - q a) 2 * (q c - q a) 1) +
        (y - middle q) 1 * ((q b - q a) 2 * (q c - q a) 0 - (q b - q a) 0 * (q c - q a) 2) +
        (y - middle q) 2 * ((q b - q a) 0 * (q c - q a) 1 - (q b - q a) 1 * (q c - q a) 0)| ≤ 6 * ρ * (2 * M) ^ 2 :=
      fun a b c => trip_bound hd (he b a) (he c a)
    fin_cases k
    · refine le_trans (le_of_eq ?_) (e 1 3 2)
      congr 1
      simp only [det4_eq, smallTetrahedron, middle, Pi.sub_apply]
      simp
      ring
    · refine le_trans (le_of_eq ?_) (e 0 2 3)
      congr 1
      simp only [det4_eq, smallTetrahedron, middle, Pi.sub_apply]
      simp
      ring
    · refine le_trans (le_of_eq ?_) (e 0 3 1)
      congr 1
      simp only [det4_eq, smallTetrahedron, middle, Pi.sub_apply]
      simp
      ring
    · refine le_trans (le_of_eq ?_) (e 0 1 2)
      congr 1
      simp only [det4_eq, smallTetrahedron, middle, Pi.sub_apply]
      simp
      ring
  have key2 := abs_le.1 key
  rcases lt_or_gt_of_ne h0 with hn | hp
  · rw [abs_of_neg hn] at h
    exact div_nonneg_of_nonpos (by nlinarith) hn.le
  · rw [abs_of_pos hp] at h
    exact div_nonneg (by nlinarith) hp.le

/-- For a pair resolved in spite of rounding, a common part that is not flat contains a ball of the radius `R / 2^47`. -/
theorem common_ball {R : ℝ} (hR : 1 ≤ R) {s t : Simplex 4} (hs : Simplex.Ok s) (ht : Simplex.Ok t)
    (hc : ∀ i j, |Package.ico.perps s i j| ≤ R) (h : ResolvedRounded R (Package.ico.perps s) (Package.ico.perps t))
    (hi : (interior (solid (Package.ico.perps s) ∩ solid (Package.ico.perps t))).Nonempty) :
    CommonBall (R / 2 ^ 47) (solid (Package.ico.perps s)) (solid (Package.ico.perps t)) := by
  have hull := commonPts_hull hs ht h.resolved
  have hn : ¬ InPlane ((commonPts s t).map Package.ico.perp) := by
    intro hpl
    rw [← hull, map_perp_set] at hi
    exact hull_flat hpl hi
  obtain ⟨x, hx⟩ := hi
  have hx' := interior_subset hx
  rw [← hull, map_perp_set] at hx'
  obtain ⟨q, hq, hv, -⟩ := hull_simplex hn hx'
  have hcand : ∀ k, Candidate (Package.ico.perps s) (Package.ico.perps t) (q k) ∧ q k ∈ solid (Package.ico.perps s) ∧
      q k ∈ solid (Package.ico.perps t) := by
    intro k
    obtain ⟨v, hv, e⟩ := List.mem_map.1 (hq k)
    rw [← e]
    exact commonPts_exact hs ht h.resolved hv
  have h0 : det4 q ≠ 0 := det4_ne_iff.mpr hv
  have etrip : crossProduct (q 1 - q 0) (q 2 - q 0) ⬝ᵥ (q 3 - q 0) = det4 q := by
    rw [det4_eq]
    simp only [cross_apply, vec3_dotProduct, cons_val_zero, cons_val_one, cons_val, Pi.sub_apply]
    ring
  have hbig : margin R / 4 ≤ |det4 q| := by
    by_contra hlt
    refine h0 ?_
    rw [← etrip]
    refine h.flat _ _ _ _ (hcand 0).1 (hcand 1).1 (hcand 2).1 (hcand 3).1 ?_
    rw [etrip]
    have : (0 : ℝ) < 1 / 10 ^ 10 := by norm_num
    linarith
  refine ⟨middle q, fun y hy => ?_⟩
  have hsub : solid q ⊆ solid (Package.ico.perps s) ∩ solid (Package.ico.perps t) := by
    refine convexHull_min ?_ ((solid_convex _).inter (solid_convex _))
    rintro _ ⟨k, rfl⟩
    exact (hcand k).2
  refine hsub (ball_in_solid (M := R) (fun i j => solid_coord hc (hcand i).2.1 j) h0 ?_ hy)
  refine le_trans ?_ hbig
  unfold margin
  have : 0 < R ^ 3 := by positivity
  have e : 96 * R ^ 2 * (R / 2 ^ 47) = R ^ 3 * (96 / 2 ^ 47) := by ring
  rw [e]
  have e2 : R ^ 3 / 2 ^ 37 / 4 = R ^ 3 * (1 / 2 ^ 39) := by ring
  rw [e2]
  exact mul_le_mul_of_nonneg_left (by norm_num) this.le

end PyQC
