import Verif.Lemmas.RoundingDistance
import Verif.Lemmas.RoundingPairs
/-!
# Distances and the rough check of dode2 with rounding
-/
namespace PyQC
open Matrix

/-- The centroid of points at height `z` is at height `z`. -/
theorem centroid_level {p : Package} {z : ℝ} {l : List (Vec 6)} {c : Vec 6} (h0 : l ≠ [])
    (hl : ∀ v ∈ l, Vec.Ok v ∧ p.perp v 2 = z) (hc : centroid p.arith l = .ok c) : p.perp c 2 = z := by
  obtain ⟨r, hr, hm⟩ := C14_centroid_convex p l h0 fun v hv => (hl v hv).1
  rw [hc] at hr
  cases hr
  exact hull_level (by rintro x ⟨v, hv, rfl⟩; exact (hl v hv).2) hm

theorem centroidObj_level {p : Package} {z : ℝ} {o : Obj 3} {c : Vec 6} (h0 : o ≠ []) (ho : Obj.Ok o)
    (hz : ∀ s ∈ o, ∀ i, p.perp (s i) 2 = z) (hc : centroidObj p.arith o = .ok c) : p.perp c 2 = z := by
  obtain ⟨r, hr, hval, -⟩ := C14_centroid_obj p o h0 (by norm_num) ho
  rw [hc] at hr
  cases hr
  have hn : (o.length : ℝ) ≠ 0 := by simpa using h0
  have hsum : ∀ o : Obj 3, (∀ s ∈ o, ∀ i, p.perp (s i) 2 = z) →
      p.perpMat.mulVec ((o.map fun s => ((3 : ℕ) : ℝ)⁻¹ • ∑ i, p.val (s i)).sum) 2 = o.length * z := by
    intro o hz
    induction o with
    | nil => simp
    | cons s o ih =>
      have h1 : ∀ i, p.perpMat.mulVec (p.val (s i)) 2 = z := hz s (by simp)
      rw [List.map_cons, List.sum_cons, Matrix.mulVec_add, Pi.add_apply, ih fun t ht => hz t (by simp [ht]), Matrix.mulVec_smul,
        Pi.smul_apply, Fin.sum_univ_three, Matrix.mulVec_add, Matrix.mulVec_add, Pi.add_apply, Pi.add_apply, h1, h1, h1,
        List.length_cons]
      push_cast
      rw [smul_eq_mul]
      ring
  have : p.perp c = p.perpMat.mulVec (p.val c) := rfl
  rw [this, hval, Matrix.mulVec_smul, Pi.smul_apply, hsum o hz, smul_eq_mul]
  field_simp

theorem distance2_rounded (F : Float64) {R : ℝ} (hR : 1 ≤ R) (hR2 : R ≤ 2 ^ 10) {v w : Vec 6} (hv : Vec.Ok v) (hw : Vec.Ok w)
    (h : DistanceSmall2 R v w) : ∃ d, F.dodeDistance v w = .ok d ∧
      |d - dist3 (Package.dode.perp v) (Package.dode.perp w)| ≤ 32 * ulp * R ∧
      dist3 (Package.dode.perp v) (Package.dode.perp w) ≤ 174 / 100 * R := by
  have e1 := subVectors_ok Package.dode.lawful hv hw
  have e2 := Package.dode.projection3_ok (nvec_ok (kvec Package.dode.theta v - kvec Package.dode.theta w))
  have hs := h _ _ e1 e2
  have ed := distance_ok .dode hv hw
  unfold distanceInPerpSpace at ed
  rw [e1, bind_ok', e2, bind_ok'] at ed
  have ed := Except.ok.inj ed
  refine ⟨F.norm3 (F.dodeVector (nvec (Package.dode.kperp.mulVec (kvec Package.dode.theta (nvec (kvec Package.dode.theta v - kvec Package.dode.theta w)))))), ?_, ?_⟩
  · unfold Float64.dodeDistance
    rw [show Dode.arith = Package.dode.arith from rfl, e1, bind_ok', show Dode.projection3 = Package.dode.projection3 from rfl, e2, bind_ok']
  · rw [← ed, numericalVector3_eq]
    exact norm_rounded F hR hR2 fun i => dodeValue_approx' F hR (hR2.trans (by norm_num)) (hs i).den (hs i).int64 (hs i).size

theorem ballLoop2_rounded (F : Float64) {R : ℝ} (hR : 1 ≤ R) (hR2 : R ≤ 2 ^ 10) {c : Vec 6} (hc : Vec.Ok c) (l : List (Vec 6))
    (hl : ∀ v ∈ l, Vec.Ok v ∧ DistanceSmall2 R v c) {d : ℝ} (h0 : 0 ≤ d) (h1 : d ≤ 175 / 100 * R) :
    ∃ r, foldPy (fun dd v => do
      let dd1 ← F.dodeDistance v c
      .ok (if dd1 > dd then dd1 else dd)) d l = .ok r ∧ d ≤ r ∧ r ≤ 175 / 100 * R ∧
      (∀ v ∈ l, dist3 (Package.dode.perp v) (Package.dode.perp c) ≤ r + 32 * ulp * R) ∧
      (r = d ∨ ∃ v ∈ l, r ≤ dist3 (Package.dode.perp v) (Package.dode.perp c) + 32 * ulp * R) := by
  have up := ulp_pos
  have us : ulp ≤ 1 / 2 ^ 53 := ulp_small.1
  have uR : 32 * ulp * R ≤ 1 / 100 * R := mul_le_mul_of_nonneg_right (by linarith [show (32 : ℝ) * (1 / 2 ^ 53) ≤ 1 / 100 by norm_num]) (by linarith)
  induction l generalizing d with
  | nil => exact ⟨d, rfl, le_rfl, h1, by simp, .inl rfl⟩
  | cons v vs ih =>
    obtain ⟨hv, hvs⟩ := hl v (by simp)
    obtain ⟨d1, e1, err, hd⟩ := distance2_rounded F hR hR2 hv hc hvs
    rw [abs_le] at err
    obtain ⟨r, hr, g1, g2, g3, g4⟩ := ih (d := if d1 > d then d1 else d) (fun w hw => hl w (by simp [hw]))
      (by split <;> linarith) (by split <;> linarith)
    have hdr : d ≤ r ∧ d1 ≤ r := by
      by_cases h : d1 > d
      · rw [if_pos h] at g1; exact ⟨h.le.trans g1, g1⟩
      · rw [if_neg h] at g1; exact ⟨g1, (not_lt.1 h).trans g1⟩
    refine ⟨r, ?_, hdr.1, g2, ?_, ?_⟩
    · simp only [foldPy, e1, bind_ok']
      exact hr
    · intro w hw
      rcases List.mem_cons.1 hw with rfl | hw
      · linarith [hdr.2]
      · exact g3 w hw
    · rcases g4 with g4 | ⟨w, hw, e⟩
      · by_cases h : d1 > d
        · rw [if_pos h] at g4; exact .inr ⟨v, by simp, by linarith⟩
        · rw [if_neg h] at g4; exact .inl g4
      · exact .inr ⟨w, by simp [hw], e⟩

theorem ballList2_rounded (F : Float64) {R : ℝ} (hR : 1 ≤ R) (hR2 : R ≤ 2 ^ 10) {c : Vec 6} (hc : Vec.Ok c) {l : List (Vec 6)}
    (hl : ∀ v ∈ l, Vec.Ok v ∧ DistanceSmall2 R v c) (hne : l ≠ []) :
    ∃ r, (do let vts ← removeDoublingPerp .dode l; F.dodeBallRadiusVts vts c) = .ok r ∧ r ≤ 175 / 100 * R ∧
      (∀ v ∈ l, dist3 (Package.dode.perp v) (Package.dode.perp c) ≤ r + 32 * ulp * R) ∧
      ∃ v ∈ l, r ≤ dist3 (Package.dode.perp v) (Package.dode.perp c) + 32 * ulp * R := by
  have up := ulp_pos
  obtain ⟨k, hk, hsub, -, hall⟩ := C24_one_per_point .dode l fun v hv => (hl v hv).1
  rw [hk, bind_ok']
  obtain ⟨r, hr, g1, g2, g3, g4⟩ := ballLoop2_rounded F hR hR2 hc k (fun v hv => hl v (hsub v hv)) (le_refl 0) (by linarith)
  refine ⟨r, hr, g2, ?_, ?_⟩
  · intro v hv
    obtain ⟨y, ⟨hy, e⟩, -⟩ := hall v hv
    rw [← e]; exact g3 y hy
  · rcases g4 with g4 | ⟨v, hv, e⟩
    · obtain ⟨v, hv⟩ := List.exists_mem_of_ne_nil l hne
      refine ⟨v, hv, ?_⟩
      have := dist3_nonneg (Package.dode.perp v) (Package.dode.perp c)
      rw [g4]
      positivity
    · exact ⟨v, hsub v hv, e⟩

/-- Two balls whose centres are at height `z` and that have a horizontal disc in common overlap deeply. -/
theorem discs_overlap {z : ℝ} {c1 c2 x : Fin 3 → ℝ} {r1 r2 ρ : ℝ} (hρ : 0 ≤ ρ) (z1 : c1 2 = z) (z2 : c2 2 = z) (zx : x 2 = z)
    (h1 : ∀ y, y 2 = z → dist3 y x ≤ ρ → dist3 y c1 ≤ r1)
    (h2 : ∀ y, y 2 = z → dist3 y x ≤ ρ → dist3 y c2 ≤ r2) : dist3 c1 c2 + 2 * ρ ≤ r1 + r2 := by
  obtain ⟨e, ez, he, hd⟩ : ∃ e : Fin 3 → ℝ, e 2 = 0 ∧ norm3 e = 1 ∧ (c1 - c2) ⬝ᵥ e = norm3 (c1 - c2) := by
    by_cases h : norm3 (c1 - c2) = 0
    · refine ⟨![1, 0, 0], by simp, by simp [norm3], ?_⟩
      have h3 := norm3_sq (c1 - c2)
      rw [h, mul_zero] at h3
      rw [dotProduct_self_eq_zero.1 h3.symm, zero_dotProduct]
      simp [norm3]
    · have hp : 0 < norm3 (c1 - c2) := lt_of_le_of_ne (norm3_nonneg _) (Ne.symm h)
      refine ⟨(1 / norm3 (c1 - c2)) • (c1 - c2), ?_, ?_, ?_⟩
      · rw [Pi.smul_apply, Pi.sub_apply, z1, z2, sub_self, smul_zero]
      · rw [norm3_smul (by positivity)]; field_simp
      · rw [dotProduct_smul, ← norm3_sq, smul_eq_mul]; field_simp
  have hz : ∀ σ : ℝ, (x + σ • e) 2 = z := by
    intro σ
    rw [Pi.add_apply, Pi.smul_apply, ez, smul_zero, add_zero, zx]
  have hy : ∀ σ : ℝ, |σ| = ρ → dist3 (x + σ • e) x ≤ ρ := by
    intro σ hσ
    rw [dist3_eq, add_sub_cancel_left]
    have : norm3 (σ • e) = |σ| * norm3 e := by
      unfold norm3
      rw [smul_dotProduct, dotProduct_smul, smul_eq_mul, smul_eq_mul, ← mul_assoc, Real.sqrt_mul (mul_self_nonneg σ),
        Real.sqrt_mul_self_eq_abs]
    rw [this, he, hσ, mul_one]
  have g1 := h1 _ (hz _) (hy (-ρ) (by rw [abs_neg, abs_of_nonneg hρ]))
  have g2 := h2 _ (hz _) (hy ρ (abs_of_nonneg hρ))
  rw [dist3_eq] at g1 g2
  have f1 := dot_le_norm3 (x + (-ρ) • e - c1) (-e)
  have f2 := dot_le_norm3 (x + ρ • e - c2) e
  have hne : norm3 (-e) = 1 := by
    rw [← he]; unfold norm3; rw [neg_dotProduct_neg]
  have hee : e ⬝ᵥ e = 1 := by rw [← norm3_sq, he, mul_one]
  rw [he, mul_one] at f2
  rw [hne, mul_one] at f1
  simp only [dotProduct_neg, add_dotProduct, sub_dotProduct, smul_dotProduct, hee, smul_eq_mul, mul_one] at f1 f2
  rw [sub_dotProduct] at hd
  rw [dist3_eq, ← hd]
  linarith

/-- The rough check with rounding never raises, and rejects no piece that has a horizontal disc of radius `R/2^47` in common with
a set contained in the given ball. -/
theorem rough2_rounded (F : Float64) {R : ℝ} (hR : 1 ≤ R) (hR2 : R ≤ 2 ^ 10) {z : ℝ} {s : Simplex 3} {c : Vec 6} (hs : Simplex.Ok s)
    (hc : Vec.Ok c) (zs : Flat z (Package.dode.perps s)) (zc : Package.dode.perp c 2 = z) {c1 : Vec 6} (h1 : centroid Dode.arith (List.ofFn s) = .ok c1) (h2 : ∀ i, DistanceSmall2 R (s i) c1)
    (h3 : DistanceSmall2 R c1 c) {d r : ℝ} (hd0 : 0 ≤ r) (hd1 : r ≤ d + 32 * ulp * R) (hd2 : d ≤ 2 * R) :
    ∃ b, F.dodeRoughCheck s c d = .ok b ∧ (b = false → ∀ B : Set (Fin 3 → ℝ), (∀ y ∈ B, dist3 y (Package.dode.perp c) ≤ r) →
      ¬ CommonDisc z (R / 2 ^ 47) (solid (Package.dode.perps s)) B) := by
  have up := ulp_pos
  have us : ulp ≤ 1 / 2 ^ 53 := ulp_small.1
  have hok1 : Vec.Ok c1 := by
    have h0 : List.ofFn s ≠ [] := by intro h; have := congrArg List.length h; simp at this
    have := centroid_ok Package.dode.lawful h0 (by
      intro v hv; obtain ⟨i, rfl⟩ := (List.mem_ofFn' _ _).mp hv; exact hs i)
    rw [show Package.dode.arith = Dode.arith from rfl, h1] at this
    cases this
    exact nvec_ok _
  have z1 : Package.dode.perp c1 2 = z := centroid_level (p := .dode) (by simp) (fun v hv => by
    obtain ⟨i, rfl⟩ := (List.mem_ofFn' _ _).mp hv; exact ⟨hs i, zs i⟩) h1
  obtain ⟨r1, e1, g1, g2, -⟩ := ballList2_rounded F hR hR2 hok1 (l := List.ofFn s) (by
      intro v hv; obtain ⟨i, rfl⟩ := (List.mem_ofFn' _ _).mp hv; exact ⟨hs i, h2 i⟩)
    (by intro h; have := congrArg List.length h; simp at this)
  obtain ⟨d0, e0, err, -⟩ := distance2_rounded F hR hR2 hok1 hc h3
  have e : F.dodeRoughCheck s c d = .ok (if d0 ≤ F.fl (r1 + d) then true else false) := by
    unfold Float64.dodeRoughCheck Float64.dodeBallRadius
    rw [h1, bind_ok', e1, bind_ok', e0, bind_ok']
  refine ⟨_, e, ?_⟩
  intro hb B hB ⟨x, zx, hx⟩
  have hlt : ¬ d0 ≤ F.fl (r1 + d) := by
    intro h; rw [if_pos h] at hb; cases hb
  apply hlt
  have hov := discs_overlap (z := z) (c1 := Package.dode.perp c1) (c2 := Package.dode.perp c) (x := x) (ρ := R / 2 ^ 47)
    (r1 := r1 + 32 * ulp * R) (r2 := r) (by positivity) z1 zc zx
    (fun y yz hy => solid_ball (q := Package.dode.perps s) (fun i => g2 _ ((List.mem_ofFn' _ _).mpr ⟨i, rfl⟩)) (hx y yz hy).1)
    (fun y yz hy => hB y (hx y yz hy).2)
  have hu : R / 2 ^ 47 = 64 * (ulp * R) := by unfold ulp; ring
  rw [hu] at hov
  rw [abs_le] at err
  have hr1 : 0 ≤ r1 + 32 * ulp * R := by
    have := g2 _ ((List.mem_ofFn' _ _).mpr ⟨0, rfl⟩)
    exact (dist3_nonneg _ _).trans this
  have uR1 : ulp * R ≤ 1 / 1000 * R := mul_le_mul_of_nonneg_right (us.trans (by norm_num)) (by linarith)
  have uR0 : 0 ≤ ulp * R := by positivity
  have habs : |r1 + d| ≤ 4 * R := by rw [abs_le]; constructor <;> linarith
  have hfl := fl_err' F (x := r1 + d) (by
    refine habs.trans ?_
    have : (2 : ℝ) ^ 60 * 4 ≤ 2 ^ 250 := by norm_num
    linarith)
  have h7 : ulp * |r1 + d| ≤ ulp * (4 * R) := mul_le_mul_of_nonneg_left habs up.le
  have uR : ulp ≤ ulp * R := le_mul_of_one_le_right up.le hR
  rw [abs_le] at hfl
  nlinarith

end PyQC
