import Verif.Lemmas.RoundingTests
import Verif.Lemmas.Ball
/-!
# Distances and the rough check with rounding
-/
namespace PyQC
open Matrix

theorem norm3_sub_le (x y : Fin 3 → ℝ) : |norm3 x - norm3 y| ≤ norm3 (x - y) := by
  rw [abs_le]
  have h1 := norm3_add_le (x - y) y
  have h2 := norm3_add_le (y - x) x
  have h3 : norm3 (y - x) = norm3 (x - y) := by
    rw [← dist3_eq, ← dist3_eq, dist3_comm]
  rw [sub_add_cancel] at h1 h2
  constructor <;> linarith

theorem norm3_le {x : Fin 3 → ℝ} {m : ℝ} (hm : 0 ≤ m) (h : ∀ i, |x i| ≤ m) : norm3 x ≤ 174 / 100 * m := by
  unfold norm3
  refine Real.sqrt_le_iff.2 ⟨by positivity, ?_⟩
  rw [vec3_dotProduct]
  have h2 : ∀ i, x i * x i ≤ m * m := by
    intro i
    rw [← abs_mul_abs_self (x i)]
    exact mul_le_mul (h i) (h i) (abs_nonneg _) hm
  have := h2 0
  have := h2 1
  have := h2 2
  nlinarith

/-- The square root of a number known up to a relative and a tiny absolute error. -/
theorem sqrt_close {d d' : ℝ} (hd : 0 ≤ d) (h : |d' - d| ≤ 4 * ulp * d + 8 * tiny) :
    |Real.sqrt d' - Real.sqrt d| ≤ 4 * ulp * Real.sqrt d + 1 / 2 ^ 536 := by
  have up := ulp_pos
  have us : ulp ≤ 1 / 1000 := ulp_small.1.trans (by norm_num)
  have ht : 8 * tiny ≤ (1 / 2 ^ 536 : ℝ) ^ 2 := by
    unfold tiny
    have e1 : (1 / 2 ^ 536 : ℝ) ^ 2 = 1 / 2 ^ 1072 := by rw [div_pow, one_pow, ← pow_mul]
    have e2 : (2 : ℝ) ^ 1075 = 8 * 2 ^ 1072 := by
      rw [show 1075 = 3 + 1072 from rfl, pow_add]; congr 1; norm_num
    rw [e1, e2]
    have h3 : (0 : ℝ) < 1 / 2 ^ 1072 := by positivity
    have : (1 : ℝ) / (8 * 2 ^ 1072) = 1 / 8 * (1 / 2 ^ 1072) := by rw [← one_div_mul_one_div]
    rw [this]
    linarith
  have hs : (0 : ℝ) < 1 / 2 ^ 536 := by positivity
  generalize (1 / 2 ^ 536 : ℝ) = s at *
  have hr := Real.sqrt_nonneg d
  have hrr : Real.sqrt d * Real.sqrt d = d := Real.mul_self_sqrt hd
  set r := Real.sqrt d
  rw [abs_le] at h
  rw [abs_le]
  constructor
  · by_cases hc : r * (1 - 4 * ulp) ≤ s
    · have := Real.sqrt_nonneg d'
      nlinarith
    · rw [not_le] at hc
      have : r * (1 - 4 * ulp) - s ≤ Real.sqrt d' := by
        refine Real.le_sqrt_of_sq_le ?_
        have h1 : (r * (1 - 4 * ulp)) * (r * (1 - 4 * ulp)) ≤ d * (1 - 4 * ulp) := by
          have : (1 - 4 * ulp) * (1 - 4 * ulp) ≤ 1 * (1 - 4 * ulp) := mul_le_mul_of_nonneg_right (by linarith) (by linarith)
          calc (r * (1 - 4 * ulp)) * (r * (1 - 4 * ulp)) = (r * r) * ((1 - 4 * ulp) * (1 - 4 * ulp)) := by ring
            _ ≤ (r * r) * (1 * (1 - 4 * ulp)) := mul_le_mul_of_nonneg_left this (by positivity)
            _ = d * (1 - 4 * ulp) := by rw [hrr]; ring
        have h2 : s * s ≤ r * (1 - 4 * ulp) * s := mul_le_mul_of_nonneg_right hc.le hs.le
        nlinarith
      nlinarith
  · have : Real.sqrt d' ≤ r * (1 + 4 * ulp) + s := by
      refine Real.sqrt_le_iff.2 ⟨by positivity, ?_⟩
      have h1 : d * (1 + 4 * ulp) ≤ (r * (1 + 4 * ulp)) * (r * (1 + 4 * ulp)) := by
        have : 1 * (1 + 4 * ulp) ≤ (1 + 4 * ulp) * (1 + 4 * ulp) := mul_le_mul_of_nonneg_right (by linarith) (by linarith)
        calc d * (1 + 4 * ulp) = (r * r) * (1 * (1 + 4 * ulp)) := by rw [hrr]; ring
          _ ≤ (r * r) * ((1 + 4 * ulp) * (1 + 4 * ulp)) := mul_le_mul_of_nonneg_left this (by positivity)
          _ = _ := by ring
      have h2 : 0 ≤ r * (1 + 4 * ulp) * s := by positivity
      nlinarith
    nlinarith

theorem norm_rounded (F : Float64) {R : ℝ} (hR : 1 ≤ R) (hR2 : R ≤ 2 ^ 10) {x x' : Fin 3 → ℝ}
    (h : ∀ i, Approx R (812 / 100) (x' i) (x i)) : |F.norm3 x' - norm3 x| ≤ 32 * ulp * R ∧ norm3 x ≤ 174 / 100 * R := by
  have up := ulp_pos
  have us : ulp ≤ 1 / 2 ^ 53 := ulp_small.1
  refine ⟨?_, norm3_le (by linarith) fun i => (h i).abs⟩
  have h1 : |norm3 x' - norm3 x| ≤ 174 / 100 * (812 / 100 * ulp * R) :=
    (norm3_sub_le _ _).trans (norm3_le (by positivity) fun i => (h i).err)
  have hx : ∀ i, |x' i| ≤ 1001 / 1000 * R := fun i => (h i).abs'.trans (by nlinarith)
  have h2 : norm3 x' ≤ 174 / 100 * (1001 / 1000 * R) := norm3_le (by linarith) hx
  have big : ∀ z : ℝ, z ≤ 2 ^ 200 → z ≤ 2 ^ 400 := fun z hz => hz.trans (pow_le_pow_right₀ (by norm_num) (by norm_num))
  have e60 : (2 : ℝ) ^ 60 * 2 ≤ 2 ^ 200 := by norm_num
  have hd := F.dot_err x' x' fun i => ⟨big _ ((hx i).trans (by linarith)), big _ ((hx i).trans (by linarith))⟩
  have hsum : ∑ i, |x' i| * |x' i| = x' ⬝ᵥ x' := by
    simp only [abs_mul_abs_self]; rfl
  rw [hsum] at hd
  have hdd : 0 ≤ x' ⬝ᵥ x' := by rw [vec3_dotProduct]; nlinarith [mul_self_nonneg (x' 0), mul_self_nonneg (x' 1), mul_self_nonneg (x' 2)]
  have h3 := sqrt_close hdd hd
  change |Real.sqrt (F.dot x' x') - norm3 x'| ≤ 4 * ulp * norm3 x' + _ at h3
  have hs : (1 : ℝ) / 2 ^ 536 ≤ ulp / 1000 := by
    have : (1 : ℝ) / 2 ^ 536 ≤ 1 / 2 ^ 200 := one_div_le_one_div_of_le (by positivity) (pow_le_pow_right₀ (by norm_num) (by norm_num))
    refine this.trans ?_
    unfold ulp; norm_num
  have hn0 : 0 ≤ norm3 x' := norm3_nonneg _
  have uR : ulp ≤ ulp * R := le_mul_of_one_le_right up.le hR
  have h4 : 4 * ulp * norm3 x' ≤ 7 * (ulp * R) := by nlinarith
  have h5 : Real.sqrt (F.dot x' x') ≤ 2 * R := by
    rw [abs_le] at h3
    have : ulp * R ≤ 1 / 1000 * R := mul_le_mul_of_nonneg_right (us.trans (by norm_num)) (by linarith)
    linarith
  have h6 := fl_err' F (x := Real.sqrt (F.dot x' x')) (by
    rw [abs_of_nonneg (Real.sqrt_nonneg _)]
    refine h5.trans ?_
    have : (2 : ℝ) ^ 60 * 2 ≤ 2 ^ 250 := by norm_num
    linarith)
  rw [abs_of_nonneg (Real.sqrt_nonneg _)] at h6
  have h7 : ulp * Real.sqrt (F.dot x' x') ≤ ulp * (2 * R) := mul_le_mul_of_nonneg_left h5 up.le
  unfold Float64.norm3
  have e : F.fl (Real.sqrt (F.dot x' x')) - norm3 x = (F.fl (Real.sqrt (F.dot x' x')) - Real.sqrt (F.dot x' x')) +
    (Real.sqrt (F.dot x' x') - norm3 x') + (norm3 x' - norm3 x) := by ring
  rw [e]
  refine (abs_add_le _ _).trans ?_
  have := abs_add_le (F.fl (Real.sqrt (F.dot x' x')) - Real.sqrt (F.dot x' x')) (Real.sqrt (F.dot x' x') - norm3 x')
  nlinarith

theorem distance_rounded (F : Float64) {R : ℝ} (hR : 1 ≤ R) (hR2 : R ≤ 2 ^ 10) {v w : Vec 6} (hv : Vec.Ok v) (hw : Vec.Ok w)
    (h : DistanceSmall R v w) : ∃ d, F.distanceInPerpSpace v w = .ok d ∧
      |d - dist3 (Package.ico.perp v) (Package.ico.perp w)| ≤ 32 * ulp * R ∧
      dist3 (Package.ico.perp v) (Package.ico.perp w) ≤ 174 / 100 * R := by
  have e1 := subVectors_ok Package.ico.lawful hv hw
  have e2 := Package.ico.projection3_ok (nvec_ok (kvec Package.ico.theta v - kvec Package.ico.theta w))
  have hs := h _ _ e1 e2
  have ed := distance_ok .ico hv hw
  unfold distanceInPerpSpace at ed
  rw [e1, bind_ok', e2, bind_ok'] at ed
  have ed := Except.ok.inj ed
  refine ⟨F.norm3 (F.numericalVector (nvec (Package.ico.kperp.mulVec (kvec Package.ico.theta (nvec (kvec Package.ico.theta v - kvec Package.ico.theta w)))))), ?_, ?_⟩
  · unfold Float64.distanceInPerpSpace
    rw [show Ico.arith = Package.ico.arith from rfl, e1, bind_ok', show Ico.projection3 = Package.ico.projection3 from rfl, e2, bind_ok']
  · rw [← ed, numericalVector3_eq]
    exact norm_rounded F hR hR2 fun i => numericValue_approx F hR hR2 (hs i).den (hs i).int64 (hs i).size

theorem ballLoop_rounded (F : Float64) {R : ℝ} (hR : 1 ≤ R) (hR2 : R ≤ 2 ^ 10) {c : Vec 6} (hc : Vec.Ok c) (l : List (Vec 6))
    (hl : ∀ v ∈ l, Vec.Ok v ∧ DistanceSmall R v c) {d : ℝ} (h0 : 0 ≤ d) (h1 : d ≤ 175 / 100 * R) :
    ∃ r, foldPy (fun dd v => do
      let dd1 ← F.distanceInPerpSpace v c
      .ok (if dd1 > dd then dd1 else dd)) d l = .ok r ∧ d ≤ r ∧ r ≤ 175 / 100 * R ∧
      (∀ v ∈ l, dist3 (Package.ico.perp v) (Package.ico.perp c) ≤ r + 32 * ulp * R) ∧
      (r = d ∨ ∃ v ∈ l, r ≤ dist3 (Package.ico.perp v) (Package.ico.perp c) + 32 * ulp * R) := by
  have up := ulp_pos
  have us : ulp ≤ 1 / 2 ^ 53 := ulp_small.1
  have uR : 32 * ulp * R ≤ 1 / 100 * R := mul_le_mul_of_nonneg_right (by linarith [show (32 : ℝ) * (1 / 2 ^ 53) ≤ 1 / 100 by norm_num]) (by linarith)
  induction l generalizing d with
  | nil => exact ⟨d, rfl, le_rfl, h1, by simp, .inl rfl⟩
  | cons v vs ih =>
    obtain ⟨hv, hvs⟩ := hl v (by simp)
    obtain ⟨d1, e1, err, hd⟩ := distance_rounded F hR hR2 hv hc hvs
    rw [abs_le] at err
    obtain ⟨r, hr, g1, g2, g3, g4⟩ := ih (d := if d1 > d then d1 else d) (fun w hw => hl w (by simp [hw]))
      (by split <;> linarith) (by split <;> linarith)
    have hdr : d ≤ r ∧ d1 ≤ r := by
      by_cases h : d1 > d
      · rw [if_pos h] at g1; exact ⟨h.le.trans g1, g1⟩
      · rw [if_neg h] at g1; exact ⟨g1, (not_lt.1 h).trans g1⟩
    refine ⟨r, ?_, hdr.1, g2, ?_, ?_⟩
    · simp only [foldPy, e1, bind_ok']
      exact hr
    · intro w hw
      rcases List.mem_cons.1 hw with rfl | hw
      · linarith [hdr.2]
      · exact g3 w hw
    · rcases g4 with g4 | ⟨w, hw, e⟩
      · by_cases h : d1 > d
        · rw [if_pos h] at g4; exact .inr ⟨v, by simp, by linarith⟩
        · rw [if_neg h] at g4; exact .inl g4
      · exact .inr ⟨w, by simp [hw], e⟩

theorem ballList_rounded (F : Float64) {R : ℝ} (hR : 1 ≤ R) (hR2 : R ≤ 2 ^ 10) {c : Vec 6} (hc : Vec.Ok c) {l : List (Vec 6)}
    (hl : ∀ v ∈ l, Vec.Ok v ∧ DistanceSmall R v c) (hne : l ≠ []) :
    ∃ r, (do let vts ← removeDoublingPerp .ico l; F.ballRadiusVts vts c) = .ok r ∧ r ≤ 175 / 100 * R ∧
      (∀ v ∈ l, dist3 (Package.ico.perp v) (Package.ico.perp c) ≤ r + 32 * ulp * R) ∧
      ∃ v ∈ l, r ≤ dist3 (Package.ico.perp v) (Package.ico.perp c) + 32 * ulp * R := by
  have up := ulp_pos
  obtain ⟨k, hk, hsub, -, hall⟩ := C24_one_per_point .ico l fun v hv => (hl v hv).1
  rw [hk, bind_ok']
  obtain ⟨r, hr, g1, g2, g3, g4⟩ := ballLoop_rounded F hR hR2 hc k (fun v hv => hl v (hsub v hv)) (le_refl 0) (by linarith)
  refine ⟨r, hr, g2, ?_, ?_⟩
  · intro v hv
    obtain ⟨y, ⟨hy, e⟩, -⟩ := hall v hv
    rw [← e]; exact g3 y hy
  · rcases g4 with g4 | ⟨v, hv, e⟩
    · obtain ⟨v, hv⟩ := List.exists_mem_of_ne_nil l hne
      refine ⟨v, hv, ?_⟩
      have := dist3_nonneg (Package.ico.perp v) (Package.ico.perp c)
      rw [g4]
      positivity
    · exact ⟨v, hsub v hv, e⟩

/-- Two balls that have a smaller ball in common overlap deeply. -/
theorem balls_overlap {c1 c2 x : Fin 3 → ℝ} {r1 r2 ρ : ℝ} (hρ : 0 ≤ ρ) (h1 : ∀ y, dist3 y x ≤ ρ → dist3 y c1 ≤ r1)
    (h2 : ∀ y, dist3 y x ≤ ρ → dist3 y c2 ≤ r2) : dist3 c1 c2 + 2 * ρ ≤ r1 + r2 := by
  obtain ⟨e, he, hd⟩ : ∃ e : Fin 3 → ℝ, norm3 e = 1 ∧ (c1 - c2) ⬝ᵥ e = norm3 (c1 - c2) := by
    by_cases h : norm3 (c1 - c2) = 0
    · refine ⟨![1, 0, 0], by simp [norm3], ?_⟩
      have h3 := norm3_sq (c1 - c2)
      rw [h, mul_zero] at h3
      rw [dotProduct_self_eq_zero.1 h3.symm, zero_dotProduct]
      simp [norm3]
    · have hp : 0 < norm3 (c1 - c2) := lt_of_le_of_ne (norm3_nonneg _) (Ne.symm h)
      refine ⟨(1 / norm3 (c1 - c2)) • (c1 - c2), ?_, ?_⟩
      · rw [norm3_smul (by positivity)]; field_simp
      · rw [dotProduct_smul, ← norm3_sq, smul_eq_mul]; field_simp
  have hy : ∀ σ : ℝ, |σ| = ρ → dist3 (x + σ • e) x ≤ ρ := by
    intro σ hσ
    rw [dist3_eq, add_sub_cancel_left]
    have : norm3 (σ • e) = |σ| * norm3 e := by
      unfold norm3
      rw [smul_dotProduct, dotProduct_smul, smul_eq_mul, smul_eq_mul, ← mul_assoc, Real.sqrt_mul (mul_self_nonneg σ),
        Real.sqrt_mul_self_eq_abs]
    rw [this, he, hσ, mul_one]
  have g1 := h1 _ (hy (-ρ) (by rw [abs_neg, abs_of_nonneg hρ]))
  have g2 := h2 _ (hy ρ (abs_of_nonneg hρ))
  rw [dist3_eq] at g1 g2
  have f1 := dot_le_norm3 (x + (-ρ) • e - c1) (-e)
  have f2 := dot_le_norm3 (x + ρ • e - c2) e
  have hne : norm3 (-e) = 1 := by
    rw [← he]; unfold norm3; rw [neg_dotProduct_neg]
  have hee : e ⬝ᵥ e = 1 := by rw [← norm3_sq, he, mul_one]
  rw [he, mul_one] at f2
  rw [hne, mul_one] at f1
  simp only [dotProduct_neg, add_dotProduct, sub_dotProduct, smul_dotProduct, hee, smul_eq_mul, mul_one] at f1 f2
  rw [sub_dotProduct] at hd
  rw [dist3_eq, ← hd]
  linarith

/-- The rough check with rounding never raises, and rejects no piece that has a ball of radius `R/2^47` in common with
a set contained in the given ball. -/
theorem rough_rounded (F : Float64) {R : ℝ} (hR : 1 ≤ R) (hR2 : R ≤ 2 ^ 10) {s : Simplex 4} {c : Vec 6} (hs : Simplex.Ok s)
    (hc : Vec.Ok c) {c1 : Vec 6} (h1 : centroid Ico.arith (List.ofFn s) = .ok c1) (h2 : ∀ i, DistanceSmall R (s i) c1)
    (h3 : DistanceSmall R c1 c) {d r : ℝ} (hd0 : 0 ≤ r) (hd1 : r ≤ d + 32 * ulp * R) (hd2 : d ≤ 2 * R) :
    ∃ b, F.roughCheck s c d = .ok b ∧ (b = false → ∀ B : Set (Fin 3 → ℝ), (∀ y ∈ B, dist3 y (Package.ico.perp c) ≤ r) →
      ¬ CommonBall (R / 2 ^ 47) (solid (Package.ico.perps s)) B) := by
  have up := ulp_pos
  have us : ulp ≤ 1 / 2 ^ 53 := ulp_small.1
  have hok1 : Vec.Ok c1 := by
    have h0 : List.ofFn s ≠ [] := by intro h; have := congrArg List.length h; simp at this
    have := centroid_ok Package.ico.lawful h0 (by
      intro v hv; obtain ⟨i, rfl⟩ := (List.mem_ofFn' _ _).mp hv; exact hs i)
    rw [show Package.ico.arith = Ico.arith from rfl, h1] at this
    cases this
    exact nvec_ok _
  obtain ⟨r1, e1, g1, g2, -⟩ := ballList_rounded F hR hR2 hok1 (l := List.ofFn s) (by
      intro v hv; obtain ⟨i, rfl⟩ := (List.mem_ofFn' _ _).mp hv; exact ⟨hs i, h2 i⟩)
    (by intro h; have := congrArg List.length h; simp at this)
  obtain ⟨d0, e0, err, -⟩ := distance_rounded F hR hR2 hok1 hc h3
  have e : F.roughCheck s c d = .ok (if d0 ≤ F.fl (r1 + d) then true else false) := by
    unfold Float64.roughCheck Float64.ballRadius
    rw [h1, bind_ok', e1, bind_ok', e0, bind_ok']
  refine ⟨_, e, ?_⟩
  intro hb B hB ⟨x, hx⟩
  have hlt : ¬ d0 ≤ F.fl (r1 + d) := by
    intro h; rw [if_pos h] at hb; cases hb
  apply hlt
  have hov := balls_overlap (c1 := Package.ico.perp c1) (c2 := Package.ico.perp c) (x := x) (ρ := R / 2 ^ 47)
    (r1 := r1 + 32 * ulp * R) (r2 := r) (by positivity)
    (fun y hy => solid_ball (q := Package.ico.perps s) (fun i => g2 _ ((List.mem_ofFn' _ _).mpr ⟨i, rfl⟩)) (hx y hy).1)
    (fun y hy => hB y (hx y hy).2)
  have hu : R / 2 ^ 47 = 64 * (ulp * R) := by unfold ulp; ring
  rw [hu] at hov
  rw [abs_le] at err
  have hr1 : 0 ≤ r1 + 32 * ulp * R := by
    have := g2 _ ((List.mem_ofFn' _ _).mpr ⟨0, rfl⟩)
    exact (dist3_nonneg _ _).trans this
  have uR1 : ulp * R ≤ 1 / 1000 * R := mul_le_mul_of_nonneg_right (us.trans (by norm_num)) (by linarith)
  have uR0 : 0 ≤ ulp * R := by positivity
  have habs : |r1 + d| ≤ 4 * R := by rw [abs_le]; constructor <;> linarith
  have hfl := fl_err' F (x := r1 + d) (by
    refine habs.trans ?_
    have : (2 : ℝ) ^ 60 * 4 ≤ 2 ^ 250 := by norm_num
    linarith)
  have h7 : ulp * |r1 + d| ≤ ulp * (4 * R) := mul_le_mul_of_nonneg_left habs up.le
  have uR : ulp ≤ ulp * R := le_mul_of_one_le_right up.le hR
  rw [abs_le] at hfl
  nlinarith

end PyQC
