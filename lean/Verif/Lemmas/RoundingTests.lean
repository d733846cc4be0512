import Verif.Lemmas.RoundingPoints
import Verif.Lemmas.Intersect
/-!
# The inside test and the segment–triangle test with rounding
-/
namespace PyQC
open Matrix

theorem eps_approx (F : Float64) : Approx EPS (101 / 100) F.eps EPS := by
  have h : Approx EPS 0 EPS EPS := Approx.exact (by unfold EPS; norm_num [abs_of_pos]) (by unfold EPS; norm_num)
  have := h.fl F (le_900' (by unfold EPS; norm_num)) (by norm_num)
  rwa [zero_add] at this

/-- A comparison of two numbers known up to errors. -/
theorem lt_iff_of_close {a b a' b' e f m : ℝ} (ha : |a' - a| ≤ e) (hb : |b' - b| ≤ f) (hm : e + f ≤ m) (h : m < |a - b|) :
    a' < b' ↔ a < b := by
  rw [abs_le] at ha hb
  rcases lt_abs.1 h with h | h
  · exact ⟨fun _ => by linarith, fun _ => by linarith⟩
  · exact ⟨fun _ => by linarith, fun _ => by linarith⟩

theorem margin_ulp (R : ℝ) : margin R = 65536 * ulp * R ^ 3 := by
  unfold margin ulp; ring

section
variable (F : Float64) {R : ℝ} (hR : 1 ≤ R) (hR2 : R ≤ 2 ^ 10)
include hR hR2

theorem inside_approx {x x' : Fin 3 → ℝ} {t t' : Fin 4 → Fin 3 → ℝ} (hx : ∀ j, Approx R 75 (x' j) (x j))
    (ht : ∀ i j, Approx R 75 (t' i j) (t i j))
    (h : margin R < |(∑ i, Ico.tetrahedronVolumeNumerical (Ico.smallTetrahedron i x t)) - Ico.tetrahedronVolumeNumerical t -
      EPS * Ico.tetrahedronVolumeNumerical t|)
    (h0 : Ico.tetrahedronVolumeNumerical t ≤ ∑ i, Ico.tetrahedronVolumeNumerical (Ico.smallTetrahedron i x t)) :
    F.insideTetrahedron x' t' = Ico.insideTetrahedron x t := by
  obtain ⟨r1, r2, r3, r4⟩ := R2_bounds hR hR2
  have up := ulp_pos
  have b0 : R ^ 3 ≤ 2 ^ 200 / 100 := r4.trans (by norm_num)
  have hsm : ∀ k i j, Approx R 75 (Ico.smallTetrahedron k x' t' i j) (Ico.smallTetrahedron k x t i j) := by
    intro k i j
    unfold Ico.smallTetrahedron
    split_ifs
    · exact hx j
    · exact ht i j
  have hv0 := volume_approx F hR hR2 ht
  have hv : ∀ k, _ := fun k => volume_approx F hR hR2 (hsm k)
  have hL1 := ((hv0.sub (hv 0)).fl F (le_900' (by linarith)) (by norm_num)).mono
    (l := 905) (by norm_num) (by norm_num)
  have hL2 := ((hL1.sub ((hv 1).mono (l := 905) (by norm_num) (by norm_num))).fl F
    (le_900' (by linarith)) (by norm_num)).mono (l := 907) (by norm_num) (by norm_num)
  have hL3 := ((hL2.sub ((hv 2).mono (l := 907) (by norm_num) (by norm_num))).fl F
    (le_900' (by linarith)) (by norm_num)).mono (l := 909) (by norm_num) (by norm_num)
  have hL4 := ((hL3.sub ((hv 3).mono (l := 909) (by norm_num) (by norm_num))).fl F
    (le_900' (by linarith)) (by norm_num)).mono (l := 911) (by norm_num) (by norm_num)
  have hr := (((eps_approx F).mul hv0 (by unfold EPS; nlinarith) (by norm_num)).fl F (le_900' (by unfold EPS; linarith)) (by norm_num)).mono (l := 911) (by norm_num) (by norm_num)
  unfold Float64.insideTetrahedron Ico.insideTetrahedron
  simp only
  set w0 := Ico.tetrahedronVolumeNumerical t
  set w1 := Ico.tetrahedronVolumeNumerical (Ico.smallTetrahedron 0 x t)
  set w2 := Ico.tetrahedronVolumeNumerical (Ico.smallTetrahedron 1 x t)
  set w3 := Ico.tetrahedronVolumeNumerical (Ico.smallTetrahedron 2 x t)
  set w4 := Ico.tetrahedronVolumeNumerical (Ico.smallTetrahedron 3 x t)
  rw [Fin.sum_univ_four] at h h0
  have e1 : |w0 - w1 - w2 - w3 - w4| = w1 + w2 + w3 + w4 - w0 := by
    rw [abs_of_nonpos (by linarith)]; ring
  have e2 : (1 : ℝ) / 10 ^ 6 = EPS := rfl
  congr 1
  rw [eq_iff_iff]
  refine lt_iff_of_close hL4.absval.err hr.err (m := margin R) ?_ (by rw [e1]; exact h)
  rw [margin_ulp]
  have h4 : 0 < ulp * R ^ 3 := by positivity
  have : EPS ≤ 1 := by unfold EPS; norm_num
  nlinarith


/-- The four products of the segment–triangle test. -/
theorem bunbo_approx {A A' C C' P P' Q Q' S S' U U' : Fin 3 → ℝ} (hA : ∀ j, Approx R 75 (A' j) (A j)) (hC : ∀ j, Approx R 75 (C' j) (C j))
    (hP : ∀ j, Approx R 75 (P' j) (P j)) (hQ : ∀ j, Approx R 75 (Q' j) (Q j)) (hS : ∀ j, Approx R 75 (S' j) (S j))
    (hU : ∀ j, Approx R 75 (U' j) (U j)) :
    Approx (48 * R ^ 3) 241 (F.dot (F.cross (F.sub A' C') (F.sub P' Q')) (F.sub S' U')) (((A - C) ⨯₃ (P - Q)) ⬝ᵥ (S - U)) :=
  dot_approx F hR hR2 (fun i => cross_approx F hR hR2 (fun i => diff_approx F hR2 (hA i) (hC i))
    (fun i => diff_approx F hR2 (hP i) (hQ i)) i) (fun i => diff_approx F hR2 (hS i) (hU i))

omit hR2 in
/-- The error of the products, in units of the margin. -/
theorem product_err {x' x : ℝ} (h : Approx (48 * R ^ 3) 241 x' x) : |x' - x| ≤ 18 / 100 * margin R ∧ |x| ≤ 48 * R ^ 3 := by
  refine ⟨h.err.trans ?_, h.abs⟩
  rw [margin_ulp]
  have := ulp_pos
  have h4 : 0 < ulp * R ^ 3 := by positivity
  nlinarith

end

/-- A quotient of computed numbers lies on the same side of `c` as the exact quotient, at a distance. -/
theorem quot_side {b b' n n' c m K : ℝ} (hm : 0 < m) (hb : |b' - b| ≤ 18 / 100 * m) (hn : |n' - n| ≤ 36 / 100 * m)
    (hb0 : m < |b|) (hK : |b| ≤ K) (hc : |c| ≤ 11 / 10) (h : m < |n - c * b|) :
    (0 < n / b - c ∧ m / 3 / K < n' / b' - c) ∨ (n / b - c < 0 ∧ n' / b' - c < -(m / 3 / K)) := by
  have hmK : m < K := lt_of_lt_of_le hb0 hK
  have hK0 : 0 < K := hm.trans hmK
  have hd : |(n' - c * b') - (n - c * b)| ≤ 56 / 100 * m := by
    have e : (n' - c * b') - (n - c * b) = (n' - n) + -c * (b' - b) := by ring
    rw [e]
    refine (abs_add_le _ _).trans ?_
    rw [abs_mul, abs_neg]
    have := mul_le_mul hc hb (abs_nonneg _) (by norm_num)
    linarith
  have hbne : b ≠ 0 := fun e => by rw [e, abs_zero] at hb0; linarith
  have e1 : n / b - c = (n - c * b) / b := by field_simp
  have key : ∀ x y : ℝ, 0 < y → y ≤ 118 / 100 * K → 44 / 100 * m < x → m / 3 / K < x / y := by
    intro x y hy hyK hx
    rw [lt_div_iff₀ hy]
    have : m / 3 / K * y ≤ m / 3 / K * (118 / 100 * K) := mul_le_mul_of_nonneg_left hyK (by positivity)
    have e : m / 3 / K * (118 / 100 * K) = 118 / 300 * m := by field_simp; norm_num
    linarith
  rw [abs_le] at hd hb
  rcases lt_or_gt_of_ne hbne with hneg | hpos
  · rw [abs_of_neg hneg] at hb0 hK
    have hb'ne : b' ≠ 0 := by intro e; rw [e] at hb; linarith
    have e2 : n' / b' - c = (n' - c * b') / b' := by field_simp
    rcases lt_abs.1 h with h | h
    · right
      refine ⟨?_, ?_⟩
      · rw [e1]; exact div_neg_of_pos_of_neg (by linarith) hneg
      · rw [e2]
        have := key (n' - c * b') (-b') (by linarith) (by linarith) (by linarith)
        rw [div_neg] at this
        linarith
    · left
      refine ⟨?_, ?_⟩
      · rw [e1]; exact div_pos_of_neg_of_neg (by linarith) hneg
      · rw [e2]
        have := key (-(n' - c * b')) (-b') (by linarith) (by linarith) (by linarith)
        rwa [neg_div_neg_eq] at this
  · rw [abs_of_pos hpos] at hb0 hK
    have hb'ne : b' ≠ 0 := by intro e; rw [e] at hb; linarith
    have e2 : n' / b' - c = (n' - c * b') / b' := by field_simp
    rcases lt_abs.1 h with h | h
    · left
      refine ⟨?_, ?_⟩
      · rw [e1]; exact div_pos (by linarith) hpos
      · rw [e2]; exact key _ _ (by linarith) (by linarith) (by linarith)
    · right
      refine ⟨?_, ?_⟩
      · rw [e1]; exact div_neg_of_neg_of_pos (by linarith) hpos
      · rw [e2]
        have := key (-(n' - c * b')) b' (by linarith) (by linarith) (by linarith)
        rw [neg_div] at this
        linarith

theorem ulp_small : ulp ≤ 1 / 2 ^ 53 ∧ tiny ≤ ulp / 1000 := by
  refine ⟨le_refl _, tiny_le.trans ?_⟩
  unfold ulp; norm_num

theorem thr_low (F : Float64) : |F.fl (0 - F.eps) - -EPS| ≤ 20 * ulp := by
  have h := ((eps_approx F).neg.fl F (le_900' (by unfold EPS; norm_num)) (by norm_num)).err
  rw [← zero_sub F.eps] at h
  refine h.trans ?_
  have := ulp_pos
  unfold EPS; linarith

theorem thr_high (F : Float64) : |F.fl (1 + F.eps) - (1 + EPS)| ≤ 20 * ulp := by
  have h1 : Approx 1 (101 / 100) 1 1 := (Approx.exact (by norm_num) (by norm_num)).mono (by norm_num) (by norm_num)
  have h := ((h1.add (eps_approx F)).fl F (le_900' (by unfold EPS; norm_num)) (by norm_num)).err
  refine h.trans ?_
  have := ulp_pos
  unfold EPS; linarith

/-- The last comparison. -/
theorem fl_side {x q c thr : ℝ} (hx : |x - q| ≤ 3 * ulp * |q - c| + 20 * ulp) (ht : |thr - c| ≤ 20 * ulp) :
    (400 * ulp < q - c → thr < x) ∧ (q - c < -(400 * ulp) → x < thr) := by
  have up := ulp_pos
  have us : ulp ≤ 1 / 100 := ulp_small.1.trans (by norm_num)
  rw [abs_le] at hx ht
  constructor
  · intro h
    rw [abs_of_pos (by linarith)] at hx
    nlinarith
  · intro h
    rw [abs_of_neg (by linarith)] at hx
    nlinarith

theorem fl_err' (F : Float64) {x : ℝ} (h : |x| ≤ 2 ^ 250) : |F.fl x - x| ≤ ulp * |x| + ulp / 1000 :=
  (F.fl_err x (h.trans (pow_le_pow_right₀ (by norm_num) (by norm_num)))).trans (by linarith [ulp_small.2])

theorem quot_err (F : Float64) {q c : ℝ} (h : |q| ≤ 2 ^ 250) (hc : |c| ≤ 11 / 10) :
    |F.fl q - q| ≤ 3 * ulp * |q - c| + 20 * ulp := by
  have up := ulp_pos
  refine (fl_err' F h).trans ?_
  have h1 : |q| ≤ |q - c| + |c| := by
    have := abs_add_le (q - c) c
    rwa [sub_add_cancel] at this
  have h2 := abs_nonneg (q - c)
  nlinarith

/-- The test of `u + v`. -/
theorem sum_err (F : Float64) {q r : ℝ} (hq : |q| ≤ 2 ^ 240) (hr : |r| ≤ 2 ^ 240) (hu : |F.fl q| ≤ 11 / 10) :
    |F.fl (F.fl q + F.fl r) - (q + r)| ≤ 3 * ulp * |q + r - (1 + EPS)| + 20 * ulp := by
  have up := ulp_pos
  have us : ulp ≤ 1 / 1000 := ulp_small.1.trans (by norm_num)
  have hE : EPS ≤ 1 / 10 ∧ 0 < EPS := by unfold EPS; norm_num
  have big : (2 : ℝ) ^ 240 ≤ 2 ^ 250 := pow_le_pow_right₀ (by norm_num) (by norm_num)
  have e1 := fl_err' F (hq.trans big)
  have e2 := fl_err' F (hr.trans big)
  set a := F.fl q
  set b := F.fl r
  have hq2 : |q| ≤ 12 / 10 := by
    have h1 : |q| ≤ |a - q| + |a| := by
      have := abs_sub_le q a 0
      rw [sub_zero, sub_zero, abs_sub_comm] at this
      exact this
    have h2 := abs_nonneg q
    nlinarith
  set s := |q + r - (1 + EPS)| with hs
  have hs0 : 0 ≤ s := abs_nonneg _
  have hr2 : |r| ≤ s + 24 / 10 := by
    have h1 : r = (q + r - (1 + EPS)) + (1 + EPS - q) := by ring
    have h2 : |r| ≤ s + |1 + EPS - q| := by
      calc |r| = |(q + r - (1 + EPS)) + (1 + EPS - q)| := by rw [← h1]
        _ ≤ _ := abs_add_le _ _
    have h3 : |1 + EPS - q| ≤ 24 / 10 := by
      rw [abs_le] at hq2 ⊢
      constructor <;> linarith
    linarith
  have hab : |a + b| ≤ 11 / 10 + (|r| + ulp * |r| + ulp) := by
    have h1 : |b| ≤ |b - r| + |r| := by
      have := abs_add_le (b - r) r
      rwa [sub_add_cancel] at this
    refine (abs_add_le _ _).trans ?_
    linarith
  have h250 : |a + b| ≤ 2 ^ 250 := by
    refine hab.trans ?_
    have h1 : (2 : ℝ) ^ 250 = 1024 * 2 ^ 240 := by norm_num
    have h2 : (1 : ℝ) ≤ 2 ^ 240 := one_le_pow₀ (by norm_num)
    rw [h1]
    have h3 : ulp * |r| ≤ 1 * |r| := mul_le_mul_of_nonneg_right (by linarith) (abs_nonneg _)
    linarith
  have e3 := fl_err' F h250
  have t1 : F.fl (a + b) - (q + r) = (F.fl (a + b) - (a + b)) + ((a - q) + (b - r)) := by ring
  rw [t1]
  have t2 := (abs_add_le (F.fl (a + b) - (a + b)) ((a - q) + (b - r)))
  have t3 := abs_add_le (a - q) (b - r)
  have t4 : ulp * |q| ≤ ulp * (12 / 10) := mul_le_mul_of_nonneg_left hq2 up.le
  have t5 : ulp * |r| ≤ ulp * (s + 24 / 10) := mul_le_mul_of_nonneg_left hr2 up.le
  have t6 : ulp * |a + b| ≤ ulp * (11 / 10 + (s + 24 / 10 + (s + 24 / 10) / 1000 + ulp)) :=
    mul_le_mul_of_nonneg_left (by
      have : ulp * |r| ≤ 1 / 1000 * (s + 24 / 10) := mul_le_mul us hr2 (abs_nonneg _) (by norm_num)
      linarith) up.le
  nlinarith


/-- The comparison of a computed quotient with a computed threshold. -/
theorem quot_cmp (F : Float64) {R b b' n n' c thr : ℝ} (hR : 1 ≤ R) (hb : |b' - b| ≤ 18 / 100 * margin R)
    (hn : |n' - n| ≤ 18 / 100 * margin R) (hb0 : margin R < |b|) (hK : |b| ≤ 48 * R ^ 3) (hc : |c| ≤ 11 / 10)
    (hq : |n' / b'| ≤ 2 ^ 240) (ht : |thr - c| ≤ 20 * ulp) (h : margin R < |n - c * b|) :
    (thr ≤ F.fl (n' / b') ↔ c ≤ n / b) ∧ (F.fl (n' / b') ≤ thr ↔ n / b ≤ c) := by
  have up := ulp_pos
  have h3 : 0 < R ^ 3 := by positivity
  have hm : 0 < margin R := by rw [margin_ulp]; positivity
  have hD : 400 * ulp ≤ margin R / 3 / (48 * R ^ 3) := by
    rw [margin_ulp, le_div_iff₀ (by positivity)]
    nlinarith
  have big : (2 : ℝ) ^ 240 ≤ 2 ^ 250 := pow_le_pow_right₀ (by norm_num) (by norm_num)
  obtain ⟨h1, h2⟩ := fl_side (quot_err F (hq.trans big) hc) ht
  rcases quot_side hm hb (hn.trans (by linarith)) hb0 hK hc h with ⟨k1, k2⟩ | ⟨k1, k2⟩
  · have := h1 (by linarith)
    exact ⟨⟨fun _ => by linarith, fun _ => by linarith⟩, ⟨fun _ => by linarith, fun _ => by linarith⟩⟩
  · have := h2 (by linarith)
    exact ⟨⟨fun _ => by linarith, fun _ => by linarith⟩, ⟨fun _ => by linarith, fun _ => by linarith⟩⟩

theorem sum_cmp (F : Float64) {R b b' n n' k k' thr : ℝ} (hR : 1 ≤ R) (hb : |b' - b| ≤ 18 / 100 * margin R)
    (hn : |n' - n| ≤ 18 / 100 * margin R) (hk : |k' - k| ≤ 18 / 100 * margin R) (hb0 : margin R < |b|)
    (hK : |b| ≤ 48 * R ^ 3) (hq : |n' / b'| ≤ 2 ^ 240) (hr : |k' / b'| ≤ 2 ^ 240) (hu : |F.fl (n' / b')| ≤ 11 / 10)
    (ht : |thr - (1 + EPS)| ≤ 20 * ulp) (h : margin R < |n + k - (1 + EPS) * b|) :
    F.fl (F.fl (n' / b') + F.fl (k' / b')) ≤ thr ↔ n / b + k / b ≤ 1 + EPS := by
  have up := ulp_pos
  have h3 : 0 < R ^ 3 := by positivity
  have hm : 0 < margin R := by rw [margin_ulp]; positivity
  have hD : 400 * ulp ≤ margin R / 3 / (48 * R ^ 3) := by
    rw [margin_ulp, le_div_iff₀ (by positivity)]
    nlinarith
  obtain ⟨h1, h2⟩ := fl_side (sum_err F hq hr hu) ht
  have hc : |1 + EPS| ≤ 11 / 10 := by unfold EPS; norm_num [abs_of_pos]
  have hs : |n' + k' - (n + k)| ≤ 36 / 100 * margin R := by
    have e : n' + k' - (n + k) = (n' - n) + (k' - k) := by ring
    rw [e]
    exact (abs_add_le _ _).trans (by linarith)
  rw [← add_div]
  rw [← add_div] at h1 h2
  rcases quot_side hm hb hs hb0 hK hc h with ⟨k1, k2⟩ | ⟨k1, k2⟩
  · have := h1 (by linarith)
    exact ⟨fun _ => by linarith, fun _ => by linarith⟩
  · have := h2 (by linarith)
    exact ⟨fun _ => by linarith, fun _ => by linarith⟩

/-- No comparison of the segment–triangle test falls into the margin. -/
structure SegOk (m b u v t : ℝ) : Prop where
  span : m < |(|b| - EPS)|
  u0 : EPS ≤ |b| → m < |u - -EPS * b|
  u1 : EPS ≤ |b| → m < |u - (1 + EPS) * b|
  v0 : EPS ≤ |b| → m < |v - -EPS * b|
  uv : EPS ≤ |b| → m < |u + v - (1 + EPS) * b|
  t0 : EPS ≤ |b| → m < |t - -EPS * b|
  t1 : EPS ≤ |b| → m < |t - (1 + EPS) * b|

theorem seg_approx (F : Float64) {R : ℝ} (hR : 1 ≤ R) (hR2 : R ≤ 2 ^ 10) {ln ln' : Fin 2 → Fin 3 → ℝ} {tr tr' : Fin 3 → Fin 3 → ℝ}
    (hl : ∀ i j, Approx R 75 (ln' i j) (ln i j)) (ht : ∀ i j, Approx R 75 (tr' i j) (tr i j))
    (h : SegOk (margin R) (((ln 1 - ln 0) ⨯₃ (tr 2 - tr 0)) ⬝ᵥ (tr 1 - tr 0)) (((ln 1 - ln 0) ⨯₃ (tr 2 - tr 0)) ⬝ᵥ (ln 0 - tr 0))
      (((ln 0 - tr 0) ⨯₃ (tr 1 - tr 0)) ⬝ᵥ (ln 1 - ln 0)) (((ln 0 - tr 0) ⨯₃ (tr 1 - tr 0)) ⬝ᵥ (tr 2 - tr 0))) :
    F.segmentMeetsTriangle ln' tr' = Ico.segmentMeetsTriangle ln tr := by
  have up := ulp_pos
  have us : ulp ≤ 1 / 1000 := ulp_small.1.trans (by norm_num)
  obtain ⟨r1, r2, r3, r4⟩ := R2_bounds hR hR2
  have hm : 0 < margin R := by rw [margin_ulp]; positivity
  have Ab := bunbo_approx F hR hR2 (hl 1) (hl 0) (ht 2) (ht 0) (ht 1) (ht 0)
  have Au := bunbo_approx F hR hR2 (hl 1) (hl 0) (ht 2) (ht 0) (hl 0) (ht 0)
  have Av := bunbo_approx F hR hR2 (hl 0) (ht 0) (ht 1) (ht 0) (hl 1) (hl 0)
  have At := bunbo_approx F hR hR2 (hl 0) (ht 0) (ht 1) (ht 0) (ht 2) (ht 0)
  unfold Float64.segmentMeetsTriangle Ico.segmentMeetsTriangle
  simp only
  set b := ((ln 1 - ln 0) ⨯₃ (tr 2 - tr 0)) ⬝ᵥ (tr 1 - tr 0)
  set nu := ((ln 1 - ln 0) ⨯₃ (tr 2 - tr 0)) ⬝ᵥ (ln 0 - tr 0)
  set nv := ((ln 0 - tr 0) ⨯₃ (tr 1 - tr 0)) ⬝ᵥ (ln 1 - ln 0)
  set nt := ((ln 0 - tr 0) ⨯₃ (tr 1 - tr 0)) ⬝ᵥ (tr 2 - tr 0)
  set b' := F.dot (F.cross (F.sub (ln' 1) (ln' 0)) (F.sub (tr' 2) (tr' 0))) (F.sub (tr' 1) (tr' 0))
  set nu' := F.dot (F.cross (F.sub (ln' 1) (ln' 0)) (F.sub (tr' 2) (tr' 0))) (F.sub (ln' 0) (tr' 0))
  set nv' := F.dot (F.cross (F.sub (ln' 0) (tr' 0)) (F.sub (tr' 1) (tr' 0))) (F.sub (ln' 1) (ln' 0))
  set nt' := F.dot (F.cross (F.sub (ln' 0) (tr' 0)) (F.sub (tr' 1) (tr' 0))) (F.sub (tr' 2) (tr' 0))
  obtain ⟨eb, hbK⟩ := product_err hR Ab
  obtain ⟨eu, huK⟩ := product_err hR Au
  obtain ⟨ev, hvK⟩ := product_err hR Av
  obtain ⟨et, htK⟩ := product_err hR At
  have eE : |F.eps - EPS| ≤ 18 / 100 * margin R := by
    refine (eps_approx F).err.trans ?_
    rw [margin_ulp]
    have h4 : ulp ≤ ulp * R ^ 3 := le_mul_of_one_le_right up.le r3
    unfold EPS
    linarith
  have hfirst : |b'| < F.eps ↔ |b| < EPS :=
    lt_iff_of_close ((abs_abs_sub_abs_le_abs_sub _ _).trans eb) eE (by linarith) h.span
  by_cases hb : |b| < EPS
  · rw [if_pos hb, if_pos (hfirst.2 hb)]
  rw [if_neg hb, if_neg (fun h' => hb (hfirst.1 h'))]
  rw [not_lt] at hb
  have hbm : margin R + EPS < |b| := by
    have := h.span
    rw [abs_of_nonneg (by linarith)] at this
    linarith
  have hE : EPS = 1 / 10 ^ 6 := rfl
  have hE0 : 0 < EPS := by rw [hE]; norm_num
  have hbm' : margin R < |b| := by linarith
  have hbl : EPS ≤ |b'| := by
    have h1 : |b| ≤ |b - b'| + |b'| := by
      have := abs_add_le (b - b') b'
      rwa [sub_add_cancel] at this
    rw [abs_sub_comm] at h1
    linarith
  have hq : ∀ {x' x : ℝ}, |x' - x| ≤ 18 / 100 * margin R → |x| ≤ 48 * R ^ 3 → |x' / b'| ≤ 2 ^ 240 := by
    intro x' x h1 h2
    have h3 : |x'| ≤ |x' - x| + |x| := by
      have := abs_add_le (x' - x) x
      rwa [sub_add_cancel] at this
    have h4 : margin R ≤ R ^ 3 := by
      rw [margin_ulp]
      have : ulp * R ^ 3 ≤ 1 / 2 ^ 53 * R ^ 3 := mul_le_mul_of_nonneg_right ulp_small.1 (by linarith)
      linarith
    have h5 : |x'| ≤ 2 ^ 200 := by
      have e : (2 : ℝ) ^ 180 * 100 ≤ 2 ^ 200 := by norm_num
      linarith
    rw [abs_div, div_le_iff₀ (by linarith)]
    have h6 : (2 : ℝ) ^ 240 * EPS ≤ 2 ^ 240 * |b'| := mul_le_mul_of_nonneg_left hbl (by positivity)
    refine h5.trans (le_trans ?_ h6)
    rw [hE]; norm_num
  have c0 : |-EPS| ≤ 11 / 10 := by rw [hE]; norm_num [abs_of_pos]
  have c1 : |1 + EPS| ≤ 11 / 10 := by rw [hE]; norm_num [abs_of_pos]
  have tl := thr_low F
  have th := thr_high F
  have u0 := (quot_cmp F hR eb eu hbm' hbK c0 (hq eu huK) tl (h.u0 hb)).1
  have u1 := (quot_cmp F hR eb eu hbm' hbK c1 (hq eu huK) th (h.u1 hb)).2
  have v0 := (quot_cmp F hR eb ev hbm' hbK c0 (hq ev hvK) tl (h.v0 hb)).1
  have t0 := (quot_cmp F hR eb et hbm' hbK c0 (hq et htK) tl (h.t0 hb)).1
  have t1 := (quot_cmp F hR eb et hbm' hbK c1 (hq et htK) th (h.t1 hb)).2
  have hU : (F.fl (nu' / b') ≥ F.fl (0 - F.eps) ∧ F.fl (nu' / b') ≤ F.fl (1 + F.eps)) ↔ (nu / b ≥ 0 - EPS ∧ nu / b ≤ 1 + EPS) := by
    rw [ge_iff_le, ge_iff_le, u0, u1, zero_sub]
  by_cases hu : nu / b ≥ 0 - EPS ∧ nu / b ≤ 1 + EPS
  swap
  · rw [if_neg hu, if_neg (fun h' => hu (hU.1 h'))]
  rw [if_pos hu, if_pos (hU.2 hu)]
  have hfu : |F.fl (nu' / b')| ≤ 11 / 10 := by
    obtain ⟨a1, a2⟩ := hU.2 hu
    rw [abs_le] at tl th ⊢
    have : EPS ≤ 1 / 100 := by rw [hE]; norm_num
    constructor <;> linarith
  have uv := sum_cmp F hR eb eu ev hbm' hbK (hq eu huK) (hq ev hvK) hfu th (h.uv hb)
  have hV : (F.fl (nv' / b') ≥ F.fl (0 - F.eps) ∧ F.fl (F.fl (nu' / b') + F.fl (nv' / b')) ≤ F.fl (1 + F.eps)) ↔
      (nv / b ≥ 0 - EPS ∧ nu / b + nv / b ≤ 1 + EPS) := by
    rw [ge_iff_le, ge_iff_le, v0, uv, zero_sub]
  have hT : (F.fl (nt' / b') ≥ F.fl (0 - F.eps) ∧ F.fl (nt' / b') ≤ F.fl (1 + F.eps)) ↔ (nt / b ≥ 0 - EPS ∧ nt / b ≤ 1 + EPS) := by
    rw [ge_iff_le, ge_iff_le, t0, t1, zero_sub]
  simp only [hV, hT]

end PyQC
