import Verif.Lemmas.RoundingCross
/-!
# The outcomes of the crossing test of two segments with rounding (dode2)
-/
namespace PyQC
open Matrix

section
variable (F : Float64) {R : ℝ} (hR : 1 ≤ R) (hR8 : R ≤ 8)
include hR hR8

theorem dot2_approx {x y x' y' : Fin 3 → ℝ} (h : ∀ i, Approx (2 * R) 77 (x' i) (x i))
    (g : ∀ i, Approx (2 * R) 77 (y' i) (y i)) :
    Approx (12 * R ^ 2) 160 (F.dot x' y') (x ⬝ᵥ y) := by
  have r2 := pow_ge1 hR 2
  have e0 : (1 : ℝ) / 2 ^ 100 ≤ 1 := by norm_num
  have up := ulp_pos
  have hm : ∀ i, Approx (4 * R ^ 2) 155 (x' i * y' i) (x i * y i) := by
    intro i
    have e : 2 * R * (2 * R) = 4 * R ^ 2 := by ring
    have := (h i).mul (g i) (by rw [e]; linarith) (by norm_num)
    rw [e] at this
    exact this.mono (by norm_num) (by norm_num)
  have hs : Approx (12 * R ^ 2) 155 (x' ⬝ᵥ y') (x ⬝ᵥ y) := by
    have := ((hm 0).add (hm 1)).add (hm 2)
    have e : 4 * R ^ 2 + 4 * R ^ 2 + 4 * R ^ 2 = 12 * R ^ 2 := by ring
    rw [e] at this
    simpa [dotProduct, Fin.sum_univ_three] using this
  have hx : ∀ i, |x' i| ≤ 2 * R * (1001 / 1000) := fun i => (h i).abs'.trans (by nlinarith)
  have hy : ∀ i, |y' i| ≤ 2 * R * (1001 / 1000) := fun i => (g i).abs'.trans (by nlinarith)
  have big : ∀ z : ℝ, z ≤ 2 ^ 200 → z ≤ 2 ^ 400 := fun z hz => hz.trans (pow_le_pow_right₀ (by norm_num) (by norm_num))
  have b20 : 2 * R * (1001 / 1000) ≤ 2 ^ 200 := by
    have : (20 : ℝ) ≤ 2 ^ 200 := by norm_num
    linarith
  have hd := F.dot_err x' y' fun i => ⟨big _ ((hx i).trans b20), big _ ((hy i).trans b20)⟩
  have hsum : ∑ i, |x' i| * |y' i| ≤ 13 * R ^ 2 := by
    have : ∀ i, |x' i| * |y' i| ≤ (2 * R * (1001 / 1000)) * (2 * R * (1001 / 1000)) := fun i =>
      mul_le_mul (hx i) (hy i) (abs_nonneg _) (by positivity)
    rw [Fin.sum_univ_three]
    have h0 := this 0
    have h1 := this 1
    have h2 := this 2
    have e : (2 * R * (1001 / 1000)) * (2 * R * (1001 / 1000)) = 1002001 / 250000 * R ^ 2 := by ring
    rw [e] at h0 h1 h2
    linarith
  have ht : tiny ≤ ulp * R ^ 2 / 1000 := by
    have : ulp / 1000 ≤ ulp * R ^ 2 / 1000 := by
      have := mul_le_mul_of_nonneg_left r2 up.le
      linarith
    refine (tiny_le.trans ?_).trans this
    unfold ulp; norm_num
  refine ⟨hs.M0, by norm_num, by norm_num, hs.abs, ?_⟩
  have h1 : |F.dot x' y' - x ⬝ᵥ y| ≤ |F.dot x' y' - x' ⬝ᵥ y'| + |x' ⬝ᵥ y' - x ⬝ᵥ y| := abs_sub_le _ _ _
  have h2 := hs.err
  have h3 := mul_le_mul_of_nonneg_left hsum (show 0 ≤ 4 * ulp by positivity)
  have u2 : 0 < ulp * R ^ 2 := by positivity
  linarith

theorem prods_approx {P Q U V P' Q' U' V' : ℝ} (hP : Approx (12 * R ^ 2) 160 P' P) (hQ : Approx (12 * R ^ 2) 160 Q' Q)
    (hU : Approx (12 * R ^ 2) 160 U' U) (hV : Approx (12 * R ^ 2) 160 V' V) :
    Approx (288 * R ^ 4) 324 (F.fl (F.fl (P' * Q') - F.fl (U' * V'))) (P * Q - U * V) := by
  have r4 := pow_ge1 hR 4
  have b4 : R ^ 4 ≤ 4096 := (pow_le8 hR hR8 4).trans (by norm_num)
  have e0 : (1 : ℝ) / 2 ^ 100 ≤ 1 := by norm_num
  have b : (288 : ℝ) * 4096 ≤ 2 ^ 200 := by norm_num
  have hm : ∀ {a b a' b' : ℝ}, Approx (12 * R ^ 2) 160 a' a → Approx (12 * R ^ 2) 160 b' b →
      Approx (144 * R ^ 4) 322 (F.fl (a' * b')) (a * b) := by
    intro a b a' b' h g
    have e : 12 * R ^ 2 * (12 * R ^ 2) = 144 * R ^ 4 := by ring
    have := (h.mul g (by rw [e]; linarith) (by norm_num)).fl F (le_900' (by rw [e]; linarith)) (by norm_num)
    rw [e] at this
    exact this.mono (by norm_num) (by norm_num)
  have := (((hm hP hQ).sub (hm hU hV)).fl F (le_900' (by linarith)) (by norm_num)).mono (l := 324) (by norm_num) (by norm_num)
  have e : 144 * R ^ 4 + 144 * R ^ 4 = 288 * R ^ 4 := by ring
  rwa [e] at this

/-- Parallel segments are not accepted. -/
theorem segment_parallel {l m l' m' : Fin 2 → Fin 3 → ℝ} (hl : ∀ i j, Approx R 75 (l' i j) (l i j))
    (hm : ∀ i j, Approx R 75 (m' i j) (m i j)) (h0 : (l 1 - l 0) ⨯₃ (m 1 - m 0) = 0) : F.segmentsMeet l' m' = false := by
  have hR2 : R ≤ 2 ^ 10 := hR8.trans (by norm_num)
  have ha : ∀ j, Approx (2 * R) 77 (F.sub (l' 1) (l' 0) j) ((l 1 - l 0) j) := fun j => diff_approx F hR2 (hl 1 j) (hl 0 j)
  have hd : ∀ j, Approx (2 * R) 77 (F.sub (m' 1) (m' 0) j) ((m 1 - m 0) j) := fun j => diff_approx F hR2 (hm 1 j) (hm 0 j)
  have h2 := prods_approx F hR hR8 (dot2_approx F hR hR8 ha hd) (dot2_approx F hR hR8 hd ha) (dot2_approx F hR hR8 ha ha)
    (dot2_approx F hR hR8 hd hd)
  have e2 : (l 1 - l 0) ⬝ᵥ (m 1 - m 0) * (m 1 - m 0) ⬝ᵥ (l 1 - l 0) - (l 1 - l 0) ⬝ᵥ (l 1 - l 0) * (m 1 - m 0) ⬝ᵥ (m 1 - m 0) = 0 := by
    have := cross_lagrange (l 1 - l 0) (m 1 - m 0)
    rw [h0, zero_dotProduct] at this
    rw [dotProduct_comm (m 1 - m 0) (l 1 - l 0)]
    linarith
  rw [e2] at h2
  have h3 := h2.err
  rw [sub_zero] at h3
  have b4 : R ^ 4 ≤ 4096 := (pow_le8 hR hR8 4).trans (by norm_num)
  have eu : ulp = 1 / 2 ^ 53 := rfl
  have he := (eps_approx F).err
  unfold Float64.segmentsMeet
  refine if_pos ?_
  refine lt_of_le_of_lt h3 ?_
  rw [eu] at he ⊢
  unfold EPS at he
  rw [abs_le] at he
  linarith [he.1]

/-- The residual of a crossing. -/
theorem residual_small {A C E A' C' E' s t s' t' : ℝ} (hA : Approx (2 * R) 77 A' A) (hC : Approx (2 * R) 77 C' C)
    (hE : Approx (2 * R) 77 E' E) (e : C = s * A - t * E) (s0 : 0 ≤ s') (s1 : s' ≤ 1) (t0 : 0 ≤ t') (t1 : t' ≤ 1)
    (hs : R * |s' - s| ≤ 1 / 2 ^ 15) (ht : |E| * |t' - t| ≤ 12 / 10 ^ 5) :
    |F.fl (F.fl (C' - F.fl (s' * A')) + F.fl (t' * E'))| ≤ 2 / 10 ^ 4 := by
  have up := ulp_pos
  have us : ulp ≤ 1 / 10 ^ 13 := by unfold ulp; norm_num
  have fl : ∀ x : ℝ, |x| ≤ 100 → |F.fl x - x| ≤ 1 / 10 ^ 9 := by
    intro x hx
    have h1 := fl_err' F (x := x) (hx.trans (by norm_num))
    have h2 := mul_le_mul us hx (abs_nonneg _) (by norm_num)
    linarith
  have ap : ∀ {x x' : ℝ}, Approx (2 * R) 77 x' x → |x' - x| ≤ 1 / 10 ^ 9 ∧ |x'| ≤ 17 ∧ |x| ≤ 2 * R := by
    intro x x' h
    refine ⟨?_, ?_, h.abs⟩
    · have := h.err
      have h2 := mul_le_mul us (show 77 * (2 * R) ≤ 1232 by linarith) (by linarith) (by norm_num)
      linarith
    · have := h.abs'
      linarith
  obtain ⟨a1, a2, a3⟩ := ap hA
  obtain ⟨c1, c2, c3⟩ := ap hC
  obtain ⟨e1, e2, e3⟩ := ap hE
  have hsA : |s' * A'| ≤ 17 := by
    rw [abs_mul, abs_of_nonneg s0]
    have := mul_le_mul s1 a2 (abs_nonneg _) (by norm_num)
    linarith
  have htE : |t' * E'| ≤ 17 := by
    rw [abs_mul, abs_of_nonneg t0]
    have := mul_le_mul t1 e2 (abs_nonneg _) (by norm_num)
    linarith
  have f1 := fl _ (hsA.trans (by norm_num))
  have f2 := fl _ (htE.trans (by norm_num))
  have g1 : |C' - F.fl (s' * A')| ≤ 40 := by
    rw [abs_le] at *
    constructor <;> linarith
  have f3 := fl _ (g1.trans (by norm_num))
  have g2 : |F.fl (C' - F.fl (s' * A')) + F.fl (t' * E')| ≤ 80 := by
    rw [abs_le] at *
    constructor <;> linarith
  have f4 := fl _ (g2.trans (by norm_num))
  have k1 : |(s - s') * A| ≤ 1 / 2 ^ 14 := by
    rw [abs_mul, abs_sub_comm]
    have := mul_le_mul_of_nonneg_left a3 (abs_nonneg (s' - s))
    linarith
  have k2 : |(t' - t) * E| ≤ 12 / 10 ^ 5 := by rw [abs_mul, mul_comm]; exact ht
  have k3 : |s' * (A' - A)| ≤ 1 / 10 ^ 9 := by
    rw [abs_mul, abs_of_nonneg s0]
    have := mul_le_mul s1 a1 (abs_nonneg _) (by norm_num)
    linarith
  have k4 : |t' * (E' - E)| ≤ 1 / 10 ^ 9 := by
    rw [abs_mul, abs_of_nonneg t0]
    have := mul_le_mul t1 e1 (abs_nonneg _) (by norm_num)
    linarith
  have id1 : C' - s' * A' + t' * E' = (C' - C) + (s - s') * A + (t' - t) * E - s' * (A' - A) + t' * (E' - E) := by
    rw [e]; ring
  have id2 : |C' - s' * A' + t' * E'| ≤ 19 / 10 ^ 5 := by
    rw [id1, abs_le]
    rw [abs_le] at k1 k2 k3 k4 c1
    constructor <;> linarith [k1.1, k1.2, k2.1, k2.2, k3.1, k3.2, k4.1, k4.2, c1.1, c1.2]
  rw [abs_le] at f1 f2 f3 f4 id2 ⊢
  constructor <;> linarith [f1.1, f1.2, f2.1, f2.2, f3.1, f3.2, f4.1, f4.2, id2.1, id2.2]

omit hR hR8 in
theorem residual_sum (F : Float64) {x : Fin 3 → ℝ} (h : ∀ i, |x i| ≤ 2 / 10 ^ 4) :
    (List.finRange 3).foldl (fun dd i => F.fl (dd + F.fl (x i * x i))) 0 < F.eps := by
  have us : ulp ≤ 1 / 10 ^ 13 := by unfold ulp; norm_num
  have up := ulp_pos
  have fl : ∀ x : ℝ, |x| ≤ 1 → |F.fl x - x| ≤ 1 / 10 ^ 9 := by
    intro x hx
    have h1 := fl_err' F (x := x) (hx.trans (by norm_num))
    have h2 := mul_le_mul us hx (abs_nonneg _) (by norm_num)
    linarith
  have sq : ∀ i, |F.fl (x i * x i)| ≤ 42 / 10 ^ 9 := by
    intro i
    have h1 : |x i * x i| ≤ 4 / 10 ^ 8 := by
      rw [abs_mul]
      have := mul_le_mul (h i) (h i) (abs_nonneg _) (by norm_num)
      linarith
    have h2 := fl _ (h1.trans (by norm_num))
    rw [abs_le] at h1 h2 ⊢
    constructor <;> linarith
  have he := (eps_approx F).err
  unfold EPS at he
  have eu : ulp = 1 / 2 ^ 53 := rfl
  rw [eu, abs_le] at he
  have e : (List.finRange 3).foldl (fun dd i => F.fl (dd + F.fl (x i * x i))) 0 =
      F.fl (F.fl (F.fl (0 + F.fl (x 0 * x 0)) + F.fl (x 1 * x 1)) + F.fl (x 2 * x 2)) := rfl
  rw [e]
  have q0 := sq 0
  have q1 := sq 1
  have q2 := sq 2
  generalize F.fl (x 0 * x 0) = y0 at *
  generalize F.fl (x 1 * x 1) = y1 at *
  generalize F.fl (x 2 * x 2) = y2 at *
  rw [zero_add]
  rw [abs_le] at q0 q1 q2
  have f0 := fl y0 (by rw [abs_le]; constructor <;> linarith)
  generalize F.fl y0 = z0 at *
  rw [abs_le] at f0
  have f1 := fl (z0 + y1) (by rw [abs_le]; constructor <;> linarith)
  generalize F.fl (z0 + y1) = z1 at *
  rw [abs_le] at f1
  have f2 := fl (z1 + y2) (by rw [abs_le]; constructor <;> linarith)
  rw [abs_le] at f2
  linarith [he.1]

omit hR hR8 in
/-- The size of a direction. -/
theorem norm_dir {a : Fin 3 → ℝ} (R0 : 0 ≤ R) (h : ∀ j, |a j| ≤ 2 * R) : Real.sqrt (a ⬝ᵥ a) ≤ 347 / 100 * R := by
  have hq : ∀ j, a j * a j ≤ 4 * R ^ 2 := by
    intro j
    have := mul_le_mul (h j) (h j) (abs_nonneg _) (by linarith)
    rw [abs_mul_abs_self] at this
    linarith
  have : a ⬝ᵥ a ≤ (347 / 100 * R) ^ 2 := by
    rw [vec3_dotProduct]
    have h0 := hq 0
    have h1 := hq 1
    have h2 := hq 2
    have : 0 ≤ R ^ 2 := by positivity
    linarith
  calc Real.sqrt (a ⬝ᵥ a) ≤ Real.sqrt ((347 / 100 * R) ^ 2) := Real.sqrt_le_sqrt this
    _ = 347 / 100 * R := Real.sqrt_sq (by positivity)

/-- Segments that are not parallel, with exact parameters `s`, `t` of the crossing point. -/
theorem segment_outcome {l m l' m' : Fin 2 → Fin 3 → ℝ} (hl : ∀ i j, Approx R 75 (l' i j) (l i j))
    (hm : ∀ i j, Approx R 75 (m' i j) (m i j)) (hx : (l 1 - l 0) ⨯₃ (m 1 - m 0) ≠ 0)
    (hap : CrossApart R (l 0) (l 1) (m 0) (m 1)) {s t : ℝ} (e : l 0 + s • (l 1 - l 0) = m 0 + t • (m 1 - m 0)) :
    (F.segmentsMeet l' m' = true → 0 ≤ s ∧ s ≤ 1 ∧ 0 ≤ t ∧ t ≤ 1) ∧
    (0 < s → s < 1 → 0 < t → t < 1 → F.segmentsMeet l' m' = true) := by
  have hR2 : R ≤ 2 ^ 10 := hR8.trans (by norm_num)
  have ha : ∀ j, Approx (2 * R) 77 (F.sub (l' 1) (l' 0) j) ((l 1 - l 0) j) := fun j => diff_approx F hR2 (hl 1 j) (hl 0 j)
  have hd : ∀ j, Approx (2 * R) 77 (F.sub (m' 1) (m' 0) j) ((m 1 - m 0) j) := fun j => diff_approx F hR2 (hm 1 j) (hm 0 j)
  have hc : ∀ j, Approx (2 * R) 77 (F.sub (m' 0) (l' 0) j) ((m 0 - l 0) j) := fun j => diff_approx F hR2 (hm 0 j) (hl 0 j)
  have span := hap.span hx
  have params := hap.params hx s t e
  have ec : m 0 - l 0 = s • (l 1 - l 0) - t • (m 1 - m 0) := by
    have : m 0 - l 0 = (m 0 + t • (m 1 - m 0)) - l 0 - t • (m 1 - m 0) := by abel
    rw [this, ← e]; abel
  unfold Float64.segmentsMeet
  dsimp only
  generalize F.sub (l' 1) (l' 0) = a' at *
  generalize F.sub (m' 1) (m' 0) = d' at *
  generalize F.sub (m' 0) (l' 0) = c' at *
  generalize l 1 - l 0 = a at *
  generalize m 1 - m 0 = d at *
  generalize m 0 - l 0 = c at *
  have aE := dot2_approx F hR hR8 ha hd
  have aE' := dot2_approx F hR hR8 hd ha
  have aD := dot2_approx F hR hR8 hd hd
  have aA := dot2_approx F hR hR8 ha ha
  have aX := dot2_approx F hR hR8 hc hd
  have aY := dot2_approx F hR hR8 hc ha
  have h1 := prods_approx F hR hR8 aX aE' aD aY
  have h2 := prods_approx F hR hR8 aE aE' aA aD
  have lag := cross_lagrange a d
  have eX : c ⬝ᵥ d = s * (a ⬝ᵥ d) - t * (d ⬝ᵥ d) := by
    rw [ec, sub_dotProduct, smul_dotProduct, smul_dotProduct, smul_eq_mul, smul_eq_mul]
  have eY : c ⬝ᵥ a = s * (a ⬝ᵥ a) - t * (a ⬝ᵥ d) := by
    rw [ec, sub_dotProduct, smul_dotProduct, smul_dotProduct, smul_eq_mul, smul_eq_mul, dotProduct_comm d a]
  have hα := norm_dir (R := R) (by linarith) (fun j => (ha j).abs)
  have hdν : ∀ j, |d j| ≤ Real.sqrt (d ⬝ᵥ d) := by
    intro j
    rw [← Real.sqrt_sq_eq_abs]
    refine Real.sqrt_le_sqrt ?_
    rw [vec3_dotProduct]
    fin_cases j <;> simp <;> nlinarith [mul_self_nonneg (d 0), mul_self_nonneg (d 1), mul_self_nonneg (d 2)]
  have A0 : 0 ≤ a ⬝ᵥ a := by
    rw [vec3_dotProduct]; nlinarith [mul_self_nonneg (a 0), mul_self_nonneg (a 1), mul_self_nonneg (a 2)]
  have D0 : 0 ≤ d ⬝ᵥ d := by
    rw [vec3_dotProduct]; nlinarith [mul_self_nonneg (d 0), mul_self_nonneg (d 1), mul_self_nonneg (d 2)]
  have G0 : 0 ≤ (a ⨯₃ d) ⬝ᵥ (a ⨯₃ d) := by
    rw [vec3_dotProduct]
    nlinarith [mul_self_nonneg ((a ⨯₃ d) 0), mul_self_nonneg ((a ⨯₃ d) 1), mul_self_nonneg ((a ⨯₃ d) 2)]
  have hδ2 : parallelogram a d ^ 2 = (a ⨯₃ d) ⬝ᵥ (a ⨯₃ d) := by unfold parallelogram; exact Real.sq_sqrt G0
  have hδ0 : 0 ≤ parallelogram a d := Real.sqrt_nonneg _
  generalize parallelogram a d = δ at *
  rw [dotProduct_comm d a] at h1 h2 aE'
  generalize (a ⨯₃ d) ⬝ᵥ (a ⨯₃ d) = G at *
  have up := ulp_pos
  have eu : ulp = 1 / 2 ^ 53 := rfl
  have r4 := pow_ge1 hR 4
  have r2 := pow_ge1 hR 2
  have r45 : R ^ 4 ≤ R ^ 5 := pow_le_pow_right₀ hR (by norm_num)
  have u4 : 0 < ulp * R ^ 4 := by positivity
  have ue : ulp * R ^ 4 ≤ 1 / 10 ^ 9 * (R ^ 5 / 2 ^ 20) := by
    rw [eu]; linarith
  have q5 : 0 < R ^ 5 / 2 ^ 20 := by positivity
  rw [hδ2] at span
  have δ0 : 0 < δ := by
    rcases hδ0.lt_or_eq with h | h
    · exact h
    · rw [← h] at hδ2
      have : G = 0 := by rw [← hδ2]; norm_num
      rw [this] at span
      linarith [show (0 : ℝ) < 1 / 10 ^ 6 by norm_num]
  -- the exact quantities
  have ν2 : Real.sqrt (d ⬝ᵥ d) * Real.sqrt (d ⬝ᵥ d) = d ⬝ᵥ d := Real.mul_self_sqrt D0
  have α2 : Real.sqrt (a ⬝ᵥ a) * Real.sqrt (a ⬝ᵥ a) = a ⬝ᵥ a := Real.mul_self_sqrt A0
  have α0 := Real.sqrt_nonneg (a ⬝ᵥ a)
  have ν0 := Real.sqrt_nonneg (d ⬝ᵥ d)
  generalize Real.sqrt (d ⬝ᵥ d) = ν at *
  generalize Real.sqrt (a ⬝ᵥ a) = α at *
  generalize a ⬝ᵥ a = A at *
  generalize d ⬝ᵥ d = D at *
  generalize a ⬝ᵥ d = E at *
  generalize c ⬝ᵥ d = X at *
  generalize c ⬝ᵥ a = Y at *
  have hαν : (α * ν) ^ 2 = A * D := by rw [← α2, ← ν2]; ring
  have hEν : |E| ≤ α * ν := by
    refine abs_le_of_sq_le_sq ?_ (by positivity)
    rw [hαν]; nlinarith
  have hδν : δ ≤ α * ν := by
    refine le_of_sq_le_sq ?_ (by positivity)
    rw [hαν, hδ2]; nlinarith [mul_self_nonneg E]
  have hG2 : G ≤ 144 * R ^ 4 := by
    have h3 := mul_le_mul aA.abs aD.abs (abs_nonneg _) (by positivity)
    rw [← abs_mul, abs_of_nonneg (mul_nonneg A0 D0)] at h3
    nlinarith [mul_self_nonneg E]
  have e1 : X * E - D * Y = -(s * G) := by rw [eX, eY, lag]; ring
  have e2 : E * E - A * D = -G := by rw [lag]; ring
  rw [e1] at h1
  rw [e2] at h2
  generalize F.fl (F.fl (F.dot c' d' * F.dot d' a') - F.fl (F.dot d' d' * F.dot c' a')) = t1 at *
  generalize F.fl (F.fl (F.dot a' d' * F.dot d' a') - F.fl (F.dot a' a' * F.dot d' d')) = t2 at *
  have k1 : |t1 + s * G| ≤ 93312 * ulp * R ^ 4 := by
    have := h1.err
    rw [sub_neg_eq_add] at this
    linarith
  have k2 : |t2 + G| ≤ 93312 * ulp * R ^ 4 := by
    have := h2.err
    rw [sub_neg_eq_add] at this
    linarith
  have k3 : |s * G| ≤ 288 * R ^ 4 := by
    have := h1.abs
    rwa [abs_neg] at this
  have he := (eps_approx F).err
  unfold EPS at he
  have hbig : ¬ |t2| < F.eps := by
    rw [not_lt]
    rw [abs_le] at he k2
    rw [abs_of_neg (by linarith [show (0 : ℝ) < 1 / 10 ^ 6 by norm_num])]
    have : ulp * R ^ 4 ≥ ulp := by
      have := mul_le_mul_of_nonneg_left r4 up.le
      linarith
    have h7 : R ^ 5 / 2 ^ 20 ≥ 10 ^ 9 * (ulp * R ^ 4) := by linarith
    linarith [he.2, k2.2]
  rw [if_neg hbig]
  obtain ⟨cs, hsG⟩ := cross_s hR hR8 F k1 k2 span hG2 k3
  have hδR : δ ≤ 12 * R ^ 2 := by
    refine le_of_sq_le_sq ?_ (by positivity)
    rw [hδ2]
    have : (12 * R ^ 2) ^ 2 = 144 * R ^ 4 := by ring
    rw [this]; exact hG2
  have down : ∀ x : ℝ, R ^ 6 / 2 ^ 30 < δ ^ 3 * |x| → R ^ 4 / 2 ^ 34 < G * |x| := by
    intro x hx
    have h3 : δ ^ 3 * |x| ≤ 12 * R ^ 2 * (G * |x|) := by
      have e : δ ^ 3 * |x| = δ * (G * |x|) := by rw [← hδ2]; ring
      rw [e]
      exact mul_le_mul_of_nonneg_right hδR (mul_nonneg G0 (abs_nonneg _))
    have h4 : R ^ 2 * (R ^ 4 / 2 ^ 30) < R ^ 2 * (12 * (G * |x|)) := by
      have e1 : R ^ 2 * (R ^ 4 / 2 ^ 30) = R ^ 6 / 2 ^ 30 := by ring
      have e2 : R ^ 2 * (12 * (G * |x|)) = 12 * R ^ 2 * (G * |x|) := by ring
      rw [e1, e2]; exact hx.trans_le h3
    have h5 := lt_of_mul_lt_mul_left h4 (by positivity)
    have : 0 < R ^ 4 := by positivity
    linarith
  have p0 := params s (by simp)
  have p1 := params (s - 1) (by simp)
  have p2 := params t (by simp)
  have p3 := params (t - 1) (by simp)
  have tt : 0 ≤ s → s ≤ 1 → _ := fun s0 s1 => cross_t hR hR8 F (s := s) (t := t) (s' := F.fl (t1 / t2)) (D := D) (E := E) (X := X)
    (D' := F.dot d' d') (E' := F.dot a' d') (X' := F.dot c' d') (α := α) (ν := ν) (δ := δ)
    (by have := aE.err; linarith) (by have := aX.err; linarith) (by have := aD.err; linarith) aE.abs aX.abs
    ((le_abs_self _).trans aD.abs) eX s0 s1 ν2 ν0 α0 hα hEν hδν δ0 (by rw [hδ2]; exact span) (by rw [hδ2]; exact hsG s0 s1)
  generalize F.fl (t1 / t2) = s' at *
  generalize F.fl (F.fl (-F.dot c' d' + F.fl (s' * F.dot a' d')) / F.dot d' d') = t' at *
  have c0 := fun h => cs 0 (by norm_num) (by rw [sub_zero]; exact down _ h)
  have c1 := fun h => cs 1 (by norm_num) (down (s - 1) h)
  rw [sub_zero] at c0
  constructor
  · intro h
    split at h
    · rename_i hb
      obtain ⟨b1, b2, b3, b4⟩ := hb
      have s0 : 0 ≤ s := by
        by_contra hs
        rw [not_le] at hs
        have := (c0 (p0.resolve_left hs.ne)).2 hs
        linarith
      have s1 : s ≤ 1 := by
        by_contra hs
        rw [not_le] at hs
        have h8 : 0 < s - 1 := by linarith
        have := (c1 (p1.resolve_left h8.ne')).1 h8
        linarith
      obtain ⟨ct, -, -⟩ := tt s0 s1
      refine ⟨s0, s1, ?_, ?_⟩
      · by_contra ht
        rw [not_le] at ht
        have := (ct 0 (by norm_num) (by rw [sub_zero]; exact p2.resolve_left ht.ne)).2 (by rw [sub_zero]; exact ht)
        linarith
      · by_contra ht
        rw [not_le] at ht
        have h8 : 0 < t - 1 := by linarith
        have := (ct 1 (by norm_num) (p3.resolve_left h8.ne')).1 h8
        linarith
    · cases h
  · intro s0 s1 t0 t1
    obtain ⟨ct, ht, hs⟩ := tt s0.le s1.le
    have b1 := (c0 (p0.resolve_left s0.ne')).1 s0
    have b2 := (c1 (p1.resolve_left (by linarith))).2 (by linarith)
    have b3 := (ct 0 (by norm_num) (by rw [sub_zero]; exact p2.resolve_left t0.ne')).1 (by rw [sub_zero]; exact t0)
    have b4 := (ct 1 (by norm_num) (p3.resolve_left (by linarith))).2 (by linarith)
    rw [if_pos ⟨b1.le, b2.le, b3.le, b4.le⟩]
    refine if_pos (residual_sum F fun i => ?_)
    refine residual_small F hR hR8 (ha i) (hc i) (hd i) (s := s) (t := t) ?_ b1.le b2.le b3.le b4.le hs ?_
    · rw [ec]; simp
    · exact (mul_le_mul_of_nonneg_right (hdν i) (abs_nonneg _)).trans (ht t0.le t1.le)

end
end PyQC
