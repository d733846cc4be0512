import Verif.Lemmas.Rounding
import Verif.Lemmas.Surface
import Verif.Spec.Rounding
/-!
# Rounding errors of the perp coordinates
-/
namespace PyQC
namespace Approx
variable {M N k l x' x y' y : ℝ}

theorem divFl (F : Float64) (h : Approx M k x' x) {c : ℝ} (hc : 1 ≤ |c|) (hc' : |c| ≤ 2 ^ 900)
    (hM : 1 / 2 ^ 100 ≤ M / |c|) (hk : k + 102 / 100 ≤ 2 ^ 20) :
    Approx (M / |c|) (k + 102 / 100) (x' / F.fl c) (x / c) := by
  have hp := h.M_pos
  have hk0 := h.k0
  have up := ulp_pos
  have uu : ulp ≤ 1 / 2 ^ 50 := by unfold ulp; norm_num
  have cp : 0 < |c| := by linarith
  have hc0 : c ≠ 0 := abs_pos.mp cp
  obtain ⟨-, -, -, -, he⟩ := (Approx.exact (x := c) (M := |c|) le_rfl (by
    refine le_trans ?_ hc; norm_num)).fl F hc' (by norm_num)
  rw [zero_add] at he
  set d := F.fl c with hd
  have hdl : |c| * (1 - 102 / 100 * ulp) ≤ |d| := by
    have := abs_sub_abs_le_abs_sub c d
    rw [abs_sub_comm] at this
    nlinarith
  have hdp : 0 < |d| := lt_of_lt_of_le (mul_pos cp (by linarith)) hdl
  have hd0 : d ≠ 0 := abs_pos.mp hdp
  refine ⟨hM, by linarith, hk, ?_, ?_⟩
  · rw [abs_div]
    exact div_le_div_of_nonneg_right h.abs cp.le
  · have e : x' / d - x / c = ((x' - x) * c + x * (c - d)) / (d * c) := by field_simp; ring
    rw [e, abs_div, abs_mul, div_le_iff₀ (mul_pos hdp cp)]
    have h1 : |(x' - x) * c + x * (c - d)| ≤ (k * ulp * M) * |c| + M * (101 / 100 * ulp * |c|) := by
      refine (abs_add_le _ _).trans ?_
      rw [abs_mul, abs_mul, abs_sub_comm c d]
      exact add_le_add (mul_le_mul_of_nonneg_right h.err cp.le) (mul_le_mul h.abs he (abs_nonneg _) hp.le)
    refine h1.trans ?_
    have h2 : (k + 102 / 100) * ulp * (M / |c|) * (|d| * |c|) = (k + 102 / 100) * ulp * M * |d| := by
      field_simp
    rw [h2]
    have h3 : (k + 102 / 100) * ulp * M * (|c| * (1 - 102 / 100 * ulp)) ≤ (k + 102 / 100) * ulp * M * |d| :=
      mul_le_mul_of_nonneg_left hdl (by positivity)
    refine le_trans ?_ h3
    have h4 : (k + 102 / 100) * (102 / 100 * ulp) ≤ 1 / 100 := by
      have := mul_le_mul hk uu up.le (by norm_num)
      have : (k + 102 / 100) * ulp ≤ 1 / 2 ^ 30 := this.trans (by norm_num)
      nlinarith
    have h5 := mul_le_mul_of_nonneg_right h4 (show 0 ≤ ulp * (M * |c|) by positivity)
    nlinarith

end Approx

theorem sqrt5_le : Real.sqrt 5 ≤ 224 / 100 := by
  rw [Real.sqrt_le_left (by norm_num)]; norm_num

theorem le_900 {x : ℝ} (h : x ≤ 2 ^ 400) : x ≤ 2 ^ 900 := h.trans (pow_le_pow_right₀ (by norm_num) (by norm_num))

theorem le_900' {x : ℝ} (h : x ≤ 2 ^ 200) : x ≤ 2 ^ 900 := h.trans (pow_le_pow_right₀ (by norm_num) (by norm_num))

theorem TAU_approx (F : Float64) : Approx (162 / 100) (303 / 100) F.TAU tau := by
  have h1 : Approx (224 / 100) 0 (Real.sqrt 5) (Real.sqrt 5) :=
    .exact (by rw [abs_of_nonneg (Real.sqrt_nonneg _)]; exact sqrt5_le) (by norm_num)
  have h2 := h1.fl F (le_900' (by norm_num)) (by norm_num)
  have h3 : Approx 1 (0 + 101 / 100) 1 1 := (Approx.exact (by norm_num) (by norm_num)).mono (by norm_num) (by norm_num)
  have h4 := (h3.add h2).fl F (le_900' (by norm_num)) (by norm_num)
  have h5 := (h4.divConst 2 (by norm_num) (by norm_num)).fl F (le_900' (by norm_num)) (by norm_num)
  have e : tau = (1 + Real.sqrt 5) / 2 := rfl
  rw [e]
  refine h5.of (by norm_num) ?_ (by norm_num) (by norm_num)
  rw [abs_of_nonneg (by positivity)]
  have := sqrt5_le
  linarith

section
variable {F : Float64} {R : ℝ}

theorem numericValue_approx' (F : Float64) (hR : 1 ≤ R) (hR2 : R ≤ 2 ^ 60) {t : Num3} (hc : t.c ≠ 0)
    (h64 : |(t.c : ℝ)| ≤ 2 ^ 63) (hs : |(t.a : ℝ)| + 2 * |(t.b : ℝ)| ≤ R * |(t.c : ℝ)|) :
    Approx R (812 / 100) (F.numericValue t) (t.val tau) := by
  have c1 : 1 ≤ |(t.c : ℝ)| := by exact_mod_cast Int.one_le_abs hc
  have hRc : R * |(t.c : ℝ)| ≤ 2 ^ 123 := by
    calc R * |(t.c : ℝ)| ≤ 2 ^ 60 * 2 ^ 63 := mul_le_mul hR2 h64 (abs_nonneg _) (by positivity)
      _ = 2 ^ 123 := by norm_num
  have hRc1 : 1 ≤ R * |(t.c : ℝ)| := by nlinarith
  have a0 := abs_nonneg (t.a : ℝ)
  have b0 := abs_nonneg (t.b : ℝ)
  have e : (1 : ℝ) / 2 ^ 100 ≤ 1 / 10 ^ 30 := by norm_num
  have e0 : (0 : ℝ) < 1 / 2 ^ 100 := by norm_num
  set δ : ℝ := 1 / 2 ^ 100 with hδ
  have ha : Approx (|(t.a : ℝ)| + δ) 0 t.a t.a := .exact (by linarith) (by linarith)
  have hb : Approx (|(t.b : ℝ)| + δ) 0 t.b t.b := .exact (by linarith) (by linarith)
  have e2 : (2 : ℝ) ^ 123 + 1 ≤ 2 ^ 200 := by norm_num
  have e3 : δ ≤ 1 := e.trans (by norm_num)
  have ha1 := ha.fl F (le_900' (by linarith)) (by norm_num)
  have hb1 := hb.fl F (le_900' (by linarith)) (by norm_num)
  have hm : δ ≤ (|(t.b : ℝ)| + δ) * (162 / 100) := by linarith
  have hp := (hb1.mul (TAU_approx F) hm (by norm_num)).fl F (le_900' (by linarith)) (by norm_num)
  have hsum := ((ha1.mono (l := 0 + 101 / 100 + 303 / 100 + 1 / 100 + 101 / 100) (by norm_num) (by norm_num)).add hp).fl F
    (le_900' (by linarith)) (by norm_num)
  have ht : |(t.a : ℝ) + t.b * tau| ≤ R * |(t.c : ℝ)| := by
    refine (abs_add_le _ _).trans ?_
    rw [abs_mul]
    have : |tau| ≤ 162 / 100 := (TAU_approx F).abs
    have := mul_le_mul_of_nonneg_left this b0
    linarith
  have h1 := hsum.of (N := R * |(t.c : ℝ)|) (l := 608 / 100) (by linarith) ht (by linarith) (by norm_num)
  have h2 := h1.divFl F c1 (le_900' (h64.trans (by norm_num))) (by
    rw [mul_div_assoc, div_self (by linarith), mul_one]; linarith) (by norm_num)
  rw [mul_div_assoc, div_self (by linarith), mul_one] at h2
  have h3 := h2.fl F (le_900' (hR2.trans (by norm_num))) (by norm_num)
  exact h3.mono (by norm_num) (by norm_num)

theorem numericValue_approx (F : Float64) (hR : 1 ≤ R) (hR2 : R ≤ 2 ^ 10) {t : Num3} (hc : t.c ≠ 0)
    (h64 : |(t.c : ℝ)| ≤ 2 ^ 63) (hs : |(t.a : ℝ)| + 2 * |(t.b : ℝ)| ≤ R * |(t.c : ℝ)|) :
    Approx R (812 / 100) (F.numericValue t) (t.val tau) :=
  numericValue_approx' F hR (hR2.trans (by norm_num)) hc h64 hs

theorem internal_approx (F : Float64) (hR : 1 ≤ R) (hR2 : R ≤ 2 ^ 10) {v : Vec 6} (h : Small .ico R v) (j : Fin 3) :
    Approx R 75 (F.internal v j) (Package.ico.perp v j) := by
  have hn : ∀ i, Approx R (812 / 100) (F.numericalVector v i) (numericalVector tau v i) := fun i =>
    numericValue_approx F hR hR2 (h.den i) (h.int64 i) (h.size i)
  have b1 : R ≤ 2 ^ 200 / 10 := hR2.trans (by norm_num)
  have e0 : (1 : ℝ) / 2 ^ 100 ≤ 1 := by norm_num
  have hadd : ∀ i i', Approx (R + R) (913 / 100) (F.fl (F.numericalVector v i + F.numericalVector v i'))
      (numericalVector tau v i + numericalVector tau v i') := fun i i' =>
    (((hn i).add (hn i')).fl F (le_900' (by linarith)) (by norm_num)).mono (by norm_num) (by norm_num)
  have hsub : ∀ i i', Approx (R + R) (913 / 100) (F.fl (F.numericalVector v i - F.numericalVector v i'))
      (numericalVector tau v i - numericalVector tau v i') := fun i i' =>
    (((hn i).sub (hn i')).fl F (le_900' (by linarith)) (by norm_num)).mono (by norm_num) (by norm_num)
  have hmul : ∀ {a b : ℝ}, Approx (R + R) (913 / 100) a b → Approx (162 / 100 * (R + R)) (1318 / 100) (F.fl (F.TAU * a)) (tau * b) := by
    intro a b hab
    exact (((TAU_approx F).mul hab (by linarith) (by norm_num)).fl F (le_900' (by linarith)) (by norm_num)).mono
      (by norm_num) (by norm_num)
  have key : ∀ {a b a' b' : ℝ}, Approx (R + R) (913 / 100) a a' → Approx (R + R) (913 / 100) b b' →
      |a' + tau * b'| ≤ R → Approx R 75 (F.fl (a + F.fl (F.TAU * b))) (a' + tau * b') := by
    intro a b a' b' ha hb hab
    have := ((ha.mono (l := 1318 / 100) (by norm_num) (by norm_num)).add (hmul hb)).fl F (le_900' (by linarith)) (by norm_num)
    exact this.of (by linarith) hab (by linarith) (by norm_num)
  have hp := h.perp j
  have e : Package.ico.perp v = Ico.projection3Numerical (numericalVector tau v) := by
    rw [← Package.internalNumerical_eq]; rfl
  rw [e] at hp ⊢
  unfold Float64.internal
  fin_cases j
  · exact key (hadd 1 2).neg (hsub 0 4) hp
  · exact key (hadd 0 4).neg (hadd 3 5) hp
  · exact key (hsub 3 5) (hsub 1 2) hp

end
open Matrix

section
variable (F : Float64) {R : ℝ} (hR : 1 ≤ R) (hR2 : R ≤ 2 ^ 10)
include hR hR2

theorem R2_bounds : 1 ≤ R ^ 2 ∧ R ^ 2 ≤ 2 ^ 120 ∧ 1 ≤ R ^ 3 ∧ R ^ 3 ≤ 2 ^ 180 := by
  refine ⟨one_le_pow₀ hR, ?_, one_le_pow₀ hR, ?_⟩
  · calc R ^ 2 ≤ (2 ^ 60) ^ 2 := by gcongr; exact hR2.trans (by norm_num)
      _ = 2 ^ 120 := by norm_num
  · calc R ^ 3 ≤ (2 ^ 60) ^ 3 := by gcongr; exact hR2.trans (by norm_num)
      _ = 2 ^ 180 := by norm_num

omit hR in
theorem diff_approx {a b a' b' : ℝ} (h : Approx R 75 a' a) (g : Approx R 75 b' b) :
    Approx (2 * R) 77 (F.fl (a' - b')) (a - b) := by
  have b1 : R ≤ 2 ^ 200 / 10 := hR2.trans (by norm_num)
  have := ((h.sub g).fl F (le_900' (by linarith)) (by norm_num)).mono (l := 77) (by norm_num) (by norm_num)
  rwa [← two_mul] at this

theorem cross_approx {x y x' y' : Fin 3 → ℝ} (h : ∀ i, Approx (2 * R) 77 (x' i) (x i))
    (g : ∀ i, Approx (2 * R) 77 (y' i) (y i)) (c : Fin 3) :
    Approx (8 * R ^ 2) 158 (F.cross x' y' c) ((x ⨯₃ y) c) := by
  obtain ⟨r1, r2, -, -⟩ := R2_bounds hR hR2
  have b1 : R ^ 2 ≤ 2 ^ 200 / 100 := r2.trans (by norm_num)
  have e0 : (1 : ℝ) / 2 ^ 100 ≤ 1 := by norm_num
  have hm : ∀ i j, Approx (4 * R ^ 2) (156) (F.fl (x' i * y' j)) (x i * y j) := by
    intro i j
    have := ((h i).mul (g j) (by nlinarith) (by norm_num)).fl F (le_900' (by nlinarith)) (by norm_num)
    have e : 2 * R * (2 * R) = 4 * R ^ 2 := by ring
    rw [e] at this
    exact this.mono (by norm_num) (by norm_num)
  have hs : ∀ i j k l, Approx (8 * R ^ 2) 158 (F.fl (F.fl (x' i * y' j) - F.fl (x' k * y' l)))
      (x i * y j - x k * y l) := by
    intro i j k l
    have := ((hm i j).sub (hm k l)).fl F (le_900' (by linarith)) (by norm_num)
    have e : 4 * R ^ 2 + 4 * R ^ 2 = 8 * R ^ 2 := by ring
    rw [e] at this
    exact this.mono (by norm_num) (by norm_num)
  rw [cross_apply]
  unfold Float64.cross
  fin_cases c
  · exact hs 1 2 2 1
  · exact hs 2 0 0 2
  · exact hs 0 1 1 0

theorem dot_approx {x y x' y' : Fin 3 → ℝ} (h : ∀ i, Approx (8 * R ^ 2) 158 (x' i) (x i))
    (g : ∀ i, Approx (2 * R) 77 (y' i) (y i)) :
    Approx (48 * R ^ 3) 241 (F.dot x' y') (x ⬝ᵥ y) := by
  obtain ⟨r1, r2, r3, r4⟩ := R2_bounds hR hR2
  have e0 : (1 : ℝ) / 2 ^ 100 ≤ 1 := by norm_num
  have up := ulp_pos
  have hm : ∀ i, Approx (16 * R ^ 3) 236 (x' i * y' i) (x i * y i) := by
    intro i
    have e : 8 * R ^ 2 * (2 * R) = 16 * R ^ 3 := by ring
    have := (h i).mul (g i) (by rw [e]; linarith) (by norm_num)
    rw [e] at this
    exact this.mono (by norm_num) (by norm_num)
  have hs : Approx (48 * R ^ 3) 236 (x' ⬝ᵥ y') (x ⬝ᵥ y) := by
    have := ((hm 0).add (hm 1)).add (hm 2)
    have e : 16 * R ^ 3 + 16 * R ^ 3 + 16 * R ^ 3 = 48 * R ^ 3 := by ring
    rw [e] at this
    simpa [dotProduct, Fin.sum_univ_three] using this
  have hx : ∀ i, |x' i| ≤ 8 * R ^ 2 * (1001 / 1000) := fun i => (h i).abs'.trans (by nlinarith)
  have hy : ∀ i, |y' i| ≤ 2 * R * (1001 / 1000) := fun i => (g i).abs'.trans (by nlinarith)
  have big : ∀ z : ℝ, z ≤ 2 ^ 200 → z ≤ 2 ^ 400 := fun z hz => hz.trans (pow_le_pow_right₀ (by norm_num) (by norm_num))
  have hd := F.dot_err x' y' fun i => ⟨big _ ((hx i).trans (by
      have : (2 : ℝ) ^ 120 * 10 ≤ 2 ^ 200 := by norm_num
      linarith)), big _ ((hy i).trans (by
      have : (2 : ℝ) ^ 60 * 10 ≤ 2 ^ 200 := by norm_num
      linarith))⟩
  have hsum : ∑ i, |x' i| * |y' i| ≤ 49 * R ^ 3 := by
    have : ∀ i, |x' i| * |y' i| ≤ (8 * R ^ 2 * (1001 / 1000)) * (2 * R * (1001 / 1000)) := fun i =>
      mul_le_mul (hx i) (hy i) (abs_nonneg _) (by positivity)
    rw [Fin.sum_univ_three]
    have h0 := this 0
    have h1 := this 1
    have h2 := this 2
    nlinarith
  have ht : tiny ≤ ulp * R ^ 3 / 1000 := by
    have : ulp / 1000 ≤ ulp * R ^ 3 / 1000 := by
      have := mul_le_mul_of_nonneg_left r3 up.le
      linarith
    refine (tiny_le.trans ?_).trans this
    unfold ulp; norm_num
  refine ⟨hs.M0, by norm_num, by norm_num, hs.abs, ?_⟩
  have h1 : |F.dot x' y' - x ⬝ᵥ y| ≤ |F.dot x' y' - x' ⬝ᵥ y'| + |x' ⬝ᵥ y' - x ⬝ᵥ y| := abs_sub_le _ _ _
  have h2 := hs.err
  have h3 := mul_le_mul_of_nonneg_left hsum (show 0 ≤ 4 * ulp by positivity)
  have h4 : 0 < ulp * R ^ 3 := by positivity
  nlinarith

theorem det_approx {A A' : Matrix (Fin 3) (Fin 3) ℝ} (h : ∀ i j, Approx (2 * R) 77 (A' i j) (A i j))
    (hfl : ∀ i j, ∃ x, A' i j = F.fl x) :
    Approx (48 * R ^ 3) 901 (F.det A') A.det := by
  obtain ⟨r1, r2, r3, r4⟩ := R2_bounds hR hR2
  have e0 : (1 : ℝ) / 2 ^ 100 ≤ 1 := by norm_num
  have up := ulp_pos
  have e1 : 2 * R * (2 * R) = 4 * R ^ 2 := by ring
  have e2 : 4 * R ^ 2 * (2 * R) = 8 * R ^ 3 := by ring
  have hm : ∀ i i' i'' j j' j'', Approx (8 * R ^ 3) 232 (A' i j * A' i' j' * A' i'' j'') (A i j * A i' j' * A i'' j'') := by
    intro i i' i'' j j' j''
    have h1 := (h i j).mul (h i' j') (by rw [e1]; linarith) (by norm_num)
    rw [e1] at h1
    have h2 := h1.mul (h i'' j'') (by rw [e2]; linarith) (by norm_num)
    rw [e2] at h2
    exact h2.mono (by norm_num) (by norm_num)
  have hs : Approx (48 * R ^ 3) 232 A'.det A.det := by
    have := (((((hm 0 1 2 0 1 2).sub (hm 0 1 2 0 2 1)).sub (hm 0 1 2 1 0 2)).add (hm 0 1 2 1 2 0)).add
      (hm 0 1 2 2 0 1)).sub (hm 0 1 2 2 1 0)
    have e : 8 * R ^ 3 + 8 * R ^ 3 + 8 * R ^ 3 + 8 * R ^ 3 + 8 * R ^ 3 + 8 * R ^ 3 = 48 * R ^ 3 := by ring
    rw [e] at this
    rw [Matrix.det_fin_three, Matrix.det_fin_three]
    exact this
  have hd := F.det_err A' (2 * R * (1001 / 1000)) (by linarith) (by
    have : 2 * (2 : ℝ) ^ 10 * (1001 / 1000) ≤ 2 ^ 12 := by norm_num
    linarith) (fun i j => ⟨(h i j).abs'.trans (by nlinarith), hfl i j⟩)
  refine ⟨hs.M0, by norm_num, by norm_num, hs.abs, ?_⟩
  have h1 : |F.det A' - A.det| ≤ |F.det A' - A'.det| + |A'.det - A.det| := abs_sub_le _ _ _
  have h2 := hs.err
  have h4 : 0 < ulp * R ^ 3 := by positivity
  nlinarith

theorem volume_approx {t t' : Fin 4 → Fin 3 → ℝ} (h : ∀ i j, Approx R 75 (t' i j) (t i j)) :
    Approx (8 * R ^ 3) 903 (F.tetrahedronVolume t') (Ico.tetrahedronVolumeNumerical t) := by
  obtain ⟨r1, r2, r3, r4⟩ := R2_bounds hR hR2
  have e0 : (1 : ℝ) / 2 ^ 100 ≤ 1 := by norm_num
  have h1 := det_approx F hR hR2 (A := Matrix.of fun i j : Fin 3 => t i.succ j - t 0 j)
    (A' := Matrix.of fun i j : Fin 3 => F.fl (t' i.succ j - t' 0 j)) (fun i j => diff_approx F hR2 (h _ _) (h _ _)) (fun i j => ⟨_, rfl⟩)
  have h2 := h1.absval.divConst 6 (by norm_num) (by linarith)
  have e : 48 * R ^ 3 / 6 = 8 * R ^ 3 := by ring
  rw [e] at h2
  have b : 8 * R ^ 3 ≤ 2 ^ 200 := by
    have : (2 : ℝ) ^ 180 * 8 ≤ 2 ^ 200 := by norm_num
    linarith
  exact (h2.fl F (le_900' b) (by norm_num)).mono (by norm_num) (by norm_num)

end
end PyQC
