import Verif.Lemmas.RoundingDistance
import Verif.Lemmas.MachineVolume
import Verif.Lemmas.PlanarCommon
import Verif.Model.DodeFloat
import Verif.Spec.RoundingPlanar
/-!
# Rounding errors of the perp coordinates, areas and the inside test of dode2
-/
namespace PyQC
open Matrix

section
variable {R : ℝ}

theorem dodeValue_approx' (F : Float64) (hR : 1 ≤ R) (hR2 : R ≤ 2 ^ 60) {t : Num3} (hc : t.c ≠ 0)
    (h64 : |(t.c : ℝ)| ≤ 2 ^ 63) (hs : |(t.a : ℝ)| + 2 * |(t.b : ℝ)| ≤ R * |(t.c : ℝ)|) :
    Approx R (812 / 100) (F.dodeValue t) (t.val sin60) := by
  have c1 : 1 ≤ |(t.c : ℝ)| := by exact_mod_cast Int.one_le_abs hc
  have hRc : R * |(t.c : ℝ)| ≤ 2 ^ 123 := by
    calc R * |(t.c : ℝ)| ≤ 2 ^ 60 * 2 ^ 63 := mul_le_mul hR2 h64 (abs_nonneg _) (by positivity)
      _ = 2 ^ 123 := by norm_num
  have hRc1 : 1 ≤ R * |(t.c : ℝ)| := by nlinarith
  have a0 := abs_nonneg (t.a : ℝ)
  have b0 := abs_nonneg (t.b : ℝ)
  have e : (1 : ℝ) / 2 ^ 100 ≤ 1 / 10 ^ 30 := by norm_num
  have e0 : (0 : ℝ) < 1 / 2 ^ 100 := by norm_num
  set δ : ℝ := 1 / 2 ^ 100 with hδ
  have ha : Approx (|(t.a : ℝ)| + δ) 0 t.a t.a := .exact (by linarith) (by linarith)
  have hb : Approx (|(t.b : ℝ)| + 2 * δ) 0 t.b t.b := .exact (by linarith) (by linarith)
  have e2 : (2 : ℝ) ^ 123 + 2 ≤ 2 ^ 200 := by norm_num
  have e3 : δ ≤ 1 := e.trans (by norm_num)
  have e4 : |(t.a : ℝ)| + δ ≤ 2 ^ 123 + 2 := by linarith only [hs, hRc, a0, b0, e3]
  have e5 : |(t.b : ℝ)| + 2 * δ ≤ 2 ^ 123 + 2 := by linarith only [hs, hRc, a0, b0, e3]
  have ha1 := ha.fl F (le_900' (e4.trans e2)) (by norm_num)
  have hb1 := hb.fl F (le_900' (e5.trans e2)) (by norm_num)
  have hm : δ ≤ (|(t.b : ℝ)| + 2 * δ) * (87 / 100) := by linarith
  have hp := (hb1.mul (SIN_approx F) hm (by norm_num)).fl F (le_900' (by linarith)) (by norm_num)
  have hsum := ((ha1.mono (l := 0 + 101 / 100 + 203 / 100 + 1 / 100 + 101 / 100) (by norm_num) (by norm_num)).add hp).fl F
    (le_900' (by linarith)) (by norm_num)
  have ht : |(t.a : ℝ) + t.b * sin60| ≤ R * |(t.c : ℝ)| := by
    refine (abs_add_le _ _).trans ?_
    rw [abs_mul]
    have : |sin60| ≤ 87 / 100 := (SIN_approx F).abs
    have := mul_le_mul_of_nonneg_left this b0
    linarith
  have h1 := hsum.of (N := R * |(t.c : ℝ)|) (l := 608 / 100) (by linarith) ht (by linarith) (by norm_num)
  have h2 := h1.divFl F c1 (le_900' (h64.trans (by norm_num))) (by
    rw [mul_div_assoc, div_self (by linarith), mul_one]; linarith) (by norm_num)
  rw [mul_div_assoc, div_self (by linarith), mul_one] at h2
  have h3 := h2.fl F (le_900' (hR2.trans (by norm_num))) (by norm_num)
  exact h3.mono (by norm_num) (by norm_num)

theorem dodeInternal_approx (F : Float64) (hR : 1 ≤ R) (hR2 : R ≤ 2 ^ 10) {v : Vec 6} (h : Small .dode R v) (j : Fin 3) :
    Approx R 75 (F.dodeInternal v j) (Package.dode.perp v j) := by
  have hn : ∀ i, Approx R (812 / 100) (F.dodeVector v i) (numericalVector sin60 v i) := fun i =>
    dodeValue_approx' F hR (hR2.trans (by norm_num)) (h.den i) (h.int64 i) (h.size i)
  have b1 : R ≤ 2 ^ 200 / 10 := hR2.trans (by norm_num)
  have e0 : (1 : ℝ) / 2 ^ 100 ≤ 1 / 10 := by norm_num
  have half : Approx (1 / 2) (203 / 100) (1 / 2) (1 / 2) :=
    (Approx.exact (by norm_num [abs_of_pos]) (by norm_num)).mono (by norm_num) (by norm_num)
  have hmul : ∀ {c c' : ℝ} {M : ℝ} (i), 1 / 2 ≤ M → M ≤ 87 / 100 → Approx M (203 / 100) c' c →
      Approx (M * R) (1117 / 100) (F.fl (c' * F.dodeVector v i)) (c * numericalVector sin60 v i) := by
    intro c c' M i hM hM' hc
    exact ((hc.mul (hn i) (by nlinarith) (by norm_num)).fl F (le_900' (by nlinarith)) (by norm_num)).mono
      (by norm_num) (by norm_num)
  have key : ∀ {a b c a' b' c' M N : ℝ}, Approx (M * R) (1117 / 100) a a' → Approx R (812 / 100) b b' →
      Approx (N * R) (1117 / 100) c c' → M ≤ 87 / 100 → N ≤ 87 / 100 → |a' + b' - c'| ≤ R →
      Approx R 75 (F.fl (F.fl (a + b) - c)) (a' + b' - c') := by
    intro a b c a' b' c' M N ha hb hc hM hN hab
    have bM : M * R ≤ R := by nlinarith
    have bN : N * R ≤ R := by nlinarith
    have h1 := ((ha.add (hb.mono (l := 1117 / 100) (by norm_num) (by norm_num))).fl F (le_900' (by linarith)) (by norm_num))
    have h2 := (h1.sub (hc.mono (l := 1117 / 100 + 101 / 100) (by norm_num) (by norm_num))).fl F (le_900' (by linarith)) (by norm_num)
    exact h2.of (by linarith) hab (by nlinarith) (by norm_num)
  have hp := h.perp j
  have e : Package.dode.perp v = Dode.projection3Numerical (numericalVector sin60 v) := by
    rw [← Package.internalNumerical_eq]; rfl
  rw [e] at hp ⊢
  have e5 : (0.5 : ℝ) = 1 / 2 := by norm_num
  unfold Float64.dodeInternal
  fin_cases j
  · change |-sin60 * _ + _ - 0.5 * _| ≤ R at hp
    change Approx R 75 (F.fl (F.fl (F.fl (-F.SIN * _) + _) - F.fl (1 / 2 * _))) (-sin60 * _ + _ - 0.5 * _)
    rw [e5] at hp ⊢
    exact key (hmul 0 (by norm_num) (by norm_num) (SIN_approx F).neg) (hn 1) (hmul 3 (by norm_num) (by norm_num) half) (by norm_num) (by norm_num) hp
  · change |-0.5 * _ + _ - sin60 * _| ≤ R at hp
    change Approx R 75 (F.fl (F.fl (F.fl (-(1 / 2) * _) + _) - F.fl (F.SIN * _))) (-0.5 * _ + _ - sin60 * _)
    rw [e5] at hp ⊢
    exact key (hmul 0 (by norm_num) (by norm_num) half.neg) (hn 2) (hmul 3 (by norm_num) (by norm_num) (SIN_approx F)) (by norm_num) (by norm_num) hp
  · exact (hn 5).mono (by norm_num) (by norm_num)

end

/-- Three numbers that are not negative, each rounded, added with rounding. -/
theorem three_sum_bound {u τ a b c a' b' c' : ℝ} (u0 : 0 ≤ u) (us : u ≤ 1 / 1000) (t0 : 0 ≤ τ) (ha : 0 ≤ a) (hb : 0 ≤ b)
    (hc : 0 ≤ c) (ea : |a' - a| ≤ u * a + τ) (eb : |b' - b| ≤ u * b + τ) (ec : |c' - c| ≤ u * c + τ) :
    |a' + b'| ≤ 11 / 10 * (a + b) + 2 * τ ∧ ∀ d, |d - (a' + b')| ≤ u * |a' + b'| + τ →
      |d + c'| ≤ 11 / 10 * (a + b + c) + 5 * τ ∧ ∀ e, |e - (d + c')| ≤ u * |d + c'| + τ →
        |e - (a + b + c)| ≤ 4 * u * (a + b + c) + 8 * τ := by
  have ua : u * a ≤ 1 / 1000 * a := mul_le_mul_of_nonneg_right us ha
  have ub : u * b ≤ 1 / 1000 * b := mul_le_mul_of_nonneg_right us hb
  have uc : u * c ≤ 1 / 1000 * c := mul_le_mul_of_nonneg_right us hc
  have ut : u * τ ≤ 1 / 1000 * τ := mul_le_mul_of_nonneg_right us t0
  have ua0 : 0 ≤ u * a := mul_nonneg u0 ha
  have ub0 : 0 ≤ u * b := mul_nonneg u0 hb
  have uc0 : 0 ≤ u * c := mul_nonneg u0 hc
  have ut0 : 0 ≤ u * τ := mul_nonneg u0 t0
  rw [abs_le] at ea eb ec
  have h1 : |a' + b'| ≤ 1001 / 1000 * (a + b) + 2 * τ := by rw [abs_le]; constructor <;> linarith
  refine ⟨h1.trans (by linarith), fun d hd => ?_⟩
  have h2 : |d - (a' + b')| ≤ 1001 / 1000 * (u * a + u * b) + 2 * (u * τ) + τ :=
    hd.trans (by have := mul_le_mul_of_nonneg_left h1 u0; linarith)
  rw [abs_le] at h2
  have h3 : |d + c'| ≤ 1003 / 1000 * (a + b + c) + 5 * τ := by rw [abs_le]; constructor <;> linarith
  refine ⟨h3.trans (by linarith), fun e he => ?_⟩
  have h4 : |e - (d + c')| ≤ 1003 / 1000 * (u * a + u * b + u * c) + 5 * (u * τ) + τ :=
    he.trans (by have := mul_le_mul_of_nonneg_left h3 u0; linarith)
  rw [abs_le] at h4
  rw [abs_le]; constructor <;> linarith

section
variable (F : Float64) {R : ℝ} (hR : 1 ≤ R) (hR2 : R ≤ 2 ^ 10)
include hR hR2

/-- A sum of three rounded squares. -/
theorem squares_err {x : Fin 3 → ℝ} (hx : ∀ i, |x i| ≤ 9 * R ^ 2) :
    |F.fl (F.fl (F.fl (x 0 * x 0) + F.fl (x 1 * x 1)) + F.fl (x 2 * x 2)) - x ⬝ᵥ x| ≤ 4 * ulp * (x ⬝ᵥ x) + 8 * tiny := by
  have up := ulp_pos
  have us : ulp ≤ 1 / 1000 := ulp_small.1.trans (by norm_num)
  have tp := tiny_pos
  have tu : tiny ≤ ulp / 1000 := ulp_small.2
  obtain ⟨r1, r2, -, -⟩ := R2_bounds hR hR2
  have hq : ∀ i, 0 ≤ x i * x i ∧ x i * x i ≤ 2 ^ 250 := by
    intro i
    refine ⟨mul_self_nonneg _, ?_⟩
    rw [← abs_mul_abs_self]
    have h9 : |x i| ≤ 2 ^ 125 := (hx i).trans (by
      have : (9 : ℝ) * 2 ^ 120 ≤ 2 ^ 125 := by norm_num
      linarith)
    calc |x i| * |x i| ≤ 2 ^ 125 * 2 ^ 125 := mul_le_mul h9 h9 (abs_nonneg _) (by positivity)
      _ = 2 ^ 250 := by rw [← pow_add]
  have big : (4 : ℝ) * 2 ^ 250 ≤ 2 ^ 1000 := by
    have e : (4 : ℝ) = 2 ^ 2 := by norm_num
    rw [e, ← pow_add]
    exact pow_le_pow_right₀ (by norm_num) (by norm_num)
  have h250 : (1 : ℝ) ≤ 2 ^ 250 := one_le_pow₀ (by norm_num)
  have hs := fun i => F.fl_err (x i * x i) (by
    rw [abs_of_nonneg (hq i).1]
    exact (hq i).2.trans (pow_le_pow_right₀ (by norm_num) (by norm_num)))
  rw [vec3_dotProduct]
  have nn := fun i => abs_of_nonneg (hq i).1
  simp only [nn] at hs
  have q := three_sum_bound up.le us tp.le (hq 0).1 (hq 1).1 (hq 2).1 (hs 0) (hs 1) (hs 2)
  have l1 : |F.fl (x 0 * x 0) + F.fl (x 1 * x 1)| ≤ 2 ^ 1000 := by
    refine (q.1.trans ?_).trans big
    linarith only [(hq 0).2, (hq 1).2, tu, us, h250]
  have l2 := F.fl_err _ l1
  refine (q.2 _ l2).2 _ (F.fl_err _ ?_)
  refine ((q.2 _ l2).1.trans ?_).trans big
  linarith only [(hq 0).2, (hq 1).2, (hq 2).2, tu, us, h250]

theorem area_approx {t t' : Fin 3 → Fin 3 → ℝ} (h : ∀ i j, Approx R 75 (t' i j) (t i j)) :
    Approx (7 * R ^ 2) 180 (F.triangleArea t') (Ico.triangleAreaNumerical t) := by
  obtain ⟨r1, r2, r3, r4⟩ := R2_bounds hR hR2
  have up := ulp_pos
  have us : ulp ≤ 1 / 2 ^ 53 := ulp_small.1
  have e0 : (1 : ℝ) / 2 ^ 100 ≤ 1 := by norm_num
  have hc : ∀ j, Approx (8 * R ^ 2) 158 (F.cross (F.sub (t' 2) (t' 0)) (F.sub (t' 1) (t' 0)) j) (((t 2 - t 0) ⨯₃ (t 1 - t 0)) j) :=
    cross_approx F hR hR2 (fun i => diff_approx F hR2 (h 2 i) (h 0 i)) (fun i => diff_approx F hR2 (h 1 i) (h 0 i))
  unfold Float64.triangleArea Ico.triangleAreaNumerical
  simp only
  set c := (t 2 - t 0) ⨯₃ (t 1 - t 0)
  set c' := F.cross (F.sub (t' 2) (t' 0)) (F.sub (t' 1) (t' 0))
  have uR : 0 < ulp * R ^ 2 := by positivity
  have uR1 : ulp ≤ ulp * R ^ 2 := le_mul_of_one_le_right up.le r1
  have h1 : |norm3 c' - norm3 c| ≤ 174 / 100 * (158 * ulp * (8 * R ^ 2)) :=
    (norm3_sub_le _ _).trans (norm3_le (by positivity) fun i => (hc i).err)
  have hx : ∀ i, |c' i| ≤ 1001 / 1000 * (8 * R ^ 2) := fun i => (hc i).abs'.trans (by nlinarith)
  have h2 : norm3 c' ≤ 174 / 100 * (1001 / 1000 * (8 * R ^ 2)) := norm3_le (by linarith) hx
  have h2' : norm3 c ≤ 174 / 100 * (8 * R ^ 2) := norm3_le (by linarith) fun i => (hc i).abs
  have hd := squares_err F hR hR2 (x := c') (fun i => (hx i).trans (by linarith))
  have hdd : 0 ≤ c' ⬝ᵥ c' := by rw [vec3_dotProduct]; nlinarith [mul_self_nonneg (c' 0), mul_self_nonneg (c' 1), mul_self_nonneg (c' 2)]
  have h3 := sqrt_close hdd hd
  set d := F.fl (F.fl (F.fl (c' 0 * c' 0) + F.fl (c' 1 * c' 1)) + F.fl (c' 2 * c' 2))
  change |Real.sqrt d - norm3 c'| ≤ 4 * ulp * norm3 c' + _ at h3
  have hs : (1 : ℝ) / 2 ^ 536 ≤ ulp / 1000 := by
    have : (1 : ℝ) / 2 ^ 536 ≤ 1 / 2 ^ 200 := one_div_le_one_div_of_le (by positivity) (pow_le_pow_right₀ (by norm_num) (by norm_num))
    refine this.trans ?_
    unfold ulp; norm_num
  have h4 : 4 * ulp * norm3 c' ≤ 56 * (ulp * R ^ 2) := by nlinarith
  have h5 : |Real.sqrt d - norm3 c| ≤ 162 * ulp * (14 * R ^ 2) := by
    have e : Real.sqrt d - norm3 c = (Real.sqrt d - norm3 c') + (norm3 c' - norm3 c) := by ring
    rw [e]
    refine (abs_add_le _ _).trans ?_
    nlinarith
  have b1 : R ^ 2 ≤ 2 ^ 200 / 100 := r2.trans (by norm_num)
  have h6 : Approx (14 * R ^ 2) 162 (Real.sqrt d) (norm3 c) :=
    ⟨by linarith, by norm_num, by norm_num, by rw [abs_of_nonneg (norm3_nonneg _)]; linarith, h5⟩
  have h7 := ((h6.fl F (le_900' (by linarith)) (by norm_num)).divConst 2 (by norm_num) (by linarith)).fl F
    (le_900' (by linarith)) (by norm_num)
  rw [show 14 * R ^ 2 / 2 = 7 * R ^ 2 by ring] at h7
  exact h7.mono (by norm_num) (by norm_num)

theorem insideTri_approx {x x' : Fin 3 → ℝ} {t t' : Fin 3 → Fin 3 → ℝ} (hx : ∀ j, Approx R 75 (x' j) (x j))
    (ht : ∀ i j, Approx R 75 (t' i j) (t i j))
    (h : margin2 R < |(∑ i, Ico.triangleAreaNumerical (Ico.smallTriangle i x t)) - Ico.triangleAreaNumerical t -
      EPS * Ico.triangleAreaNumerical t|)
    (h0 : Ico.triangleAreaNumerical t ≤ ∑ i, Ico.triangleAreaNumerical (Ico.smallTriangle i x t)) :
    F.insideTriangle x' t' = Dode.insideTriangle x t := by
  obtain ⟨r1, r2, r3, r4⟩ := R2_bounds hR hR2
  have up := ulp_pos
  have b0 : R ^ 2 ≤ 2 ^ 200 / 100 := r2.trans (by norm_num)
  have hsm : ∀ k i j, Approx R 75 (Ico.smallTriangle k x' t' i j) (Ico.smallTriangle k x t i j) := by
    intro k i j
    unfold Ico.smallTriangle
    split_ifs
    · exact hx j
    · exact ht i j
  have hv0 := area_approx F hR hR2 ht
  have hv : ∀ k, _ := fun k => area_approx F hR hR2 (hsm k)
  have hL1 := ((hv0.sub (hv 0)).fl F (le_900' (by linarith)) (by norm_num)).mono
    (l := 182) (by norm_num) (by norm_num)
  have hL2 := ((hL1.sub ((hv 1).mono (l := 182) (by norm_num) (by norm_num))).fl F
    (le_900' (by linarith)) (by norm_num)).mono (l := 184) (by norm_num) (by norm_num)
  have hL3 := ((hL2.sub ((hv 2).mono (l := 184) (by norm_num) (by norm_num))).fl F
    (le_900' (by linarith)) (by norm_num)).mono (l := 186) (by norm_num) (by norm_num)
  have hr := (((eps_approx F).mul hv0 (by unfold EPS; nlinarith) (by norm_num)).fl F (le_900' (by unfold EPS; linarith)) (by norm_num)).mono (l := 186) (by norm_num) (by norm_num)
  unfold Float64.insideTriangle Dode.insideTriangle
  simp only
  set w0 := Ico.triangleAreaNumerical t
  set w1 := Ico.triangleAreaNumerical (Ico.smallTriangle 0 x t)
  set w2 := Ico.triangleAreaNumerical (Ico.smallTriangle 1 x t)
  set w3 := Ico.triangleAreaNumerical (Ico.smallTriangle 2 x t)
  rw [Fin.sum_univ_three] at h h0
  have e1 : |w0 - w1 - w2 - w3| = w1 + w2 + w3 - w0 := by
    rw [abs_of_nonpos (by linarith)]; ring
  congr 1
  rw [eq_iff_iff]
  refine lt_iff_of_close hL3.absval.err hr.err (m := margin2 R) ?_ (by rw [e1]; exact h)
  have em : margin2 R = 8192 * ulp * R ^ 2 := by unfold margin2 ulp; ring
  rw [em]
  have h4 : 0 < ulp * R ^ 2 := by positivity
  have : EPS ≤ 1 := by unfold EPS; norm_num
  nlinarith

end
end PyQC
