import Verif.Lemmas.RoundingPlane
/-!
# The crossing test of two segments with rounding (dode2)
-/
namespace PyQC
open Matrix

theorem fl_side01 (F : Float64) {q c : ℝ} (hq : |q| ≤ 2 ^ 250) (hc : |c| ≤ 11 / 10) :
    (400 * ulp < q - c → c < F.fl q) ∧ (q - c < -(400 * ulp) → F.fl q < c) :=
  fl_side (quot_err F hq hc) (by rw [sub_self, abs_zero]; linarith [ulp_pos])

section
variable {R : ℝ} (hR : 1 ≤ R) (hR8 : R ≤ 8)
include hR

theorem pow_ge1 (n : Nat) : 1 ≤ R ^ n := one_le_pow₀ hR

include hR8

theorem pow_le8 (n : Nat) : R ^ n ≤ 8 ^ n := pow_le_pow_left₀ (by linarith) hR8 n

/-- The parameter on the first segment. -/
theorem cross_s (F : Float64) {G s t1 t2 : ℝ} (h1 : |t1 + s * G| ≤ 93312 * ulp * R ^ 4) (h2 : |t2 + G| ≤ 93312 * ulp * R ^ 4)
    (hG : 1 / 10 ^ 6 + R ^ 5 / 2 ^ 20 ≤ G) (hG2 : G ≤ 144 * R ^ 4) (h3 : |s * G| ≤ 288 * R ^ 4) :
    (∀ c, |c| ≤ 1 → R ^ 4 / 2 ^ 34 < G * |s - c| → (0 < s - c → c < F.fl (t1 / t2)) ∧ (s - c < 0 → F.fl (t1 / t2) < c)) ∧
    (0 ≤ s → s ≤ 1 → G * |F.fl (t1 / t2) - s| ≤ 262144 * ulp * R ^ 4) := by
  have up := ulp_pos
  have eu : ulp = 1 / 2 ^ 53 := rfl
  have r4 := pow_ge1 hR 4
  have r45 : R ^ 4 ≤ R ^ 5 := pow_le_pow_right₀ hR (by norm_num)
  have b4 : R ^ 4 ≤ 4096 := (pow_le8 hR hR8 4).trans (by norm_num)
  have em : R ^ 4 / 2 ^ 34 = 524288 * ulp * R ^ 4 := by rw [eu]; ring
  have G0 : 0 < G := by linarith [show (0 : ℝ) < 1 / 10 ^ 6 by norm_num, show 0 < R ^ 5 / 2 ^ 20 by positivity]
  have hm0 : 0 < R ^ 4 / 2 ^ 34 := by positivity
  have ue : ulp * R ^ 4 ≤ 1 / 10 ^ 8 * (R ^ 5 / 2 ^ 20) := by
    rw [eu]; linarith
  have hmG : R ^ 4 / 2 ^ 34 < G := by
    rw [em]; linarith
  have u0 : 0 < ulp * R ^ 4 := by positivity
  have he : |t2 - -G| ≤ 18 / 100 * (R ^ 4 / 2 ^ 34) := by
    rw [sub_neg_eq_add, em]; linarith
  have hn : |t1 - -(s * G)| ≤ 36 / 100 * (R ^ 4 / 2 ^ 34) := by
    rw [sub_neg_eq_add, em]; linarith
  have hb : |(-G)| = G := by rw [abs_neg, abs_of_pos G0]
  have t2u : t2 ≤ -(99 / 100 * G) := by
    rw [abs_le] at h2; linarith
  have t2ne : t2 ≠ 0 := by intro h; rw [h] at t2u; linarith
  have hq : |t1 / t2| ≤ 2 ^ 250 := by
    rw [abs_div]
    have a2 : (1 / 10 ^ 7 : ℝ) ≤ |t2| := by
      rw [abs_of_neg (by linarith)]
      have : (0 : ℝ) < R ^ 5 / 2 ^ 20 := by positivity
      linarith
    have a1 : |t1| ≤ 300 * R ^ 4 := by
      rw [abs_le] at h1 h3 ⊢
      constructor <;> linarith
    rw [div_le_iff₀ (by linarith)]
    have : (2 : ℝ) ^ 250 * (1 / 10 ^ 7) ≤ 2 ^ 250 * |t2| := mul_le_mul_of_nonneg_left a2 (by positivity)
    refine le_trans ?_ this
    refine a1.trans ?_
    have : (300 : ℝ) * 4096 ≤ 2 ^ 250 * (1 / 10 ^ 7) := by norm_num
    linarith
  have e1 : -(s * G) / -G = s := by rw [neg_div_neg_eq, mul_div_assoc, div_self G0.ne', mul_one]
  constructor
  · intro c hc hcm
    have hside := quot_side (c := c) (K := 144 * R ^ 4) hm0 he hn (by rw [hb]; exact hmG) (by rw [hb]; exact hG2) (hc.trans (by norm_num))
      (by
        have : -(s * G) - c * -G = -(G * (s - c)) := by ring
        rw [this, abs_neg, abs_mul, abs_of_pos G0]
        exact hcm)
    rw [e1] at hside
    have ek : 400 * ulp ≤ R ^ 4 / 2 ^ 34 / 3 / (144 * R ^ 4) := by
      have : R ^ 4 / 2 ^ 34 / 3 / (144 * R ^ 4) = 1 / (2 ^ 34 * 3 * 144) := by
        field_simp
      rw [this, eu]; norm_num
    obtain ⟨f1, f2⟩ := fl_side01 F hq (c := c) (hc.trans (by norm_num))
    rcases hside with ⟨k1, k2⟩ | ⟨k1, k2⟩
    · exact ⟨fun _ => f1 (by linarith), fun h => absurd h (by linarith)⟩
    · exact ⟨fun h => absurd h (by linarith), fun _ => f2 (by linarith)⟩
  · intro s0 s1
    have hd : G * |t1 / t2 - s| ≤ 189000 * ulp * R ^ 4 := by
      have e : t1 / t2 - s = ((t1 + s * G) - s * (t2 + G)) / t2 := by field_simp; ring
      rw [e, abs_div, abs_of_neg (show t2 < 0 by linarith), mul_div_assoc', div_le_iff₀ (by linarith)]
      have k1 : |(t1 + s * G) - s * (t2 + G)| ≤ 2 * (93312 * ulp * R ^ 4) := by
        refine (abs_sub _ _).trans ?_
        rw [abs_mul, abs_of_nonneg s0]
        have := mul_le_mul s1 h2 (abs_nonneg _) (by norm_num)
        linarith
      have k2 : -(-(999 / 1000 * G)) ≤ -t2 := by
        rw [abs_le] at h2; linarith
      have k3 := mul_le_mul_of_nonneg_left k1 G0.le
      have k4 := mul_le_mul_of_nonneg_left k2 (show 0 ≤ 189000 * ulp * R ^ 4 by positivity)
      have k5 : 0 < G * (ulp * R ^ 4) := by positivity
      linarith
    have h5 := fl_err' F hq
    have h6 : |t1 / t2| ≤ |t1 / t2 - s| + 1 := by
      have := abs_add_le (t1 / t2 - s) s
      rw [sub_add_cancel, abs_of_nonneg s0] at this
      linarith
    have h7 : |F.fl (t1 / t2) - s| ≤ |F.fl (t1 / t2) - t1 / t2| + |t1 / t2 - s| := abs_sub_le _ _ _
    have us : ulp ≤ 1 / 1000 := ulp_small.1.trans (by norm_num)
    have h8 : ulp * |t1 / t2| ≤ ulp * (|t1 / t2 - s| + 1) := mul_le_mul_of_nonneg_left h6 up.le
    have h9 : ulp * |t1 / t2 - s| ≤ 1 / 1000 * |t1 / t2 - s| := mul_le_mul_of_nonneg_right us (abs_nonneg _)
    have h10 : |F.fl (t1 / t2) - s| ≤ 1001 / 1000 * |t1 / t2 - s| + 1001 / 1000 * ulp := by linarith
    have h11 := mul_le_mul_of_nonneg_left h10 G0.le
    have h12 := mul_le_mul_of_nonneg_left hG2 up.le
    have h13 : G * (1001 / 1000 * |t1 / t2 - s| + 1001 / 1000 * ulp) = 1001 / 1000 * (G * |t1 / t2 - s|) + 1001 / 1000 * (ulp * G) := by ring
    linarith

set_option maxHeartbeats 2000000 in
/-- The parameter on the second segment, for a computed parameter `s'` on the first. -/
theorem cross_t (F : Float64) {D E X s t s' D' E' X' α ν δ : ℝ} (hE : |E' - E| ≤ 1920 * ulp * R ^ 2)
    (hX : |X' - X| ≤ 1920 * ulp * R ^ 2) (hD : |D' - D| ≤ 1920 * ulp * R ^ 2) (bE : |E| ≤ 12 * R ^ 2)
    (bX : |X| ≤ 12 * R ^ 2) (bD : D ≤ 12 * R ^ 2) (eX : X = s * E - t * D) (s0 : 0 ≤ s) (s1 : s ≤ 1)
    (hν : ν * ν = D) (ν0 : 0 ≤ ν) (hα0 : 0 ≤ α) (hα : α ≤ 347 / 100 * R) (hEν : |E| ≤ α * ν) (hδν : δ ≤ α * ν) (δ0 : 0 < δ)
    (hG : 1 / 10 ^ 6 + R ^ 5 / 2 ^ 20 ≤ δ ^ 2) (hs : δ ^ 2 * |s' - s| ≤ 262144 * ulp * R ^ 4) :
    (∀ c, |c| ≤ 1 → R ^ 6 / 2 ^ 30 < δ ^ 3 * |t - c| →
      (0 < t - c → c < F.fl (F.fl (-X' + F.fl (s' * E')) / D')) ∧ (t - c < 0 → F.fl (F.fl (-X' + F.fl (s' * E')) / D') < c)) ∧
    (0 ≤ t → t ≤ 1 → ν * |F.fl (F.fl (-X' + F.fl (s' * E')) / D') - t| ≤ 12 / 10 ^ 5) ∧ R * |s' - s| ≤ 1 / 2 ^ 15 := by
  have up := ulp_pos
  have eu : ulp = 1 / 2 ^ 53 := rfl
  have R0 : 0 < R := by linarith
  have r2 := pow_ge1 hR 2
  have b2 : R ^ 2 ≤ 64 := (pow_le8 hR hR8 2).trans (by norm_num)
  have b3 : R ^ 3 ≤ 512 := (pow_le8 hR hR8 3).trans (by norm_num)
  have r3 := pow_ge1 hR 3
  have r5 := pow_ge1 hR 5
  have u2 : 0 < ulp * R ^ 2 := by positivity
  have us2 : ulp * R ^ 2 ≤ 1 / 10 ^ 13 := by
    calc ulp * R ^ 2 ≤ 1 / 2 ^ 53 * 64 := mul_le_mul (le_of_eq eu) b2 (by positivity) (by norm_num)
      _ ≤ 1 / 10 ^ 13 := by norm_num
  have q5 : 0 < R ^ 5 / 2 ^ 20 := by positivity
  -- the error of s'
  have hs5 : R ^ 5 / 2 ^ 20 * |s' - s| ≤ 262144 * ulp * R ^ 4 :=
    (mul_le_mul_of_nonneg_right (by linarith [show (0 : ℝ) < 1 / 10 ^ 6 by norm_num]) (abs_nonneg _)).trans hs
  have hsR : R * |s' - s| ≤ 1 / 2 ^ 15 := by
    have e : R ^ 5 / 2 ^ 20 * |s' - s| = R ^ 4 * (R * |s' - s| / 2 ^ 20) := by ring
    have e2 : 262144 * ulp * R ^ 4 = R ^ 4 * (262144 * ulp) := by ring
    rw [e, e2] at hs5
    have := le_of_mul_le_mul_left hs5 (by positivity)
    rw [eu] at this
    linarith
  have hse : |s' - s| ≤ 1 / 2 ^ 15 := by
    have : 1 * |s' - s| ≤ R * |s' - s| := mul_le_mul_of_nonneg_right hR (abs_nonneg _)
    linarith
  have hs' : |s'| ≤ 11 / 10 := by
    have := abs_add_le (s' - s) s
    rw [sub_add_cancel, abs_of_nonneg s0] at this
    linarith
  -- the numerator
  have bE' : |E'| ≤ 13 * R ^ 2 := by
    have := abs_add_le (E' - E) E
    rw [sub_add_cancel] at this
    linarith
  have bX' : |X'| ≤ 13 * R ^ 2 := by
    have := abs_add_le (X' - X) X
    rw [sub_add_cancel] at this
    linarith
  have bsE : |s' * E'| ≤ 15 * R ^ 2 := by
    rw [abs_mul]
    have := mul_le_mul hs' bE' (abs_nonneg _) (by norm_num)
    linarith
  have l1 := fl_err' F (x := s' * E') (bsE.trans (by
    have : (15 : ℝ) * 64 ≤ 2 ^ 250 := by norm_num
    linarith))
  have l1' : |F.fl (s' * E') - s' * E'| ≤ 16 * ulp * R ^ 2 := by
    refine l1.trans ?_
    have := mul_le_mul_of_nonneg_left bsE up.le
    have := mul_le_mul_of_nonneg_left r2 up.le
    linarith
  set m := F.fl (s' * E') with hm
  have bm : |-X' + m| ≤ 30 * R ^ 2 := by
    refine (abs_add_le _ _).trans ?_
    rw [abs_neg]
    have := abs_add_le (m - s' * E') (s' * E')
    rw [sub_add_cancel] at this
    linarith
  have l2 := fl_err' F (x := -X' + m) (bm.trans (by
    have : (30 : ℝ) * 64 ≤ 2 ^ 250 := by norm_num
    linarith))
  have l2' : |F.fl (-X' + m) - (-X' + m)| ≤ 31 * ulp * R ^ 2 := by
    refine l2.trans ?_
    have := mul_le_mul_of_nonneg_left bm up.le
    have := mul_le_mul_of_nonneg_left r2 up.le
    linarith
  set N := F.fl (-X' + m) with hN
  have hsE : |(s' - s) * E| ≤ |s' - s| * |E| := (abs_mul _ _).le
  have hNt : |N - t * D - (s' - s) * E| ≤ 4100 * ulp * R ^ 2 := by
    have e : N - t * D - (s' - s) * E = (N - (-X' + m)) - (X' - X) + (m - s' * E') + s' * (E' - E) := by
      rw [eX]; ring
    rw [e]
    have k1 := abs_add_le ((N - (-X' + m)) - (X' - X) + (m - s' * E')) (s' * (E' - E))
    have k2 := abs_add_le ((N - (-X' + m)) - (X' - X)) (m - s' * E')
    have k3 := abs_sub (N - (-X' + m)) (X' - X)
    have k4 : |s' * (E' - E)| ≤ 11 / 10 * (1920 * ulp * R ^ 2) := by
      rw [abs_mul]; exact mul_le_mul hs' hE (abs_nonneg _) (by norm_num)
    linarith
  -- the denominator
  have ν0' : 0 < ν := by
    rcases ν0.lt_or_eq with h | h
    · exact h
    · rw [← h, mul_zero] at hδν; linarith
  have D0 : 0 < D := by rw [← hν]; positivity
  have hαν : (α * ν) ^ 2 = α * α * D := by rw [← hν]; ring
  have hα2 : α * α ≤ 1205 / 100 * R ^ 2 := by
    have := mul_le_mul hα hα hα0 (by positivity)
    linarith
  have hGD : δ ^ 2 ≤ 1205 / 100 * R ^ 2 * D := by
    have : δ ^ 2 ≤ (α * ν) ^ 2 := pow_le_pow_left₀ δ0.le hδν 2
    rw [hαν] at this
    exact this.trans (mul_le_mul_of_nonneg_right hα2 D0.le)
  have hDl : R ^ 3 / 2 ^ 24 ≤ D := by
    have h1 : R ^ 5 / 2 ^ 20 ≤ 1205 / 100 * R ^ 2 * D := by linarith [show (0 : ℝ) < 1 / 10 ^ 6 by norm_num]
    have e : R ^ 5 / 2 ^ 20 = R ^ 2 * (R ^ 3 / 2 ^ 20) := by ring
    have e2 : 1205 / 100 * R ^ 2 * D = R ^ 2 * (1205 / 100 * D) := by ring
    rw [e, e2] at h1
    have := le_of_mul_le_mul_left h1 (by positivity)
    linarith
  have hDs : 1920 * ulp * R ^ 2 ≤ 1 / 1000 * D := by
    have h23 : R ^ 2 ≤ R ^ 3 := pow_le_pow_right₀ hR (by norm_num)
    have : 1920 * ulp * R ^ 2 ≤ 1 / 1000 * (R ^ 3 / 2 ^ 24) := by rw [eu]; linarith
    linarith
  have hD' : 999 / 1000 * D ≤ D' ∧ D' ≤ 13 * R ^ 2 := by
    rw [abs_le] at hD
    constructor <;> linarith
  have D'0 : 0 < D' := by linarith
  have hq : |N / D'| ≤ 2 ^ 250 := by
    rw [abs_div, abs_of_pos D'0, div_le_iff₀ D'0]
    have hNb : |N| ≤ 31 * R ^ 2 := by
      have := abs_add_le (N - (-X' + m)) (-X' + m)
      rw [sub_add_cancel] at this
      linarith
    have h1 : (1 : ℝ) / 2 ^ 25 ≤ D' := by linarith
    have h2 : (2 : ℝ) ^ 250 * (1 / 2 ^ 25) ≤ 2 ^ 250 * D' := mul_le_mul_of_nonneg_left h1 (by positivity)
    refine le_trans ?_ h2
    have : (31 : ℝ) * 64 ≤ 2 ^ 250 * (1 / 2 ^ 25) := by norm_num
    linarith
  refine ⟨?_, ?_, hsR⟩
  · intro c hc hcm
    obtain ⟨f1, f2⟩ := fl_side01 F hq (c := c) (hc.trans (by norm_num))
    have x0 := abs_nonneg (t - c)
    -- the two lower bounds
    have em : R ^ 6 / 2 ^ 30 = 8388608 * ulp * R ^ 6 := by rw [eu]; ring
    rw [em] at hcm
    have δR : δ ≤ 1205 / 100 * R ^ 2 := by
      have : δ ^ 2 ≤ (1205 / 100 * R ^ 2) ^ 2 := by
        refine hGD.trans ?_
        have := mul_le_mul_of_nonneg_left bD (show 0 ≤ 1205 / 100 * R ^ 2 by positivity)
        refine this.trans ?_
        have h0 : 0 ≤ R ^ 4 := by positivity
        have e1 : 1205 / 100 * R ^ 2 * (12 * R ^ 2) = 1446 / 10 * R ^ 4 := by ring
        have e2 : (1205 / 100 * R ^ 2) ^ 2 = 1452025 / 10000 * R ^ 4 := by ring
        rw [e1, e2]
        linarith only [h0]
      exact le_of_sq_le_sq this (by positivity)
    have c1 : 55000 * ulp * R ^ 2 ≤ D * |t - c| := by
      have k1 : δ ^ 3 * |t - c| ≤ 1205 / 100 * R ^ 2 * (1205 / 100 * R ^ 2 * D * |t - c|) := by
        have e : δ ^ 3 * |t - c| = δ * (δ ^ 2 * |t - c|) := by ring
        rw [e]
        exact mul_le_mul δR (mul_le_mul_of_nonneg_right hGD x0) (by positivity) (by positivity)
      have k2 : R ^ 4 * (8388608 * ulp * R ^ 2) ≤ R ^ 4 * (1452025 / 10000 * (D * |t - c|)) := by
        have e1 : R ^ 4 * (8388608 * ulp * R ^ 2) = 8388608 * ulp * R ^ 6 := by ring
        have e2 : R ^ 4 * (1452025 / 10000 * (D * |t - c|)) = 1205 / 100 * R ^ 2 * (1205 / 100 * R ^ 2 * D * |t - c|) := by ring
        rw [e1, e2]; linarith
      have := le_of_mul_le_mul_left k2 (by positivity)
      linarith
    have c2 : 2 * (|s' - s| * |E|) ≤ D * |t - c| := by
      have k1 : δ ^ 2 * (2 * (|s' - s| * |E|)) ≤ 2 * (262144 * ulp * R ^ 4) * (347 / 100 * R * ν) := by
        have e : δ ^ 2 * (2 * (|s' - s| * |E|)) = 2 * (δ ^ 2 * |s' - s|) * |E| := by ring
        rw [e]
        refine mul_le_mul (by linarith) (hEν.trans (mul_le_mul_of_nonneg_right hα ν0)) (abs_nonneg _) (by positivity)
      have k2 : 2 * (262144 * ulp * R ^ 4) * (347 / 100 * R * ν) ≤ δ ^ 2 * (D * |t - c|) := by
        have h3 : 347 / 100 * R * (2 * (262144 * ulp * R ^ 4) * (347 / 100 * R * ν)) ≤ 347 / 100 * R * (δ ^ 2 * (D * |t - c|)) := by
          have e1 : 347 / 100 * R * (2 * (262144 * ulp * R ^ 4) * (347 / 100 * R * ν)) = 2 * 262144 * (120409 / 10000) * ulp * R ^ 6 * ν := by ring
          have e2 : 347 / 100 * R * (δ ^ 2 * (D * |t - c|)) = ν * (δ ^ 2 * |t - c| * (347 / 100 * R * ν)) := by rw [← hν]; ring
          have h4 : δ ^ 3 * |t - c| ≤ δ ^ 2 * |t - c| * (347 / 100 * R * ν) := by
            have e : δ ^ 3 * |t - c| = δ ^ 2 * |t - c| * δ := by ring
            rw [e]
            exact mul_le_mul_of_nonneg_left (hδν.trans (mul_le_mul_of_nonneg_right hα ν0)) (by positivity)
          rw [e1, e2]
          have h5 : 8388608 * ulp * R ^ 6 ≤ δ ^ 2 * |t - c| * (347 / 100 * R * ν) := hcm.le.trans h4
          have h6 := mul_le_mul_of_nonneg_left h5 ν0
          have h7 : 0 ≤ ulp * R ^ 6 * ν := by positivity
          linarith
        exact le_of_mul_le_mul_left h3 (by positivity)
      exact le_of_mul_le_mul_left (k1.trans k2) (by positivity)
    have hdiff : |N - c * D' - D * (t - c)| ≤ 6020 * ulp * R ^ 2 + |s' - s| * |E| := by
      have e : N - c * D' - D * (t - c) = (N - t * D - (s' - s) * E) + (s' - s) * E - c * (D' - D) := by ring
      rw [e]
      have k1 := abs_sub ((N - t * D - (s' - s) * E) + (s' - s) * E) (c * (D' - D))
      have k2 := abs_add_le (N - t * D - (s' - s) * E) ((s' - s) * E)
      have k3 : |c * (D' - D)| ≤ 1 * (1920 * ulp * R ^ 2) := by
        rw [abs_mul]; exact mul_le_mul hc hD (abs_nonneg _) (by norm_num)
      linarith
    have eq2 : N / D' - c = (N - c * D') / D' := by field_simp
    have hbig : 400 * ulp * D' ≤ 5200 * ulp * R ^ 2 := by
      have := mul_le_mul_of_nonneg_left hD'.2 (show 0 ≤ 400 * ulp by positivity)
      linarith
    rw [abs_le] at hdiff
    constructor
    · intro h
      apply f1
      rw [eq2, lt_div_iff₀ D'0]
      rw [abs_of_pos h] at c1 c2
      linarith
    · intro h
      apply f2
      rw [eq2, div_lt_iff₀ D'0]
      rw [abs_of_neg h] at c1 c2
      linarith
  · intro t0 t1
    have δl : 1 / 1000 ≤ δ := by
      by_contra h
      rw [not_le] at h
      have : δ ^ 2 < (1 / 1000) ^ 2 := pow_lt_pow_left₀ h δ0.le (by norm_num)
      have e : ((1 : ℝ) / 1000) ^ 2 = 1 / 10 ^ 6 := by norm_num
      rw [e] at this
      linarith
    have hνl : 1 / 1000 ≤ 347 / 100 * R * ν := δl.trans (hδν.trans (mul_le_mul_of_nonneg_right hα ν0))
    have hdt : |N - t * D'| ≤ 6020 * ulp * R ^ 2 + |s' - s| * |E| := by
      have e : N - t * D' = (N - t * D - (s' - s) * E) + (s' - s) * E - t * (D' - D) := by ring
      rw [e]
      have k1 := abs_sub ((N - t * D - (s' - s) * E) + (s' - s) * E) (t * (D' - D))
      have k2 := abs_add_le (N - t * D - (s' - s) * E) ((s' - s) * E)
      have k3 : |t * (D' - D)| ≤ 1 * (1920 * ulp * R ^ 2) := by
        rw [abs_mul, abs_of_nonneg t0]; exact mul_le_mul t1 hD (abs_nonneg _) (by norm_num)
      linarith
    have hqt : ν * |N / D' - t| ≤ 11 / 10 ^ 5 := by
      have e : N / D' - t = (N - t * D') / D' := by field_simp
      rw [e, abs_div, abs_of_pos D'0, mul_div_assoc', div_le_iff₀ D'0]
      have k1 := mul_le_mul_of_nonneg_left hdt ν0
      have k2 : ν * (|s' - s| * |E|) ≤ 347 / 100 * (1 / 2 ^ 15) * D := by
        have h1 : ν * (|s' - s| * |E|) ≤ ν * (|s' - s| * (347 / 100 * R * ν)) :=
          mul_le_mul_of_nonneg_left (mul_le_mul_of_nonneg_left (hEν.trans (mul_le_mul_of_nonneg_right hα ν0)) (abs_nonneg _)) ν0
        have e : ν * (|s' - s| * (347 / 100 * R * ν)) = 347 / 100 * (R * |s' - s|) * D := by rw [← hν]; ring
        rw [e] at h1
        have h2 := mul_le_mul_of_nonneg_right hsR D0.le
        linarith
      have k3 : ν * (6020 * ulp * R ^ 2) ≤ 2 / 10 ^ 6 * D := by
        -- ν ≤ 1000 (3.47 R ν) ν = 3470 R D
        have h1 : ν ≤ 3470 * R * D := by
          have := mul_le_mul_of_nonneg_left hνl ν0
          have e : ν * (347 / 100 * R * ν) = 347 / 100 * R * D := by rw [← hν]; ring
          rw [e] at this
          linarith
        have h2 := mul_le_mul_of_nonneg_right h1 (show 0 ≤ 6020 * ulp * R ^ 2 by positivity)
        have e : 3470 * R * D * (6020 * ulp * R ^ 2) = 20889400 * ulp * R ^ 3 * D := by ring
        rw [e] at h2
        refine h2.trans (mul_le_mul_of_nonneg_right ?_ D0.le)
        have : 20889400 * ulp * R ^ 3 ≤ 20889400 * ulp * 512 := mul_le_mul_of_nonneg_left b3 (by positivity)
        refine this.trans ?_
        rw [eu]; norm_num
      have := hD'.1
      linarith
    have l3 := fl_err' F hq
    have h6 : |N / D'| ≤ |N / D' - t| + 1 := by
      have := abs_add_le (N / D' - t) t
      rw [sub_add_cancel, abs_of_nonneg t0] at this
      linarith
    have us : ulp ≤ 1 / 10 ^ 10 := ulp_small.1.trans (by norm_num)
    have h9 : ulp * |N / D'| ≤ 1 / 1000 * |N / D' - t| + ulp := by
      have h8 : ulp * |N / D'| ≤ ulp * (|N / D' - t| + 1) := mul_le_mul_of_nonneg_left h6 up.le
      have : ulp * |N / D' - t| ≤ 1 / 1000 * |N / D' - t| := mul_le_mul_of_nonneg_right (by linarith) (abs_nonneg _)
      linarith
    have h10 : |F.fl (N / D') - t| ≤ 1001 / 1000 * |N / D' - t| + 2 * ulp := by
      have := abs_sub_le (F.fl (N / D')) (N / D') t
      linarith
    have νb : ν ≤ 28 := by
      have : ν ^ 2 ≤ 28 ^ 2 := by
        rw [pow_two, hν]; linarith
      exact le_of_sq_le_sq this (by norm_num)
    have h11 := mul_le_mul_of_nonneg_left h10 ν0
    have e : ν * (1001 / 1000 * |N / D' - t| + 2 * ulp) = 1001 / 1000 * (ν * |N / D' - t|) + 2 * (ν * ulp) := by ring
    have h12 : ν * ulp ≤ 28 * (1 / 10 ^ 10) := mul_le_mul νb us up.le (by norm_num)
    linarith

end
end PyQC
