import Verif.Spec.Rounding
import Verif.Lemmas.Grid
/-!
# Pairs of tetrahedra on a coarse grid are resolved in spite of rounding
-/
namespace PyQC
open Matrix

variable {S T : Fin 4 → Fin 3 → ℝ} {a b : Fin 4 → Fin 3 → ℤ} {n : ℕ} {m : ℝ}

/-- An integer is not close to 10⁻⁶ times a non-zero integer smaller than 10⁶. -/
theorem int_apart {z e : ℤ} (h0 : e ≠ 0) (he : |e| < 10 ^ 6) : (1 : ℝ) / 10 ^ 6 ≤ |(z : ℝ) - 1 / 10 ^ 6 * e| := by
  have e0 : (1 : ℝ) ≤ |(e : ℝ)| := by exact_mod_cast Int.one_le_abs h0
  have e1 : |(e : ℝ)| ≤ 10 ^ 6 - 1 := by
    have : |e| ≤ 10 ^ 6 - 1 := by omega
    exact_mod_cast this
  by_cases hz : z = 0
  · rw [hz, Int.cast_zero, zero_sub, abs_neg, abs_mul, abs_of_nonneg (by norm_num : (0 : ℝ) ≤ 1 / 10 ^ 6)]
    linarith
  · have z0 : (1 : ℝ) ≤ |(z : ℝ)| := by exact_mod_cast Int.one_le_abs hz
    have := abs_sub_abs_le_abs_sub (z : ℝ) (1 / 10 ^ 6 * e)
    rw [abs_mul, abs_of_nonneg (by norm_num : (0 : ℝ) ≤ 1 / 10 ^ 6)] at this
    linarith

theorem int_apart' {z e : ℤ} (h0 : e ≠ 0) (he : |e| < 10 ^ 6) : (1 : ℝ) / 10 ^ 6 ≤ |(z : ℝ) + 1 / 10 ^ 6 * e| := by
  have := int_apart (z := z) (e := -e) (neg_ne_zero.2 h0) (by rwa [abs_neg])
  rwa [Int.cast_neg, mul_neg, sub_neg_eq_add] at this

theorem insideApart_int (hn : 0 < n) (hS : ∀ i j, S i j = a i j / n) (hT : ∀ i j, T i j = b i j / n)
    (hb0 : detZ b ≠ 0) (hb : |detZ b| < 10 ^ 6) (hm : m * (6 * n ^ 3 * 10 ^ 6) < 1) (i : Fin 4) : InsideApart m T (S i) := by
  have hn' : (n : ℝ) ≠ 0 := by exact_mod_cast hn.ne'
  have hn0 : (0 : ℝ) < n := by exact_mod_cast hn
  have hb1 : (detZ b : ℝ) ≠ 0 := by exact_mod_cast hb0
  have hdet : det4 T ≠ 0 := by
    rw [det4_int hT]
    exact div_ne_zero hb1 (pow_ne_zero _ hn')
  refine ⟨_, exists_bary hdet (S i), ?_⟩
  have hq : ∀ k, det4 (Ico.smallTetrahedron k (S i) T) = (detZ (fun l => if l = k then a i else b l) : ℝ) / n ^ 3 := by
    intro k
    refine det4_int (S := Ico.smallTetrahedron k (S i) T) (a := fun l => if l = k then a i else b l) (n := n) ?_
    intro l j
    unfold Ico.smallTetrahedron
    by_cases hl : l = k
    · rw [if_pos hl, if_pos hl]; exact hS i j
    · rw [if_neg hl, if_neg hl]; exact hT l j
  have hv : tetVol T = |(detZ b : ℝ)| / (6 * n ^ 3) := by
    have : tetVol T = |det4 T| / 6 := by
      rw [tetVol_det4]
    rw [this, det4_int hT, abs_div, abs_of_pos (by positivity : (0 : ℝ) < (n : ℝ) ^ 3)]
    field_simp
  have hsum : ∑ k, |det4 (Ico.smallTetrahedron k (S i) T) / det4 T| =
      (((∑ k, |detZ (fun l => if l = k then a i else b l)| : ℤ) : ℝ)) / |(detZ b : ℝ)| := by
    push_cast
    rw [div_eq_mul_inv, Finset.sum_mul]
    refine Finset.sum_congr rfl fun k _ => ?_
    rw [← div_eq_mul_inv, hq, det4_int hT, div_div_div_cancel_right₀ (pow_ne_zero _ hn'), abs_div]
  rw [hsum, hv]
  set K : ℤ := ∑ k, |detZ (fun l => if l = k then a i else b l)|
  have hp : 0 < |(detZ b : ℝ)| := abs_pos.2 hb1
  have e : |(detZ b : ℝ)| / (6 * n ^ 3) * |(K : ℝ) / |(detZ b : ℝ)| - 1 - 1 / 10 ^ 6| =
      |((K - |detZ b| : ℤ) : ℝ) - 1 / 10 ^ 6 * ((|detZ b| : ℤ) : ℝ)| / (6 * n ^ 3) := by
    have : ((K - |detZ b| : ℤ) : ℝ) - 1 / 10 ^ 6 * ((|detZ b| : ℤ) : ℝ) = |(detZ b : ℝ)| * ((K : ℝ) / |(detZ b : ℝ)| - 1 - 1 / 10 ^ 6) := by
      push_cast
      field_simp
    rw [this, abs_mul, abs_abs]
    ring
  rw [e, lt_div_iff₀ (by positivity)]
  have := int_apart (z := K - |detZ b|) (e := |detZ b|) (abs_ne_zero.2 hb0) (by rwa [abs_abs])
  linarith

theorem segmentApart_int (hn : 0 < n) (hn2 : 2 * n ^ 3 ≤ 10 ^ 6) (hS : ∀ i j, S i j = a i j / n) (hT : ∀ i j, T i j = b i j / n)
    (i j k l q : Fin 4) (hD : |edgeFaceZ a b i j k l q| < 10 ^ 6) (hm : m * (6 * n ^ 3 * 10 ^ 6) < 1) :
    SegmentApart m (S i) (S j) (T k) (T l) (T q) := by
  have hn' : (n : ℝ) ≠ 0 := by exact_mod_cast hn.ne'
  have hn0 : (0 : ℝ) < n := by exact_mod_cast hn
  have hn1 : (1 : ℝ) ≤ (n : ℝ) ^ 3 := one_le_pow₀ (by exact_mod_cast hn)
  have hn2' : 2 * (n : ℝ) ^ 3 ≤ 10 ^ 6 := by exact_mod_cast hn2
  have hm' : m < 1 / (6 * n ^ 3 * 10 ^ 6) := by rwa [lt_div_iff₀ (by positivity)]
  have hm6 : m < 1 / 10 ^ 6 := hm'.trans_le (one_div_le_one_div_of_le (by norm_num) (by linarith))
  have hm3 : m * (n : ℝ) ^ 3 < 1 / 10 ^ 6 := by
    have : m * (n : ℝ) ^ 3 * (6 * 10 ^ 6) < 1 := by linarith
    linarith
  obtain ⟨e, hq⟩ := edgeFace_int hn hS hT i j k l q
  constructor
  · rw [e, abs_div, abs_of_pos (by positivity : (0 : ℝ) < (n : ℝ) ^ 3)]
    by_cases h0 : edgeFaceZ a b i j k l q = 0
    · rw [h0, Int.cast_zero, abs_zero, zero_div, zero_sub, abs_neg, abs_of_nonneg (by norm_num)]
      exact hm6
    · have h1 : (1 : ℝ) ≤ |(edgeFaceZ a b i j k l q : ℝ)| := by exact_mod_cast Int.one_le_abs h0
      have h2 : 2 / 10 ^ 6 ≤ |(edgeFaceZ a b i j k l q : ℝ)| / n ^ 3 := by
        rw [le_div_iff₀ (by positivity)]
        linarith
      rw [abs_of_nonneg (by linarith)]
      linarith
  · intro t u v hM hd x hx
    have h0 : edgeFaceZ a b i j k l q ≠ 0 := by
      intro h0
      rw [e, h0] at hd
      norm_num at hd
    have h0' : (edgeFaceZ a b i j k l q : ℝ) ≠ 0 := by exact_mod_cast h0
    obtain ⟨zt, zu, zv, hz⟩ := hq h0
    obtain ⟨et, eu, ev⟩ := hz t u v hM
    rw [e, abs_div, abs_of_pos (by positivity : (0 : ℝ) < (n : ℝ) ^ 3), div_mul_eq_mul_div, ← abs_mul,
      lt_div_iff₀ (by positivity)]
    refine hm3.trans_le ?_
    simp only [List.mem_cons, List.not_mem_nil, or_false] at hx
    have key : ∀ (c : ℝ) (z : ℤ), (edgeFaceZ a b i j k l q : ℝ) * c = z + 1 / 10 ^ 6 * edgeFaceZ a b i j k l q ∨
        (edgeFaceZ a b i j k l q : ℝ) * c = z - 1 / 10 ^ 6 * edgeFaceZ a b i j k l q →
        1 / 10 ^ 6 ≤ |(edgeFaceZ a b i j k l q : ℝ) * c| := by
      rintro c z (h | h) <;> rw [h]
      · exact int_apart' h0 hD
      · exact int_apart h0 hD
    rcases hx with rfl | rfl | rfl | rfl | rfl | rfl
    · exact key _ zu (.inl (by rw [eu]; field_simp))
    · exact key _ (zu - edgeFaceZ a b i j k l q) (.inr (by rw [eu]; push_cast; field_simp; ring))
    · exact key _ zv (.inl (by rw [ev]; field_simp))
    · exact key _ (zu + zv - edgeFaceZ a b i j k l q) (.inr (by rw [eu, ev]; push_cast; field_simp; ring))
    · exact key _ zt (.inl (by rw [et]; field_simp))
    · exact key _ (zt - edgeFaceZ a b i j k l q) (.inr (by rw [et]; push_cast; field_simp; ring))

theorem flat_int (hn : 0 < n) (hS : ∀ i j, S i j = a i j / n) (hT : ∀ i j, T i j = b i j / n) {D : ℕ} (hD1 : 1 ≤ D)
    {δ : ℝ} (hD2 : (n : ℝ) ^ 3 * D ^ 6 * δ ≤ 1)
    (hD : ∀ i j k l m : Fin 4, i < j → k < l → l < m → |edgeFaceZ a b i j k l m| ≤ D)
    (hD' : ∀ i j k l m : Fin 4, i < j → k < l → l < m → |edgeFaceZ b a i j k l m| ≤ D) {x y z w : Fin 3 → ℝ}
    (hx : Candidate S T x) (hy : Candidate S T y) (hz : Candidate S T z) (hw : Candidate S T w)
    (hsmall : |crossProduct (y - x) (z - x) ⬝ᵥ (w - x)| < δ) : crossProduct (y - x) (z - x) ⬝ᵥ (w - x) = 0 := by
  have hn' : (n : ℝ) ≠ 0 := by exact_mod_cast hn.ne'
  have hnp : (0 : ℝ) < n := by exact_mod_cast hn
  have hDp : (0 : ℝ) < D := by exact_mod_cast hD1
  obtain ⟨qx, px, x0, xD, ex⟩ := candidate_quot hn hS hT hD1 hD hD' hx
  obtain ⟨qy, py, y0, yD, ey⟩ := candidate_quot hn hS hT hD1 hD hD' hy
  obtain ⟨qz, pz, z0, zD, ez⟩ := candidate_quot hn hS hT hD1 hD hD' hz
  obtain ⟨qw, pw, w0, wD, ew⟩ := candidate_quot hn hS hT hD1 hD hD' hw
  have x0' : (qx : ℝ) ≠ 0 := by exact_mod_cast x0
  have dif : ∀ {y : Fin 3 → ℝ} {q : ℤ} {p : Fin 3 → ℤ}, q ≠ 0 → (∀ c, y c = (p c : ℝ) / (n * q)) →
      ∀ c, (y - x) c = ((fun c => p c * qx - px c * q : Fin 3 → ℤ) c : ℝ) / (n * qx * q) := by
    intro y q p hq hy c
    have hq' : (q : ℝ) ≠ 0 := by exact_mod_cast hq
    rw [Pi.sub_apply, hy, ex]
    push_cast
    field_simp
  have e := trip_int (dif y0 ey) (dif z0 ez) (dif w0 ew)
  by_contra hne
  rw [e] at hsmall hne
  have hm : (n * qx * qy * (n * qx * qz) * (n * qx * qw) : ℝ) = ((n : ℤ) ^ 3 * (qx ^ 3 * qy * qz * qw) : ℤ) := by
    push_cast; ring
  have hle : |((n : ℤ) ^ 3 * (qx ^ 3 * qy * qz * qw))| ≤ ((n ^ 3 * D ^ 6 : ℕ) : ℤ) := by
    rw [abs_mul, abs_mul, abs_mul, abs_mul, abs_pow, abs_pow, Nat.abs_cast]
    calc (n : ℤ) ^ 3 * (|qx| ^ 3 * |qy| * |qz| * |qw|) ≤ (n : ℤ) ^ 3 * ((D : ℤ) ^ 3 * D * D * D) := by gcongr
      _ = ((n ^ 3 * D ^ 6 : ℕ) : ℤ) := by push_cast; ring
  rw [hm] at hsmall hne
  have := quot_large (B := (n : ℝ) ^ 3 * D ^ 6) (abs_pos.2 (by
    push_cast
    have y0' : (qy : ℝ) ≠ 0 := by exact_mod_cast y0
    have z0' : (qz : ℝ) ≠ 0 := by exact_mod_cast z0
    have w0' : (qw : ℝ) ≠ 0 := by exact_mod_cast w0
    positivity)) (by exact_mod_cast hle) hne
  have h1 : (1 : ℝ) / ((n : ℝ) ^ 3 * D ^ 6) < δ := this.trans_lt hsmall
  rw [div_lt_iff₀ (by positivity)] at h1
  linarith

/-- Two tetrahedra on the grid of spacing `1/n` with moderate determinants are resolved in spite of rounding. -/
theorem resolvedRounded_int {R : ℝ} (hn : 0 < n) (hn2 : 2 * n ^ 3 ≤ 10 ^ 6) (hS : ∀ i j, S i j = a i j / n)
    (hT : ∀ i j, T i j = b i j / n) (ha0 : detZ a ≠ 0) (hb0 : detZ b ≠ 0) (ha : |detZ a| < 10 ^ 6) (hb : |detZ b| < 10 ^ 6)
    {D : ℕ} (hD1 : 1 ≤ D) (hm : margin R * (6 * n ^ 3 * 10 ^ 6) < 1) (hm0 : 0 ≤ margin R)
    (hD2 : (n : ℝ) ^ 3 * D ^ 6 * (1 / 10 ^ 10 + margin R / 4) ≤ 1)
    (hD : ∀ i j k l m : Fin 4, i < j → k < l → l < m → |edgeFaceZ a b i j k l m| ≤ D)
    (hD' : ∀ i j k l m : Fin 4, i < j → k < l → l < m → |edgeFaceZ b a i j k l m| ≤ D) : ResolvedRounded R S T := by
  have hDc : n ^ 3 * D ^ 6 ≤ 10 ^ 10 := by
    have h1 : (n : ℝ) ^ 3 * D ^ 6 * (1 / 10 ^ 10) ≤ 1 :=
      (mul_le_mul_of_nonneg_left (by linarith) (by positivity)).trans hD2
    have h2 : (n : ℝ) ^ 3 * D ^ 6 ≤ 10 ^ 10 := by linarith
    exact_mod_cast h2
  have hDs : (D : ℤ) < 10 ^ 6 := by
    by_contra hge
    push Not at hge
    have h1 : 10 ^ 6 ≤ D := by exact_mod_cast hge
    have h2 : 10 ^ 36 ≤ D ^ 6 := by
      calc 10 ^ 36 = (10 ^ 6) ^ 6 := by norm_num
        _ ≤ D ^ 6 := Nat.pow_le_pow_left h1 6
    have h3 : D ^ 6 ≤ n ^ 3 * D ^ 6 := Nat.le_mul_of_pos_left _ (by positivity)
    have : (10 : ℕ) ^ 36 ≤ 10 ^ 10 := h2.trans (h3.trans hDc)
    norm_num at this
  refine ⟨resolved_int hn (by omega) hS hT ha0 hb0 ha hb hD1 hDc hD hD', ⟨?_, ?_⟩, ⟨?_, ?_⟩, ?_⟩
  · exact fun i => insideApart_int hn hS hT hb0 hb hm i
  · exact fun i j k l q h1 h2 h3 => segmentApart_int hn hn2 hS hT i j k l q ((hD i j k l q h1 h2 h3).trans_lt hDs) hm
  · exact fun i => insideApart_int hn hT hS ha0 ha hm i
  · exact fun i j k l q h1 h2 h3 => segmentApart_int hn hn2 hT hS i j k l q ((hD' i j k l q h1 h2 h3).trans_lt hDs) hm
  · exact fun x y z w hx hy hz hw h => flat_int hn hS hT hD1 hD2 hD hD' hx hy hz hw h

end PyQC
