import Verif.Lemmas.Complete
/-!
# Pairs of tetrahedra on a coarse grid are resolved
-/
namespace PyQC
open Matrix

/-- Triple product of integer vectors. -/
def tripZ (p q r : Fin 3 → ℤ) : ℤ :=
  (p 1 * q 2 - p 2 * q 1) * r 0 + (p 2 * q 0 - p 0 * q 2) * r 1 + (p 0 * q 1 - p 1 * q 0) * r 2

theorem trip_int {u v w : Fin 3 → ℝ} {p q r : Fin 3 → ℤ} {α β γ : ℝ} (hu : ∀ j, u j = p j / α) (hv : ∀ j, v j = q j / β)
    (hw : ∀ j, w j = r j / γ) : (u ⨯₃ v) ⬝ᵥ w = (tripZ p q r : ℝ) / (α * β * γ) := by
  simp only [cross_apply, vec3_dotProduct, cons_val_zero, cons_val_one, cons_val, hu, hv, hw, tripZ]
  push_cast
  simp only [div_eq_mul_inv, mul_inv]
  ring

/-- A quotient of integers with small denominator that is at least -10⁻⁶ is not negative. -/
theorem quot_nonneg {a b : ℤ} (hb : |b| < 10 ^ 6) (h : -(1 / 10 ^ 6) ≤ (a : ℝ) / b) : 0 ≤ (a : ℝ) / b := by
  by_contra hneg
  push Not at hneg
  have ha : a ≠ 0 := by rintro rfl; simp at hneg
  have hb0 : b ≠ 0 := by rintro rfl; simp at hneg
  have h1 : (1 : ℝ) ≤ |(a : ℝ)| := by exact_mod_cast Int.one_le_abs ha
  have h2 : |(b : ℝ)| < 10 ^ 6 := by exact_mod_cast hb
  have h3 : 0 < |(b : ℝ)| := abs_pos.2 (by exact_mod_cast hb0)
  have h4 : |(a : ℝ) / b| ≤ 1 / 10 ^ 6 := by rw [abs_of_neg hneg]; linarith
  rw [abs_div, div_le_iff₀ h3] at h4
  linarith

/-- A non-zero quotient of an integer is not smaller than the inverse denominator. -/
theorem quot_large {a : ℤ} {m B : ℝ} (hm : 0 < |m|) (hB : |m| ≤ B) (h : (a : ℝ) / m ≠ 0) : 1 / B ≤ |(a : ℝ) / m| := by
  have ha : a ≠ 0 := by rintro rfl; simp at h
  have h1 : (1 : ℝ) ≤ |(a : ℝ)| := by exact_mod_cast Int.one_le_abs ha
  rw [abs_div, div_le_div_iff₀ (by linarith) hm]
  nlinarith

/-- Determinant of four integer points. -/
def detZ (a : Fin 4 → Fin 3 → ℤ) : ℤ := tripZ (fun j => a 1 j - a 0 j) (fun j => a 2 j - a 0 j) (fun j => a 3 j - a 0 j)

/-- Determinant of an edge of `a` and two sides of a face of `b`, in grid units. -/
def edgeFaceZ (a b : Fin 4 → Fin 3 → ℤ) (i j k l m : Fin 4) : ℤ :=
  tripZ (fun c => a j c - a i c) (fun c => b m c - b k c) (fun c => b l c - b k c)

variable {S T : Fin 4 → Fin 3 → ℝ} {a b : Fin 4 → Fin 3 → ℤ} {n : ℕ}

theorem det4_int (hS : ∀ i j, S i j = a i j / n) : det4 S = (detZ a : ℝ) / n ^ 3 := by
  have : det4 S = ((S 1 - S 0) ⨯₃ (S 2 - S 0)) ⬝ᵥ (S 3 - S 0) := by
    rw [det4_eq]
    simp only [cross_apply, vec3_dotProduct, Pi.sub_apply, cons_val_zero, cons_val_one, cons_val]
    ring
  have hd : ∀ i k j, (S i - S k) j = ((fun j => a i j - a k j : Fin 3 → ℤ) j : ℝ) / n := by
    intro i k j
    rw [Pi.sub_apply, hS, hS]
    push_cast
    ring
  rw [this, trip_int (hd 1 0) (hd 2 0) (hd 3 0), detZ]
  ring

theorem accept_int (hn : 0 < n) (hS : ∀ i j, S i j = a i j / n) (hT : ∀ i j, T i j = b i j / n)
    (hb0 : detZ b ≠ 0) (hb : |detZ b| < 10 ^ 6) (i : Fin 4) (h : Accepts T (S i)) : S i ∈ solid T := by
  obtain ⟨-, w, hw, hs⟩ := h
  rw [mem_solid_iff]
  refine ⟨w, hw, fun k => ?_⟩
  have hn' : (n : ℝ) ≠ 0 := by exact_mod_cast hn.ne'
  have hdet : det4 T ≠ 0 := by
    rw [det4_int hT]
    exact div_ne_zero (by exact_mod_cast hb0) (pow_ne_zero _ hn')
  have hq : w k = (detZ (fun l => if l = k then a i else b l) : ℝ) / detZ b := by
    have h1 := congrFun (bary_unique hdet hw (exists_bary hdet (S i))) k
    rw [h1, det4_int hT, det4_int (S := Ico.smallTetrahedron k (S i) T) (a := fun l => if l = k then a i else b l) (n := n)]
    · have : (detZ b : ℝ) ≠ 0 := by exact_mod_cast hb0
      field_simp
    · intro l j
      unfold Ico.smallTetrahedron
      by_cases hl : l = k
      · rw [if_pos hl, if_pos hl]; exact hS i j
      · rw [if_neg hl, if_neg hl]; exact hT l j
  have h2 := neg_part_lt hw.1 hs k
  rw [hq] at h2 ⊢
  exact quot_nonneg hb (by linarith)

theorem edgeFace_int (hn : 0 < n) (hS : ∀ i j, S i j = a i j / n) (hT : ∀ i j, T i j = b i j / n) (i j k l m : Fin 4) :
    Matrix.det (Matrix.of ![S j - S i, T m - T k, T l - T k]) = (edgeFaceZ a b i j k l m : ℝ) / n ^ 3 ∧
    (edgeFaceZ a b i j k l m ≠ 0 → ∃ zt zu zv : ℤ, ∀ t u v, Meets (S i) (S j) (T k) (T l) (T m) t u v →
      t = (zt : ℝ) / edgeFaceZ a b i j k l m ∧ u = (zu : ℝ) / edgeFaceZ a b i j k l m ∧
      v = (zv : ℝ) / edgeFaceZ a b i j k l m) := by
  have hn' : (n : ℝ) ≠ 0 := by exact_mod_cast hn.ne'
  have dS : ∀ i k c, (S i - S k) c = ((fun c => a i c - a k c : Fin 3 → ℤ) c : ℝ) / n := by
    intro i k j; rw [Pi.sub_apply, hS, hS]; push_cast; ring
  have dT : ∀ i k c, (T i - T k) c = ((fun c => b i c - b k c : Fin 3 → ℤ) c : ℝ) / n := by
    intro i k j; rw [Pi.sub_apply, hT, hT]; push_cast; ring
  have dST : ∀ i k c, (S i - T k) c = ((fun c => a i c - b k c : Fin 3 → ℤ) c : ℝ) / n := by
    intro i k j; rw [Pi.sub_apply, hS, hT]; push_cast; ring
  have hdet : ((S j - S i) ⨯₃ (T m - T k)) ⬝ᵥ (T l - T k) = (edgeFaceZ a b i j k l m : ℝ) / n ^ 3 := by
    rw [trip_int (dS j i) (dT m k) (dT l k)]
    unfold edgeFaceZ
    ring
  refine ⟨by rw [← bunbo_det, hdet], fun h0 => ?_⟩
  refine ⟨tripZ (fun c => a i c - b k c) (fun c => b l c - b k c) (fun c => b m c - b k c),
    tripZ (fun c => a j c - a i c) (fun c => b m c - b k c) (fun c => a i c - b k c),
    tripZ (fun c => a i c - b k c) (fun c => b l c - b k c) (fun c => a j c - a i c), fun t u v hm => ?_⟩
  have h0' : (edgeFaceZ a b i j k l m : ℝ) ≠ 0 := by exact_mod_cast h0
  have hb : ((S j - S i) ⨯₃ (T m - T k)) ⬝ᵥ (T l - T k) ≠ 0 := by rw [hdet]; exact div_ne_zero h0' (pow_ne_zero _ hn')
  obtain ⟨e1, e2, e3⟩ := (moller hb t u v).1 hm
  rw [hdet] at e1 e2 e3
  rw [trip_int (dS j i) (dT m k) (dST i k)] at e1
  rw [trip_int (dST i k) (dT l k) (dS j i)] at e2
  rw [trip_int (dST i k) (dT l k) (dT m k)] at e3
  refine ⟨?_, ?_, ?_⟩
  · rw [e3]; field_simp
  · rw [e1]; field_simp
  · rw [e2]; field_simp

theorem clear_int (hn : 0 < n) (hn2 : n ^ 3 ≤ 10 ^ 6) (hS : ∀ i j, S i j = a i j / n) (hT : ∀ i j, T i j = b i j / n)
    (hb0 : detZ b ≠ 0) (hb : |detZ b| < 10 ^ 6)
    (hD : ∀ i j k l m : Fin 4, i < j → k < l → l < m → |edgeFaceZ a b i j k l m| < 10 ^ 6) : Clear S T := by
  have hn' : (n : ℝ) ≠ 0 := by exact_mod_cast hn.ne'
  refine ⟨fun i h => accept_int hn hS hT hb0 hb i h, ?_, ?_⟩
  · intro i j k l m _ _ _ hd
    rw [(edgeFace_int hn hS hT i j k l m).1] at hd ⊢
    exact quot_large (abs_pos.2 (pow_ne_zero _ hn')) (by rw [abs_of_nonneg (by positivity)]; exact_mod_cast hn2) hd
  · intro i j k l m hij hkl hlm ⟨hd, t, u, v, hm, t1, t2, u1, _, v1, uv⟩
    obtain ⟨e, hq⟩ := edgeFace_int hn hS hT i j k l m
    have h0 : edgeFaceZ a b i j k l m ≠ 0 := by
      intro h0
      rw [e, h0] at hd
      norm_num at hd
    have h0' : (edgeFaceZ a b i j k l m : ℝ) ≠ 0 := by exact_mod_cast h0
    obtain ⟨zt, zu, zv, hz⟩ := hq h0
    obtain ⟨et, eu, ev⟩ := hz t u v hm
    have hs := hD i j k l m hij hkl hlm
    refine ⟨t, u, v, hm, ?_, ?_, ?_, ?_, ?_⟩
    · rw [et] at t1 ⊢; exact quot_nonneg hs t1
    · have h1 : 1 - t = ((edgeFaceZ a b i j k l m - zt : ℤ) : ℝ) / edgeFaceZ a b i j k l m := by
        rw [et]; push_cast; field_simp
      have := quot_nonneg hs (a := edgeFaceZ a b i j k l m - zt) (by rw [← h1]; linarith)
      rw [← h1] at this
      linarith
    · rw [eu] at u1 ⊢; exact quot_nonneg hs u1
    · rw [ev] at v1 ⊢; exact quot_nonneg hs v1
    · have h1 : 1 - u - v = ((edgeFaceZ a b i j k l m - zu - zv : ℤ) : ℝ) / edgeFaceZ a b i j k l m := by
        rw [eu, ev]; push_cast; field_simp
      have := quot_nonneg hs (a := edgeFaceZ a b i j k l m - zu - zv) (by rw [← h1]; linarith)
      rw [← h1] at this
      linarith

theorem edgeFace_quot (hn : 0 < n) (hS : ∀ i j, S i j = a i j / n) (hT : ∀ i j, T i j = b i j / n) {D : ℕ}
    (hD : ∀ i j k l m : Fin 4, i < j → k < l → l < m → |edgeFaceZ a b i j k l m| ≤ D) {x : Fin 3 → ℝ} (h : EdgeFace S T x) :
    ∃ (q : ℤ) (p : Fin 3 → ℤ), q ≠ 0 ∧ |q| ≤ D ∧ ∀ c, x c = (p c : ℝ) / (n * q) := by
  obtain ⟨i, j, k, l, m, hij, hkl, hlm, hd, t, u, v, hm, hx, -⟩ := h
  have hn' : (n : ℝ) ≠ 0 := by exact_mod_cast hn.ne'
  obtain ⟨e, hq⟩ := edgeFace_int hn hS hT i j k l m
  have h0 : edgeFaceZ a b i j k l m ≠ 0 := by
    intro h0
    rw [e, h0] at hd
    norm_num at hd
  have h0' : (edgeFaceZ a b i j k l m : ℝ) ≠ 0 := by exact_mod_cast h0
  obtain ⟨zt, zu, zv, hz⟩ := hq h0
  obtain ⟨et, -⟩ := hz t u v hm
  refine ⟨edgeFaceZ a b i j k l m, fun c => a i c * edgeFaceZ a b i j k l m + zt * (a j c - a i c), h0, hD i j k l m hij hkl hlm, ?_⟩
  intro c
  rw [hx]
  simp only [Pi.add_apply, Pi.smul_apply, Pi.sub_apply, smul_eq_mul, hS, et]
  push_cast
  field_simp

theorem candidate_quot (hn : 0 < n) (hS : ∀ i j, S i j = a i j / n) (hT : ∀ i j, T i j = b i j / n) {D : ℕ} (hD1 : 1 ≤ D)
    (hD : ∀ i j k l m : Fin 4, i < j → k < l → l < m → |edgeFaceZ a b i j k l m| ≤ D)
    (hD' : ∀ i j k l m : Fin 4, i < j → k < l → l < m → |edgeFaceZ b a i j k l m| ≤ D)
    {x : Fin 3 → ℝ} (h : Candidate S T x) :
    ∃ (q : ℤ) (p : Fin 3 → ℤ), q ≠ 0 ∧ |q| ≤ D ∧ ∀ c, x c = (p c : ℝ) / (n * q) := by
  rcases h with ⟨i, rfl⟩ | ⟨i, rfl⟩ | h | h
  · exact ⟨1, a i, one_ne_zero, by rw [abs_one]; exact_mod_cast hD1, fun c => by rw [hS]; simp⟩
  · exact ⟨1, b i, one_ne_zero, by rw [abs_one]; exact_mod_cast hD1, fun c => by rw [hT]; simp⟩
  · exact edgeFace_quot hn hS hT hD h
  · exact edgeFace_quot hn hT hS hD' h

/-- Two tetrahedra with corners on the grid of spacing `1/n` are resolved when the determinants of an edge of one with
two sides of a face of the other are at most `D` grid units, and `n` and `D` are moderate. -/
theorem resolved_int (hn : 0 < n) (hn2 : n ^ 3 ≤ 10 ^ 6) (hS : ∀ i j, S i j = a i j / n) (hT : ∀ i j, T i j = b i j / n)
    (ha0 : detZ a ≠ 0) (hb0 : detZ b ≠ 0) (ha : |detZ a| < 10 ^ 6) (hb : |detZ b| < 10 ^ 6) {D : ℕ} (hD1 : 1 ≤ D)
    (hD2 : n ^ 3 * D ^ 6 ≤ 10 ^ 10)
    (hD : ∀ i j k l m : Fin 4, i < j → k < l → l < m → |edgeFaceZ a b i j k l m| ≤ D)
    (hD' : ∀ i j k l m : Fin 4, i < j → k < l → l < m → |edgeFaceZ b a i j k l m| ≤ D) : Resolved S T := by
  have hn' : (n : ℝ) ≠ 0 := by exact_mod_cast hn.ne'
  have hDs : (D : ℤ) < 10 ^ 6 := by
    by_contra hge
    push Not at hge
    have h1 : 10 ^ 6 ≤ D := by exact_mod_cast hge
    have h2 : 10 ^ 36 ≤ D ^ 6 := by
      calc 10 ^ 36 = (10 ^ 6) ^ 6 := by norm_num
        _ ≤ D ^ 6 := Nat.pow_le_pow_left h1 6
    have h3 : D ^ 6 ≤ n ^ 3 * D ^ 6 := Nat.le_mul_of_pos_left _ (by positivity)
    have : (10 : ℕ) ^ 36 ≤ 10 ^ 10 := h2.trans (h3.trans hD2)
    norm_num at this
  have hv : ∀ {S : Fin 4 → Fin 3 → ℝ} {a : Fin 4 → Fin 3 → ℤ}, (∀ i j, S i j = a i j / n) → detZ a ≠ 0 → tetVol S ≠ 0 := by
    intro S a hS h0
    refine det4_ne_iff.1 ?_
    rw [det4_int hS]
    exact div_ne_zero (by exact_mod_cast h0) (pow_ne_zero _ hn')
  refine ⟨hv hS ha0, hv hT hb0, clear_int hn hn2 hS hT hb0 hb fun i j k l m h1 h2 h3 => (hD i j k l m h1 h2 h3).trans_lt hDs,
    clear_int hn hn2 hT hS ha0 ha fun i j k l m h1 h2 h3 => (hD' i j k l m h1 h2 h3).trans_lt hDs, ?_⟩
  intro x y z w hx hy hz hw hsmall
  obtain ⟨qx, px, x0, xD, ex⟩ := candidate_quot hn hS hT hD1 hD hD' hx
  obtain ⟨qy, py, y0, yD, ey⟩ := candidate_quot hn hS hT hD1 hD hD' hy
  obtain ⟨qz, pz, z0, zD, ez⟩ := candidate_quot hn hS hT hD1 hD hD' hz
  obtain ⟨qw, pw, w0, wD, ew⟩ := candidate_quot hn hS hT hD1 hD hD' hw
  have x0' : (qx : ℝ) ≠ 0 := by exact_mod_cast x0
  have dif : ∀ {y : Fin 3 → ℝ} {q : ℤ} {p : Fin 3 → ℤ}, q ≠ 0 → (∀ c, y c = (p c : ℝ) / (n * q)) →
      ∀ c, (y - x) c = ((fun c => p c * qx - px c * q : Fin 3 → ℤ) c : ℝ) / (n * qx * q) := by
    intro y q p hq hy c
    have hq' : (q : ℝ) ≠ 0 := by exact_mod_cast hq
    rw [Pi.sub_apply, hy, ex]
    push_cast
    field_simp
  have e := trip_int (dif y0 ey) (dif z0 ez) (dif w0 ew)
  by_contra hne
  rw [e] at hsmall hne
  have hm : (n * qx * qy * (n * qx * qz) * (n * qx * qw) : ℝ) = ((n : ℤ) ^ 3 * (qx ^ 3 * qy * qz * qw) : ℤ) := by
    push_cast; ring
  have hle : |((n : ℤ) ^ 3 * (qx ^ 3 * qy * qz * qw))| ≤ 10 ^ 10 := by
    rw [abs_mul, abs_mul, abs_mul, abs_mul, abs_pow, abs_pow, Nat.abs_cast]
    calc (n : ℤ) ^ 3 * (|qx| ^ 3 * |qy| * |qz| * |qw|) ≤ (n : ℤ) ^ 3 * ((D : ℤ) ^ 3 * D * D * D) := by gcongr
      _ = ((n ^ 3 * D ^ 6 : ℕ) : ℤ) := by push_cast; ring
      _ ≤ 10 ^ 10 := by exact_mod_cast hD2
  rw [hm] at hsmall hne
  have := quot_large (B := 10 ^ 10) (abs_pos.2 (by
    push_cast
    have y0' : (qy : ℝ) ≠ 0 := by exact_mod_cast y0
    have z0' : (qz : ℝ) ≠ 0 := by exact_mod_cast z0
    have w0' : (qw : ℝ) ≠ 0 := by exact_mod_cast w0
    positivity)) (by exact_mod_cast hle) hne
  linarith

end PyQC
