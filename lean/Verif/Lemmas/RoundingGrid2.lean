import Verif.Spec.RoundingPlanar
import Verif.Lemmas.RoundingGrid
import Verif.Lemmas.PlanarTile
import Verif.Props.Planar
/-!
# Pairs of triangles on a coarse grid are resolved in spite of rounding
-/
namespace PyQC
open Matrix

theorem flat_bary_unique {z : ℝ} {q : Fin 3 → Fin 3 → ℝ} (hq : Flat z q) (h0 : triArea q ≠ 0) {w w' : Fin 3 → ℝ} {x : Fin 3 → ℝ}
    (hw : IsBary q w x) (hw' : IsBary q w' x) : w = w' := by
  have hc : crossZ q ≠ 0 := (triArea_flat_ne hq).1 h0
  obtain ⟨a1, a2⟩ := isBary_three.1 hw
  obtain ⟨b1, b2⟩ := isBary_three.1 hw'
  have x0 := a2 0
  have x1 := a2 1
  have y0 := b2 0
  have y1 := b2 1
  have e1 : (w 1 - w' 1) * crossZ q = 0 := by
    unfold crossZ
    linear_combination (q 2 1 - q 0 1) * (y0 - x0) - (q 2 0 - q 0 0) * (y1 - x1) +
      (q 2 0 * q 0 1 - q 2 1 * q 0 0) * (a1 - b1)
  have e2 : (w 2 - w' 2) * crossZ q = 0 := by
    unfold crossZ
    linear_combination -(q 1 1 - q 0 1) * (y0 - x0) + (q 1 0 - q 0 0) * (y1 - x1) +
      (q 0 0 * q 1 1 - q 0 1 * q 1 0) * (a1 - b1)
  have d1 := (mul_eq_zero.1 e1).resolve_right hc
  have d2 := (mul_eq_zero.1 e2).resolve_right hc
  funext i
  fin_cases i <;> simp <;> linarith

variable {S T : Fin 3 → Fin 3 → ℝ} {a b : Fin 3 → Fin 2 → ℤ} {n : ℕ} {m R z : ℝ}

/-- Barycentric coordinates of a grid point in a grid triangle are quotients of integers. -/
theorem bary_int (hn : 0 < n) (h0 : ∀ i, T i 0 = b i 0 / n) (h1 : ∀ i, T i 1 = b i 1 / n)
    (hb0 : triZ (b 0) (b 1) (b 2) ≠ 0) {x : Fin 3 → ℝ} {p : Fin 2 → ℤ} (x0 : x 0 = p 0 / n) (x1 : x 1 = p 1 / n)
    {w : Fin 3 → ℝ} (hw : IsBary T w x) : ∃ c : Fin 3 → ℤ, ∀ i, w i = (c i : ℝ) / triZ (b 0) (b 1) (b 2) := by
  have hn' : (n : ℝ) ≠ 0 := by exact_mod_cast hn.ne'
  have hd : (triZ (b 0) (b 1) (b 2) : ℝ) ≠ 0 := by exact_mod_cast hb0
  obtain ⟨e1, e⟩ := isBary_three.1 hw
  have e2 := e 0
  have e3 := e 1
  simp only [h0, h1, x0, x1] at e2 e3
  have f2 : (p 0 : ℝ) = w 0 * b 0 0 + w 1 * b 1 0 + w 2 * b 2 0 := by field_simp at e2; linarith
  have f3 : (p 1 : ℝ) = w 0 * b 0 1 + w 1 * b 1 1 + w 2 * b 2 1 := by field_simp at e3; linarith
  have ew : w 0 = 1 - w 1 - w 2 := by linarith
  refine ⟨![triZ p (b 1) (b 2), triZ (b 0) p (b 2), triZ (b 0) (b 1) p], fun i => ?_⟩
  rw [eq_div_iff hd]
  fin_cases i <;> simp only [triZ, Fin.zero_eta, Fin.mk_one, Fin.reduceFinMk, cons_val_zero, cons_val_one, cons_val] <;>
    push_cast <;> rw [f2, f3, ew] <;> ring

theorem insideApartTri_int (hn : 0 < n) (zT : Flat z T) (t0 : ∀ i, T i 0 = b i 0 / n) (t1 : ∀ i, T i 1 = b i 1 / n)
    (hb0 : triZ (b 0) (b 1) (b 2) ≠ 0) (hb : |triZ (b 0) (b 1) (b 2)| < 10 ^ 6) (hm : m * (2 * n ^ 2 * 10 ^ 6) < 1)
    {x : Fin 3 → ℝ} {p : Fin 2 → ℤ} (hx : x 2 = z) (x0 : x 0 = p 0 / n) (x1 : x 1 = p 1 / n) : InsideApartTri m T x := by
  have hn' : (n : ℝ) ≠ 0 := by exact_mod_cast hn.ne'
  have hn0 : (0 : ℝ) < n := by exact_mod_cast hn
  have hd : (triZ (b 0) (b 1) (b 2) : ℝ) ≠ 0 := by exact_mod_cast hb0
  have hc : crossZ T ≠ 0 := by
    rw [crossZ_int t0 t1]
    exact div_ne_zero hd (pow_ne_zero _ hn')
  obtain ⟨w, hw⟩ := flat_bary zT hc hx
  refine ⟨w, hw, ?_⟩
  obtain ⟨c, hc⟩ := bary_int hn t0 t1 hb0 x0 x1 hw
  have hv : triArea T = |(triZ (b 0) (b 1) (b 2) : ℝ)| / (2 * n ^ 2) := by
    rw [triArea_flat zT, triAreaXY_crossZ, crossZ_int t0 t1, abs_div, abs_of_pos (by positivity : (0 : ℝ) < (n : ℝ) ^ 2)]
    field_simp
  have hsum : ∑ k, |w k| = ((∑ k, |c k| : ℤ) : ℝ) / |(triZ (b 0) (b 1) (b 2) : ℝ)| := by
    push_cast
    rw [div_eq_mul_inv, Finset.sum_mul]
    refine Finset.sum_congr rfl fun k _ => ?_
    rw [hc, abs_div, div_eq_mul_inv]
  rw [hsum, hv]
  set d : ℤ := triZ (b 0) (b 1) (b 2)
  set K : ℤ := ∑ k, |c k|
  have hp : 0 < |(d : ℝ)| := abs_pos.2 hd
  have e : |(d : ℝ)| / (2 * n ^ 2) * |(K : ℝ) / |(d : ℝ)| - 1 - 1 / 10 ^ 6| =
      |((K - |d| : ℤ) : ℝ) - 1 / 10 ^ 6 * ((|d| : ℤ) : ℝ)| / (2 * n ^ 2) := by
    have : ((K - |d| : ℤ) : ℝ) - 1 / 10 ^ 6 * ((|d| : ℤ) : ℝ) = |(d : ℝ)| * ((K : ℝ) / |(d : ℝ)| - 1 - 1 / 10 ^ 6) := by
      push_cast
      field_simp
    rw [this, abs_mul, abs_abs]
    ring
  rw [e, lt_div_iff₀ (by positivity)]
  have := int_apart (z := K - |d|) (e := |d|) (abs_ne_zero.2 hb0) (by rwa [abs_abs])
  linarith

theorem crossApart_int (hn : 0 < n) (h4 : n ^ 4 * (1 / 10 ^ 6 + R ^ 5 / 2 ^ 20) ≤ 1) (h6 : n ^ 6 * (R ^ 6 / 2 ^ 30) < 1)
    {A B C D : Fin 3 → ℝ} {α β γ δ : Fin 2 → ℤ} (hA : A = ![(α 0 : ℝ) / n, α 1 / n, z]) (hB : B = ![(β 0 : ℝ) / n, β 1 / n, z])
    (hC : C = ![(γ 0 : ℝ) / n, γ 1 / n, z]) (hD : D = ![(δ 0 : ℝ) / n, δ 1 / n, z]) : CrossApart R A B C D := by
  have hn' : (n : ℝ) ≠ 0 := by exact_mod_cast hn.ne'
  have hn0 : (0 : ℝ) < n := by exact_mod_cast hn
  set c : ℤ := (β 0 - α 0) * (δ 1 - γ 1) - (β 1 - α 1) * (δ 0 - γ 0) with hcdef
  have e : crossProduct (B - A) (D - C) = ![0, 0, (c : ℝ) / n ^ 2] := by
    rw [hA, hB, hC, hD]
    funext m
    fin_cases m
    · simp [cross_apply]
    · simp [cross_apply]
    · simp [cross_apply, hcdef]
      field_simp
  have hp : parallelogram (B - A) (D - C) = |(c : ℝ)| / n ^ 2 := by
    unfold parallelogram
    rw [e]
    have : (![0, 0, (c : ℝ) / n ^ 2] : Fin 3 → ℝ) ⬝ᵥ ![0, 0, (c : ℝ) / n ^ 2] = ((c : ℝ) / n ^ 2) ^ 2 := by
      simp; ring
    rw [this, Real.sqrt_sq_eq_abs, abs_div, abs_of_pos (by positivity : (0 : ℝ) < (n : ℝ) ^ 2)]
  have hne : crossProduct (B - A) (D - C) ≠ 0 → c ≠ 0 := by
    intro h h0
    apply h
    rw [e, h0]
    funext m
    fin_cases m <;> simp
  constructor
  · intro h
    have hc0 := hne h
    have h1 : (1 : ℝ) ≤ |(c : ℝ)| := by exact_mod_cast Int.one_le_abs hc0
    rw [hp, div_pow, ← pow_mul, le_div_iff₀ (by positivity)]
    have : (1 : ℝ) ≤ |(c : ℝ)| ^ 2 := one_le_pow₀ h1
    rw [show 2 * 2 = 4 from rfl]
    linarith
  · intro h s t hst x hx
    have hc0 := hne h
    have h1 : (1 : ℝ) ≤ |(c : ℝ)| := by exact_mod_cast Int.one_le_abs hc0
    have g0 := congrFun hst 0
    have g1 := congrFun hst 1
    rw [hA, hB, hC, hD] at g0 g1
    simp at g0 g1
    have f0 : (α 0 : ℝ) + s * (β 0 - α 0) = γ 0 + t * (δ 0 - γ 0) := by field_simp at g0; linarith
    have f1 : (α 1 : ℝ) + s * (β 1 - α 1) = γ 1 + t * (δ 1 - γ 1) := by field_simp at g1; linarith
    have hs : (c : ℝ) * s = (((γ 0 - α 0) * (δ 1 - γ 1) - (γ 1 - α 1) * (δ 0 - γ 0) : ℤ) : ℝ) := by
      rw [hcdef]; push_cast
      linear_combination (δ 1 - γ 1 : ℝ) * f0 - (δ 0 - γ 0 : ℝ) * f1
    have ht : (c : ℝ) * t = (((γ 0 - α 0) * (β 1 - α 1) - (γ 1 - α 1) * (β 0 - α 0) : ℤ) : ℝ) := by
      rw [hcdef]; push_cast
      linear_combination (β 1 - α 1 : ℝ) * f0 - (β 0 - α 0 : ℝ) * f1
    have key : ∀ (x : ℝ) (k : ℤ), (c : ℝ) * x = k → x = 0 ∨ R ^ 6 / 2 ^ 30 < parallelogram (B - A) (D - C) ^ 3 * |x| := by
      intro x k hk
      by_cases hk0 : k = 0
      · left
        rw [hk0, Int.cast_zero] at hk
        exact (mul_eq_zero.1 hk).resolve_left (by exact_mod_cast hc0)
      · right
        have k1 : (1 : ℝ) ≤ |(k : ℝ)| := by exact_mod_cast Int.one_le_abs hk0
        have e3 : parallelogram (B - A) (D - C) ^ 3 * |x| = |(c : ℝ)| ^ 2 * |(k : ℝ)| / n ^ 6 := by
          rw [hp, ← hk, abs_mul]
          field_simp
        rw [e3, lt_div_iff₀ (by positivity)]
        have : (1 : ℝ) ≤ |(c : ℝ)| ^ 2 * |(k : ℝ)| := one_le_mul_of_one_le_of_one_le (one_le_pow₀ h1) k1
        linarith
    simp only [List.mem_cons, List.not_mem_nil, or_false] at hx
    rcases hx with rfl | rfl | rfl | rfl
    · exact key _ _ hs
    · exact key _ (((γ 0 - α 0) * (δ 1 - γ 1) - (γ 1 - α 1) * (δ 0 - γ 0)) - c) (by rw [mul_sub, hs, mul_one, ← Int.cast_sub])
    · exact key _ _ ht
    · exact key _ (((γ 0 - α 0) * (β 1 - α 1) - (γ 1 - α 1) * (β 0 - α 0)) - c) (by rw [mul_sub, ht, mul_one, ← Int.cast_sub])

theorem resolvedTriRounded_int (hn : 0 < n) (h4 : n ^ 4 * (1 / 10 ^ 6 + R ^ 5 / 2 ^ 20) ≤ 1)
    (h6 : n ^ 6 * (R ^ 6 / 2 ^ 30) < 1) (hm : margin2 R * (2 * n ^ 2 * 10 ^ 6) < 1)
    (hS : ∀ i, S i = ![(a i 0 : ℝ) / n, a i 1 / n, z]) (hT : ∀ i, T i = ![(b i 0 : ℝ) / n, b i 1 / n, z])
    (ha0 : triZ (a 0) (a 1) (a 2) ≠ 0) (hb0 : triZ (b 0) (b 1) (b 2) ≠ 0)
    (ha : |triZ (a 0) (a 1) (a 2)| < 10 ^ 6) (hb : |triZ (b 0) (b 1) (b 2)| < 10 ^ 6) : ResolvedTriRounded R S T := by
  have hn' : (n : ℝ) ≠ 0 := by exact_mod_cast hn.ne'
  have zS : Flat z S := fun i => congrFun (hS i) 2
  have zT : Flat z T := fun i => congrFun (hT i) 2
  have s0 : ∀ i, S i 0 = a i 0 / n := fun i => congrFun (hS i) 0
  have s1 : ∀ i, S i 1 = a i 1 / n := fun i => congrFun (hS i) 1
  have t0 : ∀ i, T i 0 = b i 0 / n := fun i => congrFun (hT i) 0
  have t1 : ∀ i, T i 1 = b i 1 / n := fun i => congrFun (hT i) 1
  refine ⟨?_, ?_, fun i h => acceptTri_int hn t0 t1 hb0 hb (s0 i) (s1 i) h,
    fun i h => acceptTri_int hn s0 s1 ha0 ha (t0 i) (t1 i) h,
    fun i => insideApartTri_int hn zT t0 t1 hb0 hb hm (zS i) (s0 i) (s1 i),
    fun i => insideApartTri_int hn zS s0 s1 ha0 ha hm (zT i) (t0 i) (t1 i),
    fun i j k l _ _ => crossApart_int hn h4 h6 (hS i) (hS j) (hT k) (hT l)⟩
  · rw [triArea_flat_ne zS, crossZ_int s0 s1]
    exact div_ne_zero (by exact_mod_cast ha0) (pow_ne_zero _ hn')
  · rw [triArea_flat_ne zT, crossZ_int t0 t1]
    exact div_ne_zero (by exact_mod_cast hb0) (pow_ne_zero _ hn')

end PyQC
