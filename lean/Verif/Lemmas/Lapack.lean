import Verif.Model.Lapack
import Verif.Lemmas.RoundingTests
import Mathlib.Analysis.SpecialFunctions.Exponential
import Mathlib.Analysis.Complex.ExponentialBounds
import Mathlib.Analysis.SpecialFunctions.Log.Deriv
/-!
# Error bounds for the dot product and the determinant of the libraries
-/
namespace PyQC
namespace Rounding
open Matrix
variable (r : Rounding)

theorem tiny_ulp : tiny ≤ ulp / 1000 := ulp_small.2

/-- One rounding. -/
theorem fl_at {x K : ℝ} (h : |x| ≤ K) (hK : K ≤ 2 ^ 900) : |r.fl x - x| ≤ ulp * K + tiny := by
  have := r.fl_err x (h.trans (hK.trans (pow_le_pow_right₀ (by norm_num) (by norm_num))))
  have h2 := mul_le_mul_of_nonneg_left h ulp_pos.le
  linarith

theorem dot_bound (x y : Fin 3 → ℝ) (h : ∀ i, |x i| ≤ 2 ^ 400 ∧ |y i| ≤ 2 ^ 400) :
    |r.dot x y - x ⬝ᵥ y| ≤ 4 * ulp * ∑ i, |x i| * |y i| + 8 * tiny := by
  have up := ulp_pos
  have tp := tiny_pos
  have us : ulp ≤ 1 / 1000 := ulp_small.1.trans (by norm_num)
  have hu1 : ulp / 1000 ≤ 1 := by linarith
  have t1 : tiny ≤ 1 := tiny_ulp.trans hu1
  have hb : ∀ i, |x i * y i| ≤ 2 ^ 800 := by
    intro i
    rw [abs_mul]
    calc |x i| * |y i| ≤ 2 ^ 400 * 2 ^ 400 := mul_le_mul (h i).1 (h i).2 (abs_nonneg _) (by positivity)
      _ = 2 ^ 800 := by rw [← pow_add]
  have big : ∀ {z w : ℝ}, z ≤ 2 ^ 800 → w ≤ 16 * z + 16 → w ≤ 2 ^ 900 := by
    intro z w hz hw
    have e : (2 : ℝ) ^ 900 = 2 ^ 100 * 2 ^ 800 := by rw [← pow_add]
    have e2 : (1 : ℝ) ≤ 2 ^ 800 := one_le_pow₀ (by norm_num)
    rw [e]
    clear e
    generalize (2 : ℝ) ^ 800 = Z at *
    have : (32 : ℝ) * Z ≤ 2 ^ 100 * Z := mul_le_mul_of_nonneg_right (by norm_num) (by linarith)
    linarith
  have hS : ∑ i, |x i| * |y i| = |x 0 * y 0| + |x 1 * y 1| + |x 2 * y 2| := by
    rw [Fin.sum_univ_three, abs_mul, abs_mul, abs_mul]
  have e : x ⬝ᵥ y = x 0 * y 0 + x 1 * y 1 + x 2 * y 2 := by simp [dotProduct, Fin.sum_univ_three]
  rw [hS, e]
  unfold dot
  have h0 := r.fl_at (le_refl |x 0 * y 0|) (big (hb 0) (by have := abs_nonneg (x 0 * y 0); linarith))
  have h1 := r.fl_at (le_refl |x 1 * y 1|) (big (hb 1) (by have := abs_nonneg (x 1 * y 1); linarith))
  have h2 := r.fl_at (le_refl |x 2 * y 2|) (big (hb 2) (by have := abs_nonneg (x 2 * y 2); linarith))
  set a := x 0 * y 0
  set b := x 1 * y 1
  set c := x 2 * y 2
  set A := r.fl a
  set B := r.fl b
  set C := r.fl c
  have a0 := abs_nonneg a
  have b0 := abs_nonneg b
  have c0 := abs_nonneg c
  have hA : |A| ≤ (1 + ulp) * |a| + tiny := by
    have := abs_add_le (A - a) a; rw [sub_add_cancel] at this; linarith
  have hB : |B| ≤ (1 + ulp) * |b| + tiny := by
    have := abs_add_le (B - b) b; rw [sub_add_cancel] at this; linarith
  have hC : |C| ≤ (1 + ulp) * |c| + tiny := by
    have := abs_add_le (C - c) c; rw [sub_add_cancel] at this; linarith
  have ab : |A + B| ≤ |A| + |B| := abs_add_le _ _
  have bigS : ∀ w, w ≤ 4 * (|a| + |b| + |c|) + 16 → w ≤ 2 ^ 900 := by
    intro w hw
    rcases le_total |a| |b| with h | h <;> rcases le_total |b| |c| with h' | h' <;> rcases le_total |a| |c| with h'' | h''
    all_goals first
      | exact big (hb 0) (by linarith)
      | exact big (hb 1) (by linarith)
      | exact big (hb 2) (by linarith)
  have ua : ulp * |a| ≤ 1 / 1000 * |a| := mul_le_mul_of_nonneg_right us a0
  have ub : ulp * |b| ≤ 1 / 1000 * |b| := mul_le_mul_of_nonneg_right us b0
  have uc : ulp * |c| ≤ 1 / 1000 * |c| := mul_le_mul_of_nonneg_right us c0
  have ua0 : 0 ≤ ulp * |a| := by positivity
  have ub0 : 0 ≤ ulp * |b| := by positivity
  have uc0 : 0 ≤ ulp * |c| := by positivity
  have h3 := r.fl_at ab (bigS _ (by linarith))
  set D := r.fl (A + B)
  have hD : |D| ≤ |A| + |B| + (ulp * (|A| + |B|) + tiny) := by
    have := abs_add_le (D - (A + B)) (A + B); rw [sub_add_cancel] at this; linarith
  have dc : |D + C| ≤ |A| + |B| + (ulp * (|A| + |B|) + tiny) + |C| := (abs_add_le _ _).trans (by linarith)
  have uAB : ulp * (|A| + |B|) ≤ 1 / 1000 * (|A| + |B|) := mul_le_mul_of_nonneg_right us (by positivity)
  have h4 := r.fl_at dc (bigS _ (by linarith))
  have k1 : ulp * (|A| + |B|) ≤ ulp * (1001 / 1000 * (|a| + |b|) + 2 * tiny) := mul_le_mul_of_nonneg_left (by linarith) up.le
  have k2 : ulp * (|A| + |B| + (ulp * (|A| + |B|) + tiny) + |C|) ≤ ulp * (101 / 100 * (|a| + |b| + |c|) + 8 * tiny) :=
    mul_le_mul_of_nonneg_left (by linarith) up.le
  have ut : ulp * tiny ≤ 1 / 1000 * tiny := mul_le_mul_of_nonneg_right us tp.le
  have e5 : r.fl (D + C) - (a + b + c) = (r.fl (D + C) - (D + C)) + (D - (A + B)) + (A - a) + (B - b) + (C - c) := by ring
  rw [e5]
  have t1 := abs_add_le ((r.fl (D + C) - (D + C)) + (D - (A + B)) + (A - a) + (B - b)) (C - c)
  have t2 := abs_add_le ((r.fl (D + C) - (D + C)) + (D - (A + B)) + (A - a)) (B - b)
  have t3 := abs_add_le ((r.fl (D + C) - (D + C)) + (D - (A + B))) (A - a)
  have t4 := abs_add_le (r.fl (D + C) - (D + C)) (D - (A + B))
  nlinarith

/-- Elimination: the multiplier and the new entry, with their errors. -/
theorem elim_bound {p q p' q' K : ℝ} (hK : 1 ≤ K) (hK2 : K ≤ 2 ^ 20) (hp : p ≠ 0) (hpp : |p'| ≤ |p|) (hpK : |p| ≤ K)
    (hq : |q| ≤ K) (hq' : |q'| ≤ K) : |r.fl (p' / p) * p - p'| ≤ 11 / 10 * ulp * K ∧
      |r.elim p q p' q' - (q' - r.fl (p' / p) * q)| ≤ 32 / 10 * ulp * K ∧ |r.elim p q p' q'| ≤ 201 / 100 * K := by
  have up := ulp_pos
  have tp := tiny_pos
  have us : ulp ≤ 1 / 1000 := ulp_small.1.trans (by norm_num)
  have tu := tiny_ulp
  have uK : ulp ≤ ulp * K := le_mul_of_one_le_right up.le hK
  have uK1 : ulp * K ≤ 1 / 1000 * K := mul_le_mul_of_nonneg_right us (by linarith)
  have hp0 : 0 < |p| := abs_pos.2 hp
  have hquo : |p' / p| ≤ 1 := by rw [abs_div, div_le_one hp0]; exact hpp
  have b22 : 4 * K ≤ 2 ^ 200 := by
    have : (4 : ℝ) * 2 ^ 20 ≤ 2 ^ 200 := by norm_num
    linarith
  have hm := r.fl_at hquo (le_900' (by linarith))
  set m := r.fl (p' / p)
  have hm1 : |m| ≤ 1001 / 1000 + 1 / 1000 := by
    have := abs_add_le (m - p' / p) (p' / p); rw [sub_add_cancel] at this; linarith
  refine ⟨?_, ?_⟩
  · have e : m * p - p' = (m - p' / p) * p := by field_simp
    rw [e, abs_mul]
    calc |m - p' / p| * |p| ≤ (ulp * 1 + tiny) * K := mul_le_mul hm hpK hp0.le (by linarith)
      _ ≤ (11 / 10 * ulp) * K := mul_le_mul_of_nonneg_right (by linarith) (by linarith)
  · have hmq : |m * q| ≤ 1002 / 1000 * K := by
      rw [abs_mul]
      exact mul_le_mul (by linarith) hq (abs_nonneg _) (by norm_num)
    have h1 := r.fl_at hmq (le_900' (by linarith))
    have h2 : |q' - r.fl (m * q)| ≤ 2005 / 1000 * K := by
      have t1 := abs_sub q' (r.fl (m * q))
      have t2 := abs_add_le (r.fl (m * q) - m * q) (m * q)
      rw [sub_add_cancel] at t2
      linarith
    have h3 := r.fl_at h2 (le_900' (by linarith))
    unfold elim
    have t3 := abs_sub_le (r.fl (q' - r.fl (m * q))) (q' - r.fl (m * q)) (q' - m * q)
    have t4 : |q' - r.fl (m * q) - (q' - m * q)| = |r.fl (m * q) - m * q| := by
      rw [← abs_neg]; congr 1; ring
    have t5 := abs_add_le (r.fl (q' - r.fl (m * q)) - (q' - r.fl (m * q))) (q' - r.fl (m * q))
    rw [sub_add_cancel] at t5
    constructor
    · rw [t4] at t3; linarith
    · linarith

/-- The determinant of three rows. -/
def rows (x y z : Fin 3 → ℝ) : ℝ :=
  x 0 * (y 1 * z 2 - y 2 * z 1) - x 1 * (y 0 * z 2 - y 2 * z 0) + x 2 * (y 0 * z 1 - y 1 * z 0)

theorem rows_abs {x y z : Fin 3 → ℝ} {A B C : ℝ} (hx : ∀ i, |x i| ≤ A) (hy : ∀ i, |y i| ≤ B) (hz : ∀ i, |z i| ≤ C) :
    |rows x y z| ≤ 6 * (A * B * C) := by
  have hA : 0 ≤ A := (abs_nonneg _).trans (hx 0)
  have hB : 0 ≤ B := (abs_nonneg _).trans (hy 0)
  have hm : ∀ i j k, |x i * y j * z k| ≤ A * B * C := by
    intro i j k
    rw [abs_mul, abs_mul]
    exact mul_le_mul (mul_le_mul (hx i) (hy j) (abs_nonneg _) hA) (hz k) (abs_nonneg _) (by positivity)
  have e : rows x y z = x 0 * y 1 * z 2 - x 0 * y 2 * z 1 - x 1 * y 0 * z 2 + x 1 * y 2 * z 0 + x 2 * y 0 * z 1 - x 2 * y 1 * z 0 := by
    unfold rows; ring
  rw [e, abs_le]
  have h1 := abs_le.1 (hm 0 1 2)
  have h2 := abs_le.1 (hm 0 2 1)
  have h3 := abs_le.1 (hm 1 0 2)
  have h4 := abs_le.1 (hm 1 2 0)
  have h5 := abs_le.1 (hm 2 0 1)
  have h6 := abs_le.1 (hm 2 1 0)
  constructor <;> linarith

/-- Backward error of the elimination. -/
theorem rows_core {x y z : Fin 3 → ℝ} {m2 m3 m b1 b2 d M δ1 δ2 : ℝ} (hx : ∀ i, |x i| ≤ M) (hy : ∀ i, |y i| ≤ M)
    (hz : ∀ i, |z i| ≤ M) (e0 : |m2 * x 0 - y 0| ≤ δ1) (e1 : |b1 - (y 1 - m2 * x 1)| ≤ δ1)
    (e2 : |b2 - (y 2 - m2 * x 2)| ≤ δ1) (g0 : |m3 * x 0 - z 0| ≤ δ2) (g1 : |m3 * x 1 + m * b1 - z 1| ≤ δ2)
    (g2 : |m3 * x 2 + m * b2 + d - z 2| ≤ δ2) :
    |rows x y z - x 0 * b1 * d| ≤ 6 * (M * δ1 * M) + 6 * (M * (M + δ1) * δ2) := by
  set e : Fin 3 → ℝ := ![y 0 - m2 * x 0, y 1 - m2 * x 1 - b1, y 2 - m2 * x 2 - b2]
  set g : Fin 3 → ℝ := ![z 0 - m3 * x 0, z 1 - (m3 * x 1 + m * b1), z 2 - (m3 * x 2 + m * b2 + d)]
  have he : ∀ i, |e i| ≤ δ1 := by
    intro i
    fin_cases i
    · change |y 0 - m2 * x 0| ≤ _; rw [abs_sub_comm]; exact e0
    · change |y 1 - m2 * x 1 - b1| ≤ _; rw [abs_sub_comm]; exact e1
    · change |y 2 - m2 * x 2 - b2| ≤ _; rw [abs_sub_comm]; exact e2
  have hg : ∀ i, |g i| ≤ δ2 := by
    intro i
    fin_cases i
    · change |z 0 - m3 * x 0| ≤ _; rw [abs_sub_comm]; exact g0
    · change |z 1 - (m3 * x 1 + m * b1)| ≤ _; rw [abs_sub_comm]; exact g1
    · change |z 2 - (m3 * x 2 + m * b2 + d)| ≤ _; rw [abs_sub_comm]; exact g2
  have id : rows x y z - x 0 * b1 * d = rows x e z + rows x (fun i => y i - e i) g := by
    simp only [rows, e, g, Matrix.cons_val_zero, Matrix.cons_val_one, Matrix.cons_val]
    ring
  rw [id]
  refine (abs_add_le _ _).trans (add_le_add (rows_abs hx he hz) (rows_abs hx (fun i => ?_) hg))
  exact (abs_sub _ _).trans (add_le_add (hy i) (he i))

theorem mul_log_le {d K : ℝ} (hd : 0 < d) (hK : d ≤ K) (h1 : 1 ≤ K) (h2 : K ≤ 2 ^ 15) :
    d * |Real.log d| ≤ 11 * K ∧ Real.log d ≤ 11 := by
  have hl : Real.log d ≤ 11 := by
    have := Real.log_le_log hd (hK.trans h2)
    rw [Real.log_pow] at this
    have := Real.log_two_lt_d9
    push_cast at *
    linarith
  refine ⟨?_, hl⟩
  rcases le_total 1 d with h | h
  · rw [abs_of_nonneg (Real.log_nonneg h)]
    have := mul_le_mul hK hl (Real.log_nonneg h) (by linarith)
    linarith
  · rw [abs_of_nonpos (Real.log_nonpos hd.le h)]
    have := Real.one_sub_inv_le_log_of_pos hd
    have h3 : d * -Real.log d ≤ d * (d⁻¹ - 1) := mul_le_mul_of_nonneg_left (by linarith) hd.le
    rw [mul_sub, mul_inv_cancel₀ hd.ne'] at h3
    linarith

theorem log_min {d : ℝ} (hd : 1 / 2 ^ 1074 ≤ |d|) : -800 ≤ Real.log |d| := by
  have := Real.log_le_log (by positivity) hd
  rw [one_div, Real.log_inv, Real.log_pow] at this
  have := Real.log_two_lt_d9
  push_cast at *
  linarith

/-- The sum of the logarithms. -/
theorem logSum_bound {l1 l2 l3 k1 k2 k3 S : ℝ} (eS : S = |l1| + |l2| + |l3|) (hS1 : S ≤ 2400) (r1 : |k1 - l1| ≤ 2 * ulp * |l1| + tiny)
    (r2 : |k2 - l2| ≤ 2 * ulp * |l2| + tiny) (r3 : |k3 - l3| ≤ 2 * ulp * |l3| + tiny) :
    |r.fl (r.fl (k1 + k2) + k3) - (l1 + l2 + l3)| ≤ 44 / 10 * (ulp * S) + 2 * ulp := by
  have up := ulp_pos
  have us : ulp ≤ 1 / 2 ^ 53 := ulp_small.1
  have tu := tiny_ulp
  have n1 := abs_nonneg l1
  have n2 := abs_nonneg l2
  have n3 := abs_nonneg l3
  have hS0 : 0 ≤ S := by linarith
  have us2 : ulp ≤ 1 / 10 ^ 9 := us.trans (by norm_num)
  have uS : ulp * S ≤ 1 / 10 ^ 9 * S := mul_le_mul_of_nonneg_right us2 hS0
  have u1 : 2 * ulp * |l1| + 2 * ulp * |l2| + 2 * ulp * |l3| = 2 * (ulp * S) := by rw [eS]; ring
  have i1 : 0 ≤ 2 * ulp * |l1| := by positivity
  have i2 : 0 ≤ 2 * ulp * |l2| := by positivity
  have i3 : 0 ≤ 2 * ulp * |l3| := by positivity
  have k12 : |k1 + k2| ≤ 11 / 10 * S + 1 / 10 := by
    have t1 := abs_add_le k1 k2
    have t2 := abs_add_le (k1 - l1) l1
    have t3 := abs_add_le (k2 - l2) l2
    rw [sub_add_cancel] at t2 t3
    linarith
  have f1 := r.fl_at k12 (le_900' (by linarith [show (2641 : ℝ) ≤ 2 ^ 200 by norm_num]))
  set K := r.fl (k1 + k2)
  have k123 : |K + k3| ≤ 12 / 10 * S + 1 := by
    have t1 := abs_add_le K k3
    have t2 := abs_add_le (K - (k1 + k2)) (k1 + k2)
    have t4 := abs_add_le (k1 - l1) l1
    have t5 := abs_add_le (k2 - l2) l2
    have t6 := abs_add_le k1 k2
    have t3 := abs_add_le (k3 - l3) l3
    rw [sub_add_cancel] at t2 t3 t4 t5
    linarith
  have f2 := r.fl_at k123 (le_900' (by linarith [show (2881 : ℝ) ≤ 2 ^ 200 by norm_num]))
  set L := r.fl (K + k3)
  have e : L - (l1 + l2 + l3) = (L - (K + k3)) + (K - (k1 + k2)) + (k1 - l1) + (k2 - l2) + (k3 - l3) := by ring
  rw [e]
  have t1 := abs_add_le ((L - (K + k3)) + (K - (k1 + k2)) + (k1 - l1) + (k2 - l2)) (k3 - l3)
  have t2 := abs_add_le ((L - (K + k3)) + (K - (k1 + k2)) + (k1 - l1)) (k2 - l2)
  have t3 := abs_add_le ((L - (K + k3)) + (K - (k1 + k2))) (k1 - l1)
  have t4 := abs_add_le (L - (K + k3)) (K - (k1 + k2))
  have e1 : ulp * (11 / 10 * S + 1 / 10) = 11 / 10 * (ulp * S) + 1 / 10 * ulp := by ring
  have e2 : ulp * (12 / 10 * S + 1) = 12 / 10 * (ulp * S) + ulp := by ring
  rw [e1] at f1
  rw [e2] at f2
  linarith

/-- The exponential of the sum. -/
theorem exp_final {D S L l M : ℝ} (hM : 1 ≤ M) (hD0 : 0 < D) (hDle : D ≤ 82 / 10 * M ^ 3) (hDS : D * S ≤ 271 * M ^ 3)
    (hS0 : 0 ≤ S) (hS1 : S ≤ 2400) (hexp : Real.exp l = D) (hδ : |L - l| ≤ 44 / 10 * (ulp * S) + 2 * ulp) (hl : l ≤ 500) :
    |r.exp L - D| ≤ 3000 * ulp * M ^ 3 := by
  have up := ulp_pos
  have us : ulp ≤ 1 / 2 ^ 53 := ulp_small.1
  have tu := tiny_ulp
  have hM3 : 1 ≤ M ^ 3 := one_le_pow₀ hM
  have uM : ulp ≤ ulp * M ^ 3 := le_mul_of_one_le_right up.le hM3
  have us2 : ulp ≤ 1 / 10 ^ 9 := us.trans (by norm_num)
  have uS : ulp * S ≤ 1 / 10 ^ 9 * S := mul_le_mul_of_nonneg_right us2 hS0
  have hδ1 : |L - l| ≤ 1 / 100 := by linarith
  have hL : L ≤ 600 := by have := (abs_le.1 hδ1).2; linarith
  have hx := r.exp_err L hL
  have hy := Real.abs_exp_sub_one_le (x := L - l) (by linarith)
  have hexpL : Real.exp L = D * Real.exp (L - l) := by
    rw [← hexp, ← Real.exp_add]; congr 1; ring
  have hz : |Real.exp L - D| ≤ D * (2 * |L - l|) := by
    have e : Real.exp L - D = D * (Real.exp (L - l) - 1) := by rw [hexpL]; ring
    rw [e, abs_mul, abs_of_pos hD0]
    exact mul_le_mul_of_nonneg_left hy hD0.le
  have hz2 : D * (2 * |L - l|) ≤ D * (2 * (44 / 10 * (ulp * S) + 2 * ulp)) :=
    mul_le_mul_of_nonneg_left (by linarith) hD0.le
  have hz3 : D * (2 * |L - l|) ≤ D := mul_le_of_le_one_right hD0.le (by linarith)
  have hE : Real.exp L ≤ 2 * D := by have := (abs_le.1 hz).2; linarith
  have t1 := abs_sub_le (r.exp L) (Real.exp L) D
  have g1 : 2 * ulp * Real.exp L ≤ 2 * ulp * (2 * D) := mul_le_mul_of_nonneg_left hE (by positivity)
  have g2 : ulp * D ≤ ulp * (82 / 10 * M ^ 3) := mul_le_mul_of_nonneg_left hDle up.le
  have g3 : ulp * (D * S) ≤ ulp * (271 * M ^ 3) := mul_le_mul_of_nonneg_left hDS up.le
  have e7 : D * (2 * (44 / 10 * (ulp * S) + 2 * ulp)) = 88 / 10 * (ulp * (D * S)) + 4 * (ulp * D) := by ring
  have e8 : 2 * ulp * (2 * D) = 4 * (ulp * D) := by ring
  rw [e7] at hz2
  rw [e8] at g1
  have e9 : 3000 * ulp * M ^ 3 = 3000 * (ulp * M ^ 3) := by ring
  rw [e9]
  have e10 : ulp * (271 * M ^ 3) = 271 * (ulp * M ^ 3) := by ring
  have e11 : ulp * (82 / 10 * M ^ 3) = 82 / 10 * (ulp * M ^ 3) := by ring
  rw [e10] at g3
  rw [e11] at g2
  linarith

/-- The determinant from the pivots. -/
theorem fromPivots_bound {σ d1 d2 d3 M : ℝ} (hσ : |σ| = 1) (hM : 1 ≤ M) (hM2 : M ≤ 2 ^ 12) (h1 : |d1| ≤ M)
    (m1 : d1 = 0 ∨ 1 / 2 ^ 1074 ≤ |d1|) (m2 : d2 = 0 ∨ 1 / 2 ^ 1074 ≤ |d2|) (m3 : d3 = 0 ∨ 1 / 2 ^ 1074 ≤ |d3|)
    (h2 : |d2| ≤ 201 / 100 * M) (h3 : |d3| ≤ 405 / 100 * M) :
    |r.fromPivots σ d1 d2 d3 - σ * (d1 * d2 * d3)| ≤ 3000 * ulp * M ^ 3 := by
  have up := ulp_pos
  have tp := tiny_pos
  have us : ulp ≤ 1 / 2 ^ 53 := ulp_small.1
  have tu := tiny_ulp
  have hM3 : 1 ≤ M ^ 3 := one_le_pow₀ hM
  have uM : ulp ≤ ulp * M ^ 3 := le_mul_of_one_le_right up.le hM3
  unfold fromPivots
  by_cases h0 : d1 = 0 ∨ d2 = 0 ∨ d3 = 0
  · rw [if_pos h0]
    have : d1 * d2 * d3 = 0 := by rcases h0 with h | h | h <;> rw [h] <;> ring
    rw [this, mul_zero, sub_zero, abs_zero]
    positivity
  · rw [if_neg h0]
    simp only [not_or] at h0
    obtain ⟨z1, z2, z3⟩ := h0
    have p1 : 0 < |d1| := abs_pos.2 z1
    have p2 : 0 < |d2| := abs_pos.2 z2
    have p3 : 0 < |d3| := abs_pos.2 z3
    have hprod : d1 * d2 * d3 ≠ 0 := mul_ne_zero (mul_ne_zero z1 z2) z3
    obtain ⟨q1, w1⟩ := mul_log_le p1 h1 hM (hM2.trans (by norm_num))
    obtain ⟨q2, w2⟩ := mul_log_le p2 h2 (by linarith) (by have : (201 / 100 : ℝ) * 2 ^ 12 ≤ 2 ^ 15 := by norm_num
                                                          linarith)
    obtain ⟨q3, w3⟩ := mul_log_le p3 h3 (by linarith) (by have : (405 / 100 : ℝ) * 2 ^ 12 ≤ 2 ^ 15 := by norm_num
                                                          linarith)
    have v1 := log_min (m1.resolve_left z1)
    have v2 := log_min (m2.resolve_left z2)
    have v3 := log_min (m3.resolve_left z3)
    set l1 := Real.log |d1| with el1
    set l2 := Real.log |d2| with el2
    set l3 := Real.log |d3| with el3
    set D := |d1| * |d2| * |d3| with eD
    have hD0 : 0 < D := by positivity
    have hDle : D ≤ 82 / 10 * M ^ 3 := by
      have a1 : |d1| * |d2| ≤ M * (201 / 100 * M) := mul_le_mul h1 h2 p2.le (by linarith)
      have a2 : D ≤ M * (201 / 100 * M) * (405 / 100 * M) := mul_le_mul a1 h3 p3.le (by positivity)
      nlinarith
    have hsgn : σ * (SignType.sign (d1 * d2 * d3) : ℝ) * D = σ * (d1 * d2 * d3) := by
      rw [eD, ← abs_mul, ← abs_mul, mul_assoc, sign_mul_abs]
    rw [← hsgn, ← mul_sub, abs_mul, abs_mul, hσ, one_mul]
    have hs1 : |(SignType.sign (d1 * d2 * d3) : ℝ)| = 1 := by
      rcases lt_or_gt_of_ne hprod with h | h
      · rw [sign_neg h]; simp
      · rw [sign_pos h]; simp
    rw [hs1, one_mul]
    have hexp : Real.exp (l1 + l2 + l3) = D := by
      rw [Real.exp_add, Real.exp_add, Real.exp_log p1, Real.exp_log p2, Real.exp_log p3]
    have r1 := r.log_err |d1| p1
    have r2 := r.log_err |d2| p2
    have r3 := r.log_err |d3| p3
    rw [← el1] at r1
    rw [← el2] at r2
    rw [← el3] at r3
    generalize r.log |d1| = k1 at *
    generalize r.log |d2| = k2 at *
    generalize r.log |d3| = k3 at *
    set S := |l1| + |l2| + |l3| with eS
    have n1 := abs_nonneg l1
    have n2 := abs_nonneg l2
    have n3 := abs_nonneg l3
    have hS0 : 0 ≤ S := by positivity
    have a1 : |l1| ≤ 800 := by rw [abs_le]; constructor <;> linarith
    have a2 : |l2| ≤ 800 := by rw [abs_le]; constructor <;> linarith
    have a3 : |l3| ≤ 800 := by rw [abs_le]; constructor <;> linarith
    have hS1 : S ≤ 2400 := by linarith
    have hDS : D * S ≤ 271 * M ^ 3 := by
      have b1 : |d2| * |d3| ≤ 201 / 100 * M * (405 / 100 * M) := mul_le_mul h2 h3 p3.le (by positivity)
      have b2 : |d1| * |d3| ≤ M * (405 / 100 * M) := mul_le_mul h1 h3 p3.le (by positivity)
      have b3 : |d1| * |d2| ≤ M * (201 / 100 * M) := mul_le_mul h1 h2 p2.le (by positivity)
      have c1 := mul_le_mul q1 b1 (by positivity) (by positivity)
      have c2 := mul_le_mul q2 b2 (by positivity) (by positivity)
      have c3 := mul_le_mul q3 b3 (by positivity) (by positivity)
      have e : D * S = |d1| * |l1| * (|d2| * |d3|) + |d2| * |l2| * (|d1| * |d3|) + |d3| * |l3| * (|d1| * |d2|) := by
        rw [eD, eS]; ring
      rw [e]
      nlinarith
    have us2 : ulp ≤ 1 / 10 ^ 9 := us.trans (by norm_num)
    have uS : ulp * S ≤ 1 / 10 ^ 9 * S := mul_le_mul_of_nonneg_right us2 hS0
    have hδ := r.logSum_bound eS hS1 r1 r2 r3
    set L := r.fl (r.fl (k1 + k2) + k3)
    exact r.exp_final hM hD0 hDle hDS hS0 hS1 hexp hδ (by linarith)

theorem pivots2_cases (a b c d : ℝ) : (|c| ≤ |a| ∧ r.pivots2 a b c d = (1, a, r.elim a b c d)) ∨
    (|a| ≤ |c| ∧ r.pivots2 a b c d = (-1, c, r.elim c d a b)) := by
  unfold pivots2
  by_cases h : |c| ≤ |a|
  · exact .inl ⟨h, if_pos h⟩
  · exact .inr ⟨(not_le.1 h).le, if_neg h⟩

/-- The second elimination step, in the pivot order. -/
theorem second_step {x y z : Fin 3 → ℝ} {M : ℝ} (hM : 1 ≤ M) (hM2 : M ≤ 2 ^ 12) (hx : ∀ i, |x i| ≤ M) (hy : ∀ i, |y i| ≤ M)
    (hz : ∀ i, |z i| ≤ M) (h0 : x 0 ≠ 0) (hxy : |y 0| ≤ |x 0|) (hxz : |z 0| ≤ |x 0|)
    (hp : |r.elim (x 0) (x 1) (z 0) (z 1)| ≤ |r.elim (x 0) (x 1) (y 0) (y 1)|) :
    |r.elim (x 0) (x 1) (y 0) (y 1)| ≤ 201 / 100 * M ∧
    |r.elim (r.elim (x 0) (x 1) (y 0) (y 1)) (r.elim (x 0) (x 2) (y 0) (y 2)) (r.elim (x 0) (x 1) (z 0) (z 1))
      (r.elim (x 0) (x 2) (z 0) (z 2))| ≤ 405 / 100 * M ∧
    |rows x y z - x 0 * r.elim (x 0) (x 1) (y 0) (y 1) *
      r.elim (r.elim (x 0) (x 1) (y 0) (y 1)) (r.elim (x 0) (x 2) (y 0) (y 2)) (r.elim (x 0) (x 1) (z 0) (z 1))
        (r.elim (x 0) (x 2) (z 0) (z 2))| ≤ 100 * ulp * M ^ 3 := by
  have up := ulp_pos
  have us : ulp ≤ 1 / 1000 := ulp_small.1.trans (by norm_num)
  have hM20 : M ≤ 2 ^ 20 := hM2.trans (by norm_num)
  have uM : 0 < ulp * M := by positivity
  have uM1 : ulp * M ≤ 1 / 1000 * M := mul_le_mul_of_nonneg_right us (by linarith)
  obtain ⟨e0, e1, b1⟩ := r.elim_bound hM hM20 h0 hxy (hx 0) (hx 1) (hy 1)
  obtain ⟨-, e2, b2⟩ := r.elim_bound hM hM20 h0 hxy (hx 0) (hx 2) (hy 2)
  obtain ⟨g0, g1, c1⟩ := r.elim_bound hM hM20 h0 hxz (hx 0) (hx 1) (hz 1)
  obtain ⟨-, g2, c2⟩ := r.elim_bound hM hM20 h0 hxz (hx 0) (hx 2) (hz 2)
  generalize r.elim (x 0) (x 1) (y 0) (y 1) = B1 at *
  generalize r.elim (x 0) (x 2) (y 0) (y 2) = B2 at *
  generalize r.elim (x 0) (x 1) (z 0) (z 1) = C1 at *
  generalize r.elim (x 0) (x 2) (z 0) (z 2) = C2 at *
  generalize r.fl (y 0 / x 0) = m2 at *
  generalize r.fl (z 0 / x 0) = m3 at *
  have fin : ∀ δ1 δ2 : ℝ, δ1 = 33 / 10 * (ulp * M) → δ2 = 10 * (ulp * M) →
      6 * (M * δ1 * M) + 6 * (M * (M + δ1) * δ2) ≤ 100 * ulp * M ^ 3 := by
    intro δ1 δ2 h1 h2
    have : M + δ1 ≤ 101 / 100 * M := by linarith
    have h3 : M * (M + δ1) * δ2 ≤ M * (101 / 100 * M) * δ2 := by
      refine mul_le_mul_of_nonneg_right (mul_le_mul_of_nonneg_left this (by linarith)) (by rw [h2]; linarith)
    have h4 : M * (101 / 100 * M) * δ2 = 1010 / 100 * (ulp * M ^ 3) := by rw [h2]; ring
    have h5 : M * δ1 * M = 33 / 10 * (ulp * M ^ 3) := by rw [h1]; ring
    have h6 : 0 ≤ ulp * M ^ 3 := by positivity
    have h7 : 100 * ulp * M ^ 3 = 100 * (ulp * M ^ 3) := by ring
    rw [h7, h5]
    linarith
  refine ⟨b1, ?_⟩
  by_cases hB : B1 = 0
  · have hC : C1 = 0 := by rw [hB, abs_zero] at hp; exact abs_eq_zero.1 (le_antisymm hp (abs_nonneg _))
    have hK : |r.elim B1 B2 C1 C2| ≤ 405 / 100 * M := by
      have q1 := r.fl_at (x := (0 : ℝ)) (K := 0) (by simp) (by positivity)
      have tu := tiny_ulp
      have tp := tiny_pos
      have uK : ulp ≤ ulp * M := le_mul_of_one_le_right up.le hM
      rw [sub_zero, mul_zero, zero_add] at q1
      have hmul : |r.fl 0 * B2| ≤ 201 / 100 * M := by
        rw [abs_mul]
        have : |r.fl 0| ≤ 1 := by linarith
        calc |r.fl 0| * |B2| ≤ 1 * (201 / 100 * M) := mul_le_mul this b2 (abs_nonneg _) (by norm_num)
          _ = _ := one_mul _
      have big : ∀ w, w ≤ 8 * M → w ≤ (2 : ℝ) ^ 900 := fun w hw => le_900' (by
        have : (8 : ℝ) * 2 ^ 20 ≤ 2 ^ 200 := by norm_num
        linarith)
      have hmul' : |r.fl 0 * B2| ≤ 1 / 100 * M := by
        rw [abs_mul]
        calc |r.fl 0| * |B2| ≤ tiny * (201 / 100 * M) := mul_le_mul q1 b2 (abs_nonneg _) tp.le
          _ ≤ (ulp / 1000) * (201 / 100 * M) := mul_le_mul_of_nonneg_right tu (by positivity)
          _ ≤ 1 / 100 * M := by linarith
      have q2 := r.fl_at hmul' (big _ (by linarith))
      have q3 : |C2 - r.fl (r.fl 0 * B2)| ≤ 204 / 100 * M := by
        have t1 := abs_sub C2 (r.fl (r.fl 0 * B2))
        have t2 := abs_add_le (r.fl (r.fl 0 * B2) - r.fl 0 * B2) (r.fl 0 * B2)
        rw [sub_add_cancel] at t2
        linarith
      have q4 := r.fl_at q3 (big _ (by linarith))
      have t5 := abs_add_le (r.fl (C2 - r.fl (r.fl 0 * B2)) - (C2 - r.fl (r.fl 0 * B2))) (C2 - r.fl (r.fl 0 * B2))
      rw [sub_add_cancel] at t5
      unfold elim
      rw [hB, hC, div_zero]
      linarith
    refine ⟨hK, ?_⟩
    have := rows_core (m := 0) (d := C2) (m2 := m2) (m3 := m3) (b1 := B1) (b2 := B2) (δ1 := 33 / 10 * (ulp * M)) (δ2 := 10 * (ulp * M))
      hx hy hz (by linarith) (by linarith) (by linarith) (by linarith) (by
        have e : m3 * x 1 + 0 * B1 - z 1 = C1 - (z 1 - m3 * x 1) := by rw [hC]; ring
        rw [e]; linarith) (by
        have e : m3 * x 2 + 0 * B2 + C2 - z 2 = C2 - (z 2 - m3 * x 2) := by ring
        rw [e]; linarith)
    rw [hB, mul_zero, zero_mul] at this ⊢
    exact this.trans (fin _ _ rfl rfl)
  · obtain ⟨f0, f1, d1⟩ := r.elim_bound (K := 201 / 100 * M) (by linarith) (by
      have : (201 / 100 : ℝ) * 2 ^ 12 ≤ 2 ^ 20 := by norm_num
      linarith) hB hp b1 b2 c2
    refine ⟨by linarith, ?_⟩
    refine (rows_core (m := r.fl (C1 / B1)) (m2 := m2) (m3 := m3) (b1 := B1) (b2 := B2) (δ1 := 33 / 10 * (ulp * M)) (δ2 := 10 * (ulp * M))
      hx hy hz (by linarith) (by linarith) (by linarith) (by linarith) ?_ ?_).trans (fin _ _ rfl rfl)
    · have e : m3 * x 1 + r.fl (C1 / B1) * B1 - z 1 = (r.fl (C1 / B1) * B1 - C1) + (C1 - (z 1 - m3 * x 1)) := by ring
      rw [e]
      refine (abs_add_le _ _).trans ?_
      linarith
    · have e : m3 * x 2 + r.fl (C1 / B1) * B2 + r.elim B1 B2 C1 C2 - z 2 =
          (r.elim B1 B2 C1 C2 - (C2 - r.fl (C1 / B1) * B2)) + (C2 - (z 2 - m3 * x 2)) := by ring
      rw [e]
      refine (abs_add_le _ _).trans ?_
      linarith

theorem det3_bound {x y z : Fin 3 → ℝ} {σ M : ℝ} (hσ : |σ| = 1) (hM : 1 ≤ M) (hM2 : M ≤ 2 ^ 12) (hx : ∀ i, |x i| ≤ M)
    (hy : ∀ i, |y i| ≤ M) (hz : ∀ i, |z i| ≤ M) (hx0 : x 0 = 0 ∨ 1 / 2 ^ 1074 ≤ |x 0|) (hxy : |y 0| ≤ |x 0|)
    (hxz : |z 0| ≤ |x 0|) : |r.det3 σ x y z - σ * rows x y z| ≤ 4000 * ulp * M ^ 3 := by
  have up := ulp_pos
  have hu : 0 ≤ ulp * M ^ 3 := by positivity
  unfold det3
  by_cases h0 : x 0 = 0
  · rw [if_pos h0]
    rw [h0, abs_zero] at hxy hxz
    have h1 : y 0 = 0 := abs_eq_zero.1 (le_antisymm hxy (abs_nonneg _))
    have h2 : z 0 = 0 := abs_eq_zero.1 (le_antisymm hxz (abs_nonneg _))
    have : rows x y z = 0 := by unfold rows; rw [h0, h1, h2]; ring
    rw [this, mul_zero, sub_zero, abs_zero]
    positivity
  · rw [if_neg h0]
    simp only
    have close : ∀ {a b c : ℝ}, |a - σ * b| ≤ 3000 * ulp * M ^ 3 → |c - b| ≤ 100 * ulp * M ^ 3 →
        |a - σ * c| ≤ 4000 * ulp * M ^ 3 := by
      intro a b c h1 h2
      have t := abs_sub_le a (σ * b) (σ * c)
      rw [← mul_sub, abs_mul, hσ, one_mul, abs_sub_comm b c] at t
      linarith
    rcases r.pivots2_cases (r.elim (x 0) (x 1) (y 0) (y 1)) (r.elim (x 0) (x 2) (y 0) (y 2))
      (r.elim (x 0) (x 1) (z 0) (z 1)) (r.elim (x 0) (x 2) (z 0) (z 2)) with ⟨hp, e⟩ | ⟨hp, e⟩
    · rw [e]
      obtain ⟨b1, b2, b3⟩ := r.second_step hM hM2 hx hy hz h0 hxy hxz hp
      rw [mul_one]
      exact close (r.fromPivots_bound hσ hM hM2 (hx 0) hx0 (r.fl_min _) (r.fl_min _) b1 b2) b3
    · rw [e]
      obtain ⟨b1, b2, b3⟩ := r.second_step hM hM2 hx hz hy h0 hxz hxy hp
      have hσ' : |σ * -1| = 1 := by rw [mul_neg_one, abs_neg, hσ]
      have hb := r.fromPivots_bound hσ' hM hM2 (hx 0) hx0 (r.fl_min _) (r.fl_min _) b1 b2
      have hr : rows x y z = -rows x z y := by unfold rows; ring
      refine close (b := -(x 0 * r.elim (x 0) (x 1) (z 0) (z 1) * r.elim (r.elim (x 0) (x 1) (z 0) (z 1))
        (r.elim (x 0) (x 2) (z 0) (z 2)) (r.elim (x 0) (x 1) (y 0) (y 1)) (r.elim (x 0) (x 2) (y 0) (y 2)))) ?_ ?_
      · rw [mul_assoc σ (-1), neg_one_mul] at hb
        exact hb
      · rw [hr, neg_sub_neg, abs_sub_comm]
        exact b3

theorem det_rows (A : Matrix (Fin 3) (Fin 3) ℝ) : A.det = rows (A 0) (A 1) (A 2) := by
  rw [Matrix.det_fin_three]; unfold rows; ring

theorem det_bound (A : Matrix (Fin 3) (Fin 3) ℝ) (M : ℝ) (hM : 1 ≤ M) (hM2 : M ≤ 2 ^ 12)
    (h : ∀ i j, |A i j| ≤ M ∧ ∃ x, A i j = r.fl x) : |r.det A - A.det| ≤ 4000 * ulp * M ^ 3 := by
  have hm : ∀ i j, A i j = 0 ∨ 1 / 2 ^ 1074 ≤ |A i j| := by
    intro i j
    obtain ⟨x, hx⟩ := (h i j).2
    rw [hx]; exact r.fl_min x
  unfold det
  by_cases h1 : |A 1 0| ≤ |A 0 0| ∧ |A 2 0| ≤ |A 0 0|
  · rw [if_pos h1]
    have := r.det3_bound (σ := 1) (by simp) hM hM2 (fun j => (h 0 j).1) (fun j => (h 1 j).1) (fun j => (h 2 j).1) (hm 0 0) h1.1 h1.2
    rwa [one_mul, ← det_rows] at this
  · rw [if_neg h1]
    by_cases h2 : |A 2 0| ≤ |A 1 0|
    · rw [if_pos h2]
      have h3 : |A 0 0| ≤ |A 1 0| := by
        by_contra hc
        rw [not_le] at hc
        exact h1 ⟨hc.le, h2.trans hc.le⟩
      have := r.det3_bound (σ := -1) (by simp) hM hM2 (fun j => (h 1 j).1) (fun j => (h 0 j).1) (fun j => (h 2 j).1) (hm 1 0) h3 h2
      rwa [show -1 * rows (A 1) (A 0) (A 2) = A.det by rw [det_rows]; unfold rows; ring] at this
    · rw [if_neg h2]
      rw [not_le] at h2
      have h3 : |A 0 0| ≤ |A 2 0| := by
        by_contra hc
        rw [not_le] at hc
        exact h1 ⟨(h2.trans hc).le, hc.le⟩
      have := r.det3_bound (σ := -1) (by simp) hM hM2 (fun j => (h 2 j).1) (fun j => (h 1 j).1) (fun j => (h 0 j).1) (hm 2 0) h2.le h3
      rwa [show -1 * rows (A 2) (A 1) (A 0) = A.det by rw [det_rows]; unfold rows; ring] at this

/-- Every rounding of the elementary operations gives an arithmetic with the error bounds of `Float64`. -/
noncomputable def float64 : Float64 where
  fl := r.fl
  dot := r.dot
  det := r.det
  fl_err := r.fl_err
  dot_err := r.dot_bound
  det_err := r.det_bound

/-! ## Rounding to nearest -/

theorem spacing_min (x : ℝ) : 1 / 2 ^ 1074 ≤ spacing x := by
  unfold spacing
  have : (1 : ℝ) / 2 ^ 1074 = 2 ^ (-1074 : ℤ) := by rw [zpow_neg, one_div]; rfl
  rw [this]
  exact zpow_le_zpow_right₀ (by norm_num) (le_max_right _ _)

theorem spacing_err (x : ℝ) : spacing x / 2 ≤ ulp * |x| + tiny ∨ x = 0 := by
  by_cases h0 : x = 0
  · exact .inr h0
  refine .inl ?_
  have hx : 0 < |x| := abs_pos.2 h0
  unfold spacing
  rcases max_cases (Int.log 2 |x| - 52) (-1074) with ⟨e, -⟩ | ⟨e, -⟩
  · rw [e]
    have h1 := Int.zpow_log_le_self (b := 2) (by norm_num) hx
    have h2 : (2 : ℝ) ^ (Int.log 2 |x| - 52) / 2 = ulp * 2 ^ Int.log 2 |x| := by
      rw [zpow_sub₀ (by norm_num)]
      unfold ulp
      have : (2 : ℝ) ^ (52 : ℤ) = 2 ^ 52 := rfl
      rw [this, div_div]
      have : (2 : ℝ) ^ 52 * 2 = 2 ^ 53 := by norm_num
      rw [this]
      ring
    rw [h2]
    have h3 := mul_le_mul_of_nonneg_left h1 ulp_pos.le
    push_cast at h3
    linarith [tiny_pos]
  · rw [e]
    have h2 : (2 : ℝ) ^ (-1074 : ℤ) / 2 = tiny := by
      unfold tiny
      rw [zpow_neg, show (2 : ℝ) ^ (1074 : ℤ) = 2 ^ 1074 from rfl, inv_eq_one_div, div_div, ← pow_succ]
    rw [h2]
    have := mul_nonneg ulp_pos.le (abs_nonneg x)
    linarith

theorem spacing_pos (x : ℝ) : 0 < spacing x := by unfold spacing; positivity

theorem abs_sub_roundEven (x : ℝ) : |x - roundEven x| ≤ 1 / 2 := by
  have h0 := Int.fract_nonneg x
  have h1 := Int.fract_lt_one x
  have e : x = ⌊x⌋ + Int.fract x := (Int.floor_add_fract x).symm
  rw [abs_le]
  unfold roundEven
  split
  · constructor <;> linarith
  · split
    · push_cast; constructor <;> linarith
    · split
      · constructor <;> linarith
      · push_cast; constructor <;> linarith

theorem nearest_err (x : ℝ) : |nearest x - x| ≤ ulp * |x| + tiny := by
  unfold nearest
  rcases spacing_err x with h | h
  · have sp := spacing_pos x
    have h1 := abs_sub_roundEven (x / spacing x)
    have e : (roundEven (x / spacing x) : ℝ) * spacing x - x = -((x / spacing x - roundEven (x / spacing x)) * spacing x) := by
      field_simp
      ring
    rw [e, abs_neg, abs_mul, abs_of_pos sp]
    have := mul_le_mul_of_nonneg_right h1 sp.le
    linarith
  · rw [h]
    simp [roundEven, tiny_pos.le]

theorem nearest_min (x : ℝ) : nearest x = 0 ∨ 1 / 2 ^ 1074 ≤ |nearest x| := by
  unfold nearest
  by_cases h : roundEven (x / spacing x) = 0
  · left; rw [h]; simp
  · right
    rw [abs_mul, abs_of_pos (spacing_pos x)]
    have h1 : (1 : ℝ) ≤ |(roundEven (x / spacing x) : ℝ)| := by exact_mod_cast Int.one_le_abs h
    have := mul_le_mul_of_nonneg_right h1 (spacing_pos x).le
    have := spacing_min x
    linarith

/-- Binary64 arithmetic, rounding to nearest. -/
noncomputable def binary64 : Rounding where
  fl := nearest
  log x := nearest (Real.log x)
  exp x := nearest (Real.exp x)
  fl_err x _ := nearest_err x
  fl_min := nearest_min
  log_err x _ := (nearest_err _).trans (by
    have := mul_nonneg ulp_pos.le (abs_nonneg (Real.log x))
    linarith)
  exp_err x _ := (nearest_err _).trans (by
    rw [abs_of_pos (Real.exp_pos x)]
    have := mul_nonneg ulp_pos.le (Real.exp_pos x).le
    linarith)

end Rounding
end PyQC
