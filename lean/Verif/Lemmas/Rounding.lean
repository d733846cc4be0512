import Verif.Model.Float
import Verif.Spec.Space
import Mathlib.Tactic.Linarith
import Mathlib.Tactic.Positivity
import Mathlib.Tactic.GCongr
import Mathlib.Tactic.NormNum
/-!
# Propagation of rounding errors
-/
namespace PyQC

theorem ulp_pos : 0 < ulp := by unfold ulp; positivity
theorem tiny_pos : 0 < tiny := by unfold tiny; positivity

theorem tiny_le : tiny ≤ 1 / 2 ^ 200 := by
  unfold tiny
  exact one_div_le_one_div_of_le (by positivity) (pow_le_pow_right₀ (by norm_num) (by norm_num))

/-- `x̂` is a computed value of `x`, which is at most `M` in size, with an error of at most `k` units of `ulp * M`. -/
structure Approx (M k x' x : ℝ) : Prop where
  M0 : 1 / 2 ^ 100 ≤ M
  k0 : 0 ≤ k
  k1 : k ≤ 2 ^ 20
  abs : |x| ≤ M
  err : |x' - x| ≤ k * ulp * M

namespace Approx
variable {M N k l x' x y' y : ℝ}

theorem M_pos (h : Approx M k x' x) : 0 < M := lt_of_lt_of_le (by positivity) h.M0

theorem exact (h : |x| ≤ M) (hM : 1 / 2 ^ 100 ≤ M) : Approx M 0 x x :=
  ⟨hM, le_refl _, by norm_num, h, by simp⟩

/-- Change of the bounds. -/
theorem of (h : Approx M k x' x) (hN : 1 / 2 ^ 100 ≤ N) (hx : |x| ≤ N) (hkl : k * M ≤ l * N) (hl : l ≤ 2 ^ 20) :
    Approx N l x' x := by
  have hN0 : 0 < N := lt_of_lt_of_le (by positivity) hN
  have hl0 : 0 ≤ l := by
    have : 0 ≤ l * N := (mul_nonneg h.k0 h.M_pos.le).trans hkl
    exact nonneg_of_mul_nonneg_left this hN0
  refine ⟨hN, hl0, hl, hx, h.err.trans ?_⟩
  have := mul_le_mul_of_nonneg_left hkl ulp_pos.le
  nlinarith

theorem mono (h : Approx M k x' x) (hkl : k ≤ l) (hl : l ≤ 2 ^ 20) : Approx M l x' x :=
  h.of h.M0 h.abs (mul_le_mul_of_nonneg_right hkl h.M_pos.le) hl

theorem monoM (h : Approx M k x' x) (hMN : M ≤ N) : Approx N k x' x :=
  h.of (h.M0.trans hMN) (h.abs.trans hMN) (mul_le_mul_of_nonneg_left hMN h.k0) h.k1

theorem abs' (h : Approx M k x' x) : |x'| ≤ (1 + 1 / 2 ^ 30) * M := by
  have h1 : k * ulp ≤ 1 / 2 ^ 30 := by
    have := mul_le_mul_of_nonneg_right h.k1 ulp_pos.le
    refine this.trans ?_
    unfold ulp; norm_num
  have h2 : |x'| ≤ |x' - x| + |x| := by
    have := abs_add_le (x' - x) x
    simpa using this
  have h3 := mul_le_mul_of_nonneg_right h1 h.M_pos.le
  have := h.abs
  have := h.err
  linarith

theorem fl (F : Float64) (h : Approx M k x' x) (hM : M ≤ 2 ^ 900) (hk : k + 101 / 100 ≤ 2 ^ 20) :
    Approx M (k + 101 / 100) (F.fl x') x := by
  have hp := h.M_pos
  have ha := h.abs'
  refine ⟨h.M0, by have := h.k0; linarith, hk, h.abs, ?_⟩
  have h1 := F.fl_err x' (ha.trans (by
    have e : (2 : ℝ) ^ 901 ≤ 2 ^ 1000 := pow_le_pow_right₀ (by norm_num) (by norm_num)
    rw [pow_succ] at e
    have aux : ∀ A B : ℝ, M ≤ A → A * 2 ≤ B → (1 + 1 / 2 ^ 30) * M ≤ B := by intro A B h1 h2; linarith
    exact aux _ _ hM e))
  have h2 : tiny ≤ 1 / 1000 * ulp * M := by
    have : 1 / 1000 * ulp * (1 / 2 ^ 100) ≤ 1 / 1000 * ulp * M :=
      mul_le_mul_of_nonneg_left h.M0 (by have := ulp_pos; positivity)
    refine le_trans (tiny_le.trans ?_) this
    unfold ulp
    norm_num
  have h3 : ulp * |x'| ≤ ulp * ((1 + 1 / 2 ^ 30) * M) := mul_le_mul_of_nonneg_left ha ulp_pos.le
  have h4 : |F.fl x' - x| ≤ |F.fl x' - x'| + |x' - x| := by
    have := abs_add_le (F.fl x' - x') (x' - x)
    simpa using this
  have h5 := h.err
  have h6 : 0 < ulp * M := mul_pos ulp_pos hp
  nlinarith

theorem add (h : Approx M k x' x) (g : Approx N k y' y) : Approx (M + N) k (x' + y') (x + y) := by
  have := h.M_pos
  have := g.M_pos
  refine ⟨by have := h.M0; linarith, h.k0, h.k1, (abs_add_le _ _).trans (add_le_add h.abs g.abs), ?_⟩
  have e : x' + y' - (x + y) = (x' - x) + (y' - y) := by ring
  rw [e]
  refine (abs_add_le _ _).trans ?_
  have := h.err
  have := g.err
  linarith

theorem neg (h : Approx M k x' x) : Approx M k (-x') (-x) := by
  refine ⟨h.M0, h.k0, h.k1, by rw [abs_neg]; exact h.abs, ?_⟩
  rw [show -x' - -x = -(x' - x) by ring, abs_neg]
  exact h.err

theorem sub (h : Approx M k x' x) (g : Approx N k y' y) : Approx (M + N) k (x' - y') (x - y) := by
  rw [sub_eq_add_neg, sub_eq_add_neg]
  exact h.add g.neg

theorem mul (h : Approx M k x' x) (g : Approx N l y' y) (hM : 1 / 2 ^ 100 ≤ M * N) (hk : k + l + 1 / 100 ≤ 2 ^ 20) :
    Approx (M * N) (k + l + 1 / 100) (x' * y') (x * y) := by
  have hp := h.M_pos
  have gp := g.M_pos
  have hk0 := h.k0
  have gk0 := g.k0
  refine ⟨hM, by linarith, hk, ?_, ?_⟩
  · rw [abs_mul]
    exact mul_le_mul h.abs g.abs (abs_nonneg _) hp.le
  · have e : x' * y' - x * y = (x' - x) * y' + x * (y' - y) := by ring
    rw [e]
    refine (abs_add_le _ _).trans ?_
    rw [abs_mul, abs_mul]
    have h1 : |x' - x| * |y'| ≤ (k * ulp * M) * (N + l * ulp * N) := by
      have h2 : |y'| ≤ N + l * ulp * N := by
        have := abs_add_le (y' - y) y
        rw [sub_add_cancel] at this
        have := g.abs
        have := g.err
        linarith
      exact mul_le_mul h.err h2 (abs_nonneg _) (by have := ulp_pos; positivity)
    have h3 : |x| * |y' - y| ≤ M * (l * ulp * N) := mul_le_mul h.abs g.err (abs_nonneg _) hp.le
    have h4 : k * l * ulp ≤ 1 / 100 := by
      have : k * l ≤ 2 ^ 20 * 2 ^ 20 := mul_le_mul h.k1 g.k1 gk0 (by norm_num)
      have := mul_le_mul_of_nonneg_right this ulp_pos.le
      refine this.trans ?_
      unfold ulp; norm_num
    have h5 : k * l * ulp * (ulp * (M * N)) ≤ 1 / 100 * (ulp * (M * N)) :=
      mul_le_mul_of_nonneg_right h4 (by have := ulp_pos; positivity)
    calc |x' - x| * |y'| + |x| * |y' - y| ≤ (k * ulp * M) * (N + l * ulp * N) + M * (l * ulp * N) := add_le_add h1 h3
      _ = (k + l) * ulp * (M * N) + k * l * ulp * (ulp * (M * N)) := by ring
      _ ≤ (k + l) * ulp * (M * N) + 1 / 100 * (ulp * (M * N)) := by linarith
      _ = (k + l + 1 / 100) * ulp * (M * N) := by ring

theorem absval (h : Approx M k x' x) : Approx M k |x'| |x| :=
  ⟨h.M0, h.k0, h.k1, by rw [abs_abs]; exact h.abs, (abs_abs_sub_abs_le_abs_sub _ _).trans h.err⟩

theorem divConst (h : Approx M k x' x) (c : ℝ) (hc : 0 < c) (hM : 1 / 2 ^ 100 ≤ M / c) : Approx (M / c) k (x' / c) (x / c) := by
  refine ⟨hM, h.k0, h.k1, ?_, ?_⟩
  · rw [abs_div, abs_of_pos hc]
    exact div_le_div_of_nonneg_right h.abs hc.le
  · rw [← sub_div, abs_div, abs_of_pos hc, ← mul_div_assoc]
    exact div_le_div_of_nonneg_right h.err hc.le

end Approx
end PyQC
