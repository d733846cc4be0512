import Verif.Spec.Value
import Verif.Model.Scalar
import Mathlib.Algebra.Field.Subfield.Basic
import Mathlib.NumberTheory.Real.Irrational
import Mathlib.Tactic.FieldSimp
import Mathlib.Tactic.LinearCombination
/-!
# The field of values and canonical representatives
-/
namespace PyQC

/-- `θ` is a quadratic irrational. -/
class Quad (θ : ℝ) : Prop where
  irr : Irrational θ
  quad : ∃ p q : ℚ, θ ^ 2 = p + q * θ

theorem tau_sq : tau ^ 2 = 1 + tau := by
  unfold tau
  have h : Real.sqrt 5 ^ 2 = 5 := Real.sq_sqrt (by norm_num)
  linear_combination h / 4

instance : Quad tau where
  irr := Real.goldenRatio_irrational
  quad := ⟨1, 1, by push_cast; rw [tau_sq]; ring⟩

theorem sin60_sq : sin60 ^ 2 = 3 / 4 := by
  unfold sin60
  have h : Real.sqrt 3 ^ 2 = 3 := Real.sq_sqrt (by norm_num)
  linear_combination h / 4

instance : Quad sin60 where
  irr := by
    have h : Irrational (Real.sqrt 3) := by
      have := Nat.Prime.irrational_sqrt (show Nat.Prime 3 by norm_num)
      simpa using this
    exact_mod_cast h.div_natCast (m := 2) (by norm_num)
  quad := ⟨3 / 4, 0, by push_cast; rw [sin60_sq]; ring⟩

section
variable (θ : ℝ)

theorem irr_zero [Quad θ] {p q : ℚ} (h : (p : ℝ) + q * θ = 0) : p = 0 ∧ q = 0 := by
  have hq : q = 0 := by
    by_contra hq
    have hq' : (q : ℝ) ≠ 0 := by exact_mod_cast hq
    apply (Quad.irr (θ := θ)).ne_rat (-p / q)
    push_cast
    field_simp
    linear_combination h
  subst hq
  simp at h
  exact ⟨by exact_mod_cast h, rfl⟩

theorem irr_zero_int [Quad θ] {p q : ℤ} (h : (p : ℝ) + q * θ = 0) : p = 0 ∧ q = 0 := by
  have := irr_zero θ (p := p) (q := q) (by push_cast; exact h)
  exact_mod_cast this

/-- Every `p + q θ` with rational `p,q` is the value of a triple. -/
theorem exists_num3 (p q : ℚ) : ∃ t : Num3, t.c ≠ 0 ∧ t.val θ = p + q * θ := by
  refine ⟨⟨p.num * q.den, q.num * p.den, p.den * q.den⟩, ?_, ?_⟩
  · simp
  · have h1 : (p.den : ℝ) ≠ 0 := by exact_mod_cast p.den_nz
    have h2 : (q.den : ℝ) ≠ 0 := by exact_mod_cast q.den_nz
    have e1 : (p : ℝ) = p.num / p.den := by exact_mod_cast (Rat.num_div_den p).symm
    have e2 : (q : ℝ) = q.num / q.den := by exact_mod_cast (Rat.num_div_den q).symm
    simp only [Num3.val]
    push_cast
    rw [e1, e2]
    field_simp

theorem val_rat (t : Num3) : ∃ p q : ℚ, t.val θ = p + q * θ := by
  refine ⟨t.a / t.c, t.b / t.c, ?_⟩
  simp only [Num3.val]
  push_cast
  ring

/-- The field of all values `(a+bθ)/c`. -/
def K [Quad θ] : Subfield ℝ where
  carrier := {x | ∃ p q : ℚ, x = p + q * θ}
  zero_mem' := ⟨0, 0, by simp⟩
  one_mem' := ⟨1, 0, by simp⟩
  add_mem' := by
    rintro x y ⟨p, q, rfl⟩ ⟨p', q', rfl⟩
    exact ⟨p + p', q + q', by push_cast; ring⟩
  neg_mem' := by
    rintro x ⟨p, q, rfl⟩
    exact ⟨-p, -q, by push_cast; ring⟩
  mul_mem' := by
    rintro x y ⟨p, q, rfl⟩ ⟨p', q', rfl⟩
    obtain ⟨r, s, h⟩ := Quad.quad (θ := θ)
    exact ⟨p * p' + q * q' * r, p * q' + q * p' + q * q' * s, by
      push_cast; linear_combination (q * q' : ℝ) * h⟩
  inv_mem' := by
    rintro x ⟨p, q, rfl⟩
    obtain ⟨r, s, h⟩ := Quad.quad (θ := θ)
    by_cases h0 : (p : ℝ) + q * θ = 0
    · exact ⟨0, 0, by simp [h0]⟩
    · -- conjugate p + q s - q θ, norm p² + p q s - q² r
      have hN : p ^ 2 + p * q * s - q ^ 2 * r ≠ 0 := by
        intro hN
        have hN' : ((p : ℝ) + q * θ) * (p + q * s - q * θ) = 0 := by
          have : (p : ℝ) ^ 2 + p * q * s - q ^ 2 * r = 0 := by exact_mod_cast hN
          linear_combination this - (q ^ 2 : ℝ) * h
        rcases mul_eq_zero.mp hN' with h1 | h1
        · exact h0 h1
        · have := irr_zero θ (p := p + q * s) (q := -q) (by push_cast; linear_combination h1)
          obtain ⟨h2, h3⟩ := this
          have hq : q = 0 := by simpa using h3
          subst hq
          have hp : p = 0 := by simpa using h2
          subst hp
          simp at h0
      refine ⟨(p + q * s) / (p ^ 2 + p * q * s - q ^ 2 * r),
        -q / (p ^ 2 + p * q * s - q ^ 2 * r), ?_⟩
      have hN' : ((p : ℝ) ^ 2 + p * q * s - q ^ 2 * r) ≠ 0 := by exact_mod_cast hN
      push_cast
      rw [inv_eq_iff_eq_inv, ← inv_inj, inv_inv] 
      have e : ((p + q * s) / (p ^ 2 + p * q * s - q ^ 2 * r) +
        -q / (p ^ 2 + p * q * s - q ^ 2 * r) * θ : ℝ) =
        (p + q * s - q * θ) / (p ^ 2 + p * q * s - q ^ 2 * r) := by ring
      rw [e]
      rw [inv_eq_one_div, div_eq_div_iff h0 hN']
      linear_combination (q ^ 2 : ℝ) * h

end
end PyQC
