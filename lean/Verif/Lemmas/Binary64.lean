import Verif.Lemmas.Lapack
/-!
# Evaluating binary64 arithmetic on rational numbers
-/
namespace PyQC
namespace Rounding

/-- Powers of two, positive and negative. -/
def pow2 : ℤ → ℚ
  | .ofNat n => ((2 ^ n : ℕ) : ℚ)
  | .negSucc n => mkRat 1 (2 ^ (n + 1))

theorem pow2_eq (e : ℤ) : pow2 e = (2 : ℚ) ^ e := by
  cases e with
  | ofNat n => simp [pow2]
  | negSucc n =>
    rw [pow2, zpow_negSucc, Rat.mkRat_eq_div]
    simp

/-- The exponent of the leading binary digit. -/
def exponent (q : ℚ) : ℤ :=
  let k : ℤ := (q.num.natAbs.log2 : ℤ) - (q.den.log2 : ℤ)
  if pow2 k ≤ |q| then k else k - 1

/-- Rounding of a rational number to the nearest binary64 number. -/
def flq (q : ℚ) : ℚ :=
  if q = 0 then 0
  else
    let e := max (exponent q - 52) (-1074)
    roundEven (q / pow2 e) * pow2 e

theorem exponent_spec {q : ℚ} (h : q ≠ 0) : (2 : ℚ) ^ exponent q ≤ |q| ∧ |q| < (2 : ℚ) ^ (exponent q + 1) := by
  have hn : q.num.natAbs ≠ 0 := by simpa using h
  have n1 := Nat.log2_self_le hn
  have n2 := Nat.lt_log2_self (n := q.num.natAbs)
  have d1 := Nat.log2_self_le q.den_nz
  have d2 := Nat.lt_log2_self (n := q.den)
  have e : |q| = (q.num.natAbs : ℚ) / q.den := by
    conv_lhs => rw [← Rat.num_div_den q]
    rw [abs_div, Nat.abs_cast, Nat.cast_natAbs, Int.cast_abs]
  have hd : (0 : ℚ) < q.den := by exact_mod_cast q.den_pos
  have n1' : (2 : ℚ) ^ q.num.natAbs.log2 ≤ q.num.natAbs := by exact_mod_cast n1
  have n2' : (q.num.natAbs : ℚ) < 2 ^ (q.num.natAbs.log2 + 1) := by exact_mod_cast n2
  have d1' : (2 : ℚ) ^ q.den.log2 ≤ q.den := by exact_mod_cast d1
  have d2' : (q.den : ℚ) < 2 ^ (q.den.log2 + 1) := by exact_mod_cast d2
  have up : |q| < (2 : ℚ) ^ ((q.num.natAbs.log2 : ℤ) - q.den.log2 + 1) := by
    rw [e, div_lt_iff₀ hd]
    calc (q.num.natAbs : ℚ) < 2 ^ (q.num.natAbs.log2 + 1) := n2'
      _ = 2 ^ ((q.num.natAbs.log2 : ℤ) - q.den.log2 + 1) * 2 ^ q.den.log2 := by
        rw [← zpow_natCast, ← zpow_natCast, ← zpow_add₀ (by norm_num)]
        congr 1; push_cast; ring
      _ ≤ _ := by gcongr
  have low : (2 : ℚ) ^ ((q.num.natAbs.log2 : ℤ) - q.den.log2 - 1) ≤ |q| := by
    rw [e, le_div_iff₀ hd]
    calc (2 : ℚ) ^ ((q.num.natAbs.log2 : ℤ) - q.den.log2 - 1) * q.den
        ≤ 2 ^ ((q.num.natAbs.log2 : ℤ) - q.den.log2 - 1) * 2 ^ (q.den.log2 + 1) := by gcongr
      _ = 2 ^ q.num.natAbs.log2 := by
        rw [← zpow_natCast, ← zpow_natCast, ← zpow_add₀ (by norm_num)]
        congr 1; push_cast; ring
      _ ≤ _ := n1'
  unfold exponent
  dsimp only
  split
  · rename_i h1
    rw [pow2_eq] at h1
    exact ⟨h1, up⟩
  · rename_i h1
    rw [pow2_eq, not_le] at h1
    exact ⟨low, by rwa [sub_add_cancel]⟩

theorem log_exponent {q : ℚ} (h : q ≠ 0) : Int.log 2 |(q : ℝ)| = exponent q := by
  obtain ⟨h1, h2⟩ := exponent_spec h
  have hq : (0 : ℝ) < |(q : ℝ)| := abs_pos.2 (by exact_mod_cast h)
  have h1' : ((2 : ℕ) : ℝ) ^ exponent q ≤ |(q : ℝ)| := by
    have : ((2 ^ exponent q : ℚ) : ℝ) ≤ ((|q| : ℚ) : ℝ) := by exact_mod_cast h1
    push_cast at this ⊢
    exact this
  have h2' : |(q : ℝ)| < ((2 : ℕ) : ℝ) ^ (exponent q + 1) := by
    have : ((|q| : ℚ) : ℝ) < ((2 ^ (exponent q + 1) : ℚ) : ℝ) := by exact_mod_cast h2
    push_cast at this ⊢
    exact this
  refine le_antisymm ?_ ?_
  · have := (Int.lt_zpow_iff_log_lt (b := 2) (by norm_num) hq).1 h2'
    omega
  · exact (Int.zpow_le_iff_le_log (b := 2) (by norm_num) hq).1 h1'

theorem roundEven_cast (q : ℚ) : roundEven (q : ℝ) = roundEven q := by
  have e : Int.fract (q : ℝ) = ((Int.fract q : ℚ) : ℝ) := by
    rw [Int.fract, Int.fract, Rat.floor_cast]; push_cast; rfl
  have h1 : (Int.fract (q : ℝ) < 1 / 2) = (Int.fract q < 1 / 2) := by
    rw [e]
    have : ((1 / 2 : ℚ) : ℝ) = 1 / 2 := by norm_num
    rw [← this, Rat.cast_lt]
  have h2 : (1 / 2 < Int.fract (q : ℝ)) = (1 / 2 < Int.fract q) := by
    rw [e]
    have : ((1 / 2 : ℚ) : ℝ) = 1 / 2 := by norm_num
    rw [← this, Rat.cast_lt]
  unfold roundEven
  simp only [h1, h2, Rat.floor_cast]

/-- On rational numbers, `nearest` is computed by `flq`. -/
theorem nearest_cast (q : ℚ) : nearest (q : ℝ) = (flq q : ℝ) := by
  by_cases h : q = 0
  · rw [h, flq, if_pos rfl, nearest]
    simp [roundEven]
  · rw [nearest, flq, if_neg h]
    dsimp only
    have e : spacing (q : ℝ) = ((pow2 (max (exponent q - 52) (-1074)) : ℚ) : ℝ) := by
      rw [spacing, log_exponent h, pow2_eq]
      push_cast
      rfl
    rw [e, ← Rat.cast_div, roundEven_cast]
    push_cast
    rfl

end Rounding
end PyQC
