import Verif.Model.Machine
import Verif.Props.Scalar
import Mathlib.Tactic.NormNum
import Mathlib.Tactic.Ring
import Mathlib.Tactic.Linarith
import Mathlib.Tactic.Positivity
/-!
# C07: machine arithmetic is exact inside a safe range, and not beyond

`Machine.*` are the Python functions with int64 wrap-around and float64 division; `Ico.*` and `Dode.*` are the same
functions with exact integers.
-/
namespace PyQC
namespace Machine

/-! ## Rounding is exact on integers up to `2^53` -/

theorem roundHalfEven_int (z : Int) : roundHalfEven (z : ℚ) = z := by
  unfold roundHalfEven
  simp

theorem toFloat64_int {z : Int} (h : |z| ≤ 2 ^ 53) : toFloat64 (z : ℚ) = z := by
  unfold toFloat64
  by_cases hz : z = 0
  · simp [hz]
  · rw [if_neg (by exact_mod_cast hz)]
    have hpos : (0 : ℚ) < |(z : ℚ)| := abs_pos.2 (by exact_mod_cast hz)
    have h1 : (2 : ℚ) ^ Int.log 2 |(z : ℚ)| ≤ |(z : ℚ)| := by
      exact_mod_cast Int.zpow_log_le_self (b := 2) (by norm_num) hpos
    have hle : Int.log 2 |(z : ℚ)| ≤ 53 := by
      by_contra hc
      have h2 : (2 : ℚ) ^ (54 : ℤ) ≤ 2 ^ Int.log 2 |(z : ℚ)| := zpow_le_zpow_right₀ (by norm_num) (by omega)
      have h3 : |(z : ℚ)| ≤ 2 ^ 53 := by exact_mod_cast h
      have h4 : (2 : ℚ) ^ (54 : ℤ) = 2 ^ 54 := by norm_cast
      rw [h4] at h2
      have h5 := (h2.trans h1).trans h3
      norm_num at h5
    simp only
    have key : ∃ k : Int, (z : ℚ) / 2 ^ (Int.log 2 |(z : ℚ)| - 52) = k := by
      rcases lt_or_eq_of_le hle with hlt | heq
      · refine ⟨z * 2 ^ (52 - Int.log 2 |(z : ℚ)|).toNat, ?_⟩
        have e : (2 : ℚ) ^ (Int.log 2 |(z : ℚ)| - 52) = (2 ^ (52 - Int.log 2 |(z : ℚ)|).toNat)⁻¹ := by
          rw [← zpow_natCast, ← zpow_neg]
          congr 1
          omega
        rw [e, div_inv_eq_mul]
        push_cast
        ring
      · have h3 : |(z : ℚ)| ≤ 2 ^ 53 := by exact_mod_cast h
        rw [heq] at h1 ⊢
        have h4 : (2 : ℚ) ^ (53 : ℤ) = 2 ^ 53 := by norm_cast
        rw [h4] at h1
        have h5 : |(z : ℚ)| = 2 ^ 53 := le_antisymm h3 h1
        rcases eq_or_eq_neg_of_abs_eq h5 with h6 | h6
        · exact ⟨2 ^ 52, by rw [h6]; norm_num⟩
        · exact ⟨-2 ^ 52, by rw [h6]; norm_num⟩
    obtain ⟨k, hk⟩ := key
    rw [hk, roundHalfEven_int, ← hk]
    exact div_mul_cancel₀ _ (zpow_ne_zero _ (by norm_num))

theorem trunc_int (z : Int) : trunc (z : ℚ) = z := by
  unfold trunc
  split_ifs <;> simp

theorem wrap64_small {z : Int} (h : IsInt64 z) : wrap64 z = z := by
  unfold wrap64
  rcases h with ⟨h1, h2⟩
  exact Int.bmod_eq_of_le (by norm_num at h1 ⊢; omega) (by norm_num at h2 ⊢; omega)

theorem isInt64_of_abs {z : Int} (h : |z| ≤ 2 ^ 53) : IsInt64 z := by
  rw [abs_le] at h
  constructor
  · have : (-2 ^ 63 : Int) ≤ -2 ^ 53 := by norm_num
    exact this.trans h.1
  · have : (2 ^ 53 : Int) < 2 ^ 63 := by norm_num
    exact h.2.trans_lt this

theorem gcd3_small {c1 c2 c3 : Int} (h1 : |c1| ≤ 2 ^ 53) (h2 : |c2| ≤ 2 ^ 53) (h3 : |c3| ≤ 2 ^ 53) :
    gcd3 c1 c2 c3 = PyQC.gcd3 c1 c2 c3 ∧ |PyQC.gcd3 c1 c2 c3| ≤ 2 ^ 53 := by
  have key : ∀ a b : Int, |a| ≤ 2 ^ 53 → |b| ≤ 2 ^ 53 → |((Int.gcd a b : Nat) : Int)| ≤ 2 ^ 53 := by
    intro a b ha hb
    rw [abs_of_nonneg (by positivity)]
    by_cases h : a = 0
    · rw [h, Int.gcd_zero_left, Int.natCast_natAbs]; exact hb
    · refine le_trans ?_ ha
      rw [← Int.natCast_natAbs a]
      exact_mod_cast Nat.le_of_dvd (Int.natAbs_pos.2 h) (Int.gcd_dvd_natAbs_left a b)
  have e1 := key c1 c2 h1 h2
  have e2 := key _ c3 e1 h3
  unfold gcd3 PyQC.gcd3
  rw [wrap64_small (isInt64_of_abs e1), wrap64_small (isInt64_of_abs e2)]
  exact ⟨rfl, e2⟩

theorem trueDiv_dvd {c g : Int} (hc : |c| ≤ 2 ^ 53) (hg : |g| ≤ 2 ^ 53) (h0 : g ≠ 0) (h : g ∣ c) :
    trueDiv c g = ((c / g : Int) : ℚ) := by
  unfold trueDiv
  rw [toFloat64_int hc, toFloat64_int hg]
  obtain ⟨k, rfl⟩ := h
  have hq : (g : ℚ) ≠ 0 := by exact_mod_cast h0
  have e : ((g * k : Int) : ℚ) / g = k := by push_cast; field_simp
  rw [e, Int.mul_ediv_cancel_left _ h0, toFloat64_int]
  refine le_trans ?_ hc
  rw [abs_mul]
  exact le_mul_of_one_le_left (abs_nonneg _) (Int.one_le_abs h0)

theorem gcd3_dvd (c1 c2 c3 : Int) : PyQC.gcd3 c1 c2 c3 ∣ c1 ∧ PyQC.gcd3 c1 c2 c3 ∣ c2 ∧ PyQC.gcd3 c1 c2 c3 ∣ c3 := by
  unfold PyQC.gcd3
  exact ⟨(Int.gcd_dvd_left _ _).trans (Int.gcd_dvd_left _ _), (Int.gcd_dvd_left _ _).trans (Int.gcd_dvd_right _ _),
    Int.gcd_dvd_right _ _⟩

theorem reduce3_eq {c1 c2 c3 : Int} (h1 : |c1| ≤ 2 ^ 53) (h2 : |c2| ≤ 2 ^ 53) (h3 : |c3| ≤ 2 ^ 53) :
    reduce3 c1 c2 c3 = PyQC.reduce3 c1 c2 c3 := by
  obtain ⟨e, hg⟩ := gcd3_small h1 h2 h3
  obtain ⟨d1, d2, d3⟩ := gcd3_dvd c1 c2 c3
  unfold reduce3 PyQC.reduce3
  simp only [e]
  by_cases h0 : PyQC.gcd3 c1 c2 c3 = 0
  · rw [if_pos h0, if_pos h0]
  · rw [if_neg h0, if_neg h0, trueDiv_dvd h1 hg h0 d1, trueDiv_dvd h2 hg h0 d2, trueDiv_dvd h3 hg h0 d3]
    simp only [← Int.cast_neg, trunc_int, Int.cast_lt_zero]

theorem reduceDiv_eq {c1 c2 c3 : Int} (h1 : |c1| ≤ 2 ^ 53) (h2 : |c2| ≤ 2 ^ 53) (h3 : |c3| ≤ 2 ^ 53) :
    reduceDiv c1 c2 c3 = PyQC.reduceDiv c1 c2 c3 := by
  obtain ⟨e, hg⟩ := gcd3_small h1 h2 h3
  obtain ⟨d1, d2, d3⟩ := gcd3_dvd c1 c2 c3
  unfold reduceDiv PyQC.reduceDiv
  simp only [e]
  by_cases h0 : PyQC.gcd3 c1 c2 c3 = 0
  · rw [if_neg (not_not.2 h0), if_neg (not_not.2 h0)]
  · rw [if_pos h0, if_pos h0, trueDiv_dvd h1 hg h0 d1, trueDiv_dvd h2 hg h0 d2, trueDiv_dvd h3 hg h0 d3]
    simp only [← Int.cast_neg, trunc_int, Int.cast_lt_zero]

/-! ## Wrapping commutes with the ring operations -/

@[simp] theorem imul_wrap_left (x y : Int) : imul (wrap64 x) y = wrap64 (x * y) := by
  unfold imul wrap64; simp
@[simp] theorem imul_wrap_right (x y : Int) : imul x (wrap64 y) = wrap64 (x * y) := by
  unfold imul wrap64; simp
@[simp] theorem iadd_wrap (x y : Int) : iadd (wrap64 x) (wrap64 y) = wrap64 (x + y) := by
  unfold iadd wrap64; simp
@[simp] theorem iadd_wrap_left (x y : Int) : iadd (wrap64 x) y = wrap64 (x + y) := by
  unfold iadd wrap64; simp
@[simp] theorem isub_wrap (x y : Int) : isub (wrap64 x) (wrap64 y) = wrap64 (x - y) := by
  unfold isub wrap64; simp

/-- All three components of `x` are at most `M` in size. -/
def Within (M : Int) (x : Num3) : Prop := |x.a| ≤ M ∧ |x.b| ≤ M ∧ |x.c| ≤ M

theorem mul_le {x y M N : Int} (hx : |x| ≤ M) (hy : |y| ≤ N) : |x * y| ≤ M * N := by
  rw [abs_mul]
  exact mul_le_mul hx hy (abs_nonneg _) ((abs_nonneg _).trans hx)

theorem add_le {x y M N : Int} (hx : |x| ≤ M) (hy : |y| ≤ N) : |x + y| ≤ M + N :=
  (abs_add_le x y).trans (add_le_add hx hy)

theorem sub_le {x y M N : Int} (hx : |x| ≤ M) (hy : |y| ≤ N) : |x - y| ≤ M + N :=
  (abs_sub x y).trans (add_le_add hx hy)

theorem wrap64_le {z M : Int} (h : |z| ≤ M) (hM : M ≤ 2 ^ 53) : wrap64 z = z :=
  wrap64_small (isInt64_of_abs (h.trans hM))

/-! ## The operations agree with exact arithmetic -/

/-- `add` is exact whenever the three components before reduction are at most `2^53` in size; intermediate products
may wrap. -/
theorem add_eq {x y : Num3} (h1 : |x.a * y.c + y.a * x.c| ≤ 2 ^ 53) (h2 : |x.b * y.c + y.b * x.c| ≤ 2 ^ 53)
    (h3 : |x.c * y.c| ≤ 2 ^ 53) :
    add x y = PyQC.Ico.add x y := by
  unfold add PyQC.Ico.add
  have e : ∀ u v : Int, imul u v = wrap64 (u * v) := fun _ _ => rfl
  simp only [e, iadd_wrap]
  rw [wrap64_le h1 le_rfl, wrap64_le h2 le_rfl, wrap64_le h3 le_rfl]
  exact reduce3_eq h1 h2 h3

theorem ico_mul_eq {x y : Num3} (h1 : |x.a * y.a + x.b * y.b| ≤ 2 ^ 53)
    (h2 : |x.a * y.b + x.b * y.a + x.b * y.b| ≤ 2 ^ 53) (h3 : |x.c * y.c| ≤ 2 ^ 53) :
    Ico.mul x y = PyQC.Ico.mul x y := by
  unfold Ico.mul PyQC.Ico.mul
  have e : ∀ u v : Int, imul u v = wrap64 (u * v) := fun _ _ => rfl
  simp only [e, iadd_wrap]
  rw [wrap64_le h1 le_rfl, wrap64_le h2 le_rfl, wrap64_le h3 le_rfl]
  exact reduce3_eq h1 h2 h3

theorem imul_eq (u v : Int) : imul u v = wrap64 (u * v) := rfl

theorem dode_mul_eq {x y : Num3} (h1 : |4 * x.a * y.a + 3 * x.b * y.b| ≤ 2 ^ 53)
    (h2 : |4 * (x.a * y.b + x.b * y.a)| ≤ 2 ^ 53) (h3 : |4 * x.c * y.c| ≤ 2 ^ 53) :
    Dode.mul x y = PyQC.Dode.mul x y := by
  have e : Dode.mul x y = reduce3 (wrap64 (4 * x.a * y.a + 3 * x.b * y.b)) (wrap64 (4 * (x.a * y.b + x.b * y.a)))
      (wrap64 (4 * x.c * y.c)) := by
    unfold Dode.mul
    rw [imul_eq 4 x.a, imul_eq 3 x.b, imul_eq 4 x.c, imul_wrap_left, imul_wrap_left, imul_wrap_left, iadd_wrap,
      imul_eq x.a y.b, imul_eq x.b y.a, iadd_wrap, imul_wrap_right]
  rw [e, wrap64_le h1 le_rfl, wrap64_le h2 le_rfl, wrap64_le h3 le_rfl]
  exact reduce3_eq h1 h2 h3

theorem add_within {M : Int} (hM : 2 * (M * M) ≤ 2 ^ 53) {x y : Num3} (hx : Within M x) (hy : Within M y) :
    add x y = PyQC.Ico.add x y := by
  obtain ⟨xa, xb, xc⟩ := hx
  obtain ⟨ya, yb, yc⟩ := hy
  have h0 : 0 ≤ M * M := mul_self_nonneg M
  apply add_eq
  · exact (add_le (mul_le xa yc) (mul_le ya xc)).trans (by linarith)
  · exact (add_le (mul_le xb yc) (mul_le yb xc)).trans (by linarith)
  · exact (mul_le xc yc).trans (by linarith)

theorem safe25 : (2 : Int) * (2 ^ 25 * 2 ^ 25) ≤ 2 ^ 53 := by norm_num

theorem minus_one_within : Within (2 ^ 25) ⟨-1, 0, 1⟩ := by
  have h : (1 : Int) ≤ 2 ^ 25 := by norm_num
  exact ⟨by rw [abs_neg, abs_one]; exact h, by rw [abs_zero]; exact zero_le_one.trans h, by rw [abs_one]; exact h⟩

theorem ediv_le (c g : Int) : |c / g| ≤ |c| := by
  rw [Int.abs_eq_natAbs, Int.abs_eq_natAbs]
  exact_mod_cast Int.natAbs_ediv_le_natAbs c g

/-- Reduction does not make a component larger. -/
theorem reduce3_le {c1 c2 c3 : Int} {r : Num3} (h : PyQC.reduce3 c1 c2 c3 = .ok r) :
    |r.a| ≤ |c1| ∧ |r.b| ≤ |c2| ∧ |r.c| ≤ |c3| := by
  unfold PyQC.reduce3 at h
  simp only at h
  split_ifs at h
  · cases h
    simp only [abs_neg]
    exact ⟨ediv_le _ _, ediv_le _ _, ediv_le _ _⟩
  · cases h
    exact ⟨ediv_le _ _, ediv_le _ _, ediv_le _ _⟩

/-! ## C07 -/

theorem ico_mul_within {u v : Num3} (hu : Within (2 ^ 25) u) (hv : Within (2 ^ 25) v) :
    Ico.mul u v = PyQC.Ico.mul u v := by
  obtain ⟨ua, ub, uc⟩ := hu
  obtain ⟨va, vb, vc⟩ := hv
  apply ico_mul_eq
  · exact (add_le (mul_le ua va) (mul_le ub vb)).trans (by norm_num)
  · exact (add_le (add_le (mul_le ua vb) (mul_le ub va)) (mul_le ub vb)).trans (by norm_num)
  · exact (mul_le uc vc).trans (by norm_num)

theorem sub_congr {m1 m2 : Py Num3} {f g : Num3 → Py Num3} (h : m1 = m2) (hf : ∀ y, m2 = .ok y → f y = g y) :
    m1.bind f = m2.bind g := by
  subst h
  cases m1 with
  | error e => rfl
  | ok y => exact hf y rfl

theorem ico_sub_bind (x y : Num3) : PyQC.Ico.sub x y = (PyQC.Ico.mul ⟨-1, 0, 1⟩ y).bind (PyQC.Ico.add x) := by
  unfold PyQC.Ico.sub
  cases PyQC.Ico.mul ⟨-1, 0, 1⟩ y <;> rfl

theorem dode_sub_bind (x y : Num3) : PyQC.Dode.sub x y = (PyQC.Dode.mul ⟨-1, 0, 1⟩ y).bind (PyQC.Dode.add x) := by
  unfold PyQC.Dode.sub
  cases PyQC.Dode.mul ⟨-1, 0, 1⟩ y <;> rfl

theorem ico_sub_within {x y : Num3} (hx : Within (2 ^ 25) x) (hy : Within (2 ^ 25) y) :
    Ico.sub x y = PyQC.Ico.sub x y := by
  rw [ico_sub_bind]
  refine sub_congr (ico_mul_within minus_one_within hy) fun y' h => ?_
  have := reduce3_le h
  simp only [neg_mul, one_mul, zero_mul, add_zero, abs_neg] at this
  exact add_within safe25 hx ⟨this.1.trans hy.1, this.2.1.trans hy.2.1, this.2.2.trans hy.2.2⟩

theorem dode_mul_within {u v : Num3} (hu : Within (2 ^ 25) u) (hv : Within (2 ^ 25) v) :
    Dode.mul u v = PyQC.Dode.mul u v := by
  have h4 : |(4 : Int)| ≤ 4 := by norm_num
  have h3 : |(3 : Int)| ≤ 3 := by norm_num
  obtain ⟨ua, ub, uc⟩ := hu
  obtain ⟨va, vb, vc⟩ := hv
  apply dode_mul_eq
  · exact (add_le (mul_le (mul_le h4 ua) va) (mul_le (mul_le h3 ub) vb)).trans (by norm_num)
  · exact (mul_le h4 (add_le (mul_le ua vb) (mul_le ub va))).trans (by norm_num)
  · exact (mul_le (mul_le h4 uc) vc).trans (by norm_num)

theorem dode_sub_within {x y : Num3} (hx : Within (2 ^ 25) x) (hy : Within (2 ^ 25) y) :
    Dode.sub x y = PyQC.Dode.sub x y := by
  have h4 : |(4 : Int)| ≤ 4 := by norm_num
  have hm4 : |(-4 : Int)| ≤ 4 := by norm_num
  rw [dode_sub_bind]
  refine sub_congr (dode_mul_within minus_one_within hy) fun y' h => ?_
  obtain ⟨h1, h2, h3⟩ := reduce3_le h
  obtain ⟨xa, xb, xc⟩ := hx
  obtain ⟨ya, yb, yc⟩ := hy
  have e1 : (4 * -1 * y.a + 3 * 0 * y.b : Int) = -4 * y.a := by ring
  have e2 : (4 * (-1 * y.b + 0 * y.a) : Int) = -4 * y.b := by ring
  have e3 : (4 * 1 * y.c : Int) = 4 * y.c := by ring
  rw [e1] at h1
  rw [e2] at h2
  rw [e3] at h3
  have ya' := h1.trans (mul_le hm4 ya)
  have yb' := h2.trans (mul_le hm4 yb)
  have yc' := h3.trans (mul_le h4 yc)
  apply add_eq
  · exact (add_le (mul_le xa yc') (mul_le ya' xc)).trans (by norm_num)
  · exact (add_le (mul_le xb yc') (mul_le yb' xc)).trans (by norm_num)
  · exact (mul_le xc yc').trans (by norm_num)

theorem add_within25 {x y : Num3} (hx : Within (2 ^ 25) x) (hy : Within (2 ^ 25) y) :
    add x y = PyQC.Ico.add x y := add_within safe25 hx hy

/-- C07, ico2: `add`, `sub` and `mul` return exactly what exact integer arithmetic returns (including the ValueError of
zero denominators) when every component is at most `2^25` in size. -/
theorem C07_ico (x y : Num3) (hx : Within (2 ^ 25) x) (hy : Within (2 ^ 25) y) :
    add x y = PyQC.Ico.add x y ∧ Ico.sub x y = PyQC.Ico.sub x y ∧ Ico.mul x y = PyQC.Ico.mul x y :=
  ⟨add_within25 hx hy, ico_sub_within hx hy, ico_mul_within hx hy⟩

/-- C07, dode2. -/
theorem C07_dode (x y : Num3) (hx : Within (2 ^ 25) x) (hy : Within (2 ^ 25) y) :
    add x y = PyQC.Dode.add x y ∧ Dode.sub x y = PyQC.Dode.sub x y ∧ Dode.mul x y = PyQC.Dode.mul x y :=
  ⟨add_within25 hx hy, dode_sub_within hx hy, dode_mul_within hx hy⟩

/-- C07 in terms of values: inside the range and with non-zero denominators, each operation returns the canonical triple
whose value is exactly the sum, difference or product. -/
theorem C07_values (x y : Num3) (hx : Within (2 ^ 25) x) (hy : Within (2 ^ 25) y) (hxc : x.c ≠ 0) (hyc : y.c ≠ 0) :
    (∃ r, add x y = .ok r ∧ r.val tau = x.val tau + y.val tau ∧ r.Canon) ∧
    (∃ r, Ico.sub x y = .ok r ∧ r.val tau = x.val tau - y.val tau ∧ r.Canon) ∧
    (∃ r, Ico.mul x y = .ok r ∧ r.val tau = x.val tau * y.val tau ∧ r.Canon) ∧
    (∃ r, add x y = .ok r ∧ r.val sin60 = x.val sin60 + y.val sin60 ∧ r.Canon) ∧
    (∃ r, Dode.sub x y = .ok r ∧ r.val sin60 = x.val sin60 - y.val sin60 ∧ r.Canon) ∧
    (∃ r, Dode.mul x y = .ok r ∧ r.val sin60 = x.val sin60 * y.val sin60 ∧ r.Canon) := by
  obtain ⟨i1, i2, i3⟩ := C07_ico x y hx hy
  obtain ⟨d1, d2, d3⟩ := C07_dode x y hx hy
  refine ⟨?_, ?_, ?_, ?_, ?_, ?_⟩
  · rw [i1]; exact C01_add x y hxc hyc
  · rw [i2]; exact C01_sub x y hxc hyc
  · rw [i3]; exact C01_mul x y hxc hyc
  · rw [d1]; exact C04_add x y hxc hyc
  · rw [d2]; exact C04_sub x y hxc hyc
  · rw [d3]; exact C04_mul x y hxc hyc

theorem isub_eq (u v : Int) : isub u v = wrap64 (u - v) := rfl
theorem iadd_eq (u v : Int) : iadd u v = wrap64 (u + v) := rfl
theorem ineg_eq (u : Int) : ineg u = wrap64 (-u) := rfl

theorem div_arg1 (a b c d e : Int) : imul (isub (iadd (imul a b) (imul a d)) (imul e d)) c =
    wrap64 ((a * b + a * d - e * d) * c) := by simp [imul, iadd, isub, wrap64]
theorem div_arg2 (a b c d e : Int) : imul (isub (imul a b) (imul d e)) c = wrap64 ((a * b - d * e) * c) := by
  simp [imul, isub, wrap64]
theorem div_arg3 (a b c : Int) : imul (iadd (isub (imul a a) (imul b b)) (imul a b)) c =
    wrap64 ((a * a - b * b + a * b) * c) := by simp [imul, iadd, isub, wrap64]
theorem div_arg4 (a b c : Int) : imul (iadd (ineg a) b) c = wrap64 ((-a + b) * c) := by
  simp [imul, iadd, ineg, wrap64]
theorem div_arg5 (a b c d e : Int) : imul c (isub (imul (imul 4 a) b) (imul (imul 3 d) e)) =
    wrap64 (c * (4 * a * b - 3 * d * e)) := by simp [imul, isub, wrap64]
theorem div_arg6 (a b c d e : Int) : imul (imul (-4) c) (isub (imul a b) (imul d e)) =
    wrap64 (-4 * c * (a * b - d * e)) := by simp [imul, isub, wrap64]

/-- C07, division: exact up to `2^16` in both packages (three factors meet in one product). -/
theorem C07_div (x y : Num3) (hx : Within (2 ^ 16) x) (hy : Within (2 ^ 16) y) :
    Ico.div x y = PyQC.Ico.div x y ∧ Dode.div x y = PyQC.Dode.div x y := by
  obtain ⟨xa, xb, xc⟩ := hx
  obtain ⟨ya, yb, yc⟩ := hy
  have xa' : |-x.a| ≤ 2 ^ 16 := by rw [abs_neg]; exact xa
  have h3 : |(3 : Int)| ≤ 3 := by norm_num
  have h4 : |(4 : Int)| ≤ 4 := by norm_num
  have h6 : |(6 : Int)| ≤ 6 := by norm_num
  have hm4 : |(-4 : Int)| ≤ 4 := by norm_num
  have key : ∀ {c1 c2 c3 : Int}, |c1| ≤ 2 ^ 53 → |c2| ≤ 2 ^ 53 → |c3| ≤ 2 ^ 53 →
      reduceDiv (wrap64 c1) (wrap64 c2) (wrap64 c3) = PyQC.reduceDiv c1 c2 c3 := by
    intro c1 c2 c3 h1 h2 h3
    rw [wrap64_le h1 le_rfl, wrap64_le h2 le_rfl, wrap64_le h3 le_rfl]
    exact reduceDiv_eq h1 h2 h3
  constructor
  · unfold Ico.div PyQC.Ico.div
    rw [div_arg1, div_arg2, div_arg3, div_arg4, imul_eq x.a y.c, imul_eq x.b y.c, imul_eq y.b x.c, imul_eq y.a x.c]
    rw [key ((mul_le xa yc).trans (by norm_num)) ((mul_le xb yc).trans (by norm_num))
        ((mul_le ya xc).trans (by norm_num)),
      key ((mul_le (add_le xa' xb) yc).trans (by norm_num)) ((mul_le xa yc).trans (by norm_num))
        ((mul_le yb xc).trans (by norm_num)),
      key ((mul_le (sub_le (add_le (mul_le xa ya) (mul_le xa yb)) (mul_le xb yb)) yc).trans (by norm_num))
        ((mul_le (sub_le (mul_le xb ya) (mul_le xa yb)) yc).trans (by norm_num))
        ((mul_le (add_le (sub_le (mul_le ya ya) (mul_le yb yb)) (mul_le ya yb)) xc).trans (by norm_num))]
  · have hn' : |4 * y.a ^ 2 - 3 * y.b ^ 2| ≤ 4 * (2 ^ 16 * 2 ^ 16) + 3 * (2 ^ 16 * 2 ^ 16) := by
      rw [pow_two, pow_two]
      exact sub_le (mul_le h4 (mul_le ya ya)) (mul_le h3 (mul_le yb yb))
    have hn : Dode.norm4 y = 4 * y.a ^ 2 - 3 * y.b ^ 2 := by
      rw [← wrap64_le hn' (by norm_num), pow_two, pow_two]
      simp [Dode.norm4, imul, isub, wrap64]
    unfold Dode.div PyQC.Dode.div
    rw [hn, div_arg5, div_arg6, imul_eq 3 x.b, imul_wrap_left, imul_eq 4 x.a, imul_wrap_left, imul_eq 6 x.c,
      imul_wrap_left, imul_eq 3 x.c, imul_wrap_left, imul_eq x.a y.c, imul_eq x.b y.c, imul_eq y.a x.c, imul_eq x.c]
    rw [key ((mul_le xa yc).trans (by norm_num)) ((mul_le xb yc).trans (by norm_num))
        ((mul_le ya xc).trans (by norm_num)),
      key ((mul_le (mul_le h3 xb) yc).trans (by norm_num)) ((mul_le (mul_le h4 xa) yc).trans (by norm_num))
        ((mul_le (mul_le h3 xc) yb).trans (by norm_num)),
      key ((mul_le (mul_le h3 xb) yc).trans (by norm_num)) ((mul_le (mul_le h4 xa) yc).trans (by norm_num))
        ((mul_le (mul_le h6 xc) yb).trans (by norm_num)),
      key ((mul_le yc (sub_le (mul_le (mul_le h4 xa) ya) (mul_le (mul_le h3 xb) yb))).trans (by norm_num))
        ((mul_le (mul_le hm4 yc) (sub_le (mul_le xa yb) (mul_le xb ya))).trans (by norm_num))
        ((mul_le xc hn').trans (by norm_num))]

/-- C07 beyond the range, rounding: with components of size at most `2^27 + 1` the product is already wrong. The exact
product `2^54 - 1` needs 54 bits and is rounded to `2^54`. -/
theorem C07_rounding : ∃ x y : Num3, Within (2 ^ 27 + 1) x ∧ Within (2 ^ 27 + 1) y ∧ x.Canon ∧ y.Canon ∧
    (∃ r, Ico.mul x y = .ok r ∧ r.val tau ≠ x.val tau * y.val tau) ∧
    (∃ r, Dode.mul x y = .ok r ∧ r.val sin60 ≠ x.val sin60 * y.val sin60) := by
  refine ⟨⟨2 ^ 27 + 1, 0, 1⟩, ⟨2 ^ 27 - 1, 0, 1⟩, by unfold Within; norm_num, by unfold Within; norm_num, by decide,
    by decide, ⟨⟨2 ^ 54, 0, 1⟩, by decide +kernel, ?_⟩, ⟨⟨2 ^ 54, 0, 1⟩, by decide +kernel, ?_⟩⟩
  all_goals
    unfold Num3.val
    norm_num

/-- C07 beyond the range, wrap-around: two positive int64 numbers have a negative product and a negative sum. -/
theorem C07_wrap : ∃ x y : Num3, Within (2 ^ 32) x ∧ Within (2 ^ 32) y ∧ 0 < x.val tau ∧ 0 < y.val tau ∧
    (∃ r, Ico.mul x y = .ok r ∧ r.val tau < 0) ∧ (∃ r, Dode.mul x y = .ok r ∧ r.val sin60 = 0) ∧
    ∃ z w : Num3, Within (2 ^ 63 - 1) z ∧ Within (2 ^ 63 - 1) w ∧ 0 < z.val tau ∧ 0 < w.val tau ∧
      ∃ r, add z w = .ok r ∧ r.val tau < 0 := by
  refine ⟨⟨2 ^ 32, 0, 1⟩, ⟨2 ^ 31, 0, 1⟩, by unfold Within; norm_num, by unfold Within; norm_num, ?_, ?_,
    ⟨⟨-2 ^ 63, 0, 1⟩, by decide +kernel, ?_⟩, ⟨⟨0, 0, 1⟩, by decide +kernel, ?_⟩,
    ⟨2 ^ 62, 0, 1⟩, ⟨2 ^ 62, 0, 1⟩, by unfold Within; norm_num, by unfold Within; norm_num, ?_, ?_,
    ⟨-2 ^ 63, 0, 1⟩, by decide +kernel, ?_⟩
  all_goals
    unfold Num3.val
    norm_num

/-- Two numbers near the bound, not reduced. -/
example : Within (2 ^ 25) ⟨2 ^ 25 - 1, -(2 ^ 25), 6⟩ ∧ Within (2 ^ 25) ⟨5, 2 ^ 25, -(2 ^ 24)⟩ := by
  unfold Within; norm_num
example : Ico.mul ⟨2 ^ 25 - 1, -(2 ^ 25), 6⟩ ⟨5, 2 ^ 25, -(2 ^ 24)⟩ =
    PyQC.Ico.mul ⟨2 ^ 25 - 1, -(2 ^ 25), 6⟩ ⟨5, 2 ^ 25, -(2 ^ 24)⟩ := by decide +kernel
example : Within (2 ^ 16) ⟨-65535, 65536, 7⟩ ∧ Within (2 ^ 16) ⟨3, -4, 65535⟩ := by unfold Within; norm_num

end Machine
end PyQC
