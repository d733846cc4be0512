import Verif.Props.Scalar
import Verif.Model.Legacy
/-!
# C120: the scalar arithmetic of the Cython packages agrees with that of the Python packages

`src_cython` holds an older copy of `add`, `sub`, `mul` and `div`, for the icosahedral, dodecagonal and decagonal packages. The
results are compared with the functions of `ico2` and `dode2`, whose values C01–C06 settle.
-/
namespace PyQC

open Legacy

/-- The value of a call that returns, `none` for an exception. -/
def Py.value {α : Type} : Py α → Option α
  | .ok x => some x
  | .error _ => none

theorem reduced_div (c1 c2 c3 : Int) : reduced c1 c2 c3 = reduceDiv c1 c2 c3 := by
  obtain ⟨h1, h2, h3⟩ := gcd3_dvd c1 c2 c3
  unfold reduced reduceDiv
  by_cases hg : gcd3 c1 c2 c3 = 0
  · simp [hg]
  · simp only [hg, if_false, ne_eq, not_false_eq_true, if_true, Int.neg_ediv_of_dvd h1, Int.neg_ediv_of_dvd h2,
      Int.neg_ediv_of_dvd h3]

theorem reduced_three (c1 c2 c3 : Int) : reduced c1 c2 c3 = Py.value (reduce3 c1 c2 c3) := by
  rw [reduced_div]
  unfold reduceDiv reduce3
  by_cases hg : gcd3 c1 c2 c3 = 0
  · simp [hg, Py.value]
  · simp only [hg, ne_eq, not_false_eq_true, if_true, if_false]
    split_ifs <;> rfl

/-- C120: `add` of all Cython packages is `add` of both Python packages, on all inputs, failures included. -/
theorem C120_add (x y : Num3) : Legacy.add x y = Py.value (Ico.add x y) ∧ Legacy.add x y = Py.value (Dode.add x y) :=
  ⟨reduced_three _ _ _, reduced_three _ _ _⟩

/-- C120: `mul` of the icosahedral package is `mul` of `ico2`; that of the other two is `mul` of `dode2`. -/
theorem C120_mul (x y : Num3) : mulIco x y = Py.value (Ico.mul x y) ∧ mulDode x y = Py.value (Dode.mul x y) :=
  ⟨reduced_three _ _ _, reduced_three _ _ _⟩

/-- C120: `sub`, which the Cython packages compute directly and the Python packages through `mul` and `add`, gives the same triple
in all of them when the denominators are not zero. -/
theorem C120_sub (x y : Num3) (hx : x.c ≠ 0) (hy : y.c ≠ 0) :
    Legacy.sub x y = Py.value (Ico.sub x y) ∧ Legacy.sub x y = Py.value (Dode.sub x y) := by
  have hx' : (x.c : ℝ) ≠ 0 := by exact_mod_cast hx
  have hy' : (y.c : ℝ) ≠ 0 := by exact_mod_cast hy
  constructor
  · rw [Ico.sub_ok hx hy, Legacy.sub, reduced_three, reduce3_norm (θ := tau) (mul_ne_zero hx hy)]
    push_cast
    simp only [coe_kval, Num3.val]
    field_simp
    ring
  · rw [Dode.sub_ok hx hy, Legacy.sub, reduced_three, reduce3_norm (θ := sin60) (mul_ne_zero hx hy)]
    push_cast
    simp only [coe_kval, Num3.val]
    field_simp
    ring

/-- C120: `div` of the icosahedral package is `div` of `ico2` on all inputs: it fails where that returns `None`. -/
theorem C120_div_ico (x y : Num3) : divIco x y = Ico.div x y := by
  unfold divIco Ico.div
  simp only [reduced_div]

/-- C120: `div` of the dodecagonal and decagonal packages is `div` of `dode2` on all inputs. -/
theorem C120_div_dode (x y : Num3) : divDode x y = Dode.div x y := by
  unfold divDode Dode.div
  simp only [reduced_div]
  by_cases ha : y.a = 0 <;> by_cases hb : y.b = 0 <;> simp [ha, hb, mul_comm x.c y.a]

/-- C120: so the Cython functions are the operations of the field: for non-zero denominators the results are in lowest terms with a
positive denominator and have the sum, the difference, the product and, for a divisor that is not zero, the quotient as value. -/
theorem C120_field_ico (x y : Num3) (hx : x.c ≠ 0) (hy : y.c ≠ 0) :
    Legacy.add x y = some (norm (kval tau x + kval tau y)) ∧ Legacy.sub x y = some (norm (kval tau x - kval tau y)) ∧
      mulIco x y = some (norm (kval tau x * kval tau y)) ∧
      (y.val tau ≠ 0 → divIco x y = some (norm (kval tau x / kval tau y))) := by
  refine ⟨?_, ?_, ?_, fun h => ?_⟩
  · rw [(C120_add x y).1, Ico.add_ok hx hy]; rfl
  · rw [(C120_sub x y hx hy).1, Ico.sub_ok hx hy]; rfl
  · rw [(C120_mul x y).1, Ico.mul_ok hx hy]; rfl
  · rw [C120_div_ico, Ico.div_ok hx hy fun h0 => h (by rw [Subtype.ext_iff] at h0; exact h0)]

/-- C120: the same for the dodecagonal and decagonal packages, in the field with √3. -/
theorem C120_field_dode (x y : Num3) (hx : x.c ≠ 0) (hy : y.c ≠ 0) :
    Legacy.add x y = some (norm (kval sin60 x + kval sin60 y)) ∧ Legacy.sub x y = some (norm (kval sin60 x - kval sin60 y)) ∧
      mulDode x y = some (norm (kval sin60 x * kval sin60 y)) ∧
      (y.val sin60 ≠ 0 → divDode x y = some (norm (kval sin60 x / kval sin60 y))) := by
  refine ⟨?_, ?_, ?_, fun h => ?_⟩
  · rw [(C120_add x y).2, Dode.add_ok hx hy]; rfl
  · rw [(C120_sub x y hx hy).2, Dode.sub_ok hx hy]; rfl
  · rw [(C120_mul x y).2, Dode.mul_ok hx hy]; rfl
  · rw [C120_div_dode, Dode.div_ok hx hy fun h0 => h (by rw [Subtype.ext_iff] at h0; exact h0)]

/-- C120, disagreement: the decagonal package computes with √3 instead of √5. Its product of the second basis number with itself is
3/4, the square of sin 60°; with the golden ratio the square is 1 + τ. -/
theorem C120_fails_decagonal : mulDode ⟨0, 1, 1⟩ ⟨0, 1, 1⟩ = some ⟨3, 0, 4⟩ ∧
    (⟨3, 0, 4⟩ : Num3).val tau ≠ (⟨0, 1, 1⟩ : Num3).val tau * (⟨0, 1, 1⟩ : Num3).val tau := by
  refine ⟨by decide +kernel, fun h => ?_⟩
  have h1 := tau_sq
  simp only [Num3.val] at h
  have := irr_zero_int tau (p := 1) (q := 4) (by push_cast at h ⊢; nlinarith)
  omega

/-- A difference with a negative denominator. -/
example : Legacy.sub ⟨1, 2, -3⟩ ⟨4, 5, 6⟩ = some ⟨-2, -3, 2⟩ ∧ Ico.sub ⟨1, 2, -3⟩ ⟨4, 5, 6⟩ = .ok ⟨-2, -3, 2⟩ := by decide +kernel

example : divDode ⟨1, 2, -3⟩ ⟨4, 5, 6⟩ = Dode.div ⟨1, 2, -3⟩ ⟨4, 5, 6⟩ ∧ (divDode ⟨1, 2, -3⟩ ⟨4, 5, 6⟩).isSome := by decide +kernel

end PyQC
