import Verif.Lemmas.Norm
/-!
# C01–C06: scalar arithmetic is exact and canonical
-/
namespace PyQC

/-! ## Shared helper facts (error branch) -/

theorem reduce3_error_iff (c1 c2 c3 : Int) (e : PyErr) :
    reduce3 c1 c2 c3 = .error e ↔ e = .valueError ∧ c1 = 0 ∧ c2 = 0 ∧ c3 = 0 := by
  unfold reduce3
  rw [← gcd3_eq_zero]
  simp only
  split_ifs with h h'
  · constructor
    · intro h2; injection h2 with h2; exact ⟨h2.symm, h⟩
    · rintro ⟨rfl, -⟩; rfl
  · simp [h]
  · simp [h]

/-! ## C01 -/

/-- C01: `add` never raises on numbers with non-zero denominators; the result is the canonical triple
with exactly the sum as value. -/
theorem C01_add (x y : Num3) (hx : x.c ≠ 0) (hy : y.c ≠ 0) :
    ∃ r, Ico.add x y = .ok r ∧ r.val tau = x.val tau + y.val tau ∧ r.Canon :=
  ⟨_, Ico.add_ok hx hy, by simp, norm_canon _⟩

/-- C01: `sub`. -/
theorem C01_sub (x y : Num3) (hx : x.c ≠ 0) (hy : y.c ≠ 0) :
    ∃ r, Ico.sub x y = .ok r ∧ r.val tau = x.val tau - y.val tau ∧ r.Canon :=
  ⟨_, Ico.sub_ok hx hy, by simp, norm_canon _⟩

/-- C01: `mul`. -/
theorem C01_mul (x y : Num3) (hx : x.c ≠ 0) (hy : y.c ≠ 0) :
    ∃ r, Ico.mul x y = .ok r ∧ r.val tau = x.val tau * y.val tau ∧ r.Canon :=
  ⟨_, Ico.mul_ok hx hy, by simp, norm_canon _⟩

/-- C01, failure of `add`: ValueError exactly when the three unnormalised components all vanish. -/
theorem C01_add_raises_iff (x y : Num3) (e : PyErr) :
    Ico.add x y = .error e ↔
      e = .valueError ∧ x.a * y.c + y.a * x.c = 0 ∧ x.b * y.c + y.b * x.c = 0 ∧ x.c * y.c = 0 :=
  reduce3_error_iff _ _ _ _

/-- C01, failure of `mul`. -/
theorem C01_mul_raises_iff (x y : Num3) (e : PyErr) :
    Ico.mul x y = .error e ↔
      e = .valueError ∧ x.a * y.a + x.b * y.b = 0 ∧ x.a * y.b + x.b * y.a + x.b * y.b = 0 ∧
        x.c * y.c = 0 :=
  reduce3_error_iff _ _ _ _

/-- C01: every failure of any of the three needs a zero denominator, and is a ValueError. -/
theorem C01_raises_needs_zero_denominator (x y : Num3) (e : PyErr)
    (h : Ico.add x y = .error e ∨ Ico.sub x y = .error e ∨ Ico.mul x y = .error e) :
    e = .valueError ∧ (x.c = 0 ∨ y.c = 0) := by
  have key : ∀ u v : Num3, Ico.add u v = .error e ∨ Ico.mul u v = .error e →
      e = .valueError ∧ (u.c = 0 ∨ v.c = 0) := by
    rintro u v (h | h)
    · have := (C01_add_raises_iff u v e).mp h
      exact ⟨this.1, mul_eq_zero.mp this.2.2.2⟩
    · have := (C01_mul_raises_iff u v e).mp h
      exact ⟨this.1, mul_eq_zero.mp this.2.2.2⟩
  rcases h with h | h | h
  · exact key _ _ (.inl h)
  · unfold Ico.sub at h
    split at h
    · rename_i e' he
      injection h with h; subst h
      have := key _ _ (.inr he)
      exact ⟨this.1, .inr (by simpa using this.2)⟩
    · rename_i y' hy'
      refine ⟨(key _ _ (.inl h)).1, ?_⟩
      by_contra hc
      rw [not_or] at hc
      obtain ⟨r, hr, -, -⟩ := C01_sub x y hc.1 hc.2
      simp [Ico.sub, hy', h] at hr
  · exact key _ _ (.inr h)

example : Ico.add ⟨1, 1, 2⟩ ⟨1, -1, 6⟩ = .ok ⟨2, 1, 3⟩ := by decide
example : Ico.mul ⟨0, 1, 1⟩ ⟨0, 1, -2⟩ = .ok ⟨-1, -1, 2⟩ := by decide
example : Ico.sub ⟨1, 1, 2⟩ ⟨1, 1, 2⟩ = .ok ⟨0, 0, 1⟩ := by decide
example : Ico.add ⟨1, 1, 0⟩ ⟨1, 1, 0⟩ = .error .valueError := by decide
example : Ico.sub ⟨1, 1, 0⟩ ⟨0, 0, 0⟩ = .error .valueError := by decide

/-! ## C02 -/

/-- C02: `div` returns `None` exactly for a divisor of value zero. -/
theorem C02_div_none_iff (x y : Num3) (hx : x.c ≠ 0) (hy : y.c ≠ 0) :
    Ico.div x y = none ↔ y.val tau = 0 := by
  have h0 : kval tau y = 0 ↔ y.val tau = 0 := by rw [Subtype.ext_iff]; rfl
  rw [← h0]
  constructor
  · intro h
    by_contra hne
    have := Ico.div_ok hx hy hne
    rw [h] at this; cases this
  · intro h; exact Ico.lawful.div_zero hx hy h

/-- C02: otherwise the result is the canonical triple of value `x / y`. -/
theorem C02_div (x y : Num3) (hx : x.c ≠ 0) (hy : y.c ≠ 0) (h : y.val tau ≠ 0) :
    ∃ r, Ico.div x y = some r ∧ r.val tau = x.val tau / y.val tau ∧ r.Canon := by
  have h0 : kval tau y ≠ 0 := fun h' => h (by rw [← coe_kval, h']; rfl)
  exact ⟨_, Ico.div_ok hx hy h0, by simp, norm_canon _⟩

example : Ico.div ⟨1, 0, 1⟩ ⟨0, 1, 1⟩ = some ⟨-1, 1, 1⟩ := by decide
example : Ico.div ⟨1, 0, 1⟩ ⟨0, 0, 3⟩ = none := by decide
example : Ico.div ⟨3, 1, 4⟩ ⟨1, 2, -3⟩ = some ⟨21, -15, 4⟩ := by decide

/-! ## C03 -/

/-- `r` is a result of an ico2 scalar operation on operands with non-zero denominators. -/
inductive IcoResult (r : Num3) : Prop
  | add (x y : Num3) (hx : x.c ≠ 0) (hy : y.c ≠ 0) (h : Ico.add x y = .ok r)
  | sub (x y : Num3) (hx : x.c ≠ 0) (hy : y.c ≠ 0) (h : Ico.sub x y = .ok r)
  | mul (x y : Num3) (hx : x.c ≠ 0) (hy : y.c ≠ 0) (h : Ico.mul x y = .ok r)
  | div (x y : Num3) (hx : x.c ≠ 0) (hy : y.c ≠ 0) (h : Ico.div x y = some r)

theorem IcoResult.canon {r : Num3} (h : IcoResult r) : r.Canon := by
  cases h with
  | add x y hx hy h => rw [Ico.add_ok hx hy] at h; injection h with h; subst h; exact norm_canon _
  | sub x y hx hy h => rw [Ico.sub_ok hx hy] at h; injection h with h; subst h; exact norm_canon _
  | mul x y hx hy h => rw [Ico.mul_ok hx hy] at h; injection h with h; subst h; exact norm_canon _
  | div x y hx hy h =>
    by_cases h0 : kval tau y = 0
    · rw [show Ico.div x y = none from Ico.lawful.div_zero hx hy h0] at h; cases h
    · rw [Ico.div_ok hx hy h0] at h; injection h with h; subst h; exact norm_canon _

/-- C03: two results are equal as integer arrays iff they are equal as real numbers. -/
theorem C03_result_eq_iff (r s : Num3) (hr : IcoResult r) (hs : IcoResult s) :
    r = s ↔ r.val tau = s.val tau :=
  ⟨fun h => by rw [h], canon_unique hr.canon hs.canon⟩

example : IcoResult ⟨2, 1, 3⟩ := .add ⟨1, 1, 2⟩ ⟨1, -1, 6⟩ (by decide) (by decide) (by decide)
example : IcoResult ⟨2, 1, 3⟩ := .mul ⟨4, 2, 1⟩ ⟨1, 0, 6⟩ (by decide) (by decide) (by decide)
/-- Without normalisation the equivalence fails: `2/2` and `1/1` have equal values. -/
example : (⟨2, 0, 2⟩ : Num3).val tau = (⟨1, 0, 1⟩ : Num3).val tau ∧
    (⟨2, 0, 2⟩ : Num3) ≠ ⟨1, 0, 1⟩ := by
  constructor
  · norm_num [Num3.val]
  · decide

/-! ## C04 -/

/-- C04: dode2 `add`. -/
theorem C04_add (x y : Num3) (hx : x.c ≠ 0) (hy : y.c ≠ 0) :
    ∃ r, Dode.add x y = .ok r ∧ r.val sin60 = x.val sin60 + y.val sin60 ∧ r.Canon :=
  ⟨_, Dode.add_ok hx hy, by simp, norm_canon _⟩

/-- C04: dode2 `sub`. -/
theorem C04_sub (x y : Num3) (hx : x.c ≠ 0) (hy : y.c ≠ 0) :
    ∃ r, Dode.sub x y = .ok r ∧ r.val sin60 = x.val sin60 - y.val sin60 ∧ r.Canon :=
  ⟨_, Dode.sub_ok hx hy, by simp, norm_canon _⟩

/-- C04: dode2 `mul`. -/
theorem C04_mul (x y : Num3) (hx : x.c ≠ 0) (hy : y.c ≠ 0) :
    ∃ r, Dode.mul x y = .ok r ∧ r.val sin60 = x.val sin60 * y.val sin60 ∧ r.Canon :=
  ⟨_, Dode.mul_ok hx hy, by simp, norm_canon _⟩

/-- C04, failure: a ValueError, and only with a zero denominator. -/
theorem C04_raises_needs_zero_denominator (x y : Num3) (e : PyErr)
    (h : Dode.add x y = .error e ∨ Dode.sub x y = .error e ∨ Dode.mul x y = .error e) :
    e = .valueError ∧ (x.c = 0 ∨ y.c = 0) := by
  have key : ∀ u v : Num3, Dode.add u v = .error e ∨ Dode.mul u v = .error e →
      e = .valueError ∧ (u.c = 0 ∨ v.c = 0) := by
    rintro u v (h | h)
    · have := (reduce3_error_iff _ _ _ e).mp h
      exact ⟨this.1, mul_eq_zero.mp this.2.2.2⟩
    · have := (reduce3_error_iff _ _ _ e).mp h
      exact ⟨this.1, by simpa [mul_eq_zero] using this.2.2.2⟩
  rcases h with h | h | h
  · exact key _ _ (.inl h)
  · unfold Dode.sub at h
    split at h
    · rename_i e' he
      injection h with h; subst h
      have := key _ _ (.inr he)
      exact ⟨this.1, .inr (by simpa using this.2)⟩
    · rename_i y' hy'
      refine ⟨(key _ _ (.inl h)).1, ?_⟩
      by_contra hc
      rw [not_or] at hc
      obtain ⟨r, hr, -, -⟩ := C04_sub x y hc.1 hc.2
      simp [Dode.sub, hy', h] at hr
  · exact key _ _ (.inr h)

example : Dode.add ⟨1, 1, 2⟩ ⟨1, -1, 6⟩ = .ok ⟨2, 1, 3⟩ := by decide
example : Dode.mul ⟨0, 1, 1⟩ ⟨0, 2, 1⟩ = .ok ⟨3, 0, 2⟩ := by decide
example : Dode.sub ⟨1, 1, 2⟩ ⟨0, 1, -2⟩ = .ok ⟨1, 2, 2⟩ := by decide
example : Dode.mul ⟨1, 1, 0⟩ ⟨0, 0, 2⟩ = .error .valueError := by decide

/-! ## C05 -/

/-- C05: dode2 `div` returns `None` exactly for a divisor of value zero. -/
theorem C05_div_none_iff (x y : Num3) (hx : x.c ≠ 0) (hy : y.c ≠ 0) :
    Dode.div x y = none ↔ y.val sin60 = 0 := by
  have h0 : kval sin60 y = 0 ↔ y.val sin60 = 0 := by rw [Subtype.ext_iff]; rfl
  rw [← h0]
  constructor
  · intro h
    by_contra hne
    have := Dode.div_ok hx hy hne
    rw [h] at this; cases this
  · intro h; exact Dode.lawful.div_zero hx hy h

/-- C05: otherwise the result is the canonical triple of value `x / y`. -/
theorem C05_div (x y : Num3) (hx : x.c ≠ 0) (hy : y.c ≠ 0) (h : y.val sin60 ≠ 0) :
    ∃ r, Dode.div x y = some r ∧ r.val sin60 = x.val sin60 / y.val sin60 ∧ r.Canon := by
  have h0 : kval sin60 y ≠ 0 := fun h' => h (by rw [← coe_kval, h']; rfl)
  exact ⟨_, Dode.div_ok hx hy h0, by simp, norm_canon _⟩

/-- C05: the guard `4*b0**2 - 3*b1**2 == 0` of dode2/math1.py:113 is dead code: it never holds for a
divisor that is not `[0,0,_]`. -/
theorem C05_guard_unreachable (a b : Int) (h : ¬(a = 0 ∧ b = 0)) : 4 * a ^ 2 - 3 * b ^ 2 ≠ 0 :=
  Dode.normForm_ne h

example : Dode.div ⟨1, 0, 1⟩ ⟨0, 1, 1⟩ = some ⟨0, 4, 3⟩ := by decide
example : Dode.div ⟨1, 0, 1⟩ ⟨1, 1, 2⟩ = some ⟨8, -8, 1⟩ := by decide
example : Dode.div ⟨1, 5, 1⟩ ⟨0, 0, -2⟩ = none := by decide

/-! ## C06 -/

/-- `r` is a result of a dode2 scalar operation on operands with non-zero denominators. -/
inductive DodeResult (r : Num3) : Prop
  | add (x y : Num3) (hx : x.c ≠ 0) (hy : y.c ≠ 0) (h : Dode.add x y = .ok r)
  | sub (x y : Num3) (hx : x.c ≠ 0) (hy : y.c ≠ 0) (h : Dode.sub x y = .ok r)
  | mul (x y : Num3) (hx : x.c ≠ 0) (hy : y.c ≠ 0) (h : Dode.mul x y = .ok r)
  | div (x y : Num3) (hx : x.c ≠ 0) (hy : y.c ≠ 0) (h : Dode.div x y = some r)

theorem DodeResult.canon {r : Num3} (h : DodeResult r) : r.Canon := by
  cases h with
  | add x y hx hy h => rw [Dode.add_ok hx hy] at h; injection h with h; subst h; exact norm_canon _
  | sub x y hx hy h => rw [Dode.sub_ok hx hy] at h; injection h with h; subst h; exact norm_canon _
  | mul x y hx hy h => rw [Dode.mul_ok hx hy] at h; injection h with h; subst h; exact norm_canon _
  | div x y hx hy h =>
    by_cases h0 : kval sin60 y = 0
    · rw [show Dode.div x y = none from Dode.lawful.div_zero hx hy h0] at h; cases h
    · rw [Dode.div_ok hx hy h0] at h; injection h with h; subst h; exact norm_canon _

/-- C06: two results are equal as integer arrays iff they are equal as real numbers. -/
theorem C06_result_eq_iff (r s : Num3) (hr : DodeResult r) (hs : DodeResult s) :
    r = s ↔ r.val sin60 = s.val sin60 :=
  ⟨fun h => by rw [h], canon_unique hr.canon hs.canon⟩

example : DodeResult ⟨3, 0, 2⟩ := .mul ⟨0, 1, 1⟩ ⟨0, 2, 1⟩ (by decide) (by decide) (by decide)

end PyQC
