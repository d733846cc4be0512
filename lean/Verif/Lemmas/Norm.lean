import Verif.Lemmas.Field
/-!
# Canonical representatives and the laws of the scalar operations
-/
namespace PyQC

section
variable {θ : ℝ} [Quad θ]

/-- Value of a triple as an element of the field `K θ`. -/
noncomputable def kval (θ : ℝ) [Quad θ] (t : Num3) : K θ := ⟨t.val θ, val_rat θ t⟩

@[simp] theorem coe_kval (t : Num3) : (kval θ t : ℝ) = t.val θ := rfl

theorem kval_eq_iff {s t : Num3} : kval θ s = kval θ t ↔ s.val θ = t.val θ := by
  rw [Subtype.ext_iff]; rfl

/-- Dividing by the gcd gives something coprime. -/
theorem gcd3_eq (c1 c2 c3 : Int) :
    gcd3 c1 c2 c3 = (Nat.gcd (Nat.gcd c1.natAbs c2.natAbs) c3.natAbs : ℕ) := by
  simp [gcd3, Int.gcd]

theorem gcd3_eq_zero {c1 c2 c3 : Int} : gcd3 c1 c2 c3 = 0 ↔ c1 = 0 ∧ c2 = 0 ∧ c3 = 0 := by
  rw [gcd3_eq]
  constructor
  · intro h
    have h' : Nat.gcd (Nat.gcd c1.natAbs c2.natAbs) c3.natAbs = 0 := by exact_mod_cast h
    rw [Nat.gcd_eq_zero_iff, Nat.gcd_eq_zero_iff] at h'
    omega
  · rintro ⟨rfl, rfl, rfl⟩; rfl

theorem gcd3_nonneg (c1 c2 c3 : Int) : 0 ≤ gcd3 c1 c2 c3 := by rw [gcd3_eq]; positivity

theorem gcd3_dvd (c1 c2 c3 : Int) :
    gcd3 c1 c2 c3 ∣ c1 ∧ gcd3 c1 c2 c3 ∣ c2 ∧ gcd3 c1 c2 c3 ∣ c3 := by
  rw [gcd3_eq]
  refine ⟨?_, ?_, ?_⟩ <;> rw [Int.natCast_dvd]
  · exact (Nat.gcd_dvd_left _ _).trans (Nat.gcd_dvd_left _ _)
  · exact (Nat.gcd_dvd_left _ _).trans (Nat.gcd_dvd_right _ _)
  · exact Nat.gcd_dvd_right _ _

theorem gcd3_scale {g x y z : Int} (hg : 0 ≤ g) :
    gcd3 (g * x) (g * y) (g * z) = g * gcd3 x y z := by
  obtain ⟨n, rfl⟩ := Int.eq_ofNat_of_zero_le hg
  rw [gcd3_eq, gcd3_eq]
  simp only [Int.natAbs_mul, Int.natAbs_natCast, Nat.gcd_mul_left]
  push_cast
  rfl

theorem canon_iff (x : Num3) : x.Canon ↔ 0 < x.c ∧ gcd3 x.a x.b x.c = 1 := by
  unfold Num3.Canon
  rw [gcd3_eq]
  exact and_congr_right fun _ => by norm_cast

/-- Result of the reduction step for a non-zero denominator. -/
theorem reduce_aux (c1 c2 c3 : Int) (h3 : c3 ≠ 0) :
    ∃ r : Num3, reduce3 c1 c2 c3 = .ok r ∧ reduceDiv c1 c2 c3 = some r ∧ r.Canon ∧
      ∀ θ : ℝ, r.val θ = ((c1 : ℝ) + c2 * θ) / c3 := by
  have hg : gcd3 c1 c2 c3 ≠ 0 := by
    intro h; exact h3 (gcd3_eq_zero.mp h).2.2
  have hgpos : 0 < gcd3 c1 c2 c3 := lt_of_le_of_ne (gcd3_nonneg _ _ _) (Ne.symm hg)
  obtain ⟨⟨x, hx⟩, ⟨y, hy⟩, ⟨z, hz⟩⟩ := gcd3_dvd c1 c2 c3
  generalize hgd : gcd3 c1 c2 c3 = g at *
  have hd1 : c1 / g = x := by rw [hx]; exact Int.mul_ediv_cancel_left _ hg
  have hd2 : c2 / g = y := by rw [hy]; exact Int.mul_ediv_cancel_left _ hg
  have hd3 : c3 / g = z := by rw [hz]; exact Int.mul_ediv_cancel_left _ hg
  have hcop : gcd3 x y z = 1 := by
    have h := gcd3_scale (x := x) (y := y) (z := z) hgpos.le
    rw [← hx, ← hy, ← hz, hgd] at h
    have : g * gcd3 x y z = g * 1 := by rw [mul_one]; exact h.symm
    exact mul_left_cancel₀ hg this
  have hz0 : z ≠ 0 := by rintro rfl; simp at hz; exact h3 hz
  have hgR : (g : ℝ) ≠ 0 := by exact_mod_cast hg
  have hzR : (z : ℝ) ≠ 0 := by exact_mod_cast hz0
  by_cases hneg : z < 0
  · refine ⟨⟨-x, -y, -z⟩, ?_, ?_, ?_, ?_⟩
    · simp [reduce3, hgd, hg, hd1, hd2, hd3, hneg]
    · simp [reduceDiv, hgd, hg, hd1, hd2, hd3, hneg]
    · rw [canon_iff]
      refine ⟨by simpa using hneg, ?_⟩
      rw [gcd3_eq] at hcop ⊢
      simpa using hcop
    · intro θ
      simp only [Num3.val, hx, hy, hz]
      push_cast
      field_simp
      ring
  · refine ⟨⟨x, y, z⟩, ?_, ?_, ?_, ?_⟩
    · simp [reduce3, hgd, hg, hd1, hd2, hd3, hneg]
    · simp [reduceDiv, hgd, hg, hd1, hd2, hd3, hneg]
    · rw [canon_iff]
      exact ⟨by simp only; omega, hcop⟩
    · intro θ
      simp only [Num3.val, hx, hy, hz]
      push_cast
      field_simp

theorem gcd3_comm_scale (k : Int) (hk : 0 ≤ k) (x y z : Int) (h : gcd3 x y z = 1) :
    gcd3 (k * x) (k * y) (k * z) = k := by rw [gcd3_scale hk, h, mul_one]

/-- Canonical triples are determined by their value. -/
theorem canon_unique {s t : Num3} (hs : s.Canon) (ht : t.Canon) (h : s.val θ = t.val θ) :
    s = t := by
  rw [canon_iff] at hs ht
  obtain ⟨hs0, hs1⟩ := hs
  obtain ⟨ht0, ht1⟩ := ht
  have e : ((s.a * t.c - t.a * s.c : ℤ) : ℝ) + ((s.b * t.c - t.b * s.c : ℤ) : ℝ) * θ = 0 := by
    have hsc : (s.c : ℝ) ≠ 0 := by exact_mod_cast hs0.ne'
    have htc : (t.c : ℝ) ≠ 0 := by exact_mod_cast ht0.ne'
    simp only [Num3.val] at h
    rw [div_eq_div_iff hsc htc] at h
    push_cast
    linear_combination h
  obtain ⟨e1, e2⟩ := irr_zero_int θ e
  have e1' : t.c * s.a = s.c * t.a := by linarith
  have e2' : t.c * s.b = s.c * t.b := by linarith
  have hc : s.c = t.c := by
    have h1 := gcd3_comm_scale t.c ht0.le _ _ _ hs1
    have h2 := gcd3_comm_scale s.c hs0.le _ _ _ ht1
    rw [e1', e2', mul_comm t.c s.c] at h1
    rw [h2] at h1
    exact h1
  have hc0 : s.c ≠ 0 := hs0.ne'
  have ha : s.a = t.a := by
    rw [← hc] at e1'
    exact mul_left_cancel₀ hc0 e1'
  have hb : s.b = t.b := by
    rw [← hc] at e2'
    exact mul_left_cancel₀ hc0 e2'
  cases s; cases t; simp_all

theorem exists_canon (x : K θ) : ∃ t : Num3, t.Canon ∧ kval θ t = x := by
  obtain ⟨x, p, q, rfl⟩ := x
  obtain ⟨t, ht0, ht⟩ := exists_num3 θ p q
  obtain ⟨r, -, -, hr, hv⟩ := reduce_aux t.a t.b t.c ht0
  refine ⟨r, hr, ?_⟩
  apply Subtype.ext
  exact (hv θ).trans ht

/-- The unique canonical triple with a given value. -/
noncomputable def norm (x : K θ) : Num3 := (exists_canon x).choose

theorem norm_canon (x : K θ) : (norm x).Canon := (exists_canon x).choose_spec.1

@[simp] theorem kval_norm (x : K θ) : kval θ (norm x) = x := (exists_canon x).choose_spec.2

@[simp] theorem norm_c (x : K θ) : (norm x).c ≠ 0 := (norm_canon x).1.ne'

@[simp] theorem val_norm (x : K θ) : (norm x).val θ = (x : ℝ) := by
  rw [← coe_kval, kval_norm]

theorem norm_kval {t : Num3} (h : t.Canon) : norm (kval θ t) = t := by
  apply canon_unique (θ := θ) (norm_canon _) h
  simp

theorem norm_inj {x y : K θ} : norm x = norm y ↔ x = y := by
  constructor
  · intro h
    have := congrArg (kval θ) h
    simpa using this
  · rintro rfl; rfl

theorem eq_norm_of {r : Num3} (hr : r.Canon) {x : K θ} (h : r.val θ = x) : r = norm x := by
  apply canon_unique (θ := θ) hr (norm_canon _)
  simp [h]

end

/-- The scalar operations compute in the field `K θ` and return canonical triples. -/
structure Lawful (A : Arith) (θ : ℝ) [Quad θ] : Prop where
  add_ok : ∀ {x y : Num3}, x.c ≠ 0 → y.c ≠ 0 → A.add x y = .ok (norm (kval θ x + kval θ y))
  mul_ok : ∀ {x y : Num3}, x.c ≠ 0 → y.c ≠ 0 → A.mul x y = .ok (norm (kval θ x * kval θ y))
  sub_ok : ∀ {x y : Num3}, x.c ≠ 0 → y.c ≠ 0 → A.sub x y = .ok (norm (kval θ x - kval θ y))
  div_zero : ∀ {x y : Num3}, x.c ≠ 0 → y.c ≠ 0 → kval θ y = 0 → A.div x y = none
  div_ok : ∀ {x y : Num3}, x.c ≠ 0 → y.c ≠ 0 → kval θ y ≠ 0 →
    A.div x y = some (norm (kval θ x / kval θ y))

theorem kval_eq_zero {θ : ℝ} [Quad θ] {x : Num3} (hx : x.c ≠ 0) :
    kval θ x = 0 ↔ x.a = 0 ∧ x.b = 0 := by
  have hx' : (x.c : ℝ) ≠ 0 := by exact_mod_cast hx
  rw [Subtype.ext_iff]
  simp only [coe_kval, Num3.val, ZeroMemClass.coe_zero, div_eq_zero_iff, hx', or_false]
  constructor
  · intro h; exact irr_zero_int θ h
  · rintro ⟨h1, h2⟩; simp [h1, h2]

theorem kval_zero' {θ : ℝ} [Quad θ] : kval θ ⟨0, 0, 1⟩ = 0 := by
  rw [kval_eq_zero] <;> simp

theorem norm_zero {θ : ℝ} [Quad θ] : norm (0 : K θ) = ⟨0, 0, 1⟩ := by
  rw [← kval_zero' (θ := θ)]
  exact norm_kval (by decide)

section
variable {θ : ℝ} [Quad θ]

theorem reduce3_norm {c1 c2 c3 : Int} (h3 : c3 ≠ 0) {x : K θ}
    (h : ((c1 : ℝ) + c2 * θ) / c3 = x) : reduce3 c1 c2 c3 = .ok (norm x) := by
  obtain ⟨r, h1, -, h2, h4⟩ := reduce_aux c1 c2 c3 h3
  rw [h1, eq_norm_of h2 ((h4 θ).trans h)]

theorem reduceDiv_norm {c1 c2 c3 : Int} (h3 : c3 ≠ 0) {x : K θ}
    (h : ((c1 : ℝ) + c2 * θ) / c3 = x) : reduceDiv c1 c2 c3 = some (norm x) := by
  obtain ⟨r, -, h1, h2, h4⟩ := reduce_aux c1 c2 c3 h3
  rw [h1, eq_norm_of h2 ((h4 θ).trans h)]
end

theorem Ico.add_ok {x y : Num3} (hx : x.c ≠ 0) (hy : y.c ≠ 0) :
    Ico.add x y = .ok (norm (kval tau x + kval tau y)) := by
  apply reduce3_norm (mul_ne_zero hx hy)
  have hx' : (x.c : ℝ) ≠ 0 := by exact_mod_cast hx
  have hy' : (y.c : ℝ) ≠ 0 := by exact_mod_cast hy
  push_cast
  simp only [coe_kval, Num3.val]
  field_simp
  ring

theorem Ico.mul_ok {x y : Num3} (hx : x.c ≠ 0) (hy : y.c ≠ 0) :
    Ico.mul x y = .ok (norm (kval tau x * kval tau y)) := by
  apply reduce3_norm (mul_ne_zero hx hy)
  have hx' : (x.c : ℝ) ≠ 0 := by exact_mod_cast hx
  have hy' : (y.c : ℝ) ≠ 0 := by exact_mod_cast hy
  push_cast
  simp only [coe_kval, Num3.val]
  have := tau_sq
  generalize tau = t at *
  field_simp
  linear_combination -(x.b * y.b : ℝ) * this

theorem Ico.sub_ok {x y : Num3} (hx : x.c ≠ 0) (hy : y.c ≠ 0) :
    Ico.sub x y = .ok (norm (kval tau x - kval tau y)) := by
  unfold Ico.sub
  rw [Ico.mul_ok (by decide) hy]
  simp only
  rw [Ico.add_ok hx (norm_c _), kval_norm]
  congr 2
  apply Subtype.ext
  push_cast
  simp only [coe_kval, Num3.val]
  push_cast
  ring

theorem Dode.add_ok {x y : Num3} (hx : x.c ≠ 0) (hy : y.c ≠ 0) :
    Dode.add x y = .ok (norm (kval sin60 x + kval sin60 y)) := by
  apply reduce3_norm (mul_ne_zero hx hy)
  have hx' : (x.c : ℝ) ≠ 0 := by exact_mod_cast hx
  have hy' : (y.c : ℝ) ≠ 0 := by exact_mod_cast hy
  push_cast
  simp only [coe_kval, Num3.val]
  field_simp
  ring

theorem Dode.mul_ok {x y : Num3} (hx : x.c ≠ 0) (hy : y.c ≠ 0) :
    Dode.mul x y = .ok (norm (kval sin60 x * kval sin60 y)) := by
  apply reduce3_norm (by simp [hx, hy])
  have hx' : (x.c : ℝ) ≠ 0 := by exact_mod_cast hx
  have hy' : (y.c : ℝ) ≠ 0 := by exact_mod_cast hy
  push_cast
  simp only [coe_kval, Num3.val]
  have := sin60_sq
  generalize sin60 = t at *
  field_simp
  linear_combination -4 * (x.b * y.b : ℝ) * this

theorem Dode.sub_ok {x y : Num3} (hx : x.c ≠ 0) (hy : y.c ≠ 0) :
    Dode.sub x y = .ok (norm (kval sin60 x - kval sin60 y)) := by
  unfold Dode.sub
  rw [Dode.mul_ok (by decide) hy]
  simp only
  rw [Dode.add_ok hx (norm_c _), kval_norm]
  congr 2
  apply Subtype.ext
  push_cast
  simp only [coe_kval, Num3.val]
  push_cast
  ring

theorem num_ne {θ : ℝ} [Quad θ] {y : Num3} (h : ¬(y.a = 0 ∧ y.b = 0)) :
    (y.a : ℝ) + y.b * θ ≠ 0 := fun h' => h (irr_zero_int θ h')

theorem Ico.div_ok {x y : Num3} (hx : x.c ≠ 0) (hy : y.c ≠ 0) (h0 : kval tau y ≠ 0) :
    Ico.div x y = some (norm (kval tau x / kval tau y)) := by
  have hx' : (x.c : ℝ) ≠ 0 := by exact_mod_cast hx
  have hy' : (y.c : ℝ) ≠ 0 := by exact_mod_cast hy
  have h0' : ¬(y.a = 0 ∧ y.b = 0) := fun h => h0 ((kval_eq_zero hy).mpr h)
  have hn := num_ne (θ := tau) h0'
  have hsq := tau_sq
  unfold Ico.div
  rw [if_neg h0']
  split_ifs with h1 h2 h3
  · rw [(kval_eq_zero hx).mpr h1, zero_div, norm_zero]
  · have hN : y.a * y.a - y.b * y.b + y.a * y.b ≠ 0 := by
      intro hN
      have hc : ((y.a : ℝ) + y.b * tau) * ((y.a + y.b : ℤ) + (-y.b : ℤ) * tau) = 0 := by
        have : (y.a * y.a - y.b * y.b + y.a * y.b : ℝ) = 0 := by exact_mod_cast hN
        push_cast
        linear_combination this - (y.b ^ 2 : ℝ) * hsq
      rcases mul_eq_zero.mp hc with h | h
      · exact hn h
      · have := irr_zero_int tau h
        omega
    have hNR : (y.a * y.a - y.b * y.b + y.a * y.b : ℝ) ≠ 0 := by exact_mod_cast hN
    apply reduceDiv_norm (mul_ne_zero hN hx)
    push_cast
    simp only [coe_kval, Num3.val]
    clear h0
    generalize tau = t at *
    rw [div_div_div_eq, div_eq_div_iff (mul_ne_zero hNR hx') (mul_ne_zero hx' hn)]
    linear_combination (x.c * y.c * (x.b * y.a * y.b - x.a * y.b * y.b) -
      (0:ℝ) : ℝ) * hsq
  · have h3' : y.a = 0 := by simpa using h3
    have hb : (y.b : ℝ) ≠ 0 := by exact_mod_cast h2
    apply reduceDiv_norm (mul_ne_zero h2 hx)
    push_cast
    simp only [coe_kval, Num3.val]
    clear h0
    generalize tau = t at *
    rw [div_div_div_eq, div_eq_div_iff (mul_ne_zero hb hx') (mul_ne_zero hx' hn)]
    simp only [h3', Int.cast_zero]
    linear_combination (x.a * x.c * y.c * y.b : ℝ) * hsq
  · have h2' : y.b = 0 := by simpa using h2
    have ha : y.a ≠ 0 := fun h => h0' ⟨h, h2'⟩
    have haR : (y.a : ℝ) ≠ 0 := by exact_mod_cast ha
    apply reduceDiv_norm (mul_ne_zero ha hx)
    push_cast
    simp only [coe_kval, Num3.val]
    clear h0
    generalize tau = t at *
    rw [div_div_div_eq, div_eq_div_iff (mul_ne_zero haR hx') (mul_ne_zero hx' hn)]
    simp only [h2', Int.cast_zero]
    ring

/-- `4 a² - 3 b²` vanishes only for `a = b = 0`. -/
theorem Dode.normForm_ne {a b : Int} (h : ¬(a = 0 ∧ b = 0)) : 4 * a ^ 2 - 3 * b ^ 2 ≠ 0 := by
  intro hN
  have hsq := sin60_sq
  have hc : ((a : ℝ) + b * sin60) * ((a : ℤ) + (-b : ℤ) * sin60) = 0 := by
    have : (4 * a ^ 2 - 3 * b ^ 2 : ℝ) = 0 := by exact_mod_cast hN
    push_cast
    linear_combination this / 4 - (b ^ 2 : ℝ) * hsq
  rcases mul_eq_zero.mp hc with h' | h'
  · exact num_ne (θ := sin60) (y := ⟨a, b, 1⟩) h h'
  · have := irr_zero_int sin60 h'
    omega

theorem Dode.div_ok {x y : Num3} (hx : x.c ≠ 0) (hy : y.c ≠ 0) (h0 : kval sin60 y ≠ 0) :
    Dode.div x y = some (norm (kval sin60 x / kval sin60 y)) := by
  have hx' : (x.c : ℝ) ≠ 0 := by exact_mod_cast hx
  have hy' : (y.c : ℝ) ≠ 0 := by exact_mod_cast hy
  have h0' : ¬(y.a = 0 ∧ y.b = 0) := fun h => h0 ((kval_eq_zero hy).mpr h)
  have hn := num_ne (θ := sin60) h0'
  have hsq := sin60_sq
  have hN := Dode.normForm_ne h0'
  unfold Dode.div
  rw [if_neg h0']
  split_ifs with h1 h2 h3
  · rw [(kval_eq_zero hx).mpr h1, zero_div, norm_zero]
  · have hNR : (4 * y.a ^ 2 - 3 * y.b ^ 2 : ℝ) ≠ 0 := by exact_mod_cast hN
    apply reduceDiv_norm (mul_ne_zero hx hN)
    push_cast
    simp only [coe_kval, Num3.val]
    clear h0
    generalize sin60 = t at *
    rw [div_div_div_eq, div_eq_div_iff (mul_ne_zero hx' hNR) (mul_ne_zero hx' hn)]
    linear_combination (4 * x.c * y.c * (x.b * y.a * y.b - x.a * y.b * y.b)) * hsq
  · have h3' : y.a = 0 := by simpa using h3
    have hb : (y.b : ℝ) ≠ 0 := by exact_mod_cast h2
    apply reduceDiv_norm (by simp [hx, h2])
    push_cast
    simp only [coe_kval, Num3.val]
    clear h0
    generalize sin60 = t at *
    have h3c : (3 * x.c * y.b : ℝ) ≠ 0 := by simp [hx', hb]
    rw [div_div_div_eq, div_eq_div_iff h3c (mul_ne_zero hx' hn)]
    simp only [h3', Int.cast_zero]
    linear_combination (4 * x.a * x.c * y.c * y.b : ℝ) * hsq
  · have h2' : y.b = 0 := by simpa using h2
    have ha : y.a ≠ 0 := fun h => h0' ⟨h, h2'⟩
    have haR : (y.a : ℝ) ≠ 0 := by exact_mod_cast ha
    apply reduceDiv_norm (mul_ne_zero ha hx)
    push_cast
    simp only [coe_kval, Num3.val]
    clear h0
    generalize sin60 = t at *
    rw [div_div_div_eq, div_eq_div_iff (mul_ne_zero haR hx') (mul_ne_zero hx' hn)]
    simp only [h2', Int.cast_zero]
    ring

theorem Ico.lawful : Lawful Ico.arith tau where
  add_ok := Ico.add_ok
  mul_ok := Ico.mul_ok
  sub_ok := Ico.sub_ok
  div_zero := fun {x y} _ hy h => by
    have := (kval_eq_zero hy).mp h
    simp [Ico.arith, Ico.div, this]
  div_ok := Ico.div_ok

theorem Dode.lawful : Lawful Dode.arith sin60 where
  add_ok := Dode.add_ok
  mul_ok := Dode.mul_ok
  sub_ok := Dode.sub_ok
  div_zero := fun {x y} _ hy h => by
    have := (kval_eq_zero hy).mp h
    simp [Dode.arith, Dode.div, this]
  div_ok := Dode.div_ok

end PyQC
