import Verif.Spec.Golden
import Verif.Lemmas.Complete
/-!
# The test for resolved pairs is right
-/
namespace PyQC
open Matrix

namespace Gold

theorem val_add (g h : Gold) : (g.add h).val = g.val + h.val := by simp only [val, add]; push_cast; ring
theorem val_sub (g h : Gold) : (g.sub h).val = g.val - h.val := by simp only [val, sub]; push_cast; ring
theorem val_neg (g : Gold) : g.neg.val = -g.val := by simp only [val, neg]; push_cast; ring
theorem val_mul (g h : Gold) : (g.mul h).val = g.val * h.val := by
  simp only [val, mul]
  push_cast
  linear_combination -(g.b * h.b : ℝ) * tau_sq
theorem val_scale (k : ℤ) (g : Gold) : (scale k g).val = k * g.val := by simp only [val, scale]; push_cast; ring
theorem val_int (k : ℤ) : (⟨k, 0⟩ : Gold).val = k := by simp [val]

theorem isZero_iff (g : Gold) : g.isZero = true ↔ g.val = 0 := by
  simp only [isZero, Bool.and_eq_true, decide_eq_true_eq]
  constructor
  · rintro ⟨h1, h2⟩
    simp [val, h1, h2]
  · intro h
    exact irr_zero_int tau h

theorem nonneg_iff (g : Gold) : g.nonneg = true ↔ 0 ≤ g.val := by
  have h5 : Real.sqrt 5 ^ 2 = 5 := Real.sq_sqrt (by norm_num)
  have p5 : 0 < Real.sqrt 5 := Real.sqrt_pos.mpr (by norm_num)
  have e : g.val = ((2 * g.a + g.b : ℤ) + (g.b : ℤ) * Real.sqrt 5) / 2 := by
    simp only [val, tau]
    push_cast
    ring
  rw [e]
  unfold nonneg
  set p : ℤ := 2 * g.a + g.b
  set q : ℤ := g.b
  have key : (0 : ℝ) ≤ (p + q * Real.sqrt 5) / 2 ↔ 0 ≤ (p : ℝ) + q * Real.sqrt 5 := by
    constructor <;> intro h <;> linarith
  rw [key]
  split_ifs with hq
  · have hq' : (0 : ℝ) ≤ q := by exact_mod_cast hq
    simp only [Bool.or_eq_true, decide_eq_true_eq]
    constructor
    · rintro (h | h)
      · have : (0 : ℝ) ≤ p := by exact_mod_cast h
        positivity
      · have h' : (p * p : ℝ) ≤ 5 * (q * q) := by exact_mod_cast h
        have : (-(p : ℝ)) ≤ q * Real.sqrt 5 := by
          refine le_of_sq_le_sq ?_ (by positivity)
          nlinarith
        linarith
    · intro h
      by_cases hp : 0 ≤ p
      · exact Or.inl hp
      · right
        have hp' : (p : ℝ) < 0 := by exact_mod_cast not_le.mp hp
        have h1 : (-(p : ℝ)) ^ 2 ≤ (q * Real.sqrt 5) ^ 2 := pow_le_pow_left₀ (by linarith) (by linarith) 2
        have : (p * p : ℝ) ≤ 5 * (q * q) := by nlinarith
        exact_mod_cast this
  · have hq' : (q : ℝ) < 0 := by exact_mod_cast not_le.mp hq
    simp only [Bool.and_eq_true, decide_eq_true_eq]
    constructor
    · rintro ⟨h1, h2⟩
      have h1' : (0 : ℝ) ≤ p := by exact_mod_cast h1
      have h2' : (5 * (q * q) : ℝ) ≤ p * p := by exact_mod_cast h2
      have : (-(q : ℝ)) * Real.sqrt 5 ≤ p := by
        refine le_of_sq_le_sq ?_ h1'
        nlinarith
      linarith
    · intro h
      have hp : (0 : ℝ) < p := by nlinarith
      have h1 : (-(q : ℝ) * Real.sqrt 5) ^ 2 ≤ (p : ℝ) ^ 2 := pow_le_pow_left₀ (by nlinarith) (by linarith) 2
      have h2 : (5 * (q * q) : ℝ) ≤ p * p := by nlinarith
      exact ⟨by exact_mod_cast hp.le, by exact_mod_cast h2⟩

theorem le_iff (g h : Gold) : g.le h = true ↔ g.val ≤ h.val := by
  rw [le, nonneg_iff, val_sub, sub_nonneg]

theorem val_signed (s g : Gold) : (s.signed g).val = if 0 ≤ s.val then g.val else -g.val := by
  unfold signed
  by_cases h : s.nonneg = true
  · rw [if_pos h, if_pos ((nonneg_iff s).mp h)]
  · rw [if_neg h, if_neg (fun h' => h ((nonneg_iff s).mpr h')), val_neg]

theorem val_abs (g : Gold) : g.abs.val = |g.val| := by
  rw [abs, val_signed]
  split_ifs with h
  · rw [abs_of_nonneg h]
  · rw [abs_of_neg (not_le.mp h)]

/-- A quotient, with numerator and denominator multiplied by the sign of the denominator. -/
theorem quot_signed (s g : Gold) : g.val / s.val = (s.signed g).val / s.abs.val := by
  rw [val_abs, val_signed]
  split_ifs with h
  · rw [abs_of_nonneg h]
  · rw [abs_of_neg (not_le.mp h), neg_div_neg_eq]

end Gold

theorem G3.val_add (p q : G3) : (p.add q).val = p.val + q.val := by
  funext j; fin_cases j <;> simp [G3.val, G3.add, Gold.val_add]
theorem G3.val_sub (p q : G3) : (p.sub q).val = p.val - q.val := by
  funext j; fin_cases j <;> simp [G3.val, G3.sub, Gold.val_sub]
theorem G3.val_smul (k : Gold) (p : G3) : (G3.smul k p).val = k.val • p.val := by
  funext j; fin_cases j <;> simp [G3.val, G3.smul, Gold.val_mul]
theorem G3.val_trip (p q r : G3) : (p.trip q r).val = (p.val ⨯₃ q.val) ⬝ᵥ r.val := by
  simp only [G3.trip, Gold.val_add, Gold.val_sub, Gold.val_mul, cross_apply, vec3_dotProduct, G3.val, cons_val_zero,
    cons_val_one, cons_val]

theorem trip_scale (α β γ : ℝ) (u v w : Fin 3 → ℝ) :
    ((α • u) ⨯₃ (β • v)) ⬝ᵥ (γ • w) = α * β * γ * ((u ⨯₃ v) ⬝ᵥ w) := by
  simp only [cross_apply, vec3_dotProduct, cons_val_zero, cons_val_one, cons_val, Pi.smul_apply, smul_eq_mul]
  ring

namespace Gold

/-- The corners of `S` are `a i / n`. -/
def Grid (n : ℕ) (S : Fin 4 → Fin 3 → ℝ) (a : Fin 4 → G3) : Prop := ∀ i, S i = (n : ℝ)⁻¹ • (a i).val

variable {n : ℕ} {S T : Fin 4 → Fin 3 → ℝ} {a b : Fin 4 → G3}

theorem det4_grid (h : Grid n S a) : det4 S = (n : ℝ)⁻¹ ^ 3 * (det a).val := by
  have : det4 S = ((S 1 - S 0) ⨯₃ (S 2 - S 0)) ⬝ᵥ (S 3 - S 0) := by
    rw [det4_eq]
    simp only [cross_apply, vec3_dotProduct, Pi.sub_apply, cons_val_zero, cons_val_one, cons_val]
    ring
  rw [this, det, G3.val_trip, G3.val_sub, G3.val_sub, G3.val_sub, h 0, h 1, h 2, h 3, ← smul_sub, ← smul_sub, ← smul_sub,
    trip_scale]
  ring

theorem det_zero (hn : 0 < n) (h : Grid n S a) : (det a).isZero = true ↔ tetVol S = 0 := by
  have hn' : (n : ℝ)⁻¹ ≠ 0 := inv_ne_zero (by exact_mod_cast hn.ne')
  rw [isZero_iff, ← not_iff_not, ← ne_eq (tetVol S), ← det4_ne_iff, det4_grid h, ne_eq, mul_eq_zero, not_or]
  exact ⟨fun h => ⟨pow_ne_zero _ hn', h⟩, fun h => h.2⟩

theorem grid_replace (h : Grid n T b) {x : Fin 3 → ℝ} {y : G3} (hx : x = (n : ℝ)⁻¹ • y.val) (k : Fin 4) :
    Grid n (Ico.smallTetrahedron k x T) (replace b k y) := by
  intro l
  unfold Ico.smallTetrahedron replace
  split_ifs
  · exact hx
  · exact h l

theorem corner_iff (hn : 0 < n) (h : Grid n T b) (h0 : tetVol T ≠ 0) {x : Fin 3 → ℝ} {y : G3}
    (hx : x = (n : ℝ)⁻¹ • y.val) : cornerOk b y = true ↔ (Accepts T x → x ∈ solid T) := by
  have hn' : (n : ℝ)⁻¹ ≠ 0 := inv_ne_zero (by exact_mod_cast hn.ne')
  have hd := det4_ne_iff.mpr h0
  have hq : ∀ k, det4 (Ico.smallTetrahedron k x T) / det4 T = ((det b).signed (det (replace b k y))).val / |(det b).val| := by
    intro k
    rw [det4_grid h, det4_grid (grid_replace h hx k), mul_div_mul_left _ _ (pow_ne_zero _ hn'), quot_signed, val_abs]
  have hD : 0 < |(det b).val| := by
    rw [abs_pos]
    intro e
    rw [det4_grid h, e, mul_zero] at hd
    exact hd rfl
  have hs : x ∈ solid T ↔ ∀ k, 0 ≤ ((det b).signed (det (replace b k y))).val := by
    rw [mem_solid_iff]
    constructor
    · rintro ⟨w, hw, hw0⟩ k
      have := hw0 k
      rw [bary_unique hd hw (exists_bary hd x)] at this
      simp only [hq] at this
      by_contra hneg
      exact absurd this (not_le.mpr (div_neg_of_neg_of_pos (not_le.mp hneg) hD))
    · intro hk
      refine ⟨_, exists_bary hd x, fun k => ?_⟩
      simp only [hq]
      exact div_nonneg (hk k) hD.le
  have ha : Accepts T x ↔ ∑ k, |(det (replace b k y)).val| < (1 + 1 / 10 ^ 6) * |(det b).val| := by
    have hsum : ∑ k, |det4 (Ico.smallTetrahedron k x T) / det4 T| = (∑ k, |(det (replace b k y)).val|) / |(det b).val| := by
      rw [div_eq_mul_inv _ |(det b).val|, Finset.sum_mul]
      refine Finset.sum_congr rfl fun k _ => ?_
      rw [det4_grid h, det4_grid (grid_replace h hx k), mul_div_mul_left _ _ (pow_ne_zero _ hn'), abs_div,
        div_eq_mul_inv]
    rw [← div_lt_iff₀ hD, ← hsum]
    constructor
    · rintro ⟨-, w, hw, hlt⟩
      rwa [bary_unique hd hw (exists_bary hd x)] at hlt
    · intro hlt
      exact ⟨h0, _, exists_bary hd x, hlt⟩
  rw [hs, ha]
  simp only [cornerOk, Bool.or_eq_true, Bool.and_eq_true, nonneg_iff, le_iff, val_scale, val_add, val_abs]
  rw [Fin.sum_univ_four, Fin.forall_fin_succ, Fin.forall_fin_succ, Fin.forall_fin_succ, Fin.forall_fin_succ]
  simp only [IsEmpty.forall_iff, and_true]
  constructor
  · rintro (⟨⟨⟨h1, h2⟩, h3⟩, h4⟩ | h') hacc
    · exact ⟨h1, h2, h3, h4⟩
    · exfalso
      push_cast at h'
      linarith
  · intro hi
    by_cases hacc : |(det (replace b 0 y)).val| + |(det (replace b 1 y)).val| + |(det (replace b 2 y)).val| +
        |(det (replace b 3 y)).val| < (1 + 1 / 10 ^ 6) * |(det b).val|
    · obtain ⟨h1, h2, h3, h4⟩ := hi hacc
      exact Or.inl ⟨⟨⟨h1, h2⟩, h3⟩, h4⟩
    · right
      push_cast
      linarith

section
variable {A B C D E : Fin 3 → ℝ} {pA pB pC pD pE : G3}

/-- The numbers of `cross` for a line and a plane. -/
theorem cross_det (hA : A = (n : ℝ)⁻¹ • pA.val) (hB : B = (n : ℝ)⁻¹ • pB.val) (hC : C = (n : ℝ)⁻¹ • pC.val)
    (hD : D = (n : ℝ)⁻¹ • pD.val) (hE : E = (n : ℝ)⁻¹ • pE.val) :
    |Matrix.det (Matrix.of ![B - A, E - C, D - C])| = (n : ℝ)⁻¹ ^ 3 * (cross pA pB pC pD pE).e.val := by
  rw [← bunbo_det]
  have e : (cross pA pB pC pD pE).e.val = |((pB.val - pA.val) ⨯₃ (pE.val - pC.val)) ⬝ᵥ (pD.val - pC.val)| := by
    simp only [cross, val_abs, G3.val_trip, G3.val_sub]
  rw [e, hA, hB, hC, hD, hE, ← smul_sub, ← smul_sub, ← smul_sub, trip_scale, abs_mul,
    abs_of_nonneg (show (0 : ℝ) ≤ (n : ℝ)⁻¹ * (n : ℝ)⁻¹ * (n : ℝ)⁻¹ by positivity)]
  ring

theorem cross_pos (c : Cross) (hc : c = cross pA pB pC pD pE) : 0 ≤ c.e.val := by
  rw [hc]
  simp only [cross, val_abs]
  exact abs_nonneg _

theorem cross_meets (hn : 0 < n) (hA : A = (n : ℝ)⁻¹ • pA.val) (hB : B = (n : ℝ)⁻¹ • pB.val) (hC : C = (n : ℝ)⁻¹ • pC.val)
    (hD : D = (n : ℝ)⁻¹ • pD.val) (hE : E = (n : ℝ)⁻¹ • pE.val) (c : Cross) (hc : c = cross pA pB pC pD pE)
    (h0 : c.e.val ≠ 0) (t u v : ℝ) :
    Meets A B C D E t u v ↔ t = c.t.val / c.e.val ∧ u = c.u.val / c.e.val ∧ v = c.v.val / c.e.val := by
  have hn' : (n : ℝ)⁻¹ ≠ 0 := inv_ne_zero (by exact_mod_cast hn.ne')
  have hb : ((B - A) ⨯₃ (E - C)) ⬝ᵥ (D - C) ≠ 0 := by
    rw [bunbo_det]
    intro h
    have := cross_det hA hB hC hD hE
    rw [h, abs_zero, ← hc] at this
    exact (mul_ne_zero (pow_ne_zero 3 hn') h0) this.symm
  have hs : ∀ g : Gold, (((pB.sub pA).trip (pE.sub pC) (pD.sub pC)).signed g).val / c.e.val =
      g.val / ((pB.sub pA).trip (pE.sub pC) (pD.sub pC)).val := by
    intro g
    rw [hc]
    exact (quot_signed _ g).symm
  have h3 : (n : ℝ)⁻¹ * (n : ℝ)⁻¹ * (n : ℝ)⁻¹ ≠ 0 := mul_ne_zero (mul_ne_zero hn' hn') hn'
  have ht : c.t.val / c.e.val = ((A - C) ⨯₃ (D - C)) ⬝ᵥ (E - C) / ((B - A) ⨯₃ (E - C)) ⬝ᵥ (D - C) := by
    rw [show c.t = ((pB.sub pA).trip (pE.sub pC) (pD.sub pC)).signed ((pA.sub pC).trip (pD.sub pC) (pE.sub pC)) by rw [hc]; rfl,
      hs, hA, hB, hC, hD, hE, ← smul_sub, ← smul_sub, ← smul_sub, ← smul_sub, trip_scale,
      trip_scale, mul_div_mul_left _ _ h3]
    simp only [G3.val_trip, G3.val_sub]
  have hu : c.u.val / c.e.val = ((B - A) ⨯₃ (E - C)) ⬝ᵥ (A - C) / ((B - A) ⨯₃ (E - C)) ⬝ᵥ (D - C) := by
    rw [show c.u = ((pB.sub pA).trip (pE.sub pC) (pD.sub pC)).signed ((pB.sub pA).trip (pE.sub pC) (pA.sub pC)) by rw [hc]; rfl,
      hs, hA, hB, hC, hD, hE, ← smul_sub, ← smul_sub, ← smul_sub, ← smul_sub, trip_scale,
      trip_scale, mul_div_mul_left _ _ h3]
    simp only [G3.val_trip, G3.val_sub]
  have hv : c.v.val / c.e.val = ((A - C) ⨯₃ (D - C)) ⬝ᵥ (B - A) / ((B - A) ⨯₃ (E - C)) ⬝ᵥ (D - C) := by
    rw [show c.v = ((pB.sub pA).trip (pE.sub pC) (pD.sub pC)).signed ((pA.sub pC).trip (pD.sub pC) (pB.sub pA)) by rw [hc]; rfl,
      hs, hA, hB, hC, hD, hE, ← smul_sub, ← smul_sub, ← smul_sub, ← smul_sub, trip_scale,
      trip_scale, mul_div_mul_left _ _ h3]
    simp only [G3.val_trip, G3.val_sub]
  rw [moller hb, ht, hu, hv]
  constructor
  · rintro ⟨h1, h2, h3⟩
    exact ⟨h3, h1, h2⟩
  · rintro ⟨h1, h2, h3⟩
    exact ⟨h2, h3, h1⟩

end

theorem inside_iff (c : Cross) (h : 0 < c.e.val) : c.inside = true ↔
    0 ≤ c.t.val / c.e.val ∧ c.t.val / c.e.val ≤ 1 ∧ 0 ≤ c.u.val / c.e.val ∧ 0 ≤ c.v.val / c.e.val ∧
      c.u.val / c.e.val + c.v.val / c.e.val ≤ 1 := by
  simp only [Cross.inside, Bool.and_eq_true, nonneg_iff, le_iff, val_add]
  rw [← add_div, div_le_one h, div_le_one h, le_div_iff₀ h, le_div_iff₀ h, le_div_iff₀ h, zero_mul]
  tauto

theorem near_iff (c : Cross) (h : 0 < c.e.val) : c.near = true ↔
    -(1 / 10 ^ 6) ≤ c.t.val / c.e.val ∧ c.t.val / c.e.val ≤ 1 + 1 / 10 ^ 6 ∧ -(1 / 10 ^ 6) ≤ c.u.val / c.e.val ∧
      c.u.val / c.e.val ≤ 1 + 1 / 10 ^ 6 ∧ -(1 / 10 ^ 6) ≤ c.v.val / c.e.val ∧
      c.u.val / c.e.val + c.v.val / c.e.val ≤ 1 + 1 / 10 ^ 6 := by
  simp only [Cross.near, Bool.and_eq_true, nonneg_iff, le_iff, val_add, val_scale]
  rw [← add_div, div_le_iff₀ h, div_le_iff₀ h, div_le_iff₀ h, le_div_iff₀ h, le_div_iff₀ h, le_div_iff₀ h]
  push_cast
  constructor
  · rintro ⟨⟨⟨⟨⟨h1, h2⟩, h3⟩, h4⟩, h5⟩, h6⟩
    refine ⟨?_, ?_, ?_, ?_, ?_, ?_⟩ <;> linarith
  · rintro ⟨h1, h2, h3, h4, h5, h6⟩
    refine ⟨⟨⟨⟨⟨?_, ?_⟩, ?_⟩, ?_⟩, ?_⟩, ?_⟩ <;> linarith

/-- The condition on an edge and a face. -/
theorem crossOk_iff {A B C D E : Fin 3 → ℝ} {pA pB pC pD pE : G3} (hn : 0 < n) (hA : A = (n : ℝ)⁻¹ • pA.val)
    (hB : B = (n : ℝ)⁻¹ • pB.val) (hC : C = (n : ℝ)⁻¹ • pC.val) (hD : D = (n : ℝ)⁻¹ • pD.val) (hE : E = (n : ℝ)⁻¹ • pE.val) :
    crossOk n (cross pA pB pC pD pE) = true ↔
      (Matrix.det (Matrix.of ![B - A, E - C, D - C]) ≠ 0 → 1 / 10 ^ 6 ≤ |Matrix.det (Matrix.of ![B - A, E - C, D - C])|) ∧
      (Hits A B C D E → ∃ t u v : ℝ, Meets A B C D E t u v ∧ 0 ≤ t ∧ t ≤ 1 ∧ 0 ≤ u ∧ 0 ≤ v ∧ u + v ≤ 1) := by
  have hn' : (n : ℝ)⁻¹ ≠ 0 := inv_ne_zero (by exact_mod_cast hn.ne')
  have hnp : (0 : ℝ) < n := by exact_mod_cast hn
  have hdet := cross_det hA hB hC hD hE
  have hm := cross_meets hn hA hB hC hD hE _ rfl
  have hp := cross_pos (cross pA pB pC pD pE) rfl
  set c := cross pA pB pC pD pE
  have hz : Matrix.det (Matrix.of ![B - A, E - C, D - C]) = 0 ↔ c.e.val = 0 := by
    rw [← abs_eq_zero, hdet, mul_eq_zero]
    exact ⟨fun h => h.resolve_left (pow_ne_zero _ hn'), Or.inr⟩
  unfold crossOk
  rw [Bool.or_eq_true, isZero_iff]
  by_cases h0 : c.e.val = 0
  · refine ⟨fun _ => ⟨fun h => absurd (hz.mpr h0) h, ?_⟩, fun _ => Or.inl h0⟩
    rintro ⟨hd, -⟩
    rw [hdet, h0, mul_zero] at hd
    norm_num at hd
  · have hpos : 0 < c.e.val := lt_of_le_of_ne hp (Ne.symm h0)
    have hspan : le ⟨(n : ℤ) ^ 3, 0⟩ (scale 1000000 c.e) = true ↔
        1 / 10 ^ 6 ≤ |Matrix.det (Matrix.of ![B - A, E - C, D - C])| := by
      rw [le_iff, val_scale, val_int, hdet, inv_pow, inv_mul_eq_div, le_div_iff₀ (by positivity)]
      push_cast
      constructor <;> intro h <;> linarith
    rw [Bool.and_eq_true, Bool.or_eq_true, hspan]
    have hne : ¬ Matrix.det (Matrix.of ![B - A, E - C, D - C]) = 0 := fun h => h0 (hz.mp h)
    have hhits : Hits A B C D E ↔ 1 / 10 ^ 6 ≤ |Matrix.det (Matrix.of ![B - A, E - C, D - C])| ∧ c.near = true := by
      rw [near_iff c hpos]
      constructor
      · rintro ⟨h1, t, u, v, h2, h3⟩
        obtain ⟨rfl, rfl, rfl⟩ := (hm h0 t u v).mp h2
        exact ⟨h1, h3⟩
      · rintro ⟨h1, h3⟩
        exact ⟨h1, _, _, _, (hm h0 _ _ _).mpr ⟨rfl, rfl, rfl⟩, h3⟩
    have hin : (∃ t u v : ℝ, Meets A B C D E t u v ∧ 0 ≤ t ∧ t ≤ 1 ∧ 0 ≤ u ∧ 0 ≤ v ∧ u + v ≤ 1) ↔ c.inside = true := by
      rw [inside_iff c hpos]
      constructor
      · rintro ⟨t, u, v, h2, h3⟩
        obtain ⟨rfl, rfl, rfl⟩ := (hm h0 t u v).mp h2
        exact h3
      · intro h3
        exact ⟨_, _, _, (hm h0 _ _ _).mpr ⟨rfl, rfl, rfl⟩, h3⟩
    rw [hhits, hin]
    constructor
    · rintro (h | ⟨h1, h2⟩)
      · exact absurd h h0
      · refine ⟨fun _ => h1, fun h => ?_⟩
        rcases h2 with h2 | h2
        · rw [h.2] at h2
          cases h2
        · exact h2
    · rintro ⟨h1, h2⟩
      refine Or.inr ⟨h1 hne, ?_⟩
      by_cases hnear : c.near = true
      · exact Or.inr (h2 ⟨h1 hne, hnear⟩)
      · left
        simpa using hnear

theorem mem_edges (i j : Fin 4) : (i, j) ∈ edges ↔ i < j := by revert i j; decide
theorem mem_faces (k l m : Fin 4) : (k, l, m) ∈ faces ↔ k < l ∧ l < m := by revert k l m; decide

theorem clear_iff (hn : 0 < n) (hS : Grid n S a) (hT : Grid n T b) (h0 : tetVol T ≠ 0) :
    clear n a b = true ↔ Clear S T := by
  unfold clear
  rw [Bool.and_eq_true, List.all_eq_true, List.all_eq_true]
  have h1 : (∀ i ∈ [(0 : Fin 4), 1, 2, 3], cornerOk b (a i) = true) ↔ ∀ i, Accepts T (S i) → S i ∈ solid T := by
    constructor
    · intro h i
      exact (corner_iff hn hT h0 (hS i)).mp (h i (by fin_cases i <;> simp))
    · intro h i _
      exact (corner_iff hn hT h0 (hS i)).mpr (h i)
  rw [h1]
  constructor
  · rintro ⟨h1, h2⟩
    have key : ∀ i j k l m : Fin 4, i < j → k < l → l < m → crossOk n (cross (a i) (a j) (b k) (b l) (b m)) = true := by
      intro i j k l m hij hkl hlm
      have := h2 (i, j) ((mem_edges i j).mpr hij)
      rw [List.all_eq_true] at this
      exact this (k, l, m) ((mem_faces k l m).mpr ⟨hkl, hlm⟩)
    exact ⟨h1, fun i j k l m h1 h2 h3 => ((crossOk_iff hn (hS i) (hS j) (hT k) (hT l) (hT m)).mp (key i j k l m h1 h2 h3)).1,
      fun i j k l m h1 h2 h3 => ((crossOk_iff hn (hS i) (hS j) (hT k) (hT l) (hT m)).mp (key i j k l m h1 h2 h3)).2⟩
  · rintro ⟨h1, h2, h3⟩
    refine ⟨h1, ?_⟩
    rintro ⟨i, j⟩ hij
    rw [List.all_eq_true]
    rintro ⟨k, l, m⟩ hklm
    rw [mem_edges] at hij
    rw [mem_faces] at hklm
    exact (crossOk_iff hn (hS i) (hS j) (hT k) (hT l) (hT m)).mpr
      ⟨h2 i j k l m hij hklm.1 hklm.2, h3 i j k l m hij hklm.1 hklm.2⟩

/-- The real point of a fraction, in units of 1/n. -/
noncomputable def Frac.pt (n : ℕ) (f : Frac) : Fin 3 → ℝ := ((n : ℝ)⁻¹ * f.q.val⁻¹) • f.p.val

theorem mem_crossings (hn : 0 < n) (hS : Grid n S a) (hT : Grid n T b) (x : Fin 3 → ℝ) :
    EdgeFace S T x ↔ ∃ f ∈ crossings a b, f.pt n = x := by
  have hn' : (n : ℝ)⁻¹ ≠ 0 := inv_ne_zero (by exact_mod_cast hn.ne')
  have hz : ∀ i j k l m, Matrix.det (Matrix.of ![S j - S i, T m - T k, T l - T k]) = 0 ↔
      (cross (a i) (a j) (b k) (b l) (b m)).e.val = 0 := by
    intro i j k l m
    rw [← abs_eq_zero, cross_det (hS i) (hS j) (hT k) (hT l) (hT m), mul_eq_zero]
    exact ⟨fun h => h.resolve_left (pow_ne_zero _ hn'), Or.inr⟩
  have hpt : ∀ i j (c : Cross), c.e.val ≠ 0 →
      Frac.pt n ⟨(G3.smul c.e (a i)).add (G3.smul c.t ((a j).sub (a i))), c.e⟩ =
        S i + (c.t.val / c.e.val) • (S j - S i) := by
    intro i j c h0
    unfold Frac.pt
    simp only [G3.val_add, G3.val_smul, G3.val_sub, hS i, hS j]
    funext r
    simp only [Pi.smul_apply, Pi.add_apply, Pi.sub_apply, smul_eq_mul]
    field_simp
  unfold crossings
  constructor
  · rintro ⟨i, j, k, l, m, hij, hkl, hlm, hd, t, u, v, hm, rfl, hr⟩
    rw [ne_eq, hz] at hd
    obtain ⟨rfl, rfl, rfl⟩ := (cross_meets hn (hS i) (hS j) (hT k) (hT l) (hT m) _ rfl hd t u v).mp hm
    have hpos := lt_of_le_of_ne (cross_pos (cross (a i) (a j) (b k) (b l) (b m)) rfl) (Ne.symm hd)
    refine ⟨_, List.mem_flatMap.mpr ⟨(i, j), (mem_edges i j).mpr hij, List.mem_filterMap.mpr ⟨(k, l, m),
      (mem_faces k l m).mpr ⟨hkl, hlm⟩, ?_⟩⟩, hpt i j _ hd⟩
    simp only
    rw [if_neg (fun h => hd ((isZero_iff _).mp h)), if_pos ((inside_iff _ hpos).mpr hr)]
  · rintro ⟨f, hf, rfl⟩
    obtain ⟨⟨i, j⟩, hij, hf⟩ := List.mem_flatMap.mp hf
    obtain ⟨⟨k, l, m⟩, hklm, hf⟩ := List.mem_filterMap.mp hf
    rw [mem_edges] at hij
    rw [mem_faces] at hklm
    simp only at hf
    split_ifs at hf with h1 h2
    cases hf
    rw [isZero_iff] at h1
    have hpos := lt_of_le_of_ne (cross_pos (cross (a i) (a j) (b k) (b l) (b m)) rfl) (Ne.symm h1)
    exact ⟨i, j, k, l, m, hij, hklm.1, hklm.2, fun h => h1 ((hz i j k l m).mp h), _, _, _,
      (cross_meets hn (hS i) (hS j) (hT k) (hT l) (hT m) _ rfl h1 _ _ _).mpr ⟨rfl, rfl, rfl⟩, hpt i j _ h1,
      (inside_iff _ hpos).mp h2⟩

theorem crossings_pos {f : Frac} (h : f ∈ crossings a b) : 0 < f.q.val := by
  obtain ⟨⟨i, j⟩, -, hf⟩ := List.mem_flatMap.mp h
  obtain ⟨⟨k, l, m⟩, -, hf⟩ := List.mem_filterMap.mp hf
  simp only at hf
  split_ifs at hf with h1 h2
  cases hf
  rw [isZero_iff] at h1
  exact lt_of_le_of_ne (cross_pos _ rfl) (Ne.symm h1)

theorem same_pt {f g : Frac} (hf : 0 < f.q.val) (hg : 0 < g.q.val) (h : f.same g = true) : f.pt n = g.pt n := by
  simp only [Frac.same, Bool.and_eq_true, isZero_iff, val_sub, val_mul, sub_eq_zero] at h
  obtain ⟨⟨h1, h2⟩, h3⟩ := h
  have h1' := hf.ne'
  have h2' := hg.ne'
  unfold Frac.pt
  funext j
  simp only [Pi.smul_apply, smul_eq_mul, mul_assoc]
  congr 1
  rw [inv_mul_eq_div, inv_mul_eq_div, div_eq_div_iff h1' h2', mul_comm _ g.q.val, mul_comm _ f.q.val]
  fin_cases j
  · exact h1
  · exact h2
  · exact h3

/-- The list without repeated points has the same points. -/
theorem dedup_pts {l : List Frac} (h : ∀ f ∈ l, 0 < f.q.val) :
    (∀ f ∈ l.foldr Frac.insert [], f ∈ l) ∧ ∀ f ∈ l, ∃ g ∈ l.foldr Frac.insert [], g.pt n = f.pt n := by
  induction l with
  | nil => simp
  | cons x l ih =>
    obtain ⟨h1, h2⟩ := ih fun f hf => h f (List.mem_cons_of_mem _ hf)
    rw [List.foldr_cons]
    unfold Frac.insert
    split_ifs with hx
    · refine ⟨fun f hf => List.mem_cons_of_mem _ (h1 f hf), fun f hf => ?_⟩
      rcases List.mem_cons.mp hf with rfl | hf
      · obtain ⟨g, hg, hs⟩ := List.any_eq_true.mp hx
        exact ⟨g, hg, (same_pt (h _ List.mem_cons_self) (h g (List.mem_cons_of_mem _ (h1 g hg))) hs).symm⟩
      · exact h2 f hf
    · constructor
      · intro f hf
        rcases List.mem_cons.mp hf with rfl | hf
        · exact List.mem_cons_self
        · exact List.mem_cons_of_mem _ (h1 f hf)
      · intro f hf
        rcases List.mem_cons.mp hf with rfl | hf
        · exact ⟨f, List.mem_cons_self, rfl⟩
        · obtain ⟨g, hg, e⟩ := h2 f hf
          exact ⟨g, List.mem_cons_of_mem _ hg, e⟩

theorem mem_candidates (hn : 0 < n) (hS : Grid n S a) (hT : Grid n T b) :
    (∀ f ∈ candidates a b, 0 < f.q.val) ∧ ∀ x, Candidate S T x ↔ ∃ f ∈ candidates a b, f.pt n = x := by
  have h1 : (⟨1, 0⟩ : Gold).val = 1 := by simp [val]
  set l := ([(0 : Fin 4), 1, 2, 3].map fun i => Frac.mk (a i) ⟨1, 0⟩) ++ ([(0 : Fin 4), 1, 2, 3].map fun i => Frac.mk (b i) ⟨1, 0⟩) ++
    crossings a b ++ crossings b a with hl
  have hmem : ∀ f, f ∈ l ↔ (∃ i, f = ⟨a i, ⟨1, 0⟩⟩) ∨ (∃ i, f = ⟨b i, ⟨1, 0⟩⟩) ∨ f ∈ crossings a b ∨ f ∈ crossings b a := by
    intro f
    have hfin : ∀ c : Fin 4 → G3, (∃ i ∈ [(0 : Fin 4), 1, 2, 3], Frac.mk (c i) ⟨1, 0⟩ = f) ↔ ∃ i, f = ⟨c i, ⟨1, 0⟩⟩ := by
      intro c
      constructor
      · rintro ⟨i, -, h⟩
        exact ⟨i, h.symm⟩
      · rintro ⟨i, h⟩
        exact ⟨i, by fin_cases i <;> simp, h.symm⟩
    rw [hl, List.mem_append, List.mem_append, List.mem_append, List.mem_map, List.mem_map, hfin a, hfin b, or_assoc, or_assoc]
  have hpos : ∀ f ∈ l, 0 < f.q.val := by
    intro f hf
    rcases (hmem f).mp hf with ⟨i, rfl⟩ | ⟨i, rfl⟩ | hf | hf
    · rw [h1]; norm_num
    · rw [h1]; norm_num
    · exact crossings_pos hf
    · exact crossings_pos hf
  have hpt : ∀ y : G3, Frac.pt n ⟨y, ⟨1, 0⟩⟩ = (n : ℝ)⁻¹ • y.val := by
    intro y
    unfold Frac.pt
    rw [h1, inv_one, mul_one]
  have hl' : ∀ x, Candidate S T x ↔ ∃ f ∈ l, f.pt n = x := by
    intro x
    constructor
    · rintro (⟨i, rfl⟩ | ⟨i, rfl⟩ | h | h)
      · exact ⟨_, (hmem _).mpr (Or.inl ⟨i, rfl⟩), (hpt _).trans (hS i).symm⟩
      · exact ⟨_, (hmem _).mpr (Or.inr (Or.inl ⟨i, rfl⟩)), (hpt _).trans (hT i).symm⟩
      · obtain ⟨f, hf, e⟩ := (mem_crossings hn hS hT x).mp h
        exact ⟨f, (hmem _).mpr (Or.inr (Or.inr (Or.inl hf))), e⟩
      · obtain ⟨f, hf, e⟩ := (mem_crossings hn hT hS x).mp h
        exact ⟨f, (hmem _).mpr (Or.inr (Or.inr (Or.inr hf))), e⟩
    · rintro ⟨f, hf, rfl⟩
      rcases (hmem f).mp hf with ⟨i, rfl⟩ | ⟨i, rfl⟩ | hf | hf
      · exact Or.inl ⟨i, (hS i).trans (hpt _).symm⟩
      · exact Or.inr (Or.inl ⟨i, (hT i).trans (hpt _).symm⟩)
      · exact Or.inr (Or.inr (Or.inl ((mem_crossings hn hS hT _).mpr ⟨f, hf, rfl⟩)))
      · exact Or.inr (Or.inr (Or.inr ((mem_crossings hn hT hS _).mpr ⟨f, hf, rfl⟩)))
  obtain ⟨d1, d2⟩ := dedup_pts (n := n) hpos
  refine ⟨fun f hf => hpos f (d1 f hf), fun x => (hl' x).trans ⟨?_, ?_⟩⟩
  · rintro ⟨f, hf, rfl⟩
    exact d2 f hf
  · rintro ⟨f, hf, rfl⟩
    exact ⟨f, d1 f hf, rfl⟩

/-- Coplanarity up to 10⁻¹⁰ is coplanarity. -/
def FlatOk (x y z w : Fin 3 → ℝ) : Prop :=
  |((y - x) ⨯₃ (z - x)) ⬝ᵥ (w - x)| < 1 / 10 ^ 10 → ((y - x) ⨯₃ (z - x)) ⬝ᵥ (w - x) = 0

theorem flatOk_iff (hn : 0 < n) {f g h k : Frac} (hf : 0 < f.q.val) (hg : 0 < g.q.val) (hh : 0 < h.q.val) (hk : 0 < k.q.val) :
    flatOk n f g h k = true ↔ FlatOk (f.pt n) (g.pt n) (h.pt n) (k.pt n) := by
  have hn0 : (0 : ℝ) < n := by exact_mod_cast hn
  have e : ((g.pt n - f.pt n) ⨯₃ (h.pt n - f.pt n)) ⬝ᵥ (k.pt n - f.pt n) =
      ((((f.q.mul (g.p.trip h.p k.p)).sub (g.q.mul (f.p.trip h.p k.p))).add (h.q.mul (f.p.trip g.p k.p))).sub
        (k.q.mul (f.p.trip g.p h.p))).val / (n ^ 3 * (f.q.val * g.q.val * h.q.val * k.q.val)) := by
    have f' := hf.ne'
    have g' := hg.ne'
    have h' := hh.ne'
    have k' := hk.ne'
    have n' := hn0.ne'
    simp only [val_add, val_sub, val_mul, G3.val_trip, Frac.pt]
    simp only [cross_apply, vec3_dotProduct, cons_val_zero, cons_val_one, cons_val, Pi.smul_apply, Pi.sub_apply, smul_eq_mul]
    generalize f.p.val = P
    generalize g.p.val = Q
    generalize h.p.val = R
    generalize k.p.val = U
    field_simp
    ring
  unfold FlatOk
  rw [e]
  unfold flatOk
  simp only
  set d := (((f.q.mul (g.p.trip h.p k.p)).sub (g.q.mul (f.p.trip h.p k.p))).add (h.q.mul (f.p.trip g.p k.p))).sub
        (k.q.mul (f.p.trip g.p h.p))
  have hden : (0 : ℝ) < n ^ 3 * (f.q.val * g.q.val * h.q.val * k.q.val) := by positivity
  rw [Bool.or_eq_true, isZero_iff, le_iff, val_scale, val_scale, val_abs, val_mul, val_mul, val_mul, abs_div, abs_of_pos hden,
    div_lt_iff₀ hden, div_eq_zero_iff]
  push_cast
  constructor
  · rintro (h1 | h1) h2
    · exact Or.inl h1
    · exfalso
      linarith
  · intro h1
    by_cases h2 : |d.val| < 1 / 10 ^ 10 * (n ^ 3 * (f.q.val * g.q.val * h.q.val * k.q.val))
    · exact Or.inl ((h1 h2).resolve_right hden.ne')
    · right
      linarith

section
variable {α : Type} {Q : α → α → α → α → Prop} {P : α → α → α → α → Bool}

theorem all2_iff {R : α → α → Bool} (l : List α) : all2 R l = true ↔ l.Pairwise fun x y => R x y = true := by
  induction l with
  | nil => simp [all2]
  | cons x l ih => simp [all2, ih, List.pairwise_cons]

/-- A symmetric condition on four points that is true for repeated points holds for all points of a list when it holds
for all in the order of the list. -/
theorem all4_iff (s1 : ∀ x y z w, Q x y z w → Q y x z w) (s2 : ∀ x y z w, Q x y z w → Q x z y w)
    (s3 : ∀ x y z w, Q x y z w → Q x y w z) (r : ∀ x z w, Q x x z w) (l : List α)
    (hP : ∀ x ∈ l, ∀ y ∈ l, ∀ z ∈ l, ∀ w ∈ l, (P x y z w = true ↔ Q x y z w)) :
    all4 P l = true ↔ ∀ x ∈ l, ∀ y ∈ l, ∀ z ∈ l, ∀ w ∈ l, Q x y z w := by
  have A2 : ∀ x y, ∀ l : List α, (∀ z ∈ l, ∀ w ∈ l, (P x y z w = true ↔ Q x y z w)) →
      (all2 (P x y) l = true ↔ ∀ z ∈ l, ∀ w ∈ l, Q x y z w) := by
    intro x y l
    induction l with
    | nil => intro _; simp [all2]
    | cons z l ih =>
      intro hP
      have ih := ih fun z hz w hw => hP z (List.mem_cons_of_mem _ hz) w (List.mem_cons_of_mem _ hw)
      rw [all2, Bool.and_eq_true, ih, List.all_eq_true]
      constructor
      · rintro ⟨h1, h2⟩ a ha b hb
        rcases List.mem_cons.mp ha with rfl | ha'
        · rcases List.mem_cons.mp hb with rfl | hb'
          · exact s2 _ _ _ _ (s1 _ _ _ _ (s3 _ _ _ _ (s2 _ _ _ _ (r _ _ _))))
          · exact (hP _ ha _ hb).mp (h1 b hb')
        · rcases List.mem_cons.mp hb with rfl | hb'
          · exact s3 _ _ _ _ ((hP _ hb _ ha).mp (h1 a ha'))
          · exact h2 a ha' b hb'
      · intro h
        exact ⟨fun w hw => (hP _ List.mem_cons_self _ (List.mem_cons_of_mem _ hw)).mpr
          (h _ List.mem_cons_self _ (List.mem_cons_of_mem _ hw)),
          fun a ha b hb => h a (List.mem_cons_of_mem _ ha) b (List.mem_cons_of_mem _ hb)⟩
  have A3 : ∀ x, ∀ l : List α, (∀ y ∈ l, ∀ z ∈ l, ∀ w ∈ l, (P x y z w = true ↔ Q x y z w)) →
      (all3 (P x) l = true ↔ ∀ y ∈ l, ∀ z ∈ l, ∀ w ∈ l, Q x y z w) := by
    intro x l
    induction l with
    | nil => intro _; simp [all3]
    | cons y l ih =>
      intro hP
      have ih := ih fun y hy z hz w hw =>
        hP y (List.mem_cons_of_mem _ hy) z (List.mem_cons_of_mem _ hz) w (List.mem_cons_of_mem _ hw)
      rw [all3, Bool.and_eq_true, ih, A2 x y l fun z hz w hw =>
        hP y List.mem_cons_self z (List.mem_cons_of_mem _ hz) w (List.mem_cons_of_mem _ hw)]
      have rr : ∀ y w, Q x y y w := fun y w => s1 _ _ _ _ (s2 _ _ _ _ (r _ _ _))
      constructor
      · rintro ⟨h1, h2⟩ a ha b hb c hc
        rcases List.mem_cons.mp ha with rfl | ha'
        · rcases List.mem_cons.mp hb with rfl | hb'
          · exact rr _ _
          · rcases List.mem_cons.mp hc with rfl | hc'
            · exact s3 _ _ _ _ (rr _ _)
            · exact h1 b hb' c hc'
        · rcases List.mem_cons.mp hb with rfl | hb'
          · rcases List.mem_cons.mp hc with rfl | hc'
            · exact s2 _ _ _ _ (s3 _ _ _ _ (rr _ _))
            · exact s2 _ _ _ _ (h1 a ha' c hc')
          · rcases List.mem_cons.mp hc with rfl | hc'
            · exact s3 _ _ _ _ (s2 _ _ _ _ (h1 a ha' b hb'))
            · exact h2 a ha' b hb' c hc'
      · intro h
        exact ⟨fun z hz w hw => h _ List.mem_cons_self _ (List.mem_cons_of_mem _ hz) _ (List.mem_cons_of_mem _ hw),
          fun a ha b hb c hc => h a (List.mem_cons_of_mem _ ha) b (List.mem_cons_of_mem _ hb) c (List.mem_cons_of_mem _ hc)⟩
  induction l with
  | nil => simp [all4]
  | cons x l ih =>
    have ih' : all4 P l = true ↔ ∀ x ∈ l, ∀ y ∈ l, ∀ z ∈ l, ∀ w ∈ l, Q x y z w :=
      ih fun x hx y hy z hz w hw => hP x (List.mem_cons_of_mem _ hx) y (List.mem_cons_of_mem _ hy) z
      (List.mem_cons_of_mem _ hz) w (List.mem_cons_of_mem _ hw)
    rw [all4, Bool.and_eq_true, ih', A3 x l fun y hy z hz w hw =>
      hP x List.mem_cons_self y (List.mem_cons_of_mem _ hy) z (List.mem_cons_of_mem _ hz) w (List.mem_cons_of_mem _ hw)]
    constructor
    · rintro ⟨h1, h2⟩ a ha b hb c hc d hd
      have t1 : ∀ b c, Q x b x c := fun b c => s2 _ _ _ _ (r _ _ _)
      have t2 : ∀ b c, Q x b c x := fun b c => s3 _ _ _ _ (t1 _ _)
      rcases List.mem_cons.mp ha with rfl | ha'
      · rcases List.mem_cons.mp hb with rfl | hb'
        · exact r _ _ _
        · rcases List.mem_cons.mp hc with rfl | hc'
          · exact t1 _ _
          · rcases List.mem_cons.mp hd with rfl | hd'
            · exact t2 _ _
            · exact h1 b hb' c hc' d hd'
      · rcases List.mem_cons.mp hb with rfl | hb'
        · rcases List.mem_cons.mp hc with rfl | hc'
          · exact s1 _ _ _ _ (t1 _ _)
          · rcases List.mem_cons.mp hd with rfl | hd'
            · exact s1 _ _ _ _ (t2 _ _)
            · exact s1 _ _ _ _ (h1 a ha' c hc' d hd')
        · rcases List.mem_cons.mp hc with rfl | hc'
          · rcases List.mem_cons.mp hd with rfl | hd'
            · exact s2 _ _ _ _ (s1 _ _ _ _ (t2 _ _))
            · exact s2 _ _ _ _ (s1 _ _ _ _ (h1 a ha' b hb' d hd'))
          · rcases List.mem_cons.mp hd with rfl | hd'
            · exact s3 _ _ _ _ (s2 _ _ _ _ (s1 _ _ _ _ (h1 a ha' b hb' c hc')))
            · exact h2 a ha' b hb' c hc' d hd'
    · intro h
      exact ⟨fun y hy z hz w hw => h _ List.mem_cons_self _ (List.mem_cons_of_mem _ hy) _ (List.mem_cons_of_mem _ hz) _
        (List.mem_cons_of_mem _ hw), fun a ha b hb c hc d hd => h a (List.mem_cons_of_mem _ ha) b (List.mem_cons_of_mem _ hb) c
        (List.mem_cons_of_mem _ hc) d (List.mem_cons_of_mem _ hd)⟩

end

theorem flat_swap1 {x y z w : Fin 3 → ℝ} (h : FlatOk x y z w) : FlatOk y x z w := by
  have e : ((x - y) ⨯₃ (z - y)) ⬝ᵥ (w - y) = -(((y - x) ⨯₃ (z - x)) ⬝ᵥ (w - x)) := by
    simp only [cross_apply, vec3_dotProduct, cons_val_zero, cons_val_one, cons_val, Pi.sub_apply]
    ring
  unfold FlatOk at *
  rw [e, abs_neg, neg_eq_zero]
  exact h

theorem flat_swap2 {x y z w : Fin 3 → ℝ} (h : FlatOk x y z w) : FlatOk x z y w := by
  have e : ((z - x) ⨯₃ (y - x)) ⬝ᵥ (w - x) = -(((y - x) ⨯₃ (z - x)) ⬝ᵥ (w - x)) := by
    simp only [cross_apply, vec3_dotProduct, cons_val_zero, cons_val_one, cons_val, Pi.sub_apply]
    ring
  unfold FlatOk at *
  rw [e, abs_neg, neg_eq_zero]
  exact h

theorem flat_swap3 {x y z w : Fin 3 → ℝ} (h : FlatOk x y z w) : FlatOk x y w z := by
  have e : ((y - x) ⨯₃ (w - x)) ⬝ᵥ (z - x) = -(((y - x) ⨯₃ (z - x)) ⬝ᵥ (w - x)) := by
    simp only [cross_apply, vec3_dotProduct, cons_val_zero, cons_val_one, cons_val, Pi.sub_apply]
    ring
  unfold FlatOk at *
  rw [e, abs_neg, neg_eq_zero]
  exact h

theorem flat_same (x z w : Fin 3 → ℝ) : FlatOk x x z w := by
  intro _
  simp

theorem flat_all (hn : 0 < n) (L : List Frac)
    (Q : Frac → Frac → Frac → Frac → Prop) (hQ : Q = fun f g h k => FlatOk (f.pt n) (g.pt n) (h.pt n) (k.pt n))
    (hpos : ∀ f ∈ L, 0 < f.q.val) : all4 (flatOk n) L = true ↔
    ∀ f ∈ L, ∀ g ∈ L, ∀ h ∈ L, ∀ k ∈ L, Q f g h k := by
  refine all4_iff ?_ ?_ ?_ ?_ L ?_
  · intro f g h k e
    rw [hQ] at e ⊢
    exact flat_swap1 e
  · intro f g h k e
    rw [hQ] at e ⊢
    exact flat_swap2 e
  · intro f g h k e
    rw [hQ] at e ⊢
    exact flat_swap3 e
  · intro f h k
    rw [hQ]
    exact flat_same _ _ _
  · intro x hx y hy z hz w hw
    rw [hQ]
    exact flatOk_iff hn (hpos x hx) (hpos y hy) (hpos z hz) (hpos w hw)

/-- The test decides whether the pair is resolved. -/
theorem resolved_iff (hn : 0 < n) (hS : Grid n S a) (hT : Grid n T b) : resolved n a b = true ↔ Resolved S T := by
  have e1 : (!(det a).isZero) = true ↔ tetVol S ≠ 0 := by
    rw [ne_eq, ← det_zero hn hS, Bool.not_eq_true', Bool.not_eq_true]
  have e2 : (!(det b).isZero) = true ↔ tetVol T ≠ 0 := by
    rw [ne_eq, ← det_zero hn hT, Bool.not_eq_true', Bool.not_eq_true]
  unfold resolved
  rw [Bool.and_eq_true, Bool.and_eq_true, Bool.and_eq_true, Bool.and_eq_true, e1, e2]
  obtain ⟨hpos, hc⟩ := mem_candidates hn hS hT
  generalize candidates a b = L at hpos hc ⊢
  obtain ⟨Q, hQ⟩ : ∃ Q : Frac → Frac → Frac → Frac → Prop, Q = fun f g h k => FlatOk (f.pt n) (g.pt n) (h.pt n) (k.pt n) :=
    ⟨_, rfl⟩
  rw [flat_all hn L Q hQ hpos]
  constructor
  · rintro ⟨⟨⟨⟨h1, h2⟩, h3⟩, h3'⟩, h5⟩
    refine ⟨h1, h2, (clear_iff hn hS hT h2).mp h3, (clear_iff hn hT hS h1).mp h3', ?_⟩
    intro x y z w hx hy hz hw
    obtain ⟨f, hf, rfl⟩ := (hc x).mp hx
    obtain ⟨g, hg, rfl⟩ := (hc y).mp hy
    obtain ⟨h, hh, rfl⟩ := (hc z).mp hz
    obtain ⟨k, hk, rfl⟩ := (hc w).mp hw
    have := h5 f hf g hg h hh k hk
    rw [hQ] at this
    exact this
  · rintro ⟨h1, h2, h3, h3', h5⟩
    refine ⟨⟨⟨⟨h1, h2⟩, (clear_iff hn hS hT h2).mpr h3⟩, (clear_iff hn hT hS h1).mpr h3'⟩, ?_⟩
    intro f hf g hg h hh k hk
    rw [hQ]
    exact h5 _ _ _ _ ((hc _).mpr ⟨f, hf, rfl⟩) ((hc _).mpr ⟨g, hg, rfl⟩) ((hc _).mpr ⟨h, hh, rfl⟩) ((hc _).mpr ⟨k, hk, rfl⟩)

end Gold

/-! ### From the integers of the package to exact coordinates -/

theorem gold_val {n : ℕ} {t : Num3} (h0 : t.c ≠ 0) (h : t.c.natAbs ∣ n) : (t.gold n).val = n * t.val tau := by
  obtain ⟨k, hk⟩ := Int.natAbs_dvd_natAbs.mp (show t.c.natAbs ∣ (n : ℤ).natAbs from h)
  have : (n : ℤ) / t.c = k := by rw [hk, Int.mul_ediv_cancel_left _ h0]
  have hc : (t.c : ℝ) ≠ 0 := by exact_mod_cast h0
  have hn : (n : ℝ) = t.c * k := by exact_mod_cast hk
  simp only [Num3.gold, this, Gold.val, Num3.val, hn]
  push_cast
  field_simp

theorem Vec.dvd_den (v : Vec 6) (i : Fin 6) : (v i).c.natAbs ∣ Vec.den v := by
  unfold Vec.den
  fin_cases i
  · exact Nat.dvd_lcm_left _ _
  · exact (Nat.dvd_lcm_left _ _).trans (Nat.dvd_lcm_right _ _)
  · exact (Nat.dvd_lcm_left _ _).trans ((Nat.dvd_lcm_right _ _).trans (Nat.dvd_lcm_right _ _))
  · exact (Nat.dvd_lcm_left _ _).trans ((Nat.dvd_lcm_right _ _).trans ((Nat.dvd_lcm_right _ _).trans (Nat.dvd_lcm_right _ _)))
  · exact (Nat.dvd_lcm_left _ _).trans ((Nat.dvd_lcm_right _ _).trans ((Nat.dvd_lcm_right _ _).trans
      ((Nat.dvd_lcm_right _ _).trans (Nat.dvd_lcm_right _ _))))
  · exact (Nat.dvd_lcm_right _ _).trans ((Nat.dvd_lcm_right _ _).trans ((Nat.dvd_lcm_right _ _).trans
      ((Nat.dvd_lcm_right _ _).trans (Nat.dvd_lcm_right _ _))))

theorem Vec.den_pos {v : Vec 6} (h : Vec.Ok v) : 0 < Vec.den v := by
  unfold Vec.den
  have : ∀ i, 0 < (v i).c.natAbs := fun i => Int.natAbs_pos.mpr (h i)
  exact Nat.lcm_pos (this 0) (Nat.lcm_pos (this 1) (Nat.lcm_pos (this 2) (Nat.lcm_pos (this 3) (Nat.lcm_pos (this 4) (this 5)))))

theorem Simplex.dvd_den (s : Simplex 4) (i : Fin 4) : Vec.den (s i) ∣ Simplex.den s := by
  unfold Simplex.den
  fin_cases i
  · exact Nat.dvd_lcm_left _ _
  · exact (Nat.dvd_lcm_left _ _).trans (Nat.dvd_lcm_right _ _)
  · exact (Nat.dvd_lcm_left _ _).trans ((Nat.dvd_lcm_right _ _).trans (Nat.dvd_lcm_right _ _))
  · exact (Nat.dvd_lcm_right _ _).trans ((Nat.dvd_lcm_right _ _).trans (Nat.dvd_lcm_right _ _))

theorem Simplex.den_pos {s : Simplex 4} (h : Simplex.Ok s) : 0 < Simplex.den s := by
  unfold Simplex.den
  have : ∀ i, 0 < Vec.den (s i) := fun i => Vec.den_pos (h i)
  exact Nat.lcm_pos (this 0) (Nat.lcm_pos (this 1) (Nat.lcm_pos (this 2) (this 3)))

theorem vec_gold {n : ℕ} {v : Vec 6} (h : Vec.Ok v) (hd : Vec.den v ∣ n) :
    (Vec.gold n v).val = (n : ℝ) • Package.ico.perp v := by
  have hg : ∀ i, ((v i).gold n).val = n * (v i).val tau := fun i => gold_val (h i) ((Vec.dvd_den v i).trans hd)
  have ht : (⟨0, 1⟩ : Gold).val = tau := by simp [Gold.val]
  funext j
  unfold Package.perp
  simp only [Package.perpMat, Package.theta]
  fin_cases j <;>
    simp [G3.val, Vec.gold, Gold.val_add, Gold.val_sub, Gold.val_mul, hg, ht, Vec.val, dotProduct, Fin.sum_univ_succ] <;>
    ring

theorem simplex_grid {n : ℕ} {s : Simplex 4} (hn : 0 < n) (h : Simplex.Ok s) (hd : Simplex.den s ∣ n) :
    Gold.Grid n (Package.ico.perps s) (Simplex.gold n s) := by
  have hn' : (n : ℝ) ≠ 0 := by exact_mod_cast hn.ne'
  have key : ∀ i, Package.ico.perp (s i) = (n : ℝ)⁻¹ • (Vec.gold n (s i)).val := by
    intro i
    rw [vec_gold (h i) ((Simplex.dvd_den s i).trans hd), smul_smul, inv_mul_cancel₀ hn', one_smul]
  intro i
  fin_cases i
  · exact key 0
  · exact key 1
  · exact key 2
  · exact key 3

/-- The test on the integers of two tetrahedra decides whether the pair is resolved. -/
theorem resolvedTest_iff {s t : Simplex 4} (hs : Simplex.Ok s) (ht : Simplex.Ok t) :
    resolvedTest s t = true ↔ Resolved (Package.ico.perps s) (Package.ico.perps t) := by
  have hn : 0 < Nat.lcm (Simplex.den s) (Simplex.den t) := Nat.lcm_pos (Simplex.den_pos hs) (Simplex.den_pos ht)
  exact Gold.resolved_iff hn (simplex_grid hn hs (Nat.dvd_lcm_left _ _)) (simplex_grid hn ht (Nat.dvd_lcm_right _ _))

end PyQC
